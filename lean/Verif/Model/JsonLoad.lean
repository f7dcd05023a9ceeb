import Verif.Model.DepParser
/-
Texts with repeated keys.  A value of type `Json` stands for a text here: the pairs of an object are those written, in
their order.
-/
namespace RKSV

mutual
/-- `readJsonStream` (librksv/utils.py:362-367): the value `json.load` makes of a text.  A dictionary is filled with the
pairs in their order, so that of pairs with the same key the last one stays, in the place of the first.  The syntax of JSON
is not modelled, nor is the BOM. -/
def readJsonStream : Json → Json
  | .null => .null
  | .bool b => .bool b
  | .int n => .int n
  | .float x => .float x
  | .str s => .str s
  | .arr l => .arr (readJsonItems l)
  | .obj d => .obj (readJsonPairs [] d)
def readJsonItems : List Json → List Json
  | [] => []
  | j :: l => readJsonStream j :: readJsonItems l
def readJsonPairs (acc : Dict Json) : List (Str × Json) → Dict Json
  | [] => acc
  | (k, v) :: d => readJsonPairs (Dict.set acc k (readJsonStream v)) d
end

section
variable [PyEnv]

/-- `FullFileDEPParser.parse` (librksv/depparser.py:693-702) for a file with the given text. -/
def fullFileParse (nparts : Nat) (text : Json) (n : Nat) : Stream := dictParse nparts (readJsonStream text) n

end

end RKSV
