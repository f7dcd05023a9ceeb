import Verif.Model.LineTools
import Verif.Py.Dec
/-
librksv/depexport.py: the text written by `JSONExporter`, piece by piece, while the receipts are being read.
-/
namespace RKSV

/-! ### The encoder of Python's json module, with `indent=2` (librksv/depexport.py:231-232) -/

/-- `'{0:04x}'.format(n)` for `n` below 65536. -/
def hex4 (n : Nat) : Str :=
  [hexDigit (n / 4096 % 16), hexDigit (n / 256 % 16), hexDigit (n / 16 % 16), hexDigit (n % 16)]

/-- How a character is written in a string. -/
def escapeChar (c : Char) : Str :=
  if c = '\\' then c!"\\\\"
  else if c = '"' then c!"\\\""
  else if c.toNat = 8 then c!"\\b"
  else if c.toNat = 12 then c!"\\f"
  else if c = '\n' then c!"\\n"
  else if c = '\r' then c!"\\r"
  else if c = '\t' then c!"\\t"
  else if 32 ≤ c.toNat ∧ c.toNat ≤ 126 then [c]
  else if c.toNat < 65536 then '\\' :: 'u' :: hex4 c.toNat
  else
    let n := c.toNat - 65536
    '\\' :: 'u' :: hex4 (0xd800 + n / 1024 % 1024) ++ '\\' :: 'u' :: hex4 (0xdc00 + n % 1024)

/-- A string. -/
def jsonStr (s : Str) : Str := '"' :: s.flatMap escapeChar ++ ['"']

/-- The start of a line. -/
def newline (level : Nat) : Str := '\n' :: List.replicate (2 * level) ' '

mutual
/-- A value as a text.  `ft` writes numbers with fraction or exponent.  The separators are those of Python 3 (Python 2
writes a space after each comma). -/
def jsonText (ft : F64 → Str) (level : Nat) : Json → Str
  | .null => c!"null"
  | .bool b => if b then c!"true" else c!"false"
  | .int n => if n < 0 then '-' :: natDec n.natAbs else natDec n.natAbs
  | .float x => ft x
  | .str s => jsonStr s
  | .arr [] => c!"[]"
  | .arr (j :: l) =>
    '[' :: newline (level + 1) ++ jsonText ft (level + 1) j ++ itemsText ft (level + 1) l ++ newline level ++ [']']
  | .obj [] => c!"{}"
  | .obj ((k, j) :: d) =>
    '{' :: newline (level + 1) ++ jsonStr k ++ c!": " ++ jsonText ft (level + 1) j ++ membersText ft (level + 1) d ++
      newline level ++ ['}']
/-- The elements of an array after the first. -/
def itemsText (ft : F64 → Str) (level : Nat) : List Json → Str
  | [] => []
  | j :: l => ',' :: newline level ++ jsonText ft level j ++ itemsText ft level l
/-- The members of an object after the first. -/
def membersText (ft : F64 → Str) (level : Nat) : List (Str × Json) → Str
  | [] => []
  | (k, j) :: d => ',' :: newline level ++ jsonStr k ++ c!": " ++ jsonText ft level j ++ membersText ft level d
end

/-! ### Printing while reading -/

/-- What was printed, and the exception that ended the program, if any. -/
abbrev Printed := Str × Option Err

/-- Printing goes on unless there was an exception. -/
def Printed.andThen (p q : Printed) : Printed :=
  match p.2 with
  | some e => (p.1, some e)
  | none => (p.1 ++ q.1, q.2)

/-- A group that is being read: the texts of the certificates, and for each receipt its text or the exception that is
raised when it is asked for (librksv/depexport.py:206-212). -/
structure OutGroup where
  cert : Str
  chain : List Str
  recs : List (Res Str)

/-- The receipts after the first: each is asked for before anything is printed for it. -/
def printRecs (level : Nat) : List (Res Str) → Printed
  | [] => ([], none)
  | .error e :: _ => ([], some e)
  | .ok r :: rs => Printed.andThen (',' :: newline level ++ jsonStr r, none) (printRecs level rs)

/-- The list of receipts.  The first one was read before by `FakeListIterator` (librksv/depexport.py:164-177); here it is
no exception. -/
def printRecList (level : Nat) : List (Res Str) → Printed
  | [] => (c!"[]", none)
  | .error e :: _ => ([], some e)
  | .ok r :: rs =>
    Printed.andThen ('[' :: newline (level + 1) ++ jsonStr r, none)
      (Printed.andThen (printRecs (level + 1) rs) (newline level ++ [']'], none))

/-- A group (librksv/depexport.py:206-212), after the first receipt was read. -/
def printGroup (level : Nat) (g : OutGroup) : Printed :=
  Printed.andThen
    ('{' :: newline (level + 1) ++ jsonStr kCert ++ c!": " ++ jsonStr g.cert ++ ',' :: newline (level + 1) ++
      jsonStr kCerts ++ c!": " ++ jsonText (fun _ => []) (level + 1) (.arr (g.chain.map .str)) ++
      ',' :: newline (level + 1) ++ jsonStr kRecs ++ c!": ", none)
    (Printed.andThen (printRecList (level + 1) g.recs) (newline level ++ ['}'], none))

/-- The exception raised when a group is asked for: `FakeListIterator` reads its first receipt. -/
def OutGroup.firstErr (g : OutGroup) : Option Err :=
  match g.recs with
  | .error e :: _ => some e
  | _ => none

/-- The groups after the first; `err` is raised when a group after the last one is asked for. -/
def printGroups (level : Nat) (err : Option Err) : List OutGroup → Printed
  | [] => ([], err)
  | g :: gs =>
    match g.firstErr with
    | some e => ([], some e)
    | none => Printed.andThen (',' :: newline level, none) (Printed.andThen (printGroup level g) (printGroups level err gs))

/-- What `JSONExporter.export` (librksv/depexport.py:205-238) yields, joined, until the end or an exception.  The first
group, and its first receipt, are read before anything is yielded. -/
def exportParts (err : Option Err) (gs : List OutGroup) : Printed :=
  match gs with
  | [] =>
    match err with
    | some e => ([], some e)
    | none => ('{' :: newline 1 ++ jsonStr kGroups ++ c!": []" ++ newline 0 ++ c!"}", none)
  | g :: gs =>
    match g.firstErr with
    | some e => ([], some e)
    | none =>
      Printed.andThen ('{' :: newline 1 ++ jsonStr kGroups ++ c!": [" ++ newline 2, none)
        (Printed.andThen (printGroup 2 g)
          (Printed.andThen (printGroups 2 err gs) (newline 1 ++ c!"]" ++ newline 0 ++ c!"}", none)))

/-- `for s in exporter.export(): print(s, end='')` and `print()` (convert.py:57-59, demo.py:114-116, merge.py:71-73). -/
def printDEP (err : Option Err) (gs : List OutGroup) : Printed :=
  Printed.andThen (exportParts err gs) (c!"\n", none)

section
variable [PyEnv]

/-- `convert.py csv2json` (convert.py:50-53, 57-59): what is printed for this text on standard input.  `none` is
`StopIteration`, raised for an empty input. -/
def csv2jsonPrinted (text : Str) : Option Printed :=
  match fileLines text with
  | [] => none
  | _ :: lines =>
    some (printDEP none [⟨[], [], lines.map fun l => (fromCSV (pyStrip l)).map fun r => r.1.toJWS r.2⟩])

/-- A group whose receipts were all read, as `mkdict` sees it (librksv/depexport.py:206-211). -/
def SGroup.toOut (g : SGroup (Receipt × Str)) : OutGroup :=
  ⟨match g.cert with | none => [] | some c => exportCertToPEM c, g.chain.map exportCertToPEM,
    g.recs.map fun r => .ok (r.1.toJWS r.2)⟩

/-- `receiptGroupAdapter` (librksv/depparser.py:704-712): the groups it yields, and the exception it ends with.  The
receipts of a group are all read before it is yielded. -/
def adaptPrefix : List DepGroup → List (SGroup (Receipt × Str)) × Option Err
  | [] => ([], none)
  | g :: gs =>
    match adaptGroup g with
    | .error e => ([], some e)
    | .ok s => (s :: (adaptPrefix gs).1, (adaptPrefix gs).2)

/-- split.py (split.py:50-62): the contents of the files `dep-export0.json`, `dep-export1.json`, ..., and the exception
that ended the program, if any. -/
def splitWritten : List Chunk → Option Err → List Str × Option Err
  | [], err => ([], err)
  | c :: cs, err =>
    match exportParts (adaptPrefix c).2 ((adaptPrefix c).1.map SGroup.toOut) with
    | (t, some e) => ([t], some e)
    | (t, none) => (t :: (splitWritten cs err).1, (splitWritten cs err).2)

/-- The groups of several files one after the other (merge.py:55-68), and the exception met. -/
def mergePrefix (csz : Nat) : List Json → List (SGroup (Receipt × Str)) × Option Err
  | [] => ([], none)
  | doc :: docs =>
    match adaptPrefix (fileParse doc csz).chunks.flatten with
    | (gs, some e) => (gs, some e)
    | (gs, none) =>
      match (fileParse doc csz).err with
      | some e => (gs, some e)
      | none => (gs ++ (mergePrefix csz docs).1, (mergePrefix csz docs).2)

/-- `merge.py` (merge.py:38-78): what is printed.  With `nomerge` an exception is met when the next group is asked for.
A merging stream asks for the next group when the receipts of the current one are used up
(librksv/depexport.py:100-102), so that the exception takes the place of the receipt after the last one. -/
def mergePrinted (merging : Bool) (csz : Nat) (docs : List Json) : Printed :=
  let r := mergePrefix csz docs
  if merging then
    match r.2, ((mergeExport r.1).map SGroup.toOut).getLast? with
    | some e, some g =>
      printDEP none (((mergeExport r.1).map SGroup.toOut).dropLast ++ [{ g with recs := g.recs ++ [.error e] }])
    | err, _ => printDEP err ((mergeExport r.1).map SGroup.toOut)
  else printDEP r.2 (r.1.map SGroup.toOut)

end

end RKSV
