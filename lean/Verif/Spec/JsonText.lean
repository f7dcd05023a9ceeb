import Verif.Py.Num
/-
Which texts can be JSON texts.  The grammar is a generous one: everything RFC 8259 and Python's json module accept
is in it, and more (any run of characters without brackets, quotes, commas and colons can stand for a number).
-/
namespace RKSV

/-- White space. -/
def JBlank (s : Str) : Prop := ∀ c ∈ s, c = ' ' ∨ c = '\n' ∨ c = '\r' ∨ c = '\t'

/-- The characters that give a JSON text its structure. -/
def jsonMarks : Str := c!"\"[]{},:"

/-- What can stand between quotation marks: a backslash takes the next character with it. -/
inductive JBody : Str → Prop
  | nil : JBody []
  | plain {c : Char} {s : Str} : c ≠ '"' → c ≠ '\\' → JBody s → JBody (c :: s)
  | escaped {c : Char} {s : Str} : JBody s → JBody ('\\' :: c :: s)

/-- A string, with white space around it. -/
def JKey (s : Str) : Prop := ∃ a b w, JBlank a ∧ JBody b ∧ JBlank w ∧ s = a ++ '"' :: b ++ '"' :: w

mutual
/-- A value. -/
inductive JValue : Str → Prop
  | scalar {t : Str} : t ≠ [] → (∀ c ∈ t, c ∉ jsonMarks) → JValue t
  | str {b : Str} : JBody b → JValue ('"' :: b ++ ['"'])
  | emptyArr {w : Str} : JBlank w → JValue ('[' :: w ++ [']'])
  | arr {t : Str} : JItems t → JValue ('[' :: t ++ [']'])
  | emptyObj {w : Str} : JBlank w → JValue ('{' :: w ++ ['}'])
  | obj {t : Str} : JMembers t → JValue ('{' :: t ++ ['}'])
/-- A value with white space around it; this is what a JSON file holds. -/
inductive JsonFile : Str → Prop
  | mk {a t b : Str} : JBlank a → JValue t → JBlank b → JsonFile (a ++ t ++ b)
/-- Values, separated by commas. -/
inductive JItems : Str → Prop
  | one {t : Str} : JsonFile t → JItems t
  | more {t u : Str} : JsonFile t → JItems u → JItems (t ++ ',' :: u)
/-- Members of an object, separated by commas. -/
inductive JMembers : Str → Prop
  | one {k t : Str} : JKey k → JsonFile t → JMembers (k ++ ':' :: t)
  | more {k t u : Str} : JKey k → JsonFile t → JMembers u → JMembers (k ++ ':' :: t ++ ',' :: u)
end

end RKSV
