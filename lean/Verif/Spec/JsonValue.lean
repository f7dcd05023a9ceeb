import Verif.Spec.JsonText
import Verif.Model.Json
import Verif.Py.DateTime
/-
Which values JSON texts stand for (RFC 8259).
-/
namespace RKSV

/-- A hexadecimal digit and its value. -/
def HexChar (c : Char) (n : Nat) : Prop := (c!"0123456789abcdef")[n]? = some c ∨ (c!"0123456789ABCDEF")[n]? = some c

/-- Four hexadecimal digits and their value. -/
def Hex4 (t : Str) (n : Nat) : Prop :=
  ∃ a b c d i j k l, t = [a, b, c, d] ∧ HexChar a i ∧ HexChar b j ∧ HexChar c k ∧ HexChar d l ∧
    n = ((i * 16 + j) * 16 + k) * 16 + l

/-- How a character can be written in a string (RFC 8259, section 7). -/
inductive CharText : Str → Char → Prop
  | plain {c : Char} : c ≠ '"' → c ≠ '\\' → 32 ≤ c.toNat → CharText [c] c
  | quote : CharText c!"\\\"" '"'
  | backslash : CharText c!"\\\\" '\\'
  | slash : CharText c!"\\/" '/'
  | backspace {c : Char} : c.toNat = 8 → CharText c!"\\b" c
  | formFeed {c : Char} : c.toNat = 12 → CharText c!"\\f" c
  | lineFeed {c : Char} : c.toNat = 10 → CharText c!"\\n" c
  | carriageReturn {c : Char} : c.toNat = 13 → CharText c!"\\r" c
  | tab {c : Char} : c.toNat = 9 → CharText c!"\\t" c
  | unicode {t : Str} {c : Char} : Hex4 t c.toNat → CharText ('\\' :: 'u' :: t) c
  | pair {t u : Str} {c : Char} {hi lo : Nat} : Hex4 t (0xd800 + hi) → Hex4 u (0xdc00 + lo) → hi < 1024 → lo < 1024 →
      c.toNat = 0x10000 + hi * 1024 + lo → CharText ('\\' :: 'u' :: t ++ '\\' :: 'u' :: u) c

/-- The text between quotation marks and the string it stands for. -/
inductive StrText : Str → Str → Prop
  | nil : StrText [] []
  | cons {t ts : Str} {c : Char} {s : Str} : CharText t c → StrText ts s → StrText (t ++ ts) (c :: s)

/-- A decimal number without leading zeros. -/
inductive DecText : Str → Nat → Prop
  | digit {d : Nat} : d < 10 → DecText [dig d] d
  | more {t : Str} {n d : Nat} : DecText t n → 0 < n → d < 10 → DecText (t ++ [dig d]) (10 * n + d)

/-- A string with white space around it. -/
def KeyText (t k : Str) : Prop := ∃ a b w, JBlank a ∧ StrText b k ∧ JBlank w ∧ t = a ++ '"' :: b ++ '"' :: w

section
variable (FloatText : Str → F64 → Prop)

mutual
/-- A text and the value it stands for; `FloatText` says so for numbers with fraction or exponent. -/
inductive ValueText : Str → Json → Prop
  | null : ValueText c!"null" .null
  | true : ValueText c!"true" (.bool Bool.true)
  | false : ValueText c!"false" (.bool Bool.false)
  | nat {t : Str} {n : Nat} : DecText t n → ValueText t (.int n)
  | neg {t : Str} {n : Nat} : DecText t n → ValueText ('-' :: t) (.int (-n))
  | float {t : Str} {x : F64} : FloatText t x → ValueText t (.float x)
  | str {t s : Str} : StrText t s → ValueText ('"' :: t ++ ['"']) (.str s)
  | emptyArr {w : Str} : JBlank w → ValueText ('[' :: w ++ [']']) (.arr [])
  | arr {t : Str} {l : List Json} : ItemsText t l → ValueText ('[' :: t ++ [']']) (.arr l)
  | emptyObj {w : Str} : JBlank w → ValueText ('{' :: w ++ ['}']) (.obj [])
  | obj {t : Str} {d : List (Str × Json)} : MembersText t d → ValueText ('{' :: t ++ ['}']) (.obj d)
/-- With white space around it: a JSON file. -/
inductive FileText : Str → Json → Prop
  | mk {a t b : Str} {j : Json} : JBlank a → ValueText t j → JBlank b → FileText (a ++ t ++ b) j
/-- The elements of an array. -/
inductive ItemsText : Str → List Json → Prop
  | one {t : Str} {j : Json} : FileText t j → ItemsText t [j]
  | more {t u : Str} {j : Json} {l : List Json} : FileText t j → ItemsText u l → ItemsText (t ++ ',' :: u) (j :: l)
/-- The members of an object. -/
inductive MembersText : Str → List (Str × Json) → Prop
  | one {kt k t : Str} {j : Json} : KeyText kt k → FileText t j → MembersText (kt ++ ':' :: t) [(k, j)]
  | more {kt k t u : Str} {j : Json} {d : List (Str × Json)} : KeyText kt k → FileText t j → MembersText u d →
      MembersText (kt ++ ':' :: t ++ ',' :: u) ((k, j) :: d)
end
end

end RKSV
