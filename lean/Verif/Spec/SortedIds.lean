import Verif.Model.UsedIds
/-
Specification of the natural order of receipt IDs.
-/
namespace RKSV

/-- One of the ten ASCII digits. -/
def Digit (c : Char) : Prop := '0' ≤ c ∧ c ≤ '9'

/-- The ID cut into texts and maximal runs of digits, in turn; it starts and ends with a text, which
may be empty. -/
inductive Cut : Str → List Str → Prop
  | text (t : Str) (ht : ∀ c ∈ t, ¬Digit c) : Cut t [t]
  | run (t d r : Str) (l : List Str) (ht : ∀ c ∈ t, ¬Digit c) (hn : d ≠ []) (hd : ∀ c ∈ d, Digit c)
      (hmax : ∀ c, r.head? = some c → ¬Digit c) (h : Cut r l) : Cut (t ++ d ++ r) (t :: d :: l)

/-- Numbers are compared as numbers, texts as texts; they are never mixed. -/
inductive PartLt : KeyPart → KeyPart → Prop
  | num (m n : Int) (h : m < n) : PartLt (.num m) (.num n)
  | txt (s t : Str) (h : s < t) : PartLt (.txt s) (.txt t)

/-- The first difference decides; a proper beginning comes first. -/
inductive KeyLt : List KeyPart → List KeyPart → Prop
  | short (p : List KeyPart) (x : KeyPart) (r : List KeyPart) : KeyLt p (p ++ x :: r)
  | diff (p : List KeyPart) (x y : KeyPart) (r r' : List KeyPart) (h : PartLt x y) :
      KeyLt (p ++ x :: r) (p ++ y :: r')

section
variable [PyEnv]

/-- What a piece of an ID is compared by: its value if it is a number, else the text in lower case. -/
inductive PartOf : Str → KeyPart → Prop
  | num (t : Str) (n : Int) (hd : isDigitStr t = true) (h : pyInt 10 t = some n) : PartOf t (.num n)
  | txt (t : Str) (hd : isDigitStr t = false) : PartOf t (.txt (PyEnv.lower t))

/-- `id` comes before `id'` in natural order. -/
def NaturallyBefore (id id' : Str) : Prop :=
  ∃ l l' k k', Cut id l ∧ Cut id' l' ∧ List.Forall₂ PartOf l k ∧ List.Forall₂ PartOf l' k' ∧
    KeyLt k k'

end

end RKSV
