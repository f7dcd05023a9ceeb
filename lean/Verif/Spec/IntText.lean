import Mathlib.Data.Nat.Digits.Defs
import Verif.Py.Env
/-
Specification: the texts of integers in base 10 and 16, as the Python reference describes them.
-/
namespace RKSV

section
variable [PyEnv]

/-- A character that may surround a number. -/
def IntBlank (c : Char) : Prop :=
  c.toNat ∈ [9, 10, 11, 12, 13, 32] ∨ 128 ≤ c.toNat ∧ isSpace c = true

/-- A digit and its value: a decimal digit of any script, or in base 16 one of the letters. -/
inductive DigitChar (base : Nat) : Char → Nat → Prop
  | dec (c : Char) (d : Nat) (h : digitVal c = some d) : DigitChar base c d
  | lower (c : Char) (i : Nat) (hb : base = 16) (h : (c!"abcdef")[i]? = some c) : DigitChar base c (10 + i)
  | upper (c : Char) (i : Nat) (hb : base = 16) (h : (c!"ABCDEF")[i]? = some c) : DigitChar base c (10 + i)

/-- At least one digit, with at most one underscore between two of them. -/
inductive DigitText (base : Nat) : Str → List Nat → Prop
  | one (c : Char) (d : Nat) (h : DigitChar base c d) : DigitText base [c] [d]
  | cons (c : Char) (d : Nat) (t : Str) (ds : List Nat) (h : DigitChar base c d) (ht : DigitText base t ds) :
      DigitText base (c :: t) (d :: ds)
  | under (c : Char) (d : Nat) (t : Str) (ds : List Nat) (h : DigitChar base c d) (ht : DigitText base t ds) :
      DigitText base (c :: '_' :: t) (d :: ds)

/-- A number without sign; in base 16 it may have a prefix. -/
inductive UnsignedText (base : Nat) : Str → Nat → Prop
  | plain (t : Str) (ds : List Nat) (h : DigitText base t ds) : UnsignedText base t (Nat.ofDigits base ds.reverse)
  | hex (z x : Char) (t : Str) (ds : List Nat) (hb : base = 16) (hz : digitVal z = some 0) (hx : x = 'x' ∨ x = 'X')
      (h : DigitText base t ds) : UnsignedText base (z :: x :: t) (Nat.ofDigits base ds.reverse)
  | hexUnder (z x : Char) (t : Str) (ds : List Nat) (hb : base = 16) (hz : digitVal z = some 0)
      (hx : x = 'x' ∨ x = 'X') (h : DigitText base t ds) :
      UnsignedText base (z :: x :: '_' :: t) (Nat.ofDigits base ds.reverse)

/-- A number with or without sign. -/
inductive SignedText (base : Nat) : Str → Int → Prop
  | plain (t : Str) (n : Nat) (h : UnsignedText base t n) : SignedText base t n
  | plus (t : Str) (n : Nat) (h : UnsignedText base t n) : SignedText base ('+' :: t) n
  | minus (t : Str) (n : Nat) (h : UnsignedText base t n) : SignedText base ('-' :: t) (-(n : Int))

/-- A text that is an integer: a number between blanks, as many of them as possible. -/
def IntText (base : Nat) (s : Str) (n : Int) : Prop :=
  ∃ pre t post, s = pre ++ t ++ post ∧ (∀ c ∈ pre, IntBlank c) ∧ (∀ c ∈ post, IntBlank c) ∧
    (∀ c, t.head? = some c → ¬IntBlank c) ∧ (∀ c, t.getLast? = some c → ¬IntBlank c) ∧ SignedText base t n

end

end RKSV
