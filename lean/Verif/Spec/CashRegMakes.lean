import Verif.Spec.CashReg
/-
Specification vocabulary: which orders a register can carry out.
-/
namespace RKSV

/-- A text with three parts, of which the first is base64url of a text, and the last base64url of something. -/
def JwsShape (jws : Str) : Prop :=
  ∃ h p s, jws = h ++ '.' :: (p ++ '.' :: s) ∧ '.' ∉ h ∧ '.' ∉ p ∧ '.' ∉ s ∧
    (∃ b t, b64Decode true (restorePad h) = some b ∧ utf8Dec b = some t) ∧
    (∃ b, b64Decode true (restorePad s) = some b) ∧ s.getLast? ≠ some '='

/-- The number can be written with this many bytes. -/
def FitsBytes (size : Nat) (n : Int) : Prop := -(2 ^ (8 * size - 1)) ≤ n ∧ n < 2 ^ (8 * size - 1)

section
variable [PyEnv]

/-- A signature can be had; the service's answer may say anything, if it has the right shape. -/
def SigSystem.Answers (sys : SigSystem) : Prop :=
  ∀ zda serial algo answer, sys = .remote zda serial algo answer →
    algo = c!"ES256" ∧ ∀ jws, answer = some jws → JwsShape jws

/-- The texts that go into the receipt are of the right form. -/
structure Order.Printable (registerId : Str) (o : Order) : Prop where
  algorithm : o.algorithm = c!"R1"
  registerId : registerId ≠ [] ∧ '_' ∉ registerId
  receiptId : o.receiptId ≠ [] ∧ '_' ∉ o.receiptId
  zda : UpToNewline ZdaForm o.sys.zda
  serial : (WithSuffix CompanyId o.sys.serial ∧ o.sys.zda = c!"AT0") ∨
    (WithSuffix HexSerial o.sys.serial ∧ o.sys.zda ≠ c!"AT0")

/-- What is needed to carry out the order if the counter is `n` afterwards. -/
structure Order.Possible (reg : CashRegister) (o : Order) (n : Int) : Prop where
  printable : o.Printable reg.registerId
  answers : o.sys.Answers
  counter : o.dummy = false → o.reversal = false → reg.key.length = 32 ∧ FitsBytes reg.size n

end

end RKSV
