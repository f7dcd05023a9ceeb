import Verif.Py.Float
/-
Exceptions as values.  The messages and payloads of the exceptions are dropped, only their class is
kept.
-/
namespace RKSV

inductive Err where
  -- librksv/receipt.py:62-111
  | malformedReceipt
  | unknownAlgorithm
  | algorithmMismatch
  | certSerialInvalid
  | invalidCertificateProvider
  -- librksv/utils.py:64-70
  | invalidKey
  -- librksv/verify_receipt.py:34-100
  | certSerialMismatch
  | noPublicKey
  | invalidSignature
  | signatureSystemFailed
  | invalidURLHash
  | unsignedNullReceipt
  -- librksv/verify.py:42-236
  | clusterInOpenSystem
  | chaining
  | noRestoreReceipt
  | invalidTurnoverCounter
  | changingRegisterId
  | decreasingDate
  | changingSystemType
  | noCertificateGiven
  | untrustedCertificate
  | certificateChainBroken
  | certificateSerialCollision
  | signatureSystemFailedOnInitial
  | nonzeroTurnoverOnInitial
  | invalidChainingOnInitial
  | invalidChainingOnClusterInitial
  | nonstandardTypeOnInitial
  -- librksv/verification_state.py:38-121
  | invalidCashRegisterIndex
  | noStartReceiptForLastCashRegister
  | malformedState
  | duplicateReceiptId
  -- librksv/key_store.py:35-109
  | malformedKeyStore
  | malformedCertificate
  | malformedPublicKey
  -- librksv/depparser.py:37-115
  | malformedDEP
  | malformedDEPCertificate
  -- exceptions of Python itself
  | overflowError
  | valueError
  | typeError
  | indexError
  | attributeError
  | keyError
  | unicodeError
  -- `raise Exception(...)`
  | plainException
deriving DecidableEq, Repr

abbrev Res (α : Type) := Except Err α

/-- `if not p: raise e`. -/
def ensure (p : Prop) [Decidable p] (e : Err) : Res Unit := if p then .ok () else .error e

/-- Turn a missing value into an exception. -/
def orErr {α : Type} (o : Option α) (e : Err) : Res α :=
  match o with
  | some a => .ok a
  | none => .error e

@[simp] theorem Res.bind_eq_ok {α β : Type} {x : Res α} {f : α → Res β} {b : β} :
    (x >>= f) = .ok b ↔ ∃ a, x = .ok a ∧ f a = .ok b := by
  cases x <;> simp [bind, Except.bind]

@[simp] theorem Res.bind_eq_error {α β : Type} {x : Res α} {f : α → Res β} {e : Err} :
    (x >>= f) = .error e ↔ x = .error e ∨ ∃ a, x = .ok a ∧ f a = .error e := by
  cases x <;> simp [bind, Except.bind]

theorem Res.ok_bind {α β : Type} {a : α} {f : α → Res β} : ((.ok a : Res α) >>= f) = f a := rfl

theorem Res.error_bind {α β : Type} {e : Err} {f : α → Res β} :
    ((.error e : Res α) >>= f) = .error e := rfl

@[simp] theorem ensure_eq_ok {p : Prop} [Decidable p] {e : Err} {u : Unit} :
    ensure p e = .ok u ↔ p := by
  unfold ensure; split <;> simp_all

@[simp] theorem ensure_eq_error {p : Prop} [Decidable p] {e e' : Err} :
    ensure p e = .error e' ↔ ¬p ∧ e = e' := by
  unfold ensure; split <;> simp_all

theorem ensure_pos {p : Prop} [Decidable p] {e : Err} (h : p) : ensure p e = .ok () := by simp [h]

theorem ensure_neg {p : Prop} [Decidable p] {e : Err} (h : ¬p) : ensure p e = .error e := by simp [h]

@[simp] theorem orErr_eq_ok {α : Type} {o : Option α} {e : Err} {a : α} :
    orErr o e = .ok a ↔ o = some a := by
  cases o <;> simp [orErr]

@[simp] theorem orErr_eq_error {α : Type} {o : Option α} {e e' : Err} :
    orErr o e = .error e' ↔ o = none ∧ e = e' := by
  cases o <;> simp [orErr]

end RKSV
