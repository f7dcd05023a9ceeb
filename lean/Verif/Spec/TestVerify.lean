import Verif.Model.TestVerify
import Verif.Spec.TestLinks
/-
Specification vocabulary for the test driver.
-/
namespace RKSV

section
variable [PyEnv]

/-- Wherever a DEP ends, the turnover given with its last instruction (unless it is zero) is, in cents, what the orders of
its register have added to the counter so far. -/
def TurnoversRight (instrs : List Instr) (os : List Order) : Prop :=
  ∀ pre i post, instrs = pre ++ i :: post → (∀ j, post.head? = some j → j.newDep ≠ c!"NO_NEW_DEP") →
    ∀ x, i.turnover = some x → x ≠ .fin 0 →
    ∀ r, (registers (pre ++ [i])).getLast? = some r →
    ∀ ns, List.Forall₂ Order.Adds (ordersFor (pre ++ [i]) os r) ns → x.mul100.intRound = .ok ns.sum

/-- DEPs, each with the index of its register, are accepted one after the other. -/
inductive VerifiedInTurn (ks : KeyStore) (key : Option Bytes) : Cluster → List (Nat × Json) → Cluster → Prop
  | nil (c : Cluster) : VerifiedInTurn ks key c [] c
  | cons (c c₁ c' : Cluster) (i : Nat) (dep : Json) (l : List (Nat × Json))
      (h : verifyDEP ks key c (some (i : Int)) (dictParse 1 dep 0) = (c₁, .ok ())) (t : VerifiedInTurn ks key c₁ l c') :
      VerifiedInTurn ks key c ((i, dep) :: l) c'

/-- A number of euros in a DEP is so many cents; `true` is a one to Python. -/
inductive Euros : Json → Int → Prop
  | whole (n : Int) : Euros (.int n) (100 * n)
  | float (x : F64) (n : Int) (h : x.mul100.intRound = .ok n) : Euros (.float x) n
  | true : Euros (.bool true) 100

/-- What does not count as a turnover: zero and whatever is empty. -/
inductive NoTurnover : Json → Prop
  | null : NoTurnover .null
  | false : NoTurnover (.bool false)
  | zero : NoTurnover (.int 0)
  | float : NoTurnover (.float (.fin 0))
  | text : NoTurnover (.str [])
  | list : NoTurnover (.arr [])
  | dict : NoTurnover (.obj [])

/-- The turnover the DEP gives, if it does, is the counter of the register. -/
def TurnoverFits (c : Cluster) (i : Nat) (dep : Json) : Prop :=
  ∀ d x, dep = .obj d → Dict.get? d c!"Umsatz-gesamt" = some x → ¬NoTurnover x →
    ∃ s, c.regs[i]? = some s ∧ Euros x s.counter

/-- The exceptions that are not about a DEP or a receipt: those about keys, key containers and saved states, and those of
Python itself. -/
def otherExceptions : List Err :=
  [.invalidKey, .malformedKeyStore, .malformedCertificate, .malformedPublicKey,
   .invalidCashRegisterIndex, .noStartReceiptForLastCashRegister, .malformedState,
   .overflowError, .valueError, .typeError, .indexError, .attributeError, .keyError, .unicodeError, .plainException]

/-- The outcome of a test that ends with an exception, for those `expected`. -/
def verdict (expected : Option (Err → Bool)) (e : Err) : Outcome :=
  if e ∈ otherExceptions then .error
  else match expected with
    | none => .fail
    | some p => if p e then .ok else .fail

end

end RKSV
