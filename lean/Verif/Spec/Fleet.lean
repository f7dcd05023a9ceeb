import Verif.Spec.EndToEnd
/-
Specification vocabulary for registers of a cluster that work side by side.
-/
namespace RKSV

section
variable [PyEnv]

/-- The register is one of a cluster; `prev` is the start receipt of the register before. -/
structure Life.Member (ks : KeyStore) (key : Option Bytes) (prev : Option Receipt) (l : Life) : Prop where
  /-- it is new, and chained to the start receipt of the previous register -/
  alone : prev = none → l.reg.last = none ∨ l.reg.last = some []
  cluster : ∀ y, prev = some y → l.reg.last = some (y.toJWS c!"R1") ∧ y.registerId = l.reg.registerId ∧
    y.zda = c!"AT0" ∧ ∀ o, l.orders.head? = some o → o.sys.zda = c!"AT0" ∧ ¬Earlier o.dateTime y.dateTime
  counter : l.reg.counter = 0
  size : 5 ≤ l.reg.size ∧ l.reg.size ≤ 16
  /-- its owner obeyed the rules -/
  rules : RuleAbiding (.unique ∅) l.orders
  run : l.reg.run l.orders = (l.reg', some l.receipts)
  /-- the verifier has the keys -/
  key : ∀ k, key = some k → k = l.reg.key ∧ k.length = 32
  signed : ∀ q ∈ l.first :: l.parts, ∀ g ∈ q.groups, g.recs ≠ [] → GroupSigned ks l.orders l.receipts g
  /-- its receipts were exported in order -/
  parts : ∀ q ∈ l.first :: l.parts, q.Good
  receipts : receiptsOf (l.first :: l.parts) = l.receipts.map fun r => (r, c!"R1")

/-- The start receipt of the register before the one with number `i`. -/
def startBefore (lives : List Life) (i : Nat) : Option Receipt :=
  if i = 0 then none else (lives[i - 1]?).bind (·.receipts.head?)

/-- The runs of verify.py, each with the number of the register, select the registers properly when `n` of them
are known: either the next new one, or one of those already known. -/
inductive Scheduled : Nat → List (Nat × Part) → Prop
  | nil (n : Nat) : Scheduled n []
  | fresh (n : Nat) (p : Part) (l : List (Nat × Part)) (hs : p.sel = .fresh) (h : Scheduled (n + 1) l) :
      Scheduled n ((n, p) :: l)
  | known (n i : Nat) (p : Part) (l : List (Nat × Part)) (hi : i < n)
      (hs : p.sel = .nth i ∨ p.sel = .last ∧ n = i + 1) (h : Scheduled n l) : Scheduled n ((i, p) :: l)

/-- The DEPs of the register with number `i`. -/
def partsOf (sched : List (Nat × Part)) (i : Nat) : List Part := (sched.filter fun x => x.1 = i).map (·.2)

/-- The receipt IDs in the order they are verified in. -/
def scheduledIds (sched : List (Nat × Part)) : List Str :=
  sched.flatMap fun x => (receiptsOf [x.2]).map (·.1.receiptId)

end

end RKSV
