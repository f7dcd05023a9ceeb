import Verif.Model.RunTest
import Verif.Spec.EndToEnd
/-
Specification vocabulary for `runTest`.
-/
namespace RKSV

/-- The register each instruction is for, if `n` registers are known and `c` is the one used last: a new DEP for the cluster
starts a new register, another new DEP may go on with a register given by its number. -/
def registersOf : Nat → Nat → List Instr → List Nat
  | _, _, [] => []
  | n, c, i :: l =>
    if i.newDep = c!"NO_NEW_DEP" then c :: registersOf n c l
    else if i.newDep = c!"NEW_CLUSTER_DEP" then n :: registersOf (n + 1) n l
    else i.contReg.getD c :: registersOf n (i.contReg.getD c) l

/-- How verify.py has to be called for the DEPs after the first one. -/
def selectsOf : Nat → Nat → List Instr → List Select
  | _, _, [] => []
  | n, c, i :: l =>
    if i.newDep = c!"NO_NEW_DEP" then selectsOf n c l
    else if i.newDep = c!"NEW_CLUSTER_DEP" then .fresh :: selectsOf (n + 1) n l
    else .nth (i.contReg.getD c) :: selectsOf n (i.contReg.getD c) l

/-- The number of registers if there are `n` of them already. -/
def registerCount : Nat → List Instr → Nat
  | n, [] => n
  | n, i :: l => registerCount (if i.newDep = c!"NEW_CLUSTER_DEP" then n + 1 else n) l

/-- The registers for all instructions: the first one is for the first register. -/
def registers : List Instr → List Nat
  | [] => []
  | _ :: l => 0 :: registersOf 1 0 l

/-- The calls of verify.py. -/
def selects : List Instr → List Select
  | [] => []
  | _ :: l => .fresh :: selectsOf 1 0 l

section
variable [PyEnv]

/-- The runs of verify.py for the DEPs, the one with number `k` in the mode `modes k`. -/
def testJobs (modes : Nat → Mode) (store : Json) : Nat → List Select → List Json → List (Mode × Job)
  | k, sel :: sels, dep :: deps => (modes k, ⟨sel, store, dep⟩) :: testJobs modes store (k + 1) sels deps
  | _, _, _ => []

/-- The key ID of a device in a closed system. -/
def deviceId (spec : TestSpec) (d : Nat) : Str := spec.companyId ++ c!"-K" ++ natDec d

/-- The signature system an instruction asks for. -/
def DeviceFor (spec : TestSpec) (closed : Bool) (d : Nat) (k : TestKey) (damaged : Bool) (sys : SigSystem) : Prop :=
  sys.zda = (if closed then c!"AT0" else c!"AT" ++ natDec k.zda) ∧
  sys.serial = (if closed then deviceId spec d
    else if spec.decimalSerial then natDec (serial k.cert).natAbs else natHex (serial k.cert).natAbs) ∧
  if damaged then ∃ z s, sys = .broken z s else ∃ z s, sys = .working z s k.priv

/-- The order an instruction means. -/
structure Instr.Asks (spec : TestSpec) (closed : Bool) (keys : List TestKey) (i : Instr) (o : Order) : Prop where
  algorithm : o.algorithm = c!"R1"
  receiptId : o.receiptId = i.receiptId
  date : strptime i.date = some o.dateTime
  sumA : o.sumA = i.sumA
  sumB : o.sumB = i.sumB
  sumC : o.sumC = i.sumC
  sumD : o.sumD = i.sumD
  sumE : o.sumE = i.sumE
  dummy : o.dummy = true ↔ i.kind = some c!"TRAINING_BELEG"
  reversal : o.reversal = true ↔ i.kind = some c!"STORNO_BELEG"
  rand : o.rand = i.rand
  device : ∃ k, keys[i.device]? = some k ∧ DeviceFor spec closed i.device k i.damaged o.sys

/-- The orders for the register with number `i`. -/
def ordersFor (instrs : List Instr) (os : List Order) (i : Nat) : List Order :=
  (((registers instrs).zip os).filter fun x => x.1 = i).map (·.2)

/-- The keys of the devices are usable: no failures are asked for. -/
structure KeysFit (spec : TestSpec) (closed : Bool) (keys : List TestKey) : Prop where
  /-- the private keys belong to the certificates -/
  own : ∀ k ∈ keys, publicKey k.cert = pubOf k.priv
  /-- nothing is left out or falsified -/
  plain : ∀ k ∈ keys, k.fakeRoot = none ∧ k.omitSign = false ∧ k.omitRoot = false
  zda : ∀ k ∈ keys, 1 ≤ k.zda ∧ k.zda ≤ 999
  /-- certificates have different serial numbers -/
  serials : ∀ k ∈ keys, ∀ k' ∈ keys, ∀ c ∈ k.cert :: k.chain, ∀ c' ∈ k'.cert :: k'.chain,
    (serial c).natAbs = (serial c').natAbs → c = c'
  /-- in a DEP with certificates, each one is signed with the next one -/
  chain : spec.groups = true → ∀ k ∈ keys, (k.cert :: k.chain).IsChain fun a b => certSignedBy a b = true
  content : spec.groups = true → ∀ k ∈ keys, certDER k.cert ≠ []
  /-- otherwise, in an open system, the certificates themselves are in the key store -/
  direct : closed = false → spec.groups = false → ∀ k ∈ keys, k.chain = []
  /-- decimal serial numbers do not look like hexadecimal ones of other certificates -/
  decimal : closed = false → spec.groups = false → spec.decimalSerial = true → ∀ k ∈ keys, ∀ k' ∈ keys,
    natDec (serial k.cert).natAbs = natHex (serial k'.cert).natAbs → k.cert = k'.cert

/-- The test follows the rules. -/
structure TestAbides (backend : Used) (spec : TestSpec) (closed : Bool) (keys : List TestKey) (os : List Order) :
    Prop where
  nonempty : spec.instrs ≠ []
  orders : List.Forall₂ (Instr.Asks spec closed keys) spec.instrs os
  /-- each register is used according to the rules -/
  rules : ∀ i, RuleAbiding (.unique ∅) (ordersFor spec.instrs os i)
  /-- only closed systems have several registers, and they are started one after the other -/
  cluster : ∀ i a b, (ordersFor spec.instrs os i).head? = some a → (ordersFor spec.instrs os (i + 1)).head? = some b →
    closed = true ∧ ¬Earlier b.dateTime a.dateTime
  /-- all receipt IDs are different (or increasing) -/
  ids : FreshIds backend.fresh (spec.instrs.map (·.receiptId))

end

end RKSV
