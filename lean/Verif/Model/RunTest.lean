import Verif.Model.Falsify
import Verif.Model.DepExport
import Verif.Model.KeyTool
import Verif.Model.State
/-
librksv/run_test.py: DEPs and a key container according to a test specification.
-/
namespace RKSV

def kNoNew : Str := c!"NO_NEW_DEP"
def kCluster : Str := c!"NEW_CLUSTER_DEP"
def kTurnover : Str := c!"Umsatz-gesamt"
def kPrevious : Str := c!"Vorheriges-DEP"
def kContinued : Str := c!"Fortgesetztes-DEP"

/-- An element of `cashBoxInstructionList` (librksv/run_test.py:160-181, 217-225), and the randomness of the signature.
The values have the types of the reference implementation's specifications; indices are not negative, and
`annotateTurnoverCounter` is a float. -/
structure Instr where
  receiptId : Str
  date : Str
  sumA : PyFloat
  sumB : PyFloat
  sumC : PyFloat
  sumD : PyFloat
  sumE : PyFloat
  device : Nat
  damaged : Bool := false
  newDep : Str := kNoNew
  contReg : Option Nat := none
  turnover : Option F64 := none
  kind : Option Str := none
  rand : Nat := 0
  override : Falsify := {}

/-- A test specification (librksv/run_test.py:62-88).  The elements about certificate chains are in `TestKey`. -/
structure TestSpec where
  aesKey : Str
  cashBoxId : Str
  companyId : Str
  numDevices : Nat
  size : Nat := 8
  decimalSerial : Bool := false
  includePublicKey : Bool := false
  groups : Bool := false
  instrs : List Instr

section
variable [PyEnv]

/-- The key material for a signature device, after it was loaded and the intermediate certificates were made
(librksv/run_test.py:93-114): `cert` and `chain` are `certList`, which is loaded, made (X.509 is not modelled) and
extended by `chainLength` certificates, whatever keys these were signed with.  The serial number that was drawn for
the last one made is the one the certificate has.  `fakeRoot` is the certificate made for a serial collision
(librksv/run_test.py:122-125), `zda` the number drawn at librksv/run_test.py:136. -/
structure TestKey where
  cert : Cert
  chain : List Cert
  priv : PrivKey
  fakeRoot : Option Cert := none
  omitSign : Bool := false
  omitRoot : Bool := false
  zda : Nat

/-- `"%s-K%d" % (spec['companyID'], i)` (librksv/run_test.py:98, 133). -/
def TestSpec.kid (spec : TestSpec) (i : Nat) : Str := spec.companyId ++ c!"-K" ++ natDec i

/-- `serial` (librksv/run_test.py:97-98, 116-119). -/
def TestSpec.serial (spec : TestSpec) (closed : Bool) (i : Nat) (k : TestKey) : Str :=
  if closed then spec.kid i
  else if spec.decimalSerial then natDec (RKSV.serial k.cert).natAbs
  else numSerialToKeyId (RKSV.serial k.cert)

/-- `zda` (librksv/run_test.py:136). -/
def TestKey.zdaText (closed : Bool) (k : TestKey) : Str := if closed then c!"AT0" else c!"AT" ++ natDec k.zda

/-- The signature systems of a device (librksv/run_test.py:137-138, 173-177). -/
def TestSpec.system (spec : TestSpec) (closed : Bool) (i : Nat) (k : TestKey) (damaged : Bool) : SigSystem :=
  if damaged then .broken (k.zdaText closed) (spec.serial closed i k)
  else .working (k.zdaText closed) (spec.serial closed i k) k.priv

/-- `certList[-1]`. -/
def TestKey.root (k : TestKey) : Cert := k.chain.getLastD k.cert

/-- The key store entries for a device (librksv/run_test.py:121-134). -/
def TestSpec.putDevice (spec : TestSpec) (closed : Bool) (ks : KeyStore) (i : Nat) (k : TestKey) : Res KeyStore := do
  let ks ←
    if (!closed || spec.groups) && !k.omitRoot then
      ks.putPEMCert (addPEMCertHeaders (exportCertToPEM (k.fakeRoot.getD k.root)))
    else .ok ks
  .ok (if closed || spec.includePublicKey then ks.putKey (spec.kid i) (publicKey k.cert) none else ks)

/-- The loop over the devices, as far as the key store is concerned (librksv/run_test.py:93-145). -/
def TestSpec.putDevices (spec : TestSpec) (closed : Bool) : KeyStore → Nat → List TestKey → Res KeyStore
  | ks, _, [] => .ok ks
  | ks, i, k :: l => do
    let ks ← spec.putDevice closed ks i k
    TestSpec.putDevices spec closed ks (i + 1) l

/-- The variables of the main loop (librksv/run_test.py:147-159) if nothing is falsified.  `register` is an object that may be in `reg2Reg`
as well: `cur` is its position there, `fresh` the register if it is not. -/
structure TestState where
  regs : List CashRegister := []
  cur : Option Nat := none
  fresh : CashRegister
  groups : List (SGroup (Receipt × Str)) := []
  extra : Dict Json := []
  deps : List Json := []
  lastStart : Option Str := none
  prevStartDep : Nat := 0
  lastDep : List Nat := []
  curIdx : Int := -1
  recs : List (Receipt × Str) := []
  prevSig : Option Nat := none
  turnover : Option F64 := none

/-- Everything the loop does not change. -/
structure TestCtx where
  spec : TestSpec
  closed : Bool
  keys : List TestKey
  key : Bytes
  size : Nat

/-- A new register for the cluster (librksv/run_test.py:183-186). -/
def TestCtx.newRegister (c : TestCtx) (i : Instr) (s : TestState) : Res TestState :=
  if i.newDep = kCluster ∧ truthy s.lastStart = true then do
    let r ← CashRegister.make c.spec.cashBoxId s.lastStart 0 c.key c.size
    .ok { s with cur := none, fresh := r, lastStart := none }
  else .ok s

/-- `stream.append` for the receipts of a device in a DEP with certificates (librksv/run_test.py:140-141, 190-191, 243-244). -/
def TestCtx.certGroup (c : TestCtx) (s : TestState) (sig : Nat) : Res (SGroup (Receipt × Str)) := do
  let k ← orErr c.keys[sig]? .indexError
  .ok (if k.omitSign then ⟨s.recs, none, []⟩ else ⟨s.recs, some k.cert, k.chain⟩)

/-- Ending a group (librksv/run_test.py:188-196). -/
def TestCtx.endGroup (c : TestCtx) (i : Instr) (s : TestState) : Res TestState :=
  match c.spec.groups, s.prevSig with
  | true, some sig =>
    if i.newDep ≠ kNoNew ∨ sig ≠ i.device then do
      let g ← c.certGroup s sig
      .ok { s with groups := s.groups ++ [g], recs := [] }
    else .ok s
  | _, _ =>
    if i.newDep ≠ kNoNew then .ok { s with groups := s.groups ++ [⟨s.recs, none, []⟩], recs := [] }
    else .ok s

/-- `if expectedTurnover: exporter.addExtra(...)` (librksv/run_test.py:199-200, 248-249). -/
def TestState.addTurnover (s : TestState) : Dict Json :=
  match s.turnover with
  | some x => if x ≠ .fin 0 then s.extra.set kTurnover (.float x) else s.extra
  | none => s.extra

/-- `l[i] = v` for a list. -/
def pySet {α : Type} (l : List α) (i : Int) (v : α) : Res (List α) :=
  let k := if i < 0 then i + l.length else i
  if 0 ≤ k ∧ k < l.length then .ok (l.set k.toNat v) else .error .indexError

/-- Ending a DEP (librksv/run_test.py:198-215). -/
def TestCtx.endDep (_ : TestCtx) (i : Instr) (s : TestState) : Res TestState :=
  if i.newDep = kNoNew then .ok s
  else do
    let dep := exportDEP s.groups s.addTurnover
    let lastDep ← pySet s.lastDep s.curIdx s.deps.length
    let s := { s with groups := [], lastDep }
    if i.newDep = kCluster then
      .ok { s with extra := [(kPrevious, .int s.prevStartDep)], deps := s.deps ++ [dep] }
    else
      match i.contReg with
      | some k => do
        ensure (k < s.regs.length) .indexError
        let d ← orErr lastDep[k]? .indexError
        .ok { s with cur := some k, extra := [(kPrevious, .int d), (kContinued, .bool true)], curIdx := k, deps := s.deps ++ [dep] }
      | none =>
        .ok { s with extra := [(kPrevious, .int s.deps.length), (kContinued, .bool true)], deps := s.deps ++ [dep] }

/-- The call of `register.receipt` (librksv/run_test.py:161-177, 219-228). -/
def TestCtx.order (c : TestCtx) (i : Instr) : Res Order := do
  let dateTime ← orErr (strptime i.date) .valueError
  let k ← orErr c.keys[i.device]? .indexError
  .ok { receiptId := i.receiptId, dateTime, sumA := i.sumA, sumB := i.sumB, sumC := i.sumC, sumD := i.sumD,
        sumE := i.sumE, sys := c.spec.system c.closed i.device k i.damaged,
        dummy := i.kind = some c!"TRAINING_BELEG", reversal := i.kind = some c!"STORNO_BELEG", rand := i.rand }

/-- Making the receipt (librksv/run_test.py:217, 227-240).  The test at librksv/run_test.py:233 is whether the register
is in `reg2Reg`: `lastStartJWS` is `None` at the beginning and after a new register was made, and gets a text that is not
empty as soon as the register has a receipt and is put into `reg2Reg`. -/
def TestCtx.addReceipt (_ : TestCtx) (i : Instr) (o : Order) (s : TestState) : Res TestState :=
  let s := { s with turnover := i.turnover, prevSig := some i.device }
  match s.cur with
  | some k =>
    match s.regs[k]? with
    | none => .error .indexError
    | some reg =>
      match reg.receipt o with
      | (_, .error e) => .error e
      | (reg', .ok r) => .ok { s with regs := s.regs.set k reg', recs := s.recs ++ [(r, R1)] }
  | none =>
    match s.fresh.receipt o with
    | (_, .error e) => .error e
    | (reg', .ok r) =>
      .ok { s with
        recs := s.recs ++ [(r, R1)], lastStart := some (r.toJWS R1), lastDep := s.lastDep ++ [s.deps.length]
        regs := s.regs ++ [reg'], cur := some s.regs.length, curIdx := s.curIdx + 1, prevStartDep := s.deps.length }

/-- The body of the main loop (librksv/run_test.py:160-240).  The date and the device are looked up first. -/
def TestCtx.step (c : TestCtx) (s : TestState) (i : Instr) : Res TestState := do
  let o ← c.order i
  let s ← c.newRegister i s
  let s ← c.endGroup i s
  let s ← c.endDep i s
  c.addReceipt i o s

/-- The main loop. -/
def TestCtx.steps (c : TestCtx) : TestState → List Instr → Res TestState
  | s, [] => .ok s
  | s, i :: l => do
    let s ← c.step s i
    TestCtx.steps c s l

/-- The last DEP (librksv/run_test.py:242-250); `groupCerts[None]` raises `TypeError`. -/
def TestCtx.finish (c : TestCtx) (s : TestState) : Res (List Json) := do
  let g ←
    if c.spec.groups then do
      let sig ← orErr s.prevSig .typeError
      c.certGroup s sig
    else .ok ⟨s.recs, none, []⟩
  .ok (s.deps ++ [exportDEP (s.groups ++ [g]) s.addTurnover])

/-- `tcSize` (librksv/run_test.py:69-71). -/
def TestSpec.counterSize (spec : TestSpec) (tcSize : Option Nat) : Nat :=
  match tcSize with
  | some n => if n ≠ 0 then n else spec.size
  | none => spec.size

/-- `runTest` (librksv/run_test.py:38-254) for a specification without `override` elements: the DEPs and the key container.
The function with all its arguments is `runTestFull`; `runTestFull_plain` says that it does the same in that case. -/
def runTest (spec : TestSpec) (keys : List TestKey) (closed : Bool) (tcSize : Option Nat) : Res (List Json × Json) := do
  ensure (keys.length = spec.numDevices) .plainException
  let key ← loadB64Key spec.aesKey
  let size := spec.counterSize tcSize
  let reg ← CashRegister.make spec.cashBoxId none 0 key size
  let ks ← spec.putDevices closed [] 0 keys
  let c : TestCtx := ⟨spec, closed, keys, key, size⟩
  let s ← c.steps { fresh := reg } spec.instrs
  let deps ← c.finish s
  .ok (deps, ks.toJson (some spec.aesKey))

/-- An index that is not negative. -/
def Json.asIndex : Json → Option Nat
  | .int n => if 0 ≤ n then some n.toNat else none
  | _ => none

/-- How the tests find the register a DEP belongs to (librksv/test/test_verify.py:124-143): `depToRegisterIdx` and
`nRegisters` after another DEP.  An element `Fortgesetztes-DEP` other than `True` counts as false. -/
def registerIdx (seen : List Nat) (n : Nat) (dep : Json) : Res (List Nat × Nat) := do
  let d ← orErr dep.asObj .attributeError
  match Dict.get? d kContinued with
  | some (.bool true) => do
    let p ← orErr (Dict.get? d kPrevious) .keyError
    let p ← orErr p.asIndex .typeError
    let r ← orErr seen[p]? .indexError
    .ok (seen ++ [r], n)
  | _ => .ok (seen ++ [n], n + 1)

/-- The same for all DEPs. -/
def registerIdxs (seen : List Nat) (n : Nat) : List Json → Res (List Nat × Nat)
  | [] => .ok (seen, n)
  | dep :: l => do
    let (seen, n) ← registerIdx seen n dep
    registerIdxs seen n l

end

end RKSV
