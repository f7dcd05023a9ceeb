import Verif.Model.RunTest
/-
librksv/run_test.py with the `override` elements of the instructions.
-/
namespace RKSV

section
variable [PyEnv]

/-- The text of a receipt in a DEP: `rec.toJWSString(algorithmPrefix)` (librksv/depexport.py:209-210, librksv/cashreg.py:95-98). -/
def Mangled.text (r : Mangled × Str) : Str := r.1.toJWS r.2

/-- A group of falsified receipts as it is exported (librksv/depexport.py:206-212), see `exportGroup`. -/
def exportMangledGroup (g : SGroup (Mangled × Str)) : Json :=
  .obj [(kCert, .str (match g.cert with | none => [] | some c => exportCertToPEM c)),
    (kCerts, .arr (g.chain.map fun c => .str (exportCertToPEM c))),
    (kRecs, .arr (g.recs.map fun r => .str (Mangled.text r)))]

/-- `DEPExporter.export` (librksv/depexport.py:205-217) for falsified receipts, see `exportDEP`. -/
def exportMangled (gs : List (SGroup (Mangled × Str))) (extra : Dict Json) : Json :=
  .obj (Dict.update [(kGroups, .arr (gs.map exportMangledGroup))] extra)

/-- The variables of the main loop (librksv/run_test.py:147-159).  `regs` are the register objects in the order they
were made; `register` and the elements of `reg2Reg` are positions in it. -/
structure FullState where
  regs : List CashRegister
  register : Nat := 0
  reg2Reg : List Nat := []
  groups : List (SGroup (Mangled × Str)) := []
  extra : Dict Json := []
  deps : List Json := []
  lastStart : Option Str := none
  prevStartDep : Nat := 0
  lastDep : List Nat := []
  curIdx : Int := -1
  recs : List (Mangled × Str) := []
  prevSig : Option Nat := none
  turnover : Option F64 := none

/-- A new register for the cluster (librksv/run_test.py:183-186). -/
def TestCtx.newRegisterFull (c : TestCtx) (i : Instr) (s : FullState) : Res FullState :=
  if i.newDep = kCluster ∧ truthy s.lastStart = true then do
    let r ← CashRegister.make c.spec.cashBoxId s.lastStart 0 c.key c.size
    .ok { s with regs := s.regs ++ [r], register := s.regs.length, lastStart := none }
  else .ok s

/-- `stream.append` for the receipts of a device in a DEP with certificates (librksv/run_test.py:140-141, 190-191, 243-244). -/
def TestCtx.certGroupFull (c : TestCtx) (s : FullState) (sig : Nat) : Res (SGroup (Mangled × Str)) := do
  let k ← orErr c.keys[sig]? .indexError
  .ok (if k.omitSign then ⟨s.recs, none, []⟩ else ⟨s.recs, some k.cert, k.chain⟩)

/-- Ending a group (librksv/run_test.py:188-196). -/
def TestCtx.endGroupFull (c : TestCtx) (i : Instr) (s : FullState) : Res FullState :=
  match c.spec.groups, s.prevSig with
  | true, some sig =>
    if i.newDep ≠ kNoNew ∨ sig ≠ i.device then do
      let g ← c.certGroupFull s sig
      .ok { s with groups := s.groups ++ [g], recs := [] }
    else .ok s
  | _, _ =>
    if i.newDep ≠ kNoNew then .ok { s with groups := s.groups ++ [⟨s.recs, none, []⟩], recs := [] }
    else .ok s

/-- `if expectedTurnover: exporter.addExtra(...)` (librksv/run_test.py:199-200, 248-249). -/
def FullState.addTurnover (s : FullState) : Dict Json :=
  match s.turnover with
  | some x => if x ≠ .fin 0 then s.extra.set kTurnover (.float x) else s.extra
  | none => s.extra

/-- Ending a DEP (librksv/run_test.py:198-215). -/
def TestCtx.endDepFull (_ : TestCtx) (i : Instr) (s : FullState) : Res FullState :=
  if i.newDep = kNoNew then .ok s
  else do
    let dep := exportMangled s.groups s.addTurnover
    let lastDep ← pySet s.lastDep s.curIdx s.deps.length
    let s := { s with groups := [], lastDep }
    if i.newDep = kCluster then
      .ok { s with extra := [(kPrevious, .int s.prevStartDep)], deps := s.deps ++ [dep] }
    else
      match i.contReg with
      | some k => do
        let register ← orErr s.reg2Reg[k]? .indexError
        let d ← orErr lastDep[k]? .indexError
        .ok { s with register, extra := [(kPrevious, .int d), (kContinued, .bool true)], curIdx := k, deps := s.deps ++ [dep] }
      | none =>
        .ok { s with extra := [(kPrevious, .int s.deps.length), (kContinued, .bool true)], deps := s.deps ++ [dep] }

/-- Making the receipt (librksv/run_test.py:217, 227-240). -/
def TestCtx.addReceiptFull (_ : TestCtx) (i : Instr) (o : Order) (s : FullState) : Res FullState :=
  match s.regs[s.register]? with
  | none => .error .indexError
  | some reg =>
    match reg.receiptWith o i.override with
    | (_, .error e) => .error e
    | (reg', .ok m) =>
      let algorithmPrefix := i.override.algorithmPrefix.getD R1
      let s := { s with turnover := i.turnover, prevSig := some i.device, regs := s.regs.set s.register reg',
                        recs := s.recs ++ [(m, algorithmPrefix)] }
      .ok (if truthy s.lastStart then s
           else { s with
             lastStart := some (m.toJWS algorithmPrefix), lastDep := s.lastDep ++ [s.deps.length]
             reg2Reg := s.reg2Reg ++ [s.register], curIdx := s.curIdx + 1, prevStartDep := s.deps.length })

/-- The body of the main loop (librksv/run_test.py:160-240).  The date and the device are looked up first. -/
def TestCtx.stepFull (c : TestCtx) (s : FullState) (i : Instr) : Res FullState := do
  let o ← c.order i
  let s ← c.newRegisterFull i s
  let s ← c.endGroupFull i s
  let s ← c.endDepFull i s
  c.addReceiptFull i o s

/-- The main loop. -/
def TestCtx.stepsFull (c : TestCtx) : FullState → List Instr → Res FullState
  | s, [] => .ok s
  | s, i :: l => do
    let s ← c.stepFull s i
    TestCtx.stepsFull c s l

/-- The last DEP (librksv/run_test.py:242-250); `groupCerts[None]` raises `TypeError`. -/
def TestCtx.finishFull (c : TestCtx) (s : FullState) : Res (List Json) := do
  let g ←
    if c.spec.groups then do
      let sig ← orErr s.prevSig .typeError
      c.certGroupFull s sig
    else .ok ⟨s.recs, none, []⟩
  .ok (s.deps ++ [exportMangled (s.groups ++ [g]) s.addTurnover])

/-- `runTest` (librksv/run_test.py:38-254): the DEPs and the key container. -/
def runTestFull (spec : TestSpec) (keys : List TestKey) (closed : Bool) (tcSize : Option Nat) : Res (List Json × Json) := do
  ensure (keys.length = spec.numDevices) .plainException
  let key ← loadB64Key spec.aesKey
  let size := spec.counterSize tcSize
  let reg ← CashRegister.make spec.cashBoxId none 0 key size
  let ks ← spec.putDevices closed [] 0 keys
  let c : TestCtx := ⟨spec, closed, keys, key, size⟩
  let s ← c.stepsFull { regs := [reg] } spec.instrs
  let deps ← c.finishFull s
  .ok (deps, ks.toJson (some spec.aesKey))

end

end RKSV
