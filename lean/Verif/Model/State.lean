import Verif.Model.UsedIds
/-
librksv/verification_state.py: register and cluster states.
-/
namespace RKSV

/-- Python's truth value of an optional text: `None` and the empty text are false. -/
def truthy (o : Option Str) : Bool :=
  match o with
  | some (_ :: _) => true
  | _ => false

/-- `depparser.expandDEPReceipt` (librksv/depparser.py:350-364). -/
def expandReceipt (b : Bytes) : Res Str := orErr (utf8Dec b) .malformedDEP

/-- `depparser.shrinkDEPReceipt` (librksv/depparser.py:333-348) for texts. -/
def shrinkReceipt (s : Str) : Bytes := utf8Enc s

/-- `CashRegisterState` (librksv/verification_state.py:304-315). -/
structure RegState where
  start : Option Str := none
  last : Option Str := none
  counter : Int := 0
  needRestore : Bool := false
  chainNext : Option Str := none
deriving DecidableEq

/-- `ClusterState` (librksv/verification_state.py:424-440). -/
structure Cluster where
  regs : List RegState
  used : Used

instance : DecidableEq Cluster
  | ⟨a, b⟩, ⟨c, d⟩ => decidable_of_iff (a = c ∧ b = d) (by simp)

section
variable [PyEnv]

/-- Parse a receipt text unless it is missing (librksv/verify.py:350-353,
librksv/verification_state.py:376-379). -/
def loadLast (last : Option Str) : Res (Option Receipt) :=
  match last with
  | some (x :: t) => (fromJWS (x :: t)).map fun p => some p.1
  | _ => .ok none

/-- The text before the last one of the group, from the reversed rest of the group
(librksv/verification_state.py:371-374). -/
def secondToLast (s : RegState) (before : List Bytes) : Res (Option Str) :=
  match before with
  | [] => .ok s.last
  | b :: _ => (expandReceipt b).map some

/-- The condition for demanding a restore receipt (librksv/verification_state.py:383-387). -/
def restoreNeeded (last : Receipt) (stl : Option Receipt) : Bool :=
  !last.isSignedBroken && (!last.isNull || last.isDummy || last.isReversal) &&
    (match stl with
     | some p => p.isSignedBroken
     | none => false)

/-- The start receipt (librksv/verification_state.py:389-390). -/
def startOr (s : RegState) (first : Bytes) : Res (Option Str) :=
  if truthy s.start then .ok s.start else (expandReceipt first).map some

/-- The backward scan of `updateFromDEPGroup` (librksv/verification_state.py:398-408) over the reversed
group: the counter of the last standard receipt, if there is one, and the reversals after it. -/
def scanBack (key : Bytes) (reversals : List Receipt) : List Bytes → Res (Option Int × List Receipt)
  | [] => .ok (none, reversals)
  | b :: g => do
    let t ← expandReceipt b
    let (ro, _) ← fromJWS t
    if ¬ro.isDummy ∧ ¬ro.isReversal then do
      let c ← ro.decryptTurnoverCounter key
      .ok (some c, reversals)
    else if ro.isReversal then scanBack key (ro :: reversals) g
    else scanBack key reversals g

/-- `for ro in l: counter += ...` (librksv/verification_state.py:410-412). -/
def addTurnovers (counter : Int) : List Receipt → Res Int
  | [] => .ok counter
  | r :: l => do
    let t ← r.turnover
    addTurnovers (counter + t) l

/-- `CashRegisterState.updateFromDEPGroup` and `fromDEPGroup`
(librksv/verification_state.py:362-412). -/
def RegState.fromGroup (s : RegState) (group : List Bytes) (key : Option Bytes) : Res RegState :=
  match group.reverse with
  | [] => .ok s
  | b :: before => do
    let stlText ← secondToLast s before
    let stl ← loadLast stlText
    let lastText ← expandReceipt b
    let (last, _) ← fromJWS lastText
    let needRestore := restoreNeeded last stl
    let start ← startOr s ((group.head?).getD [])
    let s := { s with needRestore, start, last := some lastText, chainNext := none }
    match key with
    | some (k :: ks) => do
      let (c, reversals) ← scanBack (k :: ks) [] (b :: before)
      let counter ← addTurnovers (c.getD s.counter) reversals
      .ok { s with counter }
    | _ => .ok s

end

/-! ### Clusters -/

/-- `addNewCashRegister` (librksv/verification_state.py:471-482). -/
def Cluster.addNew (c : Cluster) : Res Cluster := do
  ensure (∀ r, c.regs.getLast? = some r → truthy r.start = true) .noStartReceiptForLastCashRegister
  .ok { c with regs := c.regs ++ [{}] }

/-- The second half of `getCashRegisterInfo` (librksv/verification_state.py:500-509). -/
def Cluster.look (c : Cluster) (i : Int) : Res (Option Str × RegState × Used) := do
  ensure (¬(i < 0 ∨ c.regs.length < i)) .invalidCashRegisterIndex
  let reg ← orErr (c.regs[i.toNat]?) .indexError
  .ok (if 0 < i then (c.regs[i.toNat - 1]?).bind (·.start) else none, reg, c.used)

/-- `getCashRegisterInfo` (librksv/verification_state.py:484-509): the new state of the cluster
object, which may have got a new register, and the result. -/
def Cluster.getInfo (c : Cluster) (idx : Option Int) : Cluster × Res (Option Str × RegState × Used) :=
  if idx = none ∨ idx = some (c.regs.length : Int) then
    match c.addNew with
    | .ok c' => (c', c'.look c.regs.length)
    | .error e => (c, .error e)
  else (c, c.look (idx.getD 0))

/-- `updateCashRegisterInfo` (librksv/verification_state.py:511-529). -/
def Cluster.updateInfo (c : Cluster) (idx : Option Int) (reg : RegState) (used : Used) : Res Cluster := do
  let i ← (match idx with
    | none => if c.regs = [] then .error .indexError else .ok (c.regs.length - 1)
    | some i => do
      ensure (¬(i < 0 ∨ (c.regs.length : Int) ≤ i)) .invalidCashRegisterIndex
      .ok i.toNat : Res Nat)
  .ok { regs := c.regs.set i reg, used }

section
variable [PyEnv]

/-- `ClusterState.__init__` with an initial receipt or chaining value
(librksv/verification_state.py:431-440). -/
def Cluster.init (used : Used) (chainNext : Option Str) (receiptJws : Option Str) : Cluster :=
  if truthy receiptJws ∨ truthy chainNext then
    { regs := [{ last := receiptJws, chainNext }], used }
  else { regs := [], used }

/-- The counter before the receipt (librksv/verification_state.py:448-452). -/
def counterBefore (rec : Receipt) (key : Option Bytes) : Res Int :=
  match key with
  | some (k :: ks) =>
    if ¬rec.isDummy ∧ ¬rec.isReversal then do
      let cur ← rec.decryptTurnoverCounter (k :: ks)
      let t ← rec.turnover
      .ok (cur - t)
    else .ok 0
  | _ => .ok 0

/-- `fromArbitraryReceipt` (librksv/verification_state.py:441-463). -/
def Cluster.fromArbitraryReceipt (rec : Receipt) (alg : Str) (key : Option Bytes) (used : Used) :
    Res Cluster := do
  ensure (knownAlg alg) .unknownAlgorithm
  let tc ← counterBefore rec key
  let d ← Draft.init ⟨rec.zda, rec.registerId, c!"dummyrec", rec.dateTimeStr, c!"0,00", c!"0,00",
    c!"0,00", c!"0,00", c!"0,00", c!"DUMMY000", rec.certSerial,
    b64Encode false (utf8Enc c!"DUMMY000")⟩
  let dummy ← d.sign jwsHeader c!"DUMMY000"
  let c := Cluster.init used (some rec.previousChain) (some (dummy.toJWS alg))
  match c.regs with
  | r :: rest => .ok { c with regs := { r with counter := tc } :: rest }
  | [] => .error .indexError

/-- `fromArbitraryStartReceipt` (librksv/verification_state.py:465-469). -/
def Cluster.fromArbitraryStartReceipt (rec : Receipt) (used : Used) : Cluster :=
  Cluster.init used (some rec.previousChain) none

end

/-! ### JSON -/

def kStart : Str := c!"startReceiptJWS"
def kLast : Str := c!"lastReceiptJWS"
def kCounter : Str := c!"lastTurnoverCounter"
def kRestore : Str := c!"needRestoreReceipt"
def kChain : Str := c!"chainNextTo"
def kRegs : Str := c!"cashRegisters"
def kUsed : Str := c!"usedReceiptIds"
def kBackend : Str := c!"backendType"
def kData : Str := c!"backendData"
def kUnique : Str := c!"USED_RECEIPT_IDS_UNIQUE"
def kSorted : Str := c!"USED_RECEIPT_IDS_SORTED_NATURAL"
def kMin : Str := c!"minId"
def kMax : Str := c!"maxId"

/-- A text or `None`. -/
def optStr : Option Str → Json
  | some s => .str s
  | none => .null

/-- `None` or a text, anything else is an error. -/
def readOptStr : Json → Res (Option Str)
  | .null => .ok none
  | .str s => .ok (some s)
  | _ => .error .malformedState

/-- `isinstance(x, int)`: booleans are integers in Python. -/
def readInt : Json → Res Int
  | .int n => .ok n
  | .bool b => .ok (if b then 1 else 0)
  | _ => .error .malformedState

/-- `CashRegisterState.fromDict` (librksv/verification_state.py:317-360).  A counter given as a
boolean is a Python integer equal to 0 or 1 and modelled as that. -/
def RegState.fromDict (d : Dict Json) : Res RegState := do
  let jStart ← orErr (Dict.get? d kStart) .malformedState
  let jLast ← orErr (Dict.get? d kLast) .malformedState
  let jCounter ← orErr (Dict.get? d kCounter) .malformedState
  let jRestore ← orErr (Dict.get? d kRestore) .malformedState
  let jChain ← orErr (Dict.get? d kChain) .malformedState
  let start ← readOptStr jStart
  let last ← readOptStr jLast
  let counter ← readInt jCounter
  let needRestore ← (match jRestore with
    | .bool b => .ok b
    | _ => .error .malformedState : Res Bool)
  let chainNext ← readOptStr jChain
  .ok { start, last, counter, needRestore, chainNext }

/-- One element of `cashRegisters` (librksv/verification_state.py:563-566). -/
def RegState.toJson (s : RegState) : Json :=
  .obj [(kStart, optStr s.start), (kLast, optStr s.last), (kCounter, .int s.counter),
    (kRestore, .bool s.needRestore), (kChain, optStr s.chainNext)]

/-- The loop over the receipt IDs in `UsedReceiptIdsUnique._dataImport`
(librksv/verification_state.py:207-210). -/
def readIds : List Json → Res (List Str)
  | [] => .ok []
  | j :: l => do
    let s ← orErr j.asStr .malformedState
    let r ← readIds l
    .ok (s :: r)

/-- `readFromJson` (librksv/verification_state.py:153-174) and the `_dataImport` functions
(201-214, 263-289). -/
def Used.fromJson (j : Json) : Res Used := do
  let d ← orErr j.asObj .malformedState
  let jType ← orErr (Dict.get? d kBackend) .malformedState
  let jData ← orErr (Dict.get? d kData) .malformedState
  let ty ← orErr jType.asStr .malformedState
  if ty = kUnique then do
    let l ← orErr jData.asArr .malformedState
    let ids ← readIds l
    .ok (.unique ids.toFinset)
  else if ty = kSorted then do
    let m ← orErr jData.asObj .malformedState
    let jMin ← orErr (Dict.get? m kMin) .malformedState
    let jMax ← orErr (Dict.get? m kMax) .malformedState
    let lo ← readOptStr jMin
    let hi ← readOptStr jMax
    .ok (.sorted lo hi)
  else .error .malformedState

/-- `writeToJson` (librksv/verification_state.py:176-180) and the `_dataExport` functions (216-217,
291-295).  `order` is the unspecified iteration order of Python sets. -/
def Used.toJson (order : Finset Str → List Str) : Used → Json
  | .unique ids => .obj [(kBackend, .str kUnique), (kData, .arr ((order ids).map .str))]
  | .sorted lo hi => .obj [(kBackend, .str kSorted), (kData, .obj [(kMin, optStr lo), (kMax, optStr hi)])]

/-- The loop of `readStateFromJson` (librksv/verification_state.py:549-555). -/
def readRegs : List Json → Res (List RegState)
  | [] => .ok []
  | j :: l => do
    let d ← orErr j.asObj .malformedState
    let s ← RegState.fromDict d
    let r ← readRegs l
    .ok (s :: r)

/-- `readStateFromJson` (librksv/verification_state.py:531-560). -/
def Cluster.fromJson (j : Json) : Res Cluster := do
  let root ← orErr j.asObj .malformedState
  let jRegs ← orErr (Dict.get? root kRegs) .malformedState
  let jUsed ← orErr (Dict.get? root kUsed) .malformedState
  let l ← orErr jRegs.asArr .malformedState
  let regs ← readRegs l
  let used ← Used.fromJson jUsed
  .ok { regs, used }

/-- `writeStateToJson` (librksv/verification_state.py:562-570). -/
def Cluster.toJson (order : Finset Str → List Str) (c : Cluster) : Json :=
  .obj [(kRegs, .arr (c.regs.map RegState.toJson)), (kUsed, c.used.toJson order)]

end RKSV
