import Verif.Model.State
import Verif.Model.VerifyReceipt
/-
librksv/verify.py: verification of receipt groups.
-/
namespace RKSV

section
variable [PyEnv]

/-- The arguments of `verifyGroup` that stay the same for all receipts (librksv/verify.py:299-300). -/
structure GroupCtx where
  verifier : Verifier
  key : Option Bytes
  prevStart : Option Str

/-- The variables of the loop (librksv/verify.py:350-354). -/
structure Loop where
  state : RegState
  used : Used
  prev : Option Str
  prevObj : Option Receipt
deriving DecidableEq

/-- Verification of the signature and the rule about restore receipts (librksv/verify.py:356-380):
the receipt and the new value of `needRestoreReceipt`. -/
def checkSigned (v : Verifier) (needRestore : Bool) (prevObj : Option Receipt) (r : Str) :
    Res (Receipt × Bool) :=
  match v.verifyJWS r with
  | .ok (ro, _) =>
    match prevObj with
    | some p =>
      if !ro.isNull || ro.isDummy || ro.isReversal then do
        ensure (needRestore = false) .noRestoreReceipt
        .ok (ro, if p.isSignedBroken then true else needRestore)
      else .ok (ro, false)
    | none => .ok (ro, false)
  | .error e =>
    if e = .signatureSystemFailed ∨ e = .unsignedNullReceipt then do
      let (ro, _) ← fromJWS r
      ensure (prevObj.isSome = true) .signatureSystemFailedOnInitial
      ensure (needRestore = false) .noRestoreReceipt
      .ok (ro, needRestore)
    else .error e

/-- Extra rules for the first receipt (librksv/verify.py:382-397): the receipt it is chained to in a
cluster. -/
def checkInitial (c : GroupCtx) (ro : Receipt) (prev : Option Str) :
    Res (Option Str × Option Receipt) := do
  ensure (ro.isNull = true) .nonzeroTurnoverOnInitial
  ensure (¬(ro.isDummy ∨ ro.isReversal)) .nonstandardTypeOnInitial
  match c.prevStart with
  | some (x :: ps) => do
    ensure (ro.zda = AT0) .clusterInOpenSystem
    let (p, _) ← fromJWS (x :: ps)
    ensure (p.zda = AT0) .clusterInOpenSystem
    .ok (some (x :: ps), some p)
  | _ => .ok (prev, none)

/-- The text the receipt has to be chained to and the receipt it is compared with
(librksv/verify.py:382-397). -/
def reference (c : GroupCtx) (prev : Option Str) (prevObj : Option Receipt) (ro : Receipt) :
    Res (Option Str × Option Receipt) :=
  match prevObj with
  | some p => .ok (prev, some p)
  | none => checkInitial c ro prev

/-- The checks against the previous receipt (librksv/verify.py:399-411). -/
def checkPrevious (used : Used) (p ro : Receipt) : Res Unit := do
  used.check ro.receiptId
  ensure (p.registerId = ro.registerId) .changingRegisterId
  ensure (¬((p.zda = AT0 ∧ ro.zda ≠ AT0) ∨ (p.zda ≠ AT0 ∧ ro.zda = AT0))) .changingSystemType
  ensure (ro.dateTime.before p.dateTime = false) .decreasingDate

/-- ... if there is one (librksv/verify.py:399). -/
def checkBefore (used : Used) (prevObj : Option Receipt) (ro : Receipt) : Res Unit :=
  match prevObj with
  | some p => checkPrevious used p ro
  | none => .ok ()

/-- The chaining value a receipt must have (librksv/verify.py:238-254, 415-420). -/
def expectedChain (chainNext prev : Option Str) (ro : Receipt) : Str :=
  match chainNext with
  | some (x :: t) => x :: t
  | _ => b64Encode false (chainHash ro.registerId prev)

/-- Verification of the turnover counter (librksv/verify.py:429-438): the new counter. -/
def checkCounter (key : Option Bytes) (counter : Int) (ro : Receipt) : Res Int :=
  if ro.isDummy then .ok counter
  else
    match key with
    | none => .ok counter
    | some k => do
      raiseForKey k
      let t ← ro.turnover
      if ro.isReversal then .ok (counter + t)
      else do
        let tc ← ro.decryptTurnoverCounter k
        ensure (tc = counter + t) .invalidTurnoverCounter
        .ok (counter + t)

/-- The body of the loop of `verifyGroup` (librksv/verify.py:354-441). -/
def stepGroup (c : GroupCtx) (l : Loop) (cr : Bytes) : Res Loop := do
  let r ← expandReceipt cr
  let (ro, needRestore) ← checkSigned c.verifier l.state.needRestore l.prevObj r
  let (prev, prevObj) ← reference c l.prev l.prevObj ro
  let start := if l.prevObj.isSome then l.state.start else some r
  checkBefore l.used prevObj ro
  let used := l.used.add ro.receiptId
  ensure (expectedChain l.state.chainNext prev ro = ro.previousChain)
    (if start = some r then
      (if truthy c.prevStart then .invalidChainingOnClusterInitial else .invalidChainingOnInitial)
     else .chaining)
  let chainNext := if truthy l.state.chainNext then none else l.state.chainNext
  let counter ← checkCounter c.key l.state.counter ro
  .ok { state := { l.state with start, needRestore, chainNext, counter }, used, prev := some r,
        prevObj := some ro }

/-- The loop of `verifyGroup` (librksv/verify.py:354-441). -/
def runGroup (c : GroupCtx) (l : Loop) : List Bytes → Res Loop
  | [] => .ok l
  | b :: g => do
    let l ← stepGroup c l b
    runGroup c l g

/-- `verifyGroup` (librksv/verify.py:299-444).  The two checks for missing arguments at the beginning
never fail, the arguments are objects. -/
def verifyGroup (c : GroupCtx) (s : RegState) (used : Used) (group : List Bytes) :
    Res (RegState × Used) := do
  let prevObj ← loadLast s.last
  let l ← runGroup c { state := s, used, prev := s.last, prevObj } group
  .ok ({ l.state with last := l.prev }, l.used)

/-- `verifyGroupsWithVerifiers` (librksv/verify.py:446-496). -/
def verifyGroups (key : Option Bytes) (prevStart : Option Str) (s : RegState) (used : Used) :
    List (List Bytes × Verifier) → Res (RegState × Used)
  | [] => .ok (s, used)
  | (g, v) :: gs => do
    let (s, used) ← verifyGroup { verifier := v, key, prevStart } s used g
    verifyGroups key prevStart s used gs

end

end RKSV
