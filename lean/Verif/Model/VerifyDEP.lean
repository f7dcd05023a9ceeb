import Verif.Model.VerifyGroup
import Verif.Model.VerifyCert
/-
librksv/verify.py: verification of whole DEPs, sequentially and with several workers.
-/
namespace RKSV

section
variable [PyEnv]

/-- A group as the parsers yield it: receipts, certificate, certificate chain
(librksv/depparser.py:389-406). -/
structure DepGroup where
  recs : List Bytes
  cert : Option Cert
  chain : List Cert

abbrev Chunk := List DepGroup

/-- What reading a generator to its end gives: the chunks, and the exception that ended it, if any. -/
structure Stream where
  chunks : List Chunk
  err : Option Err := none

/-- `packageChunkWithVerifiers`, the loop for several groups (librksv/verify.py:551-556). -/
def packageAll (ks : KeyStore) : List DepGroup → Res (List (List Bytes × Verifier))
  | [] => .ok []
  | g :: gs => do
    let c ← orErr g.cert .noCertificateGiven
    verifyCert ks c g.chain
    let rest ← packageAll ks gs
    .ok ((g.recs, .fromCert c) :: rest)

/-- `packageChunkWithVerifiers` (librksv/verify.py:539-557).  A certificate object is always true. -/
def packageChunk (ks : KeyStore) (chunk : Chunk) : Res (List (List Bytes × Verifier)) :=
  match chunk with
  | [g] =>
    match g.cert with
    | none => .ok [(g.recs, .fromKeyStore ks)]
    | some c => do
      verifyCert ks c g.chain
      .ok [(g.recs, .fromCert c)]
  | _ => packageAll ks chunk

omit [PyEnv] in
/-- `getChunksForProcs` (librksv/verify.py:559-569): batches of chunks.  `acc` is the list collected so
far; an exception of the parser loses it. -/
def batchesAux {α : Type} (nprocs : Int) (failing : Bool) (acc : List α) : List α → List (List α)
  | [] => if acc = [] ∨ failing then [] else [acc]
  | c :: cs =>
    if nprocs ≤ (acc ++ [c]).length then (acc ++ [c]) :: batchesAux nprocs failing [] cs
    else batchesAux nprocs failing (acc ++ [c]) cs

/-- A work package and the state of the register before it. -/
structure Task where
  groups : List (List Bytes × Verifier)
  state : RegState

/-- The states predicted for the groups of a package (librksv/verify.py:578-580). -/
def predictGroups (key : Option Bytes) (s : RegState) : List (List Bytes × Verifier) → Res RegState
  | [] => .ok s
  | (g, _) :: gs => do
    let s ← s.fromGroup g key
    predictGroups key s gs

/-- `prepareVerificationTuples` (librksv/verify.py:571-585).  The state after the last package is
computed as well, although it is not used. -/
def prepareTasks (key : Option Bytes) (s : RegState) :
    List (List (List Bytes × Verifier)) → Res (List Task)
  | [] => .ok []
  | p :: ps => do
    let s' ← predictGroups key s p
    let rest ← prepareTasks key s' ps
    .ok (⟨p, s⟩ :: rest)

/-- Who does the work: the calling process itself, or a pool of processes.  The packages of a batch
share one object for the used IDs, `[usedRecIdsBackend()] * npkgs` (librksv/verify.py:585); the
processes of a pool get their own copies.  (`map_async` sends one package at a time as long as there
are at most four times as many packages as processes, which holds for a pool of `nprocs` processes.)
If several processes fail, the exception of the one that is first to report is raised; `pick` is the
choice among the exceptions. -/
inductive Workers where
  | alone
  | pool (pick : List Err → Err)

/-- `map(verifyGroupsWithVerifiersTuple, wargs)` in the calling process (librksv/verify.py:667): the
register states, and the shared object afterwards. -/
def runShared (key : Option Bytes) (prevStart : Option Str) (used : Used) :
    List Task → Res (List RegState × Used)
  | [] => .ok ([], used)
  | t :: ts => do
    let (s, used) ← verifyGroups key prevStart t.state used t.groups
    let (rest, used) ← runShared key prevStart used ts
    .ok (s :: rest, used)

/-- The exceptions of the failed tasks. -/
def errorsOf {α : Type} : List (Res α) → List Err
  | [] => []
  | .ok _ :: l => errorsOf l
  | .error e :: l => e :: errorsOf l

/-- The results of the successful tasks. -/
def valuesOf {α : Type} : List (Res α) → List α
  | [] => []
  | .ok a :: l => a :: valuesOf l
  | .error _ :: l => valuesOf l

/-- `pool.map_async(verifyGroupsWithVerifiersTuple, wargs).get()` (librksv/verify.py:658, 671, 673). -/
def runPool (pick : List Err → Err) (key : Option Bytes) (prevStart : Option Str) (used : Used)
    (ts : List Task) : Res (List (RegState × Used)) :=
  let rs := ts.map fun t => verifyGroups key prevStart t.state used t.groups
  match errorsOf rs with
  | [] => .ok (valuesOf rs)
  | e :: es => .error (pick (e :: es))

/-- The results of a batch: register states and used IDs of the packages. -/
def runTasks (w : Workers) (key : Option Bytes) (prevStart : Option Str) (used : Used)
    (ts : List Task) : Res (List RegState × List Used) :=
  match w with
  | .alone => do
    let (ss, u) ← runShared key prevStart used ts
    .ok (ss, ss.map fun _ => u)
  | .pool pick => do
    let rs ← runPool pick key prevStart used ts
    .ok (rs.map (·.1), rs.map (·.2))

/-- Waiting for a batch and merging its results (librksv/verify.py:658-660, 673-675). -/
def collect (w : Workers) (key : Option Bytes) (prevStart : Option Str) (used : Used)
    (ts : List Task) : Res (RegState × Used) := do
  let (ss, us) ← runTasks w key prevStart used.fresh ts
  let used ← used.merge us
  -- `zip(*res.get())` of an empty batch cannot be unpacked
  let s ← orErr ss.getLast? .valueError
  .ok (s, used)

/-- The result of the batch before, if there is one (librksv/verify.py:657-660). -/
def collectPending (w : Workers) (key : Option Bytes) (prevStart : Option Str) (s : RegState)
    (used : Used) (pending : Option (List Task)) : Res (RegState × Used) :=
  match pending with
  | none => .ok (s, used)
  | some ts => collect w key prevStart used ts

/-- The main loop of `verifyParsedDEP` (librksv/verify.py:653-675).  The results of a batch are asked for
only after the next batch was read and its certificates were checked. -/
def runBatches (w : Workers) (ks : KeyStore) (key : Option Bytes) (prevStart : Option Str)
    (s : RegState) (used : Used) (pending : Option (List Task)) (err : Option Err) :
    List (List Chunk) → Res (RegState × Used)
  | [] =>
    match err with
    | some e => .error e
    | none =>
      match pending with
      -- `None.get()`
      | none => .error .attributeError
      | some ts => collect w key prevStart used ts
  | b :: bs => do
    let pkgs ← mapRes (packageChunk ks) b
    let (s, used) ← collectPending w key prevStart s used pending
    let ts ← prepareTasks key s pkgs
    runBatches w ks key prevStart s used (some ts) err bs

/-- `verifyParsedDEP` for a given cluster state (librksv/verify.py:587-678): the state object
afterwards, also if an exception is raised, and the result, which is the same object. -/
def verifyParsedDEP (w : Workers) (nprocs : Int) (ks : KeyStore) (key : Option Bytes) (c : Cluster)
    (idx : Option Int) (dep : Stream) : Cluster × Res Unit :=
  match c.getInfo idx with
  | (c, .error e) => (c, .error e)
  | (c, .ok (prevStart, s, used)) =>
    match runBatches w ks key prevStart s used none dep.err
        (batchesAux nprocs dep.err.isSome [] dep.chunks) with
    | .error e => (c, .error e)
    | .ok (s, used) =>
      match c.updateInfo idx s used with
      | .error e => (c, .error e)
      | .ok c => (c, .ok ())

/-- The loop of `verifyDEP` over the groups (librksv/verify.py:738-756). -/
def runDEP (ks : KeyStore) (key : Option Bytes) (prevStart : Option Str) (oneGroup : Option Bool)
    (s : RegState) (used : Used) : List DepGroup → Res (RegState × Used)
  | [] => .ok (s, used)
  | g :: gs => do
    ensure (oneGroup ≠ some true) .noCertificateGiven
    match g.cert with
    | none => do
      ensure (oneGroup ≠ some false) .noCertificateGiven
      let (s, used) ← verifyGroup ⟨.fromKeyStore ks, key, prevStart⟩ s used g.recs
      runDEP ks key prevStart (some true) s used gs
    | some c => do
      verifyCert ks c g.chain
      let (s, used) ← verifyGroup ⟨.fromCert c, key, prevStart⟩ s used g.recs
      runDEP ks key prevStart (some false) s used gs

/-- `verifyDEP` for a given cluster state (librksv/verify.py:680-759), with the chunks the parser yields.
The chunks are not empty, so the check at librksv/verify.py:735 never fails. -/
def verifyDEP (ks : KeyStore) (key : Option Bytes) (c : Cluster) (idx : Option Int) (dep : Stream) :
    Cluster × Res Unit :=
  match c.getInfo idx with
  | (c, .error e) => (c, .error e)
  | (c, .ok (prevStart, s, used)) =>
    match runDEP ks key prevStart none s used dep.chunks.flatten with
    | .error e => (c, .error e)
    | .ok (s, used) =>
      match dep.err with
      | some e => (c, .error e)
      | none =>
        match c.updateInfo idx s used with
        | .error e => (c, .error e)
        | .ok c => (c, .ok ())

end

end RKSV
