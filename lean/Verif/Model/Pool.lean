import Verif.Model.Exceptions
import Verif.Model.VerifyTool
/-
verify.py with several processes, taking into account how exceptions get from a worker to the main process.
-/
namespace RKSV

/-- The exceptions that are lost on the way from a worker: `unpickle` fails, see `exception_lost`.  The thread of the pool
that reads the results then ends with a `TypeError`.  The exceptions of Python itself arrive. -/
def Err.lost (e : Err) : Bool := e = .invalidKey

section
variable [PyEnv]

/-- Waiting for a batch (librksv/verify.py:658-660, 673-675); `none`: `get()` never returns, as the result of one of the
tasks does not arrive.  (`get()` of a `MapResult` returns after the results of all tasks have arrived, also if some of
them are exceptions.) -/
def poolCollect (pick : List Err → Err) (key : Option Bytes) (prevStart : Option Str) (used : Used) (ts : List Task) :
    Option (Res (RegState × Used)) :=
  if (errorsOf (ts.map fun t => verifyGroups key prevStart t.state used.fresh t.groups)).any Err.lost then none
  else some (collect (.pool pick) key prevStart used ts)

/-- The result of the batch before, if there is one (librksv/verify.py:657-660). -/
def poolPending (pick : List Err → Err) (key : Option Bytes) (prevStart : Option Str) (s : RegState) (used : Used)
    (pending : Option (List Task)) : Option (Res (RegState × Used)) :=
  match pending with
  | none => some (.ok (s, used))
  | some ts => poolCollect pick key prevStart used ts

/-- The main loop of `verifyParsedDEP` (librksv/verify.py:653-675) with a pool.  If an exception is raised here while an
exception of a worker is lost, `pool.terminate()` (verify.py:137-139) may replace it by an `AssertionError`; this is not
modelled. -/
def poolBatches (pick : List Err → Err) (ks : KeyStore) (key : Option Bytes) (prevStart : Option Str)
    (s : RegState) (used : Used) (pending : Option (List Task)) (err : Option Err) :
    List (List Chunk) → Option (Res (RegState × Used))
  | [] =>
    match err with
    | some e => some (.error e)
    | none =>
      match pending with
      | none => some (.error .attributeError)
      | some ts => poolCollect pick key prevStart used ts
  | b :: bs =>
    match mapRes (packageChunk ks) b with
    | .error e => some (.error e)
    | .ok pkgs =>
      match poolPending pick key prevStart s used pending with
      | none => none
      | some (.error e) => some (.error e)
      | some (.ok (s, used)) =>
        match prepareTasks key s pkgs with
        | .error e => some (.error e)
        | .ok ts => poolBatches pick ks key prevStart s used (some ts) err bs

/-- `verifyParsedDEP` (librksv/verify.py:587-678) with a pool. -/
def poolVerify (pick : List Err → Err) (nprocs : Int) (ks : KeyStore) (key : Option Bytes) (c : Cluster)
    (idx : Option Int) (dep : Stream) : Option (Cluster × Res Unit) :=
  match c.getInfo idx with
  | (c, .error e) => some (c, .error e)
  | (c, .ok (prevStart, s, used)) =>
    match poolBatches pick ks key prevStart s used none dep.err
        (batchesAux nprocs dep.err.isSome [] dep.chunks) with
    | none => none
    | some (.error e) => some (c, .error e)
    | some (.ok (s, used)) =>
      match c.updateInfo idx s used with
      | .error e => some (c, .error e)
      | .ok c => some (c, .ok ())

/-- The verification (verify.py:124-148). -/
def endsVerify (m : Mode) (ks : KeyStore) (key : Option Bytes) (c : Cluster) (idx : Option Int) (dep : Json) :
    Option (Cluster × Res Unit) :=
  if 1 < m.nprocs then
    poolVerify m.pick m.nprocs ks key c idx
      (if m.chunksize = 0 then dictParse m.nprocs dep 0 else fdParse m.seekable dep m.chunksize)
  else some (toolVerify m ks key c idx dep)

/-- The tool (verify.py:111-154); `none`: it does not end. -/
def endsTool (backend : Used) (m : Mode) (sel : Select) (store dep : Json) (state : Option Json) :
    Option (Res (Option Json)) :=
  match loadKeyFromJson store, readStoreFromJson store with
  | .error e, _ => some (.error e)
  | .ok _, .error e => some (.error e)
  | .ok key, .ok ks =>
    match state with
    | none =>
      (endsVerify m ks key ⟨[], backend⟩ (sel.index none) dep).map fun
        | (_, .error e) => .error e
        | (_, .ok ()) => .ok none
    | some j =>
      match Cluster.fromJson j with
      | .error e => some (.error e)
      | .ok c =>
        (endsVerify m ks key c (sel.index (some c)) dep).map fun
          | (_, .error e) => .error e
          | (c', .ok ()) => .ok (some (c'.toJson m.order))

end

end RKSV
