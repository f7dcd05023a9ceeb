import Verif.Model.VerifyDEP
/-
librksv/verify.py: distribution of receipts among work packages.
-/
namespace RKSV

/-- `[l[i:i + k] for i in range(0, len(l), k)]` (librksv/verify.py:526-527); a step of zero is a
`ValueError`. -/
def slices {α : Type} (k : Nat) (l : List α) : Res (List (List α)) :=
  if k = 0 then .error .valueError
  else .ok ((List.range ((l.length + k - 1) / k)).map fun i => (l.drop (i * k)).take k)

/-- `itertools.groupby` by the second component, without it in the groups (librksv/verify.py:532-534).
Verifiers are compared by identity; `ident` gives the identity of a verifier object. -/
def groupRuns {α V I : Type} [DecidableEq I] (ident : V → I) : List (α × V) → List (List α × V)
  | [] => []
  | (r, v) :: l =>
    match groupRuns ident l with
    | [] => [([r], v)]
    | (rs, v') :: gs => if ident v = ident v' then (r :: rs, v) :: gs else ([r], v) :: (rs, v') :: gs

/-- `balanceGroupsWithVerifiers` (librksv/verify.py:506-537), for `nprocs` other than zero.
`int(ceil(float(n) / nprocs))` is exact for less than 2^53 receipts. -/
def balanceGroups {α V I : Type} [DecidableEq I] (ident : V → I) (groups : List (List α × V)) (nprocs : Nat) :
    Res (List (List (List α × V))) := do
  let recs := groups.flatMap fun g => g.1.map fun r => (r, g.2)
  let subs ← slices ((recs.length + nprocs - 1) / nprocs) recs
  .ok (subs.map (groupRuns ident))

/-- `getChunksForProcs` (librksv/verify.py:559-569) for a list. -/
def chunksForProcs {α : Type} (nprocs : Int) (l : List α) : List (List α) := batchesAux nprocs false [] l

end RKSV
