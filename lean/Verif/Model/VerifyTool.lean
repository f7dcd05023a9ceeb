import Verif.Model.DepParser
import Verif.Model.KeyStore
/-
verify.py, the command line tool.  Reading the arguments and files is not modelled: the arguments are given
as values and the files as JSON values.
-/
namespace RKSV

/-- How the work is done: `par <n>`, `chunksize <n>` (verify.py:76-99), whether the DEP is in a file in
which one can go back (librksv/depparser.py:438-442), which exception is reported if several processes fail
(see `Workers`), and the order in which Python's sets are iterated.  The tool refuses `nprocs < 1`
(verify.py:84-85). -/
structure Mode where
  nprocs : Nat := 1
  chunksize : Nat := 100000
  seekable : Bool := true
  pick : List Err → Err := fun es => es.headD .valueError
  order : Finset Str → List Str

/-- Which register the DEP belongs to: none given, `continue`, or an index (verify.py:63-71). -/
inductive Select where
  | fresh
  | last
  | nth (n : Int)

/-- The register index (verify.py:52, 64, 68, 121-122).  Without a state `continue` has no effect. -/
def Select.index (sel : Select) (state : Option Cluster) : Option Int :=
  match sel, state with
  | .fresh, _ => none
  | .nth n, _ => some n
  | .last, some c => some ((c.regs.length : Int) - 1)
  | .last, none => none

section
variable [PyEnv]

/-- `IncrementalDEPParser.fromFd(f, True).parse(chunksize)` (librksv/depparser.py:421-442). -/
def fdParse (seekable : Bool) (dep : Json) (n : Nat) : Stream :=
  if seekable then fileParse dep n else streamParse dep n

/-- The verification itself (verify.py:124-148). -/
def toolVerify (m : Mode) (ks : KeyStore) (key : Option Bytes) (c : Cluster) (idx : Option Int) (dep : Json) :
    Cluster × Res Unit :=
  if 1 < m.nprocs then
    verifyParsedDEP (.pool m.pick) m.nprocs ks key c idx
      (if m.chunksize = 0 then dictParse m.nprocs dep 0 else fdParse m.seekable dep m.chunksize)
  else if m.chunksize = 0 then verifyDEP ks key c idx (dictParse 1 dep 0)
  else verifyParsedDEP .alone m.nprocs ks key c idx (fdParse m.seekable dep m.chunksize)

/-- The tool (verify.py:111-154): key container, DEP and, if the state is passed through, the state on
standard input; the result is the state that is printed, if any.  `backend` is the empty object for used IDs
that is chosen with an environment variable (librksv/utils.py:81-82). -/
def verifyTool (backend : Used) (m : Mode) (sel : Select) (store dep : Json) (state : Option Json) :
    Res (Option Json) := do
  let key ← loadKeyFromJson store
  let ks ← readStoreFromJson store
  match state with
  | none =>
    match toolVerify m ks key ⟨[], backend⟩ (sel.index none) dep with
    | (_, .error e) => .error e
    | (_, .ok ()) => .ok none
  | some j => do
    let c ← Cluster.fromJson j
    match toolVerify m ks key c (sel.index (some c)) dep with
    | (_, .error e) => .error e
    | (c', .ok ()) => .ok (some (c'.toJson m.order))

/-- A DEP to verify: the register, the key container and the DEP. -/
structure Job where
  sel : Select
  store : Json
  dep : Json

/-- `./verify.py state ... < old state > new state` for one DEP after the other, as described in the README,
each with its own mode. -/
def toolSession (backend : Used) : List (Mode × Job) → Json → Res Json
  | [], j => .ok j
  | (m, job) :: l, j => do
    let out ← verifyTool backend m job.sel job.store job.dep (some j)
    let j' ← orErr out .valueError
    toolSession backend l j'

end

end RKSV
