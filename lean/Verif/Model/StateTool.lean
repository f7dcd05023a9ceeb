import Verif.Model.DepParser
/-
verification_state.py, the command line tool for state files.  Files are given by their contents: JSON values,
lines of text.  Splitting the command line and `int()` of indices and counters are not modelled, nor is the
`url` input format, which raises `NameError` (verification_state.py:60).
-/
namespace RKSV

/-- The input formats (verification_state.py:56-63). -/
inductive InFormat where
  | jws
  | qr
  | ocr
  | csv

/-- The commands (verification_state.py:65-82), with the contents of the files named.  Keys are given as the
decoded bytes (verification_state.py:207-210). -/
inductive StateCmd where
  | create
  | show
  | add
  | reset (n : Int)
  | delete (n : Int)
  | setLast (n : Int) (text : Str)
  | setCounter (n : Int) (v : Int)
  | setChain (n : Int) (text : Str)
  | toggle (n : Int)
  | setStart (n : Int) (text : Str)
  /-- `none` for the argument `None`, otherwise the lines of the file -/
  | readIds (lines : Option (List Str))
  | copy (n : Int) (source : Json) (m : Int)
  | update (n : Int) (dep : Json) (key : Option Bytes)
  | fromReceipt (f : InFormat) (text : Str) (key : Option Bytes)
  | fromStart (f : InFormat) (text : Str)

/-- `l[n]` for a list: the position, counted from the end if `n` is negative. -/
def pyIndex {α : Type} (l : List α) (n : Int) : Res Nat :=
  let i := if n < 0 then n + l.length else n
  if 0 ≤ i ∧ i < l.length then .ok i.toNat else .error .indexError

/-- An assignment to the fields of `state.cashRegisters[n]`. -/
def Cluster.modify (c : Cluster) (n : Int) (f : RegState → Res RegState) : Res Cluster := do
  let i ← pyIndex c.regs n
  let r ← orErr (c.regs[i]?) .indexError
  let r ← f r
  .ok { c with regs := c.regs.set i r }

/-- `arg_str_or_none` (verification_state.py:89-92). -/
def argOrNone (s : Str) : Option Str := if s = c!"None" then none else some s

section
variable [PyEnv]

/-- `for recs, cert, chain in chunk: state.cashRegisters[n].updateFromDEPGroup(recs, key)`
(verification_state.py:217-222). -/
def updateGroups (key : Option Bytes) (n : Int) (c : Cluster) : List DepGroup → Res Cluster
  | [] => .ok c
  | g :: gs => do
    let c ← c.modify n fun r => r.fromGroup g.recs key
    updateGroups key n c gs

/-- `INPUT_FORMATS[...](text.strip())` (verification_state.py:56-63, 237, 249). -/
def InFormat.read (v : PyVersion) (f : InFormat) (text : Str) : Res (Receipt × Str) :=
  match f with
  | .jws => fromJWS (pyStrip text)
  | .qr => fromBasic (pyStrip text)
  | .ocr => fromOCR v (pyStrip text)
  | .csv => fromCSV (pyStrip text)

/-- The command (verification_state.py:103-254): the new state.  `backend` is a new, empty object for used
receipt IDs, `chunksize` the default chunk size (librksv/utils.py:72-82).  The state file is only read by the commands
that need it. -/
def stateCommand (v : PyVersion) (backend : Used) (chunksize : Nat) (file : Json) : StateCmd → Res Cluster
  | .create => .ok ⟨[], backend⟩
  | .show => Cluster.fromJson file
  | .add => do (← Cluster.fromJson file).addNew
  | .reset n => do (← Cluster.fromJson file).updateInfo (some n) {} backend
  | .delete n => do
    let c ← Cluster.fromJson file
    let i ← pyIndex c.regs n
    .ok { c with regs := c.regs.eraseIdx i }
  | .setLast n t => do (← Cluster.fromJson file).modify n fun r => .ok { r with last := argOrNone t }
  | .setCounter n x => do (← Cluster.fromJson file).modify n fun r => .ok { r with counter := x }
  | .setChain n t => do (← Cluster.fromJson file).modify n fun r => .ok { r with chainNext := argOrNone t }
  | .toggle n => do (← Cluster.fromJson file).modify n fun r => .ok { r with needRestore := !r.needRestore }
  | .setStart n t => do (← Cluster.fromJson file).modify n fun r => .ok { r with start := argOrNone t }
  | .readIds lines => do
    let c ← Cluster.fromJson file
    .ok { c with used := ((lines.getD []).map pyStrip).foldl Used.add backend }
  | .copy n source m => do
    let c ← Cluster.fromJson file
    let src ← Cluster.fromJson source
    let j ← pyIndex src.regs m
    let r ← orErr (src.regs[j]?) .indexError
    c.modify n fun _ => .ok r
  | .update n dep key => do
    let c ← Cluster.fromJson file
    let s := certlessParse dep chunksize
    let c ← updateGroups key n c s.chunks.flatten
    match s.err with
    | some e => .error e
    | none => .ok c
  | .fromReceipt f t key => do
    let (r, p) ← f.read v t
    Cluster.fromArbitraryReceipt r p key backend
  | .fromStart f t => do
    let (r, _) ← f.read v t
    .ok (Cluster.fromArbitraryStartReceipt r backend)

/-- The whole tool: the state file afterwards, and the result.  The file is written only at the end
(verification_state.py:256-258). -/
def stateTool (v : PyVersion) (backend : Used) (chunksize : Nat) (order : Finset Str → List Str) (file : Json)
    (cmd : StateCmd) : Json × Res Unit :=
  match stateCommand v backend chunksize file cmd with
  | .error e => (file, .error e)
  | .ok c => (c.toJson order, .ok ())

end

end RKSV
