import Verif.Model.Balance
import Verif.Model.DepParser
/-
rktool.py: verification of a DEP in the graphical tool.
-/
namespace RKSV

section
variable [PyEnv]

/-- `loadDEPCb` (rktool.py:759-769): `[chunk[0] for chunk in FullFileDEPParser(f).parse(0)]`.  The document
is given as a JSON value. -/
def guiLoad (doc : Json) : Res (List DepGroup) := do
  let heads ← mapRes (fun c : Chunk => orErr c.head? .indexError) (dictParse 1 doc 0).chunks
  match (dictParse 1 doc 0).err with
  | some e => .error e
  | none => .ok heads

/-- `updateDEPDisplay` (rktool.py:619-669), what can fail: all receipts must be readable.  The tree itself is
not modelled, and neither are the serials shown for the certificates. -/
def guiShow (dep : List DepGroup) : Res Unit := do
  let _ ← mapRes (fun g : DepGroup => mapRes (fun r => expandReceipt r >>= fromJWS) g.recs) dep
  .ok ()

/-- The groups with their verifiers, numbered.  `packageChunkWithVerifiers` makes a new verifier for each
group, so the number is the identity of the verifier. -/
def numberVerifiers (gs : List (List Bytes × Verifier)) : List (List Bytes × (Nat × Verifier)) :=
  gs.zipIdx.map fun x => (x.1.1, (x.2, x.1.2))

/-- `verifyDEP_prepare_Task` (rktool.py:561-570). -/
def guiPrepare (ks : KeyStore) (key : Option Bytes) (nprocs : Nat) (dep : List DepGroup) : Res (List Task) := do
  let groups ← packageChunk ks dep
  let pkgs ← balanceGroups Prod.fst (numberVerifiers groups) nprocs
  prepareTasks key {} (pkgs.map fun p => p.map fun g => (g.1, g.2.2))

/-- `verifyDEP_main_Task` (rktool.py:572-577).  Every package is verified with its own new set of used IDs. -/
def guiMainTask (key : Option Bytes) (t : Task) : Res Used := do
  let (_, used) ← verifyGroups key none t.state (.unique ∅) t.groups
  .ok used

/-- `verifyDEP_main_Task` for all packages, and the callback that looks for the first error
(rktool.py:717-732). -/
def guiMain (key : Option Bytes) (ts : List Task) : Res (List Used) := mapRes (guiMainTask key) ts

/-- `verifyDEP_finalize_Task` (rktool.py:579-584). -/
def guiFinalize (us : List Used) : Res Used := (Used.unique ∅).merge us

/-- Loading a DEP and pressing "Verify" (rktool.py:680-748); success is the text "Valid DEP" on the button.
The AES key is `none` if the text field is empty. -/
def guiVerify (ks : KeyStore) (key : Option Bytes) (nprocs : Nat) (doc : Json) : Res Unit := do
  let dep ← guiLoad doc
  guiShow dep
  let ts ← guiPrepare ks key nprocs dep
  let us ← guiMain key ts
  let _ ← guiFinalize us
  .ok ()

end

end RKSV
