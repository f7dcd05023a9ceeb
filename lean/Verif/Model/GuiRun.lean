import Verif.Model.Gui
import Verif.Model.KeyTool
import Verif.Model.LineTools
import Verif.Model.TestVerify
/-
rktool.py: the tab for DEPs as a machine that reacts to events.  Users load files, type keys, change the key store
and press the button; worker processes finish, and their callbacks wait in the queue of the main thread.
-/
namespace RKSV

/-- The text on the button of the tab (rktool.py:677, 696, 710, 725, 741, 747). -/
inductive GuiLabel where
  | verify
  | verifying
  | valid
deriving DecidableEq, Repr

section
variable [PyEnv]

/-- The arguments of the tasks given to the pool (rktool.py:698-701, 714-715, 730-732).  They are taken to be pickled
when the task is given to the pool; the AES key is a part of every argument of `verifyDEP_main_Task`. -/
inductive GuiJob where
  | prepare (dep : Option (List DepGroup)) (store : KeyStore) (key : Option Bytes)
  | main (key : Option Bytes) (ts : List Task)
  | finalize (us : List Used)

/-- The callbacks decorated with `@mainthread` and their results (rktool.py:703-704, 734-735).  Kivy puts them into
the queue of its clock and calls them in the main thread later. -/
inductive GuiCallback where
  | prepared (key : Option Bytes) (r : Res (List Task))
  | finalized (r : Res Used)

/-- The fields of `VerifyDEPWidget` (rktool.py:587-593), its button and its text field, the key store and the pool of
the application (rktool.py:980-988), the callbacks in the queue of the main thread, and the errors displayed so far,
the latest first.  `dep` is `none` before a DEP was loaded. -/
structure GuiState where
  dep : Option (List DepGroup)
  keyText : Str
  store : KeyStore
  verifying : Bool
  verified : Bool
  enabled : Bool
  label : GuiLabel
  jobs : List GuiJob
  queue : List GuiCallback
  shown : List Err

/-- The tab at the start (rktool.kv:245-250, rktool.py:592-593, 981, 1001-1002). -/
def GuiState.fresh : GuiState where
  dep := none
  keyText := []
  store := []
  verifying := false
  verified := false
  enabled := false
  label := .verify
  jobs := []
  queue := []
  shown := []

/-- `displayError` (rktool.py:213-217). -/
def GuiState.show (s : GuiState) (e : Err) : GuiState := { s with shown := e :: s.shown }

/-- `verifyAbort` (rktool.py:671-678) with `killBackgroundProcesses` (rktool.py:990-993): the tasks in the pool are
killed, but not the callbacks that wait already.  Simplified: after a task has raised an exception that cannot be sent
(`Err.lost` in Model/Pool), `terminate` raises an `AssertionError` under Python 3 and the application ends. -/
def GuiState.abort (s : GuiState) : GuiState :=
  { s with
    jobs := []
    verifying := false
    verified := false
    enabled := true
    label := .verify }

/-- The exceptions caught by `loadDEPCb` (rktool.py:771-772).  `UnicodeDecodeError` is a `ValueError`. -/
def guiLoadCaught (e : Err) : Bool :=
  match e with
  | .valueError | .unicodeError => true
  | e => e.isVerify && !isReceiptException e

/-- `loadDEPCb` (rktool.py:759-782) for a file: the JSON value in it, or the exception raised when it was opened and
read.  An `IOError` is written as `valueError`.  `none`: the exception is not caught and the application ends. -/
def GuiState.load (s : GuiState) (file : Res Json) : Option GuiState :=
  match file >>= guiLoad with
  | .error e => if guiLoadCaught e then some (s.show e) else none
  | .ok dep =>
    let s := { s with dep := some dep }.abort
    match guiShow dep with
    | .ok _ => some s
    | .error e => if isReceiptException e then some { s.show e with dep := none, enabled := false } else none

omit [PyEnv] in
/-- The AES key in the text field (rktool.py:685-693); all exceptions are caught. -/
def guiKey (text : Str) : Res (Option Bytes) :=
  if text = [] then .ok none else (loadB64Key text).map some

/-- `verify` (rktool.py:680-701), called by the button unless it is disabled. -/
def GuiState.press (s : GuiState) : Option GuiState :=
  if s.enabled then
    if s.verifying then some s.abort
    else
      match guiKey s.keyText with
      | .error e => some ({ s with keyText := [] }.show e)
      | .ok key =>
        some { s with
          verifying := true
          label := .verifying
          jobs := s.jobs ++ [.prepare s.dep s.store key] }
  else none

omit [PyEnv] in
/-- Is the result of a task an exception that the task does not catch (rktool.py:569, 576, 583)?  Then the pool does
not call the callback. -/
def guiUncaught {α : Type} : Res α → Bool
  | .ok _ => false
  | .error e => !e.isVerify

/-- `verifyDEP_prepare_Cb` (rktool.py:703-715). -/
def GuiState.prepareCb (s : GuiState) (key : Option Bytes) (r : Res (List Task)) : GuiState :=
  if s.verifying then
    match r with
    | .error e => { s with verifying := false, label := .verify }.show e
    | .ok ts => { s with jobs := s.jobs ++ [.main key ts] }
  else s

/-- `verifyDEP_main_Cb` (rktool.py:717-732).  It is not decorated with `@mainthread`; it is taken to run at once when
the last of the tasks is done. -/
def GuiState.mainCb (s : GuiState) (r : Res (List Used)) : GuiState :=
  if s.verifying then
    match r with
    | .error e => { s with verifying := false, label := .verify }.show e
    | .ok us => { s with jobs := s.jobs ++ [.finalize us] }
  else s

/-- `verifyDEP_finalize_Cb` (rktool.py:734-748). -/
def GuiState.finalizeCb (s : GuiState) (r : Res Used) : GuiState :=
  if s.verifying then
    match r with
    | .error e => { s with verifying := false, label := .verify }.show e
    | .ok _ =>
      { s with
        verifying := false
        verified := true
        enabled := false
        label := .valid }
  else s

/-- A task of the pool is done (rktool.py:561-584): its callback is put into the queue or, in the case of
`verifyDEP_main_Cb`, called.  Without a DEP (`None`) the first task raises a `TypeError`. -/
def GuiState.done (s : GuiState) (nprocs : Nat) : GuiJob → GuiState
  | .prepare none _ _ => s
  | .prepare (some dep) store key =>
    let r := guiPrepare store key nprocs dep
    if guiUncaught r then s else { s with queue := s.queue ++ [.prepared key r] }
  | .main key ts =>
    if ts.any fun t => guiUncaught (guiMainTask key t) then s else s.mainCb (guiMain key ts)
  | .finalize us =>
    let r := guiFinalize us
    if guiUncaught r then s else { s with queue := s.queue ++ [.finalized r] }

/-- A callback is called in the main thread. -/
def GuiState.tick (s : GuiState) : GuiCallback → GuiState
  | .prepared key r => s.prepareCb key r
  | .finalized r => s.finalizeCb r

/-- What can happen: a file is chosen in the dialog for DEPs; the text field of the AES key is changed by typing or by
`loadAESCb` (rktool.py:790-809); the key store is changed in any way (rktool.py:595-598, 859-952); the button is
pressed; a task in the pool is done; a callback in the queue is called. -/
inductive GuiEvent where
  | load (file : Res Json)
  | typed (text : Str)
  | setStore (ks : KeyStore)
  | press
  | done (i : Nat)
  | tick (i : Nat)

/-- The reaction to an event; `none` if it cannot happen, or if the application ends. -/
def GuiState.step (nprocs : Nat) (s : GuiState) : GuiEvent → Option GuiState
  | .load file => s.load file
  | .typed text => some { s with keyText := text }
  | .setStore ks => some { s with store := ks }
  | .press => s.press
  | .done i =>
    match s.jobs[i]? with
    | none => none
    | some j => some ({ s with jobs := s.jobs.eraseIdx i }.done nprocs j)
  | .tick i =>
    match s.queue[i]? with
    | none => none
    | some c => some ({ s with queue := s.queue.eraseIdx i }.tick c)

/-- The reaction to several events. -/
def GuiState.run (nprocs : Nat) (s : GuiState) : List GuiEvent → Option GuiState
  | [] => some s
  | e :: es => (s.step nprocs e).bind fun s => s.run nprocs es

end

end RKSV
