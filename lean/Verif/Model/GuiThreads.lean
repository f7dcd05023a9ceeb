import Verif.Model.GuiRun
/-
rktool.py on Android: the pool is not a pool of processes but one thread for each task.
-/
namespace RKSV

section
variable [PyEnv]

/-- Does the reaction to an event call `verifyAbort` (rktool.py:681-683, 759-777)?  The button does while a DEP is
being verified, and the dialog does after a file was read. -/
def GuiState.aborts (s : GuiState) : GuiEvent → Bool
  | .press => s.enabled && s.verifying
  | .load file =>
    match file >>= guiLoad with
    | .ok _ => true
    | .error _ => false
  | _ => false

/-- The threads that go on: those for which the list has `true` at their position. -/
def survivors (alive : List Bool) (jobs : List GuiJob) : List GuiJob :=
  ((jobs.zip alive).filter fun p => p.2).map fun p => p.1

/-- The reaction to an event on Android, with the threads that go on in case it aborts a verification.
`ThreadPool.terminate` (rktool.py:167-174) raises `ThreadError` only in the thread started last, the exception takes
effect at some later time or, while the thread is busy outside of Python, never (rktool.py:126-144), and
`ThreadPool.join` (rktool.py:176-177) does not wait; so any of the threads may go on.  Everything else is as in
`GuiState.step`: `apply_async` and `map_async` (rktool.py:179-189) copy the arguments in place of pickling them, and
`__thread_apply__` and `__thread_map__` (rktool.py:149-159) call the callback unless the task raises an exception.
Simplified: the tasks do not catch the `ThreadError` themselves, and a thread that gets it has no effect after the
abort. -/
def GuiState.threadStep (nprocs : Nat) (s : GuiState) (e : GuiEvent × List Bool) : Option GuiState :=
  (s.step nprocs e.1).map fun t => if s.aborts e.1 then { t with jobs := survivors e.2 s.jobs } else t

/-- The reaction to several events on Android. -/
def GuiState.threadRun (nprocs : Nat) (s : GuiState) : List (GuiEvent × List Bool) → Option GuiState
  | [] => some s
  | e :: es => (s.threadStep nprocs e).bind fun s => s.threadRun nprocs es

end

end RKSV
