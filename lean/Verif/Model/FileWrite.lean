import Verif.Model.ExportText
/-
Files that are being written.
-/
namespace RKSV

/-- What a file can contain after the program or the machine stopped at any point of
`with open(filename, 'w') as f: json.dump(...)` (verification_state.py:257-258, key_store.py:131-132, rktool.py:960-961;
with `f.write(json.dumps(...))` run_test.py:85-94).  `old` is what it contained before, `new` the text to be written.
`open` with `'w'` empties the file; after that the text arrives in order, in pieces that depend on buffers.  Simplified:
that a file system loses or swaps blocks is not modelled, nor is that a file did not exist before (then `old` is what
its reader makes of that). -/
inductive OnDisk (old new : Str) : Str → Prop
  | before : OnDisk old new old
  | during {c : Str} : c <+: new → OnDisk old new c

end RKSV
