import Verif.Model.DepParser
/-
librksv/depexport.py: streams of groups and exporters; split.py and merge.py.
-/
namespace RKSV

section
variable [PyEnv]

/-- A group in a stream (librksv/depexport.py:64-77): the receipts or, for a receipt stream that was
handed out, the receipts it still holds. -/
structure SGroup (α : Type) where
  recs : List α
  cert : Option Cert
  chain : List Cert

/-- A `MergingDEPStream` object (librksv/depexport.py:82-131): the groups that were not read yet, and the
receipt streams that were handed out, the last one being `_last`. -/
structure MStream (α : Type) where
  backing : List (SGroup α)
  made : List (SGroup α) := []

/-- `MergingDEPStream.send` (librksv/depexport.py:117-131): the receipt streams and the rest of the groups
afterwards, and whether there was a group (otherwise `StopIteration`). -/
def sendGroup {α : Type} (made : List (SGroup α)) : List (SGroup α) → MStream α × Bool
  | [] => (⟨[], made⟩, false)
  | g :: gs =>
    match made.getLast? with
    | none => (⟨gs, made ++ [g]⟩, true)
    | some l =>
      if l.cert ≠ g.cert ∨ l.chain ≠ g.chain then (⟨gs, made ++ [g]⟩, true)
      else sendGroup (made.dropLast ++ [{ l with recs := l.recs ++ g.recs }]) gs

/-- `_ReceiptTupleStream.send` (librksv/depexport.py:96-111): the receipt stream and the rest of the groups
afterwards, and the receipt (`none` is `StopIteration`).  The certificate chain is compared with itself. -/
def sendRec {α : Type} (cur : SGroup α) : List (SGroup α) → SGroup α × List (SGroup α) × Option α
  | [] =>
    match cur.recs with
    | r :: rs => ({ cur with recs := rs }, [], some r)
    | [] => (cur, [], none)
  | g :: gs =>
    match cur.recs with
    | r :: rs => ({ cur with recs := rs }, g :: gs, some r)
    | [] =>
      if cur.cert = g.cert ∧ g.chain = g.chain then sendRec { cur with recs := g.recs } gs
      else (cur, g :: gs, none)

/-- What a reader of the stream can do: ask for the next group, or for the next receipt of a group it
got before. -/
inductive ReadOp where
  | group
  | receipt (i : Nat)

/-- The stream after such a request, and the receipt that was read, with the certificate of the group it
was read from. -/
def MStream.step {α : Type} (s : MStream α) : ReadOp → MStream α × Option (α × Option Cert)
  | .group => ((sendGroup s.made s.backing).1, none)
  | .receipt i =>
    match s.made[i]? with
    | none => (s, none)
    | some cur =>
      let r := sendRec cur s.backing
      (⟨r.2.1, s.made.set i r.1⟩, r.2.2.map fun a => (a, cur.cert))

/-- A sequence of requests: the stream afterwards and the receipts read. -/
def MStream.steps {α : Type} (s : MStream α) : List ReadOp → MStream α × List (α × Option Cert)
  | [] => (s, [])
  | o :: os =>
    let r := (s.step o).1.steps os
    (r.1, (s.step o).2.toList ++ r.2)

/-- Reading a receipt stream to its end: the receipts and the rest of the groups.  There are less requests
than `fuel`. -/
def readRecs {α : Type} : Nat → SGroup α → List (SGroup α) → List α × SGroup α × List (SGroup α)
  | 0, cur, gs => ([], cur, gs)
  | fuel + 1, cur, gs =>
    match sendRec cur gs with
    | (cur', gs', none) => ([], cur', gs')
    | (cur', gs', some r) => (r :: (readRecs fuel cur' gs').1, (readRecs fuel cur' gs').2)

/-- The number of receipts. -/
def countRecs {α : Type} (gs : List (SGroup α)) : Nat := (gs.map fun g => g.recs.length).sum

/-- Reading a merging stream like the exporters do: every group's receipts are read before the next group
is asked for (librksv/depexport.py:207-214, 251-254; `FakeListIterator`, librksv/depexport.py:163-178,
reads the first element early, but in the same order).  There are less requests for groups than `fuel`. -/
def readGroups {α : Type} : Nat → List (SGroup α) → List (SGroup α) → List (SGroup α)
  | 0, _, _ => []
  | fuel + 1, made, gs =>
    match sendGroup made gs with
    | (_, false) => []
    | (s, true) =>
      match s.made.getLast? with
      | none => []
      | some cur =>
        let r := readRecs (cur.recs.length + countRecs s.backing + 1) cur s.backing
        ⟨r.1, cur.cert, cur.chain⟩ :: readGroups fuel (s.made.dropLast ++ [r.2.1]) r.2.2

/-- A merging stream as it is exported. -/
def mergeExport {α : Type} (gs : List (SGroup α)) : List (SGroup α) := readGroups (gs.length + 1) [] gs

/-- `list(stream)`: asking for groups until there are none left. -/
def collectGroups {α : Type} : Nat → MStream α → MStream α
  | 0, s => s
  | fuel + 1, s =>
    match sendGroup s.made s.backing with
    | (s', false) => s'
    | (s', true) => collectGroups fuel s'

/-- A merging stream whose groups are collected before their receipts are read. -/
def mergeCollect {α : Type} (gs : List (SGroup α)) : List (SGroup α) :=
  let s := collectGroups (gs.length + 1) ⟨gs, []⟩
  s.made.map fun cur => ⟨(readRecs (cur.recs.length + countRecs s.backing + 1) cur s.backing).1, cur.cert, cur.chain⟩

/-! ### Exporters -/

/-- A group as it is exported (librksv/depexport.py:206-212). -/
def exportGroup (g : SGroup (Receipt × Str)) : Json :=
  .obj [(kCert, .str (match g.cert with | none => [] | some c => exportCertToPEM c)),
    (kCerts, .arr (g.chain.map fun c => .str (exportCertToPEM c))),
    (kRecs, .arr (g.recs.map fun r => .str (r.1.toJWS r.2)))]

omit [PyEnv] in
/-- `d.update(e)`. -/
def Dict.update {α : Type} (d e : Dict α) : Dict α := e.foldl (fun d p => d.set p.1 p.2) d

/-- `DEPExporter.export` (librksv/depexport.py:205-217) with lists as output, and what
`JSONExporter.export` (librksv/depexport.py:236-238) writes; for the text see `exportParts`.
`extra` are the elements added with `addExtra`. -/
def exportDEP (gs : List (SGroup (Receipt × Str))) (extra : Dict Json) : Json :=
  .obj (Dict.update [(kGroups, .arr (gs.map exportGroup))] extra)

/-- `receiptGroupAdapter` (librksv/depparser.py:704-712) for one group. -/
def adaptGroup (g : DepGroup) : Res (SGroup (Receipt × Str)) := do
  let recs ← mapRes (fun r => expandReceipt r >>= fromJWS) g.recs
  .ok ⟨recs, g.cert, g.chain⟩

/-- `receiptGroupAdapter` (librksv/depparser.py:704-712) for everything a parser yields. -/
def adaptStream (s : Stream) : Res (List (SGroup (Receipt × Str))) := do
  let gs ← mapRes adaptGroup s.chunks.flatten
  match s.err with
  | some e => .error e
  | none => .ok gs

/-- The loop of split.py (split.py:50-62): the files written completely, and the exception that ended the
program, if any. -/
def splitChunks : List Chunk → Option Err → List Json × Option Err
  | [], err => ([], err)
  | c :: cs, err =>
    match mapRes adaptGroup c with
    | .error e => ([], some e)
    | .ok gs => (exportDEP gs [] :: (splitChunks cs err).1, (splitChunks cs err).2)

/-- split.py (split.py:33-62) for a chunk size of at least one and a DEP on a seekable input. -/
def splitDEP (n : Nat) (doc : Json) : List Json × Option Err :=
  splitChunks (fileParse doc n).chunks (fileParse doc n).err

/-- merge.py (merge.py:38-78): the files are read one after the other; `merging` is false for the option
`nomerge`.  After an exception the output is incomplete. -/
def mergeDEP (merging : Bool) (csz : Nat) (docs : List Json) : Res Json := do
  let gss ← mapRes (fun doc => adaptStream (fileParse doc csz)) docs
  .ok (exportDEP (if merging then mergeExport gss.flatten else gss.flatten) [])

end

end RKSV
