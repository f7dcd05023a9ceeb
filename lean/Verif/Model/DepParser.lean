import Verif.Model.VerifyDEP
/-
librksv/depparser.py.  The subclasses of `MalformedDEPException` are one error here.
-/
namespace RKSV

def kGroups : Str := c!"Belege-Gruppe"
def kRecs : Str := c!"Belege-kompakt"
def kCert : Str := c!"Signaturzertifikat"
def kCerts : Str := c!"Zertifizierungsstellen"

section
variable [PyEnv]

/-- `parseDEPCert` (librksv/depparser.py:366-380). -/
def parseDEPCert (j : Json) : Res Cert := do
  let s ← orErr j.asStr .malformedDEPCertificate
  orErr (loadCert (addPEMCertHeaders s)) .malformedDEPCertificate

/-- `parseDEPCert(cert_str) if cert_str != '' else None` (librksv/depparser.py:285, 545, 619). -/
def parseOptCert (j : Json) : Res (Option Cert) :=
  match j with
  | .str [] => .ok none
  | j => do
    let c ← parseDEPCert j
    .ok (some c)

omit [PyEnv] in
/-- The receipts of a list up to the first that is not a text; `rec.encode` of other values is an
`AttributeError` (librksv/depparser.py:333-348). -/
def shrinkAll : List Json → List Bytes × Option Err
  | [] => ([], none)
  | .str s :: l => (shrinkReceipt s :: (shrinkAll l).1, (shrinkAll l).2)
  | _ :: _ => ([], some .attributeError)

omit [PyEnv] in
/-- `(shrinkDEPReceipt(r) for r in j)` (librksv/depparser.py:605): what the generator yields, and the
exception that ends it, if any.  Texts are iterated by character and dictionaries by key; other values
are refused with a `TypeError` as soon as the generator is made. -/
def receiptGen : Json → Res (List Bytes × Option Err)
  | .arr l => .ok (shrinkAll l)
  | .str s => .ok (s.map fun c => shrinkReceipt [c], none)
  | .obj d => .ok (d.map fun p => shrinkReceipt p.1, none)
  | _ => .error .typeError

/-- A group of which the receipts were not read yet. -/
structure LazyGroup where
  recs : List Bytes
  err : Option Err
  cert : Option Cert
  chain : List Cert

/-- `DictDEPParser._parseDEPGroup` (librksv/depparser.py:590-622).  The check at lines 613-617 never
fails since a generator is iterable. -/
def parseDEPGroup (j : Json) : Res LazyGroup := do
  let d ← orErr j.asObj .malformedDEP
  let jr ← orErr (Dict.get? d kRecs) .malformedDEP
  let jc ← orErr (Dict.get? d kCert) .malformedDEP
  let jl ← orErr (Dict.get? d kCerts) .malformedDEP
  let g ← receiptGen jr
  let c ← orErr jc.asStr .malformedDEP
  let l ← orErr jl.asArr .malformedDEP
  let cert ← parseOptCert (.str c)
  let chain ← mapRes parseDEPCert l
  .ok ⟨g.1, g.2, cert, chain⟩

/-- `DictDEPParser._groupChunkGen` for chunk size zero (librksv/depparser.py:624-633). -/
def groupPerChunk : List Json → Stream
  | [] => ⟨[], none⟩
  | j :: js =>
    match parseDEPGroup j with
    | .error e => ⟨[], some e⟩
    | .ok g =>
      match g.err with
      | some e => ⟨[], some e⟩
      | none =>
        if g.recs = [] then groupPerChunk js
        else ⟨[⟨g.recs, g.cert, g.chain⟩] :: (groupPerChunk js).chunks, (groupPerChunk js).err⟩

/-- The variables of `_groupChunkGen`: the chunks yielded so far, `chunk`, `nextrecs`, `chunklen`. -/
structure Fill where
  out : List Chunk
  chunk : Chunk
  next : List Bytes
  len : Nat

/-- One receipt (librksv/depparser.py:641-650). -/
def Fill.add (n : Nat) (cert : Option Cert) (chain : List Cert) (f : Fill) (r : Bytes) : Fill :=
  if n ≤ f.len + 1 then ⟨f.out ++ [f.chunk ++ [⟨f.next ++ [r], cert, chain⟩]], [], [], 0⟩
  else ⟨f.out, f.chunk, f.next ++ [r], f.len + 1⟩

/-- The end of a group (librksv/depparser.py:652-653). -/
def Fill.close (cert : Option Cert) (chain : List Cert) (f : Fill) : Fill :=
  if f.next = [] then f else ⟨f.out, f.chunk ++ [⟨f.next, cert, chain⟩], [], f.len⟩

/-- `DictDEPParser._groupChunkGen` for other chunk sizes (librksv/depparser.py:624, 635-657). -/
def groupChunkGen (n : Nat) (f : Fill) : List Json → Stream
  | [] => ⟨if 0 < f.len then f.out ++ [f.chunk] else f.out, none⟩
  | j :: js =>
    match parseDEPGroup j with
    | .error e => ⟨f.out, some e⟩
    | .ok g =>
      match g.err with
      | some e => ⟨(g.recs.foldl (Fill.add n g.cert g.chain) f).out, some e⟩
      | none => groupChunkGen n ((g.recs.foldl (Fill.add n g.cert g.chain) f).close g.cert g.chain) js

omit [PyEnv] in
/-- `_nrecs` (librksv/depparser.py:556-563).  Indexing anything but a dictionary with a text is a
`TypeError`. -/
def recsInGroup (j : Json) : Nat :=
  match j.asObj with
  | none => 0
  | some d =>
    match Dict.get? d kRecs with
    | some (.arr l) => l.length
    | _ => 0

omit [PyEnv] in
/-- `totalRecsInDictDEP` (librksv/depparser.py:555-569), for the list of groups. -/
def totalRecs (groups : List Json) : Nat := (groups.map recsInGroup).sum

omit [PyEnv] in
/-- `int(ceil(float(nrecs) / self.nparts))` (librksv/depparser.py:669-671).  The floating point result
is exact for fewer than 2^53 receipts. -/
def partSize (nrecs nparts : Nat) : Nat := (nrecs + nparts - 1) / nparts

/-- `DictDEPParser(dep, nparts).parse(chunksize)` (librksv/depparser.py:659-679).  `chunksize` and `nparts`
are taken to be non-negative, as documented. -/
def dictParse (nparts : Nat) (dep : Json) (chunksize : Nat) : Stream :=
  match dep.asObj with
  | none => ⟨[], some .malformedDEP⟩
  | some root =>
    match Dict.get? root kGroups with
    | some (.arr (j :: js)) =>
      let n := if 1 < nparts ∧ chunksize = 0 then partSize (totalRecs (j :: js)) nparts else chunksize
      let s := if n = 0 then groupPerChunk (j :: js) else groupChunkGen n ⟨[], [], [], 0⟩ (j :: js)
      if s.err = none ∧ s.chunks = [] then ⟨[], some .malformedDEP⟩ else s
    | _ => ⟨[], some .malformedDEP⟩

/-! ### Incremental parsing -/

omit [PyEnv] in
/-- The events of `ijson`; the different scalars other than texts do not matter. -/
inductive Ev where
  | startMap
  | mapKey (k : Str)
  | endMap
  | startArray
  | endArray
  | str (s : Str)
  | other
deriving DecidableEq

omit [PyEnv] in
mutual
/-- `ijson.parse` for a document: prefixes and events in order.  The JSON text itself is not modelled;
the document is given as a tree in which keys may be repeated.  The prefix of a value is its path joined
with dots, where elements of arrays are called `item`. -/
def Json.events (path : List Str) : Json → List (Str × Ev)
  | .null => [(joinWith '.' path, .other)]
  | .bool _ => [(joinWith '.' path, .other)]
  | .int _ => [(joinWith '.' path, .other)]
  | .float _ => [(joinWith '.' path, .other)]
  | .str s => [(joinWith '.' path, .str s)]
  | .arr l => (joinWith '.' path, .startArray) :: (arrEvents path l ++ [(joinWith '.' path, .endArray)])
  | .obj d => (joinWith '.' path, .startMap) :: (objEvents path d ++ [(joinWith '.' path, .endMap)])
def arrEvents (path : List Str) : List Json → List (Str × Ev)
  | [] => []
  | j :: l => j.events (path ++ [c!"item"]) ++ arrEvents path l
def objEvents (path : List Str) : List (Str × Json) → List (Str × Ev)
  | [] => []
  | p :: d => pairEvents path p ++ objEvents path d
def pairEvents (path : List Str) : Str × Json → List (Str × Ev)
  | (k, v) => (joinWith '.' path, .mapKey k) :: v.events (path ++ [k])
end

omit [PyEnv] in
mutual
/-- `ijson.items(fd, prefix)` for a document: the values with this prefix, in order.  (A value inside
a matching value never has the same prefix unless the prefix is empty.) -/
def Json.items (pfx : Str) (path : List Str) : Json → List Json
  | .arr l => if joinWith '.' path = pfx then [.arr l] else arrItems pfx path l
  | .obj d => if joinWith '.' path = pfx then [.obj d] else objItems pfx path d
  | .null => if joinWith '.' path = pfx then [.null] else []
  | .bool b => if joinWith '.' path = pfx then [.bool b] else []
  | .int n => if joinWith '.' path = pfx then [.int n] else []
  | .float x => if joinWith '.' path = pfx then [.float x] else []
  | .str s => if joinWith '.' path = pfx then [.str s] else []
def arrItems (pfx : Str) (path : List Str) : List Json → List Json
  | [] => []
  | j :: l => j.items pfx (path ++ [c!"item"]) ++ arrItems pfx path l
def objItems (pfx : Str) (path : List Str) : List (Str × Json) → List Json
  | [] => []
  | p :: d => pairItems pfx path p ++ objItems pfx path d
def pairItems (pfx : Str) (path : List Str) : Str × Json → List Json
  | (k, v) => v.items pfx (path ++ [k])
end

omit [PyEnv] in
/-- Which of the state classes is active. -/
inductive Ctl where
  | root
  | rootMap
  | groups
  | group
  | certList
  | recList
deriving DecidableEq

/-- The fields of the state objects (librksv/depparser.py:117-331).  All objects share one chunk, and the
objects for a group and its lists share the data of the group (`wip`); there is only one object of each
class at a time, so the fields can be kept in one place. -/
structure PState where
  ctl : Ctl := .root
  chunk : Chunk := []
  rootSeen : Bool := false
  groupsSeen : Bool := false
  curIdx : Nat := 0
  idx : Nat := 0
  wipCert : Option Cert := none
  wipChain : Option (List Cert) := none
  wipRecs : List Bytes := []
  recsSeen : Bool := false
  certSeen : Bool := false
  chainSeen : Bool := false

namespace PState

/-- `mergeIntoChunk` (librksv/depparser.py:188-195). -/
def merge (s : PState) : PState :=
  if s.wipRecs = [] then s
  else { s with chunk := s.chunk ++ [⟨s.wipRecs, s.wipCert, s.wipChain.getD []⟩], wipRecs := [] }

omit [PyEnv] in
def pGroup : Str := c!"Belege-Gruppe.item"
omit [PyEnv] in
def pCert : Str := c!"Belege-Gruppe.item.Signaturzertifikat"
omit [PyEnv] in
def pChain : Str := c!"Belege-Gruppe.item.Zertifizierungsstellen"
omit [PyEnv] in
def pChainItem : Str := c!"Belege-Gruppe.item.Zertifizierungsstellen.item"
omit [PyEnv] in
def pRecs : Str := c!"Belege-Gruppe.item.Belege-kompakt"
omit [PyEnv] in
def pRecsItem : Str := c!"Belege-Gruppe.item.Belege-kompakt.item"

/-- `DEPStateRoot.parse` (librksv/depparser.py:212-220). -/
def stepRoot (s : PState) (p : Str) (e : Ev) : Res PState :=
  if p = [] ∧ e = .startMap then
    if s.rootSeen then .error .malformedDEP
    else .ok { s with rootSeen := true, ctl := .rootMap, groupsSeen := false }
  else .error .malformedDEP

/-- `DEPStateRootMap.parse` (librksv/depparser.py:227-242). -/
def stepRootMap (s : PState) (p : Str) (e : Ev) : Res PState :=
  if p = [] ∧ e = .endMap then
    if s.groupsSeen then .ok { s with ctl := .root } else .error .malformedDEP
  else if p = kGroups then
    if e ≠ .startArray then .error .malformedDEP
    else if s.groupsSeen then .error .malformedDEP
    else .ok { s with groupsSeen := true, ctl := .groups, curIdx := 0 }
  else .ok s

/-- `DEPStateBGList.parse` (librksv/depparser.py:249-258): the end of the list, or a new group. -/
def stepGroups (s : PState) (p : Str) (e : Ev) : Res PState :=
  if p = kGroups ∧ e = .endArray then .ok { s with ctl := .rootMap }
  else if p = pGroup ∧ e = .startMap then
    .ok { s with ctl := .group, idx := s.curIdx, curIdx := s.curIdx + 1, wipCert := none,
                 wipChain := none, wipRecs := [], recsSeen := false, certSeen := false, chainSeen := false }
  else .error .malformedDEP

/-- `DEPStateGroup.parse` (librksv/depparser.py:267-307). -/
def stepGroup (s : PState) (p : Str) (e : Ev) : Res PState :=
  if p = pGroup ∧ e = .endMap then
    if s.certSeen ∧ s.chainSeen ∧ s.recsSeen then .ok { s.merge with ctl := .groups }
    else .error .malformedDEP
  else if p = pCert then
    if s.certSeen then .error .malformedDEP
    else match e with
      | .str t => do
        let c ← parseOptCert (.str t)
        .ok { s with certSeen := true, wipCert := c }
      | _ => .error .malformedDEP
  else if p = pChain then
    if s.chainSeen then .error .malformedDEP
    else if e ≠ .startArray then .error .malformedDEP
    else .ok { s with chainSeen := true, wipChain := some [], ctl := .certList }
  else if p = pRecs then
    if s.recsSeen then .error .malformedDEP
    else if e ≠ .startArray then .error .malformedDEP
    else .ok { s with recsSeen := true, ctl := .recList }
  else .ok s

/-- `DEPStateCertList.parse` (librksv/depparser.py:310-319). -/
def stepCertList (s : PState) (p : Str) (e : Ev) : Res PState :=
  if p = pChain ∧ e = .endArray then .ok { s with ctl := .group }
  else match e with
    | .str t =>
      if p = pChainItem then do
        let c ← parseDEPCert (.str t)
        .ok { s with wipChain := some (s.wipChain.getD [] ++ [c]) }
      else .error .malformedDEP
    | _ => .error .malformedDEP

/-- `DEPStateReceiptList.parse` (librksv/depparser.py:322-331). -/
def stepRecList (s : PState) (p : Str) (e : Ev) : Res PState :=
  if p = pRecs ∧ e = .endArray then .ok { s with ctl := .group }
  else match e with
    | .str t =>
      if p = pRecsItem then .ok { s with wipRecs := s.wipRecs ++ [shrinkReceipt t] }
      else .error .malformedDEP
    | _ => .error .malformedDEP

/-- `state.parse(prefix, event, value)`. -/
def step (s : PState) (x : Str × Ev) : Res PState :=
  match s.ctl with
  | .root => s.stepRoot x.1 x.2
  | .rootMap => s.stepRootMap x.1 x.2
  | .groups => s.stepGroups x.1 x.2
  | .group => s.stepGroup x.1 x.2
  | .certList => s.stepCertList x.1 x.2
  | .recList => s.stepRecList x.1 x.2

/-- Is the class one with data of a group? -/
def Inside (c : Ctl) : Bool :=
  match c with
  | .group => true
  | .certList => true
  | .recList => true
  | _ => false

/-- `currentChunksize` (librksv/depparser.py:145-146). -/
def size (s : PState) : Nat := (s.chunk.map fun g => g.recs.length).sum

/-- `ready` (librksv/depparser.py:148-152, 197-201) of the object of class `c`. -/
def ready (n : Nat) (c : Ctl) (s : PState) : Bool :=
  n ≠ 0 && decide (n ≤ s.size + if Inside c then s.wipRecs.length else 0)

/-- `setCrt` (librksv/depparser.py:184-186), if it is called. -/
def setCrt (s : PState) : Option (Option Cert × List Cert) → PState
  | some (cert, chain) => { s with wipCert := cert, wipChain := some chain }
  | none => s

/-- `needCrt`, `_needCerts` and `setCrt` for the object of class `c` (librksv/depparser.py:130-131, 179-186,
456-458).  `need` is `_needCerts` for the index of a group: an exception, nothing, or certificates. -/
def fetch (need : Nat → Res (Option (Option Cert × List Cert))) (c : Ctl) (s : PState) : Res PState :=
  if Inside c ∧ (s.wipCert = none ∨ s.wipChain = none) then do
    let x ← need s.idx
    .ok (s.setCrt x)
  else .ok s

/-- `getChunk` (librksv/depparser.py:154-162, 203-205) of the object of class `c`. -/
def getChunk (c : Ctl) (s : PState) : Chunk × PState :=
  let s := if Inside c then s.merge else s
  if s.size = 0 then ([], s) else (s.chunk, { s with chunk := [] })

/-- The body of the loop of `IncrementalDEPParser.parse` (librksv/depparser.py:452-463): the chunks
yielded, and the state or the exception. -/
def advance (need : Nat → Res (Option (Option Cert × List Cert))) (n : Nat) (s : PState) (x : Str × Ev) :
    List Chunk × Res PState :=
  match s.step x with
  | .error e => ([], .error e)
  | .ok s' =>
    if s'.ready n s.ctl then
      match s'.fetch need s.ctl with
      | .error e => ([], .error e)
      | .ok s'' => ([(s''.getChunk s.ctl).1], .ok (s''.getChunk s.ctl).2)
    else ([], .ok s')

/-- The loop. -/
def run (need : Nat → Res (Option (Option Cert × List Cert))) (n : Nat) (s : PState) :
    List (Str × Ev) → List Chunk × Res PState
  | [] => ([], .ok s)
  | x :: xs =>
    match advance need n s x with
    | (out, .error e) => (out, .error e)
    | (out, .ok s') => (out ++ (run need n s' xs).1, (run need n s' xs).2)

end PState

/-- `IncrementalDEPParser.parse` (librksv/depparser.py:446-473) for the events of a file.  `bad` tells that
`ijson` raises an exception after these events. -/
def incParse (need : Nat → Res (Option (Option Cert × List Cert))) (n : Nat) (bad : Bool)
    (xs : List (Str × Ev)) : Stream :=
  match PState.run need n {} xs with
  | (out, .error e) => ⟨out, some e⟩
  | (out, .ok s) =>
    if bad then ⟨out, some .malformedDEP⟩
    else if (s.getChunk s.ctl).1 ≠ [] then ⟨out ++ [(s.getChunk s.ctl).1], none⟩
    else if out = [] then ⟨out, some .malformedDEP⟩
    else ⟨out, none⟩

/-- The certificates of `[parseDEPCert(cs) for cs in cert_str_list]` for any JSON value
(librksv/depparser.py:546). -/
def parseChain : Json → Res (List Cert)
  | .arr l => mapRes parseDEPCert l
  | .str s => mapRes (fun c => parseDEPCert (.str [c])) s
  | .obj d => mapRes (fun p => parseDEPCert (.str p.1)) d
  | _ => .error .typeError

/-- `FileDEPParser._needCerts` (librksv/depparser.py:525-547).  The cache only saves time, as long as the
file does not change. -/
def fileNeed (doc : Json) (i : Nat) : Res (Option (Option Cert × List Cert)) := do
  let jc ← orErr ((doc.items PState.pCert [])[i]?) .indexError
  let jl ← orErr ((doc.items PState.pChain [])[i]?) .indexError
  let cert ← parseOptCert jc
  let chain ← parseChain jl
  .ok (some (cert, chain))

/-- `FileDEPParser.parse` (librksv/depparser.py:549-552). -/
def fileParse (doc : Json) (n : Nat) : Stream := incParse (fileNeed doc) n false (doc.events [])

/-- `StreamDEPParser.parse` (librksv/depparser.py:488-494). -/
def streamParse (doc : Json) (n : Nat) : Stream :=
  incParse (fun _ => .error .malformedDEP) n false (doc.events [])

/-- `CertlessStreamDEPParser.parse` (librksv/depparser.py:496-511). -/
def certlessParse (doc : Json) (n : Nat) : Stream :=
  incParse (fun _ => .ok none) n false (doc.events [])

end

end RKSV
