import Verif.Props.Accept
import Verif.Props.LineTools
import Verif.Props.VerifyTool
/-
C91: what the tools do with inputs that are no DEPs.
-/
namespace RKSV

section
variable [PyEnv]

/-- A DEP with receipts that can all be read. -/
def ReadableDep (doc : Json) : Prop :=
  ∃ gs, DepJson doc gs ∧ (∃ g ∈ gs, g.recs ≠ []) ∧ ∀ b ∈ depReceipts gs, ∃ r alg, ReadsAs b r alg

theorem file_receipts {doc : Json} {gs : List DepGroup} (h : DepJson doc gs) (hp : PlainDoc doc)
    (hsome : ∃ g ∈ gs, g.recs ≠ []) (n : Nat) :
    (fileParse doc n).err = none ∧ depReceipts (fileParse doc n).chunks.flatten = depReceipts gs := by
  obtain ⟨h1, h2, -, -⟩ := parse_chained h hsome (n := n) (nparts := 1) (s := fileParse doc n) (.inr ⟨hp, rfl⟩)
  have hr : ∀ l : List DepGroup, depReceipts l = (chainedDep l).map (·.1) := by
    intro l
    simp [depReceipts, chainedDep, List.map_flatMap, Function.comp_def]
  exact ⟨h1, by rw [hr, h2, ← hr]⟩

/-- Groups can be read exactly if all receipts can be read. -/
theorem adapt_iff {l : List DepGroup} :
    (∃ gs, mapRes adaptGroup l = .ok gs) ↔ ∀ b ∈ depReceipts l, ∃ r alg, ReadsAs b r alg := by
  constructor
  · rintro ⟨gs, h⟩ b hb
    obtain ⟨r, -, h⟩ := forall₂_mem_right (List.Forall₂.flip (adapt_reads h)) hb
    exact ⟨r.1, r.2, h⟩
  · intro h
    exact adapt_total fun g hg b hb => h b (List.mem_flatMap.mpr ⟨g, hg, hb⟩)

/-- The same for a parser. -/
theorem adaptStream_iff {doc : Json} {s : Stream}
    (hs : s.err = none → ∃ gs, DepJson doc gs ∧ ∃ g ∈ gs, g.recs ≠ [])
    (hr : ∀ gs, DepJson doc gs → (∃ g ∈ gs, g.recs ≠ []) → s.err = none ∧ depReceipts s.chunks.flatten = depReceipts gs) :
    (∃ gs, adaptStream s = .ok gs) ↔ ReadableDep doc := by
  constructor
  · rintro ⟨gs, h⟩
    simp only [adaptStream, Res.bind_eq_ok] at h
    obtain ⟨gs', h1, h2⟩ := h
    cases he : s.err with
    | some e => simp [he] at h2
    | none =>
      obtain ⟨gs0, d1, d2⟩ := hs he
      exact ⟨gs0, d1, d2, by rw [← (hr gs0 d1 d2).2]; exact adapt_iff.mp ⟨gs', h1⟩⟩
  · rintro ⟨gs0, d1, d2, d3⟩
    obtain ⟨he, e⟩ := hr gs0 d1 d2
    rw [← e] at d3
    obtain ⟨gs, h⟩ := adapt_iff.mpr d3
    exact ⟨gs, by simp [adaptStream, h, he, Res.ok_bind]⟩

/-! ### The tools -/

/-- C91: split.py ends without an error exactly for DEPs with receipts that can all be read. -/
theorem split_ends_iff {doc : Json} (hp : PlainDoc doc) (n : Nat) : (splitDEP n doc).2 = none ↔ ReadableDep doc := by
  have hsplit : ∀ (cs : List Chunk) (err : Option Err), (splitChunks cs err).2 = none ↔
      err = none ∧ ∃ gs, mapRes adaptGroup cs.flatten = .ok gs := by
    intro cs err
    induction cs with
    | nil => exact ⟨fun h => ⟨h, [], rfl⟩, fun h => h.1⟩
    | cons c cs ih =>
      rw [adapt_iff] at ih
      rw [adapt_iff]
      have ha := adapt_iff (l := c)
      rw [show depReceipts (c :: cs).flatten = depReceipts c ++ depReceipts cs.flatten by simp [depReceipts]]
      cases hc : mapRes adaptGroup c with
      | error e =>
        rw [splitChunks, hc]
        refine Iff.intro (fun h => nomatch h) fun h => ?_
        obtain ⟨gs, hgs⟩ := ha.mpr fun b hb => h.2 b (List.mem_append_left _ hb)
        rw [hc] at hgs
        cases hgs
      | ok gs =>
        rw [splitChunks, hc]
        show (splitChunks cs err).2 = none ↔ _
        rw [ih]
        have := ha.mp ⟨gs, hc⟩
        constructor
        · rintro ⟨h1, h2⟩
          refine ⟨h1, fun b hb => ?_⟩
          rcases List.mem_append.mp hb with hb | hb
          · exact this b hb
          · exact h2 b hb
        · rintro ⟨h1, h2⟩
          exact ⟨h1, fun b hb => h2 b (List.mem_append_right _ hb)⟩
  rw [splitDEP, hsplit, ← adaptStream_iff (file_accepts_iff hp n).mp (fun gs h1 h2 => file_receipts h1 hp h2 n)]
  simp only [adaptStream, Res.bind_eq_ok]
  constructor
  · rintro ⟨h1, gs, h2⟩
    exact ⟨gs, gs, h2, by rw [h1]⟩
  · rintro ⟨gs, gs', h1, h2⟩
    cases he : (fileParse doc n).err with
    | some e => simp [he] at h2
    | none => exact ⟨rfl, gs', h1⟩

/-- C91: merge.py prints a DEP exactly if all files are DEPs with receipts that can all be read. -/
theorem merge_ends_iff {docs : List Json} (hp : ∀ doc ∈ docs, PlainDoc doc) (merging : Bool) (n : Nat) :
    (∃ out, mergeDEP merging n docs = .ok out) ↔ ∀ doc ∈ docs, ReadableDep doc := by
  have h : (∃ out, mergeDEP merging n docs = .ok out) ↔ ∃ gss, mapRes (fun doc => adaptStream (fileParse doc n)) docs = .ok gss := by
    simp only [mergeDEP, Res.bind_eq_ok, Except.ok.injEq]
    constructor
    · rintro ⟨_, gss, h, -⟩
      exact ⟨gss, h⟩
    · rintro ⟨gss, h⟩
      exact ⟨_, gss, h, rfl⟩
  rw [h]
  simp only [mapRes_iff]
  have key : ∀ doc ∈ docs, (∃ gs, adaptStream (fileParse doc n) = .ok gs) ↔ ReadableDep doc := fun doc hd =>
    adaptStream_iff (file_accepts_iff (hp doc hd) n).mp (fun gs h1 h2 => file_receipts h1 (hp doc hd) h2 n)
  clear h hp
  induction docs with
  | nil => exact ⟨fun _ => by simp, fun _ => ⟨[], .nil⟩⟩
  | cons doc docs ih =>
    have ih := ih fun d hd => key d (List.mem_cons_of_mem _ hd)
    have k := key doc List.mem_cons_self
    rw [List.forall_mem_cons]
    constructor
    · rintro ⟨gss, h⟩
      cases h with
      | cons h1 h2 => exact ⟨k.mp ⟨_, h1⟩, ih.mp ⟨_, h2⟩⟩
    · rintro ⟨h1, h2⟩
      obtain ⟨_, h1⟩ := k.mpr h1
      obtain ⟨_, h2⟩ := ih.mpr h2
      exact ⟨_, .cons h1 h2⟩

/-- C91: convert.py prints a table exactly for DEPs with receipts that can all be read. -/
theorem json2csv_ends_iff {doc : Json} (hp : PlainDoc doc) (n : Nat) :
    (∃ text, json2csv n doc = .ok text) ↔ ReadableDep doc := by
  rw [← adaptStream_iff (certless_accepts_iff hp n).mp (fun gs h1 h2 => certless_receipts h1 hp h2 n)]
  simp only [json2csv, exportCSV, Res.bind_eq_ok, Except.ok.injEq]
  constructor
  · rintro ⟨_, gs, h, -⟩
    exact ⟨gs, h⟩
  · rintro ⟨gs, h⟩
    have hp : ∀ r ∈ gs.flatMap (·.recs), Parsed r.1 r.2 := by
      simp only [adaptStream, Res.bind_eq_ok] at h
      obtain ⟨gs', h1, h2⟩ := h
      intro r hr
      cases he : (certlessParse doc n).err with
      | some e => simp [he] at h2
      | none =>
        simp only [he, Except.ok.injEq] at h2
        subst h2
        obtain ⟨b, -, hb⟩ := forall₂_mem_right (adapt_reads h1) hr
        exact hb.parsed
    have : ∃ rows, mapRes (fun r : Receipt × Str => r.1.toCSV r.2) (gs.flatMap (·.recs)) = .ok rows := by
      revert hp
      generalize gs.flatMap (·.recs) = l
      intro hp
      induction l with
      | nil => exact ⟨[], rfl⟩
      | cons r l ih =>
        obtain ⟨rows, hrows⟩ := ih fun r hr => hp r (List.mem_cons_of_mem _ hr)
        obtain ⟨row, hrow⟩ := csv_total (hp r List.mem_cons_self)
        exact ⟨row :: rows, by simp [mapRes, hrow, hrows, Res.ok_bind]⟩
    obtain ⟨rows, hrows⟩ := this
    exact ⟨_, gs, h, _, ⟨rows, hrows, rfl⟩, rfl⟩

/-- C91: the receipt server starts exactly for DEPs with receipts that can all be read. -/
theorem host_starts_iff {doc : Json} (hp : PlainDoc doc) (n : Nat) : (∃ d, hostDEP n doc = .ok d) ↔ ReadableDep doc := by
  constructor
  · rintro ⟨d, h⟩
    have he : (certlessParse doc n).err = none := by
      simp only [hostDEP, Res.bind_eq_ok] at h
      obtain ⟨_, -, _, -, h⟩ := h
      cases he : (certlessParse doc n).err with
      | some e => simp [he] at h
      | none => rfl
    obtain ⟨gs, h1, h2⟩ := (certless_accepts_iff hp n).mp he
    obtain ⟨ts, h3, h4, -⟩ := host_dep_iff h1 hp h2 (n := n)
    refine ⟨gs, h1, h2, fun b hb => ?_⟩
    rw [h3] at hb
    obtain ⟨t, ht, rfl⟩ := List.mem_map.mp hb
    obtain ⟨r, alg, hr⟩ := h4.mp ⟨d, h⟩ t ht
    exact ⟨r, alg, t, rfl, hr⟩
  · rintro ⟨gs, h1, h2, h3⟩
    obtain ⟨ts, h4, h5, -⟩ := host_dep_iff h1 hp h2 (n := n)
    refine h5.mpr fun t ht => ?_
    obtain ⟨r, alg, t', e, hr⟩ := h3 (utf8Enc t) (by rw [h4]; exact List.mem_map_of_mem ht)
    rw [utf8Enc_injective e]
    exact ⟨r, alg, hr⟩

/-- C91: cert_extract.py ends without an error exactly for DEPs with receipts, which it does not read. -/
theorem cert_extract_ends_iff {doc : Json} (hp : PlainDoc doc) (n : Nat) :
    (certExtract n doc).2 = none ↔ ∃ gs, DepJson doc gs ∧ ∃ g ∈ gs, g.recs ≠ [] :=
  certless_accepts_iff hp n

/-- C91: updating a register from a document that is no DEP with receipts fails and leaves the state as it was. -/
theorem state_update_refused {dep : Json} (hp : PlainDoc dep) (hno : ¬∃ gs, DepJson dep gs ∧ ∃ g ∈ gs, g.recs ≠ [])
    (v : PyVersion) (backend : Used) (size : Nat) (order : Finset Str → List Str) (file : Json) (n : Int) (key : Option Bytes) :
    ∃ e, stateTool v backend size order file (.update n dep key) = (file, .error e) := by
  have h : ∃ e, stateCommand v backend size file (.update n dep key) = .error e := by
    cases hc : stateCommand v backend size file (.update n dep key) with
    | error e => exact ⟨e, rfl⟩
    | ok c =>
      simp only [stateCommand, Res.bind_eq_ok] at hc
      obtain ⟨_, -, _, -, hc⟩ := hc
      cases he : (certlessParse dep size).err with
      | some e => simp [he] at hc
      | none => exact absurd ((certless_accepts_iff hp size).mp he) hno
  obtain ⟨e, h⟩ := h
  exact ⟨e, by simp only [stateTool, h]⟩

/-- C91: verify.py accepts nothing but DEPs with receipts.  Without chunks, receipts given as a text or as a dictionary are taken
apart (`Demo.dict_takes_keys`). -/
theorem verify_tool_accepts_only {dep : Json} (hp : PlainDoc dep) {m : Mode} (hm : m.chunksize = 0 → NoTextReceipts dep)
    {backend : Used} {sel : Select} {store : Json} {state : Option Json} {out : Option Json}
    (h : verifyTool backend m sel store dep state = .ok out) : ∃ gs, DepJson dep gs ∧ ∃ g ∈ gs, g.recs ≠ [] := by
  have key : ∀ {ks : KeyStore} {key : Option Bytes} {c c' : Cluster} {idx : Option Int},
      toolVerify m ks key c idx dep = (c', .ok ()) → ∃ gs, DepJson dep gs ∧ ∃ g ∈ gs, g.recs ≠ [] := by
    intro ks key c c' idx h
    have hfd : (fdParse m.seekable dep m.chunksize).err = none → ∃ gs, DepJson dep gs ∧ ∃ g ∈ gs, g.recs ≠ [] := by
      intro h
      unfold fdParse at h
      split at h
      · exact (file_accepts_iff hp _).mp h
      · exact stream_accepts_only hp h
    unfold toolVerify at h
    by_cases h0 : m.chunksize = 0
    · simp only [h0, if_true] at h
      split at h
      · exact (dict_accepts_iff_partial (hm h0) _ _).mp (parsed_err h)
      · exact (dict_accepts_iff_partial (hm h0) _ _).mp (verifyDEP_iff.mp h).1
    · simp only [h0, if_false] at h
      split at h
      · exact hfd (parsed_err h)
      · exact hfd (parsed_err h)
  unfold verifyTool at h
  simp only [Res.bind_eq_ok] at h
  obtain ⟨k, -, ks, -, h⟩ := h
  cases state with
  | none =>
    simp only at h
    split at h
    · cases h
    · rename_i he
      exact key he
  | some j =>
    simp only [Res.bind_eq_ok] at h
    obtain ⟨c, -, h⟩ := h
    split at h
    · cases h
    · rename_i he
      exact key he

end

namespace Demo

attribute [local instance] env

/-- A document with a group but without receipts. -/
def noReceipts : Json := .obj [(kGroups, .arr [.obj [(kCert, .str []), (kCerts, .arr []), (kRecs, .arr [])]])]

theorem noReceipts_plain : PlainDoc noReceipts := by
  refine ⟨_, by decide, by decide, ?_⟩
  intro js hjs d hd
  cases hjs
  cases List.mem_singleton.mp hd
  decide

theorem noReceipts_empty : ¬∃ gs, DepJson noReceipts gs ∧ ∃ g ∈ gs, g.recs ≠ [] :=
  fun h => absurd ((file_accepts_iff noReceipts_plain 1).mpr h) (by decide +kernel)

/-- The hypotheses of `state_update_refused` can be met. -/
example (file : Json) (order : Finset Str → List Str) :
    ∃ e, stateTool .py3 (.unique ∅) 2 order file (.update 0 noReceipts none) = (file, .error e) :=
  state_update_refused noReceipts_plain noReceipts_empty _ _ _ _ _ _ _

set_option maxRecDepth 100000 in
/-- A DEP with readable receipts, for which the tools end without an error. -/
example (n : Nat) : (splitDEP n (partDoc texts)).2 = none ∧ (∃ d, hostDEP n (partDoc texts) = .ok d) ∧
    ∃ text, json2csv n (partDoc texts) = .ok text := by
  have hp := (partDoc_good texts).plain
  have h : ReadableDep (partDoc texts) := (split_ends_iff hp 1).mp (by
    have h : (splitDEP 1 (partDoc texts)).2.isNone = true := by decide +kernel
    exact Option.isNone_iff_eq_none.mp h)
  exact ⟨(split_ends_iff hp n).mpr h, (host_starts_iff hp n).mpr h, (json2csv_ends_iff hp n).mpr h⟩

end Demo

end RKSV
