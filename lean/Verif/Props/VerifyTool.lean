import Verif.Model.VerifyTool
import Verif.Props.Accept
import Verif.Props.ChunkSize
import Verif.Props.StateJson
/-
Property C74: the number of processes and the chunk size given to verify.py do not matter.
-/
namespace RKSV

section
variable [PyEnv]

omit [PyEnv] in
/-- States that result from verifying DEPs: every register has a receipt, and the IDs are those of
receipts. -/
structure Settled (c : Cluster) : Prop where
  regs : ∀ r ∈ c.regs, Consistent r ∧ ¬Blank r.last
  used : c.regs = [] → c.used = c.used.fresh

/-- A DEP on which the modes agree: its keys are ordinary, its receipts are given as arrays, and every group
with receipts has a certificate or there is only one. -/
structure GoodDoc (dep : Json) : Prop where
  plain : PlainDoc dep
  arrays : NoTextReceipts dep
  certs : ∀ gs, DepJson dep gs →
    (gs.filter fun g => g.recs ≠ []).length ≤ 1 ∨ ∀ g ∈ gs, g.recs ≠ [] → g.cert ≠ none

/-- The mode is possible, and a pipe is used only if the whole DEP is read at once or all groups start with
their certificates. -/
structure GoodMode (m : Mode) (dep : Json) : Prop where
  procs : 1 ≤ m.nprocs
  order : ∀ s, (m.order s).toFinset = s
  file : m.seekable = true ∨ m.chunksize = 0 ∨
    CertsFirst dep ∧ ∀ gs, DepJson dep gs → ∀ g ∈ gs, g.cert ≠ none

theorem groups_settled {key : Option Bytes} {ps : Option Str} {P : List (List Bytes × Verifier)}
    (hP : Able P) {s s' : RegState} {used used' : Used}
    (ok : verifyGroups key ps s used P = .ok (s', used')) (hc : Consistent s)
    (hl : ¬Blank s.last ∨ (P.map (·.1)).flatten ≠ []) : Consistent s' ∧ ¬Blank s'.last := by
  induction P generalizing s used with
  | nil =>
    cases ok
    exact ⟨hc, by simpa using hl⟩
  | cons p P ih =>
    obtain ⟨g, v⟩ := p
    simp only [verifyGroups, Res.bind_eq_ok] at ok
    obtain ⟨⟨s1, u1⟩, h1, h2⟩ := ok
    have hv := hP (g, v) (by simp)
    refine ih (fun q hq => hP q (by simp [hq])) h2 (consistent_kept (c := ⟨v, key, ps⟩) hv hc h1) ?_
    obtain ⟨saved, h, hs, hr, hall, ha, -⟩ := (group_accepted_iff (c := ⟨v, key, ps⟩) hv).mp h1
    have hlast := ha.last
    cases e : h.getLast? with
    | none =>
      rw [e] at hlast
      rw [List.getLast?_eq_none_iff] at e
      subst e
      have hg : g = [] := hr.1
      have hlast : s1.last = s.last := hlast
      rw [hlast]
      simpa [hg] using hl
    | some z =>
      rw [e] at hlast
      have hlast : s1.last = some z.1 := hlast
      have hz := (hr.2 z (List.mem_of_getLast? e)).ne_nil
      left
      simp [hlast, Blank, hz]

/-- After an error of the parser nothing is accepted. -/
theorem runBatches_err {wk : Workers} {ks : KeyStore} {key : Option Bytes} {ps : Option Str} {s : RegState}
    {used : Used} {pending : Option (List Task)} {e : Err} {bs : List (List Chunk)} {x : RegState × Used} :
    runBatches wk ks key ps s used pending (some e) bs ≠ .ok x := by
  induction bs generalizing s used pending with
  | nil => simp [runBatches]
  | cons b bs ih =>
    intro h
    simp only [runBatches, Res.bind_eq_ok] at h
    obtain ⟨_, _, _, _, _, _, h⟩ := h
    exact ih h

theorem parsed_err {wk : Workers} {nprocs : Int} {ks : KeyStore} {key : Option Bytes} {c c' : Cluster}
    {idx : Option Int} {dep : Stream} (h : verifyParsedDEP wk nprocs ks key c idx dep = (c', .ok ())) :
    dep.err = none := by
  by_contra he
  obtain ⟨e, he⟩ := Option.ne_none_iff_exists'.mp he
  unfold verifyParsedDEP at h
  rcases hg : c.getInfo idx with ⟨c₁, e | ⟨ps, s, used⟩⟩
  · rw [hg] at h; cases h
  · rw [hg] at h
    simp only [he] at h
    split at h
    · cases h
    · rename_i hr
      exact runBatches_err hr

theorem settled_first {c : Cluster} (hc : Settled c) {ks : KeyStore} {key : Option Bytes} {idx : Option Int}
    {dep : Stream} {c' : Cluster} (h : verifyDEP ks key c idx dep = (c', .ok ())) :
    FirstFresh c.used (dep.chunks.flatten.flatMap (·.recs)) := by
  obtain ⟨-, c₁, ps, s, P, s', u', i, hi, hp, hv, -⟩ := verifyDEP_iff.mp h
  have hrecs := packageChunk_recs hp
  have hb : (¬Blank s.last ∨ ¬Blank ps) → FirstFresh c.used (dep.chunks.flatten.flatMap (·.recs)) := by
    intro hb
    have := firstFresh_of_before (packageChunk_able hp) hv hb
    rw [hrecs] at this
    exact this
  cases hi with
  | new _ h hl =>
    rcases List.eq_nil_or_concat c.regs with hn | ⟨l, z, hn⟩
    · rw [hc.used hn]
      exact firstFresh_of_fresh _ _
    · obtain ⟨t, ht, hne⟩ := hl z (by simp [hn])
      exact hb (.inr (by simp [hn, ht, Blank, hne]))
  | first r h => exact hb (.inl (hc.regs s (List.mem_of_getElem? h)).2)
  | later i p r hp h => exact hb (.inl (hc.regs s (List.mem_of_getElem? h)).2)

/-- An accepted DEP leaves the state settled. -/
theorem settled_kept {c : Cluster} (hc : Settled c) {ks : KeyStore} {key : Option Bytes} {idx : Option Int}
    {dep : Stream} (hne : dep.chunks.flatten.flatMap (·.recs) ≠ [])
    {c' : Cluster} (h : verifyDEP ks key c idx dep = (c', .ok ())) : Settled c' := by
  rw [verifyDEP_iff] at h
  obtain ⟨-, c₁, ps, s, P, s', u', i, hi, hp, hv, hri, hidx, rfl⟩ := h
  have hrecs := packageChunk_recs hp
  have hs : Consistent s := by
    rcases hi.reg with h | rfl
    · exact (hc.regs s h).1
    · exact fresh_consistent
  have hnew := groups_settled (packageChunk_able hp) hv hs (.inr (by rw [hrecs]; exact hne))
  have hlt := (List.getElem?_eq_some_iff.mp hri).1
  refine ⟨?_, ?_⟩
  · intro r hr
    have hold : r ∈ c.regs ∨ r = s' := by
      cases hi with
      | new _ h hl =>
        have e : i = c.regs.length := by
          rcases hidx with rfl | ⟨-, h'⟩
          · rcases h with h | h
            · cases h
            · simpa using h
          · exact h'
        subst e
        simpa using hr
      | first => exact List.mem_or_eq_of_mem_set hr
      | later => exact List.mem_or_eq_of_mem_set hr
    rcases hold with hr | rfl
    · exact hc.regs r hr
    · exact hnew
  · intro e
    have := congrArg List.length e
    simp only [List.length_set, List.length_nil] at this
    omega

/-- The chunks for a mode. -/
theorem mode_chunks {dep : Json} {gs : List DepGroup} (hd : PlainDoc dep) (h : DepJson dep gs)
    (hsome : ∃ g ∈ gs, g.recs ≠ []) (nparts n : Nat) :
    (∃ chunks, dictParse nparts dep n = ⟨chunks, none⟩ ∧ chunks ≠ [] ∧ Chunked gs chunks) ∧
    ∃ chunks, fileParse dep n = ⟨chunks, none⟩ ∧ chunks ≠ [] ∧ Chunked gs chunks := by
  refine ⟨dict_chunked h _ _ hsome, ?_⟩
  by_cases hn : n = 0
  · subst hn
    rw [file_single_chunk h hd hsome]
    exact ⟨_, rfl, by simp, [numbered 0 gs], by simp, .cons (grouped_all gs) .nil⟩
  · rw [file_eq_dict (nparts := 1) h hd hn]
    exact dict_chunked h _ _ hsome

/-- Verifying the parts of a DEP does the same as verifying the whole DEP at once. -/
theorem parsed_mode_iff {dep : Json} (hd : GoodDoc dep) {c : Cluster} (hc : Settled c) {ks : KeyStore} {key : Option Bytes}
    {idx : Option Int} {c' : Cluster} {wk : Workers} {nprocs : Int} {parts : Stream}
    (hwk : (∃ pick, wk = .pool pick) ∨ nprocs ≤ 1)
    (herr : parts.err = none ↔ ∃ gs, DepJson dep gs ∧ ∃ g ∈ gs, g.recs ≠ [])
    (hparts : ∀ gs, DepJson dep gs → (∃ g ∈ gs, g.recs ≠ []) →
      ∃ chunks, parts = ⟨chunks, none⟩ ∧ chunks ≠ [] ∧ Chunked gs chunks) :
    verifyParsedDEP wk nprocs ks key c idx parts = (c', .ok ()) ↔
      verifyDEP ks key c idx (dictParse 1 dep 0) = (c', .ok ()) := by
  by_cases hex : ∃ gs, DepJson dep gs ∧ ∃ g ∈ gs, g.recs ≠ []
  · obtain ⟨gs, hgs, hsome⟩ := hex
    obtain ⟨chunks, rfl, h2, h3⟩ := hparts gs hgs hsome
    have hz := dict_chunks_zero hgs (nparts := 1) (le_refl _) hsome
    have := chunk_size_partial (ks := ks) (key := key) (c := c) (c' := c') (idx := idx)
      hz (parts := ⟨chunks, none⟩) h3 h2 rfl hwk fun r hr => (hc.regs r hr).1
    constructor
    · exact fun hv => (this.mpr ⟨hv, hd.certs gs hgs⟩).1
    · intro hv
      refine (this.mp ⟨hv, ?_⟩).1
      have hf := settled_first hc hv
      rw [hz] at hf
      have e : ∀ l : List DepGroup, ((l.filter fun g => g.recs ≠ []).map fun g => [g]).flatten.flatMap (·.recs) =
          l.flatMap (·.recs) := by
        intro l
        induction l with
        | nil => rfl
        | cons g l ih =>
          by_cases hg : g.recs = []
          · rw [List.filter_cons_of_neg (by simp [hg]), ih]; simp [hg]
          · rw [List.filter_cons_of_pos (by simp [hg])]
            simp only [List.map_cons, List.flatten_cons, List.cons_append, List.nil_append, List.flatMap_cons, ih]
      rw [e] at hf
      exact hf
  · constructor
    · exact fun hv => absurd (herr.mp (parsed_err hv)) hex
    · exact fun hv => absurd ((dict_accepts_iff_partial hd.arrays 1 0).mp (verifyDEP_iff.mp hv).1) hex

/-- Every mode does the same as verifying the whole DEP at once in one process. -/
theorem toolVerify_iff {m : Mode} {dep : Json} (hm : GoodMode m dep) (hd : GoodDoc dep) {c : Cluster} (hc : Settled c)
    {ks : KeyStore} {key : Option Bytes} {idx : Option Int} {c' : Cluster} :
    toolVerify m ks key c idx dep = (c', .ok ()) ↔
      verifyDEP ks key c idx (dictParse 1 dep 0) = (c', .ok ()) := by
  have hfd : ∀ {wk : Workers} {nprocs : Int}, m.chunksize ≠ 0 → ((∃ pick, wk = .pool pick) ∨ nprocs ≤ 1) →
      (verifyParsedDEP wk nprocs ks key c idx (fdParse m.seekable dep m.chunksize) = (c', .ok ()) ↔
        verifyDEP ks key c idx (dictParse 1 dep 0) = (c', .ok ())) := by
    intro wk nprocs hn hwk
    rcases (Bool.eq_false_or_eq_true m.seekable) with h | h
    · rw [h]
      exact parsed_mode_iff hd hc hwk (file_accepts_iff hd.plain _) fun gs h hs => (mode_chunks hd.plain h hs 1 m.chunksize).2
    · rw [h]
      have hf : CertsFirst dep ∧ ∀ gs, DepJson dep gs → ∀ g ∈ gs, g.cert ≠ none := by
        rcases hm.file with h' | h' | h'
        · rw [h] at h'; cases h'
        · exact absurd h' hn
        · exact h'
      exact parsed_mode_iff hd hc hwk (stream_accepts_iff_partial hd.plain hf.1 hf.2 hn) fun gs h hs => by
        have e : fdParse false dep m.chunksize = dictParse 1 dep m.chunksize :=
          (stream_eq_dict h hd.plain hf.1 (hf.2 gs h) hn).1
        rw [e]
        exact (mode_chunks hd.plain h hs 1 m.chunksize).1
  unfold toolVerify
  by_cases h1 : 1 < m.nprocs
  · rw [if_pos h1]
    by_cases h0 : m.chunksize = 0
    · rw [if_pos h0]
      exact parsed_mode_iff hd hc (.inl ⟨_, rfl⟩) (dict_accepts_iff_partial hd.arrays _ _) fun gs h hs =>
        (mode_chunks hd.plain h hs m.nprocs 0).1
    · rw [if_neg h0]
      exact hfd h0 (.inl ⟨_, rfl⟩)
  · rw [if_neg h1]
    by_cases h0 : m.chunksize = 0
    · rw [if_pos h0]
    · rw [if_neg h0]
      exact hfd h0 (.inr (by omega))

/-- Some DEPs are not verified at all, e.g. those without receipts. -/
theorem accepted_receipts {dep : Json} (hd : GoodDoc dep) {c : Cluster} {ks : KeyStore} {key : Option Bytes}
    {idx : Option Int} {c' : Cluster} (h : verifyDEP ks key c idx (dictParse 1 dep 0) = (c', .ok ())) :
    (dictParse 1 dep 0).chunks.flatten.flatMap (·.recs) ≠ [] := by
  obtain ⟨gs, hgs, g, hg, hr⟩ := (dict_accepts_iff_partial hd.arrays 1 0).mp (verifyDEP_iff.mp h).1
  rw [dict_chunks_zero hgs (nparts := 1) (le_refl _) ⟨g, hg, hr⟩]
  intro e
  rw [List.flatMap_eq_nil_iff] at e
  refine hr (e g ?_)
  rw [List.mem_flatten]
  refine ⟨[g], List.mem_map.mpr ⟨g, List.mem_filter.mpr ⟨hg, by simpa using hr⟩, rfl⟩, by simp⟩

omit [PyEnv] in
theorem settled_new (backend : Used) : Settled ⟨[], backend.fresh⟩ :=
  ⟨by simp, fun _ => (fresh_fresh backend).symm⟩

/-- A run without state. -/
theorem verifyTool_none {m : Mode} {dep : Json} (hm : GoodMode m dep) (hd : GoodDoc dep) {backend : Used}
    {sel : Select} {store : Json} {out : Option Json} :
    verifyTool backend.fresh m sel store dep none = .ok out ↔
      out = none ∧ ∃ key ks c', loadKeyFromJson store = .ok key ∧ readStoreFromJson store = .ok ks ∧
        verifyDEP ks key ⟨[], backend.fresh⟩ (sel.index none) (dictParse 1 dep 0) = (c', .ok ()) := by
  simp only [verifyTool, Res.bind_eq_ok]
  constructor
  · rintro ⟨key, hk, ks, hs, h⟩
    split at h
    · cases h
    · rename_i c' hv
      cases h
      exact ⟨rfl, key, ks, c', hk, hs, (toolVerify_iff hm hd (settled_new backend)).mp hv⟩
  · rintro ⟨rfl, key, ks, c', hk, hs, hv⟩
    refine ⟨key, hk, ks, hs, ?_⟩
    rw [(toolVerify_iff hm hd (settled_new backend)).mpr hv]

/-- A run with a state. -/
theorem verifyTool_some {m : Mode} {dep : Json} (hm : GoodMode m dep) (hd : GoodDoc dep) {backend : Used}
    {sel : Select} {store : Json} {j : Json} {c : Cluster} (hj : Cluster.fromJson j = .ok c) (hc : Settled c)
    {out : Option Json} :
    verifyTool backend m sel store dep (some j) = .ok out ↔
      ∃ key ks c', loadKeyFromJson store = .ok key ∧ readStoreFromJson store = .ok ks ∧
        verifyDEP ks key c (sel.index (some c)) (dictParse 1 dep 0) = (c', .ok ()) ∧
        out = some (c'.toJson m.order) := by
  simp only [verifyTool, Res.bind_eq_ok, hj, Except.ok.injEq, exists_eq_left']
  constructor
  · rintro ⟨key, hk, ks, hs, h⟩
    split at h
    · cases h
    · rename_i c' hv
      cases h
      exact ⟨key, ks, c', hk, hs, (toolVerify_iff hm hd hc).mp hv, rfl⟩
  · rintro ⟨key, ks, c', hk, hs, hv, rfl⟩
    refine ⟨key, hk, ks, hs, ?_⟩
    rw [(toolVerify_iff hm hd hc).mpr hv]

/-- C74 for one DEP: with any number of processes and any chunk size the same DEPs are accepted; if the
state is passed through, the states printed are read as the same state. -/
theorem verify_tool_modes_partial {m m' : Mode} {dep : Json} (hm : GoodMode m dep) (hm' : GoodMode m' dep)
    (hd : GoodDoc dep) (backend : Used) (sel : Select) (store : Json) :
    ((∃ out, verifyTool backend.fresh m sel store dep none = .ok out) ↔
      ∃ out, verifyTool backend.fresh m' sel store dep none = .ok out) ∧
    ∀ j c, Cluster.fromJson j = .ok c → Settled c → ∀ c',
      (∃ j', verifyTool backend.fresh m sel store dep (some j) = .ok (some j') ∧ Cluster.fromJson j' = .ok c') ↔
      ∃ j', verifyTool backend.fresh m' sel store dep (some j) = .ok (some j') ∧ Cluster.fromJson j' = .ok c' := by
  have aux : ∀ {m m' : Mode}, GoodMode m dep → GoodMode m' dep → ∀ {j c}, Cluster.fromJson j = .ok c → Settled c → ∀ {c'},
      (∃ j', verifyTool backend.fresh m sel store dep (some j) = .ok (some j') ∧ Cluster.fromJson j' = .ok c') →
      ∃ j', verifyTool backend.fresh m' sel store dep (some j) = .ok (some j') ∧ Cluster.fromJson j' = .ok c' := by
    rintro m m' hm hm' j c hj hc c' ⟨j', h, hj'⟩
    obtain ⟨key, ks, c', h1, h2, h3, e⟩ := (verifyTool_some hm hd hj hc).mp h
    cases e
    rw [state_json_round_trip _ hm.order] at hj'
    cases hj'
    exact ⟨_, (verifyTool_some hm' hd hj hc).mpr ⟨key, ks, c', h1, h2, h3, rfl⟩,
      state_json_round_trip _ hm'.order c'⟩
  refine ⟨?_, fun j c hj hc c' => ⟨aux hm hm' hj hc, aux hm' hm hj hc⟩⟩
  simp only [verifyTool_none hm hd, verifyTool_none hm' hd]

/-- C74 for sequences of DEPs: starting from an empty state and passing the state from one run to the next,
the DEPs are all accepted with one choice of processes and chunk sizes exactly if they are with any other, and
the final states are read as the same state. -/
theorem verify_tool_session_partial (backend : Used) {l l' : List (Mode × Job)} (hl : l.map (·.2) = l'.map (·.2))
    (hm : ∀ x ∈ l, GoodMode x.1 x.2.dep) (hm' : ∀ x ∈ l', GoodMode x.1 x.2.dep) (hd : ∀ x ∈ l, GoodDoc x.2.dep)
    {j j' : Json} (hj : Cluster.fromJson j = .ok ⟨[], backend.fresh⟩)
    (hj' : Cluster.fromJson j' = .ok ⟨[], backend.fresh⟩) (c : Cluster) :
    (∃ e, toolSession backend l j = .ok e ∧ Cluster.fromJson e = .ok c) ↔
      ∃ e, toolSession backend l' j' = .ok e ∧ Cluster.fromJson e = .ok c := by
  suffices H : ∀ (l l' : List (Mode × Job)), l.map (·.2) = l'.map (·.2) → (∀ x ∈ l, GoodMode x.1 x.2.dep) →
      (∀ x ∈ l', GoodMode x.1 x.2.dep) → (∀ x ∈ l, GoodDoc x.2.dep) → ∀ (j j' : Json) (s : Cluster), Settled s →
      Cluster.fromJson j = .ok s → Cluster.fromJson j' = .ok s →
      (∃ e, toolSession backend l j = .ok e ∧ Cluster.fromJson e = .ok c) →
      ∃ e, toolSession backend l' j' = .ok e ∧ Cluster.fromJson e = .ok c by
    have hd' : ∀ x ∈ l', GoodDoc x.2.dep := by
      intro x hx
      have : x.2 ∈ l.map (·.2) := hl ▸ List.mem_map.mpr ⟨x, hx, rfl⟩
      obtain ⟨y, hy, e⟩ := List.mem_map.mp this
      exact e ▸ hd y hy
    exact ⟨H l l' hl hm hm' hd j j' _ (settled_new backend) hj hj',
      H l' l hl.symm hm' hm hd' j' j _ (settled_new backend) hj' hj⟩
  clear hl hm hm' hd hj hj' l l' j j'
  intro l
  induction l with
  | nil =>
    rintro (_ | ⟨y, l'⟩) hl - - - j j' s - hj hj' ⟨e, h, he⟩
    · cases h
      rw [hj] at he
      cases he
      exact ⟨j', rfl, hj'⟩
    · cases hl
  | cons x l ih =>
    obtain ⟨m, job⟩ := x
    rintro (_ | ⟨⟨m', job'⟩, l'⟩) hl hm hm' hd j j' s hs hj hj' ⟨e, h, he⟩
    · cases hl
    · simp only [List.map_cons, List.cons.injEq] at hl
      obtain ⟨rfl, hl⟩ := hl
      have gm := hm _ List.mem_cons_self
      have gm' := hm' _ List.mem_cons_self
      have gd := hd _ List.mem_cons_self
      simp only [toolSession, Res.bind_eq_ok, orErr_eq_ok] at h
      obtain ⟨out, h1, k, rfl, h2⟩ := h
      obtain ⟨key, ks, d, hkey, hks, hv, eq⟩ := (verifyTool_some gm gd hj hs).mp h1
      cases eq
      have hset := settled_kept hs (accepted_receipts gd hv) hv
      obtain ⟨e', h3, he'⟩ := ih l' hl (fun x hx => hm x (by simp [hx])) (fun x hx => hm' x (by simp [hx]))
        (fun x hx => hd x (by simp [hx])) _ (d.toJson m'.order) d hset (state_json_round_trip _ gm.order d)
        (state_json_round_trip _ gm'.order d) ⟨e, h2, he⟩
      refine ⟨e', ?_, he'⟩
      simp only [toolSession, Res.bind_eq_ok, orErr_eq_ok]
      exact ⟨_, (verifyTool_some gm' gd hj' hs).mpr ⟨key, ks, d, hkey, hks, hv, rfl⟩, _, rfl, h3⟩

end

namespace Demo

attribute [local instance] env

def storeJson : Json := deviceStore.toJson (some (b64Encode false aes))

def partDoc (l : List Str) : Json := .obj [(kGroups, .arr [groupRecsFirst (names l) (exportCertToPEM device) []])]

theorem partDoc_good (l : List Str) : GoodDoc (partDoc l) := by
  refine ⟨?_, ?_, ?_⟩
  · refine .mk _ (by simp [Dict.keys]) ?_ ?_
    · simp only [Dict.keys, List.map_cons, List.map_nil, List.mem_cons, List.not_mem_nil, or_false]
      rintro k rfl
      decide +kernel
    · intro js h d hd
      cases h
      simp only [List.mem_cons, List.not_mem_nil, or_false] at hd
      cases hd
      simp only [Dict.keys, List.map_cons, List.map_nil]
      decide +kernel
  · intro root js d v h hr hd hv
    cases h
    cases hr
    simp only [List.mem_cons, List.not_mem_nil, or_false] at hd
    cases hd
    cases hv
    simp [names]
  · intro gs h
    left
    cases h with
    | mk _ js _ hr hg =>
      cases hr
      exact (List.length_filter_le _ _).trans (by rw [← hg.length_eq]; rfl)

set_option maxRecDepth 100000 in
theorem part1_ok : ∃ c, verifyDEP deviceStore (some aes) empty none (dictParse 1 (partDoc (texts.take 3)) 0) =
    (c, .ok ()) ∧ verifyDEP deviceStore (some aes) c (Select.last.index (some c))
      (dictParse 1 (partDoc (texts.drop 3)) 0) = (⟨[final], .unique ids⟩, .ok ()) :=
  ⟨_, eq_of_isDone (c := (verifyDEP deviceStore (some aes) empty none (dictParse 1 (partDoc (texts.take 3)) 0)).1)
    (by decide +kernel), eq_of_isDone (by decide +kernel)⟩

/-- The day of the register in two DEPs, with any modes. -/
theorem day_session (m₁ m₂ : Mode) (h₁ : GoodMode m₁ (partDoc (texts.take 3)))
    (h₂ : GoodMode m₂ (partDoc (texts.drop 3))) :
    toolSession (.unique ∅) [(m₁, ⟨.fresh, storeJson, partDoc (texts.take 3)⟩),
        (m₂, ⟨.last, storeJson, partDoc (texts.drop 3)⟩)] (empty.toJson m₁.order) =
      .ok (Cluster.toJson m₂.order ⟨[final], .unique ids⟩) := by
  have hk : loadKeyFromJson storeJson = .ok (some aes) := rfl
  have hs : readStoreFromJson storeJson = .ok deviceStore := rfl
  obtain ⟨c, h1, h2⟩ := part1_ok
  have e0 : Settled empty := settled_new (.unique ∅)
  have e1 := settled_kept e0 (accepted_receipts (partDoc_good _) h1) h1
  simp only [toolSession, Res.bind_eq_ok, orErr_eq_ok]
  exact ⟨_, (verifyTool_some h₁ (partDoc_good _) (state_json_round_trip _ h₁.order _) e0).mpr
      ⟨_, _, c, hk, hs, h1, rfl⟩, _, rfl, _,
    (verifyTool_some h₂ (partDoc_good _) (state_json_round_trip _ h₁.order _) e1).mpr
      ⟨_, _, _, hk, hs, h2, rfl⟩, _, rfl, rfl⟩

/-- The receipts of the day as the keys of a dictionary. -/
def keysDay : Json :=
  .obj [(kGroups, .arr [groupRecsFirst (.obj (texts.map fun t => (t, .null))) (exportCertToPEM device) []])]

set_option maxRecDepth 100000 in
/-- Why the documents are restricted: this one is accepted with chunk size 0 and refused with any other,
here 5. -/
theorem modes_differ :
    isOk (toolVerify { chunksize := 0, order := fun _ => [] } deviceStore (some aes) empty none keysDay).2 () = true ∧
    (toolVerify { chunksize := 5, order := fun _ => [] } deviceStore (some aes) empty none keysDay).2 =
      .error .malformedDEP := by
  decide +kernel

end Demo

end RKSV
