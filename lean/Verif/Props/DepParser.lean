import Verif.Lemmas.IncParser
import Verif.Props.Parallel
/-
Properties C51 to C55: the DEP parsers.
-/
namespace RKSV

section
variable [PyEnv]

/-! ### Chunks -/

theorem Grouped.recs {gs : List DepGroup} {T : List (Nat × Bytes)} {c : Chunk} (h : Grouped gs T c) :
    c.flatMap (·.recs) = T.map (·.2) := by
  induction h with
  | nil => rfl
  | snoc T c i g recs h hlt hg hr ih => simp [ih, Function.comp_def]

theorem Grouped.length {gs : List DepGroup} {T : List (Nat × Bytes)} {c : Chunk} (h : Grouped gs T c) :
    (c.map fun g => g.recs.length).sum = T.length := by
  have := congrArg List.length h.recs
  rwa [List.length_flatMap, List.length_map] at this

theorem Grouped.nonempty {gs : List DepGroup} {T : List (Nat × Bytes)} {c : Chunk} (h : Grouped gs T c) :
    ∀ p ∈ c, p.recs ≠ [] ∧ ∃ g ∈ gs, p.cert = g.cert ∧ p.chain = g.chain := by
  induction h with
  | nil => simp
  | snoc T c i g recs h hlt hg hr ih =>
    intro p hp
    rcases List.mem_append.mp hp with hp | hp
    · exact ih p hp
    · rw [List.mem_singleton] at hp
      subst hp
      exact ⟨hr, g, List.mem_of_getElem? hg, rfl, rfl⟩

/-- The chunk is determined by its receipts. -/
theorem grouped_unique {gs : List DepGroup} {T : List (Nat × Bytes)} {c c' : Chunk} (h : Grouped gs T c)
    (h' : Grouped gs T c') : c = c' := by
  induction h generalizing c' with
  | nil =>
    cases hT : c' with
    | nil => rfl
    | cons p c =>
      have := h'.nonempty p (by simp [hT])
      have hl := h'.length
      simp [hT] at hl
      exact absurd hl.1 this.1
  | snoc T c i g recs h hlt hg hr ih =>
    generalize hU : T ++ recs.map (fun r => (i, r)) = U at h'
    cases h' with
    | nil =>
      have := congrArg List.length hU
      simp at this
      exact absurd this.2 hr
    | snoc T' c' i' g' recs' h' hlt' hg' hr' =>
      have lastOf : ∀ (T : List (Nat × Bytes)) (recs : List Bytes) (i : Nat), recs ≠ [] →
          ((T ++ recs.map fun r => (i, r)).getLast?.map (·.1)) = some i := by
        intro T recs i hr
        obtain ⟨l, a, rfl⟩ := List.eq_nil_or_concat recs |>.resolve_left hr
        simp
      have hi : i = i' := by
        have h1 := lastOf T recs i hr
        rw [hU, lastOf T' recs' i' hr'] at h1
        exact (Option.some.inj h1).symm
      subst hi
      have cut : ∀ (T : List (Nat × Bytes)) (recs : List Bytes), (∀ x ∈ T, x.1 < i) →
          (T ++ recs.map fun r => (i, r)).filter (fun x => decide (x.1 < i)) = T := by
        intro T recs hlt
        rw [List.filter_append, List.filter_eq_self.mpr (fun x hx => by simpa using hlt x hx)]
        rw [List.filter_eq_nil_iff.mpr]
        · simp
        · intro x hx
          obtain ⟨r, -, rfl⟩ := List.mem_map.mp hx
          simp
      have hT : T = T' := by rw [← cut T recs hlt, hU, cut T' recs' hlt']
      subst hT
      have hrecs := List.append_cancel_left hU
      have : recs = recs' := by
        have := congrArg (List.map (·.2)) hrecs
        simpa [Function.comp_def] using this
      subst this
      rw [hg] at hg'
      cases hg'
      rw [ih h']

omit [PyEnv] in
theorem CutEvery.length {α : Type} {n : Nat} {l : List α} {ps : List (List α)} (h : CutEvery n l ps)
    (hne : ps ≠ []) : (ps.length - 1) * n < l.length := by
  obtain ⟨rfl, hp⟩ := h
  obtain ⟨pre, p, rfl⟩ := List.eq_nil_or_concat ps |>.resolve_left hne
  have h1 : ∀ q ∈ pre, q.length = n := by
    intro q hq
    obtain ⟨a, b, rfl⟩ := List.append_of_mem hq
    exact (hp a q (b ++ [p]) (by simp)).2.2 (by simp)
  have h2 := (hp pre p [] (by simp)).1
  have h3 : pre.flatten.length = pre.length * n := by
    clear hp hne
    induction pre with
    | nil => simp
    | cons q pre ih =>
      rw [List.flatten_cons, List.length_append, ih (fun q hq => h1 q (by simp [hq])), h1 q (by simp),
        List.length_cons, Nat.succ_mul, Nat.add_comm]
  have h4 : 0 < p.length := List.length_pos_iff.mpr h2
  rw [List.concat_eq_append, List.length_append, List.flatten_append, List.length_append, h3,
    List.length_singleton, Nat.add_sub_cancel, List.flatten_singleton]
  omega

theorem numbered_recs (k : Nat) (gs : List DepGroup) :
    (numbered k gs).map (·.2) = gs.flatMap (·.recs) := by
  induction gs generalizing k with
  | nil => rfl
  | cons g gs ih => simp [numbered, ih, Function.comp_def]

theorem numbered_length (k : Nat) (gs : List DepGroup) :
    (numbered k gs).length = (gs.map fun g => g.recs.length).sum := by
  induction gs generalizing k with
  | nil => rfl
  | cons g gs ih => simp [numbered, ih]

theorem finish_nil {n : Nat} (hn : n ≠ 0) (gs : List DepGroup) :
    (Fill.groups n ⟨[], [], [], 0⟩ gs).finish = [] ↔ ∀ g ∈ gs, g.recs = [] := by
  obtain ⟨Ts, hcut, hall⟩ := fill_chunks hn gs
  have h1 : (Fill.groups n ⟨[], [], [], 0⟩ gs).finish = [] ↔ Ts = [] := by
    rw [← List.length_eq_zero_iff, ← hall.length_eq, List.length_eq_zero_iff]
  have h2 : Ts = [] ↔ numbered 0 gs = [] := by
    constructor
    · rintro rfl; exact hcut.1.symm
    · intro h
      by_contra hne
      have := hcut.length hne
      rw [h] at this
      simp at this
  have h3 : numbered 0 gs = [] ↔ gs.flatMap (·.recs) = [] := by
    rw [← numbered_recs 0 gs, List.map_eq_nil_iff]
  rw [h1, h2, h3, List.flatMap_eq_nil_iff]

/-- C51: the chunks are the receipts of the DEP cut every `n`, and every chunk holds its receipts in
groups with the certificates of the groups they come from. -/
theorem dict_chunks {j : Json} {gs : List DepGroup} (h : DepJson j gs) {nparts n : Nat} (hn : n ≠ 0)
    (hsome : ∃ g ∈ gs, g.recs ≠ []) :
    ∃ chunks Ts, dictParse nparts j n = ⟨chunks, none⟩ ∧ CutEvery n (numbered 0 gs) Ts ∧
      List.Forall₂ (Grouped gs) Ts chunks := by
  obtain ⟨Ts, hcut, hall⟩ := fill_chunks hn gs
  refine ⟨_, Ts, ?_, hcut, hall⟩
  rw [dictParse_json h hn, if_neg]
  rw [finish_nil hn]
  obtain ⟨g, hg, hne⟩ := hsome
  exact fun h => hne (h g hg)

/-- C51, in terms of receipts only. -/
theorem dict_chunk_sizes {j : Json} {gs : List DepGroup} (h : DepJson j gs) {nparts n : Nat} (hn : n ≠ 0)
    (hsome : ∃ g ∈ gs, g.recs ≠ []) :
    ∃ chunks, dictParse nparts j n = ⟨chunks, none⟩ ∧
      chunks.flatten.flatMap (·.recs) = gs.flatMap (·.recs) ∧
      (∀ c ∈ chunks, c ≠ [] ∧ ∀ p ∈ c, p.recs ≠ [] ∧ ∃ g ∈ gs, p.cert = g.cert ∧ p.chain = g.chain) ∧
      ∀ pre c post, chunks = pre ++ c :: post →
        (c.map fun p => p.recs.length).sum ≤ n ∧ (post ≠ [] → (c.map fun p => p.recs.length).sum = n) := by
  obtain ⟨chunks, Ts, h1, hcut, hall⟩ := dict_chunks h (nparts := nparts) hn hsome
  have hsplit : ∀ pre c post, chunks = pre ++ c :: post → ∃ pre' T post', Ts = pre' ++ T :: post' ∧
      Grouped gs T c ∧ (post = [] ↔ post' = []) := by
    intro pre c post e
    clear h1 hcut
    induction hall generalizing pre with
    | nil => simp at e
    | @cons T c' Ts chunks h4 h5 ih =>
      cases pre with
      | nil =>
        simp only [List.nil_append, List.cons.injEq] at e
        obtain ⟨rfl, rfl⟩ := e
        refine ⟨[], T, Ts, rfl, h4, ?_⟩
        rw [← List.length_eq_zero_iff, ← h5.length_eq, List.length_eq_zero_iff]
      | cons x pre =>
        simp only [List.cons_append, List.cons.injEq] at e
        obtain ⟨pre', T', post', e', h6, h7⟩ := ih pre e.2
        exact ⟨T :: pre', T', post', by rw [e', List.cons_append], h6, h7⟩
  refine ⟨chunks, h1, ?_, ?_, ?_⟩
  · rw [← numbered_recs 0 gs, ← hcut.1]
    clear h1 hcut hsplit
    induction hall with
    | nil => rfl
    | cons hT _ ih => simp [ih, hT.recs]
  · intro c hc
    obtain ⟨pre, post, e⟩ := List.append_of_mem hc
    obtain ⟨pre', T, post', e', hT, -⟩ := hsplit pre c post e
    refine ⟨?_, hT.nonempty⟩
    rintro rfl
    have := hT.length
    have hne := (hcut.2 pre' T post' e').1
    simp at this
    exact hne (List.length_eq_zero_iff.mp this.symm)
  · intro pre c post e
    obtain ⟨pre', T, post', e', hT, hp⟩ := hsplit pre c post e
    rw [hT.length]
    obtain ⟨-, a, b⟩ := hcut.2 pre' T post' e'
    exact ⟨a, fun hne => b (fun h => hne (hp.mpr h))⟩

/-- C51: without chunk size every group that is not empty is a chunk. -/
theorem dict_chunks_zero {j : Json} {gs : List DepGroup} (h : DepJson j gs) {nparts : Nat} (hn : nparts ≤ 1)
    (hsome : ∃ g ∈ gs, g.recs ≠ []) :
    dictParse nparts j 0 = ⟨(gs.filter fun g => g.recs ≠ []).map fun g => [g], none⟩ := by
  rw [dictParse_zero h hn, if_neg]
  obtain ⟨g, hg, hne⟩ := hsome
  intro e
  have := List.filter_eq_nil_iff.mp e g hg
  simp [hne] at this

/-- C51: a DEP without receipts is refused. -/
theorem dict_no_receipts {j : Json} {gs : List DepGroup} (h : DepJson j gs) {nparts n : Nat}
    (hnone : ∀ g ∈ gs, g.recs = []) : dictParse nparts j n = ⟨[], some .malformedDEP⟩ := by
  have hz : (gs.filter fun g => g.recs ≠ []) = [] := by
    rw [List.filter_eq_nil_iff]
    intro g hg
    simp [hnone g hg]
  by_cases hn : n = 0
  · subst hn
    by_cases hp : 1 < nparts
    · obtain ⟨root, js, gs, hr, hg⟩ := h
      simp only [dictParse, Json.asObj]
      rw [show Dict.get? root kGroups = _ from hr]
      cases js with
      | nil => rfl
      | cons j js =>
        have h0 : totalRecs (j :: js) = 0 := by
          rw [totalRecs_json hg, List.sum_eq_zero]
          intro x hx
          obtain ⟨g, hg, rfl⟩ := List.mem_map.mp hx
          simp [hnone g hg]
        have : partSize 0 nparts = 0 := by
          unfold partSize
          exact Nat.div_eq_of_lt (by omega)
        simp only [h0, this, hp, and_self, if_true, groupPerChunk_json hg, hz, List.map_nil]
    · rw [dictParse_zero h (by omega), if_pos hz]
  · rw [dictParse_json h hn, if_pos ((finish_nil hn gs).mpr hnone)]

/-- With parts the chunk size is never zero and is enough for all receipts. -/
theorem dict_part_size {j : Json} {gs : List DepGroup} (h : DepJson j gs) {nparts : Nat} (hn : 1 < nparts)
    (hsome : ∃ g ∈ gs, g.recs ≠ []) : ∃ n, n ≠ 0 ∧ (gs.map fun g => g.recs.length).sum ≤ nparts * n ∧
      dictParse nparts j 0 = dictParse nparts j n := by
  have hpos : 0 < (gs.map fun g => g.recs.length).sum := by
    obtain ⟨g, hg, hne⟩ := hsome
    have h1 := List.single_le_sum (l := gs.map fun g => g.recs.length) (fun _ _ => Nat.zero_le _) _
      (List.mem_map.mpr ⟨g, hg, rfl⟩)
    have h2 := List.length_pos_iff.mpr hne
    omega
  refine ⟨_, ?_, ?_, dictParse_parts h hn⟩
  all_goals
    generalize (gs.map fun g => g.recs.length).sum = N at hpos
    have hdm := Nat.div_add_mod (N + nparts - 1) nparts
    have hlt := Nat.mod_lt (N + nparts - 1) (show 0 < nparts by omega)
    unfold partSize
  · intro h0
    rw [h0] at hdm
    omega
  · generalize (N + nparts - 1) / nparts = q at *
    omega

/-- C52. -/
theorem dict_parts {j : Json} {gs : List DepGroup} (h : DepJson j gs) {nparts : Nat} (hn : 1 < nparts) :
    (dictParse nparts j 0).chunks.length ≤ nparts := by
  by_cases hsome : ∃ g ∈ gs, g.recs ≠ []
  · obtain ⟨n, h1, h2, h0⟩ := dict_part_size h hn hsome
    obtain ⟨chunks, Ts, e, hcut, hall⟩ := dict_chunks h (nparts := nparts) h1 hsome
    rw [h0, e]
    simp only
    rw [← hall.length_eq]
    by_contra hgt
    have hne : Ts ≠ [] := by rintro rfl; simp at hgt
    have h3 := hcut.length hne
    rw [numbered_length] at h3
    have h4 : nparts * n ≤ (Ts.length - 1) * n := Nat.mul_le_mul_right _ (by omega)
    omega
  · push Not at hsome
    rw [dict_no_receipts h hsome]
    simp

/-! ### Incremental parsing -/

omit [PyEnv] in
theorem Unrepeated.elems {root : Dict Json} (h : Unrepeated (.obj root)) {js : List Json}
    (hj : (c!"Belege-Gruppe", Json.arr js) ∈ root) {d : Dict Json} (hd : Json.obj d ∈ js) (k : Str) (hk : GroupElem k) :
    (Dict.keys d).count k ≤ 1 := by
  obtain ⟨h1, h2, h3⟩ := (h root rfl).2 js hj d hd
  rcases hk with rfl | rfl | rfl
  · exact h1
  · exact h2
  · exact h3

omit [PyEnv] in
theorem PlainDoc.keys {doc : Json} (hp : PlainDoc doc) : PlainKeys doc := by
  rintro root rfl k hk
  cases hp with
  | mk _ _ keys _ => exact keys k hk

omit [PyEnv] in
theorem PlainDoc.unrepeated {doc : Json} (hp : PlainDoc doc) : Unrepeated doc := by
  rintro root rfl
  cases hp with
  | mk _ nodup _ groups =>
    refine ⟨count_of_nodup nodup _, ?_⟩
    intro js hj d hd
    have := groups js (Dict.get?_eq_some_of_mem nodup hj) d hd
    exact ⟨count_of_nodup this _, count_of_nodup this _, count_of_nodup this _⟩

/-- C97: what the parser for files reads from a text in which no element of a DEP is repeated. -/
theorem text_eq_dict {doc : Json} {gs : List DepGroup} (h : DepJson doc gs) (hp : PlainKeys doc) (hu : Unrepeated doc)
    {nparts n : Nat} (hn : n ≠ 0) : fileParse doc n = dictParse nparts doc n := by
  rw [dictParse_json h hn]
  obtain ⟨root, js, gs, hr, hg⟩ := h
  have he : ∀ d, Json.obj d ∈ js → ∀ k, GroupElem k → (Dict.keys d).count k ≤ 1 := fun d hd => hu.elems (Dict.mem_of_get? hr) hd
  exact incParse_json hn (hu root rfl).1 (fun k hk => (hp root rfl k hk).1) hr he hg
    (fun i g hi => .inl (fileNeed_json (hu root rfl).1 (fun k hk => (hp root rfl k hk).2) hr he hg hi))

/-- C53: for a file and a chunk size other than zero the incremental parser yields the same chunks as
the parser for values in memory, whatever the order of the elements. -/
theorem file_eq_dict {doc : Json} {gs : List DepGroup} (h : DepJson doc gs) (hp : PlainDoc doc) {nparts n : Nat}
    (hn : n ≠ 0) : fileParse doc n = dictParse nparts doc n :=
  text_eq_dict h hp.keys hp.unrepeated hn

/-- C54: if the certificates come first and no group lacks one, the parsers for streams yield the same
chunks. -/
theorem stream_eq_dict {doc : Json} {gs : List DepGroup} (h : DepJson doc gs) (hp : PlainDoc doc)
    (hf : CertsFirst doc) (hc : ∀ g ∈ gs, g.cert ≠ none) {nparts n : Nat} (hn : n ≠ 0) :
    streamParse doc n = dictParse nparts doc n ∧ certlessParse doc n = dictParse nparts doc n := by
  rw [dictParse_json h hn]
  obtain ⟨root, js, gs, hr, hg⟩ := h
  obtain ⟨_, h1, h2, h3⟩ := hp
  have key : ∀ (need : Nat → Res (Option (Option Cert × List Cert))) (i : Nat) (g : DepGroup), gs[i]? = some g →
      (g.cert ≠ none ∨ need i = .ok none) ∧ ∀ d, js[i]? = some (Json.obj d) →
      ∀ (a : Dict Json) v b, d = a ++ (kRecs, v) :: b → kCert ∈ a.keys ∧ kCerts ∈ a.keys :=
    fun _ i g hi => ⟨.inl (hc g (List.mem_of_getElem? hi)), fun d hd a v b e =>
      hf root js d rfl hr (List.mem_of_getElem? hd) a v b e⟩
  exact ⟨incParse_json hn (count_of_nodup h1 _) (fun k hk => (h2 k hk).1) hr
      (fun d hd k _ => count_of_nodup (h3 js hr d hd) k) hg (fun i g hi => .inr (key (fun _ => .error .malformedDEP) i g hi)),
    incParse_json hn (count_of_nodup h1 _) (fun k hk => (h2 k hk).1) hr
      (fun d hd k _ => count_of_nodup (h3 js hr d hd) k) hg (fun i g hi => .inr (key (fun _ => .ok none) i g hi))⟩

/-- C54: if the certificates come first, the parser that does not need them still yields the same chunks, with the
certificates. -/
theorem certless_eq_dict {doc : Json} {gs : List DepGroup} (h : DepJson doc gs) (hp : PlainDoc doc)
    (hf : CertsFirst doc) {nparts n : Nat} (hn : n ≠ 0) : certlessParse doc n = dictParse nparts doc n := by
  rw [dictParse_json h hn]
  obtain ⟨root, js, gs, hr, hg⟩ := h
  obtain ⟨_, h1, h2, h3⟩ := hp
  exact incParse_json hn (count_of_nodup h1 _) (fun k hk => (h2 k hk).1) hr
      (fun d hd k _ => count_of_nodup (h3 js hr d hd) k) hg (fun i g hi => .inr ⟨.inr rfl,
    fun d hd a v b e => hf root js d rfl hr (List.mem_of_getElem? hd) a v b e⟩)

/-! ### Errors -/

omit [PyEnv] in
theorem shrinkAll_error {l : List Json} {b : List Bytes} {e : Err} (h : shrinkAll l = (b, some e)) :
    e = .attributeError ∧ ∃ j ∈ l, ∀ s, j ≠ .str s := by
  induction l generalizing b with
  | nil => cases h
  | cons j l ih =>
    cases j with
    | str s =>
      simp only [shrinkAll, Prod.mk.injEq] at h
      obtain ⟨h1, k, hk, h2⟩ := ih (b := (shrinkAll l).1) (by rw [← h.2])
      exact ⟨h1, k, by simp [hk], h2⟩
    | _ =>
      simp only [shrinkAll, Prod.mk.injEq, Option.some.injEq] at h
      exact ⟨h.2.symm, _, List.mem_cons_self, by simp⟩

/-- The element with the receipts is something else than a list of texts. -/
def OddReceipts (j : Json) : Prop :=
  ∃ d v, j = .obj d ∧ Dict.get? d c!"Belege-kompakt" = some v ∧ ∀ rs : List Str, v ≠ .arr (rs.map .str)

theorem parseDEPGroup_error {j : Json} {e : Err} (h : parseDEPGroup j = .error e) :
    e = .malformedDEP ∨ e = .malformedDEPCertificate ∨ (e = .typeError ∧ OddReceipts j) := by
  unfold parseDEPGroup at h
  simp only [Res.bind_eq_error, orErr_eq_error, orErr_eq_ok, Json.asObj_eq_some] at h
  rcases h with h | ⟨d, rfl, h⟩
  · exact .inl h.2.symm
  rcases h with h | ⟨jr, hr, h⟩
  · exact .inl h.2.symm
  rcases h with h | ⟨jc, hc, h⟩
  · exact .inl h.2.symm
  rcases h with h | ⟨jl, hl, h⟩
  · exact .inl h.2.symm
  rcases h with h | ⟨g, hg, h⟩
  · refine .inr (.inr ?_)
    cases jr <;> simp only [receiptGen, reduceCtorEq, Except.error.injEq] at h <;>
      exact ⟨h.symm, d, _, rfl, hr, by simp⟩
  rcases h with h | ⟨c, -, h⟩
  · exact .inl h.2.symm
  rcases h with h | ⟨l, -, h⟩
  · exact .inl h.2.symm
  rcases h with h | ⟨cert, -, h⟩
  · exact .inr (.inl (parseOptCert_error h))
  rcases h with h | ⟨chain, -, h⟩
  · exact .inr (.inl (parseChain_error h))
  · cases h

theorem parseDEPGroup_gen {j : Json} {g : LazyGroup} (h : parseDEPGroup j = .ok g) {e : Err}
    (he : g.err = some e) : e = .attributeError ∧ OddReceipts j := by
  unfold parseDEPGroup at h
  simp only [Res.bind_eq_ok, orErr_eq_ok, Json.asObj_eq_some, Except.ok.injEq] at h
  obtain ⟨d, rfl, jr, hr, jc, hc, jl, hl, x, hx, c, -, l, -, cert, -, chain, -, rfl⟩ := h
  simp only at he
  cases jr <;> simp only [receiptGen, reduceCtorEq, Except.ok.injEq] at hx <;> subst hx
  case arr l =>
    obtain ⟨h1, k, hk, h2⟩ := shrinkAll_error (b := (shrinkAll l).1) (Prod.ext rfl he)
    refine ⟨h1, d, _, rfl, hr, ?_⟩
    intro rs e
    cases e
    obtain ⟨s, -, rfl⟩ := List.mem_map.mp hk
    exact h2 s rfl
  all_goals cases he

/-- What may go wrong in the groups. -/
def DepError (js : List Json) (e : Err) : Prop :=
  e = .malformedDEP ∨ e = .malformedDEPCertificate ∨
    ((e = .typeError ∨ e = .attributeError) ∧ ∃ j ∈ js, OddReceipts j)

omit [PyEnv] in
theorem DepError.cons {j : Json} {js : List Json} {e : Err} (h : DepError js e) : DepError (j :: js) e := by
  rcases h with h | h | ⟨h, k, hk, h'⟩
  · exact .inl h
  · exact .inr (.inl h)
  · exact .inr (.inr ⟨h, k, by simp [hk], h'⟩)

theorem DepError.parse {j : Json} {js : List Json} {e : Err} (h : parseDEPGroup j = .error e) :
    DepError (j :: js) e := by
  rcases parseDEPGroup_error h with h | h | ⟨h, h'⟩
  · exact .inl h
  · exact .inr (.inl h)
  · exact .inr (.inr ⟨.inl h, j, by simp, h'⟩)

theorem DepError.gen {j : Json} {js : List Json} {g : LazyGroup} {e : Err} (h : parseDEPGroup j = .ok g)
    (he : g.err = some e) : DepError (j :: js) e := by
  obtain ⟨h1, h2⟩ := parseDEPGroup_gen h he
  exact .inr (.inr ⟨.inr h1, j, by simp, h2⟩)

theorem groupPerChunk_error {js : List Json} {e : Err} (h : (groupPerChunk js).err = some e) :
    DepError js e := by
  induction js with
  | nil => cases h
  | cons j js ih =>
    simp only [groupPerChunk] at h
    cases hp : parseDEPGroup j with
    | error e' =>
      simp only [hp] at h
      cases h
      exact .parse hp
    | ok g =>
      simp only [hp] at h
      cases hg : g.err with
      | some e' =>
        simp only [hg] at h
        cases h
        exact .gen hp hg
      | none =>
        simp only [hg] at h
        split at h
        · exact (ih h).cons
        · exact (ih h).cons

theorem groupChunkGen_error {n : Nat} {f : Fill} {js : List Json} {e : Err}
    (h : (groupChunkGen n f js).err = some e) : DepError js e := by
  induction js generalizing f with
  | nil => cases h
  | cons j js ih =>
    simp only [groupChunkGen] at h
    cases hp : parseDEPGroup j with
    | error e' =>
      simp only [hp] at h
      cases h
      exact .parse hp
    | ok g =>
      simp only [hp] at h
      cases hg : g.err with
      | some e' =>
        simp only [hg] at h
        cases h
        exact .gen hp hg
      | none =>
        simp only [hg] at h
        exact (ih h).cons

/-- C55: what the parser raises is a DEP parse error, unless some element with receipts is something
else than a list of texts. -/
theorem dict_errors_partial {nparts n : Nat} {j : Json} {e : Err} (h : (dictParse nparts j n).err = some e) :
    e = .malformedDEP ∨ e = .malformedDEPCertificate ∨
      ((e = .typeError ∨ e = .attributeError) ∧ ∃ root js k, j = .obj root ∧
        Dict.get? root c!"Belege-Gruppe" = some (.arr js) ∧ k ∈ js ∧ OddReceipts k) := by
  unfold dictParse at h
  split at h
  · cases h; exact .inl rfl
  · rename_i root hroot
    rw [Json.asObj_eq_some] at hroot
    subst hroot
    split at h
    · rename_i j js hg
      simp only at h
      generalize (if 1 < nparts ∧ n = 0 then partSize (totalRecs (j :: js)) nparts else n) = m at h
      have key : DepError (j :: js) e := by
        by_cases hm : m = 0
        · simp only [hm, if_true] at h
          split at h
          · cases h; exact .inl rfl
          · exact groupPerChunk_error h
        · simp only [hm, if_false] at h
          split at h
          · cases h; exact .inl rfl
          · exact groupChunkGen_error h
      · rcases key with h | h | ⟨h, k, hk, ho⟩
        · exact .inl h
        · exact .inr (.inl h)
        · exact .inr (.inr ⟨h, root, j :: js, k, rfl, hg, hk, ho⟩)
    · cases h; exact .inl rfl

/-- The incremental parser for streams raises nothing else than DEP parse errors, whatever the
document is. -/
theorem PState.step_error {s : PState} {x : Str × Ev} {e : Err} (h : s.step x = .error e) :
    e = .malformedDEP ∨ e = .malformedDEPCertificate := by
  unfold PState.step at h
  split at h
  · unfold stepRoot at h
    repeat' split at h
    all_goals cases h
    all_goals exact .inl rfl
  · unfold stepRootMap at h
    repeat' split at h
    all_goals cases h
    all_goals exact .inl rfl
  · unfold stepGroups at h
    repeat' split at h
    all_goals cases h
    all_goals exact .inl rfl
  · unfold stepGroup at h
    repeat' split at h
    all_goals first
      | (cases h; exact .inl rfl)
      | (cases h; done)
      | skip
    rw [Res.bind_eq_error] at h
    rcases h with h | ⟨c, -, h⟩
    · exact .inr (parseOptCert_error h)
    · cases h
  · unfold stepCertList at h
    repeat' split at h
    all_goals first
      | (cases h; exact .inl rfl)
      | (cases h; done)
      | skip
    rw [Res.bind_eq_error] at h
    rcases h with h | ⟨c, -, h⟩
    · exact .inr (parseDEPCert_error h)
    · cases h
  · unfold stepRecList at h
    repeat' split at h
    all_goals cases h
    all_goals exact .inl rfl

theorem PState.run_error {need : Nat → Res (Option (Option Cert × List Cert))} {n : Nat} {s : PState}
    {xs : List (Str × Ev)} {e : Err} (h : (s.run need n xs).2 = .error e) :
    e = .malformedDEP ∨ e = .malformedDEPCertificate ∨ ∃ i, need i = .error e := by
  induction xs generalizing s with
  | nil => cases h
  | cons x xs ih =>
    rw [run, advance] at h
    cases hs : s.step x with
    | error e' =>
      rw [hs] at h
      cases h
      exact (step_error hs).imp_right .inl
    | ok s' =>
      rw [hs] at h
      simp only at h
      by_cases hr : s'.ready n s.ctl
      · rw [if_pos hr] at h
        cases hf : s'.fetch need s.ctl with
        | error e' =>
          rw [hf] at h
          cases h
          unfold fetch at hf
          split at hf
          · simp only [Res.bind_eq_error] at hf
            rcases hf with hf | ⟨y, -, hf⟩
            · exact .inr (.inr ⟨_, hf⟩)
            · cases hf
          · cases hf
        | ok s'' =>
          rw [hf] at h
          exact ih h
      · rw [if_neg hr] at h
        exact ih h

/-- C68. -/
theorem stream_errors {doc : Json} {n : Nat} {e : Err}
    (h : (streamParse doc n).err = some e ∨ (certlessParse doc n).err = some e) :
    e = .malformedDEP ∨ e = .malformedDEPCertificate := by
  have key : ∀ need : Nat → Res (Option (Option Cert × List Cert)),
      (∀ i e, need i = .error e → e = .malformedDEP) →
      (incParse need n false (doc.events [])).err = some e → e = .malformedDEP ∨ e = .malformedDEPCertificate := by
    intro need hneed h
    unfold incParse at h
    cases hrun : PState.run need n {} (doc.events []) with
    | mk out r =>
      rw [hrun] at h
      cases r with
      | error e' =>
        cases h
        rcases PState.run_error (by rw [hrun]) with h | h | ⟨i, h⟩
        · exact .inl h
        · exact .inr h
        · exact .inl (hneed i _ h)
      | ok s =>
        simp only [Bool.false_eq_true, if_false] at h
        split at h
        · cases h
        · split at h
          · cases h; exact .inl rfl
          · cases h
  rcases h with h | h
  · exact key _ (fun i e h => by cases h; rfl) h
  · exact key _ (fun i e h => by cases h) h

/-! ### Sizes of chunks of the incremental parsers -/

namespace PState

/-- The receipts held by the object of class `c`. -/
def held (s : PState) (c : Ctl) : Nat := s.size + if Inside c then s.wipRecs.length else 0

theorem held_merge (s : PState) : s.merge.size = s.size + s.wipRecs.length ∧ s.merge.wipRecs = [] := by
  unfold merge
  split
  · rename_i h; simp [h]
  · simp [size]

/-- A step adds at most one receipt. -/
theorem step_held {s s' : PState} {x : Str × Ev} (h : s.step x = .ok s') :
    s'.held s.ctl ≤ s.held s.ctl + 1 ∧ s'.held s'.ctl = s'.held s.ctl ∧
      ((∀ g ∈ s.chunk, g.recs ≠ []) → ∀ g ∈ s'.chunk, g.recs ≠ []) := by
  unfold step at h
  split at h
  · rename_i hc
    unfold stepRoot at h
    repeat' split at h
    all_goals cases h
    simp [held, hc, Inside, size]
  · rename_i hc
    unfold stepRootMap at h
    repeat' split at h
    all_goals cases h
    all_goals simp [held, hc, Inside, size]
  · rename_i hc
    unfold stepGroups at h
    repeat' split at h
    all_goals cases h
    all_goals simp [held, hc, Inside, size]
  · rename_i hc
    unfold stepGroup at h
    repeat' split at h
    all_goals first
      | (cases h; done)
      | (cases h; simp [held, hc, Inside, size]; done)
      | skip
    · cases h
      obtain ⟨h1, h2⟩ := s.held_merge
      refine ⟨?_, ?_, ?_⟩
      · show s.merge.held s.ctl ≤ _
        simp only [held, hc, h1, h2, Inside, if_true, List.length_nil]
        omega
      · simp [held, hc, h2, Inside]
      · intro ha
        show ∀ g ∈ s.merge.chunk, _
        unfold merge
        split
        · exact ha
        · rename_i hw
          intro g hg
          rcases List.mem_append.mp hg with hg | hg
          · exact ha g hg
          · rw [List.mem_singleton] at hg
            subst hg
            exact hw
    · rw [Res.bind_eq_ok] at h
      obtain ⟨c, -, h⟩ := h
      cases h
      simp [held, hc, Inside, size]
  · rename_i hc
    unfold stepCertList at h
    repeat' split at h
    all_goals first
      | (cases h; done)
      | (cases h; simp [held, hc, Inside, size]; done)
      | skip
    rw [Res.bind_eq_ok] at h
    obtain ⟨c, -, h⟩ := h
    cases h
    simp [held, hc, Inside, size]
  · rename_i hc
    unfold stepRecList at h
    repeat' split at h
    all_goals cases h
    · simp [held, hc, Inside, size]
    · simp [held, hc, Inside, size]
      omega

theorem fetch_held {need : Nat → Res (Option (Option Cert × List Cert))} {s s' : PState} {c : Ctl}
    (h : s.fetch need c = .ok s') : s'.chunk = s.chunk ∧ s'.wipRecs = s.wipRecs ∧ s'.ctl = s.ctl := by
  unfold fetch at h
  split at h
  · rw [Res.bind_eq_ok] at h
    obtain ⟨x, -, h⟩ := h
    cases h
    cases x <;> exact ⟨rfl, rfl, rfl⟩
  · cases h; exact ⟨rfl, rfl, rfl⟩

/-- The number of receipts in a chunk. -/
def _root_.RKSV.Chunk.size (c : Chunk) : Nat := (c.map fun g => g.recs.length).sum

theorem getChunk_held {s : PState} (c : Ctl) (ha : ∀ g ∈ s.chunk, g.recs ≠ []) :
    (s.getChunk c).1.size = s.held c ∧ (s.getChunk c).2.held c = 0 ∧ (s.getChunk c).2.ctl = s.ctl ∧
      (∀ g ∈ (s.getChunk c).1, g.recs ≠ []) ∧ (∀ g ∈ (s.getChunk c).2.chunk, g.recs ≠ []) := by
  have key : ∀ u : PState, (∀ g ∈ u.chunk, g.recs ≠ []) → (Inside c → u.wipRecs = []) → u.ctl = s.ctl →
      u.size = s.held c →
      ((if u.size = 0 then ([], u) else (u.chunk, { u with chunk := [] })) : Chunk × PState).1.size = s.held c ∧
      ((if u.size = 0 then ([], u) else (u.chunk, { u with chunk := [] })) : Chunk × PState).2.held c = 0 ∧
      ((if u.size = 0 then ([], u) else (u.chunk, { u with chunk := [] })) : Chunk × PState).2.ctl = s.ctl ∧
      (∀ g ∈ ((if u.size = 0 then ([], u) else (u.chunk, { u with chunk := [] })) : Chunk × PState).1, g.recs ≠ []) ∧
      ∀ g ∈ ((if u.size = 0 then ([], u) else (u.chunk, { u with chunk := [] })) : Chunk × PState).2.chunk,
        g.recs ≠ [] := by
    intro u h1 h2 h3 h4
    have h5 : (if Inside c = true then u.wipRecs.length else 0) = 0 := by
      split
      · rename_i h; simp [h2 h]
      · rfl
    by_cases h : u.size = 0
    · rw [if_pos h]
      exact ⟨by rw [← h4, h]; rfl, by simp only [held, h, h5], h3, by simp, h1⟩
    · rw [if_neg h]
      exact ⟨h4, by simp only [held, size, List.map_nil, List.sum_nil, h5], h3, h1, by simp⟩
  unfold getChunk
  simp only
  by_cases hc : Inside c = true
  · rw [if_pos hc]
    obtain ⟨h1, h2⟩ := s.held_merge
    refine key s.merge ?_ (fun _ => h2) (by unfold merge; split <;> rfl) (by rw [h1, held, if_pos hc])
    unfold merge
    split
    · exact ha
    · rename_i hw
      intro g hg
      rcases List.mem_append.mp hg with hg | hg
      · exact ha g hg
      · rw [List.mem_singleton] at hg
        subst hg
        exact hw
  · rw [if_neg hc]
    exact key s ha (fun h => absurd h hc) rfl (by rw [held, if_neg hc]; rfl)

theorem held_class {s : PState} {c : Ctl} (h : s.held c = 0) (hs : s.held s.ctl = s.held c ∨ s.wipRecs = []) :
    s.held s.ctl = 0 := by
  rcases hs with hs | hs
  · rw [hs, h]
  · simp only [held, hs, List.length_nil] at h ⊢
    split at h <;> split <;> exact h

/-- What the loop yields are chunks of `n` receipts, and it never holds as much. -/
theorem run_sizes {need : Nat → Res (Option (Option Cert × List Cert))} {n : Nat} (hn : n ≠ 0) {s : PState}
    {xs : List (Str × Ev)} (hs : s.held s.ctl < n) (ha : ∀ g ∈ s.chunk, g.recs ≠ []) :
    (∀ c ∈ (s.run need n xs).1, c.size = n ∧ ∀ g ∈ c, g.recs ≠ []) ∧
      ∀ s', (s.run need n xs).2 = .ok s' → s'.held s'.ctl < n ∧ ∀ g ∈ s'.chunk, g.recs ≠ [] := by
  induction xs generalizing s with
  | nil =>
    refine ⟨by simp [run], ?_⟩
    intro s' h
    cases h
    exact ⟨hs, ha⟩
  | cons x xs ih =>
    rw [run, advance]
    cases hst : s.step x with
    | error e => exact ⟨by simp, by simp⟩
    | ok s1 =>
      obtain ⟨h1, h2, h3⟩ := step_held hst
      simp only
      by_cases hr : s1.ready n s.ctl
      · rw [if_pos hr]
        cases hf : s1.fetch need s.ctl with
        | error e => exact ⟨by simp, by simp⟩
        | ok s2 =>
          obtain ⟨f1, f2, f3⟩ := fetch_held hf
          have e1 : ∀ c, s2.held c = s1.held c := by intro c; simp only [held, size, f1, f2]
          obtain ⟨g1, g2, g3, g4, g5⟩ := getChunk_held (s := s2) s.ctl (by rw [f1]; exact h3 ha)
          have hsz : s1.held s.ctl = n := by
            have : n ≤ s1.held s.ctl := by
              simp only [ready, Bool.and_eq_true, decide_eq_true_eq] at hr
              exact hr.2
            omega
          have hnext : (s2.getChunk s.ctl).2.held (s2.getChunk s.ctl).2.ctl < n := by
            rw [g3, f3]
            have : (s2.getChunk s.ctl).2.held s1.ctl = 0 := by
              by_cases hi : Inside s.ctl = true
              · have hw : (s2.getChunk s.ctl).2.wipRecs = [] := by
                  simp only [held, if_pos hi] at g2
                  exact List.length_eq_zero_iff.mp (by omega)
                have hz : (s2.getChunk s.ctl).2.size = 0 := by simp only [held] at g2; omega
                simp [held, hw, hz]
              · have hz : (s2.getChunk s.ctl).2.size = 0 := by simp only [held] at g2; omega
                have hw : (s2.getChunk s.ctl).2.wipRecs = s1.wipRecs := by
                  rw [← f2]
                  unfold getChunk
                  simp only [if_neg hi]
                  split <;> rfl
                simp only [held, hz, hw]
                simp only [held, if_neg hi] at h2
                split
                · rename_i hi'
                  rw [if_pos hi'] at h2
                  omega
                · rfl
            omega
          obtain ⟨i1, i2⟩ := ih hnext g5
          refine ⟨?_, i2⟩
          intro c hc
          rcases List.mem_append.mp hc with hc | hc
          · rw [List.mem_singleton] at hc
            subst hc
            exact ⟨by rw [g1, e1, hsz], g4⟩
          · exact i1 c hc
      · rw [if_neg hr]
        have : s1.held s1.ctl < n := by
          rw [h2]
          simp only [ready, Bool.and_eq_true, decide_eq_true_eq, not_and, not_le] at hr
          exact hr hn
        simpa using ih this (h3 ha)

end PState

/-- C69: whatever the events and the certificates are, every chunk an incremental parser yields has
at most `n` receipts, all but the last one exactly `n`, and no chunk or group is empty. -/
theorem inc_chunk_sizes {need : Nat → Res (Option (Option Cert × List Cert))} {n : Nat} (hn : n ≠ 0) {bad : Bool}
    {xs : List (Str × Ev)} {pre post : List Chunk} {c : Chunk}
    (h : (incParse need n bad xs).chunks = pre ++ c :: post) :
    (c.map fun g => g.recs.length).sum ≤ n ∧ (post ≠ [] → (c.map fun g => g.recs.length).sum = n) ∧
      c ≠ [] ∧ ∀ g ∈ c, g.recs ≠ [] := by
  obtain ⟨h1, h2⟩ := PState.run_sizes (need := need) (xs := xs) hn (s := {})
    (by simp [PState.held, PState.size, PState.Inside]; omega) (by simp)
  have hne : ∀ c : Chunk, c.size = n → c ≠ [] := by
    rintro c h rfl
    exact hn h.symm
  unfold incParse at h
  cases hrun : PState.run need n {} xs with
  | mk out r =>
    rw [hrun] at h h1 h2
    have all : ∀ {pre post : List Chunk} {c : Chunk}, out = pre ++ c :: post →
        c.size ≤ n ∧ (post ≠ [] → c.size = n) ∧ c ≠ [] ∧ ∀ g ∈ c, g.recs ≠ [] := by
      intro pre post c e
      obtain ⟨k1, k2⟩ := h1 c (by simp [e])
      exact ⟨k1.le, fun _ => k1, hne c k1, k2⟩
    cases r with
    | error e => exact all h
    | ok s =>
      simp only at h
      split at h
      · exact all h
      · split at h
        · rename_i hc
          obtain ⟨k1, k2⟩ := h2 s rfl
          obtain ⟨g1, -, -, g4, -⟩ := PState.getChunk_held s.ctl k2
          rcases List.eq_nil_or_concat post with rfl | ⟨post', last, rfl⟩
          · obtain ⟨-, e⟩ := List.append_inj' h rfl
            simp only [List.cons.injEq, and_true] at e
            subst e
            exact ⟨by rw [show (List.map (fun g => g.recs.length) (s.getChunk s.ctl).1).sum = _ from g1]; omega,
              fun h => absurd rfl h, hc, g4⟩
          · have e : out ++ [(s.getChunk s.ctl).1] = (pre ++ c :: post') ++ [last] := by
              rw [show out ++ [(s.getChunk s.ctl).1] = _ from h]; simp
            obtain ⟨e1, -⟩ := List.append_inj' e rfl
            obtain ⟨k1, k2⟩ := h1 c (by simp [e1])
            exact ⟨k1.le, fun _ => k1, hne c k1, k2⟩
        · split at h
          · exact all h
          · exact all h

/-! ### A single chunk -/

/-- As long as no chunk gets full the chunk size does not matter. -/
theorem PState.run_zero {need : Nat → Res (Option (Option Cert × List Cert))} {n : Nat} {s s' : PState}
    {xs : List (Str × Ev)} (h : s.run need n xs = ([], .ok s')) : s.run need 0 xs = ([], .ok s') := by
  induction xs generalizing s with
  | nil => exact h
  | cons x xs ih =>
    rw [run, advance] at h ⊢
    cases hs : s.step x with
    | error e' => rw [hs] at h; cases h
    | ok s1 =>
      rw [hs] at h
      simp only at h ⊢
      rw [if_neg (by simp [ready])]
      by_cases hr : s1.ready n s.ctl
      · rw [if_pos hr] at h
        cases hf : s1.fetch need s.ctl with
        | error e' => rw [hf] at h; cases h
        | ok s2 => rw [hf] at h; simp at h
      · rw [if_neg hr] at h
        simp only [List.nil_append] at h ⊢
        rw [ih h]

theorem inc_zero {need : Nat → Res (Option (Option Cert × List Cert))} {n : Nat} (hn : n ≠ 0) {xs : List (Str × Ev)}
    {c : Chunk} (h : incParse need n false xs = ⟨[c], none⟩) (hc : c.size < n) :
    incParse need 0 false xs = ⟨[c], none⟩ := by
  obtain ⟨h1, -⟩ := PState.run_sizes (need := need) (xs := xs) hn (s := {})
    (by simp [PState.held, PState.size, PState.Inside]; omega) (by simp)
  unfold incParse at h ⊢
  cases hrun : PState.run need n {} xs with
  | mk out r =>
    rw [hrun] at h h1
    have hout : ∀ rest, out ++ rest = [c] → out = [] := by
      intro rest e
      cases out with
      | nil => rfl
      | cons d out =>
        simp only [List.cons_append, List.cons.injEq] at e
        have := (h1 d (by simp)).1
        rw [e.1] at this
        omega
    cases r with
    | error e => cases h
    | ok s =>
      have : out = [] := by
        simp only [Bool.false_eq_true, if_false] at h
        split at h
        · exact hout _ (congrArg Stream.chunks h)
        · split at h
          · cases h
          · exact hout [] (by simpa using congrArg Stream.chunks h)
      subst this
      rw [PState.run_zero hrun]
      exact h

theorem numbered_append (k : Nat) (a b : List DepGroup) :
    numbered k (a ++ b) = numbered k a ++ numbered (k + a.length) b := by
  induction a generalizing k with
  | nil => rfl
  | cons g a ih =>
    simp only [List.cons_append, numbered, ih, List.append_assoc, List.length_cons]
    rw [show k + 1 + a.length = k + (a.length + 1) by omega]

theorem numbered_lt (k : Nat) (a : List DepGroup) : ∀ x ∈ numbered k a, x.1 < k + a.length := by
  induction a generalizing k with
  | nil => simp [numbered]
  | cons g a ih =>
    intro x hx
    rw [numbered, List.mem_append] at hx
    rcases hx with hx | hx
    · obtain ⟨r, -, rfl⟩ := List.mem_map.mp hx
      simp
    · have := ih _ x hx
      rw [List.length_cons]
      omega

/-- All receipts in one chunk. -/
theorem grouped_all (gs : List DepGroup) : Grouped gs (numbered 0 gs) (gs.filter fun g => g.recs ≠ []) := by
  have key : ∀ pre rest, gs = pre ++ rest → Grouped gs (numbered 0 pre) (pre.filter fun g => g.recs ≠ []) := by
    intro pre
    induction pre using List.reverseRecOn with
    | nil => exact fun _ _ => .nil
    | append_singleton pre g ih =>
      intro rest e
      have h := ih (g :: rest) (by rw [e]; simp)
      rw [numbered_append, List.filter_append]
      by_cases hg : g.recs = []
      · simpa [numbered, hg] using h
      · have := Grouped.snoc _ _ pre.length g g.recs h (fun x hx => by simpa using numbered_lt 0 pre x hx)
          (by rw [e]; simp) hg
        simpa [numbered, hg] using this
  exact key gs [] (by simp)

/-- C97: the same for a text in which no element of a DEP is repeated. -/
theorem text_single_chunk {doc : Json} {gs : List DepGroup} (h : DepJson doc gs) (hp : PlainKeys doc) (hu : Unrepeated doc)
    (hsome : ∃ g ∈ gs, g.recs ≠ []) : fileParse doc 0 = ⟨[gs.filter fun g => g.recs ≠ []], none⟩ := by
  have hn : (numbered 0 gs).length + 1 ≠ 0 := by omega
  obtain ⟨chunks, Ts, h1, hcut, hall⟩ := dict_chunks h (nparts := 1) hn hsome
  rw [← text_eq_dict h hp hu hn] at h1
  have hTs : Ts = [numbered 0 gs] := by
    cases Ts with
    | nil =>
      have hz : numbered 0 gs = [] := hcut.1.symm
      obtain ⟨g, hg, hne⟩ := hsome
      have := numbered_recs 0 gs
      rw [hz, List.map_nil, eq_comm, List.flatMap_eq_nil_iff] at this
      exact absurd (this g hg) hne
    | cons T Ts =>
      have hl := hcut.length (by simp)
      cases Ts with
      | nil => rw [← hcut.1]; simp
      | cons T' Ts =>
        simp only [List.length_cons, Nat.add_sub_cancel] at hl
        rw [Nat.succ_mul] at hl
        omega
  subst hTs
  cases hall with
  | cons hT hr =>
    cases hr
    have := grouped_unique hT (grouped_all gs)
    subst this
    exact inc_zero hn h1 (by
      show (List.map _ _).sum < _
      rw [hT.length]
      omega)

/-- C53: without a chunk size the incremental parser yields the whole DEP as one chunk. -/
theorem file_single_chunk {doc : Json} {gs : List DepGroup} (h : DepJson doc gs) (hp : PlainDoc doc)
    (hsome : ∃ g ∈ gs, g.recs ≠ []) : fileParse doc 0 = ⟨[gs.filter fun g => g.recs ≠ []], none⟩ :=
  text_single_chunk h hp.keys hp.unrepeated hsome

end

namespace Demo

attribute [local instance] env

instance : DecidableEq DepGroup := fun a b =>
  decidable_of_iff (a.recs = b.recs ∧ a.cert = b.cert ∧ a.chain = b.chain)
    ⟨fun h => by cases a; cases b; simpa using h, by rintro rfl; exact ⟨rfl, rfl, rfl⟩⟩

instance : DecidableEq Stream := fun a b =>
  decidable_of_iff (a.chunks = b.chunks ∧ a.err = b.err)
    ⟨fun h => by cases a; cases b; simpa using h, by rintro rfl; exact ⟨rfl, rfl⟩⟩

/-- Another certificate. -/
def ca : Cert := ([0, 32, 1, 1, 8] : Bytes)

def groupOf (recs : Json) (cert : Str) (chain : List Str) : Json :=
  .obj [(kCert, .str cert), (kCerts, .arr (chain.map .str)), (kRecs, recs)]

/-- The same with the receipts first. -/
def groupRecsFirst (recs : Json) (cert : Str) (chain : List Str) : Json :=
  .obj [(kRecs, recs), (c!"note", .null), (kCert, .str cert), (kCerts, .arr (chain.map .str))]

def names (l : List Str) : Json := .arr (l.map .str)

/-- Three groups, one of them empty. -/
def docGroups : List Json :=
  [groupRecsFirst (names [c!"a", c!"b", c!"c"]) (exportCertToPEM device) [exportCertToPEM ca],
   groupOf (names []) (exportCertToPEM device) [],
   groupRecsFirst (names [c!"d", c!"e"]) [] []]

def doc : Json := .obj [(c!"version", .int 1), (kGroups, .arr docGroups), (c!"x", .arr [.null])]

def parsed : List DepGroup :=
  [⟨[utf8Enc c!"a", utf8Enc c!"b", utf8Enc c!"c"], some device, [ca]⟩, ⟨[], some device, []⟩,
   ⟨[utf8Enc c!"d", utf8Enc c!"e"], none, []⟩]

theorem certOf_device (c : Cert) : CertOf (exportCertToPEM c) c := env.loadCert_pem c

theorem doc_json : DepJson doc parsed := by
  refine .mk _ docGroups _ rfl (.cons ?_ (.cons ?_ (.cons ?_ .nil)))
  · exact .mk _ [c!"a", c!"b", c!"c"] _ [exportCertToPEM ca] _ _ rfl rfl rfl
      (.some _ _ (by decide +kernel) (certOf_device _)) (.cons (certOf_device _) .nil)
  · exact .mk _ [] _ [] _ _ rfl rfl rfl (.some _ _ (by decide +kernel) (certOf_device _)) .nil
  · exact .mk _ [c!"d", c!"e"] _ [] _ _ rfl rfl rfl .none .nil

theorem doc_plain : PlainDoc doc := by
  refine .mk _ (by decide +kernel) ?_ ?_
  · simp only [Dict.keys, List.map_cons, List.map_nil, List.mem_cons, List.not_mem_nil, or_false]
    rintro k (rfl | rfl | rfl) <;> decide +kernel
  · intro js h d hd
    cases h
    simp only [docGroups, List.mem_cons, List.not_mem_nil, or_false] at hd
    rcases hd with hd | hd | hd <;> cases hd <;> decide +kernel

/-- Chunks of two receipts cut across groups. -/
theorem doc_chunks : dictParse 1 doc 2 =
    ⟨[[⟨[utf8Enc c!"a", utf8Enc c!"b"], some device, [ca]⟩],
      [⟨[utf8Enc c!"c"], some device, [ca]⟩, ⟨[utf8Enc c!"d"], none, []⟩],
      [⟨[utf8Enc c!"e"], none, []⟩]], none⟩ := by decide +kernel

example (nparts : Nat) : ∃ chunks Ts, dictParse nparts doc 2 = ⟨chunks, none⟩ ∧
    CutEvery 2 (numbered 0 parsed) Ts ∧ List.Forall₂ (Grouped parsed) Ts chunks :=
  dict_chunks doc_json (by decide) ⟨_, List.mem_cons_self, by decide +kernel⟩

example : dictParse 0 doc 0 = ⟨[[⟨[utf8Enc c!"a", utf8Enc c!"b", utf8Enc c!"c"], some device, [ca]⟩],
    [⟨[utf8Enc c!"d", utf8Enc c!"e"], none, []⟩]], none⟩ := by
  rw [dict_chunks_zero doc_json (by decide) ⟨_, List.mem_cons_self, by decide +kernel⟩]
  decide +kernel

example : dictParse 4 (.obj [(kGroups, .arr [groupOf (names []) [] []])]) 7 = ⟨[], some .malformedDEP⟩ :=
  dict_no_receipts (.mk _ _ [⟨[], none, []⟩] rfl (.cons (.mk _ [] _ [] _ _ rfl rfl rfl .none .nil) .nil)) (by simp)

example : (dictParse 2 doc 0).chunks.length ≤ 2 := dict_parts doc_json (by decide)

/-- C52 is false if the receipts are given as a text: the parser takes its characters as receipts,
but does not count them. -/
theorem parts_exceeded : (dictParse 2 (.obj [(kGroups, .arr [groupOf (.str c!"a") [] [],
    groupOf (.str c!"b") [] [], groupOf (.str c!"c") [] []])]) 0) =
    ⟨[[⟨[utf8Enc c!"a"], none, []⟩], [⟨[utf8Enc c!"b"], none, []⟩], [⟨[utf8Enc c!"c"], none, []⟩]], none⟩ := by
  decide +kernel

/-- The incremental parser looks up certificates that come after the receipts. -/
example : fileParse doc 2 = ⟨[[⟨[utf8Enc c!"a", utf8Enc c!"b"], some device, [ca]⟩],
      [⟨[utf8Enc c!"c"], some device, [ca]⟩, ⟨[utf8Enc c!"d"], none, []⟩],
      [⟨[utf8Enc c!"e"], none, []⟩]], none⟩ := by
  rw [file_eq_dict (nparts := 1) doc_json doc_plain (by decide), doc_chunks]

example : fileParse doc 0 = ⟨[[⟨[utf8Enc c!"a", utf8Enc c!"b", utf8Enc c!"c"], some device, [ca]⟩,
    ⟨[utf8Enc c!"d", utf8Enc c!"e"], none, []⟩]], none⟩ := by
  rw [file_single_chunk doc_json doc_plain ⟨_, List.mem_cons_self, by decide +kernel⟩]
  decide +kernel

/-- An element without name next to the groups is taken for the root. -/
theorem empty_key_differs :
    (dictParse 1 (.obj [([], .obj []), (kGroups, .arr docGroups)]) 2).err = none ∧
    fileParse (.obj [([], .obj []), (kGroups, .arr docGroups)]) 2 = ⟨[], some .malformedDEP⟩ := by
  decide +kernel

/-- An element whose name looks like a path is taken for the certificate of the first group: the
chunks are those of a DEP in which all receipts have no certificate. -/
theorem dotted_key_differs :
    dictParse 1 (.obj [(PState.pCert, .str []), (kGroups, .arr [groupRecsFirst (names [c!"a", c!"b"])
      (exportCertToPEM device) []])]) 1 =
        ⟨[[⟨[utf8Enc c!"a"], some device, []⟩], [⟨[utf8Enc c!"b"], some device, []⟩]], none⟩ ∧
    fileParse (.obj [(PState.pCert, .str []), (kGroups, .arr [groupRecsFirst (names [c!"a", c!"b"])
      (exportCertToPEM device) []])]) 1 =
        ⟨[[⟨[utf8Enc c!"a"], none, []⟩], [⟨[utf8Enc c!"b"], none, []⟩]], none⟩ := by
  decide +kernel

def certsFirst : Json := .obj [(kGroups, .arr [groupOf (names [c!"a", c!"b", c!"c"]) (exportCertToPEM device)
  [exportCertToPEM ca], groupOf (names [c!"d"]) (exportCertToPEM ca) []])]

theorem certsFirst_json : DepJson certsFirst
    [⟨[utf8Enc c!"a", utf8Enc c!"b", utf8Enc c!"c"], some device, [ca]⟩, ⟨[utf8Enc c!"d"], some ca, []⟩] := by
  refine .mk _ _ _ rfl (.cons ?_ (.cons ?_ .nil))
  · exact .mk _ [c!"a", c!"b", c!"c"] _ [exportCertToPEM ca] _ _ rfl rfl rfl
      (.some _ _ (by decide +kernel) (certOf_device _)) (.cons (certOf_device _) .nil)
  · exact .mk _ [c!"d"] _ [] _ _ rfl rfl rfl (.some _ _ (by decide +kernel) (certOf_device _)) .nil

theorem certsFirst_plain : PlainDoc certsFirst := by
  refine .mk _ (by decide +kernel) ?_ ?_
  · simp only [Dict.keys, List.map_cons, List.map_nil, List.mem_cons, List.not_mem_nil, or_false]
    rintro k rfl
    decide +kernel
  · intro js h d hd
    cases h
    simp only [List.mem_cons, List.not_mem_nil, or_false] at hd
    rcases hd with hd | hd <;> cases hd <;> decide +kernel

theorem groupOf_first {recs : Json} {cert : Str} {chain : List Str} {pre : Dict Json} {v : Json} {post : Dict Json}
    (h : [(kCert, Json.str cert), (kCerts, .arr (chain.map .str)), (kRecs, recs)] = pre ++ (kRecs, v) :: post) :
    kCert ∈ pre.keys ∧ kCerts ∈ pre.keys := by
  have n1 : kCert ≠ kRecs := by decide
  have n2 : kCerts ≠ kRecs := by decide
  match pre, h with
  | [], h => simp [n1] at h
  | [p], h => simp [n2] at h
  | [p, q], h =>
    simp only [List.cons_append, List.nil_append, List.cons.injEq] at h
    rw [← h.1, ← h.2.1]
    exact ⟨List.mem_cons_self, List.mem_cons_of_mem _ List.mem_cons_self⟩
  | p :: q :: r :: l, h => simp at h

theorem certsFirst_first : CertsFirst certsFirst := by
  intro root js d h1 h2 hd pre v post e
  cases h1
  cases h2
  simp only [List.mem_cons, List.not_mem_nil, or_false] at hd
  rcases hd with hd | hd <;> cases hd <;> exact groupOf_first e

example : streamParse certsFirst 2 = ⟨[[⟨[utf8Enc c!"a", utf8Enc c!"b"], some device, [ca]⟩],
    [⟨[utf8Enc c!"c"], some device, [ca]⟩, ⟨[utf8Enc c!"d"], some ca, []⟩]], none⟩ := by
  rw [(stream_eq_dict (nparts := 1) certsFirst_json certsFirst_plain certsFirst_first (by simp)
    (by decide)).1]
  decide +kernel

/-- C54 is false for a group without certificate: the stream parser takes it for a group whose
certificate is still to come. -/
theorem stream_no_cert :
    dictParse 1 (.obj [(kGroups, .arr [groupOf (names [c!"a"]) [] []])]) 1 = ⟨[[⟨[utf8Enc c!"a"], none, []⟩]], none⟩ ∧
    streamParse (.obj [(kGroups, .arr [groupOf (names [c!"a"]) [] []])]) 1 = ⟨[], some .malformedDEP⟩ := by
  decide +kernel

/-- The certificates after the receipts are too late for the stream parser. -/
theorem stream_certs_late : streamParse doc 2 = ⟨[], some .malformedDEP⟩ := by decide +kernel

/-- C55 is false: the parser raises `TypeError` and `AttributeError`. -/
theorem receipts_null : dictParse 1 (.obj [(kGroups, .arr [groupOf .null [] []])]) 1 = ⟨[], some .typeError⟩ ∧
    dictParse 1 (.obj [(kGroups, .arr [groupOf (.arr [.str c!"a", .int 5]) [] []])]) 1 =
      ⟨[[⟨[utf8Enc c!"a"], none, []⟩]], some .attributeError⟩ := by
  decide +kernel

example : (dictParse 1 (.obj [(kGroups, .arr [groupOf (names []) c!"%" []])]) 1).err =
    some .malformedDEPCertificate := by decide +kernel

/-- A chunk that was yielded before the document turned out to be broken. -/
example : streamParse (.obj [(kGroups, .arr [groupOf (names [c!"a", c!"b", c!"c"]) (exportCertToPEM device) [],
    .null])]) 2 = ⟨[[⟨[utf8Enc c!"a", utf8Enc c!"b"], some device, []⟩]], some .malformedDEP⟩ := by
  decide +kernel

end Demo

end RKSV
