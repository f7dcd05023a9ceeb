import Verif.Props.DepExport
import Verif.Props.ChunkSize
/-
Property C58: exporting and parsing.
-/
namespace RKSV

section
variable [PyEnv]

/-- The group as it is stored. -/
def SGroup.toDep (g : SGroup (Receipt × Str)) : DepGroup :=
  ⟨g.recs.map fun r => utf8Enc (r.1.toJWS r.2), g.cert, g.chain⟩

omit [PyEnv] in
theorem update_get? {α : Type} (d e : Dict α) (k : Str) (h : k ∉ e.keys) :
    Dict.get? (Dict.update d e) k = d.get? k := by
  unfold Dict.update
  induction e generalizing d with
  | nil => rfl
  | cons p e ih =>
    simp only [Dict.keys, List.map_cons, List.mem_cons, not_or] at h ih
    rw [List.foldl_cons, ih _ h.2, Dict.get?_set, if_neg (Ne.symm h.1)]

omit [PyEnv] in
theorem set_keys {α : Type} (d : Dict α) (k : Str) (v : α) :
    (k ∈ d.keys ∧ Dict.keys (d.set k v) = d.keys) ∨ (k ∉ d.keys ∧ Dict.keys (d.set k v) = d.keys ++ [k]) := by
  induction d with
  | nil => simp [Dict.set, Dict.keys]
  | cons p d ih =>
    obtain ⟨q, w⟩ := p
    simp only [Dict.set, Dict.keys] at ih ⊢
    by_cases hq : q = k
    · subst hq
      simp
    · rw [if_neg hq, List.map_cons, List.map_cons, List.mem_cons]
      rcases ih with ⟨h1, h2⟩ | ⟨h1, h2⟩
      · exact .inl ⟨.inr h1, by rw [h2]⟩
      · exact .inr ⟨by simpa [Ne.symm hq] using h1, by rw [h2]; rfl⟩

omit [PyEnv] in
theorem update_nodup {α : Type} (d e : Dict α) (h : d.keys.Nodup) : (Dict.update d e).keys.Nodup := by
  unfold Dict.update
  induction e generalizing d with
  | nil => exact h
  | cons p e ih =>
    rw [List.foldl_cons]
    refine ih _ ?_
    rcases set_keys d p.1 p.2 with ⟨hk, e⟩ | ⟨hk, e⟩
    · rw [e]; exact h
    · rw [e, List.nodup_append]
      exact ⟨h, by simp, fun a ha b hb => by
        rw [List.mem_singleton] at hb
        subst hb
        rintro rfl
        exact hk ha⟩

omit [PyEnv] in
theorem update_keys {α : Type} (d e : Dict α) : ∀ k ∈ (Dict.update d e).keys, k ∈ d.keys ∨ k ∈ e.keys := by
  unfold Dict.update
  induction e generalizing d with
  | nil => exact fun k h => .inl h
  | cons p e ih =>
    intro k hk
    rw [List.foldl_cons] at hk
    rcases ih _ k hk with h | h
    · rcases set_keys d p.1 p.2 with ⟨-, e⟩ | ⟨-, e⟩
      · rw [e] at h
        exact .inl h
      · rw [e] at h
        rcases List.mem_append.mp h with h | h
        · exact .inl h
        · rw [List.mem_singleton] at h
          exact .inr (by simp [Dict.keys, h])
    · exact .inr (List.mem_cons_of_mem _ h)

theorem certOf_export (c : Cert) : CertOf (exportCertToPEM c) c := PyEnv.loadCert_pem c

omit [PyEnv] in
theorem b64Encode_ne_nil {b : Bytes} (h : b ≠ []) : b64Encode false b ≠ [] := by
  intro e
  have := b64Decode_encode false b
  rw [e] at this
  have h2 : b64Decode false [] = some [] := by decide
  rw [h2] at this
  exact h (Option.some.inj this).symm

theorem exportGroup_json {g : SGroup (Receipt × Str)} (hw : ∀ c, g.cert = some c → certDER c ≠ []) :
    GroupJson (exportGroup g) g.toDep := by
  unfold exportGroup SGroup.toDep
  have h1 : (g.recs.map fun r => Json.str (r.1.toJWS r.2)) = (g.recs.map fun r => r.1.toJWS r.2).map Json.str := by
    rw [List.map_map]; rfl
  have h2 : (g.chain.map fun c => Json.str (exportCertToPEM c)) = (g.chain.map exportCertToPEM).map Json.str := by
    rw [List.map_map]; rfl
  have h3 : (g.recs.map fun r => utf8Enc (r.1.toJWS r.2)) = (g.recs.map fun r => r.1.toJWS r.2).map utf8Enc := by
    rw [List.map_map]; rfl
  rw [h1, h2, h3]
  refine .mk _ _ (match g.cert with | none => [] | some c => exportCertToPEM c) (g.chain.map exportCertToPEM) _ _
    rfl rfl rfl ?_ ?_
  · cases hc : g.cert with
    | none => exact .none
    | some c => exact .some _ _ (b64Encode_ne_nil (hw c hc)) (certOf_export c)
  · have : ∀ l : List Cert, List.Forall₂ CertOf (l.map exportCertToPEM) l := by
      intro l
      induction l with
      | nil => exact .nil
      | cons c l ih => exact .cons (certOf_export c) ih
    exact this _

/-- C58: an exported DEP is a DEP with the groups that were exported. -/
theorem export_json {gs : List (SGroup (Receipt × Str))} (hw : Writable gs) {extra : Dict Json}
    (hx : c!"Belege-Gruppe" ∉ extra.keys) : DepJson (exportDEP gs extra) (gs.map SGroup.toDep) := by
  unfold exportDEP
  refine .mk _ (gs.map exportGroup) _ ?_ ?_
  · rw [update_get? _ _ _ hx]
    rfl
  · clear hx
    induction gs with
    | nil => exact .nil
    | cons g gs ih =>
      exact .cons (exportGroup_json (hw g (by simp))) (ih fun g hg => hw g (by simp [hg]))

theorem export_plain (gs : List (SGroup (Receipt × Str))) {extra : Dict Json} (hx : c!"Belege-Gruppe" ∉ extra.keys)
    (hk : ∀ k ∈ extra.keys, k ≠ [] ∧ '.' ∉ k) : PlainDoc (exportDEP gs extra) := by
  refine .mk _ (update_nodup _ _ (by simp [Dict.keys])) ?_ ?_
  · intro k h
    rcases update_keys _ _ k h with h | h
    · simp only [Dict.keys, List.map_cons, List.map_nil, List.mem_singleton] at h
      subst h
      decide +kernel
    · exact hk k h
  · intro js hj d hd
    rw [update_get? _ _ _ hx] at hj
    have : js = gs.map exportGroup := by
      simp only [Dict.get?, kGroups, if_pos, Option.some.injEq, Json.arr.injEq] at hj
      exact hj.symm
    subst this
    obtain ⟨g, -, e⟩ := List.mem_map.mp hd
    unfold exportGroup at e
    cases e
    simp only [Dict.keys, List.map_cons, List.map_nil, kCert, kCerts, kRecs]
    decide +kernel

/-- Exported DEPs have the certificates first, as the parsers for streams want it. -/
theorem export_certs_first (gs : List (SGroup (Receipt × Str))) {extra : Dict Json}
    (hx : c!"Belege-Gruppe" ∉ extra.keys) : CertsFirst (exportDEP gs extra) := by
  intro root js d e hj hd pre v post ed
  unfold exportDEP at e
  cases e
  rw [update_get? _ _ _ hx] at hj
  have : js = gs.map exportGroup := by
    simp only [Dict.get?, kGroups, if_pos, Option.some.injEq, Json.arr.injEq] at hj
    exact hj.symm
  subst this
  obtain ⟨g, -, e⟩ := List.mem_map.mp hd
  unfold exportGroup at e
  cases e
  have n1 : kCert ≠ (c!"Belege-kompakt" : Str) := by decide +kernel
  have n2 : kCerts ≠ (c!"Belege-kompakt" : Str) := by decide +kernel
  rcases pre with _ | ⟨p, _ | ⟨q, pre⟩⟩
  · simp only [List.nil_append, List.cons.injEq, Prod.mk.injEq] at ed
    exact absurd ed.1.1 n1
  · simp only [List.cons_append, List.nil_append, List.cons.injEq, Prod.mk.injEq] at ed
    exact absurd ed.2.1.1 n2
  · simp only [List.cons_append, List.cons.injEq] at ed
    rw [← ed.1, ← ed.2.1]
    simp [Dict.keys, kCert, kCerts]

/-! ### Reading the receipts -/

theorem readsAs_iff {b : Bytes} {r : Receipt} {alg : Str} :
    (expandReceipt b >>= fromJWS) = .ok (r, alg) ↔ ReadsAs b r alg := by
  rw [Res.bind_eq_ok]
  simp only [expandReceipt_iff]
  rfl

theorem readsAs_toJWS {r : Receipt} {alg : Str} (h : Parsed r alg) : ReadsAs (utf8Enc (r.toJWS alg)) r alg :=
  ⟨_, rfl, jws_object_round_trip h⟩

theorem ReadsAs.parsed {b : Bytes} {r : Receipt} {alg : Str} (h : ReadsAs b r alg) : Parsed r alg := by
  obtain ⟨t, -, h⟩ := h
  exact .jws t h

theorem ReadsAs.det {b : Bytes} {r r' : Receipt} {alg alg' : Str} (h : ReadsAs b r alg) (h' : ReadsAs b r' alg') :
    r = r' ∧ alg = alg' := by
  have h := readsAs_iff.mpr h
  rw [readsAs_iff.mpr h'] at h
  cases h
  exact ⟨rfl, rfl⟩

theorem adaptGroup_iff {g : DepGroup} {g' : SGroup (Receipt × Str)} :
    adaptGroup g = .ok g' ↔ g'.cert = g.cert ∧ g'.chain = g.chain ∧
      List.Forall₂ (fun b r => ReadsAs b r.1 r.2) g.recs g'.recs := by
  unfold adaptGroup
  rw [Res.bind_eq_ok]
  have : (fun (b : Bytes) (r : Receipt × Str) => (expandReceipt b >>= fromJWS) = .ok r) =
      fun b r => ReadsAs b r.1 r.2 := by
    funext b r
    exact propext readsAs_iff
  constructor
  · rintro ⟨recs, h, e⟩
    cases e
    rw [mapRes_iff, this] at h
    exact ⟨rfl, rfl, h⟩
  · rintro ⟨h1, h2, h3⟩
    obtain ⟨a, b, c⟩ := g'
    cases h1
    cases h2
    refine ⟨a, ?_, rfl⟩
    rw [mapRes_iff, this]
    exact h3

/-- Reading the receipts keeps their order and certificates. -/
theorem adapt_chained {l : List DepGroup} {gs : List (SGroup (Receipt × Str))} (h : mapRes adaptGroup l = .ok gs) :
    List.Forall₂ (fun x y => ReadsAs x.1 y.1.1 y.1.2 ∧ y.2 = x.2) (chainedDep l) (chained gs) := by
  rw [mapRes_iff] at h
  induction h with
  | nil => exact .nil
  | @cons g g' l gs h1 h2 ih =>
    obtain ⟨hc, hch, hr⟩ := adaptGroup_iff.mp h1
    simp only [chainedDep, chained, List.flatMap_cons] at ih ⊢
    refine List.rel_append ?_ ih
    rw [hc, hch]
    clear h1 h2 ih hc hch
    generalize g.recs = A at hr ⊢
    generalize g'.recs = B at hr ⊢
    induction hr with
    | nil => exact .nil
    | cons a b ih => exact .cons ⟨a, rfl⟩ ih

theorem adapt_total {l : List DepGroup} (h : ∀ g ∈ l, ∀ b ∈ g.recs, ∃ r alg, ReadsAs b r alg) :
    ∃ gs, mapRes adaptGroup l = .ok gs := by
  induction l with
  | nil => exact ⟨[], rfl⟩
  | cons g l ih =>
    obtain ⟨gs, hgs⟩ := ih fun g hg => h g (by simp [hg])
    have : ∃ rs : List (Receipt × Str), List.Forall₂ (fun b r => ReadsAs b r.1 r.2) g.recs rs := by
      have hb := h g (by simp)
      generalize g.recs = recs at hb
      induction recs with
      | nil => exact ⟨[], .nil⟩
      | cons b recs ih =>
        obtain ⟨rs, hrs⟩ := ih fun b hb' => hb b (by simp [hb'])
        obtain ⟨r, alg, hr⟩ := hb b (by simp)
        exact ⟨(r, alg) :: rs, .cons hr hrs⟩
    obtain ⟨rs, hrs⟩ := this
    have : adaptGroup g = .ok ⟨rs, g.cert, g.chain⟩ := adaptGroup_iff.mpr ⟨rfl, rfl, hrs⟩
    exact ⟨⟨rs, g.cert, g.chain⟩ :: gs, by simp only [mapRes, this, hgs, Res.ok_bind]⟩

theorem adapt_shape {l : List DepGroup} {gs : List (SGroup (Receipt × Str))} (h : mapRes adaptGroup l = .ok gs) :
    List.Forall₂ (fun g g' => g'.cert = g.cert ∧ g'.chain = g.chain ∧ (g'.recs = [] ↔ g.recs = [])) l gs := by
  rw [mapRes_iff] at h
  induction h with
  | nil => exact .nil
  | cons h1 h2 ih =>
    obtain ⟨hc, hch, hr⟩ := adaptGroup_iff.mp h1
    refine .cons ⟨hc, hch, ?_⟩ ih
    have := hr.length_eq
    rw [← List.length_eq_zero_iff, ← List.length_eq_zero_iff, this]

theorem adapt_toDep {gs : List (SGroup (Receipt × Str))} (hp : ∀ g ∈ gs, ∀ r ∈ g.recs, Parsed r.1 r.2) :
    mapRes adaptGroup (gs.map SGroup.toDep) = .ok gs := by
  induction gs with
  | nil => rfl
  | cons g gs ih =>
    have h1 : adaptGroup g.toDep = .ok g := by
      refine adaptGroup_iff.mpr ⟨rfl, rfl, ?_⟩
      have hr := hp g (by simp)
      unfold SGroup.toDep
      simp only
      generalize g.recs = recs at hr
      induction recs with
      | nil => exact .nil
      | cons r recs ih => exact .cons (readsAs_toJWS (hr r (by simp))) (ih fun r hr' => hr r (by simp [hr']))
    rw [List.map_cons, mapRes, h1, Res.ok_bind, ih fun g hg => hp g (by simp [hg])]
    rfl

/-! ### Parsing -/

theorem numbered_mem_get {gs : List DepGroup} (k : Nat) :
    (numbered k gs).map (fun x => (x.2, (gs[x.1 - k]?.bind (·.cert)), (gs[x.1 - k]?.map (·.chain)).getD [])) =
      chainedDep gs := by
  induction gs generalizing k with
  | nil => rfl
  | cons g gs ih =>
    rw [numbered, List.map_append, chainedDep, List.flatMap_cons]
    congr 1
    · simp
    · rw [show List.flatMap (fun g : DepGroup => g.recs.map fun r => (r, g.cert, g.chain)) gs = chainedDep gs from rfl,
        ← ih (k + 1)]
      apply List.map_congr_left
      intro x hx
      have : k + 1 ≤ x.1 := by
        have : ∀ (gs : List DepGroup) k, ∀ x ∈ numbered k gs, k ≤ x.1 := by
          intro gs
          induction gs with
          | nil => simp [numbered]
          | cons g gs ih =>
            intro k x hx
            rw [numbered, List.mem_append] at hx
            rcases hx with hx | hx
            · obtain ⟨r, -, rfl⟩ := List.mem_map.mp hx
              exact le_refl _
            · have := ih (k + 1) x hx
              omega
        exact this gs (k + 1) x hx
      rw [show x.1 - k = (x.1 - (k + 1)) + 1 by omega, List.getElem?_cons_succ]

theorem Grouped.chained {gs : List DepGroup} {T : List (Nat × Bytes)} {c : Chunk} (h : Grouped gs T c) :
    chainedDep c = T.map fun x => (x.2, (gs[x.1]?.bind (·.cert)), (gs[x.1]?.map (·.chain)).getD []) := by
  induction h with
  | nil => rfl
  | snoc T c i g recs h hlt hg hr ih =>
    simp only [chainedDep, List.flatMap_append, List.map_append, List.flatMap_cons, List.flatMap_nil,
      List.append_nil] at ih ⊢
    rw [ih]
    congr 1
    simp [hg]

theorem chunked_chained {gs : List DepGroup} {chunks : List Chunk} (h : Chunked gs chunks) :
    chainedDep chunks.flatten = chainedDep gs := by
  obtain ⟨Ts, e, hall⟩ := h
  have key : ∀ (Ts : List (List (Nat × Bytes))) (chunks : List Chunk), List.Forall₂ (Grouped gs) Ts chunks →
      chainedDep chunks.flatten =
        Ts.flatten.map fun x => (x.2, (gs[x.1]?.bind (·.cert)), (gs[x.1]?.map (·.chain)).getD []) := by
    intro Ts chunks h
    induction h with
    | nil => rfl
    | @cons T c Ts chunks h1 h2 ih =>
      rw [List.flatten_cons, List.flatten_cons, List.map_append, ← ih, ← h1.chained]
      simp [chainedDep]
  rw [key Ts chunks hall, e]
  have := numbered_mem_get (gs := gs) 0
  simpa using this

theorem chainedDep_filter (gs : List DepGroup) : chainedDep (gs.filter fun g => g.recs ≠ []) = chainedDep gs := by
  induction gs with
  | nil => rfl
  | cons g gs ih =>
    by_cases h : g.recs = []
    · simp only [chainedDep, List.flatMap_cons] at ih ⊢
      rw [List.filter_cons_of_neg (by simpa using h), ih, h]
      rfl
    · simp only [chainedDep, List.flatMap_cons] at ih ⊢
      rw [List.filter_cons_of_pos (by simpa using h), List.flatMap_cons, ih]

/-- What the parsers yield for a DEP. -/
theorem parse_chained {doc : Json} {gs : List DepGroup} (h : DepJson doc gs) (hsome : ∃ g ∈ gs, g.recs ≠ [])
    {n nparts : Nat} {s : Stream} (hs : s = dictParse nparts doc n ∨ (PlainDoc doc ∧ s = fileParse doc n)) :
    s.err = none ∧ chainedDep s.chunks.flatten = chainedDep gs ∧
      (∀ c ∈ s.chunks, c ≠ []) ∧ ∀ g ∈ s.chunks.flatten, g.recs ≠ [] := by
  have cut : ∀ m nparts, m ≠ 0 → (dictParse nparts doc m).err = none ∧
      chainedDep (dictParse nparts doc m).chunks.flatten = chainedDep gs ∧
      (∀ c ∈ (dictParse nparts doc m).chunks, c ≠ []) ∧
      ∀ g ∈ (dictParse nparts doc m).chunks.flatten, g.recs ≠ [] := by
    intro m nparts hm
    obtain ⟨chunks, Ts, e, hcut, hall⟩ := dict_chunks h (nparts := nparts) hm hsome
    rw [e]
    have hmem : ∀ c ∈ chunks, ∃ T ∈ Ts, Grouped gs T c := by
      intro c hc
      clear hcut e
      induction hall with
      | nil => cases hc
      | cons h1 h2 ih =>
        rcases List.mem_cons.mp hc with rfl | hc
        · exact ⟨_, List.mem_cons_self, h1⟩
        · obtain ⟨T, hT, hg⟩ := ih hc
          exact ⟨T, List.mem_cons_of_mem _ hT, hg⟩
    refine ⟨rfl, chunked_chained ⟨Ts, hcut.1, hall⟩, ?_, ?_⟩
    · intro c hc e
      obtain ⟨T, hT, hg⟩ := hmem c hc
      have := hg.length
      rw [e] at this
      obtain ⟨a, b, e'⟩ := List.append_of_mem hT
      exact (hcut.2 a T b e').1 (List.length_eq_zero_iff.mp this.symm)
    · intro g hg
      obtain ⟨c, hc, hg⟩ := List.mem_flatten.mp hg
      obtain ⟨T, -, hgr⟩ := hmem c hc
      exact (hgr.nonempty g hg).1
  have zero : ∀ chunks : List Chunk, chunks.flatten = (gs.filter fun g => g.recs ≠ []) →
      chainedDep chunks.flatten = chainedDep gs ∧ ∀ g ∈ chunks.flatten, g.recs ≠ [] := by
    intro chunks e
    rw [e]
    refine ⟨chainedDep_filter gs, fun g hg => ?_⟩
    simpa using (List.mem_filter.mp hg).2
  have hne : (gs.filter fun g => g.recs ≠ []) ≠ [] := by
    obtain ⟨g, hg, hr⟩ := hsome
    intro e
    have := List.filter_eq_nil_iff.mp e g hg
    simp [hr] at this
  rcases hs with rfl | ⟨hp, rfl⟩
  · by_cases hn : n = 0
    · subst hn
      by_cases hp : 1 < nparts
      · obtain ⟨m, h1, -, h0⟩ := dict_part_size h hp hsome
        rw [h0]
        exact cut m nparts h1
      · rw [dict_chunks_zero h (by omega) hsome]
        obtain ⟨h1, h2⟩ := zero ((gs.filter fun g => g.recs ≠ []).map fun g => [g])
          (by rw [← List.flatMap_def, List.flatMap_singleton'])
        refine ⟨rfl, h1, ?_, h2⟩
        intro c hc
        obtain ⟨g, -, rfl⟩ := List.mem_map.mp hc
        simp
    · exact cut n nparts hn
  · by_cases hn : n = 0
    · subst hn
      rw [file_single_chunk h hp hsome]
      obtain ⟨h1, h2⟩ := zero [gs.filter fun g => g.recs ≠ []] (by simp)
      refine ⟨rfl, h1, ?_, h2⟩
      intro c hc
      simp only [List.mem_singleton] at hc
      rw [hc]
      exact hne
    · rw [file_eq_dict h hp (nparts := 1) hn]
      exact cut n 1 hn

theorem chained_eq_of_reads {l : List (Bytes × Option Cert × List Cert)}
    {a b : List ((Receipt × Str) × Option Cert × List Cert)}
    (ha : List.Forall₂ (fun x y => ReadsAs x.1 y.1.1 y.1.2 ∧ y.2 = x.2) l a)
    (hb : List.Forall₂ (fun x y => ReadsAs x.1 y.1.1 y.1.2 ∧ y.2 = x.2) l b) : a = b := by
  induction ha generalizing b with
  | nil => cases hb; rfl
  | @cons x y l a h1 h2 ih =>
    cases hb with
    | @cons _ z _ b h3 h4 =>
      rw [ih h4]
      obtain ⟨⟨r, alg⟩, q⟩ := y
      obtain ⟨⟨r', alg'⟩, q'⟩ := z
      obtain ⟨rfl, rfl⟩ := h1.1.det h3.1
      have e1 := h1.2
      have e2 := h3.2
      simp only at e1 e2
      rw [e1, e2]

/-- C58: parsing an exported DEP, from memory or from a file, with any chunk size, yields the receipts that
were exported in the same order with the same certificates and chains. -/
theorem export_parse {gs : List (SGroup (Receipt × Str))} (hp : ∀ g ∈ gs, ∀ r ∈ g.recs, Parsed r.1 r.2)
    (hw : Writable gs) (hsome : ∃ g ∈ gs, g.recs ≠ []) {extra : Dict Json} (hx : c!"Belege-Gruppe" ∉ extra.keys)
    {n nparts : Nat} {s : Stream} (hs : s = dictParse nparts (exportDEP gs extra) n ∨
      ((∀ k ∈ extra.keys, k ≠ [] ∧ '.' ∉ k) ∧ s = fileParse (exportDEP gs extra) n)) :
    ∃ gs', adaptStream s = .ok gs' ∧ chained gs' = chained gs ∧ ∀ g ∈ gs', g.recs ≠ [] := by
  have hj := export_json hw hx
  have hsome' : ∃ g ∈ gs.map SGroup.toDep, g.recs ≠ [] := by
    obtain ⟨g, hg, hr⟩ := hsome
    exact ⟨_, List.mem_map.mpr ⟨g, hg, rfl⟩, by simpa [SGroup.toDep] using hr⟩
  obtain ⟨h1, h2, -, h4⟩ := parse_chained hj hsome' (n := n) (nparts := nparts) (s := s)
    (hs.imp id fun h => ⟨export_plain gs hx h.1, h.2⟩)
  have hread := adapt_chained (adapt_toDep hp)
  have htot : ∀ g ∈ s.chunks.flatten, ∀ b ∈ g.recs, ∃ r alg, ReadsAs b r alg := by
    intro g hg b hb
    have : (b, g.cert, g.chain) ∈ chainedDep s.chunks.flatten :=
      List.mem_flatMap.mpr ⟨g, hg, List.mem_map.mpr ⟨b, hb, rfl⟩⟩
    rw [h2] at this
    obtain ⟨g', hg', hb'⟩ := List.mem_flatMap.mp this
    obtain ⟨g0, hg0, rfl⟩ := List.mem_map.mp hg'
    obtain ⟨b', hb', e⟩ := List.mem_map.mp hb'
    obtain ⟨r, hr, rfl⟩ := List.mem_map.mp hb'
    simp only [Prod.mk.injEq] at e
    rw [← e.1]
    exact ⟨r.1, r.2, readsAs_toJWS (hp g0 hg0 r hr)⟩
  obtain ⟨gs', hgs'⟩ := adapt_total htot
  refine ⟨gs', ?_, ?_, ?_⟩
  · unfold adaptStream
    rw [hgs', h1]
    rfl
  · have := adapt_chained hgs'
    rw [h2] at this
    exact chained_eq_of_reads this hread
  · intro g hg
    have hsh := adapt_shape hgs'
    obtain ⟨g0, hg0, -, -, h3⟩ := forall₂_mem_right hsh hg
    exact fun e => h4 g0 hg0 (h3.mp e)

/-- C58: without a chunk size the groups themselves are read back, except for empty ones. -/
theorem export_parse_groups {gs : List (SGroup (Receipt × Str))} (hp : ∀ g ∈ gs, ∀ r ∈ g.recs, Parsed r.1 r.2)
    (hw : Writable gs) (hsome : ∃ g ∈ gs, g.recs ≠ []) {extra : Dict Json} (hx : c!"Belege-Gruppe" ∉ extra.keys)
    {s : Stream} (hs : s = dictParse 1 (exportDEP gs extra) 0 ∨
      ((∀ k ∈ extra.keys, k ≠ [] ∧ '.' ∉ k) ∧ s = fileParse (exportDEP gs extra) 0)) :
    adaptStream s = .ok (gs.filter fun g => g.recs ≠ []) := by
  have hj := export_json hw hx
  have hsome' : ∃ g ∈ gs.map SGroup.toDep, g.recs ≠ [] := by
    obtain ⟨g, hg, hr⟩ := hsome
    exact ⟨_, List.mem_map.mpr ⟨g, hg, rfl⟩, by simpa [SGroup.toDep] using hr⟩
  have hf : ((gs.map SGroup.toDep).filter fun g => g.recs ≠ []) =
      (gs.filter fun g => g.recs ≠ []).map SGroup.toDep := by
    rw [List.filter_map]
    congr 1
    apply List.filter_congr
    intro g _
    simp [SGroup.toDep]
  have key : s.err = none ∧ s.chunks.flatten = (gs.filter fun g => g.recs ≠ []).map SGroup.toDep := by
    rcases hs with rfl | ⟨hk, rfl⟩
    · rw [dict_chunks_zero hj (le_refl _) hsome', hf]
      exact ⟨rfl, by rw [← List.flatMap_def, List.flatMap_singleton']⟩
    · rw [file_single_chunk hj (export_plain gs hx hk) hsome', hf]
      exact ⟨rfl, by simp⟩
  unfold adaptStream
  rw [key.1, key.2, adapt_toDep fun g hg => hp g (List.mem_filter.mp hg).1]
  rfl

end

namespace Demo

attribute [local instance] env

/-- An exported DEP with an empty group reads back without it. -/
example : adaptStream (fileParse (exportDEP [⟨[(receipt, R1)], some device, [ca]⟩, ⟨[], some ca, []⟩,
      ⟨[(receipt, R1), (receipt, R1)], none, []⟩] [(c!"note", .int 5)]) 0) =
    .ok [⟨[(receipt, R1)], some device, [ca]⟩, ⟨[(receipt, R1), (receipt, R1)], none, []⟩] := by
  rw [export_parse_groups (gs := [⟨[(receipt, R1)], some device, [ca]⟩, ⟨[], some ca, []⟩,
      ⟨[(receipt, R1), (receipt, R1)], none, []⟩]) (extra := [(c!"note", .int 5)])
    (fun g hg r hr => ?_) (fun g hg c hc => ?_) ⟨_, List.mem_cons_self, by simp⟩ (by decide +kernel)
    (.inr ⟨by decide +kernel, rfl⟩)]
  · simp
  · have : r = (receipt, R1) := by
      simp only [List.mem_cons, List.not_mem_nil, or_false] at hg
      rcases hg with rfl | rfl | rfl <;> simpa using hr
    rw [this]
    exact receipt_parsed
  · simp only [List.mem_cons, List.not_mem_nil, or_false] at hg
    rcases hg with rfl | rfl | rfl <;> cases hc <;> decide +kernel

end Demo

end RKSV
