import Verif.Props.Export
/-
Properties C59 and C71: splitting and merging DEPs.
-/
namespace RKSV

section
variable [PyEnv]

/-- The second receipt is the first one written anew. -/
def Rewritten (b b' : Bytes) : Prop := ∃ r alg, ReadsAs b r alg ∧ b' = utf8Enc (r.toJWS alg)

/-- What is written reads as the same receipt. -/
theorem Rewritten.same {b b' : Bytes} (h : Rewritten b b') : ∃ r alg, ReadsAs b r alg ∧ ReadsAs b' r alg := by
  obtain ⟨r, alg, h1, rfl⟩ := h
  exact ⟨r, alg, h1, readsAs_toJWS h1.parsed⟩

/-- It is the same text if that was canonical. -/
theorem Rewritten.eq {t : Str} {b' : Bytes} (h : Rewritten (utf8Enc t) b') (hc : CanonicalJWS t) : b' = utf8Enc t := by
  obtain ⟨r, alg, ⟨t', e, h1⟩, rfl⟩ := h
  have : t = t' := by
    have h2 := expandReceipt_iff.mpr (rfl : utf8Enc t = utf8Enc t)
    rw [e, expandReceipt_iff.mpr rfl] at h2
    exact (Except.ok.inj h2).symm
  subst this
  rw [(jws_string_round_trip h1).mpr hc]

theorem chained_certified {α : Type} (gs : List (SGroup α)) :
    certified gs = (chained gs).map fun x => (x.1, x.2.1) := by
  unfold certified chained
  rw [List.map_flatMap]
  apply List.flatMap_congr
  intro g _
  rw [List.map_map]
  rfl

theorem splitChunks_ok {cs : List Chunk} {gss : List (List (SGroup (Receipt × Str)))}
    (h : mapRes (mapRes adaptGroup) cs = .ok gss) :
    splitChunks cs none = (gss.map fun gs => exportDEP gs [], none) := by
  induction cs generalizing gss with
  | nil => cases h; rfl
  | cons c cs ih =>
    simp only [mapRes, Res.bind_eq_ok, Except.ok.injEq] at h
    obtain ⟨gs, h1, gss', h2, rfl⟩ := h
    simp only [splitChunks, h1, ih h2, List.map_cons]

omit [PyEnv] in
theorem mapRes_flatten {α β : Type} {f : α → Res β} {ls : List (List α)} {l : List β}
    (h : mapRes f ls.flatten = .ok l) : ∃ lss, mapRes (mapRes f) ls = .ok lss ∧ lss.flatten = l := by
  induction ls generalizing l with
  | nil => cases h; exact ⟨[], rfl, rfl⟩
  | cons a ls ih =>
    rw [List.flatten_cons, mapRes_append] at h
    simp only [Res.bind_eq_ok, Except.ok.injEq] at h
    obtain ⟨x, h1, y, h2, rfl⟩ := h
    obtain ⟨lss, h3, rfl⟩ := ih h2
    exact ⟨x :: lss, by simp only [mapRes, h1, h3, Res.ok_bind], rfl⟩

theorem chained_flatten {α : Type} (gss : List (List (SGroup α))) :
    chained gss.flatten = (gss.map chained).flatten := by
  induction gss with
  | nil => rfl
  | cons gs gss ih =>
    rw [List.flatten_cons, List.map_cons, List.flatten_cons, ← ih]
    simp [chained]

theorem mem_chained {α : Type} {gs : List (SGroup α)} {g : SGroup α} (hg : g ∈ gs) (hr : g.recs ≠ []) :
    ∃ r, (r, g.cert, g.chain) ∈ chained gs := by
  obtain ⟨r, hr⟩ := List.exists_mem_of_ne_nil _ hr
  exact ⟨r, List.mem_flatMap.mpr ⟨g, hg, List.mem_map.mpr ⟨r, hr, rfl⟩⟩⟩

/-- Receipts in a list of groups are as the parsers return them. -/
def AllParsed (gs : List (SGroup (Receipt × Str))) : Prop := ∀ g ∈ gs, ∀ r ∈ g.recs, Parsed r.1 r.2

/-- Merging files that were written by the exporter. -/
theorem merge_files {gss : List (List (SGroup (Receipt × Str)))} (hp : ∀ gs ∈ gss, AllParsed gs)
    (hw : ∀ gs ∈ gss, Writable gs) (hsome : ∀ gs ∈ gss, ∃ g ∈ gs, g.recs ≠ []) (csz : Nat) :
    ∃ gs', chained gs' = chained gss.flatten ∧ (∀ g ∈ gs', g.recs ≠ []) ∧
      mergeDEP true csz (gss.map fun gs => exportDEP gs []) = .ok (exportDEP (mergeExport gs') []) ∧
      mergeDEP false csz (gss.map fun gs => exportDEP gs []) = .ok (exportDEP gs' []) := by
  have key : ∃ hss, mapRes (fun doc => adaptStream (fileParse doc csz)) (gss.map fun gs => exportDEP gs []) = .ok hss ∧
      chained hss.flatten = chained gss.flatten ∧ ∀ g ∈ hss.flatten, g.recs ≠ [] := by
    induction gss with
    | nil => exact ⟨[], rfl, rfl, by simp⟩
    | cons gs gss ih =>
      obtain ⟨hss, h1, h2, h3⟩ := ih (fun g hg => hp g (by simp [hg])) (fun g hg => hw g (by simp [hg]))
        (fun g hg => hsome g (by simp [hg]))
      obtain ⟨hs, k1, k2, k3⟩ := export_parse (hp gs (by simp)) (hw gs (by simp)) (hsome gs (by simp)) (extra := [])
        (by simp [Dict.keys]) (n := csz) (nparts := 1) (.inr ⟨by simp [Dict.keys], rfl⟩)
      refine ⟨hs :: hss, ?_, ?_, ?_⟩
      · simp only [List.map_cons, mapRes, k1, h1, Res.ok_bind]
      · rw [chained_flatten, chained_flatten] at h2 ⊢
        rw [List.map_cons, List.flatten_cons, k2, h2, List.map_cons, List.flatten_cons]
      · intro g hg
        rw [List.flatten_cons, List.mem_append] at hg
        exact hg.elim (k3 g) (h3 g)
  obtain ⟨hss, h1, h2, h3⟩ := key
  refine ⟨hss.flatten, h2, h3, ?_, ?_⟩ <;> (unfold mergeDEP; rw [h1]; rfl)

theorem merged_writable {α : Type} {same : SGroup α → SGroup α → Prop} {gs outs : List (SGroup α)}
    (h : MergedBy same gs outs) : ∀ o ∈ outs, ∃ g ∈ gs, o.cert = g.cert ∧ o.chain = g.chain := by
  induction h with
  | nil => simp
  | run g run rest outs _ _ _ ih =>
    intro o ho
    rcases List.mem_cons.mp ho with rfl | ho
    · exact ⟨g, by simp, rfl, rfl⟩
    · obtain ⟨g', hg', e⟩ := ih o ho
      exact ⟨g', by simp [hg'], e⟩

theorem chainedDep_toDep (gs : List (SGroup (Receipt × Str))) :
    chainedDep (gs.map SGroup.toDep) = (chained gs).map fun x => (utf8Enc (x.1.1.toJWS x.1.2), x.2) := by
  unfold chainedDep chained
  rw [List.flatMap_map, List.map_flatMap]
  apply List.flatMap_congr
  intro g _
  simp [SGroup.toDep, Function.comp_def]

/-- C59: every DEP whose receipts can be read is split without errors, and the parts can be merged, with
or without joining groups.  The result has the same receipts in the same order, each written anew and with
the same certificate; also with the same chain if groups are not joined or equal certificates have equal
chains. -/
theorem split_merge {doc : Json} {gs : List DepGroup} (h : DepJson doc gs) (hp : PlainDoc doc)
    (hsome : ∃ g ∈ gs, g.recs ≠ []) (hw : ∀ g ∈ gs, ∀ c, g.cert = some c → certDER c ≠ [])
    (hread : ∀ g ∈ gs, ∀ b ∈ g.recs, ∃ r alg, ReadsAs b r alg) {n : Nat} :
    ∃ files, splitDEP n doc = (files, none) ∧ ∀ merging csz, ∃ out gs',
      mergeDEP merging csz files = .ok out ∧ DepJson out gs' ∧ PlainDoc out ∧ (∃ g ∈ gs', g.recs ≠ []) ∧
      List.Forall₂ (fun x y => Rewritten x.1 y.1 ∧ x.2.1 = y.2.1) (chainedDep gs) (chainedDep gs') ∧
      (merging = false ∨ (∀ g ∈ gs, ∀ g' ∈ gs, g.cert = g'.cert → g.chain = g'.chain) →
        List.Forall₂ (fun x y => Rewritten x.1 y.1 ∧ x.2 = y.2) (chainedDep gs) (chainedDep gs')) := by
  obtain ⟨h1, h2, h3, h4⟩ := parse_chained h hsome (n := n) (nparts := 1) (s := fileParse doc n) (.inr ⟨hp, rfl⟩)
  have hmem : ∀ x ∈ chainedDep gs, ∃ g ∈ gs, x.1 ∈ g.recs ∧ x.2 = (g.cert, g.chain) := by
    intro x hx
    obtain ⟨g, hg, hx⟩ := List.mem_flatMap.mp hx
    obtain ⟨b, hb, rfl⟩ := List.mem_map.mp hx
    exact ⟨g, hg, hb, rfl⟩
  have htot : ∀ g ∈ (fileParse doc n).chunks.flatten, ∀ b ∈ g.recs, ∃ r alg, ReadsAs b r alg := by
    intro g hg b hb
    have : (b, g.cert, g.chain) ∈ chainedDep (fileParse doc n).chunks.flatten :=
      List.mem_flatMap.mpr ⟨g, hg, List.mem_map.mpr ⟨b, hb, rfl⟩⟩
    rw [h2] at this
    obtain ⟨g', hg', hb', -⟩ := hmem _ this
    exact hread g' hg' b hb'
  obtain ⟨all, hall⟩ := adapt_total htot
  have hch := adapt_chained hall
  have hsh := adapt_shape hall
  rw [h2] at hch
  obtain ⟨gss, hgss, hfl⟩ := mapRes_flatten hall
  have hnonempty : ∀ g ∈ all, g.recs ≠ [] := by
    intro g hg
    obtain ⟨g0, hg0, -, -, h5⟩ := forall₂_mem_right hsh hg
    exact fun e => h4 g0 hg0 (h5.mp e)
  have hmemall : ∀ x ∈ chained all, Parsed x.1.1 x.1.2 ∧ ∃ g ∈ gs, x.2 = (g.cert, g.chain) := by
    intro x hx
    obtain ⟨y, hy, h5, h6⟩ := forall₂_mem_right hch hx
    obtain ⟨g, hg, -, e⟩ := hmem y hy
    exact ⟨h5.parsed, g, hg, by rw [h6, e]⟩
  have hparsed : AllParsed all := fun g hg r hr =>
    (hmemall (r, g.cert, g.chain) (List.mem_flatMap.mpr ⟨g, hg, List.mem_map.mpr ⟨r, hr, rfl⟩⟩)).1
  have hcerts : ∀ l : List (SGroup (Receipt × Str)), chained l = chained all → (∀ g ∈ l, g.recs ≠ []) →
      ∀ g ∈ l, ∃ g0 ∈ gs, g.cert = g0.cert ∧ g.chain = g0.chain := by
    intro l hl hne g hg
    obtain ⟨r, hr⟩ := mem_chained hg (hne g hg)
    rw [hl] at hr
    obtain ⟨-, g0, hg0, e⟩ := hmemall _ hr
    simp only [Prod.mk.injEq] at e
    exact ⟨g0, hg0, e⟩
  have hwr : ∀ l : List (SGroup (Receipt × Str)), (∀ g ∈ l, ∃ g0 ∈ gs, g.cert = g0.cert ∧ g.chain = g0.chain) →
      Writable l := by
    intro l hl g hg c hc
    obtain ⟨g0, hg0, e, -⟩ := hl g hg
    exact hw g0 hg0 c (by rw [← e]; exact hc)
  have hin : ∀ gs' ∈ gss, ∀ g ∈ gs', g ∈ all := by
    intro gs' hgs' g hg
    rw [← hfl]
    exact List.mem_flatten.mpr ⟨gs', hgs', hg⟩
  have hne : ∀ gs' ∈ gss, ∃ g ∈ gs', g.recs ≠ [] := by
    intro gs' hgs'
    obtain ⟨c, hc, e⟩ := forall₂_mem_right (mapRes_iff.mp hgss) hgs'
    have hlen := (mapRes_iff.mp e).length_eq
    have : gs' ≠ [] := by
      rintro rfl
      exact h3 c hc (List.length_eq_zero_iff.mp hlen)
    obtain ⟨g, hg⟩ := List.exists_mem_of_ne_nil _ this
    exact ⟨g, hg, hnonempty g (hin gs' hgs' g hg)⟩
  have hallc := hcerts all rfl hnonempty
  refine ⟨gss.map fun gs => exportDEP gs [], ?_, ?_⟩
  · unfold splitDEP
    rw [h1]
    exact splitChunks_ok hgss
  · intro merging csz
    obtain ⟨gs', k1, k2, k3, k4⟩ := merge_files (gss := gss)
      (fun l hl g hg r hr => hparsed g (hin l hl g hg) r hr)
      (fun l hl => hwr l fun g hg => hallc g (hin l hl g hg)) hne csz
    rw [hfl] at k1
    have hgs'c := hcerts gs' k1 k2
    -- the groups that are written
    have hsmall : ∀ outs : List (SGroup (Receipt × Str)),
        (∀ o ∈ outs, ∃ g0 ∈ gs, o.cert = g0.cert ∧ o.chain = g0.chain) →
        certified outs = certified all → ∃ g ∈ outs.map SGroup.toDep, g.recs ≠ [] := by
      intro outs _ he
      by_contra hno
      have : certified outs = [] := by
        unfold certified
        rw [List.flatMap_eq_nil_iff]
        intro g hg
        by_contra hr
        exact hno ⟨_, List.mem_map.mpr ⟨g, hg, rfl⟩, by
          intro e
          simp only [SGroup.toDep, List.map_eq_nil_iff] at e
          exact hr (by rw [e]; rfl)⟩
      rw [this, chained_certified, eq_comm, List.map_eq_nil_iff] at he
      rw [he] at hch
      cases hg : chainedDep gs with
      | nil =>
        obtain ⟨g, hg', hr⟩ := hsome
        obtain ⟨b, hb⟩ := List.exists_mem_of_ne_nil _ hr
        have : (b, g.cert, g.chain) ∈ chainedDep gs :=
          List.mem_flatMap.mpr ⟨g, hg', List.mem_map.mpr ⟨b, hb, rfl⟩⟩
        rw [hg] at this
        cases this
      | cons x l =>
        rw [hg] at hch
        cases hch
    have hrel : ∀ outs : List (SGroup (Receipt × Str)), chained outs = chained all →
        List.Forall₂ (fun x y => Rewritten x.1 y.1 ∧ x.2 = y.2) (chainedDep gs)
          (chainedDep (outs.map SGroup.toDep)) := by
      intro outs he
      rw [chainedDep_toDep, he]
      generalize chained all = A at hch
      clear * - hch
      generalize chainedDep gs = B at hch
      induction hch with
      | nil => exact .nil
      | cons a b ih => exact .cons ⟨⟨_, _, a.1, rfl⟩, a.2.symm⟩ ih
    have hrel' : ∀ outs : List (SGroup (Receipt × Str)), certified outs = certified all →
        List.Forall₂ (fun x y => Rewritten x.1 y.1 ∧ x.2.1 = y.2.1) (chainedDep gs)
          (chainedDep (outs.map SGroup.toDep)) := by
      intro outs he
      rw [chained_certified, chained_certified] at he
      rw [chainedDep_toDep]
      generalize chained all = A at hch he
      generalize chained outs = C at he
      clear * - hch he
      generalize chainedDep gs = B at hch
      induction hch generalizing C with
      | nil =>
        rw [List.map_nil, List.map_eq_nil_iff] at he
        rw [he]
        exact .nil
      | cons a b ih =>
        rw [List.map_cons, List.map_eq_cons_iff] at he
        obtain ⟨c, C', rfl, e1, e2⟩ := he
        simp only [Prod.mk.injEq] at e1
        refine .cons ⟨⟨_, _, a.1, ?_⟩, ?_⟩ (ih C' e2)
        · simp only [e1.1]
        · simp only [e1.2]
          rw [a.2]
    have hx : (c!"Belege-Gruppe" : Str) ∉ Dict.keys ([] : Dict Json) := by simp [Dict.keys]
    have hk : ∀ k ∈ Dict.keys ([] : Dict Json), k ≠ [] ∧ '.' ∉ k := by simp [Dict.keys]
    cases merging with
    | false =>
      refine ⟨_, gs'.map SGroup.toDep, k4, export_json (hwr gs' hgs'c) hx, export_plain _ hx hk, ?_, ?_, ?_⟩
      · exact hsmall gs' hgs'c (by rw [chained_certified, k1, ← chained_certified])
      · exact (hrel gs' k1).imp fun _ _ h => ⟨h.1, by rw [h.2]⟩
      · exact fun _ => hrel gs' k1
    | true =>
      have hm := merge_export_partial gs'
      have hmc : ∀ o ∈ mergeExport gs', ∃ g0 ∈ gs, o.cert = g0.cert ∧ o.chain = g0.chain := by
        intro o ho
        obtain ⟨g, hg, e1, e2⟩ := merged_writable hm o ho
        obtain ⟨g0, hg0, e3, e4⟩ := hgs'c g hg
        exact ⟨g0, hg0, e1.trans e3, e2.trans e4⟩
      have hmcert : certified (mergeExport gs') = certified all := by
        rw [merge_export_certified, chained_certified, k1, ← chained_certified]
      refine ⟨_, (mergeExport gs').map SGroup.toDep, k3, export_json (hwr _ hmc) hx, export_plain _ hx hk,
        hsmall _ hmc hmcert, hrel' _ hmcert, ?_⟩
      rintro (h0 | h0)
      · cases h0
      · refine hrel _ ?_
        rw [(merge_export_chains_partial ?_).2, k1]
        intro g hg g' hg' e
        obtain ⟨a, ha, e1, e2⟩ := hgs'c g hg
        obtain ⟨b, hb, e3, e4⟩ := hgs'c g' hg'
        rw [e2, e4]
        exact h0 a ha b hb (by rw [← e1, ← e3, e])

/-! ### C71: verification -/

/-- Packaging in terms of receipts, for groups that all have certificates. -/
theorem package_chained {ks : KeyStore} {gs : List DepGroup} (hc : ∀ g ∈ gs, g.cert ≠ none)
    (hne : ∀ g ∈ gs, g.recs ≠ []) {F : List (Bytes × Verifier)} :
    (∃ P, mapRes (packageOne ks) gs = .ok P ∧ spread P = F) ↔
      (∀ x ∈ chainedDep gs, ∃ c, x.2.1 = some c ∧ verifyCert ks c x.2.2 = .ok ()) ∧
      F = (chainedDep gs).map fun x => (x.1, ⟨none, x.2.1⟩) := by
  induction gs generalizing F with
  | nil =>
    constructor
    · rintro ⟨P, h, rfl⟩
      cases h
      exact ⟨by simp [chainedDep], rfl⟩
    · rintro ⟨-, rfl⟩
      exact ⟨[], rfl, rfl⟩
  | cons g gs ih =>
    obtain ⟨recs, cert, chain⟩ := g
    cases cert with
    | none => exact absurd rfl (hc _ List.mem_cons_self)
    | some c =>
      have ih := @ih (fun g hg => hc g (by simp [hg])) (fun g hg => hne g (by simp [hg]))
      obtain ⟨r0, hr0⟩ := List.exists_mem_of_ne_nil _ (hne _ List.mem_cons_self)
      have e1 : chainedDep (⟨recs, some c, chain⟩ :: gs) =
          (recs.map fun r => (r, some c, chain)) ++ chainedDep gs := rfl
      rw [e1]
      constructor
      · rintro ⟨P, h, rfl⟩
        simp only [mapRes, packageOne, Res.bind_eq_ok, Except.ok.injEq] at h
        obtain ⟨_, ⟨_, hv, rfl⟩, Q, hQ, rfl⟩ := h
        obtain ⟨h1, h2⟩ := ih.mp ⟨Q, hQ, rfl⟩
        refine ⟨?_, ?_⟩
        · intro x hx
          rcases List.mem_append.mp hx with hx | hx
          · obtain ⟨r, -, rfl⟩ := List.mem_map.mp hx
            exact ⟨c, rfl, hv⟩
          · exact h1 x hx
        · rw [List.map_append, ← h2]
          simp [spread, Verifier.fromCert]
      · rintro ⟨h1, rfl⟩
        obtain ⟨Q, hQ, hs⟩ := ih.mpr ⟨fun x hx => h1 x (List.mem_append.mpr (.inr hx)), rfl⟩
        obtain ⟨c', e, hv⟩ := h1 (r0, some c, chain) (List.mem_append.mpr (.inl (List.mem_map.mpr ⟨r0, hr0, rfl⟩)))
        cases e
        refine ⟨(recs, .fromCert c) :: Q, ?_, ?_⟩
        · simp only [mapRes, packageOne, hv, hQ, Res.ok_bind]
        · rw [List.map_append, ← hs]
          simp [spread, Verifier.fromCert]

/-- Acceptance of groups that all have certificates depends on the receipts and their certificates only,
not on the groups. -/
theorem accept_chained {ks : KeyStore} {key : Option Bytes} {ps : Option Str} {s : RegState} {used : Used}
    {gs gs' : List DepGroup} (hc : ∀ g ∈ gs, g.cert ≠ none) (hne : ∀ g ∈ gs, g.recs ≠ [])
    (hc' : ∀ g ∈ gs', g.cert ≠ none) (hne' : ∀ g ∈ gs', g.recs ≠ []) (he : chainedDep gs = chainedDep gs')
    {x : RegState × Used} (h : ∃ P, packageChunk ks gs = .ok P ∧ verifyGroups key ps s used P = .ok x) :
    ∃ P, packageChunk ks gs' = .ok P ∧ verifyGroups key ps s used P = .ok x := by
  obtain ⟨P, hP, hv⟩ := h
  have h1 := (packageChunk_iff.mp hP).2
  have h2 := (package_chained hc hne).mp ⟨P, h1, rfl⟩
  rw [he] at h2
  obtain ⟨P', h3, h4⟩ := (package_chained hc' hne').mpr h2
  have hrecs : ∀ (gs : List DepGroup) P, mapRes (packageOne ks) gs = .ok P → (∀ g ∈ gs, g.recs ≠ []) →
      ∀ p ∈ P, p.1 ≠ [] := by
    intro gs P hm hne p hp
    obtain ⟨g, hg, e⟩ := forall₂_mem_right (mapRes_iff.mp hm) hp
    rw [(packageOne_iff.mp e).1]
    exact hne g hg
  refine ⟨P', packageChunk_iff.mpr ⟨.inr hc', h3⟩, ?_⟩
  rw [groups_spread (hrecs gs' P' h3 hne'), h4, ← groups_spread (hrecs gs P h1 hne)]
  exact hv

/-- Two DEPs with the same receipts in the same order and the same certificates are accepted alike. -/
theorem dep_verdict_chained {doc doc' : Json} {gs gs' : List DepGroup} (h : DepJson doc gs) (h' : DepJson doc' gs')
    (hc : ∀ g ∈ gs, g.recs ≠ [] → g.cert ≠ none) (hsome : ∃ g ∈ gs, g.recs ≠ [])
    (he : chainedDep gs = chainedDep gs') {ks : KeyStore} {key : Option Bytes} {c c' : Cluster} {idx : Option Int} :
    verifyDEP ks key c idx (dictParse 1 doc 0) = (c', .ok ()) ↔
      verifyDEP ks key c idx (dictParse 1 doc' 0) = (c', .ok ()) := by
  have hcerts : ∀ (l : List DepGroup), chainedDep l = chainedDep gs → ∀ g ∈ l, g.recs ≠ [] → g.cert ≠ none := by
    intro l hl g hg hr
    obtain ⟨b, hb⟩ := List.exists_mem_of_ne_nil _ hr
    have hm : (b, g.cert, g.chain) ∈ chainedDep l := List.mem_flatMap.mpr ⟨g, hg, List.mem_map.mpr ⟨b, hb, rfl⟩⟩
    rw [hl] at hm
    obtain ⟨g0, hg0, hm⟩ := List.mem_flatMap.mp hm
    obtain ⟨b', hb', e⟩ := List.mem_map.mp hm
    simp only [Prod.mk.injEq] at e
    rw [← e.2.1]
    exact hc g0 hg0 (List.ne_nil_of_mem hb')
  have hsome' : ∃ g ∈ gs', g.recs ≠ [] := by
    obtain ⟨g, hg, hr⟩ := hsome
    obtain ⟨b, hb⟩ := List.exists_mem_of_ne_nil _ hr
    have hm : (b, g.cert, g.chain) ∈ chainedDep gs := List.mem_flatMap.mpr ⟨g, hg, List.mem_map.mpr ⟨b, hb, rfl⟩⟩
    rw [he] at hm
    obtain ⟨g0, hg0, hm⟩ := List.mem_flatMap.mp hm
    obtain ⟨b', hb', -⟩ := List.mem_map.mp hm
    exact ⟨g0, hg0, List.ne_nil_of_mem hb'⟩
  rw [dict_chunks_zero h (le_refl _) hsome, dict_chunks_zero h' (le_refl _) hsome']
  have hfl : ∀ l : List DepGroup, (l.map fun g => [g]).flatten = l := by
    intro l; rw [← List.flatMap_def, List.flatMap_singleton']
  have hgood : ∀ l : List DepGroup, chainedDep l = chainedDep gs →
      (∀ g ∈ l.filter fun g => g.recs ≠ [], g.cert ≠ none) ∧ (∀ g ∈ l.filter fun g => g.recs ≠ [], g.recs ≠ []) := by
    intro l hl
    refine ⟨fun g hg => ?_, fun g hg => by simpa using (List.mem_filter.mp hg).2⟩
    obtain ⟨h1, h2⟩ := List.mem_filter.mp hg
    exact hcerts l hl g h1 (by simpa using h2)
  obtain ⟨a1, a2⟩ := hgood gs rfl
  obtain ⟨b1, b2⟩ := hgood gs' he.symm
  have he' : chainedDep (gs.filter fun g => g.recs ≠ []) = chainedDep (gs'.filter fun g => g.recs ≠ []) := by
    rw [chainedDep_filter, chainedDep_filter, he]
  simp only [verifyDEP_iff, hfl, true_and]
  constructor
  · rintro ⟨c₁, ps, s, P, s', u', i, h1, h2, h3, h4⟩
    obtain ⟨P', k1, k2⟩ := accept_chained a1 a2 b1 b2 he' ⟨P, h2, h3⟩
    exact ⟨c₁, ps, s, P', s', u', i, h1, k1, k2, h4⟩
  · rintro ⟨c₁, ps, s, P, s', u', i, h1, h2, h3, h4⟩
    obtain ⟨P', k1, k2⟩ := accept_chained b1 b2 a1 a2 he'.symm ⟨P, h2, h3⟩
    exact ⟨c₁, ps, s, P', s', u', i, h1, k1, k2, h4⟩

/-- C71: splitting a DEP and merging the parts does not change the verdict on it, nor the state after
verification, if all groups have certificates, equal certificates have equal chains and the receipts are
written canonically. -/
theorem split_merge_verdict {doc : Json} {gs : List DepGroup} (h : DepJson doc gs) (hp : PlainDoc doc)
    (hsome : ∃ g ∈ gs, g.recs ≠ []) (hw : ∀ g ∈ gs, ∀ c, g.cert = some c → certDER c ≠ [])
    (hread : ∀ g ∈ gs, ∀ b ∈ g.recs, ∃ t, b = utf8Enc t ∧ CanonicalJWS t ∧ ∃ x, fromJWS t = .ok x)
    (hc : ∀ g ∈ gs, g.recs ≠ [] → g.cert ≠ none)
    (hch : ∀ g ∈ gs, ∀ g' ∈ gs, g.cert = g'.cert → g.chain = g'.chain) {n : Nat} :
    ∃ files, splitDEP n doc = (files, none) ∧ ∀ merging csz, ∃ out, mergeDEP merging csz files = .ok out ∧
      ∀ (ks : KeyStore) (key : Option Bytes) (c c' : Cluster) (idx : Option Int),
        verifyDEP ks key c idx (dictParse 1 doc 0) = (c', .ok ()) ↔
        verifyDEP ks key c idx (dictParse 1 out 0) = (c', .ok ()) := by
  obtain ⟨files, h1, h2⟩ := split_merge h hp hsome hw (fun g hg b hb => by
    obtain ⟨t, e, -, ⟨r, alg⟩, hx⟩ := hread g hg b hb
    exact ⟨r, alg, t, e, hx⟩) (n := n)
  refine ⟨files, h1, fun merging csz => ?_⟩
  obtain ⟨out, gs', k1, k2, -, -, -, k6⟩ := h2 merging csz
  refine ⟨out, k1, fun ks key c c' idx => ?_⟩
  refine dep_verdict_chained h k2 hc hsome ?_
  have hrel := k6 (.inr hch)
  have hcan : ∀ x ∈ chainedDep gs, ∃ t, x.1 = utf8Enc t ∧ CanonicalJWS t := by
    intro x hx
    obtain ⟨g, hg, hx⟩ := List.mem_flatMap.mp hx
    obtain ⟨b, hb, rfl⟩ := List.mem_map.mp hx
    obtain ⟨t, e, ht, -⟩ := hread g hg b hb
    exact ⟨t, e, ht⟩
  generalize chainedDep gs = A at hrel hcan
  generalize chainedDep gs' = B at hrel
  clear * - hrel hcan
  induction hrel with
  | nil => rfl
  | @cons x y A B a b ih =>
    rw [ih fun z hz => hcan z (List.mem_cons_of_mem _ hz)]
    obtain ⟨t, e, ht⟩ := hcan x List.mem_cons_self
    obtain ⟨x1, x2⟩ := x
    obtain ⟨y1, y2⟩ := y
    simp only at a e
    subst e
    rw [a.1.eq ht, a.2]

end

namespace Demo

attribute [local instance] env

theorem day_some : ∃ g ∈ dayGroups, g.recs ≠ [] := ⟨_, List.mem_cons_self, by
  intro h
  have : (List.isEmpty ((texts.take 3).map utf8Enc)) = true := by simpa using h
  exact absurd this (by decide +kernel)⟩

theorem day_writable : ∀ g ∈ dayGroups, ∀ c, g.cert = some c → certDER c ≠ [] := by
  intro g hg c hc
  simp only [dayGroups, List.mem_cons, List.not_mem_nil, or_false] at hg
  rcases hg with rfl | rfl <;> cases hc <;> decide +kernel

set_option maxRecDepth 100000 in
theorem texts_canonical : ∀ t ∈ texts, (match fromJWS t with
    | .ok (r, a) => decide (r.toJWS a = t)
    | .error _ => false) = true := by decide +kernel

theorem day_reads : ∀ g ∈ dayGroups, ∀ b ∈ g.recs,
    ∃ t, b = utf8Enc t ∧ CanonicalJWS t ∧ ∃ x, fromJWS t = .ok x := by
  have key : ∀ t ∈ texts, CanonicalJWS t ∧ ∃ x, fromJWS t = .ok x := by
    intro t ht
    have h := texts_canonical t ht
    generalize hx : fromJWS t = x at h
    rcases x with e | ⟨r, a⟩
    · exact absurd h (by simp)
    · exact ⟨(jws_string_round_trip hx).mp (by simpa using h), _, rfl⟩
  intro g hg b hb
  simp only [dayGroups, List.mem_cons, List.not_mem_nil, or_false] at hg
  rcases hg with rfl | rfl
  · obtain ⟨t, ht, rfl⟩ := List.mem_map.mp hb
    exact ⟨t, rfl, key t (List.mem_of_mem_take ht)⟩
  · obtain ⟨t, ht, rfl⟩ := List.mem_map.mp hb
    exact ⟨t, rfl, key t (List.mem_of_mem_drop ht)⟩

/-- The day of the register, split into files of two receipts and merged again, is accepted with the
state of the register after the day. -/
example : ∃ files, splitDEP 2 dayDoc = (files, none) ∧ ∀ merging csz, ∃ out,
    mergeDEP merging csz files = .ok out ∧
    verifyDEP deviceStore (some aes) empty none (dictParse 1 out 0) = (⟨[final], .unique ids⟩, .ok ()) := by
  obtain ⟨files, h1, h2⟩ := split_merge_verdict dayDoc_json dayDoc_plain day_some day_writable day_reads
    (fun g hg _ => by
      simp only [dayGroups, List.mem_cons, List.not_mem_nil, or_false] at hg
      rcases hg with rfl | rfl <;> simp)
    (fun g hg g' hg' _ => by
      simp only [dayGroups, List.mem_cons, List.not_mem_nil, or_false] at hg hg'
      rcases hg with rfl | rfl <;> rcases hg' with rfl | rfl <;> rfl) (n := 2)
  refine ⟨files, h1, fun merging csz => ?_⟩
  obtain ⟨out, h3, h4⟩ := h2 merging csz
  exact ⟨out, h3, (h4 _ _ _ _ _).mp dayDoc_ok⟩

set_option maxRecDepth 100000 in
/-- There are several files. -/
example : (splitDEP 2 dayDoc).1.length = (texts.length + 1) / 2 := by decide +kernel

set_option maxRecDepth 100000 in
/-- Without certificates in all groups merging can change the verdict: two groups without certificate are
rejected, the merged group is accepted. -/
theorem merging_changes_verdict :
    (verifyDEP closedStore (some aes) empty none (dictParse 1 closedDoc 0)).2 = .error .noCertificateGiven ∧
    (match mergeDEP true 0 [closedDoc] with
      | .ok out => isOk (verifyDEP closedStore (some aes) empty none (dictParse 1 out 0)).2 ()
      | .error _ => false) = true := by
  decide +kernel

end Demo

end RKSV
