import Verif.Spec.TestFalsify
import Verif.Props.TestVerify
import Verif.Props.DepRules
/-
What a cluster knows after some DEPs, in terms of the receipts in them.
-/
namespace RKSV

section
variable [PyEnv]

/-! ### Texts -/

theorem groupTexts_json {j : Json} {g : DepGroup} (h : GroupJson j g) : (groupTexts j).map utf8Enc = g.recs := by
  cases h with
  | mk d rs s cs cert chain hr =>
    have : groupTexts (.obj d) = rs := by
      simp only [groupTexts, Json.listAt, hr]
      clear hr
      induction rs with
      | nil => rfl
      | cons t rs ih =>
        simp only [List.map_cons, List.filterMap_cons, Json.text?]
        rw [ih]
    rw [this]

theorem depTexts_json {j : Json} {gs : List DepGroup} (h : DepJson j gs) : (depTexts j).map utf8Enc = gs.flatMap (·.recs) := by
  cases h with
  | mk root js _ h hg =>
    have : depTexts (.obj root) = js.flatMap groupTexts := by
      simp only [depTexts, Json.listAt, h]
    rw [this]
    clear h this
    induction hg with
    | nil => rfl
    | cons h1 _ ih => rw [List.flatMap_cons, List.flatMap_cons, List.map_append, ih, groupTexts_json h1]

omit [PyEnv] in
theorem utf8Enc_map_injective {a b : List Str} (h : a.map utf8Enc = b.map utf8Enc) : a = b :=
  List.map_injective_iff.mpr (fun _ _ h => utf8Enc_injective h) h

/-! ### The receipts of DEPs -/

theorem DepReads.reads {ks : KeyStore} {gs : List DepGroup} {h : List CheckedEntry} (hr : DepReads ks gs h) :
    Reads (gs.flatMap (·.recs)) (h.map (·.1)) := by
  induction hr with
  | nil => exact ⟨rfl, by simp⟩
  | cons g v hg gs h hv hr ht ih =>
    have e : (hg.map (fun x => (x, v)) ++ h).map (·.1) = hg ++ h.map (·.1) := by simp [Function.comp_def]
    rw [List.flatMap_cons, e]
    refine ⟨by rw [hr.1, ih.1, List.map_append], ?_⟩
    intro x hx
    rcases List.mem_append.mp hx with hx | hx
    · exact hr.2 x hx
    · exact ih.2 x hx

theorem DepReads.split {ks : KeyStore} {A B : List DepGroup} {h : List CheckedEntry} (hr : DepReads ks (A ++ B) h) :
    ∃ a b, h = a ++ b ∧ DepReads ks A a ∧ DepReads ks B b := by
  induction A generalizing h with
  | nil => exact ⟨[], h, rfl, .nil, hr⟩
  | cons g A ih =>
    cases hr with
    | cons _ v hg _ h' hv hr ht =>
      obtain ⟨a, b, rfl, h1, h2⟩ := ih ht
      exact ⟨hg.map (fun x => (x, v)) ++ a, b, by simp, .cons _ _ _ _ _ hv hr h1, h2⟩

theorem VerifierFor.unique {ks : KeyStore} {g g' : DepGroup} {v v' : Verifier} (hc : g.cert = g'.cert) (h : VerifierFor ks g v)
    (h' : VerifierFor ks g' v') : v = v' := by
  cases h with
  | store h =>
    cases h' with
    | store => rfl
    | cert c h1 => rw [hc, h1] at h; cases h
  | cert c h =>
    cases h' with
    | store h1 => rw [hc, h1] at h; cases h
    | cert c' h1 =>
      rw [hc, h1] at h
      cases h
      rfl

theorem flatMap_nonempty (gs : List DepGroup) : (nonempty gs).flatMap (·.recs) = gs.flatMap (·.recs) := by
  induction gs with
  | nil => rfl
  | cons g gs ih =>
    unfold nonempty at ih ⊢
    rw [List.filter_cons]
    split
    · rw [List.flatMap_cons, List.flatMap_cons, ih]
    · rename_i h
      have : g.recs = [] := by simpa using h
      rw [List.flatMap_cons, this, ih]
      rfl

/-! ### Histories -/

/-- The receipts of DEPs with their texts and registers. -/
def history (segs : List (Nat × Part)) : List (Nat × Entry) := (tagged segs).map fun t => (t.1, (t.2.1.toJWS t.2.2, t.2.1))

/-- The receipts of a register. -/
def entriesOf (H : List (Nat × Entry)) (i : Nat) : List Entry := (H.filter fun p => p.1 = i).map (·.2)

omit [PyEnv] in
theorem entriesOf_append (H H' : List (Nat × Entry)) (i : Nat) : entriesOf (H ++ H') i = entriesOf H i ++ entriesOf H' i := by
  simp [entriesOf, List.filter_append]

omit [PyEnv] in
theorem entriesOf_same (i : Nat) (E : List Entry) : entriesOf (E.map fun x => (i, x)) i = E := by
  induction E with
  | nil => rfl
  | cons x E ih =>
    simp only [entriesOf, List.map_cons, List.filter_cons, decide_true, if_true, List.map_cons] at ih ⊢
    rw [ih]

omit [PyEnv] in
theorem entriesOf_other {i k : Nat} (h : k ≠ i) (E : List Entry) : entriesOf (E.map fun x => (i, x)) k = [] := by
  simp only [entriesOf, List.map_eq_nil_iff, List.filter_eq_nil_iff, List.mem_map]
  rintro _ ⟨x, -, rfl⟩
  simpa using h.symm

omit [PyEnv] in
theorem mem_entriesOf {H : List (Nat × Entry)} {i : Nat} {y : Entry} (h : y ∈ entriesOf H i) : y ∈ H.map (·.2) := by
  obtain ⟨p, hp, rfl⟩ := List.mem_map.mp h
  exact List.mem_map_of_mem (List.mem_filter.mp hp).1

/-- The receipts of a DEP. -/
def partEntries (p : Part) : List Entry := (p.groups.flatMap (·.recs)).map fun r => (r.1.toJWS r.2, r.1)

theorem history_cons (p : Nat × Part) (segs : List (Nat × Part)) :
    history (p :: segs) = (partEntries p.2).map (fun x => (p.1, x)) ++ history segs := by
  simp [history, tagged, partEntries, Function.comp_def]

theorem history_append (segs segs' : List (Nat × Part)) : history (segs ++ segs') = history segs ++ history segs' := by
  simp [history, tagged]

theorem history_one (p : Nat × Part) : history [p] = (partEntries p.2).map fun x => (p.1, x) := by
  rw [history_cons]
  simp [history, tagged]

/-- What the cluster knows: the registers' first and last receipts and all receipt IDs. -/
structure Knows (u : Used) (H : List (Nat × Entry)) (c : Cluster) : Prop where
  used : c.used = addAll u (H.map (·.2))
  state : ∀ i s, c.regs[i]? = some s → ∃ x l, entriesOf H i = x :: l ∧ s.start = some x.1 ∧
    s.last = ((x :: l).getLast?.map (·.1))
  lt : ∀ p ∈ H, p.1 < c.regs.length
  valid : ∀ p ∈ H, p.2.Valid

theorem Knows.none {u : Used} {H : List (Nat × Entry)} {c : Cluster} (h : Knows u H c) {i : Nat} (hi : c.regs.length ≤ i) :
    entriesOf H i = [] := by
  simp only [entriesOf, List.map_eq_nil_iff, List.filter_eq_nil_iff]
  intro p hp
  have := h.lt p hp
  simp only [decide_eq_true_eq]
  omega

theorem partEntries_reads {p : Part} (hv : ∀ y ∈ partEntries p, y.Valid) :
    Reads ((p.groups.map SGroup.asRead).flatMap (·.recs)) (partEntries p) := by
  refine ⟨?_, hv⟩
  unfold partEntries
  generalize p.groups = gs
  induction gs with
  | nil => rfl
  | cons g gs ih =>
    simp only [List.map_cons, List.flatMap_cons, List.map_append, List.map_map] at ih ⊢
    rw [ih]
    rfl

/-- The register before. -/
theorem Info.before {u : Used} {H : List (Nat × Entry)} {c c₁ : Cluster} {i : Nat} {ps : Option Str} {s : RegState}
    (hk : Knows u H c) (hi : Info c (some (i : Int)) c₁ ps s) :
    ps = if i = 0 then Option.none else (entriesOf H (i - 1)).head?.map (·.1) := by
  have key : ∀ k s, c.regs[k]? = some s → s.start = (entriesOf H k).head?.map (·.1) := by
    intro k s hs
    obtain ⟨x, l, e, h1, -⟩ := hk.state k s hs
    rw [e, h1]
    rfl
  generalize hx : (some (i : Int)) = idx at hi
  cases hi with
  | new _ h hl =>
    rcases h with h | h
    · rw [h] at hx
      cases hx
    · rw [← hx] at h
      have hi : i = c.regs.length := by simpa using h
      split
      · rename_i h0
        have : c.regs = [] := List.length_eq_zero_iff.mp (hi ▸ h0)
        rw [this]
        rfl
      · rename_i h0
        have hlt : i - 1 < c.regs.length := by omega
        have e : c.regs.getLast? = some c.regs[i - 1] := by
          rw [List.getLast?_eq_getElem?, ← hi]
          exact List.getElem?_eq_getElem hlt
        rw [e, Option.bind_some]
        exact key (i - 1) _ (List.getElem?_eq_getElem hlt)
  | first r h =>
    have : i = 0 := by simpa using hx
    rw [if_pos this]
  | later k p r hp h =>
    have : i = k + 1 := by
      have := Option.some.inj hx
      omega
    subst this
    rw [if_neg (by omega)]
    exact key k p hp

/-- The register. -/
theorem Info.known {u : Used} {H : List (Nat × Entry)} {c c₁ : Cluster} {i : Nat} {ps : Option Str} {s : RegState}
    (hk : Knows u H c) (hi : Info c (some (i : Int)) c₁ ps s) :
    (entriesOf H i = [] ∧ s = {} ∧ i = c.regs.length ∧ c₁.regs = c.regs ++ [({} : RegState)] ∨
      c₁.regs = c.regs ∧ c.regs[i]? = some s) := by
  generalize hx : (some (i : Int)) = idx at hi
  cases hi with
  | new _ h hl =>
    rcases h with h | h
    · rw [h] at hx
      cases hx
    · rw [← hx] at h
      have hi : i = c.regs.length := by simpa using h
      exact .inl ⟨hk.none (by omega), rfl, hi, rfl⟩
  | first r h =>
    have : i = 0 := by simpa using hx
    subst this
    exact .inr ⟨rfl, h⟩
  | later k p r hp h =>
    have : i = k + 1 := by
      have := Option.some.inj hx
      omega
    subst this
    exact .inr ⟨rfl, h⟩

/-- The saved last receipt and the first one. -/
theorem Knows.saved {u : Used} {H : List (Nat × Entry)} {c c₁ : Cluster} {i : Nat} {ps : Option Str} {s : RegState}
    (hk : Knows u H c) (hi : Info c (some (i : Int)) c₁ ps s) {saved : Option Entry} (hs : Saved s saved) :
    saved = (entriesOf H i).getLast? ∧ s.start = (entriesOf H i).head?.map (·.1) := by
  rcases hi.known hk with ⟨e, rfl, -, -⟩ | ⟨-, h⟩
  · rw [e]
    refine ⟨?_, rfl⟩
    cases hs with
    | none => rfl
    | some x h => cases h
  · obtain ⟨x, l, e, h1, h2⟩ := hk.state i s h
    rw [e]
    refine ⟨?_, h1⟩
    obtain ⟨y, hy⟩ : ∃ y, (x :: l).getLast? = some y := ⟨_, List.getLast?_eq_some_getLast (by simp)⟩
    have hv : y.Valid := by
      have : y ∈ entriesOf H i := by rw [e]; exact List.mem_of_getLast? hy
      obtain ⟨p, hp, rfl⟩ := List.mem_map.mp (mem_entriesOf this)
      exact hk.valid p hp
    rw [hy] at h2 ⊢
    cases hs with
    | none h =>
      rcases h with h | h
      · rw [h] at h2; cases h2
      · rw [h] at h2
        exact absurd (Option.some.inj h2).symm hv.ne_nil
    | some z h3 h4 h5 =>
      rw [h3] at h2
      rw [h5.unique hv (Option.some.inj h2)]

/-- One DEP more. -/
theorem Knows.dep {u : Used} {H : List (Nat × Entry)} {c c' : Cluster} (hk : Knows u H c) {ks : KeyStore} {key : Option Bytes}
    {i : Nat} {p : Part} (hg : p.Good) (hv : ∀ y ∈ partEntries p, y.Valid)
    (h : verifyDEP ks key c (some (i : Int)) (dictParse 1 (exportDEP p.groups p.extra) 0) = (c', .ok ())) :
    Knows u (H ++ (partEntries p).map fun x => (i, x)) c' := by
  have ha := (dep_accepted_iff hg.json hg.hasReceipts).mp h
  cases ha with
  | mk c₁ ps s s' used' k saved E info index last certs reads rules after ids =>
    obtain rfl : k = i := by
      rcases index with h | h
      · have := Option.some.inj h
        omega
      · exact absurd h.1 (by simp)
    have hE : E.map (·.1) = partEntries p :=
      reads_unique reads.reads (by rw [flatMap_nonempty]; exact partEntries_reads hv)
    have hne : partEntries p ≠ [] := by
      obtain ⟨g, hg1, hg2⟩ := hg.some
      obtain ⟨r, hr⟩ := List.exists_mem_of_ne_nil _ hg2
      have : (r.1.toJWS r.2, r.1) ∈ partEntries p :=
        List.mem_map_of_mem (f := fun r : Receipt × Str => (r.1.toJWS r.2, r.1)) (List.mem_flatMap.mpr ⟨g, hg1, hr⟩)
      exact List.ne_nil_of_mem this
    have hs := hk.saved info last
    unfold DepAfter at after
    rw [hE] at after ids
    have a1 := after.last
    have a2 := after.start
    obtain ⟨y, l, hy⟩ := List.exists_cons_of_ne_nil hne
    have hlen : k < c₁.regs.length ∧ c.regs.length ≤ c₁.regs.length := by
      rcases info.known hk with ⟨-, -, h1, h2⟩ | ⟨h1, h2⟩
      · rw [h2, List.length_append]
        simp
        omega
      · rw [h1]
        exact ⟨(List.getElem?_eq_some_iff.mp h2).1, le_refl _⟩
    refine ⟨?_, ?_, ?_, ?_⟩
    · show used' = _
      rw [usedAfter_iff.mp ids, hk.used, List.map_append, addAll_append, List.map_map]
      congr 1
      simp [Function.comp_def]
    · intro j t ht
      rw [entriesOf_append]
      by_cases hj : j = k
      · subst hj
        rw [List.getElem?_set_self hlen.1] at ht
        cases ht
        rw [entriesOf_same]
        cases hH : entriesOf H j with
        | nil =>
          rw [hH] at hs
          rw [hs.1, if_pos ⟨rfl, hne⟩] at a2
          refine ⟨y, l, by rw [hy]; rfl, by rw [a2, hy]; rfl, ?_⟩
          rw [a1, hy]
          simp [List.getLast?_cons]
        | cons z m =>
          rw [hH] at hs
          rw [if_neg (by rw [hs.1]; simp [List.getLast?_cons]), hs.2] at a2
          refine ⟨z, m ++ partEntries p, rfl, a2, ?_⟩
          rw [a1, ← List.cons_append, List.getLast?_append, hy]
          simp [List.getLast?_cons]
      · rw [List.getElem?_set_ne (fun h => hj h.symm)] at ht
        rw [entriesOf_other hj, List.append_nil]
        rcases info.known hk with ⟨-, -, h1, h2⟩ | ⟨h1, h2⟩
        · rw [h2, List.getElem?_append] at ht
          split at ht
          · exact hk.state j t ht
          · rename_i h3
            have := (List.getElem?_eq_some_iff.mp ht).1
            simp at this
            omega
        · rw [h1] at ht
          exact hk.state j t ht
    · intro q hq
      rw [List.length_set]
      rcases List.mem_append.mp hq with hq | hq
      · exact lt_of_lt_of_le (hk.lt q hq) hlen.2
      · obtain ⟨z, -, rfl⟩ := List.mem_map.mp hq
        exact hlen.1
    · intro q hq
      rcases List.mem_append.mp hq with hq | hq
      · exact hk.valid q hq
      · obtain ⟨z, hz, rfl⟩ := List.mem_map.mp hq
        exact hv z hz

theorem Knows.deps {u : Used} {ks : KeyStore} {key : Option Bytes} {segs : List (Nat × Part)} {H : List (Nat × Entry)}
    {c c' : Cluster} (hk : Knows u H c) (hg : ∀ p ∈ segs, p.2.Good ∧ ∀ y ∈ partEntries p.2, y.Valid)
    (h : VerifiedInTurn ks key c (segs.map fun p => (p.1, exportDEP p.2.groups p.2.extra)) c') :
    Knows u (H ++ history segs) c' := by
  induction segs generalizing H c with
  | nil =>
    cases h
    simpa [history, tagged] using hk
  | cons p segs ih =>
    rw [List.map_cons] at h
    cases h with
    | cons _ c₁ _ _ _ _ h t =>
      rw [history_cons, ← List.append_assoc]
      exact ih (hk.dep (hg p (by simp)).1 (hg p (by simp)).2 h) (fun q hq => hg q (by simp [hq])) t

theorem knows_new (u : Used) : Knows u [] ⟨[], u⟩ := ⟨rfl, by simp, by simp, by simp⟩

/-- The texts of the register in the DEPs. -/
theorem textsOf_segs {segs : List (Nat × Part)} (hg : ∀ p ∈ segs, p.2.Good ∧ ∀ y ∈ partEntries p.2, y.Valid) (n : Nat) :
    textsOf (segs.map fun p => (p.1, exportDEP p.2.groups p.2.extra)) n = (entriesOf (history segs) n).map (·.1) := by
  induction segs with
  | nil => rfl
  | cons p segs ih =>
    have ih := ih fun q hq => hg q (by simp [hq])
    rw [history_cons, entriesOf_append, List.map_append, ← ih]
    unfold textsOf
    rw [List.map_cons, List.filter_cons]
    by_cases h : p.1 = n
    · subst h
      rw [if_pos (by simp), List.flatMap_cons, entriesOf_same]
      congr 1
      apply utf8Enc_map_injective
      rw [depTexts_json (hg p (by simp)).1.json, (partEntries_reads (hg p (by simp)).2).1, List.map_map]
      rfl
    · rw [if_neg (by simpa using h), entriesOf_other (Ne.symm h)]
      rfl

end

end RKSV
