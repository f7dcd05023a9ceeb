import Verif.Lemmas.VerifyGroup
import Verif.Lemmas.DemoGroup
/-
Properties C25–C33: verification of receipt groups.
-/
namespace RKSV

section
variable [PyEnv]

theorem after_iff {c : GroupCtx} {s : RegState} {saved : Option Entry} {used : Used} {h : List Entry}
    {s' : RegState} : After c s saved h s' ↔ s' = { (loopAfter c s saved used h).state with
      last := (loopAfter c s saved used h).prev } := by
  classical
  constructor
  · intro a
    obtain ⟨st, la, co, ne, ch⟩ := s'
    have h1 := a.last
    have h2 := a.start
    have h3 := a.counter
    have h4 := a.needRestore
    have h5 := a.chainNext
    simp only at h1 h2 h3 h4 h5
    simp only [loopAfter, RegState.mk.injEq]
    refine ⟨h2, h1, h3, ?_, h5⟩
    cases ne <;> simp_all
  · rintro rfl
    exact ⟨rfl, rfl, rfl, by simp [loopAfter], rfl⟩

/-! ### C31 -/

/-- C31: a group is accepted with a certain resulting state exactly if its receipts obey the rules
and the state is the one described.  A verifier with neither certificate nor key store is a
programming error and excluded. -/
theorem group_accepted_iff {c : GroupCtx} (hv : c.verifier.cert ≠ none ∨ c.verifier.keyStore ≠ none)
    {s s' : RegState} {used used' : Used} {g : List Bytes} :
    verifyGroup c s used g = .ok (s', used') ↔
      ∃ saved h, Saved s saved ∧ Reads g h ∧ AllRules c s saved used h ∧ After c s saved h s' ∧
        UsedAfter used h used' := by
  unfold verifyGroup
  simp only [Res.bind_eq_ok, loadLast_iff]
  constructor
  · rintro ⟨o, ⟨saved, hs, rfl⟩, l, hl, h⟩
    rw [← loopAfter_nil (c := c) (used := used)] at hl
    obtain ⟨h', hr, hall, rfl⟩ := (runGroup_iff hv hs (by simp)).mp hl
    simp only [List.nil_append] at hall
    cases h
    exact ⟨saved, h', hs, hr, hall, (after_iff (used := used)).mpr rfl, usedAfter_iff.mpr rfl⟩
  · rintro ⟨saved, h, hs, hr, hall, ha, hu⟩
    refine ⟨_, ⟨saved, hs, rfl⟩, loopAfter c s saved used h, ?_, ?_⟩
    · rw [← loopAfter_nil (c := c) (used := used)]
      exact (runGroup_iff hv hs (by simp)).mpr ⟨h, hr,
        fun a x b e => by rw [List.nil_append]; exact hall a x b e, by simp⟩
    · rw [usedAfter_iff.mp hu, (after_iff (used := used)).mp ha]
      rfl

/-- The receipts of a group are determined by the group, the saved receipt by the state. -/
theorem reads_unique {g : List Bytes} {h h' : List Entry} (a : Reads g h) (b : Reads g h') : h = h' := by
  obtain ⟨rfl, ha⟩ := a
  obtain ⟨hb, hb'⟩ := b
  induction h generalizing h' with
  | nil =>
    cases h' with
    | nil => rfl
    | cons => cases hb
  | cons x h ih =>
    cases h' with
    | nil => cases hb
    | cons y h' =>
      simp only [List.map_cons, List.cons.injEq] at hb
      have e := utf8Enc_injective hb.1
      have : x = y := Entry.Valid.unique (ha x (by simp)) (hb' y (by simp)) e
      rw [this, ih (fun z hz => ha z (by simp [hz])) hb.2 (fun z hz => hb' z (by simp [hz]))]

theorem saved_unique {s : RegState} {o o' : Option Entry} (a : Saved s o) (b : Saved s o') : o = o' := by
  cases a with
  | none h =>
    cases b with
    | none => rfl
    | some x hs hn => rcases h with h | h <;> rw [h] at hs <;> simp_all
  | some x hs hn hx =>
    cases b with
    | none h => rcases h with h | h <;> rw [h] at hs <;> simp_all
    | some y hs' hn' hy =>
      rw [hs] at hs'
      rw [hx.unique hy (Option.some.inj hs')]

/-- No text saved. -/
def Blank (o : Option Str) : Prop := o = none ∨ o = some []

theorem Saved.of_blank {s : RegState} {saved : Option Entry} (h : Saved s saved) (hb : Blank s.last) :
    saved = Option.none := saved_unique h (.none hb)

theorem Saved.of_text {s : RegState} {saved : Option Entry} (h : Saved s saved) {t : Str}
    (ht : s.last = Option.some t) (hn : t ≠ []) : ∃ r, saved = Option.some (t, r) ∧ Entry.Valid (t, r) := by
  cases h with
  | none h => rcases h with h | h <;> rw [h] at ht <;> simp_all
  | some x hs _ hv =>
    rw [ht] at hs
    cases hs
    exact ⟨x.2, rfl, hv⟩

/-! ### C25 -/

/-- C25: chaining of an accepted group. -/
theorem group_chained {c : GroupCtx} (hv : c.verifier.cert ≠ none ∨ c.verifier.keyStore ≠ none)
    {s s' : RegState} {used used' : Used} {g : List Bytes}
    (ok : verifyGroup c s used g = .ok (s', used')) :
    ∃ h, Reads g h ∧
      -- every receipt is chained to the exact text of the one before
      (∀ pre x y post, h = pre ++ x :: y :: post → y.2.previousChain = chainValue x.1) ∧
      -- the first one
      ∀ x post, h = x :: post →
        -- has the saved chaining value, if there is one
        (∀ v, s.chainNext = some v → v ≠ [] → x.2.previousChain = v) ∧
        -- or is chained to the saved receipt
        (∀ t, Blank s.chainNext → s.last = some t → t ≠ [] → x.2.previousChain = chainValue t) ∧
        -- or to the start receipt of the previous register
        (∀ t, Blank s.chainNext → Blank s.last → c.prevStart = some t → t ≠ [] →
          x.2.previousChain = chainValue t) ∧
        -- or to the register ID.
        (Blank s.chainNext → Blank s.last → Blank c.prevStart →
          x.2.previousChain = chainValue x.2.registerId) := by
  obtain ⟨saved, h, hs, hr, hall, -, -⟩ := (group_accepted_iff hv).mp ok
  have hno : ∀ {pre}, Blank s.chainNext → ¬∃ v, Override s pre v := by
    rintro pre hb ⟨v, -, h1, h2⟩
    rcases hb with hb | hb <;> rw [hb] at h1 <;> simp_all
  refine ⟨h, hr, ?_, ?_⟩
  · intro pre x y post e
    have R := hall (pre ++ [x]) y post (by simp [e])
    refine R.chainBefore ?_ x (.previous _ (predecessor_snoc saved pre x))
    rintro ⟨v, h1, -⟩
    simp at h1
  · intro x post e
    have R := hall [] x post (by simp [e])
    refine ⟨fun v h1 h2 => R.chainOverride v ⟨rfl, h1, h2⟩, ?_, ?_, ?_⟩
    · intro t hb ht hn
      obtain ⟨r, rfl, hval⟩ := hs.of_text ht hn
      exact R.chainBefore (hno hb) (t, r) (.previous _ rfl)
    · intro t hb hl ht hn
      have := hs.of_blank hl
      subst this
      obtain ⟨-, -, hcl⟩ := R.initial rfl
      obtain ⟨-, p, hp, -⟩ := hcl t ht hn
      exact R.chainBefore (hno hb) (t, p) (.cluster _ rfl ht hn hp)
    · intro hb hl hps
      have := hs.of_blank hl
      subst this
      refine R.chainFirst (hno hb) ?_
      rintro ⟨y, hy⟩
      cases hy with
      | previous h => cases h
      | cluster _ h1 h2 => rcases hps with h | h <;> rw [h] at h1 <;> simp_all

/-! ### C26 -/

/-- C26: the turnover counter in an accepted group. -/
theorem group_counter {c : GroupCtx} (hv : c.verifier.cert ≠ none ∨ c.verifier.keyStore ≠ none)
    {s s' : RegState} {used used' : Used} {g : List Bytes}
    (ok : verifyGroup c s used g = .ok (s', used')) :
    ∃ h, Reads g h ∧
      -- with a key, each standard receipt has the old counter plus everything sold since
      (∀ k, c.key = some k →
        (∀ pre x post, h = pre ++ x :: post → ¬Training x.2 → ¬Reversal x.2 →
          x.2.decryptTurnoverCounter k = .ok (s.counter + sold (pre ++ [x]))) ∧
        s'.counter = s.counter + sold h) ∧
      -- without key the counter is left alone
      (c.key = none → s'.counter = s.counter) := by
  obtain ⟨saved, h, hs, hr, hall, ha, -⟩ := (group_accepted_iff hv).mp ok
  refine ⟨h, hr, ?_, ?_⟩
  · intro k hk
    refine ⟨fun pre x post e h1 h2 => ((hall pre x post e).counter k hk h1).2.2 h2, ?_⟩
    rw [ha.counter, hk]
    simp
  · intro hk
    rw [ha.counter, if_pos hk]

omit [PyEnv] in
/-- Every receipt that is no training receipt has turnover as written, in cents. -/
theorem sold_eq {h : List Entry} {t : Receipt → Int}
    (ht : ∀ x ∈ h, ¬Training x.2 → x.2.turnover = .ok (t x.2)) :
    sold h = ((h.filter fun x => ¬Training x.2).map fun x => t x.2).sum := by
  unfold sold
  congr 1
  apply List.map_congr_left
  intro x hx
  simp only [List.mem_filter, decide_eq_true_eq] at hx
  simp only [ht x hx.1 hx.2]

/-- C26: as long as no receipt exceeds 2^49 cents, what is sold is the sum of all amounts as written
on the receipts, in cents. -/
theorem sold_exact {g : List Bytes} {h : List Entry} (hr : Reads g h)
    (hle : ∀ x ∈ h, ((cents x.2.toFields).map abs).sum ≤ 2 ^ 49) :
    sold h = ((h.filter fun x => ¬Training x.2).map fun x => (cents x.2.toFields).sum).sum :=
  sold_eq (t := fun r => (cents r.toFields).sum) fun x hx _ => turnover_exact_partial (init_eq_ok.mpr (hr.2 x hx).parsed.good.1.init) (hle x hx)

/-! ### C27 -/

/-- C27: with the default backend receipt IDs are unique.  Only the very first receipt of a register
that is not part of a cluster is not compared with the IDs used before. -/
theorem group_ids_unique {c : GroupCtx} (hv : c.verifier.cert ≠ none ∨ c.verifier.keyStore ≠ none)
    {s s' : RegState} {ids : Finset Str} {used' : Used} {g : List Bytes}
    (ok : verifyGroup c s (.unique ids) g = .ok (s', used')) :
    ∃ h, Reads g h ∧ (h.map (·.2.receiptId)).Nodup ∧
      (∀ pre x post, h = pre ++ x :: post →
        (pre ≠ [] ∨ ¬Blank s.last ∨ ¬Blank c.prevStart) → x.2.receiptId ∉ ids) ∧
      used' = .unique (ids ∪ (h.map (·.2.receiptId)).toFinset) := by
  obtain ⟨saved, h, hs, hr, hall, ha, hu⟩ := (group_accepted_iff hv).mp ok
  have hf : ∀ pre x post, h = pre ++ x :: post →
      (pre ≠ [] ∨ ¬Blank s.last ∨ ¬Blank c.prevStart) → FreshId (.unique ids) pre x.2.receiptId := by
    intro pre x post e hor
    have R := hall pre x post e
    apply R.fresh
    cases hp : predecessor saved pre with
    | some y => exact ⟨y, .previous _ hp⟩
    | none =>
      have hnil : pre = [] ∧ saved = none := by
        unfold predecessor at hp
        rwa [Option.or_eq_none_iff, List.getLast?_eq_none_iff] at hp
      obtain ⟨rfl, rfl⟩ := hnil
      rcases hor with h | h | h
      · exact absurd rfl h
      · cases hs with
        | none hb => exact absurd hb h
      · rcases hps : c.prevStart with _ | _ | ⟨a, t⟩
        · exact absurd (Or.inl hps) h
        · exact absurd (Or.inr hps) h
        · obtain ⟨-, p, hp', -⟩ := (R.initial hp).2.2 _ hps (by simp)
          exact ⟨(a :: t, p), .cluster _ hp rfl (by simp) hp'⟩
  refine ⟨h, hr, ?_, fun pre x post e hor => (hf pre x post e hor).1, hu⟩
  clear hr hall ha hu
  induction h using List.reverseRecOn with
  | nil => simp
  | append_singleton l x ih =>
    rw [List.map_append, List.nodup_append]
    refine ⟨ih ?_, by simp, ?_⟩
    · intro pre y post e
      exact hf pre y (post ++ [x]) (by simp [e])
    · intro a ha b hb e
      simp only [List.map_cons, List.map_nil, List.mem_singleton] at hb
      obtain ⟨y, hy, rfl⟩ := List.mem_map.mp ha
      have hl : l ≠ [] := by rintro rfl; cases hy
      exact (hf l x [] rfl (Or.inl hl)).2 y hy (e.trans hb)

/-! ### C28 -/

/-- C28: unsigned receipts never start a register; after a failure of the signature system the first
or second signed receipt must be a signed zero receipt, also across groups. -/
theorem group_restore {c : GroupCtx} (hv : c.verifier.cert ≠ none ∨ c.verifier.keyStore ≠ none)
    {s s' : RegState} {used used' : Used} {g : List Bytes}
    (ok : verifyGroup c s used g = .ok (s', used')) :
    ∃ h, Reads g h ∧
      (∀ x post, h = x :: post → Blank s.last → ¬Unsigned x.2) ∧
      -- inside the group
      (∀ pre a b x post, h = pre ++ a :: b :: x :: post → Unsigned a.2 → ¬Unsigned b.2 →
        ¬StandardNull b.2 → ¬Unsigned x.2 ∧ StandardNull x.2) ∧
      -- at its end
      (∀ pre a b, h = pre ++ [a, b] →
        (s'.needRestore = true ↔ Unsigned a.2 ∧ ¬Unsigned b.2 ∧ ¬StandardNull b.2)) ∧
      -- at its beginning
      (∀ x post, h = x :: post → s.needRestore = true → ¬Unsigned x.2 ∧ StandardNull x.2) ∧
      (∀ t r b x post, h = b :: x :: post → s.last = some t → Entry.Valid (t, r) → Unsigned r →
        ¬Unsigned b.2 → ¬StandardNull b.2 → ¬Unsigned x.2 ∧ StandardNull x.2) ∧
      (∀ t r b, h = [b] → s.last = some t → Entry.Valid (t, r) →
        (s'.needRestore = true ↔ Unsigned r ∧ ¬Unsigned b.2 ∧ ¬StandardNull b.2)) ∧
      (h = [] → s'.needRestore = s.needRestore) := by
  obtain ⟨saved, h, hs, hr, hall, ha, -⟩ := (group_accepted_iff hv).mp ok
  refine ⟨h, hr, ?_, ?_, ?_, ?_, ?_, ?_, ?_⟩
  · intro x post e hb
    have := hs.of_blank hb
    subst this
    exact ((hall [] x post (by simp [e])).initial rfl).1
  · intro pre a b x post e h1 h2 h3
    refine (hall (pre ++ [a] ++ [b]) x post (by simp [e])).restore ?_
    exact restoreDue_snoc.mpr ⟨h2, h3, a, predecessor_snoc saved pre a, h1⟩
  · intro pre a b e
    rw [ha.needRestore, e, show pre ++ [a, b] = (pre ++ [a]) ++ [b] by simp, restoreDue_snoc,
      predecessor_snoc]
    simp only [Option.some.injEq, exists_eq_left']
    tauto
  · intro x post e hn
    exact (hall [] x post (by simp [e])).restore (.saved hn)
  · intro t r b x post e ht hval h1 h2 h3
    obtain ⟨r', rfl, hval'⟩ := hs.of_text ht hval.ne_nil
    have : r' = r := congrArg Prod.snd (hval'.unique hval rfl)
    subst this
    refine (hall ([] ++ [b]) x post (by simp [e])).restore ?_
    exact restoreDue_snoc.mpr ⟨h2, h3, (t, r'), rfl, h1⟩
  · intro t r b e ht hval
    obtain ⟨r', rfl, hval'⟩ := hs.of_text ht hval.ne_nil
    have : r' = r := congrArg Prod.snd (hval'.unique hval rfl)
    subst this
    rw [ha.needRestore, e, show [b] = [] ++ [b] by simp, restoreDue_snoc]
    simp only [predecessor, List.getLast?_nil, Option.none_or, Option.some.injEq, exists_eq_left']
    tauto
  · rintro rfl
    rw [(after_iff (used := used)).mp ha, loopAfter_nil]

/-! ### C29 -/

/-- C29: register ID and kind of system stay the same and time does not go backwards. -/
theorem group_same_register {c : GroupCtx} (hv : c.verifier.cert ≠ none ∨ c.verifier.keyStore ≠ none)
    {s s' : RegState} {used used' : Used} {g : List Bytes}
    (ok : verifyGroup c s used g = .ok (s', used')) :
    ∃ h, Reads g h ∧
      (∀ pre x mid y post, h = pre ++ x :: (mid ++ y :: post) → x.2.registerId = y.2.registerId ∧
        (x.2.zda = c!"AT0" ↔ y.2.zda = c!"AT0") ∧ ¬Earlier y.2.dateTime x.2.dateTime) ∧
      (∀ t r, s.last = some t → Entry.Valid (t, r) → ∀ y ∈ h, r.registerId = y.2.registerId ∧
        (r.zda = c!"AT0" ↔ y.2.zda = c!"AT0") ∧ ¬Earlier y.2.dateTime r.dateTime) ∧
      (Blank s.last → ∀ t r, c.prevStart = some t → Entry.Valid (t, r) → ∀ y ∈ h,
        r.registerId = y.2.registerId ∧ (r.zda = c!"AT0" ∧ y.2.zda = c!"AT0") ∧
          ¬Earlier y.2.dateTime r.dateTime) := by
  obtain ⟨saved, h, hs, hr, hall, -, -⟩ := (group_accepted_iff hv).mp ok
  -- the relation is transitive
  have trans : ∀ {a b d : Receipt},
      (a.registerId = b.registerId ∧ (a.zda = c!"AT0" ↔ b.zda = c!"AT0") ∧ ¬Earlier b.dateTime a.dateTime) →
      (b.registerId = d.registerId ∧ (b.zda = c!"AT0" ↔ d.zda = c!"AT0") ∧ ¬Earlier d.dateTime b.dateTime) →
      a.registerId = d.registerId ∧ (a.zda = c!"AT0" ↔ d.zda = c!"AT0") ∧ ¬Earlier d.dateTime a.dateTime := by
    rintro a b d ⟨h1, h2, h3⟩ ⟨k1, k2, k3⟩
    refine ⟨h1.trans k1, h2.trans k2, ?_⟩
    unfold Earlier at *
    omega
  -- from one receipt to all later ones
  have step : ∀ (mid : List Entry) (pre : List Entry) (x y : Entry) (post : List Entry),
      h = pre ++ x :: (mid ++ y :: post) → x.2.registerId = y.2.registerId ∧
        (x.2.zda = c!"AT0" ↔ y.2.zda = c!"AT0") ∧ ¬Earlier y.2.dateTime x.2.dateTime := by
    intro mid
    induction mid with
    | nil =>
      intro pre x y post e
      exact (hall (pre ++ [x]) y post (by simp [e])).same x (.previous _ (predecessor_snoc saved pre x))
    | cons m mid ih =>
      intro pre x y post e
      have h1 := (hall (pre ++ [x]) m (mid ++ y :: post) (by simp [e])).same x
        (.previous _ (predecessor_snoc saved pre x))
      exact trans h1 (ih (pre ++ [x]) m y post (by simp [e]))
  have first : ∀ r : Receipt, (∀ x post, h = x :: post → r.registerId = x.2.registerId ∧
      (r.zda = c!"AT0" ↔ x.2.zda = c!"AT0") ∧ ¬Earlier x.2.dateTime r.dateTime) →
      ∀ y ∈ h, r.registerId = y.2.registerId ∧
      (r.zda = c!"AT0" ↔ y.2.zda = c!"AT0") ∧ ¬Earlier y.2.dateTime r.dateTime := by
    intro r hx y hy
    obtain ⟨pre, post, e⟩ := List.append_of_mem hy
    cases pre with
    | nil => exact hx y post e
    | cons x pre => exact trans (hx x _ e) (step pre [] x y post (by simpa using e))
  refine ⟨h, hr, fun pre x mid y post e => step mid pre x y post e, ?_, ?_⟩
  · intro t r ht hval
    obtain ⟨r', rfl, hval'⟩ := hs.of_text ht hval.ne_nil
    have : r' = r := congrArg Prod.snd (hval'.unique hval rfl)
    subst this
    exact first r' fun x post e => (hall [] x post (by simp [e])).same (t, r') (.previous _ rfl)
  · intro hb t r ht hval y hy
    have := hs.of_blank hb
    subst this
    have hf := first r fun x post e =>
      (hall [] x post (by simp [e])).same (t, r) (.cluster _ rfl ht hval.ne_nil hval)
    have hz : r.zda = c!"AT0" := by
      cases h with
      | nil => cases hy
      | cons x post =>
        obtain ⟨hz, -⟩ := ((hall [] x post rfl).initial rfl).2.2 t ht hval.ne_nil
        exact ((hf x (by simp)).2.1).mpr hz
    obtain ⟨h1, h2, h3⟩ := hf y hy
    exact ⟨h1, ⟨hz, h2.mp hz⟩, h3⟩

/-! ### C30 -/

/-- C30: the first receipt of a register. -/
theorem group_initial {c : GroupCtx} (hv : c.verifier.cert ≠ none ∨ c.verifier.keyStore ≠ none)
    {s s' : RegState} {used used' : Used} {b : Bytes} {g : List Bytes}
    (ok : verifyGroup c s used (b :: g) = .ok (s', used')) (hfresh : Blank s.last) :
    ∃ t r k, b = utf8Enc t ∧ Entry.Valid (t, r) ∧ s'.start = some t ∧
      KeyFor c.verifier r k ∧ SignatureValid r k ∧ ¬Unsigned r ∧ StandardNull r ∧
      (¬Blank c.prevStart → r.zda = c!"AT0" ∧
        ∃ t' r', c.prevStart = some t' ∧ Entry.Valid (t', r') ∧ r'.zda = c!"AT0" ∧
          r'.registerId = r.registerId) := by
  obtain ⟨saved, h, hs, ⟨hg, hval⟩, hall, ha, -⟩ := (group_accepted_iff hv).mp ok
  have := hs.of_blank hfresh
  subst this
  cases h with
  | nil => cases hg
  | cons x h =>
    simp only [List.map_cons, List.cons.injEq] at hg
    have R := hall [] x h rfl
    obtain ⟨hu, hnull, hcl⟩ := R.initial rfl
    rcases R.auth with ⟨-, k, hk, hsig⟩ | ⟨hu', -⟩
    swap
    · exact absurd hu' hu
    refine ⟨x.1, x.2, k, hg.1, hval x (by simp), ?_, hk, hsig, hu, hnull, ?_⟩
    · rw [ha.start]; simp
    · intro hb
      rcases hps : c.prevStart with _ | _ | ⟨a, t⟩
      · exact absurd (Or.inl hps) hb
      · exact absurd (Or.inr hps) hb
      · obtain ⟨hz, p, hp, hz'⟩ := hcl _ hps (by simp)
        exact ⟨hz, _, p, rfl, hp, hz', (R.same (a :: t, p) (.cluster _ rfl hps (by simp) hp)).1⟩

/-! ### C33 -/

/-- `lastReceiptJWS` is not used while a group is being verified. -/
theorem stepGroup_last (c : GroupCtx) (l : Loop) (z : Option Str) (b : Bytes) :
    stepGroup c { l with state := { l.state with last := z } } b =
      (stepGroup c l b).map fun l' => { l' with state := { l'.state with last := z } } := by
  unfold stepGroup
  simp only
  cases expandReceipt b with
  | error e => rfl
  | ok r =>
    simp only [Res.ok_bind]
    cases checkSigned c.verifier l.state.needRestore l.prevObj r with
    | error e => rfl
    | ok x =>
      obtain ⟨ro, nr⟩ := x
      simp only [Res.ok_bind]
      cases reference c l.prev l.prevObj ro with
      | error e => rfl
      | ok y =>
        obtain ⟨pv, po⟩ := y
        simp only [Res.ok_bind]
        cases checkBefore l.used po ro with
        | error e => rfl
        | ok u =>
          simp only [Res.ok_bind]
          by_cases hch : expectedChain l.state.chainNext pv ro = ro.previousChain
          · rw [ensure_pos hch]
            simp only [Res.ok_bind]
            cases checkCounter c.key l.state.counter ro with
            | error e => rfl
            | ok n => rfl
          · rw [ensure_neg hch]; rfl

theorem runGroup_last (c : GroupCtx) (l : Loop) (z : Option Str) (g : List Bytes) :
    runGroup c { l with state := { l.state with last := z } } g =
      (runGroup c l g).map fun l' => { l' with state := { l'.state with last := z } } := by
  induction g generalizing l with
  | nil => rfl
  | cons b g ih =>
    simp only [runGroup]
    rw [stepGroup_last]
    cases stepGroup c l b with
    | error e => rfl
    | ok l' => exact ih l'

theorem runGroup_append (c : GroupCtx) (l : Loop) (a b : List Bytes) :
    runGroup c l (a ++ b) = runGroup c l a >>= fun l' => runGroup c l' b := by
  induction a generalizing l with
  | nil => rfl
  | cons x a ih =>
    simp only [List.cons_append, runGroup]
    cases stepGroup c l x with
    | error e => rfl
    | ok l' => exact ih l'

/-- The receipt object belongs to the text. -/
theorem stepGroup_prev {c : GroupCtx} {l l' : Loop} {b : Bytes} (h : stepGroup c l b = .ok l') :
    loadLast l'.prev = .ok l'.prevObj := by
  unfold stepGroup at h
  simp only [Res.bind_eq_ok] at h
  obtain ⟨r, -, ⟨ro, nr⟩, hs, ⟨pv, po⟩, -, _, -, _, -, n, -, h⟩ := h
  have hro : ∃ alg, fromJWS r = .ok (ro, alg) := by
    unfold checkSigned at hs
    cases hv : c.verifier.verifyJWS r with
    | ok x =>
      obtain ⟨ro', alg⟩ := x
      have := (verifyJWS_iff.mp hv).1
      rw [hv] at hs
      simp only at hs
      have e : ro' = ro := by
        split at hs
        · split at hs
          · simp only [Res.bind_eq_ok] at hs
            obtain ⟨_, -, hs⟩ := hs
            cases hs; rfl
          · cases hs; rfl
        · cases hs; rfl
      subst e
      exact ⟨_, this⟩
    | error e =>
      rw [hv] at hs
      simp only at hs
      split at hs
      · simp only [Res.bind_eq_ok] at hs
        obtain ⟨⟨ro', alg⟩, hj, _, -, _, -, hs⟩ := hs
        cases hs
        exact ⟨alg, hj⟩
      · cases hs
  obtain ⟨alg, hro⟩ := hro
  cases h
  simp only
  have hne := (fromJWS_R1 hro).ne_nil
  cases r with
  | nil => exact absurd rfl hne
  | cons a t => simp only [loadLast, hro]; rfl

theorem runGroup_prev {c : GroupCtx} {l l' : Loop} {g : List Bytes}
    (h0 : loadLast l.prev = .ok l.prevObj) (h : runGroup c l g = .ok l') :
    loadLast l'.prev = .ok l'.prevObj := by
  induction g generalizing l with
  | nil => cases h; exact h0
  | cons b g ih =>
    simp only [runGroup, Res.bind_eq_ok] at h
    obtain ⟨l1, h1, h2⟩ := h
    exact ih (stepGroup_prev h1) h2

/-- C33: verifying a group in one go or in two parts gives the same: the same error, or the same
state and used IDs. -/
theorem group_split (c : GroupCtx) (s : RegState) (used : Used) (a b : List Bytes) :
    verifyGroup c s used (a ++ b) =
      verifyGroup c s used a >>= fun x => verifyGroup c x.1 x.2 b := by
  unfold verifyGroup
  cases h0 : loadLast s.last with
  | error e => rfl
  | ok po =>
    simp only [Res.ok_bind]
    rw [runGroup_append]
    cases h1 : runGroup c { state := s, used, prev := s.last, prevObj := po } a with
    | error e => rfl
    | ok l =>
      simp only [Res.ok_bind]
      rw [runGroup_prev (l := { state := s, used, prev := s.last, prevObj := po }) h0 h1]
      simp only [Res.ok_bind]
      have := runGroup_last c l l.prev b
      rw [this]
      cases runGroup c l b with
      | error e => rfl
      | ok l' => rfl

/-- C33: also when the parts are given as groups with certificates: consecutive lists of groups can
be verified one after the other. -/
theorem groups_split (key : Option Bytes) (ps : Option Str) (s : RegState) (used : Used)
    (a b : List (List Bytes × Verifier)) :
    verifyGroups key ps s used (a ++ b) =
      verifyGroups key ps s used a >>= fun x => verifyGroups key ps x.1 x.2 b := by
  induction a generalizing s used with
  | nil => rfl
  | cons x a ih =>
    obtain ⟨g, v⟩ := x
    simp only [List.cons_append, verifyGroups]
    cases verifyGroup { verifier := v, key, prevStart := ps } s used g with
    | error e => rfl
    | ok y => exact ih y.1 y.2

/-- C33: neighbouring groups with the same certificate can be joined, and groups can be cut
anywhere. -/
theorem groups_join (key : Option Bytes) (ps : Option Str) (s : RegState) (used : Used)
    (pre post : List (List Bytes × Verifier)) (g g' : List Bytes) (v : Verifier) :
    verifyGroups key ps s used (pre ++ (g ++ g', v) :: post) =
      verifyGroups key ps s used (pre ++ (g, v) :: (g', v) :: post) := by
  rw [groups_split, groups_split]
  congr 1
  funext x
  simp only [verifyGroups]
  rw [group_split]
  cases verifyGroup { verifier := v, key, prevStart := ps } x.1 x.2 g with
  | error e => rfl
  | ok y => rfl

/-! ### C32 -/

omit [PyEnv] in
theorem length_joinWith_mem {c : Char} {ss : List Str} {s : Str} (h : s ∈ ss) :
    s.length ≤ (joinWith c ss).length := by
  induction ss with
  | nil => cases h
  | cons a ss ih =>
    cases ss with
    | nil => rw [List.mem_singleton] at h; subst h; simp [joinWith]
    | cons b ss =>
      rcases List.mem_cons.mp h with rfl | h
      · simp [joinWith]
      · have := ih h
        simp only [joinWith, List.length_append, List.length_cons] at this ⊢
        omega

omit [PyEnv] in
theorem decodeSeg_length {s t : Str} (h : decodeSeg s = some t) : t.length ≤ s.length := by
  unfold decodeSeg at h
  obtain ⟨b, h1, h2⟩ := Option.bind_eq_some_iff.mp h
  have h3 := b64_decoded_length h1
  have h4 := utf8Enc_length_le t
  rw [utf8Enc_dec h2] at h4
  have h5 : ((restorePad s).filter (isB64 true)).length ≤ s.length := by
    unfold restorePad
    simp only
    split
    · have : (List.replicate (4 - s.length % 4) '=').filter (isB64 true) = [] := by
        rw [List.filter_eq_nil_iff]
        intro c hc
        rw [List.mem_replicate] at hc
        rw [hc.2]
        decide
      rw [List.filter_append, this, List.append_nil]
      exact List.length_filter_le _ s
    · exact List.length_filter_le _ s
  omega

/-- The text of a receipt is longer than its register ID. -/
theorem Entry.Valid.longer {x : Entry} (h : x.Valid) : x.2.registerId.length < x.1.length := by
  obtain ⟨g, -, hs, ps, hsplit, hh, hp, -, -⟩ := good_of_jws (s := x.1) h
  have h1 := decodeSeg_length hp
  have h2 : ps.length ≤ x.1.length := by
    have := joinWith_splitOn '.' x.1
    rw [← this, hsplit]
    exact length_joinWith_mem (by simp)
  have h3 : x.2.registerId.length < (x.2.toPayload c!"R1").length := by
    simp only [Fields.toPayload, joinWith, List.length_append, List.length_cons]
    omega
  omega

/-- The texts that enter the chaining values of a history. -/
def chainInputs (h : List Entry) : List Str := h.flatMap fun x => [x.1, x.2.registerId]

/-- A collision of the shortened hash between texts of the two histories. -/
def Collision (h h' : List Entry) : Prop :=
  ∃ a ∈ chainInputs h, ∃ b ∈ chainInputs h', a ≠ b ∧
    (sha256 (utf8Enc a)).take 8 = (sha256 (utf8Enc b)).take 8

omit [PyEnv] in
theorem mem_chainInputs {h : List Entry} {x : Entry} (hx : x ∈ h) :
    x.1 ∈ chainInputs h ∧ x.2.registerId ∈ chainInputs h := by
  simp only [chainInputs, List.mem_flatMap]
  exact ⟨⟨x, hx, by simp⟩, ⟨x, hx, by simp⟩⟩

theorem chainValue_eq {a b : Str} (h : chainValue a = chainValue b) :
    (sha256 (utf8Enc a)).take 8 = (sha256 (utf8Enc b)).take 8 := by
  have h : b64Encode false _ = b64Encode false _ := h
  have h1 := b64Decode_encode false ((sha256 (utf8Enc a)).take 8)
  rw [h, b64Decode_encode] at h1
  exact (Option.some.inj h1).symm

/-- A history of a register from its first receipt on, accepted in some way. -/
def History (h : List Entry) : Prop :=
  ∃ (c : GroupCtx) (s s' : RegState) (used used' : Used) (g : List Bytes),
    (c.verifier.cert ≠ none ∨ c.verifier.keyStore ≠ none) ∧ Blank c.prevStart ∧ Blank s.last ∧
    Blank s.chainNext ∧ Reads g h ∧ verifyGroup c s used g = .ok (s', used')

theorem History.chain {h : List Entry} (hh : History h) : (∀ x ∈ h, x.Valid) ∧
    (∀ pre x y post, h = pre ++ x :: y :: post → y.2.previousChain = chainValue x.1 ∧
      x.2.registerId = y.2.registerId) ∧
    ∀ x post, h = x :: post → x.2.previousChain = chainValue x.2.registerId := by
  obtain ⟨c, s, s', used, used', g, hv, hps, hl, hcn, hr, ok⟩ := hh
  obtain ⟨h1, hr1, hc1, hc2⟩ := group_chained hv ok
  obtain ⟨h2, hr2, hc3, -⟩ := group_same_register hv ok
  cases reads_unique hr hr1
  cases reads_unique hr hr2
  exact ⟨hr.2, fun pre x y post e => ⟨hc1 pre x y post e, (hc3 pre x [] y post e).1⟩,
    fun x post e => (hc2 x post e).2.2.2 hcn hl hps⟩

/-- C32: two accepted histories of registers that end in the same receipt are the same, or they
contain two different texts with the same shortened hash. -/
theorem tamper_evident {a b : List Entry} {x : Entry} (ha : History (a ++ [x]))
    (hb : History (b ++ [x])) : a = b ∨ Collision (a ++ [x]) (b ++ [x]) := by
  obtain ⟨va, ca, fa⟩ := ha.chain
  obtain ⟨vb, cb, fb⟩ := hb.chain
  clear ha hb
  -- the common end can be longer
  suffices H : ∀ (n : Nat) (a b z : List Entry), a.length = n →
      (∀ x ∈ a ++ z, x.Valid) → (∀ x ∈ b ++ z, x.Valid) → z ≠ [] →
      (∀ pre x y post, a ++ z = pre ++ x :: y :: post → y.2.previousChain = chainValue x.1 ∧
        x.2.registerId = y.2.registerId) →
      (∀ x post, a ++ z = x :: post → x.2.previousChain = chainValue x.2.registerId) →
      (∀ pre x y post, b ++ z = pre ++ x :: y :: post → y.2.previousChain = chainValue x.1 ∧
        x.2.registerId = y.2.registerId) →
      (∀ x post, b ++ z = x :: post → x.2.previousChain = chainValue x.2.registerId) →
      a = b ∨ Collision (a ++ z) (b ++ z) from
    H _ a b [x] rfl va vb (by simp) ca fa cb fb
  intro n
  induction n with
  | zero =>
    intro a b z hn va vb hz ca fa cb fb
    have : a = [] := List.length_eq_zero_iff.mp hn
    subst this
    rcases List.eq_nil_or_concat b with rfl | ⟨b, y, rfl⟩
    · exact Or.inl rfl
    · right
      cases z with
      | nil => exact absurd rfl hz
      | cons x z =>
        have h1 := fa x z rfl
        obtain ⟨h2, h3⟩ := cb b y x z (by simp)
        rw [h1] at h2
        have hy := vb y (by simp)
        refine ⟨x.2.registerId, (mem_chainInputs (by simp)).2, y.1, (mem_chainInputs (by simp)).1,
          ?_, chainValue_eq h2⟩
        intro e
        have := hy.longer
        rw [h3, e] at this
        omega
  | succ n ih =>
    intro a b z hn va vb hz ca fa cb fb
    rcases List.eq_nil_or_concat a with rfl | ⟨a, y, rfl⟩
    · cases hn
    cases z with
    | nil => exact absurd rfl hz
    | cons x z =>
      obtain ⟨h1, h1'⟩ := ca a y x z (by simp)
      have hy := va y (by simp)
      rcases List.eq_nil_or_concat b with rfl | ⟨b, y', rfl⟩
      · right
        have h2 := fb x z rfl
        rw [h1] at h2
        refine ⟨y.1, (mem_chainInputs (by simp)).1, x.2.registerId, (mem_chainInputs (by simp)).2,
          ?_, chainValue_eq h2⟩
        intro e
        have := hy.longer
        rw [h1', e] at this
        omega
      · obtain ⟨h2, -⟩ := cb b y' x z (by simp)
        have hy' := vb y' (by simp)
        rw [h1] at h2
        by_cases e : y.1 = y'.1
        · have := hy.unique hy' e
          subst this
          have e1 : ∀ l : List Entry, l ++ [y] ++ x :: z = l ++ y :: x :: z := by simp
          simp only [List.concat_eq_append] at *
          rw [e1] at va vb ca fa cb fb ⊢
          rw [e1]
          rcases ih a b (y :: x :: z) (by simpa using hn) va vb (by simp) ca fa cb fb with h | h
          · left; rw [h]
          · exact Or.inr h
        · right
          exact ⟨y.1, (mem_chainInputs (by simp)).1, y'.1, (mem_chainInputs (by simp)).1, e,
            chainValue_eq h2⟩

end

/-! ### Concrete cases -/

namespace Demo

attribute [local instance] env

theorem ctx_verifier : ctx.verifier.cert ≠ none ∨ ctx.verifier.keyStore ≠ none := .inl (by simp [ctx, Verifier.fromCert])

theorem ctx1_verifier : ctx1.verifier.cert ≠ none ∨ ctx1.verifier.keyStore ≠ none :=
  .inr (by simp [ctx1, Verifier.fromKeyStore])

theorem ctx2_verifier : ctx2.verifier.cert ≠ none ∨ ctx2.verifier.keyStore ≠ none :=
  .inr (by simp [ctx2, Verifier.fromKeyStore])

/-- The eight receipts obey the rules. -/
theorem group_rules : ∃ saved h, Saved fresh saved ∧ Reads group h ∧
    AllRules ctx fresh saved (.unique ∅) h ∧ After ctx fresh saved h final ∧
    UsedAfter (.unique ∅) h (.unique ids) := (group_accepted_iff ctx_verifier).mp group_ok

/-- The hypotheses of the theorems about accepted groups are met by the day of the register and by
both registers of the closed system. -/
example := group_chained ctx_verifier group_ok
example := group_counter ctx_verifier group_ok
example := group_ids_unique ctx_verifier group_ok
example := group_restore ctx_verifier group_ok
example := group_same_register ctx1_verifier first_ok
example := group_same_register ctx2_verifier second_ok
example := group_ids_unique ctx2_verifier second_ok

/-- ... as a history of its own. -/
theorem history : ∃ a x, History (a ++ [x]) ∧ a.length = 7 := by
  obtain ⟨saved, h, -, hr, -⟩ := group_rules
  have hl : group.length = 8 := by decide +kernel
  have hh : h.length = 8 := by rw [← hl, hr.1, List.length_map]
  have hd : History h := ⟨ctx, fresh, final, .unique ∅, .unique ids, group, ctx_verifier, .inl rfl,
    .inl rfl, .inl rfl, hr, group_ok⟩
  rcases List.eq_nil_or_concat h with rfl | ⟨a, x, rfl⟩
  · cases hh
  · rw [List.concat_eq_append] at hd
    exact ⟨a, x, hd, by simpa using hh⟩

/-- The first receipt of the second register. -/
example : ∃ b g, secondTexts.map shrinkReceipt = b :: g ∧ ∀ s' u',
    verifyGroup ctx2 fresh (.unique {c!"R1", c!"R2"}) (b :: g) = .ok (s', u') →
      s'.start = secondTexts.head? := by
  have : ∃ b g, secondTexts.map shrinkReceipt = b :: g := by
    cases h : secondTexts.map shrinkReceipt with
    | nil => exact absurd (congrArg List.length h) (by decide +kernel)
    | cons b g => exact ⟨b, g, rfl⟩
  obtain ⟨b, g, e⟩ := this
  refine ⟨b, g, e, fun s' u' hv => ?_⟩
  have := second_ok
  rw [e, hv] at this
  cases this
  rfl

end Demo

end RKSV
