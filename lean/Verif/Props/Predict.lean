import Verif.Lemmas.Predict
/-
Property C35: the state predicted for a group without verifying it is the one verification yields.
-/
namespace RKSV

section
variable [PyEnv]

omit [PyEnv] in
theorem blank_iff {o : Option Str} : Blank o ↔ truthy o = false := by
  rcases o with _ | _ | ⟨c, t⟩ <;> simp [Blank, truthy]

instance (o : Option Str) : Decidable (Blank o) := by unfold Blank; infer_instance

/-- The state has a start receipt exactly if it has a last receipt, and no empty chaining value: true
for new registers and kept by verification. -/
def Consistent (s : RegState) : Prop := (Blank s.start ↔ Blank s.last) ∧ s.chainNext ≠ some []

/-- C35, in detail: for every accepted group the prediction succeeds and agrees with verification in
the last receipt, the counter and the restore flag; the start receipt is the saved one, or else the
first receipt of the group. -/
theorem predicted_state {c : GroupCtx} (hv : c.verifier.cert ≠ none ∨ c.verifier.keyStore ≠ none)
    {s s' : RegState} {used used' : Used} {t : Str} {g : List Bytes}
    (ok : verifyGroup c s used (utf8Enc t :: g) = .ok (s', used')) :
    s.fromGroup (utf8Enc t :: g) c.key =
      .ok { s' with start := if Blank s.start then some t else s.start, chainNext := none } := by
  obtain ⟨saved, h, hs, ⟨hg, hval⟩, hall, ha, -⟩ := (group_accepted_iff hv).mp ok
  obtain ⟨h, z, rfl⟩ : ∃ l x, h = l ++ [x] := by
    rcases List.eq_nil_or_concat h with rfl | ⟨l, x, rfl⟩
    · cases hg
    · exact ⟨l, x, by simp⟩
  have hz := hval z (by simp)
  have ez : fromJWS z.1 = .ok (z.2, c!"R1") := hz
  have ez1 : expandReceipt (utf8Enc z.1) = .ok z.1 := expandReceipt_iff.mpr rfl
  have et : expandReceipt (utf8Enc t) = .ok t := expandReceipt_iff.mpr rfl
  have hrev : (utf8Enc t :: g).reverse = utf8Enc z.1 :: (h.map fun x => utf8Enc x.1).reverse := by
    rw [hg]; simp
  unfold RegState.fromGroup
  rw [hrev]
  simp only
  -- the receipt before the last one
  have hstl : ∃ o, secondToLast s (h.map fun x => utf8Enc x.1).reverse = .ok o ∧
      loadLast o = .ok ((predecessor saved h).map (·.2)) := by
    unfold secondToLast loadLast
    rcases List.eq_nil_or_concat h with rfl | ⟨l, x, rfl⟩
    · refine ⟨s.last, by simp, ?_⟩
      cases hs with
      | none hb => rcases hb with hb | hb <;> rw [hb] <;> rfl
      | some x hs hn hx =>
        rw [hs]
        have hx : fromJWS x.1 = .ok (x.2, c!"R1") := hx
        obtain ⟨t, r⟩ := x
        cases t with
        | nil => exact absurd rfl hn
        | cons a t =>
          simp only [hx]
          rfl
    · have hx := hval x (by simp)
      have hn := hx.ne_nil
      have hx : fromJWS x.1 = .ok (x.2, c!"R1") := hx
      refine ⟨some x.1, ?_, ?_⟩
      · simp [expandReceipt_iff.mpr rfl, Except.map]
      · obtain ⟨t, r⟩ := x
        cases t with
        | nil => exact absurd rfl hn
        | cons a t =>
          simp only [hx, predecessor]
          simp [Except.map]
  obtain ⟨o, ho1, ho2⟩ := hstl
  rw [ho1, Res.ok_bind, ho2, Res.ok_bind, ez1, Res.ok_bind, ez, Res.ok_bind]
  simp only
  -- the start receipt
  have hst : startOr s (((utf8Enc t :: g).head?).getD []) =
      .ok (if Blank s.start then some t else s.start) := by
    unfold startOr
    by_cases hb : Blank s.start
    · rw [if_pos hb, if_neg (by rw [blank_iff.mp hb]; simp)]
      simp [et, Except.map]
    · rw [if_neg hb]
      rw [blank_iff] at hb
      rw [if_pos (by simpa using hb)]
  rw [hst, Res.ok_bind]
  -- the restore flag
  have hnr : restoreNeeded z.2 ((predecessor saved h).map (·.2)) = s'.needRestore := by
    unfold restoreNeeded
    rw [Bool.eq_iff_iff, ha.needRestore, restoreDue_snoc]
    simp only [Bool.and_eq_true, standardNull_iff hz.parsed, unsigned_iff]
    cases predecessor saved h with
    | none => simp
    | some p => simp [and_assoc]
  rw [hnr]
  have hlast : s'.last = some z.1 := by rw [ha.last]; simp
  rw [← hlast]
  -- the counter
  have hcnt := ha.counter
  have hsold0 : ∀ k, c.key = some k → k.length ≠ 32 → sold (h ++ [z]) = 0 := by
    intro k hk hl
    have : ∀ x ∈ h ++ [z], Training x.2 := by
      intro x hx
      by_contra hd
      obtain ⟨a, b, e⟩ := List.append_of_mem hx
      exact hl ((hall a x b e).counter k hk hd).1
    unfold sold
    rw [List.filter_eq_nil_iff.mpr (by intro x hx; simpa using this x hx)]
    rfl
  rcases hk : c.key with _ | _ | ⟨a, k⟩
  · rw [if_pos hk] at hcnt
    simp only [← hcnt]
  · rw [if_neg (by rw [hk]; simp), hsold0 [] hk (by simp)] at hcnt
    simp only [Int.add_zero] at hcnt
    simp only [← hcnt]
  · rw [if_neg (by rw [hk]; simp)] at hcnt
    have := scan_counter (k := a :: k) (n := s.counter) hval
      (fun pre x post e hd => ((hall pre x post e).counter _ hk hd).2) [] (by simp)
    rw [List.map_append, List.reverse_append] at this
    simp only [List.map_cons, List.map_nil, List.reverse_cons, List.reverse_nil, List.nil_append,
      List.singleton_append, List.sum_nil, Int.add_zero, ← hcnt] at this
    obtain ⟨p, hp1, hp2⟩ := Res.bind_eq_ok.mp this
    simp only [hp1, Res.ok_bind, hp2]

/-- C35: from a consistent state the predicted state is the verified one. -/
theorem predicted_eq_verified {c : GroupCtx}
    (hv : c.verifier.cert ≠ none ∨ c.verifier.keyStore ≠ none)
    {s s' : RegState} {used used' : Used} {g : List Bytes} (hc : Consistent s)
    (ok : verifyGroup c s used g = .ok (s', used')) : s.fromGroup g c.key = .ok s' := by
  obtain ⟨saved, h, hs, ⟨hg, hval⟩, hall, ha, -⟩ := (group_accepted_iff hv).mp ok
  cases h with
  | nil =>
    subst hg
    unfold verifyGroup at ok
    rw [Res.bind_eq_ok] at ok
    obtain ⟨po, -, ok⟩ := ok
    cases ok
    rfl
  | cons x h =>
    simp only [List.map_cons] at hg
    subst hg
    rw [predicted_state hv ok]
    congr 1
    have h1 := ha.start
    have h2 := ha.chainNext
    rw [if_neg (by simp [hc.2])] at h2
    cases hs with
    | none hb =>
      rw [if_pos (hc.1.mpr hb)]
      rw [if_pos (by simp)] at h1
      simp only [List.head?_cons, Option.map_some] at h1
      rw [← h1, ← h2]
    | some y hl hn hy =>
      have hnb : ¬Blank s.last := by rw [hl]; rintro (hb | hb) <;> simp_all
      rw [if_neg (fun hb => hnb (hc.1.mp hb))]
      rw [if_neg (by simp)] at h1
      rw [← h1, ← h2]

omit [PyEnv] in
/-- New registers are consistent and stay so. -/
theorem fresh_consistent : Consistent {} := ⟨by simp [Blank], by simp⟩

theorem consistent_kept {c : GroupCtx} (hv : c.verifier.cert ≠ none ∨ c.verifier.keyStore ≠ none)
    {s s' : RegState} {used used' : Used} {g : List Bytes} (hc : Consistent s)
    (ok : verifyGroup c s used g = .ok (s', used')) : Consistent s' := by
  obtain ⟨saved, h, hs, ⟨hg, hval⟩, hall, ha, -⟩ := (group_accepted_iff hv).mp ok
  have h1 := ha.start
  have h2 := ha.chainNext
  have h3 := ha.last
  constructor
  · cases h with
    | nil => simp only [ne_eq, not_true, and_false, if_false] at h1; rw [h1, h3]; simpa using hc.1
    | cons x h =>
      have hl : ¬Blank s'.last := by
        have hne : (x :: h).getLast? ≠ none := by simp
        cases e : (x :: h).getLast? with
        | none => exact absurd e hne
        | some y =>
          rw [h3, e]
          have := (hval y (List.mem_of_getLast? e)).ne_nil
          simp [Blank, this]
      refine iff_of_false ?_ hl
      rw [h1]
      split
      · have := (hval x (by simp)).ne_nil
        simp [Blank, this]
      · rename_i hn
        cases hs with
        | none => simp at hn
        | some y hy hyn _ => rw [hc.1, hy]; simp [Blank, hyn]
  · rw [h2]
    split
    · exact hc.2
    · simp

end

namespace Demo

attribute [local instance] env

/-- The day of the register. -/
example : fresh.fromGroup group (some aes) = .ok final :=
  predicted_eq_verified (c := ctx) ctx_verifier fresh_consistent group_ok

/-- Without a start receipt the prediction takes the first receipt of the group for it, verification
does not. -/
theorem start_guessed :
    let s : RegState := { last := texts[1]?, counter := 1230 }
    verifyGroup ctx s (.unique ∅) (group.drop 2 |>.take 1) =
      .ok ({ last := texts[2]?, counter := 1230 }, .unique {c!"R3"}) ∧
    s.fromGroup (group.drop 2 |>.take 1) (some aes) =
      .ok { start := texts[2]?, last := texts[2]?, counter := 1230 } :=
  ⟨eq_of_isOk (by decide +kernel), eq_of_isOk (by decide +kernel)⟩

end Demo

end RKSV
