import Verif.Props.VerifyGroup
/-
Lemmas about the state predicted for a group (librksv/verification_state.py:362-412).
-/
namespace RKSV

section
variable [PyEnv]

omit [PyEnv] in
theorem addTurnovers_ok {l : List Receipt} (h : ∀ r ∈ l, ∃ n, r.turnover = .ok n) (n : Int) :
    addTurnovers n l = .ok (n + (l.map fun r => match r.turnover with
      | .ok m => m
      | .error _ => 0).sum) := by
  induction l generalizing n with
  | nil => simp [addTurnovers]
  | cons r l ih =>
    obtain ⟨m, hm⟩ := h r (by simp)
    simp only [addTurnovers, hm, Res.ok_bind]
    rw [ih (fun r' hr' => h r' (by simp [hr']))]
    simp only [List.map_cons, hm, List.sum_cons]
    congr 1
    omega

omit [PyEnv] in
theorem sold_single {x : Entry} {n : Int} (hd : ¬Training x.2) (hn : x.2.turnover = .ok n) :
    sold [x] = n := by
  simp [sold, hd, hn]

omit [PyEnv] in
theorem sold_training {x : Entry} (hd : Training x.2) : sold [x] = 0 := by
  simp [sold, hd]

/-- The backward scan finds the counter. -/
theorem scan_counter {k : Bytes} {n : Int} {h : List Entry} (hval : ∀ x ∈ h, x.Valid)
    (hr : ∀ pre x post, h = pre ++ x :: post → ¬Training x.2 → (∃ n, x.2.turnover = .ok n) ∧
      (¬Reversal x.2 → x.2.decryptTurnoverCounter k = .ok (n + sold (pre ++ [x]))))
    (rev : List Receipt) (hrev : ∀ r ∈ rev, ∃ n, r.turnover = .ok n) :
    (scanBack k rev (h.map fun x => utf8Enc x.1).reverse >>= fun p =>
      addTurnovers (p.1.getD n) p.2) =
      .ok (n + sold h + (rev.map fun r => match r.turnover with
        | .ok m => m
        | .error _ => 0).sum) := by
  induction h using List.reverseRecOn generalizing rev with
  | nil =>
    simp only [List.map_nil, List.reverse_nil, scanBack, Res.ok_bind, Option.getD_none]
    rw [addTurnovers_ok hrev]
    simp [sold]
  | append_singleton h x ih =>
    have hx := hval x (by simp)
    have ih := ih (fun y hy => hval y (by simp [hy])) (fun pre y post e => by
      subst e; exact hr pre y (post ++ [x]) (by simp))
    have hx' := hr h x [] rfl
    have e : fromJWS x.1 = .ok (x.2, c!"R1") := hx
    have e1 : expandReceipt (utf8Enc x.1) = .ok x.1 := expandReceipt_iff.mpr rfl
    simp only [List.map_append, List.map_cons, List.map_nil, List.reverse_append,
      List.reverse_cons, List.reverse_nil, List.nil_append, List.singleton_append, scanBack, e1,
      Res.ok_bind, e]
    by_cases hd : Training x.2
    · have hd' := (training_iff x.2).mp hd
      have hnr : x.2.isReversal = false := by
        have : ¬Reversal x.2 := by
          intro h'
          unfold Reversal at h'; unfold Training at hd
          rw [hd] at h'
          exact absurd h' (by decide)
        rw [reversal_iff] at this
        simpa using this
      rw [if_neg (by simp [hd'])]
      simp only [hnr, Bool.false_eq_true, if_false]
      rw [ih rev hrev, sold_append, sold_training hd]
      simp
    · obtain ⟨⟨m, hm⟩, hc⟩ := hx' hd
      have hd' : x.2.isDummy = false := by
        have := (not_congr (training_iff x.2)).mp hd
        simpa using this
      by_cases hrv : Reversal x.2
      · have hrv' := (reversal_iff x.2).mp hrv
        rw [if_neg (by simp [hrv'])]
        simp only [hrv', if_true]
        rw [ih (x.2 :: rev) (by
          intro r hr'
          rcases List.mem_cons.mp hr' with rfl | h'
          · exact ⟨m, hm⟩
          · exact hrev r h')]
        rw [sold_append, sold_single hd hm]
        simp only [List.map_cons, List.sum_cons, hm]
        congr 1
        omega
      · have hrv' : x.2.isReversal = false := by
          have := (not_congr (reversal_iff x.2)).mp hrv
          simpa using this
        rw [if_pos (by simp [hd', hrv']), hc hrv]
        simp only [Res.ok_bind, Option.getD_some]
        rw [addTurnovers_ok hrev]

end

end RKSV
