import Verif.Spec.TestVerify
import Verif.Lemmas.TestVerify
import Verif.Lemmas.TestPrefix
import Verif.Props.RunTestFull
/-
C95: the test driver.
-/
namespace RKSV

section
variable [PyEnv]

/-! ### The loop over the DEPs -/

theorem registerIdx_obj {seen seen' : List Nat} {n n' : Nat} {dep : Json} (h : registerIdx seen n dep = .ok (seen', n')) :
    (∃ d, dep = .obj d) ∧ ∃ i, seen' = seen ++ [i] := by
  unfold registerIdx at h
  simp only [Res.bind_eq_ok, orErr_eq_ok] at h
  obtain ⟨d, hd, h⟩ := h
  refine ⟨?_, ?_⟩
  · cases dep <;> simp [Json.asObj] at hd
    exact ⟨_, rfl⟩
  · split at h
    · simp only [Res.bind_eq_ok, orErr_eq_ok, Except.ok.injEq, Prod.mk.injEq] at h
      obtain ⟨p, -, p', -, r, -, rfl, -⟩ := h
      exact ⟨_, rfl⟩
    · simp only [Except.ok.injEq, Prod.mk.injEq] at h
      exact ⟨_, h.1.symm⟩

omit [PyEnv] in
theorem cents_iff {x : Json} {n : Int} (hx : x.isTrue = true) : x.cents = .ok n ↔ Euros x n := by
  constructor
  · intro h
    cases x with
    | bool b =>
      cases b with
      | true => cases h; exact .true
      | false => cases hx
    | int m =>
      simp only [Json.cents, Except.ok.injEq] at h
      rw [← h, mul_comm]
      exact .whole m
    | float y =>
      simp only [Json.cents] at h
      split at h
      · rename_i m hm
        cases h
        exact .float y _ hm
      · cases h
      · cases h
    | _ => cases h
  · intro h
    cases h with
    | whole m => simp [Json.cents, mul_comm]
    | float y m hm => simp [Json.cents, hm]
    | true => rfl

omit [PyEnv] in
theorem isTrue_iff (x : Json) : x.isTrue = true ↔ ¬NoTurnover x := by
  constructor
  · intro h g
    cases g <;> revert h <;> simp [Json.isTrue, F64.isZero]
  · intro h
    by_contra hx
    apply h
    cases x with
    | null => exact .null
    | bool b => cases b with
      | true => simp [Json.isTrue] at hx
      | false => exact .false
    | int m =>
      simp only [Json.isTrue, ne_eq, decide_not, Bool.not_eq_true, Bool.not_eq_false', decide_eq_true_eq] at hx
      rw [hx]
      exact .zero
    | float y =>
      cases y <;> simp [Json.isTrue, F64.isZero] at hx
      rw [hx]
      exact .float
    | str s => cases s <;> simp [Json.isTrue] at hx; exact .text
    | arr s => cases s <;> simp [Json.isTrue] at hx; exact .list
    | obj s => cases s <;> simp [Json.isTrue] at hx; exact .dict

omit [PyEnv] in
theorem isVerify_iff (e : Err) : e.isVerify = true ↔ e ∉ otherExceptions := by
  cases e <;> decide

theorem checkTurnover_iff {c c' : Cluster} {i : Nat} {dep : Json} {s : RegState} (hs : c.regs[i]? = some s)
    (hd : ∃ d, dep = .obj d) : checkTurnover c i dep = .ok (some c') ↔ c' = c ∧ TurnoverFits c i dep := by
  obtain ⟨d, rfl⟩ := hd
  obtain ⟨ps, hi⟩ := info_known hs
  have hg := getInfo_iff.mpr ⟨hi, rfl⟩
  simp only [checkTurnover, Json.asObj, orErr, Res.ok_bind]
  cases hx : Dict.get? d kTurnover with
  | none =>
    have hf : TurnoverFits c i (.obj d) := by
      intro d' x e
      cases e
      rw [show Dict.get? d c!"Umsatz-gesamt" = none from hx]
      exact fun h => absurd h (by simp)
    simp only [Except.ok.injEq, Option.some.injEq]
    exact ⟨fun h => ⟨h.symm, hf⟩, fun h => h.1.symm⟩
  | some x =>
    dsimp only
    by_cases ht : x.isTrue = true
    · rw [if_pos ht, hg]
      dsimp only
      have hf : TurnoverFits c i (.obj d) ↔ x.cents = .ok s.counter := by
        rw [cents_iff ht]
        constructor
        · intro h
          obtain ⟨s', h1, h2⟩ := h d x rfl hx ((isTrue_iff x).mp ht)
          rw [hs] at h1
          cases h1
          exact h2
        · intro h d' y e hy _
          cases e
          rw [show Dict.get? d c!"Umsatz-gesamt" = some x from hx] at hy
          cases hy
          exact ⟨s, hs, h⟩
      rw [hf]
      cases hc : x.cents with
      | error e => simp [Res.error_bind]
      | ok n =>
        simp only [Res.ok_bind, Except.ok.injEq]
        by_cases hn : n = s.counter
        · simp [hn, eq_comm]
        · simp [hn]
    · rw [if_neg ht]
      have hf : TurnoverFits c i (.obj d) := by
        intro d' y e hy
        cases e
        rw [show Dict.get? d c!"Umsatz-gesamt" = some x from hx] at hy
        cases hy
        exact fun h => absurd ((isTrue_iff x).mpr h) ht
      simp only [Except.ok.injEq, Option.some.injEq]
      exact ⟨fun h => ⟨h.symm, hf⟩, fun h => h.1.symm⟩

/-- After a DEP its register is known. -/
theorem verified_register {ks : KeyStore} {key : Option Bytes} {c c' : Cluster} {i : Nat} {dep : Stream}
    (h : verifyDEP ks key c (some (i : Int)) dep = (c', .ok ())) : ∃ s, c'.regs[i]? = some s := by
  obtain ⟨-, c₁, ps, s, P, s', u', k, hi, hp, hv, hri, hidx, rfl⟩ := verifyDEP_iff.mp h
  obtain rfl : i = k := by
    rcases hidx with h | h
    · simpa using h
    · exact absurd h.1 (by simp)
  exact ⟨s', List.getElem?_set_self (List.getElem?_eq_some_iff.mp hri).1⟩

/-- The loop for one DEP more. -/
theorem testDeps_cons {f : Nat → Cluster → Nat → Json → Res (Option Cluster)} {seen : List Nat} {n n₁ i : Nat} {c c' : Cluster} {dep : Json} {deps : List Json}
    (hr : registerIdx seen n dep = .ok (seen ++ [i], n₁)) : testDeps f seen n c (dep :: deps) = .ok (some c') ↔
      ∃ c₁ c₂, f seen.length c i dep = .ok (some c₁) ∧ checkTurnover c₁ i dep = .ok (some c₂) ∧
        testDeps f (seen ++ [i]) n₁ c₂ deps = .ok (some c') := by
  simp only [testDeps, hr, Res.ok_bind, List.getLast?_append, List.getLast?_singleton, Option.some_or, orErr]
  constructor
  · intro h
    rw [Res.bind_eq_ok] at h
    obtain ⟨o, ho, h⟩ := h
    cases o with
    | none => cases h
    | some c₁ =>
      dsimp only at h
      rw [Res.bind_eq_ok] at h
      obtain ⟨o, ho', h⟩ := h
      cases o with
      | none => cases h
      | some c₂ => exact ⟨c₁, c₂, ho, ho', h⟩
  · rintro ⟨c₁, c₂, h1, h2, h3⟩
    simp only [h1, h2, h3, Res.ok_bind]

/-- The loop succeeds exactly if all DEPs are accepted one after the other and have the right turnovers. -/
theorem testDeps_iff {ks : KeyStore} {key : Option Bytes} {seen idxs : List Nat} {n n' : Nat} {deps : List Json}
    (hr : registerIdxs seen n deps = .ok (seen ++ idxs, n')) {c c' : Cluster} :
    testDeps (testPlain ks key) seen n c deps = .ok (some c') ↔
      VerifiedInTurn ks key c (idxs.zip deps) c' ∧
      ∀ pre p post c₁, idxs.zip deps = pre ++ p :: post → VerifiedInTurn ks key c (pre ++ [p]) c₁ →
        TurnoverFits c₁ p.1 p.2 := by
  induction deps generalizing seen idxs n c with
  | nil =>
    simp only [testDeps, Except.ok.injEq, Option.some.injEq, List.zip_nil_right]
    constructor
    · rintro rfl
      exact ⟨.nil _, fun pre p post c₁ e => by simp at e⟩
    · rintro ⟨h, -⟩
      cases h
      rfl
  | cons dep deps ih =>
    simp only [registerIdxs, Res.bind_eq_ok] at hr
    obtain ⟨⟨seen', n₁⟩, h1, h2⟩ := hr
    obtain ⟨hobj, i, rfl⟩ := registerIdx_obj h1
    obtain ⟨idxs', e⟩ : ∃ idxs', idxs = i :: idxs' := by
      have : ∀ (l : List Json) (a b : List Nat) (n m : Nat), registerIdxs a n l = .ok (b, m) → ∃ t, b = a ++ t := by
        intro l
        induction l with
        | nil =>
          intro a b n m h
          cases h
          exact ⟨[], by simp⟩
        | cons d l ih =>
          intro a b n m h
          simp only [registerIdxs, Res.bind_eq_ok] at h
          obtain ⟨⟨a', n₂⟩, h3, h4⟩ := h
          obtain ⟨-, k, rfl⟩ := registerIdx_obj h3
          obtain ⟨t, rfl⟩ := ih _ _ _ _ h4
          exact ⟨k :: t, by simp⟩
      obtain ⟨t, ht⟩ := this _ _ _ _ _ h2
      rw [List.append_assoc] at ht
      exact ⟨t, List.append_cancel_left ht⟩
    subst e
    have h2' : registerIdxs (seen ++ [i]) n₁ deps = .ok ((seen ++ [i]) ++ idxs', n') := by rw [h2]; simp
    rw [List.zip_cons_cons, testDeps_cons h1]
    constructor
    · rintro ⟨c₁, c₂, ho, ho', h⟩
      have hv := testPlain_iff.mp ho
      obtain ⟨s, hs⟩ := verified_register hv
      obtain ⟨rfl, hfit⟩ := (checkTurnover_iff hs hobj).mp ho'
      obtain ⟨t1, t2⟩ := (ih h2').mp h
      refine ⟨.cons _ _ _ _ _ _ hv t1, ?_⟩
      intro pre p post c₃ e hvt
      rcases pre with _ | ⟨q, pre⟩
      · simp only [List.nil_append, List.cons.injEq] at e
        obtain ⟨rfl, -⟩ := e
        cases hvt with
        | cons _ c₄ _ _ _ _ h5 h6 =>
          rw [hv] at h5
          cases h5
          cases h6
          exact hfit
      · simp only [List.cons_append, List.cons.injEq] at e
        obtain ⟨rfl, e⟩ := e
        cases hvt with
        | cons _ c₄ _ _ _ _ h5 h6 =>
          rw [hv] at h5
          cases h5
          exact t2 pre p post c₃ e h6
    · rintro ⟨h, ht⟩
      cases h with
      | cons _ c₁ _ _ _ _ hv h =>
        obtain ⟨s, hs⟩ := verified_register hv
        exact ⟨c₁, c₁, testPlain_iff.mpr hv,
          (checkTurnover_iff hs hobj).mpr ⟨rfl, ht [] _ _ c₁ rfl (.cons _ _ _ _ _ _ hv (.nil _))⟩,
          (ih h2').mpr ⟨h, fun pre p post c₃ e hvt =>
            ht (_ :: pre) p post c₃ (by rw [e]; rfl) (.cons _ _ _ _ _ _ hv hvt)⟩⟩

/-- Verifying from files and with parsers in any way gives the same result. -/
theorem testDeps_parsed {d : Driver} (hw : (∃ pick, d.workers = .pool pick) ∨ d.nprocs ≤ 1) {deps : List Json}
    (hd : ∀ dep ∈ deps, GoodDoc dep) {c : Cluster} (hc : Settled c) {ks : KeyStore} {key : Option Bytes} {seen : List Nat} {n : Nat}
    {c' : Cluster} : testDeps (testParsed d ks key) seen n c deps = .ok (some c') ↔
      testDeps (testPlain ks key) seen n c deps = .ok (some c') := by
  induction deps generalizing seen n c with
  | nil => rfl
  | cons dep deps ih =>
    have h0 := hd dep (by simp)
    cases hr : registerIdx seen n dep with
    | error e => simp [testDeps, hr, Res.error_bind]
    | ok p =>
      obtain ⟨seen', n₁⟩ := p
      obtain ⟨hobj, i, rfl⟩ := registerIdx_obj hr
      rw [testDeps_cons hr, testDeps_cons hr]
      refine exists_congr fun c₁ => exists_congr fun c₂ => ?_
      rw [testParsed_iff hw h0 hc]
      refine and_congr_right fun h1 => and_congr_right fun h2 => ?_
      have hv := testPlain_iff.mp h1
      obtain ⟨s, hs⟩ := verified_register hv
      obtain ⟨rfl, -⟩ := (checkTurnover_iff hs hobj).mp h2
      exact ih (fun q hq => hd q (by simp [hq])) (settled_kept hc (accepted_receipts h0 hv) hv)

/-! ### Test cases that follow the rules -/

omit [PyEnv] in
/-- An amount in cents, given as the float that is nearest, is read properly. -/
theorem cents_exact {c : Int} (h : |c| ≤ 2 ^ (49 : ℕ)) : (centsToF64 c).mul100.intRound = .ok c := by
  have hq : |(c : ℚ)| ≤ 2 ^ (49 : ℕ) := by exact_mod_cast h
  have u0 : ulp = 1 / 9007199254740992 := by unfold ulp; norm_num
  have e0 : |(c : ℚ) / 100| = |(c : ℚ)| / 100 := by rw [abs_div, abs_of_pos (by norm_num : (0 : ℚ) < 100)]
  have r1 : centsToF64 c = .fin (rnd (c / 100)) := by
    unfold centsToF64
    apply toF64_fin
    apply le_two_pow_1000
    rw [e0]
    norm_num at hq ⊢
    linarith
  have x1 := rnd_err ((c : ℚ) / 100)
  rw [e0] at x1
  set s := rnd ((c : ℚ) / 100)
  have hs : |s * 100| ≤ 2 ^ (49 : ℕ) + 1 := by
    have e1 : s * 100 = (s - c / 100) * 100 + c := by ring
    rw [e1]
    refine (abs_add_le _ _).trans ?_
    rw [abs_mul, abs_of_pos (by norm_num : (0 : ℚ) < 100)]
    rw [u0] at x1
    norm_num at hq x1 ⊢
    linarith
  have hm : toF64 (s * 100) = .fin (rnd (s * 100)) := toF64_fin (le_two_pow_1000 (hs.trans (by norm_num)))
  rw [r1]
  simp only [F64.mul100, hm, F64.intRound]
  congr 1
  apply roundEven_eq_of_close
  have hr := rnd_err (s * 100)
  have hb : |s * 100| * ulp ≤ (2 ^ (49 : ℕ) + 1) * ulp := mul_le_mul_of_nonneg_right hs (by rw [u0]; norm_num)
  have e1 : rnd (s * 100) - (c : ℚ) = (rnd (s * 100) - s * 100) + (s - c / 100) * 100 := by ring
  rw [e1]
  refine lt_of_le_of_lt (abs_add_le _ _) ?_
  rw [abs_mul, abs_of_pos (by norm_num : (0 : ℚ) < 100)]
  rw [u0] at x1 hb hr
  norm_num at hq x1 hb hr ⊢
  linarith

theorem VerifiedInTurn.append {ks : KeyStore} {key : Option Bytes} {c c' : Cluster} {l l' : List (Nat × Json)} :
    VerifiedInTurn ks key c (l ++ l') c' ↔ ∃ c₁, VerifiedInTurn ks key c l c₁ ∧ VerifiedInTurn ks key c₁ l' c' := by
  induction l generalizing c with
  | nil =>
    constructor
    · exact fun h => ⟨c, .nil _, h⟩
    · rintro ⟨c₁, h1, h2⟩
      cases h1
      exact h2
  | cons p l ih =>
    constructor
    · intro h
      cases h with
      | cons _ c₂ _ i dep _ h t =>
        obtain ⟨c₁, h1, h2⟩ := ih.mp t
        exact ⟨c₁, .cons _ _ _ _ _ _ h h1, h2⟩
    · rintro ⟨c₁, h1, h2⟩
      cases h1 with
      | cons _ c₂ _ i dep _ h t => exact .cons _ _ _ _ _ _ h (ih.mpr ⟨c₁, t, h2⟩)

theorem VerifiedInTurn.unique {ks : KeyStore} {key : Option Bytes} {c c₁ c₂ : Cluster} {l : List (Nat × Json)}
    (h1 : VerifiedInTurn ks key c l c₁) (h2 : VerifiedInTurn ks key c l c₂) : c₁ = c₂ := by
  induction h1 with
  | nil => cases h2; rfl
  | cons c c₃ c₄ i dep l h t ih =>
    cases h2 with
    | cons _ c₅ _ _ _ _ h' t' =>
      rw [h] at h'
      cases h'
      exact ih t'

/-- The index of the next register means a new one. -/
theorem verifyDEP_next {ks : KeyStore} {key : Option Bytes} {c c' : Cluster} {dep : Stream}
    (h : verifyDEP ks key c none dep = (c', .ok ())) :
    verifyDEP ks key c (some (c.regs.length : Int)) dep = (c', .ok ()) ∧ c'.regs.length = c.regs.length + 1 := by
  obtain ⟨he, c₁, ps, s, P, s', u', i, hi, hp, hv, hri, hidx, rfl⟩ := verifyDEP_iff.mp h
  obtain rfl : i = c.regs.length := by
    rcases hidx with h | h
    · cases h
    · exact h.2
  generalize hx : (none : Option Int) = idx at hi
  cases hi with
  | new _ h hl =>
    refine ⟨verifyDEP_iff.mpr ⟨he, _, _, _, P, s', u', c.regs.length, .new _ (.inr rfl) hl, hp, hv, hri, .inl rfl, rfl⟩, ?_⟩
    simp
  | first => cases hx
  | later => cases hx

theorem verifyDEP_length {ks : KeyStore} {key : Option Bytes} {c c' : Cluster} {i : Nat} (hi : i < c.regs.length) {dep : Stream}
    (h : verifyDEP ks key c (some (i : Int)) dep = (c', .ok ())) : c'.regs.length = c.regs.length := by
  obtain ⟨he, c₁, ps, s, P, s', u', k, hinfo, hp, hv, hri, hidx, rfl⟩ := verifyDEP_iff.mp h
  obtain ⟨ps', h'⟩ := info_known (List.getElem?_eq_getElem hi)
  have := (Prod.mk.inj ((getInfo_iff.mpr ⟨hinfo, rfl⟩).symm.trans (getInfo_iff.mpr ⟨h', rfl⟩))).1
  rw [this]
  simp

/-- What verify.py accepts, called for one DEP after the other, is accepted one after the other. -/
theorem session_verified {backend : Used} {store : Json} {ks : KeyStore} {key : Option Bytes} (h1 : loadKeyFromJson store = .ok key)
    (h2 : readStoreFromJson store = .ok ks) {segs : List (Nat × Part)} {n : Nat} (hs : Scheduled n segs)
    (hd : ∀ p ∈ segs, GoodDoc (exportDEP p.2.groups p.2.extra) ∧ FileMode p.2.mode ∧ p.2.mode.seekable = true) {j e : Json} {c c' : Cluster}
    (hj : Cluster.fromJson j = .ok c) (hc : Settled c) (hl : c.regs.length = n)
    (h : toolSession backend (segs.map (·.2.job store)) j = .ok e) (he : Cluster.fromJson e = .ok c') :
    VerifiedInTurn ks key c (segs.map fun p => (p.1, exportDEP p.2.groups p.2.extra)) c' := by
  have step : ∀ (p : Part) (l : List (Mode × Job)) (j e : Json) (c : Cluster), Cluster.fromJson j = .ok c → Settled c →
      GoodDoc (exportDEP p.groups p.extra) → FileMode p.mode → p.mode.seekable = true →
      toolSession backend (p.job store :: l) j = .ok e → ∃ c₁ j₁,
        verifyDEP ks key c (p.sel.index (some c)) (dictParse 1 (exportDEP p.groups p.extra) 0) = (c₁, .ok ()) ∧
        Cluster.fromJson j₁ = .ok c₁ ∧ Settled c₁ ∧ toolSession backend l j₁ = .ok e := by
    intro p l j e c hj hc hd hm hk h
    simp only [Part.job, toolSession, Res.bind_eq_ok, orErr_eq_ok] at h
    obtain ⟨out, h3, j', rfl, h4⟩ := h
    rw [verifyTool_some ⟨hm.procs, hm.order, .inl hk⟩ hd hj hc] at h3
    obtain ⟨key', ks', c₁, k1, k2, k3, k4⟩ := h3
    rw [h1] at k1
    rw [h2] at k2
    cases k1
    cases k2
    cases k4
    exact ⟨c₁, _, k3, state_json_round_trip _ hm.order _, settled_kept hc (accepted_receipts hd k3) k3, h4⟩
  induction hs generalizing j c with
  | nil n =>
    cases h
    rw [hj] at he
    cases he
    exact .nil _
  | fresh n p l hsel _ ih =>
    obtain ⟨d1, d2, d3⟩ := hd (n, p) (by simp)
    obtain ⟨c₁, j₁, k1, k2, k3, k4⟩ := step p _ j e c hj hc d1 d2 d3 h
    rw [hsel] at k1
    obtain ⟨k5, k6⟩ := verifyDEP_next k1
    subst hl
    exact .cons _ _ _ _ _ _ k5 (ih (fun q hq => hd q (by simp [hq])) k2 k3 k6 k4)
  | known n i p l hi hsel _ ih =>
    obtain ⟨d1, d2, d3⟩ := hd (i, p) (by simp)
    obtain ⟨c₁, j₁, k1, k2, k3, k4⟩ := step p _ j e c hj hc d1 d2 d3 h
    have k5 : verifyDEP ks key c (some (i : Int)) (dictParse 1 (exportDEP p.groups p.extra) 0) = (c₁, .ok ()) := by
      rcases hsel with hsel | ⟨hsel, hn⟩
      · rw [hsel] at k1
        exact k1
      · rw [hsel] at k1
        have : Select.last.index (some c) = some (i : Int) := by
          simp only [Select.index, hl, hn]
          congr 1
          omega
        rwa [this] at k1
    exact .cons _ _ _ _ _ _ k5 (ih (fun q hq => hd q (by simp [hq])) k2 k3 (by rw [verifyDEP_length (by omega) k5, hl]) k4)

/-- The calls of verify.py determine the registers of the DEPs. -/
theorem scheduled_registers {n c : Nat} {l : List Instr} {segs : List (Nat × Part)} (hs : Scheduled n segs)
    (h : segs.map (·.2.sel) = selectsOf n c l) : segs.map (·.1) = depRegistersOf n c l := by
  induction l generalizing n c segs with
  | nil =>
    simp only [selectsOf, List.map_eq_nil_iff] at h
    subst h
    rfl
  | cons i l ih =>
    simp only [selectsOf, depRegistersOf] at h ⊢
    split
    · rename_i h1
      rw [if_pos h1] at h
      exact ih hs h
    · rename_i h1
      rw [if_neg h1] at h
      split
      · rename_i h2
        rw [if_pos h2] at h
        cases hs with
        | nil => simp at h
        | fresh _ p l' hsel hs =>
          simp only [List.map_cons, List.cons.injEq] at h ⊢
          exact ⟨trivial, ih hs h.2⟩
        | known _ k p l' hk hsel hs =>
          simp only [List.map_cons, List.cons.injEq] at h
          rw [h.1] at hsel
          rcases hsel with h | h
          · cases h
          · exact absurd h.1 (by simp)
      · rename_i h2
        rw [if_neg h2] at h
        cases hs with
        | nil => simp at h
        | fresh _ p l' hsel hs =>
          simp only [List.map_cons, List.cons.injEq] at h
          rw [h.1] at hsel
          cases hsel
        | known _ k p l' hk hsel hs =>
          simp only [List.map_cons, List.cons.injEq] at h ⊢
          rw [h.1] at hsel
          rcases hsel with h' | h'
          · have : k = i.contReg.getD c := by
              have := Select.nth.inj h'
              omega
            exact ⟨this, ih hs h.2⟩
          · exact absurd h'.1 (by simp)

/-- The registers of the DEPs. -/
theorem TestResult.depRegisters {x : TestCtx} {modes : Nat → Mode} {deps : List Json} {acts : List Act}
    {segs : List (Nat × Part)} {n : Nat} (hr : TestResult x modes deps acts segs n) (hne : x.spec.instrs ≠ []) :
    segs.map (·.1) = depRegisters x.spec.instrs := by
  obtain ⟨i, l, e⟩ := List.exists_cons_of_ne_nil hne
  have h1 : selects x.spec.instrs = segs.map (·.2.sel) := hr.sels
  have h2 := hr.sched
  rw [e] at h1 ⊢
  cases h2 with
  | nil => simp [selects] at h1
  | fresh _ p l' hsel hs =>
    simp only [selects, List.map_cons, List.cons.injEq] at h1
    simp only [RKSV.depRegisters, List.map_cons, scheduled_registers hs h1.2.symm]
  | known _ k p l' hk hsel hs => omega

/-- The DEPs of a test case that follows the rules are accepted one after the other, with the registers they are for. -/
theorem test_in_turn {spec : TestSpec} {keys : List TestKey} {closed : Bool} {tcSize : Option Nat} {deps : List Json} {store : Json}
    (h : runTest spec keys closed tcSize = .ok (deps, store)) {key : Bytes} (hkey : loadB64Key spec.aesKey = .ok key)
    (hlen : key.length = 32) {backend : Used} {os : List Order} (ha : TestAbides backend spec closed keys os)
    (hf : KeysFit spec closed keys) :
    (∀ dep ∈ deps, GoodDoc dep) ∧
    ∃ ks c, readStoreFromJson store = .ok ks ∧
      VerifiedInTurn ks (some key) ⟨[], backend.fresh⟩ ((depRegisters spec.instrs).zip deps) c ∧
      (∀ (i : Nat) (s : RegState) (ns : List Int), c.regs[i]? = some s →
        List.Forall₂ Order.Adds (ordersFor spec.instrs os i) ns → s.counter = ns.sum) := by
  let modes : Nat → Mode := fun _ => { order := Finset.toList }
  have horder : ∀ s : Finset Str, s.toList.toFinset = s := fun s => Finset.toList_toFinset s
  have hm : ∀ k, FileMode (modes k) := fun k => ⟨le_refl _, horder, .inl rfl⟩
  have hj := state_json_round_trip Finset.toList horder ⟨[], backend.fresh⟩
  obtain ⟨-, e, c, -, t1, t2, -, t3, -⟩ := run_test_accepted h hkey hlen ha hf hm hj
  unfold runTest at h
  simp only [Res.bind_eq_ok, ensure_eq_ok, Except.ok.injEq, Prod.mk.injEq] at h
  obtain ⟨-, -, key', hkey', reg, hreg, ks, hks, s, hs, deps', hd, rfl, rfl⟩ := h
  rw [hkey] at hkey'
  cases hkey'
  unfold CashRegister.make at hreg
  simp only [Res.bind_eq_ok, ensure_eq_ok, Except.ok.injEq] at hreg
  obtain ⟨-, hz, rfl⟩ := hreg
  obtain ⟨acts, segs, n, hr⟩ := loop_result modes (x := ⟨spec, closed, keys, key, spec.counterSize tcSize⟩)
    (fun k hk => (hf.plain k hk).2.1) ha.nonempty hs hd
  obtain ⟨st1, st2⟩ := test_store (putDevices_store hf.plain hks) hkey
  have hmode : ∀ p ∈ segs, FileMode p.2.mode ∧ p.2.mode.seekable = true := by
    intro p hp
    obtain ⟨k, hk⟩ := List.getElem?_of_mem hp
    rw [hr.mode k p hk]
    exact ⟨hm k, rfl⟩
  have hdoc : ∀ p ∈ segs, GoodDoc (exportDEP p.2.groups p.2.extra) := fun p hp =>
    ((hr.parts p hp).1.good hf (hr.parts p hp).2 (hmode p hp).1).doc
  have hregs : segs.map (·.1) = depRegisters spec.instrs := hr.depRegisters ha.nonempty
  refine ⟨?_, ks, c, st2, ?_, t3⟩
  · intro dep hdep
    rw [hr.deps] at hdep
    obtain ⟨p, hp, rfl⟩ := List.mem_map.mp hdep
    exact hdoc p hp
  · have t1' : toolSession backend (segs.map (·.2.job (ks.toJson (some spec.aesKey)))) (Cluster.toJson Finset.toList ⟨[], backend.fresh⟩) = .ok e := by
      rw [← jobs_eq (modes := modes) (n := 0) fun i p hp => by rw [Nat.zero_add]; exact hr.mode i p hp, ← hr.deps, ← hr.sels]
      exact t1
    have := session_verified st1 st2 hr.sched (fun p hp => ⟨hdoc p hp, hmode p hp⟩) hj (settled_new backend) rfl t1' t2
    rw [← hregs, hr.deps, List.zip_map']
    exact this

/-- The last turnover. -/
theorem last_turnover {spec : TestSpec} {keys : List TestKey} {closed : Bool} {tcSize : Option Nat} {deps : List Json} {store : Json}
    (h : runTest spec keys closed tcSize = .ok (deps, store)) {key : Bytes} (hkey : loadB64Key spec.aesKey = .ok key)
    (hlen : key.length = 32) {backend : Used} {os : List Order} (ha : TestAbides backend spec closed keys os)
    (hf : KeysFit spec closed keys) (hadds : ∀ o ∈ os, ∃ n, o.Adds n) {ks : KeyStore} (hks : readStoreFromJson store = .ok ks)
    {pre : List (Nat × Json)} {p : Nat × Json} (hz : (depRegisters spec.instrs).zip deps = pre ++ [p]) {c : Cluster}
    (hv : VerifiedInTurn ks (some key) ⟨[], backend.fresh⟩ (pre ++ [p]) c) :
    (registers spec.instrs).getLast? = some p.1 ∧
    (TurnoverFits c p.1 p.2 ↔ ∀ i x, spec.instrs.getLast? = some i → i.turnover = some x → x ≠ .fin 0 →
      ∀ ns, List.Forall₂ Order.Adds (ordersFor spec.instrs os p.1) ns → x.mul100.intRound = .ok ns.sum) := by
  obtain ⟨-, ks', c', h1, h2, h3⟩ := test_in_turn h hkey hlen ha hf
  rw [hks] at h1
  cases h1
  rw [hz] at h2
  obtain rfl := hv.unique h2
  obtain ⟨l1, l2, -, -⟩ := links_result ha.nonempty h
  have hlast : (depRegisters spec.instrs).getLast? = some p.1 ∧ deps.getLast? = some p.2 := by
    constructor
    · have := congrArg (List.map Prod.fst) hz
      rw [List.map_fst_zip (by omega)] at this
      rw [this]
      simp
    · have := congrArg (List.map Prod.snd) hz
      rw [List.map_snd_zip (by omega)] at this
      rw [this]
      simp
  refine ⟨(registers_prefix ha.nonempty []).2.2.trans hlast.1, ?_⟩
  obtain ⟨c₁, -, hv'⟩ := VerifiedInTurn.append.mp hv
  obtain ⟨s, hs⟩ : ∃ s, c.regs[p.1]? = some s := by
    cases hv' with
    | cons _ c₂ _ i dep _ h t =>
      cases t
      exact verified_register h
  have ht := test_turnovers ha.nonempty h
  obtain ⟨i, d, hi, hd, hturn⟩ : ∃ i d, spec.instrs.getLast? = some i ∧ p.2 = .obj d ∧
      ((∃ x, i.turnover = some x ∧ x ≠ .fin 0 ∧ Dict.get? d c!"Umsatz-gesamt" = some (.float x)) ∨
       ((i.turnover = none ∨ i.turnover = some (.fin 0)) ∧ Dict.get? d c!"Umsatz-gesamt" = none)) := by
    obtain ⟨seg, hseg, d, hd, i, hi, ht⟩ : ∃ seg, (depInstrs spec.instrs).getLast? = some seg ∧ ∃ d, p.2 = .obj d ∧ HasTurnover seg d := by
      have e1 := hlast.2
      rw [List.getLast?_eq_getElem?, l2] at e1
      obtain ⟨q1, q2⟩ := List.getElem?_eq_some_iff.mp e1
      have hlt : (depInstrs spec.instrs).length - 1 < (depInstrs spec.instrs).length := by omega
      refine ⟨(depInstrs spec.instrs)[(depInstrs spec.instrs).length - 1], ?_, ?_⟩
      · rw [List.getLast?_eq_getElem?, List.getElem?_eq_getElem hlt]
      · have := (List.forall₂_iff_get.mp ht).2 _ q1 hlt
        simp only [List.get_eq_getElem] at this
        rw [q2] at this
        exact this
    exact ⟨i, d, by rw [← depInstrs_last hseg]; exact hi, hd, ht⟩
  obtain ⟨ns, hns⟩ : ∃ ns, List.Forall₂ Order.Adds (ordersFor spec.instrs os p.1) ns := by
    have : ∀ o ∈ ordersFor spec.instrs os p.1, ∃ n, o.Adds n := by
      intro o ho
      obtain ⟨q, hq, rfl⟩ := List.mem_map.mp ho
      exact hadds _ (List.of_mem_zip (List.mem_filter.mp hq).1).2
    generalize ordersFor spec.instrs os p.1 = l at this
    induction l with
    | nil => exact ⟨[], .nil⟩
    | cons a l ih =>
      obtain ⟨n, hn⟩ := this a (by simp)
      obtain ⟨ns, h⟩ := ih fun o ho => this o (by simp [ho])
      exact ⟨n :: ns, .cons hn h⟩
  have hcents : ∀ (x : F64) (n : Int), Euros (.float x) n ↔ x.mul100.intRound = .ok n :=
    fun x n => ⟨fun h => by cases h; assumption, .float x n⟩
  have hzero : ∀ x : F64, ¬NoTurnover (.float x) ↔ x ≠ .fin 0 :=
    fun x => ⟨fun h e => h (e ▸ .float), fun h g => by cases g; exact h rfl⟩
  rw [hd]
  constructor
  · intro hfit j x hj hx hx0 ns' hns'
    rw [hi] at hj
    cases hj
    rcases hturn with ⟨y, y1, y2, y3⟩ | ⟨y1 | y1, -⟩
    · rw [hx] at y1
      cases y1
      obtain ⟨s', k1, k2⟩ := hfit d _ rfl y3 ((hzero x).mpr hx0)
      rw [← h3 _ _ _ k1 hns']
      exact (hcents x _).mp k2
    · rw [hx] at y1
      cases y1
    · rw [hx] at y1
      cases y1
      exact absurd rfl hx0
  · intro hall d' x' e hx' htrue
    cases e
    rcases hturn with ⟨y, y1, y2, y3⟩ | ⟨-, y3⟩
    · rw [y3] at hx'
      cases hx'
      exact ⟨s, hs, (hcents y _).mpr (by rw [h3 _ _ _ hs hns]; exact hall i y hi y1 y2 ns hns)⟩
    · rw [y3] at hx'
      cases hx'

theorem testOnce_ok {backend : Used} {verify : KeyStore → Option Bytes → Nat → Cluster → Nat → Json → Res (Option Cluster)}
    {aesKey : Str} {deps : List Json} {cc : Json} {key : Bytes} (hkey : loadB64Key aesKey = .ok key) {ks : KeyStore}
    (hks : readStoreFromJson cc = .ok ks) :
    testOnce backend verify aesKey none deps cc = .ok ↔
      ∃ c, testDeps (verify ks (some key)) [] 0 ⟨[], backend⟩ deps = .ok (some c) := by
  unfold testOnce
  simp only [hkey, hks, Res.ok_bind]
  cases testDeps (verify ks (some key)) [] 0 ⟨[], backend⟩ deps with
  | error e => by_cases he : e.isVerify = true <;> simp [he]
  | ok o => cases o <;> simp

omit [PyEnv] in
theorem combine_ok {a b : Outcome} (h : a = .ok ↔ b = .ok) :
    (if a = b then a else if a = .error ∨ b = .error then .error else .fail) = Outcome.ok ↔ a = .ok := by
  cases a <;> cases b <;> simp at h ⊢

/-- C95: for a test case that follows the rules, whose registers are started in turn, the driver reports success exactly if
the turnovers given are right.  This does not depend on what it draws at random, on the processes, or on which of them
are faster. -/
theorem test_case_passes_iff {spec : TestSpec} {keys : List TestKey} {closed : Bool} {deps : List Json} {store : Json}
    (h : runTest spec keys closed none = .ok (deps, store)) (hplain : ∀ i ∈ spec.instrs, i.override = {})
    {key : Bytes} (hkey : loadB64Key spec.aesKey = .ok key)
    (hlen : key.length = 32) {backend : Used} {os : List Order} (ha : TestAbides backend spec closed keys os)
    (hf : KeysFit spec closed keys) (ht : StartedInTurn (depRegisters spec.instrs)) (hadds : ∀ o ∈ os, ∃ n, o.Adds n)
    {d : Driver} (hw : (∃ pick, d.workers = .pool pick) ∨ d.nprocs ≤ 1) :
    testVerify backend.fresh d spec keys closed none = .ok ↔ TurnoversRight spec.instrs os := by
  obtain ⟨hdoc, ks, c, hks, hv, -⟩ := test_in_turn h hkey hlen ha hf
  obtain ⟨n, hr⟩ := test_registers_partial ha.nonempty h ht
  obtain ⟨hl, -, -⟩ := links_result ha.nonempty h
  unfold testVerify
  rw [runTestFull_plain hplain, h]
  dsimp only
  have hsame : testOnce backend.fresh testPlain spec.aesKey none deps store = .ok ↔
      testOnce backend.fresh (testParsed d) spec.aesKey none deps store = .ok := by
    rw [testOnce_ok hkey hks, testOnce_ok hkey hks]
    exact exists_congr fun c => (testDeps_parsed hw hdoc (settled_new backend)).symm
  rw [combine_ok hsame, testOnce_ok hkey hks]
  have hall : (∃ c, testDeps (testPlain ks (some key)) [] 0 ⟨[], backend.fresh⟩ deps = .ok (some c)) ↔
      ∀ pre p post c₁, (depRegisters spec.instrs).zip deps = pre ++ p :: post →
        VerifiedInTurn ks (some key) ⟨[], backend.fresh⟩ (pre ++ [p]) c₁ → TurnoverFits c₁ p.1 p.2 := by
    constructor
    · rintro ⟨c', hc'⟩
      exact ((testDeps_iff (idxs := depRegisters spec.instrs) hr).mp hc').2
    · exact fun h => ⟨c, (testDeps_iff (idxs := depRegisters spec.instrs) hr).mpr ⟨hv, h⟩⟩
  rw [hall]
  -- a part that ends with a DEP
  have part : ∀ l l', spec.instrs = l ++ l' → l ≠ [] → (∀ j, l'.head? = some j → j.newDep ≠ c!"NO_NEW_DEP") →
      ∃ pre p post c₁, (depRegisters spec.instrs).zip deps = pre ++ p :: post ∧ pre.length + 1 = (depRegisters l).length ∧
        VerifiedInTurn ks (some key) ⟨[], backend.fresh⟩ (pre ++ [p]) c₁ ∧
        (registers l).getLast? = some p.1 ∧
        (TurnoverFits c₁ p.1 p.2 ↔ ∀ i x, l.getLast? = some i → i.turnover = some x → x ≠ .fin 0 →
          ∀ ns, List.Forall₂ Order.Adds (ordersFor l os p.1) ns → x.mul100.intRound = .ok ns.sum) := by
    intro l l' e hne hn
    obtain ⟨deps₁, deps₂, h1, h2⟩ := runTest_prefix h e hne hn
    have ha' := ha.prefix e hne
    obtain ⟨-, ks', c₁, k1, k2, -⟩ := test_in_turn h1 hkey hlen ha' (hf.instrs l)
    rw [hks] at k1
    cases k1
    obtain ⟨l1, -, -⟩ := links_result (spec := { spec with instrs := l }) hne h1
    have l1 : deps₁.length = (depRegisters l).length := l1
    have hpos : (depRegisters l).length ≠ 0 := by
      obtain ⟨a, l, rfl⟩ := List.exists_cons_of_ne_nil hne
      simp [depRegisters]
    have hzne : (depRegisters l).zip deps₁ ≠ [] := by
      intro e
      have := congrArg List.length e
      rw [List.length_zip, l1] at this
      simp at this
      exact hpos (by rw [this]; rfl)
    obtain ⟨pre, p, hz⟩ : ∃ pre p, (depRegisters l).zip deps₁ = pre ++ [p] :=
      ⟨_, _, (List.dropLast_append_getLast hzne).symm⟩
    have k2 : VerifiedInTurn ks (some key) ⟨[], backend.fresh⟩ ((depRegisters l).zip deps₁) c₁ := k2
    rw [hz] at k2
    obtain ⟨-, ⟨t, ht⟩, -⟩ := registers_prefix hne l'
    obtain ⟨m1, m2⟩ := last_turnover h1 hkey hlen ha' (hf.instrs l)
      (fun o ho => hadds o (List.mem_of_mem_take ho)) hks hz k2
    refine ⟨pre, p, t.zip deps₂, c₁, ?_, ?_, k2, m1, ?_⟩
    · rw [e, ht, h2, List.zip_append l1.symm, hz]
      simp
    · have := congrArg List.length hz
      rw [List.length_zip, l1] at this
      simpa using this.symm
    · rw [m2]
      have : ordersFor l (os.take l.length) p.1 = ordersFor l os p.1 := (ordersFor_prefix (l' := []) hne os p.1).1.symm
      show (∀ i x, l.getLast? = some i → i.turnover = some x → x ≠ .fin 0 →
          ∀ ns, List.Forall₂ Order.Adds (ordersFor l (os.take l.length) p.1) ns → x.mul100.intRound = .ok ns.sum) ↔ _
      rw [this]
  constructor
  · intro hfit pre i post e hn x hx hx0 r hreg ns hns
    obtain ⟨pre', p, post', c₁, q1, -, q2, q3, q4⟩ := part (pre ++ [i]) post (by rw [e]; simp) (by simp) hn
    rw [q3] at hreg
    cases hreg
    exact q4.mp (hfit pre' p post' c₁ q1 q2) i x (by simp) hx hx0 ns hns
  · intro hright pre p post c₁ e hvt
    have hlt : pre.length + 1 ≤ (depRegisters spec.instrs).length := by
      have := congrArg List.length e
      rw [List.length_zip, hl] at this
      simp at this
      omega
    obtain ⟨l, l', e', hne, hn, hk⟩ := split_deps hlt
    obtain ⟨pre', p', post', c₂, q1, q2, q3, q4, q5⟩ := part l l' e' hne hn
    rw [e] at q1
    obtain ⟨rfl, q6⟩ := List.append_inj q1 (by omega)
    cases q6
    obtain rfl := hvt.unique q3
    refine q5.mpr fun i x hi hx hx0 ns hns => ?_
    have hdl : l.dropLast ++ [i] = l := by
      rw [← List.dropLast_append_getLast? i hi]
      simp
    refine hright l.dropLast i l' (by rw [e', ← hdl]; simp) hn x hx hx0 p.1 (by rw [hdl]; exact q4) ns (by rw [hdl]; exact hns)

/-! ### Any test case -/

theorem testDeps_registers {verify : Nat → Cluster → Nat → Json → Res (Option Cluster)} {seen : List Nat} {n : Nat} {c c' : Cluster}
    {deps : List Json} (h : testDeps verify seen n c deps = .ok (some c')) :
    ∃ idxs n', registerIdxs seen n deps = .ok (seen ++ idxs, n') := by
  induction deps generalizing seen n c with
  | nil => exact ⟨[], n, by simp [registerIdxs]⟩
  | cons dep deps ih =>
    cases hr : registerIdx seen n dep with
    | error e => simp [testDeps, hr, Res.error_bind] at h
    | ok p =>
      obtain ⟨seen', n₁⟩ := p
      obtain ⟨-, i, rfl⟩ := registerIdx_obj hr
      obtain ⟨c₁, c₂, -, -, h⟩ := (testDeps_cons hr).mp h
      obtain ⟨idxs, n', h⟩ := ih h
      exact ⟨i :: idxs, n', by simp [registerIdxs, hr, Res.ok_bind, h]⟩

omit [PyEnv] in
theorem registerIdx_error {seen : List Nat} {n : Nat} {dep : Json} {e : Err} (h : registerIdx seen n dep = .error e) :
    e.isVerify = false := by
  unfold registerIdx at h
  rw [Res.bind_eq_error] at h
  rcases h with h | ⟨d, hd, h⟩
  · rw [← (orErr_eq_error.mp h).2]
    rfl
  · split at h
    · simp only [Res.bind_eq_error, orErr_eq_error, reduceCtorEq, and_false, exists_false, or_false] at h
      rcases h with ⟨-, rfl⟩ | ⟨p, -, ⟨-, rfl⟩ | ⟨q, -, -, rfl⟩⟩ <;> rfl
    · cases h

omit [PyEnv] in
theorem cents_error {x : Json} {e : Err} (h : x.cents = .error e) : e.isVerify = false := by
  unfold Json.cents at h
  split at h
  · cases h
  · cases h
  · split at h <;> cases h <;> rfl
  · cases h
    rfl

omit [PyEnv] in
theorem getInfo_not_verify {c c' : Cluster} {i : Option Int} {e : Err} (h : c.getInfo i = (c', .error e)) : e.isVerify = false := by
  have hlook : ∀ (c : Cluster) (i : Int), c.look i = .error e → e.isVerify = false := by
    intro c i h
    unfold Cluster.look at h
    simp only [Res.bind_eq_error, ensure_eq_error, orErr_eq_error, reduceCtorEq, and_false, exists_false, or_false] at h
    rcases h with ⟨-, rfl⟩ | ⟨-, -, -, rfl⟩ <;> rfl
  unfold Cluster.getInfo at h
  split at h
  · split at h
    · exact hlook _ _ (Prod.mk.inj h).2
    · rename_i ha
      have := (Prod.mk.inj h).2
      cases this
      unfold Cluster.addNew at ha
      simp only [Res.bind_eq_error, ensure_eq_error, reduceCtorEq, and_false, exists_false, or_false] at ha
      rw [← ha.2]
      rfl
  · exact hlook _ _ (Prod.mk.inj h).2

omit [PyEnv] in
theorem checkTurnover_error {c : Cluster} {i : Nat} {dep : Json} {e : Err} (h : checkTurnover c i dep = .error e) :
    e.isVerify = false := by
  unfold checkTurnover at h
  rw [Res.bind_eq_error] at h
  rcases h with h | ⟨d, hd, h⟩
  · rw [← (orErr_eq_error.mp h).2]
    rfl
  · split at h
    · cases h
    · split at h
      · split at h
        · rename_i hg
          cases h
          exact getInfo_not_verify hg
        · rw [Res.bind_eq_error] at h
          rcases h with h | ⟨n, -, h⟩
          · exact cents_error h
          · split at h <;> cases h
      · cases h

/-- If the loop ends with an exception of the verification, then because a DEP was refused. -/
theorem testDeps_refused {ks : KeyStore} {key : Option Bytes} {seen : List Nat} {n : Nat} {c : Cluster} {deps : List Json} {e : Err}
    (h : testDeps (testPlain ks key) seen n c deps = .error e) (he : e.isVerify = true) :
    ∃ pre dep post, ∃ (idxs : List Nat) (i : Nat), ∃ n' c₁ c₂, deps = pre ++ dep :: post ∧
      registerIdxs seen n (pre ++ [dep]) = .ok (seen ++ idxs ++ [i], n') ∧ idxs.length = pre.length ∧
      VerifiedInTurn ks key c (idxs.zip pre) c₁ ∧
      verifyDEP ks key c₁ (some (i : Int)) (dictParse 1 dep 0) = (c₂, .error e) := by
  induction deps generalizing seen n c with
  | nil => cases h
  | cons dep deps ih =>
    cases hr : registerIdx seen n dep with
    | error e' =>
      simp only [testDeps, hr, Res.error_bind] at h
      cases h
      rw [registerIdx_error hr] at he
      cases he
    | ok p =>
      obtain ⟨seen', n₁⟩ := p
      obtain ⟨hobj, i, rfl⟩ := registerIdx_obj hr
      simp only [testDeps, hr, Res.ok_bind, List.getLast?_append, List.getLast?_singleton, Option.some_or, orErr] at h
      rw [Res.bind_eq_error] at h
      rcases h with h | ⟨o, ho, h⟩
      · refine ⟨[], dep, deps, [], i, n₁, c, ?_⟩
        unfold testPlain at h
        split at h
        · rename_i c₂ e' hv
          cases h
          exact ⟨c₂, rfl, by simp [registerIdxs, hr, Res.ok_bind], rfl, .nil _, hv⟩
        · cases h
      · cases o with
        | none => cases h
        | some c₁ =>
          dsimp only at h
          rw [Res.bind_eq_error] at h
          rcases h with h | ⟨o, ho', h⟩
          · rw [checkTurnover_error h] at he
            cases he
          · cases o with
            | none => cases h
            | some c₂ =>
              have hv := testPlain_iff.mp ho
              obtain ⟨s, hs⟩ := verified_register hv
              obtain ⟨rfl, -⟩ := (checkTurnover_iff hs hobj).mp ho'
              obtain ⟨pre, dep', post, idxs, k, n', c₃, c₄, rfl, a1, a2, a3, a4⟩ := ih h
              refine ⟨dep :: pre, dep', post, i :: idxs, k, n', c₃, c₄, rfl, ?_, by simp [a2], .cons _ _ _ _ _ _ hv a3, a4⟩
              simp [registerIdxs, hr, Res.ok_bind, a1]

/-- C95: if the driver reports success for a test case without an expected exception, all DEPs were accepted one after the
other, each for the register its elements name, and the turnovers given in them were right. -/
theorem test_case_accepted {backend : Used} {d : Driver} {spec : TestSpec} {keys : List TestKey} {closed : Bool}
    (h : testVerify backend d spec keys closed none = .ok) :
    ∃ deps store key ks idxs n c, runTestFull spec keys closed none = .ok (deps, store) ∧
      loadB64Key spec.aesKey = .ok key ∧ readStoreFromJson store = .ok ks ∧ registerIdxs [] 0 deps = .ok (idxs, n) ∧
      VerifiedInTurn ks (some key) ⟨[], backend⟩ (idxs.zip deps) c ∧
      ∀ pre p post c₁, idxs.zip deps = pre ++ p :: post → VerifiedInTurn ks (some key) ⟨[], backend⟩ (pre ++ [p]) c₁ →
        TurnoverFits c₁ p.1 p.2 := by
  unfold testVerify at h
  split at h
  · cases h
  rename_i deps store hrun
  dsimp only at h
  have hN : testOnce backend testPlain spec.aesKey none deps store = .ok := by
    split at h
    · exact h
    · split at h <;> cases h
  unfold testOnce at hN
  dsimp only at hN
  split at hN
  · cases hN
  · rename_i c hc
    simp only [Res.bind_eq_ok] at hc
    obtain ⟨key, hkey, ks, hks, hc⟩ := hc
    obtain ⟨idxs, n, hr⟩ := testDeps_registers hc
    obtain ⟨h1, h2⟩ := (testDeps_iff hr).mp hc
    exact ⟨deps, store, key, ks, idxs, n, c, hrun, hkey, hks, by simpa using hr, h1, h2⟩
  · split at hN <;> cases hN

/-- C95: if the driver reports success for a test case with an expected exception, a DEP was refused with it, and those
before were accepted one after the other. -/
theorem test_case_refused {backend : Used} {d : Driver} {spec : TestSpec} {keys : List TestKey} {closed : Bool} {p : Err → Bool}
    (h : testVerify backend d spec keys closed (some p) = .ok) :
    ∃ pre dep post store key ks, ∃ (idxs : List Nat) (i : Nat), ∃ n c c' e, runTestFull spec keys closed none = .ok (pre ++ dep :: post, store) ∧
      loadB64Key spec.aesKey = .ok key ∧ readStoreFromJson store = .ok ks ∧
      registerIdxs [] 0 (pre ++ [dep]) = .ok (idxs ++ [i], n) ∧ idxs.length = pre.length ∧
      VerifiedInTurn ks (some key) ⟨[], backend⟩ (idxs.zip pre) c ∧
      verifyDEP ks (some key) c (some (i : Int)) (dictParse 1 dep 0) = (c', .error e) ∧ p e = true ∧ e ∉ otherExceptions := by
  unfold testVerify at h
  split at h
  · cases h
  rename_i deps store hrun
  dsimp only at h
  have hN : testOnce backend testPlain spec.aesKey (some p) deps store = .ok := by
    split at h
    · exact h
    · split at h <;> cases h
  unfold testOnce at hN
  dsimp only at hN
  split at hN
  · cases hN
  · simp at hN
  · rename_i e he
    by_cases hv : e.isVerify = true
    · rw [if_pos hv] at hN
      have hp : p e = true := by
        by_contra hp
        simp [hp] at hN
      rw [Res.bind_eq_error] at he
      rcases he with he | ⟨key, hkey, he⟩
      · unfold loadB64Key at he
        rw [← (orErr_eq_error.mp he).2] at hv
        split at hv <;> cases hv
      rw [Res.bind_eq_error] at he
      rcases he with he | ⟨ks, hks, he⟩
      · rcases store_read_total_partial _ _ he with h | h
        · rcases h with rfl | rfl | rfl <;> cases hv
        · rw [h.1] at hv
          cases hv
      obtain ⟨pre, dep, post, idxs, i, n, c₁, c₂, rfl, a1, a2, a3, a4⟩ := testDeps_refused he hv
      exact ⟨pre, dep, post, store, key, ks, idxs, i, n, c₁, c₂, e, hrun, hkey, hks, by simpa using a1, a2, a3, a4, hp, (isVerify_iff e).mp hv⟩
    · rw [if_neg hv] at hN
      cases hN

theorem registerIdxs_append {l l' : List Json} {a b : List Nat} {n m : Nat} (h : registerIdxs a n (l ++ l') = .ok (b, m)) :
    ∃ a' n', registerIdxs a n l = .ok (a', n') ∧ registerIdxs a' n' l' = .ok (b, m) := by
  induction l generalizing a n with
  | nil => exact ⟨a, n, rfl, h⟩
  | cons x l ih =>
    simp only [List.cons_append, registerIdxs, Res.bind_eq_ok] at h
    obtain ⟨⟨a₁, n₁⟩, q1, q2⟩ := h
    obtain ⟨a', n', q3, q4⟩ := ih q2
    exact ⟨a', n', by simp [registerIdxs, q1, Res.ok_bind, q3], q4⟩

theorem registerIdxs_extends {l : List Json} {a b : List Nat} {n m : Nat} (h : registerIdxs a n l = .ok (b, m)) : ∃ t, b = a ++ t := by
  induction l generalizing a n with
  | nil =>
    cases h
    exact ⟨[], by simp⟩
  | cons d l ih =>
    simp only [registerIdxs, Res.bind_eq_ok] at h
    obtain ⟨⟨a', n₂⟩, h3, h4⟩ := h
    obtain ⟨-, k, rfl⟩ := registerIdx_obj h3
    obtain ⟨t, rfl⟩ := ih h4
    exact ⟨k :: t, by simp⟩

/-- C95: a test case that follows the rules fails if an exception is expected. -/
theorem test_case_expects_too_much {spec : TestSpec} {keys : List TestKey} {closed : Bool} {deps : List Json} {store : Json}
    (h : runTest spec keys closed none = .ok (deps, store)) (hplain : ∀ i ∈ spec.instrs, i.override = {})
    {key : Bytes} (hkey : loadB64Key spec.aesKey = .ok key)
    (hlen : key.length = 32) {backend : Used} {os : List Order} (ha : TestAbides backend spec closed keys os)
    (hf : KeysFit spec closed keys) (ht : StartedInTurn (depRegisters spec.instrs)) (d : Driver) (p : Err → Bool) :
    testVerify backend.fresh d spec keys closed (some p) ≠ .ok := by
  intro hok
  obtain ⟨pre, dep, post, store', key', ks', idxs, i, n, c₁, c₂, e, h1, h2, h3, h4, h5, h6, h7, -, -⟩ := test_case_refused hok
  rw [runTestFull_plain hplain, h] at h1
  obtain ⟨rfl, rfl⟩ := Prod.mk.inj (Except.ok.inj h1)
  rw [hkey] at h2
  cases h2
  obtain ⟨-, ks, c, hks, hv, -⟩ := test_in_turn h hkey hlen ha hf
  rw [hks] at h3
  cases h3
  obtain ⟨m, hr⟩ := test_registers_partial ha.nonempty h ht
  have hsplit : pre ++ dep :: post = (pre ++ [dep]) ++ post := by simp
  rw [hsplit] at hr
  obtain ⟨a', n', q1, q2⟩ := registerIdxs_append hr
  rw [h4] at q1
  cases q1
  obtain ⟨t, ht'⟩ := registerIdxs_extends q2
  rw [ht', List.append_assoc, List.zip_append h5] at hv
  obtain ⟨c₃, v1, v2⟩ := VerifiedInTurn.append.mp hv
  obtain rfl := v1.unique h6
  cases v2 with
  | cons _ _ _ _ _ _ v3 _ =>
    rw [h7] at v3
    cases v3

end

/-! ### Test cases that pass and fail -/

namespace Demo

attribute [local instance] env

theorem cents0 : centsToF64 0 = .fin 0 := by decide +kernel

theorem side_adds : ∀ o ∈ sideOrders, ∃ n, o.Adds n := by
  intro o ho
  simp only [sideOrders, List.mem_cons, List.not_mem_nil, or_false] at ho
  rcases ho with rfl | rfl | rfl | rfl
  · exact ⟨_, order_adds _ _ (by norm_num) _ _ _⟩
  · exact ⟨_, order_adds _ _ (by norm_num) _ _ _⟩
  · exact ⟨_, order_adds _ _ (by norm_num) _ _ _⟩
  · exact ⟨_, order_adds _ _ (by norm_num) _ _ _⟩

theorem side_started : StartedInTurn (depRegisters sideSpec.instrs) := by
  have : depRegisters sideSpec.instrs = [0, 1, 0, 1] := by decide
  rw [this]
  intro k r hk hq
  match k with
  | 0 => cases hk; rfl
  | 1 => cases hk; exact absurd rfl (hq 0 (by omega))
  | 2 => cases hk; exact absurd rfl (hq 1 (by omega))
  | k + 3 => cases hk

theorem four_split {α : Type} {a b c d i : α} {pre post : List α} (h : [a, b, c, d] = pre ++ i :: post) :
    (pre = [] ∧ i = a) ∨ (pre = [a] ∧ i = b) ∨ (pre = [a, b] ∧ i = c) ∨ (pre = [a, b, c] ∧ i = d) := by
  match pre, h with
  | [], h => cases h; exact .inl ⟨rfl, rfl⟩
  | [_], h => cases h; exact .inr (.inl ⟨rfl, rfl⟩)
  | [_, _], h => cases h; exact .inr (.inr (.inl ⟨rfl, rfl⟩))
  | [_, _, _], h => cases h; exact .inr (.inr (.inr ⟨rfl, rfl⟩))
  | _ :: _ :: _ :: _ :: pre, h =>
    have := congrArg List.length h
    simp at this

theorem adds_unique {os : List Order} {ns ms : List Int} (h1 : List.Forall₂ Order.Adds os ns) (h2 : List.Forall₂ Order.Adds os ms) :
    ns = ms := by
  have one : ∀ (o : Order) (n m : Int), o.Adds n → o.Adds m → n = m := by
    intro o n m h1 h2
    have e1 := book_adds h1 0
    have e2 := book_adds h2 0
    rw [e1] at e2
    simpa using e2
  induction h1 generalizing ms with
  | nil => cases h2; rfl
  | cons h _ ih =>
    cases h2 with
    | cons h' t' => rw [one _ _ _ h h', ih t']

theorem side_right : TurnoversRight sideSpec.instrs sideOrders := by
  intro pre i post e _ x hx hx0 r hr ns hns
  rcases four_split e with ⟨rfl, rfl⟩ | ⟨rfl, rfl⟩ | ⟨rfl, rfl⟩ | ⟨rfl, rfl⟩
  · cases hx
    exact absurd cents0 hx0
  · cases hx
    exact absurd cents0 hx0
  · cases hx
    cases hr
    rw [adds_unique hns (ms := [0, 5]) (.cons (order_adds _ _ (by norm_num) _ _ _) (.cons (order_adds _ _ (by norm_num) _ _ _) .nil))]
    exact cents_exact (by norm_num)
  · cases hx
    cases hr
    rw [adds_unique hns (ms := [0, 3]) (.cons (order_adds _ _ (by norm_num) _ _ _) (.cons (order_adds _ _ (by norm_num) _ _ _) .nil))]
    exact cents_exact (by norm_num)

theorem aes_loaded : loadB64Key (b64Encode false aes) = .ok aes := eq_of_isOk (by decide +kernel)

/-- The test case with two registers side by side passes, whatever the driver draws. -/
theorem side_passes {d : Driver} (hw : (∃ pick, d.workers = .pool pick) ∨ d.nprocs ≤ 1) :
    testVerify (.unique ∅) d sideSpec sideKeys true none = .ok := by
  obtain ⟨deps, store, h⟩ := side_runs
  exact (test_case_passes_iff h (by simp [sideSpec, instr]) aes_loaded (by decide) (backend := .unique ∅) side_abides side_keys
    side_started side_adds hw).mpr side_right

/-- It does not pass if an exception is expected. -/
example (d : Driver) (p : Err → Bool) : testVerify (.unique ∅) d sideSpec sideKeys true (some p) ≠ .ok := by
  obtain ⟨deps, store, h⟩ := side_runs
  exact test_case_expects_too_much h (by simp [sideSpec, instr]) aes_loaded (by decide) (backend := .unique ∅) side_abides side_keys
    side_started d p

/-- The turnover with the training receipt at the end of the first DEP is wrong, so this one does not pass. -/
theorem open_fails {d : Driver} (hw : (∃ pick, d.workers = .pool pick) ∨ d.nprocs ≤ 1) :
    testVerify (.unique ∅) d openSpec openKeys false none ≠ .ok := by
  obtain ⟨deps, store, h⟩ := open_runs
  have hadds : ∀ o ∈ orders, ∃ n, o.Adds n := by
    intro o ho
    simp only [orders, List.mem_cons, List.not_mem_nil, or_false] at ho
    rcases ho with rfl | rfl | rfl | rfl | rfl | rfl | rfl | rfl <;> exact ⟨_, order_adds _ _ (by norm_num) _ _ _⟩
  have hst : StartedInTurn (depRegisters openSpec.instrs) := by
    have : depRegisters openSpec.instrs = [0, 0, 0] := by decide
    rw [this]
    intro k r hk hq
    match k with
    | 0 => cases hk; exact absurd rfl (hq 0 (by omega))
    | 1 => cases hk; exact absurd rfl (hq 0 (by omega))
    | k + 2 => cases hk
  intro hok
  have hr := (test_case_passes_iff h (by simp [openSpec, instr]) aes_loaded (by decide) (backend := .unique ∅) open_abides open_keys
    hst hadds hw).mp hok
  have := hr [instr 1 0 0 false false false kNoNew none, instr 2 1230 0 false false false kNoNew none]
    (instr 3 999 0 false true false kNoNew none) _ rfl (by intro j hj; cases hj; decide) _ rfl
    (by intro e; have := cents_exact (c := 999) (by norm_num); rw [e, ← cents0, cents_exact (by norm_num)] at this; cases this) 0 rfl
    [0, 1230, 0] (.cons (order_adds _ _ (by norm_num) _ _ _) (.cons (order_adds _ _ (by norm_num) _ _ _)
      (.cons (order_adds _ _ (by norm_num) _ _ _) .nil)))
  rw [cents_exact (by norm_num)] at this
  exact absurd (Except.ok.inj this) (by decide)

/-- The same test case with a wrong link to the receipt before in the third DEP. -/
def chainSpec : TestSpec where
  aesKey := b64Encode false aes
  cashBoxId := c!"reg"
  companyId := c!"U:ATU12345678"
  numDevices := 2
  instrs := [instr 1 0 1 false false false kNoNew none, instr 11 0 1 false false false kCluster none,
    { instr 2 5 1 false false false c!"NEW_DEP" (some 0) with override := { previousChain := some c!"AAAAAAAAAAA=" } },
    instr 12 3 1 false false true c!"NEW_DEP" (some 1)]

set_option maxRecDepth 100000 in
theorem chain_passes : testVerify (.unique ∅) ⟨.alone, 1, fun _ => 2⟩ chainSpec sideKeys true (some (· == .chaining)) = .ok := by
  decide +kernel

/-- The hypothesis of `test_case_refused` can be met: a DEP was refused because of the chaining. -/
example : ∃ pre dep post store ks c c', ∃ i : Nat, runTestFull chainSpec sideKeys true none = .ok (pre ++ dep :: post, store) ∧
    readStoreFromJson store = .ok ks ∧ verifyDEP ks (some aes) c (some (i : Int)) (dictParse 1 dep 0) = (c', .error .chaining) := by
  obtain ⟨pre, dep, post, store, key, ks, idxs, i, n, c, c', e, h1, h2, h3, -, -, -, h4, h5, -⟩ := test_case_refused chain_passes
  cases h2.symm.trans aes_loaded
  obtain rfl : e = .chaining := by simpa using h5
  exact ⟨pre, dep, post, store, ks, c, c', i, h1, h3, h4⟩

end Demo

end RKSV
