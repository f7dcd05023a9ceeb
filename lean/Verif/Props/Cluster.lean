import Verif.Props.Parallel
/-
Properties C39, C40 and C41: what verification does to the cluster state.
-/
namespace RKSV

/-! ### C41 -/

/-- C41: what is handed to the verification is what the index says, and nothing else. -/
theorem register_lookup_iff {c c₁ : Cluster} {idx : Option Int} {ps : Option Str} {s : RegState}
    {used : Used} :
    c.getInfo idx = (c₁, .ok (ps, s, used)) ↔ Info c idx c₁ ps s ∧ used = c.used := getInfo_iff

/-- C41: indices outside 0..n are rejected and change nothing. -/
theorem bad_index {c : Cluster} {i : Int} (h : i < 0 ∨ (c.regs.length : Int) < i) :
    c.getInfo (some i) = (c, .error .invalidCashRegisterIndex) := by
  unfold Cluster.getInfo
  rw [if_neg (by simp; omega)]
  simp only [Option.getD_some, Cluster.look, ensure_neg (not_not.mpr h)]
  rfl

/-- C41: no register is added after one without a start receipt. -/
theorem no_register_after_unused {c : Cluster} {idx : Option Int} {r : RegState}
    (h : idx = none ∨ idx = some (c.regs.length : Int)) (hl : c.regs.getLast? = some r)
    (hr : Blank r.start) : c.getInfo idx = (c, .error .noStartReceiptForLastCashRegister) := by
  unfold Cluster.getInfo
  rw [if_pos h]
  have : c.addNew = .error .noStartReceiptForLastCashRegister := by
    unfold Cluster.addNew
    rw [ensure_neg]
    · rfl
    · intro hall
      have := hall r hl
      rw [blank_iff] at hr
      rw [hr] at this
      cases this
  rw [this]

/-- C41: storing a result replaces the register at the index, or the last one without index, and the used
IDs, and nothing else; ... -/
theorem register_update_iff {c c' : Cluster} {idx : Option Int} {r : RegState} {used : Used} :
    c.updateInfo idx r used = .ok c' ↔
      ∃ a old b, c.regs = a ++ old :: b ∧ (idx = some (a.length : Int) ∨ idx = none ∧ b = []) ∧
        c' = ⟨a ++ r :: b, used⟩ := by
  have split : ∀ n, n < c.regs.length → (∃ x, c.regs = c.regs.take n ++ x :: c.regs.drop (n + 1)) ∧
      c.regs.set n r = c.regs.take n ++ r :: c.regs.drop (n + 1) ∧ (c.regs.take n).length = n := by
    intro n hn
    refine ⟨?_, ?_, by simp; omega⟩
    · exact ⟨c.regs[n], by rw [List.getElem_cons_drop, List.take_append_drop]⟩
    · rw [List.set_eq_take_append_cons_drop, if_pos hn]
  unfold Cluster.updateInfo
  cases idx with
  | none =>
    by_cases hn : c.regs = []
    · simp [hn, Res.error_bind]
    · simp only [if_neg hn, Res.ok_bind, Except.ok.injEq, reduceCtorEq, false_or, true_and]
      have hl := List.length_pos_iff.mpr hn
      constructor
      · rintro rfl
        obtain ⟨⟨x, h1⟩, h2, h3⟩ := split (c.regs.length - 1) (by omega)
        refine ⟨_, _, _, h1, ?_, by rw [h2]⟩
        simp; omega
      · rintro ⟨a, old, b, h, rfl, rfl⟩
        simp [h]
  | some i =>
    simp only [Res.bind_eq_ok, ensure_eq_ok, Except.ok.injEq, Option.some.injEq, reduceCtorEq, false_and, or_false]
    constructor
    · rintro ⟨_, ⟨_, hi, rfl⟩, rfl⟩
      obtain ⟨⟨x, h1⟩, h2, h3⟩ := split i.toNat (by omega)
      exact ⟨_, _, _, h1, by omega, by rw [h2]⟩
    · rintro ⟨a, old, b, h, rfl, rfl⟩
      refine ⟨_, ⟨(), ?_, rfl⟩, ?_⟩
      · simp [h]
      · simp [h]

/-- ... and the index of no register is refused. -/
theorem register_update_bad {c : Cluster} {i : Int} (h : i < 0 ∨ (c.regs.length : Int) ≤ i) (r : RegState)
    (used : Used) : c.updateInfo (some i) r used = .error .invalidCashRegisterIndex := by
  simp only [Cluster.updateInfo, ensure_neg (not_not.mpr h)]
  rfl

/-- C41: every index is in one of the three cases. -/
theorem register_lookup_total (c : Cluster) (idx : Option Int) :
    (∃ c₁ ps s, c.getInfo idx = (c₁, .ok (ps, s, c.used))) ∨
    (∃ i, idx = some i ∧ (i < 0 ∨ (c.regs.length : Int) < i)) ∨
    ((idx = none ∨ idx = some (c.regs.length : Int)) ∧ ∃ r, c.regs.getLast? = some r ∧ Blank r.start) := by
  by_cases h : idx = none ∨ idx = some (c.regs.length : Int)
  · by_cases hl : ∃ r, c.regs.getLast? = some r ∧ Blank r.start
    · exact .inr (.inr ⟨h, hl⟩)
    · left
      refine ⟨_, _, _, getInfo_iff.mpr ⟨.new idx h ?_, rfl⟩⟩
      intro r hr
      have : ¬Blank r.start := fun hb => hl ⟨r, hr, hb⟩
      rw [blank_iff] at this
      exact truthy_text.mp (by simpa using this)
  · push Not at h
    cases idx with
    | none => exact absurd rfl h.1
    | some i =>
      by_cases hi : i < 0 ∨ (c.regs.length : Int) < i
      · exact .inr (.inl ⟨i, rfl, hi⟩)
      · push Not at hi
        left
        have hne : i ≠ c.regs.length := fun e => h.2 (by rw [e])
        obtain ⟨n, rfl⟩ := Int.eq_ofNat_of_zero_le hi.1
        have hlt : n < c.regs.length := by have := hi.2; omega
        cases n with
        | zero => exact ⟨_, _, _, getInfo_iff.mpr ⟨.first _ (List.getElem?_eq_getElem hlt), rfl⟩⟩
        | succ n =>
          exact ⟨_, _, _, getInfo_iff.mpr ⟨.later n _ _ (List.getElem?_eq_getElem (by omega))
            (List.getElem?_eq_getElem hlt), rfl⟩⟩

theorem getInfo_error {c c₁ : Cluster} {idx : Option Int} {e : Err} (h : c.getInfo idx = (c₁, .error e)) :
    c₁ = c := by
  rcases register_lookup_total c idx with ⟨c₂, ps, s, h'⟩ | ⟨i, rfl, hi⟩ | ⟨hi, r, hr, hb⟩
  · rw [h] at h'; cases h'
  · rw [bad_index hi] at h; cases h; rfl
  · rw [no_register_after_unused hi hr hb] at h; cases h; rfl

/-! ### C39 -/

/-- The cluster is as before, or has one more, empty register, which was asked for. -/
def Untouched (c : Cluster) (idx : Option Int) (c' : Cluster) : Prop :=
  c' = c ∨ (idx = none ∨ idx = some (c.regs.length : Int)) ∧ c' = { c with regs := c.regs ++ [{}] }

theorem Info.untouched {c c₁ : Cluster} {idx : Option Int} {ps : Option Str} {s : RegState}
    (h : Info c idx c₁ ps s) : Untouched c idx c₁ := by
  cases h with
  | new _ h _ => exact .inr ⟨h, rfl⟩
  | first => exact .inl rfl
  | later => exact .inl rfl

section
variable [PyEnv]

/-- C39: if verification raises, no register state and no used ID is lost or changed, wherever it
fails; at most an empty register was appended, if a new one was asked for. -/
theorem failed_untouched {ks : KeyStore} {key : Option Bytes} {c c' : Cluster} {idx : Option Int}
    {dep : Stream} {e : Err} (h : verifyDEP ks key c idx dep = (c', .error e)) : Untouched c idx c' := by
  unfold verifyDEP at h
  rcases hg : c.getInfo idx with ⟨c₁, e' | ⟨ps, s, used⟩⟩
  · rw [hg] at h
    simp only [Prod.mk.injEq] at h
    obtain ⟨rfl, -⟩ := h
    exact .inl (getInfo_error hg)
  · rw [hg] at h
    have hu := (getInfo_iff.mp hg).1.untouched
    simp only at h
    split at h
    · cases h; exact hu
    · split at h
      · cases h; exact hu
      · split at h
        · cases h; exact hu
        · cases h

/-- C39 for the parsed DEP, with and without pool. -/
theorem parsed_failed_untouched {wk : Workers} {nprocs : Int} {ks : KeyStore} {key : Option Bytes}
    {c c' : Cluster} {idx : Option Int} {dep : Stream} {e : Err}
    (h : verifyParsedDEP wk nprocs ks key c idx dep = (c', .error e)) : Untouched c idx c' := by
  unfold verifyParsedDEP at h
  rcases hg : c.getInfo idx with ⟨c₁, e' | ⟨ps, s, used⟩⟩
  · rw [hg] at h
    simp only [Prod.mk.injEq] at h
    obtain ⟨rfl, -⟩ := h
    exact .inl (getInfo_error hg)
  · rw [hg] at h
    have hu := (getInfo_iff.mp hg).1.untouched
    simp only at h
    split at h
    · cases h; exact hu
    · split at h
      · cases h; exact hu
      · cases h

/-! ### C40 -/

omit [PyEnv] in
/-- The used IDs only grew: no ID was forgotten, resp. the smallest one is still the same. -/
def Grown : Used → Used → Prop
  | .unique ids, .unique ids' => ids ⊆ ids'
  | .sorted lo _, .sorted lo' _ => ∀ m, lo = some m → lo' = some m
  | _, _ => False

omit [PyEnv] in
theorem Grown.refl (u : Used) : Grown u u := by cases u <;> simp [Grown]

omit [PyEnv] in
theorem Grown.trans {a b c : Used} (h : Grown a b) (h' : Grown b c) : Grown a c := by
  cases a <;> cases b <;> cases c <;> simp only [Grown] at h h' ⊢
  · exact h.trans h'
  · exact fun m hm => h' m (h m hm)

omit [PyEnv] in
theorem addAll_grown (u : Used) (h : List Entry) : Grown u (addAll u h) := by
  have := usedAfter_addAll u h
  cases u with
  | unique ids =>
    simp only [UsedAfter] at this
    rw [this]
    exact Finset.subset_union_left
  | sorted lo hi =>
    simp only [UsedAfter] at this
    rw [this]
    rintro m rfl
    rfl

theorem merge_grown {u w : Used} {us : List Used} (h : u.merge us = .ok w) : Grown u w := by
  induction us generalizing u with
  | nil => cases h; exact .refl _
  | cons o us ih =>
    simp only [Used.merge, Res.bind_eq_ok] at h
    obtain ⟨v, hv, h⟩ := h
    refine Grown.trans ?_ (ih h)
    unfold Used.mergeOne at hv
    split at hv
    · simp only [Res.bind_eq_ok, Except.ok.injEq] at hv
      obtain ⟨_, -, rfl⟩ := hv
      exact Finset.subset_union_left
    · simp only [Res.bind_eq_ok, Except.ok.injEq] at hv
      obtain ⟨_, -, rfl⟩ := hv
      rename_i lo _ _ _ _
      cases lo <;> simp [Used.add, Grown]
    · cases hv; exact .refl _
    · cases hv

theorem collect_grown {wk : Workers} {key : Option Bytes} {ps : Option Str} {used w : Used}
    {ts : List Task} {r : RegState} (h : collect wk key ps used ts = .ok (r, w)) : Grown used w := by
  simp only [collect, Res.bind_eq_ok, Except.ok.injEq, Prod.mk.injEq] at h
  obtain ⟨_, -, w', hw, _, -, -, rfl⟩ := h
  exact merge_grown hw

theorem runBatches_grown {wk : Workers} {ks : KeyStore} {key : Option Bytes} {ps : Option Str}
    {s r : RegState} {used w : Used} {pending : Option (List Task)} {err : Option Err}
    {bs : List (List Chunk)} (h : runBatches wk ks key ps s used pending err bs = .ok (r, w)) :
    Grown used w := by
  induction bs generalizing s used pending with
  | nil =>
    cases err with
    | some e => cases h
    | none =>
      cases pending with
      | none => cases h
      | some ts => exact collect_grown h
  | cons b bs ih =>
    simp only [runBatches, Res.bind_eq_ok] at h
    obtain ⟨pk, -, ⟨s1, u1⟩, hc, ts, -, h⟩ := h
    refine Grown.trans ?_ (ih h)
    cases pending with
    | none => cases hc; exact .refl _
    | some ts => exact collect_grown hc

theorem runDEP_grown {ks : KeyStore} {key : Option Bytes} {ps : Option Str} {one : Option Bool}
    {s r : RegState} {used w : Used} {gs : List DepGroup}
    (h : runDEP ks key ps one s used gs = .ok (r, w)) : Grown used w := by
  induction gs generalizing one s used with
  | nil => cases h; exact .refl _
  | cons g gs ih =>
    obtain ⟨recs, cert, chain⟩ := g
    cases cert with
    | none =>
      simp only [runDEP, Res.bind_eq_ok] at h
      obtain ⟨-, -, -, -, ⟨s1, u1⟩, h1, h2⟩ := h
      obtain ⟨es, -, rfl, -⟩ := group_used (c := ⟨.fromKeyStore ks, key, ps⟩) (.inr (by simp [Verifier.fromKeyStore])) h1
      exact (addAll_grown _ _).trans (ih h2)
    | some c =>
      simp only [runDEP, Res.bind_eq_ok] at h
      obtain ⟨-, -, -, -, ⟨s1, u1⟩, h1, h2⟩ := h
      obtain ⟨es, -, rfl, -⟩ := group_used (c := ⟨.fromCert c, key, ps⟩) (.inl (by simp [Verifier.fromCert])) h1
      exact (addAll_grown _ _).trans (ih h2)

/-- Only register `i`, the one asked for, was written; it was appended exactly if it is new. -/
def Touched (c : Cluster) (idx : Option Int) (c' : Cluster) : Prop :=
  ∃ i : Nat, (idx = some (i : Int) ∨ idx = none ∧ i = c.regs.length) ∧
    (∀ j, j ≠ i → c'.regs[j]? = c.regs[j]?) ∧
    (i < c.regs.length ∧ c'.regs.length = c.regs.length ∨
      i = c.regs.length ∧ c'.regs.length = c.regs.length + 1) ∧
    Grown c.used c'.used

omit [PyEnv] in
theorem Info.touched {c c₁ c' : Cluster} {idx : Option Int} {ps : Option Str} {s r : RegState} {used : Used}
    (h : Info c idx c₁ ps s) (hu : c₁.updateInfo idx r used = .ok c') (hgr : Grown c.used used) :
    Touched c idx c' := by
  obtain ⟨i, hi, hup, hidx⟩ := updateInfo_ok (r := r) (used := used) h
  rw [hu] at hup
  cases hup
  refine ⟨i, hidx, ?_, ?_, hgr⟩
  · intro j hj
    rw [List.getElem?_set_ne (Ne.symm hj)]
    cases h with
    | new _ h hl =>
      have : i = c.regs.length := by
        rcases hidx with rfl | ⟨-, h'⟩
        · rcases h with h | h
          · cases h
          · simpa using h
        · exact h'
      subst this
      rcases Nat.lt_or_gt_of_ne hj with hj | hj
      · rw [List.getElem?_append_left hj]
      · rw [List.getElem?_eq_none (by simp; omega), List.getElem?_eq_none (by omega)]
    | first => rfl
    | later => rfl
  · simp only [List.length_set]
    cases h with
    | new _ h hl =>
      right
      refine ⟨?_, by simp⟩
      rcases hidx with rfl | ⟨-, h'⟩
      · rcases h with h | h
        · cases h
        · simpa using h
      · exact h'
    | first => exact .inl ⟨(List.getElem?_eq_some_iff.mp hi).1, rfl⟩
    | later => exact .inl ⟨(List.getElem?_eq_some_iff.mp hi).1, rfl⟩

/-- C40: a successful verification writes its register only. -/
theorem ok_touched {ks : KeyStore} {key : Option Bytes} {c c' : Cluster} {idx : Option Int}
    {dep : Stream} (h : verifyDEP ks key c idx dep = (c', .ok ())) : Touched c idx c' := by
  unfold verifyDEP at h
  rcases hg : c.getInfo idx with ⟨c₁, e' | ⟨ps, s, used⟩⟩
  · rw [hg] at h; cases h
  · rw [hg] at h
    obtain ⟨hi, rfl⟩ := getInfo_iff.mp hg
    simp only at h
    split at h
    · cases h
    · rename_i s' u' hr
      split at h
      · cases h
      · split at h
        · cases h
        · rename_i c'' hu
          cases h
          exact hi.touched hu (runDEP_grown hr)

/-- C40 for the parsed DEP, with and without pool. -/
theorem parsed_ok_touched {wk : Workers} {nprocs : Int} {ks : KeyStore} {key : Option Bytes}
    {c c' : Cluster} {idx : Option Int} {dep : Stream}
    (h : verifyParsedDEP wk nprocs ks key c idx dep = (c', .ok ())) : Touched c idx c' := by
  unfold verifyParsedDEP at h
  rcases hg : c.getInfo idx with ⟨c₁, e' | ⟨ps, s, used⟩⟩
  · rw [hg] at h; cases h
  · rw [hg] at h
    obtain ⟨hi, rfl⟩ := getInfo_iff.mp hg
    simp only at h
    split at h
    · cases h
    · rename_i s' u' hr
      split at h
      · cases h
      · rename_i c'' hu
        cases h
        exact hi.touched hu (runBatches_grown hr)

end

namespace Demo

attribute [local instance] env

/-- A cluster whose second register is verified next. -/
def cluster : Cluster :=
  ⟨[⟨firstTexts.head?, firstTexts.getLast?, 5, false, none⟩], .unique {c!"R1", c!"R2"}⟩

def secondDep : Stream := ⟨[[⟨secondTexts.map shrinkReceipt, none, []⟩]], none⟩

set_option maxRecDepth 100000 in
/-- It is accepted with index `None` and with index 1, ... -/
theorem cluster_ok : ∀ idx ∈ [none, some 1], verifyDEP closedStore (some aes) cluster idx secondDep =
    (⟨cluster.regs ++ [⟨secondTexts.head?, secondTexts.getLast?, 3, false, none⟩],
      .unique {c!"R1", c!"R2", c!"R11", c!"R12"}⟩, .ok ()) := by
  intro idx hidx
  simp only [List.mem_cons, List.not_mem_nil, or_false] at hidx
  rcases hidx with rfl | rfl <;> exact eq_of_isDone (by decide +kernel)

/-- The register's state is stored. -/
example : cluster.updateInfo (some 0) {} cluster.used = .ok ⟨[{}], cluster.used⟩ :=
  register_update_iff.mpr ⟨[], _, [], rfl, .inl rfl, rfl⟩

/-- ... so it touched only that register. -/
example : Touched cluster none ⟨cluster.regs ++ [⟨secondTexts.head?, secondTexts.getLast?, 3, false, none⟩],
    .unique {c!"R1", c!"R2", c!"R11", c!"R12"}⟩ := ok_touched (cluster_ok none (by simp))

set_option maxRecDepth 100000 in
/-- A failure: the receipts are not chained to the first register.  The empty register stays, so the
next attempt with `None` is refused, while the one with the index works. -/
theorem failed_retry :
    let c₁ := (verifyDEP closedStore (some aes) cluster none ⟨[[⟨firstTexts.map shrinkReceipt, none, []⟩]], none⟩).1
    c₁ = { cluster with regs := cluster.regs ++ [{}] } ∧
    (verifyDEP closedStore (some aes) c₁ none secondDep).2 = .error .noStartReceiptForLastCashRegister ∧
    isOk (verifyDEP closedStore (some aes) c₁ (some 1) secondDep).2 () = true := by
  decide +kernel

end Demo

end RKSV
