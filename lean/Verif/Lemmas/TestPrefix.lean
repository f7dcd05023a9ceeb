import Verif.Spec.TestVerify
import Verif.Props.TestLinks
import Verif.Lemmas.Falsify
/-
A test specification that ends where a DEP ends gives the first DEPs.
-/
namespace RKSV

section
variable [PyEnv]

/-! ### Registers -/

omit [PyEnv] in
/-- The registers known and used after the instructions. -/
theorem registers_append (n c : Nat) (l : List Instr) : ∃ n' c', (∀ l', registersOf n c (l ++ l') = registersOf n c l ++ registersOf n' c' l') ∧
    (∀ l', depRegistersOf n c (l ++ l') = depRegistersOf n c l ++ depRegistersOf n' c' l') ∧
    (c :: registersOf n c l).getLast? = some c' ∧ (c :: depRegistersOf n c l).getLast? = some c' := by
  induction l generalizing n c with
  | nil => exact ⟨n, c, fun _ => rfl, fun _ => rfl, rfl, rfl⟩
  | cons i l ih =>
    by_cases h1 : i.newDep = c!"NO_NEW_DEP"
    · obtain ⟨n', c', a, b, d, e⟩ := ih n c
      refine ⟨n', c', fun l' => ?_, fun l' => ?_, ?_, ?_⟩
      · simp only [List.cons_append, registersOf, if_pos h1, a]
      · simp only [List.cons_append, depRegistersOf, if_pos h1, b]
      · simp only [registersOf, if_pos h1]
        rw [List.getLast?_cons_cons]
        exact d
      · simp only [depRegistersOf, if_pos h1]
        exact e
    · by_cases h2 : i.newDep = c!"NEW_CLUSTER_DEP"
      · obtain ⟨n', c', a, b, d, e⟩ := ih (n + 1) n
        refine ⟨n', c', fun l' => ?_, fun l' => ?_, ?_, ?_⟩
        · simp only [List.cons_append, registersOf, if_neg h1, if_pos h2, a]
        · simp only [List.cons_append, depRegistersOf, if_neg h1, if_pos h2, b]
        · simp only [registersOf, if_neg h1, if_pos h2]
          rw [List.getLast?_cons_cons]
          exact d
        · simp only [depRegistersOf, if_neg h1, if_pos h2]
          rw [List.getLast?_cons_cons]
          exact e
      · obtain ⟨n', c', a, b, d, e⟩ := ih n (i.contReg.getD c)
        refine ⟨n', c', fun l' => ?_, fun l' => ?_, ?_, ?_⟩
        · simp only [List.cons_append, registersOf, if_neg h1, if_neg h2, a]
        · simp only [List.cons_append, depRegistersOf, if_neg h1, if_neg h2, b]
        · simp only [registersOf, if_neg h1, if_neg h2]
          rw [List.getLast?_cons_cons]
          exact d
        · simp only [depRegistersOf, if_neg h1, if_neg h2]
          rw [List.getLast?_cons_cons]
          exact e

omit [PyEnv] in
theorem registers_prefix {l : List Instr} (hl : l ≠ []) (l' : List Instr) :
    (∃ t, registers (l ++ l') = registers l ++ t) ∧ (∃ t, depRegisters (l ++ l') = depRegisters l ++ t) ∧
      (registers l).getLast? = (depRegisters l).getLast? := by
  obtain ⟨i, l, rfl⟩ := List.exists_cons_of_ne_nil hl
  obtain ⟨n', c', a, b, d, e⟩ := registers_append 1 0 l
  refine ⟨⟨registersOf n' c' l', ?_⟩, ⟨depRegistersOf n' c' l', ?_⟩, ?_⟩
  · simp only [List.cons_append, registers, a]
  · simp only [List.cons_append, depRegisters, b]
  · simp only [registers, depRegisters, d, e]

omit [PyEnv] in
/-- There is a place for every number of DEPs. -/
theorem split_at (n c : Nat) (l : List Instr) (k : Nat) (hk : k ≤ (depRegistersOf n c l).length) : ∃ l₁ l₂, l = l₁ ++ l₂ ∧
    (∀ j, l₂.head? = some j → j.newDep ≠ c!"NO_NEW_DEP") ∧ (depRegistersOf n c l₁).length = k := by
  induction l generalizing n c k with
  | nil => exact ⟨[], [], rfl, by simp, by simpa [depRegistersOf, eq_comm] using hk⟩
  | cons i l ih =>
    by_cases h1 : i.newDep = c!"NO_NEW_DEP"
    · simp only [depRegistersOf, if_pos h1] at hk
      obtain ⟨l₁, l₂, rfl, h2, h3⟩ := ih n c k hk
      exact ⟨i :: l₁, l₂, rfl, h2, by simpa only [depRegistersOf, if_pos h1] using h3⟩
    · cases k with
      | zero => exact ⟨[], i :: l, rfl, by simpa using h1, rfl⟩
      | succ k =>
        by_cases h2 : i.newDep = c!"NEW_CLUSTER_DEP"
        · simp only [depRegistersOf, if_neg h1, if_pos h2, List.length_cons] at hk
          obtain ⟨l₁, l₂, rfl, h3, h4⟩ := ih (n + 1) n k (by omega)
          exact ⟨i :: l₁, l₂, rfl, h3, by simp only [depRegistersOf, if_neg h1, if_pos h2, List.length_cons, h4]⟩
        · simp only [depRegistersOf, if_neg h1, if_neg h2, List.length_cons] at hk
          obtain ⟨l₁, l₂, rfl, h3, h4⟩ := ih n (i.contReg.getD c) k (by omega)
          exact ⟨i :: l₁, l₂, rfl, h3, by simp only [depRegistersOf, if_neg h1, if_neg h2, List.length_cons, h4]⟩

omit [PyEnv] in
theorem split_deps {l : List Instr} {k : Nat} (hk : k + 1 ≤ (depRegisters l).length) : ∃ l₁ l₂, l = l₁ ++ l₂ ∧ l₁ ≠ [] ∧
    (∀ j, l₂.head? = some j → j.newDep ≠ c!"NO_NEW_DEP") ∧ (depRegisters l₁).length = k + 1 := by
  cases l with
  | nil => simp [depRegisters] at hk
  | cons i l =>
    simp only [depRegisters, List.length_cons] at hk
    obtain ⟨l₁, l₂, rfl, h1, h2⟩ := split_at 1 0 l k (by omega)
    exact ⟨i :: l₁, l₂, rfl, by simp, h1, by simp only [depRegisters, List.length_cons, h2]⟩

omit [PyEnv] in
theorem segments_last (cur l : List Instr) (hc : cur ≠ []) :
    (segmentsFrom cur l).getLast?.bind (·.getLast?) = (cur ++ l).getLast? := by
  induction l generalizing cur with
  | nil => simp [segmentsFrom]
  | cons i l ih =>
    simp only [segmentsFrom]
    split
    · rw [ih _ (by simp)]
      simp
    · have h2 := ih [i] (by simp)
      have h3 : segmentsFrom [i] l ≠ [] := by
        intro e
        rw [e] at h2
        exact absurd (List.getLast?_eq_none_iff.mp h2.symm) (by simp)
      obtain ⟨a, t, e⟩ := List.exists_cons_of_ne_nil h3
      rw [e, List.getLast?_cons_cons, ← e, h2, show cur ++ i :: l = cur ++ ([i] ++ l) from rfl,
        List.getLast?_append_of_ne_nil cur (l₂ := [i] ++ l) (by simp)]

omit [PyEnv] in
/-- The last DEP ends with the last instruction. -/
theorem depInstrs_last {l : List Instr} {seg : List Instr} (h : (depInstrs l).getLast? = some seg) :
    seg.getLast? = l.getLast? := by
  cases l with
  | nil => simp [depInstrs] at h
  | cons i l =>
    have := segments_last [i] l (by simp)
    rw [show segmentsFrom [i] l = depInstrs (i :: l) from rfl, h] at this
    simpa using this

/-! ### The loop -/

theorem steps_append (x : TestCtx) (s : TestState) (l l' : List Instr) :
    x.steps s (l ++ l') = (do let s ← x.steps s l; x.steps s l') := by
  induction l generalizing s with
  | nil => rfl
  | cons i l ih =>
    simp only [List.cons_append, TestCtx.steps, ih]
    cases x.step s i <;> rfl

theorem newRegister_frame {x : TestCtx} {i : Instr} {s s' : TestState} (h : x.newRegister i s = .ok s') :
    ∃ cur fresh lastStart, s' = { s with cur, fresh, lastStart } := by
  unfold TestCtx.newRegister at h
  split at h
  · rw [Res.bind_eq_ok] at h
    obtain ⟨r, -, h⟩ := h
    exact ⟨_, _, _, (Except.ok.inj h).symm⟩
  · exact ⟨s.cur, s.fresh, s.lastStart, (Except.ok.inj h).symm⟩

theorem addReceipt_deps {x : TestCtx} {i : Instr} {o : Order} {s s' : TestState} (h : x.addReceipt i o s = .ok s') :
    s'.deps = s.deps ∧ s'.prevSig = some i.device := by
  unfold TestCtx.addReceipt at h
  dsimp only at h
  split at h
  · split at h
    · cases h
    · split at h
      · cases h
      · cases h
        exact ⟨rfl, rfl⟩
  · split at h
    · cases h
    · cases h
      exact ⟨rfl, rfl⟩

theorem endDep_new {x : TestCtx} {i : Instr} (hi : i.newDep ≠ kNoNew) {s s' : TestState} (h : x.endDep i s = .ok s') :
    s'.deps = s.deps ++ [exportDEP s.groups s.addTurnover] := by
  unfold TestCtx.endDep at h
  rw [if_neg hi] at h
  simp only [Res.bind_eq_ok] at h
  obtain ⟨l, -, h⟩ := h
  split at h
  · cases h
    rfl
  · split at h
    · simp only [Res.bind_eq_ok, ensure_eq_ok, orErr_eq_ok, Except.ok.injEq] at h
      obtain ⟨-, -, d, -, rfl⟩ := h
      rfl
    · cases h
      rfl

theorem step_deps {x : TestCtx} {i : Instr} {s s' : TestState} (h : x.step s i = .ok s') :
    (∃ t, s'.deps = s.deps ++ t) ∧ s'.prevSig = some i.device := by
  unfold TestCtx.step at h
  simp only [Res.bind_eq_ok] at h
  obtain ⟨o, -, s1, h1, s2, h2, s3, h3, h4⟩ := h
  obtain ⟨e1, e2⟩ := addReceipt_deps h4
  refine ⟨?_, e2⟩
  obtain ⟨cur, fresh, lastStart, rfl⟩ := newRegister_frame h1
  obtain ⟨groups, recs, rfl⟩ := endGroup_frame h2
  rw [e1]
  by_cases hi : i.newDep = kNoNew
  · unfold TestCtx.endDep at h3
    rw [if_pos hi] at h3
    cases h3
    exact ⟨[], by simp⟩
  · have := endDep_new hi h3
    exact ⟨_, this⟩

theorem steps_deps {x : TestCtx} {l : List Instr} {s s' : TestState} (h : x.steps s l = .ok s') : ∃ t, s'.deps = s.deps ++ t := by
  induction l generalizing s with
  | nil =>
    cases h
    exact ⟨[], by simp⟩
  | cons i l ih =>
    simp only [TestCtx.steps, Res.bind_eq_ok] at h
    obtain ⟨s1, h1, h2⟩ := h
    obtain ⟨⟨t, e⟩, -⟩ := step_deps h1
    obtain ⟨t', e'⟩ := ih h2
    exact ⟨t ++ t', by rw [e', e, List.append_assoc]⟩

theorem steps_prevSig {x : TestCtx} {l : List Instr} (hl : l ≠ []) {s s' : TestState} (h : x.steps s l = .ok s') :
    ∃ k, s'.prevSig = some k := by
  induction l generalizing s with
  | nil => exact absurd rfl hl
  | cons i l ih =>
    simp only [TestCtx.steps, Res.bind_eq_ok] at h
    obtain ⟨s1, h1, h2⟩ := h
    cases l with
    | nil =>
      cases h2
      exact ⟨_, (step_deps h1).2⟩
    | cons j l => exact ih (by simp) h2

/-- The DEP that ends with the next instruction is the one that would be written at the end. -/
theorem step_finish {x : TestCtx} {i : Instr} (hi : i.newDep ≠ kNoNew) {s s' : TestState} {k : Nat} (hk : s.prevSig = some k)
    (h : x.step s i = .ok s') : x.finish s = .ok s'.deps := by
  unfold TestCtx.step at h
  simp only [Res.bind_eq_ok] at h
  obtain ⟨o, -, s1, h1, s2, h2, s3, h3, h4⟩ := h
  obtain ⟨e1, -⟩ := addReceipt_deps h4
  obtain ⟨cur, fresh, lastStart, rfl⟩ := newRegister_frame h1
  rw [e1, endDep_new hi h3]
  unfold TestCtx.finish
  unfold TestCtx.endGroup at h2
  cases hg : x.spec.groups with
  | false =>
    simp only [hg] at h2
    rw [if_pos hi] at h2
    cases h2
    rfl
  | true =>
    simp only [hg, hk] at h2
    rw [if_pos (.inl hi)] at h2
    simp only [Res.bind_eq_ok] at h2
    obtain ⟨g, hg', h2⟩ := h2
    cases h2
    have : x.certGroup s k = .ok g := hg'
    simp only [if_true, hk, orErr, Res.ok_bind, this]
    rfl

/-! ### The whole function -/

theorem putDevices_instrs (spec : TestSpec) (l : List Instr) (closed : Bool) (ks : KeyStore) (i : Nat) (keys : List TestKey) :
    TestSpec.putDevices { spec with instrs := l } closed ks i keys = spec.putDevices closed ks i keys := by
  induction keys generalizing ks i with
  | nil => rfl
  | cons k keys ih =>
    simp only [TestSpec.putDevices, ih]
    rfl

theorem steps_instrs (spec : TestSpec) (l : List Instr) (closed : Bool) (keys : List TestKey) (key : Bytes) (size : Nat)
    (s : TestState) (l' : List Instr) :
    TestCtx.steps ⟨{ spec with instrs := l }, closed, keys, key, size⟩ s l' = TestCtx.steps ⟨spec, closed, keys, key, size⟩ s l' := by
  induction l' generalizing s with
  | nil => rfl
  | cons i l' ih =>
    simp only [TestCtx.steps, ih]
    rfl

/-- The first instructions, up to the end of a DEP, give the first DEPs. -/
theorem runTest_prefix {spec : TestSpec} {keys : List TestKey} {closed : Bool} {tcSize : Option Nat} {deps : List Json} {store : Json}
    (h : runTest spec keys closed tcSize = .ok (deps, store)) {l l' : List Instr} (hl : spec.instrs = l ++ l') (hne : l ≠ [])
    (hn : ∀ j, l'.head? = some j → j.newDep ≠ c!"NO_NEW_DEP") :
    ∃ deps₁ deps₂, runTest { spec with instrs := l } keys closed tcSize = .ok (deps₁, store) ∧ deps = deps₁ ++ deps₂ := by
  have h0 := h
  unfold runTest at h ⊢
  simp only [Res.bind_eq_ok, ensure_eq_ok, Except.ok.injEq, Prod.mk.injEq] at h
  obtain ⟨-, hlen, key, hkey, reg, hreg, ks, hks, s, hs, deps', hd, rfl, rfl⟩ := h
  have hreg' : CashRegister.make spec.cashBoxId none 0 key (TestSpec.counterSize { spec with instrs := l } tcSize) = .ok reg := hreg
  dsimp only
  rw [ensure_pos (show keys.length = spec.numDevices from hlen), Res.ok_bind, hkey, Res.ok_bind, hreg', Res.ok_bind, putDevices_instrs, hks, Res.ok_bind, steps_instrs]
  rw [hl, steps_append, Res.bind_eq_ok] at hs
  obtain ⟨s1, h1, h2⟩ := hs
  have hc : TestSpec.counterSize { spec with instrs := l } tcSize = spec.counterSize tcSize := rfl
  rw [hc, h1, Res.ok_bind]
  have hfin : ∀ s, TestCtx.finish ⟨{ spec with instrs := l }, closed, keys, key, spec.counterSize tcSize⟩ s =
      TestCtx.finish ⟨spec, closed, keys, key, spec.counterSize tcSize⟩ s := fun _ => rfl
  rw [hfin]
  cases l' with
  | nil =>
    cases h2
    exact ⟨deps', [], by rw [hd]; rfl, by simp⟩
  | cons j l' =>
    simp only [TestCtx.steps, Res.bind_eq_ok] at h2
    obtain ⟨s2, h3, h4⟩ := h2
    obtain ⟨k, hk⟩ := steps_prevSig hne h1
    obtain ⟨t, ht⟩ := steps_deps h4
    obtain ⟨dep, hdep⟩ : ∃ dep, deps' = s.deps ++ [dep] := by
      unfold TestCtx.finish at hd
      split at hd
      · simp only [Res.bind_eq_ok, Except.ok.injEq] at hd
        obtain ⟨_, _, g, -, rfl⟩ := hd
        exact ⟨_, rfl⟩
      · exact ⟨_, (Except.ok.inj hd).symm⟩
    refine ⟨s2.deps, t ++ [dep], ?_, ?_⟩
    · rw [step_finish (hn j rfl) hk h3]
      rfl
    · rw [hdep, ht, List.append_assoc]

/-! ### The rules -/

omit [PyEnv] in
theorem forall₂_take {α β : Type} {R : α → β → Prop} {l l' : List α} {m : List β} (h : List.Forall₂ R (l ++ l') m) :
    List.Forall₂ R l (m.take l.length) := by
  induction l generalizing m with
  | nil => simp
  | cons a l ih =>
    cases h with
    | cons h1 h2 => exact .cons h1 (ih h2)

theorem ordersFor_prefix {l l' : List Instr} (hl : l ≠ []) (os : List Order) (i : Nat) :
    ordersFor l os i = ordersFor l (os.take l.length) i ∧ ∃ t, ordersFor (l ++ l') os i = ordersFor l os i ++ t := by
  have hlen : (registers l).length = l.length := by
    obtain ⟨a, l, rfl⟩ := List.exists_cons_of_ne_nil hl
    have : ∀ (l : List Instr) n c, (registersOf n c l).length = l.length := by
      intro l
      induction l with
      | nil => intros; rfl
      | cons i l ih =>
        intro n c
        simp only [registersOf]
        split
        · simp [ih]
        · split <;> simp [ih]
    simp [registers, this]
  obtain ⟨⟨t, e⟩, -, -⟩ := registers_prefix hl l'
  constructor
  · unfold ordersFor
    rw [← hlen]
    congr 2
    generalize registers l = rs
    clear e hlen
    induction rs generalizing os with
    | nil => simp
    | cons r rs ih =>
      cases os with
      | nil => simp
      | cons o os =>
        simp only [List.zip_cons_cons, List.length_cons, List.take_succ_cons]
        rw [← ih]
  · unfold ordersFor
    rw [e]
    generalize registers l = rs
    clear e hlen
    induction rs generalizing os with
    | nil => exact ⟨_, rfl⟩
    | cons r rs ih =>
      cases os with
      | nil => exact ⟨[], by simp⟩
      | cons o os =>
        obtain ⟨t', h⟩ := ih os
        refine ⟨t', ?_⟩
        simp only [List.cons_append, List.zip_cons_cons, List.filter_cons]
        split <;> simp [h]

theorem FreshIds.of_append {used : Used} {a b : List Str} (h : FreshIds used (a ++ b)) : FreshIds used a := by
  cases used with
  | unique old => exact ⟨(List.nodup_append.mp h.1).1, fun i hi => h.2 i (by simp [hi])⟩
  | sorted lo hi => exact fun pre x post e => h pre x (post ++ b) (by rw [e]; simp)

/-- The first instructions follow the rules. -/
theorem TestAbides.prefix {backend : Used} {spec : TestSpec} {closed : Bool} {keys : List TestKey} {os : List Order}
    (h : TestAbides backend spec closed keys os) {l l' : List Instr} (hl : spec.instrs = l ++ l') (hne : l ≠ []) :
    TestAbides backend { spec with instrs := l } closed keys (os.take l.length) where
  nonempty := hne
  orders := by
    have := h.orders
    rw [hl] at this
    exact (forall₂_take this).imp fun i o ho => ⟨ho.algorithm, ho.receiptId, ho.date, ho.sumA, ho.sumB, ho.sumC, ho.sumD,
      ho.sumE, ho.dummy, ho.reversal, ho.rand, ho.device⟩
  rules := fun i => by
    obtain ⟨e, t, e'⟩ := ordersFor_prefix (l' := l') hne os i
    have := h.rules i
    rw [hl, e', e] at this
    exact this.of_append
  cluster := fun i a b ha hb => by
    obtain ⟨e1, t1, e1'⟩ := ordersFor_prefix (l' := l') hne os i
    obtain ⟨e2, t2, e2'⟩ := ordersFor_prefix (l' := l') hne os (i + 1)
    have ha' : (ordersFor l os i).head? = some a := by rw [e1]; exact ha
    have hb' : (ordersFor l os (i + 1)).head? = some b := by rw [e2]; exact hb
    exact h.cluster i a b (by rw [hl, e1', List.head?_append, ha']; rfl) (by rw [hl, e2', List.head?_append, hb']; rfl)
  ids := by
    have := h.ids
    rw [hl, List.map_append] at this
    exact this.of_append

omit [PyEnv] in
theorem StartedInTurn.prefix {l l' : List Nat} (h : StartedInTurn (l ++ l')) : StartedInTurn l := by
  intro k r hk hq
  have hlt := (List.getElem?_eq_some_iff.mp hk).1
  have e : ∀ q, q ≤ k + 1 → (l ++ l')[q]? = l[q]? := fun q hq => List.getElem?_append_left (by omega)
  have := h k r (by rw [e _ (le_refl _)]; exact hk) (fun q h' => by rw [e q (by omega)]; exact hq q h')
  rwa [e k (by omega)] at this

theorem KeysFit.instrs {spec : TestSpec} {closed : Bool} {keys : List TestKey} (h : KeysFit spec closed keys) (l : List Instr) :
    KeysFit { spec with instrs := l } closed keys :=
  ⟨h.own, h.plain, h.zda, h.serials, h.chain, h.content, h.direct, h.decimal⟩

end

end RKSV
