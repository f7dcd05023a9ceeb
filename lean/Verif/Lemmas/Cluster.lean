import Verif.Spec.Cluster
/-
Lemmas about cluster states.
-/
namespace RKSV

theorem truthy_text {o : Option Str} : truthy o = true ↔ ∃ t, o = some t ∧ t ≠ [] := by
  rcases o with _ | _ | ⟨c, t⟩ <;> simp [truthy]

theorem addNew_iff {c d : Cluster} : c.addNew = .ok d ↔
    (∀ r, c.regs.getLast? = some r → ∃ t, r.start = some t ∧ t ≠ []) ∧
      d = { c with regs := c.regs ++ [{}] } := by
  simp only [Cluster.addNew, Res.bind_eq_ok, ensure_eq_ok, Except.ok.injEq, truthy_text]
  constructor
  · rintro ⟨_, h, rfl⟩; exact ⟨h, rfl⟩
  · rintro ⟨h, rfl⟩; exact ⟨(), h, rfl⟩

theorem look_iff {c : Cluster} {i : Int} {x : Option Str × RegState × Used} :
    c.look i = .ok x ↔ 0 ≤ i ∧ ∃ r, c.regs[i.toNat]? = some r ∧
      x = (if 0 < i then (c.regs[i.toNat - 1]?).bind (·.start) else none, r, c.used) := by
  simp only [Cluster.look, Res.bind_eq_ok, ensure_eq_ok, orErr_eq_ok, Except.ok.injEq]
  constructor
  · rintro ⟨_, h, r, hr, rfl⟩
    exact ⟨by omega, r, hr, rfl⟩
  · rintro ⟨h, r, hr, rfl⟩
    have hlt := (List.getElem?_eq_some_iff.mp hr).1
    exact ⟨(), by omega, r, hr, rfl⟩

theorem getInfo_iff {c c₁ : Cluster} {idx : Option Int} {ps : Option Str} {s : RegState} {used : Used} :
    c.getInfo idx = (c₁, .ok (ps, s, used)) ↔ Info c idx c₁ ps s ∧ used = c.used := by
  unfold Cluster.getInfo
  by_cases h : idx = none ∨ idx = some (c.regs.length : Int)
  · rw [if_pos h]
    have aux : ∀ d, c.addNew = .ok d → d.look c.regs.length =
        .ok (c.regs.getLast?.bind (·.start), {}, c.used) := by
      intro d hd
      obtain ⟨-, rfl⟩ := addNew_iff.mp hd
      rw [look_iff]
      refine ⟨by omega, {}, by simp, ?_⟩
      rcases List.eq_nil_or_concat c.regs with hn | ⟨l, z, hn⟩
      · simp [hn]
      · simp [hn]
    constructor
    · intro hg
      cases ha : c.addNew with
      | error e => rw [ha] at hg; cases hg
      | ok d =>
        rw [ha] at hg
        simp only [Prod.mk.injEq, aux d ha, Except.ok.injEq] at hg
        obtain ⟨rfl, rfl, rfl, rfl⟩ := hg
        obtain ⟨h1, rfl⟩ := addNew_iff.mp ha
        exact ⟨.new idx h h1, rfl⟩
    · rintro ⟨hi, rfl⟩
      cases hi with
      | new _ _ hl =>
        have ha := addNew_iff.mpr ⟨hl, rfl⟩
        rw [ha]
        simp only [aux _ ha]
      | first _ hr =>
        rcases h with h | h
        · cases h
        · simp only [Option.some.injEq] at h
          rw [List.getElem?_eq_none (by omega)] at hr
          cases hr
      | later i p _ hp hr =>
        rcases h with h | h
        · cases h
        · simp only [Option.some.injEq] at h
          rw [List.getElem?_eq_none (by omega)] at hr
          cases hr
  · rw [if_neg h]
    push Not at h
    cases idx with
    | none => exact absurd rfl h.1
    | some i =>
      simp only [Prod.mk.injEq, Option.getD_some, look_iff]
      constructor
      · rintro ⟨rfl, hi, r, hr, rfl, rfl, rfl⟩
        refine ⟨?_, rfl⟩
        obtain ⟨n, rfl⟩ := Int.eq_ofNat_of_zero_le hi
        simp only [Int.toNat_natCast] at hr ⊢
        cases n with
        | zero => exact .first s hr
        | succ n =>
          have hlt := (List.getElem?_eq_some_iff.mp hr).1
          have hp : c.regs[n]? = some (c.regs[n]'(by omega)) := List.getElem?_eq_getElem _
          rw [if_pos (by omega), Nat.add_sub_cancel, hp]
          exact .later n _ s hp hr
      · rintro ⟨hi, rfl⟩
        cases hi with
        | new _ h' _ => rcases h' with h' | h'; cases h'; exact absurd h' h.2
        | first _ hr => exact ⟨rfl, by omega, s, hr, by simp⟩
        | later n p _ hp hr =>
          refine ⟨rfl, by omega, s, ?_, ?_⟩
          · simpa using hr
          · rw [if_pos (by omega)]
            simp [hp]

/-- Registers handed out are registers of the cluster or new ones. -/
theorem Info.reg {c c₁ : Cluster} {idx : Option Int} {ps : Option Str} {s : RegState}
    (h : Info c idx c₁ ps s) : s ∈ c.regs ∨ s = {} := by
  cases h with
  | new => exact .inr rfl
  | first _ h => exact .inl (List.mem_of_getElem? h)
  | later _ _ _ _ h => exact .inl (List.mem_of_getElem? h)

theorem updateInfo_ok {c c₁ : Cluster} {idx : Option Int} {ps : Option Str} {s r : RegState} {used : Used}
    (h : Info c idx c₁ ps s) : ∃ i, c₁.regs[i]? = some s ∧
      c₁.updateInfo idx r used = .ok ⟨c₁.regs.set i r, used⟩ ∧
      (idx = some (i : Int) ∨ idx = none ∧ i = c.regs.length) := by
  cases h with
  | new _ h hl =>
    refine ⟨c.regs.length, by simp, ?_, ?_⟩
    · rcases h with rfl | rfl
      · simp [Cluster.updateInfo, Res.ok_bind]
      · simp [Cluster.updateInfo, Res.ok_bind, ensure]
    · rcases h with rfl | rfl
      · exact .inr ⟨rfl, rfl⟩
      · exact .inl rfl
  | first _ h =>
    refine ⟨0, h, ?_, .inl rfl⟩
    have := (List.getElem?_eq_some_iff.mp h).1
    have : ¬((0 : Int) < 0 ∨ (c.regs.length : Int) ≤ 0) := by omega
    simp only [Cluster.updateInfo, ensure_pos this, Res.ok_bind]
    rfl
  | later i _ _ _ h =>
    refine ⟨i + 1, h, ?_, .inl rfl⟩
    have := (List.getElem?_eq_some_iff.mp h).1
    have : ¬(((i + 1 : Nat) : Int) < 0 ∨ (c.regs.length : Int) ≤ ((i + 1 : Nat) : Int)) := by omega
    simp only [Cluster.updateInfo, ensure_pos this, Res.ok_bind]
    rfl

end RKSV
