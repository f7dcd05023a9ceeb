import Verif.Lemmas.TestContents
import Verif.Props.TestLinks
/-
The main loop of `runTest`, receipt by receipt.
-/
namespace RKSV

section
variable [PyEnv]

/-- The extra elements of the DEP that is being written. -/
def ExtraFree (d : Dict Json) : Prop := Dict.Ok d ∧ Dict.get? d kGroups = none

theorem ExtraFree.turnover {s : FullState} (h : ExtraFree s.extra) : ExtraFree s.addTurnover := by
  unfold FullState.addTurnover
  split
  · split
    · refine ⟨h.1.set _ _, ?_⟩
      rw [Dict.get?_set, if_neg (by decide)]
      exact h.2
    · exact h
  · exact h

theorem depHolds_export {x : TestCtx} {parts : List (List Made)} {cur : List Made} {gs : List (SGroup (Mangled × Str))}
    (h1 : cur = parts.flatten) (h2 : List.Forall₂ (GroupIs x) parts gs) (h3 : x.spec.groups = false → parts = [cur])
    (h4 : x.spec.groups = true → (∀ p ∈ parts, p ≠ []) ∧
        parts.IsChain fun p q => ∀ a ∈ p, ∀ b ∈ q, a.instr.device ≠ b.instr.device) {extra : Dict Json} (he : ExtraFree extra) :
    DepHolds x.spec x.keys cur (exportMangled gs extra) := by
  refine ⟨_, gs.map exportMangledGroup, parts, rfl, ?_, ?_, h1.symm, h3, h4⟩
  · rw [get?_update _ he.1, show c!"Belege-Gruppe" = kGroups from rfl, he.2]
    rfl
  · rw [List.forall₂_map_right_iff]
    exact h2.imp fun _ _ h => h.holds

/-- What holds after an instruction: `made` are the receipts so far, `parts` the ones for the finished DEPs and `cur` those
for the one that is being written. -/
structure ContentInv (x : TestCtx) (s : FullState) (made : List Made) (parts : List (List Made)) (cur : List Made) (d : Nat) :
    Prop where
  reg : RegInv x s made
  started : truthy s.lastStart = true
  honest : ∀ a ∈ made, a.instr.override.jwsOverride ≠ some []
  right : ∀ pre a post, made = pre ++ a :: post → a.Right x.spec x.closed x.keys x.key x.size pre
  regsEq : ∀ rest, registers (made.map (·.instr) ++ rest) = made.map (·.reg) ++ registersOf s.regs.length s.register rest
  partsEq : ∀ rest, depParts (made ++ rest) = parts ++ partsFrom cur rest
  deps : List.Forall₂ (DepHolds x.spec x.keys) parts s.deps
  written : Written x s cur d
  sig : s.prevSig = some d
  extra : ExtraFree s.extra

theorem rights_snoc {x : TestCtx} {made : List Made}
    (h : ∀ pre a post, made = pre ++ a :: post → a.Right x.spec x.closed x.keys x.key x.size pre) {a : Made}
    (ha : a.Right x.spec x.closed x.keys x.key x.size made) :
    ∀ pre b post, made ++ [a] = pre ++ b :: post → b.Right x.spec x.closed x.keys x.key x.size pre := by
  intro pre b post e
  rcases List.eq_nil_or_concat post with rfl | ⟨post', c, rfl⟩
  · obtain ⟨e1, e2⟩ := List.append_inj' e rfl
    cases e2
    rw [← e1]
    exact ha
  · have e' : made ++ [a] = (pre ++ b :: post') ++ [c] := by rw [e]; simp
    exact h pre b post' (List.append_inj' e' rfl).1

/-- The receipt after a DEP or a group was ended. -/
theorem ContentInv.addReceipt {x : TestCtx} {s s' : FullState} {made : List Made} {parts : List (List Made)} {cur : List Made}
    {i : Instr} (hreg : RegInv x s made) (honest : ∀ a ∈ made, a.instr.override.jwsOverride ≠ some [])
    (right : ∀ pre a post, made = pre ++ a :: post → a.Right x.spec x.closed x.keys x.key x.size pre)
    (deps : List.Forall₂ (DepHolds x.spec x.keys) parts s.deps) (writing : Writing x s cur i.device)
    (extra : ExtraFree s.extra) (hji : i.override.jwsOverride ≠ some [])
    (regsEq : ∀ rest, registers (made.map (·.instr) ++ i :: rest) =
      made.map (·.reg) ++ s.register :: registersOf s.regs.length s.register rest)
    (partsEq : ∀ (a : Made) rest, a.instr = i → depParts (made ++ a :: rest) = parts ++ partsFrom (cur ++ [a]) rest)
    {o : Order} (ho : x.order i = .ok o) (h : x.addReceiptFull i o s = .ok s') :
    ∃ a : Made, a.instr = i ∧ ContentInv x s' (made ++ [a]) parts (cur ++ [a]) i.device := by
  obtain ⟨a, a1, a2, a3, a4, a5, a6, a7, ⟨p, p1, p2⟩, a8, a9, a10, a11⟩ := hreg.receipt honest hji ho h
  refine ⟨a, a1, a4, a5, ?_, rights_snoc right a3, ?_, ?_, by rw [a9]; exact deps, ?_, a11, by rw [a10]; exact extra⟩
  · intro b hb
    rcases List.mem_append.mp hb with hb | hb
    · exact honest b hb
    · rw [List.mem_singleton.mp hb, a1]; exact hji
  · intro rest
    rw [a6, a7]
    simpa [a1, a2] using regsEq rest
  · intro rest
    simpa using partsEq a rest a1
  · rw [← a1]
    rw [← a1] at writing
    exact writing.add p1 p2 a8

/-- The first instruction. -/
theorem ContentInv.first {x : TestCtx} {reg : CashRegister} (hreg : CashRegister.make x.spec.cashBoxId none 0 x.key x.size = .ok reg)
    {i : Instr} (hji : i.override.jwsOverride ≠ some []) {s' : FullState} (h : x.stepFull { regs := [reg] } i = .ok s') :
    ∃ a : Made, a.instr = i ∧ ContentInv x s' [a] [] [a] i.device := by
  unfold TestCtx.stepFull at h
  simp only [Res.bind_eq_ok] at h
  obtain ⟨o, ho, s1, h1, s2, h2, s3, h3, h4⟩ := h
  have h1' : s1 = { regs := [reg] } := by
    unfold TestCtx.newRegisterFull at h1
    rw [if_neg (by rintro ⟨-, h⟩; cases h)] at h1
    exact (Except.ok.inj h1).symm
  subst h1'
  have hn : i.newDep = kNoNew := by
    by_contra hn
    have e : s2.lastDep = [] := by
      unfold TestCtx.endGroupFull at h2
      cases hg : x.spec.groups <;> simp [hg, hn] at h2 <;> rw [← h2]
    unfold TestCtx.endDepFull at h3
    rw [if_neg hn] at h3
    simp only [Res.bind_eq_ok] at h3
    obtain ⟨l, hl, -⟩ := h3
    rw [e, pySet_nil] at hl
    cases hl
  have h2' : s2 = { regs := [reg] } := by
    unfold TestCtx.endGroupFull at h2
    cases hg : x.spec.groups <;> simp [hg, hn] at h2 <;> exact h2.symm
  subst h2'
  unfold TestCtx.endDepFull at h3
  rw [if_pos hn] at h3
  cases h3
  simp only [CashRegister.make, Res.bind_eq_ok, ensure_eq_ok, Except.ok.injEq] at hreg
  obtain ⟨_, -, rfl⟩ := hreg
  refine ContentInv.addReceipt (made := []) (parts := []) (cur := []) (i := i) (x := x) (s := { regs := [_] }) ?_
    (by simp) (by simp) (by exact .nil) ⟨[], [], rfl, rfl, .nil, fun _ => rfl, fun _ => ⟨by simp, by simp, by simp, by simp⟩⟩
    ⟨List.nodup_nil, rfl⟩ hji (fun rest => rfl) (fun a rest _ => rfl) ho h4
  · refine ⟨?_, by simp, by simp, .inr ⟨rfl, rfl, rfl, rfl, by simp⟩⟩
    intro r reg hget
    match r with
    | 0 =>
      cases hget
      exact ⟨rfl, rfl, rfl, fun _ _ => rfl, rfl⟩
    | r + 1 => cases hget

/-- Ending a group before a new DEP. -/
theorem endGroupFull_new {x : TestCtx} {i : Instr} {s s' : FullState} {d : Nat} (hs : s.prevSig = some d) (hn : i.newDep ≠ kNoNew)
    (h : x.endGroupFull i s = .ok s') :
    ∃ g, (if x.spec.groups then x.certGroupFull s d else .ok ⟨s.recs, none, []⟩) = .ok g ∧
      s' = { s with groups := s.groups ++ [g], recs := [] } := by
  unfold TestCtx.endGroupFull at h
  rw [hs] at h
  cases hg : x.spec.groups with
  | true =>
    rw [hg] at h
    simp only [hn, ne_eq, not_false_eq_true, true_or, if_true, Res.bind_eq_ok, Except.ok.injEq] at h
    obtain ⟨g, h1, rfl⟩ := h
    exact ⟨g, h1, by rw [hs]⟩
  | false =>
    rw [hg] at h
    simp only [hn, ne_eq, not_false_eq_true, if_true, Except.ok.injEq] at h
    exact ⟨_, rfl, by rw [← h, hs]⟩

/-- The next instruction. -/
theorem ContentInv.step {x : TestCtx} {s s' : FullState} {made : List Made} {parts : List (List Made)} {cur : List Made} {d : Nat}
    (hs : ContentInv x s made parts cur d) {i : Instr} (hji : i.override.jwsOverride ≠ some []) (h : x.stepFull s i = .ok s') :
    ∃ (a : Made) (parts' : List (List Made)) (cur' : List Made), a.instr = i ∧ ContentInv x s' (made ++ [a]) parts' cur' i.device := by
  unfold TestCtx.stepFull at h
  simp only [Res.bind_eq_ok] at h
  obtain ⟨o, ho, s1, h1, s2, h2, s3, h3, h4⟩ := h
  by_cases hn : i.newDep = kNoNew
  · -- the same DEP
    have h1' : s1 = s := by
      rcases hs.reg.new h1 with ⟨rfl, -⟩ | ⟨hc, -⟩
      · rfl
      · rw [hn] at hc
        exact absurd hc (by decide)
    subst h1'
    unfold TestCtx.endDepFull at h3
    rw [if_pos hn] at h3
    cases h3
    have hcont : ∃ recs groups, s2 = { s1 with recs, groups } ∧ Writing x s2 cur i.device := by
      unfold TestCtx.endGroupFull at h2
      rw [hs.sig] at h2
      cases hg : x.spec.groups with
      | false =>
        rw [hg] at h2
        simp only [hn, ne_eq, not_true_eq_false, if_false, Except.ok.injEq] at h2
        subst h2
        refine ⟨s1.recs, s1.groups, rfl, ?_⟩
        obtain ⟨ps, last, -, w1, w2, w3, w4, -⟩ := hs.written
        exact ⟨ps, last, w1, w2, w3, w4, fun e => by rw [hg] at e; cases e⟩
      | true =>
        rw [hg] at h2
        simp only [hn, ne_eq, not_true_eq_false, false_or] at h2
        by_cases hd : d = i.device
        · rw [if_neg (by simpa using hd)] at h2
          cases h2
          refine ⟨_, _, rfl, ?_⟩
          obtain ⟨ps, last, -, w1, w2, w3, w4, w5⟩ := hs.written
          exact ⟨ps, last, w1, w2, w3, w4, by rw [← hd]; exact w5⟩
        · rw [if_pos hd] at h2
          simp only [Res.bind_eq_ok, Except.ok.injEq] at h2
          obtain ⟨g, hg', rfl⟩ := h2
          refine ⟨[], s1.groups ++ [g], by rw [hs.sig], ?_⟩
          obtain ⟨ps, -, w1, w2, w3, w4⟩ := hs.written.close (g := g) (by rw [if_pos hg]; exact hg')
          refine ⟨ps, [], by rw [w1]; simp, rfl, w2, fun e => absurd (hg.symm.trans e) (by simp), fun _ => ?_⟩
          obtain ⟨v1, v2, v3⟩ := w4 hg
          exact ⟨by simp, v1, v2, fun p hp a ha => by rw [v3 p hp a ha]; exact hd⟩
    obtain ⟨recs, groups, rfl, hw⟩ := hcont
    obtain ⟨a, a1, a2⟩ := ContentInv.addReceipt (made := made) (parts := parts) (cur := cur) (s := { s1 with recs, groups })
      ⟨hs.reg.regs, hs.reg.lt, hs.reg.none, hs.reg.start⟩ hs.honest hs.right hs.deps hw hs.extra hji
      (fun rest => by
        rw [hs.regsEq]
        simp [registersOf, show i.newDep = c!"NO_NEW_DEP" from hn])
      (fun a rest ha => by
        rw [hs.partsEq]
        simp [partsFrom, ha, show i.newDep = c!"NO_NEW_DEP" from hn]) ho h4
    exact ⟨a, parts, cur ++ [a], a1, a2⟩
  · -- a new DEP
    have hnl : ¬i.newDep = c!"NO_NEW_DEP" := hn
    have hpos : 0 < s.regs.length := Nat.lt_of_le_of_lt (Nat.zero_le _) hs.reg.lt
    -- the register
    obtain ⟨regs, register, lastStart, hs1⟩ : ∃ regs register lastStart, s1 = { s with regs, register, lastStart } := by
      rcases hs.reg.new h1 with ⟨rfl, -⟩ | ⟨-, -, -, -, -, h⟩
      · exact ⟨_, _, _, rfl⟩
      · exact h
    have sig1 : s1.prevSig = some d := by rw [hs1]; exact hs.sig
    obtain ⟨g, hg, hs2⟩ := endGroupFull_new sig1 hn h2
    have hwr : Written x s1 cur d := by
      obtain ⟨ps, last, w⟩ := hs.written
      rw [hs1]
      exact ⟨ps, last, w⟩
    obtain ⟨ps, -, w1, w2, w3, w4⟩ := hwr.close hg
    have hex : ExtraFree s2.extra := by
      rw [hs2, hs1]
      exact hs.extra
    have hdep : DepHolds x.spec x.keys cur (exportMangled s2.groups s2.addTurnover) :=
      depHolds_export w1 (by rw [hs2]; exact w2) w3 (fun e => ⟨(w4 e).1, (w4 e).2.1⟩) hex.turnover
    have hdeps : List.Forall₂ (DepHolds x.spec x.keys) (parts ++ [cur]) (s2.deps ++ [exportMangled s2.groups s2.addTurnover]) := by
      refine List.rel_append ?_ (.cons hdep .nil)
      rw [hs2, hs1]
      exact hs.deps
    have hempty : ∀ t : FullState, t.recs = [] → t.groups = [] → Writing x t [] i.device := by
      intro t t1 t2
      refine ⟨[], [], rfl, by rw [t1]; rfl, by rw [t2]; exact .nil, fun _ => rfl, fun _ => ⟨by simp, by simp, by simp, by simp⟩⟩
    have hparts : ∀ (a : Made) (rest : List Made), a.instr = i →
        depParts (made ++ a :: rest) = (parts ++ [cur]) ++ partsFrom ([] ++ [a]) rest := by
      intro a rest ha
      rw [hs.partsEq]
      simp [partsFrom, ha, hnl]
    have hrecs2 : s2.recs = [] := by rw [hs2]
    unfold TestCtx.endDepFull at h3
    rw [if_neg hn] at h3
    simp only [Res.bind_eq_ok] at h3
    obtain ⟨l, -, h3⟩ := h3
    by_cases hc : i.newDep = kCluster
    · rw [if_pos hc] at h3
      cases h3
      rcases hs.reg.new h1 with ⟨-, hno⟩ | ⟨-, -, r1, r2, r3, -⟩
      · exact absurd ⟨hc, hs.started⟩ hno
      · have r1' : RegInv x s2 made := by
          rw [hs2]
          exact ⟨r1.regs, r1.lt, r1.none, r1.start⟩
        have e1 : s2.register = s.regs.length := by rw [hs2]; exact r2
        have e2 : s2.regs.length = s.regs.length + 1 := by rw [hs2]; exact r3
        obtain ⟨a, a1, a2⟩ := ContentInv.addReceipt (made := made) (parts := parts ++ [cur]) (cur := [])
          (s := { s2 with groups := [], lastDep := l, extra := [(kPrevious, .int s2.prevStartDep)],
                          deps := s2.deps ++ [exportMangled s2.groups s2.addTurnover] })
          ⟨r1'.regs, r1'.lt, r1'.none, r1'.start⟩ hs.honest hs.right hdeps (hempty _ hrecs2 rfl)
          ⟨by simp [Dict.Ok, Dict.keys], by rfl⟩ hji
          (fun rest => by
            rw [hs.regsEq]
            simp only [registersOf, show i.newDep = c!"NEW_CLUSTER_DEP" from hc, if_true, e1, e2]
            rfl) hparts ho h4
        exact ⟨a, _, _, a1, a2⟩
    · rw [if_neg hc] at h3
      have hs1' : s1 = s := by
        rcases hs.reg.new h1 with ⟨h, -⟩ | ⟨h, -⟩
        · exact h
        · exact absurd h hc
      rw [hs1'] at hs2
      have hcl : ¬i.newDep = c!"NEW_CLUSTER_DEP" := hc
      rcases hs.reg.start with ⟨t1, t2, t3, t4⟩ | ⟨t1, -⟩
      swap
      · rw [hs.started] at t1
        cases t1
      have hstate : ∃ register curIdx extra, ExtraFree extra ∧ register = i.contReg.getD s.register ∧ register < s.regs.length ∧
          s3 = { s2 with groups := [], lastDep := l, register, extra, curIdx,
                         deps := s2.deps ++ [exportMangled s2.groups s2.addTurnover] } := by
        cases hk : i.contReg with
        | none =>
          rw [hk] at h3
          cases h3
          exact ⟨_, _, _, ⟨by simp [Dict.Ok, Dict.keys, kPrevious, kContinued], by rfl⟩, by rw [hs2]; rfl, by rw [hs2]; exact hs.reg.lt, rfl⟩
        | some k =>
          rw [hk] at h3
          simp only [Res.bind_eq_ok, orErr_eq_ok, Except.ok.injEq] at h3
          obtain ⟨r, hr, dd, -, rfl⟩ := h3
          have hr' : (List.range s.regs.length)[k]? = some r := by
            rw [← t2, ← hr, hs2]
          obtain ⟨hlt, he⟩ := List.getElem?_eq_some_iff.mp hr'
          simp only [List.getElem_range] at he
          subst he
          simp only [List.length_range] at hlt
          exact ⟨_, _, _, ⟨by simp [Dict.Ok, Dict.keys, kPrevious, kContinued], by rfl⟩, rfl, hlt, rfl⟩
      obtain ⟨register', curIdx, extra, x1, x2, x3, rfl⟩ := hstate
      have e1 : s2.regs = s.regs := by rw [hs2]
      obtain ⟨a, a1, a2⟩ := ContentInv.addReceipt (made := made) (parts := parts ++ [cur]) (cur := [])
        (s := { s2 with groups := [], lastDep := l, register := register', extra := extra, curIdx := curIdx,
                        deps := s2.deps ++ [exportMangled s2.groups s2.addTurnover] })
        ⟨by rw [hs2]; exact hs.reg.regs, by rw [hs2]; exact x3, by rw [hs2]; exact hs.reg.none,
          by rw [hs2]; exact .inl ⟨t1, t2, t3, t4⟩⟩ hs.honest hs.right hdeps (hempty _ hrecs2 rfl) x1 hji
        (fun rest => by
          rw [hs.regsEq]
          simp only [registersOf, hnl, if_false, hcl, e1, x2]) hparts ho h4
      exact ⟨a, _, _, a1, a2⟩

/-- All instructions after the first one. -/
theorem ContentInv.steps {x : TestCtx} {l : List Instr} : ∀ {s s' : FullState} {made : List Made} {parts : List (List Made)}
    {cur : List Made} {d : Nat}, ContentInv x s made parts cur d → (∀ i ∈ l, i.override.jwsOverride ≠ some []) →
    x.stepsFull s l = .ok s' → ∃ made' parts' cur' d', made'.map (·.instr) = made.map (·.instr) ++ l ∧
      ContentInv x s' made' parts' cur' d' := by
  induction l with
  | nil =>
    intro s s' made parts cur d hs _ h
    cases h
    exact ⟨made, parts, cur, d, by simp, hs⟩
  | cons i l ih =>
    intro s s' made parts cur d hs hj h
    unfold TestCtx.stepsFull at h
    rw [Res.bind_eq_ok] at h
    obtain ⟨s1, h1, h2⟩ := h
    obtain ⟨a, parts1, cur1, a1, hs1⟩ := hs.step (hj i (by simp)) h1
    obtain ⟨made', parts', cur', d', b1, b2⟩ := ih hs1 (fun j hm => hj j (by simp [hm])) h2
    exact ⟨made', parts', cur', d', by rw [b1]; simp [a1], b2⟩

/-- The end. -/
theorem ContentInv.finish {x : TestCtx} {s : FullState} {made : List Made} {parts : List (List Made)} {cur : List Made} {d : Nat}
    (hs : ContentInv x s made parts cur d) {deps : List Json} (h : x.finishFull s = .ok deps) :
    List.Forall₂ (DepHolds x.spec x.keys) (depParts made) deps := by
  obtain ⟨g, hg, rfl⟩ : ∃ g, (if x.spec.groups then x.certGroupFull s d else .ok ⟨s.recs, none, []⟩) = .ok g ∧
      s.deps ++ [exportMangled (s.groups ++ [g]) s.addTurnover] = deps := by
    unfold TestCtx.finishFull at h
    rw [hs.sig] at h
    by_cases hc : x.spec.groups = true
    · rw [if_pos hc] at h ⊢
      simpa only [orErr, Res.ok_bind, Res.bind_eq_ok, Except.ok.injEq] using h
    · rw [if_neg hc] at h ⊢
      simpa only [Res.bind_eq_ok, Except.ok.injEq] using h
  obtain ⟨ps, -, w1, w2, w3, w4⟩ := hs.written.close hg
  have := hs.partsEq []
  rw [List.append_nil] at this
  rw [this]
  exact List.rel_append hs.deps (.cons (depHolds_export w1 w2 w3 (fun e => ⟨(w4 e).1, (w4 e).2.1⟩) hs.extra.turnover) .nil)

end

end RKSV
