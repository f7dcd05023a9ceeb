import Verif.Model.RunTestFull
import Verif.Lemmas.Falsify
import Verif.Lemmas.RunTestLoop
/-
`runTest` without `override` elements.
-/
namespace RKSV

section
variable [PyEnv]

/-- A receipt nothing was falsified in. -/
def plainRec (r : Receipt × Str) : Mangled × Str := (⟨r.1, none⟩, r.2)

def plainGroup (g : SGroup (Receipt × Str)) : SGroup (Mangled × Str) := ⟨g.recs.map plainRec, g.cert, g.chain⟩

/-- The variables of the main loop if nothing was falsified. -/
def TestState.full (s : TestState) : FullState where
  regs := s.regs ++ (match s.cur with | none => [s.fresh] | some _ => [])
  register := s.cur.getD s.regs.length
  reg2Reg := List.range s.regs.length
  groups := s.groups.map plainGroup
  extra := s.extra
  deps := s.deps
  lastStart := s.lastStart
  prevStartDep := s.prevStartDep
  lastDep := s.lastDep
  curIdx := s.curIdx
  recs := s.recs.map plainRec
  prevSig := s.prevSig
  turnover := s.turnover

/-- What `register`, `reg2Reg` and `lastStartJWS` have to do with each other. -/
structure Coherent (s : TestState) : Prop where
  start : truthy s.lastStart = true ↔ s.cur ≠ none
  known : ∀ k, s.cur = some k → k < s.regs.length

theorem export_unmangled (gs : List (SGroup (Receipt × Str))) (d : Dict Json) :
    exportMangled (gs.map plainGroup) d = exportDEP gs d := by
  have : (gs.map plainGroup).map exportMangledGroup = gs.map exportGroup := by
    rw [List.map_map]
    apply List.map_congr_left
    intro g _
    simp only [Function.comp, exportMangledGroup, exportGroup, plainGroup, List.map_map]
    rfl
  unfold exportMangled exportDEP
  rw [this]

omit [PyEnv] in
theorem map_bind {α β γ : Type} (x : Res α) (f : α → Res β) (g : β → γ) :
    (x >>= f).map g = x >>= fun a => (f a).map g := by
  cases x <;> rfl

omit [PyEnv] in
theorem bind_map {α β γ : Type} (x : Res α) (g : α → β) (f : β → Res γ) :
    (x.map g) >>= f = x >>= fun a => f (g a) := by
  cases x <;> rfl

theorem newRegister_plain (x : TestCtx) (i : Instr) {s : TestState} (h : Coherent s) :
    x.newRegisterFull i s.full = (x.newRegister i s).map TestState.full := by
  unfold TestCtx.newRegisterFull TestCtx.newRegister
  by_cases hc : i.newDep = kCluster ∧ truthy s.lastStart = true
  · rw [if_pos hc, if_pos (show i.newDep = kCluster ∧ truthy s.full.lastStart = true from hc), map_bind]
    obtain ⟨k, hk⟩ := Option.ne_none_iff_exists'.mp (h.start.mp hc.2)
    congr 1
    funext r
    simp [TestState.full, hk, Except.map]
  · rw [if_neg hc, if_neg (show ¬(i.newDep = kCluster ∧ truthy s.full.lastStart = true) from hc)]
    rfl

theorem newRegister_coherent {x : TestCtx} {i : Instr} {s s' : TestState} (hs : Coherent s) (h : x.newRegister i s = .ok s') :
    Coherent s' ∧ (s'.cur = none → s.cur = none ∨ i.newDep = kCluster) ∧ s'.lastDep = s.lastDep := by
  unfold TestCtx.newRegister at h
  split at h
  · rename_i hc
    simp only [Res.bind_eq_ok, Except.ok.injEq] at h
    obtain ⟨r, -, rfl⟩ := h
    exact ⟨⟨by simp [truthy], by simp⟩, fun _ => .inr hc.1, rfl⟩
  · cases h
    exact ⟨hs, .inl, rfl⟩

theorem certGroup_plain (x : TestCtx) (s : TestState) (sig : Nat) :
    x.certGroupFull s.full sig = (x.certGroup s sig).map plainGroup := by
  unfold TestCtx.certGroupFull TestCtx.certGroup
  rw [map_bind]
  congr 1
  funext k
  by_cases h : k.omitSign
  · simp [h, Except.map, plainGroup, TestState.full]
  · simp [h, Except.map, plainGroup, TestState.full]

theorem endGroup_plain (x : TestCtx) (i : Instr) (s : TestState) :
    x.endGroupFull i s.full = (x.endGroup i s).map TestState.full := by
  unfold TestCtx.endGroupFull TestCtx.endGroup
  show (match x.spec.groups, s.prevSig with
    | true, some sig => _
    | _, _ => _) = _
  cases x.spec.groups with
  | false =>
    simp only
    by_cases hn : i.newDep ≠ kNoNew
    · rw [if_pos hn, if_pos hn]
      simp [TestState.full, Except.map, plainGroup]
    · rw [if_neg hn, if_neg hn]
      rfl
  | true =>
    cases hp : s.prevSig with
    | none =>
      simp only
      by_cases hn : i.newDep ≠ kNoNew
      · rw [if_pos hn, if_pos hn]
        simp [TestState.full, Except.map, plainGroup, hp]
      · rw [if_neg hn, if_neg hn]
        rfl
    | some sig =>
      simp only
      by_cases hn : i.newDep ≠ kNoNew ∨ sig ≠ i.device
      · rw [if_pos hn, if_pos hn, map_bind, certGroup_plain, bind_map]
        congr 1
        funext g
        simp [TestState.full, Except.map, hp]
      · rw [if_neg hn, if_neg hn]
        rfl

theorem endGroup_keeps {x : TestCtx} {i : Instr} {s s' : TestState} (h : x.endGroup i s = .ok s') :
    s'.cur = s.cur ∧ s'.regs = s.regs ∧ s'.lastStart = s.lastStart ∧ s'.lastDep = s.lastDep := by
  unfold TestCtx.endGroup at h
  split at h
  · split at h
    · rw [Res.bind_eq_ok] at h
      obtain ⟨g, -, h⟩ := h
      cases h
      exact ⟨rfl, rfl, rfl, rfl⟩
    · cases h
      exact ⟨rfl, rfl, rfl, rfl⟩
  · split at h
    · cases h
      exact ⟨rfl, rfl, rfl, rfl⟩
    · cases h
      exact ⟨rfl, rfl, rfl, rfl⟩

theorem addTurnover_plain (s : TestState) : s.full.addTurnover = s.addTurnover := rfl

omit [PyEnv] in
theorem pySet_nil {α : Type} (i : Int) (v : α) : pySet [] i v = .error .indexError := by
  unfold pySet
  rw [if_neg]
  simp only [List.length_nil]
  omega

theorem endDep_plain (x : TestCtx) (i : Instr) {s : TestState} (h : s.cur = none → i.newDep = kCluster ∨ s.lastDep = []) :
    x.endDepFull i s.full = (x.endDep i s).map TestState.full := by
  unfold TestCtx.endDepFull TestCtx.endDep
  by_cases hn : i.newDep = kNoNew
  · rw [if_pos hn, if_pos hn]
    rfl
  · rw [if_neg hn, if_neg hn]
    simp only
    rw [map_bind, addTurnover_plain, show s.full.groups = s.groups.map plainGroup from rfl, export_unmangled]
    show (pySet s.lastDep s.curIdx s.deps.length >>= _) = _
    cases hp : pySet s.lastDep s.curIdx s.deps.length with
    | error e => rfl
    | ok l =>
      rw [Res.ok_bind, Res.ok_bind]
      by_cases hc : i.newDep = kCluster
      · rw [if_pos hc, if_pos hc]
        rfl
      · rw [if_neg hc, if_neg hc]
        have hcur : ∃ k, s.cur = some k := by
          rcases hs : s.cur with _ | k
          · rcases h hs with h | h
            · exact absurd h hc
            · rw [h, pySet_nil] at hp
              cases hp
          · exact ⟨k, rfl⟩
        obtain ⟨c, hk⟩ := hcur
        cases hr : i.contReg with
        | none => rfl
        | some k =>
          simp only
          rw [map_bind]
          show (orErr (List.range s.regs.length)[k]? .indexError >>= _) = _
          by_cases hl : k < s.regs.length
          · rw [List.getElem?_range hl]
            simp only [orErr, Res.ok_bind, ensure, hl, if_true]
            rw [map_bind]
            congr 1
            funext d
            simp [TestState.full, Except.map, hk]
          · rw [List.getElem?_eq_none (by simpa using hl)]
            simp [orErr, ensure, hl, Res.error_bind]

theorem endDep_keeps {x : TestCtx} {i : Instr} {s s' : TestState} (h : x.endDep i s = .ok s') (hs : Coherent s)
    (hn : s.cur = none → i.newDep = kNoNew ∨ i.newDep = kCluster ∨ s.lastDep = []) : Coherent s' := by
  unfold TestCtx.endDep at h
  by_cases hk : i.newDep = kNoNew
  · rw [if_pos hk] at h
    cases h
    exact hs
  rw [if_neg hk] at h
  simp only [Res.bind_eq_ok] at h
  obtain ⟨l, hl, h⟩ := h
  by_cases hc : i.newDep = kCluster
  · rw [if_pos hc] at h
    cases h
    exact ⟨hs.start, hs.known⟩
  rw [if_neg hc] at h
  cases hr : i.contReg with
  | none =>
    rw [hr] at h
    cases h
    exact ⟨hs.start, hs.known⟩
  | some k =>
    rw [hr] at h
    simp only [Res.bind_eq_ok, ensure_eq_ok] at h
    obtain ⟨_, hlt, d, -, h⟩ := h
    cases h
    have : s.cur ≠ none := by
      intro he
      rcases hn he with h | h | h
      · exact hk h
      · exact hc h
      · rw [h, pySet_nil] at hl
        cases hl
    exact ⟨by simpa using hs.start.mpr this, by rintro k' ⟨⟩; exact hlt⟩

theorem addReceipt_plain (x : TestCtx) {i : Instr} (o : Order) {s : TestState} (hs : Coherent s) (ho : i.override = {}) :
    x.addReceiptFull i o s.full = (x.addReceipt i o s).map TestState.full := by
  unfold TestCtx.addReceiptFull TestCtx.addReceipt
  rw [ho]
  cases hc : s.cur with
  | some k =>
    have hk := hs.known k hc
    have h1 : s.full.regs[s.full.register]? = s.regs[k]? := by
      simp [TestState.full, hc]
    have h2 : truthy s.lastStart = true := hs.start.mpr (by rw [hc]; simp)
    rw [h1]
    simp only [receiptWith_empty, List.getElem?_eq_getElem hk]
    rcases hr : s.regs[k].receipt o with ⟨reg', e | r⟩
    · simp [Except.map]
    · simp [Except.map, TestState.full, hc, h2, plainRec]
  | none =>
    have h1 : s.full.regs[s.full.register]? = some s.fresh := by
      simp [TestState.full, hc]
    have h2 : truthy s.lastStart = false := by
      cases ht : truthy s.lastStart with
      | false => rfl
      | true => exact absurd hc (hs.start.mp ht)
    rw [h1]
    simp only [receiptWith_empty]
    rcases hr : s.fresh.receipt o with ⟨reg', e | r⟩
    · simp [Except.map]
    · simp [Except.map, TestState.full, hc, h2, plainRec, Mangled.toJWS, List.range_succ]

theorem addReceipt_coherent {x : TestCtx} {i : Instr} {o : Order} {s s' : TestState} (hs : Coherent s)
    (h : x.addReceipt i o s = .ok s') : Coherent s' ∧ s'.cur ≠ none := by
  unfold TestCtx.addReceipt at h
  simp only at h
  cases hc : s.cur with
  | some k =>
    rw [hc] at h
    simp only at h
    split at h
    · cases h
    · split at h
      · cases h
      · cases h
        refine ⟨⟨by simpa [hc] using hs.start.mpr (by rw [hc]; simp), ?_⟩, by simp⟩
        intro k' hk'
        rw [List.length_set]
        exact hs.known k' (hc.trans hk')
  | none =>
    rw [hc] at h
    simp only at h
    split at h
    · cases h
    · rename_i r _
      cases h
      exact ⟨⟨by simp [truthy_jws], by simp⟩, by simp⟩

/-- One round of the loop. -/
theorem step_plain {x : TestCtx} {i : Instr} {s : TestState} (hs : Coherent s) (hn : s.cur = none → s.lastDep = [])
    (ho : i.override = {}) : x.stepFull s.full i = (x.step s i).map TestState.full := by
  unfold TestCtx.stepFull TestCtx.step
  rw [map_bind]
  congr 1
  funext o
  rw [newRegister_plain x i hs, bind_map, map_bind]
  cases h1 : x.newRegister i s with
  | error e => rfl
  | ok s1 =>
    rw [Res.ok_bind, Res.ok_bind, endGroup_plain, bind_map, map_bind]
    obtain ⟨c1, n1, l1⟩ := newRegister_coherent hs h1
    cases h2 : x.endGroup i s1 with
    | error e => rfl
    | ok s2 =>
      obtain ⟨e1, e2, e3, e4⟩ := endGroup_keeps h2
      have c2 : Coherent s2 := ⟨by rw [e1, e3]; exact c1.start, by rw [e1, e2]; exact c1.known⟩
      have n2 : s2.cur = none → i.newDep = kCluster ∨ s2.lastDep = [] := by
        intro h
        rw [e1] at h
        rcases n1 h with h | h
        · exact .inr (by rw [e4, l1]; exact hn h)
        · exact .inl h
      rw [Res.ok_bind, Res.ok_bind, endDep_plain x i n2, bind_map, map_bind]
      cases h3 : x.endDep i s2 with
      | error e => rfl
      | ok s3 =>
        rw [Res.ok_bind, Res.ok_bind]
        exact addReceipt_plain x o (endDep_keeps h3 c2 fun h => .inr (n2 h)) ho

theorem step_coherent {x : TestCtx} {i : Instr} {s s' : TestState} (hs : Coherent s) (hn : s.cur = none → s.lastDep = [])
    (h : x.step s i = .ok s') : Coherent s' ∧ s'.cur ≠ none := by
  unfold TestCtx.step at h
  simp only [Res.bind_eq_ok] at h
  obtain ⟨o, -, s1, h1, s2, h2, s3, h3, h4⟩ := h
  obtain ⟨c1, n1, l1⟩ := newRegister_coherent hs h1
  obtain ⟨e1, e2, e3, e4⟩ := endGroup_keeps h2
  have c2 : Coherent s2 := ⟨by rw [e1, e3]; exact c1.start, by rw [e1, e2]; exact c1.known⟩
  refine addReceipt_coherent (endDep_keeps h3 c2 fun h => ?_) h4
  rw [e1] at h
  rcases n1 h with h | h
  · exact .inr (.inr (by rw [e4, l1]; exact hn h))
  · exact .inr (.inl h)

theorem steps_plain {x : TestCtx} {l : List Instr} {s : TestState} (hs : Coherent s) (hn : s.cur = none → s.lastDep = [])
    (ho : ∀ i ∈ l, i.override = {}) : x.stepsFull s.full l = (x.steps s l).map TestState.full := by
  induction l generalizing s with
  | nil => rfl
  | cons i l ih =>
    unfold TestCtx.stepsFull TestCtx.steps
    rw [step_plain hs hn (ho i (by simp)), bind_map, map_bind]
    cases h1 : x.step s i with
    | error e => rfl
    | ok s1 =>
      rw [Res.ok_bind, Res.ok_bind]
      obtain ⟨c1, n1⟩ := step_coherent hs hn h1
      exact ih c1 (fun h => absurd h n1) fun i hi => ho i (by simp [hi])

theorem finish_plain (x : TestCtx) (s : TestState) : x.finishFull s.full = x.finish s := by
  unfold TestCtx.finishFull TestCtx.finish
  have hg : ∀ g, exportMangled (s.full.groups ++ [plainGroup g]) s.full.addTurnover = exportDEP (s.groups ++ [g]) s.addTurnover := by
    intro g
    rw [← export_unmangled, List.map_append]
    rfl
  cases x.spec.groups with
  | false =>
    simp only [Bool.false_eq_true, if_false, Res.ok_bind]
    rw [← hg]
    rfl
  | true =>
    simp only [if_true]
    show (orErr s.prevSig .typeError >>= _) = _
    cases s.prevSig with
    | none => rfl
    | some sig =>
      simp only [orErr, Res.ok_bind]
      rw [certGroup_plain, bind_map]
      congr 1
      funext g
      rw [hg]
      rfl

end

end RKSV
