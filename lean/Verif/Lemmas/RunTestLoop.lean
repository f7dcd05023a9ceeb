import Verif.Lemmas.RunTestKeys
import Verif.Lemmas.CashRegHistory
import Verif.Lemmas.Cluster
import Verif.Spec.Fleet
/-
The main loop of `runTest`: an invariant that ties its variables to what was done so far.
-/
namespace RKSV

section
variable [PyEnv]

/-! ### What registers do -/

theorem run_snoc {reg reg1 reg2 : CashRegister} {os : List Order} {o : Order} {rs : List Receipt} {r : Receipt}
    (h : reg.run os = (reg1, some rs)) (hr : reg1.receipt o = (reg2, .ok r)) :
    reg.run (os ++ [o]) = (reg2, some (rs ++ [r])) := by
  induction os generalizing reg rs with
  | nil =>
    cases h
    exact run_cons.mpr ⟨reg2, r, [], rfl, hr, rfl⟩
  | cons a os ih =>
    obtain ⟨reg3, x, xs, rfl, h1, h2⟩ := run_cons.mp h
    exact run_cons.mpr ⟨reg3, x, xs ++ [r], rfl, h1, ih h2⟩

/-- A receipt that was made: the number of the register, the instruction, the order and the receipt. -/
structure Act where
  reg : Nat
  instr : Instr
  order : Order
  receipt : Receipt

/-- What the register with number `i` did. -/
def actsOf (acts : List Act) (i : Nat) : List Act := acts.filter fun a => a.reg = i

theorem actsOf_snoc_same (acts : List Act) (a : Act) : actsOf (acts ++ [a]) a.reg = actsOf acts a.reg ++ [a] := by
  simp [actsOf, List.filter_append]

theorem actsOf_snoc_other (acts : List Act) (a : Act) {i : Nat} (h : i ≠ a.reg) :
    actsOf (acts ++ [a]) i = actsOf acts i := by
  simp [actsOf, List.filter_append, Ne.symm h]

/-- The receipt the register with number `i` is chained to. -/
def chainStart (acts : List Act) (i : Nat) : Option Str :=
  if i = 0 then none else (actsOf acts (i - 1)).head?.map (·.receipt.toJWS R1)

theorem head_snoc {acts : List Act} (a : Act) {i : Nat} (h : actsOf acts i ≠ []) :
    (actsOf (acts ++ [a]) i).head? = (actsOf acts i).head? := by
  by_cases e : i = a.reg
  · subst e
    rw [actsOf_snoc_same, List.head?_append_of_ne_nil _ h]
  · rw [actsOf_snoc_other _ _ e]

/-- The register with number `i` before it did anything. -/
def TestCtx.newReg (x : TestCtx) (acts : List Act) (i : Nat) : CashRegister :=
  ⟨x.spec.cashBoxId, chainStart acts i, 0, x.key, x.size⟩

/-- The registers are what they got by what was done. -/
structure RegsOk (x : TestCtx) (acts : List Act) (regs : List CashRegister) : Prop where
  lt : ∀ a ∈ acts, a.reg < regs.length
  ne : ∀ i, i < regs.length → actsOf acts i ≠ []
  run : ∀ i r, regs[i]? = some r →
    (x.newReg acts i).run ((actsOf acts i).map (·.order)) = (r, some ((actsOf acts i).map (·.receipt)))

theorem newReg_snoc {x : TestCtx} {acts : List Act} (a : Act) {i : Nat} (h : i ≠ 0 → actsOf acts (i - 1) ≠ []) :
    x.newReg (acts ++ [a]) i = x.newReg acts i := by
  unfold TestCtx.newReg chainStart
  by_cases h0 : i = 0
  · rw [if_pos h0, if_pos h0]
  · rw [if_neg h0, if_neg h0, head_snoc a (h h0)]

theorem RegsOk.known {x : TestCtx} {acts : List Act} {regs : List CashRegister} (h : RegsOk x acts regs)
    {a : Act} {reg reg' : CashRegister} (hk : regs[a.reg]? = some reg) (hr : reg.receipt a.order = (reg', .ok a.receipt)) :
    RegsOk x (acts ++ [a]) (regs.set a.reg reg') := by
  have hlt := (List.getElem?_eq_some_iff.mp hk).1
  refine ⟨?_, ?_, ?_⟩
  · intro b hb
    rw [List.length_set]
    rcases List.mem_append.mp hb with hb | hb
    · exact h.lt b hb
    · rw [List.mem_singleton.mp hb]
      exact hlt
  · intro i hi
    rw [List.length_set] at hi
    by_cases e : i = a.reg
    · subst e
      rw [actsOf_snoc_same]
      simp
    · rw [actsOf_snoc_other _ _ e]
      exact h.ne i hi
  · intro i r hi
    have hil : i < regs.length := by
      have := (List.getElem?_eq_some_iff.mp hi).1
      rwa [List.length_set] at this
    rw [newReg_snoc a fun _ => h.ne (i - 1) (by omega)]
    by_cases e : i = a.reg
    · subst e
      rw [List.getElem?_set_self hlt] at hi
      cases hi
      rw [actsOf_snoc_same, List.map_append, List.map_append]
      exact run_snoc (h.run _ _ hk) hr
    · rw [List.getElem?_set_ne (Ne.symm e)] at hi
      rw [actsOf_snoc_other _ _ e]
      exact h.run i r hi

theorem RegsOk.none {x : TestCtx} {acts : List Act} {regs : List CashRegister} (h : RegsOk x acts regs) {i : Nat}
    (hi : regs.length ≤ i) : actsOf acts i = [] := by
  rw [actsOf, List.filter_eq_nil_iff]
  intro a ha e
  have := h.lt a ha
  simp only [decide_eq_true_eq] at e
  omega

theorem RegsOk.new {x : TestCtx} {acts : List Act} {regs : List CashRegister} (h : RegsOk x acts regs)
    {a : Act} {reg' : CashRegister} (hk : a.reg = regs.length)
    (hr : (x.newReg acts regs.length).receipt a.order = (reg', .ok a.receipt)) :
    RegsOk x (acts ++ [a]) (regs ++ [reg']) := by
  refine ⟨?_, ?_, ?_⟩
  · intro b hb
    rw [List.length_append, List.length_singleton]
    rcases List.mem_append.mp hb with hb | hb
    · have := h.lt b hb
      omega
    · rw [List.mem_singleton.mp hb]
      omega
  · intro i hi
    rw [List.length_append, List.length_singleton] at hi
    by_cases e : i = a.reg
    · subst e
      rw [actsOf_snoc_same]
      simp
    · rw [actsOf_snoc_other _ _ e]
      exact h.ne i (by omega)
  · intro i r hi
    have hil := (List.getElem?_eq_some_iff.mp hi).1
    rw [List.length_append, List.length_singleton] at hil
    rw [newReg_snoc a fun h0 => h.ne (i - 1) (by omega)]
    by_cases e : i = a.reg
    · rw [e, hk] at hi
      simp only [List.length_append, List.length_singleton, Nat.lt_add_one, List.getElem?_eq_getElem,
        List.getElem_append_right, Nat.le_refl, Nat.sub_self, List.getElem_singleton, Option.some.injEq] at hi
      subst hi
      rw [e, actsOf_snoc_same, hk, h.none (Nat.le_refl _)]
      exact run_cons.mpr ⟨reg', a.receipt, [], rfl, hr, rfl⟩
    · rw [List.getElem?_append_left (by omega)] at hi
      rw [actsOf_snoc_other _ _ e]
      exact h.run i r hi

/-! ### What is exported -/

/-- The receipts of the group were made with one device, whose certificate it has. -/
def ByDevice (x : TestCtx) (g : SGroup (Receipt × Str)) : Prop :=
  ∃ (d : Nat) (k : TestKey), x.keys[d]? = some k ∧ g.cert = some k.cert ∧ g.chain = k.chain ∧
    ∀ r ∈ g.recs, r.1.certSerial = x.spec.serial x.closed d k

/-- The groups of a DEP. -/
def GroupsOk (x : TestCtx) (groups : List (SGroup (Receipt × Str))) : Prop :=
  if x.spec.groups then groups ≠ [] ∧ ∀ g ∈ groups, g.recs ≠ [] ∧ ByDevice x g
  else ∃ recs, recs ≠ [] ∧ groups = [⟨recs, none, []⟩]

/-- The extra elements are those known. -/
def ExtraOk (d : Dict Json) : Prop := ∀ k ∈ d.keys, k = kTurnover ∨ k = kPrevious ∨ k = kContinued

/-- The part of a DEP that is not exported yet. -/
structure Pending (x : TestCtx) (s : TestState) : Prop where
  off : x.spec.groups = false → s.groups = []
  done : ∀ g ∈ s.groups, g.recs ≠ [] ∧ ByDevice x g
  ne : s.recs ≠ []
  device : ∃ (d : Nat) (k : TestKey), s.prevSig = some d ∧ x.keys[d]? = some k ∧
    (x.spec.groups = true → ∀ r ∈ s.recs, r.1.certSerial = x.spec.serial x.closed d k)
  extra : ExtraOk s.extra

theorem Pending.extraOk {x : TestCtx} {s : TestState} (h : Pending x s) : ExtraOk s.addTurnover := by
  unfold TestState.addTurnover
  split
  · split
    · intro k hk
      rw [Dict.keys_set] at hk
      split at hk
      · exact h.extra k hk
      · rcases List.mem_append.mp hk with h1 | h1
        · exact h.extra k h1
        · exact .inl (List.mem_singleton.mp h1)
    · exact h.extra
  · exact h.extra

/-- Ending the last group. -/
theorem Pending.close {x : TestCtx} {s : TestState} (h : Pending x s)
    (hp : ∀ k ∈ x.keys, k.omitSign = false) {g : SGroup (Receipt × Str)}
    (hg : (if x.spec.groups then do
        let sig ← orErr s.prevSig .typeError
        x.certGroup s sig
      else .ok ⟨s.recs, none, []⟩ : Res (SGroup (Receipt × Str))) = .ok g) :
    GroupsOk x (s.groups ++ [g]) ∧ g.recs = s.recs := by
  obtain ⟨d, k, h1, h2, h3⟩ := h.device
  unfold GroupsOk
  by_cases hc : x.spec.groups = true
  · rw [if_pos hc] at hg
    rw [if_pos hc]
    simp only [h1, orErr, TestCtx.certGroup, h2, Res.ok_bind, hp k (List.mem_of_getElem? h2), Bool.false_eq_true,
      if_false, Except.ok.injEq] at hg
    subst hg
    refine ⟨⟨by simp, fun g hg => ?_⟩, rfl⟩
    rcases List.mem_append.mp hg with hg | hg
    · exact h.done g hg
    · rw [List.mem_singleton.mp hg]
      exact ⟨h.ne, d, k, h2, rfl, rfl, h3 hc⟩
  · rw [if_neg hc] at hg
    rw [if_neg hc]
    cases hg
    rw [h.off (by simpa using hc)]
    exact ⟨⟨s.recs, h.ne, rfl⟩, rfl⟩

/-! ### The parts of the loop -/

theorem receipt_serial {reg reg' : CashRegister} {o : Order} {r : Receipt} (h : reg.receipt o = (reg', .ok r)) :
    r.certSerial = o.sys.serial := by
  obtain ⟨c⟩ := call_of_receipt h
  exact congrArg Fields.certSerial c.fields

theorem order_ok {x : TestCtx} {i : Instr} {o : Order} (h : x.order i = .ok o) :
    ∃ d k, strptime i.date = some d ∧ x.keys[i.device]? = some k ∧
      o = { receiptId := i.receiptId, dateTime := d, sumA := i.sumA, sumB := i.sumB, sumC := i.sumC, sumD := i.sumD,
            sumE := i.sumE, sys := x.spec.system x.closed i.device k i.damaged,
            dummy := i.kind = some c!"TRAINING_BELEG", reversal := i.kind = some c!"STORNO_BELEG", rand := i.rand } := by
  unfold TestCtx.order at h
  simp only [Res.bind_eq_ok, orErr_eq_ok, Except.ok.injEq] at h
  obtain ⟨d, h1, k, h2, h3⟩ := h
  exact ⟨d, k, h1, h2, h3.symm⟩

theorem system_serial (spec : TestSpec) (closed : Bool) (i : Nat) (k : TestKey) (b : Bool) :
    (spec.system closed i k b).serial = spec.serial closed i k := by
  unfold TestSpec.system
  split <;> rfl

theorem system_zda (spec : TestSpec) (closed : Bool) (i : Nat) (k : TestKey) (b : Bool) :
    (spec.system closed i k b).zda = k.zdaText closed := by
  unfold TestSpec.system
  split <;> rfl

/-- The receipt for an instruction has the serial number of the device. -/
theorem device_serial {x : TestCtx} {i : Instr} {o : Order} (ho : x.order i = .ok o) {reg reg' : CashRegister} {r : Receipt}
    (h : reg.receipt o = (reg', .ok r)) :
    ∃ k, x.keys[i.device]? = some k ∧ r.certSerial = x.spec.serial x.closed i.device k := by
  obtain ⟨d, k, -, hk, rfl⟩ := order_ok ho
  exact ⟨k, hk, by rw [receipt_serial h, system_serial]⟩

/-- Ending a group because a DEP ends. -/
theorem endGroup_dep {x : TestCtx} {i : Instr} {s s' : TestState} (hs : Pending x s)
    (hp : ∀ k ∈ x.keys, k.omitSign = false) (hn : i.newDep ≠ kNoNew) (h : x.endGroup i s = .ok s') :
    ∃ g, s' = { s with groups := s.groups ++ [g], recs := [] } ∧ GroupsOk x (s.groups ++ [g]) ∧ g.recs = s.recs := by
  obtain ⟨d, k, h1, h2, -⟩ := hs.device
  unfold TestCtx.endGroup at h
  cases hc : x.spec.groups with
  | true =>
    simp only [hc, h1, hn, ne_eq, not_false_eq_true, true_or, if_true, Res.bind_eq_ok, Except.ok.injEq] at h
    obtain ⟨g, hg, rfl⟩ := h
    refine ⟨g, by rw [h1], hs.close hp ?_⟩
    rw [if_pos hc, h1]
    exact hg
  | false =>
    simp only [hc, hn, ne_eq, not_false_eq_true, if_true, Except.ok.injEq] at h
    subst h
    refine ⟨_, rfl, hs.close hp ?_⟩
    rw [if_neg (by simp [hc])]

/-- Ending a group within a DEP. -/
theorem endGroup_same {x : TestCtx} {i : Instr} {s s' : TestState} (hs : Pending x s)
    (hp : ∀ k ∈ x.keys, k.omitSign = false) (hn : i.newDep = kNoNew) (h : x.endGroup i s = .ok s') :
    ∃ groups recs, s' = { s with groups, recs } ∧
      groups.flatMap (·.recs) ++ recs = s.groups.flatMap (·.recs) ++ s.recs ∧
      (x.spec.groups = false → groups = []) ∧ (∀ g ∈ groups, g.recs ≠ [] ∧ ByDevice x g) ∧
      (x.spec.groups = true → ∀ k, x.keys[i.device]? = some k →
        ∀ r ∈ recs, r.1.certSerial = x.spec.serial x.closed i.device k) := by
  obtain ⟨d, k, h1, h2, h3⟩ := hs.device
  unfold TestCtx.endGroup at h
  cases hc : x.spec.groups with
  | true =>
    by_cases hd : d = i.device
    · simp only [hc, h1, hn, hd, ne_eq, not_true, or_self, if_false, Except.ok.injEq] at h
      subst h
      refine ⟨s.groups, s.recs, rfl, rfl, by simp, hs.done, fun _ k' hk' => ?_⟩
      rw [hd] at h2 h3
      rw [h2] at hk'
      cases hk'
      exact h3 hc
    · simp only [hc, h1, hn, hd, ne_eq, not_true, not_false_eq_true, or_true, if_true, Res.bind_eq_ok, Except.ok.injEq] at h
      obtain ⟨g, hg, rfl⟩ := h
      have hcl := hs.close hp (g := g) (by rw [if_pos hc, h1]; exact hg)
      unfold GroupsOk at hcl
      rw [if_pos hc] at hcl
      exact ⟨_, [], by rw [h1], by simp [hcl.2], by simp, hcl.1.2, by simp⟩
  | false =>
    simp only [hc, hn, ne_eq, not_true, if_false, Except.ok.injEq] at h
    subst h
    exact ⟨s.groups, s.recs, rfl, rfl, fun _ => hs.off hc, hs.done, by simp⟩

/-- Ending a DEP for a new register. -/
theorem endDep_cluster {x : TestCtx} {i : Instr} {s s' : TestState} (hn : i.newDep = kCluster) (h : x.endDep i s = .ok s') :
    ∃ lastDep extra, s' = { s with
      groups := [], lastDep, extra, deps := s.deps ++ [exportDEP s.groups s.addTurnover] } ∧ ExtraOk extra := by
  unfold TestCtx.endDep at h
  rw [if_neg (by rw [hn]; decide)] at h
  simp only [hn, if_true, Res.bind_eq_ok, Except.ok.injEq] at h
  obtain ⟨l, -, rfl⟩ := h
  exact ⟨l, _, rfl, by simp [ExtraOk, Dict.keys]⟩

/-- Ending a DEP for a register that is known. -/
theorem endDep_continue {x : TestCtx} {i : Instr} {s s' : TestState} {c : Nat} (hc : s.cur = some c)
    (hlt : c < s.regs.length) (hn : i.newDep ≠ kNoNew) (hn' : i.newDep ≠ kCluster) (h : x.endDep i s = .ok s') :
    ∃ lastDep extra curIdx, s' = { s with
      groups := [], lastDep, extra, curIdx, cur := some (i.contReg.getD c)
      deps := s.deps ++ [exportDEP s.groups s.addTurnover] } ∧ ExtraOk extra ∧ i.contReg.getD c < s.regs.length := by
  unfold TestCtx.endDep at h
  rw [if_neg hn] at h
  simp only [hn', if_false, Res.bind_eq_ok] at h
  obtain ⟨l, -, h⟩ := h
  cases hk : i.contReg with
  | none =>
    simp only [hk, Except.ok.injEq] at h
    subst h
    exact ⟨l, [(kPrevious, .int s.deps.length), (kContinued, .bool true)], s.curIdx, by simp [hc], by simp [ExtraOk, Dict.keys], hlt⟩
  | some k =>
    simp only [hk, Res.bind_eq_ok, ensure_eq_ok, Except.ok.injEq] at h
    obtain ⟨-, hk', d, -, rfl⟩ := h
    exact ⟨l, _, _, rfl, by simp [ExtraOk, Dict.keys], hk'⟩

theorem addReceipt_known {x : TestCtx} {i : Instr} {o : Order} {s s' : TestState} {c : Nat} (hc : s.cur = some c)
    (h : x.addReceipt i o s = .ok s') :
    ∃ reg reg' r, s.regs[c]? = some reg ∧ reg.receipt o = (reg', .ok r) ∧
      s' = { s with turnover := i.turnover, prevSig := some i.device, regs := s.regs.set c reg',
                    recs := s.recs ++ [(r, R1)] } := by
  unfold TestCtx.addReceipt at h
  simp only [hc] at h
  split at h
  · cases h
  · rename_i reg hreg
    split at h
    · cases h
    · rename_i reg' r hr
      exact ⟨reg, reg', r, hreg, hr, by rw [hc]; exact (Except.ok.inj h).symm⟩

theorem addReceipt_new {x : TestCtx} {i : Instr} {o : Order} {s s' : TestState} (hc : s.cur = none)
    (h : x.addReceipt i o s = .ok s') :
    ∃ reg' r, s.fresh.receipt o = (reg', .ok r) ∧
      s' = { s with turnover := i.turnover, prevSig := some i.device, recs := s.recs ++ [(r, R1)],
                    lastStart := some (r.toJWS R1), lastDep := s.lastDep ++ [s.deps.length], regs := s.regs ++ [reg'],
                    cur := some s.regs.length, curIdx := s.curIdx + 1, prevStartDep := s.deps.length } := by
  unfold TestCtx.addReceipt at h
  simp only [hc] at h
  split at h
  · cases h
  · rename_i reg' r hr
    exact ⟨reg', r, hr, (Except.ok.inj h).symm⟩

/-! ### The invariant -/

/-- The receipts of DEPs, each with the number of the register. -/
def tagged (segs : List (Nat × Part)) : List (Nat × Receipt × Str) :=
  segs.flatMap fun p => (p.2.groups.flatMap (·.recs)).map (p.1, ·)

/-- After the instructions `done`: `acts` are the receipts made, `segs` the DEPs exported, `sel` is how verify.py
has to be called for the next one, `n` registers are known and `c` is the one used. -/
structure LoopInv (x : TestCtx) (modes : Nat → Mode) (s : TestState) (done : List Instr) (acts : List Act)
    (segs : List (Nat × Part)) (sel : Select) (n c : Nat) : Prop where
  instrs : acts.map (·.instr) = done
  order : ∀ a ∈ acts, x.order a.instr = .ok a.order
  regs : ∀ rest, registers (done ++ rest) = acts.map (·.reg) ++ registersOf n c rest
  sels : ∀ rest, selects (done ++ rest) = segs.map (·.2.sel) ++ sel :: selectsOf n c rest
  count : ∀ rest, registerCount 1 (done ++ rest).tail = registerCount n rest
  sched : ∀ p rest, p.sel = sel → Scheduled n rest → Scheduled 0 (segs ++ (c, p) :: rest)
  length : s.regs.length = n
  cur : s.cur = some c
  lt : c < n
  start : s.lastStart = chainStart acts n
  run : RegsOk x acts s.regs
  recs : acts.map (fun a => (a.reg, a.receipt, R1)) =
    tagged segs ++ (s.groups.flatMap (·.recs) ++ s.recs).map (c, ·)
  deps : s.deps = segs.map fun p => exportDEP p.2.groups p.2.extra
  mode : ∀ (i : Nat) (p : Nat × Part), segs[i]? = some p → p.2.mode = modes i
  parts : ∀ p ∈ segs, GroupsOk x p.2.groups ∧ ExtraOk p.2.extra
  pending : Pending x s

theorem tagged_snoc (segs : List (Nat × Part)) (p : Nat × Part) :
    tagged (segs ++ [p]) = tagged segs ++ (p.2.groups.flatMap (·.recs)).map (p.1, ·) := by
  simp [tagged]

theorem mode_snoc {segs : List (Nat × Part)} {modes : Nat → Mode}
    (h : ∀ (i : Nat) (p : Nat × Part), segs[i]? = some p → p.2.mode = modes i) {q : Nat × Part}
    (hq : q.2.mode = modes segs.length) :
    ∀ (i : Nat) (p : Nat × Part), (segs ++ [q])[i]? = some p → p.2.mode = modes i := by
  intro i p hp
  rw [List.getElem?_append] at hp
  split at hp
  · exact h i p hp
  · rename_i hi
    have hl := (List.getElem?_eq_some_iff.mp hp).1
    have : i = segs.length := by simp at hl; omega
    subst this
    simp at hp
    rw [← hp]
    exact hq

theorem RegsOk.start_ne {x : TestCtx} {acts : List Act} {regs : List CashRegister} (h : RegsOk x acts regs)
    (hr : regs ≠ []) : ∃ a, (actsOf acts (regs.length - 1)).head? = some a ∧
      chainStart acts regs.length = some (a.receipt.toJWS R1) := by
  have hp := List.length_pos_iff.mpr hr
  obtain ⟨a, l, e⟩ := List.exists_cons_of_ne_nil (h.ne (regs.length - 1) (by omega))
  exact ⟨a, by rw [e]; rfl, by rw [chainStart, if_neg (by omega), e]; rfl⟩

/-- Another receipt for the same DEP. -/
theorem LoopInv.same {x : TestCtx} {modes : Nat → Mode} {s s' : TestState} {done : List Instr} {acts : List Act}
    {segs : List (Nat × Part)} {sel : Select} {n c : Nat} (hs : LoopInv x modes s done acts segs sel n c)
    (hp : ∀ k ∈ x.keys, k.omitSign = false) {i : Instr} (hn : i.newDep = kNoNew)
    (h : x.step s i = .ok s') : ∃ a, LoopInv x modes s' (done ++ [i]) (acts ++ [a]) segs sel n c := by
  unfold TestCtx.step at h
  simp only [Res.bind_eq_ok] at h
  obtain ⟨o, ho, s1, h1, s2, h2, s3, h3, h4⟩ := h
  have e1 : s1 = s := by
    unfold TestCtx.newRegister at h1
    rw [if_neg (by rw [hn]; rintro ⟨h, -⟩; revert h; decide)] at h1
    exact (Except.ok.inj h1).symm
  subst e1
  obtain ⟨groups, recs, rfl, g1, g2, g3, g4⟩ := endGroup_same hs.pending hp hn h2
  have e3 : s3 = { s1 with groups, recs } := by
    unfold TestCtx.endDep at h3
    rw [if_pos hn] at h3
    exact (Except.ok.inj h3).symm
  subst e3
  obtain ⟨reg, reg', r, k1, k2, rfl⟩ := addReceipt_known (s := { s1 with groups, recs }) (c := c) hs.cur h4
  obtain ⟨k, hk, hser⟩ := device_serial ho k2
  have hno : i.newDep = c!"NO_NEW_DEP" := hn
  have hnc : i.newDep ≠ c!"NEW_CLUSTER_DEP" := by rw [hno]; decide
  refine ⟨⟨c, i, o, r⟩, ?_⟩
  have hrun := hs.run.known (a := ⟨c, i, o, r⟩) k1 k2
  refine {
    instrs := ?_
    order := ?_
    regs := ?_
    sels := ?_
    count := ?_
    sched := hs.sched
    length := ?_
    cur := hs.cur
    lt := hs.lt
    start := ?_
    run := hrun
    recs := ?_
    deps := hs.deps
    mode := hs.mode
    parts := hs.parts
    pending := ?_
    }
  · rw [List.map_append, hs.instrs]; rfl
  · intro a ha
    rcases List.mem_append.mp ha with ha | ha
    · exact hs.order a ha
    · rw [List.mem_singleton.mp ha]
      exact ho
  · intro rest
    rw [List.append_assoc, hs.regs]
    simp [registersOf, hno]
  · intro rest
    rw [List.append_assoc, hs.sels]
    simp [selectsOf, hno]
  · intro rest
    rw [List.append_assoc, hs.count]
    simp [registerCount, hnc]
  · show (s1.regs.set c reg').length = n
    rw [List.length_set, hs.length]
  · show s1.lastStart = _
    rw [hs.start]
    have hn0 : n ≠ 0 := by have := hs.lt; omega
    unfold chainStart
    rw [if_neg hn0, if_neg hn0, head_snoc _ (hs.run.ne (n - 1) (by rw [hs.length]; omega))]
  · rw [List.map_append, hs.recs]
    show _ = tagged segs ++ (groups.flatMap (·.recs) ++ (recs ++ [(r, R1)])).map (c, ·)
    rw [← List.append_assoc (groups.flatMap _), g1]
    simp
  · refine ⟨g2, g3, by simp, ⟨i.device, k, rfl, hk, ?_⟩, hs.pending.extra⟩
    intro hg r' hr'
    rcases List.mem_append.mp hr' with hr' | hr'
    · exact g4 hg k hk r' hr'
    · rw [List.mem_singleton.mp hr']
      exact hser

theorem truthy_jws (r : Receipt) : truthy (some (r.toJWS R1)) = true := by
  refine truthy_text.mpr ⟨_, rfl, fun h => ?_⟩
  have : '.' ∈ r.toJWS R1 := by simp [Receipt.toJWS, joinWith]
  rw [h] at this
  cases this

/-- The first receipt for a new register of the cluster. -/
theorem LoopInv.cluster {x : TestCtx} {modes : Nat → Mode} {s s' : TestState} {done : List Instr} {acts : List Act}
    {segs : List (Nat × Part)} {sel : Select} {n c : Nat} (hs : LoopInv x modes s done acts segs sel n c)
    (hp : ∀ k ∈ x.keys, k.omitSign = false) {i : Instr} (hn : i.newDep = kCluster)
    (h : x.step s i = .ok s') :
    ∃ a p, LoopInv x modes s' (done ++ [i]) (acts ++ [a]) (segs ++ [(c, p)]) .fresh (n + 1) n := by
  unfold TestCtx.step at h
  simp only [Res.bind_eq_ok] at h
  obtain ⟨o, ho, s1, h1, s2, h2, s3, h3, h4⟩ := h
  have hlen := hs.length
  have hlt := hs.lt
  have hreg : s.regs ≠ [] := by
    intro e
    rw [e] at hlen
    simp at hlen
    omega
  obtain ⟨a0, ha0, hst⟩ := hs.run.start_ne hreg
  have hst : s.lastStart = some (a0.receipt.toJWS R1) := by rw [hs.start, ← hlen, hst]
  have e1 : s1 = { s with cur := none, fresh := x.newReg acts s.regs.length, lastStart := none } := by
    unfold TestCtx.newRegister at h1
    rw [if_pos ⟨hn, by rw [hst]; exact truthy_jws _⟩] at h1
    simp only [CashRegister.make, Res.bind_eq_ok, ensure_eq_ok, Except.ok.injEq] at h1
    obtain ⟨reg, ⟨-, -, rfl⟩, rfl⟩ := h1
    rw [hs.start, ← hlen]
    rfl
  have hpend : Pending x s1 := by
    subst e1
    exact ⟨hs.pending.off, hs.pending.done, hs.pending.ne, hs.pending.device, hs.pending.extra⟩
  have hn' : i.newDep ≠ kNoNew := by rw [hn]; decide
  obtain ⟨g, e2, g1, g2⟩ := endGroup_dep hpend hp hn' h2
  obtain ⟨lastDep, extra, e3, hex⟩ := endDep_cluster hn h3
  have hext : s2.addTurnover = s1.addTurnover := by rw [e2]; rfl
  obtain ⟨reg', r, k2, e4⟩ := addReceipt_new (by rw [e3, e2, e1]) h4
  have k2 : (x.newReg acts s.regs.length).receipt o = (reg', .ok r) := by
    rw [e3, e2, e1] at k2
    exact k2
  obtain ⟨k, hk, hser⟩ := device_serial ho k2
  have hnc : i.newDep = c!"NEW_CLUSTER_DEP" := hn
  have hno : i.newDep ≠ c!"NO_NEW_DEP" := hn'
  have hgr : s1.groups = s.groups ∧ s1.recs = s.recs ∧ s1.deps = s.deps := by rw [e1]; exact ⟨rfl, rfl, rfl⟩
  refine ⟨⟨n, i, o, r⟩, ⟨modes segs.length, sel, s1.groups ++ [g], s1.addTurnover⟩, ?_⟩
  have hrun := hs.run.new (a := ⟨n, i, o, r⟩) (reg' := reg') hlen.symm k2
  have hacts : actsOf acts n = [] := hs.run.none (by omega)
  have regs' : s'.regs = s.regs ++ [reg'] := by rw [e4, e3, e2, e1]
  have recs' : s'.recs = [(r, R1)] := by rw [e4, e3, e2]; rfl
  have groups' : s'.groups = [] := by rw [e4, e3]
  refine {
    instrs := ?_
    order := ?_
    regs := ?_
    sels := ?_
    count := ?_
    sched := ?_
    length := ?_
    cur := ?_
    lt := by omega
    start := ?_
    run := by rw [regs']; exact hrun
    recs := ?_
    deps := ?_
    mode := ?_
    parts := ?_
    pending := ?_
    }
  · rw [List.map_append, hs.instrs]; rfl
  · intro a ha
    rcases List.mem_append.mp ha with ha | ha
    · exact hs.order a ha
    · rw [List.mem_singleton.mp ha]
      exact ho
  · intro rest
    rw [List.append_assoc, hs.regs]
    simp [registersOf, hnc]
  · intro rest
    rw [List.append_assoc, hs.sels]
    simp [selectsOf, hnc]
  · intro rest
    rw [List.append_assoc, hs.count]
    simp [registerCount, hnc]
  · intro p rest hp hr
    have := hs.sched ⟨modes segs.length, sel, s1.groups ++ [g], s1.addTurnover⟩ ((n, p) :: rest) rfl (.fresh n p rest hp hr)
    simpa using this
  · rw [regs', List.length_append, hlen]; rfl
  · rw [e4, e3, e2, e1]
    simp [hlen]
  · have : s'.lastStart = some (r.toJWS R1) := by rw [e4]
    rw [this, chainStart, if_neg (by omega), Nat.add_sub_cancel]
    rw [show actsOf (acts ++ [(⟨n, i, o, r⟩ : Act)]) n = actsOf acts n ++ [⟨n, i, o, r⟩] from actsOf_snoc_same acts ⟨n, i, o, r⟩, hacts]
    rfl
  · rw [List.map_append, hs.recs, tagged_snoc, groups', recs']
    simp [g2, hgr.1, hgr.2.1]
  · have : s'.deps = s2.deps ++ [exportDEP s2.groups s2.addTurnover] := by rw [e4, e3]
    rw [this, hext, e2, hgr.2.2, hs.deps]
    simp
  · exact mode_snoc hs.mode rfl
  · intro q hq
    rcases List.mem_append.mp hq with hq | hq
    · exact hs.parts q hq
    · rw [List.mem_singleton.mp hq]
      exact ⟨g1, hpend.extraOk⟩
  · have hex' : s'.extra = extra := by rw [e4, e3]
    have hsig : s'.prevSig = some i.device := by rw [e4]
    refine ⟨fun _ => groups', by simp [groups'], by simp [recs'], ⟨i.device, k, hsig, hk, ?_⟩, by rw [hex']; exact hex⟩
    intro _ r' hr'
    rw [recs', List.mem_singleton] at hr'
    rw [hr']
    exact hser

/-- The first receipt for a new DEP of a register that is known. -/
theorem LoopInv.continue {x : TestCtx} {modes : Nat → Mode} {s s' : TestState} {done : List Instr} {acts : List Act}
    {segs : List (Nat × Part)} {sel : Select} {n c : Nat} (hs : LoopInv x modes s done acts segs sel n c)
    (hp : ∀ k ∈ x.keys, k.omitSign = false) {i : Instr} (hn : i.newDep ≠ kNoNew) (hn' : i.newDep ≠ kCluster)
    (h : x.step s i = .ok s') :
    ∃ a p, LoopInv x modes s' (done ++ [i]) (acts ++ [a]) (segs ++ [(c, p)]) (.nth (i.contReg.getD c)) n (i.contReg.getD c) := by
  unfold TestCtx.step at h
  simp only [Res.bind_eq_ok] at h
  obtain ⟨o, ho, s1, h1, s2, h2, s3, h3, h4⟩ := h
  have hlen := hs.length
  have hlt := hs.lt
  have e1 : s1 = s := by
    unfold TestCtx.newRegister at h1
    rw [if_neg (by rintro ⟨h, -⟩; exact hn' h)] at h1
    exact (Except.ok.inj h1).symm
  subst e1
  obtain ⟨g, e2, g1, g2⟩ := endGroup_dep hs.pending hp hn h2
  obtain ⟨lastDep, extra, curIdx, e3, hex, hklt⟩ := endDep_continue (s := s2) (c := c) (by rw [e2]; exact hs.cur)
    (by rw [e2]; show c < s1.regs.length; omega) hn hn' h3
  have hext : s2.addTurnover = s1.addTurnover := by rw [e2]; rfl
  obtain ⟨reg, reg', r, k1, k2, e4⟩ := addReceipt_known (c := i.contReg.getD c) (by rw [e3]) h4
  have k1 : s1.regs[i.contReg.getD c]? = some reg := by
    rw [e3, e2] at k1
    exact k1
  have hklt : i.contReg.getD c < n := by rw [← hlen]; exact (List.getElem?_eq_some_iff.mp k1).1
  obtain ⟨k, hk, hser⟩ := device_serial ho k2
  have hnc : i.newDep ≠ c!"NEW_CLUSTER_DEP" := hn'
  have hno : i.newDep ≠ c!"NO_NEW_DEP" := hn
  have hgr : s2.groups = s1.groups ++ [g] ∧ s2.deps = s1.deps ∧ s2.regs = s1.regs ∧ s2.lastStart = s1.lastStart := by
    rw [e2]; exact ⟨rfl, rfl, rfl, rfl⟩
  revert hklt k1 e3 e4
  have hreg : ∀ rest, registersOf n c (i :: rest) = i.contReg.getD c :: registersOf n (i.contReg.getD c) rest := by
    intro rest
    simp [registersOf, hnc, hno]
  have hsel : ∀ rest, selectsOf n c (i :: rest) = .nth (i.contReg.getD c) :: selectsOf n (i.contReg.getD c) rest := by
    intro rest
    simp [selectsOf, hnc, hno]
  revert hreg hsel
  generalize i.contReg.getD c = d
  intro hreg hsel e3 e4 k1 hd
  refine ⟨⟨d, i, o, r⟩, ⟨modes segs.length, sel, s1.groups ++ [g], s1.addTurnover⟩, ?_⟩
  have hrun := hs.run.known (a := ⟨d, i, o, r⟩) k1 k2
  have regs' : s'.regs = s1.regs.set d reg' := by rw [e4, e3, e2]
  have recs' : s'.recs = [(r, R1)] := by rw [e4, e3, e2]; rfl
  have groups' : s'.groups = [] := by rw [e4, e3]
  refine {
    instrs := ?_
    order := ?_
    regs := ?_
    sels := ?_
    count := ?_
    sched := ?_
    length := by rw [regs', List.length_set, hlen]
    cur := by rw [e4, e3]
    lt := hd
    start := ?_
    run := by rw [regs']; exact hrun
    recs := ?_
    deps := ?_
    mode := mode_snoc hs.mode rfl
    parts := ?_
    pending := ?_
    }
  · rw [List.map_append, hs.instrs]; rfl
  · intro a ha
    rcases List.mem_append.mp ha with ha | ha
    · exact hs.order a ha
    · rw [List.mem_singleton.mp ha]
      exact ho
  · intro rest
    rw [List.append_assoc, hs.regs, List.singleton_append, hreg]
    simp
  · intro rest
    rw [List.append_assoc, hs.sels, List.singleton_append, hsel]
    simp
  · intro rest
    rw [List.append_assoc, hs.count]
    simp [registerCount, hnc]
  · intro p rest hp hr
    have := hs.sched ⟨modes segs.length, sel, s1.groups ++ [g], s1.addTurnover⟩ ((d, p) :: rest) rfl
      (.known n d p rest hd (.inl hp) hr)
    simpa using this
  · have : s'.lastStart = s1.lastStart := by rw [e4, e3, e2]
    rw [this, hs.start]
    have hn0 : n ≠ 0 := by omega
    unfold chainStart
    rw [if_neg hn0, if_neg hn0, head_snoc _ (hs.run.ne (n - 1) (by omega))]
  · rw [List.map_append, hs.recs, tagged_snoc, groups', recs']
    simp [g2]
  · have : s'.deps = s2.deps ++ [exportDEP s2.groups s2.addTurnover] := by rw [e4, e3]
    rw [this, hext, hgr.1, hgr.2.1, hs.deps]
    simp
  · intro q hq
    rcases List.mem_append.mp hq with hq | hq
    · exact hs.parts q hq
    · rw [List.mem_singleton.mp hq]
      exact ⟨g1, hs.pending.extraOk⟩
  · have hex' : s'.extra = extra := by rw [e4, e3]
    have hsig : s'.prevSig = some i.device := by rw [e4]
    refine ⟨fun _ => groups', by simp [groups'], by simp [recs'], ⟨i.device, k, hsig, hk, ?_⟩, by rw [hex']; exact hex⟩
    intro _ r' hr'
    rw [recs', List.mem_singleton] at hr'
    rw [hr']
    exact hser

/-- The whole loop, once there is a receipt. -/
theorem LoopInv.steps {x : TestCtx} {modes : Nat → Mode} (hp : ∀ k ∈ x.keys, k.omitSign = false) {l : List Instr}
    {s s' : TestState} {done : List Instr} {acts : List Act}
    {segs : List (Nat × Part)} {sel : Select} {n c : Nat} (hs : LoopInv x modes s done acts segs sel n c)
    (h : x.steps s l = .ok s') :
    ∃ acts segs sel n c, LoopInv x modes s' (done ++ l) acts segs sel n c := by
  induction l generalizing s done acts segs sel n c with
  | nil =>
    cases h
    rw [List.append_nil]
    exact ⟨_, _, _, _, _, hs⟩
  | cons i l ih =>
    simp only [TestCtx.steps, Res.bind_eq_ok] at h
    obtain ⟨s1, h1, h2⟩ := h
    rw [show done ++ i :: l = (done ++ [i]) ++ l by simp]
    by_cases hn : i.newDep = kNoNew
    · obtain ⟨a, h3⟩ := hs.same hp hn h1
      exact ih h3 h2
    · by_cases hn' : i.newDep = kCluster
      · obtain ⟨a, p, h3⟩ := hs.cluster hp hn' h1
        exact ih h3 h2
      · obtain ⟨a, p, h3⟩ := hs.continue hp hn hn' h1
        exact ih h3 h2

/-- The first receipt. -/
theorem LoopInv.first {x : TestCtx} {modes : Nat → Mode} {s' : TestState} {i : Instr}
    (h : x.step { fresh := ⟨x.spec.cashBoxId, none, 0, x.key, x.size⟩ } i = .ok s') :
    ∃ a, LoopInv x modes s' [i] [a] [] .fresh 1 0 := by
  unfold TestCtx.step at h
  simp only [Res.bind_eq_ok] at h
  obtain ⟨o, ho, s1, h1, s2, h2, s3, h3, h4⟩ := h
  have e1 : s1 = { fresh := ⟨x.spec.cashBoxId, none, 0, x.key, x.size⟩ } := by
    unfold TestCtx.newRegister at h1
    rw [if_neg (by rintro ⟨-, h⟩; cases h)] at h1
    exact (Except.ok.inj h1).symm
  have hn : i.newDep = kNoNew := by
    by_contra hn
    have e2 : s2 = { s1 with groups := s1.groups ++ [⟨s1.recs, none, []⟩], recs := [] } := by
      subst e1
      unfold TestCtx.endGroup at h2
      cases hc : x.spec.groups <;> simp only [hc, hn, ne_eq, not_false_eq_true, if_true, Except.ok.injEq] at h2 <;>
        exact h2.symm
    unfold TestCtx.endDep at h3
    rw [if_neg hn, e2, e1] at h3
    simp only [pySet, Res.bind_eq_ok] at h3
    obtain ⟨l, hl, -⟩ := h3
    simp at hl
  have e2 : s2 = s1 := by
    subst e1
    unfold TestCtx.endGroup at h2
    cases hc : x.spec.groups <;> simp only [hc, hn, ne_eq, not_true, if_false, Except.ok.injEq] at h2 <;>
      exact h2.symm
  have e3 : s3 = s1 := by
    unfold TestCtx.endDep at h3
    rw [if_pos hn, e2] at h3
    exact (Except.ok.inj h3).symm
  rw [e3, e1] at h4
  obtain ⟨reg', r, k2, rfl⟩ := addReceipt_new rfl h4
  obtain ⟨k, hk, hser⟩ := device_serial ho k2
  have hrun := RegsOk.new (x := x) (acts := []) (regs := []) ⟨by simp, by simp, by simp⟩ (a := ⟨0, i, o, r⟩)
    (reg' := reg') rfl k2
  refine ⟨⟨0, i, o, r⟩, {
    instrs := rfl
    order := by simpa using ho
    regs := fun rest => rfl
    sels := fun rest => rfl
    count := fun rest => rfl
    sched := fun p rest hp hr => .fresh 0 p rest hp hr
    length := rfl
    cur := rfl
    lt := by omega
    start := ?_
    run := hrun
    recs := rfl
    deps := rfl
    mode := by simp
    parts := by simp
    pending := ⟨fun _ => rfl, by simp, by simp, ⟨i.device, k, rfl, hk, ?_⟩, by simp [ExtraOk, Dict.keys]⟩
    }⟩
  · simp [chainStart, actsOf]
  · intro _ r' hr'
    simp only [List.nil_append, List.mem_singleton] at hr'
    rw [hr']
    exact hser

/-- What the result is: the receipts made and the DEPs exported. -/
structure TestResult (x : TestCtx) (modes : Nat → Mode) (deps : List Json) (acts : List Act) (segs : List (Nat × Part)) (n : Nat) : Prop where
  instrs : acts.map (·.instr) = x.spec.instrs
  order : ∀ a ∈ acts, x.order a.instr = .ok a.order
  regs : registers x.spec.instrs = acts.map (·.reg)
  sels : selects x.spec.instrs = segs.map (·.2.sel)
  count : n = registerCount 1 x.spec.instrs.tail
  sched : Scheduled 0 segs
  run : ∃ regs, regs.length = n ∧ RegsOk x acts regs
  recs : acts.map (fun a => (a.reg, a.receipt, R1)) = tagged segs
  deps : deps = segs.map fun p => exportDEP p.2.groups p.2.extra
  mode : ∀ (i : Nat) (p : Nat × Part), segs[i]? = some p → p.2.mode = modes i
  parts : ∀ p ∈ segs, GroupsOk x p.2.groups ∧ ExtraOk p.2.extra

/-- The result, and what the last DEP consists of. -/
theorem loop_result_last {x : TestCtx} (modes : Nat → Mode) (hp : ∀ k ∈ x.keys, k.omitSign = false) (hne : x.spec.instrs ≠ [])
    {s : TestState} {deps : List Json} (h : x.steps { fresh := ⟨x.spec.cashBoxId, none, 0, x.key, x.size⟩ } x.spec.instrs = .ok s)
    (hd : x.finish s = .ok deps) : ∃ acts segs n c p g, TestResult x modes deps acts (segs ++ [(c, p)]) n ∧
      p.groups = s.groups ++ [g] ∧ g.recs = s.recs ∧ s.deps = (segs.map fun p => exportDEP p.2.groups p.2.extra) ∧
      s.cur = some c ∧ RegsOk x acts s.regs ∧ ExtraOk s.extra := by
  obtain ⟨i, l, e⟩ := List.exists_cons_of_ne_nil hne
  rw [e] at h
  simp only [TestCtx.steps, Res.bind_eq_ok] at h
  obtain ⟨s1, h1, h2⟩ := h
  obtain ⟨a, h3⟩ := LoopInv.first (modes := modes) h1
  obtain ⟨acts, segs, sel, n, c, hs⟩ := h3.steps hp h2
  rw [show [i] ++ l = x.spec.instrs from e.symm] at hs
  obtain ⟨g, g1, g2, hd⟩ : ∃ g, GroupsOk x (s.groups ++ [g]) ∧ g.recs = s.recs ∧
      s.deps ++ [exportDEP (s.groups ++ [g]) s.addTurnover] = deps := by
    unfold TestCtx.finish at hd
    by_cases hc : x.spec.groups = true
    · rw [if_pos hc] at hd
      simp only [Res.bind_eq_ok] at hd
      obtain ⟨sig, h4, g, h5, h6⟩ := hd
      have := hs.pending.close hp (g := g) (by rw [if_pos hc, h4]; exact h5)
      exact ⟨g, this.1, this.2, Except.ok.inj h6⟩
    · rw [if_neg hc] at hd
      have := hs.pending.close hp (g := ⟨s.recs, none, []⟩) (by rw [if_neg hc])
      exact ⟨_, this.1, this.2, Except.ok.inj hd⟩
  refine ⟨acts, segs, n, c, ⟨modes segs.length, sel, s.groups ++ [g], s.addTurnover⟩, g, {
    instrs := hs.instrs
    order := hs.order
    regs := by simpa [registersOf] using hs.regs []
    sels := by simpa [selectsOf] using hs.sels []
    count := by simpa [registerCount] using (hs.count []).symm
    sched := hs.sched ⟨modes segs.length, sel, s.groups ++ [g], s.addTurnover⟩ [] rfl (.nil n)
    run := ⟨s.regs, hs.length, hs.run⟩
    recs := by rw [hs.recs, tagged_snoc]; simp [g2]
    deps := by rw [← hd, hs.deps]; simp
    mode := mode_snoc hs.mode rfl
    parts := ?_ }, rfl, g2, hs.deps, hs.cur, hs.run, hs.pending.extra⟩
  intro q hq
  rcases List.mem_append.mp hq with hq | hq
  · exact hs.parts q hq
  · rw [List.mem_singleton.mp hq]
    exact ⟨g1, hs.pending.extraOk⟩

theorem loop_result {x : TestCtx} (modes : Nat → Mode) (hp : ∀ k ∈ x.keys, k.omitSign = false) (hne : x.spec.instrs ≠ [])
    {s : TestState} {deps : List Json} (h : x.steps { fresh := ⟨x.spec.cashBoxId, none, 0, x.key, x.size⟩ } x.spec.instrs = .ok s)
    (hd : x.finish s = .ok deps) : ∃ acts segs n, TestResult x modes deps acts segs n := by
  obtain ⟨acts, segs, n, c, p, g, hr, -⟩ := loop_result_last modes hp hne h hd
  exact ⟨_, _, _, hr⟩

end

end RKSV
