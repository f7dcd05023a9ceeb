import Verif.Spec.TestLinks
import Verif.Props.RunTest
/-
C90: what `runTest` writes into the DEPs about their relations and turnovers.
-/
namespace RKSV

section
variable [PyEnv]

/-! ### Dictionaries -/

omit [PyEnv] in
theorem get?_update {α : Type} (d : Dict α) {e : Dict α} (h : Dict.Ok e) (k : Str) :
    Dict.get? (Dict.update d e) k = (Dict.get? e k).or (Dict.get? d k) := by
  induction e generalizing d with
  | nil => rfl
  | cons p e ih =>
    obtain ⟨q, v⟩ := p
    have h : (q :: Dict.keys e).Nodup := h
    rw [List.nodup_cons] at h
    show Dict.get? (Dict.update (d.set q v) e) k = _
    rw [ih _ h.2, Dict.get?_set]
    by_cases hq : q = k
    · subst hq
      have : Dict.get? e q = none := by
        cases hg : Dict.get? e q with
        | none => rfl
        | some w => exact absurd (Dict.mem_keys_iff.mpr (by rw [hg]; rfl)) h.1
      simp [this, Dict.get?]
    · simp [Dict.get?, hq]

/-! ### The parts of the loop -/

theorem endGroup_frame {x : TestCtx} {i : Instr} {s s' : TestState} (h : x.endGroup i s = .ok s') :
    ∃ groups recs, s' = { s with groups, recs } := by
  unfold TestCtx.endGroup at h
  split at h
  · split at h
    · rw [Res.bind_eq_ok] at h
      obtain ⟨g, -, h⟩ := h
      exact ⟨_, _, (Except.ok.inj h).symm⟩
    · exact ⟨s.groups, s.recs, (Except.ok.inj h).symm⟩
  · split at h
    · exact ⟨_, _, (Except.ok.inj h).symm⟩
    · exact ⟨s.groups, s.recs, (Except.ok.inj h).symm⟩

omit [PyEnv] in
theorem pySet_ok {α : Type} {l l' : List α} {i : Int} {v : α} (h : pySet l i v = .ok l') :
    l'.length = l.length ∧ ∀ c : Nat, i = c → l' = l.set c v := by
  unfold pySet at h
  dsimp only at h
  by_cases hi : i < 0
  · simp only [hi, if_true] at h
    split at h
    · rw [← Except.ok.inj h]
      refine ⟨List.length_set, ?_⟩
      rintro c rfl
      omega
    · cases h
  · simp only [hi, if_false] at h
    split at h
    · rw [← Except.ok.inj h]
      refine ⟨List.length_set, ?_⟩
      rintro c rfl
      rfl
    · cases h

/-! ### The invariant -/

/-- What a DEP says about others; the part that needs the condition `P` is weaker without it. -/
def Linked (P : Prop) (regs : List Nat) (k : Nat) (d : Dict Json) : Prop :=
  ∀ r, regs[k]? = some r →
    ((∀ q, q < k → regs[q]? ≠ some r) ∧ RefersToStart regs k r d) ∨
    ((∃ q, q < k ∧ regs[q]? = some r) ∧ Dict.get? d kContinued = some (.bool true) ∧ (P → RefersToLast regs k r d))

omit [PyEnv] in
theorem Linked.congr {P : Prop} {regs : List Nat} {k : Nat} {d e : Dict Json} (h : Linked P regs k d)
    (h1 : Dict.get? e kContinued = Dict.get? d kContinued) (h2 : Dict.get? e kPrevious = Dict.get? d kPrevious) :
    Linked P regs k e := by
  intro r hr
  rcases h r hr with ⟨a, b⟩ | ⟨a, b, c⟩
  · refine .inl ⟨a, ?_⟩
    unfold RefersToStart at b ⊢
    rw [show Dict.get? e c!"Fortgesetztes-DEP" = _ from h1, show Dict.get? e c!"Vorheriges-DEP" = _ from h2]
    exact b
  · refine .inr ⟨a, by rw [h1]; exact b, fun p => ?_⟩
    have := c p
    unfold RefersToLast at this ⊢
    rw [show Dict.get? e c!"Vorheriges-DEP" = _ from h2]
    exact this

omit [PyEnv] in
theorem Linked.append {P : Prop} {regs : List Nat} {k : Nat} {d : Dict Json} (h : Linked P regs k d) (hk : k < regs.length)
    (l : List Nat) : Linked P (regs ++ l) k d := by
  have e : ∀ q, q ≤ k → (regs ++ l)[q]? = regs[q]? := fun q hq => List.getElem?_append_left (by omega)
  intro r hr
  rw [e k (Nat.le_refl _)] at hr
  rcases h r hr with ⟨a, b⟩ | ⟨⟨q, a, a'⟩, b, c⟩
  · refine .inl ⟨fun q hq => by rw [e q (by omega)]; exact a q hq, b.1, b.2.1, fun h0 => ?_⟩
    obtain ⟨p, p1, p2, p3, p4⟩ := b.2.2 h0
    exact ⟨p, p1, p2, by rw [e p (by omega)]; exact p3, fun q hq => by rw [e q (by omega)]; exact p4 q hq⟩
  · refine .inr ⟨⟨q, a, by rw [e q (by omega)]; exact a'⟩, b, fun hp => ?_⟩
    obtain ⟨p, p1, p2, p3, p4⟩ := c hp
    exact ⟨p, p1, p2, by rw [e p (by omega)]; exact p3, fun q h1 h2 => by rw [e q (by omega)]; exact p4 q h1 h2⟩

/-- After the instructions `done`: `regs` are the registers of the DEPs including the one that is being written, `segs`
and `cur` the instructions for them. -/
structure LinkInv (P : Prop) (s : TestState) (done : List Instr) (regs : List Nat) (segs : List (List Instr))
    (cur : List Instr) (n c : Nat) : Prop where
  regsEq : ∀ rest, depRegisters (done ++ rest) = regs ++ depRegistersOf n c rest
  segsEq : ∀ rest, depInstrs (done ++ rest) = segs ++ segmentsFrom cur rest
  len : regs.length = s.deps.length + 1
  slen : segs.length = s.deps.length
  turnover : ∃ i, cur.getLast? = some i ∧ s.turnover = i.turnover
  last : regs[s.deps.length]? = some c
  known : ∀ (k r : Nat), regs[k]? = some r → r < n
  all : ∀ r, r < n → ∃ q, q < regs.length ∧ regs[q]? = some r
  number : s.regs.length = n
  reg : s.cur = some c
  lt : c < n
  start : truthy s.lastStart = true
  startAt : regs[s.prevStartDep]? = some (n - 1) ∧ ∀ q, q < s.prevStartDep → regs[q]? ≠ some (n - 1)
  lastLen : s.lastDep.length = n
  idx : P → s.curIdx = c
  lastDep : P → ∀ k, k < n → k ≠ c → ∃ p : Nat, s.lastDep[k]? = some p ∧ p < s.deps.length ∧ regs[p]? = some k ∧
    ∀ q, p < q → q < s.deps.length → regs[q]? ≠ some k
  extra : Linked P regs s.deps.length s.extra
  ok : Dict.Ok s.extra
  plain : Dict.get? s.extra kTurnover = none
  deps : ∀ (k : Nat) (dep : Json), s.deps[k]? = some dep → ∃ d seg, dep = .obj d ∧ segs[k]? = some seg ∧
    Linked P regs k d ∧ HasTurnover seg d
  read : P → ∃ seen m, registerIdxs [] 0 s.deps = .ok (seen, m) ∧ regs = seen ++ [c] ∧
    ((Dict.get? s.extra kContinued = none ∧ c = m ∧ n = m + 1) ∨
     (Dict.get? s.extra kContinued = some (.bool true) ∧ n = m ∧
       ∃ p : Nat, Dict.get? s.extra kPrevious = some (.int p) ∧ seen[p]? = some c))

/-- The DEP that is exported. -/
theorem LinkInv.export {P : Prop} {s : TestState} {done : List Instr} {regs : List Nat} {segs : List (List Instr)}
    {cur : List Instr} {n c : Nat} (h : LinkInv P s done regs segs cur n c) (groups : List (SGroup (Receipt × Str))) :
    ∃ d, exportDEP groups s.addTurnover = .obj d ∧ Linked P regs s.deps.length d ∧ HasTurnover cur d ∧
      (P → registerIdxs [] 0 (s.deps ++ [exportDEP groups s.addTurnover]) = .ok (regs, n)) := by
  have hok : Dict.Ok s.addTurnover := by
    unfold TestState.addTurnover
    split
    · split
      · exact h.ok.set _ _
      · exact h.ok
    · exact h.ok
  have hget : ∀ k, k ≠ kTurnover → Dict.get? s.addTurnover k = Dict.get? s.extra k := by
    intro k hk
    unfold TestState.addTurnover
    split
    · split
      · rw [Dict.get?_set, if_neg (Ne.symm hk)]
      · rfl
    · rfl
  have hdep : ∀ k, k ≠ kGroups → Dict.get? (Dict.update [(kGroups, .arr (groups.map exportGroup))] s.addTurnover) k =
      Dict.get? s.addTurnover k := by
    intro k hk
    rw [get?_update _ hok]
    have : Dict.get? ([(kGroups, .arr (groups.map exportGroup))] : Dict Json) k = none := by
      simp [Dict.get?, Ne.symm hk]
    rw [this, Option.or_none]
  have g1 := (hdep kContinued (by decide)).trans (hget kContinued (by decide))
  have g2 := (hdep kPrevious (by decide)).trans (hget kPrevious (by decide))
  refine ⟨_, rfl, h.extra.congr g1 g2, ?_, ?_⟩
  · obtain ⟨i, hi, ht⟩ := h.turnover
    refine ⟨i, hi, ?_⟩
    have g3 := hdep kTurnover (by decide)
    rw [show c!"Umsatz-gesamt" = kTurnover from rfl, g3]
    unfold TestState.addTurnover
    rw [ht]
    cases hit : i.turnover with
    | none => exact .inr ⟨.inl rfl, h.plain⟩
    | some m =>
      by_cases hm : m = .fin 0
      · subst hm
        exact .inr ⟨.inr rfl, h.plain⟩
      · refine .inl ⟨m, rfl, hm, ?_⟩
        show Dict.get? (if m ≠ .fin 0 then _ else _) _ = _
        rw [if_pos hm, Dict.get?_set, if_pos rfl]
  · intro p
    obtain ⟨seen, m, r1, rfl, r2⟩ := h.read p
    have happ : ∀ (l : List Json) (a : List Nat) (b : Nat) (dep : Json), registerIdxs [] 0 l = .ok (a, b) →
        registerIdxs [] 0 (l ++ [dep]) = registerIdx a b dep := by
      intro l a b dep
      generalize ([] : List Nat) = a0
      generalize 0 = b0
      induction l generalizing a0 b0 with
      | nil =>
        rintro ⟨⟩
        show (registerIdx a b dep >>= fun p => registerIdxs p.1 p.2 []) = _
        cases registerIdx a b dep with
        | error e => rfl
        | ok p => rfl
      | cons q l ih =>
        intro hl
        simp only [registerIdxs, Res.bind_eq_ok] at hl
        obtain ⟨⟨a1, b1⟩, h1, h2⟩ := hl
        simp only [List.cons_append, registerIdxs, h1, Res.ok_bind]
        exact ih _ _ h2
    rw [happ _ _ _ _ r1]
    unfold registerIdx
    show (orErr (Json.asObj (.obj _)) _ >>= _) = _
    simp only [Json.asObj, orErr, Res.ok_bind, g1, g2]
    rcases r2 with ⟨e1, e2, e3⟩ | ⟨e1, e2, p, e3, e4⟩
    · rw [e1, e2, e3]
    · simp only [e1, e3, Res.ok_bind, Json.asIndex, Int.natCast_nonneg, if_true, Int.toNat_natCast, e4, e2]

omit [PyEnv] in
theorem Linked.of_new {P : Prop} {regs : List Nat} {k n : Nat} {d : Dict Json} (hl : regs.length = k) (hk : k ≠ 0)
    (hn : ∀ (q r : Nat), regs[q]? = some r → r < n) {p : Nat} (hp : regs[p]? = some (n - 1))
    (hf : ∀ q, q < p → regs[q]? ≠ some (n - 1)) (h1 : Dict.get? d kContinued = none)
    (h2 : Dict.get? d kPrevious = some (.int p)) : Linked P (regs ++ [n]) k d := by
  subst hl
  intro r hr
  simp only [List.length_append, List.length_singleton, Nat.lt_add_one, List.getElem?_eq_getElem,
    List.getElem_append_right, Nat.le_refl, Nat.sub_self, List.getElem_singleton, Option.some.injEq] at hr
  subst hr
  have hpl := (List.getElem?_eq_some_iff.mp hp).1
  refine .inl ⟨fun q hq => ?_, h1, fun h0 => absurd h0 hk, fun _ => ⟨p, hpl, h2, ?_, fun q hq => ?_⟩⟩
  · rw [List.getElem?_append_left hq]
    intro e
    exact absurd (hn q n e) (Nat.lt_irrefl _)
  · rw [List.getElem?_append_left hpl]
    exact hp
  · rw [List.getElem?_append_left (by omega)]
    exact hf q hq

theorem LinkInv.frame {P : Prop} {s : TestState} {done : List Instr} {regs : List Nat} {segs : List (List Instr)}
    {cur : List Instr} {n c : Nat} (h : LinkInv P s done regs segs cur n c) (groups recs) :
    LinkInv P { s with groups, recs } done regs segs cur n c := by
  cases h
  constructor <;> assumption

/-- The same for the lists of DEPs. -/
theorem LinkInv.deps_snoc {P : Prop} {s : TestState} {done : List Instr} {regs : List Nat} {segs : List (List Instr)}
    {cur : List Instr} {n c : Nat} (h : LinkInv P s done regs segs cur n c) (groups : List (SGroup (Receipt × Str))) (r : List Nat) :
    ∀ (k : Nat) (dep : Json), (s.deps ++ [exportDEP groups s.addTurnover])[k]? = some dep →
      ∃ d seg, dep = .obj d ∧ (segs ++ [cur])[k]? = some seg ∧ Linked P (regs ++ r) k d ∧ HasTurnover seg d := by
  intro k dep hk
  have hl := (List.getElem?_eq_some_iff.mp hk).1
  rw [List.length_append, List.length_singleton] at hl
  by_cases hkl : k < s.deps.length
  · rw [List.getElem?_append_left hkl] at hk
    obtain ⟨d, seg, h1, h2, h3, h4⟩ := h.deps k dep hk
    exact ⟨d, seg, h1, by rw [List.getElem?_append_left (by rw [h.slen]; exact hkl)]; exact h2,
      h3.append (by rw [h.len]; omega) r, h4⟩
  · have : k = s.deps.length := by omega
    subst this
    simp only [List.length_append, List.length_singleton, Nat.lt_add_one, List.getElem?_eq_getElem,
      List.getElem_append_right, Nat.le_refl, Nat.sub_self, List.getElem_singleton, Option.some.injEq] at hk
    obtain ⟨d, h1, h2, h3, -⟩ := h.export groups
    refine ⟨d, cur, hk.symm.trans h1, ?_, h2.append (by rw [h.len]; omega) r, h3⟩
    rw [← h.slen]
    simp

/-- What is known about the last DEPs of the registers once a DEP is finished. -/
theorem LinkInv.lasts {P : Prop} {s : TestState} {done : List Instr} {regs : List Nat} {segs : List (List Instr)}
    {cur : List Instr} {n c : Nat} (h : LinkInv P s done regs segs cur n c) {l : List Nat}
    (hl : pySet s.lastDep s.curIdx s.deps.length = .ok l) :
    l.length = n ∧ (P → ∀ k, k < n → ∃ p : Nat, l[k]? = some p ∧ p < s.deps.length + 1 ∧ regs[p]? = some k ∧
      ∀ q, p < q → q < s.deps.length + 1 → regs[q]? ≠ some k) := by
  obtain ⟨h1, h2⟩ := pySet_ok hl
  refine ⟨h1.trans h.lastLen, fun hp k hk => ?_⟩
  rw [h2 c (h.idx hp)]
  by_cases hkc : k = c
  · subst hkc
    exact ⟨s.deps.length, List.getElem?_set_self (by rw [h.lastLen]; exact hk), by omega, h.last, fun q _ _ => by omega⟩
  · obtain ⟨p, p1, p2, p3, p4⟩ := h.lastDep hp k hk hkc
    refine ⟨p, by rw [List.getElem?_set_ne (Ne.symm hkc)]; exact p1, by omega, p3, fun q q1 q2 => ?_⟩
    by_cases hq : q = s.deps.length
    · subst hq
      rw [h.last]
      exact fun e => hkc (Option.some.inj e).symm
    · exact p4 q q1 (by omega)

/-- Another receipt for the same DEP. -/
theorem LinkInv.same {P : Prop} {x : TestCtx} {s s' : TestState} {done : List Instr} {regs : List Nat} {segs : List (List Instr)}
    {cur : List Instr} {n c : Nat} (hs : LinkInv P s done regs segs cur n c) {i : Instr} (hn : i.newDep = kNoNew)
    (h : x.step s i = .ok s') : LinkInv P s' (done ++ [i]) regs segs (cur ++ [i]) n c := by
  unfold TestCtx.step at h
  simp only [Res.bind_eq_ok] at h
  obtain ⟨o, ho, s1, h1, s2, h2, s3, h3, h4⟩ := h
  have e1 : s1 = s := by
    unfold TestCtx.newRegister at h1
    rw [if_neg (by rw [hn]; exact fun h => absurd h.1 (by decide))] at h1
    exact (Except.ok.inj h1).symm
  subst e1
  obtain ⟨groups, recs, rfl⟩ := endGroup_frame h2
  unfold TestCtx.endDep at h3
  rw [if_pos hn] at h3
  cases h3
  obtain ⟨reg, reg', r, -, -, rfl⟩ := addReceipt_known (s := { s1 with groups, recs }) (c := c) hs.reg h4
  exact {
    regsEq := fun rest => by
      rw [List.append_assoc, hs.regsEq]
      simp [depRegistersOf, show i.newDep = c!"NO_NEW_DEP" from hn]
    segsEq := fun rest => by
      rw [List.append_assoc, hs.segsEq]
      simp [segmentsFrom, show i.newDep = c!"NO_NEW_DEP" from hn]
    len := hs.len
    slen := hs.slen
    turnover := ⟨i, by simp, rfl⟩
    last := hs.last
    known := hs.known
    all := hs.all
    number := by
      show (s1.regs.set _ _).length = n
      rw [List.length_set]
      exact hs.number
    reg := hs.reg
    lt := hs.lt
    start := hs.start
    startAt := hs.startAt
    lastLen := hs.lastLen
    idx := hs.idx
    lastDep := hs.lastDep
    extra := hs.extra
    ok := hs.ok
    plain := hs.plain
    deps := hs.deps
    read := hs.read }

omit [PyEnv] in
theorem getElem?_snoc {α : Type} (l : List α) (a : α) : (l ++ [a])[l.length]? = some a := by simp

/-- A DEP of a new register. -/
theorem LinkInv.cluster {P : Prop} {x : TestCtx} {s s' : TestState} {done : List Instr} {regs : List Nat} {segs : List (List Instr)}
    {cur : List Instr} {n c : Nat} (hs : LinkInv P s done regs segs cur n c) {i : Instr} (hn : i.newDep = kCluster)
    (hP : P → c = n - 1) (h : x.step s i = .ok s') :
    LinkInv P s' (done ++ [i]) (regs ++ [n]) (segs ++ [cur]) [i] (n + 1) n := by
  have hno : i.newDep ≠ c!"NO_NEW_DEP" := by
    rw [hn]
    decide
  have hcl : i.newDep = c!"NEW_CLUSTER_DEP" := hn
  unfold TestCtx.step at h
  simp only [Res.bind_eq_ok] at h
  obtain ⟨o, ho, s1, h1, s2, h2, s3, h3, h4⟩ := h
  unfold TestCtx.newRegister at h1
  rw [if_pos ⟨hn, hs.start⟩] at h1
  simp only [Res.bind_eq_ok, Except.ok.injEq] at h1
  obtain ⟨reg, -, rfl⟩ := h1
  obtain ⟨groups, recs, rfl⟩ := endGroup_frame h2
  unfold TestCtx.endDep at h3
  rw [if_neg (show i.newDep ≠ kNoNew from hno)] at h3
  simp only [hn, if_true, Res.bind_eq_ok, Except.ok.injEq] at h3
  obtain ⟨l, hl, rfl⟩ := h3
  obtain ⟨reg', r, -, rfl⟩ := addReceipt_new rfl h4
  obtain ⟨hll, hlast⟩ := hs.lasts hl
  have hpos : 0 < n := by have := hs.lt; omega
  have hg : ∀ q, q < s.deps.length + 1 → (regs ++ [n])[q]? = regs[q]? := fun q hq =>
    List.getElem?_append_left (by rw [hs.len]; exact hq)
  have hnew : (regs ++ [n])[s.deps.length + 1]? = some n := by
    rw [← hs.len]
    exact getElem?_snoc _ _
  obtain ⟨d, hd, -, -, hread⟩ := hs.export groups
  refine {
    regsEq := fun rest => ?_
    segsEq := fun rest => ?_
    len := by simp [hs.len]
    slen := by simp [hs.slen]
    turnover := ⟨i, rfl, rfl⟩
    last := by simpa using hnew
    known := ?_
    all := ?_
    number := by simp [hs.number]
    reg := by simp [hs.number]
    lt := Nat.lt_succ_self _
    start := truthy_jws _
    startAt := ?_
    lastLen := by simp [hll]
    idx := fun p => ?_
    lastDep := fun p k hk hkn => ?_
    extra := ?_
    ok := by simp [Dict.Ok, Dict.keys]
    plain := rfl
    deps := hs.deps_snoc groups [n]
    read := fun p => ⟨regs, n, hread p, rfl, .inl ⟨rfl, rfl, rfl⟩⟩ }
  · rw [List.append_assoc, hs.regsEq]
    simp [depRegistersOf, hcl]
  · rw [List.append_assoc, hs.segsEq]
    simp [segmentsFrom, hno]
  · intro k r hk
    by_cases hkl : k < s.deps.length + 1
    · rw [hg k hkl] at hk
      have := hs.known k r hk
      omega
    · have := (List.getElem?_eq_some_iff.mp hk).1
      have : k = s.deps.length + 1 := by simp [hs.len] at this; omega
      rw [this, hnew] at hk
      cases hk
      omega
  · intro r hr
    by_cases hrn : r = n
    · exact ⟨s.deps.length + 1, by simp [hs.len], by rw [hrn]; exact hnew⟩
    · obtain ⟨q, hq, hq'⟩ := hs.all r (by omega)
      exact ⟨q, by simp; omega, by rw [hg q (by rw [← hs.len]; exact hq)]; exact hq'⟩
  · simp only [List.length_append, List.length_singleton, Nat.add_sub_cancel]
    refine ⟨hnew, fun q hq => ?_⟩
    rw [hg q hq]
    intro e
    exact absurd (hs.known q n e) (Nat.lt_irrefl _)
  · show s.curIdx + 1 = _
    rw [hs.idx p, hP p]
    omega
  · obtain ⟨p, p1, p2, p3, p4⟩ := hlast p k (by omega)
    refine ⟨p, ?_, by simpa using p2, by rw [hg p p2]; exact p3, fun q q1 q2 => ?_⟩
    · show (l ++ _)[k]? = _
      rw [List.getElem?_append_left (by omega)]
      exact p1
    · have q2 : q < s.deps.length + 1 := by simpa using q2
      rw [hg q q2]
      exact p4 q q1 q2
  · refine Linked.of_new (by simp [hs.len]) (by simp) hs.known hs.startAt.1 hs.startAt.2 rfl ?_
    rfl

/-- Another DEP of a register. -/
theorem LinkInv.continue {P : Prop} {x : TestCtx} {s s' : TestState} {done : List Instr} {regs : List Nat} {segs : List (List Instr)}
    {cur : List Instr} {n c : Nat} (hs : LinkInv P s done regs segs cur n c) {i : Instr} (hno : i.newDep ≠ kNoNew)
    (hn : i.newDep ≠ kCluster) (h : x.step s i = .ok s') :
    LinkInv P s' (done ++ [i]) (regs ++ [i.contReg.getD c]) (segs ++ [cur]) [i] n (i.contReg.getD c) := by
  have hno' : i.newDep ≠ c!"NO_NEW_DEP" := hno
  have hcl : i.newDep ≠ c!"NEW_CLUSTER_DEP" := hn
  unfold TestCtx.step at h
  simp only [Res.bind_eq_ok] at h
  obtain ⟨o, ho, s1, h1, s2, h2, s3, h3, h4⟩ := h
  unfold TestCtx.newRegister at h1
  rw [if_neg (fun h => hn h.1)] at h1
  cases h1
  obtain ⟨groups, recs, rfl⟩ := endGroup_frame h2
  unfold TestCtx.endDep at h3
  rw [if_neg hno] at h3
  simp only [hn, if_false, Res.bind_eq_ok] at h3
  obtain ⟨l, hl, h3⟩ := h3
  obtain ⟨hll, hlast⟩ := hs.lasts hl
  have key : ∃ (p : Nat) (idx : Int), i.contReg.getD c < n ∧ (P → idx = (i.contReg.getD c : Nat)) ∧
      (P → p < s.deps.length + 1 ∧ regs[p]? = some (i.contReg.getD c) ∧
        ∀ q, p < q → q < s.deps.length + 1 → regs[q]? ≠ some (i.contReg.getD c)) ∧
      s3 = { s with
        groups := [], recs, lastDep := l, cur := some (i.contReg.getD c)
        extra := [(kPrevious, .int p), (kContinued, .bool true)], curIdx := idx
        deps := s.deps ++ [exportDEP groups s.addTurnover] } := by
    cases hk : i.contReg with
    | none =>
      simp only [hk, Except.ok.injEq] at h3
      subst h3
      refine ⟨s.deps.length, s.curIdx, hs.lt, hs.idx, fun _ => ⟨by omega, hs.last, fun q _ _ => by omega⟩, ?_⟩
      simp only [Option.getD_none, hs.reg]
      rfl
    | some k =>
      simp only [hk, Res.bind_eq_ok, ensure_eq_ok, orErr_eq_ok, Except.ok.injEq] at h3
      obtain ⟨-, hk', d, hd, rfl⟩ := h3
      rw [hs.number] at hk'
      refine ⟨d, k, hk', fun _ => rfl, fun p => ?_, rfl⟩
      obtain ⟨p, p1, p2, p3, p4⟩ := hlast p k hk'
      have : p = d := Option.some.inj (p1.symm.trans hd)
      subst this
      exact ⟨p2, p3, p4⟩
  clear h3
  obtain ⟨p, idx, hlt, hidx, hp, rfl⟩ := key
  generalize hr : i.contReg.getD c = r at *
  obtain ⟨reg, reg', r', -, -, rfl⟩ := addReceipt_known (c := r) rfl h4
  have hg : ∀ q, q < s.deps.length + 1 → (regs ++ [r])[q]? = regs[q]? := fun q hq =>
    List.getElem?_append_left (by rw [hs.len]; exact hq)
  have hnew : (regs ++ [r])[s.deps.length + 1]? = some r := by
    rw [← hs.len]
    exact getElem?_snoc _ _
  obtain ⟨d, hd, -, -, hread⟩ := hs.export groups
  have hst := hs.startAt
  have hstl := (List.getElem?_eq_some_iff.mp hst.1).1
  rw [hs.len] at hstl
  refine {
    regsEq := fun rest => ?_
    segsEq := fun rest => ?_
    len := by simp [hs.len]
    slen := by simp [hs.slen]
    turnover := ⟨i, rfl, rfl⟩
    last := by simpa using hnew
    known := ?_
    all := ?_
    number := by simp [hs.number]
    reg := rfl
    lt := hlt
    start := hs.start
    startAt := ⟨by rw [hg _ hstl]; exact hst.1, fun q hq => by
      have hq : q < s.prevStartDep := hq
      rw [hg q (by omega)]
      exact hst.2 q hq⟩
    lastLen := hll
    idx := hidx
    lastDep := fun hp' k hk hkn => ?_
    extra := ?_
    ok := by
      show ([kPrevious, kContinued] : List Str).Nodup
      decide
    plain := rfl
    deps := hs.deps_snoc groups [r]
    read := fun hp' => ⟨regs, n, hread hp', rfl, .inr ⟨rfl, rfl, p, rfl, (hp hp').2.1⟩⟩ }
  · rw [List.append_assoc, hs.regsEq]
    simp [depRegistersOf, hno', hcl, hr]
  · rw [List.append_assoc, hs.segsEq]
    simp [segmentsFrom, hno']
  · intro k r1 hk
    by_cases hkl : k < s.deps.length + 1
    · rw [hg k hkl] at hk
      exact hs.known k r1 hk
    · have := (List.getElem?_eq_some_iff.mp hk).1
      have : k = s.deps.length + 1 := by simp [hs.len] at this; omega
      rw [this, hnew] at hk
      cases hk
      exact hlt
  · intro r1 hr1
    obtain ⟨q, hq, hq'⟩ := hs.all r1 hr1
    exact ⟨q, by simp; omega, by rw [hg q (by rw [← hs.len]; exact hq)]; exact hq'⟩
  · obtain ⟨p, p1, p2, p3, p4⟩ := hlast hp' k hk
    refine ⟨p, p1, by simpa using p2, by rw [hg p p2]; exact p3, fun q q1 q2 => ?_⟩
    have q2 : q < s.deps.length + 1 := by simpa using q2
    rw [hg q q2]
    exact p4 q q1 q2
  · intro r1 hr1
    simp only [List.length_append, List.length_singleton] at hr1 ⊢
    rw [hnew] at hr1
    cases hr1
    obtain ⟨q, hq, hq'⟩ := hs.all r hlt
    rw [hs.len] at hq
    refine .inr ⟨⟨q, hq, by rw [hg q hq]; exact hq'⟩, rfl, fun hp' => ?_⟩
    obtain ⟨a1, a2, a3⟩ := hp hp'
    exact ⟨p, a1, rfl, by rw [hg p a1]; exact a2, fun q h1 h2 => by rw [hg q h2]; exact a3 q h1 h2⟩

/-- The first receipt. -/
theorem LinkInv.first (P : Prop) {x : TestCtx} {s' : TestState} {fresh : CashRegister} {i : Instr}
    (h : x.step { fresh } i = .ok s') : LinkInv P s' [i] [0] [] [i] 1 0 := by
  unfold TestCtx.step at h
  simp only [Res.bind_eq_ok] at h
  obtain ⟨o, ho, s1, h1, s2, h2, s3, h3, h4⟩ := h
  have e1 : s1 = { fresh } := by
    unfold TestCtx.newRegister at h1
    rw [if_neg (fun h => absurd h.2 Bool.false_ne_true)] at h1
    exact (Except.ok.inj h1).symm
  subst e1
  obtain ⟨groups, recs, rfl⟩ := endGroup_frame h2
  unfold TestCtx.endDep at h3
  split at h3
  · cases h3
    obtain ⟨reg', r, -, rfl⟩ := addReceipt_new rfl h4
    exact {
      regsEq := fun _ => rfl
      segsEq := fun _ => rfl
      len := rfl
      slen := rfl
      turnover := ⟨i, rfl, rfl⟩
      last := rfl
      known := fun k r hk => by
        obtain ⟨h1, h2⟩ := List.getElem?_eq_some_iff.mp hk
        simp only [List.length_singleton] at h1
        have : k = 0 := by omega
        subst this
        rw [← h2]
        exact Nat.zero_lt_one
      all := fun r hr => ⟨0, by decide, by rw [show r = 0 by omega]; rfl⟩
      number := rfl
      reg := rfl
      lt := by decide
      start := truthy_jws _
      startAt := ⟨rfl, fun q hq => absurd hq (Nat.not_lt_zero q)⟩
      lastLen := rfl
      idx := fun _ => rfl
      lastDep := fun _ k hk hk0 => by omega
      extra := fun r hr => .inl ⟨fun q hq => absurd hq (Nat.not_lt_zero q), rfl, fun _ => rfl, fun h => absurd rfl h⟩
      ok := List.nodup_nil
      plain := rfl
      deps := fun k dep hk => by simp at hk
      read := fun _ => ⟨[], 0, rfl, rfl, .inl ⟨rfl, rfl, rfl⟩⟩ }
  · rw [Res.bind_eq_ok] at h3
    obtain ⟨l, hl, -⟩ := h3
    exact absurd hl (by simp [pySet])

omit [PyEnv] in
/-- A register that is started after `regs`. -/
theorem StartedInTurn.last {regs rest : List Nat} {n c : Nat} (h : StartedInTurn (regs ++ n :: rest))
    (hn : ∀ (q r : Nat), regs[q]? = some r → r < n) {k : Nat} (hl : regs.length = k + 1) (hc : regs[k]? = some c) :
    c = n - 1 := by
  have := h k n (by rw [← hl]; simp) fun q hq e => by
    rw [List.getElem?_append_left (by omega)] at e
    exact absurd (hn q n e) (Nat.lt_irrefl _)
  rw [List.getElem?_append_left (by omega), hc] at this
  exact Option.some.inj this

theorem LinkInv.steps {x : TestCtx} {all l done : List Instr} {s s' : TestState} {regs : List Nat} {segs : List (List Instr)}
    {cur : List Instr} {n c : Nat} (hs : LinkInv (StartedInTurn (depRegisters all)) s done regs segs cur n c)
    (he : done ++ l = all) (h : x.steps s l = .ok s') :
    ∃ regs segs cur n c, LinkInv (StartedInTurn (depRegisters all)) s' all regs segs cur n c := by
  induction l generalizing s done regs segs cur n c with
  | nil =>
    cases h
    rw [List.append_nil] at he
    subst he
    exact ⟨_, _, _, _, _, hs⟩
  | cons i l ih =>
    simp only [TestCtx.steps, Res.bind_eq_ok] at h
    obtain ⟨s1, h1, h2⟩ := h
    have he' : done ++ [i] ++ l = all := by simpa using he
    by_cases hn : i.newDep = kNoNew
    · exact ih (hs.same hn h1) he' h2
    · by_cases hc : i.newDep = kCluster
      · refine ih (hs.cluster hc (fun p => ?_) h1) he' h2
        rw [← he, hs.regsEq] at p
        rw [depRegistersOf, if_neg (show ¬i.newDep = c!"NO_NEW_DEP" from hn),
          if_pos (show i.newDep = c!"NEW_CLUSTER_DEP" from hc)] at p
        exact p.last hs.known hs.len hs.last
      · exact ih (hs.continue hn hc h1) he' h2

/-- Everything about a run of `runTest`. -/
theorem links_result {spec : TestSpec} {keys : List TestKey} {closed : Bool} {tcSize : Option Nat} {deps : List Json} {store : Json}
    (hi : spec.instrs ≠ []) (h : runTest spec keys closed tcSize = .ok (deps, store)) :
    deps.length = (depRegisters spec.instrs).length ∧ deps.length = (depInstrs spec.instrs).length ∧
    (∀ (k : Nat) (dep : Json), deps[k]? = some dep → ∃ d seg, dep = .obj d ∧ (depInstrs spec.instrs)[k]? = some seg ∧
      Linked (StartedInTurn (depRegisters spec.instrs)) (depRegisters spec.instrs) k d ∧ HasTurnover seg d) ∧
    (StartedInTurn (depRegisters spec.instrs) → ∃ n, registerIdxs [] 0 deps = .ok (depRegisters spec.instrs, n)) := by
  unfold runTest at h
  simp only [Res.bind_eq_ok, Except.ok.injEq, Prod.mk.injEq] at h
  obtain ⟨-, -, key, -, reg, -, ks, -, s, hs, deps', hf, rfl, -⟩ := h
  obtain ⟨i, l, hil⟩ := List.exists_cons_of_ne_nil hi
  rw [hil] at hs ⊢
  simp only [TestCtx.steps, Res.bind_eq_ok] at hs
  obtain ⟨s1, h1, h2⟩ := hs
  obtain ⟨regs, segs, cur, n, c, hinv⟩ := (LinkInv.first (StartedInTurn (depRegisters (i :: l))) h1).steps (l := l) rfl h2
  unfold TestCtx.finish at hf
  have : ∃ groups, deps' = s.deps ++ [exportDEP groups s.addTurnover] := by
    split at hf
    · simp only [Res.bind_eq_ok, Except.ok.injEq] at hf
      obtain ⟨_, _, g, -, rfl⟩ := hf
      exact ⟨_, rfl⟩
    · exact ⟨_, (Except.ok.inj hf).symm⟩
  obtain ⟨groups, rfl⟩ := this
  have hr := hinv.regsEq []
  have hsg := hinv.segsEq []
  simp only [List.append_nil, depRegistersOf, segmentsFrom] at hr hsg
  obtain ⟨d, -, -, -, hread⟩ := hinv.export groups
  refine ⟨by rw [hr, hinv.len]; simp, by rw [hsg]; simp [hinv.slen], ?_, fun p => ⟨n, ?_⟩⟩
  · intro k dep hk
    obtain ⟨d, seg, a, b, c, e⟩ := hinv.deps_snoc groups [] k dep hk
    rw [List.append_nil, ← hr] at c
    exact ⟨d, seg, a, by rw [hsg]; exact b, c, e⟩
  · rw [hread p, hr]

/-! ### The properties -/

/-- C90: each DEP has the turnover asked for with its last instruction. -/
theorem test_turnovers {spec : TestSpec} {keys : List TestKey} {closed : Bool} {tcSize : Option Nat} {deps : List Json}
    {store : Json} (hi : spec.instrs ≠ []) (h : runTest spec keys closed tcSize = .ok (deps, store)) :
    List.Forall₂ (fun dep seg => ∃ d, dep = .obj d ∧ HasTurnover seg d) deps (depInstrs spec.instrs) := by
  obtain ⟨-, h1, h2, -⟩ := links_result hi h
  rw [List.forall₂_iff_get]
  refine ⟨h1, fun k hk hk' => ?_⟩
  obtain ⟨d, seg, a, b, -, c⟩ := h2 k deps[k] (List.getElem?_eq_getElem hk)
  rw [List.getElem?_eq_getElem hk'] at b
  cases b
  exact ⟨d, a, c⟩

/-- C90: the DEP that starts a register says so and refers to the DEP with the start receipt of the register before; the others
say that they go on with a register. -/
theorem test_starts {spec : TestSpec} {keys : List TestKey} {closed : Bool} {tcSize : Option Nat} {deps : List Json}
    {store : Json} (hi : spec.instrs ≠ []) (h : runTest spec keys closed tcSize = .ok (deps, store)) {k r : Nat}
    (hr : (depRegisters spec.instrs)[k]? = some r) :
    ∃ d, deps[k]? = some (.obj d) ∧
      ((∀ q, q < k → (depRegisters spec.instrs)[q]? ≠ some r) → RefersToStart (depRegisters spec.instrs) k r d) ∧
      (∀ q, q < k → (depRegisters spec.instrs)[q]? = some r → Dict.get? d c!"Fortgesetztes-DEP" = some (.bool true)) := by
  obtain ⟨h1, -, h2, -⟩ := links_result hi h
  have hk := (List.getElem?_eq_some_iff.mp hr).1
  rw [← h1] at hk
  obtain ⟨d, -, a, -, b, -⟩ := h2 k deps[k] (List.getElem?_eq_getElem hk)
  refine ⟨d, by rw [List.getElem?_eq_getElem hk, a], ?_⟩
  rcases b r hr with ⟨b1, b2⟩ | ⟨⟨q, b1, b2⟩, b3, -⟩
  · exact ⟨fun _ => b2, fun q hq e => absurd e (b1 q hq)⟩
  · exact ⟨fun e => absurd b2 (e q b1), fun _ _ _ => b3⟩

/-- C90, partial: the DEPs that go on with a register refer to the last DEP of this register.  What is missing: this is wrong if
a register is started after a DEP of a register other than the last one started (`Demo.wrong_register`). -/
theorem test_links_partial {spec : TestSpec} {keys : List TestKey} {closed : Bool} {tcSize : Option Nat} {deps : List Json}
    {store : Json} (hi : spec.instrs ≠ []) (h : runTest spec keys closed tcSize = .ok (deps, store))
    (ht : StartedInTurn (depRegisters spec.instrs)) {k r q : Nat} (hr : (depRegisters spec.instrs)[k]? = some r) (hq : q < k)
    (hqr : (depRegisters spec.instrs)[q]? = some r) :
    ∃ d, deps[k]? = some (.obj d) ∧ RefersToLast (depRegisters spec.instrs) k r d := by
  obtain ⟨h1, -, h2, -⟩ := links_result hi h
  have hk := (List.getElem?_eq_some_iff.mp hr).1
  rw [← h1] at hk
  obtain ⟨d, -, a, -, b, -⟩ := h2 k deps[k] (List.getElem?_eq_getElem hk)
  refine ⟨d, by rw [List.getElem?_eq_getElem hk, a], ?_⟩
  rcases b r hr with ⟨b1, -⟩ | ⟨-, -, b3⟩
  · exact absurd hqr (b1 q hq)
  · exact b3 ht

/-- C90, partial: with these elements, the tests find the register of each DEP.  What is missing: see `test_links_partial`. -/
theorem test_registers_partial {spec : TestSpec} {keys : List TestKey} {closed : Bool} {tcSize : Option Nat} {deps : List Json}
    {store : Json} (hi : spec.instrs ≠ []) (h : runTest spec keys closed tcSize = .ok (deps, store))
    (ht : StartedInTurn (depRegisters spec.instrs)) :
    ∃ n, registerIdxs [] 0 deps = .ok (depRegisters spec.instrs, n) :=
  (links_result hi h).2.2.2 ht

end

namespace Demo

attribute [local instance] env

/-- A test with several registers. -/
def linkSpec (instrs : List Instr) : TestSpec where
  aesKey := b64Encode false aes
  cashBoxId := c!"reg"
  companyId := c!"U:ATU12345678"
  numDevices := 2
  instrs

/-- The second register is started after the first one; then they go on in turn. -/
def rightTurn : List Instr :=
  [instr 1 0 1 false false false kNoNew none, instr 2 5 1 false false false kNoNew none,
   instr 11 0 1 false false false kCluster none, instr 3 5 1 false false false c!"NEW_DEP" (some 0),
   instr 12 3 1 false false false c!"NEW_DEP" (some 1), instr 13 3 1 false false false c!"NEW_DEP" none]

/-- A third register is started after a DEP of the first one. -/
def wrongTurn : List Instr :=
  [instr 1 0 1 false false false kNoNew none, instr 11 0 1 false false false kCluster none,
   instr 2 5 1 false false false c!"NEW_DEP" (some 0), instr 21 0 1 false false false kCluster none,
   instr 12 3 1 false false false c!"NEW_DEP" (some 1)]

/-- What the tests make of the DEPs. -/
def registersRead (r : Res (List Json × Json)) : Option (List Nat × Nat) :=
  match r with
  | .ok (deps, _) => (registerIdxs [] 0 deps).toOption
  | .error _ => none

theorem right_turn : StartedInTurn (depRegisters rightTurn) := by
  have e : depRegisters rightTurn = [0, 1, 0, 1, 1] := by decide
  rw [e]
  intro k r hr hq
  match k with
  | 0 =>
    cases hr
    rfl
  | 1 =>
    cases hr
    exact absurd rfl (hq 0 (by decide))
  | 2 =>
    cases hr
    exact absurd rfl (hq 1 (by decide))
  | 3 =>
    cases hr
    exact absurd rfl (hq 1 (by decide))
  | k + 4 => simp at hr

set_option maxRecDepth 100000 in
/-- The hypotheses can be met: the fourth DEP belongs to the second register and refers to the DEP it was started with; the
turnovers are those of the last instructions. -/
example : ∃ deps store d, runTest (linkSpec rightTurn) sideKeys true none = .ok (deps, store) ∧
    deps[3]? = some (.obj d) ∧ RefersToLast [0, 1, 0, 1, 1] 3 1 d ∧
    List.Forall₂ (fun dep seg => ∃ d, dep = .obj d ∧ HasTurnover seg d) deps (depInstrs rightTurn) := by
  have h : (runTest (linkSpec rightTurn) sideKeys true none).toBool = true := by decide +kernel
  cases e : runTest (linkSpec rightTurn) sideKeys true none with
  | error e' =>
    rw [e] at h
    cases h
  | ok p =>
    obtain ⟨deps, store⟩ := p
    obtain ⟨d, h1, h2⟩ := test_links_partial (by simp [linkSpec, rightTurn]) e right_turn (k := 3) (r := 1) (q := 1)
      (by decide) (by decide) (by decide)
    exact ⟨deps, store, d, rfl, h1, h2, test_turnovers (by simp [linkSpec, rightTurn]) e⟩

set_option maxRecDepth 100000 in
/-- The claim is false in general: the last DEP is one of the register with number 1, but the tests take it for one of the register with
number 2, because it refers to its DEP. -/
theorem wrong_register : depRegisters wrongTurn = [0, 1, 0, 2, 1] ∧
    registersRead (runTest (linkSpec wrongTurn) sideKeys true none) = some ([0, 1, 0, 2, 2], 3) :=
  ⟨by decide, by decide +kernel⟩

end Demo

end RKSV
