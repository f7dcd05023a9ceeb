import Verif.Lemmas.TestContentsLoop
import Verif.Props.RunTestFull
/-
C93: The DEPs made for a test case hold what the test case specifies.
-/
namespace RKSV

section
variable [PyEnv]

/-- The receipts in the DEPs are those the instructions ask for: one for each of them, in the same order, made by the register
that has its turn and in the DEP that has its turn. -/
theorem test_contents {spec : TestSpec} {keys : List TestKey} {closed : Bool} {tcSize : Option Nat} {deps : List Json} {store : Json}
    (hj : ∀ i ∈ spec.instrs, i.override.jwsOverride ≠ some [])
    (h : runTestFull spec keys closed tcSize = .ok (deps, store)) :
    ∃ key size made, b64Decode false spec.aesKey = some key ∧ chosenSize spec tcSize size ∧ made.map (·.instr) = spec.instrs ∧
      made.map (·.reg) = registers spec.instrs ∧
      (∀ pre a post, made = pre ++ a :: post → a.Right spec closed keys key size pre) ∧
      List.Forall₂ (DepHolds spec keys) (depParts made) deps := by
  unfold runTestFull at h
  simp only [Res.bind_eq_ok, loadB64Key, orErr_eq_ok, Except.ok.injEq, Prod.mk.injEq] at h
  obtain ⟨_, -, key, hkey, reg, hreg, ks, -, s, hs, ds, hf, rfl, -⟩ := h
  have hsize : chosenSize spec tcSize (spec.counterSize tcSize) := by
    unfold TestSpec.counterSize chosenSize
    match tcSize with
    | none => exact .inr ⟨.inl rfl, rfl⟩
    | some 0 => exact .inr ⟨.inr rfl, rfl⟩
    | some (n + 1) => exact .inl ⟨rfl, by simp⟩
  refine ⟨key, spec.counterSize tcSize, ?_⟩
  cases hi : spec.instrs with
  | nil =>
    rw [hi] at hs
    cases hs
    refine ⟨[], hkey, hsize, rfl, rfl, by simp, ?_⟩
    unfold TestCtx.finishFull at hf
    by_cases hg : spec.groups = true
    · rw [if_pos hg] at hf
      cases hf
    · rw [if_neg hg] at hf
      cases hf
      have := depHolds_export (x := ⟨spec, closed, keys, key, spec.counterSize tcSize⟩) (parts := [[]]) (cur := [])
        (gs := [⟨[], none, []⟩]) (extra := []) rfl
        (.cons ⟨rfl, .inr (.inr ⟨by simpa using hg, rfl, rfl⟩)⟩ .nil) (fun _ => rfl) (fun e => absurd e hg) ⟨List.nodup_nil, rfl⟩
      exact .cons this .nil
  | cons i l =>
    rw [hi] at hs hj
    unfold TestCtx.stepsFull at hs
    rw [Res.bind_eq_ok] at hs
    obtain ⟨s1, h1, h2⟩ := hs
    obtain ⟨a, a1, hinv⟩ := ContentInv.first (x := ⟨spec, closed, keys, key, spec.counterSize tcSize⟩) hreg (hj i (by simp)) h1
    obtain ⟨made, parts, cur, d, b1, b2⟩ := hinv.steps (fun j hm => hj j (by simp [hm])) h2
    refine ⟨made, hkey, hsize, by rw [b1, ← a1]; rfl, ?_, b2.right, b2.finish hf⟩
    have := b2.regsEq []
    rw [List.append_nil, b1] at this
    simpa [a1, registersOf] using this.symm

end

namespace Demo

attribute [local instance] env

/-- Two registers; in the third receipt a sum is falsified, in the fourth one the size of the counter and the counter. -/
def falsifiedSpec : TestSpec where
  aesKey := b64Encode false aes
  cashBoxId := c!"reg"
  companyId := c!"U:ATU12345678"
  numDevices := 2
  groups := true
  instrs := [instr 1 0 1 false false false kNoNew none, instr 11 0 1 false false false kCluster none,
    { instr 2 5 1 false false false c!"NEW_DEP" (some 0) with override := { sumA := some c!"0,07" } },
    { instr 12 3 1 false false false kNoNew none with override := { turnoverCounterSize := some 6, turnoverCounter := some 9 } },
    instr 3 5 0 true false false kNoNew none]

set_option maxRecDepth 100000 in
theorem falsified_runs : ∃ deps store, runTestFull falsifiedSpec sideKeys true (some 7) = .ok (deps, store) := by
  have h : (runTestFull falsifiedSpec sideKeys true (some 7)).toBool = true := by decide +kernel
  cases e : runTestFull falsifiedSpec sideKeys true (some 7) with
  | error e' => rw [e] at h; cases h
  | ok p => exact ⟨_, _, rfl⟩

theorem instr_adds {i : Instr} {c : Int} (h : |c| ≤ 2 ^ 49) (ha : i.sumA = ⟨centsToF64 c, false⟩) (hb : i.sumB = ⟨.fin 0, false⟩)
    (hc : i.sumC = ⟨.fin 0, false⟩) (hd : i.sumD = ⟨.fin 0, false⟩) (he : i.sumE = ⟨.fin 0, true⟩) (hk : i.kind = none) :
    i.Adds c :=
  ⟨c, 0, 0, 0, 0, by rw [ha]; exact in_cents c false (h.trans (by norm_num)), by rw [hb]; exact in_cents_zero _,
    by rw [hc]; exact in_cents_zero _, by rw [hd]; exact in_cents_zero _, by rw [he]; exact in_cents_zero _,
    by simpa using h, by simp [hk]⟩

theorem five_elements {α : Type} {l : List α} (h : l.length = 5) : ∃ a b c d e, l = [a, b, c, d, e] :=
  match l, h with
  | [a, b, c, d, e], _ => ⟨a, b, c, d, e, rfl⟩

theorem falsified_key : b64Decode false falsifiedSpec.aesKey = some aes := by decide +kernel

theorem falsified_registers : registers falsifiedSpec.instrs = [0, 1, 0, 0, 0] := by decide

/-- The hypotheses can be met: there are five receipts in three DEPs, the sum in the third one is the falsified one, and the
counter in the last one, which has six bytes, is counted from the falsified one. -/
example : ∃ deps store a b c d e, runTestFull falsifiedSpec sideKeys true (some 7) = .ok (deps, store) ∧
    List.Forall₂ (DepHolds falsifiedSpec sideKeys) [[a], [b], [c, d, e]] deps ∧
    c.receipt.sumAStr = c!"0,07" ∧ amountCents d.receipt.sumAStr = 3 ∧ e.reg = 0 ∧ e.signature = failureMark ∧
    e.receipt.decryptTurnoverCounter aes = .ok 14 := by
  obtain ⟨deps, store, h⟩ := falsified_runs
  obtain ⟨key, size, made, h1, h2, h3, h4, h5, h6⟩ := test_contents (by simp [falsifiedSpec, instr]) h
  have hk : key = aes := Option.some.inj (h1.symm.trans falsified_key)
  have hs : size = 7 := by
    rcases h2 with ⟨h, -⟩ | ⟨h | h, -⟩
    · exact (Option.some.inj h).symm
    · cases h
    · cases h
  subst hk hs
  have hlen : made.length = 5 := by
    have := congrArg List.length h3
    rwa [List.length_map] at this
  obtain ⟨a, b, c, d, e, rfl⟩ := five_elements hlen
  rw [falsified_registers] at h4
  simp only [falsifiedSpec, List.map_cons, List.map_nil, List.cons.injEq, and_true] at h3
  simp only [List.map_cons, List.map_nil, List.cons.injEq, and_true] at h4
  obtain ⟨i1, i2, i3, i4, i5⟩ := h3
  obtain ⟨r1, r2, r3, r4, r5⟩ := h4
  have hp : depParts [a, b, c, d, e] = [[a], [b], [c, d, e]] := by
    simp only [depParts, partsFrom, i2, i3, i4, i5]
    rfl
  rw [hp] at h6
  have rc := (h5 [a, b] c [d, e] rfl).sumA
  have rd := (h5 [a, b, c] d [e] rfl).sumA
  have re := h5 [a, b, c, d] e [] rfl
  rw [i3] at rc
  rw [i4] at rd
  have re1 := re.device
  have re2 := re.counter
  obtain ⟨k, -, -, -, re1⟩ := re1
  rw [i5] at re1 re2
  have hist : ofRegister [a, b, c, d] e.reg = [a, c, d] := by simp [ofRegister, r1, r2, r3, r4, r5]
  rw [hist] at re2
  change CounterText _ _ _ _ _ at re2
  unfold CounterText at re2
  rw [if_neg (by rw [i5]; decide), if_neg (by rw [i5]; decide)] at re2
  obtain ⟨bs, -, hl, hd⟩ := re2
  have hl' : bs.length = 6 := by
    rw [hl]
    simp [sizeAfter, i1, i3, i4, i5, instr]
  have := hd (by omega) (fun m => if m.instr.receiptId = c!"R1" then 0 else if m.instr.receiptId = c!"R12" then 3 else 5) (by
    intro m hm
    simp only [List.cons_append, List.nil_append, List.mem_cons, List.not_mem_nil, or_false] at hm
    rcases hm with rfl | rfl | rfl | rfl
    · rw [i1]; exact instr_adds (c := 0) (by norm_num) rfl rfl rfl rfl rfl rfl
    · rw [i3]; exact instr_adds (c := 5) (by norm_num) rfl rfl rfl rfl rfl rfl
    · rw [i4]; exact instr_adds (c := 3) (by norm_num) rfl rfl rfl rfl rfl rfl
    · rw [i5]; exact instr_adds (c := 5) (by norm_num) rfl rfl rfl rfl rfl rfl)
  refine ⟨deps, store, a, b, c, d, e, h, h6, rc, rd 3 (in_cents 3 _ (by norm_num)), r5, re1, ?_⟩
  rw [this]
  simp [counterAfter, i1, i3, i4, i5, instr]
  decide

end Demo

end RKSV
