import Verif.Spec.CashRegMakes
import Verif.Props.CashReg
import Verif.Props.CashRegHistory
import Verif.Props.Receipt
/-
C86: which orders a register carries out.
-/
namespace RKSV

section
variable [PyEnv]

omit [PyEnv] in
theorem endsWithChar_iff {c : Char} {s : Str} : endsWithChar c s = false ↔ s.getLast? ≠ some c := by
  unfold endsWithChar
  cases s.getLast? with
  | none => simp
  | some x => simp

omit [PyEnv] in
/-- The texts a signature can be taken from. -/
theorem takeSignature_iff {d : Draft} {jws : Str} : (∃ r, takeSignature d jws = .ok r) ↔ JwsShape jws := by
  constructor
  · rintro ⟨r, h⟩
    unfold takeSignature at h
    split at h
    swap; · cases h
    rename_i x p s e
    simp only [Res.bind_eq_ok, orErr_eq_ok, sign_eq_ok] at h
    obtain ⟨b, h1, t, h2, h3, h4, -⟩ := h
    have hj := joinWith_splitOn '.' jws
    have hn := fun y (hy : y ∈ splitOn '.' jws) => not_mem_of_mem_splitOn hy
    rw [e] at hj hn
    refine ⟨x, p, s, ?_, hn _ (by simp), hn _ (by simp), hn _ (by simp), ⟨b, t, h1, h2⟩,
      Option.isSome_iff_exists.mp h4, endsWithChar_iff.mp h3⟩
    rw [← hj]
    simp [joinWith]
  · rintro ⟨h, p, s, rfl, n1, n2, n3, ⟨b, t, h1, h2⟩, h3, h4⟩
    refine ⟨⟨d, t, s⟩, ?_⟩
    unfold takeSignature
    rw [splitOn_append_sep n1, splitOn_append_sep n2, splitOn_eq_singleton n3]
    simp only [Res.bind_eq_ok, orErr_eq_ok, sign_eq_ok]
    exact ⟨b, h1, t, h2, endsWithChar_iff.mpr h4, Option.isSome_iff_exists.mpr h3, rfl⟩

omit [PyEnv] in
theorem jwsShape_made (h p : Str) (b : Bytes) : JwsShape (joinWith '.' [encodeSeg h, encodeSeg p, b64Text true b]) := by
  refine ⟨encodeSeg h, encodeSeg p, b64Text true b, by simp [joinWith], not_dot_encodeSeg _, not_dot_encodeSeg _,
    not_mem_b64Text (not_isB64_dot true), ?_, ⟨b, b64Decode_restorePad _ _⟩, ?_⟩
  · refine ⟨utf8Enc h, h, ?_, utf8Dec_enc h⟩
    rw [encodeSeg, removeChar_b64Encode, b64Decode_restorePad]
  · intro e
    exact not_mem_b64Text (c := '=') (url := true) (b := b) (by decide) (List.mem_of_getLast? e)

theorem sign_shape {sys : SigSystem} {rand : Nat} {payload : Str} :
    (∃ jws, sys.sign rand payload = .ok jws ∧ JwsShape jws) ↔ sys.Answers := by
  cases sys with
  | broken z s => exact ⟨fun _ _ _ _ _ e => (by cases e), fun _ => ⟨_, rfl, jwsShape_made _ _ _⟩⟩
  | working z s k => exact ⟨fun _ _ _ _ _ e => (by cases e), fun _ => ⟨_, rfl, jwsShape_made _ _ _⟩⟩
  | remote z s a ans =>
    have e : SigSystem.Answers (.remote z s a ans) ↔ a = c!"ES256" ∧ ∀ jws, ans = some jws → JwsShape jws := by
      constructor
      · intro h; exact h _ _ _ _ rfl
      · rintro h _ _ _ _ ⟨⟩; exact h
    rw [e]
    simp only [SigSystem.sign, Res.bind_eq_ok, ensure_eq_ok]
    cases ans with
    | none =>
      constructor
      · rintro ⟨_, ⟨_, h, -⟩, -⟩; exact ⟨h, by simp⟩
      · rintro ⟨h, -⟩; exact ⟨_, ⟨(), h, rfl⟩, jwsShape_made _ _ _⟩
    | some j =>
      constructor
      · rintro ⟨_, ⟨_, h, h2⟩, h3⟩
        cases h2
        exact ⟨h, by rintro _ ⟨⟩; exact h3⟩
      · rintro ⟨h, h3⟩; exact ⟨j, ⟨(), h, rfl⟩, h3 j rfl⟩

/-- The fields of an order are accepted. -/
theorem draft_ok_iff {o : Order} {registerId : Str} (hd : o.dateTime.Valid) (hy : 1000 ≤ o.dateTime.year)
    (hs : ∀ x ∈ [o.sumA, o.sumB, o.sumC, o.sumD, o.sumE], ∃ c, InCents x c) :
    (∃ d, o.draft registerId = .ok d) ↔ o.Printable registerId := by
  have hdraft : ∀ d, o.draft registerId = .ok d ↔ o.algorithm = R1 ∧ Draft.init (o.fields registerId [] []) = .ok d := by
    intro d
    simp only [Order.draft, Res.bind_eq_ok, ensure_eq_ok, knownAlg_iff]
    exact ⟨fun ⟨_, a, b⟩ => ⟨a, b⟩, fun ⟨a, b⟩ => ⟨(), a, b⟩⟩
  simp only [hdraft]
  constructor
  · rintro ⟨d, ha, h⟩
    have i := init_eq_ok.mp h
    refine ⟨ha, ⟨i.registerId, i.registerId'⟩, ⟨i.receiptId, i.receiptId'⟩, matchZda_iff.mp i.zda, ?_⟩
    have hp := i.provider
    have hn := i.serialNe
    by_cases hs : certSerialType (o.fields registerId [] []).certSerial = .serial
    · rw [if_pos hs] at hp
      exact .inr ⟨certSerialType_serial.mp hs, hp⟩
    · rw [if_neg hs] at hp
      refine .inl ⟨certSerialType_company.mp ?_, hp⟩
      cases hc : certSerialType (o.fields registerId [] []).certSerial with
      | serial => exact absurd hc hs
      | invalid => exact absurd hc hn
      | tax => simp [Order.fields] at hc ⊢; simp [hc]
      | uid => simp [Order.fields] at hc ⊢; simp [hc]
      | gln => simp [Order.fields] at hc ⊢; simp [hc]
  · intro h
    obtain ⟨d, hd, -⟩ := well_formed_constructible (o.fields registerId [] []) h.registerId.1 h.registerId.2
      h.receiptId.1 h.receiptId.2 h.zda (by simp [Order.fields, strptime_strftime hd hy])
      (by
        have k : ∀ x, (∃ c, InCents x c) → UpToNewline SumForm (fmtSum x) :=
          fun x ⟨c, hc⟩ => .inl (fmtSum_cents hc).1
        intro s hm
        simp only [Order.fields, List.mem_cons, List.not_mem_nil, or_false] at hm
        rcases hm with rfl | rfl | rfl | rfl | rfl <;> exact k _ (hs _ (by simp)))
      (show (b64Decode false []).isSome = true by decide) h.serial
      ⟨[], show b64Decode false [] = some [] by decide, .inl rfl⟩
    exact ⟨d, h.algorithm, hd⟩

/-- The counter field can be made. -/
theorem counterField_iff {o : Order} {reg : CashRegister} (hz : 0 < reg.size) : (∃ enc, o.counterField reg = .ok enc) ↔
    (o.dummy = false → o.reversal = false → reg.key.length = 32 ∧ FitsBytes reg.size reg.counter) := by
  unfold Order.counterField
  cases o.dummy with
  | true => simp
  | false =>
    cases o.reversal with
    | true => simp
    | false =>
      simp only [Bool.false_eq_true, if_false, Res.bind_eq_ok, raiseForKey, ensure_eq_ok, encryptCounter, orErr_eq_ok]
      have := toBytesSigned_isSome hz.ne' (v := reg.counter)
      unfold FitsBytes
      rw [← this, Option.isSome_iff_exists]
      constructor
      · rintro ⟨_, _, h1, _, ⟨pt, h2, _⟩, _⟩ _ _
        exact ⟨h1, pt, h2⟩
      · intro h
        obtain ⟨h1, pt, h2⟩ := h trivial trivial
        exact ⟨_, (), h1, _, ⟨pt, h2, rfl⟩, rfl⟩

/-- C86, one order: it is carried out exactly if it is possible. -/
theorem receipt_made_iff {reg : CashRegister} {o : Order} {n : Int} (hz : 0 < reg.size) (hd : o.dateTime.Valid)
    (hy : 1000 ≤ o.dateTime.year) (hn : o.Adds n) :
    (∃ reg' r, reg.receipt o = (reg', .ok r)) ↔ o.Possible reg (reg.counter + n) := by
  have hs : ∀ x ∈ [o.sumA, o.sumB, o.sumC, o.sumD, o.sumE], ∃ c, InCents x c := by
    obtain ⟨a, b, c, d, e, ha, hb, hc, hd, he, -⟩ := hn
    intro x hx
    simp only [List.mem_cons, List.not_mem_nil, or_false] at hx
    rcases hx with rfl | rfl | rfl | rfl | rfl
    exacts [⟨_, ha⟩, ⟨_, hb⟩, ⟨_, hc⟩, ⟨_, hd⟩, ⟨_, he⟩]
  have h1 := draft_ok_iff (registerId := reg.registerId) hd hy hs
  have h2 := counterField_iff (o := o) (reg := { reg with counter := reg.counter + n }) hz
  simp only at h2
  constructor
  · rintro ⟨reg', r, h⟩
    obtain ⟨c⟩ := call_of_receipt h
    have hb := c.book
    rw [book_adds hn] at hb
    have he := c.henc
    rw [← Except.ok.inj hb] at he
    refine ⟨h1.mp ⟨c.draft0, ?_⟩, sign_shape.mp ⟨_, c.hsign, takeSignature_iff.mp ⟨_, c.htake⟩⟩, h2.mp ⟨_, he⟩⟩
    simp only [Order.draft, Res.bind_eq_ok, ensure_eq_ok, knownAlg_iff]
    exact ⟨(), c.alg, init_eq_ok.mpr c.hdraft⟩
  · intro p
    obtain ⟨d, hd⟩ := h1.mpr p.printable
    obtain ⟨enc, he⟩ := h2.mpr p.counter
    unfold CashRegister.receipt
    rw [hd, book_adds hn]
    simp only [he]
    obtain ⟨jws, hj, hsh⟩ := (sign_shape (rand := o.rand) (payload := Fields.toPayload { d with
          encTurnoverCounter := enc
          previousChain := b64Encode false (chainHash reg.registerId reg.last) } o.algorithm)).mpr p.answers
    simp only [hj]
    obtain ⟨r, hr⟩ := (takeSignature_iff (d := { d with
          encTurnoverCounter := enc
          previousChain := b64Encode false (chainHash reg.registerId reg.last) })).mpr hsh
    exact ⟨_, r, by rw [hr]⟩

/-- C86: a register carries out a list of orders exactly if each is possible with the counter that results from
the orders up to it. -/
theorem run_made_iff {reg : CashRegister} {os : List Order} {ns : List Int} (hz : 0 < reg.size)
    (hd : ∀ o ∈ os, o.dateTime.Valid ∧ 1000 ≤ o.dateTime.year) (hn : List.Forall₂ Order.Adds os ns) :
    (∃ reg' rs, reg.run os = (reg', some rs)) ↔
      ∀ (i : Nat) (o : Order), os[i]? = some o → o.Possible reg (reg.counter + (ns.take (i + 1)).sum) := by
  induction hn generalizing reg with
  | nil => simp [CashRegister.run]
  | @cons o n os ns ha hn ih =>
    have h1 := receipt_made_iff (reg := reg) hz (hd o (by simp)).1 (hd o (by simp)).2 ha
    constructor
    · rintro ⟨reg', l, h⟩
      obtain ⟨reg1, r, rs, rfl, hr, hrun⟩ := run_cons.mp h
      have hc := (receipt_counts ha).1 _ _ hr
      obtain ⟨c⟩ := call_of_receipt hr
      have e := c.reg_eq
      have hz' : 0 < reg1.size := by rw [e]; exact hz
      have hall := (ih hz' fun o ho => hd o (by simp [ho])).mp ⟨_, _, hrun⟩
      intro i x hi
      cases i with
      | zero =>
        cases hi
        simpa using h1.mp ⟨_, _, hr⟩
      | succ i =>
        have := hall i x (by simpa using hi)
        rw [hc, add_assoc] at this
        rw [List.take_succ_cons, List.sum_cons]
        exact ⟨by have := this.printable; rw [e] at this; exact this, this.answers,
          by have := this.counter; rw [e] at this; exact this⟩
    · intro hall
      obtain ⟨reg1, r, hr⟩ := h1.mpr (by simpa using hall 0 o rfl)
      have hc := (receipt_counts ha).1 _ _ hr
      obtain ⟨c⟩ := call_of_receipt hr
      have e := c.reg_eq
      have hz' : 0 < reg1.size := by rw [e]; exact hz
      obtain ⟨reg', rs, hrun⟩ := (ih hz' fun o ho => hd o (by simp [ho])).mpr (by
        intro i x hi
        have := hall (i + 1) x (by simpa using hi)
        rw [List.take_succ_cons, List.sum_cons, ← add_assoc, ← hc] at this
        exact ⟨by have := this.printable; rw [e]; exact this, this.answers,
          by have := this.counter; rw [e]; exact this⟩)
      exact ⟨reg', r :: rs, run_cons.mpr ⟨_, _, _, rfl, hr, hrun⟩⟩

end

namespace Demo

attribute [local instance] env

/-- The orders of the day are possible, with their counters: training receipts do not count. -/
theorem orders_possible : ∀ (i : Nat) (o : Order), orders[i]? = some o →
    o.Possible register (0 + ([0, 1230, 0, -230, 42, 10, 0, 7].take (i + 1)).sum) := by
  have h : List.Forall₂ Order.Adds orders [0, 1230, 0, -230, 42, 10, 0, 7] := by
    refine .cons (order_adds 1 0 (by norm_num) _ false false) ?_
    refine .cons (order_adds 2 1230 (by norm_num) _ false false) ?_
    refine .cons (order_adds 3 999 (by norm_num) _ true false) ?_
    refine .cons (order_adds 4 (-230) (by norm_num) _ false true) ?_
    refine .cons (order_adds 5 42 (by norm_num) _ false false) ?_
    refine .cons (order_adds 6 10 (by norm_num) _ false false) ?_
    refine .cons (order_adds 7 0 (by norm_num) _ false false) ?_
    exact .cons (order_adds 8 7 (by norm_num) _ false false) .nil
  exact (run_made_iff (reg := register) (by decide) (fun o ho =>
    ⟨(orders_abide.proper o ho).date, (orders_abide.proper o ho).year⟩) h).mp ⟨_, _, run_ok⟩

/-- With a counter at the limit the order is not possible. -/
example : ¬(order 1 5 sysOk false false).Possible full (full.counter + 5) := by
  intro h
  have := (h.counter rfl rfl).2.2
  revert this
  decide

end Demo

end RKSV
