import Verif.Lemmas.CashRegHistory
import Verif.Props.CashReg
/-
Property C60: the histories of a cash register are accepted by the verifier.
-/
namespace RKSV

section
variable [PyEnv]

/-- C60: the receipts a new register makes for the orders of an owner who obeys the rules are
accepted, and afterwards the verification state holds the register's last receipt and, if the
verifier has the AES key, its counter. -/
theorem history_accepted {c : GroupCtx} (hv : c.verifier.cert ≠ none ∨ c.verifier.keyStore ≠ none)
    {s : RegState} {used : Used} {reg reg' : CashRegister} {os : List Order} {rs : List Receipt}
    (h : reg.run os = (reg', some rs)) (hz : 5 ≤ reg.size ∧ reg.size ≤ 16)
    (ho : RuleAbiding used os) (hs : List.Forall₂ (SignedFor c.verifier) os rs)
    (st : Starts c reg os) (hk : ∀ k, c.key = some k → k = reg.key ∧ k.length = 32)
    (h1 : s.last = none ∨ s.last = some []) (h2 : s.needRestore = false)
    (h3 : s.chainNext = none ∨ s.chainNext = some []) (h4 : s.counter = reg.counter) :
    ∃ s' used', verifyGroup c s used (rs.map fun r => utf8Enc (r.toJWS c!"R1")) = .ok (s', used') ∧
      (rs ≠ [] → s'.last = reg'.last) ∧ (c.key ≠ none → s'.counter = reg'.counter) := by
  have se := run_session h hz ho.proper (hs.imp fun _ _ h => ⟨_, h⟩)
  have hall := session_rules h hz ho hs st h2 h3 h4 hk
  have hvalid : ∀ x ∈ entries rs, x.Valid := by
    intro x hx
    obtain ⟨r, hr, rfl⟩ := List.mem_map.mp hx
    exact facts_valid se.facts r hr
  have hreads : Reads (rs.map fun r => utf8Enc (r.toJWS c!"R1")) (entries rs) := by
    refine ⟨?_, hvalid⟩
    simp [entries, R1]
  let s' : RegState := { (loopAfter c s none used (entries rs)).state with
    last := (loopAfter c s none used (entries rs)).prev }
  have ha : After c s none (entries rs) s' := (after_iff (used := used)).mpr rfl
  refine ⟨s', addAll used (entries rs), ?_, ?_, ?_⟩
  · exact (group_accepted_iff hv).mpr ⟨none, entries rs, .none h1, hreads, hall, ha, usedAfter_iff.mpr rfl⟩
  · intro hne
    rw [ha.last, se.last]
    obtain ⟨q, x, rfl⟩ : ∃ q x, rs = q ++ [x] :=
      ⟨_, _, (List.dropLast_append_getLast hne).symm⟩
    simp [entries]
  · intro hkn
    rw [ha.counter, if_neg hkn, se.counter, h4]

end

/-! ### Concrete cases -/

namespace Demo

attribute [local instance] env

theorem order_proper (n : Nat) (c : Int) (h : |c| ≤ 2 ^ 51) (sys : SigSystem) (dummy reversal : Bool)
    (hn : n < 60) (hs : '_' ∉ sys.serial) : (order n c sys dummy reversal).Proper where
  sumA := ⟨c, in_cents c false h⟩
  sumB := ⟨0, in_cents_zero _⟩
  sumC := ⟨0, in_cents_zero _⟩
  sumD := ⟨0, in_cents_zero _⟩
  sumE := ⟨0, in_cents_zero _⟩
  date := by simp [order, DateTime.Valid, daysInMonth]; omega
  year := by simp [order]
  serial := hs

theorem order_zero (n : Nat) (sys : SigSystem) : (order n 0 sys false false).Zero :=
  ⟨in_cents 0 false (by norm_num), in_cents_zero _, in_cents_zero _, in_cents_zero _, in_cents_zero _,
    rfl, rfl⟩

/-- The owner of the register obeyed the rules on the day with failures. -/
theorem orders_abide : RuleAbiding (.unique ∅) orders where
  proper := by
    intro o ho
    simp only [orders, List.mem_cons, List.not_mem_nil, or_false] at ho
    rcases ho with rfl | rfl | rfl | rfl | rfl | rfl | rfl | rfl <;>
      exact order_proper _ _ (by norm_num) _ _ _ (by norm_num) (by decide)
  first := by
    intro o ho
    cases ho
    exact ⟨id, order_zero _ _⟩
  restore := by
    intro pre a b c post e ha hb hn
    rcases pre with _ | ⟨_, _ | ⟨_, _ | ⟨_, _ | ⟨_, _ | ⟨_, _ | ⟨_, pre⟩⟩⟩⟩⟩⟩
    all_goals simp only [orders, List.nil_append, List.cons_append, List.cons.injEq] at e
    · rw [← e.1] at ha; exact ha.elim
    · rw [← e.2.1] at ha; exact ha.elim
    · rw [← e.2.2.1] at ha; exact ha.elim
    · rw [← e.2.2.2.1] at ha; exact ha.elim
    · rw [← e.2.2.2.2.2.2.1]; exact ⟨id, order_zero _ _⟩
    · rw [← e.2.2.2.2.2.1] at ha; exact ha.elim
    · have := congrArg List.length e.2.2.2.2.2.2
      simp at this
      omega
  kind := by
    intro a ha b hb
    simp only [orders, List.mem_cons, List.not_mem_nil, or_false] at ha hb
    rcases ha with rfl | rfl | rfl | rfl | rfl | rfl | rfl | rfl <;>
      rcases hb with rfl | rfl | rfl | rfl | rfl | rfl | rfl | rfl <;> decide
  dates := by
    simp [orders, order, Earlier]
  ids := by
    refine ⟨by decide, by simp⟩

theorem signed_device (r : Receipt) (hz : r.zda ≠ c!"AT0") (hs : r.certSerial = c!"1f") :
    KeyFor (.fromCert device) r (pubOf ([7, 8] : Bytes)) ∧ ¬WrongCert (.fromCert device) r := by
  have hm : SerialMatches r.certSerial (serial device) := by
    rw [hs]
    refine .inl ⟨c!"1f", .inr ⟨rfl, by simp, by simp⟩, by decide +kernel⟩
  refine ⟨.openCert device hz rfl hm rfl, ?_⟩
  rintro ⟨c, hc, _, hn⟩
  cases hc
  exact hn hm

theorem signedFor_ok {n : Nat} {c : Int} {d v : Bool} {r : Receipt} (hz : r.zda ≠ c!"AT0")
    (hs : r.certSerial = c!"1f") : SignedFor (.fromCert device) (order n c sysOk d v) r :=
  (signed_device r hz hs).1

theorem signedFor_broken {n : Nat} {c : Int} {d v : Bool} {r : Receipt} (hz : r.zda ≠ c!"AT0")
    (hs : r.certSerial = c!"1f") : SignedFor (.fromCert device) (order n c sysBroken d v) r :=
  (signed_device r hz hs).2

theorem forall₂_of_all {α β : Type} {R : α → β → Prop} {l : List α} {m : List β}
    (hl : l.length = m.length) (h : ∀ a ∈ l, ∀ b ∈ m, R a b) : List.Forall₂ R l m := by
  induction l generalizing m with
  | nil => cases m with
    | nil => exact .nil
    | cons => cases hl
  | cons a l ih => cases m with
    | nil => cases hl
    | cons b m =>
      exact .cons (h a (by simp) b (by simp))
        (ih (by simpa using hl) fun a ha b hb => h a (by simp [ha]) b (by simp [hb]))

theorem signed_orders (rs : List Receipt) (hl : rs.length = 8)
    (hall : ∀ r ∈ rs, r.zda ≠ c!"AT0" ∧ r.certSerial = c!"1f") :
    List.Forall₂ (SignedFor (.fromCert device)) orders rs := by
  refine forall₂_of_all (by rw [hl]; rfl) ?_
  intro o ho r hr
  obtain ⟨h1, h2⟩ := hall r hr
  simp only [orders, List.mem_cons, List.not_mem_nil, or_false] at ho
  rcases ho with rfl | rfl | rfl | rfl | rfl | rfl | rfl | rfl
  · exact signedFor_ok h1 h2
  · exact signedFor_ok h1 h2
  · exact signedFor_ok h1 h2
  · exact signedFor_ok h1 h2
  · exact signedFor_broken h1 h2
  · exact signedFor_ok h1 h2
  · exact signedFor_ok h1 h2
  · exact signedFor_broken h1 h2

theorem receipts_signed : List.Forall₂ (SignedFor ctx.verifier) orders receipts :=
  signed_orders receipts (by decide +kernel) (by decide +kernel)

/-- The hypotheses of `history_accepted` are met: a day with sales, a training receipt, a reversal and
a signature system that fails twice. -/
theorem day_accepted : ∃ s' used', verifyGroup ctx fresh (.unique ∅) group = .ok (s', used') ∧
    s'.last = (register.run orders).1.last ∧ s'.counter = (register.run orders).1.counter := by
  obtain ⟨s', used', h1, h2, h3⟩ := history_accepted (c := ctx) (s := fresh) (used := .unique ∅)
    ctx_verifier run_ok (by decide) orders_abide receipts_signed
    (.alone (.inl rfl) (.inl rfl)) (by intro k hk; cases hk; exact ⟨rfl, by decide⟩) (.inl rfl) rfl
    (.inl rfl) rfl
  refine ⟨s', used', ?_, h2 ?_, h3 (by simp [ctx])⟩
  · rw [← h1]
    rw [group, texts, List.map_map]
    rfl
  · intro h0
    have : receipts.length = 8 := by decide +kernel
    rw [h0] at this
    cases this

def secondReceipts : List Receipt := ((secondRegister.run secondOrders).2).getD []

theorem second_run : secondRegister.run secondOrders =
    ((secondRegister.run secondOrders).1, some secondReceipts) :=
  Prod.ext rfl (show (secondRegister.run secondOrders).2 = some secondReceipts by
    have h : ((secondRegister.run secondOrders).2).isSome = true := by decide +kernel
    obtain ⟨x, hx⟩ := Option.isSome_iff_exists.mp h
    rw [secondReceipts, hx]; rfl)

theorem second_abide : RuleAbiding (.unique {c!"R1", c!"R2"}) secondOrders where
  proper := by
    intro o ho
    simp only [secondOrders, List.mem_cons, List.not_mem_nil, or_false] at ho
    rcases ho with rfl | rfl <;> exact order_proper _ _ (by norm_num) _ _ _ (by norm_num) (by decide)
  first := by
    intro o ho
    cases ho
    exact ⟨id, order_zero _ _⟩
  restore := by
    intro pre a b c post e
    have := congrArg List.length e
    simp [secondOrders] at this
    omega
  kind := by
    intro a ha b hb
    simp only [secondOrders, List.mem_cons, List.not_mem_nil, or_false] at ha hb
    rcases ha with rfl | rfl <;> rcases hb with rfl | rfl <;> decide
  dates := by simp [secondOrders, order, Earlier]
  ids := ⟨by decide, by decide⟩

theorem second_signed : List.Forall₂ (SignedFor ctx2.verifier) secondOrders secondReceipts := by
  have hall : ∀ r ∈ secondReceipts, r.zda = c!"AT0" ∧ r.certSerial = closedId := by decide +kernel
  refine forall₂_of_all (by decide +kernel) ?_
  intro o ho r hr
  obtain ⟨h1, h2⟩ := hall r hr
  have hk : KeyFor ctx2.verifier r (pubOf ([7, 8] : Bytes)) :=
    .closedStore closedStore h1 rfl rfl (by rw [h2]; rfl)
  simp only [secondOrders, List.mem_cons, List.not_mem_nil, or_false] at ho
  rcases ho with rfl | rfl <;> exact hk

/-- The hypotheses of `history_accepted` are met by the second register of a closed system. -/
theorem second_accepted : ∃ s' used', verifyGroup ctx2 fresh (.unique {c!"R1", c!"R2"})
    (secondReceipts.map fun r => utf8Enc (r.toJWS c!"R1")) = .ok (s', used') ∧
    s'.counter = (secondRegister.run secondOrders).1.counter := by
  have hy : firstTexts.head?.any (fun t => ((fromJWS t).toOption).any fun x => x.2 = c!"R1" ∧
      x.1.registerId = secondRegister.registerId ∧ x.1.zda = c!"AT0" ∧
      x.1.dateTime = ⟨2020, 1, 2, 3, 1, 0⟩) = true := by decide +kernel
  obtain ⟨t, ht, hx⟩ := of_any hy
  obtain ⟨⟨r, a⟩, hr, hp⟩ := of_any hx
  simp only [Bool.decide_and, Bool.and_eq_true, decide_eq_true_eq] at hp
  obtain ⟨rfl, p1, p2, p3⟩ := hp
  have hv : Entry.Valid (t, r) := by
    unfold Entry.Valid
    cases h : fromJWS t <;> rw [h] at hr <;> simp_all [Except.toOption]
  obtain ⟨s', used', h1, -, h3⟩ := history_accepted (c := ctx2) (s := fresh)
    (used := .unique {c!"R1", c!"R2"}) ctx2_verifier second_run (by decide) second_abide second_signed
    (.cluster (t, r) hv (by rw [← ht]; rfl) (by rw [← ht]; rfl) p1 p2 (by
      intro o ho
      cases ho
      refine ⟨rfl, ?_⟩
      show ¬Earlier _ r.dateTime
      rw [p3]
      simp [order, Earlier]))
    (by intro k hk; cases hk; exact ⟨rfl, by decide⟩) (.inl rfl) rfl (.inl rfl) rfl
  exact ⟨s', used', h1, h3 (by simp [ctx2])⟩

/-- Four tenths of a cent, three times. -/
def fractions : Order :=
  { order 2 0 sysOk false false with
    sumA := ⟨toF64 (4 / 1000), false⟩, sumB := ⟨toF64 (4 / 1000), false⟩,
    sumC := ⟨toF64 (4 / 1000), false⟩ }

def fractionReceipts : List Receipt :=
  ((register.run [order 1 0 sysOk false false, fractions]).2).getD []

/-- C60 needs whole cents: the register books the rounded total, the verifier adds the rounded
amounts it reads. -/
theorem fractions_rejected : fractionReceipts.length = 2 ∧
    verifyGroup ctx fresh (.unique ∅) (fractionReceipts.map fun r => utf8Enc (r.toJWS R1)) =
      .error .invalidTurnoverCounter :=
  ⟨by decide +kernel, raised_eq (by decide +kernel)⟩

end Demo

end RKSV
