import Verif.Lemmas.CashReg
import Verif.Lemmas.DemoGroup
/-
Properties C61, C62, C72: what the cash register makes and how it counts.
-/
namespace RKSV

section
variable [PyEnv]

/-! ### C62 -/

/-- C62: every receipt the register returns reads back from its JWS text as the same receipt, and
that text is the one the register keeps for chaining.  The sizes are the ones the constructor of the
register accepts. -/
theorem receipt_reads_back {reg reg' : CashRegister} {o : Order} {r : Receipt}
    (h : reg.receipt o = (reg', .ok r)) (hz : 5 ≤ reg.size ∧ reg.size ≤ 16)
    (hu : '_' ∉ o.sys.serial) (hs : ServiceSigned o.sys r) :
    fromJWS (r.toJWS c!"R1") = .ok (r, c!"R1") ∧ reg'.last = some (r.toJWS c!"R1") := by
  obtain ⟨c⟩ := call_of_receipt h
  obtain ⟨g, hj⟩ := c.good hz hu hs
  refine ⟨fromJWS_toJWS g, ?_⟩
  rw [c.reg_eq, hj]; rfl

/-- C62: the sizes the constructor accepts. -/
theorem register_size {registerId : Str} {last : Option Str} {counter : Int} {key : Bytes} {size : Nat}
    {reg : CashRegister} : CashRegister.make registerId last counter key size = .ok reg ↔
      (5 ≤ size ∧ size ≤ 16) ∧ reg = ⟨registerId, last, counter, key, size⟩ := by
  simp only [CashRegister.make, Res.bind_eq_ok, ensure_eq_ok, not_or, not_lt]
  constructor
  · rintro ⟨_, h1, h2⟩; cases h2; exact ⟨h1, rfl⟩
  · rintro ⟨h1, rfl⟩; exact ⟨(), h1, rfl⟩

/-- C62: every receipt is chained to the text the register kept, or to the register ID if there is
none; nothing else in the register changes but counter and text. -/
theorem receipt_chained {reg reg' : CashRegister} {o : Order} {r : Receipt}
    (h : reg.receipt o = (reg', .ok r)) :
    r.previousChain = chainValue (chainedTo reg) ∧ reg'.registerId = reg.registerId ∧
      reg'.key = reg.key ∧ reg'.size = reg.size := by
  obtain ⟨c⟩ := call_of_receipt h
  refine ⟨by rw [c.fields]; rfl, ?_, ?_, ?_⟩ <;> rw [c.reg_eq]

/-- C62: consecutive receipts are chained: the second one to the JWS text of the first. -/
theorem next_receipt_chained {reg reg' reg'' : CashRegister} {o o' : Order} {r r' : Receipt}
    (h : reg.receipt o = (reg', .ok r)) (h' : reg'.receipt o' = (reg'', .ok r'))
    (hz : 5 ≤ reg.size ∧ reg.size ≤ 16) (hu : '_' ∉ o.sys.serial) (hs : ServiceSigned o.sys r) :
    r'.previousChain = chainValue (r.toJWS c!"R1") := by
  obtain ⟨h1, h2⟩ := receipt_reads_back h hz hu hs
  rw [(receipt_chained h').1, chainedTo, h2]
  have : r.toJWS c!"R1" ≠ [] := (show Entry.Valid (r.toJWS c!"R1", r) from h1).ne_nil
  simp [this]

/-! ### C72 -/

/-- C72: the receipt says what was ordered. -/
theorem receipt_contents {reg reg' : CashRegister} {o : Order} {r : Receipt}
    (h : reg.receipt o = (reg', .ok r)) (hz : 5 ≤ reg.size)
    (hd : o.dateTime.Valid) (hy : 1000 ≤ o.dateTime.year) :
    r.registerId = reg.registerId ∧ r.receiptId = o.receiptId ∧ r.zda = o.sys.zda ∧
      r.certSerial = o.sys.serial ∧ r.dateTime = o.dateTime ∧
      (Training r ↔ o.dummy = true) ∧ (Reversal r ↔ o.dummy = false ∧ o.reversal = true) ∧
      (¬Training r → ¬Reversal r → r.decryptTurnoverCounter reg.key = .ok reg'.counter) := by
  obtain ⟨c⟩ := call_of_receipt h
  have hf := c.fields
  obtain ⟨k1, k2, k3⟩ := c.kind hz
  refine ⟨by rw [hf]; rfl, by rw [hf]; rfl, by rw [hf]; rfl, by rw [hf]; rfl, ?_, k1, k2, ?_⟩
  · have := c.values.1
    rw [strptime_strftime hd hy] at this
    exact (Option.some.inj this).symm
  · intro n1 n2
    rw [k1] at n1
    rw [k2] at n2
    have hd : o.dummy = false := by simpa using n1
    exact k3 hd (by simpa [hd] using n2)

/-- C72: the amounts on the receipt are the ones ordered, to the cent, and the turnover the verifier
calculates from them is the amount the register booked. -/
theorem receipt_amounts {reg reg' : CashRegister} {o : Order} {r : Receipt}
    (h : reg.receipt o = (reg', .ok r)) {a b c d e : Int} (ha : InCents o.sumA a)
    (hb : InCents o.sumB b) (hc : InCents o.sumC c) (hd : InCents o.sumD d) (he : InCents o.sumE e) :
    amountCents r.sumAStr = a ∧ amountCents r.sumBStr = b ∧ amountCents r.sumCStr = c ∧
      amountCents r.sumDStr = d ∧ amountCents r.sumEStr = e ∧
      (o.dummy = false → ∃ n, r.turnover = .ok n ∧ reg'.counter = reg.counter + n) := by
  obtain ⟨k⟩ := call_of_receipt h
  have hf := k.fields
  refine ⟨?_, ?_, ?_, ?_, ?_, ?_⟩
  · rw [hf]; exact (fmtSum_cents ha).2
  · rw [hf]; exact (fmtSum_cents hb).2
  · rw [hf]; exact (fmtSum_cents hc).2
  · rw [hf]; exact (fmtSum_cents hd).2
  · rw [hf]; exact (fmtSum_cents he).2
  · intro hdm
    have := k.turnover ha hb hc hd he
    rwa [if_neg (by simp [hdm])] at this

/-! ### C61 -/

theorem book_adds {o : Order} {n : Int} (h : o.Adds n) (counter : Int) :
    o.book counter = .ok (counter + n) := by
  obtain ⟨a, b, c, d, e, ha, hb, hc, hd, he, hs, rfl⟩ := h
  unfold Order.book
  split
  · simp
  · rw [ha.1, hb.1, hc.1, hd.1, he.1, sum5_exact hs]

/-- C61, one call: if a receipt is returned the counter has grown by what was ordered.  If an
exception is raised it may have grown as well. -/
theorem receipt_counts {reg : CashRegister} {o : Order} {n : Int} (hn : o.Adds n) :
    (∀ reg' r, reg.receipt o = (reg', .ok r) → reg'.counter = reg.counter + n) ∧
    ∀ reg' e, reg.receipt o = (reg', .error e) →
      reg'.counter = reg.counter ∨ reg'.counter = reg.counter + n := by
  constructor
  · intro reg' r h
    obtain ⟨c⟩ := call_of_receipt h
    have := c.book
    rw [book_adds hn] at this
    exact (Except.ok.inj this).symm
  · intro reg' e h
    unfold CashRegister.receipt at h
    rw [book_adds hn] at h
    split at h
    · cases h; exact .inl rfl
    · simp only at h
      right
      split at h
      · cases h; rfl
      · split at h
        · cases h; rfl
        · rw [← (Prod.mk.inj h).1]

/-- C61: after any sequence of receipts the counter is the initial value plus the amounts of the
receipts that are no training receipts.  Missing: calls that raise an exception, see
`failed_call_counts`; amounts beyond 2^49 cents. -/
theorem register_counter_partial {reg reg' : CashRegister} {os : List Order} {rs : List Receipt}
    (h : reg.run os = (reg', some rs)) {ns : List Int} (hn : List.Forall₂ Order.Adds os ns) :
    reg'.counter = reg.counter + ns.sum := by
  induction hn generalizing reg rs with
  | nil => simp only [CashRegister.run, Prod.mk.injEq] at h; simp [h.1]
  | @cons o n os ns h1 _ ih =>
    simp only [CashRegister.run] at h
    split at h
    · rename_i reg1 r hr
      simp only [Prod.mk.injEq, Option.map_eq_some_iff] at h
      obtain ⟨h2, rs', h3, -⟩ := h
      have := ih (Prod.ext h2 h3)
      rw [this, (receipt_counts h1).1 _ _ hr, List.sum_cons]
      ring
    · cases h

end

/-! ### Concrete cases -/

namespace Demo

attribute [local instance] env

/-- The receipt of a result. -/
def made {α : Type} (x : CashRegister × Res α) : Option α := x.2.toOption

theorem made_eq {α : Type} {x : CashRegister × Res α} {r : α} (h : made x = some r) :
    x = (x.1, .ok r) := by
  rcases x with ⟨reg, y⟩
  cases y <;> simp_all [made, Except.toOption]

theorem of_any {α : Type} {o : Option α} {p : α → Bool} (h : o.any p = true) :
    ∃ r, o = some r ∧ p r = true := by
  cases o <;> simp_all

/-- The exception of a result. -/
def raised {α : Type} : Res α → Option Err
  | .error e => some e
  | .ok _ => none

theorem raised_eq {α : Type} {x : Res α} {e : Err} (h : raised x = some e) : x = .error e := by
  cases x <;> simp_all [raised]

theorem in_cents (c : Int) (m : Bool) (h : |c| ≤ 2 ^ 51) : InCents ⟨centsToF64 c, m⟩ c := ⟨rfl, h⟩

theorem centsToF64_zero : centsToF64 0 = .fin 0 := by
  rw [centsToF64_fin (by norm_num)]; simp [rnd_zero]

theorem in_cents_zero (m : Bool) : InCents ⟨.fin 0, m⟩ 0 := ⟨centsToF64_zero.symm, by norm_num⟩

theorem order_adds (n : Nat) (c : Int) (h : |c| ≤ 2 ^ 49) (sys : SigSystem) (dummy reversal : Bool) :
    (order n c sys dummy reversal).Adds (if dummy then 0 else c) :=
  ⟨c, 0, 0, 0, 0, in_cents c false (h.trans (by norm_num)), in_cents_zero _, in_cents_zero _,
    in_cents_zero _, in_cents_zero _, by simpa using h, by simp [order]⟩

set_option maxRecDepth 100000 in
theorem run_ok : register.run orders = ((register.run orders).1, some receipts) :=
  Prod.ext rfl (show (register.run orders).2 = some receipts by
    have h : ((register.run orders).2).isSome = true := by decide +kernel
    obtain ⟨x, hx⟩ := Option.isSome_iff_exists.mp h
    rw [receipts, hx]; rfl)

/-- The hypotheses of `register_counter_partial` are met by the day of the register: a start receipt,
sales, a training receipt, a reversal and failures. -/
theorem run_counts : (register.run orders).1.counter = 0 + [0, 1230, 0, -230, 42, 10, 0, 7].sum := by
  refine register_counter_partial run_ok ?_
  refine .cons (order_adds 1 0 (by norm_num) _ false false) ?_
  refine .cons (order_adds 2 1230 (by norm_num) _ false false) ?_
  refine .cons (order_adds 3 999 (by norm_num) _ true false) ?_
  refine .cons (order_adds 4 (-230) (by norm_num) _ false true) ?_
  refine .cons (order_adds 5 42 (by norm_num) _ false false) ?_
  refine .cons (order_adds 6 10 (by norm_num) _ false false) ?_
  refine .cons (order_adds 7 0 (by norm_num) _ false false) ?_
  exact .cons (order_adds 8 7 (by norm_num) _ false false) .nil

/-- A register whose counter is at the limit of its size. -/
def full : CashRegister := { register with counter := 2 ^ 39 - 1, size := 5 }

/-- C61 does not hold for calls that raise: the amount is booked before the exception, so the counter
of the register no longer is the sum of its receipts. -/
theorem failed_call_counts : made (full.receipt (order 1 5 sysOk false false)) = none ∧
    (full.receipt (order 1 5 sysOk false false)).1.counter = full.counter + 5 := by
  decide +kernel

/-- An order with a remote signature service. -/
def remoteOrder (n : Nat) (cents : Int) (answer : Option Str) : Order :=
  order n cents (.remote c!"AT1" c!"1f" c!"ES256" answer) false false

/-- The second text of the day. -/
def foreign : Str := texts.getD 1 []

def misled : CashRegister × Res Receipt := register.receipt (remoteOrder 1 0 (some foreign))

/-- C62 needs the service to answer with the receipt's own text: the register takes any JWS.  The
receipt returned is not the one the text kept for chaining stands for. -/
theorem remote_answer_trusted : ∃ reg' r, misled = (reg', .ok r) ∧ r.receiptId = c!"R1" ∧
    reg'.last = some foreign ∧ r.toJWS R1 ≠ foreign := by
  have h : (made misled).any (fun r => r.receiptId = c!"R1" ∧ misled.1.last = some foreign ∧
      r.toJWS R1 ≠ foreign) = true := by decide +kernel
  obtain ⟨r, hr, hp⟩ := of_any h
  exact ⟨_, r, made_eq hr, by simpa using hp⟩

def answered : CashRegister × Res Receipt := register.receipt (remoteOrder 1 0 texts.head?)

/-- The hypotheses of `receipt_reads_back` and `receipt_contents` are met with a remote service that
answers properly. -/
theorem remote_answer_read : ∃ reg' r, answered = (reg', .ok r) ∧
    ServiceSigned (remoteOrder 1 0 texts.head?).sys r ∧ '_' ∉ (remoteOrder 1 0 texts.head?).sys.serial ∧
    (remoteOrder 1 0 texts.head?).dateTime.Valid := by
  have h : (made answered).any (fun r => texts.head? = some (r.toJWS R1) ∧ r.header = jwsHeader ∧
      '.' ∉ r.signature) = true := by decide +kernel
  obtain ⟨r, hr, hp⟩ := of_any h
  simp only [Bool.decide_and, Bool.and_eq_true, decide_eq_true_eq] at hp
  obtain ⟨h1, h2, h3⟩ := hp
  refine ⟨_, r, made_eq hr, ?_, by decide, by decide⟩
  intro z s a jws e
  simp only [remoteOrder, order, h1, SigSystem.remote.injEq, Option.some.injEq] at e
  refine ⟨r.signature, h3, ?_⟩
  rw [← e.2.2.2, Receipt.toJWS, h2, encodeSeg_eq, encodeSeg_eq]
  simp [joinWith, jwsHeader, R1]

/-- A device whose serial contains an underscore, which Python's `int()` skips. -/
def sysUnderscore : SigSystem := .working c!"AT1" c!"1_f" ([7, 8] : Bytes)

def unreadable : CashRegister × Res Receipt := register.receipt (order 1 0 sysUnderscore false false)

/-- C62 needs the serial to be free of underscores: the register makes the receipt, but its text
does not read back. -/
theorem underscore_serial : ∃ reg' r, unreadable = (reg', .ok r) ∧
    fromJWS (r.toJWS R1) = .error .malformedReceipt := by
  have h : (made unreadable).any (fun r => raised (fromJWS (r.toJWS R1)) = some .malformedReceipt) =
      true := by decide +kernel
  obtain ⟨r, hr, hp⟩ := of_any h
  exact ⟨_, r, made_eq hr, raised_eq (by simpa using hp)⟩

end Demo

end RKSV
