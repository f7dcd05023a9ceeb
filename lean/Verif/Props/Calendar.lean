import Verif.Lemmas.Calendar
import Verif.Props.Receipt
import Verif.Spec.VerifyGroup
/-
Property C103: time stamps.
-/
namespace RKSV

section
variable [PyEnv]

/-- Reading a text as a time stamp, field by field. -/
theorem strptime_iff {s : Str} {d : DateTime} : strptime s = some d ↔
    ∃ y1 y2 y3 y4 mo da ho mi se t a b c e, s = [y1, y2, y3, y4] ++ '-' :: (mo ++ '-' :: (da ++ t :: (ho ++ ':' :: (mi ++ ':' :: se)))) ∧
      (digitVal y1 = some a ∧ digitVal y2 = some b ∧ digitVal y3 = some c ∧ digitVal y4 = some e ∧
        d.year = a * 1000 + b * 100 + c * 10 + e) ∧
      ('-' ∉ mo ∧ fieldMonth mo = some d.month) ∧
      ((t = 'T' ∨ t = 't') ∧ (∀ x ∈ da, x ≠ 'T' ∧ x ≠ 't') ∧ fieldDay da = some d.day) ∧
      (':' ∉ ho ∧ fieldHour ho = some d.hour) ∧ (':' ∉ mi ∧ fieldMinute mi = some d.minute) ∧
      fieldSecond se = some d.second ∧ d.Valid := by
  constructor
  · intro h
    unfold strptime at h
    split at h
    · rename_i y1 y2 y3 y4 sep r
      split at h
      · cases h
      · rename_i hsep
        obtain ⟨a, ha, h⟩ := Option.bind_eq_some_iff.mp h
        obtain ⟨b, hb, h⟩ := Option.bind_eq_some_iff.mp h
        obtain ⟨c, hc, h⟩ := Option.bind_eq_some_iff.mp h
        obtain ⟨e, he, h⟩ := Option.bind_eq_some_iff.mp h
        obtain ⟨⟨mo, r1⟩, h1, h⟩ := Option.bind_eq_some_iff.mp h
        obtain ⟨nm, hm, h⟩ := Option.bind_eq_some_iff.mp h
        obtain ⟨⟨da, r2⟩, h2, h⟩ := Option.bind_eq_some_iff.mp h
        obtain ⟨nd, hd, h⟩ := Option.bind_eq_some_iff.mp h
        obtain ⟨⟨ho, r3⟩, h3, h⟩ := Option.bind_eq_some_iff.mp h
        obtain ⟨nh, hh, h⟩ := Option.bind_eq_some_iff.mp h
        obtain ⟨⟨mi, se⟩, h4, h⟩ := Option.bind_eq_some_iff.mp h
        obtain ⟨nmi, hmi, h⟩ := Option.bind_eq_some_iff.mp h
        obtain ⟨ns, hs, h⟩ := Option.bind_eq_some_iff.mp h
        simp only at h
        have hsep : sep = '-' := by simpa using hsep
        subst hsep
        split at h
        · rename_i hv
          cases h
          obtain ⟨x1, e1, p1, q1⟩ := cutAt_iff.mp h1
          obtain ⟨x2, e2, p2, q2⟩ := cutAt_iff.mp h2
          obtain ⟨x3, e3, p3, q3⟩ := cutAt_iff.mp h3
          obtain ⟨x4, e4, p4, q4⟩ := cutAt_iff.mp h4
          simp only [beq_iff_eq, Bool.or_eq_true] at p1 p2 p3 p4
          subst p1
          subst p3
          subst p4
          refine ⟨y1, y2, y3, y4, mo, da, ho, mi, se, x2, a, b, c, e, ?_, ⟨ha, hb, hc, he, rfl⟩, ⟨fun hx => ?_, hm⟩,
            ⟨p2, fun x hx => ?_, hd⟩, ⟨fun hx => ?_, hh⟩, ⟨fun hx => ?_, hmi⟩, hs, hv⟩
          · rw [e1, e2, e3, e4]; rfl
          · have := q1 _ hx; simp at this
          · have := q2 _ hx; simpa using this
          · have := q3 _ hx; simp at this
          · have := q4 _ hx; simp at this
        · cases h
    · cases h
  · rintro ⟨y1, y2, y3, y4, mo, da, ho, mi, se, t, a, b, c, e, rfl, ⟨ha, hb, hc, he, hy⟩, ⟨q1, hm⟩, ⟨ht, q2, hd⟩, ⟨q3, hh⟩,
      ⟨q4, hmi⟩, hs, hv⟩
    have h1 : ∀ r, cutAt (· == '-') (mo ++ '-' :: r) = some (mo, r) := fun r => cutAt_append (by
      intro x hx; simp only [beq_eq_false_iff_ne]; rintro rfl; exact q1 hx) (by decide)
    have h2 : ∀ r, cutAt (fun c => c == 'T' || c == 't') (da ++ t :: r) = some (da, r) := fun r => cutAt_append (by
      intro x hx; simpa using q2 x hx) (by rcases ht with rfl | rfl <;> decide)
    have h3 : ∀ r, cutAt (· == ':') (ho ++ ':' :: r) = some (ho, r) := fun r => cutAt_append (by
      intro x hx; simp only [beq_eq_false_iff_ne]; rintro rfl; exact q3 hx) (by decide)
    have h4 : ∀ r, cutAt (· == ':') (mi ++ ':' :: r) = some (mi, r) := fun r => cutAt_append (by
      intro x hx; simp only [beq_eq_false_iff_ne]; rintro rfl; exact q4 hx) (by decide)
    obtain ⟨dy, dmo, dd, dh, dmi, ds⟩ := d
    simp only at hy hm hd hh hmi hs
    subst hy
    simp [strptime, ha, hb, hc, he, h1, h2, h3, h4, hm, hd, hh, hmi, hs, hv]

/-- C103: a text of ASCII characters is read as a time exactly if it is a text for this time, and this is a time on
the calendar. -/
theorem time_text_iff {s : Str} (hs : AsciiText s) {d : DateTime} : strptime s = some d ↔ TimeText d s ∧ RealTime d := by
  rw [strptime_iff]
  constructor
  · rintro ⟨y1, y2, y3, y4, mo, da, ho, mi, se, t, a, b, c, e, rfl, ⟨ha, hb, hc, he, hy⟩, ⟨-, hm⟩, ⟨ht, -, hd⟩, ⟨-, hh⟩,
      ⟨-, hmi⟩, hse, hv⟩
    have mem : ∀ x, (x = y1 ∨ x = y2 ∨ x = y3 ∨ x = y4 ∨ x ∈ da ∨ x ∈ ho ∨ x ∈ mi ∨ x ∈ se) → x.toNat < 128 := by
      intro x hx
      apply hs
      simp only [List.mem_append, List.mem_cons, List.not_mem_nil, or_false]
      grind
    obtain ⟨ka, rfl⟩ := (digitVal_iff (mem _ (by simp))).mp ha
    obtain ⟨kb, rfl⟩ := (digitVal_iff (mem _ (by simp))).mp hb
    obtain ⟨kc, rfl⟩ := (digitVal_iff (mem _ (by simp))).mp hc
    obtain ⟨ke, rfl⟩ := (digitVal_iff (mem _ (by simp))).mp he
    rw [fieldMonth_iff] at hm
    rw [fieldDay_iff fun x hx => mem x (by simp [hx])] at hd
    rw [fieldHour_iff fun x hx => mem x (by simp [hx])] at hh
    rw [fieldMinute_iff fun x hx => mem x (by simp [hx])] at hmi
    rw [fieldSecond_iff fun x hx => mem x (by simp [hx])] at hse
    exact ⟨.mk (fourDigits_iff.mpr ⟨a, b, c, e, ka, kb, kc, ke, rfl, hy⟩) hm.1 hd.1 ht hh.1 hmi.1 hse.1,
      valid_iff_real.mp hv⟩
  · rintro ⟨⟨hy, hm, hd, ht, hh, hmi, hse⟩, hv⟩
    rename_i y mo da ho mi se t
    have hv' := valid_iff_real.mpr hv
    have hv'' := hv'
    obtain ⟨v1, v2, v3, v4, v5, v6, v7, v8, v9⟩ := hv''
    have h31 : d.day ≤ 31 := by
      refine le_trans v6 ?_
      unfold daysInMonth
      split
      · split <;> omega
      · split <;> omega
    have mem : ∀ x, (x ∈ da ∨ x ∈ ho ∨ x ∈ mi ∨ x ∈ se) → x.toNat < 128 := by
      intro x hx
      apply hs
      simp only [List.mem_append, List.mem_cons]
      grind
    obtain ⟨a, b, c, e, ka, kb, kc, ke, rfl, hy'⟩ := fourDigits_iff.mp hy
    refine ⟨_, _, _, _, mo, da, ho, mi, se, t, a, b, c, e, rfl,
      ⟨digitVal_dig ka, digitVal_dig kb, digitVal_dig kc, digitVal_dig ke, hy'⟩,
      ⟨fun hx => twoDigits_chars hm (c := '-') (by decide) _ hx rfl, fieldMonth_iff.mpr ⟨hm, v3, v4⟩⟩,
      ⟨ht, fun x hx => ?_, (fieldDay_iff fun x hx => mem x (by simp [hx])).mpr ⟨hd, v5, h31⟩⟩,
      ⟨fun hx => twoDigits_chars hh (c := ':') (by decide) _ hx rfl, (fieldHour_iff fun x hx => mem x (by simp [hx])).mpr ⟨hh, v7⟩⟩,
      ⟨fun hx => twoDigits_chars hmi (c := ':') (by decide) _ hx rfl,
        (fieldMinute_iff fun x hx => mem x (by simp [hx])).mpr ⟨hmi, v8⟩⟩,
      (fieldSecond_iff fun x hx => mem x (by simp [hx])).mpr ⟨hse, by omega⟩, hv'⟩
    rcases hd with hd | ⟨h9, rfl⟩
    · exact ⟨twoDigits_chars hd (by decide) x hx, twoDigits_chars hd (by decide) x hx⟩
    · have hn : TwoDigits (natDec d.day) d.day := .inl rfl
      rcases List.mem_cons.mp hx with rfl | hx
      · decide
      · exact ⟨twoDigits_chars hn (by decide) x hx, twoDigits_chars hn (by decide) x hx⟩

/-- C103: the time of a receipt is on the calendar, and is the one its text is for. -/
theorem receipt_time {r : Receipt} {alg : Str} (h : Parsed r alg) :
    RealTime r.dateTime ∧ (AsciiText r.dateTimeStr → TimeText r.dateTime r.dateTimeStr) := by
  obtain ⟨g, -⟩ := h.good
  exact ⟨valid_iff_real.mp (strptime_valid g.init.dateTime), fun ha => ((time_text_iff ha).mp g.init.dateTime).1⟩

/-- C103: the time stamps cash registers write are texts for their times. -/
theorem strftime_text {d : DateTime} (h : RealTime d) (hy : 1000 ≤ d.year) : TimeText d (strftime d) := by
  have hv := valid_iff_real.mpr h
  refine ((time_text_iff fun c hc => ?_).mp (strptime_strftime hv hy)).1
  have hd : ∀ n, n < 10 → (dig n).toNat < 128 := fun n hn => by rw [dig_toNat hn]; omega
  have hdays : daysInMonth d.year d.month ≤ 31 := by
    unfold daysInMonth
    split
    · split <;> omega
    · split <;> omega
  obtain ⟨v1, v2, v3, v4, v5, v6, v7, v8, v9⟩ := hv
  simp only [strftime, pad2, List.mem_append, List.mem_cons, List.not_mem_nil, or_false, or_assoc] at hc
  rcases hc with rfl | rfl | rfl | rfl | rfl | rfl | rfl | rfl | rfl | rfl | rfl | rfl | rfl | rfl | rfl | rfl | rfl |
    rfl | rfl <;> first | exact hd _ (by omega) | decide

end

/-! ### The order of times -/

theorem DateTime.key_injective {a b : DateTime} (ha : a.Valid) (hb : b.Valid) (h : a.key = b.key) : a = b := by
  have h1 := mt (key_lt_iff ha hb).mpr (by omega)
  have h2 := mt (key_lt_iff hb ha).mpr (by omega)
  obtain ⟨y, mo, d, ho, mi, s⟩ := a
  obtain ⟨y', mo', d', ho', mi', s'⟩ := b
  simp only [DateTime.mk.injEq] at *
  omega

theorem nextSecond_spec {a b : DateTime} (ha : a.Valid) (hy : b.year ≤ 9999) (h : NextSecond a b) :
    b.Valid ∧ a.key < b.key := by
  have hb : b.Valid := by
    obtain ⟨v1, v2, v3, v4, v5, v6, v7, v8, v9⟩ := ha
    cases h with
    | second h e => subst e; exact ⟨v1, v2, v3, v4, v5, v6, v7, v8, by simp only; omega⟩
    | minute hs h e => subst e; exact ⟨v1, v2, v3, v4, v5, v6, v7, by simp only; omega, by simp⟩
    | hour hs hm h e => subst e; exact ⟨v1, v2, v3, v4, v5, v6, by simp only; omega, by simp, by simp⟩
    | day hs hm hh hn h e =>
      subst e
      obtain ⟨-, -, rfl⟩ := monthDays_iff.mp hn
      exact ⟨v1, v2, v3, v4, by simp only; omega, by simp only; omega, by simp, by simp, by simp⟩
    | month hs hm hh hn hd h e =>
      subst e
      refine ⟨v1, v2, by simp only; omega, by simp only; omega, by simp, ?_, by simp, by simp, by simp⟩
      simp only
      unfold daysInMonth
      split
      · split <;> omega
      · split <;> omega
    | year hs hm hh hd hmo e => subst e; exact ⟨by simp, hy, by simp, by simp, by simp, by simp [daysInMonth], by simp, by simp, by simp⟩
  refine ⟨hb, (DateTime.key_lt_iff ha hb).mpr ?_⟩
  cases h with
  | second h e => subst e; simp
  | minute hs h e => subst e; simp
  | hour hs hm h e => subst e; simp
  | day hs hm hh hn h e => subst e; simp
  | month hs hm hh hn hd h e => subst e; simp
  | year hs hm hh hd hmo e => subst e; simp

/-- Every time but the first has one before it, with none in between. -/
theorem previous_second {a b : DateTime} (ha : a.Valid) (hb : b.Valid) (h : a.key < b.key) :
    ∃ p, p.Valid ∧ NextSecond p b ∧ a.key ≤ p.key := by
  have key : ∀ p : DateTime, p.Valid → NextSecond p b → ¬(p.key < a.key) → ∃ p, p.Valid ∧ NextSecond p b ∧ a.key ≤ p.key :=
    fun p h1 h2 h3 => ⟨p, h1, h2, by omega⟩
  have hlt := (DateTime.key_lt_iff ha hb).mp h
  have ha' := ha
  have hb' := hb
  obtain ⟨u1, u2, u3, u4, u5, u6, u7, u8, u9⟩ := ha'
  obtain ⟨v1, v2, v3, v4, v5, v6, v7, v8, v9⟩ := hb'
  obtain ⟨y, mo, d, ho, mi, s⟩ := b
  simp only at *
  by_cases hs : 0 < s
  · have hp : DateTime.Valid ⟨y, mo, d, ho, mi, s - 1⟩ := ⟨v1, v2, v3, v4, v5, v6, v7, v8, by simp only; omega⟩
    refine key _ hp (.second (by simp only; omega) (by simp; omega)) ?_
    rw [DateTime.key_lt_iff hp ha]
    simp only
    omega
  by_cases hmi : 0 < mi
  · have hp : DateTime.Valid ⟨y, mo, d, ho, mi - 1, 59⟩ := ⟨v1, v2, v3, v4, v5, v6, v7, by simp only; omega, by simp⟩
    refine key _ hp (.minute rfl (by simp only; omega) (by simp; omega)) ?_
    rw [DateTime.key_lt_iff hp ha]
    simp only
    omega
  by_cases hho : 0 < ho
  · have hp : DateTime.Valid ⟨y, mo, d, ho - 1, 59, 59⟩ := ⟨v1, v2, v3, v4, v5, v6, by simp only; omega, by simp, by simp⟩
    refine key _ hp (.hour rfl rfl (by simp only; omega) (by simp; omega)) ?_
    rw [DateTime.key_lt_iff hp ha]
    simp only
    omega
  by_cases hd : 1 < d
  · have hp : DateTime.Valid ⟨y, mo, d - 1, 23, 59, 59⟩ :=
      ⟨v1, v2, v3, v4, by simp only; omega, by simp only; omega, by simp, by simp, by simp⟩
    refine key _ hp (.day rfl rfl rfl (monthDays_iff.mpr ⟨v3, v4, rfl⟩) (by simp only; omega) (by simp; omega)) ?_
    rw [DateTime.key_lt_iff hp ha]
    simp only
    omega
  have hdays : ∀ y m, 1 ≤ daysInMonth y m := by
    intro y m
    unfold daysInMonth
    split
    · split <;> omega
    · split <;> omega
  by_cases hmo : 1 < mo
  · have hp : DateTime.Valid ⟨y, mo - 1, daysInMonth y (mo - 1), 23, 59, 59⟩ :=
      ⟨v1, v2, by simp only; omega, by simp only; omega, hdays _ _, le_refl _, by simp, by simp, by simp⟩
    refine key _ hp (.month rfl rfl rfl (monthDays_iff.mpr ⟨by simp only; omega, by simp only; omega, rfl⟩) rfl
      (by simp only; omega) (by simp; omega)) ?_
    rw [DateTime.key_lt_iff hp ha]
    simp only
    by_cases he : a.year = y ∧ a.month = mo - 1
    · rw [he.1, he.2] at u6
      omega
    · omega
  · have hp : DateTime.Valid ⟨y - 1, 12, 31, 23, 59, 59⟩ :=
      ⟨by simp only; omega, by simp only; omega, by simp, by simp, by simp, by simp [daysInMonth], by simp, by simp, by simp⟩
    refine key _ hp (.year rfl rfl rfl rfl rfl (by simp; omega)) ?_
    rw [DateTime.key_lt_iff hp ha]
    simp only
    by_cases he : a.month = 12
    · rw [he] at u6
      have : daysInMonth a.year 12 = 31 := by simp [daysInMonth]
      omega
    · omega

/-- C103: of two times on the calendar, the first is taken to be before the second exactly if the clock gets from it
to the second one. -/
theorem time_order {a b : DateTime} (ha : RealTime a) (hb : RealTime b) : a.before b = true ↔ ClockReaches a b := by
  rw [← valid_iff_real] at ha hb
  simp only [DateTime.before, decide_eq_true_eq]
  constructor
  · intro h
    induction hk : b.key using Nat.strong_induction_on generalizing b with
    | _ n ih =>
      obtain ⟨p, hp, hn, hle⟩ := previous_second ha hb h
      obtain ⟨-, hlt⟩ := nextSecond_spec hp hb.2.1 hn
      by_cases he : a.key = p.key
      · cases DateTime.key_injective ha hp he
        exact .next hn
      · exact .step (ih p.key (by omega) hp (by omega) rfl) hn
  · intro h
    have key : b.Valid ∧ a.key < b.key := by
      have hby := hb.2.1
      clear hb
      induction h with
      | next h => exact nextSecond_spec ha hby h
      | @step b c _ h' ih =>
        have hy : b.year ≤ 9999 := by
          have : b.year ≤ c.year := by cases h' <;> (rename_i e; subst e; simp)
          omega
        obtain ⟨h1, h2⟩ := ih hy
        obtain ⟨h3, h4⟩ := nextSecond_spec h1 hby h'
        exact ⟨h3, by omega⟩
    exact key.2

/-- C103: the dates of receipts, which must not decrease, are compared like this. -/
theorem earlier_iff_clock {a b : DateTime} (ha : RealTime a) (hb : RealTime b) : Earlier a b ↔ ClockReaches a b := by
  rw [← time_order ha hb, DateTime.before, decide_eq_true_eq,
    DateTime.key_lt_iff (valid_iff_real.mpr ha) (valid_iff_real.mpr hb)]
  rfl

namespace Demo

/-- The last second of February 29, 2000, and the one after it; there was no such day in 1900. -/
example : RealTime ⟨2000, 2, 29, 23, 59, 59⟩ ∧ NextSecond ⟨2000, 2, 29, 23, 59, 59⟩ ⟨2000, 3, 1, 0, 0, 0⟩ ∧
    ¬RealTime ⟨1900, 2, 29, 12, 0, 0⟩ := by
  refine ⟨valid_iff_real.mp (by decide), .month rfl rfl rfl (.februaryLeap ⟨by decide, by decide⟩) rfl (by decide) rfl, ?_⟩
  rw [← valid_iff_real]
  decide

attribute [local instance] env

/-- A time may be written in different ways. -/
example : strptime c!"2020-1-02T3:4:05" = some ⟨2020, 1, 2, 3, 4, 5⟩ ∧ strptime c!"2020-01- 2t03:04:05" = some ⟨2020, 1, 2, 3, 4, 5⟩ ∧
    strptime c!"2020-02-30T00:00:00" = none ∧ strptime c!"2020-01-02T03:04:60" = none ∧
    strptime c!"20-01-02T03:04:05" = none := by decide +kernel

end Demo

end RKSV
