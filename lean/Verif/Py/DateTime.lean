import Verif.Py.Num
/-
`datetime.datetime.strptime(s, "%Y-%m-%dT%H:%M:%S")` and the matching `strftime`.
-/
namespace RKSV

/-- A naive `datetime.datetime` without microseconds. -/
structure DateTime where
  year : Nat
  month : Nat
  day : Nat
  hour : Nat
  minute : Nat
  second : Nat
deriving DecidableEq, Repr

/-- Seconds on a calendar with 31 day months: orders like `datetime` comparison does
(lexicographically), used for `prevObj.dateTime > ro.dateTime` (librksv/verify.py:406). -/
def DateTime.key (d : DateTime) : Nat :=
  ((((d.year * 13 + d.month) * 32 + d.day) * 24 + d.hour) * 60 + d.minute) * 60 + d.second

def DateTime.before (a b : DateTime) : Bool := a.key < b.key

def isLeap (y : Nat) : Bool := y % 4 == 0 && (y % 100 != 0 || y % 400 == 0)

def daysInMonth (y m : Nat) : Nat :=
  if m = 2 then (if isLeap y then 29 else 28)
  else if m = 4 ∨ m = 6 ∨ m = 9 ∨ m = 11 then 30 else 31

/-- What the `datetime` constructor accepts. -/
def DateTime.Valid (d : DateTime) : Prop :=
  1 ≤ d.year ∧ d.year ≤ 9999 ∧ 1 ≤ d.month ∧ d.month ≤ 12 ∧ 1 ≤ d.day ∧
    d.day ≤ daysInMonth d.year d.month ∧ d.hour ≤ 23 ∧ d.minute ≤ 59 ∧ d.second ≤ 59

instance (d : DateTime) : Decidable d.Valid := by unfold DateTime.Valid; infer_instance

/-- Text before the first character satisfying `p`, and the text after it. -/
def cutAt (p : Char → Bool) : Str → Option (Str × Str)
  | [] => none
  | c :: r => if p c then some ([], r) else (cutAt p r).map fun (a, b) => (c :: a, b)

section
variable [PyEnv]

/-- `%m`: `1[0-2]|0[1-9]|[1-9]`. -/
def fieldMonth : Str → Option Nat
  | [c] => match asciiDigit c with
    | some d => if 1 ≤ d then some d else none
    | none => none
  | [a, b] => match asciiDigit a, asciiDigit b with
    | some 1, some d => if d ≤ 2 then some (10 + d) else none
    | some 0, some d => if 1 ≤ d then some d else none
    | _, _ => none
  | _ => none

/-- `%d`: `3[0-1]|[1-2]\d|0[1-9]|[1-9]| [1-9]`. -/
def fieldDay : Str → Option Nat
  | [c] => match asciiDigit c with
    | some d => if 1 ≤ d then some d else none
    | none => none
  | [a, b] =>
    if a = ' ' then match asciiDigit b with
      | some d => if 1 ≤ d then some d else none
      | none => none
    else match asciiDigit a with
      | some 3 => match asciiDigit b with
        | some d => if d ≤ 1 then some (30 + d) else none
        | none => none
      | some 1 => (digitVal b).map (10 + ·)
      | some 2 => (digitVal b).map (20 + ·)
      | some 0 => match asciiDigit b with
        | some d => if 1 ≤ d then some d else none
        | none => none
      | _ => none
  | _ => none

/-- `%H`: `2[0-3]|[0-1]\d|\d`. -/
def fieldHour : Str → Option Nat
  | [c] => digitVal c
  | [a, b] => match asciiDigit a with
    | some 2 => match asciiDigit b with
      | some d => if d ≤ 3 then some (20 + d) else none
      | none => none
    | some 1 => (digitVal b).map (10 + ·)
    | some 0 => digitVal b
    | _ => none
  | _ => none

/-- `%M`: `[0-5]\d|\d`. -/
def fieldMinute : Str → Option Nat
  | [c] => digitVal c
  | [a, b] => match asciiDigit a with
    | some t => if t ≤ 5 then (digitVal b).map (10 * t + ·) else none
    | none => none
  | _ => none

/-- `%S`: `6[0-1]|[0-5]\d|\d`. -/
def fieldSecond : Str → Option Nat
  | [c] => digitVal c
  | [a, b] => match asciiDigit a with
    | some t =>
      if t ≤ 5 then (digitVal b).map (10 * t + ·)
      else if t = 6 then match asciiDigit b with
        | some d => if d ≤ 1 then some (60 + d) else none
        | none => none
      else none
    | none => none
  | _ => none

/-- `datetime.datetime.strptime(s, "%Y-%m-%dT%H:%M:%S")` as called at librksv/receipt.py:177;
`none` is `ValueError`.  Field by field rendering of the pattern `_strptime` builds (it is
compiled ignoring case, so `t` is accepted for `T`; each field is followed by a literal that it
cannot contain, so there is no ambiguity), then the range checks of the constructor. -/
def strptime (s : Str) : Option DateTime :=
  match s with
  | y1 :: y2 :: y3 :: y4 :: sep :: r =>
    if sep ≠ '-' then none
    else do
      let y1 ← digitVal y1
      let y2 ← digitVal y2
      let y3 ← digitVal y3
      let y4 ← digitVal y4
      let (mo, r) ← cutAt (· == '-') r
      let mo ← fieldMonth mo
      let (da, r) ← cutAt (fun c => c == 'T' || c == 't') r
      let da ← fieldDay da
      let (ho, r) ← cutAt (· == ':') r
      let ho ← fieldHour ho
      let (mi, se) ← cutAt (· == ':') r
      let mi ← fieldMinute mi
      let se ← fieldSecond se
      let d : DateTime := ⟨y1 * 1000 + y2 * 100 + y3 * 10 + y4, mo, da, ho, mi, se⟩
      if d.Valid then some d else none
  | _ => none

end

/-- ASCII digit of a number below ten. -/
def dig (n : Nat) : Char := Char.ofNat (48 + n)

def pad2 (n : Nat) : Str := [dig (n / 10), dig (n % 10)]

/-- `d.strftime("%Y-%m-%dT%H:%M:%S")` for years from 1000 on (librksv/cashreg.py:131; below 1000
the padding of `%Y` depends on the C library). -/
def strftime (d : DateTime) : Str :=
  [dig (d.year / 1000), dig (d.year / 100 % 10), dig (d.year / 10 % 10), dig (d.year % 10)]
    ++ '-' :: pad2 d.month ++ '-' :: pad2 d.day ++ 'T' :: pad2 d.hour
    ++ ':' :: pad2 d.minute ++ ':' :: pad2 d.second

theorem dig_toNat {n : Nat} (h : n < 10) : (dig n).toNat = 48 + n := by
  have : ∀ n : Fin 10, (dig n).toNat = 48 + n := by decide
  exact this ⟨n, h⟩

theorem asciiDigit_dig {n : Nat} (h : n < 10) : asciiDigit (dig n) = some n := by
  have : ∀ n : Fin 10, asciiDigit (dig n) = some n.val := by decide
  exact this ⟨n, h⟩

theorem dig_ne {n : Nat} (h : n < 10) {c : Char} (hc : c.toNat < 48 ∨ 57 < c.toNat) : dig n ≠ c := by
  intro e
  have := dig_toNat h
  rw [e] at this
  omega

section
variable [PyEnv]

theorem digitVal_dig {n : Nat} (h : n < 10) : digitVal (dig n) = some n := by
  rw [PyEnv.digitVal_ascii (by rw [dig_toNat h]; omega), asciiDigit_dig h]

omit [PyEnv] in
theorem fieldMonth_pad2 {n : Nat} (h1 : 1 ≤ n) (h2 : n ≤ 12) : fieldMonth (pad2 n) = some n := by
  simp only [fieldMonth, pad2]
  rw [asciiDigit_dig (by omega), asciiDigit_dig (by omega)]
  have : n / 10 = 0 ∨ n / 10 = 1 := by omega
  rcases this with h | h
  · rw [h]; simp only; rw [if_pos (by omega)]; congr 1; omega
  · rw [h]; simp only; rw [if_pos (by omega)]; congr 1; omega

theorem fieldDay_pad2 {n : Nat} (h1 : 1 ≤ n) (h2 : n ≤ 31) : fieldDay (pad2 n) = some n := by
  simp only [fieldDay, pad2]
  rw [if_neg (dig_ne (by omega) (by decide)), asciiDigit_dig (by omega), asciiDigit_dig (by omega),
    digitVal_dig (by omega)]
  have : n / 10 = 0 ∨ n / 10 = 1 ∨ n / 10 = 2 ∨ n / 10 = 3 := by omega
  rcases this with h | h | h | h <;> rw [h] <;> simp only
  · rw [if_pos (by omega)]; congr 1; omega
  · simp; omega
  · simp; omega
  · rw [if_pos (by omega)]; congr 1; omega

theorem fieldHour_pad2 {n : Nat} (h2 : n ≤ 23) : fieldHour (pad2 n) = some n := by
  simp only [fieldHour, pad2]
  rw [asciiDigit_dig (by omega), asciiDigit_dig (by omega), digitVal_dig (by omega)]
  have : n / 10 = 0 ∨ n / 10 = 1 ∨ n / 10 = 2 := by omega
  rcases this with h | h | h <;> rw [h] <;> simp only
  · congr 1; omega
  · simp; omega
  · rw [if_pos (by omega)]; congr 1; omega

theorem fieldMinute_pad2 {n : Nat} (h2 : n ≤ 59) : fieldMinute (pad2 n) = some n := by
  simp only [fieldMinute, pad2]
  rw [asciiDigit_dig (by omega), digitVal_dig (by omega)]
  simp only [Option.map_some]
  rw [if_pos (by omega)]; congr 1; omega

theorem fieldSecond_pad2 {n : Nat} (h2 : n ≤ 59) : fieldSecond (pad2 n) = some n := by
  simp only [fieldSecond, pad2]
  rw [asciiDigit_dig (by omega), digitVal_dig (by omega)]
  simp only [Option.map_some]
  rw [if_pos (by omega)]; congr 1; omega

omit [PyEnv] in
theorem cutAt_append {p : Char → Bool} {a r : Str} {c : Char} (ha : ∀ x ∈ a, p x = false)
    (hc : p c = true) : cutAt p (a ++ c :: r) = some (a, r) := by
  induction a with
  | nil => simp [cutAt, hc]
  | cons x xs ih =>
    rw [List.cons_append]
    simp only [cutAt, ha x (by simp)]
    rw [ih (fun y hy => ha y (by simp [hy]))]
    simp

omit [PyEnv] in
theorem pad2_ne {n : Nat} (h : n < 100) {c : Char} (hc : c.toNat < 48 ∨ 57 < c.toNat) :
    ∀ x ∈ pad2 n, x ≠ c := by
  intro x hx
  simp only [pad2, List.mem_cons, List.not_mem_nil, or_false] at hx
  rcases hx with rfl | rfl
  · exact dig_ne (by omega) hc
  · exact dig_ne (by omega) hc

/-- Time stamps written by `strftime` are read back unchanged. -/
theorem strptime_strftime {d : DateTime} (hv : d.Valid) (hy : 1000 ≤ d.year) :
    strptime (strftime d) = some d := by
  have hv' := hv
  obtain ⟨h1, h2, h3, h4, h5, h6, h7, h8, h9⟩ := hv
  have hday : d.day ≤ 31 := by
    unfold daysInMonth at h6
    split at h6
    · split at h6 <;> omega
    · split at h6 <;> omega
  simp only [strftime, strptime, List.cons_append, List.nil_append]
  rw [if_neg (by simp), digitVal_dig (by omega), digitVal_dig (by omega), digitVal_dig (by omega),
    digitVal_dig (by omega)]
  simp only [List.append_assoc, List.cons_append, Option.bind_eq_bind, Option.bind_some]
  rw [cutAt_append (a := pad2 d.month) (c := '-')
    (by intro x hx; simpa using pad2_ne (by omega) (by decide) x hx) (by decide)]
  simp only [Option.bind_some]
  rw [fieldMonth_pad2 h3 h4]
  simp only [Option.bind_some]
  rw [cutAt_append (a := pad2 d.day) (c := 'T')
    (by
      intro x hx
      simpa using ⟨pad2_ne (c := 'T') (by omega) (by decide) x hx,
        pad2_ne (c := 't') (by omega) (by decide) x hx⟩) (by decide)]
  simp only [Option.bind_some]
  rw [fieldDay_pad2 h5 hday]
  simp only [Option.bind_some]
  rw [cutAt_append (a := pad2 d.hour) (c := ':')
    (by intro x hx; simpa using pad2_ne (by omega) (by decide) x hx) (by decide)]
  simp only [Option.bind_some]
  rw [fieldHour_pad2 h7]
  simp only [Option.bind_some]
  rw [cutAt_append (a := pad2 d.minute) (c := ':')
    (by intro x hx; simpa using pad2_ne (by omega) (by decide) x hx) (by decide)]
  simp only [Option.bind_some]
  rw [fieldMinute_pad2 h8, fieldSecond_pad2 h9]
  simp only [Option.bind_some]
  have he : (⟨d.year / 1000 * 1000 + d.year / 100 % 10 * 100 + d.year / 10 % 10 * 10 + d.year % 10,
      d.month, d.day, d.hour, d.minute, d.second⟩ : DateTime) = d := by
    cases d
    simp only [DateTime.mk.injEq, and_true]
    omega
  rw [he, if_pos hv']

/-- Every time stamp read is a valid calendar time. -/
theorem strptime_valid {s : Str} {d : DateTime} (h : strptime s = some d) : d.Valid := by
  unfold strptime at h
  split at h
  · split at h
    · cases h
    · simp only [Option.bind_eq_bind, Option.bind_eq_some_iff] at h
      obtain ⟨_, _, _, _, _, _, _, _, _, _, _, _, _, _, _, _, _, _, _, _, _, _, _, _, _, _, h⟩ := h
      split at h
      · rename_i hv
        simp only [Option.some.injEq] at h
        subst h; exact hv
      · cases h
  · cases h

end

/-- Valid times are ordered lexicographically by `key`. -/
theorem DateTime.key_lt_iff {a b : DateTime} (ha : a.Valid) (hb : b.Valid) :
    a.key < b.key ↔
      a.year < b.year ∨ (a.year = b.year ∧ (a.month < b.month ∨ (a.month = b.month ∧
      (a.day < b.day ∨ (a.day = b.day ∧ (a.hour < b.hour ∨ (a.hour = b.hour ∧
      (a.minute < b.minute ∨ (a.minute = b.minute ∧ a.second < b.second))))))))) := by
  have hd : ∀ y m, daysInMonth y m ≤ 31 := by
    intro y m
    unfold daysInMonth
    split
    · split <;> omega
    · split <;> omega
  obtain ⟨-, -, -, a4, -, a6, a7, a8, a9⟩ := ha
  obtain ⟨-, -, -, b4, -, b6, b7, b8, b9⟩ := hb
  have := hd a.year a.month
  have := hd b.year b.month
  unfold DateTime.key
  omega

end RKSV
