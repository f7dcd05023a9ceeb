import Verif.Py.Dec
/-
Specification of time stamps: the Gregorian calendar, and how times are written.
-/
namespace RKSV

/-- The leap years of the Gregorian calendar. -/
def LeapYear (y : Nat) : Prop := 4 ∣ y ∧ (100 ∣ y → 400 ∣ y)

/-- Month `m` of the year `y` has `n` days. -/
inductive MonthDays (y : Nat) : Nat → Nat → Prop
  | january : MonthDays y 1 31
  | february (h : ¬LeapYear y) : MonthDays y 2 28
  | februaryLeap (h : LeapYear y) : MonthDays y 2 29
  | march : MonthDays y 3 31
  | april : MonthDays y 4 30
  | may : MonthDays y 5 31
  | june : MonthDays y 6 30
  | july : MonthDays y 7 31
  | august : MonthDays y 8 31
  | september : MonthDays y 9 30
  | october : MonthDays y 10 31
  | november : MonthDays y 11 30
  | december : MonthDays y 12 31

/-- A second of the calendar, in the years from 1 to 9999. -/
structure RealTime (d : DateTime) : Prop where
  year : 1 ≤ d.year ∧ d.year ≤ 9999
  day : ∃ n, MonthDays d.year d.month n ∧ 1 ≤ d.day ∧ d.day ≤ n
  time : d.hour < 24 ∧ d.minute < 60 ∧ d.second < 60

/-- The clock goes from the first time to the second one. -/
inductive NextSecond (a b : DateTime) : Prop
  | second (h : a.second < 59) (e : b = { a with second := a.second + 1 })
  | minute (hs : a.second = 59) (h : a.minute < 59) (e : b = { a with second := 0, minute := a.minute + 1 })
  | hour (hs : a.second = 59) (hm : a.minute = 59) (h : a.hour < 23)
      (e : b = { a with second := 0, minute := 0, hour := a.hour + 1 })
  | day {n : Nat} (hs : a.second = 59) (hm : a.minute = 59) (hh : a.hour = 23) (hn : MonthDays a.year a.month n)
      (h : a.day < n) (e : b = { a with second := 0, minute := 0, hour := 0, day := a.day + 1 })
  | month {n : Nat} (hs : a.second = 59) (hm : a.minute = 59) (hh : a.hour = 23) (hn : MonthDays a.year a.month n)
      (hd : a.day = n) (h : a.month < 12)
      (e : b = { a with second := 0, minute := 0, hour := 0, day := 1, month := a.month + 1 })
  | year (hs : a.second = 59) (hm : a.minute = 59) (hh : a.hour = 23) (hd : a.day = 31) (hmo : a.month = 12)
      (e : b = ⟨a.year + 1, 1, 1, 0, 0, 0⟩)

/-- The clock gets from the first time to the second one, after at least one second. -/
inductive ClockReaches (a : DateTime) : DateTime → Prop
  | next {b : DateTime} (h : NextSecond a b) : ClockReaches a b
  | step {b c : DateTime} (h : ClockReaches a b) (h' : NextSecond b c) : ClockReaches a c

/-- The number in decimal digits, with or without a zero in front if it has only one digit. -/
def TwoDigits (s : Str) (n : Nat) : Prop := s = natDec n ∨ (n < 10 ∧ s = '0' :: natDec n)

/-- The year with four digits. -/
def FourDigits (s : Str) (n : Nat) : Prop := s.length = 4 ∧ ∃ k, s = List.replicate k '0' ++ natDec n

/-- A text like `2020-01-02T03:04:05` for the time `d`.  The second digit may be missing for numbers below ten, there
may be a space in place of the first digit of such a day, and the `T` may be small. -/
inductive TimeText (d : DateTime) : Str → Prop
  | mk {y mo da ho mi se : Str} {t : Char} (hy : FourDigits y d.year) (hmo : TwoDigits mo d.month)
      (hda : TwoDigits da d.day ∨ (d.day < 10 ∧ da = ' ' :: natDec d.day)) (ht : t = 'T' ∨ t = 't')
      (hho : TwoDigits ho d.hour) (hmi : TwoDigits mi d.minute) (hse : TwoDigits se d.second) :
      TimeText d (y ++ '-' :: (mo ++ '-' :: (da ++ t :: (ho ++ ':' :: (mi ++ ':' :: se)))))

end RKSV
