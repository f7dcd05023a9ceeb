import Verif.Model.VerifyGroup
import Verif.Spec.VerifyReceipt
/-
Specification of the verification of receipt groups: the rules a sequence of receipts has to obey,
stated position by position, without a running state.
-/
namespace RKSV

/-- Training receipt: the counter field says `TRA`. -/
def Training (r : Receipt) : Prop := b64Decode false r.encTurnoverCounter = some (utf8Enc c!"TRA")

instance (r : Receipt) : Decidable (Training r) := by unfold Training; infer_instance

/-- Reversal: the counter field says `STO`. -/
def Reversal (r : Receipt) : Prop := b64Decode false r.encTurnoverCounter = some (utf8Enc c!"STO")

/-- Produced while the signature system was broken: carries the mark instead of a signature. -/
def Unsigned (r : Receipt) : Prop := r.signature = failureMark

/-- `a` is earlier than `b`: the first of year, month, day, hour, minute, second that differs is
smaller. -/
def Earlier (a b : DateTime) : Prop :=
  a.year < b.year ∨ a.year = b.year ∧ (a.month < b.month ∨ a.month = b.month ∧ (a.day < b.day ∨
    a.day = b.day ∧ (a.hour < b.hour ∨ a.hour = b.hour ∧ (a.minute < b.minute ∨
      a.minute = b.minute ∧ a.second < b.second))))

section
variable [PyEnv]

/-- A standard receipt with zero turnover. -/
def StandardNull (r : Receipt) : Prop :=
  (∀ s ∈ [r.sumAStr, r.sumBStr, r.sumCStr, r.sumDStr, r.sumEStr], ZeroAmount s) ∧
    ¬Training r ∧ ¬Reversal r

/-- A JWS text and the receipt it stands for. -/
abbrev Entry := Str × Receipt

def Entry.Valid (x : Entry) : Prop := fromJWS x.1 = .ok (x.2, c!"R1")

/-- The group consists of the UTF-8 texts of these receipts. -/
def Reads (group : List Bytes) (h : List Entry) : Prop :=
  group = h.map (fun x => utf8Enc x.1) ∧ ∀ x ∈ h, x.Valid

/-- The saved last receipt of a register, if there is one. -/
inductive Saved (s : RegState) : Option Entry → Prop
  | none (h : s.last = none ∨ s.last = some []) : Saved s none
  | some (x : Entry) (hs : s.last = some x.1) (hn : x.1 ≠ []) (hv : x.Valid) : Saved s (some x)

/-- The receipt of the same register before the one that follows `pre`. -/
def predecessor (saved : Option Entry) (pre : List Entry) : Option Entry := pre.getLast?.or saved

/-- The receipt the one after `pre` is compared with: its predecessor, or, for the first receipt of a
register in a cluster, the start receipt of the previous register. -/
inductive Before (prevStart : Option Str) (saved : Option Entry) (pre : List Entry) : Entry → Prop
  | previous (y : Entry) (h : predecessor saved pre = some y) : Before prevStart saved pre y
  | cluster (y : Entry) (h : predecessor saved pre = none) (hp : prevStart = some y.1)
      (hn : y.1 ≠ []) (hv : y.Valid) : Before prevStart saved pre y

/-- A signed zero receipt has to follow `pre`: the saved state says so, or the last receipt was signed
and no zero receipt although the one before it was unsigned. -/
inductive RestoreDue (s : RegState) (saved : Option Entry) : List Entry → Prop
  | saved (h : s.needRestore = true) : RestoreDue s saved []
  | late (pre : List Entry) (p y : Entry) (hp : predecessor saved pre = some p)
      (hu : Unsigned p.2) (hs : ¬Unsigned y.2) (hn : ¬StandardNull y.2) :
      RestoreDue s saved (pre ++ [y])

/-- Base64 of the first eight bytes of the hash. -/
def chainValue (t : Str) : Str := b64Encode false ((sha256 (utf8Enc t)).take 8)

/-- The override of the chaining value in the saved state, which counts for one receipt. -/
def Override (s : RegState) (pre : List Entry) (v : Str) : Prop :=
  pre = [] ∧ s.chainNext = some v ∧ v ≠ []

/-- What the receipts add to the turnover counter; training receipts do not count. -/
def sold (h : List Entry) : Int :=
  ((h.filter fun x => ¬Training x.2).map fun x =>
    match x.2.turnover with
    | .ok n => n
    | .error _ => 0).sum

/-- `id'` comes after `id` in natural order. -/
def NaturalLt (id id' : Str) : Prop :=
  ∃ a b, naturalKey id = .ok a ∧ naturalKey id' = .ok b ∧ keyLt a b = .ok true

/-- The receipt ID may be used after `used` and the receipts `pre`. -/
def FreshId (used : Used) (pre : List Entry) (id : Str) : Prop :=
  match used with
  | .unique ids => id ∉ ids ∧ ∀ y ∈ pre, y.2.receiptId ≠ id
  | .sorted _ hi => ∀ m, (pre.getLast?.map (·.2.receiptId)).or hi = some m → NaturalLt m id

/-- The rules for the receipt `x` following `pre`. -/
structure Rules (c : GroupCtx) (s : RegState) (saved : Option Entry) (used : Used)
    (pre : List Entry) (x : Entry) : Prop where
  /-- signed, or marked as produced without signature system -/
  auth : (¬Unsigned x.2 ∧ ∃ k, KeyFor c.verifier x.2 k ∧ SignatureValid x.2 k) ∨
    (Unsigned x.2 ∧ ¬WrongCert c.verifier x.2)
  /-- restore receipts -/
  restore : RestoreDue s saved pre → ¬Unsigned x.2 ∧ StandardNull x.2
  /-- the first receipt of a register -/
  initial : predecessor saved pre = none → ¬Unsigned x.2 ∧ StandardNull x.2 ∧
    ∀ t, c.prevStart = some t → t ≠ [] → x.2.zda = c!"AT0" ∧
      ∃ p, Entry.Valid (t, p) ∧ p.zda = c!"AT0"
  /-- the same register, kind of system, and no step back in time -/
  same : ∀ y, Before c.prevStart saved pre y → y.2.registerId = x.2.registerId ∧
    (y.2.zda = c!"AT0" ↔ x.2.zda = c!"AT0") ∧ ¬Earlier x.2.dateTime y.2.dateTime
  /-- unused receipt ID -/
  fresh : (∃ y, Before c.prevStart saved pre y) → FreshId used pre x.2.receiptId
  /-- chaining -/
  chainOverride : ∀ v, Override s pre v → x.2.previousChain = v
  chainBefore : (¬∃ v, Override s pre v) → ∀ y, Before c.prevStart saved pre y →
    x.2.previousChain = chainValue y.1
  chainFirst : (¬∃ v, Override s pre v) → (¬∃ y, Before c.prevStart saved pre y) →
    x.2.previousChain = chainValue x.2.registerId
  /-- turnover counter -/
  counter : ∀ k, c.key = some k → ¬Training x.2 → k.length = 32 ∧ (∃ n, x.2.turnover = .ok n) ∧
    (¬Reversal x.2 → x.2.decryptTurnoverCounter k = .ok (s.counter + sold (pre ++ [x])))

/-- All receipts obey the rules. -/
def AllRules (c : GroupCtx) (s : RegState) (saved : Option Entry) (used : Used) (h : List Entry) :
    Prop :=
  ∀ pre x post, h = pre ++ x :: post → Rules c s saved used pre x

/-- The used IDs after the receipts. -/
def UsedAfter (used : Used) (h : List Entry) (used' : Used) : Prop :=
  match used with
  | .unique ids => used' = .unique (ids ∪ (h.map (·.2.receiptId)).toFinset)
  | .sorted lo hi => used' = .sorted (lo.or (h.head?.map (·.2.receiptId)))
      ((h.getLast?.map (·.2.receiptId)).or hi)

/-- The state after the receipts. -/
structure After (c : GroupCtx) (s : RegState) (saved : Option Entry) (h : List Entry)
    (s' : RegState) : Prop where
  last : s'.last = (h.getLast?.map (·.1)).or s.last
  start : s'.start = if saved = none ∧ h ≠ [] then h.head?.map (·.1) else s.start
  counter : s'.counter = if c.key = none then s.counter else s.counter + sold h
  needRestore : s'.needRestore = true ↔ RestoreDue s saved h
  chainNext : s'.chainNext = if h = [] ∨ s.chainNext = some [] then s.chainNext else none

end

end RKSV
