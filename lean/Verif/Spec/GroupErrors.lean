import Verif.Spec.VerifyGroup
/-
Specification of the exceptions `verifyGroup` raises: for every receipt the list of its possible
faults in order of precedence; the first fault it has is the one that is reported.
-/
namespace RKSV

/-- The exception of the first fault that is present.  A fault is given by the exceptions it causes. -/
def FirstOf : List (Err → Prop) → Err → Prop
  | [], _ => False
  | p :: l, e => p e ∨ (∀ e', ¬p e') ∧ FirstOf l e

section
variable [PyEnv]

/-- Why the receipt ID may not be used after `used` and the receipts `pre`.  The backend for sorted
IDs raises the exception of the comparison if the IDs cannot be compared. -/
def IdRefused (used : Used) (pre : List Entry) (id : Str) (e : Err) : Prop :=
  match used with
  | .unique ids => (id ∈ ids ∨ ∃ y ∈ pre, y.2.receiptId = id) ∧ e = .duplicateReceiptId
  | .sorted _ hi => ∃ m, (pre.getLast?.map (·.2.receiptId)).or hi = some m ∧
      (naturalKey m = .error e ∨ ∃ a, naturalKey m = .ok a ∧
        (naturalKey id = .error e ∨ ∃ b, naturalKey id = .ok b ∧
          (keyLt a b = .error e ∨ keyLt a b = .ok false ∧ e = .duplicateReceiptId)))

/-- The chaining value is not the one of the saved override, of the receipt before or, for the very
first receipt, of the register ID. -/
inductive WrongChain (c : GroupCtx) (s : RegState) (saved : Option Entry) (pre : List Entry)
    (x : Entry) : Prop
  | override (v : Str) (ho : Override s pre v) (h : x.2.previousChain ≠ v) :
      WrongChain c s saved pre x
  | before (y : Entry) (ho : ¬∃ v, Override s pre v) (hy : Before c.prevStart saved pre y)
      (h : x.2.previousChain ≠ chainValue y.1) : WrongChain c s saved pre x
  | first (ho : ¬∃ v, Override s pre v) (hy : ¬∃ y, Before c.prevStart saved pre y)
      (h : x.2.previousChain ≠ chainValue x.2.registerId) : WrongChain c s saved pre x

/-- The text is the one of the first receipt of the register. -/
def IsStart (s : RegState) (saved : Option Entry) (pre : List Entry) (x : Entry) : Prop :=
  predecessor saved pre = none ∨
    (if saved = none then pre.head?.map (·.1) else s.start) = some x.1

/-- The faults of the readable receipt `x` following `pre` in order of precedence. -/
def faults (c : GroupCtx) (s : RegState) (saved : Option Entry) (used : Used) (pre : List Entry)
    (x : Entry) : List (Err → Prop) :=
  [ -- the signature
    fun e => WrongCert c.verifier x.2 ∧ e = .certSerialMismatch,
    fun e => ¬Unsigned x.2 ∧ (¬∃ k, KeyFor c.verifier x.2 k) ∧ e = .noPublicKey,
    fun e => ¬Unsigned x.2 ∧ (∀ k, KeyFor c.verifier x.2 k → ¬SignatureValid x.2 k) ∧
      e = .invalidSignature,
    -- receipts without signature and restore receipts
    fun e => Unsigned x.2 ∧ predecessor saved pre = none ∧ e = .signatureSystemFailedOnInitial,
    fun e => RestoreDue s saved pre ∧ predecessor saved pre ≠ none ∧
      (Unsigned x.2 ∨ ¬StandardNull x.2) ∧ e = .noRestoreReceipt,
    -- the first receipt of a register
    fun e => predecessor saved pre = none ∧
      (∃ a ∈ [x.2.sumAStr, x.2.sumBStr, x.2.sumCStr, x.2.sumDStr, x.2.sumEStr], ¬ZeroAmount a) ∧
      e = .nonzeroTurnoverOnInitial,
    fun e => predecessor saved pre = none ∧ (Training x.2 ∨ Reversal x.2) ∧
      e = .nonstandardTypeOnInitial,
    fun e => predecessor saved pre = none ∧ (∃ t, c.prevStart = some t ∧ t ≠ []) ∧
      x.2.zda ≠ c!"AT0" ∧ e = .clusterInOpenSystem,
    fun e => predecessor saved pre = none ∧ ∃ t, c.prevStart = some t ∧ t ≠ [] ∧
      fromJWS t = .error e,
    fun e => predecessor saved pre = none ∧ (∃ t p, c.prevStart = some t ∧ t ≠ [] ∧
      Entry.Valid (t, p) ∧ p.zda ≠ c!"AT0") ∧ e = .clusterInOpenSystem,
    -- the receipt before it
    fun e => (∃ y, Before c.prevStart saved pre y) ∧ IdRefused used pre x.2.receiptId e,
    fun e => (∃ y, Before c.prevStart saved pre y ∧ y.2.registerId ≠ x.2.registerId) ∧
      e = .changingRegisterId,
    fun e => (∃ y, Before c.prevStart saved pre y ∧ ¬(y.2.zda = c!"AT0" ↔ x.2.zda = c!"AT0")) ∧
      e = .changingSystemType,
    fun e => (∃ y, Before c.prevStart saved pre y ∧ Earlier x.2.dateTime y.2.dateTime) ∧
      e = .decreasingDate,
    -- chaining
    fun e => WrongChain c s saved pre x ∧ ¬IsStart s saved pre x ∧ e = .chaining,
    fun e => WrongChain c s saved pre x ∧ IsStart s saved pre x ∧
      (∃ t, c.prevStart = some t ∧ t ≠ []) ∧ e = .invalidChainingOnClusterInitial,
    fun e => WrongChain c s saved pre x ∧ IsStart s saved pre x ∧
      (¬∃ t, c.prevStart = some t ∧ t ≠ []) ∧ e = .invalidChainingOnInitial,
    -- the turnover counter
    fun e => (∃ k, c.key = some k ∧ k.length ≠ 32) ∧ ¬Training x.2 ∧ e = .invalidKey,
    fun e => c.key ≠ none ∧ ¬Training x.2 ∧ x.2.turnover = .error e,
    fun e => (∃ k, c.key = some k ∧ x.2.decryptTurnoverCounter k ≠ .ok (s.counter + sold (pre ++ [x]))) ∧
      ¬Training x.2 ∧ ¬Reversal x.2 ∧ e = .invalidTurnoverCounter ]

/-- What is wrong with the bytes `b` of a DEP that follow `pre`: they are no text, the text is no
receipt, or the receipt has a fault. -/
inductive Refused (c : GroupCtx) (s : RegState) (saved : Option Entry) (used : Used)
    (pre : List Entry) (b : Bytes) : Err → Prop
  | text (h : ¬∃ t, b = utf8Enc t) : Refused c s saved used pre b .malformedDEP
  | receipt (t : Str) (e : Err) (hb : b = utf8Enc t) (h : fromJWS t = .error e) :
      Refused c s saved used pre b e
  | fault (x : Entry) (e : Err) (hb : b = utf8Enc x.1) (hx : x.Valid)
      (h : FirstOf (faults c s saved used pre x) e) : Refused c s saved used pre b e

/-- The group is refused at the first receipt that breaks the rules, for that receipt's first fault;
or nothing of it is looked at as the saved last receipt cannot be read. -/
inductive GroupRefused (c : GroupCtx) (s : RegState) (used : Used) (g : List Bytes) : Err → Prop
  | state (t : Str) (e : Err) (hs : s.last = some t) (hn : t ≠ []) (h : fromJWS t = .error e) :
      GroupRefused c s used g e
  | receipt (saved : Option Entry) (a : List Bytes) (pre : List Entry) (b : Bytes)
      (post : List Bytes) (e : Err) (hs : Saved s saved) (hg : g = a ++ b :: post)
      (hr : Reads a pre) (hok : AllRules c s saved used pre)
      (h : Refused c s saved used pre b e) : GroupRefused c s used g e

end

end RKSV
