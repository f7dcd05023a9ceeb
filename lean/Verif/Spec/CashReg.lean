import Verif.Model.CashReg
import Verif.Spec.VerifyGroup
/-
Specification vocabulary for the cash register.
-/
namespace RKSV

/-- The float stands for this many cents: it is the one nearest to a hundredth of the number.  The
bound is 22 * 10^12 euros; floats have no separate values for the cents of much larger amounts. -/
def InCents (x : PyFloat) (c : Int) : Prop := x.val = centsToF64 c ∧ |c| ≤ 2 ^ 51

section
variable [PyEnv]

/-- If the signature system is a remote service and its answer is `jws`: the answer is the JWS text
of the receipt's header, the receipt's payload and something without a dot for a signature. -/
def ServiceSigned (sys : SigSystem) (r : Receipt) : Prop :=
  ∀ zda serial algo jws, sys = .remote zda serial algo (some jws) →
    ∃ signature, '.' ∉ signature ∧ jws =
      b64Text true (utf8Enc c!"{\"alg\":\"ES256\"}") ++ '.' ::
        b64Text true (utf8Enc (r.toPayload c!"R1")) ++ '.' :: signature

/-- The text the next receipt of a register is chained to: its last receipt, or its ID. -/
def chainedTo (reg : CashRegister) : Str :=
  match reg.last with
  | some t => if t = [] then reg.registerId else t
  | none => reg.registerId

/-- What the order adds to the turnover counter: training receipts do not count. -/
def Order.Adds (o : Order) (n : Int) : Prop :=
  ∃ a b c d e, InCents o.sumA a ∧ InCents o.sumB b ∧ InCents o.sumC c ∧ InCents o.sumD d ∧
    InCents o.sumE e ∧ |a| + |b| + |c| + |d| + |e| ≤ 2 ^ 49 ∧
    n = if o.dummy then 0 else a + b + c + d + e

/-! ### Histories of a register -/

/-- No signature could be obtained for the order. -/
def Order.Fails (o : Order) : Prop :=
  match o.sys with
  | .broken _ _ => True
  | .working _ _ _ => False
  | .remote _ _ _ answer => answer = none

/-- A standard order with all amounts zero. -/
def Order.Zero (o : Order) : Prop :=
  InCents o.sumA 0 ∧ InCents o.sumB 0 ∧ InCents o.sumC 0 ∧ InCents o.sumD 0 ∧ InCents o.sumE 0 ∧
    o.dummy = false ∧ o.reversal = false

/-- The order can be carried out faithfully: whole cents, a date of a year with four digits, a
serial that can be written into a receipt. -/
structure Order.Proper (o : Order) : Prop where
  sumA : ∃ c, InCents o.sumA c
  sumB : ∃ c, InCents o.sumB c
  sumC : ∃ c, InCents o.sumC c
  sumD : ∃ c, InCents o.sumD c
  sumE : ∃ c, InCents o.sumE c
  date : o.dateTime.Valid
  year : 1000 ≤ o.dateTime.year
  serial : '_' ∉ o.sys.serial

/-- The verifier knows the signature system the receipt was made with. -/
def SignedFor (v : Verifier) (o : Order) (r : Receipt) : Prop :=
  match o.sys with
  | .working _ _ priv => KeyFor v r (pubOf priv)
  | .broken _ _ => ¬WrongCert v r
  | .remote _ _ _ none => ¬WrongCert v r
  | .remote _ _ _ (some jws) => jws = r.toJWS c!"R1" ∧ '.' ∉ r.signature ∧
      r.header = c!"{\"alg\":\"ES256\"}" ∧ ¬Unsigned r ∧ ∃ k, KeyFor v r k ∧ SignatureValid r k

/-- The IDs may be used after `used`, one after the other. -/
def FreshIds (used : Used) (ids : List Str) : Prop :=
  match used with
  | .unique old => ids.Nodup ∧ ∀ i ∈ ids, i ∉ old
  | .sorted _ hi => ∀ pre a post, ids = pre ++ a :: post →
      ∀ m, pre.getLast?.or hi = some m → NaturalLt m a

/-- The orders a register owner obeying the rules gives, starting with a new register. -/
structure RuleAbiding (used : Used) (os : List Order) : Prop where
  proper : ∀ o ∈ os, o.Proper
  /-- the first receipt is a signed standard zero receipt -/
  first : ∀ o, os.head? = some o → ¬o.Fails ∧ o.Zero
  /-- after failures, the first or the second receipt with a signature is a zero receipt -/
  restore : ∀ pre a b c post, os = pre ++ a :: b :: c :: post → a.Fails → ¬b.Fails → ¬b.Zero →
    ¬c.Fails ∧ c.Zero
  /-- open or closed system throughout -/
  kind : ∀ a ∈ os, ∀ b ∈ os, (a.sys.zda = c!"AT0" ↔ b.sys.zda = c!"AT0")
  dates : os.Pairwise fun a b => ¬Earlier b.dateTime a.dateTime
  ids : FreshIds used (os.map (·.receiptId))

/-- A new register: the first one, or, in a closed system, the next one of a cluster, chained to the
start receipt of the previous one. -/
inductive Starts (c : GroupCtx) (reg : CashRegister) (os : List Order) : Prop
  | alone (h1 : reg.last = none ∨ reg.last = some []) (h2 : c.prevStart = none ∨ c.prevStart = some [])
  | cluster (y : Entry) (hv : y.Valid) (h1 : reg.last = some y.1) (h2 : c.prevStart = some y.1)
      (hr : y.2.registerId = reg.registerId) (hz : y.2.zda = c!"AT0")
      (ho : ∀ o, os.head? = some o → o.sys.zda = c!"AT0" ∧ ¬Earlier o.dateTime y.2.dateTime)

end

end RKSV
