import Verif.Model.Falsify
import Verif.Spec.CashReg
/-
Specification vocabulary for falsified receipts.
-/
namespace RKSV

section
variable [PyEnv]

/-- The register makes `rs` for the orders `os` and would make `r` for the order `o` that follows; its owner obeys
the rules, and the verifier, which starts at `s`, has the keys. -/
structure Honest (c : GroupCtx) (s : RegState) (used : Used) (reg : CashRegister) (os : List Order) (rs : List Receipt)
    (o : Order) (r : Receipt) : Prop where
  run : (reg.run (os ++ [o])).2 = some (rs ++ [r])
  size : 5 ≤ reg.size ∧ reg.size ≤ 16
  rules : RuleAbiding used (os ++ [o])
  signed : List.Forall₂ (SignedFor c.verifier) (os ++ [o]) (rs ++ [r])
  start : Starts c reg (os ++ [o])
  key : ∀ k, c.key = some k → k = reg.key ∧ k.length = 32
  verifier : c.verifier.cert ≠ none ∨ c.verifier.keyStore ≠ none
  last : s.last = none ∨ s.last = some []
  restore : s.needRestore = false
  chainNext : s.chainNext = none ∨ s.chainNext = some []
  counter : s.counter = reg.counter

/-- There is a start receipt of another register before. -/
def InCluster (c : GroupCtx) : Prop := ∃ t, c.prevStart = some t ∧ t ≠ []

/-- A receipt that is neither a training receipt nor a reversal was asked for. -/
def Order.Standard (o : Order) : Prop := o.dummy = false ∧ o.reversal = false

/-- The exception a falsification of the receipt `r`, which becomes `x`, is announced to cause if it is made after `rs`. -/
inductive Announced (c : GroupCtx) (used : Used) (rs : List Receipt) (o : Order) (r x : Receipt) : Falsify → Err → Prop
  /-- a signature that is not valid -/
  | signature (t : Str) (hm : t ≠ failureMark) (h : ∀ k, KeyFor c.verifier r k → ¬SignatureValid x k) :
      Announced c used rs o r x { signature := some t } .invalidSignature
  /-- the serial or key ID does not match the certificate -/
  | certificate (z t : Option Str) (h : WrongCert c.verifier x) :
      Announced c used rs o r x { zda := z, certSerial := t } .certSerialMismatch
  /-- nor is there a key for it -/
  | device (z t : Option Str) (hw : ¬WrongCert c.verifier x) (h : ¬∃ k, KeyFor c.verifier x k) :
      Announced c used rs o r x { zda := z, certSerial := t } .noPublicKey
  /-- a closed system becomes an open one or an open one a closed one, with the same key -/
  | system (z t : Option Str) (hk : ∃ k, KeyFor c.verifier r k ∧ KeyFor c.verifier x k) (hr : rs ≠ [])
      (h : ¬(x.zda = c!"AT0" ↔ r.zda = c!"AT0")) :
      Announced c used rs o r x { zda := z, certSerial := t } .changingSystemType
  /-- a register of an open system in a cluster -/
  | cluster (z t : Option Str) (hk : ∃ k, KeyFor c.verifier r k ∧ KeyFor c.verifier x k) (hr : rs = [])
      (hc : InCluster c) (h : x.zda ≠ c!"AT0") :
      Announced c used rs o r x { zda := z, certSerial := t } .clusterInOpenSystem
  /-- a receipt ID that was used -/
  | receiptId (t : Str) (ids : Finset Str) (hu : used = .unique ids) (hr : rs ≠ [] ∨ InCluster c)
      (h : t ∈ ids ∨ ∃ y ∈ rs, y.receiptId = t) :
      Announced c used rs o r x { receiptId := some t } .duplicateReceiptId
  /-- the ID of another register -/
  | registerId (t : Str) (hr : rs ≠ [] ∨ InCluster c) (h : t ≠ r.registerId) :
      Announced c used rs o r x { registerId := some t } .changingRegisterId
  /-- a time before the receipt before -/
  | date (t : Str) (y : Receipt) (hy : rs.getLast? = some y) (h : Earlier x.dateTime y.dateTime) :
      Announced c used rs o r x { dateTime := some t } .decreasingDate
  /-- another chaining value -/
  | chain (t : Str) (hr : rs ≠ []) (h : t ≠ r.previousChain) :
      Announced c used rs o r x { previousChain := some t } .chaining
  | chainCluster (t : Str) (hr : rs = []) (hc : InCluster c) (h : t ≠ r.previousChain) :
      Announced c used rs o r x { previousChain := some t } .invalidChainingOnClusterInitial
  | chainInitial (t : Str) (hr : rs = []) (hc : ¬InCluster c) (h : t ≠ r.previousChain) :
      Announced c used rs o r x { previousChain := some t } .invalidChainingOnInitial
  /-- amounts in a start receipt -/
  | initial (a1 a2 a3 a4 a5 : Option Str) (hr : rs = [])
      (h : ∃ a ∈ [x.sumAStr, x.sumBStr, x.sumCStr, x.sumDStr, x.sumEStr], ¬ZeroAmount a) :
      Announced c used rs o r x { sumA := a1, sumB := a2, sumC := a3, sumD := a4, sumE := a5 } .nonzeroTurnoverOnInitial
  /-- amounts of another sum -/
  | amounts (a1 a2 a3 a4 a5 : Option Str) (n n' : Int) (hk : c.key ≠ none) (ho : o.Standard) (hz : ¬o.Zero)
      (hr : r.turnover = .ok n) (hx : x.turnover = .ok n') (h : n ≠ n') :
      Announced c used rs o r x { sumA := a1, sumB := a2, sumC := a3, sumD := a4, sumE := a5 } .invalidTurnoverCounter
  /-- another turnover counter -/
  | counter (t : Int) (k : Bytes) (hk : c.key = some k) (ho : o.Standard) (h : r.decryptTurnoverCounter k ≠ .ok t) :
      Announced c used rs o r x { turnoverCounter := some t } .invalidTurnoverCounter
  | encrypted (t : Str) (k : Bytes) (hk : c.key = some k) (ho : o.Standard) (ht : ¬Training x) (hr : ¬Reversal x)
      (h : r.decryptTurnoverCounter k ≠ x.decryptTurnoverCounter k) :
      Announced c used rs o r x { encTurnoverCounter := some t } .invalidTurnoverCounter

/-- The exception for a falsification that leaves no receipt that can be read. -/
inductive AnnouncedUnreadable : Falsify → Err → Prop
  /-- the header of another signature algorithm -/
  | header (t : Str) (h : t ≠ c!"{\"alg\":\"ES256\"}") : AnnouncedUnreadable { header := some t } .algorithmMismatch
  /-- an algorithm there is not, `R2` for instance -/
  | algorithm (t : Str) (h : matchAlg t = true) (h1 : '_' ∉ t) (h2 : '-' ∉ t) (h3 : t ≠ c!"R1") :
      AnnouncedUnreadable { algorithmPrefix := some t } .unknownAlgorithm
  /-- some text in place of the receipt -/
  | text (t : Str) (e : Err) (h : fromJWS t = .error e) : AnnouncedUnreadable { jwsOverride := some t } e

end

end RKSV
