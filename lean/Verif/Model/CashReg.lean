import Verif.Model.VerifyReceipt
import Verif.Py.Dec
/-
librksv/sigsys.py and librksv/cashreg.py: making receipts.
-/
namespace RKSV

/-- A Python float: the value, and for zeros whether the sign bit is set. -/
structure PyFloat where
  val : F64
  minus : Bool := false

/-- `("%.2f" % x).replace('.', ',')` (librksv/cashreg.py:133-137): the exact value rounded to two
places, ties to even. -/
def fmtSum (x : PyFloat) : Str :=
  match x.val with
  | .fin q =>
    let n := (roundEven (q * 100)).natAbs
    let t := natDec (n / 100) ++ ',' :: pad2 (n % 100)
    if q < 0 ∨ (q = 0 ∧ x.minus = true) then '-' :: t else t
  | .pinf => c!"inf"
  | .ninf => c!"-inf"
  | .nan => c!"nan"

section
variable [PyEnv]

/-- The signature systems (librksv/sigsys.py:56-166).  For the remote service the model gets the
service's answer to the request as an argument: `none` stands for the exceptions caught at
librksv/sigsys.py:164 (answers that are no JSON objects with a result are not modelled). -/
inductive SigSystem where
  | broken (zda serial : Str)
  | working (zda serial : Str) (priv : PrivKey)
  | remote (zda serial algo : Str) (answer : Option Str)

/-- The attribute `zda` (librksv/sigsys.py:69, 101, 150). -/
def SigSystem.zda : SigSystem → Str
  | .broken z _ | .working z _ _ | .remote z _ _ _ => z

/-- The attribute `serial` (librksv/sigsys.py:70, 102, 144). -/
def SigSystem.serial : SigSystem → Str
  | .broken _ s | .working _ s _ | .remote _ s _ _ => s

/-- `R1.sign` (librksv/algorithms.py:172-186). -/
def r1Sign (payload : Str) (priv : PrivKey) (rand : Nat) : Str :=
  b64Text true (sign priv rand (utf8Enc (encodeSeg jwsHeader ++ '.' :: encodeSeg payload)))

/-- `SignatureSystemBroken.sign` (librksv/sigsys.py:72-81). -/
def brokenJWS (payload : Str) : Str :=
  joinWith '.' [encodeSeg jwsHeader, encodeSeg payload, b64Text true failBytes]

/-- `sign` of the signature systems (librksv/sigsys.py:72-81, 105-114, 152-166). -/
def SigSystem.sign (sys : SigSystem) (rand : Nat) (payload : Str) : Res Str :=
  match sys with
  | .broken _ _ => .ok (brokenJWS payload)
  | .working _ _ priv =>
    .ok (joinWith '.' [encodeSeg jwsHeader, encodeSeg payload, r1Sign payload priv rand])
  | .remote _ _ algo answer => do
    ensure (algo = c!"ES256") .plainException
    match answer with
    | some jws => .ok jws
    | none => .ok (brokenJWS payload)

/-- `CashRegister` (librksv/cashreg.py:101-126). -/
structure CashRegister where
  registerId : Str
  last : Option Str
  counter : Int
  key : Bytes
  size : Nat

/-- `CashRegister.__init__` (librksv/cashreg.py:106-126). -/
def CashRegister.make (registerId : Str) (last : Option Str) (counter : Int) (key : Bytes)
    (size : Nat := 8) : Res CashRegister := do
  ensure (¬(size < 5 ∨ 16 < size)) .plainException
  .ok ⟨registerId, last, counter, key, size⟩

/-- The arguments of `receipt` (librksv/cashreg.py:128), and the randomness of the signature.
`override`, a hook for the test cases, is `Falsify`. -/
structure Order where
  algorithm : Str := R1
  receiptId : Str
  dateTime : DateTime
  sumA : PyFloat
  sumB : PyFloat
  sumC : PyFloat
  sumD : PyFloat
  sumE : PyFloat
  sys : SigSystem
  dummy : Bool := false
  reversal : Bool := false
  rand : Nat := 0

/-- The fields of the receipt before counter and chaining value are known
(librksv/cashreg.py:129-141). -/
def Order.draft (o : Order) (registerId : Str) : Res Draft := do
  ensure (knownAlg o.algorithm) .keyError
  Draft.init
    { zda := o.sys.zda, registerId, receiptId := o.receiptId, dateTimeStr := strftime o.dateTime,
      sumAStr := fmtSum o.sumA, sumBStr := fmtSum o.sumB, sumCStr := fmtSum o.sumC,
      sumDStr := fmtSum o.sumD, sumEStr := fmtSum o.sumE, encTurnoverCounter := [],
      certSerial := o.sys.serial, previousChain := [] }

/-- The counter after the receipt (librksv/cashreg.py:147-157). -/
def Order.book (o : Order) (counter : Int) : Res Int :=
  if o.dummy then .ok counter
  else
    match (sum5 o.sumA.val o.sumB.val o.sumC.val o.sumD.val o.sumE.val).intRound with
    | .ok n => .ok (counter + n)
    | .error .overflow => .error .overflowError
    | .error .nan => .error .valueError

/-- The counter field (librksv/cashreg.py:146-169). -/
def Order.counterField (o : Order) (reg : CashRegister) : Res Str :=
  if o.dummy then .ok (b64Encode false bTRA)
  else if o.reversal then .ok (b64Encode false bSTO)
  else do
    raiseForKey reg.key
    let enc ← encryptCounter reg.registerId o.receiptId reg.counter reg.key reg.size
    .ok (b64Encode false enc)

/-- Taking header and signature from the signed text (librksv/cashreg.py:180-184). -/
def takeSignature (d : Draft) (jws : Str) : Res Receipt :=
  match splitOn '.' jws with
  | [h, _, signature] => do
    let hb ← orErr (b64Decode true (restorePad h)) .valueError
    let header ← orErr (utf8Dec hb) .unicodeError
    d.sign header signature
  | _ => .error .valueError

/-- `CashRegister.receipt` (librksv/cashreg.py:128-191): the register afterwards, also if an
exception is raised, and the receipt. -/
def CashRegister.receipt (reg : CashRegister) (o : Order) : CashRegister × Res Receipt :=
  match o.draft reg.registerId with
  | .error e => (reg, .error e)
  | .ok d =>
    match o.book reg.counter with
    | .error e => (reg, .error e)
    | .ok n =>
      let reg := { reg with counter := n }
      match o.counterField reg with
      | .error e => (reg, .error e)
      | .ok enc =>
        let d := { d with
          encTurnoverCounter := enc
          previousChain := b64Encode false (chainHash reg.registerId reg.last) }
        match o.sys.sign o.rand (d.toPayload o.algorithm) with
        | .error e => (reg, .error e)
        | .ok jws => ({ reg with last := some jws }, takeSignature d jws)

/-- One receipt after the other; `none` if one of them could not be made. -/
def CashRegister.run (reg : CashRegister) : List Order → CashRegister × Option (List Receipt)
  | [] => (reg, some [])
  | o :: os =>
    match reg.receipt o with
    | (reg, .ok r) =>
      match CashRegister.run reg os with
      | (reg, rs) => (reg, rs.map (r :: ·))
    | (reg, .error _) => (reg, none)

end

end RKSV
