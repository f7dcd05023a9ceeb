import Verif.Model.CashReg
/-
librksv/cashreg.py: falsified receipts (`MangledReceipt` and the argument `override` of `receipt`).
-/
namespace RKSV

/-- The argument `override` (librksv/cashreg.py:81-98, 128-191): the keys the code looks at or a receipt has
attributes for.  The values have the types the attributes have in the specifications of tests.  Other keys, with
which methods could be replaced, are not modelled. -/
structure Falsify where
  zda : Option Str := none
  registerId : Option Str := none
  receiptId : Option Str := none
  dateTime : Option Str := none
  sumA : Option Str := none
  sumB : Option Str := none
  sumC : Option Str := none
  sumD : Option Str := none
  sumE : Option Str := none
  encTurnoverCounter : Option Str := none
  certSerial : Option Str := none
  previousChain : Option Str := none
  turnoverCounterSize : Option Nat := none
  turnoverCounter : Option Int := none
  algorithmPrefix : Option Str := none
  header : Option Str := none
  signature : Option Str := none
  jwsOverride : Option Str := none
deriving DecidableEq

/-- `MangledReceipt.__init__` (librksv/cashreg.py:84-93) for the fields of the receipt; the date and the
amounts the receipt was made with stay. -/
def Falsify.mangle (v : Falsify) (d : Draft) : Draft :=
  { d with
    zda := v.zda.getD d.zda
    registerId := v.registerId.getD d.registerId
    receiptId := v.receiptId.getD d.receiptId
    dateTimeStr := v.dateTime.getD d.dateTimeStr
    sumAStr := v.sumA.getD d.sumAStr
    sumBStr := v.sumB.getD d.sumBStr
    sumCStr := v.sumC.getD d.sumCStr
    sumDStr := v.sumD.getD d.sumDStr
    sumEStr := v.sumE.getD d.sumEStr
    encTurnoverCounter := v.encTurnoverCounter.getD d.encTurnoverCounter
    certSerial := v.certSerial.getD d.certSerial
    previousChain := v.previousChain.getD d.previousChain }

/-- A `MangledReceipt` (librksv/cashreg.py:81-98). -/
structure Mangled where
  receipt : Receipt
  jws : Option Str

/-- `MangledReceipt.toJWSString` (librksv/cashreg.py:95-98). -/
def Mangled.toJWS (m : Mangled) (alg : Str) : Str := m.jws.getD (m.receipt.toJWS alg)

section
variable [PyEnv]

/-- The counter field (librksv/cashreg.py:146-169), encrypted with the IDs of the mangled receipt. -/
def Order.counterFieldOf (o : Order) (reg : CashRegister) (d : Draft) : Res Str :=
  if o.dummy then .ok (b64Encode false bTRA)
  else if o.reversal then .ok (b64Encode false bSTO)
  else do
    raiseForKey reg.key
    let enc ← encryptCounter d.registerId d.receiptId reg.counter reg.key reg.size
    .ok (b64Encode false enc)

/-- `CashRegister.receipt` (librksv/cashreg.py:128-191) with all arguments: the register afterwards, also if an
exception is raised, and the receipt. -/
def CashRegister.receiptWith (reg : CashRegister) (o : Order) (v : Falsify) : CashRegister × Res Mangled :=
  match o.draft reg.registerId with
  | .error e => (reg, .error e)
  | .ok d =>
    let d := v.mangle d
    let reg := { reg with size := v.turnoverCounterSize.getD reg.size }
    match o.book reg.counter with
    | .error e => (reg, .error e)
    | .ok n =>
      let reg := { reg with counter := v.turnoverCounter.getD n }
      match o.counterFieldOf reg d with
      | .error e => (reg, .error e)
      | .ok enc =>
        let d := { d with
          encTurnoverCounter := v.encTurnoverCounter.getD enc
          previousChain := v.previousChain.getD (b64Encode false (chainHash d.registerId reg.last)) }
        match o.sys.sign o.rand (d.toPayload (v.algorithmPrefix.getD o.algorithm)) with
        | .error e => (reg, .error e)
        | .ok jws =>
          ({ reg with last := some jws },
            do
              let r ← takeSignature d jws
              .ok ⟨{ r with
                header := v.header.getD r.header
                signature := v.signature.getD r.signature }, v.jwsOverride⟩)

end

end RKSV
