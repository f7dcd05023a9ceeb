import Verif.Model.Err
import Verif.Py.Base32
/-
librksv/receipt.py: the receipt class, its validation and the text formats.

A receipt before `sign()` is a `Draft`, afterwards a `Receipt`; the code has one class with a
`signed` flag and raises an exception if a method needing the signature is called too early.  Here
the types rule that out.  Arguments are strings throughout; the `isinstance(_, string_types)`
checks are modelled where values of other types can arrive (JSON).
-/
namespace RKSV

/-- The twelve texts a receipt consists of (librksv/receipt.py:198-200). -/
structure Fields where
  zda : Str
  registerId : Str
  receiptId : Str
  dateTimeStr : Str
  sumAStr : Str
  sumBStr : Str
  sumCStr : Str
  sumDStr : Str
  sumEStr : Str
  encTurnoverCounter : Str
  certSerial : Str
  previousChain : Str
deriving DecidableEq

/-- A receipt that has not been signed yet (librksv/receipt.py:276-296). -/
structure Draft extends Fields where
  dateTime : DateTime
  sumA : F64
  sumB : F64
  sumC : F64
  sumD : F64
  sumE : F64
deriving DecidableEq

/-- A signed receipt (librksv/receipt.py:688-690). -/
structure Receipt extends Draft where
  header : Str
  signature : Str
deriving DecidableEq

/-- librksv/receipt.py:113-121. -/
inductive CertSerialType where
  | serial
  | tax
  | uid
  | gln
  | invalid
deriving DecidableEq, Repr

def AT0 : Str := c!"AT0"

section
variable [PyEnv]

/-- `s.isalnum()`. -/
def isAlnumStr (s : Str) : Bool := !s.isEmpty && s.all isAlnum

/-- `s.isdigit()`. -/
def isDigitStr (s : Str) : Bool := !s.isEmpty && s.all isDigit

/-- `s.upper()`. -/
def upperStr (s : Str) : Str := s.flatMap PyEnv.upper

/-- `CertSerialType.getCertSerialType` (librksv/receipt.py:124-160). -/
def certSerialType (certSerial : Str) : CertSerialType :=
  if certSerial = [] then .invalid
  else
    let certSerial :=
      if certSerial.head? = some '-' ∧ '-' ∉ certSerial.drop 1 then certSerial.drop 1
      else certSerial
    let parts := splitOn '-' certSerial
    let certSerial := parts.headD []
    if 2 < parts.length then .invalid
    else if parts.length = 2 ∧ ¬isAlnumStr (parts.getD 1 []) then .invalid
    else if certSerial.length = 11 ∧ certSerial.take 2 = c!"S:" ∧ isDigitStr (certSerial.drop 2) then
      .tax
    else if 3 ≤ certSerial.length ∧ certSerial.length ≤ 16 ∧ certSerial.take 2 = c!"U:" ∧
        isAlnumStr (certSerial.drop 2) ∧ certSerial.drop 2 = upperStr (certSerial.drop 2) then
      .uid
    else if certSerial.length = 15 ∧ certSerial.take 2 = c!"G:" ∧ isDigitStr (certSerial.drop 2) then
      .gln
    else if (pyInt 16 certSerial).isSome then .serial
    else if (pyInt 10 certSerial).isSome then .serial
    else .invalid

/-- `[1-9]\d*`. -/
def matchPosNum : Str → Bool
  | [] => false
  | c :: r => '1' ≤ c && c ≤ '9' && r.all fun d => (digitVal d).isSome

/-- `algRegex` `^R[1-9]\d*$` (librksv/receipt.py:162). -/
def matchAlg (s : Str) : Bool :=
  match stripNl s with
  | 'R' :: r => matchPosNum r
  | _ => false

/-- `zdaRegex` `^([A-Z][A-Z][1-9]\d*|AT0)$` (librksv/receipt.py:163). -/
def matchZda (s : Str) : Bool :=
  let t := stripNl s
  t = AT0 ||
    match t with
    | a :: b :: r => asciiUpper a && asciiUpper b && matchPosNum r
    | _ => false

/-- Decimal value of a digit text. -/
def decVal (s : Str) : Nat := s.foldl (fun acc c => acc * 10 + (digitVal c).getD 0) 0

/-- `[1-9]\d+|\d`. -/
def matchWhole : Str → Bool
  | [] => false
  | [c] => (digitVal c).isSome
  | c :: r => '1' ≤ c && c ≤ '9' && r.all fun d => (digitVal d).isSome

/-- An optional minus sign. -/
def splitSign : Str → Bool × Str
  | '-' :: r => (true, r)
  | s => (false, s)

/-- `([1-9]\d+|\d)\,\d\d` and the number of cents it denotes. -/
def parseUnsignedCents (s : Str) : Option Nat :=
  match cutAt (· == ',') s with
  | some (w, [a, b]) =>
    match matchWhole w, digitVal a, digitVal b with
    | true, some x, some y => some (decVal w * 100 + x * 10 + y)
    | _, _, _ => none
  | _ => none

/-- The amount in cents a sum text denotes if it matches `receiptFloatRegex`
`^-?([1-9]\d+|\d)\,\d\d$` (librksv/utils.py:330). -/
def parseCents (s : Str) : Option Int :=
  let t := splitSign (stripNl s)
  (parseUnsignedCents t.2).map fun (n : Nat) => if t.1 then -(Int.ofNat n) else Int.ofNat n

/-- `utils.getReceiptFloat` (librksv/utils.py:331-338): after the pattern matched, `float()` always
succeeds and yields the correctly rounded value. -/
def getReceiptFloat (s : Str) : Option F64 := (parseCents s).map centsToF64

/-- `_getSum` (librksv/receipt.py:165-171). -/
def getSum (s : Str) : Res F64 := do
  ensure (s ≠ []) .malformedReceipt
  orErr (getReceiptFloat s) .malformedReceipt

/-- `_getTimestamp` (librksv/receipt.py:173-182). -/
def getTimestamp (s : Str) : Res DateTime := do
  ensure (s ≠ []) .malformedReceipt
  orErr (strptime s) .malformedReceipt

end

/-- `_getEmptyOrB64` (librksv/receipt.py:184-190). -/
def getEmptyOrB64 (s : Str) : Res Bytes := orErr (b64Decode false s) .malformedReceipt

def bTRA : Bytes := [84, 82, 65]
def bSTO : Bytes := [83, 84, 79]

/-- `isDummy` (librksv/receipt.py:705-711).  Only called on receipts whose counter decodes. -/
def Fields.isDummy (r : Fields) : Bool := b64Decode false r.encTurnoverCounter = some bTRA

/-- `isReversal` (librksv/receipt.py:713-719). -/
def Fields.isReversal (r : Fields) : Bool := b64Decode false r.encTurnoverCounter = some bSTO

/-- `isNull` (librksv/receipt.py:721-726). -/
def Draft.isNull (r : Draft) : Bool :=
  r.sumA.isZero && r.sumB.isZero && r.sumC.isZero && r.sumD.isZero && r.sumE.isZero

section
variable [PyEnv]

/-- `Receipt.__init__` (librksv/receipt.py:198-303). -/
def Draft.init (f : Fields) : Res Draft := do
  ensure (f.receiptId ≠ []) .malformedReceipt
  ensure ('_' ∉ f.receiptId) .malformedReceipt
  ensure (f.zda ≠ [] ∧ matchZda f.zda) .malformedReceipt
  ensure (f.registerId ≠ [] ∧ '_' ∉ f.registerId) .malformedReceipt
  let dateTime ← getTimestamp f.dateTimeStr
  let sumA ← getSum f.sumAStr
  let sumB ← getSum f.sumBStr
  let sumC ← getSum f.sumCStr
  let sumD ← getSum f.sumDStr
  let sumE ← getSum f.sumEStr
  let encTC ← getEmptyOrB64 f.encTurnoverCounter
  let _ ← getEmptyOrB64 f.previousChain
  ensure (f.certSerial ≠ []) .malformedReceipt
  let ty := certSerialType f.certSerial
  ensure (ty ≠ .invalid) .certSerialInvalid
  ensure (if ty = .serial then f.zda ≠ AT0 else f.zda = AT0) .invalidCertificateProvider
  ensure (encTC.length ≠ 0 ∧ (encTC.length < 5 ∨ 16 < encTC.length) →
    f.isDummy ∨ f.isReversal) .malformedReceipt
  .ok { f with dateTime, sumA, sumB, sumC, sumD, sumE }

end

/-- `sign` (librksv/receipt.py:664-690). -/
def Draft.sign (r : Draft) (header signature : Str) : Res Receipt := do
  ensure (¬endsWithChar '=' signature) .malformedReceipt
  let _ ← orErr (b64Decode true (restorePad signature)) .malformedReceipt
  .ok { r with header, signature }

/-- ID of the only algorithm class (librksv/algorithms.py:149-150, 221). -/
def R1 : Str := c!"R1"

/-- `algorithmPrefix in algorithms.ALGORITHMS` (librksv/algorithms.py:221). -/
def knownAlg (p : Str) : Prop := p = R1
instance (p : Str) : Decidable (knownAlg p) := by unfold knownAlg; infer_instance

/-- `R1.jwsHeader` (librksv/algorithms.py:152-156). -/
def jwsHeader : Str := c!"{\"alg\":\"ES256\"}"

/-- `R1.chainBytes` (librksv/algorithms.py:158-159). -/
def chainBytes : Nat := 8

/-- Decoding of a JWS segment to text: `urlsafe_b64decode(restoreb64padding(s)).decode("utf-8")`
(librksv/receipt.py:329-330, 337-338). -/
def decodeSeg (s : Str) : Option Str := (b64Decode true (restorePad s)).bind utf8Dec

/-- `base64.urlsafe_b64encode(s.encode("utf-8")).replace(b'=', b'')`
(librksv/receipt.py:409-414). -/
def encodeSeg (s : Str) : Str := removeChar '=' (b64Encode true (utf8Enc s))

section
variable [PyEnv]

/-- `Receipt.fromJWSString` (librksv/receipt.py:306-396). -/
def fromJWS (jws : Str) : Res (Receipt × Str) :=
  match splitOn '.' jws with
  | [h, p, signature] => do
    ensure (¬(endsWithChar '=' h ∨ endsWithChar '=' p ∨ endsWithChar '=' signature)) .malformedReceipt
    let header ← orErr (decodeSeg h) .malformedReceipt
    let payload ← orErr (decodeSeg p) .malformedReceipt
    match splitOn '_' payload with
    | [s0, algZda, registerId, receiptId, dateTimeStr, sumAStr, sumBStr, sumCStr, sumDStr, sumEStr,
       encTurnoverCounter, certSerial, previousChain] => do
      ensure (s0 = []) .malformedReceipt
      match splitOn '-' algZda with
      | [alg, zda] => do
        ensure (matchAlg alg) .malformedReceipt
        ensure (knownAlg alg) .unknownAlgorithm
        ensure (jwsHeader = header) .algorithmMismatch
        ensure (removeChar '=' encTurnoverCounter ≠ []) .malformedReceipt
        let d ← Draft.init ⟨zda, registerId, receiptId, dateTimeStr, sumAStr, sumBStr, sumCStr,
          sumDStr, sumEStr, encTurnoverCounter, certSerial, previousChain⟩
        let r ← d.sign header signature
        let cv ← orErr (b64Decode false previousChain) .typeError
        ensure (cv.length = chainBytes) .malformedReceipt
        .ok (r, alg)
      | _ => .error .malformedReceipt
    | _ => .error .malformedReceipt
  | _ => .error .malformedReceipt

end

/-- `toPayloadString` (librksv/receipt.py:420-441).  The code concatenates the UTF-8 bytes of the
parts and decodes the result, which is the concatenation of the parts. -/
def Fields.toPayload (r : Fields) (alg : Str) : Str :=
  joinWith '_' [ '_' :: alg ++ '-' :: r.zda, r.registerId, r.receiptId, r.dateTimeStr, r.sumAStr,
    r.sumBStr, r.sumCStr, r.sumDStr, r.sumEStr, r.encTurnoverCounter, r.certSerial,
    r.previousChain ]

/-- `toJWSString` (librksv/receipt.py:398-418). -/
def Receipt.toJWS (r : Receipt) (alg : Str) : Str :=
  joinWith '.' [encodeSeg r.header, encodeSeg (r.toPayload alg), r.signature]

section
variable [PyEnv]

/-- `Receipt.fromBasicCode` (librksv/receipt.py:444-515). -/
def fromBasic (code : Str) : Res (Receipt × Str) :=
  match splitOn '_' code with
  | [s0, algZda, registerId, receiptId, dateTimeStr, sumAStr, sumBStr, sumCStr, sumDStr, sumEStr,
     encTurnoverCounter, certSerial, previousChain, sig] => do
    ensure (s0 = []) .malformedReceipt
    match splitOn '-' algZda with
    | [alg, zda] => do
      ensure (matchAlg alg) .malformedReceipt
      ensure (knownAlg alg) .unknownAlgorithm
      let sigBytes ← orErr (b64Decode false sig) .malformedReceipt
      let signature := removeChar '=' (b64Encode true sigBytes)
      ensure (removeChar '=' encTurnoverCounter ≠ []) .malformedReceipt
      let d ← Draft.init ⟨zda, registerId, receiptId, dateTimeStr, sumAStr, sumBStr, sumCStr,
        sumDStr, sumEStr, encTurnoverCounter, certSerial, previousChain⟩
      let r ← d.sign jwsHeader signature
      let cv ← orErr (b64Decode false previousChain) .typeError
      ensure (cv.length = chainBytes) .malformedReceipt
      .ok (r, alg)
    | _ => .error .malformedReceipt
  | _ => .error .malformedReceipt

end

/-- `toBasicCode` (librksv/receipt.py:517-533). -/
def Receipt.toBasic (r : Receipt) (alg : Str) : Res Str := do
  let sigBytes ← orErr (b64Decode true (restorePad r.signature)) .typeError
  .ok (r.toPayload alg ++ '_' :: b64Encode false sigBytes)

/-- The two generations of the interpreter behave differently in `utils.b32decode`. -/
inductive PyVersion where
  | py2
  | py3
deriving DecidableEq

/-- `utils.b32decode(s)` where `s` is a text (librksv/utils.py:268-271): Python 3 texts have no
`decode` method. -/
def b32DecodeText (v : PyVersion) (s : Str) : Res Bytes :=
  match v with
  | .py3 => .error .attributeError
  | .py2 => orErr (b32Decode s) .malformedReceipt

section
variable [PyEnv]

/-- `Receipt.fromOCRCode` (librksv/receipt.py:536-586).  Python 2's `unicode` texts with non-ASCII
characters are outside the model of the `py2` branch. -/
def fromOCR (v : PyVersion) (code : Str) : Res (Receipt × Str) :=
  match splitOn '_' code with
  | [s0, s1, s2, s3, s4, s5, s6, s7, s8, s9, tc, s11, chain, sig] => do
    ensure (s0 = []) .malformedReceipt
    let tc ← b32DecodeText v tc
    let chain ← b32DecodeText v chain
    let sig ← b32DecodeText v sig
    fromBasic (joinWith '_' [s0, s1, s2, s3, s4, s5, s6, s7, s8, s9, b64Encode false tc, s11,
      b64Encode false chain, b64Encode false sig])
  | _ => .error .malformedReceipt

end

/-- `toOCRCode` (librksv/receipt.py:588-622). -/
def Receipt.toOCR (r : Receipt) (alg : Str) : Res Str := do
  let tc ← orErr (b64Decode false r.encTurnoverCounter) .typeError
  let chain ← orErr (b64Decode false r.previousChain) .typeError
  let sig ← orErr (b64Decode true (restorePad r.signature)) .typeError
  .ok (joinWith '_' [ '_' :: alg ++ '-' :: r.zda, r.registerId, r.receiptId, r.dateTimeStr, r.sumAStr,
    r.sumBStr, r.sumCStr, r.sumDStr, r.sumEStr, b32Encode tc, r.certSerial, b32Encode chain,
    b32Encode sig ])

section
variable [PyEnv]

/-- `s.strip()`. -/
def pyStrip (s : Str) : Str := stripBoth isSpace s

/-- `Receipt.fromCSV` (librksv/receipt.py:641-654). -/
def fromCSV (csv : Str) : Res (Receipt × Str) :=
  fromBasic ('_' :: joinWith '_' ((splitOn ';' csv).map pyStrip))

end

/-- `s.replace(a, b)` for single characters. -/
def replaceChar (a b : Char) (s : Str) : Str := s.map fun c => if c = a then b else c

/-- `toCSV` (librksv/receipt.py:656-662). -/
def Receipt.toCSV (r : Receipt) (alg : Str) : Res Str := do
  let code ← r.toBasic alg
  .ok (replaceChar '_' ';' (code.drop 1))

/-- `Sicherheitseinrichtung ausgefallen` (librksv/receipt.py:701). -/
def failBytes : Bytes := utf8Enc c!"Sicherheitseinrichtung ausgefallen"

/-- `isSignedBroken` (librksv/receipt.py:692-703). -/
def Receipt.isSignedBroken (r : Receipt) : Bool := b64Text true failBytes = r.signature

section
variable [PyEnv]

/-- `R1.hash` (librksv/algorithms.py:161-162). -/
def algHash (s : Str) : Bytes := sha256 (utf8Enc s)

/-- `toURLHash` (librksv/receipt.py:624-638). -/
def Receipt.toURLHash (r : Receipt) (alg : Str) : Res Str := do
  let payload ← r.toBasic alg
  ensure (knownAlg alg) .unknownAlgorithm
  .ok (removeChar '=' (b64Encode true ((algHash payload).take 8)))

/-- `R1.chain` (librksv/algorithms.py:164-170); `none` and the empty text are both "no previous
receipt". -/
def chainHash (registerId : Str) (previousJws : Option Str) : Bytes :=
  match previousJws with
  | some p => if p ≠ [] then (algHash p).take 8 else (algHash registerId).take 8
  | none => (algHash registerId).take 8

/-- `aes256ctr` (librksv/utils.py:116-127). -/
def aesCtr (iv key data : Bytes) : Bytes :=
  (data.zipIdx).map fun (b, i) => b ^^^ keystream key iv i

/-- The IV of the turnover counter (librksv/algorithms.py:207-208, 215-216). -/
def counterIV (registerId receiptId : Str) : Bytes :=
  (sha256 (utf8Enc registerId ++ utf8Enc receiptId)).take 16

/-- `R1.encryptTurnoverCounter` (librksv/algorithms.py:206-212). -/
def encryptCounter (registerId receiptId : Str) (counter : Int) (key : Bytes) (size : Nat) :
    Res Bytes := do
  let pt ← orErr (toBytesSigned size counter) .overflowError
  .ok (aesCtr (counterIV registerId receiptId) key pt)

/-- `R1.decryptTurnoverCounter` (librksv/algorithms.py:214-219). -/
def decryptCounter (registerId receiptId : Str) (enc key : Bytes) : Int :=
  fromBytesSigned (aesCtr (counterIV registerId receiptId) key enc)

/-- `R1.verifyKey` (librksv/algorithms.py:199-204) and `utils.raiseForKey`
(librksv/utils.py:84-86). -/
def raiseForKey (key : Bytes) : Res Unit := ensure (key.length = 32) .invalidKey

/-- `Receipt.decryptTurnoverCounter` (librksv/receipt.py:728-746). -/
def Fields.decryptTurnoverCounter (r : Fields) (key : Bytes) : Res Int := do
  ensure (¬r.isDummy) .plainException
  ensure (¬r.isReversal) .plainException
  raiseForKey key
  let ct ← orErr (b64Decode false r.encTurnoverCounter) .typeError
  .ok (decryptCounter r.registerId r.receiptId ct key)

end

/-- `int(round((r.sumA + r.sumB + r.sumC + r.sumD + r.sumE) * 100))` (librksv/verify.py:432-433,
librksv/verification_state.py:411-412, 451-452). -/
def Draft.turnover (r : Draft) : Res Int :=
  match (sum5 r.sumA r.sumB r.sumC r.sumD r.sumE).intRound with
  | .ok n => .ok n
  | .error .overflow => .error .overflowError
  | .error .nan => .error .valueError

end RKSV
