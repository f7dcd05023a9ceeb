import Verif.Model.KeyStore
import Verif.Model.VerifyReceipt
/-
The exceptions of librksv as objects, with what their constructors keep, and how they, certificates and public keys are
sent from one process to another (`pickle`).
-/
namespace RKSV

/-- What is given to the constructor of an exception: a text, a number or `None`. -/
inductive ExcArg where
  | text (s : Str)
  | num (n : Int)
  | none
deriving DecidableEq, Repr

/-- The translation of messages (`_`) and `str.format`. -/
structure Texts where
  tr : Str → Str
  format : Str → List ExcArg → Str

/-- A translated message. -/
def Texts.msg (t : Texts) (s : Str) : ExcArg := .text (t.tr s)

/-- A translated message in which places are filled. -/
def Texts.fill (t : Texts) (s : Str) (args : List ExcArg) : ExcArg := .text (t.format (t.tr s) args)

/-- The exception classes of librksv. -/
inductive ExcClass where
  -- librksv/utils.py:47-70
  | rksv
  | rksvVerify
  | invalidKey
  -- librksv/receipt.py:38-111
  | receipt
  | receiptParse
  | malformedReceipt
  | unknownAlgorithm
  | algorithmMismatch
  | certSerialInvalid
  | invalidCertificateProvider
  -- librksv/verify_receipt.py:35-96
  | certSerialMismatch
  | noPublicKey
  | invalidSignature
  | nonFatal
  | signatureSystemFailed
  | invalidURLHash
  | unsignedNullReceipt
  -- librksv/depparser.py:36-115
  | dep
  | depParse
  | malformedDEP
  | missingDEPElement
  | malformedDEPElement
  | duplicateDEPElement
  | malformedDEPCertificate
  -- librksv/verify.py:42-236
  | clusterInOpenSystem
  | depReceipt
  | chaining
  | noRestoreReceipt
  | invalidTurnoverCounter
  | changingRegisterId
  | decreasingDate
  | changingSystemType
  | changingTurnoverCounterSize
  | noCertificateGiven
  | untrustedCertificate
  | certificateChainBroken
  | certificateSerialCollision
  | signatureSystemFailedOnInitial
  | nonzeroTurnoverOnInitial
  | invalidChainingOnInitial
  | invalidChainingOnClusterInitial
  | nonstandardTypeOnInitial
  -- librksv/verification_state.py:38-122
  | state
  | invalidCashRegisterIndex
  | noStartReceiptForLastCashRegister
  | stateParse
  | malformedState
  | missingStateElement
  | malformedStateElement
  | duplicateReceiptId
  -- librksv/key_store.py:35-114
  | keyStore
  | keyStoreParse
  | malformedKeyStore
  | missingKeyStoreElement
  | malformedKeyStoreElement
  | malformedCertificate
  | malformedPublicKey
deriving DecidableEq, Repr

/-- The attributes of an exception object: `message`, `receipt` (if there is one) and `_initargs`. -/
structure ExcFields where
  message : ExcArg
  receipt : Option ExcArg
  initargs : List ExcArg
deriving DecidableEq, Repr

/-- `RKSVException.__init__` (librksv/utils.py:48-51). -/
def rksvInit (message : ExcArg) : ExcFields where
  message := message
  receipt := none
  initargs := [message]

/-- `self._initargs = ...` at the end of a constructor. -/
def ExcFields.keep (o : ExcFields) (args : List ExcArg) : ExcFields := { o with initargs := args }

/-- `InvalidKeyException.__init__` (librksv/utils.py:69-70): `_initargs` is left as it is. -/
def invalidKeyInit (t : Texts) : ExcFields := rksvInit (t.msg c!"Invalid key.")

/-- `ReceiptException.__init__` (librksv/receipt.py:44-47) and `DEPReceiptException.__init__`
(librksv/verify.py:59-63). -/
def receiptInit (t : Texts) (rec message : ExcArg) : ExcFields :=
  { rksvInit (t.fill c!"At receipt \"{0}\": {1}" [rec, message]) with
    receipt := some rec
    initargs := [rec, message] }

/-- `ReceiptParseException.__init__` (librksv/receipt.py:58-60). -/
def receiptParseInit (t : Texts) (rec message : ExcArg) : ExcFields :=
  (receiptInit t rec message).keep [rec, message]

/-- `if reason:`. -/
def ExcArg.isTrue : ExcArg → Bool
  | .text s => s ≠ []
  | .num n => n ≠ 0
  | .none => false

/-- `MalformedReceiptException.__init__` (librksv/receipt.py:68-74). -/
def malformedReceiptInit (t : Texts) (rec reason : ExcArg) : ExcFields :=
  let msg := if reason.isTrue then .text (t.format c!"{0} -- {1}" [t.msg c!"Malformed receipt", reason])
    else t.msg c!"Malformed receipt."
  (receiptParseInit t rec msg).keep [rec, reason]

/-- `NonFatalReceiptException.__init__` (librksv/verify_receipt.py:66-69). -/
def nonFatalInit (t : Texts) (rec msg : ExcArg) : ExcFields :=
  (receiptInit t rec (t.fill c!"{} This is probably fine." [msg])).keep [rec, msg]

/-- The constructors of the classes about a receipt with a fixed message (librksv/receipt.py:99-111,
librksv/verify_receipt.py:40-59, 85-87, librksv/verify.py:83-139, 192-236). -/
def fixedInit (t : Texts) (message : Str) (rec : ExcArg) : ExcFields :=
  (receiptInit t rec (t.msg message)).keep [rec]

/-- The constructors of `DEPParseException`, `StateException`, `StateParseException`, `KeyStoreException` and
`KeyStoreParseException` (librksv/depparser.py:47-49, librksv/verification_state.py:39-41, 63-65,
librksv/key_store.py:36-38, 48-50). -/
def messageInit (msg : ExcArg) : ExcFields := (rksvInit msg).keep [msg]

/-- The constructors of `MalformedDEPException`, `MalformedStateException` and `MalformedKeyStoreException`
(librksv/depparser.py:56-66, librksv/verification_state.py:72-83, librksv/key_store.py:57-67); they differ in two texts. -/
def malformedInit (t : Texts) (whole within : Str) (msg idx : ExcArg) : ExcFields :=
  (match msg, idx with
  | .none, _ => messageInit (t.msg whole)
  | msg, .none => messageInit (t.fill c!"{}." [msg])
  | msg, idx => messageInit (t.fill within [idx, msg])).keep [msg, idx]

def inGroup : Str := c!"In group {}: {}."
def inRegister : Str := c!"In cash register {}: {}."
def inKey : Str := c!"In certificate/public key \"{}\": {}."

/-- The constructors of the classes for a missing or repeated element (librksv/depparser.py:73-77, 101-105,
librksv/verification_state.py:90-94, librksv/key_store.py:74-78). -/
def elementInit (t : Texts) (whole within what : Str) (elem idx : ExcArg) : ExcFields :=
  (malformedInit t whole within (t.fill what [elem]) idx).keep [elem, idx]

/-- The constructors of the classes for a malformed element (librksv/depparser.py:84-93,
librksv/verification_state.py:101-110, librksv/key_store.py:85-94). -/
def malformedElementInit (t : Texts) (whole within : Str) (elem detail idx : ExcArg) : ExcFields :=
  (match detail with
  | .none => malformedInit t whole within (t.fill c!"Element \"{}\" malformed" [elem]) idx
  | detail => malformedInit t whole within (t.fill c!"Element \"{}\" malformed: {}" [elem, detail]) idx).keep
    [elem, detail, idx]

/-- The constructor of a class, called with positional arguments; `none`: the number of arguments is wrong, a
`TypeError`. -/
def ExcClass.init (t : Texts) (c : ExcClass) (args : List ExcArg) : Option ExcFields :=
  match c, args with
  -- librksv/utils.py:48-51, 61-62; librksv/depparser.py:36-40
  | .rksv, [m] | .rksvVerify, [m] | .dep, [m] => some (rksvInit m)
  | .invalidKey, [] => some (invalidKeyInit t)
  | .receipt, [r, m] => some (receiptInit t r m)
  | .receiptParse, [r, m] => some (receiptParseInit t r m)
  | .malformedReceipt, [r] => some (malformedReceiptInit t r .none)
  | .malformedReceipt, [r, m] => some (malformedReceiptInit t r m)
  -- librksv/receipt.py:82-84, 91-93
  | .unknownAlgorithm, [r] => some ((receiptParseInit t r (t.msg c!"Unknown algorithm.")).keep [r])
  | .algorithmMismatch, [r] => some ((receiptParseInit t r (t.msg c!"Algorithm mismatch.")).keep [r])
  | .certSerialInvalid, [r] => some (fixedInit t c!"Certificate serial invalid." r)
  | .invalidCertificateProvider, [r] => some (fixedInit t c!"Invalid certificate provider." r)
  | .certSerialMismatch, [r] => some (fixedInit t c!"Certificate serial mismatch." r)
  | .noPublicKey, [r] => some (fixedInit t c!"No public key found." r)
  | .invalidSignature, [r] => some (fixedInit t c!"Invalid Signature." r)
  | .nonFatal, [r, m] => some (nonFatalInit t r m)
  -- librksv/verify_receipt.py:76-78, 94-96
  | .signatureSystemFailed, [r] => some ((nonFatalInit t r (t.msg c!"Signature System failed.")).keep [r])
  | .invalidURLHash, [r] => some (fixedInit t c!"Invalid URL hash." r)
  | .unsignedNullReceipt, [r] => some ((nonFatalInit t r (t.msg c!"Null receipt not signed.")).keep [r])
  | .depParse, [m] => some (messageInit m)
  | .malformedDEP, [] => some (malformedInit t c!"Malformed DEP" inGroup .none .none)
  | .malformedDEP, [m] => some (malformedInit t c!"Malformed DEP" inGroup m .none)
  | .malformedDEP, [m, i] => some (malformedInit t c!"Malformed DEP" inGroup m i)
  | .missingDEPElement, [e] => some (elementInit t c!"Malformed DEP" inGroup c!"Element \"{}\" missing" e .none)
  | .missingDEPElement, [e, i] => some (elementInit t c!"Malformed DEP" inGroup c!"Element \"{}\" missing" e i)
  | .malformedDEPElement, [e] => some (malformedElementInit t c!"Malformed DEP" inGroup e .none .none)
  | .malformedDEPElement, [e, d] => some (malformedElementInit t c!"Malformed DEP" inGroup e d .none)
  | .malformedDEPElement, [e, d, i] => some (malformedElementInit t c!"Malformed DEP" inGroup e d i)
  | .duplicateDEPElement, [e] => some (elementInit t c!"Malformed DEP" inGroup c!"Duplicate element \"{}\"" e .none)
  | .duplicateDEPElement, [e, i] => some (elementInit t c!"Malformed DEP" inGroup c!"Duplicate element \"{}\"" e i)
  -- librksv/depparser.py:112-115
  | .malformedDEPCertificate, [c] => some ((messageInit (t.fill c!"Certificate \"{}\" malformed." [c])).keep [c])
  -- librksv/verify.py:48-51
  | .clusterInOpenSystem, [] => some ((rksvInit (t.msg c!"GGS Cluster is not supported in an open system.")).keep [])
  | .depReceipt, [r, m] => some (receiptInit t r m)
  -- librksv/verify.py:71-74
  | .chaining, [r] => some ((receiptInit t r (t.fill c!"Chaining value \"{0}\" invalid." [.text c!"THIS IS A BUG"])).keep
      [r, .text c!"THIS IS A BUG"])
  | .chaining, [r, p] => some ((receiptInit t r (t.fill c!"Chaining value \"{0}\" invalid." [p])).keep [r, p])
  | .noRestoreReceipt, [r] =>
      some (fixedInit t c!"Receipt after restored signature system must not have any turnover." r)
  | .invalidTurnoverCounter, [r] => some (fixedInit t c!"Turnover counter invalid." r)
  | .changingRegisterId, [r] => some (fixedInit t c!"Register ID changed." r)
  | .decreasingDate, [r] => some (fixedInit t c!"Receipt was created before previous receipt." r)
  | .changingSystemType, [r] => some (fixedInit t c!"The system type changed." r)
  | .changingTurnoverCounterSize, [r] => some (fixedInit t c!"The size of the turnover counter changed." r)
  -- librksv/verify.py:147-149, 158-161, 170-174, 182-186
  | .noCertificateGiven, [] =>
      some ((rksvInit (t.msg c!"No certificate specified in DEP and multiple groups used.")).keep [])
  | .untrustedCertificate, [c] => some ((rksvInit (t.fill c!"Certificate \"%s\" is not trusted." [c])).keep [c])
  | .certificateChainBroken, [c, s] =>
      some ((rksvInit (t.fill c!"Certificate \"{}\" was not signed by \"{}\"." [c, s])).keep [c, s])
  | .certificateSerialCollision, [s, a, b] =>
      some ((rksvInit (t.fill c!"Two certificates with serial \"{0}\" detected (fingerprints \"{1}\" and \"{2}\"). This may be an attempted attack."
        [s, a, b])).keep [s, a, b])
  | .signatureSystemFailedOnInitial, [r] => some (fixedInit t c!"Initial receipt not signed." r)
  | .nonzeroTurnoverOnInitial, [r] => some (fixedInit t c!"Initial receipt has nonzero turnover." r)
  | .invalidChainingOnInitial, [r] =>
      some (fixedInit t c!"Initial receipt has not been chained to the cash register ID." r)
  | .invalidChainingOnClusterInitial, [r] =>
      some (fixedInit t
        c!"Initial receipt in cluster has not been chained to the previous cash register's initial receipt." r)
  | .nonstandardTypeOnInitial, [r] => some (fixedInit t c!"Initial receipt is a dummy or reversal receipt." r)
  | .state, [m] => some (messageInit m)
  -- librksv/verification_state.py:47-50, 53-56
  | .invalidCashRegisterIndex, [i] => some ((messageInit (t.fill c!"No cash register with index {}." [i])).keep [i])
  | .noStartReceiptForLastCashRegister, [] =>
      some ((messageInit (t.msg c!"The last cash register has no registered start receipt.")).keep [])
  | .stateParse, [m] => some (messageInit m)
  | .malformedState, [] => some (malformedInit t c!"Malformed verification state" inRegister .none .none)
  | .malformedState, [m] => some (malformedInit t c!"Malformed verification state" inRegister m .none)
  | .malformedState, [m, i] => some (malformedInit t c!"Malformed verification state" inRegister m i)
  | .missingStateElement, [e] =>
      some (elementInit t c!"Malformed verification state" inRegister c!"Element \"{}\" missing" e .none)
  | .missingStateElement, [e, i] =>
      some (elementInit t c!"Malformed verification state" inRegister c!"Element \"{}\" missing" e i)
  | .malformedStateElement, [e] => some (malformedElementInit t c!"Malformed verification state" inRegister e .none .none)
  | .malformedStateElement, [e, d] => some (malformedElementInit t c!"Malformed verification state" inRegister e d .none)
  | .malformedStateElement, [e, d, i] => some (malformedElementInit t c!"Malformed verification state" inRegister e d i)
  -- librksv/verification_state.py:118-122
  | .duplicateReceiptId, [r] =>
      some { (rksvInit (t.fill c!"Receipt ID \"{0}\" is already in use." [r])) with receipt := some r, initargs := [r] }
  | .keyStore, [m] => some (messageInit m)
  | .keyStoreParse, [m] => some (messageInit m)
  | .malformedKeyStore, [] => some (malformedInit t c!"Malformed key store" inKey .none .none)
  | .malformedKeyStore, [m] => some (malformedInit t c!"Malformed key store" inKey m .none)
  | .malformedKeyStore, [m, i] => some (malformedInit t c!"Malformed key store" inKey m i)
  | .missingKeyStoreElement, [e] => some (elementInit t c!"Malformed key store" inKey c!"Element \"{}\" missing" e .none)
  | .missingKeyStoreElement, [e, i] => some (elementInit t c!"Malformed key store" inKey c!"Element \"{}\" missing" e i)
  | .malformedKeyStoreElement, [e] => some (malformedElementInit t c!"Malformed key store" inKey e .none .none)
  | .malformedKeyStoreElement, [e, d] => some (malformedElementInit t c!"Malformed key store" inKey e d .none)
  | .malformedKeyStoreElement, [e, d, i] => some (malformedElementInit t c!"Malformed key store" inKey e d i)
  -- librksv/key_store.py:101-104, 111-114
  | .malformedCertificate, [i] => some ((messageInit (t.fill c!"Certificate \"{}\" malformed." [i])).keep [i])
  | .malformedPublicKey, [i] => some ((messageInit (t.fill c!"Public key \"{}\" malformed." [i])).keep [i])
  | _, _ => none

/-- An exception object. -/
structure ExcObj where
  cls : ExcClass
  fields : ExcFields
deriving DecidableEq, Repr

/-- Making an exception object. -/
def construct (t : Texts) (c : ExcClass) (args : List ExcArg) : Option ExcObj := (c.init t args).map fun f => ⟨c, f⟩

/-- `__reduce__` (librksv/utils.py:53-54, and the same in librksv/receipt.py:49-50, librksv/verification_state.py:43-44,
librksv/key_store.py:40-41): what is sent. -/
def ExcObj.reduce (o : ExcObj) : ExcClass × List ExcArg := (o.cls, o.fields.initargs)

/-- What `pickle` does at the other end: the class is called with the arguments. -/
def unpickle (t : Texts) (p : ExcClass × List ExcArg) : Option ExcObj := construct t p.1 p.2

/-- The class of the exception in the rest of the model.  Base classes are not raised, except `DEPParseException` for a
DEP that is no JSON (librksv/depparser.py:473, 699), which counts as `malformedDEP`. -/
def ExcClass.err : ExcClass → Option Err
  | .rksv | .rksvVerify | .receipt | .receiptParse | .nonFatal | .dep | .depReceipt | .state | .stateParse | .keyStore
  | .keyStoreParse | .changingTurnoverCounterSize => none
  | .invalidKey => some .invalidKey
  | .malformedReceipt => some .malformedReceipt
  | .unknownAlgorithm => some .unknownAlgorithm
  | .algorithmMismatch => some .algorithmMismatch
  | .certSerialInvalid => some .certSerialInvalid
  | .invalidCertificateProvider => some .invalidCertificateProvider
  | .certSerialMismatch => some .certSerialMismatch
  | .noPublicKey => some .noPublicKey
  | .invalidSignature => some .invalidSignature
  | .signatureSystemFailed => some .signatureSystemFailed
  | .invalidURLHash => some .invalidURLHash
  | .unsignedNullReceipt => some .unsignedNullReceipt
  | .depParse | .malformedDEP | .missingDEPElement | .malformedDEPElement | .duplicateDEPElement => some .malformedDEP
  | .malformedDEPCertificate => some .malformedDEPCertificate
  | .clusterInOpenSystem => some .clusterInOpenSystem
  | .chaining => some .chaining
  | .noRestoreReceipt => some .noRestoreReceipt
  | .invalidTurnoverCounter => some .invalidTurnoverCounter
  | .changingRegisterId => some .changingRegisterId
  | .decreasingDate => some .decreasingDate
  | .changingSystemType => some .changingSystemType
  | .noCertificateGiven => some .noCertificateGiven
  | .untrustedCertificate => some .untrustedCertificate
  | .certificateChainBroken => some .certificateChainBroken
  | .certificateSerialCollision => some .certificateSerialCollision
  | .signatureSystemFailedOnInitial => some .signatureSystemFailedOnInitial
  | .nonzeroTurnoverOnInitial => some .nonzeroTurnoverOnInitial
  | .invalidChainingOnInitial => some .invalidChainingOnInitial
  | .invalidChainingOnClusterInitial => some .invalidChainingOnClusterInitial
  | .nonstandardTypeOnInitial => some .nonstandardTypeOnInitial
  | .invalidCashRegisterIndex => some .invalidCashRegisterIndex
  | .noStartReceiptForLastCashRegister => some .noStartReceiptForLastCashRegister
  | .malformedState | .missingStateElement | .malformedStateElement => some .malformedState
  | .duplicateReceiptId => some .duplicateReceiptId
  | .malformedKeyStore | .missingKeyStoreElement | .malformedKeyStoreElement => some .malformedKeyStore
  | .malformedCertificate => some .malformedCertificate
  | .malformedPublicKey => some .malformedPublicKey

section
variable [PyEnv]

/-- A certificate sent to another process: `cert_getstate` there, `cert_setstate` here (librksv/utils.py:369-374). -/
def sendCert (c : Cert) : Option Cert := loadCert (addPEMCertHeaders (exportCertToPEM c))

/-- A public key sent to another process: `pubkey_getstate`, `pubkey_setstate` (librksv/utils.py:376-381). -/
def sendKey (k : PubKey) : Option PubKey := loadPubKey (addPEMPubKeyHeaders (exportKeyToPEM k))

/-- An optional certificate; `None` is sent as it is. -/
def sendOptCert : Option Cert → Option (Option Cert)
  | none => some none
  | some c => (sendCert c).map some

/-- A key store; everything but the keys and certificates is sent as it is. -/
def sendStore : KeyStore → Option KeyStore
  | [] => some []
  | (id, e) :: ks => do
    let key ← sendKey e.key
    let cert ← sendOptCert e.cert
    let rest ← sendStore ks
    some ((id, ⟨key, cert⟩) :: rest)

/-- A `ReceiptVerifier` (librksv/verify_receipt.py:186-201), a part of what is sent to the workers
(librksv/verify.py:571-585). -/
def sendVerifier (v : Verifier) : Option Verifier := do
  let ks ← match v.keyStore with
    | none => some none
    | some ks => (sendStore ks).map some
  let cert ← sendOptCert v.cert
  some ⟨ks, cert⟩

end

end RKSV
