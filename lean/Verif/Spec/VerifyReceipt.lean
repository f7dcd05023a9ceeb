import Verif.Model.VerifyReceipt
import Verif.Spec.Receipt
/-
Specification vocabulary for the verification of single receipts.
-/
namespace RKSV

/-- The text a receipt of a failed signature system carries instead of a signature: base64url of
"Sicherheitseinrichtung ausgefallen". -/
def failureMark : Str := c!"U2ljaGVyaGVpdHNlaW5yaWNodHVuZyBhdXNnZWZhbGxlbg"

/-- What a receipt's signature is computed over: header and payload in base64url, with a dot. -/
def signingInput (r : Receipt) : Bytes :=
  utf8Enc (b64Text true (utf8Enc r.header) ++ '.' :: b64Text true (utf8Enc (r.toPayload c!"R1")))

section
variable [PyEnv]

/-- The signature of the receipt is a valid ES256 signature under the key. -/
def SignatureValid (r : Receipt) (k : PubKey) : Prop :=
  ∃ sig, b64Decode true (restorePad r.signature) = some sig ∧ verifySig k (signingInput r) sig = true

/-- `text`, read as a hexadecimal or decimal number after dropping one minus sign, is `n`. -/
def SerialText (text : Str) (base : Nat) (n : Int) : Prop :=
  ∃ t, (text = '-' :: t ∨ (text = t ∧ t ≠ [] ∧ ∀ u, t ≠ '-' :: u)) ∧ pyInt base t = some n

/-- The serial text of a receipt denotes the certificate with serial number `n`. -/
def SerialMatches (text : Str) (n : Int) : Prop :=
  SerialText text 16 |n| ∨ SerialText text 10 |n|

/-- The key a verifier has for a receipt. -/
inductive KeyFor (v : Verifier) (r : Receipt) (k : PubKey) : Prop
  /-- closed system, certificate given: its key, whatever the receipt says -/
  | closedCert (c : Cert) (hz : r.zda = c!"AT0") (hc : v.cert = some c) (hk : k = publicKey c)
  /-- open system, certificate given: its key if the serial matches -/
  | openCert (c : Cert) (hz : r.zda ≠ c!"AT0") (hc : v.cert = some c)
      (hs : SerialMatches r.certSerial (serial c)) (hk : k = publicKey c)
  /-- closed system, key store: the key stored under the receipt's key ID -/
  | closedStore (ks : KeyStore) (hz : r.zda = c!"AT0") (hc : v.cert = none)
      (hks : v.keyStore = some ks) (hk : ks.getKey r.certSerial = some k)
  /-- open system, key store: the key stored under the hexadecimal serial -/
  | openStoreHex (ks : KeyStore) (n : Int) (hz : r.zda ≠ c!"AT0") (hc : v.cert = none)
      (hks : v.keyStore = some ks) (hn : SerialText r.certSerial 16 n)
      (hk : ks.getKey (intHex n) = some k)
  /-- open system, key store: otherwise the key stored under the decimal serial -/
  | openStoreDec (ks : KeyStore) (n : Int) (hz : r.zda ≠ c!"AT0") (hc : v.cert = none)
      (hks : v.keyStore = some ks) (hn : SerialText r.certSerial 10 n)
      (hno : ∀ m, SerialText r.certSerial 16 m → ks.getKey (intHex m) = none)
      (hk : ks.getKey (intHex n) = some k)

/-- The certificate given does not belong to the receipt. -/
def WrongCert (v : Verifier) (r : Receipt) : Prop :=
  ∃ c, v.cert = some c ∧ r.zda ≠ c!"AT0" ∧ ¬SerialMatches r.certSerial (serial c)

/-- `text` was accepted by one of the verification functions, with result `r`. -/
inductive Accepted (v : Verifier) (r : Receipt) (alg : Str) : Prop
  | jws (s : Str) (h : v.verifyJWS s = .ok (r, alg))
  | basic (s : Str) (h : v.verifyBasic s = .ok (r, alg))
  | ocr (py : PyVersion) (s : Str) (h : v.verifyOCR py s = .ok (r, alg))
  | csv (s : Str) (h : v.verifyCSV s = .ok (r, alg))

end

end RKSV
