import Verif.Py.Base64
/-
Everything the modelled code takes from its environment and that is not modelled itself: the
Unicode character tables, SHA-256, AES, ECDSA and X.509.  All theorems quantify over every
instance of this class, so they hold whatever the tables and primitives are, as long as they
satisfy the laws listed here.  No cryptographic hardness is assumed anywhere.
-/
namespace RKSV

/-- The decimal ASCII digit value. -/
def asciiDigit (c : Char) : Option Nat :=
  if '0' ≤ c ∧ c ≤ '9' then some (c.toNat - 48) else none

/-- ASCII characters stripped by `str.strip()`. -/
def asciiSpace (c : Char) : Bool :=
  (9 ≤ c.toNat && c.toNat ≤ 13) || (28 ≤ c.toNat && c.toNat ≤ 32)

/-- ASCII letters. -/
def asciiUpper (c : Char) : Bool := 'A' ≤ c && c ≤ 'Z'
def asciiLower (c : Char) : Bool := 'a' ≤ c && c ≤ 'z'

/-- The text between the PEM header and footer lines: base64 in lines of at most 64 characters. -/
def wrap64 (fuel : Nat) (s : Str) : List Str :=
  match fuel, s with
  | 0, _ => []
  | _, [] => []
  | n + 1, s => s.take 64 :: wrap64 n (s.drop 64)

/-- `'\n'.join([s[i:i+64] for i in range(0, len(s), 64)])` (librksv/utils.py:180-182, 190-192). -/
def pemLines (s : Str) : Str := joinWith '\n' (wrap64 s.length s)

def beginCert : Str := c!"-----BEGIN CERTIFICATE-----"
def endCert : Str := c!"-----END CERTIFICATE-----"
def beginPubKey : Str := c!"-----BEGIN PUBLIC KEY-----"
def endPubKey : Str := c!"-----END PUBLIC KEY-----"

/-- `utils.addPEMCertHeaders` (librksv/utils.py:174-182). -/
def addPEMCertHeaders (cert : Str) : Str := beginCert ++ ['\n'] ++ pemLines cert ++ ['\n'] ++ endCert

/-- `utils.addPEMPubKeyHeaders` (librksv/utils.py:184-192). -/
def addPEMPubKeyHeaders (key : Str) : Str :=
  beginPubKey ++ ['\n'] ++ pemLines key ++ ['\n'] ++ endPubKey

class PyEnv where
  /-- Value of a character of Unicode category Nd: what `\d` matches and `int`/`float` read. -/
  digitVal : Char → Option Nat
  digitVal_lt : ∀ {c n}, digitVal c = some n → n < 10
  digitVal_ascii : ∀ {c : Char}, c.toNat < 128 → digitVal c = asciiDigit c
  /-- `str.isdigit` of a single character. -/
  isDigit : Char → Bool
  isDigit_of_digitVal : ∀ {c n}, digitVal c = some n → isDigit c = true
  isDigit_ascii : ∀ {c : Char}, c.toNat < 128 → isDigit c = (asciiDigit c).isSome
  /-- `str.isalnum` of a single character. -/
  isAlnum : Char → Bool
  isAlnum_ascii : ∀ {c : Char}, c.toNat < 128 →
    isAlnum c = ((asciiDigit c).isSome || asciiUpper c || asciiLower c)
  /-- `str.isspace` of a single character: what `str.strip` removes. -/
  isSpace : Char → Bool
  isSpace_ascii : ∀ {c : Char}, c.toNat < 128 → isSpace c = asciiSpace c
  /-- `str.upper` of a single character (may yield several characters). -/
  upper : Char → Str
  upper_ascii : ∀ {c : Char}, c.toNat < 128 →
    upper c = if asciiLower c then [Char.ofNat (c.toNat - 32)] else [c]
  /-- `str.lower` (context dependent for the Greek sigma, therefore on strings). -/
  lower : Str → Str
  lower_ascii : ∀ {s : Str}, (∀ c ∈ s, c.toNat < 128) →
    lower s = s.map fun c => if asciiUpper c then Char.ofNat (c.toNat + 32) else c
  /-- SHA-256 (librksv/utils.py:106-114). -/
  sha256 : Bytes → Bytes
  sha256_length : ∀ b, (sha256 b).length = 32
  /-- Byte `i` of the AES-256-CTR key stream for a key and an IV (librksv/utils.py:116-127). -/
  keystream : Bytes → Bytes → Nat → UInt8
  /-- `cryptography` certificate, public key and private key objects. -/
  Cert : Type
  PubKey : Type
  PrivKey : Type
  /-- `==` of certificate objects. -/
  certDecEq : DecidableEq Cert
  serial : Cert → Int
  /-- SHA-256 fingerprint of a certificate. -/
  fingerprint : Cert → Bytes
  publicKey : Cert → PubKey
  /-- Was the first certificate signed with the key of the second one?  The whole of
  `utils.verifyCert` (librksv/utils.py:194-227). -/
  certSignedBy : Cert → Cert → Bool
  /-- DER encodings. -/
  certDER : Cert → Bytes
  keyDER : PubKey → Bytes
  /-- `utils.loadCert`, `utils.loadPubKey` (librksv/utils.py:129-143); `none` is `ValueError`. -/
  loadCert : Str → Option Cert
  loadPubKey : Str → Option PubKey
  loadCert_pem : ∀ c, loadCert (addPEMCertHeaders (b64Encode false (certDER c))) = some c
  loadPubKey_pem : ∀ k, loadPubKey (addPEMPubKeyHeaders (b64Encode false (keyDER k))) = some k
  /-- ES256: is the byte string a valid signature of the message? -/
  verifySig : PubKey → Bytes → Bytes → Bool
  pubOf : PrivKey → PubKey
  /-- ES256 signing; the `Nat` stands for the random choice made by ECDSA. -/
  sign : PrivKey → Nat → Bytes → Bytes
  sign_length : ∀ k r m, (sign k r m).length = 64
  verify_sign : ∀ k r m, verifySig (pubOf k) m (sign k r m) = true
  /-- `PyJWS.decode` for strings whose header is not the R1 header (never reached from the parsers,
  which pin the header). -/
  foreignJws : Str → PubKey → Bool

export PyEnv (digitVal isDigit isAlnum isSpace sha256 keystream Cert PubKey PrivKey serial
  fingerprint publicKey certSignedBy certDER keyDER loadCert loadPubKey verifySig pubOf
  sign foreignJws)

instance [PyEnv] : DecidableEq Cert := PyEnv.certDecEq

end RKSV
