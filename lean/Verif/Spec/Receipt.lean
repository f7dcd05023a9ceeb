import Verif.Model.Receipt
/-
Specification vocabulary for the receipt properties.
-/
namespace RKSV

section
variable [PyEnv]

/-- `r` with algorithm ID `alg` is what some parser returns for some text. -/
inductive Parsed (r : Receipt) (alg : Str) : Prop
  | jws (s : Str) (h : fromJWS s = .ok (r, alg))
  | basic (s : Str) (h : fromBasic s = .ok (r, alg))
  | ocr (v : PyVersion) (s : Str) (h : fromOCR v s = .ok (r, alg))
  | csv (s : Str) (h : fromCSV s = .ok (r, alg))

/-- A company identification: `S:` tax number, `U:` VAT number, `G:` global location number. -/
inductive CompanyId : Str → Prop
  | tax (d : Str) (len : d.length = 9) (dig : ∀ c ∈ d, isDigit c = true) : CompanyId (c!"S:" ++ d)
  | uid (d : Str) (len : 1 ≤ d.length ∧ d.length ≤ 14) (al : ∀ c ∈ d, isAlnum c = true)
      (up : d.flatMap PyEnv.upper = d) : CompanyId (c!"U:" ++ d)
  | gln (d : Str) (len : d.length = 13) (dig : ∀ c ∈ d, isDigit c = true) : CompanyId (c!"G:" ++ d)

/-- A certificate serial: anything `int(_, 16)` reads. -/
def HexSerial (s : Str) : Prop := (pyInt 16 s).isSome

/-- An identification, optionally with a leading minus or with a key ID suffix. -/
inductive WithSuffix (P : Str → Prop) : Str → Prop
  | plain (b : Str) (h : P b) (hb : '-' ∉ b) : WithSuffix P b
  | neg (b : Str) (h : P b) (hb : '-' ∉ b) : WithSuffix P ('-' :: b)
  | suffix (b k : Str) (h : P b) (hb : '-' ∉ b) (hk : k ≠ []) (al : ∀ c ∈ k, isAlnum c = true) :
      WithSuffix P (b ++ '-' :: k)

/-- `XX<number>` or `AT0`. -/
inductive ZdaForm : Str → Prop
  | closed : ZdaForm c!"AT0"
  | provider (a b d : Char) (r : Str) (ha : 'A' ≤ a ∧ a ≤ 'Z') (hb : 'A' ≤ b ∧ b ≤ 'Z')
      (hd : '1' ≤ d ∧ d ≤ '9') (hr : ∀ c ∈ r, (digitVal c).isSome) : ZdaForm (a :: b :: d :: r)

/-- An amount: digits without superfluous leading zero, a comma, two digits. -/
inductive AmountForm : Str → Prop
  | short (w a b : Char) (hw : (digitVal w).isSome) (ha : (digitVal a).isSome)
      (hb : (digitVal b).isSome) : AmountForm [w, ',', a, b]
  | long (d : Char) (r : Str) (a b : Char) (hd : '1' ≤ d ∧ d ≤ '9') (hr0 : r ≠ [])
      (hr : ∀ c ∈ r, (digitVal c).isSome) (ha : (digitVal a).isSome) (hb : (digitVal b).isSome) :
      AmountForm (d :: (r ++ [',', a, b]))

/-- An amount with optional minus sign. -/
def SumForm (s : Str) : Prop := AmountForm s ∨ ∃ t, s = '-' :: t ∧ AmountForm t

/-- The number written with the given decimal digits, most significant first. -/
def decNum (l : List Nat) : Nat := l.foldl (fun a d => 10 * a + d) 0

/-- The number of cents a sum text denotes: the number formed by all its digits, negated if there is
a minus sign. -/
def amountCents (s : Str) : Int :=
  (if '-' ∈ s then -1 else 1) * (decNum (s.filterMap digitVal) : Int)

/-- The text contains no digit other than 0. -/
def ZeroAmount (s : Str) : Prop := ∀ c ∈ s, ∀ n, digitVal c = some n → n = 0

/-- No white space at either end. -/
def NoOuterSpace (s : Str) : Prop :=
  (∀ c, s.head? = some c → isSpace c = false) ∧ ∀ c, s.getLast? = some c → isSpace c = false

/-- Python's `$` lets one line feed at the end pass: `s` is of form `P` or that plus a line feed. -/
def UpToNewline (P : Str → Prop) (s : Str) : Prop := P s ∨ ∃ t, s = t ++ ['\n'] ∧ P t

end

/-- Canonical unpadded base64url text of some bytes. -/
def CanonicalB64 (s : Str) : Prop := ∃ b : Bytes, s = b64Text true b

/-- A JWS text whose header and payload segments are canonical. -/
def CanonicalJWS (s : Str) : Prop :=
  ∃ h p sig : Str, s = h ++ '.' :: p ++ '.' :: sig ∧ CanonicalB64 h ∧ CanonicalB64 p

/-- The exceptions the parsers document (librksv/receipt.py:311-313, 449-450; the constructor adds
the two certificate ones). -/
inductive ReceiptErr : Err → Prop
  | malformed : ReceiptErr .malformedReceipt
  | unknownAlg : ReceiptErr .unknownAlgorithm
  | algMismatch : ReceiptErr .algorithmMismatch
  | serialInvalid : ReceiptErr .certSerialInvalid
  | provider : ReceiptErr .invalidCertificateProvider

end RKSV
