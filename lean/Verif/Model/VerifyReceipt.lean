import Verif.Model.KeyStore
/-
librksv/verify_receipt.py.
-/
namespace RKSV

section
variable [PyEnv]

/-- `R1.verify` (librksv/algorithms.py:188-197): `PyJWS.decode` splits the text, decodes the three
segments, picks the algorithm named in the header and checks the signature over the first two
segments; an empty payload counts as failure.  Texts with another header or of another shape are
left to `foreignJws`: no receipt returned by a parser has such a JWS text. -/
def jwsVerify (jws : Str) (key : PubKey) : Bool :=
  match splitOn '.' jws with
  | [h, p, s] =>
    match decodeSeg h, b64Decode true (restorePad p), b64Decode true (restorePad s) with
    | some header, some payload, some sig =>
      if header = jwsHeader then
        !payload.isEmpty && verifySig key (utf8Enc (h ++ '.' :: p)) sig
      else foreignJws jws key
    | _, _, _ => foreignJws jws key
  | _ => foreignJws jws key

/-- `ReceiptVerifier` (librksv/verify_receipt.py:186-219). -/
structure Verifier where
  keyStore : Option KeyStore
  cert : Option Cert

/-- `ReceiptVerifier.fromCert`, `fromKeyStore` (librksv/verify_receipt.py:203-219). -/
def Verifier.fromCert (c : Cert) : Verifier := ⟨none, some c⟩
def Verifier.fromKeyStore (ks : KeyStore) : Verifier := ⟨some ks, none⟩

/-- The first key found (librksv/verify_receipt.py:239-242). -/
def firstKey (ks : KeyStore) : List Str → Option PubKey
  | [] => none
  | s :: r =>
    match ks.getKey s with
    | some k => some k
    | none => firstKey ks r

/-- Selection of the public key (librksv/verify_receipt.py:226-242). -/
def Verifier.selectKey (v : Verifier) (r : Receipt) : Res (Option PubKey) :=
  if r.zda = AT0 then
    match v.cert with
    | some c => .ok (some (publicKey c))
    | none =>
      match v.keyStore with
      | some ks => .ok (ks.getKey r.certSerial)
      | none => .error .attributeError
  else do
    let serials ← strSerialToKeyIds r.certSerial
    match v.cert with
    | some c => do
      ensure (numSerialToKeyId (serial c) ∈ serials) .certSerialMismatch
      .ok (some (publicKey c))
    | none =>
      match v.keyStore with
      | some ks => .ok (firstKey ks serials)
      -- the loop body is not entered without serials
      | none => if serials = [] then .ok none else .error .attributeError

/-- `ReceiptVerifier.verify` (librksv/verify_receipt.py:221-257).  The algorithm object returned is
determined by its ID. -/
def Verifier.verify (v : Verifier) (r : Receipt) (alg : Str) : Res (Receipt × Str) := do
  ensure (knownAlg alg) .unknownAlgorithm
  let pubKey ← v.selectKey r
  if r.isSignedBroken then
    if ¬r.isDummy ∧ ¬r.isReversal ∧ r.isNull then .error .unsignedNullReceipt
    else .error .signatureSystemFailed
  else do
    let k ← orErr pubKey .noPublicKey
    ensure (jwsVerify (r.toJWS alg) k) .invalidSignature
    .ok (r, alg)

/-- `verifyJWS` (librksv/verify_receipt.py:259-262). -/
def Verifier.verifyJWS (v : Verifier) (s : Str) : Res (Receipt × Str) := do
  let (r, alg) ← fromJWS s
  v.verify r alg

/-- `verifyBasicCode` (librksv/verify_receipt.py:264-267). -/
def Verifier.verifyBasic (v : Verifier) (s : Str) : Res (Receipt × Str) := do
  let (r, alg) ← fromBasic s
  v.verify r alg

/-- `verifyOCRCode` (librksv/verify_receipt.py:269-272). -/
def Verifier.verifyOCR (v : Verifier) (py : PyVersion) (s : Str) : Res (Receipt × Str) := do
  let (r, alg) ← fromOCR py s
  v.verify r alg

/-- `verifyCSV` (librksv/verify_receipt.py:274-277). -/
def Verifier.verifyCSV (v : Verifier) (s : Str) : Res (Receipt × Str) := do
  let (r, alg) ← fromCSV s
  v.verify r alg

/-- `verifyURLHash` (librksv/verify_receipt.py:279-297) with algorithm R1. -/
def verifyURLHash (r : Receipt) (urlHash : Option Str) : Res Unit := do
  let code ← r.toBasic R1
  let own := removeChar '=' (b64Encode true ((algHash code).take 8))
  ensure (some own = urlHash) .invalidURLHash

end

/-- Character class `[A-Za-z0-9_-]` (librksv/url_receipt_helpers.py:34-35). -/
def isUrlChar (c : Char) : Bool := isB64 true c

/-- `urlHashRegex.findall` (librksv/url_receipt_helpers.py:34-35, 48): because of the look-around
assertions the matches are exactly the maximal runs of URL characters of length 11.  `run` is the
current run, reversed. -/
def hashRuns : Str → Str → List Str
  | run, [] => if run.length = 11 then [run.reverse] else []
  | run, c :: r =>
    if isUrlChar c then hashRuns (c :: run) r
    else if run.length = 11 then run.reverse :: hashRuns [] r
    else hashRuns [] r

/-- `getURLHashFromURL` (librksv/url_receipt_helpers.py:36-52). -/
def getURLHashFromURL (url : Str) : Option Str :=
  match splitOn '#' url with
  | _ :: anchor :: _ => some anchor
  | parts => (hashRuns [] (parts.headD [])).getLast?

end RKSV
