import Verif.Model.StateTool
import Verif.Model.DepExport
/-
The command line tools that work on lines of text: convert.py, receipt.py, verify_receipt.py and
receipt_host.py.
-/
namespace RKSV

/-- What a text file opened for reading contains: Python reads `\r\n` and `\r` as `\n`. -/
def universalNewlines : Str → Str
  | [] => []
  | '\r' :: '\n' :: s => '\n' :: universalNewlines s
  | c :: s => (if c = '\r' then '\n' else c) :: universalNewlines s

/-- The lines of a text, each with the `\n` at its end; there may be none at the end of the last one. -/
def keepLines : Str → List Str
  | [] => []
  | c :: s =>
    if c = '\n' then ['\n'] :: keepLines s
    else
      match keepLines s with
      | [] => [[c]]
      | l :: ls => (c :: l) :: ls

/-- `for l in sys.stdin`. -/
def fileLines (text : Str) : List Str := keepLines (universalNewlines text)

/-- The first line of a CSV file (librksv/depexport.py:252). -/
def csvHeader : Str :=
  c!"Alg+ZDA;Register ID;Receipt ID;Date+Time;Sum A;Sum B;Sum C;Sum D;Sum E;Turnover Counter;Cert. Serial;Chaining Value;Signature"

/-- `OUTPUT_FORMATS` (receipt.py:40-46). -/
inductive OutFormat where
  | jws | qr | ocr | url | csv

section
variable [PyEnv]

/-- `CSVExporter.export` (librksv/depexport.py:251-256) with all strings concatenated. -/
def exportCSV (gs : List (SGroup (Receipt × Str))) : Res Str := do
  let rows ← mapRes (fun r : Receipt × Str => r.1.toCSV r.2) (gs.flatMap (·.recs))
  .ok (csvHeader ++ rows.flatMap ('\n' :: ·))

/-- `convert.py json2csv` (convert.py:44-49, 57-59): what is printed for a DEP on standard input, whose JSON text
is not modelled.  After an exception the output is incomplete; it is not modelled which of several exceptions is
raised first. -/
def json2csv (chunksize : Nat) (doc : Json) : Res Str := do
  let gs ← adaptStream (certlessParse doc chunksize)
  let text ← exportCSV gs
  .ok (text ++ ['\n'])

/-- `convert.py csv2json` (convert.py:50-53, 57-59): the DEP that is printed for this text on standard input.
`none` is `StopIteration`, raised for an empty input.  After an exception the output is incomplete. -/
def csv2json (text : Str) : Option (Res Json) :=
  match fileLines text with
  | [] => none
  | _ :: lines => some do
    let recs ← mapRes (fun l => fromCSV (pyStrip l)) lines
    .ok (exportDEP [⟨recs, none, []⟩] [])

/-- `OUTPUT_FORMATS` (receipt.py:40-46). -/
def OutFormat.write (f : OutFormat) (r : Receipt) (alg : Str) : Res Str :=
  match f with
  | .jws => .ok (r.toJWS alg)
  | .qr => r.toBasic alg
  | .ocr => r.toOCR alg
  | .url => r.toURLHash alg
  | .csv => r.toCSV alg

/-- The loop of receipt.py (receipt.py:61-64): what is printed, and the exception that ended the program, if any.
The input format `url`, which needs a server, is left out. -/
def convertLines (v : PyVersion) (i : InFormat) (o : OutFormat) : List Str → Str × Option Err
  | [] => ([], none)
  | l :: ls =>
    match i.read v l >>= fun r => o.write r.1 r.2 with
    | .error e => ([], some e)
    | .ok s => (s ++ '\n' :: (convertLines v i o ls).1, (convertLines v i o ls).2)

/-- receipt.py (receipt.py:48-64) for the text on standard input. -/
def receiptTool (v : PyVersion) (i : InFormat) (o : OutFormat) (text : Str) : Str × Option Err :=
  convertLines v i o (fileLines text)

/-- `INPUT_FORMATS` (verify_receipt.py:46-53): the function that verifies one line.  The format `url` is
`getAndVerifyURL`. -/
def InFormat.verify (v : PyVersion) (rv : Verifier) : InFormat → Str → Res (Receipt × Str)
  | .jws => rv.verifyJWS
  | .qr => rv.verifyBasic
  | .ocr => rv.verifyOCR v
  | .csv => rv.verifyCSV

omit [PyEnv] in
/-- The subclasses of `ReceiptException` among the exceptions that verifying a receipt can raise
(librksv/receipt.py:62-111, librksv/verify_receipt.py:34-100). -/
def isReceiptException : Err → Bool
  | .malformedReceipt | .unknownAlgorithm | .algorithmMismatch | .certSerialInvalid | .invalidCertificateProvider
  | .certSerialMismatch | .noPublicKey | .invalidSignature | .signatureSystemFailed | .invalidURLHash
  | .unsignedNullReceipt => true
  | _ => false

/-- What verify_receipt.py prints: the failures, each with the number of its line, and at the end the number of
successes and of lines.  The last line is missing if the program was ended by an exception. -/
structure Report where
  failures : List (Nat × Err)
  summary : Res (Nat × Nat)

/-- The loop of verify_receipt.py (verify_receipt.py:75-85) with `idx` and `fails`. -/
def verifyLines (ver : Str → Res (Receipt × Str)) : Nat → Nat → List Str → Report
  | idx, fails, [] => ⟨[], .ok (idx - fails, idx)⟩
  | idx, fails, l :: ls =>
    match ver (pyStrip l) with
    | .ok _ => verifyLines ver (idx + 1) fails ls
    | .error e =>
      if isReceiptException e then
        let r := verifyLines ver (idx + 1) (fails + 1) ls
        ⟨(idx, e) :: r.failures, r.summary⟩
      else ⟨[], .error e⟩

/-- verify_receipt.py (verify_receipt.py:55-85) with a key store, for the text on standard input or, without
that, the receipt on the command line. -/
def verifyReceiptTool (v : PyVersion) (ks : KeyStore) (f : InFormat) (arg : Option Str) (text : Str) : Report :=
  verifyLines (f.verify v (.fromKeyStore ks)) 0 0 (match arg with | some s => [s] | none => fileLines text)

/-! ### receipt_host.py -/

/-- `receipts[rec.toURLHash(pre)] = rec.toBasicCode(pre)` (receipt_host.py:65, 69). -/
def hostReceipt (d : Dict Str) (t : Str) : Res (Dict Str) := do
  let (r, alg) ← fromJWS t
  let hash ← r.toURLHash alg
  let code ← r.toBasic alg
  .ok (d.set hash code)

/-- The same for several receipts. -/
def hostReceipts (d : Dict Str) : List Str → Res (Dict Str)
  | [] => .ok d
  | t :: ts => do
    let d ← hostReceipt d t
    hostReceipts d ts

/-- `receipt_host.py jws` (receipt_host.py:66-69): the receipts served for the text on standard input. -/
def hostLines (text : Str) : Res (Dict Str) := hostReceipts [] ((fileLines text).map pyStrip)

/-- `receipt_host.py dep` (receipt_host.py:57-65): the receipts served for a DEP. -/
def hostDEP (chunksize : Nat) (doc : Json) : Res (Dict Str) := do
  let s := certlessParse doc chunksize
  let ts ← mapRes expandReceipt (s.chunks.flatten.flatMap (·.recs))
  let d ← hostReceipts [] ts
  match s.err with
  | some e => .error e
  | none => .ok d

/-- `getAndVerifyReceiptURL` (librksv/url_receipt_helpers.py:54-58).  `get` is what the server returns for the
URL; its failures are not exceptions of this library (`none`). -/
def getAndVerifyURL (get : Str → Option Str) (rv : Verifier) (url : Str) : Option (Res Unit) :=
  (get url).map fun code => do
    let (r, _) ← rv.verifyBasic code
    verifyURLHash r (getURLHashFromURL url)

/-! ### cert_extract.py -/

/-- The certificate files written for a group (cert_extract.py:47-57): their names without `.crt`, and contents. -/
def certFiles (g : DepGroup) : List (Str × Str) :=
  (g.chain ++ g.cert.toList).map fun c => (numSerialToKeyId (serial c), addPEMCertHeaders (exportCertToPEM c))

/-- cert_extract.py (cert_extract.py:36-60): the files in the directory afterwards, if it was empty, and the
exception that ended the program, if any. -/
def certExtract (chunksize : Nat) (doc : Json) : Dict Str × Option Err :=
  let s := certlessParse doc chunksize
  (Dict.update [] (s.chunks.flatten.flatMap certFiles), s.err)

end

end RKSV
