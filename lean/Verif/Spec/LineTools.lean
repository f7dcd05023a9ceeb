import Verif.Model.LineTools
import Verif.Spec.DepParser
import Verif.Spec.DepExport
import Verif.Spec.VerifyReceipt
/-
Specification vocabulary for the tools that work on lines of text.
-/
namespace RKSV

/-- The text has no line break in it. -/
def OneLine (s : Str) : Prop := '\n' ∉ s ∧ '\r' ∉ s

/-- A text file with these lines. -/
def textFile (ls : List Str) : Str := ls.flatMap (· ++ ['\n'])

/-- The same file with the line ends of another system. -/
def windowsFile (ls : List Str) : Str := ls.flatMap (· ++ ['\r', '\n'])

section
variable [PyEnv]

/-- The texts of the fields of a receipt. -/
def Receipt.texts (r : Receipt) : List Str :=
  [r.zda, r.registerId, r.receiptId, r.dateTimeStr, r.sumAStr, r.sumBStr, r.sumCStr, r.sumDStr, r.sumEStr,
    r.encTurnoverCounter, r.certSerial, r.previousChain]

/-- The receipt can be written as a line of a CSV file: no semicolons in the IDs, and no line breaks or outer
white space in any field. -/
structure CsvPlain (r : Receipt) : Prop where
  registerId : ';' ∉ r.registerId
  receiptId : ';' ∉ r.receiptId
  outer : ∀ s ∈ r.texts, NoOuterSpace s
  line : ∀ s ∈ r.texts, OneLine s

/-- All receipts of a DEP in order. -/
def depReceipts (gs : List DepGroup) : List Bytes := gs.flatMap (·.recs)

/-- Both store the same receipt, the second one with the usual text for the signature. -/
def SameUpToSignature (b b' : Bytes) : Prop :=
  ∃ r alg sig, ReadsAs b r alg ∧ b64Decode true (restorePad r.signature) = some sig ∧
    ReadsAs b' { r with signature := b64Text true sig } alg

/-- The text, without white space around it, is a receipt in this format. -/
inductive LineReads (v : PyVersion) : InFormat → Str → Receipt → Str → Prop
  | jws {l : Str} {r : Receipt} {alg : Str} (h : fromJWS (pyStrip l) = .ok (r, alg)) : LineReads v .jws l r alg
  | qr {l : Str} {r : Receipt} {alg : Str} (h : fromBasic (pyStrip l) = .ok (r, alg)) : LineReads v .qr l r alg
  | ocr {l : Str} {r : Receipt} {alg : Str} (h : fromOCR v (pyStrip l) = .ok (r, alg)) : LineReads v .ocr l r alg
  | csv {l : Str} {r : Receipt} {alg : Str} (h : fromCSV (pyStrip l) = .ok (r, alg)) : LineReads v .csv l r alg

/-- The text is a receipt with a valid signature under a key from the key store. -/
def Genuine (v : PyVersion) (ks : KeyStore) (f : InFormat) (l : Str) : Prop :=
  ∃ r alg, LineReads v f l r alg ∧ r.signature ≠ failureMark ∧
    ∃ k, KeyFor (.fromKeyStore ks) r k ∧ SignatureValid r k

/-- This receipt can be reached under this hash, as the text `code`. -/
def HashOf (r : Receipt) (alg hash code : Str) : Prop :=
  r.toBasic alg = .ok code ∧ r.toURLHash alg = .ok hash

/-- A receipt whose text in format `o` is a line that reads back, in the input format `i`, as the same receipt. -/
inductive Survives (v : PyVersion) (r : Receipt) : InFormat → OutFormat → Prop
  | jws : Survives v r .jws .jws
  | qr (hl : ∀ s ∈ r.texts, OneLine s) : Survives v r .qr .qr
  | csv (h : CsvPlain r) : Survives v r .csv .csv
  | ocr (hv : v = .py2) (hl : ∀ s ∈ r.texts, OneLine s) (tc cv : Bytes) (hne : tc ≠ [])
      (ht : r.encTurnoverCounter = b64Encode false tc) (hc : r.previousChain = b64Encode false cv) :
      Survives v r .ocr .ocr

/-- The certificates of the groups that have receipts, in the order they are written to files. -/
def groupCerts (gs : List DepGroup) : List Cert :=
  (gs.filter fun g => g.recs ≠ []).flatMap fun g => g.chain ++ g.cert.toList

/-- The name of the file for a certificate: its serial number in hexadecimal without sign. -/
def certName (c : Cert) : Str := natHex (serial c).natAbs

end

end RKSV
