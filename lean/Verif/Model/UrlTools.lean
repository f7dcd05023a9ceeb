import Verif.Model.LineTools
/-
receipt.py and verify_receipt.py with the input format `url`: every line is the URL of a receipt, which is fetched
from a server.
-/
namespace RKSV

/-- How a program that fetches receipts was ended: by an exception of the request (no connection, a status that is
not successful, an answer that is not JSON or has no `code`; librksv/url_receipt_helpers.py:30-32) or by another
exception. -/
inductive UrlEnd where
  | request
  | other (e : Err)
deriving DecidableEq

/-- What verify_receipt.py prints, see `Report`. -/
structure UrlReport where
  failures : List (Nat × Err)
  summary : Except UrlEnd (Nat × Nat)

section
variable [PyEnv]

/-- The loop of receipt.py (receipt.py:61-64) with the input format `url` (receipt.py:35-36): what is printed, and
what ended the program, if anything.  `get` is what the server returns for an URL, `none` if the request fails
(`getBasicCodeFromURL`, librksv/url_receipt_helpers.py:23-32); a server that gives different answers to the same
request is left out, and so is an answer whose `code` is not a string. -/
def convertUrls (get : Str → Option Str) (o : OutFormat) : List Str → Str × Option UrlEnd
  | [] => ([], none)
  | l :: ls =>
    match get (pyStrip l) with
    | none => ([], some .request)
    | some code =>
      match fromBasic code >>= fun r => o.write r.1 r.2 with
      | .error e => ([], some (.other e))
      | .ok s => (s ++ '\n' :: (convertUrls get o ls).1, (convertUrls get o ls).2)

/-- `receipt.py url` (receipt.py:48-64) for the text on standard input. -/
def receiptUrlTool (get : Str → Option Str) (o : OutFormat) (text : Str) : Str × Option UrlEnd :=
  convertUrls get o (fileLines text)

/-- The loop of verify_receipt.py (verify_receipt.py:75-85) with the input format `url` (verify_receipt.py:50-51),
`idx` and `fails`. -/
def verifyUrls (get : Str → Option Str) (rv : Verifier) : Nat → Nat → List Str → UrlReport
  | idx, fails, [] => ⟨[], .ok (idx - fails, idx)⟩
  | idx, fails, l :: ls =>
    match getAndVerifyURL get rv (pyStrip l) with
    | none => ⟨[], .error .request⟩
    | some (.ok _) => verifyUrls get rv (idx + 1) fails ls
    | some (.error e) =>
      if isReceiptException e then
        let r := verifyUrls get rv (idx + 1) (fails + 1) ls
        ⟨(idx, e) :: r.failures, r.summary⟩
      else ⟨[], .error (.other e)⟩

/-- `verify_receipt.py url` (verify_receipt.py:55-85) with a key store, for the text on standard input or, without
that, the URL on the command line. -/
def verifyUrlTool (get : Str → Option Str) (ks : KeyStore) (arg : Option Str) (text : Str) : UrlReport :=
  verifyUrls get (.fromKeyStore ks) 0 0 (match arg with | some s => [s] | none => fileLines text)

end

end RKSV
