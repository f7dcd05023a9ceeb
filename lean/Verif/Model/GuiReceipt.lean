import Verif.Model.GuiRun
/-
rktool.py: the tab for single receipts, and the window that shows a receipt, as a machine that reacts to events.
-/
namespace RKSV

/-- The input formats of the tab (rktool.py:533-551, rktool.kv:193-214). -/
inductive ViewFormat where
  | jws
  | qr
  | ocr
  | url
deriving DecidableEq

/-- The text on the button of the window that verifies the receipt (rktool.py:289-296, 346, 356, 362, rktool.kv:142-145). -/
inductive ViewButton where
  | verify
  | verifying
  | valid
  | noSignature
deriving DecidableEq, Repr

/-- What is displayed as turnover counter (rktool.py:315-323): a text, or a number of cents.  The number is displayed
as a decimal fraction of Euros, which is not modelled. -/
inductive CounterRow where
  | text (s : Str)
  | amount (cents : Int)
deriving DecidableEq, Repr

section
variable [PyEnv]

/-- The receipt the tab is asked to show (rktool.py:533-549).  `get` is what the server returns for a URL; `none` stands
for the exceptions of the library used for this (`RequestException`).  An answer of another form than the one expected,
which is a `ValueError` or `KeyError`, is not modelled. -/
def readView (v : PyVersion) (get : Str → Option Str) (f : ViewFormat) (text : Str) : Option (Res (Receipt × Str)) :=
  match f with
  | .jws => some (fromJWS text)
  | .qr => some (fromBasic text)
  | .ocr => some (fromOCR v text)
  | .url => (get text).map fun code => do
    let (r, alg) ← fromBasic code
    ensure (knownAlg alg) .unknownAlgorithm
    verifyURLHash r (getURLHashFromURL text)
    .ok (r, alg)

omit [PyEnv] in
/-- The turnover counter without a key (rktool.py:315-319). -/
def plainCounter (r : Receipt) : CounterRow :=
  if r.isDummy then .text c!"TRA" else if r.isReversal then .text c!"STO" else .text r.encTurnoverCounter

/-- The turnover counter with a key (rktool.py:315-323). -/
def viewCounter (r : Receipt) (alg : Str) (key : Bytes) : Res CounterRow :=
  if r.isDummy then .ok (.text c!"TRA")
  else if r.isReversal then .ok (.text c!"STO")
  else if key ≠ [] ∧ knownAlg alg then do
    let n ← r.decryptTurnoverCounter key
    .ok (.amount n)
  else .ok (.text r.encTurnoverCounter)

/-- The fields of `ViewReceiptWidget` (rktool.py:256-274), its two buttons and its text field, the rows for turnover
counter and signature (`none`: "Signature system broken"), the key store of the application, its tasks in the pool
(each given by the key store it was given), the results that wait for the main thread (`none`: no exception), and the
errors displayed so far, the latest first.  The other rows are the other fields of the receipt. -/
structure ReceiptView where
  rcpt : Receipt
  alg : Str
  key : Option Bytes
  keyText : Str
  button : ViewButton
  enabled : Bool
  decryptEnabled : Bool
  counter : CounterRow
  signature : Option Str
  store : KeyStore
  jobs : List KeyStore
  queue : List (Option Err)
  shown : List Err

/-- `ViewReceiptWidget.__init__` (rktool.py:266-305, 325-327).  The error about an unsigned receipt without turnover is
taken to be displayed at once. -/
def ReceiptView.init (store : KeyStore) (r : Receipt) (alg : Str) (isValid : Bool) : ReceiptView where
  rcpt := r
  alg := alg
  key := none
  keyText := []
  button := if r.isSignedBroken then .noSignature else if isValid then .valid else .verify
  enabled := !(isValid || r.isSignedBroken)
  decryptEnabled := !(r.isDummy || r.isReversal)
  counter := plainCounter r
  signature := if r.isSignedBroken then none else some r.signature
  store := store
  jobs := []
  queue := []
  shown := if r.isSignedBroken ∧ ¬r.isDummy ∧ ¬r.isReversal ∧ r.isNull then [.unsignedNullReceipt] else []

/-- What happens when a receipt is to be shown: a window is opened, an error is displayed (`none`: that of the request
to the server), or the application ends. -/
inductive ViewResult where
  | window (s : ReceiptView)
  | message (e : Option Err)
  | ends

/-- `VerifyReceiptWidget.viewReceipt` (rktool.py:529-559). -/
def viewReceipt (v : PyVersion) (get : Str → Option Str) (store : KeyStore) (f : ViewFormat) (text : Str) : ViewResult :=
  match readView v get f text with
  | none => .message none
  | some (.error e) => if isReceiptException e then .message (some e) else .ends
  | some (.ok (r, alg)) => .window (.init store r alg false)

/-- `setKey` (rktool.py:401-419); `none`: the application ends.  A key that passed `raiseForKey` is not empty. -/
def ReceiptView.setKey (s : ReceiptView) : Option Str → Option ReceiptView
  | none => some { s with key := none }
  | some text =>
    match (do
      let k ← loadB64Key text
      ensure (knownAlg s.alg) .unknownAlgorithm
      raiseForKey k
      .ok k : Res Bytes) with
    | .error e => some { s with key := none, keyText := [], shown := e :: s.shown }
    | .ok k =>
      match viewCounter s.rcpt s.alg k with
      | .error _ => none
      | .ok c => some { s with key := some k, keyText := text, decryptEnabled := false, counter := c }

omit [PyEnv] in
/-- The exceptions caught when a file with a key is read (rktool.py:393-396). -/
def keyFileCaught (e : Err) : Bool :=
  match e with
  | .valueError | .unicodeError | .keyError => true
  | _ => false

/-- `verifyCb` (rktool.py:353-364). -/
def ReceiptView.verifyCb (s : ReceiptView) : Option Err → ReceiptView
  | some e => { s with button := .verify, enabled := true, shown := e :: s.shown }
  | none => { s with button := .valid, enabled := false }

/-- What can happen while the window is open: the button that verifies is pressed; the text field is changed; the button
that decrypts is pressed and, if the text field is empty, a file is chosen in a dialog (the key in it, or the exception
raised when it was read; an `IOError` is written as `valueError`); a task is done; its callback is called.  The window
covers the rest of the application, so the pool is not killed; but the key store may be replaced. -/
inductive ViewEvent where
  | verify
  | typed (text : Str)
  | decrypt (file : Res Str)
  | setStore (ks : KeyStore)
  | done (i : Nat)
  | tick (i : Nat)

/-- The reaction to an event (rktool.py:345-399) and `verifyReceiptTask` (rktool.py:248-254); `none` if it cannot happen,
or if the application ends. -/
def ReceiptView.step (s : ReceiptView) : ViewEvent → Option ReceiptView
  | .verify =>
    if s.enabled then some { s with button := .verifying, enabled := false, jobs := s.jobs ++ [s.store] } else none
  | .typed text => some { s with keyText := text }
  | .decrypt file =>
    if s.decryptEnabled then
      if s.keyText ≠ [] then s.setKey (some s.keyText)
      else
        match file with
        | .ok text => s.setKey (some text)
        | .error e => if keyFileCaught e then { s with shown := e :: s.shown }.setKey none else none
    else none
  | .setStore ks => some { s with store := ks }
  | .done i =>
    match s.jobs[i]? with
    | none => none
    | some ks =>
      match (Verifier.fromKeyStore ks).verify s.rcpt s.alg with
      | .ok _ => some { s with jobs := s.jobs.eraseIdx i, queue := s.queue ++ [none] }
      | .error e =>
        if isReceiptException e then some { s with jobs := s.jobs.eraseIdx i, queue := s.queue ++ [some e] }
        else some { s with jobs := s.jobs.eraseIdx i }
  | .tick i =>
    match s.queue[i]? with
    | none => none
    | some r => some ({ s with queue := s.queue.eraseIdx i }.verifyCb r)

/-- The reaction to several events. -/
def ReceiptView.run (s : ReceiptView) : List ViewEvent → Option ReceiptView
  | [] => some s
  | e :: es => (s.step e).bind fun s => s.run es

end

end RKSV
