import Verif.Model.RunTestFull
import Verif.Spec.RunTest
/-
Specification vocabulary for the receipts in the DEPs of `runTest`.
-/
namespace RKSV

/-- A receipt made for an instruction: the number of the register, the receipt as it is written into the DEP, and the
signature the device made for it. -/
structure Made where
  reg : Nat
  instr : Instr
  receipt : Receipt
  signature : Str

/-- The algorithm named in the receipt. -/
def Made.algorithm (a : Made) : Str := a.instr.override.algorithmPrefix.getD c!"R1"

/-- What is written into the DEP. -/
def Made.text (a : Made) : Str := a.instr.override.jwsOverride.getD (a.receipt.toJWS a.algorithm)

/-- What the device signed: the usual header and the receipt with everything falsified but the header and the signature. -/
def Made.signed (a : Made) : Str :=
  b64Text true (utf8Enc c!"{\"alg\":\"ES256\"}") ++ '.' :: b64Text true (utf8Enc (a.receipt.toPayload a.algorithm))

/-- The receipts of a register. -/
def ofRegister (made : List Made) (r : Nat) : List Made := made.filter fun a => a.reg = r

/-- The size of the counter in a register that made these receipts. -/
def sizeAfter (size : Nat) : List Made → Nat
  | [] => size
  | a :: l => sizeAfter (a.instr.override.turnoverCounterSize.getD size) l

/-- The counter of a register that made these receipts and counted `cents` for them. -/
def counterAfter (cents : Made → Int) (n : Int) : List Made → Int
  | [] => n
  | a :: l => counterAfter cents (a.instr.override.turnoverCounter.getD (n + cents a)) l

/-- The text a receipt of the register `r` is chained to: the one signed for the receipt before, for the first receipt the
text of the first receipt of the register before, or nothing. -/
def chainText (made : List Made) (r : Nat) : Option Str :=
  match (ofRegister made r).getLast? with
  | some a => some (a.signed ++ '.' :: a.signature)
  | none => if r = 0 then none else (ofRegister made (r - 1)).head?.map (·.text)

/-- The field says what was asked for: the falsified text, if there is one, or what follows from the instruction. -/
def Says (falsified : Option Str) (t : Str) (asked : Str → Prop) : Prop :=
  match falsified with
  | some u => t = u
  | none => asked t

section
variable [PyEnv]

/-- The text is an amount of as many cents as the number stands for. -/
def AmountText (x : PyFloat) (t : Str) : Prop := ∀ c, InCents x c → amountCents t = c

/-- What an instruction adds to the turnover counter: training receipts do not count. -/
def Instr.Adds (i : Instr) (n : Int) : Prop :=
  ∃ a b c d e, InCents i.sumA a ∧ InCents i.sumB b ∧ InCents i.sumC c ∧ InCents i.sumD d ∧
    InCents i.sumE e ∧ |a| + |b| + |c| + |d| + |e| ≤ 2 ^ 49 ∧
    n = if i.kind = some c!"TRAINING_BELEG" then 0 else a + b + c + d + e

/-- The counter field of `a`, which is made after `hist` by the same register, with counters of `size` bytes. -/
def CounterText (key : Bytes) (size : Nat) (hist : List Made) (a : Made) (t : Str) : Prop :=
  if a.instr.kind = some c!"TRAINING_BELEG" then t = b64Encode false (utf8Enc c!"TRA")
  else if a.instr.kind = some c!"STORNO_BELEG" then t = b64Encode false (utf8Enc c!"STO")
  else ∃ b : Bytes, t = b64Encode false b ∧ b.length = sizeAfter size (hist ++ [a]) ∧
    (5 ≤ b.length → ∀ cents : Made → Int, (∀ m ∈ hist ++ [a], m.instr.Adds (cents m)) →
      a.receipt.decryptTurnoverCounter key = .ok (counterAfter cents 0 (hist ++ [a])))

/-- The device the instruction names is shown and made the signature. -/
def DeviceShown (spec : TestSpec) (closed : Bool) (keys : List TestKey) (a : Made) : Prop :=
  ∃ k, keys[a.instr.device]? = some k ∧
    Says a.instr.override.zda a.receipt.zda (· = if closed then c!"AT0" else c!"AT" ++ natDec k.zda) ∧
    Says a.instr.override.certSerial a.receipt.certSerial (· =
      if closed then deviceId spec a.instr.device
      else if spec.decimalSerial then natDec (serial k.cert).natAbs else natHex (serial k.cert).natAbs) ∧
    if a.instr.damaged then a.signature = failureMark
    else ∃ sig, a.signature = b64Text true sig ∧ verifySig (pubOf k.priv) (utf8Enc a.signed) sig = true

/-- The receipt, which is made after `before`, is the one the instruction asks for. -/
structure Made.Right (spec : TestSpec) (closed : Bool) (keys : List TestKey) (key : Bytes) (size : Nat) (before : List Made)
    (a : Made) : Prop where
  registerId : Says a.instr.override.registerId a.receipt.registerId (· = spec.cashBoxId)
  receiptId : Says a.instr.override.receiptId a.receipt.receiptId (· = a.instr.receiptId)
  date : Says a.instr.override.dateTime a.receipt.dateTimeStr fun t =>
    ∃ d, strptime a.instr.date = some d ∧ (1000 ≤ d.year → strptime t = some d)
  sumA : Says a.instr.override.sumA a.receipt.sumAStr (AmountText a.instr.sumA)
  sumB : Says a.instr.override.sumB a.receipt.sumBStr (AmountText a.instr.sumB)
  sumC : Says a.instr.override.sumC a.receipt.sumCStr (AmountText a.instr.sumC)
  sumD : Says a.instr.override.sumD a.receipt.sumDStr (AmountText a.instr.sumD)
  sumE : Says a.instr.override.sumE a.receipt.sumEStr (AmountText a.instr.sumE)
  counter : Says a.instr.override.encTurnoverCounter a.receipt.encTurnoverCounter
    (CounterText key size (ofRegister before a.reg) a)
  device : DeviceShown spec closed keys a
  chain : Says a.instr.override.previousChain a.receipt.previousChain
    (· = chainValue ((chainText before a.reg).getD a.receipt.registerId))
  header : Says a.instr.override.header a.receipt.header (· = c!"{\"alg\":\"ES256\"}")
  signature : Says a.instr.override.signature a.receipt.signature (· = a.signature)

/-- The receipts for the DEPs, if those in `cur` are for the one that is being written. -/
def partsFrom (cur : List Made) : List Made → List (List Made)
  | [] => [cur]
  | a :: l => if a.instr.newDep = c!"NO_NEW_DEP" then partsFrom (cur ++ [a]) l else cur :: partsFrom [a] l

/-- The receipts for each DEP; there is one even if there are no receipts. -/
def depParts : List Made → List (List Made)
  | [] => [[]]
  | a :: l => partsFrom [a] l

/-- A group of a DEP with these receipts: in a DEP with certificates they are of one device, and its certificates are
there unless they are to be left out. -/
def GroupHolds (spec : TestSpec) (keys : List TestKey) (part : List Made) (g : Json) : Prop :=
  ∃ d cert chain, g = .obj d ∧ Dict.get? d c!"Belege-kompakt" = some (.arr (part.map fun a => .str a.text)) ∧
    Dict.get? d c!"Signaturzertifikat" = some (.str cert) ∧
    Dict.get? d c!"Zertifizierungsstellen" = some (.arr (chain.map .str)) ∧
    ((∃ n k, spec.groups = true ∧ keys[n]? = some k ∧ k.omitSign = false ∧ (∀ a ∈ part, a.instr.device = n) ∧
        cert = exportCertToPEM k.cert ∧ chain = k.chain.map exportCertToPEM) ∨
     (∃ n k, spec.groups = true ∧ keys[n]? = some k ∧ k.omitSign = true ∧ (∀ a ∈ part, a.instr.device = n) ∧
        cert = [] ∧ chain = []) ∨
     (spec.groups = false ∧ cert = [] ∧ chain = []))

/-- A DEP with these receipts: in a DEP with certificates there is a new group whenever the device changes. -/
def DepHolds (spec : TestSpec) (keys : List TestKey) (part : List Made) (dep : Json) : Prop :=
  ∃ d gs parts, dep = .obj d ∧ Dict.get? d c!"Belege-Gruppe" = some (.arr gs) ∧
    List.Forall₂ (GroupHolds spec keys) parts gs ∧ parts.flatten = part ∧
    (spec.groups = false → parts = [part]) ∧
    (spec.groups = true → (∀ p ∈ parts, p ≠ []) ∧
      parts.IsChain fun p q => ∀ a ∈ p, ∀ b ∈ q, a.instr.device ≠ b.instr.device)

end

/-- The size of the counters: the one given to the function, unless there is none or it is zero, or the one specified. -/
def chosenSize (spec : TestSpec) (tcSize : Option Nat) (n : Nat) : Prop :=
  (tcSize = some n ∧ n ≠ 0) ∨ ((tcSize = none ∨ tcSize = some 0) ∧ n = spec.size)

end RKSV
