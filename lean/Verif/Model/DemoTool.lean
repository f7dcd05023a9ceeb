import Verif.Model.CashReg
import Verif.Model.DepExport
import Verif.Model.KeyTool
/-
demo.py: a DEP with random receipts.
-/
namespace RKSV

/-- `"%05d" % n` for a natural number. -/
def pad5 (n : Nat) : Str := List.replicate (5 - (natDec n).length) '0' ++ natDec n

section
variable [PyEnv]

/-- What `random` and `datetime.now` return for a receipt (demo.py:54-61), and the randomness of its signature.
`now` is cut to seconds, which is all that gets into the receipt. -/
structure Draw where
  now : DateTime
  sumA : PyFloat
  sumB : PyFloat
  sumC : PyFloat
  sumD : PyFloat
  sumE : PyFloat
  dummy : Bool
  reversal : Bool
  rand : Nat

/-- The first receipt (demo.py:47-49). -/
def demoStart (sys : SigSystem) (d : Draw) : Order where
  receiptId := c!"00000"
  dateTime := d.now
  sumA := ⟨.fin 0, false⟩
  sumB := ⟨.fin 0, false⟩
  sumC := ⟨.fin 0, false⟩
  sumD := ⟨.fin 0, false⟩
  sumE := ⟨.fin 0, false⟩
  sys := sys
  rand := d.rand

/-- The receipt with number `i` (demo.py:52-62). -/
def demoOrder (sys : SigSystem) (draws : Nat → Draw) (i : Nat) : Order where
  receiptId := pad5 i
  dateTime := (draws i).now
  sumA := (draws i).sumA
  sumB := (draws i).sumB
  sumC := (draws i).sumC
  sumD := (draws i).sumD
  sumE := (draws i).sumE
  sys := sys
  dummy := (draws i).dummy
  reversal := (draws i).reversal
  rand := (draws i).rand

/-- `receiptGen` (demo.py:45-62): the calls of `register.receipt`. -/
def demoOrders (sys : SigSystem) (draws : Nat → Draw) (num : Nat) : List Order :=
  demoStart sys (draws 0) :: (List.range' 1 (num - 1)).map (demoOrder sys draws)

/-- How demo.py ends. -/
inductive DemoOut where
  | tooFew
  | raised
  | printed (dep : Json)

/-- demo.py (demo.py:97-116) from where the signature system is known; the signature system with a remote service
(demo.py:72-76) is not modelled.  `keyText` is the content of the AES key file. -/
def demo (sys : SigSystem) (keyText : Str) (num : Int) (draws : Nat → Draw) : DemoOut :=
  if num < 1 then .tooFew
  else
    match loadB64Key keyText with
    | .error _ => .raised
    | .ok key =>
      match CashRegister.make c!"PIGGYBANK-007" none 0 key with
      | .error _ => .raised
      | .ok reg =>
        match reg.run (demoOrders sys draws num.toNat) with
        | (_, none) => .raised
        | (_, some rs) => .printed (exportDEP [⟨rs.map fun r => (r, c!"R1"), none, []⟩] [])

/-- The signature system for a certificate (demo.py:80-88). -/
def demoOpen (cert : Cert) (priv : PrivKey) : SigSystem := .working c!"AT77" (natHex (serial cert).natAbs) priv

/-- The signature system for a key (demo.py:90-96). -/
def demoClosed (keyId : Str) (priv : PrivKey) : SigSystem := .working c!"AT0" keyId priv

end

end RKSV
