import Verif.Model.DemoTool
import Verif.Model.ExportText
/-
demo.py: what is printed until the end or an exception.
-/
namespace RKSV

section
variable [PyEnv]

/-- The receipts of a register one by one, until an exception. -/
def CashRegister.stream (reg : CashRegister) : List Order → List (Res Receipt)
  | [] => []
  | o :: os =>
    match reg.receipt o with
    | (reg, .ok r) => .ok r :: CashRegister.stream reg os
    | (_, .error e) => [.error e]

/-- demo.py (demo.py:97-116): what is printed, for at least one receipt.  Each receipt is made when the exporter asks for
it. -/
def demoPrinted (sys : SigSystem) (keyText : Str) (num : Nat) (draws : Nat → Draw) : Printed :=
  match loadB64Key keyText with
  | .error e => ([], some e)
  | .ok key =>
    match CashRegister.make c!"PIGGYBANK-007" none 0 key with
    | .error e => ([], some e)
    | .ok reg =>
      printDEP none [⟨[], [], (reg.stream (demoOrders sys draws num)).map fun r => r.map fun r => r.toJWS c!"R1"⟩]

end

end RKSV
