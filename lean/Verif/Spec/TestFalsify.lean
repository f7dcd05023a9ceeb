import Verif.Spec.TestVerify
import Verif.Spec.Falsify
import Verif.Spec.VerifyGroup
/-
Specification vocabulary for test cases with a falsified receipt.
-/
namespace RKSV

/-- The text of a JSON string. -/
def Json.text? : Json → Option Str
  | .str t => some t
  | _ => none

/-- The elements of a JSON list that is an element of a JSON object. -/
def Json.listAt (key : Str) : Json → List Json
  | .obj d => match Dict.get? d key with
    | some (.arr l) => l
    | _ => []
  | _ => []

/-- The texts of the receipts of a group in a DEP. -/
def groupTexts (g : Json) : List Str := (g.listAt c!"Belege-kompakt").filterMap Json.text?

/-- The texts of the receipts of a DEP. -/
def depTexts (dep : Json) : List Str := (dep.listAt c!"Belege-Gruppe").flatMap groupTexts

/-- The texts of the receipts of the register with number `n`, in whatever DEPs; `l` are the DEPs with their registers. -/
def textsOf (l : List (Nat × Json)) (n : Nat) : List Str := (l.filter fun p => p.1 = n).flatMap fun p => depTexts p.2

/-- The receipt IDs used by instructions; nothing is said about a backend that does not keep them. -/
def usedIds (backend : Used) (instrs : List Instr) : Used :=
  match backend with
  | .unique _ => .unique (instrs.map (·.receiptId)).toFinset
  | .sorted lo hi => .sorted lo hi

section
variable [PyEnv]

/-- The receipts of the register with number `n`, with their texts. -/
def Kept (l : List (Nat × Json)) (n : Nat) (H : List Entry) : Prop :=
  textsOf l n = H.map (·.1) ∧ ∀ y ∈ H, y.Valid

/-- What the receipts of a device are verified with: its certificate, if the DEPs have certificates, or the key store. -/
def deviceVerifier (groups : Bool) (ks : KeyStore) (k : TestKey) : Verifier :=
  if groups then .fromCert k.cert else .fromKeyStore ks

/-- The start receipt of the register before the one with number `n`. -/
def startBeforeText (l : List (Nat × Json)) (n : Nat) : Option Str :=
  if n = 0 then none else (textsOf l (n - 1)).head?

end

end RKSV
