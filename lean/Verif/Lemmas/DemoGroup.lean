import Verif.Model.CashReg
import Verif.Model.VerifyGroup
import Verif.Lemmas.DemoReceipt
/-
A concrete history made with the cash register, used to show that the hypotheses of the theorems
about groups can be met.
-/
namespace RKSV

namespace Demo

attribute [local instance] env

def aes : Bytes := (List.range 32).map UInt8.ofNat

/-- Serial 31, key `[7, 8]`. -/
def device : Cert := ([0, 31, 1, 7, 8] : Bytes)

def sysOk : SigSystem := .working c!"AT1" c!"1f" ([7, 8] : Bytes)
def sysBroken : SigSystem := .broken c!"AT1" c!"1f"

/-- An order with a single amount. -/
def order (n : Nat) (cents : Int) (sys : SigSystem) (dummy reversal : Bool) : Order where
  receiptId := 'R' :: natDec n
  dateTime := ⟨2020, 1, 2, 3, n, 0⟩
  sumA := ⟨centsToF64 cents, false⟩
  sumB := ⟨.fin 0, false⟩
  sumC := ⟨.fin 0, false⟩
  sumD := ⟨.fin 0, false⟩
  sumE := ⟨.fin 0, true⟩
  sys := sys
  dummy := dummy
  reversal := reversal

/-- A day with a start receipt, sales, a training receipt, a reversal and a signature system that
fails twice. -/
def orders : List Order :=
  [order 1 0 sysOk false false, order 2 1230 sysOk false false, order 3 999 sysOk true false,
   order 4 (-230) sysOk false true, order 5 42 sysBroken false false,
   order 6 10 sysOk false false, order 7 0 sysOk false false, order 8 7 sysBroken false false]

def register : CashRegister := ⟨c!"reg", none, 0, aes, 8⟩

def receipts : List Receipt := ((register.run orders).2).getD []

/-- The exported texts. -/
def texts : List Str := receipts.map fun r => r.toJWS R1

def group : List Bytes := texts.map shrinkReceipt

def fresh : RegState := ⟨none, none, 0, false, none⟩

def ctx : GroupCtx := ⟨.fromCert device, some aes, none⟩

/-- The state after the whole day. -/
def final : RegState := ⟨texts.head?, texts.getLast?, 1059, false, none⟩

def ids : Finset Str := {c!"R1", c!"R2", c!"R3", c!"R4", c!"R5", c!"R6", c!"R7", c!"R8"}

/-- Compare a result with a value. -/
def isOk {α : Type} [DecidableEq α] (r : Res α) (a : α) : Bool :=
  match r with
  | .ok x => decide (x = a)
  | .error _ => false

theorem eq_of_isOk {α : Type} [DecidableEq α] {r : Res α} {a : α} (h : isOk r a = true) :
    r = .ok a := by
  cases r with
  | ok x => simp only [isOk, decide_eq_true_eq] at h; rw [h]
  | error e => cases h

set_option maxRecDepth 100000 in
theorem group_ok : verifyGroup ctx fresh (.unique ∅) group = .ok (final, .unique ids) :=
  eq_of_isOk (by decide +kernel)

/-! A closed system with two registers, verified with a key store. -/

def closedId : Str := c!"U:ATU12345678-K1"
def closedSys : SigSystem := .working AT0 closedId ([7, 8] : Bytes)
def closedStore : KeyStore := KeyStore.putKey [] closedId ([7, 8] : Bytes) none

def firstOrders : List Order := [order 1 0 closedSys false false, order 2 5 closedSys false false]
def firstTexts : List Str :=
  (((register.run firstOrders).2).getD []).map fun r => r.toJWS R1

/-- The second register starts from the start receipt of the first one. -/
def secondOrders : List Order := [order 11 0 closedSys false false, order 12 3 closedSys false true]
def secondRegister : CashRegister := { register with last := firstTexts.head? }
def secondTexts : List Str :=
  (((secondRegister.run secondOrders).2).getD []).map fun r => r.toJWS R1

def ctx1 : GroupCtx := ⟨.fromKeyStore closedStore, some aes, none⟩
def ctx2 : GroupCtx := ⟨.fromKeyStore closedStore, some aes, firstTexts.head?⟩

set_option maxRecDepth 100000 in
theorem first_ok : verifyGroup ctx1 fresh (.sorted none none) (firstTexts.map shrinkReceipt) =
    .ok (⟨firstTexts.head?, firstTexts.getLast?, 5, false, none⟩, .sorted (some c!"R1") (some c!"R2")) :=
  eq_of_isOk (by decide +kernel)

set_option maxRecDepth 100000 in
theorem second_ok : verifyGroup ctx2 fresh (.unique {c!"R1", c!"R2"})
    (secondTexts.map shrinkReceipt) =
    .ok (⟨secondTexts.head?, secondTexts.getLast?, 3, false, none⟩,
      .unique {c!"R1", c!"R2", c!"R11", c!"R12"}) :=
  eq_of_isOk (by decide +kernel)

end Demo

end RKSV
