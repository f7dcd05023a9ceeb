import Verif.Spec.Receipt
import Verif.Lemmas.Demo
/-
Concrete receipts in the concrete environment, used to show that the hypotheses of the property
theorems can be met.
-/
namespace RKSV

namespace Demo

attribute [local instance] env

/-- Fields of a receipt with zero turnover. -/
def fields : Fields where
  zda := c!"AT1"
  registerId := c!"reg"
  receiptId := c!"rec 1"
  dateTimeStr := c!"2020-01-02T03:04:05"
  sumAStr := c!"0,00"
  sumBStr := c!"0,00"
  sumCStr := c!"0,00"
  sumDStr := c!"0,00"
  sumEStr := c!"-0,00"
  encTurnoverCounter := c!"AAAAAAA="
  certSerial := c!"1f-k"
  previousChain := c!"AAAAAAAAAAA="

/-- A signed receipt with these fields. -/
def receipt : Receipt :=
  { fields with
    dateTime := ⟨2020, 1, 2, 3, 4, 5⟩
    sumA := .fin 0, sumB := .fin 0, sumC := .fin 0, sumD := .fin 0, sumE := .fin 0
    header := jwsHeader
    signature := c!"AQID" }

/-- Its QR code text. -/
def code : Str :=
  c!"_R1-AT1_reg_rec 1_2020-01-02T03:04:05_0,00_0,00_0,00_0,00_-0,00_AAAAAAA=_1f-k_AAAAAAAAAAA=_AQID"

theorem receipt_basic : fromBasic code = .ok (receipt, R1) := by decide +kernel

theorem receipt_parsed : Parsed receipt R1 := .basic code receipt_basic

end Demo

end RKSV
