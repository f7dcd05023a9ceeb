import Verif.Spec.RunTest
/-
Specification vocabulary for the elements `runTest` adds to the DEPs.
-/
namespace RKSV

/-- The registers of the DEPs after the one that is being written. -/
def depRegistersOf : Nat → Nat → List Instr → List Nat
  | _, _, [] => []
  | n, c, i :: l =>
    if i.newDep = c!"NO_NEW_DEP" then depRegistersOf n c l
    else if i.newDep = c!"NEW_CLUSTER_DEP" then n :: depRegistersOf (n + 1) n l
    else i.contReg.getD c :: depRegistersOf n (i.contReg.getD c) l

/-- The register each DEP is for. -/
def depRegisters : List Instr → List Nat
  | [] => []
  | _ :: l => 0 :: depRegistersOf 1 0 l

/-- The instructions for the DEPs, if those in `cur` are for the one that is being written. -/
def segmentsFrom (cur : List Instr) : List Instr → List (List Instr)
  | [] => [cur]
  | i :: l => if i.newDep = c!"NO_NEW_DEP" then segmentsFrom (cur ++ [i]) l else cur :: segmentsFrom [i] l

/-- The instructions for each DEP. -/
def depInstrs : List Instr → List (List Instr)
  | [] => []
  | i :: l => segmentsFrom [i] l

/-- A new register is started only after a DEP of the register before it. -/
def StartedInTurn (regs : List Nat) : Prop :=
  ∀ k r, regs[k + 1]? = some r → (∀ q, q ≤ k → regs[q]? ≠ some r) → regs[k]? = some (r - 1)

section
variable [PyEnv]

/-- The DEP with number `k` of registers `regs` starts a register and says so: it refers to the DEP with the start receipt of
the register before. -/
def RefersToStart (regs : List Nat) (k r : Nat) (d : Dict Json) : Prop :=
  Dict.get? d c!"Fortgesetztes-DEP" = none ∧
  (k = 0 → Dict.get? d c!"Vorheriges-DEP" = none) ∧
  (k ≠ 0 → ∃ p : Nat, p < k ∧ Dict.get? d c!"Vorheriges-DEP" = some (.int p) ∧ regs[p]? = some (r - 1) ∧
    ∀ q, q < p → regs[q]? ≠ some (r - 1))

/-- The DEP with number `k` refers to the last DEP of the register `r` before it. -/
def RefersToLast (regs : List Nat) (k r : Nat) (d : Dict Json) : Prop :=
  ∃ p : Nat, p < k ∧ Dict.get? d c!"Vorheriges-DEP" = some (.int p) ∧ regs[p]? = some r ∧
    ∀ q, p < q → q < k → regs[q]? ≠ some r

/-- The DEP has the turnover that was asked for with its last instruction. -/
def HasTurnover (seg : List Instr) (d : Dict Json) : Prop :=
  ∃ i, seg.getLast? = some i ∧
    ((∃ x, i.turnover = some x ∧ x ≠ .fin 0 ∧ Dict.get? d c!"Umsatz-gesamt" = some (.float x)) ∨
     ((i.turnover = none ∨ i.turnover = some (.fin 0)) ∧ Dict.get? d c!"Umsatz-gesamt" = none))

end

end RKSV
