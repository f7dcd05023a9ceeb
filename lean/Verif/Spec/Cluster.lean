import Verif.Model.State
/-
Specification of register indices in clusters.
-/
namespace RKSV

/-- What is handed to the verification for a register index: the cluster object afterwards, the start
receipt of the previous register, and the state of the register. -/
inductive Info (c : Cluster) : Option Int → Cluster → Option Str → RegState → Prop
  /-- no index, or the one after the last: a new, empty register -/
  | new (idx : Option Int) (h : idx = none ∨ idx = some (c.regs.length : Int))
      (hl : ∀ r, c.regs.getLast? = some r → ∃ t, r.start = some t ∧ t ≠ []) :
      Info c idx { c with regs := c.regs ++ [{}] } (c.regs.getLast?.bind (·.start)) {}
  /-- the first register -/
  | first (r : RegState) (h : c.regs[0]? = some r) : Info c (some 0) c none r
  /-- a later register -/
  | later (i : Nat) (p r : RegState) (hp : c.regs[i]? = some p) (h : c.regs[i + 1]? = some r) :
      Info c (some (i + 1 : Nat)) c p.start r

end RKSV
