import Verif.Lemmas.RunTestFull
import Verif.Props.TestLinks
/-
`runTest` with and without `override` elements.
-/
namespace RKSV

section
variable [PyEnv]

/-- Without `override` elements the function does what the smaller model of it does. -/
theorem runTestFull_plain {spec : TestSpec} (h : ∀ i ∈ spec.instrs, i.override = {}) (keys : List TestKey) (closed : Bool)
    (tcSize : Option Nat) : runTestFull spec keys closed tcSize = runTest spec keys closed tcSize := by
  unfold runTestFull runTest
  congr 1; funext _
  congr 1; funext key
  dsimp only
  congr 1; funext reg
  congr 1; funext ks
  have hs : Coherent { fresh := reg } := ⟨by simp [truthy], by simp⟩
  have := steps_plain (x := ⟨spec, closed, keys, key, spec.counterSize tcSize⟩) (l := spec.instrs) hs (fun _ => rfl) h
  rw [show ({ regs := [reg] } : FullState) = TestState.full { fresh := reg } from rfl, this, bind_map]
  congr 1; funext s
  rw [finish_plain]

end

end RKSV
