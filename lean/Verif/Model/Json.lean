import Verif.Py.Dict
import Verif.Model.Err
/-
JSON values as Python objects after `json.load`: objects keep their order and have no duplicate
keys (the last of equal keys wins inside the parser, which is not modelled).
-/
namespace RKSV

inductive Json where
  | null
  | bool (b : Bool)
  | int (n : Int)
  /-- A number with fraction or exponent. -/
  | float (x : F64)
  | str (s : Str)
  | arr (l : List Json)
  | obj (d : List (Str × Json))

namespace Json

/-- `isinstance(j, dict)`. -/
def asObj : Json → Option (Dict Json)
  | .obj d => some d
  | _ => none

/-- `isinstance(j, list)`. -/
def asArr : Json → Option (List Json)
  | .arr l => some l
  | _ => none

/-- `isinstance(j, string_types)`. -/
def asStr : Json → Option Str
  | .str s => some s
  | _ => none

theorem asObj_eq_some {j : Json} {d : Dict Json} : j.asObj = some d ↔ j = .obj d := by
  cases j <;> simp [asObj]

theorem asArr_eq_some {j : Json} {d : List Json} : j.asArr = some d ↔ j = .arr d := by
  cases j <;> simp [asArr]

theorem asStr_eq_some {j : Json} {d : Str} : j.asStr = some d ↔ j = .str d := by
  cases j <;> simp [asStr]

end Json

end RKSV
