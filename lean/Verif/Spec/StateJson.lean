import Verif.Model.State
/-
Specification of the JSON form of verification states: which JSON values describe which state.
-/
namespace RKSV

/-- The object has this element. -/
def Elem (d : Dict Json) (k : Str) (j : Json) : Prop := Dict.get? d k = some j

/-- `null` or a text. -/
inductive OptText : Json → Option Str → Prop
  | null : OptText .null none
  | text (s : Str) : OptText (.str s) (some s)

/-- A whole number; Python counts `true` and `false` as 1 and 0. -/
inductive Whole : Json → Int → Prop
  | int (n : Int) : Whole (.int n) n
  | one : Whole (.bool true) 1
  | zero : Whole (.bool false) 0

/-- The JSON form of a register state. -/
inductive RegJson : Json → RegState → Prop
  | mk (d : Dict Json) (s : RegState) (a b c e : Json)
      (start : Elem d c!"startReceiptJWS" a) (start' : OptText a s.start)
      (last : Elem d c!"lastReceiptJWS" b) (last' : OptText b s.last)
      (counter : Elem d c!"lastTurnoverCounter" c) (counter' : Whole c s.counter)
      (restore : Elem d c!"needRestoreReceipt" (.bool s.needRestore))
      (chain : Elem d c!"chainNextTo" e) (chain' : OptText e s.chainNext) : RegJson (.obj d) s

/-- The JSON form of the used receipt IDs. -/
inductive UsedJson : Json → Used → Prop
  | unique (d : Dict Json) (ids : List Str)
      (type : Elem d c!"backendType" (.str c!"USED_RECEIPT_IDS_UNIQUE"))
      (data : Elem d c!"backendData" (.arr (ids.map .str))) :
      UsedJson (.obj d) (.unique ids.toFinset)
  | sorted (d m : Dict Json) (a b : Json) (lo hi : Option Str)
      (type : Elem d c!"backendType" (.str c!"USED_RECEIPT_IDS_SORTED_NATURAL"))
      (data : Elem d c!"backendData" (.obj m))
      (min : Elem m c!"minId" a) (min' : OptText a lo)
      (max : Elem m c!"maxId" b) (max' : OptText b hi) : UsedJson (.obj d) (.sorted lo hi)

/-- The JSON form of a cluster state. -/
inductive StateJson : Json → Cluster → Prop
  | mk (root : Dict Json) (l : List Json) (u : Json) (c : Cluster)
      (regs : Elem root c!"cashRegisters" (.arr l)) (regs' : List.Forall₂ RegJson l c.regs)
      (used : Elem root c!"usedReceiptIds" u) (used' : UsedJson u c.used) : StateJson (.obj root) c

end RKSV
