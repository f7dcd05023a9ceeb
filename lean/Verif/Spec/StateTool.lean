import Verif.Model.StateTool
/-
Specification of the commands that edit state files.
-/
namespace RKSV

/-- `n` is the index of `x` in `a ++ x :: b`, from the front or, if negative, from the back. -/
def Points (n : Int) {α : Type} (a b : List α) : Prop := n = a.length ∨ n = -(b.length + 1)

/-- The register at the index is changed by `R`, everything else is kept. -/
def Changes (n : Int) (R : RegState → RegState → Prop) (c c' : Cluster) : Prop :=
  ∃ a r r' b, c.regs = a ++ r :: b ∧ Points n a b ∧ R r r' ∧ c' = ⟨a ++ r' :: b, c.used⟩

/-- An argument that may be the word `None`. -/
def NoneOr (arg : Str) (o : Option Str) : Prop :=
  arg = c!"None" ∧ o = none ∨ arg ≠ c!"None" ∧ o = some arg

variable [PyEnv]

/-- What the editing commands do to a state.  `backend` is an empty object for used receipt IDs. -/
inductive Edit (backend : Used) (c : Cluster) : StateCmd → Cluster → Prop
  | show : Edit backend c .show c
  | add (h : ∀ r, c.regs.getLast? = some r → ∃ t, r.start = some t ∧ t ≠ []) :
      Edit backend c .add ⟨c.regs ++ [({} : RegState)], c.used⟩
  /-- all used receipt IDs are dropped -/
  | reset (a b : List RegState) (r : RegState) (h : c.regs = a ++ r :: b) :
      Edit backend c (.reset a.length) ⟨a ++ ({} : RegState) :: b, backend⟩
  | delete (n : Int) (a b : List RegState) (r : RegState) (h : c.regs = a ++ r :: b) (hn : Points n a b) :
      Edit backend c (.delete n) ⟨a ++ b, c.used⟩
  | setLast (n : Int) (t : Str) (c' : Cluster)
      (h : Changes n (fun r r' => ∃ o, NoneOr t o ∧ r' = { r with last := o }) c c') :
      Edit backend c (.setLast n t) c'
  | setCounter (n x : Int) (c' : Cluster) (h : Changes n (fun r r' => r' = { r with counter := x }) c c') :
      Edit backend c (.setCounter n x) c'
  | setChain (n : Int) (t : Str) (c' : Cluster)
      (h : Changes n (fun r r' => ∃ o, NoneOr t o ∧ r' = { r with chainNext := o }) c c') :
      Edit backend c (.setChain n t) c'
  | toggle (n : Int) (c' : Cluster) (h : Changes n (fun r r' => r' = { r with needRestore := !r.needRestore }) c c') :
      Edit backend c (.toggle n) c'
  | setStart (n : Int) (t : Str) (c' : Cluster)
      (h : Changes n (fun r r' => ∃ o, NoneOr t o ∧ r' = { r with start := o }) c c') :
      Edit backend c (.setStart n t) c'
  | noIds : Edit backend c (.readIds none) ⟨c.regs, backend⟩
  /-- the IDs are those of the lines -/
  | readUnique (lines : List Str) (h : backend = .unique ∅) :
      Edit backend c (.readIds (some lines)) ⟨c.regs, .unique (lines.map pyStrip).toFinset⟩
  /-- the bounds are the first and the last line -/
  | readSorted (lines : List Str) (h : backend = .sorted none none) :
      Edit backend c (.readIds (some lines))
        ⟨c.regs, .sorted (lines.head?.map pyStrip) (lines.getLast?.map pyStrip)⟩
  | copy (n m : Int) (source : Json) (d c' : Cluster) (a b : List RegState) (r : RegState)
      (hd : Cluster.fromJson source = .ok d) (h : d.regs = a ++ r :: b) (hm : Points m a b)
      (hc : Changes n (fun _ r' => r' = r) c c') : Edit backend c (.copy n source m) c'

/-- The commands that edit a state file. -/
def StateCmd.Edits : StateCmd → Prop
  | .create => False
  | .update _ _ _ => False
  | .fromReceipt _ _ _ => False
  | .fromStart _ _ => False
  | _ => True

/-- The register a command names. -/
def StateCmd.names : StateCmd → Option Int
  | .reset n | .delete n | .setLast n _ | .setCounter n _ | .setChain n _ | .toggle n | .setStart n _ | .copy n _ _
  | .update n _ _ => some n
  | _ => none

/-- Nothing but the register at the index is different; it may be missing afterwards. -/
def Spares (n : Int) (c c' : Cluster) : Prop :=
  c' = c ∨ ∃ a r b, c.regs = a ++ r :: b ∧ Points n a b ∧ c'.used = c.used ∧
    (c'.regs = a ++ b ∨ ∃ r', c'.regs = a ++ r' :: b)

/-- A sequence of edits, where commands that are not possible change nothing. -/
inductive Edits (backend : Used) : Cluster → List StateCmd → Cluster → Prop
  | nil (c : Cluster) : Edits backend c [] c
  | done (c d e : Cluster) (cmd : StateCmd) (l : List StateCmd) (h : Edit backend c cmd d)
      (hl : Edits backend d l e) : Edits backend c (cmd :: l) e
  | refused (c e : Cluster) (cmd : StateCmd) (l : List StateCmd) (h : ∀ d, ¬Edit backend c cmd d)
      (hl : Edits backend c l e) : Edits backend c (cmd :: l) e

end RKSV
