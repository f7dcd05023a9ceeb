import Verif.Model.Json
import Verif.Model.Receipt
import Mathlib.Data.Finset.Basic
/-
librksv/verification_state.py: the two ways of keeping track of used receipt IDs.
-/
namespace RKSV

/-- Parts of a natural sort key: numbers and texts. -/
inductive KeyPart where
  | num (n : Int)
  | txt (s : Str)
deriving DecidableEq

/-- ASCII digit, `[0-9]`. -/
def isAsciiDigit (c : Char) : Bool := (asciiDigit c).isSome

/-- `re.split('([0-9]+)', s)` (librksv/verification_state.py:223, 233): texts and digit runs alternate,
starting and ending with a (possibly empty) text.  `cur` is the current piece, reversed. -/
def numSplit (cur : Str) (inDigits : Bool) : Str → List Str
  | [] => if inDigits then [cur.reverse, []] else [cur.reverse]
  | c :: r =>
    if isAsciiDigit c = inDigits then numSplit (c :: cur) inDigits r
    else cur.reverse :: numSplit [c] (isAsciiDigit c) r

/-- The two backends: the set of all used IDs, or just the first and last one
(librksv/verification_state.py:182-217, 224-295). -/
inductive Used where
  | unique (ids : Finset Str)
  | sorted (minId maxId : Option Str)

instance : DecidableEq Used
  | .unique a, .unique b => decidable_of_iff (a = b) (by simp)
  | .sorted a b, .sorted c d => decidable_of_iff (a = c ∧ b = d) (by simp)
  | .unique _, .sorted _ _ => isFalse (by simp)
  | .sorted _ _, .unique _ => isFalse (by simp)

section
variable [PyEnv]

/-- `convert` (librksv/verification_state.py:231). -/
def convertPart (t : Str) : Res KeyPart :=
  if isDigitStr t then (orErr (pyInt 10 t) .valueError).map .num
  else .ok (.txt (PyEnv.lower t))

/-- `[ f(c) for c in l ]`. -/
def mapRes {α β : Type} (f : α → Res β) : List α → Res (List β)
  | [] => .ok []
  | a :: l => do
    let b ← f a
    let bs ← mapRes f l
    .ok (b :: bs)

/-- `UsedReceiptIdsSortedNatural._key` (librksv/verification_state.py:229-232). -/
def naturalKey (id : Str) : Res (List KeyPart) := mapRes convertPart (numSplit [] false id)

/-- `a < b` for lists of numbers and texts: the first difference decides; a number and a text cannot
be ordered. -/
def keyLt : List KeyPart → List KeyPart → Res Bool
  | _, [] => .ok false
  | [], _ :: _ => .ok true
  | a :: as, b :: bs =>
    if a = b then keyLt as bs
    else
      match a, b with
      | .num m, .num n => .ok (decide (m < n))
      | .txt s, .txt t => .ok (decide (s < t))
      | _, _ => .error .typeError

/-- `check` (librksv/verification_state.py:188-190, 238-243). -/
def Used.check (u : Used) (id : Str) : Res Unit :=
  match u with
  | .unique ids => ensure (id ∉ ids) .duplicateReceiptId
  | .sorted _ none => .ok ()
  | .sorted _ (some m) => do
    let a ← naturalKey m
    let b ← naturalKey id
    let lt ← keyLt a b
    ensure (lt = true) .duplicateReceiptId

/-- `add` (librksv/verification_state.py:192-193, 245-248). -/
def Used.add (u : Used) (id : Str) : Used :=
  match u with
  | .unique ids => .unique (insert id ids)
  | .sorted none _ => .sorted (some id) (some id)
  | .sorted (some m) _ => .sorted (some m) (some id)

/-- The inner loop of `UsedReceiptIdsUnique.merge` over the IDs in some order
(librksv/verification_state.py:197-199). -/
def addIds (ids : Finset Str) : List Str → Res (Finset Str)
  | [] => .ok ids
  | i :: l => do
    ensure (i ∉ ids) .duplicateReceiptId
    addIds (insert i ids) l

/-- `merge` for one element (librksv/verification_state.py:195-199, 250-262).  A Python set is iterated
in an unspecified order; `addIds_eq` shows that for every order the loop does what is written here. -/
def Used.mergeOne (u other : Used) : Res Used :=
  match u, other with
  | .unique ids, .unique ids' => do
    ensure (Disjoint ids ids') .duplicateReceiptId
    .ok (.unique (ids ∪ ids'))
  | .sorted _ _, .sorted (some lo) (some hi) => do
    u.check lo
    .ok ((u.add lo).add hi)
  | .sorted _ _, .sorted _ _ => .ok u
  | _, _ => .error .attributeError

/-- `merge` (librksv/verification_state.py:195-199, 250-262). -/
def Used.merge (u : Used) : List Used → Res Used
  | [] => .ok u
  | o :: l => do
    let u ← u.mergeOne o
    u.merge l

/-- A new, empty object of the same class (librksv/verify.py:585, 645). -/
def Used.fresh : Used → Used
  | .unique _ => .unique ∅
  | .sorted _ _ => .sorted none none

/-- The loop over a package's set gives the same result in every order. -/
theorem addIds_eq (ids ids' : Finset Str) (l : List Str) (hn : l.Nodup) (hl : l.toFinset = ids') :
    (do let s ← addIds ids l; .ok (Used.unique s) : Res Used) = (Used.unique ids).mergeOne (.unique ids') := by
  subst hl
  induction l generalizing ids with
  | nil => simp [addIds, Used.mergeOne, Res.ok_bind, ensure_pos]
  | cons i l ih =>
    rw [List.nodup_cons] at hn
    by_cases hi : i ∈ ids
    · have : ¬Disjoint ids (i :: l).toFinset := by
        rw [Finset.disjoint_left]
        intro h; exact h hi (by simp)
      simp only [addIds, Used.mergeOne, ensure_neg this]
      rw [ensure_neg (by simpa using hi)]
      rfl
    · have e1 : Disjoint ids (i :: l).toFinset ↔ Disjoint (insert i ids) l.toFinset := by
        simp only [Finset.disjoint_left, Finset.mem_insert, List.mem_toFinset, List.mem_cons, not_or]
        constructor
        · rintro h a (rfl | ha)
          · exact hn.1
          · exact (h ha).2
        · intro h a ha
          refine ⟨?_, h (Or.inr ha)⟩
          rintro rfl; exact hi ha
      have e2 : ids ∪ (i :: l).toFinset = insert i ids ∪ l.toFinset := by
        ext a; simp only [Finset.mem_union, List.mem_toFinset, List.mem_cons, Finset.mem_insert]; tauto
      simp only [addIds, ensure_pos hi, Res.ok_bind]
      rw [ih (insert i ids) hn.2]
      simp only [Used.mergeOne, e2]
      by_cases hd : Disjoint ids (i :: l).toFinset
      · rw [ensure_pos hd, ensure_pos (e1.mp hd)]
      · rw [ensure_neg hd, ensure_neg (mt e1.mpr hd)]

end

end RKSV
