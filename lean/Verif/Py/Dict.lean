import Verif.Py.Str
/-
Python dictionaries with text keys, as lists of pairs in insertion order.
-/
namespace RKSV

abbrev Dict (α : Type) := List (Str × α)

namespace Dict
variable {α : Type}

/-- `d.get(k)`. -/
def get? (d : Dict α) (k : Str) : Option α :=
  match d with
  | [] => none
  | (k', v) :: r => if k' = k then some v else get? r k

/-- `d[k] = v`: an existing key keeps its position. -/
def set (d : Dict α) (k : Str) (v : α) : Dict α :=
  match d with
  | [] => [(k, v)]
  | (k', v') :: r => if k' = k then (k', v) :: r else (k', v') :: set r k v

/-- `del d[k]` (no effect if missing). -/
def del (d : Dict α) (k : Str) : Dict α := d.filter fun p => p.1 ≠ k

def keys (d : Dict α) : List Str := d.map (·.1)

/-- Dictionaries never hold a key twice. -/
def Ok (d : Dict α) : Prop := d.keys.Nodup

theorem get?_set (d : Dict α) (k k' : Str) (v : α) :
    (d.set k v).get? k' = if k = k' then some v else d.get? k' := by
  induction d with
  | nil => simp [set, get?]
  | cons p r ih =>
    obtain ⟨q, w⟩ := p
    simp only [set]
    split
    · rename_i h; subst h
      simp only [get?]
      split <;> simp_all
    · rename_i h
      simp only [get?, ih]
      by_cases h1 : q = k'
      · subst h1; simp [Ne.symm h]
      · simp [h1]

theorem get?_del (d : Dict α) (k k' : Str) :
    (d.del k).get? k' = if k = k' then none else d.get? k' := by
  induction d with
  | nil => simp [del, get?]
  | cons p r ih =>
    obtain ⟨q, w⟩ := p
    simp only [del, List.filter_cons] at ih ⊢
    split
    · rename_i h
      simp only [get?]
      rw [ih]
      by_cases h1 : q = k'
      · subst h1
        have : q ≠ k := by simpa using h
        simp [Ne.symm this]
      · simp [h1]
    · rename_i h
      have : q = k := by simpa using h
      subst this
      rw [ih]
      simp only [get?]
      split <;> simp_all

theorem mem_keys_iff {d : Dict α} {k : Str} : k ∈ d.keys ↔ (d.get? k).isSome := by
  induction d with
  | nil => simp [keys, get?]
  | cons p r ih =>
    obtain ⟨q, w⟩ := p
    simp only [keys, List.map_cons, List.mem_cons, get?] at ih ⊢
    split
    · rename_i h; simp [h]
    · rename_i h; rw [ih]; simp [Ne.symm h]

theorem keys_set {d : Dict α} {k : Str} {v : α} :
    (d.set k v).keys = if k ∈ d.keys then d.keys else d.keys ++ [k] := by
  induction d with
  | nil => simp [set, keys]
  | cons p r ih =>
    obtain ⟨q, w⟩ := p
    simp only [set]
    split
    · rename_i h; simp [keys, h]
    · rename_i h
      simp only [keys, List.map_cons, List.mem_cons] at ih ⊢
      rw [ih]
      by_cases hk : k ∈ r.map (·.1)
      · simp [hk]
      · simp [hk, Ne.symm h]

theorem Ok.set {d : Dict α} (h : d.Ok) (k : Str) (v : α) : (d.set k v).Ok := by
  unfold Ok at *
  rw [keys_set]
  split
  · exact h
  · rename_i hk
    rw [List.nodup_append]
    refine ⟨h, by simp, ?_⟩
    intro a ha b hb
    simp at hb; subst hb
    rintro rfl; exact hk ha

theorem Ok.del {d : Dict α} (h : d.Ok) (k : Str) : (d.del k).Ok := by
  unfold Ok keys Dict.del at *
  exact h.sublist ((List.filter_sublist).map _)

theorem get?_eq_some_of_mem {d : Dict α} (h : d.Ok) {k : Str} {v : α} (hm : (k, v) ∈ d) :
    d.get? k = some v := by
  induction d with
  | nil => simp at hm
  | cons p r ih =>
    obtain ⟨q, w⟩ := p
    unfold Ok keys at h ih
    simp only [List.map_cons, List.nodup_cons] at h
    simp only [get?]
    rcases List.mem_cons.mp hm with e | hm
    · cases e; simp
    · rw [if_neg, ih h.2 hm]
      rintro rfl
      exact h.1 (List.mem_map.mpr ⟨_, hm, rfl⟩)

theorem mem_of_get? {d : Dict α} {k : Str} {v : α} (h : d.get? k = some v) : (k, v) ∈ d := by
  induction d with
  | nil => simp [get?] at h
  | cons p r ih =>
    obtain ⟨q, w⟩ := p
    simp only [get?] at h
    split at h
    · rename_i e; cases h; subst e; simp
    · exact List.mem_cons_of_mem _ (ih h)

/-- Setting a new key appends. -/
theorem set_of_not_mem {d : Dict α} {k : Str} (h : k ∉ d.keys) (v : α) : d.set k v = d ++ [(k, v)] := by
  induction d with
  | nil => rfl
  | cons p r ih =>
    obtain ⟨q, w⟩ := p
    simp only [keys, List.map_cons, List.mem_cons, not_or] at h
    simp only [set, if_neg (Ne.symm h.1), List.cons_append]
    rw [ih (by simpa [keys] using h.2)]

end Dict

end RKSV
