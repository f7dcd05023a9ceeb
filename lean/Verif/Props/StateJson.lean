import Verif.Spec.StateJson
import Verif.Lemmas.DemoGroup
/-
Properties C44 and C45: reading and writing verification states as JSON.
-/
namespace RKSV

theorem readOptStr_iff {j : Json} {o : Option Str} : readOptStr j = .ok o ↔ OptText j o := by
  constructor
  · intro h
    cases j <;> simp [readOptStr] at h <;> subst h <;> constructor
  · rintro (_ | _) <;> rfl

theorem readOptStr_error {j : Json} {e : Err} (h : readOptStr j = .error e) : e = .malformedState := by
  cases j <;> simp [readOptStr] at h <;> exact h.symm

theorem readInt_iff {j : Json} {n : Int} : readInt j = .ok n ↔ Whole j n := by
  constructor
  · intro h
    cases j with
    | bool b => cases b <;> simp [readInt] at h <;> subst h <;> constructor
    | int m => simp [readInt] at h; subst h; constructor
    | _ => simp [readInt] at h
  · rintro (_ | _ | _) <;> rfl

theorem readInt_error {j : Json} {e : Err} (h : readInt j = .error e) : e = .malformedState := by
  cases j <;> simp [readInt] at h <;> exact h.symm

theorem readBool_iff {j : Json} {b : Bool} :
    (match j with
      | .bool b => .ok b
      | _ => .error .malformedState : Res Bool) = .ok b ↔ j = .bool b := by
  cases j <;> simp

theorem fromDict_iff {d : Dict Json} {s : RegState} :
    RegState.fromDict d = .ok s ↔ RegJson (.obj d) s := by
  unfold RegState.fromDict
  simp only [Res.bind_eq_ok, orErr_eq_ok, readOptStr_iff, readInt_iff, Except.ok.injEq]
  constructor
  · rintro ⟨a, ha, b, hb, c, hc, r, hr, e, he, st, hst, la, hla, co, hco, re, hre, ch, hch, rfl⟩
    have hre := readBool_iff.mp hre
    subst hre
    exact .mk d _ a b c e ha hst hb hla hc hco hr he hch
  · intro h
    cases h with
    | mk _ _ a b c e h1 h1' h2 h2' h3 h3' h4 h5 h5' =>
    exact ⟨a, h1, b, h2, c, h3, _, h4, e, h5, _, h1', _, h2', _, h3', _, rfl, _, h5', rfl⟩

theorem fromDict_error {d : Dict Json} {e : Err} (h : RegState.fromDict d = .error e) :
    e = .malformedState := by
  unfold RegState.fromDict at h
  simp only [Res.bind_eq_error, orErr_eq_error] at h
  rcases h with h | ⟨a, ha, h⟩
  · exact h.2.symm
  rcases h with h | ⟨b, hb, h⟩
  · exact h.2.symm
  rcases h with h | ⟨c, hc, h⟩
  · exact h.2.symm
  rcases h with h | ⟨f, hf, h⟩
  · exact h.2.symm
  rcases h with h | ⟨g, hg, h⟩
  · exact h.2.symm
  rcases h with h | ⟨_, -, h⟩
  · exact readOptStr_error h
  rcases h with h | ⟨_, -, h⟩
  · exact readOptStr_error h
  rcases h with h | ⟨_, -, h⟩
  · exact readInt_error h
  rcases h with h | ⟨_, -, h⟩
  · cases f <;> simp at h <;> exact h.symm
  rcases h with h | ⟨_, -, h⟩
  · exact readOptStr_error h
  · cases h

theorem readIds_iff {l : List Json} {ids : List Str} : readIds l = .ok ids ↔ l = ids.map .str := by
  induction l generalizing ids with
  | nil => cases ids <;> simp [readIds]
  | cons j l ih =>
    simp only [readIds, Res.bind_eq_ok, orErr_eq_ok, Json.asStr_eq_some, ih, Except.ok.injEq]
    constructor
    · rintro ⟨s, rfl, r, rfl, rfl⟩
      rfl
    · intro h
      cases ids with
      | nil => simp at h
      | cons s r => simp at h; exact ⟨s, h.1, r, h.2, rfl⟩

theorem readIds_error {l : List Json} {e : Err} (h : readIds l = .error e) : e = .malformedState := by
  induction l with
  | nil => simp [readIds] at h
  | cons j l ih =>
    simp only [readIds, Res.bind_eq_error, orErr_eq_error] at h
    rcases h with h | ⟨_, -, h⟩
    · exact h.2.symm
    rcases h with h | ⟨_, -, h⟩
    · exact ih h
    · cases h

theorem used_fromJson_iff {j : Json} {u : Used} : Used.fromJson j = .ok u ↔ UsedJson j u := by
  unfold Used.fromJson
  simp only [Res.bind_eq_ok, orErr_eq_ok, Json.asObj_eq_some, Json.asStr_eq_some]
  constructor
  · rintro ⟨d, rfl, jt, ht, jd, hd, ty, rfl, h⟩
    split at h
    · rename_i e; subst e
      simp only [Res.bind_eq_ok, orErr_eq_ok, Json.asArr_eq_some, readIds_iff, Except.ok.injEq] at h
      obtain ⟨l, rfl, ids, rfl, rfl⟩ := h
      exact .unique d ids ht hd
    · split at h
      · rename_i e; subst e
        simp only [Res.bind_eq_ok, orErr_eq_ok, Json.asObj_eq_some, readOptStr_iff,
          Except.ok.injEq] at h
        obtain ⟨m, rfl, a, ha, b, hb, lo, hlo, hi, hhi, rfl⟩ := h
        exact .sorted d m a b lo hi ht hd ha hlo hb hhi
      · cases h
  · intro h
    cases h with
    | unique d ids ht hd =>
      refine ⟨d, rfl, _, ht, _, hd, _, rfl, ?_⟩
      rw [if_pos (by rfl)]
      simp only [Res.bind_eq_ok, orErr_eq_ok, Json.asArr_eq_some, readIds_iff, Except.ok.injEq]
      exact ⟨_, rfl, ids, rfl, rfl⟩
    | sorted d m a b lo hi ht hd ha hlo hb hhi =>
      refine ⟨d, rfl, _, ht, _, hd, _, rfl, ?_⟩
      rw [if_neg (by decide), if_pos (by rfl)]
      simp only [Res.bind_eq_ok, orErr_eq_ok, Json.asObj_eq_some, readOptStr_iff,
          Except.ok.injEq]
      exact ⟨m, rfl, a, ha, b, hb, lo, hlo, hi, hhi, rfl⟩

theorem used_fromJson_error {j : Json} {e : Err} (h : Used.fromJson j = .error e) :
    e = .malformedState := by
  unfold Used.fromJson at h
  simp only [Res.bind_eq_error, orErr_eq_error] at h
  rcases h with h | ⟨_, -, h⟩
  · exact h.2.symm
  rcases h with h | ⟨_, -, h⟩
  · exact h.2.symm
  rcases h with h | ⟨_, -, h⟩
  · exact h.2.symm
  rcases h with h | ⟨ty, -, h⟩
  · exact h.2.symm
  split at h
  · simp only [Res.bind_eq_error, orErr_eq_error] at h
    rcases h with h | ⟨_, -, h⟩
    · exact h.2.symm
    rcases h with h | ⟨_, -, h⟩
    · exact readIds_error h
    · cases h
  · split at h
    · simp only [Res.bind_eq_error, orErr_eq_error] at h
      rcases h with h | ⟨_, -, h⟩
      · exact h.2.symm
      rcases h with h | ⟨_, -, h⟩
      · exact h.2.symm
      rcases h with h | ⟨_, -, h⟩
      · exact h.2.symm
      rcases h with h | ⟨_, -, h⟩
      · exact readOptStr_error h
      rcases h with h | ⟨_, -, h⟩
      · exact readOptStr_error h
      · cases h
    · cases h; rfl

theorem readRegs_iff {l : List Json} {regs : List RegState} :
    readRegs l = .ok regs ↔ List.Forall₂ RegJson l regs := by
  induction l generalizing regs with
  | nil => cases regs <;> simp [readRegs]
  | cons j l ih =>
    simp only [readRegs, Res.bind_eq_ok, orErr_eq_ok, Json.asObj_eq_some, ih, fromDict_iff,
      Except.ok.injEq]
    constructor
    · rintro ⟨d, rfl, s, hs, r, hr, rfl⟩
      exact .cons hs hr
    · intro h
      cases h with
      | cons hs hr =>
        cases hs with
        | mk d _ a b c e h1 h1' h2 h2' h3 h3' h4 h5 h5' =>
          exact ⟨d, rfl, _, .mk d _ a b c e h1 h1' h2 h2' h3 h3' h4 h5 h5', _, hr, rfl⟩

theorem readRegs_error {l : List Json} {e : Err} (h : readRegs l = .error e) :
    e = .malformedState := by
  induction l with
  | nil => simp [readRegs] at h
  | cons j l ih =>
    simp only [readRegs, Res.bind_eq_error, orErr_eq_error] at h
    rcases h with h | ⟨_, -, h⟩
    · exact h.2.symm
    rcases h with h | ⟨_, -, h⟩
    · exact fromDict_error h
    rcases h with h | ⟨_, -, h⟩
    · exact ih h
    · cases h

/-- C45: a JSON value is read as a state exactly if it has the documented form, and the state is the
one described. -/
theorem state_read_iff {j : Json} {c : Cluster} : Cluster.fromJson j = .ok c ↔ StateJson j c := by
  unfold Cluster.fromJson
  simp only [Res.bind_eq_ok, orErr_eq_ok, Json.asObj_eq_some, Json.asArr_eq_some, readRegs_iff,
    used_fromJson_iff, Except.ok.injEq]
  constructor
  · rintro ⟨root, rfl, jr, hr, ju, hu, l, rfl, regs, hregs, used, hused, rfl⟩
    exact .mk root l ju _ hr hregs hu hused
  · intro h
    cases h with
    | mk root l u _ hr hr' hu hu' =>
    exact ⟨root, rfl, _, hr, _, hu, l, rfl, _, hr', _, hu', rfl⟩

/-- C45: any other JSON value is refused with a state parse error. -/
theorem state_read_total (j : Json) :
    (∃ c, StateJson j c ∧ Cluster.fromJson j = .ok c) ∨
      (¬(∃ c, StateJson j c) ∧ Cluster.fromJson j = .error .malformedState) := by
  cases h : Cluster.fromJson j with
  | ok c => exact .inl ⟨c, state_read_iff.mp h, rfl⟩
  | error e =>
    refine .inr ⟨?_, ?_⟩
    · rintro ⟨c, hc⟩
      rw [state_read_iff.mpr hc] at h
      cases h
    · unfold Cluster.fromJson at h
      simp only [Res.bind_eq_error, orErr_eq_error] at h
      rcases h with h | ⟨_, -, h⟩
      · rw [h.2]
      rcases h with h | ⟨_, -, h⟩
      · rw [h.2]
      rcases h with h | ⟨_, -, h⟩
      · rw [h.2]
      rcases h with h | ⟨_, -, h⟩
      · rw [h.2]
      rcases h with h | ⟨_, -, h⟩
      · rw [readRegs_error h]
      rcases h with h | ⟨_, -, h⟩
      · rw [used_fromJson_error h]
      · cases h

/-! ### Writing -/

theorem optStr_text (o : Option Str) : OptText (optStr o) o := by
  cases o <;> constructor

theorem regJson_toJson (s : RegState) : RegJson s.toJson s :=
  .mk _ s _ _ _ _ rfl (optStr_text _) rfl (optStr_text _) rfl (.int _) rfl rfl (optStr_text _)

/-- What is written has the documented form, whatever the order of Python's sets. -/
theorem state_written (order : Finset Str → List Str) (ho : ∀ s, (order s).toFinset = s)
    (c : Cluster) : StateJson (c.toJson order) c := by
  refine .mk _ _ _ c rfl ?_ rfl ?_
  · induction c.regs with
    | nil => constructor
    | cons s l ih => exact .cons (regJson_toJson s) ih
  · cases c.used with
    | unique ids =>
      have := UsedJson.unique [(kBackend, .str kUnique), (kData, .arr ((order ids).map .str))]
        (order ids) rfl rfl
      rwa [ho] at this
    | sorted lo hi => exact .sorted _ _ _ _ lo hi rfl rfl rfl (optStr_text _) rfl (optStr_text _)

/-- C44: reading back what was written yields the same state, for every state and both ways of
keeping track of used IDs, whatever the order of Python's sets. -/
theorem state_json_round_trip (order : Finset Str → List Str) (ho : ∀ s, (order s).toFinset = s)
    (c : Cluster) : Cluster.fromJson (c.toJson order) = .ok c :=
  state_read_iff.mpr (state_written order ho c)

/-- Different states are written differently. -/
theorem state_json_injective (order : Finset Str → List Str) (ho : ∀ s, (order s).toFinset = s)
    {c c' : Cluster} (h : c.toJson order = c'.toJson order) : c = c' := by
  have h1 := state_json_round_trip order ho c
  rw [h, state_json_round_trip order ho c'] at h1
  exact (Except.ok.inj h1).symm

namespace Demo

/-- There is an order as required. -/
theorem order_exists : ∃ order : Finset Str → List Str, ∀ s, (order s).toFinset = s :=
  ⟨fun s => s.toList, fun s => Finset.toList_toFinset s⟩

/-- The state after the demo group, with its used IDs. -/
theorem saved_state (order : Finset Str → List Str) (ho : ∀ s, (order s).toFinset = s) :
    Cluster.fromJson (Cluster.toJson order ⟨[final, fresh], .unique ids⟩) = .ok ⟨[final, fresh], .unique ids⟩ :=
  state_json_round_trip order ho _

/-- Booleans pass as counters. -/
theorem boolean_counter : Cluster.fromJson (.obj [(kRegs, .arr [.obj [(kStart, .null), (kLast, .null),
    (kCounter, .bool true), (kRestore, .bool false), (kChain, .null)]]),
    (kUsed, .obj [(kBackend, .str kSorted), (kData, .obj [(kMin, .null), (kMax, .str c!"x")])])]) =
    .ok ⟨[{ counter := 1 }], .sorted none (some c!"x")⟩ := rfl

/-- A missing element is refused. -/
theorem missing_used : Cluster.fromJson (.obj [(kRegs, .arr [])]) = .error .malformedState := rfl

end Demo

end RKSV
