import Verif.Props.ExportText
import Verif.Model.FileWrite
/-
C107: files whose writing was interrupted at any byte.
-/
namespace RKSV

theorem prefix_append_cases {p a b : Str} (h : p <+: a ++ b) : p <+: a ∨ ∃ q, q <+: b ∧ p = a ++ q := by
  rcases List.prefix_or_prefix_of_prefix h (List.prefix_append a b) with h1 | ⟨q, rfl⟩
  · exact .inl h1
  · exact .inr ⟨q, (List.prefix_append_right_inj a).mp h, rfl⟩

/-- A text that the scanner leaves at the depth where it began, and not below in between. -/
def Level (t : Str) : Prop :=
  ∀ d, scan ⟨d, false, false⟩ t = ⟨d, false, false⟩ ∧ ∀ p, p <+: t → d ≤ (scan ⟨d, false, false⟩ p).depth

theorem Level.append {a b : Str} (ha : Level a) (hb : Level b) : Level (a ++ b) := by
  intro d
  refine ⟨by rw [scan_append, (ha d).1, (hb d).1], ?_⟩
  intro p hp
  rcases prefix_append_cases hp with h | ⟨q, h, rfl⟩
  · exact (ha d).2 p h
  · rw [scan_append, (ha d).1]
    exact (hb d).2 q h

theorem level_neutral {t : Str} (h : ∀ c ∈ t, c ≠ '"' ∧ c ≠ '[' ∧ c ≠ ']' ∧ c ≠ '{' ∧ c ≠ '}') : Level t := by
  intro d
  refine ⟨scan_neutral h d, ?_⟩
  intro p hp
  rw [scan_neutral fun c hc => h c (hp.subset hc)]

theorem level_blank {t : Str} (h : JBlank t) : Level t := by
  apply level_neutral
  intro c hc
  rcases h c hc with rfl | rfl | rfl | rfl <;> decide

/-- Inside a string brackets do not count. -/
theorem body_depth {b : Str} (h : JBody b) (d : Int) : ∀ p, p <+: b → (scan ⟨d, true, false⟩ p).depth = d := by
  induction h with
  | nil => intro p hp; rw [List.prefix_nil.mp hp]; rfl
  | @plain c s h1 h2 _ ih =>
    intro p hp
    rcases List.prefix_cons_iff.mp hp with rfl | ⟨q, rfl, hq⟩
    · rfl
    · rw [scan_cons, show scanStep ⟨d, true, false⟩ c = ⟨d, true, false⟩ by simp [scanStep, h1, h2]]
      exact ih q hq
  | @escaped c s _ ih =>
    intro p hp
    rcases List.prefix_cons_iff.mp hp with rfl | ⟨q, rfl, hq⟩
    · rfl
    · rcases List.prefix_cons_iff.mp hq with rfl | ⟨r, rfl, hr⟩
      · rfl
      · rw [scan_cons, scan_cons]
        simpa [scanStep] using ih r hr

theorem level_quoted {b : Str} (h : JBody b) : Level ('"' :: b ++ ['"']) := by
  intro d
  refine ⟨scan_quoted h d [], ?_⟩
  intro p hp
  rw [List.cons_append] at hp
  rcases List.prefix_cons_iff.mp hp with rfl | ⟨q, rfl, hq⟩
  · exact Int.le_refl d
  · rw [scan_cons, show scanStep ⟨d, false, false⟩ '"' = ⟨d, true, false⟩ by simp [scanStep]]
    rcases prefix_append_cases hq with h1 | ⟨r, h1, rfl⟩
    · rw [body_depth h d q h1]
    · rw [scan_append, scan_body h]
      rcases List.prefix_cons_iff.mp h1 with rfl | ⟨u, rfl, hu⟩
      · exact Int.le_refl d
      · rw [List.prefix_nil.mp hu]
        simp [scan, scanStep]

theorem level_key {k : Str} (h : JKey k) : Level k := by
  obtain ⟨a, b, w, ha, hb, hw, rfl⟩ := h
  have := ((level_blank ha).append (level_quoted hb)).append (level_blank hw)
  simpa [List.append_assoc] using this

theorem scan_open {o : Char} (ho : o = '[' ∨ o = '{') (d : Int) : scanStep ⟨d, false, false⟩ o = ⟨d + 1, false, false⟩ := by
  rcases ho with rfl | rfl <;> simp [scanStep]

theorem level_bracket {t : Str} {o c : Char} (ho : o = '[' ∨ o = '{') (hc : c = ']' ∨ c = '}') (h : Level t) :
    Level (o :: t ++ [c]) := by
  intro d
  refine ⟨scan_bracket ho hc (h (d + 1)).1, ?_⟩
  intro p hp
  rw [List.cons_append] at hp
  rcases List.prefix_cons_iff.mp hp with rfl | ⟨q, rfl, hq⟩
  · exact Int.le_refl d
  · rw [scan_cons, scan_open ho]
    rcases prefix_append_cases hq with h1 | ⟨r, h1, rfl⟩
    · have := (h (d + 1)).2 q h1
      omega
    · rw [scan_append, (h (d + 1)).1]
      rcases List.prefix_cons_iff.mp h1 with rfl | ⟨u, rfl, hu⟩
      · simp only [scan, List.foldl_nil]; omega
      · rw [List.prefix_nil.mp hu]
        rcases hc with rfl | rfl <;> simp [scan, scanStep]

theorem level_comma {c : Char} (h : c = ',' ∨ c = ':') : Level [c] := by
  apply level_neutral
  intro x hx
  rw [List.mem_singleton.mp hx]
  rcases h with rfl | rfl <;> decide

theorem level_all : (∀ t, JItems t → Level t) ∧ (∀ t, JMembers t → Level t) := by
  have hsc : ∀ {t : Str}, t ≠ [] → (∀ c ∈ t, c ∉ jsonMarks) → Level t := by
    intro t _ h
    apply level_neutral
    intro c hc
    have := h c hc
    simp [jsonMarks] at this
    grind
  have hmk : ∀ {a t b : Str}, JBlank a → JValue t → JBlank b → Level t → Level (a ++ t ++ b) := fun ha _ hb h =>
    ((level_blank ha).append h).append (level_blank hb)
  have hcm : ∀ {t u : Str}, Level t → Level u → Level (t ++ ',' :: u) := by
    intro t u h1 h2
    simpa using h1.append ((level_comma (.inl rfl)).append h2)
  have hco : ∀ {t u : Str}, Level t → Level u → Level (t ++ ':' :: u) := by
    intro t u h1 h2
    simpa using h1.append ((level_comma (.inr rfl)).append h2)
  constructor
  · intro t h
    exact JItems.rec (motive_1 := fun t _ => Level t) (motive_2 := fun t _ => Level t) (motive_3 := fun t _ => Level t)
      (motive_4 := fun t _ => Level t) (fun h1 h2 => hsc h1 h2) (fun h => level_quoted h)
      (fun h => level_bracket (.inl rfl) (.inl rfl) (level_blank h)) (fun _ h => level_bracket (.inl rfl) (.inl rfl) h)
      (fun h => level_bracket (.inr rfl) (.inr rfl) (level_blank h)) (fun _ h => level_bracket (.inr rfl) (.inr rfl) h)
      (fun ha h hb ih => hmk ha h hb ih) (fun _ h => h) (fun _ _ h1 h2 => hcm h1 h2)
      (fun hk _ h => hco (level_key hk) h) (fun hk _ _ h1 h2 => hcm (hco (level_key hk) h1) h2) h
  · intro t h
    exact JMembers.rec (motive_1 := fun t _ => Level t) (motive_2 := fun t _ => Level t) (motive_3 := fun t _ => Level t)
      (motive_4 := fun t _ => Level t) (fun h1 h2 => hsc h1 h2) (fun h => level_quoted h)
      (fun h => level_bracket (.inl rfl) (.inl rfl) (level_blank h)) (fun _ h => level_bracket (.inl rfl) (.inl rfl) h)
      (fun h => level_bracket (.inr rfl) (.inr rfl) (level_blank h)) (fun _ h => level_bracket (.inr rfl) (.inr rfl) h)
      (fun ha h hb ih => hmk ha h hb ih) (fun _ h => h) (fun _ _ h1 h2 => hcm h1 h2)
      (fun hk _ h => hco (level_key hk) h) (fun hk _ _ h1 h2 => hcm (hco (level_key hk) h1) h2) h

/-- Within brackets, no beginning is a JSON text. -/
theorem bracket_prefix {t p : Str} {o c : Char} (ho : o = '[' ∨ o = '{') (h : Level t) (hp : p <+: o :: t ++ [c])
    (hne : p ≠ o :: t ++ [c]) : ¬ JsonFile p := by
  intro hj
  rw [List.cons_append] at hp
  rcases List.prefix_cons_iff.mp hp with rfl | ⟨q, rfl, hq⟩
  · exact not_file_nil hj
  · have h0 := scan_file hj 0
    rw [scan_cons, scan_open ho] at h0
    rcases prefix_append_cases hq with h1 | ⟨r, h1, rfl⟩
    · have := (h (0 + 1)).2 q h1
      rw [h0] at this
      exact absurd this (by decide)
    · rcases List.prefix_cons_iff.mp h1 with rfl | ⟨u, rfl, hu⟩
      · rw [List.append_nil, (h (0 + 1)).1] at h0
        exact absurd (congrArg ScanState.depth h0) (by decide)
      · rw [List.prefix_nil.mp hu] at hne
        exact hne rfl

/-- **C107**: if a JSON text of an object or a list is cut off anywhere, what is left is no JSON text. -/
theorem json_prefix {t p : Str} (h : JValue t) (ht : t.head? = some '{' ∨ t.head? = some '[') (hp : p <+: t) (hne : p ≠ t) :
    ¬ JsonFile p := by
  cases h with
  | scalar h0 h =>
    cases t with
    | nil => exact absurd rfl h0
    | cons c t =>
      have := h c (by simp)
      simp only [List.head?_cons, Option.some.injEq] at ht
      rcases ht with rfl | rfl <;> exact absurd this (by decide)
  | str h => simp at ht
  | emptyArr h => exact bracket_prefix (.inl rfl) (level_blank h) hp hne
  | arr h => exact bracket_prefix (.inl rfl) (level_all.1 _ h) hp hne
  | emptyObj h => exact bracket_prefix (.inr rfl) (level_blank h) hp hne
  | obj h => exact bracket_prefix (.inr rfl) (level_all.2 _ h) hp hne

theorem text_starts (ft : F64 → Str) (level : Nat) {j : Json} (hj : (∃ d, j = .obj d) ∨ ∃ l, j = .arr l) :
    (jsonText ft level j).head? = some '{' ∨ (jsonText ft level j).head? = some '[' := by
  rcases hj with ⟨d, rfl⟩ | ⟨l, rfl⟩
  · cases d with
    | nil => left; rw [jsonText]; rfl
    | cons x d => obtain ⟨k, j⟩ := x; left; rw [jsonText]; simp
  · cases l with
    | nil => right; rw [jsonText]; rfl
    | cons x l => right; rw [jsonText]; simp

section
variable (ft : F64 → Str) (hft : ∀ x, ft x ≠ [] ∧ ∀ c ∈ ft x, c ∉ jsonMarks)
include hft

/-- **C107**: a program that prints an object or a list and is killed at any character has printed everything or
something that is no JSON text. -/
theorem killed_not_json (level : Nat) {j : Json} (hj : (∃ d, j = .obj d) ∨ ∃ l, j = .arr l) {p : Str}
    (hp : p <+: jsonText ft level j) : JsonFile p ↔ p = jsonText ft level j := by
  constructor
  · intro h
    by_contra hne
    exact json_prefix (jsonText_value ft hft level j) (text_starts ft level hj) hp hne h
  · rintro rfl
    simpa using file_after (a := []) JBlank.nil (jsonText_value ft hft level j)

/-- **C107**: whenever the machine stops while a file is written, afterwards the file has the old contents, the new
contents, or contents that are no JSON text.  (That it always has the old or the new contents is false: `crash_loses`.) -/
theorem crash_detected_partial {old : Str} {j : Json} (hj : (∃ d, j = .obj d) ∨ ∃ l, j = .arr l) {c : Str}
    (h : OnDisk old (jsonText ft 0 j) c) : c = old ∨ c = jsonText ft 0 j ∨ ¬ JsonFile c := by
  cases h with
  | before => exact .inl rfl
  | during hp =>
    by_cases hc : JsonFile c
    · exact .inr (.inl ((killed_not_json ft hft 0 hj hp).mp hc))
    · exact .inr (.inr hc)

/-- **C107** for `verification_state.py`. -/
theorem state_crash_partial {old : Str} (order : Finset Str → List Str) (s : Cluster) {c : Str}
    (h : OnDisk old (jsonText ft 0 (s.toJson order)) c) :
    c = old ∨ c = jsonText ft 0 (s.toJson order) ∨ ¬ JsonFile c :=
  crash_detected_partial ft hft (.inl ⟨_, rfl⟩) h

/-- **C107** for `key_store.py`. -/
theorem store_crash_partial [PyEnv] {old : Str} (ks : KeyStore) (b64Key : Option Str) {c : Str}
    (h : OnDisk old (jsonText ft 0 (ks.toJson b64Key)) c) :
    c = old ∨ c = jsonText ft 0 (ks.toJson b64Key) ∨ ¬ JsonFile c := by
  refine crash_detected_partial ft hft (.inl ?_) h
  cases b64Key <;> exact ⟨_, rfl⟩

end

/-- **C107**, where it is false: whatever was in the file and whatever is to be written, the machine can stop when the file
is empty, which is no JSON text: the old state is lost. -/
theorem crash_loses (old new : Str) : OnDisk old new [] ∧ ¬ JsonFile [] :=
  ⟨.during (List.nil_prefix), not_file_nil⟩

/-- For the new state of a cluster without registers: cut off in the middle. -/
example : ∃ c, OnDisk c!"{}" (jsonText (fun _ => c!"0") 0 (.obj [(c!"a", .arr [])])) c ∧ c ≠ [] ∧ ¬ JsonFile c := by
  refine ⟨['{'], .during ⟨_, by rw [jsonText]; rfl⟩, by simp, ?_⟩
  exact json_prefix (t := c!"{}") (.emptyObj (w := []) JBlank.nil) (.inl rfl) ⟨['}'], rfl⟩ (by decide)

end RKSV
