import Verif.Props.KeyStore
/-
Property C50, continued: writing a key store into an INI file that has entries already.
-/
namespace RKSV

section
variable [PyEnv]

/-- What a section holds under an ID after a store was written into it: what the last entry of the store for this ID
says (of the right kind, for a text made from the entry), or else what it held before. -/
def IniWritten {α : Type} (ks : List (Str × KeyEntry)) (kind : KeyEntry → Option α) (text : α → Str) (before : Option Str)
    (id : Str) (v : Str) : Prop :=
  (∃ a p b x, ks = a ++ p :: b ∧ kind p.2 = some x ∧ iniEscape p.1 = id ∧ v = text x ∧
    ∀ q ∈ b, (kind q.2).isSome → iniEscape q.1 ≠ id) ∨
  (∀ q ∈ ks, (kind q.2).isSome → iniEscape q.1 ≠ id) ∧ before = some v

theorem written_snoc {α : Type} {ks : List (Str × KeyEntry)} {p : Str × KeyEntry} {kind : KeyEntry → Option α}
    {text : α → Str} {before : Option Str} {id v : Str} : IniWritten (ks ++ [p]) kind text before id v ↔
      (∃ x, kind p.2 = some x ∧ iniEscape p.1 = id ∧ v = text x) ∨
      ¬((kind p.2).isSome ∧ iniEscape p.1 = id) ∧ IniWritten ks kind text before id v := by
  constructor
  · rintro (⟨a, q, b, x, h1, h2, h3, h4, h5⟩ | ⟨h1, h2⟩)
    · induction b using List.reverseRecOn with
      | nil =>
        obtain ⟨-, h⟩ := List.append_inj' h1 rfl
        cases h
        exact .inl ⟨x, h2, h3, h4⟩
      | append_singleton b r _ =>
        rw [← List.cons_append, ← List.append_assoc] at h1
        obtain ⟨h0, h⟩ := List.append_inj' h1 rfl
        cases h
        exact .inr ⟨fun hx => h5 p (by simp) hx.1 hx.2, .inl ⟨a, q, b, x, h0, h2, h3, h4, fun r hr => h5 r (by simp [hr])⟩⟩
    · exact .inr ⟨fun hx => h1 p (by simp) hx.1 hx.2, .inr ⟨fun q hq => h1 q (by simp [hq]), h2⟩⟩
  · rintro (⟨x, h1, h2, h3⟩ | ⟨h0, ⟨a, q, b, x, h1, h2, h3, h4, h5⟩ | ⟨h1, h2⟩⟩)
    · exact .inl ⟨ks, p, [], x, rfl, h1, h2, h3, by simp⟩
    · refine .inl ⟨a, q, b ++ [p], x, by simp [h1], h2, h3, h4, fun r hr hk => ?_⟩
      rcases List.mem_append.mp hr with hr | hr
      · exact h5 r hr hk
      · rw [List.mem_singleton.mp hr] at hk ⊢
        exact fun he => h0 ⟨hk, he⟩
    · refine .inr ⟨fun r hr hk => ?_, h2⟩
      rcases List.mem_append.mp hr with hr | hr
      · exact h1 r hr hk
      · rw [List.mem_singleton.mp hr] at hk ⊢
        exact fun he => h0 ⟨hk, he⟩

/-- C50: writing a store into an INI file adds or replaces exactly the entries of the store, certificates in one
section and public keys in the other; everything else that was in the file stays there. -/
theorem ini_written (ks : KeyStore) (cfg : Ini) : ∃ certs keys, ks.writeIni cfg = ⟨some certs, some keys⟩ ∧
    (∀ id v, Dict.get? certs id = some v ↔
      IniWritten ks (fun e => e.cert) exportCertToPEM (Dict.get? (cfg.certs.getD []) id) id v) ∧
    ∀ id v, Dict.get? keys id = some v ↔
      IniWritten ks (fun e => if e.cert.isSome then none else some e.key) exportKeyToPEM
        (Dict.get? (cfg.keys.getD []) id) id v := by
  unfold KeyStore.writeIni
  refine ⟨_, _, rfl, ?_⟩
  induction ks using List.reverseRecOn with
  | nil => simp [IniWritten]
  | append_singleton ks p ih =>
    obtain ⟨ih1, ih2⟩ := ih
    rw [List.foldl_append, List.foldl_cons, List.foldl_nil]
    generalize List.foldl iniWriteEntry (cfg.certs.getD [], cfg.keys.getD []) ks = r at ih1 ih2 ⊢
    unfold iniWriteEntry
    cases hc : p.2.cert with
    | some c =>
      constructor
      · intro id v
        rw [written_snoc, Dict.get?_set, hc]
        by_cases he : iniEscape p.1 = id
        · simp only [he, if_true, Option.some.injEq]
          simp [eq_comm (a := v)]
        · simp only [he, if_false, false_and, and_false, exists_false, not_false_eq_true, true_and, false_or]
          exact ih1 id v
      · intro id v
        rw [written_snoc, hc]
        simpa using ih2 id v
    | none =>
      constructor
      · intro id v
        rw [written_snoc, hc]
        simpa using ih1 id v
      · intro id v
        rw [written_snoc, Dict.get?_set, hc]
        by_cases he : iniEscape p.1 = id
        · simp only [he, if_true, Option.some.injEq]
          simp [eq_comm (a := v)]
        · simp only [he, if_false, false_and, and_false, exists_false, not_false_eq_true, true_and, false_or]
          exact ih2 id v

end

namespace Demo

attribute [local instance] env

/-- A certificate that is in the file already, and a key of a closed system that is written. -/
example : ∃ certs keys, KeyStore.writeIni (KeyStore.putKey [] c!"S:1" ([9] : Bytes) none) ⟨some [(c!"1f", c!"x")], none⟩ =
    ⟨some certs, some keys⟩ ∧ Dict.get? certs c!"1f" = some c!"x" ∧
    Dict.get? keys c!"s;1" = some (exportKeyToPEM ([9] : Bytes)) := ⟨_, _, rfl, rfl, rfl⟩

end Demo

end RKSV
