import Verif.Lemmas.Lines
import Verif.Props.Formats
import Verif.Spec.IntText
/-
Property C20, continued: the texts that are read as serial numbers, character by character.
-/
namespace RKSV

section
variable [PyEnv]

theorem intBlank_iff {c : Char} : intSpace c = true ↔ IntBlank c := by
  unfold intSpace IntBlank
  simp only [Bool.or_eq_true, Bool.and_eq_true, decide_eq_true_eq, List.mem_cons, List.not_mem_nil, or_false]
  generalize c.toNat = n
  constructor
  · rintro ((h | h) | h)
    · left; omega
    · left; omega
    · exact .inr h
  · rintro (h | h)
    · left; omega
    · exact .inr h

omit [PyEnv] in
theorem letters_iff {c : Char} {k : Nat} :
    ('a' ≤ c ∧ c ≤ 'f' ∧ k = c.toNat - 87 ↔ ∃ i, (c!"abcdef")[i]? = some c ∧ k = 10 + i) ∧
    ('A' ≤ c ∧ c ≤ 'F' ∧ k = c.toNat - 55 ↔ ∃ i, (c!"ABCDEF")[i]? = some c ∧ k = 10 + i) := by
  have key : ∀ (b : Nat) (l : Str), (∀ i : Fin 6, l[i.val]? = some (Char.ofNat (b + i))) → l.length = 6 → b = 97 ∨ b = 65 →
      (b ≤ c.toNat ∧ c.toNat ≤ b + 5 ∧ k = c.toNat - (b - 10) ↔ ∃ i, l[i]? = some c ∧ k = 10 + i) := by
    intro b l hl hlen hb
    constructor
    · rintro ⟨h1, h2, h3⟩
      refine ⟨c.toNat - b, ?_, by omega⟩
      have := hl ⟨c.toNat - b, by omega⟩
      simp only at this
      rw [this, show b + (c.toNat - b) = c.toNat by omega, Char.ofNat_toNat]
    · rintro ⟨i, h1, h2⟩
      have hi : i < 6 := by
        obtain ⟨h, -⟩ := List.getElem?_eq_some_iff.mp h1
        omega
      have := hl ⟨i, hi⟩
      simp only at this
      rw [this] at h1
      cases h1
      have hv : (Char.ofNat (b + i)).toNat = b + i := by
        rcases hb with rfl | rfl
        · have : ∀ i : Fin 6, (Char.ofNat (97 + i)).toNat = 97 + i := by decide
          exact this ⟨i, hi⟩
        · have : ∀ i : Fin 6, (Char.ofNat (65 + i)).toNat = 65 + i := by decide
          exact this ⟨i, hi⟩
      rw [hv]
      omega
  constructor
  · exact key 97 c!"abcdef" (by decide) rfl (.inl rfl)
  · exact key 65 c!"ABCDEF" (by decide) rfl (.inr rfl)

theorem digitChar_iff {base : Nat} {c : Char} {d : Nat} : pyDigit base c = some d ↔ DigitChar base c d := by
  have hascii : ∀ {i : Nat}, (c!"abcdef")[i]? = some c ∨ (c!"ABCDEF")[i]? = some c → digitVal c = none := by
    intro i h
    have hm : c ∈ c!"abcdefABCDEF" := by
      have e : c!"abcdefABCDEF" = c!"abcdef" ++ c!"ABCDEF" := rfl
      rw [e, List.mem_append]
      rcases h with h | h
      · exact .inl (List.mem_of_getElem? h)
      · exact .inr (List.mem_of_getElem? h)
    have : ∀ c ∈ c!"abcdefABCDEF", c.toNat < 128 ∧ asciiDigit c = none := by decide
    exact digitVal_ascii_none (this c hm).1 (this c hm).2
  unfold pyDigit
  constructor
  · intro h
    split at h
    · rename_i d' hd
      cases h
      exact .dec c _ hd
    · split at h
      · rename_i hb
        split at h
        · rename_i hc
          cases h
          obtain ⟨i, h1, h2⟩ := (letters_iff (k := c.toNat - 87)).1.mp ⟨hc.1, hc.2, rfl⟩
          rw [h2]
          exact .lower c i hb h1
        · split at h
          · rename_i hc
            cases h
            obtain ⟨i, h1, h2⟩ := (letters_iff (k := c.toNat - 55)).2.mp ⟨hc.1, hc.2, rfl⟩
            rw [h2]
            exact .upper c i hb h1
          · cases h
      · cases h
  · intro h
    cases h with
    | dec _ h => rw [h]
    | lower i hb h =>
      rw [hascii (.inl h)]
      obtain ⟨h1, h2, h3⟩ := letters_iff.1.mpr ⟨i, h, rfl⟩
      simp only [hb, if_true, if_pos (And.intro h1 h2), h3]
    | upper i hb h =>
      rw [hascii (.inr h)]
      obtain ⟨h1, h2, h3⟩ := letters_iff.2.mpr ⟨i, h, rfl⟩
      have : ¬('a' ≤ c ∧ c ≤ 'f') := by
        rintro ⟨h4, -⟩
        have h4 : 97 ≤ c.toNat := h4
        have h2 : c.toNat ≤ 70 := h2
        omega
      simp only [hb, if_true, if_neg this, if_pos (And.intro h1 h2), h3]

theorem digitChar_special {base : Nat} {c : Char} {d : Nat} (h : DigitChar base c d) :
    c ≠ '_' ∧ c ≠ '+' ∧ c ≠ '-' ∧ c ≠ 'x' ∧ c ≠ 'X' := by
  have hn : ∀ c ∈ c!"_+-xX", pyDigit base c = none := by
    intro c hc
    have : ∀ c ∈ c!"_+-xX", c.toNat < 128 ∧ asciiDigit c = none ∧ ¬('a' ≤ c ∧ c ≤ 'f') ∧ ¬('A' ≤ c ∧ c ≤ 'F') := by decide
    obtain ⟨h1, h2, h3, h4⟩ := this c hc
    exact pyDigit_none h1 h2 h3 h4
  have h := digitChar_iff.mpr h
  refine ⟨?_, ?_, ?_, ?_, ?_⟩ <;>
  · rintro rfl
    rw [hn _ (by decide)] at h
    cases h

omit [PyEnv] in
theorem foldl_ofDigits (base : Nat) (ds : List Nat) (acc : Nat) :
    ds.foldl (fun a d => a * base + d) acc = acc * base ^ ds.length + Nat.ofDigits base ds.reverse := by
  induction ds generalizing acc with
  | nil => simp
  | cons d ds ih =>
    rw [List.foldl_cons, ih, List.reverse_cons, Nat.ofDigits_append, List.length_cons, List.length_reverse,
      Nat.ofDigits_singleton]
    ring

theorem readDigits_iff {base : Nat} {s : Str} (acc n : Nat) :
    (readDigits base acc true s = some n ↔
      ∃ ds, DigitText base s ds ∧ n = ds.foldl (fun a d => a * base + d) acc) ∧
    (readDigits base acc false s = some n ↔
      s = [] ∧ n = acc ∨ ∃ t ds, (s = t ∨ s = '_' :: t) ∧ DigitText base t ds ∧
        n = ds.foldl (fun a d => a * base + d) acc) := by
  induction s generalizing acc with
  | nil =>
    constructor
    · simp only [readDigits, if_true, reduceCtorEq, false_iff]
      rintro ⟨ds, h, -⟩
      cases h
    · simp only [readDigits, Bool.false_eq_true, if_false, Option.some.injEq, true_and]
      constructor
      · exact fun h => .inl h.symm
      · rintro (h | ⟨t, ds, rfl | h, ht, -⟩)
        · exact h.symm
        · cases ht
        · cases h
  | cons c r ih =>
    have hdig : ∀ u, c ≠ '_' → (readDigits base acc u (c :: r) = some n ↔
        ∃ ds, DigitText base (c :: r) ds ∧ n = ds.foldl (fun a d => a * base + d) acc) := by
      intro u hc
      rw [readDigits, if_neg hc]
      constructor
      · intro h
        split at h
        · rename_i d hd
          have hd := digitChar_iff.mp hd
          rcases (ih _).2.mp h with ⟨rfl, h'⟩ | ⟨t, ds, rfl | rfl, ht, h'⟩
          · exact ⟨[d], .one c d hd, h'⟩
          · exact ⟨d :: ds, .cons c d _ ds hd ht, h'⟩
          · exact ⟨d :: ds, .under c d _ ds hd ht, h'⟩
        · cases h
      · rintro ⟨ds, ht, h⟩
        cases ht with
        | one _ d hd =>
          rw [digitChar_iff.mpr hd]
          exact (ih _).2.mpr (.inl ⟨rfl, h⟩)
        | cons _ d _ ds hd ht =>
          rw [digitChar_iff.mpr hd]
          exact (ih _).2.mpr (.inr ⟨_, ds, .inl rfl, ht, h⟩)
        | under _ d _ ds hd ht =>
          rw [digitChar_iff.mpr hd]
          exact (ih _).2.mpr (.inr ⟨_, ds, .inr rfl, ht, h⟩)
    have hno : ∀ {t ds}, ¬DigitText base ('_' :: t) ds := by
      intro t ds h
      cases h with
      | one _ _ h => exact (digitChar_special h).1 rfl
      | cons _ _ _ _ h => exact (digitChar_special h).1 rfl
      | under _ _ _ _ h => exact (digitChar_special h).1 rfl
    by_cases hc : c = '_'
    · subst hc
      constructor
      · simp only [readDigits, if_true, reduceCtorEq, false_iff]
        rintro ⟨ds, h, -⟩
        exact hno h
      · rw [readDigits, if_pos rfl, if_neg (by decide), (ih _).1]
        constructor
        · rintro ⟨ds, h1, h2⟩
          exact .inr ⟨r, ds, .inr rfl, h1, h2⟩
        · rintro (⟨h, -⟩ | ⟨t, ds, rfl | h, h1, h2⟩)
          · cases h
          · exact absurd h1 hno
          · cases h
            exact ⟨ds, h1, h2⟩
    · refine ⟨hdig true hc, ?_⟩
      rw [hdig false hc]
      constructor
      · rintro ⟨ds, h1, h2⟩
        exact .inr ⟨_, ds, .inl rfl, h1, h2⟩
      · rintro (⟨h, -⟩ | ⟨t, ds, rfl | h, h1, h2⟩)
        · cases h
        · exact ⟨ds, h1, h2⟩
        · exact absurd (List.cons.inj h).1 hc

theorem unsignedText_iff {base : Nat} {s : Str} {n : Nat} :
    readDigits base 0 true (skipHexPrefix base s) = some n ↔ UnsignedText base s n := by
  rw [(readDigits_iff 0 n).1]
  simp only [foldl_ofDigits, Nat.zero_mul, Nat.zero_add]
  have hx' : ∀ {t : Str} {ds : List Nat} {z x : Char}, DigitText base (z :: x :: t) ds → x ≠ 'x' ∧ x ≠ 'X' := by
    intro t ds z x h
    cases h with
    | cons _ _ _ _ _ h =>
      have : ∃ d, DigitChar base x d := by cases h <;> exact ⟨_, by assumption⟩
      obtain ⟨d, h⟩ := this
      exact (digitChar_special h).2.2.2
    | under => decide
  constructor
  · rintro ⟨ds, h, rfl⟩
    unfold skipHexPrefix at h
    split at h
    · rename_i z x r
      split at h
      · rename_i hp
        split at h
        · split at h
          · rename_i hc
            rw [hc]
            exact .hexUnder z x _ ds hp.1 hp.2.1 hp.2.2 h
          · exact .hex z x _ ds hp.1 hp.2.1 hp.2.2 h
        · exact .hex z x _ ds hp.1 hp.2.1 hp.2.2 h
      · exact .plain _ ds h
    · exact .plain _ ds h
  · intro h
    cases h with
    | plain _ ds h =>
      refine ⟨ds, ?_, rfl⟩
      unfold skipHexPrefix
      split
      · rw [if_neg]
        · exact h
        · rintro ⟨-, -, hp⟩
          rcases hp with hp | hp
          · exact (hx' h).1 hp
          · exact (hx' h).2 hp
      · exact h
    | hex z x t ds hb hz hx h =>
      refine ⟨ds, ?_, rfl⟩
      simp only [skipHexPrefix]
      rw [if_pos ⟨hb, hz, hx⟩]
      split
      · rw [if_neg]
        · exact h
        · rintro rfl
          cases h with
          | one _ _ h => exact (digitChar_special h).1 rfl
          | cons _ _ _ _ h => exact (digitChar_special h).1 rfl
          | under _ _ _ _ h => exact (digitChar_special h).1 rfl
      · exact h
    | hexUnder z x t ds hb hz hx h =>
      refine ⟨ds, ?_, rfl⟩
      simp only [skipHexPrefix]
      rw [if_pos ⟨hb, hz, hx⟩, if_pos trivial]
      exact h

theorem unsignedText_head {base : Nat} {c : Char} {t : Str} {n : Nat} (h : UnsignedText base (c :: t) n) :
    c ≠ '+' ∧ c ≠ '-' := by
  have hd : ∃ d, DigitChar base c d := by
    cases h with
    | plain _ ds h => cases h <;> exact ⟨_, by assumption⟩
    | hex _ _ _ _ _ hz => exact ⟨0, .dec _ _ hz⟩
    | hexUnder _ _ _ _ _ hz => exact ⟨0, .dec _ _ hz⟩
  obtain ⟨d, hd⟩ := hd
  exact ⟨(digitChar_special hd).2.1, (digitChar_special hd).2.2.1⟩

theorem signedText_iff {base : Nat} {s : Str} {n : Int} :
    (readDigits base 0 true (skipHexPrefix base (intSign s).2)).map (fun (n : Nat) =>
      if (intSign s).1 then -(Int.ofNat n) else Int.ofNat n) = some n ↔ SignedText base s n := by
  rw [Option.map_eq_some_iff]
  simp only [unsignedText_iff]
  constructor
  · rintro ⟨k, h, hn⟩
    unfold intSign at h hn
    split at h
    · cases hn
      exact .minus _ k h
    · cases hn
      exact .plus _ k h
    · rename_i h1 h2
      have e : (intSign s) = (false, s) := by
        unfold intSign
        split
        · exact absurd rfl (h1 _)
        · exact absurd rfl (h2 _)
        · rfl
      unfold intSign at e
      rw [e] at hn
      cases hn
      exact .plain _ k h
  · intro h
    cases h with
    | plus t k h => exact ⟨k, h, rfl⟩
    | minus t k h => exact ⟨k, h, rfl⟩
    | plain _ k h =>
      have e : intSign s = (false, s) := by
        unfold intSign
        split
        · exact absurd rfl (unsignedText_head h).2
        · exact absurd rfl (unsignedText_head h).1
        · rfl
      rw [e]
      exact ⟨k, h, rfl⟩

omit [PyEnv] in
theorem strip_parts (p : Char → Bool) (s : Str) : ∃ pre post, s = pre ++ stripBoth p s ++ post ∧
    (∀ c ∈ pre, p c = true) ∧ (∀ c ∈ post, p c = true) ∧ (∀ c, (stripBoth p s).head? = some c → p c = false) ∧
    ∀ c, (stripBoth p s).getLast? = some c → p c = false := by
  have hhead : ∀ (l : Str) c, (l.dropWhile p).head? = some c → p c = false := by
    intro l c h
    induction l with
    | nil => cases h
    | cons x l ih =>
      rw [List.dropWhile_cons] at h
      split at h
      · exact ih h
      · rename_i hx
        cases h
        simpa using hx
  have htake : ∀ (l : Str), ∀ c ∈ l.takeWhile p, p c = true := by
    intro l
    induction l with
    | nil => simp
    | cons x l ih =>
      rw [List.takeWhile_cons]
      split
      · intro c hc
        rcases List.mem_cons.mp hc with rfl | hc
        · assumption
        · exact ih c hc
      · simp
  have hb : s.dropWhile p = stripBoth p s ++ ((s.dropWhile p).reverse.takeWhile p).reverse := by
    unfold stripBoth
    rw [← List.reverse_append, List.takeWhile_append_dropWhile, List.reverse_reverse]
  refine ⟨s.takeWhile p, ((s.dropWhile p).reverse.takeWhile p).reverse, ?_, htake s, ?_, ?_, ?_⟩
  · rw [List.append_assoc, ← hb, List.takeWhile_append_dropWhile]
  · intro c hc
    exact htake _ c (List.mem_reverse.mp hc)
  · intro c hc
    apply hhead s
    rw [hb, List.head?_append, hc]
    rfl
  · intro c hc
    apply hhead (s.dropWhile p).reverse
    unfold stripBoth at hc
    rwa [List.getLast?_reverse] at hc

omit [PyEnv] in
theorem strip_whole {p : Char → Bool} {pre t post : Str} (h1 : ∀ c ∈ pre, p c = true) (h2 : ∀ c ∈ post, p c = true)
    (h3 : ∀ c, t.head? = some c → p c = false) (h4 : ∀ c, t.getLast? = some c → p c = false) :
    stripBoth p (pre ++ t ++ post) = t := by
  have hpost : stripBoth p (pre ++ t ++ post) = stripBoth p (pre ++ t) := by
    induction post using List.reverseRecOn with
    | nil => simp
    | append_singleton post c ih =>
      rw [← List.append_assoc, stripBoth_snoc (h2 c (by simp))]
      exact ih fun c hc => h2 c (by simp [hc])
  rw [hpost]
  clear hpost h2 post
  induction pre with
  | nil => exact stripBoth_of_ends h3 h4
  | cons c pre ih =>
    rw [List.cons_append, stripBoth_cons (h1 c (by simp))]
    exact ih fun c hc => h1 c (by simp [hc])

/-- C20: the texts read as integers, and the integers they are, are those of the grammar. -/
theorem int_text_iff {base : Nat} {s : Str} {n : Int} : pyInt base s = some n ↔ IntText base s n := by
  unfold pyInt IntText
  simp only
  rw [signedText_iff]
  constructor
  · intro h
    obtain ⟨pre, post, h0, h1, h2, h3, h4⟩ := strip_parts intSpace s
    refine ⟨pre, _, post, h0, fun c hc => intBlank_iff.mp (h1 c hc), fun c hc => intBlank_iff.mp (h2 c hc), ?_, ?_, h⟩
    · intro c hc hb
      exact absurd (h3 c hc) (by simp [intBlank_iff.mpr hb])
    · intro c hc hb
      exact absurd (h4 c hc) (by simp [intBlank_iff.mpr hb])
  · rintro ⟨pre, t, post, rfl, h1, h2, h3, h4, h⟩
    rw [strip_whole (fun c hc => intBlank_iff.mpr (h1 c hc)) (fun c hc => intBlank_iff.mpr (h2 c hc)) ?_ ?_]
    · exact h
    · intro c hc
      have := h3 c hc
      rw [← intBlank_iff] at this
      simpa using this
    · intro c hc
      have := h4 c hc
      rw [← intBlank_iff] at this
      simpa using this

/-- C20: a receipt's serial text denotes a certificate exactly if the text, after dropping one minus sign, is the
absolute value of its serial number in the grammar of base 16 or base 10. -/
theorem serial_text_iff {text : Str} {n : Int} : SerialMatches text n ↔
    ∃ t base, (text = '-' :: t ∨ text = t ∧ t ≠ [] ∧ ∀ u, t ≠ '-' :: u) ∧ (base = 16 ∨ base = 10) ∧ IntText base t |n| := by
  unfold SerialMatches SerialText
  simp only [int_text_iff]
  constructor
  · rintro (⟨t, h1, h2⟩ | ⟨t, h1, h2⟩)
    · exact ⟨t, 16, h1, .inl rfl, h2⟩
    · exact ⟨t, 10, h1, .inr rfl, h2⟩
  · rintro ⟨t, base, h1, rfl | rfl, h2⟩
    · exact .inl ⟨t, h1, h2⟩
    · exact .inr ⟨t, h1, h2⟩

end

namespace Demo

attribute [local instance] env

/-- A capital prefix, an underscore and blanks. -/
example : IntText 16 c!" -0X_1_fF\n" (-511) := int_text_iff.mp (by decide +kernel)

/-- Two underscores are not allowed. -/
example : ¬∃ n, IntText 16 c!"1__0" n := by
  rintro ⟨n, h⟩
  have := int_text_iff.mpr h
  have h' : pyInt 16 c!"1__0" = none := by decide +kernel
  rw [h'] at this
  cases this

end Demo

end RKSV
