import Verif.Lemmas.Formats
import Verif.Lemmas.Serial
/-
The patterns for ZDA and sums, and the numbers sums denote.
-/
namespace RKSV

section
variable [PyEnv]

omit [PyEnv] in
theorem stripNl_form {P : Str → Prop} (hP : ∀ t, P t → t.getLast? ≠ some '\n') (s : Str) :
    P (stripNl s) ↔ UpToNewline P s := by
  constructor
  · intro h
    rcases stripNl_cases s with h1 | h1
    · left; rwa [h1] at h
    · right; exact ⟨_, h1, h⟩
  · rintro (h | ⟨t, rfl, h⟩)
    · rwa [stripNl_of_last (hP _ h)]
    · have : stripNl (t ++ ['\n']) = t := by
        unfold stripNl; rw [if_pos (by simp), List.dropLast_concat]
      rwa [this]

theorem matchPosNum_iff {s : Str} : matchPosNum s = true ↔
    ∃ d r, s = d :: r ∧ ('1' ≤ d ∧ d ≤ '9') ∧ ∀ c ∈ r, (digitVal c).isSome := by
  cases s with
  | nil => simp [matchPosNum]
  | cons c r =>
    simp only [matchPosNum, Bool.and_eq_true, decide_eq_true_eq, List.all_eq_true, List.cons.injEq]
    constructor
    · rintro ⟨⟨h1, h2⟩, h3⟩; exact ⟨c, r, ⟨rfl, rfl⟩, ⟨h1, h2⟩, h3⟩
    · rintro ⟨d, r', ⟨rfl, rfl⟩, ⟨h1, h2⟩, h3⟩; exact ⟨⟨h1, h2⟩, h3⟩

theorem digitVal_nl : digitVal '\n' = none := by
  rw [PyEnv.digitVal_ascii (by decide)]; rfl

theorem digitVal_minus : digitVal '-' = none := by
  rw [PyEnv.digitVal_ascii (by decide)]; rfl

theorem digitVal_comma : digitVal ',' = none := by
  rw [PyEnv.digitVal_ascii (by decide)]; rfl

theorem ZdaForm.last {t : Str} (h : ZdaForm t) : t.getLast? ≠ some '\n' := by
  cases h with
  | closed => decide
  | provider a b d r ha hb hd hr =>
    intro h
    have hm : ∀ c, (d :: r).getLast? = some c → c ≠ '\n' := by
      intro c hc
      have := List.mem_of_getLast? hc
      rcases List.mem_cons.mp this with rfl | h2
      · rintro rfl; exact absurd hd.1 (by decide)
      · rintro rfl; have := hr _ h2; rw [digitVal_nl] at this; simp at this
    have : (a :: b :: d :: r).getLast? = (d :: r).getLast? := by simp [List.getLast?_cons_cons]
    rw [this] at h
    exact hm _ h rfl

theorem zdaForm_iff (t : Str) : ZdaForm t ↔ t = AT0 ∨
    (match t with
      | a :: b :: r => asciiUpper a && asciiUpper b && matchPosNum r
      | _ => false) = true := by
  constructor
  · intro h
    cases h with
    | closed => left; rfl
    | provider a b d r ha hb hd hr =>
      right
      simp only [asciiUpper, Bool.and_eq_true, decide_eq_true_eq, matchPosNum_iff]
      exact ⟨⟨ha, hb⟩, d, r, rfl, hd, hr⟩
  · rintro (rfl | h)
    · exact .closed
    · split at h
      · rename_i a b r
        simp only [asciiUpper, Bool.and_eq_true, decide_eq_true_eq, matchPosNum_iff] at h
        obtain ⟨⟨ha, hb⟩, d, r', rfl, hd, hr⟩ := h
        exact .provider a b d r' ha hb hd hr
      · cases h

theorem matchZda_iff {s : Str} : matchZda s = true ↔ UpToNewline ZdaForm s := by
  rw [← stripNl_form (fun _ => ZdaForm.last), zdaForm_iff]
  unfold matchZda
  simp only [Bool.or_eq_true, decide_eq_true_eq]
  exact Iff.rfl

/-! ### Sums -/

omit [PyEnv] in
theorem decNum_append (l : List Nat) (d : Nat) : decNum (l ++ [d]) = 10 * decNum l + d := by
  simp [decNum]

theorem decVal_eq {w : Str} (h : ∀ c ∈ w, (digitVal c).isSome) :
    decVal w = decNum (w.filterMap digitVal) := by
  induction w using List.reverseRecOn with
  | nil => rfl
  | append_singleton l c ih =>
    obtain ⟨n, hn⟩ := Option.isSome_iff_exists.mp (h c (by simp))
    have e1 : decVal (l ++ [c]) = decVal l * 10 + n := by simp [decVal, hn]
    have e2 : (l ++ [c]).filterMap digitVal = l.filterMap digitVal ++ [n] := by simp [hn]
    rw [e1, e2, decNum_append, ih fun x hx => h x (by simp [hx])]
    ring

theorem matchWhole_digits {w : Str} (h : matchWhole w = true) : ∀ c ∈ w, (digitVal c).isSome := by
  match w, h with
  | [c], h => simpa [matchWhole] using h
  | c :: d :: r, h =>
    simp only [matchWhole, Bool.and_eq_true, decide_eq_true_eq, List.all_eq_true] at h
    intro x hx
    rcases List.mem_cons.mp hx with rfl | hx
    · rw [char_le_iff, char_le_iff] at h
      have h1 : 49 ≤ x.toNat := h.1.1
      have h2 : x.toNat ≤ 57 := h.1.2
      rw [PyEnv.digitVal_ascii (by omega), asciiDigit_of_lt (by omega) (by omega)]
      rfl
    · exact h.2 x hx

omit [PyEnv] in
theorem cutAt_eq_some {p : Char → Bool} {s a b : Str} (h : cutAt p s = some (a, b)) :
    ∃ c, p c = true ∧ s = a ++ c :: b ∧ ∀ x ∈ a, p x = false := by
  induction s generalizing a with
  | nil => simp [cutAt] at h
  | cons c r ih =>
    simp only [cutAt] at h
    split at h
    · rename_i hp
      cases h
      exact ⟨c, hp, by simp, by simp⟩
    · rename_i hp
      cases hc : cutAt p r with
      | none => simp [hc] at h
      | some q =>
        obtain ⟨a', b'⟩ := q
        simp only [hc, Option.map_some, Option.some.injEq, Prod.mk.injEq] at h
        obtain ⟨rfl, rfl⟩ := h
        obtain ⟨c', h1, rfl, h3⟩ := ih hc
        refine ⟨c', h1, by simp, ?_⟩
        intro x hx
        rcases List.mem_cons.mp hx with rfl | hx
        · simpa using hp
        · exact h3 x hx

theorem parseUnsignedCents_iff {t : Str} {n : Nat} : parseUnsignedCents t = some n ↔
    AmountForm t ∧ n = decNum (t.filterMap digitVal) := by
  constructor
  · intro h
    unfold parseUnsignedCents at h
    split at h
    · rename_i w a b hcut
      split at h
      · rename_i x y hw ha hb
        obtain ⟨c, hc, rfl, -⟩ := cutAt_eq_some hcut
        have : c = ',' := by simpa using hc
        subst this
        cases h
        have hd := matchWhole_digits hw
        constructor
        · match w, hw with
          | [c], hw => exact .short c a b (hd c (by simp)) (by simp [ha]) (by simp [hb])
          | c :: d :: r, hw =>
            simp only [matchWhole, Bool.and_eq_true, decide_eq_true_eq, List.all_eq_true] at hw
            exact .long c (d :: r) a b hw.1 (by simp) hw.2 (by simp [ha]) (by simp [hb])
        · have : (w ++ [',', a, b]).filterMap digitVal = w.filterMap digitVal ++ [x] ++ [y] := by
            simp [digitVal_comma, ha, hb]
          rw [this, decNum_append, decNum_append, decVal_eq hd]
          ring
      · cases h
    · cases h
  · rintro ⟨hf, rfl⟩
    have key : ∀ (w : Str) (a b : Char), matchWhole w = true → (digitVal a).isSome → (digitVal b).isSome →
        parseUnsignedCents (w ++ [',', a, b]) =
          some (decNum ((w ++ [',', a, b]).filterMap digitVal)) := by
      intro w a b hw ha hb
      obtain ⟨x, hx⟩ := Option.isSome_iff_exists.mp ha
      obtain ⟨y, hy⟩ := Option.isSome_iff_exists.mp hb
      have hd := matchWhole_digits hw
      have hcut : cutAt (· == ',') (w ++ ',' :: [a, b]) = some (w, [a, b]) := by
        apply cutAt_append
        · intro c hc
          have := hd c hc
          by_contra h
          have : c = ',' := by simpa using h
          subst this
          rw [digitVal_comma] at this; simp_all
        · simp
      unfold parseUnsignedCents
      rw [show w ++ [',', a, b] = w ++ ',' :: [a, b] from rfl, hcut]
      simp only [hw, hx, hy]
      have : (w ++ [',', a, b]).filterMap digitVal = w.filterMap digitVal ++ [x] ++ [y] := by
        simp [digitVal_comma, hx, hy]
      rw [show w ++ ',' :: [a, b] = w ++ [',', a, b] from rfl, this, decNum_append, decNum_append,
        decVal_eq hd]
      congr 1; ring
    cases hf with
    | short w a b hw ha hb => exact key [w] a b (by simp [matchWhole, hw]) ha hb
    | long d r a b hd hr0 hr ha hb =>
      have : matchWhole (d :: r) = true := by
        obtain ⟨e, r', rfl⟩ := List.exists_cons_of_ne_nil hr0
        simp only [matchWhole, Bool.and_eq_true, decide_eq_true_eq, List.all_eq_true]
        exact ⟨hd, hr⟩
      exact key (d :: r) a b this ha hb

theorem AmountForm.digits {t : Str} (h : AmountForm t) : ∀ c ∈ t, (digitVal c).isSome ∨ c = ',' := by
  have hdig : ∀ d : Char, '1' ≤ d ∧ d ≤ '9' → (digitVal d).isSome := by
    intro x h
    rw [char_le_iff, char_le_iff] at h
    have h1 : 49 ≤ x.toNat := h.1
    have h2 : x.toNat ≤ 57 := h.2
    rw [PyEnv.digitVal_ascii (by omega), asciiDigit_of_lt (by omega) (by omega)]
    rfl
  cases h with
  | short w a b hw ha hb =>
    intro c hc
    simp only [List.mem_cons, List.not_mem_nil, or_false] at hc
    rcases hc with rfl | rfl | rfl | rfl <;> simp_all
  | long d r a b hd hr0 hr ha hb =>
    intro c hc
    simp only [List.mem_cons, List.mem_append, List.not_mem_nil, or_false] at hc
    rcases hc with rfl | h | rfl | rfl | rfl
    · exact Or.inl (hdig _ hd)
    · exact Or.inl (hr _ h)
    all_goals simp_all

theorem AmountForm.minus {t : Str} (h : AmountForm t) : '-' ∉ t := by
  intro hm
  rcases h.digits _ hm with h | h
  · rw [digitVal_minus] at h; simp at h
  · exact absurd h (by decide)

theorem AmountForm.nl {t : Str} (h : AmountForm t) : '\n' ∉ t := by
  intro hm
  rcases h.digits _ hm with h | h
  · rw [digitVal_nl] at h; simp at h
  · exact absurd h (by decide)

theorem SumForm.nl {t : Str} (h : SumForm t) : '\n' ∉ t := by
  rcases h with h | ⟨t, rfl, h⟩
  · exact h.nl
  · have := h.nl; simp [this]

theorem SumForm.last {t : Str} (h : SumForm t) : t.getLast? ≠ some '\n' :=
  fun hl => h.nl (List.mem_of_getLast? hl)

theorem splitSign_parse {t : Str} {n : Nat} : parseUnsignedCents (splitSign t).2 = some n ↔
    SumForm t ∧ n = decNum (t.filterMap digitVal) ∧ ((splitSign t).1 = true ↔ '-' ∈ t) := by
  by_cases h : ∃ r, t = '-' :: r
  · obtain ⟨r, rfl⟩ := h
    simp only [splitSign, parseUnsignedCents_iff]
    have e : ('-' :: r).filterMap digitVal = r.filterMap digitVal := by simp [digitVal_minus]
    rw [e]
    constructor
    · rintro ⟨h1, h2⟩
      exact ⟨Or.inr ⟨r, rfl, h1⟩, h2, by simp⟩
    · rintro ⟨h1 | ⟨r', hr, h1⟩, h2, -⟩
      · exact absurd (by simp) h1.minus
      · cases hr; exact ⟨h1, h2⟩
  · have e : splitSign t = (false, t) := by
      unfold splitSign
      split
      · exact absurd ⟨_, rfl⟩ h
      · rfl
    simp only [e, parseUnsignedCents_iff]
    constructor
    · rintro ⟨h1, h2⟩
      exact ⟨Or.inl h1, h2, by simpa using h1.minus⟩
    · rintro ⟨h1 | ⟨r', rfl, h1⟩, h2, -⟩
      · exact ⟨h1, h2⟩
      · exact absurd ⟨_, rfl⟩ h

theorem amountCents_stripNl (s : Str) : amountCents (stripNl s) = amountCents s := by
  rcases stripNl_cases s with h | h
  · rw [h]
  · conv_rhs => rw [h]
    simp [amountCents, digitVal_nl]

/-- The sum texts accepted and the number of cents read. -/
theorem parseCents_iff {s : Str} {n : Int} : parseCents s = some n ↔
    UpToNewline SumForm s ∧ n = amountCents s := by
  rw [← stripNl_form (fun _ => SumForm.last), ← amountCents_stripNl]
  simp only [parseCents]
  generalize stripNl s = t
  constructor
  · intro h
    obtain ⟨m, hm, rfl⟩ := Option.map_eq_some_iff.mp h
    obtain ⟨h1, rfl, h3⟩ := splitSign_parse.mp hm
    refine ⟨h1, ?_⟩
    unfold amountCents
    by_cases hs : '-' ∈ t
    · simp [hs, h3.mpr hs]
    · have : (splitSign t).1 = false := by simpa using fun h => hs (h3.mp h)
      simp [hs, this]
  · rintro ⟨h1, rfl⟩
    have hsign : (splitSign t).1 = true ↔ '-' ∈ t := by
      rcases h1 with h1 | ⟨r, rfl, h1⟩
      · unfold splitSign
        split
        · exact absurd (by simp) h1.minus
        · simpa using h1.minus
      · simp [splitSign]
    have := splitSign_parse.mpr ⟨h1, rfl, hsign⟩
    rw [this]
    simp only [Option.map_some, Option.some.injEq, amountCents]
    by_cases hs : '-' ∈ t
    · simp [hs, hsign.mpr hs]
    · have : (splitSign t).1 = false := by simpa using fun h => hs (hsign.mp h)
      simp [hs, this]

theorem getReceiptFloat_iff {s : Str} {x : F64} : getReceiptFloat s = some x ↔
    UpToNewline SumForm s ∧ x = centsToF64 (amountCents s) := by
  unfold getReceiptFloat
  constructor
  · intro h
    obtain ⟨n, hn, rfl⟩ := Option.map_eq_some_iff.mp h
    obtain ⟨h1, rfl⟩ := parseCents_iff.mp hn
    exact ⟨h1, rfl⟩
  · rintro ⟨h, rfl⟩
    rw [parseCents_iff.mpr ⟨h, rfl⟩]; rfl

omit [PyEnv] in
theorem decNum_eq_zero {l : List Nat} : decNum l = 0 ↔ ∀ n ∈ l, n = 0 := by
  induction l using List.reverseRecOn with
  | nil => simp [decNum]
  | append_singleton l d ih =>
    rw [decNum_append]
    constructor
    · intro h n hn
      rcases List.mem_append.mp hn with hn | hn
      · exact ih.mp (by omega) n hn
      · simp at hn; omega
    · intro h
      have h1 := ih.mpr fun n hn => h n (by simp [hn])
      have h2 := h d (by simp)
      omega

theorem amountCents_eq_zero {s : Str} : amountCents s = 0 ↔ ZeroAmount s := by
  unfold amountCents ZeroAmount
  have : ((if '-' ∈ s then -1 else 1 : Int) * (decNum (s.filterMap digitVal) : Int) = 0) ↔
      decNum (s.filterMap digitVal) = 0 := by
    rw [mul_eq_zero]
    constructor
    · rintro (h | h)
      · split at h <;> omega
      · exact_mod_cast h
    · intro h; right; exact_mod_cast h
  rw [this, decNum_eq_zero]
  constructor
  · intro h c hc n hn
    exact h n (List.mem_filterMap.mpr ⟨c, hc, hn⟩)
  · intro h n hn
    obtain ⟨c, hc, hn⟩ := List.mem_filterMap.mp hn
    exact h c hc n hn

end

end RKSV
