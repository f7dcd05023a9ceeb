import Verif.Spec.SortedIds
import Verif.Lemmas.VerifyGroup
import Mathlib.Data.List.Chain
/-
Lemmas about the natural order of receipt IDs.
-/
namespace RKSV

theorem isAsciiDigit_iff {c : Char} : isAsciiDigit c = true ↔ Digit c := by
  unfold isAsciiDigit asciiDigit Digit
  split <;> simp_all

theorem isAsciiDigit_false {c : Char} : isAsciiDigit c = false ↔ ¬Digit c := by
  rw [← isAsciiDigit_iff]; simp

theorem numSplit_cut (r cur : Str) :
    ((∀ c ∈ cur, ¬Digit c) → Cut (cur.reverse ++ r) (numSplit cur false r)) ∧
    ((∀ c ∈ cur, Digit c) → ∃ d s l, numSplit cur true r = d :: l ∧ d = cur.reverse ++ (r.take (d.length - cur.length)) ∧
      (∀ c ∈ d, Digit c) ∧ cur.reverse ++ r = d ++ s ∧ (∀ c, s.head? = some c → ¬Digit c) ∧ Cut s l) := by
  induction r generalizing cur with
  | nil =>
    refine ⟨fun h => ?_, fun h => ?_⟩
    · simp only [List.append_nil, numSplit, Bool.false_eq_true, if_false]
      exact .text _ (by simpa using h)
    · refine ⟨cur.reverse, [], [[]], rfl, by simp, by simpa using h, by simp, by simp, .text _ (by simp)⟩
  | cons c r ih =>
    refine ⟨fun h => ?_, fun h => ?_⟩
    · unfold numSplit
      by_cases hc : isAsciiDigit c = false
      · rw [if_pos hc]
        have := (ih (c :: cur)).1 (by
          intro x hx
          rcases List.mem_cons.mp hx with rfl | hx
          · exact isAsciiDigit_false.mp hc
          · exact h x hx)
        simpa using this
      · rw [if_neg hc]
        have hc' : isAsciiDigit c = true := by simpa using hc
        rw [hc']
        obtain ⟨d, s, l, e1, e2, e3, e4, e5, e6⟩ := (ih [c]).2 (by
          intro x hx
          rw [List.mem_singleton] at hx
          subst hx
          exact isAsciiDigit_iff.mp hc')
        rw [e1]
        have : cur.reverse ++ c :: r = cur.reverse ++ d ++ s := by
          simp only [List.reverse_cons, List.reverse_nil, List.nil_append, List.singleton_append] at e4
          rw [e4, List.append_assoc]
        rw [this]
        refine .run _ _ _ _ (by simpa using h) ?_ e3 e5 e6
        rw [e2]; simp
    · unfold numSplit
      by_cases hc : isAsciiDigit c = true
      · rw [if_pos hc]
        obtain ⟨d, s, l, e1, e2, e3, e4, e5, e6⟩ := (ih (c :: cur)).2 (by
          intro x hx
          rcases List.mem_cons.mp hx with rfl | hx
          · exact isAsciiDigit_iff.mp hc
          · exact h x hx)
        refine ⟨d, s, l, e1, ?_, e3, by simpa using e4, e5, e6⟩
        have hl : cur.length + 1 ≤ d.length := by
          have := congrArg List.length e2
          simp at this
          omega
        rw [List.length_cons] at e2
        rw [show d.length - cur.length = (d.length - (cur.length + 1)) + 1 by omega, List.take_succ_cons]
        conv_lhs => rw [e2]
        simp
      · rw [if_neg hc]
        have hc' : isAsciiDigit c = false := by simpa using hc
        rw [hc']
        have := (ih [c]).1 (by
          intro x hx
          rw [List.mem_singleton] at hx
          subst hx
          exact isAsciiDigit_false.mp hc')
        refine ⟨cur.reverse, c :: r, _, rfl, by simp, by simpa using h, rfl, ?_, by simpa using this⟩
        intro x hx
        cases hx
        exact isAsciiDigit_false.mp hc'

theorem run_unique {P : Char → Prop} {a b r r' : Str} (ha : ∀ c ∈ a, P c) (hb : ∀ c ∈ b, P c)
    (hr : ∀ c, r.head? = some c → ¬P c) (hr' : ∀ c, r'.head? = some c → ¬P c)
    (h : a ++ r = b ++ r') : a = b ∧ r = r' := by
  induction a generalizing b with
  | nil =>
    cases b with
    | nil => exact ⟨rfl, h⟩
    | cons x b =>
      simp only [List.nil_append] at h
      exact absurd (hb x (by simp)) (hr x (by rw [h]; rfl))
  | cons y a ih =>
    cases b with
    | nil =>
      simp only [List.nil_append] at h
      exact absurd (ha y (by simp)) (hr' y (by rw [← h]; rfl))
    | cons x b =>
      simp only [List.cons_append, List.cons.injEq] at h
      obtain ⟨rfl, h⟩ := h
      obtain ⟨rfl, rfl⟩ := ih (fun c hc => ha c (by simp [hc])) (fun c hc => hb c (by simp [hc])) h
      exact ⟨rfl, rfl⟩

theorem head_append {d r : Str} (hn : d ≠ []) (hd : ∀ c ∈ d, Digit c) :
    ∀ c, (d ++ r).head? = some c → ¬¬Digit c := by
  intro c hc
  cases d with
  | nil => exact absurd rfl hn
  | cons x d => cases hc; exact not_not.mpr (hd _ (by simp))

theorem Cut.unique {s : Str} {l l' : List Str} (h : Cut s l) (h' : Cut s l') : l = l' := by
  induction h generalizing l' with
  | text t ht =>
    cases h' with
    | text => rfl
    | run t' d r l ht' hn hd hmax h =>
      cases d with
      | nil => exact absurd rfl hn
      | cons c d => exact absurd (hd c (by simp)) (ht c (by simp))
  | run t d r l ht hn hd hmax h ih =>
    generalize e : t ++ d ++ r = s at h'
    cases h' with
    | text s ht' =>
      subst e
      cases d with
      | nil => exact absurd rfl hn
      | cons c d => exact absurd (hd c (by simp)) (ht' c (by simp))
    | run t' d' r' l' ht' hn' hd' hmax' h' =>
      rw [List.append_assoc, List.append_assoc] at e
      obtain ⟨rfl, e2⟩ := run_unique (P := fun c => ¬Digit c) ht ht' (head_append hn hd)
        (head_append hn' hd') e
      obtain ⟨rfl, rfl⟩ := run_unique hd hd' hmax hmax' e2
      rw [ih h']

theorem cut_iff {s : Str} {l : List Str} : Cut s l ↔ numSplit [] false s = l := by
  have h := (numSplit_cut s []).1 (by simp)
  simp only [List.reverse_nil, List.nil_append] at h
  exact ⟨fun h' => h.unique h', fun e => e ▸ h⟩

/-! ### The order of keys -/

theorem PartLt.irrefl {a : KeyPart} : ¬PartLt a a := by
  intro h
  cases h with
  | num n _ h => exact lt_irrefl _ h
  | txt s _ h => exact List.lt_irrefl _ h

theorem PartLt.trans {a b c : KeyPart} (h : PartLt a b) (h' : PartLt b c) : PartLt a c := by
  cases h with
  | num m n h => cases h' with | num _ k h' => exact .num _ _ (lt_trans h h')
  | txt s t h => cases h' with | txt _ k h' => exact .txt _ _ (List.lt_trans h h')

theorem keyLt_iff {a b : List KeyPart} : keyLt a b = .ok true ↔ KeyLt a b := by
  constructor
  · intro h
    induction a generalizing b with
    | nil =>
      cases b with
      | nil => simp [keyLt] at h
      | cons y b => exact .short [] y b
    | cons x a ih =>
      cases b with
      | nil => simp [keyLt] at h
      | cons y b =>
        unfold keyLt at h
        split at h
        · rename_i e
          subst e
          cases ih h with
          | short _ z r => exact .short (x :: a) z r
          | diff p u v r r' hl => exact .diff (x :: p) u v r r' hl
        · split at h
          · simp only [Except.ok.injEq, decide_eq_true_eq] at h
            exact .diff [] _ _ _ _ (.num _ _ h)
          · simp only [Except.ok.injEq, decide_eq_true_eq] at h
            exact .diff [] _ _ _ _ (.txt _ _ h)
          · cases h
  · intro h
    cases h with
    | short _ x r =>
      induction a with
      | nil => simp [keyLt]
      | cons y a ih =>
        simp only [List.cons_append, keyLt, if_true]
        exact ih
    | diff p x y r r' h =>
      induction p with
      | nil =>
        simp only [List.nil_append, keyLt]
        have hn : x ≠ y := by rintro rfl; exact h.irrefl
        rw [if_neg hn]
        cases h with
        | num m n h => simpa using h
        | txt s t h => simpa using h
      | cons z p ih =>
        simp only [List.cons_append, keyLt, if_true]
        exact ih

theorem keyLt_irrefl (a : List KeyPart) : keyLt a a = .ok false := by
  induction a with
  | nil => rfl
  | cons x a ih => simp only [keyLt, if_true, ih]

theorem keyLt_trans {a b c : List KeyPart} (h : keyLt a b = .ok true) (h' : keyLt b c = .ok true) :
    keyLt a c = .ok true := by
  induction a generalizing b c with
  | nil =>
    cases c with
    | nil => cases b <;> simp [keyLt] at h'
    | cons z c => rfl
  | cons x a ih =>
    cases b with
    | nil => simp [keyLt] at h
    | cons y b =>
      cases c with
      | nil => simp [keyLt] at h'
      | cons z c =>
        unfold keyLt at h h' ⊢
        by_cases e1 : x = y
        · subst e1
          rw [if_pos rfl] at h
          by_cases e2 : x = z
          · rw [if_pos e2] at h' ⊢; exact ih h h'
          · rw [if_neg e2] at h' ⊢; exact h'
        · rw [if_neg e1] at h
          by_cases e2 : y = z
          · subst e2; rw [if_neg e1]; exact h
          · rw [if_neg e2] at h'
            have p1 : PartLt x y := by
              cases x <;> cases y <;> simp at h
              · exact .num _ _ h
              · exact .txt _ _ h
            have p2 : PartLt y z := by
              cases y <;> cases z <;> simp at h'
              · exact .num _ _ h'
              · exact .txt _ _ h'
            have p3 := p1.trans p2
            have e3 : x ≠ z := by rintro rfl; exact p3.irrefl
            rw [if_neg e3]
            cases p3 with
            | num m n hl => simpa using hl
            | txt s t hl => simpa using hl

section
variable [PyEnv]

theorem convertPart_iff {t : Str} {k : KeyPart} : convertPart t = .ok k ↔ PartOf t k := by
  unfold convertPart
  by_cases hd : isDigitStr t = true
  · rw [if_pos hd]
    cases hi : pyInt 10 t with
    | none =>
      constructor
      · intro h; cases h
      · intro h
        cases h with
        | num n hd h => rw [hi] at h; cases h
        | txt hd' => rw [hd] at hd'; cases hd'
    | some n =>
      constructor
      · intro h; cases h; exact .num _ _ hd hi
      · intro h
        cases h with
        | num m hd h => rw [hi] at h; cases h; rfl
        | txt hd' => rw [hd] at hd'; cases hd'
  · rw [if_neg hd]
    have hd : isDigitStr t = false := by simpa using hd
    constructor
    · intro h; cases h; exact .txt _ hd
    · intro h
      cases h with
      | num m hd' h => rw [hd] at hd'; cases hd'
      | txt hd' => rfl

omit [PyEnv] in
theorem mapRes_iff {α β : Type} {f : α → Res β} {l : List α} {l' : List β} :
    mapRes f l = .ok l' ↔ List.Forall₂ (fun a b => f a = .ok b) l l' := by
  induction l generalizing l' with
  | nil =>
    simp only [mapRes, Except.ok.injEq]
    constructor
    · rintro rfl; exact .nil
    · intro h; cases h; rfl
  | cons a l ih =>
    simp only [mapRes, Res.bind_eq_ok, ih, Except.ok.injEq]
    constructor
    · rintro ⟨b, hb, bs, hbs, rfl⟩; exact .cons hb hbs
    · intro h
      cases h with
      | cons h1 h2 => exact ⟨_, h1, _, h2, rfl⟩

/-- The order used in the rules is the natural order. -/
theorem naturalLt_iff {a b : Str} : NaturalLt a b ↔ NaturallyBefore a b := by
  unfold NaturalLt NaturallyBefore naturalKey
  simp only [mapRes_iff, convertPart_iff, keyLt_iff, cut_iff]
  constructor
  · rintro ⟨k, k', h1, h2, h3⟩; exact ⟨_, _, k, k', rfl, rfl, h1, h2, h3⟩
  · rintro ⟨_, _, k, k', rfl, rfl, h1, h2, h3⟩; exact ⟨k, k', h1, h2, h3⟩

theorem NaturalLt.irrefl {a : Str} : ¬NaturalLt a a := by
  rintro ⟨k, k', h, h', h1⟩
  rw [h] at h'
  cases h'
  rw [keyLt_irrefl] at h1
  cases h1

theorem NaturalLt.trans {a b c : Str} (h : NaturalLt a b) (h' : NaturalLt b c) : NaturalLt a c := by
  obtain ⟨k1, k2, h1, h2, h3⟩ := h
  obtain ⟨k2', k3, h4, h5, h6⟩ := h'
  rw [h2] at h4
  cases h4
  exact ⟨k1, k3, h1, h5, keyLt_trans h3 h6⟩

theorem check_sorted {lo hi : Option Str} {id : Str} :
    (Used.sorted lo hi).check id = .ok () ↔ ∀ m, hi = some m → NaturalLt m id := by
  cases hi with
  | none => simp [Used.check]
  | some m =>
    simp only [Used.check, Res.bind_eq_ok, ensure_eq_ok, Option.some.injEq]
    constructor
    · rintro ⟨a, ha, b, hb, l, hl, hlt⟩ m' rfl
      exact ⟨a, b, ha, hb, by rw [hl, hlt]⟩
    · intro h
      obtain ⟨a, b, ha, hb, hl⟩ := h m rfl
      exact ⟨a, ha, b, hb, true, hl, rfl⟩

end

end RKSV
