import Verif.Model.DepParser
/-
The incremental parsers yield the same receipts in the same chunks whatever certificates they get.
-/
namespace RKSV

section
variable [PyEnv]

/-- The receipts of a chunk by group. -/
def Chunk.texts (c : Chunk) : List (List Bytes) := c.map (·.recs)

namespace PState

/-- The same apart from certificates. -/
structure Alike (s t : PState) : Prop where
  ctl : s.ctl = t.ctl
  chunk : Chunk.texts s.chunk = Chunk.texts t.chunk
  rootSeen : s.rootSeen = t.rootSeen
  groupsSeen : s.groupsSeen = t.groupsSeen
  curIdx : s.curIdx = t.curIdx
  idx : s.idx = t.idx
  wipRecs : s.wipRecs = t.wipRecs
  recsSeen : s.recsSeen = t.recsSeen
  certSeen : s.certSeen = t.certSeen
  chainSeen : s.chainSeen = t.chainSeen

theorem Alike.size {s t : PState} (h : Alike s t) : s.size = t.size := by
  have e : ∀ s : PState, s.size = ((Chunk.texts s.chunk).map List.length).sum := by
    intro s
    simp [PState.size, Chunk.texts, Function.comp_def]
  rw [e, e, h.chunk]

theorem Alike.ready {s t : PState} (h : Alike s t) (n : Nat) (c : Ctl) : s.ready n c = t.ready n c := by
  unfold PState.ready
  rw [h.size, h.wipRecs]

theorem Alike.merge {s t : PState} (h : Alike s t) : Alike s.merge t.merge := by
  unfold PState.merge
  rw [h.wipRecs]
  split
  · exact h
  · obtain ⟨h1, h2, h3, h4, h5, h6, h7, h8, h9, h10⟩ := h
    refine ⟨h1, ?_, h3, h4, h5, h6, rfl, h8, h9, h10⟩
    simp only [Chunk.texts, List.map_append] at h2 ⊢
    rw [h2]
    rfl

theorem Alike.setCrt {s t : PState} (h : Alike s t) (x : Option (Option Cert × List Cert)) : Alike (s.setCrt x) t := by
  obtain ⟨h1, h2, h3, h4, h5, h6, h7, h8, h9, h10⟩ := h
  cases x with
  | none => exact ⟨h1, h2, h3, h4, h5, h6, h7, h8, h9, h10⟩
  | some x => exact ⟨h1, h2, h3, h4, h5, h6, h7, h8, h9, h10⟩

theorem Alike.symm {s t : PState} (h : Alike s t) : Alike t s := by
  obtain ⟨h1, h2, h3, h4, h5, h6, h7, h8, h9, h10⟩ := h
  exact ⟨h1.symm, h2.symm, h3.symm, h4.symm, h5.symm, h6.symm, h7.symm, h8.symm, h9.symm, h10.symm⟩

theorem Alike.refl (s : PState) : Alike s s := ⟨rfl, rfl, rfl, rfl, rfl, rfl, rfl, rfl, rfl, rfl⟩

theorem Alike.getChunk {s t : PState} (h : Alike s t) (c : Ctl) :
    Chunk.texts (s.getChunk c).1 = Chunk.texts (t.getChunk c).1 ∧ Alike (s.getChunk c).2 (t.getChunk c).2 := by
  have key : ∀ {s t : PState}, Alike s t →
      Chunk.texts (if s.size = 0 then ([], s) else (s.chunk, { s with chunk := [] }) : Chunk × PState).1 =
        Chunk.texts (if t.size = 0 then ([], t) else (t.chunk, { t with chunk := [] }) : Chunk × PState).1 ∧
      Alike (if s.size = 0 then ([], s) else (s.chunk, { s with chunk := [] }) : Chunk × PState).2
        (if t.size = 0 then ([], t) else (t.chunk, { t with chunk := [] }) : Chunk × PState).2 := by
    intro s t h
    rw [h.size]
    split
    · exact ⟨rfl, h⟩
    · obtain ⟨h1, h2, h3, h4, h5, h6, h7, h8, h9, h10⟩ := h
      exact ⟨h2, h1, rfl, h3, h4, h5, h6, h7, h8, h9, h10⟩
  unfold PState.getChunk
  cases Inside c
  · exact key h
  · exact key h.merge

/-- Both fail, or both succeed with the same result apart from certificates. -/
def Both (a b : Res PState) : Prop :=
  match a, b with
  | .ok s, .ok t => Alike s t
  | .error e, .error e' => e = e'
  | _, _ => False

theorem alike_step {s t : PState} (h : Alike s t) (x : Str × Ev) : Both (s.step x) (t.step x) := by
  obtain ⟨p, e⟩ := x
  have hm := h.merge
  obtain ⟨h1, h2, h3, h4, h5, h6, h7, h8, h9, h10⟩ := h
  unfold PState.step
  rw [← h1]
  cases s.ctl with
  | root =>
    simp only [stepRoot, ← h3]
    repeat' split
    all_goals first
      | exact rfl
      | exact ⟨rfl, h2, rfl, rfl, h5, h6, h7, h8, h9, h10⟩
  | rootMap =>
    simp only [stepRootMap, ← h4]
    repeat' split
    all_goals first
      | exact rfl
      | exact ⟨rfl, h2, h3, rfl, h5, h6, h7, h8, h9, h10⟩
      | exact ⟨rfl, h2, h3, h4, h5, h6, h7, h8, h9, h10⟩
      | exact ⟨rfl, h2, h3, rfl, rfl, h6, h7, h8, h9, h10⟩
      | exact ⟨h1, h2, h3, h4, h5, h6, h7, h8, h9, h10⟩
  | groups =>
    simp only [stepGroups]
    repeat' split
    all_goals first
      | exact rfl
      | exact ⟨rfl, h2, h3, h4, h5, h6, h7, h8, h9, h10⟩
      | exact ⟨rfl, h2, h3, h4, congrArg (· + 1) h5, h5, rfl, rfl, rfl, rfl⟩
  | group =>
    simp only [stepGroup, ← h8, ← h9, ← h10]
    split
    · split
      · obtain ⟨m1, m2, m3, m4, m5, m6, m7, m8, m9, m10⟩ := hm
        exact ⟨rfl, m2, m3, m4, m5, m6, m7, m8, m9, m10⟩
      · exact rfl
    · split
      · split
        · exact rfl
        · split
          · generalize parseOptCert _ = r
            cases r with
            | error e => exact rfl
            | ok c => constructor <;> first | assumption | rfl
          · exact rfl
      · repeat' split
        all_goals first
          | exact rfl
          | exact ⟨h1, h2, h3, h4, h5, h6, h7, h8, h9, h10⟩
          | (constructor <;> first | assumption | rfl)
  | certList =>
    simp only [stepCertList]
    split
    · exact ⟨rfl, h2, h3, h4, h5, h6, h7, h8, h9, h10⟩
    · split
      · split
        · generalize parseDEPCert _ = r
          cases r with
          | error e => exact rfl
          | ok c => exact ⟨h1, h2, h3, h4, h5, h6, h7, h8, h9, h10⟩
        · exact rfl
      · exact rfl
  | recList =>
    simp only [stepRecList]
    split
    · exact ⟨rfl, h2, h3, h4, h5, h6, h7, h8, h9, h10⟩
    · split
      · split
        · exact ⟨h1, h2, h3, h4, h5, h6, by rw [h7], h8, h9, h10⟩
        · exact rfl
      · exact rfl

/-- A run that succeeds with some certificates succeeds with others, and with none. -/
theorem alike_run {need need' : Nat → Res (Option (Option Cert × List Cert))} (hn : ∀ i, ∃ x, need' i = .ok x)
    {n : Nat} {xs : List (Str × Ev)} {s t s' : PState} {out : List Chunk} (h : Alike s t)
    (hr : run need n s xs = (out, .ok s')) :
    ∃ out' t', run need' n t xs = (out', .ok t') ∧ out'.map Chunk.texts = out.map Chunk.texts ∧ Alike s' t' := by
  induction xs generalizing s t out with
  | nil =>
    simp only [run, Prod.mk.injEq, Except.ok.injEq] at hr
    obtain ⟨rfl, rfl⟩ := hr
    exact ⟨[], t, rfl, rfl, h⟩
  | cons x xs ih =>
    have adv : ∀ {out s₁}, advance need n s x = (out, .ok s₁) → ∃ out' t₁, advance need' n t x = (out', .ok t₁) ∧
        out'.map Chunk.texts = out.map Chunk.texts ∧ Alike s₁ t₁ := by
      intro out s₁ ha
      unfold advance at ha ⊢
      have hb := alike_step h x
      cases hs : s.step x with
      | error e => rw [hs] at ha; cases ha
      | ok s₂ =>
        rw [hs] at hb ha
        cases ht : t.step x with
        | error e => rw [ht] at hb; exact hb.elim
        | ok t₂ =>
          rw [ht] at hb
          have hb : Alike s₂ t₂ := hb
          simp only at ha ⊢
          rw [hb.ready, h.ctl] at ha
          split at ha
          · rename_i hr
            rw [if_pos hr]
            have hf : ∀ {s₃}, s₂.fetch need t.ctl = .ok s₃ → Alike s₃ t₂ := by
              intro s₃ h3
              unfold fetch at h3
              split at h3
              · simp only [Res.bind_eq_ok, Except.ok.injEq] at h3
                obtain ⟨y, -, rfl⟩ := h3
                exact hb.setCrt y
              · cases h3; exact hb
            have hf' : ∃ t₃, t₂.fetch need' t.ctl = .ok t₃ ∧ Alike t₂ t₃ := by
              unfold fetch
              split
              · obtain ⟨y, hy⟩ := hn t₂.idx
                rw [hy]
                exact ⟨_, rfl, ((Alike.refl t₂).setCrt y).symm⟩
              · exact ⟨t₂, rfl, Alike.refl t₂⟩
            obtain ⟨t₃, e3, h3'⟩ := hf'
            cases hfe : s₂.fetch need t.ctl with
            | error e => rw [hfe] at ha; cases ha
            | ok s₃ =>
              rw [hfe] at ha
              simp only [Prod.mk.injEq, Except.ok.injEq] at ha
              obtain ⟨rfl, rfl⟩ := ha
              have h33 : Alike s₃ t₃ := by
                obtain ⟨a1, a2, a3, a4, a5, a6, a7, a8, a9, a10⟩ := hf hfe
                obtain ⟨b1, b2, b3, b4, b5, b6, b7, b8, b9, b10⟩ := h3'
                exact ⟨a1.trans b1, a2.trans b2, a3.trans b3, a4.trans b4, a5.trans b5, a6.trans b6, a7.trans b7,
                  a8.trans b8, a9.trans b9, a10.trans b10⟩
              rw [e3]
              have := h33.getChunk t.ctl
              exact ⟨_, _, rfl, by simp [this.1], this.2⟩
          · rename_i hr
            rw [if_neg hr]
            simp only [Prod.mk.injEq, Except.ok.injEq] at ha
            obtain ⟨rfl, rfl⟩ := ha
            exact ⟨_, _, rfl, rfl, hb⟩
    simp only [run] at hr ⊢
    split at hr
    · cases hr
    · rename_i out₁ s₁ ha
      obtain ⟨out₁', t₁, ht, hout, hst⟩ := adv ha
      simp only [Prod.mk.injEq] at hr
      obtain ⟨rfl, hr2⟩ := hr
      obtain ⟨out₂, t', h1, h2, h3⟩ := ih hst (out := (run need n s₁ xs).1) (Prod.ext rfl hr2)
      rw [ht]
      simp only [h1]
      exact ⟨_, _, rfl, by simp [hout, h2], h3⟩

end PState

/-- What is parsed with some certificates is parsed with others, with the same receipts in each chunk. -/
theorem alike_parse {need need' : Nat → Res (Option (Option Cert × List Cert))} (hn : ∀ i, ∃ x, need' i = .ok x)
    {n : Nat} {xs : List (Str × Ev)} (h : (incParse need n false xs).err = none) :
    (incParse need' n false xs).err = none ∧
      (incParse need' n false xs).chunks.map Chunk.texts = (incParse need n false xs).chunks.map Chunk.texts := by
  cases hr : PState.run need n {} xs with
  | mk out r =>
    cases r with
    | error e =>
      unfold incParse at h
      rw [hr] at h
      cases h
    | ok s =>
      obtain ⟨out', t, h1, h2, h3⟩ := PState.alike_run hn (PState.Alike.refl {}) hr
      have hg := (h3.getChunk s.ctl).1
      have hnil : ∀ {c d : Chunk}, Chunk.texts c = Chunk.texts d → (c = [] ↔ d = []) := by
        intro c d e
        have := congrArg List.length e
        simp only [Chunk.texts, List.length_map] at this
        rw [← List.length_eq_zero_iff, this, List.length_eq_zero_iff]
      have hout : out' = [] ↔ out = [] := by
        have := congrArg List.length h2
        simp only [List.length_map] at this
        rw [← List.length_eq_zero_iff, this, List.length_eq_zero_iff]
      unfold incParse at h ⊢
      rw [hr] at h ⊢
      rw [h1]
      simp only [Bool.false_eq_true, if_false, ne_eq, ← h3.ctl] at h ⊢
      by_cases hc : (s.getChunk s.ctl).1 = []
      · have hc' := (hnil hg).mp hc
        simp only [hc, hc', not_true_eq_false, if_false, hout] at h ⊢
        by_cases ho : out = []
        · rw [if_pos ho] at h; cases h
        · rw [if_neg ho, if_neg ho]
          exact ⟨rfl, h2⟩
      · have hc' : ¬(t.getChunk s.ctl).1 = [] := fun e => hc ((hnil hg).mpr e)
        rw [if_pos hc', if_pos hc]
        exact ⟨rfl, by simp [h2, hg]⟩

end

end RKSV
