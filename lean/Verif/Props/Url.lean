import Verif.Props.Receipt
import Verif.Model.VerifyReceipt
/-
Property C17: URL hashes.
-/
namespace RKSV

section
variable [PyEnv]

theorem toURLHash_eq {r : Receipt} {alg : Str} (h : Parsed r alg) :
    ∃ code, r.toBasic alg = .ok code ∧
      r.toURLHash alg = .ok (b64Text true ((sha256 (utf8Enc code)).take 8)) := by
  obtain ⟨g, rfl⟩ := h.good
  obtain ⟨sb, hsb⟩ := Option.isSome_iff_exists.mp g.sig
  refine ⟨_, toBasic_eq hsb R1, ?_⟩
  rw [Receipt.toURLHash, toBasic_eq hsb, Res.ok_bind, ensure_pos (knownAlg_iff.mpr rfl), Res.ok_bind,
    removeChar_b64Encode]
  rfl

/-- C17: the hash of a receipt always exists, is the base64url text of the first 8 bytes of the hash
of the QR text, and has 11 characters of the base64url alphabet. -/
theorem url_hash_form {r : Receipt} {alg : Str} (h : Parsed r alg) :
    ∃ code hash, r.toBasic alg = .ok code ∧ r.toURLHash alg = .ok hash ∧
      hash = b64Text true ((sha256 (utf8Enc code)).take 8) ∧ hash.length = 11 ∧
      ∀ c ∈ hash, B64Char true c := by
  obtain ⟨code, h1, h2⟩ := toURLHash_eq h
  refine ⟨code, _, h1, h2, rfl, ?_, fun c hc => isB64_iff.mp (isB64_of_mem_b64Text hc)⟩
  rw [b64Text, List.length_map, enc6_length, List.length_take, PyEnv.sha256_length]
  rfl

/-- C17: `verifyURLHash` accepts exactly the text `toURLHash` returns. -/
theorem url_hash_verified_iff {r : Receipt} {alg : Str} (h : Parsed r alg) (u : Option Str) :
    (verifyURLHash r u = .ok () ↔ ∃ hash, u = some hash ∧ r.toURLHash alg = .ok hash) ∧
    (verifyURLHash r u ≠ .ok () → verifyURLHash r u = .error .invalidURLHash) := by
  obtain ⟨code, h1, h2⟩ := toURLHash_eq h
  obtain ⟨-, rfl⟩ := h.good
  have e : verifyURLHash r u = ensure (some (b64Text true ((sha256 (utf8Enc code)).take 8)) = u)
      .invalidURLHash := by
    rw [verifyURLHash, h1, Res.ok_bind, removeChar_b64Encode]
    rfl
  rw [e, h2]
  constructor
  · rw [ensure_eq_ok]
    constructor
    · intro h; exact ⟨_, h.symm, rfl⟩
    · rintro ⟨hash, rfl, h⟩
      cases h; rfl
  · intro h
    rw [ensure_eq_error]
    rw [Ne, ensure_eq_ok] at h
    exact ⟨h, rfl⟩

end

theorem hashRuns_run {run h : Str} (hh : ∀ c ∈ h, isUrlChar c = true) :
    hashRuns run h = if run.length + h.length = 11 then [run.reverse ++ h] else [] := by
  induction h generalizing run with
  | nil => simp [hashRuns]
  | cons c r ih =>
    rw [hashRuns, if_pos (hh c (by simp)), ih fun x hx => hh x (by simp [hx])]
    simp only [List.length_cons, List.reverse_cons, List.append_assoc, List.singleton_append]
    rw [show run.length + 1 + r.length = run.length + (r.length + 1) by omega]

theorem hashRuns_sep {run x y : Str} {sep : Char} (hs : isUrlChar sep = false) :
    hashRuns run (x ++ sep :: y) = hashRuns run x ++ hashRuns [] y := by
  induction x generalizing run with
  | nil =>
    simp only [List.nil_append, hashRuns, hs, Bool.false_eq_true, if_false]
    split <;> rfl
  | cons c r ih =>
    rw [List.cons_append, hashRuns, hashRuns]
    split
    · exact ih
    · split
      · rw [ih]; rfl
      · exact ih

theorem hashRuns_append {run base h : Str} {sep : Char} (hs : isUrlChar sep = false)
    (hh : ∀ c ∈ h, isUrlChar c = true) (hl : h.length = 11) :
    ∃ l, hashRuns run (base ++ sep :: h) = l ++ [h] :=
  ⟨hashRuns run base, by rw [hashRuns_sep hs, hashRuns_run hh]; simp [hl]⟩

/-- C17: the hash is recovered from an URL `base#hash`. -/
theorem url_anchor (base hash : Str) (hb : '#' ∉ base) (hh : ∀ c ∈ hash, B64Char true c) :
    getURLHashFromURL (base ++ '#' :: hash) = some hash := by
  have hn : '#' ∉ hash := fun h => absurd (isB64_iff.mpr (hh _ h)) (by decide)
  unfold getURLHashFromURL
  rw [splitOn_append_sep hb, splitOn_eq_singleton hn]

/-- C17: the hash is recovered from an URL `base/hash` without anchor; the separator may be any
character outside the base64url alphabet. -/
theorem url_path (base hash : Str) (sep : Char) (hsep : ¬B64Char true sep) (hs : sep ≠ '#')
    (hb : '#' ∉ base) (hh : ∀ c ∈ hash, B64Char true c) (hl : hash.length = 11) :
    getURLHashFromURL (base ++ sep :: hash) = some hash := by
  have hn : '#' ∉ base ++ sep :: hash := by
    simp only [List.mem_append, List.mem_cons, not_or]
    exact ⟨hb, Ne.symm hs, fun h => absurd (isB64_iff.mpr (hh _ h)) (by decide)⟩
  obtain ⟨l, hl⟩ := hashRuns_append (run := []) (base := base) (sep := sep) (h := hash)
    (by simpa [isUrlChar, ← isB64_iff] using hsep) (fun c hc => isB64_iff.mpr (hh c hc)) hl
  unfold getURLHashFromURL
  rw [splitOn_eq_singleton hn]
  simp [hl]

/-- Texts of 11 base64url characters delimited by other characters (or the ends). -/
def Delimited (url hash : Str) : Prop :=
  ∃ a b, url = a ++ hash ++ b ∧ hash.length = 11 ∧ (∀ c ∈ hash, B64Char true c) ∧
    (∀ c, a.getLast? = some c → ¬B64Char true c) ∧ (∀ c, b.head? = some c → ¬B64Char true c)

theorem hashRuns_sound {run url h : Str} (hrun : ∀ c ∈ run, isUrlChar c = true)
    (hm : h ∈ hashRuns run url) :
    ∃ a b, run.reverse ++ url = a ++ h ++ b ∧ h.length = 11 ∧ (∀ c ∈ h, isUrlChar c = true) ∧
      (∀ c, a.getLast? = some c → isUrlChar c = false) ∧
      (∀ c, b.head? = some c → isUrlChar c = false) := by
  induction url generalizing run with
  | nil =>
    rw [hashRuns] at hm
    split at hm
    · rename_i hl
      simp at hm; subst hm
      exact ⟨[], [], by simp, by simpa using hl, by simpa using hrun, by simp, by simp⟩
    · simp at hm
  | cons c r ih =>
    rw [hashRuns] at hm
    split at hm
    · rename_i hc
      obtain ⟨a, b, h1, h2⟩ := ih (run := c :: run) (by
        intro x hx
        rcases List.mem_cons.mp hx with rfl | hx
        · exact hc
        · exact hrun x hx) hm
      exact ⟨a, b, by rw [← h1]; simp, h2⟩
    · rename_i hc
      have rest : h ∈ hashRuns [] r →
          ∃ a b, run.reverse ++ c :: r = a ++ h ++ b ∧ h.length = 11 ∧ (∀ c ∈ h, isUrlChar c = true) ∧
            (∀ c, a.getLast? = some c → isUrlChar c = false) ∧
            (∀ c, b.head? = some c → isUrlChar c = false) := fun hm => by
        obtain ⟨a, b, h1, h2, h3, h4, h5⟩ := ih (run := []) (by simp) hm
        refine ⟨run.reverse ++ c :: a, b, ?_, h2, h3, ?_, h5⟩
        · have : r = a ++ h ++ b := by simpa using h1
          rw [this]; simp
        · intro x hx
          cases a with
          | nil => simp at hx; subst hx; simpa using hc
          | cons y ys =>
            apply h4
            rw [← hx]
            rw [List.getLast?_append, List.getLast?_cons_cons]
            cases hl : (y :: ys).getLast? with
            | none => simp at hl
            | some z => rfl
      split at hm
      · rename_i hl
        rcases List.mem_cons.mp hm with rfl | hm
        · exact ⟨[], c :: r, by simp, by simpa using hl, by simpa using hrun, by simp,
            by intro x hx; simp at hx; subst hx; simpa using hc⟩
        · exact rest hm
      · exact rest hm

/-- C17: without anchor, whatever is returned is a delimited run of 11 base64url characters of the
URL. -/
theorem url_path_sound {url hash : Str} (hb : '#' ∉ url) (h : getURLHashFromURL url = some hash) :
    Delimited url hash := by
  unfold getURLHashFromURL at h
  rw [splitOn_eq_singleton hb] at h
  simp only [List.headD_cons] at h
  obtain ⟨a, b, h1, h2, h3, h4, h5⟩ := hashRuns_sound (by simp) (List.mem_of_getLast? h)
  refine ⟨a, b, by simpa using h1, h2, fun c hc => isB64_iff.mp (h3 c hc), ?_, ?_⟩
  · intro c hc hB; have := h4 c hc; rw [isUrlChar, isB64_iff.mpr hB] at this; cases this
  · intro c hc hB; have := h5 c hc; rw [isUrlChar, isB64_iff.mpr hB] at this; cases this

/-- C17: without anchor and without such a run, nothing is returned; with one, something is. -/
theorem url_path_complete {url : Str} (hb : '#' ∉ url) :
    getURLHashFromURL url = none ↔ ¬∃ hash, Delimited url hash := by
  constructor
  · rintro h ⟨hash, a, b, rfl, hl, hh, ha, hb'⟩
    have hsep : ∀ {c : Char}, ¬B64Char true c → isUrlChar c = false := by
      intro c hc; simpa [isUrlChar, ← isB64_iff] using hc
    have mid : ∀ b : Str, (∀ c, b.head? = some c → ¬B64Char true c) →
        hash ∈ hashRuns [] (hash ++ b) := by
      intro b hb
      cases b with
      | nil => rw [List.append_nil, hashRuns_run fun c hc => isB64_iff.mpr (hh c hc)]; simp [hl]
      | cons d b =>
        rw [hashRuns_sep (hsep (hb d rfl)), hashRuns_run fun c hc => isB64_iff.mpr (hh c hc)]
        simp [hl]
    have hm : hash ∈ hashRuns [] (a ++ hash ++ b) := by
      rcases List.eq_nil_or_concat a with rfl | ⟨a', c, rfl⟩
      · exact mid b hb'
      · rw [show (a'.concat c) ++ hash ++ b = a' ++ c :: (hash ++ b) by simp,
          hashRuns_sep (hsep (ha c (by simp)))]
        exact List.mem_append_right _ (mid b hb')
    unfold getURLHashFromURL at h
    rw [splitOn_eq_singleton hb] at h
    simp only [List.headD_cons, List.getLast?_eq_none_iff] at h
    rw [h] at hm
    cases hm
  · intro h
    cases hg : getURLHashFromURL url with
    | none => rfl
    | some hash => exact absurd ⟨hash, url_path_sound hb hg⟩ h

namespace Demo
attribute [local instance] env

example : ∃ hash, receipt.toURLHash R1 = .ok hash ∧
    getURLHashFromURL (c!"https://example.com/r/" ++ hash) = some hash ∧
    getURLHashFromURL (c!"https://example.com/#" ++ hash) = some hash ∧
    verifyURLHash receipt (some hash) = .ok () ∧
    verifyURLHash receipt (some c!"AAAAAAAAAAA") = .error .invalidURLHash ∧
    verifyURLHash receipt none = .error .invalidURLHash :=
  ⟨_, rfl, by decide +kernel, by decide +kernel, by decide +kernel, by decide +kernel, by decide +kernel⟩

end Demo

end RKSV
