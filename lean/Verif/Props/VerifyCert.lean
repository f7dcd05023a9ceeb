import Verif.Model.VerifyCert
import Verif.Lemmas.Demo
/-
Properties C23, C24: trust in certificates.
-/
namespace RKSV

section
variable [PyEnv]

/-- The store holds a certificate under the serial number of `c`. -/
def SerialKnown (ks : KeyStore) (c : Cert) : Prop :=
  ∃ k, ks.getCert (natHex (serial c).natAbs) = some k

/-- The store holds a certificate with the serial number and the fingerprint of `c`. -/
def Stored (ks : KeyStore) (c : Cert) : Prop :=
  ∃ k, ks.getCert (natHex (serial c).natAbs) = some k ∧ fingerprint k = fingerprint c

/-- The path (the certificate followed by its chain) can be walked up to position `i`: every
certificate before is unknown to the store and signed by its successor. -/
def Reaches (ks : KeyStore) (path : List Cert) (i : Nat) (c : Cert) : Prop :=
  path[i]? = some c ∧ ∀ j < i, ∃ a b, path[j]? = some a ∧ path[j + 1]? = some b ∧
    ¬SerialKnown ks a ∧ certSignedBy a b = true

theorem Reaches.zero_iff {ks : KeyStore} {a c : Cert} {chain : List Cert} :
    Reaches ks (a :: chain) 0 c ↔ c = a := by
  constructor
  · rintro ⟨h, _⟩; simpa using h.symm
  · rintro rfl; exact ⟨rfl, fun j hj => absurd hj (by omega)⟩

theorem Reaches.succ_iff {ks : KeyStore} {a b c : Cert} {chain : List Cert} {i : Nat} :
    Reaches ks (a :: b :: chain) (i + 1) c ↔
      ¬SerialKnown ks a ∧ certSignedBy a b = true ∧ Reaches ks (b :: chain) i c := by
  constructor
  · rintro ⟨h1, h2⟩
    obtain ⟨a', b', ha, hb, hk, hs⟩ := h2 0 (by omega)
    simp only [List.getElem?_cons_zero, List.getElem?_cons_succ, Option.some.injEq] at ha hb
    subst ha hb
    refine ⟨hk, hs, by simpa using h1, fun j hj => ?_⟩
    have := h2 (j + 1) (by omega)
    simpa using this
  · rintro ⟨hk, hs, h1, h2⟩
    refine ⟨by simpa using h1, fun j hj => ?_⟩
    cases j with
    | zero => exact ⟨a, b, rfl, rfl, hk, hs⟩
    | succ j => simpa using h2 j (by omega)

theorem Reaches.succ_nil {ks : KeyStore} {a c : Cert} {i : Nat} : ¬Reaches ks [a] (i + 1) c := by
  rintro ⟨h, _⟩; simp at h

/-- C23: a certificate is accepted exactly if the walk along its chain reaches a certificate that is
stored with the same serial number and fingerprint. -/
theorem cert_trusted_iff (ks : KeyStore) (cert : Cert) (chain : List Cert) :
    verifyCert ks cert chain = .ok () ↔
      ∃ i c, Reaches ks (cert :: chain) i c ∧ Stored ks c := by
  induction chain generalizing cert with
  | nil =>
    unfold verifyCert
    have e : numSerialToKeyId (serial cert) = natHex (serial cert).natAbs := rfl
    rw [e]
    constructor
    · intro h
      split at h
      · rename_i k hk
        exact ⟨0, cert, Reaches.zero_iff.mpr rfl, k, hk, by simpa using h⟩
      · cases h
    · rintro ⟨i, c, hr, k, hk, hf⟩
      cases i with
      | zero => cases Reaches.zero_iff.mp hr; rw [hk]; simpa using hf
      | succ i => exact absurd hr Reaches.succ_nil
  | cons c chain ih =>
    unfold verifyCert
    have e : numSerialToKeyId (serial cert) = natHex (serial cert).natAbs := rfl
    rw [e]
    constructor
    · intro h
      split at h
      · rename_i k hk
        exact ⟨0, cert, Reaches.zero_iff.mpr rfl, k, hk, by simpa using h⟩
      · rename_i hk
        simp only [Res.bind_eq_ok, ensure_eq_ok] at h
        obtain ⟨_, hs, h⟩ := h
        obtain ⟨i, d, hr, hd⟩ := (ih c).mp h
        exact ⟨i + 1, d, Reaches.succ_iff.mpr ⟨fun ⟨k, h⟩ => (by rw [hk] at h; cases h), hs, hr⟩, hd⟩
    · rintro ⟨i, d, hr, hd⟩
      cases i with
      | zero =>
        cases Reaches.zero_iff.mp hr
        obtain ⟨k, hk, hf⟩ := hd
        rw [hk]; simpa using hf
      | succ i =>
        obtain ⟨hk, hs, hr⟩ := Reaches.succ_iff.mp hr
        cases hg : ks.getCert (natHex (serial cert).natAbs) with
        | some k => exact absurd ⟨k, hg⟩ hk
        | none =>
          simp only
          rw [ensure_pos hs, Res.ok_bind]
          exact (ih c).mpr ⟨i, d, hr, hd⟩

/-- C24: exactly when which error is reported.  A collision: the walk reaches a certificate whose
serial number is stored with another fingerprint.  A broken chain: it reaches an unknown certificate
that is not signed by its successor.  Untrusted: it reaches the end of the chain and the last
certificate is unknown. -/
theorem cert_error_iff (ks : KeyStore) (cert : Cert) (chain : List Cert) (e : Err) :
    verifyCert ks cert chain = .error e ↔
      (e = .certificateSerialCollision ∧ ∃ i c, Reaches ks (cert :: chain) i c ∧ SerialKnown ks c ∧
        ¬Stored ks c) ∨
      (e = .certificateChainBroken ∧ ∃ i c d, Reaches ks (cert :: chain) i c ∧
        (cert :: chain)[i + 1]? = some d ∧ ¬SerialKnown ks c ∧ certSignedBy c d = false) ∨
      (e = .untrustedCertificate ∧ ∃ c, Reaches ks (cert :: chain) chain.length c ∧
        ¬SerialKnown ks c) := by
  induction chain generalizing cert with
  | nil =>
    unfold verifyCert
    have e' : numSerialToKeyId (serial cert) = natHex (serial cert).natAbs := rfl
    rw [e']
    cases hg : ks.getCert (natHex (serial cert).natAbs) with
    | some k =>
      simp only [ensure_eq_error]
      constructor
      · rintro ⟨h, rfl⟩
        refine Or.inl ⟨rfl, 0, cert, Reaches.zero_iff.mpr rfl, ⟨k, hg⟩, ?_⟩
        rintro ⟨k', hk', hf⟩
        rw [hg] at hk'; cases hk'; exact h hf
      · rintro (⟨rfl, i, c, hr, hk, hs⟩ | ⟨rfl, i, c, d, hr, hd, hk, hs⟩ | ⟨rfl, c, hr, hk⟩)
        · cases i with
          | zero => cases Reaches.zero_iff.mp hr; exact ⟨fun hf => hs ⟨k, hg, hf⟩, rfl⟩
          | succ i => exact absurd hr Reaches.succ_nil
        · simp at hd
        · cases Reaches.zero_iff.mp hr; exact absurd ⟨k, hg⟩ hk
    | none =>
      have hk : ¬SerialKnown ks cert := fun ⟨k, h⟩ => by rw [hg] at h; cases h
      simp only [Except.error.injEq]
      constructor
      · rintro rfl
        exact Or.inr (Or.inr ⟨rfl, cert, Reaches.zero_iff.mpr rfl, hk⟩)
      · rintro (⟨rfl, i, c, hr, hk', hs⟩ | ⟨rfl, i, c, d, hr, hd, hk, hs⟩ | ⟨rfl, c, hr, hk⟩)
        · cases i with
          | zero => cases Reaches.zero_iff.mp hr; exact absurd hk' hk
          | succ i => exact absurd hr Reaches.succ_nil
        · simp at hd
        · rfl
  | cons b chain ih =>
    unfold verifyCert
    have e' : numSerialToKeyId (serial cert) = natHex (serial cert).natAbs := rfl
    rw [e']
    cases hg : ks.getCert (natHex (serial cert).natAbs) with
    | some k =>
      have hkn : SerialKnown ks cert := ⟨k, hg⟩
      simp only [ensure_eq_error]
      constructor
      · rintro ⟨h, rfl⟩
        refine Or.inl ⟨rfl, 0, cert, Reaches.zero_iff.mpr rfl, ⟨k, hg⟩, ?_⟩
        rintro ⟨k', hk', hf⟩
        rw [hg] at hk'; cases hk'; exact h hf
      · rintro (⟨rfl, i, c, hr, hk, hs⟩ | ⟨rfl, i, c, d, hr, hd, hk, hs⟩ | ⟨rfl, c, hr, hk⟩)
        · cases i with
          | zero => cases Reaches.zero_iff.mp hr; exact ⟨fun hf => hs ⟨k, hg, hf⟩, rfl⟩
          | succ i => exact absurd hkn (Reaches.succ_iff.mp hr).1
        · cases i with
          | zero => cases Reaches.zero_iff.mp hr; exact absurd hkn hk
          | succ i => exact absurd hkn (Reaches.succ_iff.mp hr).1
        · exact absurd hkn (Reaches.succ_iff.mp hr).1
    | none =>
      have hk : ¬SerialKnown ks cert := fun ⟨k, h⟩ => by rw [hg] at h; cases h
      simp only [Res.bind_eq_error, ensure_eq_error, ensure_eq_ok, ih b]
      constructor
      · rintro (⟨hs, rfl⟩ | ⟨_, hs, h⟩)
        · exact Or.inr (Or.inl ⟨rfl, 0, cert, b, Reaches.zero_iff.mpr rfl, rfl, hk, by simpa using hs⟩)
        · rcases h with ⟨rfl, i, c, hr, h⟩ | ⟨rfl, i, c, d, hr, hd, h⟩ | ⟨rfl, c, hr, h⟩
          · exact Or.inl ⟨rfl, i + 1, c, Reaches.succ_iff.mpr ⟨hk, hs, hr⟩, h⟩
          · exact Or.inr (Or.inl ⟨rfl, i + 1, c, d, Reaches.succ_iff.mpr ⟨hk, hs, hr⟩, by simpa using hd, h⟩)
          · exact Or.inr (Or.inr ⟨rfl, c, Reaches.succ_iff.mpr ⟨hk, hs, hr⟩, h⟩)
      · rintro (⟨rfl, i, c, hr, hk', hs⟩ | ⟨rfl, i, c, d, hr, hd, hk', hs⟩ | ⟨rfl, c, hr, hk'⟩)
        · cases i with
          | zero => cases Reaches.zero_iff.mp hr; exact absurd hk' hk
          | succ i =>
            obtain ⟨_, h1, h2⟩ := Reaches.succ_iff.mp hr
            exact Or.inr ⟨(), h1, Or.inl ⟨rfl, i, c, h2, hk', hs⟩⟩
        · cases i with
          | zero =>
            cases Reaches.zero_iff.mp hr
            simp at hd; subst hd
            exact Or.inl ⟨by simp [hs], rfl⟩
          | succ i =>
            obtain ⟨_, h1, h2⟩ := Reaches.succ_iff.mp hr
            exact Or.inr ⟨(), h1, Or.inr (Or.inl ⟨rfl, i, c, d, h2, by simpa using hd, hk', hs⟩)⟩
        · obtain ⟨_, h1, h2⟩ := Reaches.succ_iff.mp hr
          exact Or.inr ⟨(), h1, Or.inr (Or.inr ⟨rfl, c, h2, hk'⟩)⟩

/-- C24: the situations exclude each other: the walk stops at one place only. -/
theorem walk_stops_once {ks : KeyStore} {path : List Cert} {i j : Nat} {c d : Cert}
    (hc : Reaches ks path i c) (hd : Reaches ks path j d) (hk : SerialKnown ks c) :
    j ≤ i := by
  by_contra h
  obtain ⟨a, b, ha, _, hka, _⟩ := hd.2 i (by omega)
  rw [hc.1] at ha; cases ha; exact hka hk

/-- C23: trust does not depend on what follows the stored certificate, and adding certificates to
the store under other serial numbers than those of the path does not change the verdict. -/
theorem cert_verdict_local {ks ks' : KeyStore} {cert : Cert} {chain : List Cert}
    (h : ∀ c ∈ cert :: chain, ks.getCert (natHex (serial c).natAbs) = ks'.getCert (natHex (serial c).natAbs)) :
    verifyCert ks cert chain = verifyCert ks' cert chain := by
  induction chain generalizing cert with
  | nil =>
    have := h cert (by simp)
    unfold verifyCert numSerialToKeyId
    rw [this]
  | cons c chain ih =>
    have := h cert (by simp)
    unfold verifyCert numSerialToKeyId
    rw [this, ih fun c hc => h c (by simp [hc])]

end

/-! ### Concrete cases -/

namespace Demo
attribute [local instance] env

/-- Three certificates, each signed by the next (byte 2 = byte 3 of the signer). -/
def leaf : Cert := ([0, 1, 5, 9] : Bytes)
def inter : Cert := ([0, 2, 6, 5] : Bytes)
def root : Cert := ([0, 3, 6, 6] : Bytes)

def rootStore : KeyStore := KeyStore.putKey [] c!"3" ([6] : Bytes) (some root)

/-- A chain of length two to the stored root is trusted ... -/
example : verifyCert rootStore leaf [inter, root] = .ok () := by decide +kernel
/-- ... which by the theorem means that the walk reaches it. -/
example : ∃ i c, Reaches rootStore [leaf, inter, root] i c ∧ Stored rootStore c :=
  (cert_trusted_iff _ _ _).mp (by decide +kernel)
/-- Every error occurs. -/
example : verifyCert rootStore leaf [root] = .error .certificateChainBroken ∧
    verifyCert rootStore leaf [inter] = .error .untrustedCertificate ∧
    verifyCert rootStore leaf [inter, ([0, 3, 7, 6] : Bytes)] = .error .certificateSerialCollision := by
  decide +kernel

end Demo

end RKSV
