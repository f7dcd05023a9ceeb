import Verif.Spec.VerifyReceipt
import Verif.Lemmas.Formats
/-
Key selection and the signature check.
-/
namespace RKSV

section
variable [PyEnv]

omit [PyEnv] in
theorem isSignedBroken_iff (r : Receipt) : r.isSignedBroken = true ↔ r.signature = failureMark := by
  rw [Receipt.isSignedBroken, decide_eq_true_eq, show b64Text true failBytes = failureMark by decide +kernel]
  exact eq_comm

omit [PyEnv] in
theorem utf8Enc_payload_ne (r : Fields) (alg : Str) : utf8Enc (r.toPayload alg) ≠ [] := by
  intro h
  have := utf8Enc_eq_nil h
  simp [Fields.toPayload, joinWith] at this

theorem jwsVerify_toJWS {r : Receipt} (g : Good r) (k : PubKey) :
    jwsVerify (r.toJWS R1) k = true ↔ SignatureValid r k := by
  obtain ⟨sig, hsig⟩ := Option.isSome_iff_exists.mp g.sig
  have e1 := g.split_jws R1
  have e2 : b64Decode true (restorePad (encodeSeg (r.toPayload R1))) = some (utf8Enc (r.toPayload R1)) := by
    rw [encodeSeg_eq, b64Decode_restorePad]
  unfold jwsVerify
  rw [e1]
  simp only [g.header, decodeSeg_encodeSeg, e2, hsig, if_true, Bool.and_eq_true]
  unfold SignatureValid signingInput
  rw [hsig]
  simp only [Option.some.injEq, exists_eq_left', g.header, encodeSeg_eq, show (c!"R1" : Str) = R1 from rfl]
  have : (!(utf8Enc (r.toPayload R1)).isEmpty) = true := by
    simpa using utf8Enc_payload_ne _ _
  simp [this]

/-! ### Serials -/

theorem intHex_eq_natHex {m : Int} {n : Nat} : intHex m = natHex n ↔ m = n := by
  unfold intHex
  split
  · rename_i h
    constructor
    · intro h1
      have := natHex_chars n '-' (by rw [← h1]; simp)
      exact absurd this (by decide)
    · omega
  · constructor
    · intro h; have := natHex_injective h; omega
    · rintro rfl; simp

theorem intHex_injective {m n : Int} (h : intHex m = intHex n) : m = n := by
  unfold intHex at h
  have neg : ∀ a b : Nat, '-' :: natHex a ≠ natHex b := by
    intro a b h1
    have := natHex_chars b '-' (by rw [← h1]; simp)
    exact absurd this (by decide)
  split at h <;> split at h
  · simp only [List.cons.injEq, true_and] at h
    have := natHex_injective h; omega
  · exact absurd h (neg _ _)
  · exact absurd h.symm (neg _ _)
  · have := natHex_injective h; omega

theorem mem_hexIds {b : Nat} {t s : Str} : s ∈ hexIds b t ↔ ∃ n, pyInt b t = some n ∧ s = intHex n := by
  unfold hexIds
  cases pyInt b t <;> simp

/-- The key IDs of a serial text. -/
theorem strSerialToKeyIds_ok {s : Str} (hs : s ≠ []) :
    ∃ t, (s = '-' :: t ∨ (s = t ∧ t ≠ [] ∧ ∀ u, t ≠ '-' :: u)) ∧
      strSerialToKeyIds s = .ok (hexIds 16 t ++ hexIds 10 t) := by
  match s, hs with
  | c :: r, _ =>
    by_cases hc : c = '-'
    · subst hc
      exact ⟨r, Or.inl rfl, by simp [strSerialToKeyIds]⟩
    · exact ⟨c :: r, Or.inr ⟨rfl, by simp, by intro u h; cases h; exact hc rfl⟩,
        by simp [strSerialToKeyIds, hc]⟩

theorem serialText_iff {s t : Str} (h : s = '-' :: t ∨ (s = t ∧ t ≠ [] ∧ ∀ u, t ≠ '-' :: u))
    {b : Nat} {n : Int} : SerialText s b n ↔ pyInt b t = some n := by
  constructor
  · rintro ⟨t', h', hn⟩
    rcases h with rfl | ⟨rfl, h1, h2⟩
    · rcases h' with h' | ⟨rfl, -, h3⟩
      · cases h'; exact hn
      · exact absurd rfl (h3 t)
    · rcases h' with rfl | ⟨rfl, -, -⟩
      · exact absurd rfl (h2 t')
      · exact hn
  · intro hn; exact ⟨t, h, hn⟩

theorem firstKey_append (ks : KeyStore) (a b : List Str) :
    firstKey ks (a ++ b) = (firstKey ks a).or (firstKey ks b) := by
  induction a with
  | nil => simp [firstKey]
  | cons x r ih =>
    simp only [List.cons_append, firstKey]
    split
    · rfl
    · exact ih

theorem firstKey_hexIds {ks : KeyStore} {b : Nat} {t : Str} {k : PubKey} :
    firstKey ks (hexIds b t) = some k ↔ ∃ n, pyInt b t = some n ∧ ks.getKey (intHex n) = some k := by
  unfold hexIds
  cases pyInt b t with
  | none => simp [firstKey]
  | some n =>
    simp only [firstKey, Option.some.injEq, exists_eq_left']
    cases ks.getKey (intHex n) <;> simp

theorem selectKey_iff {v : Verifier} {r : Receipt} (hs : r.certSerial ≠ []) {k : PubKey} :
    v.selectKey r = .ok (some k) ↔ KeyFor v r k := by
  unfold Verifier.selectKey
  by_cases hz : r.zda = AT0
  · rw [if_pos hz]
    cases hc : v.cert with
    | some c =>
      simp only [Except.ok.injEq, Option.some.injEq]
      constructor
      · rintro rfl; exact .closedCert c hz hc rfl
      · intro h
        cases h with
        | closedCert c' _ hc' hk => rw [hc] at hc'; cases hc'; exact hk.symm
        | openCert _ hz' => exact absurd hz hz'
        | closedStore _ _ hc' => rw [hc] at hc'; cases hc'
        | openStoreHex _ _ hz' => exact absurd hz hz'
        | openStoreDec _ _ hz' => exact absurd hz hz'
    | none =>
      cases hks : v.keyStore with
      | some ks =>
        simp only [Except.ok.injEq]
        constructor
        · intro h; exact .closedStore ks hz hc hks h
        · intro h
          cases h with
          | closedCert c' _ hc' => rw [hc] at hc'; cases hc'
          | openCert _ hz' => exact absurd hz hz'
          | closedStore ks' _ _ hks' hk => rw [hks] at hks'; cases hks'; exact hk
          | openStoreHex _ _ hz' => exact absurd hz hz'
          | openStoreDec _ _ hz' => exact absurd hz hz'
      | none =>
        constructor
        · intro h; cases h
        · intro h
          cases h with
          | closedCert c' _ hc' => rw [hc] at hc'; cases hc'
          | openCert _ hz' => exact absurd hz hz'
          | closedStore ks' _ _ hks' hk => rw [hks] at hks'; cases hks'
          | openStoreHex _ _ hz' => exact absurd hz hz'
          | openStoreDec _ _ hz' => exact absurd hz hz'
  · rw [if_neg hz]
    obtain ⟨t, ht, hids⟩ := strSerialToKeyIds_ok hs
    rw [hids, Res.ok_bind]
    have hmatch : ∀ n : Int, numSerialToKeyId n ∈ hexIds 16 t ++ hexIds 10 t ↔
        SerialMatches r.certSerial n := by
      intro n
      unfold SerialMatches
      rw [List.mem_append, mem_hexIds, mem_hexIds, serialText_iff ht, serialText_iff ht]
      have e : ∀ m : Int, numSerialToKeyId n = intHex m ↔ m = |n| := by
        intro m
        unfold numSerialToKeyId
        rw [eq_comm, intHex_eq_natHex, Int.abs_eq_natAbs]
      simp only [e]
      constructor
      · rintro (⟨m, h1, rfl⟩ | ⟨m, h1, rfl⟩)
        · exact Or.inl h1
        · exact Or.inr h1
      · rintro (h | h)
        · exact Or.inl ⟨_, h, rfl⟩
        · exact Or.inr ⟨_, h, rfl⟩
    cases hc : v.cert with
    | some c =>
      simp only [Res.bind_eq_ok, ensure_eq_ok, hmatch, Except.ok.injEq, Option.some.injEq]
      constructor
      · rintro ⟨_, h, rfl⟩; exact .openCert c hz hc h rfl
      · intro h
        cases h with
        | closedCert _ hz' => exact absurd hz' hz
        | openCert c' _ hc' hs hk => rw [hc] at hc'; cases hc'; exact ⟨(), hs, hk.symm⟩
        | closedStore _ hz' => exact absurd hz' hz
        | openStoreHex _ _ _ hc' => rw [hc] at hc'; cases hc'
        | openStoreDec _ _ _ hc' => rw [hc] at hc'; cases hc'
    | none =>
      cases hks : v.keyStore with
      | some ks =>
        simp only [Except.ok.injEq, firstKey_append, Option.or_eq_some_iff, firstKey_hexIds]
        constructor
        · rintro (⟨n, hn, hk⟩ | ⟨h0, n, hn, hk⟩)
          · exact .openStoreHex ks n hz hc hks ((serialText_iff ht).mpr hn) hk
          · refine .openStoreDec ks n hz hc hks ((serialText_iff ht).mpr hn) ?_ hk
            intro m hm
            cases hg : ks.getKey (intHex m) with
            | none => rfl
            | some k' =>
              rw [firstKey_hexIds.mpr ⟨m, (serialText_iff ht).mp hm, hg⟩] at h0
              cases h0
        · intro h
          cases h with
          | closedCert _ hz' => exact absurd hz' hz
          | openCert c' _ hc' => rw [hc] at hc'; cases hc'
          | closedStore _ hz' => exact absurd hz' hz
          | openStoreHex ks' n _ _ hks' hn hk =>
            rw [hks] at hks'; cases hks'
            exact Or.inl ⟨n, (serialText_iff ht).mp hn, hk⟩
          | openStoreDec ks' n _ _ hks' hn hno hk =>
            rw [hks] at hks'; cases hks'
            refine Or.inr ⟨?_, n, (serialText_iff ht).mp hn, hk⟩
            cases h0 : firstKey ks (hexIds 16 t) with
            | none => rfl
            | some k' =>
              obtain ⟨m, hm, hk'⟩ := firstKey_hexIds.mp h0
              rw [hno m ((serialText_iff ht).mpr hm)] at hk'
              cases hk'
      | none =>
        constructor
        · intro h; simp only at h; split at h <;> cases h
        · intro h
          cases h with
          | closedCert _ hz' => exact absurd hz' hz
          | openCert c' _ hc' => rw [hc] at hc'; cases hc'
          | closedStore _ hz' => exact absurd hz' hz
          | openStoreHex ks' n _ _ hks' => rw [hks] at hks'; cases hks'
          | openStoreDec ks' n _ _ hks' => rw [hks] at hks'; cases hks'

theorem Good.serial_ne {r : Receipt} (g : Good r) : r.certSerial ≠ [] := by
  intro h
  have := g.init.serialNe
  rw [h] at this
  simp [certSerialType] at this

/-- Acceptance of a well-formed receipt. -/
theorem verify_iff {v : Verifier} {r : Receipt} (g : Good r) {x : Receipt × Str} :
    v.verify r R1 = .ok x ↔ x = (r, R1) ∧ r.signature ≠ failureMark ∧
      ∃ k, KeyFor v r k ∧ SignatureValid r k := by
  unfold Verifier.verify
  rw [ensure_pos (knownAlg_iff.mpr rfl), Res.ok_bind]
  constructor
  · intro h
    obtain ⟨pk, hpk, h⟩ := Res.bind_eq_ok.mp h
    split at h
    · split at h <;> cases h
    · rename_i hb
      simp only [Res.bind_eq_ok, orErr_eq_ok, ensure_eq_ok, Except.ok.injEq] at h
      obtain ⟨k, rfl, _, hv, rfl⟩ := h
      exact ⟨rfl, fun h => hb ((isSignedBroken_iff r).mpr h), k, (selectKey_iff g.serial_ne).mp hpk,
        (jwsVerify_toJWS g k).mp hv⟩
  · rintro ⟨rfl, hb, k, hk, hv⟩
    have hb : r.isSignedBroken = false := by
      cases h : r.isSignedBroken with
      | false => rfl
      | true => exact absurd ((isSignedBroken_iff r).mp h) hb
    rw [(selectKey_iff g.serial_ne).mpr hk, Res.ok_bind, hb]
    simp only [Bool.false_eq_true, if_false, orErr, Res.ok_bind]
    rw [ensure_pos ((jwsVerify_toJWS g k).mpr hv)]
    rfl

theorem Accepted.parsed {v : Verifier} {r : Receipt} {alg : Str} (h : Accepted v r alg) :
    Parsed r alg ∧ v.verify r alg = .ok (r, alg) := by
  have key : ∀ {q : Receipt × Str}, v.verify q.1 q.2 = .ok (r, alg) → Parsed q.1 q.2 →
      Parsed r alg ∧ v.verify r alg = .ok (r, alg) := by
    rintro ⟨r', a'⟩ h1 hp
    obtain ⟨g, ha⟩ := hp.good
    simp only at h1 hp ha g
    subst ha
    have := ((verify_iff g).mp h1).1
    cases this
    exact ⟨hp, h1⟩
  cases h with
  | jws s h =>
    obtain ⟨q, h1, h2⟩ := Res.bind_eq_ok.mp h
    exact key h2 (.jws s h1)
  | basic s h =>
    obtain ⟨q, h1, h2⟩ := Res.bind_eq_ok.mp h
    exact key h2 (.basic s h1)
  | ocr v s h =>
    obtain ⟨q, h1, h2⟩ := Res.bind_eq_ok.mp h
    exact key h2 (.ocr v s h1)
  | csv s h =>
    obtain ⟨q, h1, h2⟩ := Res.bind_eq_ok.mp h
    exact key h2 (.csv s h1)

end

end RKSV
