import Verif.Lemmas.VerifyReceipt
import Verif.Props.Formats
import Verif.Py.Dec
/-
Properties C18–C22, C65: verification of single receipts.
-/
namespace RKSV

section
variable [PyEnv]

/-! ### C18, C19 -/

/-- C18, C19: a verifier accepts a parsed receipt exactly if it is not marked as unsigned and its
signature is valid under the key the verifier has for it. -/
theorem receipt_accepted_iff {v : Verifier} {r : Receipt} {alg : Str} (h : Parsed r alg) :
    v.verify r alg = .ok (r, alg) ↔ r.signature ≠ failureMark ∧
      ∃ k, KeyFor v r k ∧ SignatureValid r k := by
  obtain ⟨g, rfl⟩ := h.good
  rw [verify_iff g]
  simp

/-- C18: if any verification function accepts a text, the receipt returned is the one the text
parses to, it is not marked as unsigned, and its signature is a valid ES256 signature of exactly
its fields under the key of the given certificate or the stored key for its ID. -/
theorem accepted_is_signed {v : Verifier} {r : Receipt} {alg : Str} (h : Accepted v r alg) :
    Parsed r alg ∧ alg = c!"R1" ∧ r.signature ≠ failureMark ∧
      ∃ k, KeyFor v r k ∧ SignatureValid r k :=
  ⟨h.parsed.1, h.parsed.1.good.2, (receipt_accepted_iff h.parsed.1).mp h.parsed.2⟩

/-- C19: in each format, a text that parses to a receipt with a valid signature is accepted. -/
theorem signed_is_accepted {v : Verifier} {r : Receipt} {alg : Str} (hm : r.signature ≠ failureMark)
    {k : PubKey} (hk : KeyFor v r k) (hs : SignatureValid r k) (s : Str) :
    (fromJWS s = .ok (r, alg) → v.verifyJWS s = .ok (r, alg)) ∧
    (fromBasic s = .ok (r, alg) → v.verifyBasic s = .ok (r, alg)) ∧
    (∀ py, fromOCR py s = .ok (r, alg) → v.verifyOCR py s = .ok (r, alg)) ∧
    (fromCSV s = .ok (r, alg) → v.verifyCSV s = .ok (r, alg)) := by
  refine ⟨fun h => ?_, fun h => ?_, fun py h => ?_, fun h => ?_⟩
  · rw [Verifier.verifyJWS, h, Res.ok_bind]
    exact (receipt_accepted_iff (.jws s h)).mpr ⟨hm, k, hk, hs⟩
  · rw [Verifier.verifyBasic, h, Res.ok_bind]
    exact (receipt_accepted_iff (.basic s h)).mpr ⟨hm, k, hk, hs⟩
  · rw [Verifier.verifyOCR, h, Res.ok_bind]
    exact (receipt_accepted_iff (.ocr py s h)).mpr ⟨hm, k, hk, hs⟩
  · rw [Verifier.verifyCSV, h, Res.ok_bind]
    exact (receipt_accepted_iff (.csv s h)).mpr ⟨hm, k, hk, hs⟩

/-- C19: a text that does not parse is rejected with the parser's error. -/
theorem unparsable_is_rejected (v : Verifier) (s : Str) (e : Err) :
    (fromJWS s = .error e → v.verifyJWS s = .error e) ∧
    (fromBasic s = .error e → v.verifyBasic s = .error e) ∧
    (∀ py, fromOCR py s = .error e → v.verifyOCR py s = .error e) ∧
    (fromCSV s = .error e → v.verifyCSV s = .error e) := by
  refine ⟨fun h => ?_, fun h => ?_, fun py h => ?_, fun h => ?_⟩
  · rw [Verifier.verifyJWS, h]; rfl
  · rw [Verifier.verifyBasic, h]; rfl
  · rw [Verifier.verifyOCR, h]; rfl
  · rw [Verifier.verifyCSV, h]; rfl

/-- C18: a verifier has at most one key for a receipt, so the key used is determined. -/
theorem key_unique {v : Verifier} {r : Receipt} {alg : Str} (h : Parsed r alg) {k k' : PubKey}
    (hk : KeyFor v r k) (hk' : KeyFor v r k') : k = k' := by
  have h1 := (selectKey_iff h.good.1.serial_ne).mpr hk
  rw [(selectKey_iff h.good.1.serial_ne).mpr hk'] at h1
  cases h1; rfl

/-! ### C20 -/

/-- C20: hexadecimal and decimal renderings of a certificate's serial number match it, with or
without a leading minus. -/
theorem serial_renderings_match (n : Int) :
    SerialMatches (natHex n.natAbs) n ∧ SerialMatches ('-' :: natHex n.natAbs) n ∧
    SerialMatches (natDec n.natAbs) n ∧ SerialMatches ('-' :: natDec n.natAbs) n := by
  have hx : natHex n.natAbs ≠ [] ∧ ∀ u, natHex n.natAbs ≠ '-' :: u := by
    refine ⟨natHex_ne_nil _, ?_⟩
    intro u h
    exact absurd (natHex_chars n.natAbs '-' (by rw [h]; simp)) (by decide)
  have dx : natDec n.natAbs ≠ [] ∧ ∀ u, natDec n.natAbs ≠ '-' :: u := by
    refine ⟨natDec_ne_nil _, ?_⟩
    intro u h
    obtain ⟨d, hd, e⟩ := natDec_chars n.natAbs '-' (by rw [h]; simp)
    exact absurd e.symm (dig_ne hd (by decide))
  have e : |n| = ((n.natAbs : Nat) : Int) := Int.abs_eq_natAbs n
  refine ⟨Or.inl ⟨_, Or.inr ⟨rfl, hx⟩, ?_⟩, Or.inl ⟨_, Or.inl rfl, ?_⟩, Or.inr ⟨_, Or.inr ⟨rfl, dx⟩, ?_⟩,
    Or.inr ⟨_, Or.inl rfl, ?_⟩⟩
  · rw [e, pyInt_natHex]
  · rw [e, pyInt_natHex]
  · rw [e, pyInt_natDec]
  · rw [e, pyInt_natDec]

/-- C20: a text matches at most two serial numbers up to sign. -/
theorem serial_matches_two {s : Str} {a b c : Int} (ha : SerialMatches s a) (hb : SerialMatches s b)
    (hc : SerialMatches s c) : |a| = |b| ∨ |a| = |c| ∨ |b| = |c| := by
  have uniq : ∀ {base : Nat} {x y : Int}, SerialText s base x → SerialText s base y → x = y := by
    rintro base x y ⟨t, ht, hx⟩ hy
    rw [serialText_iff ht] at hy
    rw [hx] at hy
    cases hy; rfl
  rcases ha with ha | ha <;> rcases hb with hb | hb <;> rcases hc with hc | hc
  · exact Or.inl (uniq ha hb)
  · exact Or.inl (uniq ha hb)
  · exact Or.inr (Or.inl (uniq ha hc))
  · exact Or.inr (Or.inr (uniq hb hc))
  · exact Or.inr (Or.inr (uniq hb hc))
  · exact Or.inr (Or.inl (uniq ha hc))
  · exact Or.inl (uniq ha hb)
  · exact Or.inl (uniq ha hb)

/-- C20: the verifier regards a certificate as belonging to an open system's receipt exactly if the
serial matches. -/
theorem cert_used_iff_matches {r : Receipt} {alg : Str} (h : Parsed r alg) (hz : r.zda ≠ c!"AT0")
    (ks : Option KeyStore) (c : Cert) :
    (Verifier.mk ks (some c)).verify r alg = .error .certSerialMismatch ↔
      ¬SerialMatches r.certSerial (serial c) := by
  obtain ⟨g, rfl⟩ := h.good
  have hsel : ∀ k, (Verifier.mk ks (some c)).selectKey r = .ok (some k) ↔
      SerialMatches r.certSerial (serial c) ∧ k = publicKey c := by
    intro k
    rw [selectKey_iff g.serial_ne]
    constructor
    · intro h
      cases h with
      | closedCert _ hz' => exact absurd hz' hz
      | openCert c' _ hc hs hk => cases hc; exact ⟨hs, hk⟩
      | closedStore _ hz' => exact absurd hz' hz
      | openStoreHex _ _ _ hc => cases hc
      | openStoreDec _ _ _ hc => cases hc
    · rintro ⟨hs, hk⟩; exact .openCert c hz rfl hs hk
  constructor
  · intro he hs
    unfold Verifier.verify at he
    rw [ensure_pos (knownAlg_iff.mpr rfl), Res.ok_bind, (hsel _).mpr ⟨hs, rfl⟩, Res.ok_bind] at he
    split at he
    · split at he <;> cases he
    · simp only [orErr, Res.ok_bind, Res.bind_eq_error, ensure_eq_error] at he
      rcases he with ⟨_, h⟩ | ⟨_, _, h⟩ <;> cases h
  · intro hs
    have : (Verifier.mk ks (some c)).selectKey r = .error .certSerialMismatch := by
      have hno := fun k => mt (hsel k).mp (fun h => hs h.1)
      have hno := hno (publicKey c)
      have hz : r.zda ≠ AT0 := hz
      unfold Verifier.selectKey at hno ⊢
      rw [if_neg hz] at hno ⊢
      obtain ⟨t, ht, hids⟩ := strSerialToKeyIds_ok g.serial_ne
      rw [hids, Res.ok_bind] at hno ⊢
      simp only at hno ⊢
      by_cases hm : numSerialToKeyId (serial c) ∈ hexIds 16 t ++ hexIds 10 t
      · exact absurd (by rw [ensure_pos hm]; rfl) hno
      · rw [ensure_neg hm]; rfl
    unfold Verifier.verify
    rw [ensure_pos (knownAlg_iff.mpr rfl), Res.ok_bind, this]
    rfl

/-! ### C21 -/

/-- C21: the signed text determines every field (and every value derived from it): receipts that
differ in any field have different signing inputs. -/
theorem signature_covers_fields {r r' : Receipt} {alg alg' : Str} (h : Parsed r alg)
    (h' : Parsed r' alg') (hne : r.toDraft ≠ r'.toDraft) : signingInput r ≠ signingInput r' := by
  intro e
  apply hne
  obtain ⟨g, rfl⟩ := h.good
  obtain ⟨g', rfl⟩ := h'.good
  have e1 := utf8Enc_injective e
  rw [g.header, g'.header] at e1
  have e2 := List.append_cancel_left e1
  simp only [List.cons.injEq, true_and] at e2
  have e3 := utf8Enc_injective (b64Text_injective e2)
  exact (payload_unambiguous h h' e3).1

/-- C21 for accepted receipts: if the same signature value is presented with two different receipts
and both are accepted under the same key, that value is a valid signature of two different
messages. -/
theorem altered_receipt_needs_forgery {v v' : Verifier} {r r' : Receipt} {alg alg' : Str}
    (h : Accepted v r alg) (h' : Accepted v' r' alg') (hne : r.toDraft ≠ r'.toDraft)
    {k : PubKey} (hk : KeyFor v r k) (hk' : KeyFor v' r' k) (hsig : r.signature = r'.signature) :
    ∃ m m' sig, m ≠ m' ∧ verifySig k m sig = true ∧ verifySig k m' sig = true := by
  obtain ⟨hp, _, _, k1, hk1, sig, hd, hs⟩ := accepted_is_signed h
  obtain ⟨hp', _, _, k2, hk2, sig', hd', hs'⟩ := accepted_is_signed h'
  cases key_unique hp hk1 hk
  cases key_unique hp' hk2 hk'
  rw [hsig, hd'] at hd
  cases hd
  exact ⟨_, _, sig, signature_covers_fields hp hp' hne, hs, hs'⟩

/-! ### C22 -/

/-- C22: conversion to the QR format does not change the verdict (acceptance or the error) if the
signature text is canonical. -/
theorem qr_same_verdict {v : Verifier} {s : Str} {r : Receipt} {alg : Str}
    (h : fromJWS s = .ok (r, alg)) (hc : CanonicalB64 r.signature) :
    ∃ code, r.toBasic alg = .ok code ∧ v.verifyBasic code = v.verifyJWS s := by
  obtain ⟨code, h1, h2⟩ := qr_round_trip_canonical (.jws s h) hc
  refine ⟨code, h1, ?_⟩
  rw [Verifier.verifyBasic, h2, Verifier.verifyJWS, h]

/-- C22: an accepted JWS text stays accepted as QR code, with the same receipt. -/
theorem qr_stays_accepted {v : Verifier} {s : Str} {r : Receipt} {alg : Str}
    (h : v.verifyJWS s = .ok (r, alg)) (hc : CanonicalB64 r.signature) :
    ∃ code, r.toBasic alg = .ok code ∧ v.verifyBasic code = .ok (r, alg) := by
  obtain ⟨⟨r', a'⟩, h1, h2⟩ := Res.bind_eq_ok.mp h
  have hp : Parsed r' a' := .jws s h1
  obtain ⟨g, ha⟩ := hp.good
  simp only at h2
  subst ha
  cases ((verify_iff g).mp h2).1
  obtain ⟨code, e1, e2⟩ := qr_same_verdict (v := v) h1 hc
  exact ⟨code, e1, by rw [e2, h]⟩

/-- C22 without the assumption: if the signature text is not canonical the QR code is still accepted,
and denotes the receipt with the canonical text of the same signature, unless the signature consists
of the bytes of the failure mark. -/
theorem qr_stays_accepted_noncanonical {v : Verifier} {r : Receipt} {alg : Str}
    (h : Accepted v r alg)
    (hf : b64Decode true (restorePad r.signature) ≠ some (utf8Enc c!"Sicherheitseinrichtung ausgefallen")) :
    ∃ code sig, r.toBasic alg = .ok code ∧ b64Decode true (restorePad r.signature) = some sig ∧
      v.verifyBasic code = .ok ({ r with signature := b64Text true sig }, alg) := by
  obtain ⟨hp, rfl, hm, k, hk, sig, hd, hs⟩ := accepted_is_signed h
  obtain ⟨code, sig', h1, h2, h3⟩ := qr_round_trip hp
  rw [hd] at h2
  cases h2
  refine ⟨code, sig, h1, hd, ?_⟩
  refine (signed_is_accepted (k := k) ?_ ?_ ?_ code).2.1 h3
  · show b64Text true sig ≠ failureMark
    intro e
    have e1 : failureMark = b64Text true (utf8Enc c!"Sicherheitseinrichtung ausgefallen") := by decide +kernel
    rw [e1] at e
    rw [b64Text_injective e] at hd
    exact hf hd
  · cases hk with
    | closedCert c hz hc hk => exact .closedCert c hz hc hk
    | openCert c hz hc hs hk => exact .openCert c hz hc hs hk
    | closedStore ks hz hc hks hk => exact .closedStore ks hz hc hks hk
    | openStoreHex ks n hz hc hks hn hk => exact .openStoreHex ks n hz hc hks hn hk
    | openStoreDec ks n hz hc hks hn hno hk => exact .openStoreDec ks n hz hc hks hn hno hk
  · exact ⟨sig, b64Decode_restorePad true sig, hs⟩

/-! ### C65: errors of the verifier -/

/-- C65: which error is raised in which situation, in order of precedence.  A verifier with neither
certificate nor key store is a programming error and excluded. -/
theorem verify_errors {v : Verifier} {r : Receipt} {alg : Str} (h : Parsed r alg)
    (hv : v.cert ≠ none ∨ v.keyStore ≠ none) :
    (WrongCert v r → v.verify r alg = .error .certSerialMismatch) ∧
    (¬WrongCert v r → r.signature = failureMark →
      v.verify r alg = .error
        (if r.isDummy = false ∧ r.isReversal = false ∧ r.isNull = true then .unsignedNullReceipt
         else .signatureSystemFailed)) ∧
    (¬WrongCert v r → r.signature ≠ failureMark → (¬∃ k, KeyFor v r k) →
      v.verify r alg = .error .noPublicKey) ∧
    (r.signature ≠ failureMark → ∀ k, KeyFor v r k → ¬SignatureValid r k →
      v.verify r alg = .error .invalidSignature) := by
  obtain ⟨g, rfl⟩ := h.good
  have hsel : ¬WrongCert v r → ∃ o, v.selectKey r = .ok o := by
    intro hw
    unfold Verifier.selectKey
    by_cases hz : r.zda = AT0
    · rw [if_pos hz]
      cases hc : v.cert with
      | some c => exact ⟨_, rfl⟩
      | none =>
        cases hks : v.keyStore with
        | some ks => exact ⟨_, rfl⟩
        | none => simp [hc, hks] at hv
    · rw [if_neg hz]
      obtain ⟨t, ht, hids⟩ := strSerialToKeyIds_ok g.serial_ne
      rw [hids, Res.ok_bind]
      cases hc : v.cert with
      | some c =>
        by_contra hcon
        apply hw
        refine ⟨c, hc, hz, fun hs => hcon ?_⟩
        have := (selectKey_iff g.serial_ne).mpr (KeyFor.openCert (v := v) (r := r) c hz hc hs rfl)
        unfold Verifier.selectKey at this
        rw [if_neg hz, hids, Res.ok_bind, hc] at this
        exact ⟨_, this⟩
      | none =>
        cases hks : v.keyStore with
        | some ks => exact ⟨_, rfl⟩
        | none => simp [hc, hks] at hv
  have hk : knownAlg R1 := knownAlg_iff.mpr rfl
  have nb : r.signature ≠ failureMark → r.isSignedBroken = false := by
    intro hm
    cases h : r.isSignedBroken with
    | false => rfl
    | true => exact absurd ((isSignedBroken_iff r).mp h) hm
  refine ⟨?_, ?_, ?_, ?_⟩
  · rintro ⟨c, hc, hz, hs⟩
    have := (cert_used_iff_matches h hz v.keyStore c).mpr hs
    cases v; cases hc; exact this
  · intro hw hm
    obtain ⟨o, ho⟩ := hsel hw
    unfold Verifier.verify
    rw [ensure_pos hk, Res.ok_bind, ho, Res.ok_bind, (isSignedBroken_iff r).mpr hm, if_pos rfl]
    simp only [Bool.not_eq_true]
    split <;> rfl
  · intro hw hm hno
    obtain ⟨o, ho⟩ := hsel hw
    cases o with
    | some k => exact absurd ⟨k, (selectKey_iff g.serial_ne).mp ho⟩ hno
    | none =>
      unfold Verifier.verify
      rw [ensure_pos hk, Res.ok_bind, ho, Res.ok_bind, nb hm]
      rfl
  · intro hm k hkf hs
    unfold Verifier.verify
    rw [ensure_pos hk, Res.ok_bind, (selectKey_iff g.serial_ne).mpr hkf, Res.ok_bind, nb hm]
    simp only [Bool.false_eq_true, if_false, orErr, Res.ok_bind]
    rw [ensure_neg fun h => hs ((jwsVerify_toJWS g k).mp h)]
    rfl

end

/-! ### Concrete cases -/

namespace Demo
attribute [local instance] env

/-- Certificate with serial number 31 and public key 7, 8. -/
def cert : Cert := ([0, 31, 1, 7, 8] : Bytes)

/-- A receipt of an open system with serial `1f`, not yet signed. -/
def unsignedReceipt : Receipt := { receipt with certSerial := c!"1f", signature := [] }

/-- The same, signed with the key of `cert`. -/
def signedReceipt : Receipt :=
  { unsignedReceipt with
    signature := b64Text true (mac ([7, 8] : Bytes) (signingInput unsignedReceipt) ++ [0]) }

theorem signedReceipt_accepted_jws :
    (Verifier.fromCert cert).verifyJWS (signedReceipt.toJWS R1) = .ok (signedReceipt, R1) := by
  decide +kernel

/-- There are accepted receipts. -/
theorem signedReceipt_accepted : Accepted (Verifier.fromCert cert) signedReceipt R1 :=
  .jws _ signedReceipt_accepted_jws

/-- ... also from a key store ... -/
example : (Verifier.fromKeyStore [(c!"1f", ⟨([7, 8] : Bytes), none⟩)]).verifyJWS
    (signedReceipt.toJWS R1) = .ok (signedReceipt, R1) := by decide +kernel

/-- ... and the decimal reading of the serial is used if the hexadecimal one is not stored. -/
example : (Verifier.fromKeyStore [(c!"a", ⟨([7, 8] : Bytes), none⟩)]).selectKey
    { signedReceipt with certSerial := c!"10" } = .ok (some ([7, 8] : Bytes)) := rfl

example : CanonicalB64 signedReceipt.signature := ⟨_, rfl⟩

/-- C20: one text, two serial numbers. -/
example : SerialMatches c!"10" 16 ∧ SerialMatches c!"10" (-10) :=
  ⟨Or.inl ⟨_, Or.inr ⟨rfl, by decide, by intro u h; cases h⟩, rfl⟩,
   Or.inr ⟨_, Or.inr ⟨rfl, by decide, by intro u h; cases h⟩, rfl⟩⟩

/-- C65: the errors occur. -/
example : (Verifier.fromCert ([0, 32, 1, 7, 8] : Bytes)).verify signedReceipt R1 = .error .certSerialMismatch ∧
    (Verifier.fromKeyStore []).verify signedReceipt R1 = .error .noPublicKey ∧
    (Verifier.fromCert cert).verify { signedReceipt with signature := failureMark } R1 =
      .error .unsignedNullReceipt ∧
    (Verifier.fromCert cert).verify { signedReceipt with signature := failureMark, encTurnoverCounter := c!"VFJB" } R1 =
      .error .signatureSystemFailed ∧
    (Verifier.fromCert cert).verify { signedReceipt with signature := c!"AQID" } R1 =
      .error .invalidSignature := by
  decide +kernel

/-- C18: a text that decodes to the bytes of the failure mark without being the canonical text of
it is not recognised as such: the verdict is "invalid signature" instead. -/
theorem mark_compared_as_text : ∃ r, Parsed r R1 ∧
    b64Decode true (restorePad r.signature) = some (utf8Enc c!"Sicherheitseinrichtung ausgefallen") ∧
    (Verifier.fromCert cert).verify r R1 = .error .invalidSignature :=
  ⟨{ unsignedReceipt with signature := c!"U2ljaGVyaGVpdHNlaW5yaWNodHVuZyBhdXNnZWZhbGxlbh" },
    .jws (Receipt.toJWS { unsignedReceipt with signature := c!"U2ljaGVyaGVpdHNlaW5yaWNodHVuZyBhdXNnZWZhbGxlbh" } R1)
      (by decide +kernel), by decide +kernel, by decide +kernel⟩

/-- C18: in a closed system the certificate given to the verifier is used even if the receipt names
another key. -/
theorem closed_system_ignores_key_id (v : Verifier) (c : Cert) (hc : v.cert = some c) (r : Receipt)
    (hz : r.zda = c!"AT0") : KeyFor v r (publicKey c) := .closedCert c hz hc rfl

end Demo

end RKSV
