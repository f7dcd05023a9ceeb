import Verif.Lemmas.KeyStore
import Verif.Props.VerifyReceipt
/-
Properties C47–C50, C66: the key store.
-/
namespace RKSV

section
variable [PyEnv]

/-! ### C47 -/

theorem KeyStore.entry_eq (ks : KeyStore) (id : Str) :
    ks.entry id = (Dict.get? ks id).map fun e => (e.key, e.cert) := by
  unfold KeyStore.entry KeyStore.getKey KeyStore.getCert
  cases Dict.get? ks id <;> rfl

theorem entry_set (ks : KeyStore) (id : Str) (k : PubKey) (c : Option Cert) :
    KeyStore.entry (Dict.set ks id ⟨k, c⟩) = Function.update ks.entry id (some (k, c)) := by
  funext x
  rw [KeyStore.entry_eq, Dict.get?_set, Function.update_apply]
  by_cases h : id = x
  · simp [h]
  · rw [if_neg h, if_neg (Ne.symm h), KeyStore.entry_eq]

/-- C47: after any sequence of operations the store answers like a finite map. -/
theorem store_is_map (ops : List KeyOp) :
    KeyStore.entry (ops.foldl KeyStore.run []) = ops.foldl KeyMap.run (fun _ => none) := by
  suffices h : ∀ (ks : KeyStore), KeyStore.entry (ops.foldl KeyStore.run ks) =
      ops.foldl KeyMap.run ks.entry from h []
  induction ops with
  | nil => intro ks; rfl
  | cons op ops ih =>
    intro ks
    rw [List.foldl_cons, List.foldl_cons, ih]
    congr 1
    cases op with
    | putKey id k c => exact entry_set ks id k c
    | delKey id =>
      funext x
      show KeyStore.entry (Dict.del ks id) x = Function.update ks.entry id none x
      rw [KeyStore.entry_eq, Dict.get?_del, Function.update_apply]
      by_cases h : id = x
      · simp [h]
      · rw [if_neg h, if_neg (Ne.symm h), KeyStore.entry_eq]
    | putPEMCert pem =>
      simp only [KeyStore.run, KeyStore.putPEMCert, KeyMap.run]
      cases loadCert pem with
      | none => rfl
      | some c => exact entry_set ks _ _ _
    | putPEMKey id pem =>
      simp only [KeyStore.run, KeyStore.putPEMKey, KeyMap.run]
      cases loadPubKey pem with
      | none => rfl
      | some c => exact entry_set ks _ _ _

/-- C47: the listed IDs are those that have a key, each once. -/
theorem store_ids (ops : List KeyOp) :
    let ks := ops.foldl KeyStore.run []
    (Dict.keys ks).Nodup ∧ ∀ id, id ∈ Dict.keys ks ↔ (ks.getKey id).isSome = true := by
  refine ⟨?_, fun id => ?_⟩
  · suffices h : ∀ ks : KeyStore, Dict.Ok ks → Dict.Ok (ops.foldl KeyStore.run ks) from
      h [] (by simp [Dict.Ok, Dict.keys])
    induction ops with
    | nil => intro ks h; exact h
    | cons op ops ih =>
      intro ks h
      refine ih _ ?_
      cases op with
      | putKey id k c => exact h.set _ _
      | delKey id => exact h.del _
      | putPEMCert pem =>
        simp only [KeyStore.run, KeyStore.putPEMCert]
        cases loadCert pem with
        | none => exact h
        | some c => exact h.set _ _
      | putPEMKey id pem =>
        simp only [KeyStore.run, KeyStore.putPEMKey]
        cases loadPubKey pem with
        | none => exact h
        | some c => exact h.set _ _
  · rw [Dict.mem_keys_iff, KeyStore.getKey, Option.isSome_map]

/-- C47: the loaders raise `ValueError` exactly if the PEM text cannot be loaded. -/
theorem store_load_errors (ks : KeyStore) (id pem : Str) (e : Err) :
    (ks.putPEMCert pem = .error e ↔ loadCert pem = none ∧ e = .valueError) ∧
    (ks.putPEMKey id pem = .error e ↔ loadPubKey pem = none ∧ e = .valueError) := by
  constructor
  · unfold KeyStore.putPEMCert
    cases loadCert pem <;> simp [orErr, eq_comm (a := e)]
  · unfold KeyStore.putPEMKey
    cases loadPubKey pem <;> simp [orErr, eq_comm (a := e)]

/-! ### C48 -/

theorem set_ok (ks : KeyStore) {id : Str} {e : KeyEntry} (hk : ∀ p ∈ ks, EntryOk p) (he : EntryOk (id, e)) :
    ∀ p ∈ Dict.set ks id e, EntryOk p := by
  induction ks with
  | nil => intro p hp; simp [Dict.set] at hp; subst hp; exact he
  | cons q r ih =>
    intro p hp
    simp only [Dict.set] at hp
    split at hp
    · rename_i e1
      rcases List.mem_cons.mp hp with rfl | hp
      · rw [e1]; exact he
      · exact hk p (by simp [hp])
    · rcases List.mem_cons.mp hp with rfl | hp
      · exact hk _ (by simp)
      · exact ih (fun p hp => hk p (by simp [hp])) p hp

theorem built_ok {ops : List KeyOp} (h : ∀ op ∈ ops, op.FromPEM) :
    ∀ p ∈ ops.foldl KeyStore.run [], EntryOk p := by
  suffices hs : ∀ ks : KeyStore, (∀ p ∈ ks, EntryOk p) → ∀ p ∈ ops.foldl KeyStore.run ks, EntryOk p from
    hs [] (by simp)
  induction ops with
  | nil => intro ks hk; exact hk
  | cons op ops ih =>
    intro ks hk
    refine ih (fun op hop => h op (by simp [hop])) _ ?_
    have hop := h op (by simp)
    cases op with
    | putKey id k c => exact hop.elim
    | delKey id => intro p hp; exact hk p (List.mem_of_mem_filter hp)
    | putPEMCert pem =>
      simp only [KeyStore.run, KeyStore.putPEMCert]
      cases loadCert pem with
      | none => exact hk
      | some c =>
        refine set_ok _ hk ?_
        intro c' hc'
        cases hc'
        exact ⟨rfl, _, rfl⟩
    | putPEMKey id pem =>
      simp only [KeyStore.run, KeyStore.putPEMKey]
      cases loadPubKey pem with
      | none => exact hk
      | some k =>
        refine set_ok _ hk ?_
        intro c' hc'
        cases hc'

theorem read_written {ks : KeyStore} (hok : Dict.Ok ks) (h : ∀ p ∈ ks, EntryOk p) (aes : Option Str) :
    readStoreFromJson (ks.toJson aes) = .ok ks := by
  have h1 : readEntries [] (ks.map fun p => (p.1, entryToJson p.1 p.2)) = .ok ([] ++ ks) :=
    readEntries_toJson (by rw [List.nil_append]; exact hok) h
  unfold readStoreFromJson KeyStore.toJson
  cases aes with
  | none =>
    simp only [Json.asObj, orErr, Res.ok_bind, Dict.get?, if_true]
    simpa using h1
  | some a =>
    simp only [Json.asObj, orErr, Res.ok_bind, Dict.get?, if_true]
    simpa using h1

/-- C48: reading back the JSON written for a store built with the loaders yields the same store. -/
theorem store_json_round_trip {ops : List KeyOp} (h : ∀ op ∈ ops, op.FromPEM) (aes : Option Str) :
    let ks := ops.foldl KeyStore.run []
    readStoreFromJson (ks.toJson aes) = .ok ks :=
  read_written (store_ids ops).1 (built_ok h) aes

/-- C48: the AES key stored in the container is the one read back; without one, none is. -/
theorem store_json_aes (ks : KeyStore) (key : Bytes) :
    loadKeyFromJson (ks.toJson (some (b64Encode false key))) = .ok (some key) ∧
    loadKeyFromJson (ks.toJson none) = .ok none := by
  have hne : ¬kMap = kAES := by decide
  constructor
  · simp only [KeyStore.toJson, loadKeyFromJson, Dict.get?, if_true, if_neg hne,
      b64Decode_encode, orErr]
    rfl
  · simp only [KeyStore.toJson, loadKeyFromJson, Dict.get?, if_neg hne]

omit [PyEnv] in
/-- C66: loading the key succeeds exactly if the container is a dictionary that has no key, and then
there is no key, or that has a text which decodes, and then the key is what the text encodes. -/
theorem load_aes_key (j : Json) (r : Option Bytes) :
    loadKeyFromJson j = .ok r ↔
      ∃ d, j = .obj d ∧
        ((Dict.get? d c!"base64AESKey" = none ∧ r = none) ∨
         ∃ s b, Dict.get? d c!"base64AESKey" = some (.str s) ∧ b64Decode false s = some b ∧ r = some b) := by
  constructor
  · intro h
    unfold loadKeyFromJson at h
    split at h
    · rename_i d
      refine ⟨d, rfl, ?_⟩
      split at h
      · rename_i hn
        exact Or.inl ⟨hn, (Except.ok.inj h).symm⟩
      · rename_i s hs
        cases hb : b64Decode false s with
        | none => rw [hb] at h; cases h
        | some b =>
          rw [hb] at h
          exact Or.inr ⟨s, b, hs, hb, (Except.ok.inj h).symm⟩
      · cases h
    · cases h
  · rintro ⟨d, rfl, ⟨h, rfl⟩ | ⟨s, b, h, hb, rfl⟩⟩
    · simp only [loadKeyFromJson, kAES, h]
    · simp only [loadKeyFromJson, kAES, h, hb, orErr]
      rfl

/-- Characters of the base64 alphabet, at most three `=`, and possibly a line feed. -/
def LooksB64 (s : Str) : Prop :=
  ∃ t k nl, s = t ++ List.replicate k '=' ++ nl ∧ (∀ c ∈ t, isB64 false c = true) ∧ k ≤ 3 ∧
    (nl = [] ∨ nl = ['\n'])

omit [PyEnv] in
theorem b64Matches_iff (s : Str) : b64Matches false s = true ↔ LooksB64 s := by
  unfold LooksB64 b64Matches
  simp only [Bool.and_eq_true, decide_eq_true_eq]
  constructor
  · rintro ⟨h1, h2⟩
    refine ⟨(stripNl s).takeWhile (isB64 false), ((stripNl s).dropWhile (isB64 false)).length,
      if stripNl s = s then [] else ['\n'], ?_, ?_, h2, ?_⟩
    · have hrep : List.replicate ((stripNl s).dropWhile (isB64 false)).length '=' =
          (stripNl s).dropWhile (isB64 false) := by
        symm
        rw [List.eq_replicate_iff]
        refine ⟨rfl, fun c hc => ?_⟩
        simpa using List.all_eq_true.mp h1 c hc
      rw [hrep, List.takeWhile_append_dropWhile]
      split
      · rename_i e; rw [e]; simp
      · rename_i e
        rcases stripNl_cases s with h | h
        · exact absurd h e
        · exact h
    · intro c hc
      exact List.all_eq_true.mp (List.all_takeWhile) c hc
    · split <;> simp
  · rintro ⟨t, k, nl, rfl, ht, hk, hnl⟩
    have key : stripNl (t ++ List.replicate k '=' ++ nl) = t ++ List.replicate k '=' := by
      rcases hnl with rfl | rfl
      · rw [List.append_nil, stripNl_b64_append ht]
      · unfold stripNl
        rw [if_pos (by simp), List.dropLast_concat]
    rw [key, (takeWhile_append_replicate_eq ht k).2]
    exact ⟨by simp, by simpa using hk⟩

omit [PyEnv] in
/-- C66: what is raised otherwise: `TypeError` for a container that is no dictionary or a text that does
not look like base64, `ValueError` for a base64 text without the necessary padding, `AttributeError` for
a key that is no text. -/
theorem load_aes_key_error (j : Json) (e : Err) :
    loadKeyFromJson j = .error e ↔
      ((∀ d, j ≠ .obj d) ∧ e = .typeError) ∨
      ∃ d v, j = .obj d ∧ Dict.get? d c!"base64AESKey" = some v ∧
        (((∀ s, v ≠ .str s) ∧ e = .attributeError) ∨
         ∃ s, v = .str s ∧ b64Decode false s = none ∧
           ((LooksB64 s ∧ e = .valueError) ∨ (¬LooksB64 s ∧ e = .typeError))) := by
  constructor
  · intro h
    unfold loadKeyFromJson at h
    split at h
    · rename_i d
      right
      split at h
      · cases h
      · rename_i s hs
        refine ⟨d, _, rfl, hs, Or.inr ⟨s, rfl, ?_⟩⟩
        cases hb : b64Decode false s with
        | none =>
          rw [hb] at h
          refine ⟨rfl, ?_⟩
          have h := Except.error.inj h
          by_cases hl : LooksB64 s
          · rw [if_pos ((b64Matches_iff s).mpr hl)] at h
            exact Or.inl ⟨hl, h.symm⟩
          · rw [if_neg (fun hm => hl ((b64Matches_iff s).mp hm))] at h
            exact Or.inr ⟨hl, h.symm⟩
        | some b => rw [hb] at h; cases h
      · rename_i v hno hv
        refine ⟨d, v, rfl, hv, Or.inl ⟨?_, (Except.error.inj h).symm⟩⟩
        rintro s rfl
        exact hno s rfl
    · rename_i hno
      exact Or.inl ⟨fun d hd => hno d hd, (Except.error.inj h).symm⟩
  · rintro (⟨hno, rfl⟩ | ⟨d, v, rfl, hv, ⟨hno, rfl⟩ | ⟨s, rfl, hb, ⟨hl, rfl⟩ | ⟨hl, rfl⟩⟩⟩)
    · cases j <;> first | rfl | exact absurd rfl (hno _)
    · cases v <;> simp only [loadKeyFromJson, kAES, hv] <;> exact absurd rfl (hno _)
    · simp only [loadKeyFromJson, kAES, hv, hb, orErr, if_pos ((b64Matches_iff s).mpr hl)]
      rfl
    · simp only [loadKeyFromJson, kAES, hv, hb, orErr, if_neg (fun hm => hl ((b64Matches_iff s).mp hm))]
      rfl

/-- Containers of each kind. -/
example :
    loadKeyFromJson (.obj [(c!"base64AESKey", .str c!"AQID")]) = .ok (some [1, 2, 3]) ∧
    loadKeyFromJson (.obj [(c!"base64AESKey", .str c!"AQIDBA")]) = .error .valueError ∧
    loadKeyFromJson (.obj [(c!"base64AESKey", .str c!"AQ ID")]) = .error .typeError ∧
    loadKeyFromJson (.obj [(c!"base64AESKey", .int 3)]) = .error .attributeError ∧
    loadKeyFromJson (.obj [(c!"x", .int 3)]) = .ok none ∧
    loadKeyFromJson (.arr []) = .error .typeError := by
  refine ⟨rfl, rfl, rfl, rfl, rfl, rfl⟩

/-! ### C49 -/

/-- The documented exceptions of the key store readers. -/
def KeyStoreParseError (e : Err) : Prop :=
  e = .malformedKeyStore ∨ e = .malformedCertificate ∨ e = .malformedPublicKey

theorem readEntry_error {ks : KeyStore} {id : Str} {v : Json} {e : Err}
    (h : readEntry ks id v = .error e) : KeyStoreParseError e ∨ (e = .indexError ∧ id = []) := by
  unfold readEntry at h
  simp only [Res.bind_eq_error, orErr_eq_error, orErr_eq_ok, ensure_eq_error] at h
  rcases h with ⟨_, rfl⟩ | ⟨d, _, h⟩
  · exact Or.inl (Or.inl rfl)
  rcases h with ⟨_, rfl⟩ | ⟨_, _, h⟩
  · exact Or.inl (Or.inl rfl)
  rcases h with ⟨_, rfl⟩ | ⟨_, _, h⟩
  · exact Or.inl (Or.inl rfl)
  rcases h with ⟨_, rfl⟩ | ⟨cp, _, h⟩
  · exact Or.inl (Or.inl rfl)
  rcases h with ⟨_, rfl⟩ | ⟨_, _, h⟩
  · exact Or.inl (Or.inl rfl)
  rcases h with ⟨_, rfl⟩ | ⟨_, _, h⟩
  · exact Or.inl (Or.inl rfl)
  rcases h with ⟨_, rfl⟩ | ⟨_, _, h⟩
  · exact Or.inl (Or.inl rfl)
  split at h
  · rw [Res.bind_eq_error] at h
    rcases h with h | ⟨ids, _, h⟩
    · unfold strSerialToKeyIds at h
      split at h
      · cases h; exact Or.inr ⟨rfl, rfl⟩
      · cases h
    · split at h
      · cases h; exact Or.inl (Or.inl rfl)
      · simp only [parseKeyStoreCert, Res.bind_eq_error, orErr_eq_error] at h
        rcases h with (⟨_, rfl⟩ | ⟨_, _, _, rfl⟩) | ⟨_, _, h⟩
        · exact Or.inl (Or.inr (Or.inl rfl))
        · exact Or.inl (Or.inr (Or.inl rfl))
        · cases h
  · split at h
    · simp only [parseKeyStorePubkey, Res.bind_eq_error, orErr_eq_error] at h
      rcases h with (⟨_, rfl⟩ | ⟨_, _, _, rfl⟩) | ⟨_, _, h⟩
      · exact Or.inl (Or.inr (Or.inr rfl))
      · exact Or.inl (Or.inr (Or.inr rfl))
      · cases h
    · cases h; exact Or.inl (Or.inl rfl)

theorem readEntries_error {l : List (Str × Json)} {ks : KeyStore} {e : Err}
    (h : readEntries ks l = .error e) :
    KeyStoreParseError e ∨ (e = .indexError ∧ ∃ v, ([], v) ∈ l) := by
  induction l generalizing ks with
  | nil => cases h
  | cons p r ih =>
    obtain ⟨id, v⟩ := p
    rw [readEntries, Res.bind_eq_error] at h
    rcases h with h | ⟨_, _, h⟩
    · rcases readEntry_error h with h | ⟨h', rfl⟩
      · exact Or.inl h
      · exact Or.inr ⟨h', v, by simp⟩
    · rcases ih h with h | ⟨h, v, hv⟩
      · exact Or.inl h
      · exact Or.inr ⟨h, v, by simp [hv]⟩

/-- C49, partial: for every JSON value the reader returns a store or raises a key store parse error,
except that an `IndexError` escapes if the map has an entry with an empty ID.  The full claim (no such
exception) is false, see `Demo.empty_id_escapes`. -/
theorem store_read_total_partial (j : Json) (e : Err) (h : readStoreFromJson j = .error e) :
    KeyStoreParseError e ∨ (e = .indexError ∧ ∃ root m v, j = .obj root ∧
      Dict.get? root c!"certificateOrPublicKeyMap" = some (.obj m) ∧ ([], v) ∈ m) := by
  unfold readStoreFromJson at h
  simp only [Res.bind_eq_error, orErr_eq_error, orErr_eq_ok, Json.asObj_eq_some] at h
  rcases h with ⟨_, rfl⟩ | ⟨root, hr, h⟩
  · exact Or.inl (Or.inl rfl)
  rcases h with ⟨_, rfl⟩ | ⟨m, hm, h⟩
  · exact Or.inl (Or.inl rfl)
  rcases h with ⟨_, rfl⟩ | ⟨cp, hc, h⟩
  · exact Or.inl (Or.inl rfl)
  rcases readEntries_error h with h | ⟨h, v, hv⟩
  · exact Or.inl h
  · subst hc; exact Or.inr ⟨h, root, cp, v, hr, hm, hv⟩

/-! ### C67: what a key store read from JSON contains -/

/-- What one entry of the container contributes. -/
inductive JsonEntry (id : Str) (v : Json) : Str → KeyEntry → Prop
  | cert {d : Dict Json} {pem : Str} {n : Int} {c : Cert} : v = .obj d → Dict.get? d c!"id" = some (.str id) →
      Dict.get? d c!"signatureDeviceType" = some (.str c!"CERTIFICATE") →
      Dict.get? d c!"signatureCertificateOrPublicKey" = some (.str pem) →
      loadCert (addPEMCertHeaders pem) = some c →
      SerialText id 16 n ∨ (SerialText id 10 n ∧ ∀ m, ¬SerialText id 16 m) →
      JsonEntry id v (intHex n) ⟨publicKey c, some c⟩
  | key {d : Dict Json} {pem : Str} {k : PubKey} : v = .obj d → Dict.get? d c!"id" = some (.str id) →
      Dict.get? d c!"signatureDeviceType" = some (.str c!"PUBLIC_KEY") →
      Dict.get? d c!"signatureCertificateOrPublicKey" = some (.str pem) →
      loadPubKey (addPEMPubKeyHeaders pem) = some k →
      JsonEntry id v id ⟨k, none⟩

/-- C67: the reader succeeds exactly if every entry of the container is well formed, and the store
then holds what the entries say (a later entry replaces an earlier one under the same ID). -/
theorem store_read_iff (j : Json) (ks : KeyStore) : readStoreFromJson j = .ok ks ↔
    ∃ (root m : Dict Json) (entries : List (Str × KeyEntry)), j = .obj root ∧ Dict.get? root c!"certificateOrPublicKeyMap" = some (.obj m) ∧
      List.Forall₂ (fun p q => JsonEntry p.1 p.2 q.1 q.2) m entries ∧
      ks = entries.foldl (fun d q => Dict.set d q.1 q.2) [] := by
  have one : ∀ (ks ks' : KeyStore) id v, readEntry ks id v = .ok ks' ↔
      ∃ q : Str × KeyEntry, JsonEntry id v q.1 q.2 ∧ ks' = Dict.set ks q.1 q.2 := by
    intro ks ks' id v
    constructor
    · intro h
      unfold readEntry at h
      simp only [Res.bind_eq_ok, orErr_eq_ok, ensure_eq_ok, Json.asObj_eq_some, Json.asStr_eq_some] at h
      obtain ⟨d, hv, jid, hid, jt, ht, cp, hcp, inner, hi, u, hii, dev, hdev, h⟩ := h
      subst hii; subst hi; subst hdev
      split at h
      · rename_i hd
        subst hd
        simp only [Res.bind_eq_ok] at h
        obtain ⟨ids, hids, h⟩ := h
        split at h
        · cases h
        · rename_i kid rest
          simp only [parseKeyStoreCert, Res.bind_eq_ok, orErr_eq_ok, Json.asStr_eq_some] at h
          obtain ⟨c, ⟨pem, hp, hc⟩, h⟩ := h
          subst hp
          cases h
          have hne : id ≠ [] := by rintro rfl; cases hids
          obtain ⟨t, ht', hids'⟩ := strSerialToKeyIds_ok hne
          rw [hids'] at hids
          unfold hexIds at hids
          cases h16 : pyInt 16 t with
          | some n =>
            rw [h16] at hids
            simp at hids
            rw [← hids.1]
            exact ⟨(intHex n, _), .cert hv hid ht hcp hc (Or.inl ⟨t, ht', h16⟩), rfl⟩
          | none =>
            rw [h16] at hids
            cases h10 : pyInt 10 t with
            | none => rw [h10] at hids; simp at hids
            | some n =>
              rw [h10] at hids
              simp at hids
              rw [← hids.1]
              refine ⟨(intHex n, _), .cert hv hid ht hcp hc (Or.inr ⟨⟨t, ht', h10⟩, fun m hm => ?_⟩), rfl⟩
              rw [serialText_iff ht'] at hm
              rw [h16] at hm; cases hm
      · split at h
        · rename_i _ hd
          subst hd
          simp only [parseKeyStorePubkey, Res.bind_eq_ok, orErr_eq_ok, Json.asStr_eq_some] at h
          obtain ⟨c, ⟨pem, hp, hc⟩, h⟩ := h
          subst hp
          cases h
          exact ⟨(id, _), .key hv hid ht hcp hc, rfl⟩
        · cases h
    · rintro ⟨⟨kid, e⟩, h, rfl⟩
      simp only at h ⊢
      unfold readEntry
      cases h with
      | @cert d pem n c hv hid ht hcp hc hs =>
        subst hv
        have hk : kId = c!"id" := rfl
        simp only [Json.asObj, orErr, Res.ok_bind, kId, kType, kPem, hid, ht, hcp, Json.asStr]
        rw [ensure_pos trivial, Res.ok_bind, if_pos (by decide)]
        have hne : id ≠ [] := by
          rintro rfl
          rcases hs with ⟨t, ht, h⟩ | ⟨⟨t, ht, h⟩, _⟩
          · rcases ht with h1 | ⟨h0, h1, _⟩
            · cases h1
            · simp_all
          · rcases ht with h1 | ⟨h0, h1, _⟩
            · cases h1
            · simp_all
        obtain ⟨t, ht', hids⟩ := strSerialToKeyIds_ok hne
        simp only [serialText_iff ht'] at hs
        rw [hids, Res.ok_bind]
        have : ∃ rest, hexIds 16 t ++ hexIds 10 t = intHex n :: rest := by
          unfold hexIds
          rcases hs with hs | ⟨h1, h2⟩
          · rw [hs]; exact ⟨_, rfl⟩
          · cases h16 : pyInt 16 t with
            | some m => exact absurd h16 (h2 m)
            | none => rw [h1]; exact ⟨_, rfl⟩
        obtain ⟨rest, hr⟩ := this
        rw [hr]
        simp only [parseKeyStoreCert, Json.asStr, orErr, Res.ok_bind, hc]
        rfl
      | @key d pem k hv hid ht hcp hk =>
        subst hv
        simp only [Json.asObj, orErr, Res.ok_bind, kId, kType, kPem, hid, ht, hcp, Json.asStr]
        rw [ensure_pos trivial, Res.ok_bind, if_neg (by decide), if_pos (by decide)]
        simp only [parseKeyStorePubkey, Json.asStr, orErr, Res.ok_bind, hk]
        rfl
  have all : ∀ (l : List (Str × Json)) (ks ks' : KeyStore), readEntries ks l = .ok ks' ↔
      ∃ entries : List (Str × KeyEntry), List.Forall₂ (fun p q => JsonEntry p.1 p.2 q.1 q.2) l entries ∧
        ks' = entries.foldl (fun d q => Dict.set d q.1 q.2) ks := by
    intro l
    induction l with
    | nil =>
      intro ks ks'
      simp only [readEntries, Except.ok.injEq, List.forall₂_nil_left_iff]
      constructor
      · rintro rfl; exact ⟨[], rfl, rfl⟩
      · rintro ⟨_, rfl, rfl⟩; rfl
    | cons p r ih =>
      intro ks ks'
      obtain ⟨id, v⟩ := p
      rw [readEntries, Res.bind_eq_ok]
      constructor
      · rintro ⟨k1, h1, h2⟩
        obtain ⟨q, hq, rfl⟩ := (one _ _ _ _).mp h1
        obtain ⟨es, hes, rfl⟩ := (ih _ _).mp h2
        exact ⟨q :: es, .cons hq hes, rfl⟩
      · rintro ⟨es, hes, rfl⟩
        cases hes with
        | cons hq hes => exact ⟨_, (one _ _ _ _).mpr ⟨_, hq, rfl⟩, (ih _ _).mpr ⟨_, hes, rfl⟩⟩
  unfold readStoreFromJson
  simp only [Res.bind_eq_ok, orErr_eq_ok, Json.asObj_eq_some]
  constructor
  · rintro ⟨root, hj, mj, hm, m, rfl, h⟩
    obtain ⟨es, hes, hk⟩ := (all _ _ _).mp h
    exact ⟨root, m, es, hj, hm, hes, hk⟩
  · rintro ⟨root, m, es, hj, hm, hes, hk⟩
    exact ⟨root, hj, _, hm, m, rfl, (all _ _ _).mpr ⟨es, hes, hk⟩⟩

end

/-! ### C50 -/

/-- C50: an ID survives writing to and reading from the INI format exactly if it contains none of the
texts `s;`, `u;`, `g;`. -/
theorem ini_id_survives_iff (id : Str) : iniUnescape (iniEscape id) = id ↔ NoEscapes id := by
  constructor
  · intro h; rw [← h]; exact noEscapes_unescape _
  · exact iniUnescape_escape

/-- C50: a store built with the loaders whose IDs contain none of these texts is read back as the
same map from the INI format. -/
theorem ini_round_trip [PyEnv] {ops : List KeyOp} (h : ∀ op ∈ ops, op.FromPEM)
    (hid : ∀ id ∈ Dict.keys (ops.foldl KeyStore.run []), NoEscapes id) :
    let ks := ops.foldl KeyStore.run []
    ∃ ks', readIni (ks.writeIni ⟨none, none⟩) = .ok ks' ∧ ks'.entry = ks.entry := by
  intro ks
  have hok : Dict.Ok ks := (store_ids ops).1
  refine ⟨_, readIni_writeIni hok (fun p hp => hid _ (List.mem_map.mpr ⟨p, hp, rfl⟩))
    (fun p hp c hc => ((built_ok h) p hp c hc).1), ?_⟩
  funext id
  rw [KeyStore.entry_eq, KeyStore.entry_eq, get?_perm (List.filter_append_perm _ _).symm hok]
  rfl

/-! ### Concrete cases -/

namespace Demo
attribute [local instance] env

/-- A store with a certificate and a key of a closed system. -/
def someOps : List KeyOp :=
  [.putPEMCert (addPEMCertHeaders (b64Encode false [0, 31, 1, 7, 8])),
   .putPEMKey c!"S:123456789" (addPEMPubKeyHeaders (b64Encode false [9])),
   .putPEMKey c!"x" (addPEMPubKeyHeaders (b64Encode false [9])), .delKey c!"x"]

example : (∀ op ∈ someOps, op.FromPEM) ∧
    Dict.keys (someOps.foldl KeyStore.run []) = [c!"1f", c!"S:123456789"] := by
  constructor
  · simp [someOps, KeyOp.FromPEM]
  · decide +kernel

example : NoEscapes c!"S:123456789" := (ini_id_survives_iff _).mp (by decide)

/-- C50: an ID that does not survive. -/
example : iniUnescape (iniEscape c!"s;1") = c!"S:1" := by decide

/-- C49: the exception that escapes. -/
theorem empty_id_escapes : readStoreFromJson (.obj [(c!"certificateOrPublicKeyMap", .obj [([], .obj
    [(c!"id", .str []), (c!"signatureDeviceType", .str c!"CERTIFICATE"),
     (c!"signatureCertificateOrPublicKey", .str [])])])]) = .error .indexError := rfl

/-- C48: for entries made up by hand the round trip can fail: a certificate stored under an ID that
is not its serial moves or cannot be read. -/
theorem odd_id_moves : readStoreFromJson
    (KeyStore.toJson (KeyStore.putKey [] c!"1F" ([8] : Bytes) (some ([0, 31, 1, 8] : Bytes))) none) =
      .ok [(c!"1f", ⟨([8] : Bytes), some ([0, 31, 1, 8] : Bytes)⟩)] := rfl

/-- C67: two entries under one ID: the later one wins. -/
example : (readStoreFromJson (.obj [(c!"certificateOrPublicKeyMap", .obj
    [(c!"1F", entryToJson c!"1F" ⟨([8] : Bytes), some ([0, 31, 1, 8] : Bytes)⟩),
     (c!"1f", entryToJson c!"1f" ⟨([9] : Bytes), some ([0, 31, 1, 9] : Bytes)⟩)])])) =
      .ok [(c!"1f", ⟨([9] : Bytes), some ([0, 31, 1, 9] : Bytes)⟩)] := rfl

end Demo

end RKSV
