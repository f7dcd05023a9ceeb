import Verif.Spec.RunTest
import Verif.Lemmas.KeyStore
import Verif.Props.KeyStore
import Verif.Props.VerifyCert
import Verif.Lemmas.VerifyReceipt
/-
Lemmas about the key container of `runTest`.
-/
namespace RKSV

/-! ### IDs -/

theorem hexDigit_dig {d : Nat} (h : d < 10) : hexDigit d = dig d := by
  match d, h with
  | 0, _ | 1, _ | 2, _ | 3, _ | 4, _ | 5, _ | 6, _ | 7, _ | 8, _ | 9, _ => decide

/-- A decimal number may be read as a hexadecimal one. -/
theorem natDec_hex (n : Nat) : ∃ m, natHex m = natDec n ∧ (0 < n → 0 < m) := by
  induction n using Nat.strong_induction_on with
  | _ n ih =>
    by_cases h : n < 10
    · exact ⟨n, by rw [natHex_lt (by omega), natDec_lt h, hexDigit_dig h], id⟩
    · obtain ⟨m, hm, hp⟩ := ih (n / 10) (by omega)
      have hp := hp (by omega)
      refine ⟨16 * m + n % 10, ?_, by omega⟩
      rw [natHex_ge (by omega), natDec_ge (by omega), show (16 * m + n % 10) / 16 = m by omega,
        show (16 * m + n % 10) % 16 = n % 10 by omega, hm, hexDigit_dig (by omega)]

section
variable [PyEnv]

theorem kid_injective {spec : TestSpec} {i j : Nat} (h : spec.kid i = spec.kid j) : i = j :=
  natDec_injective (List.append_cancel_left h)

theorem kid_not_hex (spec : TestSpec) (i n : Nat) : spec.kid i ≠ natHex n := by
  intro h
  have : '-' ∈ natHex n := by
    rw [← h]
    simp [TestSpec.kid]
  exact absurd (natHex_chars n _ this) (by decide)

/-! ### The entries -/

/-- The certificates are in the key container. -/
def TestSpec.certs (spec : TestSpec) (closed : Bool) : Bool := !closed || spec.groups

/-- What may be in the key container. -/
def EntryFor (spec : TestSpec) (keys : List TestKey) (id : Str) (e : KeyEntry) : Prop :=
  (∃ k ∈ keys, id = natHex (serial k.root).natAbs ∧ e = ⟨publicKey k.root, some k.root⟩) ∨
  ∃ (i : Nat) (k : TestKey), keys[i]? = some k ∧ id = spec.kid i ∧ e = ⟨publicKey k.cert, none⟩

structure StoreFor (spec : TestSpec) (closed : Bool) (keys : List TestKey) (n : Nat) (ks : KeyStore) : Prop where
  ok : Dict.Ok ks
  only : ∀ id e, Dict.get? ks id = some e → EntryFor spec keys id e
  certs : spec.certs closed = true → ∀ (i : Nat) (k : TestKey), i < n → keys[i]? = some k →
    (Dict.get? ks (natHex (serial k.root).natAbs)).isSome
  keys : closed = true ∨ spec.includePublicKey = true → ∀ (i : Nat) (k : TestKey), i < n → keys[i]? = some k →
    (Dict.get? ks (spec.kid i)).isSome

theorem StoreFor.set {spec : TestSpec} {closed : Bool} {keys : List TestKey} {n : Nat} {ks : KeyStore}
    (h : StoreFor spec closed keys n ks) {id : Str} {e : KeyEntry} (he : EntryFor spec keys id e) :
    StoreFor spec closed keys n (Dict.set ks id e) where
  ok := h.ok.set id e
  only := by
    intro id' e' h'
    rw [Dict.get?_set] at h'
    split at h'
    · rename_i hi
      cases h'
      rw [← hi]
      exact he
    · exact h.only id' e' h'
  certs := by
    intro hc i k hi hk
    rw [Dict.get?_set]
    split
    · rfl
    · exact h.certs hc i k hi hk
  keys := by
    intro hc i k hi hk
    rw [Dict.get?_set]
    split
    · rfl
    · exact h.keys hc i k hi hk

theorem putPEMCert_export (ks : KeyStore) (c : Cert) : ks.putPEMCert (addPEMCertHeaders (exportCertToPEM c)) =
    .ok (Dict.set ks (natHex (serial c).natAbs) ⟨publicKey c, some c⟩) := by
  unfold KeyStore.putPEMCert exportCertToPEM
  rw [PyEnv.loadCert_pem]
  rfl

theorem putDevice_store {spec : TestSpec} {closed : Bool} {keys : List TestKey} {n : Nat} {ks ks' : KeyStore} {k : TestKey}
    (hk : keys[n]? = some k) (hp : k.fakeRoot = none ∧ k.omitSign = false ∧ k.omitRoot = false)
    (h : StoreFor spec closed keys n ks) (hs : spec.putDevice closed ks n k = .ok ks') :
    StoreFor spec closed keys (n + 1) ks' := by
  have hmem : k ∈ keys := List.mem_of_getElem? hk
  have hroot : EntryFor spec keys (natHex (serial k.root).natAbs) ⟨publicKey k.root, some k.root⟩ :=
    .inl ⟨k, hmem, rfl, rfl⟩
  have hkid : EntryFor spec keys (spec.kid n) ⟨publicKey k.cert, none⟩ := .inr ⟨n, k, hk, rfl, rfl⟩
  have s1 : ∃ ks₁, (StoreFor spec closed keys n ks₁ ∧
      (spec.certs closed = true → (Dict.get? ks₁ (natHex (serial k.root).natAbs)).isSome)) ∧
      (if closed || spec.includePublicKey then ks₁.putKey (spec.kid n) (publicKey k.cert) none else ks₁) = ks' := by
    unfold TestSpec.putDevice at hs
    rw [hp.1, hp.2.2, Bool.not_false, Bool.and_true, Option.getD_none, putPEMCert_export] at hs
    unfold TestSpec.certs
    by_cases hc : (!closed || spec.groups) = true
    · rw [if_pos hc] at hs
      exact ⟨_, ⟨h.set hroot, fun _ => by rw [Dict.get?_set, if_pos rfl]; rfl⟩, Except.ok.inj hs⟩
    · rw [if_neg hc] at hs
      exact ⟨_, ⟨h, fun h => absurd h hc⟩, Except.ok.inj hs⟩
  obtain ⟨ks₁, s1, h2⟩ := s1
  -- the key
  have s2 : StoreFor spec closed keys n ks' ∧
      (spec.certs closed = true → (Dict.get? ks' (natHex (serial k.root).natAbs)).isSome) ∧
      (closed = true ∨ spec.includePublicKey = true → (Dict.get? ks' (spec.kid n)).isSome) := by
    subst h2
    split
    · refine ⟨s1.1.set hkid, fun hc => ?_, fun _ => ?_⟩
      · unfold KeyStore.putKey
        rw [Dict.get?_set]
        split
        · rfl
        · exact s1.2 hc
      · unfold KeyStore.putKey
        rw [Dict.get?_set, if_pos rfl]; rfl
    · rename_i hc
      exact ⟨s1.1, s1.2, fun h => absurd (by simpa using h) hc⟩
  refine ⟨s2.1.ok, s2.1.only, ?_, ?_⟩
  · intro hc i k' hi hk'
    by_cases e : i = n
    · subst e
      rw [hk] at hk'
      cases hk'
      exact s2.2.1 hc
    · exact s2.1.certs hc i k' (by omega) hk'
  · intro hc i k' hi hk'
    by_cases e : i = n
    · subst e
      exact s2.2.2 hc
    · exact s2.1.keys hc i k' (by omega) hk'

theorem putDevices_store {spec : TestSpec} {closed : Bool} {keys : List TestKey}
    (hp : ∀ k ∈ keys, k.fakeRoot = none ∧ k.omitSign = false ∧ k.omitRoot = false) {ks : KeyStore}
    (h : spec.putDevices closed [] 0 keys = .ok ks) : StoreFor spec closed keys keys.length ks := by
  suffices H : ∀ (rest pre : List TestKey) (ks₀ : KeyStore), pre ++ rest = keys →
      StoreFor spec closed keys pre.length ks₀ → spec.putDevices closed ks₀ pre.length rest = .ok ks →
      StoreFor spec closed keys keys.length ks from
    H keys [] [] rfl ⟨by simp [Dict.Ok, Dict.keys], by simp [Dict.get?], by simp, by simp⟩ h
  intro rest
  induction rest with
  | nil =>
    intro pre ks₀ e h0 h
    cases h
    rw [List.append_nil] at e
    rw [← e] at h0 ⊢
    exact h0
  | cons k rest ih =>
    intro pre ks₀ e h0 h
    simp only [TestSpec.putDevices, Res.bind_eq_ok] at h
    obtain ⟨ks₁, h1, h2⟩ := h
    have hk : keys[pre.length]? = some k := by rw [← e]; simp
    refine ih (pre ++ [k]) ks₁ (by rw [← e]; simp) ?_ (by simpa using h2)
    rw [List.length_append]
    exact putDevice_store hk (hp k (List.mem_of_getElem? hk)) h0 h1

/-! ### What the container is good for -/

theorem StoreFor.entries {spec : TestSpec} {closed : Bool} {keys : List TestKey} {n : Nat} {ks : KeyStore}
    (h : StoreFor spec closed keys n ks) : ∀ p ∈ ks, EntryOk p := by
  intro p hp c hc
  rcases h.only p.1 p.2 (Dict.get?_eq_some_of_mem h.ok hp) with ⟨k, -, h1, h2⟩ | ⟨i, k, -, h1, h2⟩
  · rw [h2] at hc ⊢
    cases hc
    exact ⟨rfl, _, h1⟩
  · rw [h2] at hc
    cases hc

theorem StoreFor.getKey {spec : TestSpec} {closed : Bool} {keys : List TestKey} {ks : KeyStore}
    (h : StoreFor spec closed keys keys.length ks) (hc : closed = true) {i : Nat} {k : TestKey} (hk : keys[i]? = some k) :
    ks.getKey (spec.kid i) = some (publicKey k.cert) := by
  obtain ⟨e, he⟩ := Option.isSome_iff_exists.mp
    (h.keys (.inl hc) i k (List.getElem?_eq_some_iff.mp hk).1 hk)
  rw [KeyStore.getKey, he]
  rcases h.only _ _ he with ⟨k', -, h1, -⟩ | ⟨j, k', hj, h1, rfl⟩
  · exact absurd h1 (kid_not_hex _ _ _)
  · rw [kid_injective h1, hj] at hk
    cases hk
    rfl

theorem TestKey.root_mem (k : TestKey) : k.root ∈ k.cert :: k.chain := by
  unfold TestKey.root
  cases h : k.chain with
  | nil => simp
  | cons a l =>
    rw [List.getLastD_cons]
    exact List.mem_cons_of_mem _ (List.getLastD_mem_cons ..)

/-- The certificate under a serial number. -/
theorem StoreFor.getCert {spec : TestSpec} {closed : Bool} {keys : List TestKey} {ks : KeyStore} {n : Nat}
    (h : StoreFor spec closed keys n ks) (hf : KeysFit spec closed keys) {k : TestKey} (hk : k ∈ keys) {c d : Cert}
    (hc : c ∈ k.cert :: k.chain) (hd : ks.getCert (natHex (serial c).natAbs) = some d) : d = c := by
  obtain ⟨e, he, hd⟩ := Option.bind_eq_some_iff.mp hd
  rcases h.only _ _ he with ⟨k', hk', h1, rfl⟩ | ⟨j, k', hj, h1, rfl⟩
  · cases hd
    exact (hf.serials k hk k' hk' c hc k'.root k'.root_mem (natHex_injective h1)).symm
  · cases hd

/-- The root certificates are in the container. -/
theorem StoreFor.root {spec : TestSpec} {closed : Bool} {keys : List TestKey} {ks : KeyStore}
    (h : StoreFor spec closed keys keys.length ks) (hf : KeysFit spec closed keys) (hc : spec.certs closed = true)
    {k : TestKey} (hk : k ∈ keys) :
    Dict.get? ks (natHex (serial k.root).natAbs) = some ⟨publicKey k.root, some k.root⟩ := by
  obtain ⟨i, hi⟩ := List.getElem?_of_mem hk
  obtain ⟨e, he⟩ := Option.isSome_iff_exists.mp (h.certs hc i k (List.getElem?_eq_some_iff.mp hi).1 hi)
  rcases h.only _ _ he with ⟨k', hk', h1, rfl⟩ | ⟨j, k', hj, h1, rfl⟩
  · rw [he, hf.serials k hk k' hk' k.root k.root_mem k'.root k'.root_mem (natHex_injective h1)]
  · exact absurd h1.symm (kid_not_hex _ _ _)

/-- The certificates of the devices are trusted. -/
theorem StoreFor.trusted {spec : TestSpec} {closed : Bool} {keys : List TestKey} {ks : KeyStore}
    (h : StoreFor spec closed keys keys.length ks) (hf : KeysFit spec closed keys) (hg : spec.groups = true)
    {k : TestKey} (hk : k ∈ keys) : ∃ i d, Reaches ks (k.cert :: k.chain) i d ∧ Stored ks d := by
  have hroot := h.root hf (by simp [TestSpec.certs, hg]) hk
  have hsub : ∀ c ∈ k.cert :: k.chain, SerialKnown ks c → Stored ks c := by
    rintro c hc ⟨d, hd⟩
    exact ⟨d, hd, by rw [h.getCert hf hk hc hd]⟩
  have hlast : SerialKnown ks k.root := ⟨k.root, by rw [KeyStore.getCert, hroot]; rfl⟩
  have hch := hf.chain hg k hk
  unfold TestKey.root at hlast
  revert hsub hlast hch
  generalize k.cert = a
  generalize k.chain = l
  intro hsub hlast hch
  induction l generalizing a with
  | nil => exact ⟨0, a, Reaches.zero_iff.mpr rfl, hsub a (by simp) hlast⟩
  | cons b l ih =>
    by_cases hkn : SerialKnown ks a
    · exact ⟨0, a, Reaches.zero_iff.mpr rfl, hsub a (by simp) hkn⟩
    · rw [List.isChain_cons_cons] at hch
      obtain ⟨i, d, h1, h2⟩ := ih b (fun c hc => hsub c (by simp at hc ⊢; tauto)) (by rwa [List.getLastD_cons] at hlast) hch.2
      exact ⟨i + 1, d, Reaches.succ_iff.mpr ⟨hkn, hch.1, h1⟩, h2⟩

/-! ### The verifier knows the devices -/

theorem serialText_natHex (n : Nat) : SerialText (natHex n) 16 n :=
  ⟨_, .inr ⟨rfl, natHex_ne_nil n, fun _ h => absurd (natHex_chars n '-' (by rw [h]; simp)) (by decide)⟩, pyInt_natHex n⟩

theorem natDec_no_minus (n : Nat) (u : Str) : natDec n ≠ '-' :: u := by
  intro h
  obtain ⟨d, hd, e⟩ := natDec_chars n '-' (by rw [h]; simp)
  exact dig_ne hd (by decide) e.symm

theorem serialText_natDec (n : Nat) : SerialText (natDec n) 10 n :=
  ⟨_, .inr ⟨rfl, natDec_ne_nil n, natDec_no_minus n⟩, pyInt_natDec n⟩

/-- What a decimal number is if it is read as a hexadecimal one. -/
theorem serialText_natDec_hex {n : Nat} {m : Int} (h : SerialText (natDec n) 16 m) : intHex m = natDec n := by
  obtain ⟨t, ht, hm⟩ := h
  rcases ht with ht | ⟨rfl, -, -⟩
  · exact absurd ht (natDec_no_minus n t)
  · obtain ⟨k, hk, -⟩ := natDec_hex n
    rw [← hk, pyInt_natHex] at hm
    cases hm
    rw [← hk]
    exact intHex_eq_natHex.mpr rfl

theorem zdaText_open {k : TestKey} (h : 1 ≤ k.zda) : k.zdaText false ≠ c!"AT0" := by
  intro e
  have e : c!"AT" ++ natDec k.zda = c!"AT" ++ natDec 0 := e
  have := natDec_injective (List.append_cancel_left e)
  omega

theorem SerialMatches.of_hex {n : Int} : SerialMatches (natHex n.natAbs) n := by
  refine .inl ?_
  have := serialText_natHex n.natAbs
  rwa [Int.natCast_natAbs] at this

theorem SerialMatches.of_dec {n : Int} : SerialMatches (natDec n.natAbs) n := by
  refine .inr ?_
  have := serialText_natDec n.natAbs
  rwa [Int.natCast_natAbs] at this

/-- The serial number in an open system. -/
theorem serial_open (spec : TestSpec) (i : Nat) (k : TestKey) :
    spec.serial false i k = if spec.decimalSerial then natDec (serial k.cert).natAbs else natHex (serial k.cert).natAbs := rfl

/-- In a DEP with certificates, the certificate of a device is good for its receipts. -/
theorem signed_cert {spec : TestSpec} {closed : Bool} {keys : List TestKey} (hf : KeysFit spec closed keys)
    {i : Nat} {k : TestKey} (hk : k ∈ keys) {o : Order} {b : Bool} (ho : o.sys = spec.system closed i k b) {r : Receipt}
    (hz : r.zda = o.sys.zda) (hs : r.certSerial = o.sys.serial) : SignedFor (.fromCert k.cert) o r := by
  have hmatch : closed = false → SerialMatches r.certSerial (serial k.cert) := by
    intro hc
    have : r.certSerial = spec.serial closed i k := by rw [hs, ho]; unfold TestSpec.system; split <;> rfl
    rw [this, hc, serial_open]
    split
    · exact .of_dec
    · exact .of_hex
  have hzda : r.zda = k.zdaText closed := by rw [hz, ho]; unfold TestSpec.system; split <;> rfl
  unfold SignedFor
  rw [ho]
  unfold TestSpec.system
  cases b with
  | true =>
    show ¬WrongCert _ _
    rintro ⟨c, hc, h1, h2⟩
    cases hc
    cases closed with
    | true => exact h1 hzda
    | false => exact h2 (hmatch rfl)
  | false =>
    show KeyFor _ _ _
    cases closed with
    | true => exact .closedCert k.cert hzda rfl (hf.own k hk).symm
    | false =>
      exact .openCert k.cert (by rw [hzda]; exact zdaText_open (hf.zda k hk).1) rfl (hmatch rfl) (hf.own k hk).symm

/-- In a DEP without certificates, the key container is good for the receipts of a device. -/
theorem signed_store {spec : TestSpec} {closed : Bool} {keys : List TestKey} (hf : KeysFit spec closed keys) {ks : KeyStore}
    (hks : StoreFor spec closed keys keys.length ks) (hg : spec.groups = false)
    {i : Nat} {k : TestKey} (hk : keys[i]? = some k) {o : Order} {b : Bool} (ho : o.sys = spec.system closed i k b)
    {r : Receipt} (hz : r.zda = o.sys.zda) (hs : r.certSerial = o.sys.serial) : SignedFor (.fromKeyStore ks) o r := by
  have hmem := List.mem_of_getElem? hk
  have hser : r.certSerial = spec.serial closed i k := by rw [hs, ho]; unfold TestSpec.system; split <;> rfl
  have hzda : r.zda = k.zdaText closed := by rw [hz, ho]; unfold TestSpec.system; split <;> rfl
  unfold SignedFor
  rw [ho]
  unfold TestSpec.system
  cases b with
  | true =>
    show ¬WrongCert _ _
    rintro ⟨c, hc, -⟩
    cases hc
  | false =>
    show KeyFor _ _ _
    cases closed with
    | true =>
      refine .closedStore ks hzda rfl rfl ?_
      rw [hser, ← hf.own k hmem]
      exact hks.getKey rfl hk
    | false =>
      have hopen : r.zda ≠ c!"AT0" := by rw [hzda]; exact zdaText_open (hf.zda k hmem).1
      have hroot : ∀ k ∈ keys, k.root = k.cert := by
        intro k hk
        unfold TestKey.root
        rw [hf.direct rfl hg k hk]
        rfl
      have hkey : ks.getKey (natHex (serial k.cert).natAbs) = some (pubOf k.priv) := by
        have := hks.root hf (by simp [TestSpec.certs]) hmem
        rw [hroot k hmem] at this
        rw [KeyStore.getKey, this, ← hf.own k hmem]
        rfl
      rw [serial_open] at hser
      by_cases hd : spec.decimalSerial = true
      · rw [if_pos hd] at hser
        by_cases hex : ∃ k' ∈ keys, natDec (serial k.cert).natAbs = natHex (serial k'.cert).natAbs
        · obtain ⟨k', hk', e⟩ := hex
          have := hf.decimal rfl hg hd k hmem k' hk' e
          rw [e, ← this] at hser
          refine .openStoreHex ks _ hopen rfl rfl (by rw [hser]; exact serialText_natHex _) ?_
          rw [intHex_eq_natHex.mpr rfl]
          exact hkey
        · refine .openStoreDec ks _ hopen rfl rfl (by rw [hser]; exact serialText_natDec _) ?_ (by rw [intHex_eq_natHex.mpr rfl]; exact hkey)
          intro m hm
          rw [hser] at hm
          rw [serialText_natDec_hex hm, KeyStore.getKey]
          cases he : Dict.get? ks (natDec (serial k.cert).natAbs) with
          | none => rfl
          | some e =>
            exfalso
            rcases hks.only _ _ he with ⟨k', hk', h1, -⟩ | ⟨j, k', -, h1, -⟩
            · exact hex ⟨k', hk', by rw [h1, hroot k' hk']⟩
            · obtain ⟨d, hd, e⟩ := natDec_chars _ '-' (by rw [h1]; simp [TestSpec.kid])
              exact dig_ne hd (by decide) e.symm
      · rw [if_neg hd] at hser
        refine .openStoreHex ks _ hopen rfl rfl (by rw [hser]; exact serialText_natHex _) ?_
        rw [intHex_eq_natHex.mpr rfl]
        exact hkey

end

end RKSV
