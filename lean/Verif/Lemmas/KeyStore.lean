import Verif.Spec.KeyStore
import Verif.Lemmas.VerifyReceipt
import Mathlib.Data.List.Nodup
/-
Helper lemmas: key store.
-/
namespace RKSV

/-! ### Two-character replacement -/

theorem replace2_cons_ne {a b c d x : Char} (h : x ≠ a) (t : Str) :
    replace2 a b c d (x :: t) = x :: replace2 a b c d t := by
  cases t with
  | nil => rfl
  | cons y r => rw [replace2, if_neg (by simp [h])]

theorem replace2_hit (a b c d : Char) (t : Str) :
    replace2 a b c d (a :: b :: t) = c :: d :: replace2 a b c d t := by
  rw [replace2, if_pos ⟨rfl, rfl⟩]

theorem replace2_cons_miss {a b c d x : Char} {t : Str} (h : t.head? ≠ some b) :
    replace2 a b c d (x :: t) = x :: replace2 a b c d t := by
  cases t with
  | nil => rfl
  | cons y r =>
    rw [replace2, if_neg]
    rintro ⟨_, rfl⟩; exact h rfl

theorem head_replace2 {a b c d q : Char} {t : Str} (h : t.head? ≠ some q) (hc : c ≠ q) :
    (replace2 a b c d t).head? ≠ some q := by
  match t with
  | [] => simp [replace2]
  | [x] => simpa [replace2] using h
  | x :: y :: r =>
    rw [replace2]
    split
    · simpa using hc
    · simpa using h

/-- Simultaneous replacement of three two-character texts with a common second character. -/
def replace3 (f : Char → Option Char) (q q' : Char) : Str → Str
  | [] => []
  | [x] => [x]
  | x :: y :: r =>
    match f x with
    | some x' => if y = q then x' :: q' :: replace3 f q q' r else x :: replace3 f q q' (y :: r)
    | none => x :: replace3 f q q' (y :: r)

/-- The characters that are escaped. -/
def three (a b c a' b' c' x : Char) : Option Char :=
  if x = a then some a' else if x = b then some b' else if x = c then some c' else none

theorem replace_three {a b c a' b' c' q q' : Char} (hab : a ≠ b) (hac : a ≠ c) (hbc : b ≠ c)
    (ha : a' ∉ [b, c, q]) (hb : b' ∉ [c, q]) (hq : q ∉ [a, b, c])
    (hq' : q' ∉ [b, c]) (s : Str) :
    replace2 c q c' q' (replace2 b q b' q' (replace2 a q a' q' s)) =
      replace3 (three a b c a' b' c') q q' s := by
  simp only [List.mem_cons, List.not_mem_nil, or_false, not_or] at ha hb hq hq'
  induction s using replace3.induct (f := three a b c a' b' c') (q := q) with
  | case1 => rfl
  | case2 x => rfl
  | case3 x r x' hx ih =>
    rw [replace3, hx]
    simp only [if_true]
    unfold three at hx
    split at hx
    · cases hx; rename_i h; subst h
      rw [replace2_hit, replace2_cons_ne ha.1, replace2_cons_ne hq'.1,
        replace2_cons_ne ha.2.1, replace2_cons_ne hq'.2, ih]
    · split at hx
      · cases hx; rename_i h1 h; subst h
        rw [replace2_cons_ne h1, replace2_cons_ne hq.1, replace2_hit,
          replace2_cons_ne hb.1, replace2_cons_ne hq'.2, ih]
      · split at hx
        · cases hx; rename_i h1 h2 h; subst h
          rw [replace2_cons_ne h1, replace2_cons_ne hq.1, replace2_cons_ne h2, replace2_cons_ne hq.2.1,
            replace2_hit, ih]
        · cases hx
  | case4 x y r x' hx hy ih =>
    rw [replace3, hx]
    simp only [if_neg hy]
    have h1 : (y :: r).head? ≠ some q := by simpa using hy
    have h2 := head_replace2 (a := a) (b := q) (c := a') (d := q') h1 ha.2.2
    have h3 := head_replace2 (a := b) (b := q) (c := b') (d := q') h2 hb.2
    rw [replace2_cons_miss h1, replace2_cons_miss h2, replace2_cons_miss h3, ih]
  | case5 x y r hx ih =>
    rw [replace3, hx]
    simp only
    have hxa : x ≠ a ∧ x ≠ b ∧ x ≠ c := by
      unfold three at hx
      split at hx
      · cases hx
      · split at hx
        · cases hx
        · split at hx
          · cases hx
          · exact ⟨by assumption, by assumption, by assumption⟩
    rw [replace2_cons_ne hxa.1, replace2_cons_ne hxa.2.1, replace2_cons_ne hxa.2.2, ih]

theorem iniEscape_eq (s : Str) :
    iniEscape s = replace3 (three 'S' 'U' 'G' 's' 'u' 'g') ':' ';' s := by
  unfold iniEscape
  exact replace_three (by decide) (by decide) (by decide) (by decide) (by decide) (by decide)
    (by decide) s

theorem iniUnescape_eq (s : Str) :
    iniUnescape s = replace3 (three 's' 'u' 'g' 'S' 'U' 'G') ';' ':' s := by
  unfold iniUnescape
  exact replace_three (by decide) (by decide) (by decide) (by decide) (by decide) (by decide)
    (by decide) s

theorem three_lower {x x' : Char} (h : three 'S' 'U' 'G' 's' 'u' 'g' x = some x') :
    three 's' 'u' 'g' 'S' 'U' 'G' x' = some x := by
  unfold three at h
  split at h
  · cases h; rename_i e; subst e; decide
  · split at h
    · cases h; rename_i e; subst e; decide
    · split at h
      · cases h; rename_i e; subst e; decide
      · cases h

theorem three_some {a b c a' b' c' x x' : Char} (h : three a b c a' b' c' x = some x') :
    x ∈ [a, b, c] ∧ x' ∈ [a', b', c'] := by
  unfold three at h
  split at h
  · cases h; simp [*]
  · split at h
    · cases h; simp [*]
    · split at h
      · cases h; simp [*]
      · cases h

theorem three_none {a b c a' b' c' x : Char} (h : three a b c a' b' c' x = none) : x ∉ [a, b, c] := by
  unfold three at h
  split at h
  · cases h
  · split at h
    · cases h
    · split at h
      · cases h
      · simp [*]

theorem head_replace3 {f : Char → Option Char} {q q' z : Char} {t : Str} (h : t.head? ≠ some z)
    (hf : ∀ x x', f x = some x' → x' ≠ z) : (replace3 f q q' t).head? ≠ some z := by
  match t with
  | [] => simp [replace3]
  | [x] => simpa [replace3] using h
  | x :: y :: r =>
    rw [replace3]
    split
    · rename_i x' hx
      split
      · simpa using hf _ _ hx
      · simpa using h
    · simpa using h

section
variable [PyEnv]

omit [PyEnv] in
theorem NoEscapes.tail {x : Char} {s : Str} (h : NoEscapes (x :: s)) : NoEscapes s := by
  intro y hy hs
  exact h y hy (List.infix_cons hs)

omit [PyEnv] in
theorem NoEscapes.head {x y : Char} {s : Str} (h : NoEscapes (x :: y :: s)) (hx : x ∈ ['s', 'u', 'g']) :
    y ≠ ';' := by
  rintro rfl
  exact h x hx ⟨[], s, rfl⟩

omit [PyEnv] in
theorem noEscapes_cons_iff {x : Char} {s : Str} : NoEscapes (x :: s) ↔
    NoEscapes s ∧ (x ∈ ['s', 'u', 'g'] → s.head? ≠ some ';') := by
  constructor
  · intro h
    refine ⟨h.tail, fun hx hs => ?_⟩
    cases s with
    | nil => cases hs
    | cons y s => simp at hs; subst hs; exact h.head hx rfl
  · rintro ⟨h1, h2⟩ y hy hs
    rw [List.infix_cons_iff] at hs
    rcases hs with hs | hs
    · rw [List.cons_prefix_cons] at hs
      obtain ⟨rfl, hs⟩ := hs
      cases s with
      | nil => simp at hs
      | cons z s =>
        rw [List.cons_prefix_cons] at hs
        exact h2 hy (by rw [← hs.1]; rfl)
    · exact h1 y hy hs

omit [PyEnv] in
theorem iniUnescape_escape {s : Str} (h : NoEscapes s) : iniUnescape (iniEscape s) = s := by
  rw [iniEscape_eq, iniUnescape_eq]
  induction s using replace3.induct (f := three 'S' 'U' 'G' 's' 'u' 'g') (q := ':') with
  | case1 => rfl
  | case2 x => rfl
  | case3 x r x' hx ih =>
    rw [replace3, hx]
    simp only [if_true]
    rw [replace3, three_lower hx]
    simp only [if_true]
    rw [ih h.tail.tail]
  | case4 x y r x' hx hy ih =>
    rw [replace3, hx]
    simp only [if_neg hy]
    have ih := ih h.tail
    cases hr : replace3 (three 'S' 'U' 'G' 's' 'u' 'g') ':' ';' (y :: r) with
    | nil => rw [hr] at ih; cases ih
    | cons z t =>
      rw [replace3]
      have : three 's' 'u' 'g' 'S' 'U' 'G' x = none := by
        have := (three_some hx).1
        simp only [List.mem_cons, List.not_mem_nil, or_false] at this
        rcases this with rfl | rfl | rfl <;> decide
      rw [this, ← hr, ih]
  | case5 x y r hx ih =>
    rw [replace3, hx]
    simp only
    have ih := ih h.tail
    cases hr : replace3 (three 'S' 'U' 'G' 's' 'u' 'g') ':' ';' (y :: r) with
    | nil => rw [hr] at ih; cases ih
    | cons z t =>
      rw [replace3]
      split
      · rename_i x' hx'
        have hy := h.head (three_some hx').1
        have hz : z ≠ ';' := by
          have := head_replace3 (f := three 'S' 'U' 'G' 's' 'u' 'g') (q := ':') (q' := ';') (z := ';')
            (t := y :: r) (by simpa using hy) (by
              intro x x' hx
              have := (three_some hx).2
              simp only [List.mem_cons, List.not_mem_nil, or_false] at this
              rcases this with rfl | rfl | rfl <;> decide)
          rw [hr] at this
          simpa using this
        rw [if_neg hz, ← hr, ih]
      · rw [← hr, ih]

omit [PyEnv] in
theorem noEscapes_unescape (s : Str) : NoEscapes (iniUnescape s) := by
  rw [iniUnescape_eq]
  have up : ∀ x x', three 's' 'u' 'g' 'S' 'U' 'G' x = some x' → x' ≠ ';' ∧ x' ∉ ['s', 'u', 'g'] := by
    intro x x' hx
    have := (three_some hx).2
    simp only [List.mem_cons, List.not_mem_nil, or_false] at this
    rcases this with rfl | rfl | rfl <;> decide
  induction s using replace3.induct (f := three 's' 'u' 'g' 'S' 'U' 'G') (q := ';') with
  | case1 => intro x _ h; simp [replace3] at h
  | case2 x =>
    rw [replace3, noEscapes_cons_iff]
    exact ⟨fun x _ h => by simp at h, fun _ => by simp⟩
  | case3 x r x' hx ih =>
    rw [replace3, hx]
    simp only [if_true]
    rw [noEscapes_cons_iff, noEscapes_cons_iff]
    exact ⟨⟨ih, fun h => absurd h (by decide)⟩, fun h => absurd h (up _ _ hx).2⟩
  | case4 x y r x' hx hy ih =>
    rw [replace3, hx]
    simp only [if_neg hy]
    rw [noEscapes_cons_iff]
    exact ⟨ih, fun _ => head_replace3 (by simpa using hy) fun x x' h => (up x x' h).1⟩
  | case5 x y r hx ih =>
    rw [replace3, hx]
    simp only
    rw [noEscapes_cons_iff]
    exact ⟨ih, fun h => absurd h (three_none hx)⟩

/-! ### JSON -/

theorem parseKeyStoreCert_export (c : Cert) :
    parseKeyStoreCert (.str (exportCertToPEM c)) = .ok c := by
  simp only [parseKeyStoreCert, Json.asStr, orErr, Res.ok_bind, exportCertToPEM, PyEnv.loadCert_pem]

theorem parseKeyStorePubkey_export (k : PubKey) :
    parseKeyStorePubkey (.str (exportKeyToPEM k)) = .ok k := by
  simp only [parseKeyStorePubkey, Json.asStr, orErr, Res.ok_bind, exportKeyToPEM, PyEnv.loadPubKey_pem]

/-- Entries that are written so that they can be read again. -/
def EntryOk (p : Str × KeyEntry) : Prop :=
  ∀ c, p.2.cert = some c → p.2.key = publicKey c ∧ ∃ n : Nat, p.1 = natHex n

theorem strSerialToKeyIds_natHex (n : Nat) :
    ∃ l, strSerialToKeyIds (natHex n) = .ok (natHex n :: l) := by
  cases h : natHex n with
  | nil => exact absurd h (natHex_ne_nil n)
  | cons c r =>
    have hc : c ≠ '-' := by
      rintro rfl
      exact absurd (natHex_chars n '-' (by rw [h]; simp)) (by decide)
    rw [strSerialToKeyIds]
    simp only [if_neg hc]
    rw [← h]
    refine ⟨hexIds 10 (natHex n), ?_⟩
    have : hexIds 16 (natHex n) = [natHex n] := by
      rw [hexIds, pyInt_natHex]
      simp only [intHex_eq_natHex.mpr rfl]
    rw [this]; rfl

theorem readEntry_entryToJson {ks : KeyStore} {id : Str} {e : KeyEntry} (h : EntryOk (id, e)) :
    readEntry ks id (entryToJson id e) = .ok (Dict.set ks id e) := by
  obtain ⟨key, cert⟩ := e
  unfold readEntry entryToJson
  cases cert with
  | none =>
    simp only [Json.asObj, orErr, Res.ok_bind]
    have h1 : Dict.get? [(kId, Json.str id), (kType, Json.str kPUB), (kPem, Json.str (exportKeyToPEM key))] kId
      = some (.str id) := by simp [Dict.get?]
    have h2 : Dict.get? [(kId, Json.str id), (kType, Json.str kPUB), (kPem, Json.str (exportKeyToPEM key))] kType
      = some (.str kPUB) := by
        simp only [Dict.get?]; rw [if_neg (by decide), if_pos trivial]
    have h3 : Dict.get? [(kId, Json.str id), (kType, Json.str kPUB), (kPem, Json.str (exportKeyToPEM key))] kPem
      = some (.str (exportKeyToPEM key)) := by
        simp only [Dict.get?]; rw [if_neg (by decide), if_neg (by decide), if_pos trivial]
    rw [h1, h2, h3]
    simp only [Res.ok_bind, Json.asStr]
    rw [ensure_pos trivial, Res.ok_bind, if_neg (by decide), if_pos trivial, parseKeyStorePubkey_export]
    rfl
  | some c =>
    obtain ⟨hk, m, hid⟩ := h c rfl
    simp only at hk hid
    simp only [Json.asObj, orErr, Res.ok_bind]
    have h1 : Dict.get? [(kId, Json.str id), (kType, Json.str kCERT), (kPem, Json.str (exportCertToPEM c))] kId
      = some (.str id) := by simp [Dict.get?]
    have h2 : Dict.get? [(kId, Json.str id), (kType, Json.str kCERT), (kPem, Json.str (exportCertToPEM c))] kType
      = some (.str kCERT) := by
        simp only [Dict.get?]; rw [if_neg (by decide), if_pos trivial]
    have h3 : Dict.get? [(kId, Json.str id), (kType, Json.str kCERT), (kPem, Json.str (exportCertToPEM c))] kPem
      = some (.str (exportCertToPEM c)) := by
        simp only [Dict.get?]; rw [if_neg (by decide), if_neg (by decide), if_pos trivial]
    rw [h1, h2, h3]
    simp only [Res.ok_bind, Json.asStr]
    rw [ensure_pos trivial, Res.ok_bind, if_pos trivial]
    subst hid hk
    obtain ⟨l, hl⟩ := strSerialToKeyIds_natHex m
    rw [hl, Res.ok_bind]
    simp only
    rw [parseKeyStoreCert_export]
    rfl

theorem readEntries_toJson {ks acc : KeyStore} (hok : Dict.Ok (acc ++ ks)) (h : ∀ p ∈ ks, EntryOk p) :
    readEntries acc (ks.map fun p => (p.1, entryToJson p.1 p.2)) = .ok (acc ++ ks) := by
  induction ks generalizing acc with
  | nil => simp [readEntries]
  | cons p r ih =>
    obtain ⟨id, e⟩ := p
    simp only [List.map_cons, readEntries]
    rw [readEntry_entryToJson (h _ (by simp)), Res.ok_bind]
    have hid : id ∉ Dict.keys acc := by
      intro hm
      unfold Dict.Ok Dict.keys at hok
      rw [List.map_append, List.nodup_append] at hok
      exact hok.2.2 id hm id (by simp) rfl
    rw [Dict.set_of_not_mem hid, ih (by simpa using hok) (fun p hp => h p (by simp [hp]))]
    simp

/-! ### INI -/

def certPart (ks : KeyStore) : KeyStore := ks.filter fun p => p.2.cert.isSome
def keyPart (ks : KeyStore) : KeyStore := ks.filter fun p => !p.2.cert.isSome

/-- The line written for an entry. -/
def iniLine (p : Str × KeyEntry) : Str × Str :=
  (iniEscape p.1, match p.2.cert with
    | some c => exportCertToPEM c
    | none => exportKeyToPEM p.2.key)

theorem iniWrite_eq {ks : KeyStore} {a b : Dict Str}
    (ha : (Dict.keys a ++ ks.map fun p => iniEscape p.1).Nodup)
    (hb : (Dict.keys b ++ ks.map fun p => iniEscape p.1).Nodup) :
    ks.foldl iniWriteEntry (a, b) = (a ++ (certPart ks).map iniLine, b ++ (keyPart ks).map iniLine) := by
  induction ks generalizing a b with
  | nil => simp [certPart, keyPart]
  | cons p r ih =>
    obtain ⟨id, key, cert⟩ := p
    rw [List.foldl_cons]
    have hna : iniEscape id ∉ Dict.keys a := by
      intro h
      rw [List.nodup_append] at ha
      exact ha.2.2 _ h _ (by simp) rfl
    have hnb : iniEscape id ∉ Dict.keys b := by
      intro h
      rw [List.nodup_append] at hb
      exact hb.2.2 _ h _ (by simp) rfl
    have ha' : (Dict.keys a ++ r.map fun p => iniEscape p.1).Nodup :=
      ha.sublist ((List.sublist_cons_self _ _).append_left _)
    have hb' : (Dict.keys b ++ r.map fun p => iniEscape p.1).Nodup :=
      hb.sublist ((List.sublist_cons_self _ _).append_left _)
    cases cert with
    | none =>
      simp only [iniWriteEntry]
      rw [Dict.set_of_not_mem hnb, ih ha' (by simpa [Dict.keys] using hb)]
      simp [certPart, keyPart, iniLine]
    | some c =>
      simp only [iniWriteEntry]
      rw [Dict.set_of_not_mem hna, ih (by simpa [Dict.keys] using ha) hb']
      simp [certPart, keyPart, iniLine]

theorem iniReadCerts_eq {l acc : KeyStore} (hid : ∀ p ∈ l, NoEscapes p.1)
    (hc : ∀ p ∈ l, ∃ c, p.2.cert = some c ∧ p.2.key = publicKey c)
    (hn : Dict.Ok (acc ++ l)) : iniReadCerts acc (l.map iniLine) = .ok (acc ++ l) := by
  induction l generalizing acc with
  | nil => simp [iniReadCerts]
  | cons p r ih =>
    obtain ⟨id, key, cert⟩ := p
    obtain ⟨c, h1, h2⟩ := hc (id, ⟨key, cert⟩) (by simp)
    simp only at h1 h2
    subst h1 h2
    simp only [List.map_cons, iniLine, iniReadCerts]
    rw [parseKeyStoreCert_export, Res.ok_bind, iniUnescape_escape (hid (id, _) List.mem_cons_self)]
    have : id ∉ Dict.keys acc := by
      intro h
      unfold Dict.Ok Dict.keys at hn
      rw [List.map_append, List.nodup_append] at hn
      exact hn.2.2 _ h _ (by simp) rfl
    rw [KeyStore.putKey, Dict.set_of_not_mem this]
    have := ih (acc := acc ++ [(id, ⟨publicKey c, some c⟩)]) (fun p hp => hid p (by simp [hp]))
      (fun p hp => hc p (by simp [hp])) (by simpa using hn)
    simpa using this

theorem iniReadKeys_eq {l acc : KeyStore} (hid : ∀ p ∈ l, NoEscapes p.1)
    (hc : ∀ p ∈ l, p.2.cert = none)
    (hn : Dict.Ok (acc ++ l)) : iniReadKeys acc (l.map iniLine) = .ok (acc ++ l) := by
  induction l generalizing acc with
  | nil => simp [iniReadKeys]
  | cons p r ih =>
    obtain ⟨id, key, cert⟩ := p
    have h1 := hc (id, ⟨key, cert⟩) (by simp)
    simp only at h1
    subst h1
    simp only [List.map_cons, iniLine, iniReadKeys]
    rw [parseKeyStorePubkey_export, Res.ok_bind, iniUnescape_escape (hid (id, _) List.mem_cons_self)]
    have : id ∉ Dict.keys acc := by
      intro h
      unfold Dict.Ok Dict.keys at hn
      rw [List.map_append, List.nodup_append] at hn
      exact hn.2.2 _ h _ (by simp) rfl
    rw [KeyStore.putKey, Dict.set_of_not_mem this]
    have := ih (acc := acc ++ [(id, ⟨key, none⟩)]) (fun p hp => hid p (by simp [hp]))
      (fun p hp => hc p (by simp [hp])) (by simpa using hn)
    simpa using this

omit [PyEnv] in
theorem get?_perm {α : Type} {d d' : Dict α} (h : d.Perm d') (hd : d.Ok) (k : Str) :
    d.get? k = d'.get? k := by
  have hd' : d'.Ok := (h.map _).nodup_iff.mp hd
  cases h1 : d.get? k with
  | some v => rw [Dict.get?_eq_some_of_mem hd' (h.mem_iff.mp (Dict.mem_of_get? h1))]
  | none =>
    cases h2 : d'.get? k with
    | none => rfl
    | some v => rw [Dict.get?_eq_some_of_mem hd (h.mem_iff.mpr (Dict.mem_of_get? h2))] at h1; cases h1

theorem readIni_writeIni {ks : KeyStore} (hok : Dict.Ok ks) (hid : ∀ p ∈ ks, NoEscapes p.1)
    (hc : ∀ p ∈ ks, ∀ c, p.2.cert = some c → p.2.key = publicKey c) :
    readIni (ks.writeIni ⟨none, none⟩) = .ok (certPart ks ++ keyPart ks) := by
  have hesc : (ks.map fun p => iniEscape p.1).Nodup := by
    have : (ks.map fun p => iniEscape p.1) = (Dict.keys ks).map iniEscape := by simp [Dict.keys]
    rw [this]
    refine List.Nodup.map_on ?_ hok
    intro x hx y hy he
    obtain ⟨p, hp, rfl⟩ := List.mem_map.mp hx
    obtain ⟨q, hq, rfl⟩ := List.mem_map.mp hy
    have := congrArg iniUnescape he
    rwa [iniUnescape_escape (hid p hp), iniUnescape_escape (hid q hq)] at this
  have hperm : (certPart ks ++ keyPart ks).Perm ks := List.filter_append_perm _ _
  have hok' : Dict.Ok (certPart ks ++ keyPart ks) := (hperm.map _).nodup_iff.mpr hok
  unfold readIni KeyStore.writeIni
  simp only [Option.getD_none, Option.getD_some]
  rw [iniWrite_eq (by simpa [Dict.keys] using hesc) (by simpa [Dict.keys] using hesc)]
  simp only [List.nil_append]
  rw [iniReadCerts_eq (acc := []), Res.ok_bind, List.nil_append, iniReadKeys_eq]
  · intro p hp; exact hid p (List.mem_of_mem_filter hp)
  · intro p hp
    have := (List.mem_filter.mp hp).2
    simpa using this
  · exact hok'
  · intro p hp; exact hid p (List.mem_of_mem_filter hp)
  · intro p hp
    obtain ⟨hp, h⟩ := List.mem_filter.mp hp
    obtain ⟨c, hc'⟩ := Option.isSome_iff_exists.mp h
    exact ⟨c, hc', hc p hp c hc'⟩
  · exact hok'.sublist ((List.sublist_append_left _ _).map _)

end

end RKSV
