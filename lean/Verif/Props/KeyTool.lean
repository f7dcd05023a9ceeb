import Verif.Spec.KeyTool
import Verif.Props.KeyStore
/-
Property C77: the command line tool for cryptographic material containers.
-/
namespace RKSV

section
variable [PyEnv]

/-- The store is written so that it can be read again. -/
structure GoodStore (ks : KeyStore) : Prop where
  ids : Dict.Ok ks
  entries : ∀ p ∈ ks, EntryOk p

theorem foldl_set_ok {α : Type} {f : α → Str × KeyEntry} (l : List α) {ks : KeyStore} (h : Dict.Ok ks) :
    Dict.Ok (l.foldl (fun d q => Dict.set d (f q).1 (f q).2) ks) := by
  induction l generalizing ks with
  | nil => exact h
  | cons x l ih => exact ih (h.set _ _)

theorem foldl_set_entry {α : Type} {id : α → Str} {k : α → PubKey} {c : α → Option Cert} (l : List α) (ks : KeyStore) :
    KeyStore.entry (l.foldl (fun d q => Dict.set d (id q) ⟨k q, c q⟩) ks) =
      l.foldl (fun m q => Function.update m (id q) (some (k q, c q))) ks.entry := by
  induction l generalizing ks with
  | nil => rfl
  | cons x l ih => rw [List.foldl_cons, List.foldl_cons, ih, entry_set]

theorem foldl_set_mem {α : Type} {f : α → Str × KeyEntry} {P : Str × KeyEntry → Prop} (l : List α) {ks : KeyStore}
    (hk : ∀ p ∈ ks, P p) (hl : ∀ x ∈ l, P (f x)) :
    ∀ p ∈ l.foldl (fun d q => Dict.set d (f q).1 (f q).2) ks, P p := by
  have set_mem : ∀ (ks : KeyStore) id e, (∀ p ∈ ks, P p) → P (id, e) → ∀ p ∈ Dict.set ks id e, P p := by
    intro ks id e hk he
    induction ks with
    | nil => intro p hp; simp [Dict.set] at hp; subst hp; exact he
    | cons q r ih =>
      intro p hp
      simp only [Dict.set] at hp
      split at hp
      · rename_i e1
        rcases List.mem_cons.mp hp with rfl | hp
        · rw [e1]; exact he
        · exact hk p (by simp [hp])
      · rcases List.mem_cons.mp hp with rfl | hp
        · exact hk _ (by simp)
        · exact ih (fun p hp => hk p (by simp [hp])) p hp
  induction l generalizing ks with
  | nil => exact hk
  | cons x l ih => exact ih (set_mem _ _ _ hk (hl x (by simp))) fun y hy => hl y (by simp [hy])

/-- What is known of every store that was read. -/
theorem read_keys {j : Json} {ks : KeyStore} (h : readStoreFromJson j = .ok ks) :
    Dict.Ok ks ∧ ∀ p ∈ ks, ∀ c, p.2.cert = some c → p.2.key = publicKey c := by
  obtain ⟨root, m, entries, -, -, hall, rfl⟩ := (store_read_iff j ks).mp h
  refine ⟨foldl_set_ok (f := id) entries (by simp [Dict.Ok, Dict.keys]), ?_⟩
  refine foldl_set_mem (f := id) entries (by simp) ?_
  intro q hq c hc
  have : ∃ p ∈ m, JsonEntry p.1 p.2 q.1 q.2 := by
    clear h
    induction hall with
    | nil => cases hq
    | cons h1 _ ih =>
      rcases List.mem_cons.mp hq with rfl | hq
      · exact ⟨_, by simp, h1⟩
      · obtain ⟨p, hp, hj⟩ := ih hq
        exact ⟨p, by simp [hp], hj⟩
  obtain ⟨p, -, hj⟩ := this
  obtain ⟨qi, qk, qc⟩ := q
  simp only [id_eq] at hc ⊢
  cases hj with
  | cert => cases hc; rfl
  | key => cases hc

theorem good_of_hex {ks : KeyStore} (hok : Dict.Ok ks) (hk : ∀ p ∈ ks, ∀ c, p.2.cert = some c → p.2.key = publicKey c)
    (hx : HexCerts ks.entry) : GoodStore ks := by
  refine ⟨hok, ?_⟩
  intro p hp c hc
  refine ⟨hk p hp c hc, hx p.1 p.2.key c ?_⟩
  rw [KeyStore.entry_eq, Dict.get?_eq_some_of_mem hok hp, Option.map_some, hc]

/-- C48 for stores that were read: saving such a store does not change it, if the IDs of its certificates are
hexadecimal numbers (without sign). -/
theorem store_resaved {j : Json} {ks : KeyStore} (h : readStoreFromJson j = .ok ks) (hx : HexCerts ks.entry)
    (aes : Option Str) : readStoreFromJson (ks.toJson aes) = .ok ks := by
  obtain ⟨h1, h2⟩ := read_keys h
  have hg := good_of_hex h1 h2 hx
  exact read_written hg.ids hg.entries aes

theorem iniReadCerts_iff {l : List (Str × Str)} {ks ks' : KeyStore} : iniReadCerts ks l = .ok ks' ↔
    ∃ cs : List (Str × Cert),
      List.Forall₂ (fun p q => p.1 = q.1 ∧ loadCert (addPEMCertHeaders p.2) = some q.2) l cs ∧
      ks' = cs.foldl (fun d q => Dict.set d (iniUnescape q.1) ⟨publicKey q.2, some q.2⟩) ks := by
  induction l generalizing ks with
  | nil =>
    simp only [iniReadCerts, Except.ok.injEq, List.forall₂_nil_left_iff, exists_eq_left, List.foldl_nil]
    exact eq_comm
  | cons p l ih =>
    obtain ⟨id, v⟩ := p
    simp only [iniReadCerts, Res.bind_eq_ok, ih, parseKeyStoreCert, Json.asStr, orErr_eq_ok, Option.some.injEq,
      exists_eq_left', List.forall₂_cons_left_iff]
    constructor
    · rintro ⟨c, hc, cs, h1, h2⟩
      exact ⟨(id, c) :: cs, ⟨(id, c), cs, ⟨rfl, hc⟩, h1, rfl⟩, h2⟩
    · rintro ⟨_, ⟨⟨id', c⟩, cs, ⟨rfl, hc⟩, h1, rfl⟩, h2⟩
      exact ⟨c, hc, cs, h1, h2⟩

theorem iniReadKeys_iff {l : List (Str × Str)} {ks ks' : KeyStore} : iniReadKeys ks l = .ok ks' ↔
    ∃ cs : List (Str × PubKey),
      List.Forall₂ (fun p q => p.1 = q.1 ∧ loadPubKey (addPEMPubKeyHeaders p.2) = some q.2) l cs ∧
      ks' = cs.foldl (fun d q => Dict.set d (iniUnescape q.1) ⟨q.2, none⟩) ks := by
  induction l generalizing ks with
  | nil =>
    simp only [iniReadKeys, Except.ok.injEq, List.forall₂_nil_left_iff, exists_eq_left, List.foldl_nil]
    exact eq_comm
  | cons p l ih =>
    obtain ⟨id, v⟩ := p
    simp only [iniReadKeys, Res.bind_eq_ok, ih, parseKeyStorePubkey, Json.asStr, orErr_eq_ok, Option.some.injEq,
      exists_eq_left', List.forall₂_cons_left_iff]
    constructor
    · rintro ⟨c, hc, cs, h1, h2⟩
      exact ⟨(id, c) :: cs, ⟨(id, c), cs, ⟨rfl, hc⟩, h1, rfl⟩, h2⟩
    · rintro ⟨_, ⟨⟨id', c⟩, cs, ⟨rfl, hc⟩, h1, rfl⟩, h2⟩
      exact ⟨c, hc, cs, h1, h2⟩

/-- Reading legacy files. -/
theorem readIni_iff {cfg : Ini} {m : KeyMap} : (∃ ks, readIni cfg = .ok ks ∧ ks.entry = m) ↔ IniMap cfg m := by
  simp only [readIni, Res.bind_eq_ok, iniReadCerts_iff, iniReadKeys_iff, IniMap]
  have e0 : KeyStore.entry [] = fun _ => none := rfl
  constructor
  · rintro ⟨_, ⟨_, ⟨cs, h1, rfl⟩, ks, h2, rfl⟩, rfl⟩
    refine ⟨cs, ks, h1, h2, ?_⟩
    rw [foldl_set_entry, foldl_set_entry, e0]
  · rintro ⟨cs, ks, h1, h2, rfl⟩
    refine ⟨_, ⟨_, ⟨cs, h1, rfl⟩, ks, h2, rfl⟩, ?_⟩
    rw [foldl_set_entry, foldl_set_entry, e0]

theorem readIni_keys {cfg : Ini} {ks : KeyStore} (h : readIni cfg = .ok ks) :
    Dict.Ok ks ∧ ∀ p ∈ ks, ∀ c, p.2.cert = some c → p.2.key = publicKey c := by
  simp only [readIni, Res.bind_eq_ok, iniReadCerts_iff, iniReadKeys_iff] at h
  obtain ⟨_, ⟨cs, -, rfl⟩, ks, -, rfl⟩ := h
  constructor
  · exact foldl_set_ok (f := fun q : Str × PubKey => (iniUnescape q.1, ⟨q.2, none⟩)) ks
      (foldl_set_ok (f := fun q : Str × Cert => (iniUnescape q.1, ⟨publicKey q.2, some q.2⟩)) cs
        (by simp [Dict.Ok, Dict.keys]))
  · refine foldl_set_mem (f := fun q : Str × PubKey => (iniUnescape q.1, ⟨q.2, none⟩)) ks ?_ ?_
    · refine foldl_set_mem (f := fun q : Str × Cert => (iniUnescape q.1, ⟨publicKey q.2, some q.2⟩)) cs (by simp) ?_
      intro q _ c hc
      cases hc
      rfl
    · intro q _ c hc
      cases hc

theorem entry_ne_none {ks : KeyStore} {id : Str} : ks.entry id ≠ none ↔ id ∈ Dict.keys ks := by
  rw [KeyStore.entry_eq, Dict.mem_keys_iff]
  cases Dict.get? ks id <;> simp

theorem entry_del (ks : KeyStore) (id : Str) :
    KeyStore.entry (ks.delKey id) = Function.update ks.entry id none := by
  funext x
  rw [KeyStore.entry_eq, KeyStore.delKey, Dict.get?_del, Function.update_apply]
  by_cases h : id = x
  · simp [h]
  · rw [if_neg h, if_neg (Ne.symm h), KeyStore.entry_eq]

theorem HexCerts.update {m : KeyMap} (h : HexCerts m) (id : Str) (x : Option (PubKey × Option Cert))
    (hx : ∀ p c, x = some (p, some c) → ∃ n : Nat, id = natHex n) : HexCerts (Function.update m id x) := by
  intro id' p c e
  rw [Function.update_apply] at e
  split at e
  · rename_i he
    subst he
    exact hx p c e
  · exact h id' p c e

theorem written_holds {ks : KeyStore} (hg : GoodStore ks) (aes : Option Bytes) :
    Holds (ks.toJson (aes.map (b64Encode false))) ⟨ks.entry, aes⟩ := by
  refine ⟨ks, read_written hg.ids hg.entries _, rfl, ?_⟩
  cases aes with
  | none => exact (store_json_aes ks []).2
  | some b => exact (store_json_aes ks b).1

theorem GoodStore.hex {ks : KeyStore} (h : GoodStore ks) : HexCerts ks.entry := by
  intro id p c e
  rw [KeyStore.entry_eq, Option.map_eq_some_iff] at e
  obtain ⟨x, hx, e⟩ := e
  simp only [Prod.mk.injEq] at e
  exact (h.entries _ (Dict.mem_of_get? hx) c e.2).2

theorem good_nil : GoodStore [] := ⟨by simp [Dict.Ok, Dict.keys], by simp⟩

/-- C77 for one command: what is done and printed, and what is in the file afterwards. -/
theorem key_tool_step {file : Json} {k : Keys} (h : Holds file k) (hx : HexCerts k.map) {cmd : KeyCmd} (ht : cmd.Tidy) :
    (∃ k' out, KeyEdit k cmd k' out ∧ (keyTool file cmd).2 = .ok out ∧ Holds (keyTool file cmd).1 k' ∧ HexCerts k'.map) ∨
    ((∀ k' out, ¬KeyEdit k cmd k' out) ∧ (∃ e, (keyTool file cmd).2 = .error e) ∧ (keyTool file cmd).1 = file) := by
  obtain ⟨ks, h1, h2, h3⟩ := h
  obtain ⟨hok, hkeys⟩ := read_keys h1
  obtain ⟨m, aes⟩ := k
  simp only at h2 h3 hx
  subst h2
  have hg := good_of_hex hok hkeys hx
  have hself : Holds file ⟨ks.entry, aes⟩ := ⟨ks, h1, rfl, h3⟩
  cases cmd with
  | create => exact .inl ⟨_, _, .create, rfl, written_holds good_nil none, good_nil.hex⟩
  | list =>
    have e : keyTool file .list = (file, .ok (.ids (Dict.keys ks))) := by
      simp only [keyTool, KeyCmd.load, h1, h3, Res.ok_bind, KeyCmd.exec]
    rw [e]
    exact .inl ⟨_, _, .list _ hok fun id => entry_ne_none.symm, rfl, hself, hx⟩
  | addCert pem =>
    cases hc : loadCert pem with
    | none =>
      have e : keyTool file (.addCert pem) = (file, .error .valueError) := by
        simp only [keyTool, KeyCmd.load, h1, h3, Res.ok_bind, KeyCmd.exec, KeyStore.putPEMCert, hc, orErr, Res.error_bind]
      rw [e]
      refine .inr ⟨?_, ⟨_, rfl⟩, rfl⟩
      intro k' out he
      cases he with
      | addCert _ c h => rw [hc] at h; cases h
    | some c =>
      have e : keyTool file (.addCert pem) = (KeyStore.toJson (Dict.set ks (natHex (serial c).natAbs) ⟨publicKey c, some c⟩)
          (aes.map (b64Encode false)), .ok .nothing) := by
        simp only [keyTool, KeyCmd.load, h1, h3, Res.ok_bind, KeyCmd.exec, KeyStore.putPEMCert, hc, orErr,
          numSerialToKeyId]
      have hg' : GoodStore (Dict.set ks (natHex (serial c).natAbs) ⟨publicKey c, some c⟩) :=
        ⟨hok.set _ _, set_ok ks hg.entries fun c' hc' => by cases hc'; exact ⟨rfl, _, rfl⟩⟩
      rw [e]
      refine .inl ⟨_, _, .addCert pem c hc, rfl, ?_, ?_⟩
      · rw [← entry_set]; exact written_holds hg' aes
      · simp only; rw [← entry_set]; exact hg'.hex
  | addKey pem id =>
    cases hc : loadPubKey pem with
    | none =>
      have e : keyTool file (.addKey pem id) = (file, .error .valueError) := by
        simp only [keyTool, KeyCmd.load, h1, h3, Res.ok_bind, KeyCmd.exec, KeyStore.putPEMKey, hc, orErr, Res.error_bind]
      rw [e]
      refine .inr ⟨?_, ⟨_, rfl⟩, rfl⟩
      intro k' out he
      cases he with
      | addKey _ _ c h => rw [hc] at h; cases h
    | some c =>
      have e : keyTool file (.addKey pem id) = (KeyStore.toJson (Dict.set ks id ⟨c, none⟩)
          (aes.map (b64Encode false)), .ok .nothing) := by
        simp only [keyTool, KeyCmd.load, h1, h3, Res.ok_bind, KeyCmd.exec, KeyStore.putPEMKey, hc, orErr]
      have hg' : GoodStore (Dict.set ks id ⟨c, none⟩) :=
        ⟨hok.set _ _, set_ok ks hg.entries fun c' hc' => by cases hc'⟩
      rw [e]
      refine .inl ⟨_, _, .addKey pem id c hc, rfl, ?_, ?_⟩
      · rw [← entry_set]; exact written_holds hg' aes
      · simp only; rw [← entry_set]; exact hg'.hex
  | del id =>
    have e : keyTool file (.del id) = (KeyStore.toJson (ks.delKey id) (aes.map (b64Encode false)), .ok .nothing) := by
      simp only [keyTool, KeyCmd.load, h1, h3, Res.ok_bind, KeyCmd.exec]
    have hg' : GoodStore (ks.delKey id) := ⟨hok.del _, fun p hp => hg.entries p (List.mem_of_mem_filter hp)⟩
    rw [e]
    refine .inl ⟨_, _, .del id, rfl, ?_, ?_⟩
    · rw [← entry_del]; exact written_holds hg' aes
    · simp only; rw [← entry_del]; exact hg'.hex
  | showKey =>
    cases aes with
    | none =>
      have e : keyTool file .showKey = (file, .ok .noKey) := by
        simp only [keyTool, KeyCmd.load, h1, h3, Res.ok_bind, KeyCmd.exec]
      rw [e]
      exact .inl ⟨_, _, .showNone rfl, rfl, hself, hx⟩
    | some b =>
      have e : keyTool file .showKey = (file, .ok (.key (b64Encode false b))) := by
        simp only [keyTool, KeyCmd.load, h1, h3, Res.ok_bind, KeyCmd.exec]
      rw [e]
      exact .inl ⟨_, _, .showKey b rfl, rfl, hself, hx⟩
  | setKey line =>
    cases line with
    | none =>
      have e : keyTool file (.setKey none) = (file, .ok .nothing) := by
        simp only [keyTool, KeyCmd.load, h1, h3, Res.ok_bind, KeyCmd.exec]
      rw [e]
      exact .inl ⟨_, _, .noInput, rfl, hself, hx⟩
    | some l =>
      by_cases hl : pyStrip l = []
      · have e : keyTool file (.setKey (some l)) = (file, .ok .nothing) := by
          simp only [keyTool, KeyCmd.load, h1, h3, Res.ok_bind, KeyCmd.exec, hl, if_true]
        rw [e]
        exact .inl ⟨_, _, .emptyLine l hl, rfl, hself, hx⟩
      · cases hb : b64Decode false (pyStrip l) with
        | none =>
          have e : keyTool file (.setKey (some l)) =
              (file, .error (if b64Matches false (pyStrip l) then .valueError else .typeError)) := by
            simp only [keyTool, KeyCmd.load, h1, h3, Res.ok_bind, KeyCmd.exec, hl, if_false, loadB64Key, hb, orErr,
              Res.error_bind]
          rw [e]
          refine .inr ⟨?_, ⟨_, rfl⟩, rfl⟩
          intro k' out he
          cases he with
          | emptyLine _ h => exact hl h
          | setKey _ b _ h => rw [hb] at h; cases h
        | some b =>
          have e : keyTool file (.setKey (some l)) = (ks.toJson (some (b64Encode false b)), .ok .nothing) := by
            simp only [keyTool, KeyCmd.load, h1, h3, Res.ok_bind, KeyCmd.exec, hl, if_false, loadB64Key, hb, orErr,
              Option.map_some]
          rw [e]
          exact .inl ⟨_, _, .setKey l b hl hb, rfl, written_holds hg (some b), hx⟩
  | delKey =>
    have e : keyTool file .delKey = (ks.toJson none, .ok .nothing) := by
      simp only [keyTool, KeyCmd.load, h1, h3, Res.ok_bind, KeyCmd.exec, Option.map_none]
    rw [e]
    exact .inl ⟨_, _, .delKey, rfl, written_holds hg none, hx⟩
  | toIni =>
    have e : keyTool file .toIni = (file, .ok (.ini (ks.writeIni ⟨none, none⟩))) := by
      simp only [keyTool, KeyCmd.load, h1, h3, Res.ok_bind, KeyCmd.exec]
    rw [e]
    refine .inl ⟨_, _, .toIni _ ?_, rfl, hself, hx⟩
    intro hid
    refine readIni_iff.mp ⟨_, readIni_writeIni hok (fun p hp => hid p.1 (entry_ne_none.mpr ?_)) hkeys, ?_⟩
    · exact List.mem_map.mpr ⟨p, hp, rfl⟩
    · funext id
      show _ = ks.entry id
      rw [KeyStore.entry_eq, KeyStore.entry_eq, get?_perm (List.filter_append_perm _ _).symm hok]
      rfl
  | fromIni cfg =>
    cases hr : readIni cfg with
    | error e' =>
      have e : keyTool file (.fromIni cfg) = (file, .error e') := by
        simp only [keyTool, KeyCmd.load, Res.ok_bind, KeyCmd.exec, hr, Res.error_bind]
      rw [e]
      refine .inr ⟨?_, ⟨_, rfl⟩, rfl⟩
      intro k' out he
      cases he with
      | fromIni _ m h =>
        obtain ⟨ks', h', -⟩ := readIni_iff.mpr h
        rw [hr] at h'
        cases h'
    | ok ks' =>
      have e : keyTool file (.fromIni cfg) = (ks'.toJson none, .ok .nothing) := by
        simp only [keyTool, KeyCmd.load, Res.ok_bind, KeyCmd.exec, hr, Option.map_none]
      rw [e]
      have hm := readIni_iff.mp ⟨ks', hr, rfl⟩
      obtain ⟨k1, k2⟩ := readIni_keys hr
      have hx' : HexCerts ks'.entry := ht _ hm
      exact .inl ⟨_, _, .fromIni cfg _ hm, rfl, written_holds (good_of_hex k1 k2 hx') none, hx'⟩

/-- C77: after any sequence of commands, some of which may fail, the file holds what the successful commands
made of the keys, and each command printed what it should.  Not covered are legacy files whose certificates have
IDs that are no hexadecimal numbers. -/
theorem key_tool_session_partial {file : Json} {k : Keys} (h : Holds file k) (hx : HexCerts k.map) {l : List KeyCmd}
    (ht : ∀ cmd ∈ l, cmd.Tidy) :
    ∃ k', KeySession k l (keySession file l).2 k' ∧ Holds (keySession file l).1 k' := by
  induction l generalizing file k with
  | nil => exact ⟨k, .nil k, h⟩
  | cons cmd l ih =>
    have ht' : ∀ cmd ∈ l, cmd.Tidy := fun c hc => ht c (by simp [hc])
    rcases key_tool_step h hx (ht cmd (by simp)) with ⟨k', out, he, ho, hh, hx'⟩ | ⟨hno, ⟨e, he⟩, hf⟩
    · obtain ⟨k'', hs, hh'⟩ := ih hh hx' ht'
      refine ⟨k'', ?_, hh'⟩
      simp only [keySession, ho]
      exact .done k k' k'' cmd out l _ he hs
    · rw [← hf] at h
      obtain ⟨k'', hs, hh'⟩ := ih h hx ht'
      refine ⟨k'', ?_, hh'⟩
      simp only [keySession, he]
      exact .refused k k'' cmd l _ hno hs

/-- Creating a container works whatever was in the file. -/
theorem key_tool_create (file : Json) : (keyTool file .create).2 = .ok .nothing ∧
    Holds (keyTool file .create).1 ⟨fun _ => none, none⟩ :=
  ⟨rfl, written_holds good_nil none⟩

/-- The specification leaves no choice of the result. -/
theorem key_edit_unique {k k' k'' : Keys} {cmd : KeyCmd} {out out' : KeyOut} (h : KeyEdit k cmd k' out)
    (h' : KeyEdit k cmd k'' out') : k' = k'' := by
  cases h with
  | fromIni cfg m h =>
    cases h' with
    | fromIni _ m' h' =>
      obtain ⟨a, ha, rfl⟩ := readIni_iff.mpr h
      obtain ⟨b, hb, rfl⟩ := readIni_iff.mpr h'
      rw [ha] at hb
      cases hb
      rfl
  | addCert pem c h => cases h' with | addCert _ c' h' => rw [h] at h'; cases h'; rfl
  | addKey pem id c h => cases h' with | addKey _ _ c' h' => rw [h] at h'; cases h'; rfl
  | emptyLine l h =>
    cases h' with
    | emptyLine => rfl
    | setKey _ _ h' => exact absurd h h'
  | setKey l b h hb =>
    cases h' with
    | emptyLine _ h' => exact absurd h' h
    | setKey _ b' _ hb' => rw [hb] at hb'; cases hb'; rfl
  | _ => cases h' <;> rfl

end

namespace Demo

attribute [local instance] env

/-- A session with two keys and an AES key; one text is no certificate. -/
def keyCommands : List KeyCmd :=
  [.create, .addCert (addPEMCertHeaders (b64Encode false [0, 31, 1, 7, 8])), .addCert c!"x",
   .addKey (addPEMPubKeyHeaders (b64Encode false [9])) c!"S:123456789", .setKey (some c!" AAEC\n"), .list, .showKey,
   .del c!"1f", .list]

def printed : Option KeyOut → List Str
  | some (.ids l) => l
  | some (.key s) => [s]
  | some _ => []
  | none => [c!"failed"]

example : (∀ cmd ∈ keyCommands, cmd.Tidy) ∧ ((keySession .null keyCommands).2.map printed) =
    [[], [], [c!"failed"], [], [], [c!"1f", c!"S:123456789"], [c!"AAEC"], [], [c!"S:123456789"]] := by
  refine ⟨?_, by decide +kernel⟩
  simp [keyCommands, KeyCmd.Tidy]

/-- Why legacy files are restricted: the IDs of certificates are not checked, and after this one the container cannot be
read any more. -/
theorem legacy_breaks_container :
    let cfg : Ini := ⟨some [(c!"xyz", b64Encode false [0, 31, 1, 7, 8])], none⟩
    ((keySession .null [.create, .list, .fromIni cfg, .list, .showKey]).2.map printed) =
      [[], [], [], [c!"failed"], [c!"failed"]] := by
  decide +kernel

end Demo

end RKSV
