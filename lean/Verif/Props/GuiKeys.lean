import Verif.Model.GuiKeys
import Verif.Props.GuiReceipt
import Verif.Props.KeyTool
/-
C100: the tab for the key store in the graphical tool.
-/
namespace RKSV

section
variable [PyEnv]

/-! ### Specification -/

/-- What an event means for the keys as a map, and for the public key that waits for its ID. -/
def KeysEvent.apply : KeyMap × Option Str → KeysEvent → KeyMap × Option Str
  | (m, p), .del id => (Function.update m id none, p)
  | (m, p), .keyFile (.error _) => (m, p)
  | (m, _), .keyFile (.ok pem) => (m, some pem)
  | (m, p), .keyId id =>
    match p.bind loadPubKey with
    | some k => (Function.update m id (some (k, none)), none)
    | none => (m, none)
  | (m, _), .cancel => (m, none)
  | (m, p), .certFile (.error _) => (m, p)
  | (m, p), .certFile (.ok pem) =>
    match loadCert pem with
    | some c => (Function.update m (natHex (serial c).natAbs) (some (publicKey c, some c)), p)
    | none => (m, p)
  | (m, p), .fromDEP c => (Function.update m (natHex (serial c).natAbs) (some (publicKey c, some c)), p)
  | (m, p), .load (.error _) => (m, p)
  | (m, p), .load (.ok j) =>
    match readStoreFromJson j with
    | .ok ks => (ks.entry, p)
    | .error _ => (m, p)

/-- The keys after all these events, the first one in an application just started. -/
def keysAfter (evs : List KeysEvent) : KeyMap := (evs.foldl KeysEvent.apply ((fun _ => none), none)).1

/-- These events lead from the start of the application to this state. -/
def KeysReaches (evs : List KeysEvent) (s : KeysTab) : Prop := KeysTab.init.run evs = some s

/-- What users do does not work, if the PEM text that waits for an ID is this one. -/
inductive KeysEvent.Fails (pending : Option Str) : KeysEvent → Prop
  | keyFile (e : Err) : Fails pending (.keyFile (.error e))
  | keyId {pem id : Str} (hp : pending = some pem) (h : loadPubKey pem = none) : Fails pending (.keyId id)
  | certFile (e : Err) : Fails pending (.certFile (.error e))
  | cert {pem : Str} (h : loadCert pem = none) : Fails pending (.certFile (.ok pem))
  | load (e : Err) : Fails pending (.load (.error e))

/-- The key is from something the user chose. -/
inductive KeySource (evs : List KeysEvent) (k : PubKey) : Prop
  | key {pem : Str} (h : .keyFile (.ok pem) ∈ evs) (hk : loadPubKey pem = some k)
  | cert {pem : Str} {c : Cert} (h : .certFile (.ok pem) ∈ evs) (hc : loadCert pem = some c) (hk : k = publicKey c)
  | dep {c : Cert} (h : .fromDEP c ∈ evs) (hk : k = publicKey c)
  | container {j : Json} {ks : KeyStore} {id : Str} (h : .load (.ok j) ∈ evs) (hj : readStoreFromJson j = .ok ks)
      (hk : ks.getKey id = some k)

/-! ### The invariant -/

theorem KeysTab.run_append {s : KeysTab} {es fs : List KeysEvent} :
    s.run (es ++ fs) = (s.run es).bind fun t => t.run fs := by
  induction es generalizing s with
  | nil => rfl
  | cons e es ih =>
    simp only [List.cons_append, KeysTab.run]
    cases s.step e with
    | none => rfl
    | some t => exact ih

theorem KeysReaches.snoc {evs : List KeysEvent} {e : KeysEvent} {s : KeysTab} :
    KeysReaches (evs ++ [e]) s ↔ ∃ t, KeysReaches evs t ∧ t.step e = some s := by
  unfold KeysReaches
  rw [KeysTab.run_append, Option.bind_eq_some_iff]
  refine exists_congr fun t => and_congr_right fun _ => ?_
  simp only [KeysTab.run, Option.bind_eq_some_iff, Option.some.injEq, exists_eq_right]

theorem groupKeyIds_mem (ks : KeyStore) (ids : List Str) (id : Str) :
    (id ∈ (groupKeyIds ks ids).1 ↔ id ∈ ids ∧ ks.getCert id ≠ none) ∧
    (id ∈ (groupKeyIds ks ids).2 ↔ id ∈ ids ∧ ks.getCert id = none) := by
  induction ids with
  | nil => simp [groupKeyIds]
  | cons x ids ih =>
    simp only [groupKeyIds]
    cases hx : ks.getCert x with
    | none =>
      simp only [List.mem_cons, ih.1, ih.2]
      refine ⟨?_, ?_⟩
      · constructor
        · rintro ⟨h1, h2⟩; exact ⟨.inr h1, h2⟩
        · rintro ⟨rfl | h1, h2⟩
          · exact absurd hx h2
          · exact ⟨h1, h2⟩
      · constructor
        · rintro (rfl | ⟨h1, h2⟩)
          · exact ⟨.inl rfl, hx⟩
          · exact ⟨.inr h1, h2⟩
        · rintro ⟨rfl | h1, h2⟩
          · exact .inl rfl
          · exact .inr ⟨h1, h2⟩
    | some c =>
      simp only [List.mem_cons, ih.1, ih.2]
      refine ⟨?_, ?_⟩
      · constructor
        · rintro (rfl | ⟨h1, h2⟩)
          · exact ⟨.inl rfl, by simp [hx]⟩
          · exact ⟨.inr h1, h2⟩
        · rintro ⟨rfl | h1, h2⟩
          · exact .inl rfl
          · exact .inr ⟨h1, h2⟩
      · constructor
        · rintro ⟨h1, h2⟩; exact ⟨.inr h1, h2⟩
        · rintro ⟨rfl | h1, h2⟩
          · rw [hx] at h2; cases h2
          · exact ⟨h1, h2⟩

theorem groupKeyIds_nodup (ks : KeyStore) {ids : List Str} (h : ids.Nodup) :
    (groupKeyIds ks ids).1.Nodup ∧ (groupKeyIds ks ids).2.Nodup := by
  induction ids with
  | nil => simp [groupKeyIds]
  | cons x ids ih =>
    rw [List.nodup_cons] at h
    simp only [groupKeyIds]
    cases ks.getCert x with
    | none => exact ⟨(ih h.2).1, List.nodup_cons.mpr ⟨fun hm => h.1 ((groupKeyIds_mem ks ids x).2.mp hm).1, (ih h.2).2⟩⟩
    | some c => exact ⟨List.nodup_cons.mpr ⟨fun hm => h.1 ((groupKeyIds_mem ks ids x).1.mp hm).1, (ih h.2).1⟩, (ih h.2).2⟩

/-- The tree is that of the store. -/
def KeysTab.Built (s : KeysTab) : Prop :=
  s.certs = (groupKeyIds s.store (Dict.keys s.store)).1 ∧ s.keys = (groupKeyIds s.store (Dict.keys s.store)).2

theorem KeysTab.build_of_built {s : KeysTab} (h : s.Built) : s.build = s := by
  cases s
  simp only [KeysTab.Built] at h
  simp only [KeysTab.build, ← h.1, ← h.2]

theorem mem_tree {s : KeysTab} (h : s.Built) (id : Str) : id ∈ s.certs ++ s.keys ↔ s.store.entry id ≠ none := by
  rw [List.mem_append, h.1, h.2, (groupKeyIds_mem _ _ _).1, (groupKeyIds_mem _ _ _).2, entry_ne_none]
  tauto

/-- The containers imported have only hexadecimal numbers (without sign) as IDs of certificates. -/
def HexImports (evs : List KeysEvent) : Prop :=
  ∀ j ks, .load (.ok j) ∈ evs → readStoreFromJson j = .ok ks → HexCerts ks.entry

theorem KeySource.extend {evs : List KeysEvent} {k : PubKey} (h : KeySource evs k) (e : KeysEvent) :
    KeySource (evs ++ [e]) k := by
  cases h with
  | key h hk => exact .key (List.mem_append_left _ h) hk
  | cert h hc hk => exact .cert (List.mem_append_left _ h) hc hk
  | dep h hk => exact .dep (List.mem_append_left _ h) hk
  | container h hj hk => exact .container (List.mem_append_left _ h) hj hk

/-- What holds after every history. -/
structure KeysInv (evs : List KeysEvent) (s : KeysTab) : Prop where
  built : s.Built
  ids : Dict.Ok s.store
  map : (s.store.entry, s.pending) = evs.foldl KeysEvent.apply ((fun _ => none), none)
  certKeys : ∀ p ∈ s.store, ∀ c, p.2.cert = some c → p.2.key = publicKey c
  waiting : ∀ pem, s.pending = some pem → .keyFile (.ok pem) ∈ evs
  source : ∀ id k c, s.store.entry id = some (k, c) → KeySource evs k
  hex : HexImports evs → HexCerts s.store.entry

theorem set_certKeys {ks : KeyStore} (h : ∀ p ∈ ks, ∀ c, p.2.cert = some c → p.2.key = publicKey c) (id : Str)
    {e : KeyEntry} (he : ∀ c, e.cert = some c → e.key = publicKey c) :
    ∀ p ∈ Dict.set ks id e, ∀ c, p.2.cert = some c → p.2.key = publicKey c :=
  foldl_set_mem (f := fun q : Str × KeyEntry => q) (P := fun p => ∀ c, p.2.cert = some c → p.2.key = publicKey c)
    [(id, e)] h (by simpa using he)

/-- Adding an entry. -/
theorem KeysInv.set {evs : List KeysEvent} {s : KeysTab} (i : KeysInv evs s) {e : KeysEvent} {id : Str} {k : PubKey}
    {c : Option Cert} {p : Option Str}
    (hm : KeysEvent.apply (s.store.entry, s.pending) e = (Function.update s.store.entry id (some (k, c)), p))
    (hc : ∀ c', c = some c' → k = publicKey c' ∧ ∃ n : Nat, id = natHex n) (hp : p = none ∨ p = s.pending)
    (hs : KeySource (evs ++ [e]) k) (hx : HexImports (evs ++ [e]) → HexImports evs) :
    KeysInv (evs ++ [e]) ({ s with store := Dict.set s.store id ⟨k, c⟩, pending := p } : KeysTab).build := by
  refine ⟨⟨rfl, rfl⟩, i.ids.set _ _, ?_, set_certKeys i.certKeys id fun c' h => (hc c' h).1, ?_, ?_, ?_⟩
  · rw [List.foldl_append, ← i.map]
    exact (by rw [List.foldl_cons, List.foldl_nil, hm, ← entry_set]; rfl)
  · intro pem h
    rcases hp with rfl | rfl
    · cases h
    · exact List.mem_append_left _ (i.waiting pem h)
  · intro id' k' c' h
    change KeyStore.entry (Dict.set s.store id ⟨k, c⟩) id' = _ at h
    rw [entry_set, Function.update_apply] at h
    split at h
    · cases h; exact hs
    · exact (i.source id' k' c' h).extend e
  · intro h
    show HexCerts (KeyStore.entry (Dict.set s.store id ⟨k, c⟩))
    rw [entry_set]
    refine (i.hex (hx h)).update id _ ?_
    intro p' c' e
    cases e
    exact (hc c' rfl).2

/-- An event that leaves the store as it is. -/
theorem KeysInv.same {evs : List KeysEvent} {s : KeysTab} (i : KeysInv evs s) {e : KeysEvent} {p : Option Str} {l : List Err}
    (hm : KeysEvent.apply (s.store.entry, s.pending) e = (s.store.entry, p))
    (hp : ∀ pem, p = some pem → .keyFile (.ok pem) ∈ evs ++ [e]) :
    KeysInv (evs ++ [e]) { s with pending := p, shown := l } := by
  refine ⟨i.built, i.ids, ?_, i.certKeys, hp, fun id k c h => (i.source id k c h).extend e, ?_⟩
  · rw [List.foldl_append, ← i.map]
    exact hm.symm
  · exact fun h => i.hex fun j ks hj => h j ks (List.mem_append_left _ hj)

theorem keysInv {evs : List KeysEvent} {s : KeysTab} (h : KeysReaches evs s) : KeysInv evs s := by
  induction evs using List.reverseRecOn generalizing s with
  | nil =>
    cases h
    refine ⟨⟨rfl, rfl⟩, by simp [Dict.Ok, Dict.keys, KeysTab.init], rfl, by simp [KeysTab.init], by simp [KeysTab.init], ?_, ?_⟩
    · intro id k c h; cases h
    · intro _ id p c h; cases h
  | append_singleton evs e ih =>
    obtain ⟨t, ht, hs⟩ := KeysReaches.snoc.mp h
    have i := ih ht
    have hbuild : ∀ (p : Option Str) (l : List Err), ({ t with pending := p, shown := l } : KeysTab).build =
        { t with pending := p, shown := l } := fun p l => KeysTab.build_of_built i.built
    have hkeep : ∀ pem, t.pending = some pem → .keyFile (.ok pem) ∈ evs ++ [e] :=
      fun pem hp => List.mem_append_left _ (i.waiting pem hp)
    have hhex : HexImports (evs ++ [e]) → HexImports evs := fun h j ks hj => h j ks (List.mem_append_left _ hj)
    have hlast : e ∈ evs ++ [e] := by simp
    cases e with
    | del id =>
      simp only [KeysTab.step] at hs
      split at hs
      · cases hs
        refine ⟨⟨rfl, rfl⟩, i.ids.del _, ?_, ?_, hkeep, ?_, ?_⟩
        · rw [List.foldl_append, ← i.map]
          show (KeyStore.entry (t.store.delKey id), _) = _
          rw [entry_del]; rfl
        · intro p hp
          exact i.certKeys p (List.mem_of_mem_filter hp)
        · intro id' k c h
          change KeyStore.entry (t.store.delKey id) id' = _ at h
          rw [entry_del, Function.update_apply] at h
          split at h
          · cases h
          · exact (i.source _ _ _ h).extend _
        · intro h
          show HexCerts (KeyStore.entry (t.store.delKey id))
          rw [entry_del]
          exact (i.hex (hhex h)).update id _ (by intro p c h; cases h)
      · cases hs
    | keyFile f =>
      cases f with
      | error er => cases hs; exact i.same rfl hkeep
      | ok pem => cases hs; exact i.same (l := t.shown) rfl (by rintro _ ⟨⟩; exact hlast)
    | keyId id =>
      simp only [KeysTab.step] at hs
      cases hp : t.pending with
      | none => rw [hp] at hs; cases hs
      | some pem =>
        rw [hp] at hs
        simp only [KeyStore.putPEMKey] at hs
        cases hk : loadPubKey pem with
        | none =>
          rw [hk] at hs
          simp only [orErr, Res.error_bind, KeysTab.show, Option.some.injEq] at hs
          rw [hbuild] at hs
          subst hs
          refine i.same ?_ (by simp)
          simp [KeysEvent.apply, hp, hk]
        | some k =>
          rw [hk] at hs
          simp only [orErr, Res.ok_bind, Option.some.injEq] at hs
          subst hs
          refine i.set (p := none) ?_ (by simp) (.inl rfl) (.key (List.mem_append_left _ (i.waiting pem hp)) hk) hhex
          simp [KeysEvent.apply, hp, hk]
    | cancel => cases hs; exact i.same (l := t.shown) rfl (by simp)
    | certFile f =>
      cases f with
      | error er =>
        simp only [KeysTab.step, KeysTab.show, Option.some.injEq] at hs
        rw [show ({ t with shown := er :: t.shown } : KeysTab).build = _ from hbuild t.pending _] at hs
        subst hs
        exact i.same rfl hkeep
      | ok pem =>
        simp only [KeysTab.step, KeyStore.putPEMCert] at hs
        cases hk : loadCert pem with
        | none =>
          rw [hk] at hs
          simp only [orErr, Res.error_bind, KeysTab.show, Option.some.injEq] at hs
          rw [show ({ t with shown := Err.valueError :: t.shown } : KeysTab).build = _ from hbuild t.pending _] at hs
          subst hs
          refine i.same ?_ hkeep
          simp [KeysEvent.apply, hk]
        | some c =>
          rw [hk] at hs
          simp only [orErr, Res.ok_bind, Option.some.injEq] at hs
          subst hs
          refine i.set (p := t.pending) ?_ ?_ (.inr rfl) (.cert hlast hk rfl) hhex
          · simp [KeysEvent.apply, hk, numSerialToKeyId]
          · rintro _ ⟨⟩; exact ⟨rfl, _, rfl⟩
    | fromDEP c =>
      cases hs
      refine i.set (p := t.pending) rfl ?_ (.inr rfl) (.dep hlast rfl) hhex
      rintro _ ⟨⟩; exact ⟨rfl, _, rfl⟩
    | load f =>
      cases f with
      | error er =>
        simp only [KeysTab.step, KeysTab.show, Option.some.injEq] at hs
        rw [show ({ t with shown := er :: t.shown } : KeysTab).build = _ from hbuild t.pending _] at hs
        subst hs
        exact i.same rfl hkeep
      | ok j =>
        simp only [KeysTab.step] at hs
        cases hj : readStoreFromJson j with
        | error er =>
          rw [hj] at hs
          simp only at hs
          split at hs
          · simp only [KeysTab.show, Option.some.injEq] at hs
            rw [show ({ t with shown := er :: t.shown } : KeysTab).build = _ from hbuild t.pending _] at hs
            subst hs
            refine i.same ?_ hkeep
            simp [KeysEvent.apply, hj]
          · cases hs
        | ok ks =>
          rw [hj] at hs
          cases hs
          refine ⟨⟨rfl, rfl⟩, (read_keys hj).1, ?_, (read_keys hj).2, hkeep, ?_, fun h => h j ks hlast hj⟩
          · rw [List.foldl_append, ← i.map]
            simp [KeysEvent.apply, hj, KeysTab.build]
          · intro id k c h
            refine .container (id := id) hlast hj ?_
            change ks.entry id = _ at h
            simp only [KeyStore.entry, Option.map_eq_some_iff, Prod.mk.injEq] at h
            obtain ⟨k', h1, rfl, -⟩ := h
            exact h1

/-! ### The claims -/

/-- C100: the tab lists exactly the IDs of the keys added and neither deleted nor replaced by an import since, each once,
those with a certificate under the certificates and the others under the public keys; and the key store the application
verifies with holds exactly these keys. -/
theorem keys_tab_shows {evs : List KeysEvent} {s : KeysTab} (h : KeysReaches evs s) :
    s.store.entry = keysAfter evs ∧ s.certs.Nodup ∧ s.keys.Nodup ∧
    (∀ id, id ∈ s.certs ↔ ∃ k c, keysAfter evs id = some (k, some c)) ∧
    (∀ id, id ∈ s.keys ↔ ∃ k, keysAfter evs id = some (k, none)) := by
  have i := keysInv h
  have hm : s.store.entry = keysAfter evs := congrArg Prod.fst i.map
  obtain ⟨n1, n2⟩ := groupKeyIds_nodup s.store i.ids
  refine ⟨hm, i.built.1 ▸ n1, i.built.2 ▸ n2, fun id => ?_, fun id => ?_⟩
  · rw [i.built.1, (groupKeyIds_mem _ _ _).1, Dict.mem_keys_iff, ← hm, KeyStore.entry_eq, KeyStore.getCert]
    cases Dict.get? s.store id with
    | none => simp
    | some e => cases hc : e.cert <;> simp [hc]
  · rw [i.built.2, (groupKeyIds_mem _ _ _).2, Dict.mem_keys_iff, ← hm, KeyStore.entry_eq, KeyStore.getCert]
    cases Dict.get? s.store id with
    | none => simp
    | some e => cases hc : e.cert <;> simp [hc]

/-- C100: what does not work is reported by exactly one error, and changes neither the key store nor what is listed;
nothing is reported otherwise. -/
theorem keys_tab_messages {evs : List KeysEvent} {s s' : KeysTab} (h : KeysReaches evs s) {e : KeysEvent}
    (hs : s.step e = some s') :
    (e.Fails s.pending → s'.store = s.store ∧ s'.certs = s.certs ∧ s'.keys = s.keys ∧ ∃ er, s'.shown = er :: s.shown) ∧
    (¬e.Fails s.pending → s'.shown = s.shown) := by
  have i := keysInv h
  have hb := KeysTab.build_of_built i.built
  have hb1 : (groupKeyIds s.store (Dict.keys s.store)).1 = s.certs := i.built.1.symm
  have hb2 : (groupKeyIds s.store (Dict.keys s.store)).2 = s.keys := i.built.2.symm
  cases e with
  | del id =>
    simp only [KeysTab.step] at hs
    split at hs
    · cases hs
      exact ⟨fun h => (by cases h), fun _ => rfl⟩
    · cases hs
  | keyFile f =>
    cases f with
    | error er => cases hs; exact ⟨fun _ => ⟨rfl, rfl, rfl, _, rfl⟩, fun h => absurd (.keyFile er) h⟩
    | ok pem => cases hs; exact ⟨fun h => (by cases h), fun _ => rfl⟩
  | keyId id =>
    simp only [KeysTab.step, KeyStore.putPEMKey] at hs
    cases hp : s.pending with
    | none => rw [hp] at hs; cases hs
    | some pem =>
      rw [hp] at hs
      simp only at hs
      cases hk : loadPubKey pem with
      | none =>
        rw [hk] at hs
        cases hs
        exact ⟨fun _ => ⟨rfl, hb1, hb2, _, rfl⟩, fun h => absurd (.keyId rfl hk) h⟩
      | some k =>
        rw [hk] at hs
        cases hs
        refine ⟨fun h => ?_, fun _ => rfl⟩
        cases h with
        | keyId hp' h => cases hp'; rw [hk] at h; cases h
  | cancel => cases hs; exact ⟨fun h => (by cases h), fun _ => rfl⟩
  | certFile f =>
    cases f with
    | error er => cases hs; exact ⟨fun _ => ⟨rfl, hb1, hb2, _, rfl⟩, fun h => absurd (.certFile er) h⟩
    | ok pem =>
      simp only [KeysTab.step, KeyStore.putPEMCert] at hs
      cases hk : loadCert pem with
      | none =>
        rw [hk] at hs
        cases hs
        exact ⟨fun _ => ⟨rfl, hb1, hb2, _, rfl⟩, fun h => absurd (.cert hk) h⟩
      | some c =>
        rw [hk] at hs
        cases hs
        refine ⟨fun h => ?_, fun _ => rfl⟩
        cases h with
        | cert h => rw [hk] at h; cases h
  | fromDEP c => cases hs; exact ⟨fun h => (by cases h), fun _ => rfl⟩
  | load f =>
    cases f with
    | error er => cases hs; exact ⟨fun _ => ⟨rfl, hb1, hb2, _, rfl⟩, fun h => absurd (.load er) h⟩
    | ok j =>
      simp only [KeysTab.step] at hs
      refine ⟨fun h => (by cases h), fun _ => ?_⟩
      cases hj : readStoreFromJson j with
      | ok ks => rw [hj] at hs; cases hs; rfl
      | error er =>
        rw [hj] at hs
        simp only at hs
        rcases store_read_total_partial j er hj with (rfl | rfl | rfl) | ⟨rfl, -⟩ <;> cases hs

/-- C100: there is a button for every key in the store, and an ID can be entered if a file with a public key was read.
All other events can always happen, and the application goes on, unless the container imported is none: this ends the
application, always. -/
theorem keys_tab_total {evs : List KeysEvent} {s : KeysTab} (h : KeysReaches evs s) (e : KeysEvent) :
    s.step e = none ↔ (∃ id, e = .del id ∧ keysAfter evs id = none) ∨ (∃ id, e = .keyId id ∧ s.pending = none) ∨
      ∃ j, e = .load (.ok j) ∧ ¬∃ ks, readStoreFromJson j = .ok ks := by
  have i := keysInv h
  have hm : s.store.entry = keysAfter evs := congrArg Prod.fst i.map
  cases e with
  | del id =>
    simp only [KeysTab.step, mem_tree i.built, hm]
    by_cases hid : keysAfter evs id = none <;> simp [hid]
  | keyFile f => cases f <;> simp [KeysTab.step]
  | keyId id =>
    simp only [KeysTab.step]
    cases hp : s.pending with
    | none => simp
    | some pem =>
      simp only
      cases s.store.putPEMKey id pem <;> simp
  | cancel => simp [KeysTab.step]
  | certFile f =>
    cases f with
    | error er => simp [KeysTab.step]
    | ok pem =>
      simp only [KeysTab.step]
      cases s.store.putPEMCert pem <;> simp
  | fromDEP c => simp [KeysTab.step]
  | load f =>
    cases f with
    | error er => simp [KeysTab.step]
    | ok j =>
      simp only [KeysTab.step]
      cases hj : readStoreFromJson j with
      | ok ks => simp [hj]
      | error er =>
        have hc : importCaught er = false := by
          rcases store_read_total_partial j er hj with (rfl | rfl | rfl) | ⟨rfl, -⟩ <;> rfl
        simp [hj, hc]

/-- C100: receipts are only found genuine with a key from a file, container or DEP the user chose. -/
theorem keys_tab_trust {evs : List KeysEvent} {s : KeysTab} (h : KeysReaches evs s) {r : Receipt}
    (hr : GenuineReceipt s.store r) : ∃ k, KeySource evs k ∧ SignatureValid r k := by
  obtain ⟨-, k, hk, hv⟩ := hr
  have hget : ∃ id, s.store.getKey id = some k := by
    cases hk with
    | closedCert c _ hc => cases hc
    | openCert c _ hc => cases hc
    | closedStore ks _ _ hks hk => cases hks; exact ⟨_, hk⟩
    | openStoreHex ks n _ _ hks _ hk => cases hks; exact ⟨_, hk⟩
    | openStoreDec ks n _ _ hks _ _ hk => cases hks; exact ⟨_, hk⟩
  obtain ⟨id, hid⟩ := hget
  exact ⟨k, (keysInv h).source id k (s.store.getCert id) (by simp [KeyStore.entry, hid]), hv⟩

/-- C100, partial: importing what was exported gives the same keys and the same list, into whatever tab.  The full
claim (for all containers imported before) is false, see `Demo.export_merges`. -/
theorem keys_tab_export_partial {evs : List KeysEvent} {s : KeysTab} (h : KeysReaches evs s) (hx : HexImports evs)
    (t : KeysTab) :
    t.step (.load (.ok s.exported)) = some { s with pending := t.pending, shown := t.shown } := by
  have i := keysInv h
  have hg := good_of_hex i.ids i.certKeys (i.hex hx)
  simp only [KeysTab.step, KeysTab.exported, read_written hg.ids hg.entries none, KeysTab.build, Option.some.injEq]
  rw [← i.built.1, ← i.built.2]

end

namespace Demo
attribute [local instance] env

/-- A day with the tab: a certificate is added, and a public key; a file that is no certificate is refused; another key
is added and deleted again. -/
def tabDay : List KeysEvent :=
  [.certFile (.ok (addPEMCertHeaders (b64Encode false [0, 31, 1, 7, 8]))),
   .keyFile (.ok (addPEMPubKeyHeaders (b64Encode false [9]))), .keyId c!"S:123456789",
   .certFile (.ok c!"nothing"),
   .keyFile (.ok (addPEMPubKeyHeaders (b64Encode false [9]))), .keyId c!"x", .del c!"x"]

/-- C100: what the tab shows after this. -/
theorem tab_shown : ((KeysTab.init.run tabDay).any fun s => s.certs = [c!"1f"] ∧ s.keys = [c!"S:123456789"] ∧
    s.shown = [.valueError]) = true := by
  decide +kernel

/-- C100: a container that can be imported, with two certificates; after export and import there is one. -/
def oddContainer : Json := .obj [(c!"certificateOrPublicKeyMap", .obj
  [(c!"--5", entryToJson c!"--5" ⟨([8] : Bytes), some ([0, 31, 1, 8] : Bytes)⟩),
   (c!"5", entryToJson c!"5" ⟨([9] : Bytes), some ([0, 31, 1, 9] : Bytes)⟩)])]

theorem export_merges : ((KeysTab.init.run [.load (.ok oddContainer)]).any fun s => s.certs = [c!"-5", c!"5"] ∧
    ((s.step (.load (.ok s.exported))).any fun t => t.certs = [c!"5"])) = true := by
  decide +kernel

/-- C100: importing a file that is no container ends the application. -/
theorem import_ends (s : KeysTab) : s.step (.load (.ok .null)) = none := rfl

end Demo

end RKSV
