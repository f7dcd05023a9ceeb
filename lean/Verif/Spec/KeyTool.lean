import Verif.Model.KeyTool
import Verif.Spec.KeyStore
/-
Specification of the tool for cryptographic material containers: a map of keys and the AES key.
-/
namespace RKSV

section
variable [PyEnv]

/-- What a container holds. -/
structure Keys where
  map : KeyMap
  aes : Option Bytes

/-- The map given by a legacy INI file: later lines replace earlier ones with the same ID, keys come after
certificates. -/
def IniMap (cfg : Ini) (m : KeyMap) : Prop :=
  ∃ (cs : List (Str × Cert)) (ks : List (Str × PubKey)),
    List.Forall₂ (fun p q => p.1 = q.1 ∧ loadCert (addPEMCertHeaders p.2) = some q.2) (cfg.certs.getD []) cs ∧
    List.Forall₂ (fun p q => p.1 = q.1 ∧ loadPubKey (addPEMPubKeyHeaders p.2) = some q.2) (cfg.keys.getD []) ks ∧
    m = ks.foldl (fun m q => Function.update m (iniUnescape q.1) (some (q.2, none)))
      (cs.foldl (fun m q => Function.update m (iniUnescape q.1) (some (publicKey q.2, some q.2))) fun _ => none)

/-- What a command does and prints. -/
inductive KeyEdit (k : Keys) : KeyCmd → Keys → KeyOut → Prop
  | create : KeyEdit k .create ⟨fun _ => none, none⟩ .nothing
  | list (l : List Str) (hn : l.Nodup) (hl : ∀ id, id ∈ l ↔ k.map id ≠ none) : KeyEdit k .list k (.ids l)
  | addCert (pem : Str) (c : Cert) (h : loadCert pem = some c) :
      KeyEdit k (.addCert pem)
        ⟨Function.update k.map (natHex (serial c).natAbs) (some (publicKey c, some c)), k.aes⟩ .nothing
  | addKey (pem id : Str) (p : PubKey) (h : loadPubKey pem = some p) :
      KeyEdit k (.addKey pem id) ⟨Function.update k.map id (some (p, none)), k.aes⟩ .nothing
  | del (id : Str) : KeyEdit k (.del id) ⟨Function.update k.map id none, k.aes⟩ .nothing
  | showNone (h : k.aes = none) : KeyEdit k .showKey k .noKey
  | showKey (b : Bytes) (h : k.aes = some b) : KeyEdit k .showKey k (.key (b64Encode false b))
  | noInput : KeyEdit k (.setKey none) k .nothing
  | emptyLine (l : Str) (h : pyStrip l = []) : KeyEdit k (.setKey (some l)) k .nothing
  | setKey (l : Str) (b : Bytes) (h : pyStrip l ≠ []) (hb : b64Decode false (pyStrip l) = some b) :
      KeyEdit k (.setKey (some l)) ⟨k.map, some b⟩ .nothing
  | delKey : KeyEdit k .delKey ⟨k.map, none⟩ .nothing
  /-- reading what is printed gives the same map, unless the escapes occur in IDs -/
  | toIni (cfg : Ini) (h : (∀ id, k.map id ≠ none → NoEscapes id) → IniMap cfg k.map) : KeyEdit k .toIni k (.ini cfg)
  | fromIni (cfg : Ini) (m : KeyMap) (h : IniMap cfg m) : KeyEdit k (.fromIni cfg) ⟨m, none⟩ .nothing

/-- A sequence of commands with what each prints; commands that are not possible change nothing. -/
inductive KeySession : Keys → List KeyCmd → List (Option KeyOut) → Keys → Prop
  | nil (k : Keys) : KeySession k [] [] k
  | done (k k' k'' : Keys) (cmd : KeyCmd) (out : KeyOut) (l : List KeyCmd) (o : List (Option KeyOut))
      (h : KeyEdit k cmd k' out) (hl : KeySession k' l o k'') : KeySession k (cmd :: l) (some out :: o) k''
  | refused (k k'' : Keys) (cmd : KeyCmd) (l : List KeyCmd) (o : List (Option KeyOut))
      (h : ∀ k' out, ¬KeyEdit k cmd k' out) (hl : KeySession k l o k'') : KeySession k (cmd :: l) (none :: o) k''

/-- The IDs of certificates are hexadecimal numbers. -/
def HexCerts (m : KeyMap) : Prop := ∀ id p c, m id = some (p, some c) → ∃ n : Nat, id = natHex n

/-- Legacy files given to the command have such IDs. -/
def KeyCmd.Tidy : KeyCmd → Prop
  | .fromIni cfg => ∀ m, IniMap cfg m → HexCerts m
  | _ => True

/-- The file holds these keys. -/
def Holds (file : Json) (k : Keys) : Prop :=
  ∃ ks, readStoreFromJson file = .ok ks ∧ ks.entry = k.map ∧ loadKeyFromJson file = .ok k.aes

/-- The tool run several times. -/
def keySession (file : Json) : List KeyCmd → Json × List (Option KeyOut)
  | [] => (file, [])
  | cmd :: l =>
    let r := keyTool file cmd
    let s := keySession r.1 l
    (s.1, (match r.2 with
      | .ok out => some out
      | .error _ => none) :: s.2)

end

end RKSV
