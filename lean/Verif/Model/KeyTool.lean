import Verif.Model.KeyStore
/-
key_store.py, the command line tool for cryptographic material containers.  Files are given by their contents:
JSON values, PEM texts, INI sections.  Splitting the command line is not modelled.
-/
namespace RKSV

section
variable [PyEnv]

/-- The commands (key_store.py:33-44), with the contents of the files named and of the standard input. -/
inductive KeyCmd where
  | create
  | list
  | addCert (pem : Str)
  | addKey (pem id : Str)
  | del (id : Str)
  | showKey
  /-- the first line of the standard input, if there is one -/
  | setKey (line : Option Str)
  | delKey
  | toIni
  | fromIni (cfg : Ini)

/-- What is printed. -/
inductive KeyOut where
  | nothing
  | ids (l : List Str)
  | noKey
  | key (b64 : Str)
  | ini (cfg : Ini)

/-- `utils.loadB64Key` (librksv/utils.py:88-89, 260-264), see `loadKeyFromJson`. -/
def loadB64Key (s : Str) : Res Bytes :=
  orErr (b64Decode false s) (if b64Matches false s then .valueError else .typeError)

/-- What the tool starts from (key_store.py:61-68). -/
def KeyCmd.load (file : Json) : KeyCmd → Res (KeyStore × Option Bytes)
  | .create => .ok ([], none)
  | .fromIni _ => .ok ([], none)
  | _ => do
    let ks ← readStoreFromJson file
    let key ← loadKeyFromJson file
    .ok (ks, key)

/-- The command (key_store.py:70-123): what is to be written, if anything, and what is printed. -/
def KeyCmd.exec (ks : KeyStore) (key : Option Bytes) : KeyCmd → Res (Option (KeyStore × Option Bytes) × KeyOut)
  | .create => .ok (some (ks, key), .nothing)
  | .list => .ok (none, .ids (Dict.keys ks))
  | .addCert pem => do
    let ks ← ks.putPEMCert pem
    .ok (some (ks, key), .nothing)
  | .addKey pem id => do
    let ks ← ks.putPEMKey id pem
    .ok (some (ks, key), .nothing)
  | .del id => .ok (some (ks.delKey id, key), .nothing)
  | .showKey =>
    match key with
    | none => .ok (none, .noKey)
    | some b => .ok (none, .key (b64Encode false b))
  | .setKey line =>
    match line with
    | none => .ok (none, .nothing)
    | some l =>
      if pyStrip l = [] then .ok (none, .nothing)
      else do
        let b ← loadB64Key (pyStrip l)
        .ok (some (ks, some b), .nothing)
  | .delKey => .ok (some (ks, none), .nothing)
  | .toIni => .ok (none, .ini (ks.writeIni ⟨none, none⟩))
  | .fromIni cfg => do
    let ks ← readIni cfg
    .ok (some (ks, none), .nothing)

/-- The whole tool: the file afterwards, and what is printed.  The file is written only at the end
(key_store.py:125-132). -/
def keyTool (file : Json) (cmd : KeyCmd) : Json × Res KeyOut :=
  match (do let (ks, key) ← cmd.load file; cmd.exec ks key) with
  | .error e => (file, .error e)
  | .ok (none, out) => (file, .ok out)
  | .ok (some (ks, key), out) => (ks.toJson (key.map (b64Encode false)), .ok out)

end

end RKSV
