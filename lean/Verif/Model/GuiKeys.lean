import Verif.Model.GuiReceipt
/-
rktool.py: the tab for the key store, as a machine that reacts to events.
-/
namespace RKSV

section
variable [PyEnv]

/-- The key store of the application (rktool.py:981), the nodes of the two groups of `KeyStoreWidget`
(rktool.py:816-821), the PEM text in `_tmpPubKey` while the dialog for the ID of the public key is open
(rktool.py:876-895), and the errors displayed so far, the latest first. -/
structure KeysTab where
  store : KeyStore
  certs : List Str
  keys : List Str
  pending : Option Str
  shown : List Err

/-- The tab of an application just started (rktool.py:816-823, 981). -/
def KeysTab.init : KeysTab where
  store := []
  certs := []
  keys := []
  pending := none
  shown := []

/-- The loop of `buildKSTree` (rktool.py:845-857): the IDs for the group of certificates and for that of public keys. -/
def groupKeyIds (ks : KeyStore) : List Str → List Str × List Str
  | [] => ([], [])
  | id :: ids =>
    let (certs, keys) := groupKeyIds ks ids
    match ks.getCert id with
    | some _ => (id :: certs, keys)
    | none => (certs, id :: keys)

/-- `buildKSTree` (rktool.py:825-857).  That the loops at its begin remove all nodes is assumed. -/
def KeysTab.build (s : KeysTab) : KeysTab :=
  { s with
    certs := (groupKeyIds s.store (Dict.keys s.store)).1
    keys := (groupKeyIds s.store (Dict.keys s.store)).2 }

/-- `displayError` (rktool.py:213-217). -/
def KeysTab.show (s : KeysTab) (e : Err) : KeysTab := { s with shown := e :: s.shown }

/-- What users can do: press the button of a key, which deletes it; choose a file with a public key (its text, or an
exception raised when it was read); enter an ID for this key, or cancel this; choose a file with a certificate; press the
button of a certificate in the tab for DEPs, which adds it; choose a file with a container (the JSON value, or the
exception raised when it was read).  The exceptions of reading files (`IOError`, `UnicodeDecodeError`, and `ValueError`
of the JSON parser) are all caught; those of other kinds, such as for lack of memory, are not modelled. -/
inductive KeysEvent where
  | del (id : Str)
  | keyFile (file : Res Str)
  | keyId (id : Str)
  | cancel
  | certFile (file : Res Str)
  | fromDEP (cert : Cert)
  | load (file : Res Json)

omit [PyEnv] in
/-- The exceptions caught when a container is imported (rktool.py:945-949). -/
def importCaught (e : Err) : Bool :=
  match e with
  | .valueError | .unicodeError | .keyError => true
  | _ => false

/-- `delKey` (rktool.py:859-861), `addPubKeyCbKey` (876-895), `addPubKeyCbId` (897-904), `addCertCb` (906-919),
`importKeyStoreCb` (933-952), and `addCert` of the tab for DEPs (595-598) with `updateKSWidget` (1008-1010).  `none` if
the event cannot happen (there is no button for this ID, or the dialog for the ID is not open), or if the application
ends.  `ValueError` is the only exception of loading a PEM text that is modelled. -/
def KeysTab.step (s : KeysTab) : KeysEvent → Option KeysTab
  | .del id => if id ∈ s.certs ++ s.keys then some { s with store := s.store.delKey id }.build else none
  | .keyFile (.error e) => some (s.show e)
  | .keyFile (.ok pem) => some { s with pending := some pem }
  | .keyId id =>
    match s.pending with
    | none => none
    | some pem =>
      match s.store.putPEMKey id pem with
      | .ok ks => some { s with store := ks, pending := none }.build
      | .error e => some ({ s with pending := none }.show e).build
  | .cancel => some { s with pending := none }
  | .certFile (.error e) => some (s.show e).build
  | .certFile (.ok pem) =>
    match s.store.putPEMCert pem with
    | .ok ks => some { s with store := ks }.build
    | .error e => some (s.show e).build
  | .fromDEP c => some { s with store := s.store.putKey (numSerialToKeyId (serial c)) (publicKey c) (some c) }.build
  | .load (.error e) => some (s.show e).build
  | .load (.ok j) =>
    match readStoreFromJson j with
    | .ok ks => some { s with store := ks }.build
    | .error e => if importCaught e then some (s.show e).build else none

/-- The reaction to several events. -/
def KeysTab.run (s : KeysTab) : List KeysEvent → Option KeysTab
  | [] => some s
  | e :: es => (s.step e).bind fun s => s.run es

/-- What `exportKeyStoreCb` writes (rktool.py:954-967); it changes nothing but the file. -/
def KeysTab.exported (s : KeysTab) : Json := s.store.toJson none

end

end RKSV
