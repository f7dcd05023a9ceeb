import Verif.Model.KeyStore
/-
Specification of the key store: a finite map.
-/
namespace RKSV

section
variable [PyEnv]

/-- What a user can do to a key store. -/
inductive KeyOp where
  | putKey (id : Str) (key : PubKey) (cert : Option Cert)
  | delKey (id : Str)
  | putPEMCert (pem : Str)
  | putPEMKey (id : Str) (pem : Str)

/-- An operation performed on a key store.  If the PEM text cannot be loaded the store stays as it
was (the exception is raised before the update). -/
def KeyStore.run (ks : KeyStore) : KeyOp → KeyStore
  | .putKey id k c => ks.putKey id k c
  | .delKey id => ks.delKey id
  | .putPEMCert pem => match ks.putPEMCert pem with
    | .ok ks' => ks'
    | .error _ => ks
  | .putPEMKey id pem => match ks.putPEMKey id pem with
    | .ok ks' => ks'
    | .error _ => ks

/-- The abstract map from IDs to key and certificate. -/
abbrev KeyMap := Str → Option (PubKey × Option Cert)

/-- The effect of an operation on the abstract map. -/
def KeyMap.run (m : KeyMap) : KeyOp → KeyMap
  | .putKey id k c => Function.update m id (some (k, c))
  | .delKey id => Function.update m id none
  | .putPEMCert pem => match loadCert pem with
    | some c => Function.update m (natHex (serial c).natAbs) (some (publicKey c, some c))
    | none => m
  | .putPEMKey id pem => match loadPubKey pem with
    | some k => Function.update m id (some (k, none))
    | none => m

/-- The operations that the loading functions use: no entries made up by hand. -/
def KeyOp.FromPEM : KeyOp → Prop
  | .putKey _ _ _ => False
  | _ => True

/-- The key store as a map. -/
def KeyStore.entry (ks : KeyStore) (id : Str) : Option (PubKey × Option Cert) :=
  (ks.getKey id).map fun k => (k, ks.getCert id)

/-- None of the texts `s;`, `u;`, `g;` occurs. -/
def NoEscapes (id : Str) : Prop := ∀ x ∈ ['s', 'u', 'g'], ¬[x, ';'] <:+: id

end

end RKSV
