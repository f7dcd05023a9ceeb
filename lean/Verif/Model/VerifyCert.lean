import Verif.Model.KeyStore
/-
Certificate chains: librksv/verify.py.
-/
namespace RKSV

section
variable [PyEnv]

/-- `verifyCert` (librksv/verify.py:256-297).  `prev` is the certificate reached so far.  The truth
value of a certificate object is true, so `if ksCert` tests for `None`. -/
def verifyCert (ks : KeyStore) (prev : Cert) : List Cert → Res Unit
  | [] =>
    match ks.getCert (numSerialToKeyId (serial prev)) with
    | some k => ensure (fingerprint k = fingerprint prev) .certificateSerialCollision
    | none => .error .untrustedCertificate
  | c :: chain =>
    match ks.getCert (numSerialToKeyId (serial prev)) with
    | some k => ensure (fingerprint k = fingerprint prev) .certificateSerialCollision
    | none => do
      ensure (certSignedBy prev c = true) .certificateChainBroken
      verifyCert ks c chain

end

end RKSV
