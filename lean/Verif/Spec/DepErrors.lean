import Verif.Spec.GroupErrors
import Verif.Spec.DepRules
/-
Specification of the exceptions the verification of a whole DEP raises.
-/
namespace RKSV

section
variable [PyEnv]

/-- Why a DEP is refused: everything before a certain group obeys the rules, and this group has no
certificate although it is not the only one, has a certificate that is refused, or has a receipt that
is the first to break the rules.  `s` is the state of the register, `used` the receipt IDs used. -/
inductive DepRefused (ks : KeyStore) (key : Option Bytes) (ps : Option Str) (s : RegState) (used : Used)
    (gs : List DepGroup) : Err → Prop
  /-- a group without certificate that is not the only one -/
  | noCert (saved : Option Entry) (A : List DepGroup) (g : DepGroup) (B : List DepGroup)
      (h : List CheckedEntry) (hgs : gs = A ++ g :: B) (hA : A ≠ []) (hs : Saved s saved)
      (hr : DepReads ks A h) (hok : DepRules key ps s saved used h)
      (hc : (∀ a ∈ A, a.cert ≠ none) ∧ g.cert = none ∨ ∃ a, A = [a] ∧ a.cert = none) :
      DepRefused ks key ps s used gs .noCertificateGiven
  /-- the certificate of the first group -/
  | firstCert (g : DepGroup) (B : List DepGroup) (c : Cert) (e : Err) (hgs : gs = g :: B)
      (hc : g.cert = some c) (h : verifyCert ks c g.chain = .error e) :
      DepRefused ks key ps s used gs e
  /-- the certificate of a later group -/
  | cert (saved : Option Entry) (A : List DepGroup) (g : DepGroup) (B : List DepGroup)
      (h : List CheckedEntry) (c : Cert) (e : Err) (hgs : gs = A ++ g :: B) (hA : A ≠ [])
      (hs : Saved s saved) (hr : DepReads ks A h) (hok : DepRules key ps s saved used h)
      (hcs : ∀ a ∈ A, a.cert ≠ none) (hc : g.cert = some c)
      (h : verifyCert ks c g.chain = .error e) : DepRefused ks key ps s used gs e
  /-- the last receipt of the register in the saved state cannot be read -/
  | state (g : DepGroup) (B : List DepGroup) (v : Verifier) (t : Str) (e : Err) (hgs : gs = g :: B)
      (hv : VerifierFor ks g v) (ht : s.last = some t) (hn : t ≠ []) (h : fromJWS t = .error e) :
      DepRefused ks key ps s used gs e
  /-- the first receipt that breaks the rules -/
  | receipt (saved : Option Entry) (A : List DepGroup) (g : DepGroup) (B : List DepGroup)
      (h : List CheckedEntry) (v : Verifier) (a : List Bytes) (ha : List Entry) (b : Bytes)
      (post : List Bytes) (e : Err) (hgs : gs = A ++ g :: B) (hcs : A = [] ∨ ∀ x ∈ A ++ [g], x.cert ≠ none)
      (hs : Saved s saved) (hr : DepReads ks A h) (hv : VerifierFor ks g v) (hg : g.recs = a ++ b :: post)
      (hra : Reads a ha) (hok : DepRules key ps s saved used (h ++ ha.map (fun x => (x, v))))
      (hb : Refused { verifier := v, key, prevStart := ps } s saved used (h.map (·.1) ++ ha) b e) :
      DepRefused ks key ps s used gs e

end

end RKSV
