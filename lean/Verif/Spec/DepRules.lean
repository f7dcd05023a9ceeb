import Verif.Spec.VerifyGroup
import Verif.Spec.Cluster
import Verif.Props.VerifyCert
import Verif.Model.VerifyTool
/-
Specification of the verdict on a whole DEP: the rules for its receipts in order, whatever groups they are in.
-/
namespace RKSV

section
variable [PyEnv]

/-- A receipt together with the verifier for the group it is in. -/
abbrev CheckedEntry := Entry × Verifier

/-- Every receipt obeys the rules with respect to all receipts before it, in whatever groups. -/
def DepRules (key : Option Bytes) (prevStart : Option Str) (s : RegState) (saved : Option Entry) (used : Used)
    (h : List CheckedEntry) : Prop :=
  ∀ pre x v post, h = pre ++ (x, v) :: post →
    Rules { verifier := v, key, prevStart } s saved used (pre.map (·.1)) x

/-- The state after the receipts. -/
def DepAfter (key : Option Bytes) (s : RegState) (saved : Option Entry) (h : List CheckedEntry) (s' : RegState) : Prop :=
  After { verifier := .fromKeyStore [], key, prevStart := none } s saved (h.map (·.1)) s'

/-- The verifier for the receipts of a group: the key store if the group has no certificate, otherwise the
certificate, which has to be trusted. -/
inductive VerifierFor (ks : KeyStore) (g : DepGroup) : Verifier → Prop
  | store (h : g.cert = none) : VerifierFor ks g (.fromKeyStore ks)
  | cert (c : Cert) (h : g.cert = some c) (i : Nat) (d : Cert) (hr : Reaches ks (c :: g.chain) i d)
      (hs : Stored ks d) : VerifierFor ks g (.fromCert c)

/-- The receipts of the groups in order, each with the verifier of its group. -/
inductive DepReads (ks : KeyStore) : List DepGroup → List CheckedEntry → Prop
  | nil : DepReads ks [] []
  | cons (g : DepGroup) (v : Verifier) (hg : List Entry) (gs : List DepGroup) (h : List CheckedEntry)
      (hv : VerifierFor ks g v) (hr : Reads g.recs hg) (ht : DepReads ks gs h) :
      DepReads ks (g :: gs) (hg.map (fun x => (x, v)) ++ h)

/-- The groups that have receipts. -/
def nonempty (gs : List DepGroup) : List DepGroup := gs.filter fun g => g.recs ≠ []

/-- The verdict on the groups of a DEP for the register with index `idx` of the cluster `c`, and the cluster
afterwards. -/
inductive DepAccepted (ks : KeyStore) (key : Option Bytes) (c : Cluster) (idx : Option Int) (gs : List DepGroup) :
    Cluster → Prop
  | mk (c₁ : Cluster) (prevStart : Option Str) (s s' : RegState) (used' : Used) (i : Nat) (saved : Option Entry)
      (h : List CheckedEntry)
      -- the register
      (info : Info c idx c₁ prevStart s) (index : idx = some (i : Int) ∨ idx = none ∧ i = c.regs.length)
      (last : Saved s saved)
      -- a certificate may be missing if there is only one group
      (certs : gs.length ≤ 1 ∨ ∀ g ∈ gs, g.cert ≠ none)
      -- the receipts
      (reads : DepReads ks gs h) (rules : DepRules key prevStart s saved c.used h)
      -- the new state
      (after : DepAfter key s saved h s') (ids : UsedAfter c.used (h.map (·.1)) used') :
      DepAccepted ks key c idx gs ⟨c₁.regs.set i s', used'⟩

end

/-- The register a DEP belongs to, by its position: the next new one, the newest, or the one given. -/
inductive Selects (c : Cluster) : Select → Nat → Prop
  | fresh : Selects c .fresh c.regs.length
  | last (i : Nat) (h : c.regs.length = i + 1) : Selects c .last i
  | nth (i : Nat) : Selects c (.nth i) i

end RKSV
