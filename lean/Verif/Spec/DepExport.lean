import Verif.Model.DepExport
/-
Specification of merged groups.
-/
namespace RKSV

section
variable [PyEnv]

/-- Adjacent groups merged exactly if they are the same in some sense: each run of groups that are the
same as the first one becomes one group with the certificates of that one. -/
inductive MergedBy {α : Type} (same : SGroup α → SGroup α → Prop) : List (SGroup α) → List (SGroup α) → Prop
  | nil : MergedBy same [] []
  | run (g : SGroup α) (run rest outs : List (SGroup α)) (hsame : ∀ x ∈ run, same g x)
      (hnext : ∀ x, rest.head? = some x → ¬same g x) (h : MergedBy same rest outs) :
      MergedBy same (g :: run ++ rest) (⟨g.recs ++ run.flatMap (·.recs), g.cert, g.chain⟩ :: outs)

/-- Certificate and certificate chain are equal. -/
def SameCerts {α : Type} (g g' : SGroup α) : Prop := g.cert = g'.cert ∧ g.chain = g'.chain

/-- The certificates are equal. -/
def SameCert {α : Type} (g g' : SGroup α) : Prop := g.cert = g'.cert

/-- All receipts in order, each with the certificate of its group. -/
def certified {α : Type} (gs : List (SGroup α)) : List (α × Option Cert) :=
  gs.flatMap fun g => g.recs.map fun r => (r, g.cert)

/-- All receipts in order, each with the certificate of its group and the certificate's chain. -/
def chained {α : Type} (gs : List (SGroup α)) : List (α × Option Cert × List Cert) :=
  gs.flatMap fun g => g.recs.map fun r => (r, g.cert, g.chain)

/-- The same for groups as the parsers yield them. -/
def chainedDep (gs : List DepGroup) : List (Bytes × Option Cert × List Cert) :=
  gs.flatMap fun g => g.recs.map fun r => (r, g.cert, g.chain)

/-- The stored receipt reads as this one. -/
def ReadsAs (b : Bytes) (r : Receipt) (alg : Str) : Prop :=
  ∃ t, b = utf8Enc t ∧ fromJWS t = .ok (r, alg)

/-- The certificates can be written: their encodings are not empty. -/
def Writable {α : Type} (gs : List (SGroup α)) : Prop := ∀ g ∈ gs, ∀ c, g.cert = some c → certDER c ≠ []

end

end RKSV
