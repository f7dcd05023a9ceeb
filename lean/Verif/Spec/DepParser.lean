import Verif.Model.DepParser
/-
Specification of DEPs as JSON values, and of chunks.
-/
namespace RKSV

section
variable [PyEnv]

/-- The text is a certificate in PEM format without header and footer. -/
def CertOf (s : Str) (c : Cert) : Prop := loadCert (addPEMCertHeaders s) = some c

/-- The element `Signaturzertifikat`; the empty text stands for no certificate. -/
inductive SignCert : Str → Option Cert → Prop
  | none : SignCert [] none
  | some (s : Str) (c : Cert) (hs : s ≠ []) (h : CertOf s c) : SignCert s (some c)

/-- A group in a DEP.  Other elements are ignored. -/
inductive GroupJson : Json → DepGroup → Prop
  | mk (d : Dict Json) (rs : List Str) (s : Str) (cs : List Str) (cert : Option Cert) (chain : List Cert)
      (hr : d.get? c!"Belege-kompakt" = some (.arr (rs.map .str)))
      (hs : d.get? c!"Signaturzertifikat" = some (.str s))
      (hc : d.get? c!"Zertifizierungsstellen" = some (.arr (cs.map .str)))
      (cert_of : SignCert s cert) (chain_of : List.Forall₂ CertOf cs chain) :
      GroupJson (.obj d) ⟨rs.map utf8Enc, cert, chain⟩

/-- A DEP with these groups.  Other elements are ignored. -/
inductive DepJson : Json → List DepGroup → Prop
  | mk (root : Dict Json) (js : List Json) (gs : List DepGroup)
      (h : root.get? c!"Belege-Gruppe" = some (.arr js)) (hg : List.Forall₂ GroupJson js gs) :
      DepJson (.obj root) gs

omit [PyEnv] in
/-- A document without oddities: no key is repeated in the root or in a group, and the keys of the root
are not empty and have no dots in them. -/
inductive PlainDoc : Json → Prop
  | mk (root : Dict Json) (nodup : root.keys.Nodup) (keys : ∀ k ∈ root.keys, k ≠ [] ∧ '.' ∉ k)
      (groups : ∀ js, root.get? c!"Belege-Gruppe" = some (.arr js) → ∀ d, Json.obj d ∈ js →
        (Dict.keys d).Nodup) :
      PlainDoc (.obj root)

omit [PyEnv] in
/-- In the text none of the elements of a DEP is repeated: there is not more than one list of groups, and in every group
not more than one list of receipts, one certificate and one list of certificates.  Other elements may be repeated. -/
def Unrepeated (text : Json) : Prop :=
  ∀ root : Dict Json, text = .obj root → root.keys.count c!"Belege-Gruppe" ≤ 1 ∧
    ∀ js, (c!"Belege-Gruppe", Json.arr js) ∈ root → ∀ d : Dict Json, Json.obj d ∈ js →
      d.keys.count c!"Belege-kompakt" ≤ 1 ∧ d.keys.count c!"Signaturzertifikat" ≤ 1 ∧
        d.keys.count c!"Zertifizierungsstellen" ≤ 1

omit [PyEnv] in
/-- The keys of the root are not empty and have no dots in them. -/
def PlainKeys (text : Json) : Prop :=
  ∀ root : Dict Json, text = .obj root → ∀ k ∈ root.keys, k ≠ [] ∧ '.' ∉ k

omit [PyEnv] in
/-- In every group the certificates come before the receipts. -/
def CertsFirst (doc : Json) : Prop :=
  ∀ root js d, doc = .obj root → Dict.get? root c!"Belege-Gruppe" = some (.arr js) → Json.obj d ∈ js →
    ∀ (pre : Dict Json) v post, d = pre ++ (c!"Belege-kompakt", v) :: post →
      c!"Signaturzertifikat" ∈ pre.keys ∧ c!"Zertifizierungsstellen" ∈ pre.keys

/-- The receipts of groups, each with the number of its group, which starts from `k`. -/
def numbered (k : Nat) : List DepGroup → List (Nat × Bytes)
  | [] => []
  | g :: gs => g.recs.map (fun r => (k, r)) ++ numbered (k + 1) gs

/-- The chunk holds just these receipts of the groups `gs`: it consists of non-empty groups, each with
the certificates of another one of the groups, in ascending order. -/
inductive Grouped (gs : List DepGroup) : List (Nat × Bytes) → Chunk → Prop
  | nil : Grouped gs [] []
  | snoc (T : List (Nat × Bytes)) (c : Chunk) (i : Nat) (g : DepGroup) (recs : List Bytes)
      (h : Grouped gs T c) (hlt : ∀ x ∈ T, x.1 < i) (hg : gs[i]? = some g) (hr : recs ≠ []) :
      Grouped gs (T ++ recs.map fun r => (i, r)) (c ++ [⟨recs, g.cert, g.chain⟩])

omit [PyEnv] in
/-- A list cut into pieces of `n`, the last one possibly shorter. -/
def CutEvery {α : Type} (n : Nat) (l : List α) (ps : List (List α)) : Prop :=
  ps.flatten = l ∧ ∀ pre p post, ps = pre ++ p :: post →
    p ≠ [] ∧ p.length ≤ n ∧ (post ≠ [] → p.length = n)

end

end RKSV
