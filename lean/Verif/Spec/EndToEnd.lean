import Verif.Spec.DepRules
import Verif.Spec.DepExport
import Verif.Spec.CashReg
import Verif.Model.DepExport
/-
Specification vocabulary for the way of receipts from the register over the exporter to the verifier.
-/
namespace RKSV

section
variable [PyEnv]

/-- The modes: any number of processes and chunk size, as long as files are not read from a pipe. -/
structure FileMode (m : Mode) : Prop where
  procs : 1 ≤ m.nprocs
  order : ∀ s, (m.order s).toFinset = s
  file : m.seekable = true ∨ m.chunksize = 0

/-- A DEP that is exported and then verified: how it is verified, to which register it belongs, its groups and
its extra elements. -/
structure Part where
  mode : Mode
  sel : Select
  groups : List (SGroup (Receipt × Str))
  extra : Dict Json

/-- The run of `verify.py` for the DEP. -/
def Part.job (store : Json) (p : Part) : Mode × Job := (p.mode, ⟨p.sel, store, exportDEP p.groups p.extra⟩)

/-- The DEP can be exported and verified. -/
structure Part.Good (p : Part) : Prop where
  /-- the extra elements do not hide the groups and have ordinary names -/
  extra : c!"Belege-Gruppe" ∉ p.extra.keys
  names : ∀ k ∈ p.extra.keys, k ≠ [] ∧ '.' ∉ k
  /-- there are receipts -/
  some : ∃ g ∈ p.groups, g.recs ≠ []
  /-- certificates have some content; they may be missing if just one group has receipts -/
  writable : Writable p.groups
  certs : (p.groups.filter fun g => g.recs ≠ []).length ≤ 1 ∨ ∀ g ∈ p.groups, g.recs ≠ [] → g.cert ≠ none
  /-- the mode is possible -/
  procs : 1 ≤ p.mode.nprocs
  order : ∀ s, (p.mode.order s).toFinset = s
  pipe : p.mode.seekable = true ∨ p.mode.chunksize = 0 ∨ ∀ g ∈ p.groups, g.cert ≠ none

/-- The receipts of DEPs in order. -/
def receiptsOf (parts : List Part) : List (Receipt × Str) := parts.flatMap fun p => p.groups.flatMap (·.recs)

/-- The group as it is read from the export. -/
def SGroup.asRead (g : SGroup (Receipt × Str)) : DepGroup :=
  ⟨g.recs.map fun r => utf8Enc (r.1.toJWS r.2), g.cert, g.chain⟩

/-- The verifier that is used for the group knows the signature systems its receipts were made with. -/
def GroupSigned (ks : KeyStore) (os : List Order) (rs : List Receipt) (g : SGroup (Receipt × Str)) : Prop :=
  ∃ v, VerifierFor ks g.asRead v ∧ ∀ o r, (o, r) ∈ os.zip rs → (r, c!"R1") ∈ g.recs → SignedFor v o r

/-- The register is new, and the first one, or one that is chained to the start receipt of the one before. -/
inductive NewRegister (c : Cluster) (reg : CashRegister) (os : List Order) : Prop
  | alone (h : c.regs = []) (h1 : reg.last = none ∨ reg.last = some []) (h2 : reg.counter = 0)
  | cluster (p : RegState) (h : c.regs.getLast? = some p) (y : Entry) (hv : y.Valid) (hp : p.start = some y.1)
      (h1 : reg.last = some y.1) (h2 : reg.counter = 0)
      (hr : y.2.registerId = reg.registerId) (hz : y.2.zda = c!"AT0")
      (ho : ∀ o, os.head? = some o → o.sys.zda = c!"AT0" ∧ ¬Earlier o.dateTime y.2.dateTime)

/-- What the state of a register is after the verification of all its receipts. -/
structure Agrees (key : Option Bytes) (rs : List Receipt) (reg : CashRegister) (s : RegState) : Prop where
  start : s.start = rs.head?.map (·.toJWS c!"R1")
  last : s.last = reg.last
  counter : key ≠ none → s.counter = reg.counter

/-! ### Clusters -/

/-- The life of a register: the register when it was new and at the end, what it did, and the DEPs its receipts
were exported in. -/
structure Life where
  reg : CashRegister
  orders : List Order
  receipts : List Receipt
  reg' : CashRegister
  first : Part
  parts : List Part

/-- The jobs for the DEPs of a register. -/
def Life.jobs (store : Json) (l : Life) : List (Mode × Job) := (l.first :: l.parts).map (·.job store)

/-- The register is the one with number `n` of a cluster.  `prev` is the start receipt of the previous one, and
`used` are the IDs of all receipts before. -/
structure Life.Good (ks : KeyStore) (key : Option Bytes) (prev : Option Receipt) (used : Used) (n : Nat)
    (l : Life) : Prop where
  /-- it is new, and chained to the start receipt of the previous register -/
  alone : prev = none → l.reg.last = none ∨ l.reg.last = some []
  cluster : ∀ y, prev = some y → l.reg.last = some (y.toJWS c!"R1") ∧ y.registerId = l.reg.registerId ∧
    y.zda = c!"AT0" ∧ ∀ o, l.orders.head? = some o → o.sys.zda = c!"AT0" ∧ ¬Earlier o.dateTime y.dateTime
  counter : l.reg.counter = 0
  size : 5 ≤ l.reg.size ∧ l.reg.size ≤ 16
  /-- its owner obeyed the rules -/
  rules : RuleAbiding used l.orders
  run : l.reg.run l.orders = (l.reg', some l.receipts)
  /-- the verifier has the keys -/
  key : ∀ k, key = some k → k = l.reg.key ∧ k.length = 32
  signed : ∀ q ∈ l.first :: l.parts, ∀ g ∈ q.groups, g.recs ≠ [] → GroupSigned ks l.orders l.receipts g
  /-- its receipts were exported in order -/
  parts : ∀ q ∈ l.first :: l.parts, q.Good
  receipts : receiptsOf (l.first :: l.parts) = l.receipts.map fun r => (r, c!"R1")
  /-- the DEPs are verified for this register -/
  new : l.first.sel = .fresh
  same : ∀ q ∈ l.parts, q.sel = .last ∨ q.sel = .nth n

/-- The lives of the registers of a cluster, one after the other. -/
inductive Lives (ks : KeyStore) (key : Option Bytes) : Option Receipt → Used → Nat → List Life → Prop
  | nil (prev : Option Receipt) (used : Used) (n : Nat) : Lives ks key prev used n []
  | cons (prev : Option Receipt) (used used' : Used) (n : Nat) (l : Life) (ls : List Life)
      (h : l.Good ks key prev used n) (hu : UsedAfter used (l.receipts.map fun r => (r.toJWS c!"R1", r)) used')
      (hs : Lives ks key l.receipts.head? used' (n + 1) ls) : Lives ks key prev used n (l :: ls)

end

end RKSV
