import Verif.Model.VerifyTool
import Verif.Model.RunTestFull
/-
librksv/test/test_verify.py: the test driver, with `LibRKSVVerificationProxy` (librksv/test/verification_proxy.py).
-/
namespace RKSV

/-- `TestVerifyResult` (librksv/test/test_verify.py:48-54). -/
inductive Outcome where
  | ok
  | fail
  | error
deriving DecidableEq, Repr

/-- Is the class of the exception derived from `RKSVVerifyException` (librksv/utils.py:61-62)?  These are the exceptions
of librksv/receipt.py, librksv/verify_receipt.py, librksv/verify.py and librksv/depparser.py, and
`DuplicateReceiptIdException` (librksv/verification_state.py:112). -/
def Err.isVerify : Err → Bool
  | .malformedReceipt => true
  | .unknownAlgorithm => true
  | .algorithmMismatch => true
  | .certSerialInvalid => true
  | .invalidCertificateProvider => true
  | .invalidKey => false
  | .certSerialMismatch => true
  | .noPublicKey => true
  | .invalidSignature => true
  | .signatureSystemFailed => true
  | .invalidURLHash => true
  | .unsignedNullReceipt => true
  | .clusterInOpenSystem => true
  | .chaining => true
  | .noRestoreReceipt => true
  | .invalidTurnoverCounter => true
  | .changingRegisterId => true
  | .decreasingDate => true
  | .changingSystemType => true
  | .noCertificateGiven => true
  | .untrustedCertificate => true
  | .certificateChainBroken => true
  | .certificateSerialCollision => true
  | .signatureSystemFailedOnInitial => true
  | .nonzeroTurnoverOnInitial => true
  | .invalidChainingOnInitial => true
  | .invalidChainingOnClusterInitial => true
  | .nonstandardTypeOnInitial => true
  | .invalidCashRegisterIndex => false
  | .noStartReceiptForLastCashRegister => false
  | .malformedState => false
  | .duplicateReceiptId => true
  | .malformedKeyStore => false
  | .malformedCertificate => false
  | .malformedPublicKey => false
  | .malformedDEP => true
  | .malformedDEPCertificate => true
  | .overflowError => false
  | .valueError => false
  | .typeError => false
  | .indexError => false
  | .attributeError => false
  | .keyError => false
  | .unicodeError => false
  | .plainException => false

/-- The chunk sizes the parsers are compared for (librksv/test/test_verify.py:170-173). -/
def compareSizes (nrecs randCs : Nat) : List Nat :=
  if nrecs < 10 then (List.range nrecs).map (· + 1) ++ [nrecs * 2] else [1, randCs, nrecs, nrecs * 2]

/-- Does `if expectedTurnover:` hold for an element of a DEP (librksv/test/test_verify.py:223)? -/
def Json.isTrue : Json → Bool
  | .null => false
  | .bool b => b
  | .int n => n ≠ 0
  | .float x => !x.isZero
  | .str s => !s.isEmpty
  | .arr l => !l.isEmpty
  | .obj d => !d.isEmpty

/-- `int(round(expectedTurnover * 100))` (librksv/test/test_verify.py:225).  A text or a list can be multiplied, but not
rounded; a dictionary cannot be multiplied. -/
def Json.cents : Json → Res Int
  | .bool b => .ok (if b then 100 else 0)
  | .int n => .ok (n * 100)
  | .float x =>
    match x.mul100.intRound with
    | .ok n => .ok n
    | .error .overflow => .error .overflowError
    | .error .nan => .error .valueError
  | _ => .error .typeError

section
variable [PyEnv]

/-- `==` of the tuples the parsers yield. -/
instance : DecidableEq DepGroup := fun a b =>
  decidable_of_iff (a.recs = b.recs ∧ a.cert = b.cert ∧ a.chain = b.chain) (by
    cases a; cases b; simp)

/-- The loop over `zip(dictParser.parse(i), parser.parse(i))` (librksv/test/test_verify.py:176-179): are all chunks the
same?  `zip` asks the first generator first, and stops as soon as one of them ends. -/
def sameChunks (ea eb : Option Err) : List Chunk → List Chunk → Res Bool
  | [], _ =>
    match ea with
    | some e => .error e
    | none => .ok true
  | _ :: _, [] =>
    match eb with
    | some e => .error e
    | none => .ok true
  | a :: as, b :: bs => if a = b then sameChunks ea eb as bs else .ok false

/-- The loop over the chunk sizes (librksv/test/test_verify.py:174-179). -/
def sameParts (dep : Json) : List Nat → Res Bool
  | [] => .ok true
  | n :: l => do
    let b ← sameChunks (dictParse 1 dep n).err (fileParse dep n).err (dictParse 1 dep n).chunks (fileParse dep n).chunks
    if b then sameParts dep l else .ok false

/-- The receipt IDs of a group (librksv/test/test_verify.py:165-168). -/
def followIds (used : Used) : List Bytes → Res Used
  | [] => .ok used
  | b :: l => do
    let t ← expandReceipt b
    let (r, _) ← fromJWS t
    followIds (used.add r.receiptId) l

/-- The state of the register and the used IDs after the groups, without verification
(librksv/test/test_verify.py:163-168). -/
def followGroups (key : Option Bytes) (s : RegState) (used : Used) : List DepGroup → Res (RegState × Used)
  | [] => .ok (s, used)
  | g :: gs => do
    let s ← s.fromGroup g.recs key
    let used ← followIds used g.recs
    followGroups key s used gs

/-- `totalRecsInDictDEP(dep)` (librksv/depparser.py:555-569). -/
def depRecs (dep : Json) : Nat :=
  match dep.asObj with
  | none => 0
  | some root =>
    match Dict.get? root kGroups with
    | some (.arr js) => totalRecs js
    | _ => 0

/-- How the driver verifies with parsers: the `pool` and `nprocs` of the proxy, and the numbers drawn for the DEPs. -/
structure Driver where
  workers : Workers
  nprocs : Int
  draw : Nat → Nat

/-- A DEP, verified without parsing it first (librksv/test/test_verify.py:188-221): the state afterwards.  `none` stands for
returning `FAIL`. -/
def testPlain (ks : KeyStore) (key : Option Bytes) (_k : Nat) (c : Cluster) (idx : Nat) (dep : Json) : Res (Option Cluster) :=
  match verifyDEP ks key c (some (idx : Int)) (dictParse 1 dep 0) with
  | (_, .error e) => .error e
  | (c, .ok ()) => .ok (some c)

/-- DEP number `k`, verified from a file and compared with the results of the parsers
(librksv/test/test_verify.py:143-187; librksv/test/verification_proxy.py:42-80).  The random number is arbitrary here;
`random.randint(0, -1)` raises `ValueError`.  The file has what `json.dump` wrote;
numbers that are infinite or no numbers are not taken into account. -/
def testParsed (d : Driver) (ks : KeyStore) (key : Option Bytes) (k : Nat) (c : Cluster) (idx : Nat) (dep : Json) :
    Res (Option Cluster) :=
  match c.getInfo (some (idx : Int)) with
  | (_, .error e) => .error e
  | (c, .ok (_, old, ids)) => do
    ensure (depRecs dep ≠ 0) .valueError
    match verifyParsedDEP d.workers d.nprocs ks key c (some (idx : Int)) (fileParse dep (max 2 (d.draw k))) with
    | (_, .error e) => .error e
    | (c, .ok ()) => do
      let (old, ids) ← followGroups key old ids (fileParse dep 0).chunks.flatten
      match (fileParse dep 0).err with
      | some e => .error e
      | none => do
        let same ← sameParts dep (compareSizes (depRecs dep) (max 2 (d.draw k)))
        if same then
          match c.getInfo (some (idx : Int)) with
          | (_, .error e) => .error e
          | (c, .ok (_, new, ids')) => if old = new ∧ ids = ids' then .ok (some c) else .ok none
        else .ok none

/-- The turnover given in the DEP (librksv/test/test_verify.py:138, 223-230). -/
def checkTurnover (c : Cluster) (idx : Nat) (dep : Json) : Res (Option Cluster) := do
  let d ← orErr dep.asObj .attributeError
  match Dict.get? d kTurnover with
  | none => .ok (some c)
  | some x =>
    if x.isTrue then
      match c.getInfo (some (idx : Int)) with
      | (_, .error e) => .error e
      | (c, .ok (_, s, _)) => do
        let n ← x.cents
        if n = s.counter then .ok (some c) else .ok none
    else .ok (some c)

/-- The loop over the DEPs (librksv/test/test_verify.py:123-230); `verify k c idx dep` verifies DEP number `k`. -/
def testDeps (verify : Nat → Cluster → Nat → Json → Res (Option Cluster)) (seen : List Nat) (n : Nat) (c : Cluster) :
    List Json → Res (Option Cluster)
  | [] => .ok (some c)
  | dep :: l => do
    let (seen', n') ← registerIdx seen n dep
    let idx ← orErr seen'.getLast? .indexError
    match ← verify seen.length c idx dep with
    | none => .ok none
    | some c => do
      match ← checkTurnover c idx dep with
      | none => .ok none
      | some c => testDeps verify seen' n' c l

/-- `_testVerify` (librksv/test/test_verify.py:79-272).  `expected` says for which exceptions the name given with
`expectedException` is that of the class or of a base class; it is `none` if the element is missing.  Other
expectations (`exceptionReceipt`, `exceptionMsg`, `exceptionMsgRegex`) are not modelled. -/
def testOnce (backend : Used) (verify : KeyStore → Option Bytes → Nat → Cluster → Nat → Json → Res (Option Cluster))
    (aesKey : Str) (expected : Option (Err → Bool)) (deps : List Json) (cc : Json) : Outcome :=
  let run : Res (Option Cluster) := do
    let key ← loadB64Key aesKey
    let ks ← readStoreFromJson cc
    testDeps (verify ks (some key)) [] 0 ⟨[], backend⟩ deps
  match run with
  | .ok none => .fail
  | .ok (some _) => if expected.isSome then .fail else .ok
  | .error e =>
    if e.isVerify then
      match expected with
      | none => .fail
      | some p => if p e then .ok else .fail
    else .error

/-- `testVerify` (librksv/test/test_verify.py:274-313).  If the results are the same but the messages are not, the result
is the one reported in any case. -/
def testVerify (backend : Used) (d : Driver) (spec : TestSpec) (keys : List TestKey) (closed : Bool)
    (expected : Option (Err → Bool)) : Outcome :=
  match runTestFull spec keys closed none with
  | .error _ => .error
  | .ok (deps, cc) =>
    let rN := testOnce backend testPlain spec.aesKey expected deps cc
    let rP := testOnce backend (testParsed d) spec.aesKey expected deps cc
    if rN = rP then rN
    else if rN = .error ∨ rP = .error then .error
    else .fail

end

end RKSV
