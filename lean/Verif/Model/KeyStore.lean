import Verif.Model.Json
import Verif.Model.Receipt
/-
librksv/key_store.py.
-/
namespace RKSV

section
variable [PyEnv]

/-- `numSerialToKeyId` (librksv/key_store.py:180-186). -/
def numSerialToKeyId (serial : Int) : Str := natHex serial.natAbs

/-- `'%x' % int(s, base)` as a list of at most one key ID. -/
def hexIds (base : Nat) (s : Str) : List Str :=
  match pyInt base s with
  | some n => [intHex n]
  | none => []

/-- `strSerialToKeyIds` (librksv/key_store.py:188-213); `serial[0]` raises `IndexError` on the empty
text. -/
def strSerialToKeyIds (s : Str) : Res (List Str) :=
  match s with
  | [] => .error .indexError
  | c :: r =>
    let t := if c = '-' then r else s
    .ok (hexIds 16 t ++ hexIds 10 t)

/-- `KeyTuple` (librksv/key_store.py:249-257); the ID is the dictionary key. -/
structure KeyEntry where
  key : PubKey
  cert : Option Cert

/-- `KeyStore` (librksv/key_store.py:259-278). -/
abbrev KeyStore := Dict KeyEntry

namespace KeyStore

/-- `getKey` (librksv/key_store.py:280-283). -/
def getKey (ks : KeyStore) (id : Str) : Option PubKey := (Dict.get? ks id).map (·.key)

/-- `getCert` (librksv/key_store.py:285-288). -/
def getCert (ks : KeyStore) (id : Str) : Option Cert := (Dict.get? ks id).bind (·.cert)

/-- `putKey` (librksv/key_store.py:290-291). -/
def putKey (ks : KeyStore) (id : Str) (key : PubKey) (cert : Option Cert) : KeyStore :=
  Dict.set ks id ⟨key, cert⟩

/-- `delKey` (librksv/key_store.py:293-296). -/
def delKey (ks : KeyStore) (id : Str) : KeyStore := Dict.del ks id

/-- `putPEMCert` (librksv/key_store.py:298-303). -/
def putPEMCert (ks : KeyStore) (pem : Str) : Res KeyStore := do
  let cert ← orErr (loadCert pem) .valueError
  .ok (Dict.set ks (numSerialToKeyId (serial cert)) ⟨publicKey cert, some cert⟩)

/-- `putPEMKey` (librksv/key_store.py:305-308). -/
def putPEMKey (ks : KeyStore) (id : Str) (pem : Str) : Res KeyStore := do
  let key ← orErr (loadPubKey pem) .valueError
  .ok (Dict.set ks id ⟨key, none⟩)

end KeyStore

/-- `utils.exportCertToPEM` (librksv/utils.py:153-161): PEM without header, footer and line breaks
is the base64 text of the DER encoding. -/
def exportCertToPEM (c : Cert) : Str := b64Encode false (certDER c)

/-- `utils.exportKeyToPEM` (librksv/utils.py:163-172). -/
def exportKeyToPEM (k : PubKey) : Str := b64Encode false (keyDER k)

/-- `parseKeyStoreCert` (librksv/key_store.py:215-230). -/
def parseKeyStoreCert (j : Json) : Res Cert := do
  let s ← orErr j.asStr .malformedCertificate
  orErr (loadCert (addPEMCertHeaders s)) .malformedCertificate

/-- `parseKeyStorePubkey` (librksv/key_store.py:232-247). -/
def parseKeyStorePubkey (j : Json) : Res PubKey := do
  let s ← orErr j.asStr .malformedPublicKey
  orErr (loadPubKey (addPEMPubKeyHeaders s)) .malformedPublicKey

def kMap : Str := c!"certificateOrPublicKeyMap"
def kAES : Str := c!"base64AESKey"
def kId : Str := c!"id"
def kType : Str := c!"signatureDeviceType"
def kPem : Str := c!"signatureCertificateOrPublicKey"
def kCERT : Str := c!"CERTIFICATE"
def kPUB : Str := c!"PUBLIC_KEY"

/-- One entry of `writeStoreToJson` (librksv/key_store.py:383-394). -/
def entryToJson (id : Str) (e : KeyEntry) : Json :=
  match e.cert with
  | some c => .obj [(kId, .str id), (kType, .str kCERT), (kPem, .str (exportCertToPEM c))]
  | none => .obj [(kId, .str id), (kType, .str kPUB), (kPem, .str (exportKeyToPEM e.key))]

/-- `writeStoreToJson` (librksv/key_store.py:373-400). -/
def KeyStore.toJson (ks : KeyStore) (b64Key : Option Str) : Json :=
  let kd := Json.obj (ks.map fun p => (p.1, entryToJson p.1 p.2))
  match b64Key with
  | some k => .obj [(kMap, kd), (kAES, .str k)]
  | none => .obj [(kMap, kd)]

/-- The body of the loop of `readStoreFromJson` (librksv/key_store.py:424-472).  The various
`KeyStoreParseException` subclasses about missing and malformed elements are one error here. -/
def readEntry (ks : KeyStore) (rawId : Str) (value : Json) : Res KeyStore := do
  let d ← orErr value.asObj .malformedKeyStore
  let jId ← orErr (Dict.get? d kId) .malformedKeyStore
  let jType ← orErr (Dict.get? d kType) .malformedKeyStore
  let cp ← orErr (Dict.get? d kPem) .malformedKeyStore
  let innerId ← orErr jId.asStr .malformedKeyStore
  ensure (rawId = innerId) .malformedKeyStore
  let devType ← orErr jType.asStr .malformedKeyStore
  if devType = kCERT then do
    let ids ← strSerialToKeyIds rawId
    match ids with
    | [] => .error .malformedKeyStore
    | keyId :: _ => do
      let cert ← parseKeyStoreCert cp
      .ok (ks.putKey keyId (publicKey cert) (some cert))
  else if devType = kPUB then do
    let key ← parseKeyStorePubkey cp
    .ok (ks.putKey rawId key none)
  else .error .malformedKeyStore

/-- The loop of `readStoreFromJson` (librksv/key_store.py:424-472). -/
def readEntries (ks : KeyStore) : List (Str × Json) → Res KeyStore
  | [] => .ok ks
  | (rawId, value) :: r => do
    let ks ← readEntry ks rawId value
    readEntries ks r

/-- `readStoreFromJson` (librksv/key_store.py:402-474). -/
def readStoreFromJson (j : Json) : Res KeyStore := do
  let root ← orErr j.asObj .malformedKeyStore
  let m ← orErr (Dict.get? root kMap) .malformedKeyStore
  let cpmap ← orErr m.asObj .malformedKeyStore
  readEntries [] cpmap

/-- The pattern of `utils.b64decode` (librksv/utils.py:261): characters of the alphabet, at most three
`=`, and (because `$` is used) possibly a line feed. -/
def b64Matches (url : Bool) (s : Str) : Bool :=
  let pad := (stripNl s).dropWhile (isB64 url)
  pad.all (· == '=') && decide (pad.length ≤ 3)

/-- `utils.loadKeyFromJson` (librksv/utils.py:91-104) with `loadB64Key` (88-89).  The decoder raises
`TypeError` if its pattern does not match and `binascii.Error` (a `ValueError`) if there is not enough
padding (librksv/utils.py:262-265); neither is caught.  `b64Key.encode` raises `AttributeError` for values
other than texts, and indexing a root that is no dictionary with a text raises `TypeError`. -/
def loadKeyFromJson (j : Json) : Res (Option Bytes) :=
  match j with
  | .obj d =>
    match Dict.get? d kAES with
    | none => .ok none
    | some (.str s) =>
      (orErr (b64Decode false s) (if b64Matches false s then .valueError else .typeError)).map some
    | some _ => .error .attributeError
  | _ => .error .typeError

/-! ### The legacy INI format -/

/-- `s.replace(ab, cd)` for texts of two different characters. -/
def replace2 (a b c d : Char) : Str → Str
  | [] => []
  | [x] => [x]
  | x :: y :: r => if x = a ∧ y = b then c :: d :: replace2 a b c d r else x :: replace2 a b c d (y :: r)

/-- librksv/key_store.py:328-330. -/
def iniEscape (id : Str) : Str :=
  replace2 'G' ':' 'g' ';' (replace2 'U' ':' 'u' ';' (replace2 'S' ':' 's' ';' id))

/-- librksv/key_store.py:357-359, 365-367. -/
def iniUnescape (id : Str) : Str :=
  replace2 'g' ';' 'G' ':' (replace2 'u' ';' 'U' ':' (replace2 's' ';' 'S' ':' id))

/-- The two sections of a `ConfigParser` that does not change the case of keys; `none` if the section
does not exist.  Reading and writing of the INI text itself and value interpolation (base64 texts
contain no `%`) are not modelled. -/
structure Ini where
  certs : Option (Dict Str)
  keys : Option (Dict Str)

/-- The loop body of `writeStore` (librksv/key_store.py:327-336). -/
def iniWriteEntry (cfg : Dict Str × Dict Str) (p : Str × KeyEntry) : Dict Str × Dict Str :=
  match p.2.cert with
  | some c => (Dict.set cfg.1 (iniEscape p.1) (exportCertToPEM c), cfg.2)
  | none => (cfg.1, Dict.set cfg.2 (iniEscape p.1) (exportKeyToPEM p.2.key))

/-- `writeStore` (librksv/key_store.py:310-336). -/
def KeyStore.writeIni (ks : KeyStore) (cfg : Ini) : Ini :=
  let r := ks.foldl iniWriteEntry (cfg.certs.getD [], cfg.keys.getD [])
  ⟨some r.1, some r.2⟩

/-- The first loop of `readStore` (librksv/key_store.py:355-362). -/
def iniReadCerts (ks : KeyStore) : List (Str × Str) → Res KeyStore
  | [] => .ok ks
  | (id, v) :: r => do
    let cert ← parseKeyStoreCert (.str v)
    iniReadCerts (ks.putKey (iniUnescape id) (publicKey cert) (some cert)) r

/-- The second loop of `readStore` (librksv/key_store.py:363-369). -/
def iniReadKeys (ks : KeyStore) : List (Str × Str) → Res KeyStore
  | [] => .ok ks
  | (id, v) :: r => do
    let key ← parseKeyStorePubkey (.str v)
    iniReadKeys (ks.putKey (iniUnescape id) key none) r

/-- `readStore` (librksv/key_store.py:338-371). -/
def readIni (cfg : Ini) : Res KeyStore := do
  let ks ← iniReadCerts [] (cfg.certs.getD [])
  iniReadKeys ks (cfg.keys.getD [])

end

end RKSV
