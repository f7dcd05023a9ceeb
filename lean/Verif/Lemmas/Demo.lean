import Verif.Lemmas.Pem
/-
A concrete environment.  It shows that the laws assumed in `PyEnv` are satisfiable and is used for
the concrete cases beside the property theorems.  The primitives are toys (the hash keeps the last
32 bytes, a signature spells out key and message); only their laws matter.
-/
namespace RKSV

namespace Demo

def pad (n : Nat) (b : Bytes) : Bytes := (b ++ List.replicate n 0).take n

theorem pad_length (n : Nat) (b : Bytes) : (pad n b).length = n := by simp [pad]

/-- Unwrap a PEM text. -/
def unpem (b e s : Str) : Option Bytes :=
  if b ++ ['\n'] <+: s ∧ '\n' :: e <:+ s then
    b64Decode false (removeChar '\n' ((s.drop (b.length + 1)).take
      (s.length - (b.length + 1) - (e.length + 1))))
  else none

theorem unpem_pem (b e : Str) (d : Bytes) :
    unpem b e (b ++ ['\n'] ++ pemLines (b64Encode false d) ++ ['\n'] ++ e) = some d := by
  unfold unpem
  rw [if_pos]
  · have h1 : (b ++ ['\n'] ++ pemLines (b64Encode false d) ++ ['\n'] ++ e).drop (b.length + 1) =
        pemLines (b64Encode false d) ++ ('\n' :: e) := by
      rw [show b.length + 1 = (b ++ ['\n']).length by simp]
      rw [List.append_assoc, List.append_assoc, List.drop_left']
      · simp
      · rfl
    rw [h1]
    have h2 : (b ++ ['\n'] ++ pemLines (b64Encode false d) ++ ['\n'] ++ e).length - (b.length + 1) -
        (e.length + 1) = (pemLines (b64Encode false d)).length := by
      simp only [List.length_append, List.length_cons, List.length_nil]; omega
    rw [h2, List.take_left', removeChar_pemLines, b64Decode_encode]
    · unfold b64Encode
      simp only [List.mem_append, List.mem_replicate, not_or, not_and]
      exact ⟨not_mem_b64Text (not_isB64_nl false), fun _ => by decide⟩
    · rfl
  · constructor
    · rw [List.append_assoc, List.append_assoc]; exact List.prefix_append _ _
    · rw [show b ++ ['\n'] ++ pemLines (b64Encode false d) ++ ['\n'] ++ e =
        (b ++ ['\n'] ++ pemLines (b64Encode false d)) ++ ('\n' :: e) by simp]
      exact List.suffix_append _ _

/-- 63 bytes that determine key and (short) message. -/
def mac (k m : Bytes) : Bytes := pad 63 (k ++ m)

@[instance_reducible] def env : PyEnv where
  digitVal := asciiDigit
  digitVal_lt := by
    intro c n h
    unfold asciiDigit at h
    split at h
    · rename_i hc
      rw [char_le_iff, char_le_iff] at hc
      have e1 : '0'.toNat = 48 := rfl
      have e2 : '9'.toNat = 57 := rfl
      cases h; omega
    · cases h
  digitVal_ascii := fun _ => rfl
  isDigit c := (asciiDigit c).isSome
  isDigit_of_digitVal := by intro c n h; simp [h]
  isDigit_ascii := fun _ => rfl
  isAlnum c := (asciiDigit c).isSome || asciiUpper c || asciiLower c
  isAlnum_ascii := fun _ => rfl
  isSpace := asciiSpace
  isSpace_ascii := fun _ => rfl
  upper c := if asciiLower c then [Char.ofNat (c.toNat - 32)] else [c]
  upper_ascii := fun _ => rfl
  lower s := s.map fun c => if asciiUpper c then Char.ofNat (c.toNat + 32) else c
  lower_ascii := fun _ => rfl
  sha256 b := pad 32 b.reverse
  sha256_length := fun _ => pad_length 32 _
  keystream k iv i := k.getD i 0 + iv.getD i 0 + UInt8.ofNat i
  Cert := Bytes
  PubKey := Bytes
  PrivKey := Bytes
  certDecEq := inferInstance
  serial c := Int.ofNat (bytesToN (c.take 2))
  fingerprint b := pad 32 b.reverse
  publicKey c := c.drop 3
  certSignedBy a b := (a.drop 2).take 1 = (b.drop 3).take 1
  certDER c := c
  keyDER k := k
  loadCert s := unpem beginCert endCert s
  loadPubKey s := unpem beginPubKey endPubKey s
  loadCert_pem c := unpem_pem beginCert endCert c
  loadPubKey_pem c := unpem_pem beginPubKey endPubKey c
  verifySig k m s := s.length = 64 && s.take 63 = mac k m
  pubOf k := k
  sign k r m := mac k m ++ [UInt8.ofNat r]
  sign_length k r m := by simp [mac, pad_length]
  verify_sign k r m := by
    have : (mac k m).length = 63 := pad_length _ _
    simp [this]
  foreignJws _ _ := false
where
  /-- Big-endian value. -/
  bytesToN (b : Bytes) : Nat := b.foldl (fun acc x => acc * 256 + x.toNat) 0

end Demo

end RKSV
