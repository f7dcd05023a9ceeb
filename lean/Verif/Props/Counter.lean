import Verif.Props.Receipt
/-
Properties C15, C16: encryption of the turnover counter.
-/
namespace RKSV

section
variable [PyEnv]

theorem aesCtr_length (iv key d : Bytes) : (aesCtr iv key d).length = d.length := by
  simp [aesCtr]

omit [PyEnv] in
theorem uint8_xor_cancel (a b : UInt8) : a ^^^ b ^^^ b = a := by
  rw [UInt8.xor_assoc, UInt8.xor_self, UInt8.xor_zero]

theorem aesCtr_aesCtr (iv key d : Bytes) : aesCtr iv key (aesCtr iv key d) = d := by
  apply List.ext_getElem
  · simp [aesCtr_length]
  · intro i h1 h2
    simp only [aesCtr, List.getElem_map, List.getElem_zipIdx]
    simp [uint8_xor_cancel]

/-- C15: encryption succeeds exactly for the values representable in `size` bytes (two's complement);
the result has `size` bytes and decrypts to the value. -/
theorem counter_round_trip (registerId receiptId : Str) (v : Int) (key : Bytes) (size : Nat)
    (hs : 0 < size) (hv : -(2 ^ (8 * size - 1) : Int) ≤ v ∧ v < 2 ^ (8 * size - 1)) :
    ∃ c, encryptCounter registerId receiptId v key size = .ok c ∧ c.length = size ∧
      decryptCounter registerId receiptId c key = v := by
  obtain ⟨pt, hpt⟩ := Option.isSome_iff_exists.mp ((toBytesSigned_isSome hs.ne').mpr hv)
  obtain ⟨h1, h2⟩ := fromBytes_toBytes hpt
  refine ⟨aesCtr (counterIV registerId receiptId) key pt, ?_, ?_, ?_⟩
  · simp [encryptCounter, hpt, orErr, Res.ok_bind]
  · rw [aesCtr_length, h2]
  · rw [decryptCounter, aesCtr_aesCtr, h1]

/-- The value of bytes in two's complement is that of the bytes up to multiples of `256 ^ length`. -/
theorem fromBytesSigned_mod (b : Bytes) :
    fromBytesSigned b % ((256 ^ b.length : Nat) : Int) = (bytesToNat b : Int) % ((256 ^ b.length : Nat) : Int) := by
  unfold fromBytesSigned
  simp only
  split
  · rw [Int.sub_emod, Int.emod_self, Int.sub_zero, Int.emod_emod]
  · rfl

/-- What `aesCtr` does to each byte. -/
theorem aesCtr_getElem? (iv key d : Bytes) (i : Nat) : (aesCtr iv key d)[i]? = d[i]?.map (· ^^^ keystream key iv i) := by
  simp only [aesCtr, List.getElem?_map, List.getElem?_zipIdx, Option.map_map, Nat.zero_add]
  rfl

/-- C15: what other programs need to know to decrypt a counter.  The plain text is the counter in `size` bytes, the most
significant first, and byte `i` of it is encrypted with byte `i` of the key stream; the IV is the beginning of the hash of
the IDs of register and receipt. -/
theorem counter_bytes {registerId receiptId : Str} {v : Int} {key c : Bytes} {size : Nat}
    (h : encryptCounter registerId receiptId v key size = .ok c) :
    ∃ pt : Bytes, pt.length = size ∧ (bytesToNat pt : Int) % ((256 ^ size : Nat) : Int) = v % ((256 ^ size : Nat) : Int) ∧
      ∀ i, c[i]? = pt[i]?.map (· ^^^ keystream key ((sha256 (utf8Enc (registerId ++ receiptId))).take 16) i) := by
  simp only [encryptCounter, Res.bind_eq_ok, orErr_eq_ok, Except.ok.injEq] at h
  obtain ⟨pt, hpt, rfl⟩ := h
  obtain ⟨h1, h2⟩ := fromBytes_toBytes hpt
  refine ⟨pt, h2, ?_, fun i => ?_⟩
  · rw [← h1, ← h2, fromBytesSigned_mod]
  · rw [aesCtr_getElem?, counterIV, utf8Enc_append]

/-- C15: and what is decrypted from bytes other programs have encrypted like this. -/
theorem counter_from_bytes (registerId receiptId : Str) (key c : Bytes) :
    ∃ pt : Bytes, pt.length = c.length ∧
      (∀ i, pt[i]? = c[i]?.map (· ^^^ keystream key ((sha256 (utf8Enc (registerId ++ receiptId))).take 16) i)) ∧
      decryptCounter registerId receiptId c key % ((256 ^ c.length : Nat) : Int) =
        (bytesToNat pt : Int) % ((256 ^ c.length : Nat) : Int) := by
  refine ⟨aesCtr (counterIV registerId receiptId) key c, aesCtr_length _ _ _, fun i => ?_, ?_⟩
  · rw [aesCtr_getElem?, counterIV, utf8Enc_append]
  · have := fromBytesSigned_mod (aesCtr (counterIV registerId receiptId) key c)
    rwa [aesCtr_length] at this

/-- C15: any other value raises an error instead of wrapping around. -/
theorem counter_overflow (registerId receiptId : Str) (v : Int) (key : Bytes) (size : Nat)
    (hs : 0 < size) (hv : v < -(2 ^ (8 * size - 1) : Int) ∨ (2 ^ (8 * size - 1) : Int) ≤ v) :
    encryptCounter registerId receiptId v key size = .error .overflowError := by
  have : toBytesSigned size v = none := by
    rw [← Option.not_isSome_iff_eq_none, toBytesSigned_isSome hs.ne']
    omega
  simp [encryptCounter, this, orErr]

/-- C15 on receipts: the counter of a receipt carrying the base64 text of an encrypted counter of 5
to 16 bytes decrypts to the value that was encrypted. -/
theorem receipt_counter_decrypts {r : Fields} {v : Int} {key : Bytes} {size : Nat} {c : Bytes}
    (h5 : 5 ≤ size) (hk : key.length = 32)
    (he : encryptCounter r.registerId r.receiptId v key size = .ok c)
    (hc : r.encTurnoverCounter = b64Encode false c) :
    r.decryptTurnoverCounter key = .ok v := by
  have hv : -(2 ^ (8 * size - 1) : Int) ≤ v ∧ v < 2 ^ (8 * size - 1) := by
    by_contra hcon
    rw [counter_overflow _ _ _ _ _ (by omega) (by omega)] at he
    cases he
  obtain ⟨c', h1, h2, h3⟩ := counter_round_trip r.registerId r.receiptId v key size (by omega) hv
  rw [he] at h1
  cases h1
  have hd : b64Decode false r.encTurnoverCounter = some c := by rw [hc, b64Decode_encode]
  obtain ⟨n1, n2⟩ := (kinds_disjoint r).2 c hd (by omega)
  simp [Fields.decryptTurnoverCounter, n1, n2, ensure, raiseForKey, hk, hd, orErr, Res.ok_bind, h3]

/-- C15: decryption needs a key of 32 bytes; dummy receipts and reversals have no counter. -/
theorem receipt_counter_errors (r : Fields) (key : Bytes) {b : Bytes}
    (hb : b64Decode false r.encTurnoverCounter = some b) :
    (b = utf8Enc c!"TRA" ∨ b = utf8Enc c!"STO" → r.decryptTurnoverCounter key = .error .plainException) ∧
    (b ≠ utf8Enc c!"TRA" → b ≠ utf8Enc c!"STO" → key.length ≠ 32 →
      r.decryptTurnoverCounter key = .error .invalidKey) := by
  have e1 : bTRA = utf8Enc c!"TRA" := by decide
  have e2 : bSTO = utf8Enc c!"STO" := by decide
  constructor
  · rintro (rfl | rfl)
    · have : r.isDummy = true := by simp [Fields.isDummy, hb, e1]
      simp [Fields.decryptTurnoverCounter, this, ensure, Res.error_bind]
    · have h1 : r.isReversal = true := by simp [Fields.isReversal, hb, e2]
      have h2 : r.isDummy = false := by
        by_contra h
        exact (kinds_disjoint r).1 ⟨by simpa using h, h1⟩
      simp [Fields.decryptTurnoverCounter, h1, h2, ensure, Res.ok_bind, Res.error_bind]
  · intro h1 h2 hk
    have h1 : r.isDummy = false := by simp [Fields.isDummy, hb, e1, h1]
    have h2 : r.isReversal = false := by simp [Fields.isReversal, hb, e2, h2]
    simp [Fields.decryptTurnoverCounter, h1, h2, ensure, raiseForKey, hk, Res.ok_bind, Res.error_bind]

/-- C15: with a wrong key no error is raised; the number read is just within the range of the
counter's size. -/
theorem decrypted_in_range (r : Fields) (key : Bytes) {b : Bytes} {v : Int}
    (hb : b64Decode false r.encTurnoverCounter = some b) (hne : b ≠ [])
    (h : r.decryptTurnoverCounter key = .ok v) :
    -(2 ^ (8 * b.length - 1) : Int) ≤ v ∧ v < 2 ^ (8 * b.length - 1) := by
  simp only [Fields.decryptTurnoverCounter, Res.bind_eq_ok, ensure_eq_ok, hb, orErr_eq_ok] at h
  obtain ⟨_, _, _, _, _, _, _, h1, h2⟩ := h
  cases h1; cases h2
  have := fromBytesSigned_range (aesCtr (counterIV r.registerId r.receiptId) key b)
    (by intro h0; apply hne; have := congrArg List.length h0; rw [aesCtr_length] at this; simpa using this)
  rwa [aesCtr_length] at this

/-! ### C16 -/

/-- C16: if two receipts' register and receipt IDs concatenate to the same text, the two-time pad
problem arises: the XOR of the ciphertexts is the XOR of the counters. -/
theorem keystream_reuse {reg rec reg' rec' : Str} (h : reg ++ rec = reg' ++ rec') {v v' : Int}
    {key : Bytes} {size : Nat} {c c' : Bytes}
    (hc : encryptCounter reg rec v key size = .ok c)
    (hc' : encryptCounter reg' rec' v' key size = .ok c') :
    ∃ b b', toBytesSigned size v = some b ∧ toBytesSigned size v' = some b' ∧
      List.zipWith (· ^^^ ·) c c' = List.zipWith (· ^^^ ·) b b' := by
  simp only [encryptCounter, Res.bind_eq_ok, orErr_eq_ok] at hc hc'
  obtain ⟨b, hb, e⟩ := hc
  obtain ⟨b', hb', e'⟩ := hc'
  cases e; cases e'
  refine ⟨b, b', hb, hb', ?_⟩
  have hiv : counterIV reg rec = counterIV reg' rec' := by
    unfold counterIV
    rw [← utf8Enc_append, ← utf8Enc_append, h]
  rw [hiv]
  apply List.ext_getElem
  · simp [aesCtr_length]
  · intro i h1 h2
    simp only [aesCtr, List.getElem_zipWith, List.getElem_map, List.getElem_zipIdx]
    generalize keystream key (counterIV reg' rec') (0 + i) = k
    generalize b[i]'_ = x, b'[i]'_ = y
    rw [UInt8.xor_comm y k, ← UInt8.xor_assoc, uint8_xor_cancel]

/-- C16: in particular equal counters are encrypted to equal texts. -/
theorem equal_counters_visible {reg rec reg' rec' : Str} (h : reg ++ rec = reg' ++ rec') (v : Int)
    (key : Bytes) (size : Nat) :
    encryptCounter reg rec v key size = encryptCounter reg' rec' v key size := by
  have hiv : counterIV reg rec = counterIV reg' rec' := by
    unfold counterIV
    rw [← utf8Enc_append, ← utf8Enc_append, h]
  unfold encryptCounter
  rw [hiv]

/-- C16: within one register, two different receipt IDs get the same IV only if the truncated hash
collides on the two (different) concatenations. -/
theorem iv_reuse_is_collision {reg rec rec' : Str} (hne : rec ≠ rec')
    (h : counterIV reg rec = counterIV reg rec') :
    utf8Enc (reg ++ rec) ≠ utf8Enc (reg ++ rec') ∧
      (sha256 (utf8Enc (reg ++ rec))).take 16 = (sha256 (utf8Enc (reg ++ rec'))).take 16 := by
  constructor
  · intro e
    exact hne (List.append_cancel_left (utf8Enc_injective e))
  · simpa [counterIV, utf8Enc_append] using h

end

namespace Demo
attribute [local instance] env

/-- Different registers and receipts with the same concatenation. -/
example : c!"reg1" ++ c!"1" = c!"reg" ++ c!"11" ∧
    ∃ c c', encryptCounter c!"reg1" c!"1" 100 (List.replicate 32 7) 8 = .ok c ∧
      encryptCounter c!"reg" c!"11" (-3) (List.replicate 32 7) 8 = .ok c' :=
  ⟨rfl, _, _, rfl, rfl⟩

/-- A receipt meeting the hypotheses of `receipt_counter_decrypts`. -/
example : ∃ (c : Bytes) (r : Fields), encryptCounter c!"reg" c!"rec 1" 12345 (List.replicate 32 7) 5 = .ok c ∧
    r.registerId = c!"reg" ∧ r.receiptId = c!"rec 1" ∧ r.encTurnoverCounter = b64Encode false c ∧
    r.decryptTurnoverCounter (List.replicate 32 7) = .ok 12345 :=
  ⟨_, { fields with encTurnoverCounter := b64Encode false _ }, rfl, rfl, rfl, rfl, by decide +kernel⟩

end Demo

end RKSV
