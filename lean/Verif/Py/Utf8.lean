import Verif.Py.Str
/-
UTF-8: `str.encode('utf-8')` and the strict `bytes.decode('utf-8')` of CPython
(used throughout /repo/librksv, e.g. receipt.py:332-333, 340-341, 410, 441,
depparser.py:345, 361, algorithms.py:162, 167, 169, 207-208).
-/
namespace RKSV

/-- One code point of `str.encode('utf-8')`. -/
def utf8EncChar (c : Char) : Bytes :=
  let n := c.toNat
  if n < 0x80 then [UInt8.ofNat n]
  else if n < 0x800 then [UInt8.ofNat (0xC0 + n / 64), UInt8.ofNat (0x80 + n % 64)]
  else if n < 0x10000 then
    [UInt8.ofNat (0xE0 + n / 4096), UInt8.ofNat (0x80 + n / 64 % 64), UInt8.ofNat (0x80 + n % 64)]
  else
    [UInt8.ofNat (0xF0 + n / 262144), UInt8.ofNat (0x80 + n / 4096 % 64),
     UInt8.ofNat (0x80 + n / 64 % 64), UInt8.ofNat (0x80 + n % 64)]

/-- `s.encode('utf-8')`. -/
def utf8Enc (s : Str) : Bytes := s.flatMap utf8EncChar

/-- A continuation byte `10xxxxxx`: its six payload bits. -/
def contBits (b : UInt8) : Option Nat :=
  if 0x80 ≤ b.toNat ∧ b.toNat < 0xC0 then some (b.toNat - 0x80) else none

/-- A scalar value as a character; `none` for surrogates and values over 0x10FFFF. -/
def scalarOf (n : Nat) : Option Char :=
  if n.isValidChar then some (Char.ofNat n) else none

/-- `b.decode('utf-8')` (strict): `none` stands for `UnicodeDecodeError`.
Overlong forms, surrogates and values beyond 0x10FFFF are rejected. -/
def utf8Dec : Bytes → Option Str
  | [] => some []
  | b :: rest =>
    if b.toNat < 0x80 then
      (scalarOf b.toNat).bind fun c => (utf8Dec rest).map (c :: ·)
    else if b.toNat < 0xC0 then none
    else if b.toNat < 0xE0 then
      match rest with
      | b1 :: r1 =>
        (contBits b1).bind fun x1 =>
          let n := (b.toNat - 0xC0) * 64 + x1
          if n < 0x80 then none
          else (scalarOf n).bind fun c => (utf8Dec r1).map (c :: ·)
      | [] => none
    else if b.toNat < 0xF0 then
      match rest with
      | b1 :: b2 :: r2 =>
        (contBits b1).bind fun x1 => (contBits b2).bind fun x2 =>
          let n := (b.toNat - 0xE0) * 4096 + x1 * 64 + x2
          if n < 0x800 then none
          else (scalarOf n).bind fun c => (utf8Dec r2).map (c :: ·)
      | _ => none
    else if b.toNat < 0xF8 then
      match rest with
      | b1 :: b2 :: b3 :: r3 =>
        (contBits b1).bind fun x1 => (contBits b2).bind fun x2 => (contBits b3).bind fun x3 =>
          let n := (b.toNat - 0xF0) * 262144 + x1 * 4096 + x2 * 64 + x3
          if n < 0x10000 then none
          else (scalarOf n).bind fun c => (utf8Dec r3).map (c :: ·)
      | _ => none
    else none

/-! ### Lemmas -/

theorem scalarOf_toNat (c : Char) : scalarOf c.toNat = some c := by
  unfold scalarOf
  have h : c.toNat.isValidChar := c.valid
  rw [if_pos h]
  simp

theorem scalarOf_eq_some {n : Nat} {c : Char} (h : scalarOf n = some c) : c.toNat = n := by
  unfold scalarOf at h
  split at h
  · rename_i hv
    simp only [Option.some.injEq] at h
    subst h
    simp [Char.ofNat, hv, Char.ofNatAux, Char.toNat, UInt32.toNat]
  · cases h

theorem char_toNat_lt (c : Char) : c.toNat < 0x110000 := by
  have h : c.toNat.isValidChar := c.valid
  rcases h with h | h
  · omega
  · exact h.2

theorem toNat_ofNat_lt {n : Nat} (h : n < 256) : (UInt8.ofNat n).toNat = n := by
  simp [UInt8.toNat_ofNat', Nat.mod_eq_of_lt h]

theorem contBits_ofNat {n : Nat} (h : n < 64) : contBits (UInt8.ofNat (0x80 + n)) = some n := by
  unfold contBits
  rw [toNat_ofNat_lt (by omega)]
  rw [if_pos (by omega)]
  simp

theorem utf8Dec_encChar_append (c : Char) (rest : Bytes) :
    utf8Dec (utf8EncChar c ++ rest) = (utf8Dec rest).map (c :: ·) := by
  have hlt := char_toNat_lt c
  unfold utf8EncChar
  simp only
  split
  · rename_i h
    simp only [List.cons_append, List.nil_append]
    rw [utf8Dec.eq_def]
    simp only
    rw [toNat_ofNat_lt (by omega), if_pos h, scalarOf_toNat]
    rfl
  · split
    · rename_i h1 h
      simp only [List.cons_append, List.nil_append]
      rw [utf8Dec.eq_def]
      simp only
      rw [toNat_ofNat_lt (by omega), if_neg (by omega), if_neg (by omega), if_pos (by omega)]
      rw [contBits_ofNat (by omega)]
      simp only [Option.bind_some]
      have e : (192 + c.toNat / 64 - 192) * 64 + c.toNat % 64 = c.toNat := by omega
      rw [e, if_neg (by omega), scalarOf_toNat]
      rfl
    · split
      · rename_i h2 h1 h
        simp only [List.cons_append, List.nil_append]
        rw [utf8Dec.eq_def]
        simp only
        rw [toNat_ofNat_lt (by omega), if_neg (by omega), if_neg (by omega), if_neg (by omega),
          if_pos (by omega)]
        rw [contBits_ofNat (by omega), contBits_ofNat (by omega)]
        simp only [Option.bind_some]
        have e : (224 + c.toNat / 4096 - 224) * 4096 + c.toNat / 64 % 64 * 64 + c.toNat % 64 = c.toNat := by
          omega
        rw [e, if_neg (by omega), scalarOf_toNat]
        rfl
      · simp only [List.cons_append, List.nil_append]
        rw [utf8Dec.eq_def]
        simp only
        rw [toNat_ofNat_lt (by omega), if_neg (by omega), if_neg (by omega), if_neg (by omega),
          if_neg (by omega), if_pos (by omega)]
        rw [contBits_ofNat (by omega), contBits_ofNat (by omega), contBits_ofNat (by omega)]
        simp only [Option.bind_some]
        have e : (240 + c.toNat / 262144 - 240) * 262144 + c.toNat / 4096 % 64 * 4096
            + c.toNat / 64 % 64 * 64 + c.toNat % 64 = c.toNat := by omega
        rw [e, if_neg (by omega), scalarOf_toNat]
        rfl

theorem utf8Enc_cons (c : Char) (s : Str) : utf8Enc (c :: s) = utf8EncChar c ++ utf8Enc s := by
  simp [utf8Enc]

theorem utf8Enc_append (s t : Str) : utf8Enc (s ++ t) = utf8Enc s ++ utf8Enc t := by
  simp [utf8Enc]

/-- Decoding what was encoded gives the string back. -/
theorem utf8Dec_enc (s : Str) : utf8Dec (utf8Enc s) = some s := by
  induction s with
  | nil => simp [utf8Enc, utf8Dec]
  | cons c cs ih => rw [utf8Enc_cons, utf8Dec_encChar_append, ih]; rfl

theorem utf8Enc_injective {s t : Str} (h : utf8Enc s = utf8Enc t) : s = t := by
  have := congrArg utf8Dec h
  rw [utf8Dec_enc, utf8Dec_enc] at this
  exact Option.some.inj this

theorem contBits_eq_some {b : UInt8} {x : Nat} (h : contBits b = some x) :
    x < 64 ∧ b.toNat = 0x80 + x := by
  unfold contBits at h
  split at h
  · simp only [Option.some.injEq] at h
    omega
  · cases h

theorem ofNat_eq_of_toNat {b : UInt8} {n : Nat} (h : b.toNat = n) : UInt8.ofNat n = b := by
  subst h; simp

/-- Strict decoding accepts exactly the encodings: re-encoding gives the bytes back. -/
theorem utf8Enc_dec {b : Bytes} {s : Str} (h : utf8Dec b = some s) : utf8Enc s = b := by
  fun_induction utf8Dec b generalizing s with
  | case1 => simp at h; subst h; rfl
  | case2 b rest hb ih =>
    simp only [Option.bind_eq_some_iff, Option.map_eq_some_iff] at h
    obtain ⟨c, hc, t, ht, rfl⟩ := h
    have hn := scalarOf_eq_some hc
    rw [utf8Enc_cons, ih ht]
    unfold utf8EncChar
    simp only [hn]
    rw [if_pos hb]
    simp
  | case3 => cases h
  | case4 b _ _ _ b1 r1 ih =>
    simp only [Option.bind_eq_some_iff] at h
    obtain ⟨x1, hx1, h⟩ := h
    split at h
    · cases h
    simp only [Option.bind_eq_some_iff, Option.map_eq_some_iff] at h
    obtain ⟨c, hc, t, ht, rfl⟩ := h
    have hn := scalarOf_eq_some hc
    obtain ⟨l1, e1⟩ := contBits_eq_some hx1
    rw [utf8Enc_cons, ih ht]
    unfold utf8EncChar
    simp only [hn]
    rw [if_neg (by omega), if_pos (by omega)]
    have a0 : b.toNat = 192 + ((b.toNat - 192) * 64 + x1) / 64 := by omega
    have a1 : b1.toNat = 128 + ((b.toNat - 192) * 64 + x1) % 64 := by omega
    rw [ofNat_eq_of_toNat a0, ofNat_eq_of_toNat a1]
    rfl
  | case5 => cases h
  | case6 b _ _ _ _ b1 b2 r2 ih =>
    simp only [Option.bind_eq_some_iff] at h
    obtain ⟨x1, hx1, x2, hx2, h⟩ := h
    split at h
    · cases h
    simp only [Option.bind_eq_some_iff, Option.map_eq_some_iff] at h
    obtain ⟨c, hc, t, ht, rfl⟩ := h
    have hn := scalarOf_eq_some hc
    obtain ⟨l1, e1⟩ := contBits_eq_some hx1
    obtain ⟨l2, e2⟩ := contBits_eq_some hx2
    rw [utf8Enc_cons, ih ht]
    unfold utf8EncChar
    simp only [hn]
    rw [if_neg (by omega), if_neg (by omega), if_pos (by omega)]
    generalize hN : (b.toNat - 224) * 4096 + x1 * 64 + x2 = N at *
    have a0 : b.toNat = 224 + N / 4096 := by omega
    have a1 : b1.toNat = 128 + N / 64 % 64 := by omega
    have a2 : b2.toNat = 128 + N % 64 := by omega
    rw [ofNat_eq_of_toNat a0, ofNat_eq_of_toNat a1, ofNat_eq_of_toNat a2]
    rfl
  | case7 => cases h
  | case8 b _ _ _ _ _ b1 b2 b3 r3 ih =>
    simp only [Option.bind_eq_some_iff] at h
    obtain ⟨x1, hx1, x2, hx2, x3, hx3, h⟩ := h
    split at h
    · cases h
    simp only [Option.bind_eq_some_iff, Option.map_eq_some_iff] at h
    obtain ⟨c, hc, t, ht, rfl⟩ := h
    have hn := scalarOf_eq_some hc
    obtain ⟨l1, e1⟩ := contBits_eq_some hx1
    obtain ⟨l2, e2⟩ := contBits_eq_some hx2
    obtain ⟨l3, e3⟩ := contBits_eq_some hx3
    rw [utf8Enc_cons, ih ht]
    unfold utf8EncChar
    simp only [hn]
    rw [if_neg (by omega), if_neg (by omega), if_neg (by omega)]
    generalize hN : (b.toNat - 240) * 262144 + x1 * 4096 + x2 * 64 + x3 = N at *
    have a0 : b.toNat = 240 + N / 262144 := by omega
    have a1 : b1.toNat = 128 + N / 4096 % 64 := by omega
    have a2 : b2.toNat = 128 + N / 64 % 64 := by omega
    have a3 : b3.toNat = 128 + N % 64 := by omega
    rw [ofNat_eq_of_toNat a0, ofNat_eq_of_toNat a1, ofNat_eq_of_toNat a2, ofNat_eq_of_toNat a3]
    rfl
  | case9 => cases h
  | case10 => cases h

theorem utf8Enc_eq_nil {s : Str} (h : utf8Enc s = []) : s = [] := by
  apply utf8Enc_injective
  rw [h]; rfl

theorem utf8Enc_length_le (s : Str) : s.length ≤ (utf8Enc s).length := by
  induction s with
  | nil => simp
  | cons c cs ih =>
    rw [utf8Enc_cons, List.length_append, List.length_cons]
    have : 1 ≤ (utf8EncChar c).length := by
      unfold utf8EncChar
      simp only
      split
      · simp
      · split
        · simp
        · split <;> simp
    omega

end RKSV
