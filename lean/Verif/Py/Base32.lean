import Verif.Py.Base64
/-
Base32 as used by the OCR code format: `base64.b32encode` and `utils.b32decode`
(librksv/utils.py:267-271, a regular expression check followed by `base64.b32decode`).
-/
namespace RKSV

/-- Bytes to 5-bit groups, high bits first (RFC 4648). -/
def enc5 : Bytes → List Nat
  | [] => []
  | [a] => [a.toNat / 8, a.toNat % 8 * 4]
  | [a, b] => [a.toNat / 8, a.toNat % 8 * 4 + b.toNat / 64, b.toNat / 2 % 32, b.toNat % 2 * 16]
  | [a, b, c] =>
    [a.toNat / 8, a.toNat % 8 * 4 + b.toNat / 64, b.toNat / 2 % 32, b.toNat % 2 * 16 + c.toNat / 16,
     c.toNat % 16 * 2]
  | [a, b, c, d] =>
    [a.toNat / 8, a.toNat % 8 * 4 + b.toNat / 64, b.toNat / 2 % 32, b.toNat % 2 * 16 + c.toNat / 16,
     c.toNat % 16 * 2 + d.toNat / 128, d.toNat / 4 % 32, d.toNat % 4 * 8]
  | a :: b :: c :: d :: e :: r =>
    a.toNat / 8 :: (a.toNat % 8 * 4 + b.toNat / 64) :: (b.toNat / 2 % 32)
      :: (b.toNat % 2 * 16 + c.toNat / 16) :: (c.toNat % 16 * 2 + d.toNat / 128)
      :: (d.toNat / 4 % 32) :: (d.toNat % 4 * 8 + e.toNat / 32) :: (e.toNat % 32) :: enc5 r

/-- 5-bit groups to bytes; unused low bits of the last group are ignored, incomplete groups that
cannot end on a byte boundary are an error. -/
def dec5 : List Nat → Option Bytes
  | [] => some []
  | [x, y] => some [UInt8.ofNat (x * 8 + y / 4)]
  | [x, y, z, w] =>
    some [UInt8.ofNat (x * 8 + y / 4), UInt8.ofNat (y % 4 * 64 + z * 2 + w / 16)]
  | [x, y, z, w, v] =>
    some [UInt8.ofNat (x * 8 + y / 4), UInt8.ofNat (y % 4 * 64 + z * 2 + w / 16),
      UInt8.ofNat (w % 16 * 16 + v / 2)]
  | [x, y, z, w, v, u, t] =>
    some [UInt8.ofNat (x * 8 + y / 4), UInt8.ofNat (y % 4 * 64 + z * 2 + w / 16),
      UInt8.ofNat (w % 16 * 16 + v / 2), UInt8.ofNat (v % 2 * 128 + u * 4 + t / 8)]
  | x :: y :: z :: w :: v :: u :: t :: s :: r =>
    (dec5 r).map fun l =>
      UInt8.ofNat (x * 8 + y / 4) :: UInt8.ofNat (y % 4 * 64 + z * 2 + w / 16)
        :: UInt8.ofNat (w % 16 * 16 + v / 2) :: UInt8.ofNat (v % 2 * 128 + u * 4 + t / 8)
        :: UInt8.ofNat (t % 8 * 32 + s) :: l
  | _ => none

def b32Alphabet : List Char :=
  ['A','B','C','D','E','F','G','H','I','J','K','L','M','N','O','P','Q','R','S','T','U','V','W',
   'X','Y','Z','2','3','4','5','6','7']

def b32Char (n : Nat) : Char := b32Alphabet.getD n 'A'

def b32Val (c : Char) : Option Nat :=
  if 'A' ≤ c ∧ c ≤ 'Z' then some (c.toNat - 65)
  else if '2' ≤ c ∧ c ≤ '7' then some (c.toNat - 50 + 26)
  else none

def isB32 (c : Char) : Bool := (b32Val c).isSome

def b32Text (b : Bytes) : Str := (enc5 b).map b32Char

/-- `base64.b32encode`. -/
def b32Encode (b : Bytes) : Str :=
  b32Text b ++ List.replicate ((8 - (enc5 b).length % 8) % 8) '='

/-- `utils.b32decode` (librksv/utils.py:267-271).  The library decoder wants a length divisible by
eight, alphabet characters followed by 0, 1, 3, 4 or 6 padding characters; the two additional
characters and the trailing line feed its pattern lets through are rejected by the library. -/
def b32Decode (s : Str) : Option Bytes :=
  let data := s.takeWhile isB32
  let pad := s.dropWhile isB32
  if s.length % 8 = 0 ∧ pad.all (· == '=') ∧ pad.length ∈ [0, 1, 3, 4, 6] then
    dec5 (data.map fun c => (b32Val c).getD 0)
  else none

theorem dec5_enc5 (b : Bytes) : dec5 (enc5 b) = some b := by
  fun_induction enc5 b with
  | case1 => rfl
  | case2 a =>
    have := a.toNat_lt
    simp only [dec5, Option.some.injEq, List.cons.injEq, and_true]
    exact ofNat_eq_of_toNat (by omega)
  | case3 a b =>
    have := a.toNat_lt; have := b.toNat_lt
    simp only [dec5, Option.some.injEq, List.cons.injEq, and_true]
    exact ⟨ofNat_eq_of_toNat (by omega), ofNat_eq_of_toNat (by omega)⟩
  | case4 a b c =>
    have := a.toNat_lt; have := b.toNat_lt; have := c.toNat_lt
    simp only [dec5, Option.some.injEq, List.cons.injEq, and_true]
    exact ⟨ofNat_eq_of_toNat (by omega), ofNat_eq_of_toNat (by omega), ofNat_eq_of_toNat (by omega)⟩
  | case5 a b c d =>
    have := a.toNat_lt; have := b.toNat_lt; have := c.toNat_lt; have := d.toNat_lt
    simp only [dec5, Option.some.injEq, List.cons.injEq, and_true]
    exact ⟨ofNat_eq_of_toNat (by omega), ofNat_eq_of_toNat (by omega), ofNat_eq_of_toNat (by omega),
      ofNat_eq_of_toNat (by omega)⟩
  | case6 a b c d e r ih =>
    have := a.toNat_lt; have := b.toNat_lt; have := c.toNat_lt; have := d.toNat_lt
    have := e.toNat_lt
    simp only [dec5, ih, Option.map_some, Option.some.injEq, List.cons.injEq, and_true]
    exact ⟨ofNat_eq_of_toNat (by omega), ofNat_eq_of_toNat (by omega), ofNat_eq_of_toNat (by omega),
      ofNat_eq_of_toNat (by omega), ofNat_eq_of_toNat (by omega)⟩

theorem enc5_lt (b : Bytes) : ∀ n ∈ enc5 b, n < 32 := by
  fun_induction enc5 b with
  | case1 => simp
  | case2 a =>
    have := a.toNat_lt
    intro n hn; simp at hn; omega
  | case3 a b =>
    have := a.toNat_lt; have := b.toNat_lt
    intro n hn; simp at hn; omega
  | case4 a b c =>
    have := a.toNat_lt; have := b.toNat_lt; have := c.toNat_lt
    intro n hn; simp at hn; omega
  | case5 a b c d =>
    have := a.toNat_lt; have := b.toNat_lt; have := c.toNat_lt; have := d.toNat_lt
    intro n hn; simp at hn; omega
  | case6 a b c d e r ih =>
    have := a.toNat_lt; have := b.toNat_lt; have := c.toNat_lt; have := d.toNat_lt
    have := e.toNat_lt
    intro n hn
    simp only [List.mem_cons] at hn
    rcases hn with h | h | h | h | h | h | h | h | h
    · omega
    · omega
    · omega
    · omega
    · omega
    · omega
    · omega
    · omega
    · exact ih n h

theorem enc5_length_mod (b : Bytes) :
    (8 - (enc5 b).length % 8) % 8 ∈ [0, 1, 3, 4, 6] := by
  fun_induction enc5 b with
  | case1 => simp
  | case2 a => simp
  | case3 a b => simp
  | case4 a b c => simp
  | case5 a b c d => simp
  | case6 a b c d e r ih =>
    simp only [List.length_cons, List.mem_cons, List.not_mem_nil, or_false] at ih ⊢
    omega

theorem b32Val_char_table (n : Fin 32) : b32Val (b32Char n) = some n.val := by
  revert n; decide

theorem b32Val_char {n : Nat} (h : n < 32) : b32Val (b32Char n) = some n := b32Val_char_table ⟨n, h⟩

theorem not_isB32_eq : isB32 '=' = false := rfl

theorem isB32_of_mem_b32Text {b : Bytes} {c : Char} (h : c ∈ b32Text b) : isB32 c = true := by
  simp only [b32Text, List.mem_map] at h
  obtain ⟨n, hn, rfl⟩ := h
  simp [isB32, b32Val_char (enc5_lt b n hn)]

theorem not_mem_b32Encode {b : Bytes} {c : Char} (h : isB32 c = false) (hne : c ≠ '=') :
    c ∉ b32Encode b := by
  intro hc
  simp only [b32Encode, List.mem_append, List.mem_replicate] at hc
  rcases hc with hc | hc
  · rw [isB32_of_mem_b32Text hc] at h; cases h
  · exact hne hc.2

theorem map_val_b32Text (b : Bytes) : (b32Text b).map (fun c => (b32Val c).getD 0) = enc5 b := by
  simp only [b32Text, List.map_map]
  have : ∀ l : List Nat, (∀ n ∈ l, n < 32) → l.map ((fun c => (b32Val c).getD 0) ∘ b32Char) = l := by
    intro l hl
    induction l with
    | nil => rfl
    | cons x xs ih =>
      simp only [List.map_cons, Function.comp, List.cons.injEq]
      refine ⟨?_, ih (fun n hn => hl n (by simp [hn]))⟩
      rw [b32Val_char (hl x (by simp))]; rfl
  exact this _ (enc5_lt b)

theorem takeWhile_append_replicate_b32 {d : Str} (hd : ∀ c ∈ d, isB32 c = true) (k : Nat) :
    (d ++ List.replicate k '=').takeWhile isB32 = d ∧
    (d ++ List.replicate k '=').dropWhile isB32 = List.replicate k '=' := by
  induction d with
  | nil =>
    cases k with
    | zero => simp
    | succ k => simp [List.replicate_succ, not_isB32_eq]
  | cons x xs ih =>
    have hx := hd x (by simp)
    have := ih (fun c hc => hd c (by simp [hc]))
    simp [hx, this]

theorem b32Decode_encode (b : Bytes) : b32Decode (b32Encode b) = some b := by
  unfold b32Decode b32Encode
  obtain ⟨h1, h2⟩ := takeWhile_append_replicate_b32 (fun c hc => isB32_of_mem_b32Text (b := b) hc)
    ((8 - (enc5 b).length % 8) % 8)
  simp only [h1, h2, map_val_b32Text, dec5_enc5]
  rw [if_pos]
  refine ⟨?_, ?_, ?_⟩
  · simp only [b32Text, List.length_append, List.length_map, List.length_replicate]; omega
  · simp
  · rw [List.length_replicate]; exact enc5_length_mod b

/-- The OCR readers see only characters of the base32 alphabet and `=`. -/
theorem mem_of_b32Decode {s : Str} {b : Bytes} (h : b32Decode s = some b) :
    ∀ c ∈ s, isB32 c = true ∨ c = '=' := by
  unfold b32Decode at h
  simp only at h
  split at h
  · rename_i hp
    intro c hc
    rw [← List.takeWhile_append_dropWhile (p := isB32) (l := s)] at hc
    rcases List.mem_append.mp hc with hc | hc
    · exact Or.inl (List.all_eq_true.mp (List.all_takeWhile) c hc)
    · have := List.all_eq_true.mp hp.2.1 c hc
      right; simpa using this
  · cases h

end RKSV
