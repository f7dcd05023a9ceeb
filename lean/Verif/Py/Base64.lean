import Verif.Py.Utf8
/-
Base64 as used by the code: `base64.b64encode`, `base64.urlsafe_b64encode`, and
the decoders `utils.b64decode` / `utils.urlsafe_b64decode` (a regular expression
check followed by CPython's lenient `binascii.a2b_base64`).
-/
namespace RKSV

/-! ### Sextets -/

/-- Bytes to 6-bit groups, high bits first (RFC 4648). -/
def enc6 : Bytes → List Nat
  | [] => []
  | [a] => [a.toNat / 4, a.toNat % 4 * 16]
  | [a, b] => [a.toNat / 4, a.toNat % 4 * 16 + b.toNat / 16, b.toNat % 16 * 4]
  | a :: b :: c :: r =>
    a.toNat / 4 :: (a.toNat % 4 * 16 + b.toNat / 16) :: (b.toNat % 16 * 4 + c.toNat / 64)
      :: (c.toNat % 64) :: enc6 r

/-- 6-bit groups to bytes the way `binascii.a2b_base64` does it: unused low bits of the last
group are ignored, a single left over group is an error. -/
def dec6 : List Nat → Option Bytes
  | [] => some []
  | [_] => none
  | [x, y] => some [UInt8.ofNat (x * 4 + y / 16)]
  | [x, y, z] => some [UInt8.ofNat (x * 4 + y / 16), UInt8.ofNat (y % 16 * 16 + z / 4)]
  | x :: y :: z :: w :: r =>
    (dec6 r).map fun t =>
      UInt8.ofNat (x * 4 + y / 16) :: UInt8.ofNat (y % 16 * 16 + z / 4)
        :: UInt8.ofNat (z % 4 * 64 + w) :: t

/-- The base64 alphabet; `url = true` for the URL and filename safe variant. -/
def b64Alphabet (url : Bool) : List Char :=
  ['A','B','C','D','E','F','G','H','I','J','K','L','M','N','O','P','Q','R','S','T','U','V','W',
   'X','Y','Z','a','b','c','d','e','f','g','h','i','j','k','l','m','n','o','p','q','r','s','t',
   'u','v','w','x','y','z','0','1','2','3','4','5','6','7','8','9',
   bif url then '-' else '+', bif url then '_' else '/']

def b64Char (url : Bool) (n : Nat) : Char := (b64Alphabet url).getD n 'A'

/-- Value of an alphabet character, `none` if the character is not in the alphabet. -/
def b64Val (url : Bool) (c : Char) : Option Nat :=
  if 'A' ≤ c ∧ c ≤ 'Z' then some (c.toNat - 65)
  else if 'a' ≤ c ∧ c ≤ 'z' then some (c.toNat - 97 + 26)
  else if '0' ≤ c ∧ c ≤ '9' then some (c.toNat - 48 + 52)
  else if c = bif url then '-' else '+' then some 62
  else if c = bif url then '_' else '/' then some 63
  else none

/-- Character class of the regular expressions at librksv/utils.py:255 and 261. -/
def isB64 (url : Bool) (c : Char) : Bool := (b64Val url c).isSome

/-- Unpadded text: `base64.[urlsafe_]b64encode(b).replace(b'=', b'')`. -/
def b64Text (url : Bool) (b : Bytes) : Str := (enc6 b).map (b64Char url)

/-- `base64.b64encode` (`url = false`) and `base64.urlsafe_b64encode` (`url = true`). -/
def b64Encode (url : Bool) (b : Bytes) : Str :=
  b64Text url b ++ List.replicate ((3 - b.length % 3) % 3) '='

/-- A `$` at the end of a Python pattern also matches before one trailing line feed. -/
def stripNl (s : Str) : Str := if s.getLast? = some '\n' then s.dropLast else s

/-- `utils.b64decode` (`url = false`, librksv/utils.py:261-265) and
`utils.urlsafe_b64decode` (`url = true`, librksv/utils.py:255-259) on the UTF-8 bytes of `s`:
the pattern `^[alphabet]*={0,3}$`, then CPython's non-strict decoder.  On texts matching the
pattern that decoder ignores the line feed, needs enough padding for the number of data
characters and ignores surplus padding after complete groups of four.
`none` stands for the `TypeError`/`binascii.Error` raised (always caught together). -/
def b64Decode (url : Bool) (s : Str) : Option Bytes :=
  let t := stripNl s
  let data := t.takeWhile (isB64 url)
  let pad := t.dropWhile (isB64 url)
  if pad.all (· == '=') ∧ pad.length ≤ 3 then
    let need := (4 - data.length % 4) % 4
    if need ≤ pad.length then dec6 (data.map fun c => (b64Val url c).getD 0) else none
  else none

/-- `utils.restoreb64padding` (librksv/utils.py:243-252). -/
def restorePad (s : Str) : Str :=
  let needed := 4 - s.length % 4
  if needed < 4 then s ++ List.replicate needed '=' else s

/-! ### Lemmas: sextets -/

theorem dec6_enc6 (b : Bytes) : dec6 (enc6 b) = some b := by
  fun_induction enc6 b with
  | case1 => rfl
  | case2 a =>
    have := a.toNat_lt
    simp only [dec6, Option.some.injEq, List.cons.injEq, and_true]
    exact ofNat_eq_of_toNat (by omega)
  | case3 a b =>
    have := a.toNat_lt; have := b.toNat_lt
    simp only [dec6, Option.some.injEq, List.cons.injEq, and_true]
    exact ⟨ofNat_eq_of_toNat (by omega), ofNat_eq_of_toNat (by omega)⟩
  | case4 a b c r ih =>
    have := a.toNat_lt; have := b.toNat_lt; have := c.toNat_lt
    simp only [dec6, ih, Option.map_some, Option.some.injEq, List.cons.injEq, and_true]
    exact ⟨ofNat_eq_of_toNat (by omega), ofNat_eq_of_toNat (by omega), ofNat_eq_of_toNat (by omega)⟩

theorem enc6_lt (b : Bytes) : ∀ n ∈ enc6 b, n < 64 := by
  fun_induction enc6 b with
  | case1 => simp
  | case2 a =>
    have := a.toNat_lt
    intro n hn; simp at hn; omega
  | case3 a b =>
    have := a.toNat_lt; have := b.toNat_lt
    intro n hn; simp at hn; omega
  | case4 a b c r ih =>
    have := a.toNat_lt; have := b.toNat_lt; have := c.toNat_lt
    intro n hn
    simp only [List.mem_cons] at hn
    rcases hn with h | h | h | h | h
    · omega
    · omega
    · omega
    · omega
    · exact ih n h

theorem enc6_length (b : Bytes) :
    (enc6 b).length = b.length / 3 * 4 + (if b.length % 3 = 0 then 0 else b.length % 3 + 1) := by
  fun_induction enc6 b with
  | case1 => rfl
  | case2 a => simp
  | case3 a b => simp
  | case4 a b c r ih =>
    simp only [List.length_cons, ih]
    have h1 : (r.length + 1 + 1 + 1) / 3 = r.length / 3 + 1 := by omega
    have h2 : (r.length + 1 + 1 + 1) % 3 = r.length % 3 := by omega
    rw [h1, h2]
    omega

theorem dec6_length {l : List Nat} {b : Bytes} (h : dec6 l = some b) :
    b.length = l.length / 4 * 3 + (l.length % 4 - 1) ∧ l.length % 4 ≠ 1 := by
  fun_induction dec6 l generalizing b with
  | case1 => simp at h; subst h; simp
  | case2 => cases h
  | case3 => simp at h; subst h; simp
  | case4 => simp at h; subst h; simp
  | case5 x y z w r ih =>
    simp only [Option.map_eq_some_iff] at h
    obtain ⟨t, ht, rfl⟩ := h
    have := ih ht
    simp only [List.length_cons]
    omega

/-! ### Lemmas: alphabet -/

theorem b64Val_char_table (url : Bool) (n : Fin 64) : b64Val url (b64Char url n) = some n.val := by
  revert n; cases url <;> decide

theorem b64Val_char {url : Bool} {n : Nat} (h : n < 64) : b64Val url (b64Char url n) = some n :=
  b64Val_char_table url ⟨n, h⟩

theorem isB64_char {url : Bool} {n : Nat} (h : n < 64) : isB64 url (b64Char url n) = true := by
  simp [isB64, b64Val_char h]

theorem char_le_iff (a b : Char) : a ≤ b ↔ a.toNat ≤ b.toNat := by
  rw [Char.le_def, UInt32.le_iff_toNat_le]; rfl

theorem char_eq_ofNat {c : Char} {n : Nat} (h : c.toNat = n) : c = Char.ofNat n := by
  subst h; simp

theorem b64Val_lt {url : Bool} {c : Char} {n : Nat} (h : b64Val url c = some n) : n < 64 := by
  unfold b64Val at h
  simp only [char_le_iff] at h
  have e1 : 'A'.toNat = 65 := rfl
  have e2 : 'Z'.toNat = 90 := rfl
  have e3 : 'a'.toNat = 97 := rfl
  have e4 : 'z'.toNat = 122 := rfl
  have e5 : '0'.toNat = 48 := rfl
  have e6 : '9'.toNat = 57 := rfl
  rw [e1, e2, e3, e4, e5, e6] at h
  split at h
  · simp at h; omega
  split at h
  · simp at h; omega
  split at h
  · simp at h; omega
  split at h
  · simp at h; omega
  split at h
  · simp at h; omega
  · cases h

theorem b64Char_ofNat_table (url : Bool) :
    (∀ n : Fin 26, b64Char url n = Char.ofNat (n + 65)) ∧
    (∀ n : Fin 26, b64Char url (n + 26) = Char.ofNat (n + 97)) ∧
    (∀ n : Fin 10, b64Char url (n + 52) = Char.ofNat (n + 48)) := by
  cases url <;> decide

theorem b64Char_val {url : Bool} {c : Char} {n : Nat} (h : b64Val url c = some n) :
    b64Char url n = c := by
  unfold b64Val at h
  simp only [char_le_iff] at h
  have e1 : 'A'.toNat = 65 := rfl
  have e2 : 'Z'.toNat = 90 := rfl
  have e3 : 'a'.toNat = 97 := rfl
  have e4 : 'z'.toNat = 122 := rfl
  have e5 : '0'.toNat = 48 := rfl
  have e6 : '9'.toNat = 57 := rfl
  rw [e1, e2, e3, e4, e5, e6] at h
  obtain ⟨t1, t2, t3⟩ := b64Char_ofNat_table url
  split at h
  · simp at h
    have := t1 ⟨n, by omega⟩
    simp only at this
    rw [this, char_eq_ofNat (c := c) (n := n + 65) (by omega)]
  split at h
  · simp at h
    have := t2 ⟨n - 26, by omega⟩
    simp only at this
    rw [show n - 26 + 26 = n by omega] at this
    rw [this, char_eq_ofNat (c := c) (n := n - 26 + 97) (by omega)]
  split at h
  · simp at h
    have := t3 ⟨n - 52, by omega⟩
    simp only at this
    rw [show n - 52 + 52 = n by omega] at this
    rw [this, char_eq_ofNat (c := c) (n := n - 52 + 48) (by omega)]
  split at h
  · rename_i hc
    simp at h; subst h; subst hc; cases url <;> rfl
  split at h
  · rename_i hc
    simp at h; subst h; subst hc; cases url <;> rfl
  · cases h

theorem not_isB64_eq (url : Bool) : isB64 url '=' = false := by cases url <;> rfl
theorem not_isB64_nl (url : Bool) : isB64 url '\n' = false := by cases url <;> rfl
theorem not_isB64_dot (url : Bool) : isB64 url '.' = false := by cases url <;> rfl
theorem not_isB64_under : isB64 false '_' = false := rfl
theorem not_isB64_semi (url : Bool) : isB64 url ';' = false := by cases url <;> rfl

/-! ### Lemmas: texts -/

theorem isB64_of_mem_b64Text {url : Bool} {b : Bytes} {c : Char} (h : c ∈ b64Text url b) :
    isB64 url c = true := by
  simp only [b64Text, List.mem_map] at h
  obtain ⟨n, hn, rfl⟩ := h
  exact isB64_char (enc6_lt b n hn)

theorem not_mem_b64Text {url : Bool} {b : Bytes} {c : Char} (h : isB64 url c = false) :
    c ∉ b64Text url b := by
  intro hc
  rw [isB64_of_mem_b64Text hc] at h
  cases h

theorem removeChar_b64Encode (url : Bool) (b : Bytes) :
    removeChar '=' (b64Encode url b) = b64Text url b := by
  unfold b64Encode
  rw [removeChar_append, removeChar_replicate, List.append_nil,
    removeChar_eq_self (not_mem_b64Text (not_isB64_eq url))]

theorem map_val_b64Text (url : Bool) (b : Bytes) :
    (b64Text url b).map (fun c => (b64Val url c).getD 0) = enc6 b := by
  simp only [b64Text, List.map_map]
  have : ∀ l : List Nat, (∀ n ∈ l, n < 64) →
      l.map ((fun c => (b64Val url c).getD 0) ∘ b64Char url) = l := by
    intro l hl
    induction l with
    | nil => rfl
    | cons x xs ih =>
      simp only [List.map_cons, Function.comp, List.cons.injEq]
      refine ⟨?_, ih (fun n hn => hl n (by simp [hn]))⟩
      rw [b64Val_char (hl x (by simp))]; rfl
  exact this _ (enc6_lt b)

theorem takeWhile_append_replicate_eq {url : Bool} {d : Str} (hd : ∀ c ∈ d, isB64 url c = true)
    (k : Nat) :
    (d ++ List.replicate k '=').takeWhile (isB64 url) = d ∧
    (d ++ List.replicate k '=').dropWhile (isB64 url) = List.replicate k '=' := by
  induction d with
  | nil =>
    cases k with
    | zero => simp
    | succ k => simp [List.replicate_succ, not_isB64_eq]
  | cons x xs ih =>
    have hx := hd x (by simp)
    have := ih (fun c hc => hd c (by simp [hc]))
    simp [hx, this]

theorem stripNl_of_last {s : Str} (h : s.getLast? ≠ some '\n') : stripNl s = s := by
  simp [stripNl, h]

theorem stripNl_b64_append {url : Bool} {d : Str} (hd : ∀ c ∈ d, isB64 url c = true) (k : Nat) :
    stripNl (d ++ List.replicate k '=') = d ++ List.replicate k '=' := by
  apply stripNl_of_last
  intro h
  have hm := List.mem_of_getLast? h
  simp only [List.mem_append, List.mem_replicate] at hm
  rcases hm with hm | hm
  · have := hd _ hm
    rw [not_isB64_nl] at this; cases this
  · exact absurd hm.2 (by decide)

/-- The decoder on data characters followed by `k` padding characters. -/
theorem b64Decode_data_pad {url : Bool} {d : Str} (hd : ∀ c ∈ d, isB64 url c = true) {k : Nat}
    (hk : k ≤ 3) :
    b64Decode url (d ++ List.replicate k '=') =
      if (4 - d.length % 4) % 4 ≤ k then dec6 (d.map fun c => (b64Val url c).getD 0) else none := by
  unfold b64Decode
  rw [stripNl_b64_append hd]
  obtain ⟨h1, h2⟩ := takeWhile_append_replicate_eq hd k
  simp only [h1, h2]
  simp [hk]

theorem b64Text_length_mod (url : Bool) (b : Bytes) :
    (4 - (b64Text url b).length % 4) % 4 = (3 - b.length % 3) % 3 := by
  simp only [b64Text, List.length_map, enc6_length]
  have : b.length % 3 = 0 ∨ b.length % 3 = 1 ∨ b.length % 3 = 2 := by omega
  rcases this with h | h | h <;> simp [h] <;> omega

/-- Decoding the standard (padded) encoding. -/
theorem b64Decode_encode (url : Bool) (b : Bytes) : b64Decode url (b64Encode url b) = some b := by
  unfold b64Encode
  rw [b64Decode_data_pad (fun c hc => isB64_of_mem_b64Text hc) (by omega), b64Text_length_mod,
    if_pos (Nat.le_refl _), map_val_b64Text, dec6_enc6]

theorem restorePad_eq (s : Str) : restorePad s = s ++ List.replicate ((4 - s.length % 4) % 4) '=' := by
  unfold restorePad
  simp only
  split
  · rename_i h; rw [Nat.mod_eq_of_lt h]
  · have : 4 - s.length % 4 = 4 := by omega
    rw [this]; simp

theorem restorePad_b64Text (url : Bool) (b : Bytes) : restorePad (b64Text url b) = b64Encode url b := by
  rw [restorePad_eq, b64Text_length_mod]; rfl

/-- Stripping the padding of an encoded text and restoring it is lossless. -/
theorem b64Decode_restorePad (url : Bool) (b : Bytes) :
    b64Decode url (restorePad (b64Text url b)) = some b := by
  rw [restorePad_b64Text, b64Decode_encode]

theorem b64Text_injective {url : Bool} {b c : Bytes} (h : b64Text url b = b64Text url c) : b = c := by
  have := b64Decode_restorePad url b
  rw [h, b64Decode_restorePad] at this
  exact (Option.some.inj this).symm

theorem stripNl_cases (s : Str) : (stripNl s = s) ∨ (s = stripNl s ++ ['\n']) := by
  unfold stripNl
  split
  · rename_i h
    right
    have hne : s ≠ [] := by intro e; subst e; simp at h
    rw [List.getLast?_eq_some_getLast hne] at h
    have := List.dropLast_concat_getLast hne
    simp only [Option.some.injEq] at h
    rw [h] at this
    exact this.symm
  · left; rfl

/-- Exactly which texts the decoders accept: alphabet characters, at most three `=`, at most one
line feed, with enough padding; and what they return. -/
theorem b64Decode_eq_some_iff {url : Bool} {s : Str} {b : Bytes} :
    b64Decode url s = some b ↔
      ∃ d k nl, s = d ++ List.replicate k '=' ++ nl ∧ (nl = [] ∨ nl = ['\n']) ∧ k ≤ 3 ∧
        (∀ c ∈ d, isB64 url c = true) ∧ (4 - d.length % 4) % 4 ≤ k ∧
        dec6 (d.map fun c => (b64Val url c).getD 0) = some b := by
  constructor
  · intro h
    unfold b64Decode at h
    simp only at h
    split at h
    · rename_i hp
      split at h
      · rename_i hn
        refine ⟨(stripNl s).takeWhile (isB64 url), ((stripNl s).dropWhile (isB64 url)).length,
          if stripNl s = s then [] else ['\n'], ?_, ?_, hp.2, ?_, hn, h⟩
        · have hrep : List.replicate ((stripNl s).dropWhile (isB64 url)).length '=' =
              (stripNl s).dropWhile (isB64 url) := by
            symm
            rw [List.eq_replicate_iff]
            refine ⟨rfl, fun c hc => ?_⟩
            have := List.all_eq_true.mp hp.1 c hc
            simpa using this
          rw [hrep, List.takeWhile_append_dropWhile]
          split
          · rename_i e; rw [e]; simp
          · rename_i e
            rcases stripNl_cases s with h2 | h2
            · exact absurd h2 e
            · exact h2
        · split <;> simp
        · intro c hc
          exact List.all_eq_true.mp (List.all_takeWhile) c hc
      · cases h
    · cases h
  · rintro ⟨d, k, nl, rfl, hnl, hk, hd, hn, hdec⟩
    have hbase : b64Decode url (d ++ List.replicate k '=') = some b := by
      rw [b64Decode_data_pad hd hk, if_pos hn, hdec]
    rcases hnl with rfl | rfl
    · simpa using hbase
    · rw [← hbase]
      unfold b64Decode
      have : stripNl (d ++ List.replicate k '=' ++ ['\n']) = stripNl (d ++ List.replicate k '=') := by
        rw [stripNl_b64_append hd]
        unfold stripNl
        rw [if_pos (by simp)]
        rw [List.dropLast_concat]
      rw [this]

/-- An accepted text consists of alphabet characters, `=` and line feeds only. -/
theorem mem_of_b64Decode {url : Bool} {s : Str} {b : Bytes} (h : b64Decode url s = some b) :
    ∀ c ∈ s, isB64 url c = true ∨ c = '=' ∨ c = '\n' := by
  obtain ⟨d, k, nl, rfl, hnl, _, hd, _, _⟩ := b64Decode_eq_some_iff.mp h
  intro c hc
  simp only [List.mem_append, List.mem_replicate] at hc
  rcases hc with (hc | hc) | hc
  · exact Or.inl (hd c hc)
  · exact Or.inr (Or.inl hc.2)
  · rcases hnl with rfl | rfl
    · simp at hc
    · simp at hc; exact Or.inr (Or.inr hc)

theorem mem_of_b64Decode_restorePad {url : Bool} {s : Str} {b : Bytes}
    (h : b64Decode url (restorePad s) = some b) :
    ∀ c ∈ s, isB64 url c = true ∨ c = '=' ∨ c = '\n' := by
  intro c hc
  refine mem_of_b64Decode h c ?_
  rw [restorePad_eq]
  simp [hc]

theorem not_mem_of_b64Decode {url : Bool} {s : Str} {b : Bytes} (h : b64Decode url s = some b)
    {c : Char} (h1 : isB64 url c = false) (h2 : c ≠ '=') (h3 : c ≠ '\n') : c ∉ s := by
  intro hc
  rcases mem_of_b64Decode h c hc with h | h | h
  · rw [h1] at h; cases h
  · exact h2 h
  · exact h3 h

theorem not_mem_of_b64Decode_restorePad {url : Bool} {s : Str} {b : Bytes}
    (h : b64Decode url (restorePad s) = some b)
    {c : Char} (h1 : isB64 url c = false) (h2 : c ≠ '=') (h3 : c ≠ '\n') : c ∉ s := by
  intro hc
  rcases mem_of_b64Decode_restorePad h c hc with h | h | h
  · rw [h1] at h; cases h
  · exact h2 h
  · exact h3 h

end RKSV
