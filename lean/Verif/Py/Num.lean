import Verif.Py.Env
/-
Python integers: `int(s, base)`, `'%x' % n`, `int.to_bytes`, `int.from_bytes`.
-/
namespace RKSV

section
variable [PyEnv]

/-- Digit value in base 10 or 16 (letters only in base 16). -/
def pyDigit (base : Nat) (c : Char) : Option Nat :=
  match digitVal c with
  | some d => some d
  | none =>
    if base = 16 then
      if 'a' ≤ c ∧ c ≤ 'f' then some (c.toNat - 87)
      else if 'A' ≤ c ∧ c ≤ 'F' then some (c.toNat - 55)
      else none
    else none

/-- White space skipped by `int()` around the number. -/
def intSpace (c : Char) : Bool :=
  (9 ≤ c.toNat && c.toNat ≤ 13) || c.toNat = 32 || (128 ≤ c.toNat && isSpace c)

/-- Strip characters satisfying `p` at both ends. -/
def stripBoth (p : Char → Bool) (s : Str) : Str :=
  ((s.dropWhile p).reverse.dropWhile p).reverse

/-- Digits with single underscores between them; `u` is true at the start and after an underscore,
where another underscore or the end of the text is an error. -/
def readDigits (base : Nat) : Nat → Bool → Str → Option Nat
  | acc, u, [] => if u then none else some acc
  | acc, u, c :: r =>
    if c = '_' then
      if u then none else readDigits base acc true r
    else
      match pyDigit base c with
      | some d => readDigits base (acc * base + d) false r
      | none => none

/-- Skips the prefix `0x` / `0X` and one underscore after it (base 16 only). -/
def skipHexPrefix (base : Nat) (s : Str) : Str :=
  match s with
  | z :: x :: r =>
    if base = 16 ∧ digitVal z = some 0 ∧ (x = 'x' ∨ x = 'X') then
      match r with
      | c :: r' => if c = '_' then r' else r
      | [] => []
    else s
  | _ => s

/-- Optional sign of an integer. -/
def intSign : Str → Bool × Str
  | '-' :: r => (true, r)
  | '+' :: r => (false, r)
  | s => (false, s)

/-- `int(s, base)` for `base` 10 or 16; `none` is `ValueError`.  The limit on the number of decimal
digits of newer interpreters is not modelled. -/
def pyInt (base : Nat) (s : Str) : Option Int :=
  let t := intSign (stripBoth intSpace s)
  (readDigits base 0 true (skipHexPrefix base t.2)).map fun (n : Nat) =>
    if t.1 then -(Int.ofNat n) else Int.ofNat n

end

/-- Lower case hexadecimal digit. -/
def hexDigit (n : Nat) : Char := (c!"0123456789abcdef").getD n '0'

/-- `'%x' % n` for a natural number (structurally recursive with fuel, see `natHex`). -/
def natHexAux : Nat → Nat → Str
  | 0, _ => []
  | f + 1, n => if n < 16 then [hexDigit n] else natHexAux f (n / 16) ++ [hexDigit (n % 16)]

def natHex (n : Nat) : Str := natHexAux (n + 1) n

/-- `'%x' % i`. -/
def intHex (i : Int) : Str := if i < 0 then '-' :: natHex i.natAbs else natHex i.natAbs

/-- Big endian bytes of `n % 256 ^ k`. -/
def natToBytes : Nat → Nat → Bytes
  | 0, _ => []
  | k + 1, n => natToBytes k (n / 256) ++ [UInt8.ofNat (n % 256)]

/-- Big endian value of a byte string. -/
def bytesToNat (b : Bytes) : Nat := b.foldl (fun acc x => acc * 256 + x.toNat) 0

/-- `v.to_bytes(k, byteorder='big', signed=True)`; `none` is `OverflowError`. -/
def toBytesSigned (k : Nat) (v : Int) : Option Bytes :=
  if k = 0 then (if v = 0 then some [] else none)
  else if -(2 ^ (8 * k - 1) : Int) ≤ v ∧ v < 2 ^ (8 * k - 1) then
    some (natToBytes k (v % (256 ^ k : Nat)).toNat)
  else none

/-- `int.from_bytes(b, byteorder='big', signed=True)`. -/
def fromBytesSigned (b : Bytes) : Int :=
  let n := bytesToNat b
  if 256 ^ b.length ≤ 2 * n then (n : Int) - (256 ^ b.length : Nat) else n

/-! ### Lemmas -/

theorem bytesToNat_append (a : Bytes) (x : UInt8) :
    bytesToNat (a ++ [x]) = bytesToNat a * 256 + x.toNat := by
  simp [bytesToNat]

theorem natToBytes_length (k n : Nat) : (natToBytes k n).length = k := by
  induction k generalizing n with
  | zero => rfl
  | succ k ih => simp [natToBytes, ih]

theorem bytesToNat_natToBytes (k n : Nat) (h : n < 256 ^ k) : bytesToNat (natToBytes k n) = n := by
  induction k generalizing n with
  | zero =>
    have : n = 0 := by omega
    subst this; rfl
  | succ k ih =>
    simp only [natToBytes]
    rw [bytesToNat_append, ih (n / 256)]
    · have : (UInt8.ofNat (n % 256)).toNat = n % 256 := by
        simp [UInt8.toNat_ofNat']
      rw [this]; omega
    · rw [Nat.pow_succ] at h
      omega

theorem bytesToNat_lt (b : Bytes) : bytesToNat b < 256 ^ b.length := by
  have key : ∀ r : Bytes, bytesToNat r.reverse < 256 ^ r.length := by
    intro r
    induction r with
    | nil => simp [bytesToNat]
    | cons x xs ih =>
      rw [List.reverse_cons, bytesToNat_append, List.length_cons, Nat.pow_succ]
      have := x.toNat_lt
      omega
  have := key b.reverse
  simpa using this

theorem pow256_eq (k : Nat) (hk : k ≠ 0) : (256 : Nat) ^ k = 2 * 2 ^ (8 * k - 1) := by
  rw [show (256 : Nat) = 2 ^ 8 by rfl, ← Nat.pow_mul, Nat.mul_comm 2, ← Nat.pow_succ]
  congr 1
  omega

/-- The signed big endian representation is lossless in its range. -/
theorem fromBytes_toBytes {k : Nat} {v : Int} {b : Bytes} (h : toBytesSigned k v = some b) :
    fromBytesSigned b = v ∧ b.length = k := by
  unfold toBytesSigned at h
  split at h
  · rename_i hk
    split at h
    · rename_i hv
      simp only [Option.some.injEq] at h
      subst h; subst hk; subst hv
      exact ⟨rfl, rfl⟩
    · cases h
  · rename_i hk
    split at h
    · rename_i hv
      simp only [Option.some.injEq] at h
      subst h
      refine ⟨?_, natToBytes_length _ _⟩
      have hp : (256 : Nat) ^ k = 2 * 2 ^ (8 * k - 1) := pow256_eq k hk
      have hpos : (0 : Nat) < 2 ^ (8 * k - 1) := Nat.pow_pos (by decide)
      unfold fromBytesSigned
      simp only [natToBytes_length]
      obtain ⟨h1, h2⟩ := hv
      have hcast : ((2 : Int) ^ (8 * k - 1)) = ((2 ^ (8 * k - 1) : Nat) : Int) := by push_cast; rfl
      rw [hcast] at h1 h2
      generalize hM : (2 : Nat) ^ (8 * k - 1) = M at *
      generalize hN : (256 : Nat) ^ k = N at *
      have hmod0 : 0 ≤ v % (N : Int) := Int.emod_nonneg _ (by omega)
      have hmodlt : v % (N : Int) < N := Int.emod_lt_of_pos _ (by omega)
      have hb : bytesToNat (natToBytes k (v % (N : Int)).toNat) = (v % (N : Int)).toNat :=
        bytesToNat_natToBytes _ _ (by rw [hN]; omega)
      rw [hb]
      by_cases hneg : v < 0
      · have hv' : v % (N : Int) = v + N := by
          rw [← Int.add_emod_right]
          exact Int.emod_eq_of_lt (by omega) (by omega)
        rw [hv']
        rw [if_pos (by omega)]
        omega
      · have hv' : v % (N : Int) = v := Int.emod_eq_of_lt (by omega) (by omega)
        rw [hv']
        rw [if_neg (by omega)]
        omega
    · cases h

theorem toBytesSigned_isSome {k : Nat} (hk : k ≠ 0) {v : Int} :
    (toBytesSigned k v).isSome ↔ -(2 ^ (8 * k - 1) : Int) ≤ v ∧ v < 2 ^ (8 * k - 1) := by
  unfold toBytesSigned
  rw [if_neg hk]
  split <;> simp_all

/-- The value of a byte string is in the signed range of its length. -/
theorem fromBytesSigned_range (b : Bytes) (hb : b ≠ []) :
    -(2 ^ (8 * b.length - 1) : Int) ≤ fromBytesSigned b ∧
      fromBytesSigned b < 2 ^ (8 * b.length - 1) := by
  have hk : b.length ≠ 0 := by simpa using hb
  have hp := pow256_eq b.length hk
  have hlt := bytesToNat_lt b
  have hcast : ((2 : Int) ^ (8 * b.length - 1)) = ((2 ^ (8 * b.length - 1) : Nat) : Int) := by
    push_cast; rfl
  rw [hcast]
  unfold fromBytesSigned
  simp only
  generalize (2 : Nat) ^ (8 * b.length - 1) = M at *
  generalize (256 : Nat) ^ b.length = N at *
  split <;> omega

theorem bytesToNat_injective : ∀ {a b : Bytes}, a.length = b.length → bytesToNat a = bytesToNat b → a = b := by
  have key : ∀ a b : Bytes, a.length = b.length → bytesToNat a.reverse = bytesToNat b.reverse → a = b := by
    intro a
    induction a with
    | nil => intro b hl _; simpa using hl.symm
    | cons x xs ih =>
      intro b hl h
      cases b with
      | nil => simp at hl
      | cons y ys =>
        rw [List.reverse_cons, List.reverse_cons, bytesToNat_append, bytesToNat_append] at h
        have hx := x.toNat_lt; have hy := y.toNat_lt
        have h1 : x.toNat = y.toNat := by omega
        have h2 : bytesToNat xs.reverse = bytesToNat ys.reverse := by omega
        rw [ih ys (by simpa using hl) h2, UInt8.toNat_inj.mp h1]
  intro a b hl h
  have := key a.reverse b.reverse (by simpa using hl) (by simpa using h)
  simpa using this

theorem fromBytesSigned_injective {a b : Bytes} (hl : a.length = b.length)
    (h : fromBytesSigned a = fromBytesSigned b) : a = b := by
  refine bytesToNat_injective hl ?_
  have ha := bytesToNat_lt a
  have hb := bytesToNat_lt b
  unfold fromBytesSigned at h
  simp only [hl] at h ha
  generalize (256 : Nat) ^ b.length = N at *
  split at h <;> split at h <;> omega

/-! ### Hexadecimal texts -/

theorem natHexAux_fuel {f g n : Nat} (hf : n < f) (hg : n < g) : natHexAux f n = natHexAux g n := by
  induction f generalizing g n with
  | zero => omega
  | succ f ih =>
    cases g with
    | zero => omega
    | succ g =>
      simp only [natHexAux]
      split
      · rfl
      · rw [ih (n := n / 16) (g := g) (by omega) (by omega)]

theorem natHex_lt {n : Nat} (h : n < 16) : natHex n = [hexDigit n] := by
  simp [natHex, natHexAux, h]

theorem natHex_ge {n : Nat} (h : 16 ≤ n) : natHex n = natHex (n / 16) ++ [hexDigit (n % 16)] := by
  rw [natHex, natHexAux, if_neg (by omega)]
  rw [natHexAux_fuel (g := n / 16 + 1) (by omega) (by omega)]
  rfl

/-- Lower case hexadecimal digits. -/
def isHexLower (c : Char) : Bool := ('0' ≤ c && c ≤ '9') || ('a' ≤ c && c ≤ 'f')

theorem hexDigit_table : ∀ n : Fin 16, isHexLower (hexDigit n) = true ∧ (hexDigit n).toNat < 128 ∧
    (hexDigit n).toNat = if n.val < 10 then n.val + 48 else n.val + 87 := by decide

theorem natHex_chars (n : Nat) : ∀ c ∈ natHex n, isHexLower c = true := by
  induction n using Nat.strongRecOn with
  | ind n ih =>
    by_cases h : n < 16
    · rw [natHex_lt h]
      intro c hc
      simp at hc; subst hc
      exact (hexDigit_table ⟨n, h⟩).1
    · rw [natHex_ge (by omega)]
      intro c hc
      rcases List.mem_append.mp hc with hc | hc
      · exact ih (n / 16) (by omega) c hc
      · simp at hc; subst hc
        exact (hexDigit_table ⟨n % 16, by omega⟩).1

theorem natHex_ne_nil (n : Nat) : natHex n ≠ [] := by
  by_cases h : n < 16
  · rw [natHex_lt h]; simp
  · rw [natHex_ge (by omega)]; simp

section
variable [PyEnv]

omit [PyEnv] in
theorem asciiDigit_of_lt {c : Char} (h1 : 48 ≤ c.toNat) (h2 : c.toNat ≤ 57) :
    asciiDigit c = some (c.toNat - 48) := by
  unfold asciiDigit
  rw [if_pos]
  rw [char_le_iff, char_le_iff]
  exact ⟨h1, h2⟩

omit [PyEnv] in
theorem asciiDigit_none {c : Char} (h : c.toNat < 48 ∨ 57 < c.toNat) : asciiDigit c = none := by
  unfold asciiDigit
  rw [if_neg]
  rw [char_le_iff, char_le_iff]
  have e1 : '0'.toNat = 48 := rfl
  have e2 : '9'.toNat = 57 := rfl
  omega

theorem pyDigit_hexDigit {n : Nat} (h : n < 16) : pyDigit 16 (hexDigit n) = some n := by
  obtain ⟨-, h1, h2⟩ := hexDigit_table ⟨n, h⟩
  simp only at h1 h2
  unfold pyDigit
  rw [PyEnv.digitVal_ascii h1]
  by_cases hn : n < 10
  · rw [if_pos hn] at h2
    rw [asciiDigit_of_lt (by omega) (by omega), h2]
    simp
  · rw [if_neg hn] at h2
    rw [asciiDigit_none (by omega)]
    simp only [char_le_iff]
    have e1 : 'a'.toNat = 97 := rfl
    have e2 : 'f'.toNat = 102 := rfl
    simp only [if_true]
    rw [if_pos (by omega), h2]
    simp

omit [PyEnv] in
theorem hexDigit_ne_underscore {n : Nat} (h : n < 16) : hexDigit n ≠ '_' := by
  have : ∀ n : Fin 16, hexDigit n ≠ '_' := by decide
  exact this ⟨n, h⟩

theorem readDigits_append {base : Nat} {acc : Nat} {u : Bool} {s : Str} {c : Char} {d n : Nat}
    (hs : readDigits base acc u s = some n) (hc : pyDigit base c = some d) (hu : c ≠ '_') :
    readDigits base acc u (s ++ [c]) = some (n * base + d) := by
  induction s generalizing acc u with
  | nil =>
    simp only [readDigits] at hs
    split at hs
    · cases hs
    · simp only [Option.some.injEq] at hs
      subst hs
      simp [readDigits, hu, hc]
  | cons x xs ih =>
    rw [List.cons_append]
    unfold readDigits at hs ⊢
    split
    · rename_i hx
      rw [if_pos hx] at hs
      split
      · rename_i h; rw [if_pos h] at hs; cases hs
      · rename_i h; rw [if_neg h] at hs; exact ih hs
    · rename_i hx
      rw [if_neg hx] at hs
      split at hs
      · exact ih hs
      · cases hs

theorem readDigits_natHex (n : Nat) : readDigits 16 0 true (natHex n) = some n := by
  induction n using Nat.strongRecOn with
  | ind n ih =>
    by_cases h : n < 16
    · rw [natHex_lt h]
      simp [readDigits, hexDigit_ne_underscore h, pyDigit_hexDigit h]
    · rw [natHex_ge (by omega)]
      rw [readDigits_append (ih (n / 16) (by omega)) (pyDigit_hexDigit (n := n % 16) (by omega))
        (hexDigit_ne_underscore (by omega))]
      congr 1
      omega

omit [PyEnv] in
theorem stripBoth_eq_self {p : Char → Bool} {s : Str} (h : ∀ c ∈ s, p c = false) :
    stripBoth p s = s := by
  have hd : ∀ l : Str, (∀ c ∈ l, p c = false) → l.dropWhile p = l := by
    intro l hl
    cases l with
    | nil => rfl
    | cons x xs => rw [List.dropWhile_cons, if_neg (by simp [hl x (by simp)])]
  unfold stripBoth
  rw [hd s h, hd s.reverse (by simpa using h), List.reverse_reverse]

omit [PyEnv] in
theorem isHexLower_iff (c : Char) : isHexLower c = true ↔
    (48 ≤ c.toNat ∧ c.toNat ≤ 57) ∨ (97 ≤ c.toNat ∧ c.toNat ≤ 102) := by
  simp only [isHexLower, Bool.or_eq_true, Bool.and_eq_true, decide_eq_true_eq, char_le_iff]
  rfl

theorem intSpace_hex {c : Char} (h : isHexLower c = true) : intSpace c = false := by
  rw [isHexLower_iff] at h
  simp only [intSpace, Bool.or_eq_false_iff, Bool.and_eq_false_iff, decide_eq_false_iff_not]
  omega

theorem pyInt_natHex (n : Nat) : pyInt 16 (natHex n) = some (n : Int) := by
  unfold pyInt
  have hch := natHex_chars n
  rw [stripBoth_eq_self (fun c hc => intSpace_hex (hch c hc))]
  have hpre : skipHexPrefix 16 (natHex n) = natHex n := by
    unfold skipHexPrefix
    split
    · rename_i z x r heq
      rw [if_neg]
      rintro ⟨-, -, hx⟩
      have hx' := hch x (by rw [heq]; simp)
      rcases hx with rfl | rfl <;> exact absurd hx' (by decide)
    · rfl
  have hsign : intSign (natHex n) = (false, natHex n) := by
    unfold intSign
    split
    · rename_i r h
      exact absurd (hch '-' (by rw [h]; simp)) (by decide)
    · rename_i r h
      exact absurd (hch '+' (by rw [h]; simp)) (by decide)
    · rfl
  rw [hsign]
  simp only
  rw [hpre, readDigits_natHex]
  simp

theorem natHex_injective {m n : Nat} (h : natHex m = natHex n) : m = n := by
  have := readDigits_natHex m
  rw [h, readDigits_natHex] at this
  exact (Option.some.inj this).symm

end

end RKSV
