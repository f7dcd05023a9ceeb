import Verif.Props.ExportText
import Verif.Spec.JsonValue
/-
C105: the text of an export stands for the document.
-/
namespace RKSV

theorem hexDigit_char : ∀ n : Fin 16, (c!"0123456789abcdef")[n.val]? = some (hexDigit n) := by decide

theorem hex4_text {n : Nat} (h : n < 65536) : Hex4 (hex4 n) n :=
  ⟨_, _, _, _, n / 4096 % 16, n / 256 % 16, n / 16 % 16, n % 16, rfl,
    .inl (hexDigit_char ⟨n / 4096 % 16, by omega⟩), .inl (hexDigit_char ⟨n / 256 % 16, by omega⟩),
    .inl (hexDigit_char ⟨n / 16 % 16, by omega⟩), .inl (hexDigit_char ⟨n % 16, by omega⟩), by omega⟩

theorem char_lt (c : Char) : c.toNat < 0x110000 := by
  rcases c.valid with h | ⟨_, h⟩
  · exact Nat.lt_trans h (by decide)
  · exact h

theorem escapeChar_text (c : Char) : CharText (escapeChar c) c := by
  unfold escapeChar
  split
  · subst_vars; exact .backslash
  split
  · subst_vars; exact .quote
  split
  · exact .backspace (by assumption)
  split
  · exact .formFeed (by assumption)
  split
  · subst_vars; exact .lineFeed rfl
  split
  · subst_vars; exact .carriageReturn rfl
  split
  · subst_vars; exact .tab rfl
  split
  · rename_i h; exact .plain (by assumption) (by assumption) h.1
  split
  · exact .unicode (hex4_text (by assumption))
  · have := char_lt c
    refine .pair (hi := (c.toNat - 65536) / 1024 % 1024) (lo := (c.toNat - 65536) % 1024) (hex4_text (by omega))
      (hex4_text (by omega)) (by omega) (by omega) (by omega)

theorem text_str (s : Str) : StrText (s.flatMap escapeChar) s := by
  induction s with
  | nil => exact .nil
  | cons c s ih => rw [List.flatMap_cons]; exact .cons (escapeChar_text c) ih

theorem natDec_text (n : Nat) : DecText (natDec n) n := by
  induction n using Nat.strongRecOn with
  | ind n ih =>
    by_cases h : n < 10
    · rw [natDec_lt h]; exact .digit h
    · rw [natDec_ge (by omega)]
      have := DecText.more (ih (n / 10) (by omega)) (by omega) (d := n % 10) (by omega)
      rwa [show 10 * (n / 10) + n % 10 = n by omega] at this

theorem keyText_after (n : Nat) (k : Str) : KeyText (newline n ++ jsonStr k) k :=
  ⟨newline n, k.flatMap escapeChar, [], blank_newline n, text_str k, JBlank.nil, by simp [jsonStr]⟩

section
variable {FT : Str → F64 → Prop}

theorem fileText_after {a t : Str} {j : Json} (ha : JBlank a) (h : ValueText FT t j) : FileText FT (a ++ t) j := by
  simpa using FileText.mk ha h JBlank.nil

theorem FileText.extend {t b : Str} {j : Json} (h : FileText FT t j) (hb : JBlank b) : FileText FT (t ++ b) j := by
  cases h with
  | mk ha h hb' =>
    rw [List.append_assoc]
    refine .mk ha h ?_
    intro c hc
    rcases List.mem_append.mp hc with h | h
    · exact hb' c h
    · exact hb c h

variable (ft : F64 → Str) (hft : ∀ x, FT (ft x) x)
include hft

mutual
/-- **C105**: the text of a document stands for that document. -/
theorem jsonText_means (level : Nat) (j : Json) : ValueText FT (jsonText ft level j) j := by
  cases j with
  | null => rw [jsonText]; exact .null
  | bool b =>
    rw [jsonText]
    cases b
    · exact .false
    · exact .true
  | int n =>
    rw [jsonText]
    split
    · have := ValueText.neg (FloatText := FT) (natDec_text n.natAbs)
      rwa [show -(n.natAbs : Int) = n by omega] at this
    · have := ValueText.nat (FloatText := FT) (natDec_text n.natAbs)
      rwa [show (n.natAbs : Int) = n by omega] at this
  | float x => rw [jsonText]; exact .float (hft x)
  | str s => rw [jsonText]; exact .str (text_str s)
  | arr l =>
    cases l with
    | nil => rw [jsonText]; exact .emptyArr (w := []) JBlank.nil
    | cons j l =>
      rw [jsonText]
      have h1 := jsonText_means (level + 1) j
      have := itemsText_means (level + 1) (newline (level + 1) ++ jsonText ft (level + 1) j) (newline level) j l
        (fileText_after (blank_newline _) h1) (blank_newline _)
      simpa [List.append_assoc] using ValueText.arr this
  | obj d =>
    cases d with
    | nil => rw [jsonText]; exact .emptyObj (w := []) JBlank.nil
    | cons p d =>
      obtain ⟨k, j⟩ := p
      rw [jsonText]
      have h1 := jsonText_means (level + 1) j
      have := membersText_means (level + 1) (newline (level + 1) ++ jsonStr k) k (' ' :: jsonText ft (level + 1) j)
        (newline level) j d (keyText_after _ k) (fileText_after (a := [' ']) (by intro c; simp_all) h1) (blank_newline _)
      simpa [List.append_assoc] using ValueText.obj this
theorem itemsText_means (level : Nat) (t w : Str) (j : Json) (l : List Json) (ht : FileText FT t j) (hw : JBlank w) :
    ItemsText FT (t ++ itemsText ft level l ++ w) (j :: l) := by
  cases l with
  | nil => rw [itemsText, List.append_nil]; exact .one (ht.extend hw)
  | cons j' l =>
    rw [itemsText]
    have h1 := jsonText_means level j'
    have := itemsText_means level (newline level ++ jsonText ft level j') w j' l (fileText_after (blank_newline _) h1) hw
    simpa [List.append_assoc] using ItemsText.more ht this
theorem membersText_means (level : Nat) (kt k t w : Str) (j : Json) (d : List (Str × Json)) (hk : KeyText kt k)
    (ht : FileText FT t j) (hw : JBlank w) : MembersText FT (kt ++ ':' :: t ++ membersText ft level d ++ w) ((k, j) :: d) := by
  cases d with
  | nil => rw [membersText, List.append_nil]; simpa [List.append_assoc] using MembersText.one hk (ht.extend hw)
  | cons p d =>
    obtain ⟨k', j'⟩ := p
    rw [membersText]
    have h1 := jsonText_means level j'
    have := membersText_means level (newline level ++ jsonStr k') k' (' ' :: jsonText ft level j') w j' d
      (keyText_after _ k') (fileText_after (a := [' ']) (by intro c; simp_all) h1) hw
    simpa [List.append_assoc] using MembersText.more hk ht this
end

end

/-- **C105**: a complete export is a JSON text for the document with these groups, whatever the receipts and
certificates contain.  (There are no numbers in it; `ft` can be any way to write them.) -/
theorem export_means {FT : Str → F64 → Prop} {ft : F64 → Str} (hft : ∀ x, FT (ft x) x) (gs : List FullGroup) :
    (printDEP none (gs.map FullGroup.out)).2 = none ∧ FileText FT (printDEP none (gs.map FullGroup.out)).1 (depJson gs) := by
  rw [export_complete ft]
  exact ⟨rfl, (fileText_after (a := []) JBlank.nil (jsonText_means ft hft 0 (depJson gs))).extend
    (by intro c hc; simp_all)⟩

section
variable [PyEnv]

/-- **C105**: the text written for a list of groups is a JSON text of the document `exportDEP` of the other properties. -/
theorem export_means_dep {FT : Str → F64 → Prop} {ft : F64 → Str} (hft : ∀ x, FT (ft x) x) (gs : List (SGroup (Receipt × Str))) :
    FileText FT (exportParts none (gs.map SGroup.toOut)).1 (exportDEP gs []) := by
  have h := parts_full (err := none) ft gs
  dsimp only at h
  rw [h]
  have := jsonText_means ft hft 0 (exportDEP gs [])
  exact fileText_after (a := []) JBlank.nil this

end

namespace Demo

/-- A DEP with two groups whose second one is interrupted at its second receipt: not JSON, and the receipt read is there. -/
theorem export_cut :
    printDEP none [⟨c!"C", [], [.ok c!"a", .ok c!"b"]⟩, ⟨[], [c!"D"], [.ok c!"c\"ü", .error .malformedReceipt, .ok c!"d"]⟩] =
      (c!"{\n  \"Belege-Gruppe\": [\n    {\n      \"Signaturzertifikat\": \"C\",\n      \"Zertifizierungsstellen\": [],\n      \"Belege-kompakt\": [\n        \"a\",\n        \"b\"\n      ]\n    },\n    {\n      \"Signaturzertifikat\": \"\",\n      \"Zertifizierungsstellen\": [\n        \"D\"\n      ],\n      \"Belege-kompakt\": [\n        \"c\\\"\\u00fc\"", some .malformedReceipt) := by
  decide +kernel

/-- A document whose last group lacks its first receipt. -/
theorem export_cut_group :
    printDEP none [⟨[], [], [.ok c!"a"]⟩, ⟨[], [], [.error .malformedReceipt]⟩] =
      (c!"{\n  \"Belege-Gruppe\": [\n    {\n      \"Signaturzertifikat\": \"\",\n      \"Zertifizierungsstellen\": [],\n      \"Belege-kompakt\": [\n        \"a\"\n      ]\n    }", some .malformedReceipt) := by
  decide +kernel

end Demo

end RKSV
