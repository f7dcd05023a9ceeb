import Verif.Model.ExportText
import Verif.Spec.JsonText
/-
C105: the text of an export, complete or interrupted.
-/
namespace RKSV

/-! ### Texts that are JSON return to where they began -/

/-- Depth of brackets, inside a string, after a backslash. -/
structure ScanState where
  depth : Int
  inStr : Bool
  esc : Bool

def scanStep (s : ScanState) (c : Char) : ScanState :=
  if s.inStr then
    if s.esc then { s with esc := false }
    else if c = '\\' then { s with esc := true }
    else if c = '"' then { s with inStr := false }
    else s
  else if c = '"' then { s with inStr := true }
  else if c = '[' ∨ c = '{' then { s with depth := s.depth + 1 }
  else if c = ']' ∨ c = '}' then { s with depth := s.depth - 1 }
  else s

def scan (s : ScanState) (t : Str) : ScanState := t.foldl scanStep s

theorem scan_append (s : ScanState) (t u : Str) : scan s (t ++ u) = scan (scan s t) u := List.foldl_append

theorem scan_cons (s : ScanState) (c : Char) (u : Str) : scan s (c :: u) = scan (scanStep s c) u := rfl

theorem scan_neutral {t : Str} (h : ∀ c ∈ t, c ≠ '"' ∧ c ≠ '[' ∧ c ≠ ']' ∧ c ≠ '{' ∧ c ≠ '}') (d : Int) :
    scan ⟨d, false, false⟩ t = ⟨d, false, false⟩ := by
  induction t with
  | nil => rfl
  | cons c t ih =>
    obtain ⟨h1, h2, h3, h4, h5⟩ := h c (by simp)
    rw [scan_cons]
    have : scanStep ⟨d, false, false⟩ c = ⟨d, false, false⟩ := by simp [scanStep, h1, h2, h3, h4, h5]
    rw [this]
    exact ih fun c hc => h c (by simp [hc])

theorem scan_blank {t : Str} (h : JBlank t) (d : Int) : scan ⟨d, false, false⟩ t = ⟨d, false, false⟩ := by
  apply scan_neutral
  intro c hc
  rcases h c hc with rfl | rfl | rfl | rfl <;> decide

theorem scan_body {b : Str} (h : JBody b) (d : Int) : scan ⟨d, true, false⟩ b = ⟨d, true, false⟩ := by
  induction h with
  | nil => rfl
  | plain h1 h2 _ ih => rw [scan_cons]; simpa [scanStep, h1, h2] using ih
  | escaped _ ih => rw [scan_cons, scan_cons]; simpa [scanStep] using ih

theorem scan_quoted {b : Str} (h : JBody b) (d : Int) (r : Str) :
    scan ⟨d, false, false⟩ ('"' :: b ++ '"' :: r) = scan ⟨d, false, false⟩ r := by
  rw [List.cons_append, scan_cons, scan_append]
  have : scanStep ⟨d, false, false⟩ '"' = ⟨d, true, false⟩ := by simp [scanStep]
  rw [this, scan_body h, scan_cons]
  simp [scanStep]

theorem scan_key {k : Str} (h : JKey k) (d : Int) : scan ⟨d, false, false⟩ k = ⟨d, false, false⟩ := by
  obtain ⟨a, b, w, ha, hb, hw, rfl⟩ := h
  rw [List.append_assoc, scan_append, scan_blank ha, scan_quoted hb, scan_blank hw]

theorem scan_bracket {t : Str} {d : Int} {o c : Char} (ho : o = '[' ∨ o = '{') (hc : c = ']' ∨ c = '}')
    (h : scan ⟨d + 1, false, false⟩ t = ⟨d + 1, false, false⟩) :
    scan ⟨d, false, false⟩ (o :: t ++ [c]) = ⟨d, false, false⟩ := by
  rw [List.cons_append, scan_cons, scan_append]
  have h1 : scanStep ⟨d, false, false⟩ o = ⟨d + 1, false, false⟩ := by rcases ho with rfl | rfl <;> simp [scanStep]
  rw [h1, h]
  rcases hc with rfl | rfl <;> simp [scan, scanStep] <;> omega

/-- A JSON text leaves the scanner as it was. -/
theorem scan_file {t : Str} (h : JsonFile t) : ∀ d, scan ⟨d, false, false⟩ t = ⟨d, false, false⟩ := by
  refine JsonFile.rec (motive_1 := fun t _ => ∀ d, scan ⟨d, false, false⟩ t = ⟨d, false, false⟩)
    (motive_2 := fun t _ => ∀ d, scan ⟨d, false, false⟩ t = ⟨d, false, false⟩)
    (motive_3 := fun t _ => ∀ d, scan ⟨d, false, false⟩ t = ⟨d, false, false⟩)
    (motive_4 := fun t _ => ∀ d, scan ⟨d, false, false⟩ t = ⟨d, false, false⟩) ?_ ?_ ?_ ?_ ?_ ?_ ?_ ?_ ?_ ?_ ?_ h
  · intro t _ h d
    apply scan_neutral
    intro c hc
    have := h c hc
    simp [jsonMarks] at this
    grind
  · intro b h d
    exact scan_quoted h d []
  · intro w h d
    exact scan_bracket (.inl rfl) (.inl rfl) (scan_blank h _)
  · intro t _ h d
    exact scan_bracket (.inl rfl) (.inl rfl) (h _)
  · intro w h d
    exact scan_bracket (.inr rfl) (.inr rfl) (scan_blank h _)
  · intro t _ h d
    exact scan_bracket (.inr rfl) (.inr rfl) (h _)
  · intro a t b ha _ hb h d
    rw [scan_append, scan_append, scan_blank ha, h, scan_blank hb]
  · intro t _ h d
    exact h d
  · intro t u _ _ h1 h2 d
    rw [scan_append, h1, scan_cons]
    exact h2 d
  · intro k t hk _ h d
    rw [scan_append, scan_key hk, scan_cons]
    exact h d
  · intro k t u hk _ _ h1 h2 d
    rw [List.append_assoc, scan_append, scan_key hk, List.cons_append, scan_cons, scan_append]
    have : scanStep ⟨d, false, false⟩ ':' = ⟨d, false, false⟩ := by simp [scanStep]
    rw [this, h1, scan_cons]
    exact h2 d

/-- Of two JSON texts, one is never the other with some more closing brackets. -/
theorem not_file_of_closing {t tail : Str} (h : JsonFile (t ++ tail))
    (ht : (scan ⟨0, false, false⟩ tail).depth ≠ 0) : ¬ JsonFile t := by
  intro h1
  have := scan_file h 0
  rw [scan_append, scan_file h1] at this
  rw [this] at ht
  exact ht rfl

theorem not_file_nil : ¬ JsonFile [] := by
  intro h
  generalize hs : ([] : Str) = s at h
  cases h with
  | mk ha h hb =>
    have := congrArg List.length hs
    simp at this
    cases h with
    | scalar h _ => exact h (List.eq_nil_of_length_eq_zero (by omega))
    | _ => simp at this <;> omega

/-! ### What the encoder writes is JSON -/

theorem body_append {a b : Str} (ha : JBody a) (hb : JBody b) : JBody (a ++ b) := by
  induction ha with
  | nil => exact hb
  | plain h1 h2 _ ih => exact .plain h1 h2 ih
  | escaped _ ih => exact .escaped ih

theorem body_plain {a : Str} (h : ∀ c ∈ a, c ≠ '"' ∧ c ≠ '\\') : JBody a := by
  induction a with
  | nil => exact .nil
  | cons c a ih => exact .plain (h c (by simp)).1 (h c (by simp)).2 (ih fun c hc => h c (by simp [hc]))

theorem hexDigit_plain : ∀ n : Fin 16, hexDigit n ≠ '"' ∧ hexDigit n ≠ '\\' := by decide

theorem body_hex4 (n : Nat) : JBody (hex4 n) := by
  apply body_plain
  intro c hc
  simp only [hex4, List.mem_cons, List.not_mem_nil, or_false] at hc
  rcases hc with rfl | rfl | rfl | rfl
  · exact hexDigit_plain ⟨n / 4096 % 16, by omega⟩
  · exact hexDigit_plain ⟨n / 256 % 16, by omega⟩
  · exact hexDigit_plain ⟨n / 16 % 16, by omega⟩
  · exact hexDigit_plain ⟨n % 16, by omega⟩

theorem body_escape (c : Char) : JBody (escapeChar c) := by
  unfold escapeChar
  split
  · exact .escaped .nil
  split
  · exact .escaped .nil
  split
  · exact .escaped .nil
  split
  · exact .escaped .nil
  split
  · exact .escaped .nil
  split
  · exact .escaped .nil
  split
  · exact .escaped .nil
  split
  · exact .plain (by assumption) (by assumption) .nil
  split
  · exact .escaped (body_hex4 _)
  · exact body_append (.escaped (body_hex4 _)) (.escaped (body_hex4 _))

theorem body_text (s : Str) : JBody (s.flatMap escapeChar) := by
  induction s with
  | nil => exact .nil
  | cons c s ih => rw [List.flatMap_cons]; exact body_append (body_escape c) ih

theorem blank_newline (n : Nat) : JBlank (newline n) := by
  intro c hc
  simp only [newline, List.mem_cons, List.mem_replicate] at hc
  rcases hc with h | h
  · exact .inr (.inl h)
  · exact .inl h.2

theorem JBlank.nil : JBlank [] := by intro c hc; cases hc

theorem file_after {a t : Str} (ha : JBlank a) (h : JValue t) : JsonFile (a ++ t) := by
  simpa using JsonFile.mk ha h JBlank.nil

theorem JsonFile.extend {t b : Str} (h : JsonFile t) (hb : JBlank b) : JsonFile (t ++ b) := by
  cases h with
  | mk ha h hb' =>
    rw [List.append_assoc]
    refine .mk ha h ?_
    intro c hc
    rcases List.mem_append.mp hc with h | h
    · exact hb' c h
    · exact hb c h

theorem key_after (n : Nat) (k : Str) : JKey (newline n ++ jsonStr k) :=
  ⟨newline n, k.flatMap escapeChar, [], blank_newline n, body_text k, JBlank.nil, by simp [jsonStr]⟩

theorem dig_not_mark : ∀ n : Fin 10, dig n ∉ jsonMarks := by decide

theorem natDec_not_mark (n : Nat) : ∀ c ∈ natDec n, c ∉ jsonMarks := by
  intro c hc
  obtain ⟨d, hd, rfl⟩ := natDec_chars n c hc
  exact dig_not_mark ⟨d, hd⟩

theorem natDec_ne_nil' (n : Nat) : natDec n ≠ [] := by
  by_cases h : n < 10
  · rw [natDec_lt h]; simp
  · rw [natDec_ge (by omega)]; simp

section
variable (ft : F64 → Str) (hft : ∀ x, ft x ≠ [] ∧ ∀ c ∈ ft x, c ∉ jsonMarks)
include hft

mutual
/-- What the encoder writes is a JSON value. -/
theorem jsonText_value (level : Nat) (j : Json) : JValue (jsonText ft level j) := by
  cases j with
  | null => rw [jsonText]; exact .scalar (by simp) (by decide)
  | bool b => rw [jsonText]; cases b <;> exact .scalar (by simp) (by decide)
  | int n =>
    rw [jsonText]
    split
    · refine .scalar (by simp) ?_
      intro c hc
      rcases List.mem_cons.mp hc with rfl | hc
      · decide
      · exact natDec_not_mark _ c hc
    · exact .scalar (natDec_ne_nil' _) (natDec_not_mark _)
  | float x => rw [jsonText]; exact .scalar (hft x).1 (hft x).2
  | str s => rw [jsonText]; exact .str (body_text s)
  | arr l =>
    cases l with
    | nil => rw [jsonText]; exact .emptyArr (w := []) JBlank.nil
    | cons j l =>
      rw [jsonText]
      have h1 := jsonText_value (level + 1) j
      have := jsonItems (level + 1) (newline (level + 1) ++ jsonText ft (level + 1) j) (newline level) l
        (file_after (blank_newline _) h1) (blank_newline _)
      simpa [List.append_assoc] using JValue.arr this
  | obj d =>
    cases d with
    | nil => rw [jsonText]; exact .emptyObj (w := []) JBlank.nil
    | cons p d =>
      obtain ⟨k, j⟩ := p
      rw [jsonText]
      have h1 := jsonText_value (level + 1) j
      have := jsonMembers (level + 1) (newline (level + 1) ++ jsonStr k) (' ' :: jsonText ft (level + 1) j)
        (newline level) d (key_after _ k) (file_after (a := [' ']) (by intro c; simp_all) h1) (blank_newline _)
      simpa [List.append_assoc] using JValue.obj this
theorem jsonItems (level : Nat) (t w : Str) (l : List Json) (ht : JsonFile t) (hw : JBlank w) :
    JItems (t ++ itemsText ft level l ++ w) := by
  cases l with
  | nil => rw [itemsText, List.append_nil]; exact .one (ht.extend hw)
  | cons j l =>
    rw [itemsText]
    have h1 := jsonText_value level j
    have := jsonItems level (newline level ++ jsonText ft level j) w l (file_after (blank_newline _) h1) hw
    simpa [List.append_assoc] using JItems.more ht this
theorem jsonMembers (level : Nat) (k t w : Str) (d : List (Str × Json)) (hk : JKey k) (ht : JsonFile t) (hw : JBlank w) :
    JMembers (k ++ ':' :: t ++ membersText ft level d ++ w) := by
  cases d with
  | nil => rw [membersText, List.append_nil]; simpa [List.append_assoc] using JMembers.one hk (ht.extend hw)
  | cons p d =>
    obtain ⟨k', j⟩ := p
    rw [membersText]
    have h1 := jsonText_value level j
    have := jsonMembers level (newline level ++ jsonStr k') (' ' :: jsonText ft level j) w d (key_after _ k')
      (file_after (a := [' ']) (by intro c; simp_all) h1) hw
    simpa [List.append_assoc] using JMembers.more hk ht this
end

end

/-! ### Exports -/

/-- A group whose receipts can all be read. -/
structure FullGroup where
  cert : Str
  chain : List Str
  recs : List Str

/-- The group as an element of the document. -/
def FullGroup.json (g : FullGroup) : Json :=
  .obj [(kCert, .str g.cert), (kCerts, .arr (g.chain.map .str)), (kRecs, .arr (g.recs.map .str))]

/-- The document with these groups. -/
def depJson (gs : List FullGroup) : Json := .obj [(kGroups, .arr (gs.map FullGroup.json))]

/-- The group as it is read. -/
def FullGroup.out (g : FullGroup) : OutGroup := ⟨g.cert, g.chain, g.recs.map .ok⟩

@[simp] theorem andThen_none (a : Str) (q : Printed) : Printed.andThen (a, none) q = (a ++ q.1, q.2) := rfl

@[simp] theorem andThen_some (a : Str) (e : Err) (q : Printed) : Printed.andThen (a, some e) q = (a, some e) := rfl

section
variable (ft : F64 → Str)

theorem items_strs (ft' : F64 → Str) (level : Nat) (l : List Str) :
    itemsText ft level (l.map .str) = itemsText ft' level (l.map .str) := by
  induction l with
  | nil => simp [itemsText]
  | cons s l ih => simp [itemsText, jsonText, ih]

theorem arr_strs (ft' : F64 → Str) (level : Nat) (l : List Str) :
    jsonText ft level (.arr (l.map .str)) = jsonText ft' level (.arr (l.map .str)) := by
  cases l with
  | nil => simp [jsonText]
  | cons s l => simp [jsonText, items_strs ft ft']

theorem itemsText_append (level : Nat) (l m : List Json) :
    itemsText ft level (l ++ m) = itemsText ft level l ++ itemsText ft level m := by
  induction l with
  | nil => simp [itemsText]
  | cons j l ih => simp [itemsText, ih]

theorem printRecs_ok (level : Nat) (rs : List Str) (tail : List (Res Str)) :
    printRecs level (rs.map .ok ++ tail) =
      (itemsText ft level (rs.map .str) ++ (printRecs level tail).1, (printRecs level tail).2) := by
  induction rs with
  | nil => simp [itemsText]
  | cons r rs ih => simp [printRecs, itemsText, jsonText, ih]

theorem printRecList_ok (level : Nat) (rs : List Str) :
    printRecList level (rs.map .ok) = (jsonText ft level (.arr (rs.map .str)), none) := by
  cases rs with
  | nil => simp [printRecList, jsonText]
  | cons r rs =>
    have := printRecs_ok ft (level + 1) rs []
    simp only [List.append_nil, printRecs] at this
    simp [printRecList, jsonText, this]

theorem printRecList_err (level : Nat) {rs : List Str} (hrs : rs ≠ []) (e : Err) (rest : List (Res Str)) :
    ∃ out, printRecList level (rs.map .ok ++ .error e :: rest) = (out, some e) ∧
      out ++ newline level ++ [']'] = jsonText ft level (.arr (rs.map .str)) := by
  cases rs with
  | nil => exact absurd rfl hrs
  | cons r rs =>
    have := printRecs_ok ft (level + 1) rs (.error e :: rest)
    simp only [List.append_nil, printRecs] at this
    exact ⟨_, by simp [printRecList, this]; rfl, by simp [jsonText]⟩

theorem printGroup_ok (level : Nat) (g : FullGroup) : printGroup level g.out = (jsonText ft level g.json, none) := by
  simp [printGroup, FullGroup.out, FullGroup.json, printRecList_ok ft, jsonText, membersText, arr_strs (fun _ => []) ft]

theorem printGroup_err (level : Nat) (c : Str) (ch : List Str) {rs : List Str} (hrs : rs ≠ []) (e : Err)
    (rest : List (Res Str)) :
    ∃ out, printGroup level ⟨c, ch, rs.map .ok ++ .error e :: rest⟩ = (out, some e) ∧
      out ++ newline (level + 1) ++ c!"]" ++ newline level ++ c!"}" = jsonText ft level (FullGroup.json ⟨c, ch, rs⟩) := by
  obtain ⟨out, h1, h2⟩ := printRecList_err ft (level + 1) hrs e rest
  refine ⟨_, by simp only [printGroup, h1, andThen_some, andThen_none]; rfl, ?_⟩
  simp [FullGroup.json, jsonText, membersText, ← h2, arr_strs (fun _ => []) ft]

theorem firstErr_out (g : FullGroup) : g.out.firstErr = none := by
  obtain ⟨c, ch, rs⟩ := g
  cases rs <;> rfl

theorem firstErr_later {c : Str} {ch : List Str} {rs : List Str} (hrs : rs ≠ []) (tail : List (Res Str)) :
    OutGroup.firstErr ⟨c, ch, rs.map .ok ++ tail⟩ = none := by
  cases rs with
  | nil => exact absurd rfl hrs
  | cons r rs => rfl

theorem printGroups_ok (level : Nat) (err : Option Err) (gs : List FullGroup) (tail : List OutGroup) :
    printGroups level err (gs.map FullGroup.out ++ tail) =
      (itemsText ft level (gs.map FullGroup.json) ++ (printGroups level err tail).1, (printGroups level err tail).2) := by
  induction gs with
  | nil => simp [itemsText]
  | cons g gs ih => simp [printGroups, firstErr_out, printGroup_ok ft, itemsText, ih]

/-- **C105**: if every receipt can be read, the whole text of the document is written. -/
theorem parts_complete (gs : List FullGroup) :
    exportParts none (gs.map FullGroup.out) = (jsonText ft 0 (depJson gs), none) := by
  cases gs with
  | nil => simp [exportParts, depJson, jsonText, membersText]
  | cons g gs =>
    have := printGroups_ok ft 2 none gs []
    simp only [List.append_nil, printGroups] at this
    simp [exportParts, firstErr_out, printGroup_ok ft, this, depJson, jsonText, membersText]

/-- **C105**: if a receipt cannot be read that is not the first one of its group, the program ends with its exception, and
what was printed is the text of the document with exactly the receipts read before, except that the brackets are not
closed.  What comes after that receipt does not matter. -/
theorem parts_interrupted_receipt (pre : List FullGroup) (c : Str) (ch : List Str) {rs : List Str} (hrs : rs ≠ []) (e : Err)
    (rest : List (Res Str)) (more : List OutGroup) (err : Option Err) :
    ∃ out, exportParts err (pre.map FullGroup.out ++ ⟨c, ch, rs.map .ok ++ .error e :: rest⟩ :: more) = (out, some e) ∧
      out ++ (newline 3 ++ c!"]" ++ newline 2 ++ c!"}" ++ newline 1 ++ c!"]" ++ newline 0 ++ c!"}") =
        jsonText ft 0 (depJson (pre ++ [⟨c, ch, rs⟩])) := by
  obtain ⟨out, h1, h2⟩ := printGroup_err ft 2 c ch hrs e rest
  cases pre with
  | nil =>
    refine ⟨_, by simp only [List.map_nil, List.nil_append, exportParts, firstErr_later hrs, h1, andThen_some, andThen_none]; rfl, ?_⟩
    simp [depJson, jsonText, membersText, itemsText, ← h2]
  | cons g pre =>
    have h3 := printGroups_ok ft 2 err pre (⟨c, ch, rs.map .ok ++ .error e :: rest⟩ :: more)
    simp only [printGroups, firstErr_later hrs, h1, andThen_some, andThen_none] at h3
    refine ⟨_, by simp only [List.map_cons, List.cons_append, exportParts, firstErr_out, printGroup_ok ft, h3, andThen_some,
      andThen_none]; rfl, ?_⟩
    simp [depJson, jsonText, membersText, itemsText, itemsText_append, ← h2]

/-- **C105**: if the first receipt of a group that is not the first one cannot be read, or the next group itself cannot, the
groups before are printed and nothing of this one. -/
theorem parts_interrupted_group {pre : List FullGroup} (hpre : pre ≠ []) (e : Err) {tail : List OutGroup} {err : Option Err}
    (ht : (∃ g more, tail = g :: more ∧ g.firstErr = some e) ∨ (tail = [] ∧ err = some e)) :
    ∃ out, exportParts err (pre.map FullGroup.out ++ tail) = (out, some e) ∧
      out ++ (newline 1 ++ c!"]" ++ newline 0 ++ c!"}") = jsonText ft 0 (depJson pre) := by
  cases pre with
  | nil => exact absurd rfl hpre
  | cons g pre =>
    have h3 := printGroups_ok ft 2 err pre tail
    have h4 : printGroups 2 err tail = ([], some e) := by
      rcases ht with ⟨g, more, rfl, h⟩ | ⟨rfl, rfl⟩
      · simp [printGroups, h]
      · rfl
    rw [h4] at h3
    refine ⟨_, by simp only [List.map_cons, List.cons_append, exportParts, firstErr_out, printGroup_ok ft, h3, andThen_some,
      andThen_none]; rfl, ?_⟩
    simp [depJson, jsonText, membersText]

end

/-- **C105**: if nothing can be read, nothing is printed. -/
theorem parts_interrupted_start (e : Err) {tail : List OutGroup} {err : Option Err}
    (ht : (∃ g more, tail = g :: more ∧ g.firstErr = some e) ∨ (tail = [] ∧ err = some e)) :
    exportParts err tail = ([], some e) := by
  rcases ht with ⟨g, more, rfl, h⟩ | ⟨rfl, rfl⟩
  · simp [exportParts, h]
  · rfl

/-! ### Every export is one of these -/

/-- Receipts: all can be read, or there is a first one that cannot. -/
theorem recs_cases (l : List (Res Str)) :
    (∃ rs : List Str, l = rs.map .ok) ∨ ∃ (rs : List Str) (e : Err) (rest : List (Res Str)), l = rs.map .ok ++ .error e :: rest := by
  induction l with
  | nil => exact .inl ⟨[], rfl⟩
  | cons r l ih =>
    cases r with
    | error e => exact .inr ⟨[], e, l, rfl⟩
    | ok r =>
      rcases ih with ⟨rs, rfl⟩ | ⟨rs, e, rest, rfl⟩
      · exact .inl ⟨r :: rs, rfl⟩
      · exact .inr ⟨r :: rs, e, rest, rfl⟩

theorem groups_cases (l : List OutGroup) :
    (∃ gs : List FullGroup, l = gs.map FullGroup.out) ∨ ∃ (pre : List FullGroup) (c : Str) (ch rs : List Str) (e : Err)
      (rest : List (Res Str)) (more : List OutGroup), l = pre.map FullGroup.out ++ ⟨c, ch, rs.map .ok ++ .error e :: rest⟩ :: more := by
  induction l with
  | nil => exact .inl ⟨[], rfl⟩
  | cons g l ih =>
    obtain ⟨c, ch, recs⟩ := g
    rcases recs_cases recs with ⟨rs, rfl⟩ | ⟨rs, e, rest, rfl⟩
    · rcases ih with ⟨gs, rfl⟩ | ⟨pre, c', ch', rs', e, rest, more, rfl⟩
      · exact .inl ⟨⟨c, ch, rs⟩ :: gs, rfl⟩
      · exact .inr ⟨⟨c, ch, rs⟩ :: pre, c', ch', rs', e, rest, more, rfl⟩
    · exact .inr ⟨[], c, ch, rs, e, rest, l, rfl⟩

/-- The first exception met when everything is read in order. -/
def firstException (gs : List OutGroup) (err : Option Err) : Option Err :=
  ((gs.flatMap OutGroup.recs).findSome? fun r => match r with | .error e => some e | .ok _ => none).or err

theorem findErr_ok (rs : List Str) (tail : List (Res Str)) :
    ((rs.map (.ok : Str → Res Str) ++ tail).findSome? fun r : Res Str => match r with | .error e => some e | .ok _ => none) =
      tail.findSome? fun r => match r with | .error e => some e | .ok _ => none := by
  induction rs with
  | nil => rfl
  | cons r rs ih => simpa using ih

theorem findErr_groups (gs : List FullGroup) (tail : List (Res Str)) :
    (((gs.map FullGroup.out).flatMap OutGroup.recs ++ tail).findSome?
      fun r : Res Str => match r with | .error e => some e | .ok _ => none) =
      tail.findSome? fun r => match r with | .error e => some e | .ok _ => none := by
  induction gs with
  | nil => rfl
  | cons g gs ih =>
    rw [List.map_cons, List.flatMap_cons, List.append_assoc]
    exact (findErr_ok g.recs _).trans ih

/-- What a text of brackets left open is closed with does not balance. -/
theorem closing_depth : (scan ⟨0, false, false⟩ (newline 3 ++ c!"]" ++ newline 2 ++ c!"}" ++ newline 1 ++ c!"]" ++ newline 0 ++ c!"}")).depth ≠ 0 ∧
    (scan ⟨0, false, false⟩ (newline 1 ++ c!"]" ++ newline 0 ++ c!"}")).depth ≠ 0 := by
  decide +kernel

theorem depText_file (gs : List FullGroup) : JsonFile (jsonText (fun _ => c!"0") 0 (depJson gs)) := by
  have := jsonText_value (fun _ => c!"0") (fun _ => ⟨by simp, by decide⟩) 0 (depJson gs)
  exact file_after (a := []) JBlank.nil this

/-- **C105**: the program ends with the exception of the first receipt or group that cannot be read, and what was written
is a JSON text exactly if there is none. -/
theorem parts_json_iff (gs : List OutGroup) (err : Option Err) :
    (exportParts err gs).2 = firstException gs err ∧ (JsonFile (exportParts err gs).1 ↔ firstException gs err = none) := by
  rcases groups_cases gs with ⟨gs, rfl⟩ | ⟨pre, c, ch, rs, e, rest, more, rfl⟩
  · have hf : firstException (gs.map FullGroup.out) err = err := by
      have := findErr_groups gs []
      simp only [List.append_nil, List.findSome?_nil] at this
      rw [firstException, this]; rfl
    rw [hf]
    cases err with
    | none =>
      rw [parts_complete fun _ => c!"0"]
      refine ⟨rfl, by simp, ?_⟩
      intro _
      exact depText_file gs
    | some e =>
      by_cases hp : gs = []
      · subst hp
        exact ⟨rfl, fun h => absurd h not_file_nil, by simp⟩
      · obtain ⟨out, h1, h2⟩ := parts_interrupted_group (fun _ => c!"0") hp e (tail := []) (err := some e) (.inr ⟨rfl, rfl⟩)
        rw [List.append_nil] at h1
        rw [h1]
        exact ⟨rfl, fun h => absurd h (not_file_of_closing (h2 ▸ depText_file gs) closing_depth.2), by simp⟩
  · have hf : firstException (pre.map FullGroup.out ++ ⟨c, ch, rs.map .ok ++ .error e :: rest⟩ :: more) err = some e := by
      rw [firstException, List.flatMap_append, findErr_groups, List.flatMap_cons]
      simp only [List.append_assoc]
      rw [findErr_ok]
      rfl
    rw [hf]
    by_cases hr : rs = []
    · subst hr
      by_cases hp : pre = []
      · subst hp
        exact ⟨rfl, fun h => absurd h not_file_nil, by simp⟩
      · obtain ⟨out, h1, h2⟩ := parts_interrupted_group (fun _ => c!"0") hp e
          (tail := ⟨c, ch, .error e :: rest⟩ :: more) (err := err) (.inl ⟨_, _, rfl, rfl⟩)
        simp only [List.map_nil, List.nil_append] at h1 ⊢
        rw [h1]
        exact ⟨rfl, fun h => absurd h (not_file_of_closing (h2 ▸ depText_file pre) closing_depth.2), by simp⟩
    · obtain ⟨out, h1, h2⟩ := parts_interrupted_receipt (fun _ => c!"0") pre c ch hr e rest more err
      rw [h1]
      exact ⟨rfl, fun h => absurd h (not_file_of_closing (h2 ▸ depText_file _) closing_depth.1), by simp⟩

/-- **C105**: if every receipt can be read, the whole text of the document is printed, and a line break. -/
theorem export_complete (ft : F64 → Str) (gs : List FullGroup) :
    printDEP none (gs.map FullGroup.out) = (jsonText ft 0 (depJson gs) ++ ['\n'], none) := by
  rw [printDEP, parts_complete ft]; rfl

theorem printDEP_some {err : Option Err} {gs : List OutGroup} {out : Str} {e : Err}
    (h : exportParts err gs = (out, some e)) : printDEP err gs = (out, some e) := by
  rw [printDEP, h]; rfl

/-- **C105**: the same for programs that print the export and a line break. -/
theorem export_json_iff (gs : List OutGroup) (err : Option Err) :
    (printDEP err gs).2 = firstException gs err ∧ (JsonFile (printDEP err gs).1 ↔ firstException gs err = none) := by
  obtain ⟨h1, h2⟩ := parts_json_iff gs err
  rw [printDEP]
  generalize exportParts err gs = p at h1 h2
  obtain ⟨t, _ | e⟩ := p
  · have h2' := h2.mpr h1.symm
    exact ⟨h1, fun _ => h1.symm, fun _ => h2'.extend (by intro c hc; simp_all)⟩
  · exact ⟨h1, h2⟩

/-! ### csv2json -/

section
variable [PyEnv]

/-- **C105**: `convert.py csv2json` prints the complete text of the document or, if some line is no receipt, a text that is
no JSON and ends with that exception. -/
theorem csv2json_printed (ft : F64 → Str) (text : Str) :
    match csv2json text with
    | none => csv2jsonPrinted text = none
    | some (.ok doc) => csv2jsonPrinted text = some (jsonText ft 0 doc ++ ['\n'], none)
    | some (.error e) => ∃ out, csv2jsonPrinted text = some (out, some e) ∧ ¬ JsonFile out := by
  unfold csv2json csv2jsonPrinted
  cases fileLines text with
  | nil => rfl
  | cons l0 lines =>
    dsimp only
    cases hm : mapRes (fun l => fromCSV (pyStrip l)) lines with
    | ok recs =>
      have hl : (lines.map fun l => (fromCSV (pyStrip l)).map fun r => r.1.toJWS r.2) =
          (recs.map fun r => r.1.toJWS r.2).map .ok := by
        clear l0
        induction lines generalizing recs with
        | nil => simp only [mapRes, Except.ok.injEq] at hm; subst hm; rfl
        | cons l lines ih =>
          simp only [mapRes, Res.bind_eq_ok, Except.ok.injEq] at hm
          obtain ⟨r, h1, rs, h2, rfl⟩ := hm
          simp only [List.map_cons, h1, ih rs h2]
          rfl
      have := export_complete ft [⟨[], [], recs.map fun r => r.1.toJWS r.2⟩]
      simp only [Res.ok_bind, hl]
      simp only [List.map_cons, List.map_nil, FullGroup.out] at this
      rw [this]
      simp [depJson, FullGroup.json, exportDEP, exportGroup, Dict.update, Function.comp_def]
    | error e =>
      simp only [Res.error_bind]
      have hf : firstException [⟨[], [], lines.map fun l => (fromCSV (pyStrip l)).map fun r => r.1.toJWS r.2⟩] none =
          some e := by
        clear l0
        simp only [firstException, List.flatMap_cons, List.flatMap_nil, List.append_nil, Option.or_none]
        induction lines with
        | nil => simp [mapRes] at hm
        | cons l lines ih =>
          rw [mapRes] at hm
          cases h1 : fromCSV (pyStrip l) with
          | error e' =>
            rw [h1] at hm
            simp only [Res.error_bind, Except.error.injEq] at hm
            subst hm
            simp [h1, Except.map]
          | ok r =>
            rw [h1] at hm
            simp only [Res.ok_bind, Res.bind_eq_error] at hm
            rcases hm with hm | ⟨_, _, hm⟩
            · simpa [h1, Except.map] using ih hm
            · simp at hm
      obtain ⟨h1, h2⟩ := export_json_iff [⟨[], [], lines.map fun l => (fromCSV (pyStrip l)).map fun r => r.1.toJWS r.2⟩] none
      rw [hf] at h1 h2
      exact ⟨_, congrArg some (Prod.ext rfl h1), fun h => by simpa using h2.mp h⟩

/-! ### split.py and merge.py -/

/-- The group as it is written. -/
def SGroup.full (g : SGroup (Receipt × Str)) : FullGroup :=
  ⟨match g.cert with | none => [] | some c => exportCertToPEM c, g.chain.map exportCertToPEM, g.recs.map fun r => r.1.toJWS r.2⟩

theorem full_out (g : SGroup (Receipt × Str)) : g.full.out = g.toOut := by
  simp [SGroup.full, FullGroup.out, SGroup.toOut]
  cases g.cert <;> rfl

theorem map_full_out (gs : List (SGroup (Receipt × Str))) : gs.map SGroup.toOut = (gs.map SGroup.full).map FullGroup.out := by
  simp [Function.comp_def, full_out]

theorem depJson_full (gs : List (SGroup (Receipt × Str))) : depJson (gs.map SGroup.full) = exportDEP gs [] := by
  simp only [depJson, exportDEP, Dict.update, List.foldl_nil, List.map_map]
  congr 4
  apply List.map_congr_left
  intro g _
  simp [FullGroup.json, SGroup.full, exportGroup, Function.comp_def]
  cases g.cert <;> rfl

theorem firstException_full (gs : List (SGroup (Receipt × Str))) (err : Option Err) :
    firstException (gs.map SGroup.toOut) err = err := by
  have := findErr_groups (gs.map SGroup.full) []
  simp only [List.append_nil, List.findSome?_nil] at this
  rw [firstException, map_full_out, this]; rfl

theorem adaptPrefix_ok {c : List DepGroup} {gs : List (SGroup (Receipt × Str))} (h : mapRes adaptGroup c = .ok gs) :
    adaptPrefix c = (gs, none) := by
  induction c generalizing gs with
  | nil => simp only [mapRes, Except.ok.injEq] at h; subst h; rfl
  | cons g c ih =>
    simp only [mapRes, Res.bind_eq_ok, Except.ok.injEq] at h
    obtain ⟨s, h1, rs, h2, rfl⟩ := h
    simp [adaptPrefix, h1, ih h2]

theorem adaptPrefix_error {c : List DepGroup} {e : Err} (h : mapRes adaptGroup c = .error e) :
    (adaptPrefix c).2 = some e := by
  induction c with
  | nil => simp [mapRes] at h
  | cons g c ih =>
    rw [mapRes] at h
    cases h1 : adaptGroup g with
    | error e' =>
      rw [h1] at h
      simp only [Res.error_bind, Except.error.injEq] at h
      subst h
      simp [adaptPrefix, h1]
    | ok s =>
      rw [h1] at h
      simp only [Res.ok_bind, Res.bind_eq_error] at h
      rcases h with h | ⟨_, _, h⟩
      · simp [adaptPrefix, h1, ih h]
      · simp at h

theorem parts_full {err : Option Err} (ft : F64 → Str) (gs : List (SGroup (Receipt × Str))) :
    match err with
    | none => exportParts none (gs.map SGroup.toOut) = (jsonText ft 0 (exportDEP gs []), none)
    | some e => ∃ out, exportParts (some e) (gs.map SGroup.toOut) = (out, some e) ∧ ¬ JsonFile out := by
  cases err with
  | none =>
    dsimp only
    rw [map_full_out, parts_complete ft, depJson_full]
  | some e =>
    obtain ⟨h1, h2⟩ := parts_json_iff (gs.map SGroup.toOut) (some e)
    rw [firstException_full] at h1 h2
    exact ⟨_, Prod.ext rfl h1, fun h => by simpa using h2.mp h⟩

theorem splitWritten_eq (ft : F64 → Str) (cs : List Chunk) (err : Option Err) :
    (splitWritten cs err).2 = (splitChunks cs err).2 ∧
    ∃ cut, (splitWritten cs err).1 = (splitChunks cs err).1.map (jsonText ft 0) ++ cut ∧
      (cut = [] ∨ ∃ t, cut = [t] ∧ ¬ JsonFile t ∧ (splitChunks cs err).2 ≠ none) := by
  induction cs with
  | nil => exact ⟨rfl, [], rfl, .inl rfl⟩
  | cons c cs ih =>
    cases hm : mapRes adaptGroup c with
    | ok gs =>
      have h1 := parts_full (err := none) ft gs
      obtain ⟨h2, cut, h3, h4⟩ := ih
      simp only [splitWritten, splitChunks, hm, adaptPrefix_ok hm, h1]
      exact ⟨h2, cut, by simp [h3], h4⟩
    | error e =>
      obtain ⟨out, h1, h2⟩ := parts_full (err := some e) ft (adaptPrefix c).1
      simp only [splitWritten, splitChunks, hm, adaptPrefix_error hm, h1]
      exact ⟨trivial, [out], by simp, .inr ⟨out, rfl, h2, by simp⟩⟩

/-- **C105**: every file `split.py` writes is the complete text of its part of the DEP, except that the last one is no
JSON text if a receipt of that part could not be read; then the program ended with an exception. -/
theorem split_files (ft : F64 → Str) (n : Nat) (doc : Json) :
    (splitWritten (fileParse doc n).chunks (fileParse doc n).err).2 = (splitDEP n doc).2 ∧
    ∃ cut, (splitWritten (fileParse doc n).chunks (fileParse doc n).err).1 = (splitDEP n doc).1.map (jsonText ft 0) ++ cut ∧
      (cut = [] ∨ ∃ t, cut = [t] ∧ ¬ JsonFile t ∧ (splitDEP n doc).2 ≠ none) :=
  splitWritten_eq ft _ _

theorem mergePrefix_eq (csz : Nat) (docs : List Json) :
    match mapRes (fun doc => adaptStream (fileParse doc csz)) docs with
    | .ok gss => mergePrefix csz docs = (gss.flatten, none)
    | .error e => (mergePrefix csz docs).2 = some e := by
  induction docs with
  | nil => rfl
  | cons doc docs ih =>
    rw [mapRes, adaptStream]
    cases hm : mapRes adaptGroup (fileParse doc csz).chunks.flatten with
    | error e =>
      have h1 := adaptPrefix_error hm
      simp only [Res.error_bind, mergePrefix]
      generalize adaptPrefix (fileParse doc csz).chunks.flatten = p at h1
      obtain ⟨gs, _⟩ := p
      subst h1
      rfl
    | ok gs =>
      simp only [Res.ok_bind, mergePrefix, adaptPrefix_ok hm]
      cases (fileParse doc csz).err with
      | some e => rfl
      | none =>
        simp only [Res.ok_bind]
        cases hr : mapRes (fun doc => adaptStream (fileParse doc csz)) docs with
        | ok gss => rw [hr] at ih; dsimp only at ih; simp [ih, Res.ok_bind]
        | error e => rw [hr] at ih; dsimp only at ih; simp [ih, Res.error_bind]

/-- **C105**: `merge.py` prints the complete text of the merged DEP or, if one of the files cannot be read, a text that is no
JSON and ends with that exception. -/
theorem merge_printed (ft : F64 → Str) (merging : Bool) (csz : Nat) (docs : List Json) :
    match mergeDEP merging csz docs with
    | .ok doc => mergePrinted merging csz docs = (jsonText ft 0 doc ++ ['\n'], none)
    | .error e => ∃ out, mergePrinted merging csz docs = (out, some e) ∧ ¬ JsonFile out := by
  have h := mergePrefix_eq csz docs
  rw [mergeDEP]
  cases hm : mapRes (fun doc => adaptStream (fileParse doc csz)) docs with
  | ok gss =>
    rw [hm] at h
    dsimp only at h
    have key : ∀ gs : List (SGroup (Receipt × Str)), printDEP none (gs.map SGroup.toOut) =
        (jsonText ft 0 (exportDEP gs []) ++ ['\n'], none) := by
      intro gs
      rw [map_full_out, export_complete ft, depJson_full]
    simp only [Res.ok_bind, mergePrinted, h]
    cases merging
    · exact key _
    · exact key _
  | error e =>
    rw [hm] at h
    dsimp only at h
    simp only [Res.error_bind, mergePrinted, h]
    have key : ∀ gs err, firstException gs err = some e → ∃ out, printDEP err gs = (out, some e) ∧ ¬ JsonFile out := by
      intro gs err hf
      obtain ⟨h1, h2⟩ := export_json_iff gs err
      rw [hf] at h1 h2
      exact ⟨_, Prod.ext rfl h1, fun h => by simpa using h2.mp h⟩
    cases merging with
    | false => exact key _ _ (firstException_full _ _)
    | true =>
      simp only [if_true]
      rcases List.eq_nil_or_concat ((mergeExport (mergePrefix csz docs).1)) with hn | ⟨l, g, hn⟩
      · rw [hn]
        exact key _ _ rfl
      · rw [hn]
        simp only [List.concat_eq_append, List.map_append, List.map_cons, List.map_nil, List.getLast?_append, List.getLast?_singleton,
          Option.some_or, List.dropLast_concat]
        apply key
        rw [firstException, map_full_out, List.flatMap_append, findErr_groups, List.flatMap_cons, List.flatMap_nil, List.append_nil]
        have := findErr_ok (g.recs.map fun r => r.1.toJWS r.2) [.error e]
        simp only [List.map_map, Function.comp_def] at this
        simp only [SGroup.toOut]
        rw [this]
        rfl

end

end RKSV
