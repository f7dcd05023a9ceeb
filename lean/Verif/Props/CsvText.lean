import Verif.Model.CsvText
import Verif.Props.ExportText
import Verif.Props.Convert
import Verif.Props.LineTools
/-
C106: the text of a CSV export, complete or interrupted.
-/
namespace RKSV

section
variable [PyEnv]

omit [PyEnv] in
theorem forall₂_left {α β : Type} {R : α → β → Prop} {l : List α} {m : List β} (h : List.Forall₂ R l m) :
    ∀ x ∈ l, ∃ y ∈ m, R x y := by
  induction h with
  | nil => simp
  | cons h _ ih =>
    intro x hx
    rcases List.mem_cons.mp hx with rfl | hx
    · exact ⟨_, by simp, h⟩
    · obtain ⟨y, h1, h2⟩ := ih x hx
      exact ⟨y, by simp [h1], h2⟩

theorem csvRows_cases (l : List (Receipt × Str)) :
    (∃ rows, mapRes (fun r : Receipt × Str => r.1.toCSV r.2) l = .ok rows ∧ csvRows l = (rows.flatMap ('\n' :: ·), none)) ∨
    ∃ pre r post rows e, l = pre ++ r :: post ∧ mapRes (fun r : Receipt × Str => r.1.toCSV r.2) pre = .ok rows ∧
      r.1.toCSV r.2 = .error e ∧ csvRows l = (rows.flatMap ('\n' :: ·), some e) := by
  induction l with
  | nil => exact .inl ⟨[], rfl, rfl⟩
  | cons r l ih =>
    cases h : r.1.toCSV r.2 with
    | error e => exact .inr ⟨[], r, l, [], e, rfl, rfl, h, by simp [csvRows, h]⟩
    | ok row =>
      rcases ih with ⟨rows, h1, h2⟩ | ⟨pre, r', post, rows, e, rfl, h1, h2, h3⟩
      · exact .inl ⟨row :: rows, by simp [mapRes, h, h1, Res.ok_bind], by simp [csvRows, h, h2]⟩
      · exact .inr ⟨r :: pre, r', post, row :: rows, e, rfl, by simp [mapRes, h, h1, Res.ok_bind], h2, by
          simp [csvRows, h, h3]⟩

/-- **C106**: if everything can be read, the text printed is the CSV file; otherwise it is the header and the rows of
receipts read before, without the line break at the end, and the program ends with an exception. -/
theorem csv_printed (n : Nat) (doc : Json) :
    (∃ text, json2csv n doc = .ok text ∧ json2csvPrinted n doc = (text, none)) ∨
    ((∃ e, json2csv n doc = .error e) ∧ ∃ e pre rows, json2csvPrinted n doc = (csvHeader ++ rows.flatMap ('\n' :: ·), some e) ∧
      pre <+: ((adaptPrefix (certlessParse doc n).chunks.flatten).1.flatMap (·.recs)) ∧
      List.Forall₂ (fun r row => r.1.toCSV r.2 = .ok row) pre rows) := by
  have hF : ∀ {l : List (Receipt × Str)} {rows}, mapRes (fun r : Receipt × Str => r.1.toCSV r.2) l = .ok rows →
      List.Forall₂ (fun r row => r.1.toCSV r.2 = .ok row) l rows := fun h => mapRes_iff.mp h
  cases hm : mapRes adaptGroup (certlessParse doc n).chunks.flatten with
  | ok gs =>
    have ha := adaptPrefix_ok hm
    cases he : (certlessParse doc n).err with
    | none =>
      rcases csvRows_cases (gs.flatMap (·.recs)) with ⟨rows, h1, h2⟩ | ⟨pre, r, post, rows, e, h0, h1, h2, h3⟩
      · left
        refine ⟨csvHeader ++ rows.flatMap ('\n' :: ·) ++ ['\n'], ?_, ?_⟩
        · simp [json2csv, adaptStream, hm, he, exportCSV, h1, Res.ok_bind]
        · simp [json2csvPrinted, ha, he, h2]
      · right
        refine ⟨?_, e, pre, rows, by simp [json2csvPrinted, ha, he, h3], ?_, hF h1⟩
        · cases hx : mapRes (fun r : Receipt × Str => r.1.toCSV r.2) (gs.flatMap (·.recs)) with
          | error e' => exact ⟨e', by simp [json2csv, adaptStream, hm, he, exportCSV, hx, Res.ok_bind, Res.error_bind]⟩
          | ok rows' =>
            obtain ⟨row, -, h4⟩ := forall₂_left (hF hx) r (by rw [h0]; simp)
            rw [h2] at h4
            cases h4
        · rw [ha]; dsimp only; rw [h0]; exact List.prefix_append _ _
    | some e =>
      right
      refine ⟨⟨e, by simp [json2csv, adaptStream, hm, he, Res.ok_bind, Res.error_bind]⟩, ?_⟩
      rw [ha]
      rcases csvRows_cases (gs.flatMap (·.recs)) with ⟨rows, h1, h2⟩ | ⟨pre, r, post, rows, e', h0, h1, h2, h3⟩
      · exact ⟨e, _, rows, by simp [json2csvPrinted, ha, he, h2], List.prefix_refl _, hF h1⟩
      · exact ⟨e', pre, rows, by simp [json2csvPrinted, ha, he, h3], by dsimp only; rw [h0]; exact List.prefix_append _ _, hF h1⟩
  | error e =>
    right
    have ha := adaptPrefix_error hm
    refine ⟨⟨e, by simp [json2csv, adaptStream, hm, Res.error_bind]⟩, ?_⟩
    rcases csvRows_cases ((adaptPrefix (certlessParse doc n).chunks.flatten).1.flatMap (·.recs)) with
      ⟨rows, h1, h2⟩ | ⟨pre, r, post, rows, e', h0, h1, h2, h3⟩
    · exact ⟨e, _, rows, by simp [json2csvPrinted, ha, h2], List.prefix_refl _, hF h1⟩
    · exact ⟨e', pre, rows, by simp [json2csvPrinted, h3], by rw [h0]; exact List.prefix_append _ _, hF h1⟩

/-- No row ends with a line break. -/
theorem row_end {r : Receipt} {alg row : Str} (h : r.toCSV alg = .ok row) : ∃ a b, row = a ++ b ∧ b ≠ [] ∧ '\n' ∉ b := by
  simp only [Receipt.toCSV, Receipt.toBasic, Res.bind_eq_ok, orErr_eq_ok, Except.ok.injEq] at h
  obtain ⟨_, ⟨sb, -, rfl⟩, rfl⟩ := h
  obtain ⟨p, hp⟩ : ∃ p, r.toPayload alg = '_' :: p := by
    rw [toPayload_eq]
    exact ⟨_, rfl⟩
  refine ⟨replaceChar '_' ';' p, replaceChar '_' ';' ('_' :: b64Encode false sb), by simp [hp, replaceChar],
    by simp [replaceChar], ?_⟩
  intro hm
  simp only [replaceChar, List.mem_map, List.mem_cons] at hm
  obtain ⟨c, hc, he⟩ := hm
  rcases hc with rfl | hc
  · exact absurd he (by decide)
  · split at he
    · exact absurd he (by decide)
    · subst he
      rcases mem_b64Encode hc with h | h <;> exact absurd h (by decide)

/-- **C106**, partial: a complete CSV file ends with a line break, an interrupted one does not.  Missing: that
`csv2json` refuses interrupted files, which is false (`csv_unfinished_accepted`, `Demo.csv_mistaken`). -/
theorem csv_told_apart_partial (n : Nat) (doc : Json) :
    (json2csvPrinted n doc).2 = none ↔ (json2csvPrinted n doc).1.getLast? = some '\n' := by
  rcases csv_printed n doc with ⟨text, h1, h2⟩ | ⟨-, e, pre, rows, h2, -, h3⟩
  · rw [h2]
    simp only [true_iff]
    simp only [json2csv, Res.bind_eq_ok, Except.ok.injEq] at h1
    obtain ⟨_, _, t, _, rfl⟩ := h1
    simp
  · rw [h2]
    simp only [reduceCtorEq, false_iff]
    rcases List.eq_nil_or_concat rows with rfl | ⟨l, row, rfl⟩
    · decide
    · obtain ⟨r, -, hr⟩ := forall₂_mem_right h3 (y := row) (by simp)
      obtain ⟨a, b, rfl, hb, hn⟩ := row_end hr
      have e : csvHeader ++ (l.concat (a ++ b)).flatMap ('\n' :: ·) = (csvHeader ++ l.flatMap ('\n' :: ·) ++ '\n' :: a) ++ b := by
        simp
      rw [e, List.getLast?_append]
      obtain ⟨x, hx⟩ : ∃ x, b.getLast? = some x := ⟨_, List.getLast?_eq_some_getLast hb⟩
      rw [hx]
      simp only [Option.some_or, Option.some.injEq]
      rintro rfl
      exact hn (List.mem_of_getLast? hx)

omit [PyEnv] in
theorem keepLines_last {l : Str} (h : '\n' ∉ l) (h0 : l ≠ []) : keepLines l = [l] := by
  induction l with
  | nil => exact absurd rfl h0
  | cons c l ih =>
    simp only [List.mem_cons, not_or] at h
    rw [keepLines, if_neg (fun e => h.1 e.symm)]
    cases l with
    | nil => rfl
    | cons d l => rw [ih h.2 (by simp)]

theorem unfinished_lines {l : Str} {rows : List Str} (hl : '\n' ∉ l ∧ l ≠ []) (hr : ∀ r ∈ rows, '\n' ∉ r ∧ r ≠ []) :
    ∃ l' ls, keepLines (l ++ rows.flatMap ('\n' :: ·)) = l' :: ls ∧ pyStrip l' = pyStrip l ∧ ls.map pyStrip = rows.map pyStrip := by
  induction rows generalizing l with
  | nil => exact ⟨l, [], by simp [keepLines_last hl.1 hl.2], rfl, rfl⟩
  | cons r rows ih =>
    obtain ⟨l', ls, h1, h2, h3⟩ := ih (hr r (by simp)) fun r h => hr r (by simp [h])
    refine ⟨l ++ ['\n'], l' :: ls, ?_, pyStrip_line _, by simp [h2, h3]⟩
    rw [List.flatMap_cons, List.cons_append, keepLines_line hl.1, h1]

/-- **C106**: but `csv2json` accepts interrupted files as files with the receipts read before. -/
theorem csv_unfinished_accepted {rows : List Str} (hr : ∀ r ∈ rows, OneLine r) {recs : List (Receipt × Str)}
    (h : List.Forall₂ (fun row r => fromCSV row = .ok r) rows recs) :
    csv2json (csvHeader ++ rows.flatMap ('\n' :: ·)) = some (.ok (exportDEP [⟨recs, none, []⟩] [])) := by
  have hne : ∀ r ∈ rows, r ≠ [] := by
    intro r hr he
    obtain ⟨x, -, hx⟩ := forall₂_left h r hr
    subst he
    have : fromCSV [] = .error .malformedReceipt := by rfl
    rw [this] at hx
    cases hx
  have hu : universalNewlines (csvHeader ++ rows.flatMap ('\n' :: ·)) = csvHeader ++ rows.flatMap ('\n' :: ·) := by
    have := universalNewlines_append (s := csvHeader ++ rows.flatMap ('\n' :: ·)) (t := []) (by
      intro hm
      rcases List.mem_append.mp hm with hm | hm
      · exact absurd hm (by decide)
      · obtain ⟨l, hl, hm⟩ := List.mem_flatMap.mp hm
        rcases List.mem_cons.mp hm with hm | hm
        · exact absurd hm (by decide)
        · exact (hr l hl).2 hm)
    simpa [universalNewlines] using this
  obtain ⟨l', ls, h1, -, h3⟩ := unfinished_lines (l := csvHeader) (rows := rows) (by decide) fun r h => ⟨(hr r h).1, hne r h⟩
  unfold csv2json fileLines
  rw [hu, h1]
  have : mapRes (fun l => fromCSV (pyStrip l)) ls = .ok recs := by
    clear h1 hu hne hr
    induction h generalizing ls with
    | nil => cases ls with
      | nil => rfl
      | cons => simp at h3
    | cons hx _ ih =>
      cases ls with
      | nil => simp at h3
      | cons l ls =>
        simp only [List.map_cons, List.cons.injEq] at h3
        rw [mapRes, h3.1, fromCSV_strip, hx, Res.ok_bind, ih ls h3.2]
        rfl
  simp [this, Res.ok_bind]

end

namespace Demo
attribute [local instance] env

/-- A DEP of two groups; the receipt of the second one cannot be read. -/
def brokenDoc : Json := .obj [(kGroups, .arr [
  .obj [(kCert, .str []), (kCerts, .arr []), (kRecs, .arr [.str (receipt.toJWS R1)])],
  .obj [(kCert, .str []), (kCerts, .arr []), (kRecs, .arr [.str c!"a.b.c"])]])]

set_option maxRecDepth 100000 in
/-- C106 is false as it stands: the text printed until the exception is a CSV file of the first receipt for `csv2json`. -/
theorem csv_mistaken : ∃ out e, json2csvPrinted 0 brokenDoc = (out, some e) ∧
    csv2json out = some (.ok (exportDEP [⟨[(receipt, R1)], none, []⟩] [])) := by
  refine ⟨csvHeader ++ [trickRow receipt.receiptId].flatMap ('\n' :: ·), (json2csvPrinted 0 brokenDoc).2.getD .malformedDEP,
    ?_, csv_unfinished_accepted ?_ (.cons ?_ .nil)⟩
  · have h1 : (json2csvPrinted 0 brokenDoc).1 = csvHeader ++ [trickRow receipt.receiptId].flatMap ('\n' :: ·) := by decide +kernel
    have h2 : (json2csvPrinted 0 brokenDoc).2 = some ((json2csvPrinted 0 brokenDoc).2.getD .malformedDEP) := by decide +kernel
    exact Prod.ext h1 h2
  · intro r hr
    simp only [List.mem_singleton] at hr
    subst hr
    constructor <;> decide +kernel
  · decide +kernel

end Demo

end RKSV
