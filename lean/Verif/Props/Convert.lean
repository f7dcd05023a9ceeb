import Verif.Props.SplitMerge
import Verif.Props.StateTool
import Verif.Lemmas.Lines
/-
Property C78: converting DEPs to CSV and back.
-/
namespace RKSV

section
variable [PyEnv]

omit [PyEnv] in
theorem mem_joinWith_cases {sep c : Char} {ss : List Str} (h : c ∈ joinWith sep ss) : c = sep ∨ ∃ s ∈ ss, c ∈ s := by
  induction ss with
  | nil => simp [joinWith] at h
  | cons s t ih =>
    cases t with
    | nil =>
      simp only [joinWith] at h
      exact .inr ⟨s, by simp, h⟩
    | cons u v =>
      simp only [joinWith, List.mem_append, List.mem_cons] at h
      rcases h with h | rfl | h
      · exact .inr ⟨s, by simp, h⟩
      · exact .inl rfl
      · rcases ih h with e | ⟨s', hs', hc⟩
        · exact .inl e
        · exact .inr ⟨s', List.mem_cons_of_mem _ hs', hc⟩

/-- Line breaks in what is written come from the fields. -/
theorem basic_oneLine {r : Receipt} {alg code : Str} (h : Parsed r alg) (hl : ∀ s ∈ r.texts, OneLine s)
    (hc : r.toBasic alg = .ok code) : OneLine code := by
  obtain ⟨g, rfl⟩ := h.good
  obtain ⟨sb, hsb⟩ := Option.isSome_iff_exists.mp g.sig
  rw [toBasic_eq hsb] at hc
  cases hc
  have key : ∀ c, c ∈ r.toPayload R1 ++ '_' :: b64Encode false sb →
      isB64 false c = true ∨ c = '=' ∨ c = '_' ∨ c = '-' ∨ ∃ s ∈ r.texts, c ∈ s := by
    intro c hc
    simp only [List.mem_append, List.mem_cons] at hc
    rcases hc with hc | rfl | hc
    · rw [toPayload_eq] at hc
      rcases mem_joinWith_cases hc with rfl | ⟨s, hs, hc⟩
      · simp
      · simp only [List.mem_cons, Fields.segs, List.not_mem_nil, or_false] at hs
        rcases hs with rfl | rfl | hs
        · simp at hc
        · simp only [List.mem_append, R1, List.mem_cons, List.not_mem_nil, or_false] at hc
          rcases hc with (rfl | rfl) | rfl | hc
          · exact .inl (by decide)
          · exact .inl (by decide)
          · simp
          · exact .inr (.inr (.inr (.inr ⟨r.zda, by simp [Receipt.texts], hc⟩)))
        · exact .inr (.inr (.inr (.inr ⟨s, by
            simp only [Receipt.texts, List.mem_cons, List.not_mem_nil, or_false]
            tauto, hc⟩)))
    · simp
    · unfold b64Encode at hc
      rcases List.mem_append.mp hc with h | h
      · exact .inl (isB64_of_mem_b64Text h)
      · exact .inr (.inl (List.eq_of_mem_replicate h))
  constructor <;> intro hm
  · rcases key _ hm with h | h | h | h | ⟨s, hs, h⟩
    · exact absurd h (by decide)
    · exact absurd h (by decide)
    · exact absurd h (by decide)
    · exact absurd h (by decide)
    · exact (hl s hs).1 h
  · rcases key _ hm with h | h | h | h | ⟨s, hs, h⟩
    · exact absurd h (by decide)
    · exact absurd h (by decide)
    · exact absurd h (by decide)
    · exact absurd h (by decide)
    · exact (hl s hs).2 h

theorem csv_oneLine {r : Receipt} {alg row : Str} (h : Parsed r alg) (hl : ∀ s ∈ r.texts, OneLine s)
    (hc : r.toCSV alg = .ok row) : OneLine row := by
  simp only [Receipt.toCSV, Res.bind_eq_ok, Except.ok.injEq] at hc
  obtain ⟨code, h1, rfl⟩ := hc
  have h2 := basic_oneLine h hl h1
  have key : ∀ c, c ≠ ';' → c ∈ replaceChar '_' ';' (code.drop 1) → c ∈ code := by
    intro c hne hc
    obtain ⟨d, hd, e⟩ := List.mem_map.mp hc
    split at e
    · exact absurd e.symm hne
    · exact e ▸ List.mem_of_mem_drop hd
  exact ⟨fun hm => h2.1 (key _ (by decide) hm), fun hm => h2.2 (key _ (by decide) hm)⟩

/-- Every receipt can be written as a CSV row. -/
theorem csv_total {r : Receipt} {alg : Str} (h : Parsed r alg) : ∃ row, r.toCSV alg = .ok row := by
  obtain ⟨g, rfl⟩ := h.good
  obtain ⟨sb, hsb⟩ := Option.isSome_iff_exists.mp g.sig
  exact ⟨_, by rw [Receipt.toCSV, toBasic_eq hsb, Res.ok_bind]⟩

/-- What the parser without certificates yields: the receipts of the DEP. -/
theorem certless_receipts {doc : Json} {gs : List DepGroup} (h : DepJson doc gs) (hp : PlainDoc doc)
    (hsome : ∃ g ∈ gs, g.recs ≠ []) (n : Nat) :
    (certlessParse doc n).err = none ∧ depReceipts (certlessParse doc n).chunks.flatten = depReceipts gs := by
  obtain ⟨h1, h2, -, -⟩ := parse_chained h hsome (n := n) (nparts := 1) (s := fileParse doc n) (.inr ⟨hp, rfl⟩)
  obtain ⟨k1, k2⟩ := certless_parse h1
  refine ⟨k1, ?_⟩
  have hr : ∀ l : List DepGroup, depReceipts l = (chainedDep l).map (·.1) := by
    intro l
    simp [depReceipts, chainedDep, List.map_flatMap, Function.comp_def]
  have ht : ∀ cs : List Chunk, depReceipts cs.flatten = (cs.map Chunk.texts).flatten.flatten := by
    intro cs
    induction cs with
    | nil => rfl
    | cons c cs ih =>
      rw [List.flatten_cons, List.map_cons, List.flatten_cons, List.flatten_append, ← ih]
      simp [depReceipts, Chunk.texts, List.flatMap_def]
  rw [ht, k2, ← ht, hr, h2, ← hr]

/-- Groups of receipts that are read. -/
theorem adapt_reads {l : List DepGroup} {gs : List (SGroup (Receipt × Str))} (h : mapRes adaptGroup l = .ok gs) :
    List.Forall₂ (fun b r => ReadsAs b r.1 r.2) (depReceipts l) (gs.flatMap (·.recs)) := by
  have h1 := adapt_chained h
  have e1 : depReceipts l = (chainedDep l).map (·.1) := by
    simp [depReceipts, chainedDep, List.map_flatMap, Function.comp_def]
  have e2 : gs.flatMap (·.recs) = (chained gs).map (·.1) := by
    simp [chained, List.map_flatMap, Function.comp_def]
  rw [e1, e2, List.forall₂_map_left_iff, List.forall₂_map_right_iff]
  exact h1.imp fun _ _ h => h.1

/-- C78: a DEP can be converted to CSV exactly if all its receipts can be read, whatever the certificates; the
file has a header and one row for each receipt, in order. -/
theorem json2csv_iff {doc : Json} {gs : List DepGroup} (h : DepJson doc gs) (hp : PlainDoc doc)
    (hsome : ∃ g ∈ gs, g.recs ≠ []) {n : Nat} {text : Str} :
    json2csv n doc = .ok text ↔ ∃ rows, text = textFile (csvHeader :: rows) ∧
      List.Forall₂ (fun b row => ∃ r alg, ReadsAs b r alg ∧ r.toCSV alg = .ok row) (depReceipts gs) rows := by
  obtain ⟨h1, h2⟩ := certless_receipts h hp hsome n
  have htext : ∀ rows : List Str, csvHeader ++ rows.flatMap ('\n' :: ·) ++ ['\n'] = textFile (csvHeader :: rows) := by
    intro rows
    have : ∀ x : Str, x ++ rows.flatMap ('\n' :: ·) ++ ['\n'] = x ++ '\n' :: rows.flatMap (· ++ ['\n']) := by
      induction rows with
      | nil => intro x; simp
      | cons r rs ih =>
        intro x
        have := ih (x ++ '\n' :: r)
        simp only [List.flatMap_cons, List.append_assoc, List.cons_append, List.nil_append] at this ⊢
        exact this
    rw [this]
    simp [textFile]
  constructor
  · intro hx
    simp only [json2csv, adaptStream, exportCSV, Res.bind_eq_ok, h1, Except.ok.injEq] at hx
    obtain ⟨gs', ⟨gs'', ha, e⟩, _, ⟨rows, hrows, rfl⟩, rfl⟩ := hx
    subst e
    refine ⟨rows, htext rows, ?_⟩
    have hr := adapt_reads ha
    rw [h2] at hr
    have hw := mapRes_iff.mp hrows
    clear * - hr hw
    generalize depReceipts gs = B at hr
    generalize gs''.flatMap (·.recs) = R at hr hw
    induction hr generalizing rows with
    | nil => cases hw; exact .nil
    | cons a _ ih =>
      cases hw with
      | cons b hw => exact .cons ⟨_, _, a, b⟩ (ih _ hw)
  · rintro ⟨rows, rfl, hr⟩
    have htot : ∀ g ∈ (certlessParse doc n).chunks.flatten, ∀ b ∈ g.recs, ∃ r alg, ReadsAs b r alg := by
      intro g hg b hb
      have : b ∈ depReceipts (certlessParse doc n).chunks.flatten := List.mem_flatMap.mpr ⟨g, hg, hb⟩
      rw [h2] at this
      obtain ⟨_, -, r, alg, h, -⟩ := forall₂_mem_right hr.flip this
      exact ⟨r, alg, h⟩
    obtain ⟨all, hall⟩ := adapt_total htot
    have ha := adapt_reads hall
    rw [h2] at ha
    have hrows : mapRes (fun r : Receipt × Str => r.1.toCSV r.2) (all.flatMap (·.recs)) = .ok rows := by
      rw [mapRes_iff]
      clear * - hr ha
      generalize depReceipts gs = B at hr ha
      generalize all.flatMap (·.recs) = R at ha
      induction ha generalizing rows with
      | nil => cases hr; exact .nil
      | @cons b x B R a _ ih =>
        cases hr with
        | cons k hr =>
          obtain ⟨r, alg, h1, h2⟩ := k
          obtain ⟨x1, x2⟩ := x
          obtain ⟨rfl, rfl⟩ := a.det h1
          exact .cons h2 (ih _ hr)
    simp only [json2csv, adaptStream, exportCSV, hall, h1, hrows, Res.ok_bind, htext]

/-- C78: which DEP is made from a CSV file.  The header may be any line; outer white space does not matter. -/
theorem csv2json_iff {header : Str} {rows : List Str} (h0 : OneLine header) (hr : ∀ r ∈ rows, OneLine r)
    {text : Str} (ht : text = textFile (header :: rows) ∨ text = windowsFile (header :: rows)) {out : Json} :
    csv2json text = some (.ok out) ↔ ∃ recs, List.Forall₂ (fun row r => fromCSV row = .ok r) rows recs ∧
      out = exportDEP [⟨recs, none, []⟩] [] := by
  have hl : fileLines text = (header ++ ['\n']) :: rows.map (· ++ ['\n']) := by
    have hall : ∀ l ∈ header :: rows, OneLine l := by
      intro l hl
      rcases List.mem_cons.mp hl with rfl | hl
      · exact h0
      · exact hr l hl
    rcases ht with rfl | rfl
    · rw [fileLines_textFile hall]; rfl
    · rw [fileLines_windows hall, fileLines_textFile hall]; rfl
  have hm : mapRes (fun l => fromCSV (pyStrip l)) (rows.map (· ++ ['\n'])) = mapRes fromCSV rows := by
    clear hl ht hr
    induction rows with
    | nil => rfl
    | cons r rs ih => 
      have e : fromCSV (pyStrip (r ++ ['\n'])) = fromCSV r := by rw [pyStrip_line, fromCSV_strip]
      simp only [List.map_cons, mapRes]
      rw [ih, e]
  unfold csv2json
  rw [hl]
  simp only [hm, Option.some.injEq, Res.bind_eq_ok, mapRes_iff, Except.ok.injEq]
  constructor
  · rintro ⟨recs, h, rfl⟩; exact ⟨recs, h, rfl⟩
  · rintro ⟨recs, h, rfl⟩; exact ⟨recs, h, rfl⟩

/-- An empty input is an error; a file with just a header gives a DEP without receipts. -/
theorem csv2json_empty : csv2json [] = none := rfl

theorem csv_receipt_back {r : Receipt} {alg : Str} (h : Parsed r alg) (hp : CsvPlain r) :
    ∃ row sig, r.toCSV alg = .ok row ∧ OneLine row ∧ b64Decode true (restorePad r.signature) = some sig ∧
      fromCSV row = .ok ({ r with signature := b64Text true sig }, alg) := by
  obtain ⟨row, sig, h1, h2, h3⟩ := csv_round_trip_partial h hp.registerId hp.receiptId hp.outer
  exact ⟨row, sig, h1, csv_oneLine h hp.line h1, h2, h3⟩

/-- C78, partial: converting a DEP to CSV and back keeps all receipts in order, in one group without
certificates; a receipt keeps its text if that is canonical.  Missing: receipts whose fields have semicolons, line
breaks or outer white space, for which the claim is false (`csv_two_for_one`). -/
theorem convert_round_trip_partial {doc : Json} {gs : List DepGroup} (h : DepJson doc gs) (hp : PlainDoc doc)
    (hsome : ∃ g ∈ gs, g.recs ≠ []) (n : Nat)
    (hread : ∀ b ∈ depReceipts gs, ∃ r alg, ReadsAs b r alg ∧ CsvPlain r) :
    ∃ text out recs, json2csv n doc = .ok text ∧ csv2json text = some (.ok out) ∧ PlainDoc out ∧
      DepJson out [⟨recs, none, []⟩] ∧ List.Forall₂ SameUpToSignature (depReceipts gs) recs ∧
      ((∀ b ∈ depReceipts gs, ∃ t r alg, b = utf8Enc t ∧ CanonicalJWS t ∧ fromJWS t = .ok (r, alg) ∧
        CanonicalB64 r.signature) → recs = depReceipts gs) := by
  have key : ∀ B : List Bytes, (∀ b ∈ B, ∃ r alg, ReadsAs b r alg ∧ CsvPlain r) →
      ∃ (rows : List Str) (recs : List (Receipt × Str)),
        List.Forall₂ (fun b row => ∃ r alg, ReadsAs b r alg ∧ r.toCSV alg = .ok row) B rows ∧
        (∀ r ∈ rows, OneLine r) ∧ List.Forall₂ (fun row r => fromCSV row = .ok r) rows recs ∧
        (∀ r ∈ recs, Parsed r.1 r.2) ∧
        List.Forall₂ (fun b r => ∃ r' sig, ReadsAs b r' r.2 ∧ b64Decode true (restorePad r'.signature) = some sig ∧
          r.1 = { r' with signature := b64Text true sig }) B recs := by
    intro B
    induction B with
    | nil => intro _; exact ⟨[], [], .nil, by simp, .nil, by simp, .nil⟩
    | cons b B ih =>
      intro hB
      obtain ⟨rows, recs, h1, h2, h3, h4, h5⟩ := ih fun b hb => hB b (by simp [hb])
      obtain ⟨r, alg, hr, hc⟩ := hB b (by simp)
      obtain ⟨row, sig, k1, k2, k3, k4⟩ := csv_receipt_back hr.parsed hc
      refine ⟨row :: rows, _ :: recs, .cons ⟨r, alg, hr, k1⟩ h1, ?_, .cons k4 h3, ?_,
        .cons ⟨r, sig, hr, k3, rfl⟩ h5⟩
      · intro x hx
        rcases List.mem_cons.mp hx with rfl | hx
        · exact k2
        · exact h2 x hx
      · intro x hx
        rcases List.mem_cons.mp hx with rfl | hx
        · exact .csv row k4
        · exact h4 x hx
  obtain ⟨rows, recs, h1, h2, h3, h4, h5⟩ := key _ hread
  have hx : (c!"Belege-Gruppe" : Str) ∉ Dict.keys ([] : Dict Json) := by simp [Dict.keys]
  have hk : ∀ k ∈ Dict.keys ([] : Dict Json), k ≠ [] ∧ '.' ∉ k := by simp [Dict.keys]
  refine ⟨_, _, recs.map fun r => utf8Enc (r.1.toJWS r.2), (json2csv_iff h hp hsome).mpr ⟨rows, rfl, h1⟩,
    (csv2json_iff (by constructor <;> decide) h2 (.inl rfl)).mpr ⟨recs, h3, rfl⟩, export_plain _ hx hk, ?_, ?_, ?_⟩
  · have := export_json (gs := [⟨recs, none, []⟩]) (by
      intro g hg c hc
      simp only [List.mem_singleton] at hg
      subst hg
      cases hc) hx
    simpa [SGroup.toDep] using this
  · rw [List.forall₂_map_right_iff]
    clear h1 h2 h3 hread
    generalize depReceipts gs = B at h5
    induction h5 with
    | nil => exact .nil
    | @cons b r B recs a _ ih =>
      obtain ⟨r', sig, k1, k2, k3⟩ := a
      refine .cons ⟨r', r.2, sig, k1, k2, ?_⟩ (ih fun r hr => h4 r (by simp [hr]))
      rw [← k3]
      exact readsAs_toJWS (h4 r (by simp))
  · intro hcan
    clear h1 h2 h3 hread
    generalize depReceipts gs = B at h5 hcan
    induction h5 with
    | nil => rfl
    | @cons b r B recs a _ ih =>
      rw [List.map_cons, ih (fun r hr => h4 r (by simp [hr])) (fun b hb => hcan b (by simp [hb]))]
      congr 1
      obtain ⟨r', sig, k1, k2, k3⟩ := a
      obtain ⟨t, r'', alg, rfl, c1, c2, c3⟩ := hcan b (by simp)
      obtain ⟨rfl, e⟩ := k1.det ⟨t, rfl, c2⟩
      rw [k3, canonical_sig c3 k2, e]
      rw [(jws_string_round_trip c2).mpr c1]

/-! ### The verdict on a converted DEP -/

/-- A receipt that passes with one verifier passes with a key store that has the same key for it. -/
theorem checkSigned_store {v : Verifier} (hv : v.cert ≠ none ∨ v.keyStore ≠ none) {ks : KeyStore} {t : Str}
    (hk : ∀ r alg, fromJWS t = .ok (r, alg) → r.signature ≠ failureMark → ∀ k, KeyFor v r k →
      KeyFor (.fromKeyStore ks) r k) {nr : Bool} {p : Option Receipt} {x : Receipt × Bool}
    (h : checkSigned v nr p t = .ok x) : checkSigned (.fromKeyStore ks) nr p t = .ok x := by
  cases hf : fromJWS t with
  | error e =>
    have : ∀ v : Verifier, v.verifyJWS t = .error e := fun v => (unparsable_is_rejected v t e).1 hf
    unfold checkSigned at h ⊢
    rw [this] at h ⊢
    exact h
  | ok y =>
    obtain ⟨r, alg⟩ := y
    have hp : Parsed r alg := .jws t hf
    have hj : ∀ v : Verifier, v.verifyJWS t = v.verify r alg := fun v => by
      rw [Verifier.verifyJWS, hf, Res.ok_bind]
    have hno : ¬WrongCert (.fromKeyStore ks) r := by
      rintro ⟨c, hc, -⟩
      cases hc
    obtain ⟨e1, e2, e3, e4⟩ := verify_errors hp hv
    have e2' := (verify_errors hp (v := .fromKeyStore ks) (.inr (by simp [Verifier.fromKeyStore]))).2.1 hno
    have same : ∀ z, v.verify r alg = z → (∀ e, z = .error e → e = .signatureSystemFailed ∨ e = .unsignedNullReceipt) →
        Verifier.verify (.fromKeyStore ks) r alg = z := by
      intro z hz hok
      by_cases hw : WrongCert v r
      · rw [e1 hw] at hz
        have := hok _ hz.symm
        simp at this
      by_cases hm : r.signature = failureMark
      · rw [e2' hm, ← hz, e2 hw hm]
      by_cases hex : ∃ k, KeyFor v r k
      · obtain ⟨k, hkk⟩ := hex
        by_cases hs : SignatureValid r k
        · rw [← hz, (receipt_accepted_iff hp).mpr ⟨hm, k, hkk, hs⟩,
            (receipt_accepted_iff hp).mpr ⟨hm, k, hk r alg hf hm k hkk, hs⟩]
        · rw [e4 hm k hkk hs] at hz
          have := hok _ hz.symm
          simp at this
      · rw [e3 hw hm hex] at hz
        have := hok _ hz.symm
        simp at this
    unfold checkSigned at h ⊢
    rw [hj] at h ⊢
    cases hz : v.verify r alg with
    | ok z =>
      rw [same _ hz (by simp)]
      rw [hz] at h
      exact h
    | error e =>
      rw [hz] at h
      simp only at h
      by_cases he : e = .signatureSystemFailed ∨ e = .unsignedNullReceipt
      · rw [same _ hz (by rintro _ ⟨⟩; exact he)]
        exact h
      · rw [if_neg he] at h
        cases h

/-- The same for a list of receipts. -/
theorem singles_store {ks : KeyStore} {key : Option Bytes} {ps : Option Str} {F : List (Bytes × Verifier)}
    (hF : ∀ y ∈ F, (y.2.cert ≠ none ∨ y.2.keyStore ≠ none) ∧ ∀ r alg, ReadsAs y.1 r alg → r.signature ≠ failureMark →
      ∀ k, KeyFor y.2 r k → KeyFor (.fromKeyStore ks) r k)
    {s : RegState} {used : Used} {x : RegState × Used}
    (h : verifyGroups key ps s used (F.map single) = .ok x) :
    verifyGroups key ps s used ((F.map fun y => (y.1, Verifier.fromKeyStore ks)).map single) = .ok x := by
  induction F generalizing s used with
  | nil => exact h
  | cons y F ih =>
    simp only [List.map_cons, single, verifyGroups, Res.bind_eq_ok] at h ⊢
    obtain ⟨⟨s1, u1⟩, h1, h2⟩ := h
    refine ⟨(s1, u1), ?_, ih (fun y hy => hF y (by simp [hy])) h2⟩
    obtain ⟨hv, hk⟩ := hF y (by simp)
    simp only [verifyGroup, runGroup, Res.bind_eq_ok] at h1 ⊢
    obtain ⟨po, k1, l, ⟨l', k2, k3⟩, k4⟩ := h1
    refine ⟨po, k1, l, ⟨l', ?_, k3⟩, k4⟩
    simp only [stepGroup, Res.bind_eq_ok] at k2 ⊢
    obtain ⟨t, m1, y', m2, m3⟩ := k2
    refine ⟨t, m1, y', checkSigned_store hv (fun r alg hf => hk r alg ⟨t, ?_, hf⟩) m2, m3⟩
    exact expandReceipt_iff.mp m1

/-- C78: a DEP that is accepted is still accepted, with the same result, after conversion to CSV and back, if the key
store has the keys of the certificates that are lost, and the receipts are written canonically. -/
theorem convert_accepted {doc : Json} {gs : List DepGroup} (h : DepJson doc gs) (hp : PlainDoc doc)
    (hsome : ∃ g ∈ gs, g.recs ≠ []) (n : Nat)
    (hread : ∀ b ∈ depReceipts gs, ∃ t r alg, b = utf8Enc t ∧ CanonicalJWS t ∧ fromJWS t = .ok (r, alg) ∧
      CanonicalB64 r.signature ∧ CsvPlain r)
    {ks : KeyStore} (hks : ∀ g ∈ gs, ∀ c, g.cert = some c → ∀ b ∈ g.recs, ∀ r alg, ReadsAs b r alg →
      r.signature ≠ failureMark → KeyFor (.fromKeyStore ks) r (publicKey c)) :
    ∃ text out, json2csv n doc = .ok text ∧ csv2json text = some (.ok out) ∧
      ∀ (key : Option Bytes) (c c' : Cluster) (idx : Option Int),
        verifyDEP ks key c idx (dictParse 1 doc 0) = (c', .ok ()) →
        verifyDEP ks key c idx (dictParse 1 out 0) = (c', .ok ()) := by
  obtain ⟨text, out, recs, h1, h2, -, h4, -, h6⟩ := convert_round_trip_partial h hp hsome n (fun b hb => by
    obtain ⟨t, r, alg, rfl, -, h2, -, h4⟩ := hread b hb
    exact ⟨r, alg, ⟨t, rfl, h2⟩, h4⟩)
  have hrecs : recs = depReceipts gs := h6 fun b hb => by
    obtain ⟨t, r, alg, k1, k2, k3, k4, -⟩ := hread b hb
    exact ⟨t, r, alg, k1, k2, k3, k4⟩
  subst hrecs
  refine ⟨text, out, h1, h2, fun key c c' idx hv => ?_⟩
  have hne : depReceipts gs ≠ [] := by
    obtain ⟨g, hg, hr⟩ := hsome
    obtain ⟨b, hb⟩ := List.exists_mem_of_ne_nil _ hr
    exact List.ne_nil_of_mem (List.mem_flatMap.mpr ⟨g, hg, hb⟩)
  rw [dict_chunks_zero h (le_refl _) hsome] at hv
  rw [dict_chunks_zero h4 (le_refl _) ⟨_, List.mem_singleton.mpr rfl, hne⟩]
  have hfl : ((gs.filter fun g => g.recs ≠ []).map fun g => [g]).flatten = gs.filter fun g => g.recs ≠ [] := by
    rw [← List.flatMap_def, List.flatMap_singleton']
  have hf1 : ([⟨depReceipts gs, none, []⟩] : List DepGroup).filter (fun g => g.recs ≠ []) =
      [⟨depReceipts gs, none, []⟩] := by simp [hne]
  rw [hf1]
  simp only [verifyDEP_iff, hfl, true_and, List.map_cons, List.map_nil, List.flatten_cons, List.flatten_nil,
    List.append_nil] at hv ⊢
  obtain ⟨c₁, ps, s, P, s', u', i, k1, k2, k3, k4⟩ := hv
  refine ⟨c₁, ps, s, [(depReceipts gs, .fromKeyStore ks)], s', u', i, k1, rfl, ?_, k4⟩
  have hm := (packageChunk_iff.mp k2).2
  have hPne : ∀ p ∈ P, p.1 ≠ [] := by
    intro p hp
    obtain ⟨g, hg, e⟩ := forall₂_mem_right (mapRes_iff.mp hm) hp
    rw [(packageOne_iff.mp e).1]
    simpa using (List.mem_filter.mp hg).2
  rw [groups_spread hPne] at k3
  rw [groups_spread (by simpa using hne)]
  have hspread : spread [(depReceipts gs, Verifier.fromKeyStore ks)] =
      (spread P).map fun y => (y.1, Verifier.fromKeyStore ks) := by
    have e1 : (spread P).map (·.1) = depReceipts gs := by
      have : depReceipts gs = depReceipts (gs.filter fun g => g.recs ≠ []) := by
        have := congrArg (List.map (·.1)) (chainedDep_filter gs)
        simpa [depReceipts, chainedDep, List.map_flatMap, Function.comp_def] using this.symm
      rw [this]
      have hm' := mapRes_iff.mp hm
      clear * - hm'
      generalize (gs.filter fun g => g.recs ≠ []) = L at hm'
      induction hm' with
      | nil => rfl
      | @cons g p L P a _ ih =>
        simp only [spread, depReceipts, List.flatMap_cons, List.map_append] at ih ⊢
        rw [ih, (packageOne_iff.mp a).1]
        simp [Function.comp_def]
    rw [← e1]
    simp [spread, List.map_flatMap, Function.comp_def]
  rw [hspread]
  refine singles_store (fun y hy => ?_) k3
  obtain ⟨p, hp', hy⟩ := List.mem_flatMap.mp hy
  obtain ⟨b, hb, rfl⟩ := List.mem_map.mp hy
  obtain ⟨⟨recs, cert, chain⟩, hg, e⟩ := forall₂_mem_right (mapRes_iff.mp hm) hp'
  obtain ⟨hg, -⟩ := List.mem_filter.mp hg
  have hb' := (packageOne_iff.mp e).1 ▸ hb
  simp only at hb'
  cases cert with
  | none =>
    simp only [packageOne, Except.ok.injEq] at e
    subst e
    exact ⟨.inr (by simp [Verifier.fromKeyStore]), fun _ _ _ _ _ hk => hk⟩
  | some cc =>
    simp only [packageOne, Res.bind_eq_ok, Except.ok.injEq] at e
    obtain ⟨-, -, rfl⟩ := e
    refine ⟨.inl (by simp [Verifier.fromCert]), fun r alg hr hm k hk => ?_⟩
    have := hks _ hg cc rfl b hb' r alg hr hm
    have hkk : k = publicKey cc := by
      cases hk with
      | closedCert c _ hc hk => cases hc; exact hk
      | openCert c _ hc _ hk => cases hc; exact hk
      | closedStore _ _ hc => cases hc
      | openStoreHex _ _ _ hc => cases hc
      | openStoreDec _ _ _ hc => cases hc
    rw [hkk]
    exact this

end

namespace Demo

attribute [local instance] env

/-- A receipt text meets the conditions of `convert_accepted`. -/
def plainText (t : Str) : Bool :=
  match fromJWS t with
  | .error _ => false
  | .ok (r, alg) =>
    decide (r.toJWS alg = t) && (';' ∉ r.registerId) && (';' ∉ r.receiptId) &&
    (r.texts.all fun s => decide ('\n' ∉ s) && decide ('\r' ∉ s) &&
      decide (∀ c ∈ s.head?, isSpace c = false) && decide (∀ c ∈ s.getLast?, isSpace c = false)) &&
    (match b64Decode true (restorePad r.signature) with
      | some b => decide (b64Text true b = r.signature)
      | none => false) &&
    (decide (r.signature = failureMark) || match (Verifier.fromKeyStore deviceStore).selectKey r with
      | .ok (some k) => decide (@Eq Bytes k (publicKey device))
      | _ => false)

theorem plainText_spec {t : Str} (h : plainText t = true) : ∃ r alg, CanonicalJWS t ∧ fromJWS t = .ok (r, alg) ∧
    CanonicalB64 r.signature ∧ CsvPlain r ∧
    (r.signature ≠ failureMark → KeyFor (.fromKeyStore deviceStore) r (publicKey device)) := by
  unfold plainText at h
  cases hf : fromJWS t with
  | error e => rw [hf] at h; cases h
  | ok x =>
    obtain ⟨r, alg⟩ := x
    rw [hf] at h
    simp only [Bool.and_eq_true, decide_eq_true_eq, List.all_eq_true] at h
    obtain ⟨⟨⟨⟨⟨h1, h2⟩, h3⟩, h4⟩, h5⟩, h6⟩ := h
    refine ⟨r, alg, (jws_string_round_trip hf).mp h1, rfl, ?_, ⟨h2, h3, fun s hs => ?_, fun s hs => ?_⟩, fun hm => ?_⟩
    · split at h5
      · rename_i b _; exact ⟨b, by simpa using (of_decide_eq_true h5).symm⟩
      · cases h5
    · obtain ⟨⟨⟨-, -⟩, a⟩, b⟩ := h4 s hs
      exact ⟨fun c hc => a c hc, fun c hc => b c hc⟩
    · obtain ⟨⟨⟨a, b⟩, -⟩, -⟩ := h4 s hs
      exact ⟨a, b⟩
    · simp only [Bool.or_eq_true, decide_eq_true_eq] at h6
      rcases h6 with h6 | h6
      · exact absurd h6 hm
      · have hp : Parsed r alg := .jws t hf
        rw [← selectKey_iff hp.good.1.serial_ne]
        split at h6
        · rename_i k hk
          rw [hk, of_decide_eq_true h6]
        · cases h6

set_option maxRecDepth 100000 in
theorem texts_plain : ∀ t ∈ texts, plainText t = true := by decide +kernel

theorem day_receipts : depReceipts dayGroups = texts.map utf8Enc := by
  simp only [depReceipts, dayGroups, List.flatMap_cons, List.flatMap_nil, List.append_nil]
  rw [← List.map_append, List.take_append_drop]

/-- The day of the register is accepted after conversion to CSV and back. -/
example : ∃ text out, json2csv 2 dayDoc = .ok text ∧ csv2json text = some (.ok out) ∧
    verifyDEP deviceStore (some aes) empty none (dictParse 1 out 0) = (⟨[final], .unique ids⟩, .ok ()) := by
  obtain ⟨text, out, h1, h2, h3⟩ := convert_accepted dayDoc_json dayDoc_plain day_some 2 (ks := deviceStore)
    (fun b hb => by
      rw [day_receipts] at hb
      obtain ⟨t, ht, rfl⟩ := List.mem_map.mp hb
      obtain ⟨r, alg, k1, k2, k3, k4, -⟩ := plainText_spec (texts_plain t ht)
      exact ⟨t, r, alg, rfl, k1, k2, k3, k4⟩)
    (fun g hg c hc b hb r alg hr hm => by
      have hb' : b ∈ depReceipts dayGroups := List.mem_flatMap.mpr ⟨g, hg, hb⟩
      rw [day_receipts] at hb'
      obtain ⟨t, ht, rfl⟩ := List.mem_map.mp hb'
      obtain ⟨r', alg', -, k2, -, -, k5⟩ := plainText_spec (texts_plain t ht)
      obtain ⟨rfl, rfl⟩ := hr.det ⟨t, rfl, k2⟩
      simp only [dayGroups, List.mem_cons, List.not_mem_nil, or_false] at hg
      rcases hg with rfl | rfl <;> cases hc <;> exact k5 hm)
  exact ⟨text, out, h1, h2, h3 _ _ _ _ dayDoc_ok⟩

/-- A receipt whose ID spells the end of one CSV row and the beginning of another. -/
def trickReceipt : Receipt := { receipt with
  receiptId := c!"a;2020-01-02T03:04:05;0,00;0,00;0,00;0,00;-0,00;AAAAAAA=;1f-k;AAAAAAAAAAA=;AQID\nR1-AT1;reg;b" }

def trickRow (id : Str) : Str :=
  c!"R1-AT1;reg;" ++ id ++ c!";2020-01-02T03:04:05;0,00;0,00;0,00;0,00;-0,00;AAAAAAA=;1f-k;AAAAAAAAAAA=;AQID"

theorem trick_parsed : Parsed trickReceipt R1 :=
  .basic (c!"_R1-AT1_reg_" ++ trickReceipt.receiptId ++
    c!"_2020-01-02T03:04:05_0,00_0,00_0,00_0,00_-0,00_AAAAAAA=_1f-k_AAAAAAAAAAA=_AQID") (by decide +kernel)

/-- C78 is false: a DEP with a single receipt, converted to CSV and back, has two receipts, and neither is the
one it had. -/
theorem csv_two_for_one : ∃ text, json2csv 0 (exportDEP [⟨[(trickReceipt, R1)], none, []⟩] []) = .ok text ∧
    csv2json text = some (.ok (exportDEP [⟨[({ receipt with receiptId := c!"a" }, R1),
      ({ receipt with receiptId := c!"b" }, R1)], none, []⟩] [])) := by
  have hx : (c!"Belege-Gruppe" : Str) ∉ Dict.keys ([] : Dict Json) := by simp [Dict.keys]
  have hk : ∀ k ∈ Dict.keys ([] : Dict Json), k ≠ [] ∧ '.' ∉ k := by simp [Dict.keys]
  have hj := export_json (gs := [⟨[(trickReceipt, R1)], none, []⟩]) (by
      intro g hg c hc
      simp only [List.mem_singleton] at hg
      subst hg
      cases hc) hx
  have ha : OneLine (trickRow c!"a") := by constructor <;> decide +kernel
  have hb : OneLine (trickRow c!"b") := by constructor <;> decide +kernel
  refine ⟨textFile [csvHeader, trickRow c!"a", trickRow c!"b"],
    (json2csv_iff hj (export_plain _ hx hk) ⟨_, List.mem_singleton.mpr rfl, by simp [SGroup.toDep]⟩).mpr
      ⟨[trickRow c!"a" ++ '\n' :: trickRow c!"b"], by simp [textFile],
        .cons ⟨_, _, readsAs_toJWS trick_parsed, by decide +kernel⟩ .nil⟩,
    (csv2json_iff (header := csvHeader) (rows := [trickRow c!"a", trickRow c!"b"]) (by constructor <;> decide)
      (by intro r hr; simp only [List.mem_cons, List.not_mem_nil, or_false] at hr; rcases hr with rfl | rfl <;> assumption)
      (.inl rfl)).mpr ⟨_, .cons ?_ (.cons ?_ .nil), rfl⟩⟩
  · decide +kernel
  · decide +kernel

end Demo

end RKSV
