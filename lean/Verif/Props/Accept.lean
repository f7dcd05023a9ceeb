import Verif.Props.DepParser
import Verif.Lemmas.IncAccept
import Verif.Lemmas.Certless
/-
Property C73: which documents the parsers accept.
-/
namespace RKSV

section
variable [PyEnv]

/-- Whatever certificates they are supplied with, the incremental parsers accept nothing but DEPs with receipts without
repeated elements. -/
theorem inc_accepts_text {need : Nat → Res (Option (Option Cert × List Cert))} {doc : Json} (hp : PlainKeys doc) {n : Nat}
    (h : (incParse need n false (doc.events [])).err = none) :
    Unrepeated doc ∧ ∃ gs, DepJson doc gs ∧ ∃ g ∈ gs, g.recs ≠ [] := by
  obtain ⟨⟨gs, hgs⟩, r0, js0, hdoc, hcount, hmem, hel⟩ := incParse_accepts (fun root e k hk => (hp root e k hk).1) h
  have hun : Unrepeated doc := by
    rintro root rfl
    cases hdoc
    refine ⟨by rw [show c!"Belege-Gruppe" = kGroups from rfl, hcount], ?_⟩
    intro js hj d hd
    have e1 := get?_of_count (by rw [hcount]) hmem
    have e2 := get?_of_count (by rw [show c!"Belege-Gruppe" = kGroups from rfl, hcount]) hj
    rw [show c!"Belege-Gruppe" = kGroups from rfl, e1] at e2
    cases e2
    obtain ⟨d', e, c1, c2, c3⟩ := hel _ hd
    cases e
    exact ⟨Nat.le_of_eq c1, Nat.le_of_eq c2, Nat.le_of_eq c3⟩
  refine ⟨hun, gs, hgs, ?_⟩
  clear hel hmem hcount hdoc
  by_contra hnone
  push Not at hnone
  let need' : Nat → Res (Option (Option Cert × List Cert)) := fun i =>
    match gs[i]? with
    | some g => .ok (some (g.cert, g.chain))
    | none => .ok none
  have hneed : ∀ i, ∃ x, need' i = .ok x := fun i => by
    show ∃ x, (match gs[i]? with | some g => _ | none => _ : Res (Option (Option Cert × List Cert))) = _
    split <;> exact ⟨_, rfl⟩
  have h := (alike_parse hneed h).1
  have hsup : ∀ i g, gs[i]? = some g → need' i = .ok (some (g.cert, g.chain)) := fun i g hi => by
    show (match gs[i]? with | some g => _ | none => _ : Res (Option (Option Cert × List Cert))) = _
    rw [hi]
  clear_value need'
  by_cases hn : n = 0
  · subst hn
    have h1 : dictParse 1 doc 1 = _ := dict_no_receipts hgs hnone
    rw [dictParse_json hgs (by decide)] at h1
    obtain ⟨root, js, gs, hr, hg⟩ := hgs
    obtain ⟨out, s3, hrun, hout, hf⟩ := incRun_json (need := need') (n := 1) (by decide) (hun root rfl).1
      (fun k hk => (hp root rfl k hk).1) hr (fun d hd => hun.elems (Dict.mem_of_get? hr) hd) hg
      (fun i g hi => .inl (hsup i g hi))
    have hfin : (Fill.groups 1 ⟨[], [], [], 0⟩ gs).finish = [] := (finish_nil (by decide) gs).mpr hnone
    unfold Fill.finish at hfin
    have hlen : (Fill.groups 1 ⟨[], [], [], 0⟩ gs).len = 0 := by
      by_contra hne
      rw [if_pos (Nat.pos_of_ne_zero hne)] at hfin
      simp at hfin
    rw [hlen, if_neg (by decide), hout] at hfin
    subst hfin
    have hz := PState.run_zero hrun
    have hsz : s3.size = 0 := by
      have := hf.len
      rw [hlen] at this
      omega
    unfold incParse at h
    rw [hz] at h
    simp only [Bool.false_eq_true, if_false] at h
    have hget : (({ s3 with ctl := .root } : PState).getChunk .root).1 = [] := by
      show (if s3.size = 0 then _ else _ : Chunk × PState).1 = _
      rw [if_pos hsz]
    rw [hget] at h
    simp at h
  · have h1 : dictParse 1 doc n = _ := dict_no_receipts hgs hnone
    rw [dictParse_json hgs hn] at h1
    obtain ⟨root, js, gs, hr, hg⟩ := hgs
    rw [incParse_json hn (hun root rfl).1 (fun k hk => (hp root rfl k hk).1) hr
        (fun d hd => hun.elems (Dict.mem_of_get? hr) hd) hg (fun i g hi => .inl (hsup i g hi)),
      if_pos ((finish_nil hn gs).mpr hnone)] at h
    cases h

theorem inc_accepts_only {need : Nat → Res (Option (Option Cert × List Cert))} {doc : Json} (hp : PlainDoc doc) {n : Nat}
    (h : (incParse need n false (doc.events [])).err = none) : ∃ gs, DepJson doc gs ∧ ∃ g ∈ gs, g.recs ≠ [] :=
  (inc_accepts_text hp.keys h).2

/-- C73: the parser for files accepts exactly the DEPs with receipts, for every chunk size. -/
theorem file_accepts_iff {doc : Json} (hp : PlainDoc doc) (n : Nat) :
    (fileParse doc n).err = none ↔ ∃ gs, DepJson doc gs ∧ ∃ g ∈ gs, g.recs ≠ [] := by
  constructor
  · exact inc_accepts_only hp
  · rintro ⟨gs, hgs, hsome⟩
    by_cases hn : n = 0
    · subst hn
      rw [file_single_chunk hgs hp hsome]
    · obtain ⟨chunks, Ts, h1, -⟩ := dict_chunks hgs (nparts := 1) hn hsome
      rw [file_eq_dict (nparts := 1) hgs hp hn, h1]

/-- C73: so does the parser that needs no certificates. -/
theorem certless_accepts_iff {doc : Json} (hp : PlainDoc doc) (n : Nat) :
    (certlessParse doc n).err = none ↔ ∃ gs, DepJson doc gs ∧ ∃ g ∈ gs, g.recs ≠ [] :=
  ⟨inc_accepts_only hp, fun h => (alike_parse (fun _ => ⟨none, rfl⟩) ((file_accepts_iff hp n).mpr h)).1⟩

/-- C73: the parser for streams accepts nothing else. -/
theorem stream_accepts_only {doc : Json} (hp : PlainDoc doc) {n : Nat} (h : (streamParse doc n).err = none) :
    ∃ gs, DepJson doc gs ∧ ∃ g ∈ gs, g.recs ≠ [] :=
  inc_accepts_only hp h

/-- C73: so does the parser for streams, if all groups start with their certificates. -/
theorem stream_accepts_iff_partial {doc : Json} (hp : PlainDoc doc) (hf : CertsFirst doc)
    (hc : ∀ gs, DepJson doc gs → ∀ g ∈ gs, g.cert ≠ none) {n : Nat} (hn : n ≠ 0) :
    (streamParse doc n).err = none ↔ ∃ gs, DepJson doc gs ∧ ∃ g ∈ gs, g.recs ≠ [] := by
  constructor
  · intro h
    obtain ⟨⟨gs, hgs⟩, -⟩ := incParse_accepts (by
      rintro root rfl k hk
      cases hp with
      | mk _ _ keys _ => exact (keys k hk).1) h
    refine ⟨gs, hgs, ?_⟩
    by_contra hnone
    push Not at hnone
    rw [(stream_eq_dict (nparts := 1) hgs hp hf (hc gs hgs) hn).1, dict_no_receipts hgs hnone] at h
    cases h
  · rintro ⟨gs, hgs, hsome⟩
    obtain ⟨chunks, Ts, h1, -⟩ := dict_chunks hgs (nparts := 1) hn hsome
    rw [(stream_eq_dict (nparts := 1) hgs hp hf (hc gs hgs) hn).1, h1]

omit [PyEnv] in
/-- No group gives its receipts as a text or as a dictionary. -/
def NoTextReceipts (doc : Json) : Prop :=
  ∀ root js d v, doc = .obj root → Dict.get? root c!"Belege-Gruppe" = some (.arr js) → Json.obj d ∈ js →
    Dict.get? d c!"Belege-kompakt" = some v → (∀ s, v ≠ .str s) ∧ ∀ o, v ≠ .obj o

theorem parseDEPGroup_accepts {j : Json} {g : LazyGroup} (h : parseDEPGroup j = .ok g) (he : g.err = none)
    (hno : ∀ d v, j = .obj d → Dict.get? d c!"Belege-kompakt" = some v → (∀ s, v ≠ .str s) ∧ ∀ o, v ≠ .obj o) :
    GroupJson j ⟨g.recs, g.cert, g.chain⟩ := by
  unfold parseDEPGroup at h
  simp only [Res.bind_eq_ok, orErr_eq_ok, Json.asObj_eq_some, Except.ok.injEq] at h
  obtain ⟨d, rfl, jr, hr, jc, hc, jl, hl, x, hx, c, hcs, l, hla, cert, hcert, chain, hchain, rfl⟩ := h
  obtain ⟨n1, n2⟩ := hno d jr rfl hr
  cases jr with
  | str s => exact absurd rfl (n1 s)
  | obj o => exact absurd rfl (n2 o)
  | arr rs =>
    simp only [receiptGen, Except.ok.injEq] at hx
    subst hx
    obtain ⟨rs, rfl, hb⟩ := shrinkAll_none (b := (shrinkAll rs).1) (Prod.ext rfl he)
    obtain ⟨cs, rfl, hch⟩ := parseChain_iff.mp hchain
    cases jc <;> simp only [Json.asStr, reduceCtorEq, Option.some.injEq] at hcs
    cases jl <;> simp only [Json.asArr, reduceCtorEq, Option.some.injEq] at hla
    subst hcs hla
    simp only [hb]
    exact .mk d rs _ cs cert chain hr hc hl (parseOptCert_iff.mp hcert) hch
  | _ => simp only [receiptGen, reduceCtorEq] at hx

theorem groupPerChunk_accepts {js : List Json} (h : (groupPerChunk js).err = none) :
    ∀ j ∈ js, ∃ g, parseDEPGroup j = .ok g ∧ g.err = none := by
  induction js with
  | nil => simp
  | cons j js ih =>
    simp only [groupPerChunk] at h
    cases hp : parseDEPGroup j with
    | error e => rw [hp] at h; cases h
    | ok g =>
      rw [hp] at h
      simp only at h
      cases hg : g.err with
      | some e => rw [hg] at h; cases h
      | none =>
        rw [hg] at h
        simp only at h
        have hrest : (groupPerChunk js).err = none := by
          split at h <;> exact h
        intro k hk
        rcases List.mem_cons.mp hk with rfl | hk
        · exact ⟨g, hp, hg⟩
        · exact ih hrest k hk

theorem groupChunkGen_accepts {n : Nat} {f : Fill} {js : List Json} (h : (groupChunkGen n f js).err = none) :
    ∀ j ∈ js, ∃ g, parseDEPGroup j = .ok g ∧ g.err = none := by
  induction js generalizing f with
  | nil => simp
  | cons j js ih =>
    simp only [groupChunkGen] at h
    cases hp : parseDEPGroup j with
    | error e => rw [hp] at h; cases h
    | ok g =>
      rw [hp] at h
      simp only at h
      cases hg : g.err with
      | some e => rw [hg] at h; cases h
      | none =>
        rw [hg] at h
        simp only at h
        intro k hk
        rcases List.mem_cons.mp hk with rfl | hk
        · exact ⟨g, hp, hg⟩
        · exact ih h k hk

/-- C73: the parser for values in memory accepts exactly the DEPs with receipts, if no group gives its
receipts as a text or a dictionary. -/
theorem dict_accepts_iff_partial {doc : Json} (hno : NoTextReceipts doc) (nparts n : Nat) :
    (dictParse nparts doc n).err = none ↔ ∃ gs, DepJson doc gs ∧ ∃ g ∈ gs, g.recs ≠ [] := by
  constructor
  · intro h
    have hdoc : ∃ gs, DepJson doc gs := by
      unfold dictParse at h
      split at h
      · cases h
      · rename_i root hroot
        rw [Json.asObj_eq_some] at hroot
        subst hroot
        split at h
        · rename_i j js hjs
          have hall : ∀ k ∈ j :: js, ∃ g, parseDEPGroup k = .ok g ∧ g.err = none := by
            have key : ∀ s : Stream, (if s.err = none ∧ s.chunks = [] then ⟨[], some .malformedDEP⟩ else s : Stream).err =
                none → s.err = none := by
              intro s hs
              split at hs
              · cases hs
              · exact hs
            have h := key _ h
            generalize (if 1 < nparts ∧ n = 0 then partSize (totalRecs (j :: js)) nparts else n) = m at h
            by_cases hm : m = 0
            · rw [if_pos hm] at h; exact groupPerChunk_accepts h
            · rw [if_neg hm] at h; exact groupChunkGen_accepts h
          have hall2 : ∀ k ∈ j :: js, ∃ g, GroupJson k g := by
            intro k hk
            obtain ⟨g, h1, h2⟩ := hall k hk
            exact ⟨_, parseDEPGroup_accepts h1 h2 (fun d v e hv => hno root (j :: js) d v rfl hjs (e ▸ hk) hv)⟩
          have : ∀ l : List Json, (∀ k ∈ l, ∃ g, GroupJson k g) → ∃ gs, List.Forall₂ GroupJson l gs := by
            intro l
            induction l with
            | nil => exact fun _ => ⟨[], .nil⟩
            | cons k l ih =>
              intro hl
              obtain ⟨g, hg⟩ := hl k (by simp)
              obtain ⟨gs, hgs⟩ := ih fun k' hk' => hl k' (by simp [hk'])
              exact ⟨g :: gs, .cons hg hgs⟩
          obtain ⟨gs, hgs⟩ := this _ hall2
          exact ⟨gs, .mk root _ gs hjs hgs⟩
        · cases h
    obtain ⟨gs, hgs⟩ := hdoc
    refine ⟨gs, hgs, ?_⟩
    by_contra hnone
    push Not at hnone
    rw [dict_no_receipts hgs hnone] at h
    cases h
  · rintro ⟨gs, hgs, hsome⟩
    by_cases hn : n = 0
    · subst hn
      by_cases hparts : 1 < nparts
      · obtain ⟨m, hm, -, e⟩ := dict_part_size hgs hparts hsome
        obtain ⟨chunks, Ts, h1, -⟩ := dict_chunks hgs (nparts := nparts) hm hsome
        rw [e, h1]
      · rw [dict_chunks_zero hgs (by omega) hsome]
    · obtain ⟨chunks, Ts, h1, -⟩ := dict_chunks hgs (nparts := nparts) hn hsome
      rw [h1]

end

namespace Demo

attribute [local instance] env

/-- The documents of the other examples meet the hypotheses. -/
example (n : Nat) : (fileParse doc n).err = none :=
  (file_accepts_iff doc_plain n).mpr ⟨parsed, doc_json, _, List.mem_cons_self, by simp⟩

/-- A group whose receipts are the keys of a dictionary. -/
def keysDoc : Json := .obj [(kGroups, .arr [groupOf (.obj [(c!"a", .null), (c!"b", .null)]) [] []])]

theorem keysDoc_plain : PlainDoc keysDoc := by
  refine .mk _ (by decide +kernel) ?_ ?_
  · simp only [Dict.keys, List.map_cons, List.map_nil, List.mem_cons, List.not_mem_nil, or_false]
    rintro k rfl
    decide +kernel
  · intro js h d hd
    cases h
    simp only [List.mem_cons, List.not_mem_nil, or_false] at hd
    cases hd
    decide +kernel

/-- The parsers do not accept the same documents: receipts given as a dictionary are taken by the
parser for values in memory and refused by the others. -/
theorem dict_takes_keys :
    dictParse 1 keysDoc 0 = ⟨[[⟨[utf8Enc c!"a", utf8Enc c!"b"], none, []⟩]], none⟩ ∧
    fileParse keysDoc 5 = ⟨[], some .malformedDEP⟩ ∧ ∀ gs, ¬DepJson keysDoc gs := by
  refine ⟨by decide +kernel, by decide +kernel, ?_⟩
  intro gs h
  cases h with
  | mk _ js gs h hg =>
    cases h
    cases hg with
    | cons hg _ =>
      cases hg with
      | mk d rs s cs cert chain hr =>
        cases hr

end Demo

end RKSV
