import Verif.Model.JsonLoad
import Verif.Props.Accept
/-
Property C97: texts in which keys are repeated.
-/
namespace RKSV

/-! ### What is read from a text -/

theorem readJsonItems_eq (l : List Json) : readJsonItems l = l.map readJsonStream := by
  induction l with
  | nil => rfl
  | cons j l ih => simp [readJsonItems, ih]

theorem readJsonPairs_get? (acc : Dict Json) (d : List (Str × Json)) (k : Str) :
    (readJsonPairs acc d).get? k =
      ((Dict.get? (α := Json) d.reverse k).map readJsonStream).or (acc.get? k) := by
  induction d generalizing acc with
  | nil => simp [readJsonPairs, Dict.get?]
  | cons p d ih =>
    obtain ⟨k', v⟩ := p
    have happ : ∀ a : Dict Json, Dict.get? (a ++ [(k', v)]) k = (a.get? k).or (if k' = k then some v else none) := by
      intro a
      induction a with
      | nil => simp [Dict.get?]
      | cons q a iha =>
        obtain ⟨k2, v2⟩ := q
        simp only [List.cons_append, Dict.get?]
        split
        · rfl
        · exact iha
    rw [readJsonPairs, ih, Dict.get?_set, List.reverse_cons, happ]
    cases h : Dict.get? d.reverse k with
    | some x => simp
    | none => by_cases e : k' = k <;> simp [e]

theorem readJsonPairs_ok (acc : Dict Json) (h : acc.Ok) (d : List (Str × Json)) : (readJsonPairs acc d).Ok := by
  induction d generalizing acc with
  | nil => exact h
  | cons p d ih =>
    obtain ⟨k, v⟩ := p
    exact ih _ (h.set k _)

theorem get?_reverse {d : Dict Json} {k : Str} (h : d.keys.count k ≤ 1) : Dict.get? d.reverse k = d.get? k := by
  cases hv : d.get? k with
  | some v =>
    refine get?_of_count ?_ (List.mem_reverse.mpr (Dict.mem_of_get? hv))
    have : Dict.keys d.reverse = (Dict.keys d).reverse := by simp [Dict.keys]
    rw [this, List.count_reverse]
    exact h
  | none =>
    by_contra hne
    have h1 := Dict.mem_keys_iff.mpr (Option.isSome_iff_ne_none.mpr hne)
    have h2 : k ∈ Dict.keys d := by
      simp only [Dict.keys, List.map_reverse, List.mem_reverse] at h1
      exact h1
    rw [Dict.mem_keys_iff, hv] at h2
    cases h2

theorem readJson_get? {d : Dict Json} {k : Str} (h : d.keys.count k ≤ 1) :
    Dict.get? (readJsonPairs [] d) k = (d.get? k).map readJsonStream := by
  rw [readJsonPairs_get?, get?_reverse h]
  simp [Dict.get?]

theorem readJson_str {j : Json} {s : Str} : readJsonStream j = .str s ↔ j = .str s := by
  cases j <;> simp [readJsonStream]

theorem readJson_strs {j : Json} {l : List Str} : readJsonStream j = .arr (l.map .str) ↔ j = .arr (l.map .str) := by
  have key : ∀ (js : List Json) (l : List Str), js.map readJsonStream = l.map .str ↔ js = l.map .str := by
    intro js
    induction js with
    | nil => intro l; cases l <;> simp
    | cons j js ih =>
      intro l
      cases l with
      | nil => simp
      | cons s l => simp [readJson_str, ih]
  cases j <;> simp [readJsonStream, readJsonItems_eq, key]

section
variable [PyEnv]

theorem readJson_group {d : Dict Json} (h : ∀ k, GroupElem k → d.keys.count k ≤ 1) {g : DepGroup} :
    GroupJson (.obj (readJsonPairs [] d)) g ↔ GroupJson (.obj d) g := by
  have hg : ∀ {k : Str} {v : Json}, GroupElem k → (Dict.get? (readJsonPairs [] d) k = some v ↔
      ∃ w, d.get? k = some w ∧ readJsonStream w = v) := by
    intro k v hk
    rw [readJson_get? (h k hk), Option.map_eq_some_iff]
  constructor
  · intro hj
    cases hj with
    | mk _ rs s cs cert chain hr hs hc h1 h2 =>
      obtain ⟨v1, e1, r1⟩ := (hg (.inl rfl)).mp hr
      obtain ⟨v2, e2, r2⟩ := (hg (.inr (.inl rfl))).mp hs
      obtain ⟨v3, e3, r3⟩ := (hg (.inr (.inr rfl))).mp hc
      rw [readJson_strs.mp r1] at e1
      rw [readJson_str.mp r2] at e2
      rw [readJson_strs.mp r3] at e3
      exact .mk d rs s cs cert chain e1 e2 e3 h1 h2
  · intro hj
    cases hj with
    | mk _ rs s cs cert chain hr hs hc h1 h2 =>
      exact .mk _ rs s cs cert chain ((hg (.inl rfl)).mpr ⟨_, hr, readJson_strs.mpr rfl⟩)
        ((hg (.inr (.inl rfl))).mpr ⟨_, hs, readJson_str.mpr rfl⟩)
        ((hg (.inr (.inr rfl))).mpr ⟨_, hc, readJson_strs.mpr rfl⟩) h1 h2

/-- If no element is repeated, a text is a DEP exactly if the value read from it is one. -/
theorem readJson_dep {text : Json} (h : Unrepeated text) {gs : List DepGroup} :
    DepJson (readJsonStream text) gs ↔ DepJson text gs := by
  have hgroups : ∀ (js : List Json) (gs : List DepGroup), (∀ d, Json.obj d ∈ js → ∀ k, GroupElem k → (Dict.keys d).count k ≤ 1) →
      (List.Forall₂ GroupJson (js.map readJsonStream) gs ↔ List.Forall₂ GroupJson js gs) := by
    intro js gs hd
    rw [List.forall₂_map_left_iff]
    have hone : ∀ j ∈ js, ∀ g, GroupJson (readJsonStream j) g ↔ GroupJson j g := by
      intro j hj g
      cases j with
      | obj d => exact readJson_group (hd d hj)
      | _ => constructor <;> (intro h; cases h)
    clear hd
    induction js generalizing gs with
    | nil => cases gs <;> simp
    | cons j js ih =>
      cases gs with
      | nil => simp
      | cons g gs =>
        rw [List.forall₂_cons, List.forall₂_cons]
        exact and_congr (hone j (by simp) g) (ih gs fun j hj => hone j (by simp [hj]))
  cases text with
  | obj root =>
    obtain ⟨h1, -⟩ := h root rfl
    constructor
    · intro hd
      generalize he : readJsonStream (.obj root) = x at hd
      cases hd with
      | mk r js gs hr hg =>
        simp only [readJsonStream, Json.obj.injEq] at he
        subst he
        rw [readJson_get? h1, Option.map_eq_some_iff] at hr
        obtain ⟨v, hv, e⟩ := hr
        cases v with
        | arr js' =>
          simp only [readJsonStream, readJsonItems_eq, Json.arr.injEq] at e
          subst e
          exact .mk root js' gs hv ((hgroups _ _ fun d hd => h.elems (Dict.mem_of_get? hv) hd).mp hg)
        | _ => simp [readJsonStream] at e
    · intro hd
      cases hd with
      | mk r js gs hr hg =>
        rw [readJsonStream]
        refine .mk _ (js.map readJsonStream) gs ?_ ((hgroups _ _ fun d hd => h.elems (Dict.mem_of_get? hr) hd).mpr hg)
        rw [readJson_get? h1, hr]
        simp [readJsonStream, readJsonItems_eq]
  | _ => constructor <;> (intro h; cases h)

/-! ### The parsers -/

theorem text_accepts {text : Json} (hp : PlainKeys text) (hu : Unrepeated text) {gs : List DepGroup}
    (hgs : DepJson text gs) (hsome : ∃ g ∈ gs, g.recs ≠ []) (n : Nat) : (fileParse text n).err = none := by
  by_cases hn : n = 0
  · subst hn
    rw [text_single_chunk hgs hp hu hsome]
  · obtain ⟨chunks, Ts, h1, -⟩ := dict_chunks hgs (nparts := 1) hn hsome
    rw [text_eq_dict (nparts := 1) hgs hp hu hn, h1]

/-- C97: whatever the text, the parser for files accepts it exactly if no element of a DEP is repeated in it and the value
`json.load` makes of it is a DEP with receipts. -/
theorem text_accepted_iff {text : Json} (hp : PlainKeys text) (n : Nat) :
    (fileParse text n).err = none ↔
      Unrepeated text ∧ ∃ gs, DepJson (readJsonStream text) gs ∧ ∃ g ∈ gs, g.recs ≠ [] := by
  constructor
  · intro h
    obtain ⟨hu, gs, hgs, hsome⟩ := inc_accepts_text hp h
    exact ⟨hu, gs, (readJson_dep hu).mpr hgs, hsome⟩
  · rintro ⟨hu, gs, hgs, hsome⟩
    exact text_accepts hp hu ((readJson_dep hu).mp hgs) hsome n

/-- C97: so does the parser that needs no certificates. -/
theorem text_certless_iff {text : Json} (hp : PlainKeys text) (n : Nat) :
    (certlessParse text n).err = none ↔
      Unrepeated text ∧ ∃ gs, DepJson (readJsonStream text) gs ∧ ∃ g ∈ gs, g.recs ≠ [] := by
  constructor
  · intro h
    obtain ⟨hu, gs, hgs, hsome⟩ := inc_accepts_text hp h
    exact ⟨hu, gs, (readJson_dep hu).mpr hgs, hsome⟩
  · intro h
    exact (alike_parse (fun _ => ⟨none, rfl⟩) ((text_accepted_iff hp n).mpr h)).1

/-- C97: the parser for streams accepts no other texts. -/
theorem text_stream_only {text : Json} (hp : PlainKeys text) {n : Nat} (h : (streamParse text n).err = none) :
    Unrepeated text ∧ ∃ gs, DepJson (readJsonStream text) gs ∧ ∃ g ∈ gs, g.recs ≠ [] := by
  obtain ⟨hu, gs, hgs, hsome⟩ := inc_accepts_text hp h
  exact ⟨hu, gs, (readJson_dep hu).mpr hgs, hsome⟩

/-- C97: a text the parser for files accepts yields the chunks that are made of the value `json.load` makes of it. -/
theorem text_same_chunks {text : Json} (hp : PlainKeys text) {nparts n : Nat} (hn : n ≠ 0)
    (h : (fileParse text n).err = none) : fileParse text n = fullFileParse nparts text n := by
  obtain ⟨hu, gs, hgs, hsome⟩ := inc_accepts_text hp h
  rw [text_eq_dict (nparts := nparts) hgs hp hu hn, fullFileParse, dictParse_json hgs hn,
    dictParse_json ((readJson_dep hu).mpr hgs) hn]

omit [PyEnv] in
theorem get?_append (a b : Dict Json) (k : Str) : Dict.get? (a ++ b) k = (a.get? k).or (b.get? k) := by
  induction a with
  | nil => simp [Dict.get?]
  | cons q a ih =>
    obtain ⟨k2, v2⟩ := q
    simp only [List.cons_append, Dict.get?]
    split
    · rfl
    · exact ih

omit [PyEnv] in
theorem overridden_get? {a b : Dict Json} {k : Str} {v : Json} (h : k ∈ b.keys) (k' : Str) :
    Dict.get? (readJsonPairs [] (a ++ (k, v) :: b)) k' = Dict.get? (readJsonPairs [] (a ++ b)) k' := by
  rw [readJsonPairs_get?, readJsonPairs_get?]
  congr 2
  rw [List.reverse_append, List.reverse_append, List.reverse_cons, List.append_assoc, get?_append, get?_append b.reverse]
  cases hb : Dict.get? b.reverse k' with
  | some x => rfl
  | none =>
    simp only [Option.none_or, List.singleton_append, Dict.get?]
    rw [if_neg]
    rintro rfl
    have h1 : k ∈ Dict.keys b.reverse := by
      simp only [Dict.keys, List.map_reverse, List.mem_reverse]
      exact h
    rw [Dict.mem_keys_iff, hb] at h1
    cases h1

theorem dictParse_congr {r r' : Dict Json} {js js' : List Json} (h : r.get? kGroups = some (.arr js))
    (h' : r'.get? kGroups = some (.arr js'))
    (hj : List.Forall₂ (fun j j' => parseDEPGroup j = parseDEPGroup j' ∧ recsInGroup j = recsInGroup j') js js')
    (nparts n : Nat) : dictParse nparts (.obj r) n = dictParse nparts (.obj r') n := by
  have h1 : totalRecs js = totalRecs js' := by
    unfold totalRecs
    congr 1
    induction hj generalizing r r' with
    | nil => rfl
    | cons a _ ih => simp only [List.map_cons, a.2]; rw [ih (r := [(kGroups, _)]) (r' := [(kGroups, _)]) rfl rfl]
  have h2 : groupPerChunk js = groupPerChunk js' := by
    clear h h' h1
    induction hj with
    | nil => rfl
    | cons a _ ih => simp only [groupPerChunk, a.1, ih]
  have h3 : ∀ n f, groupChunkGen n f js = groupChunkGen n f js' := by
    clear h h' h1 h2
    intro n f
    induction hj generalizing f with
    | nil => rfl
    | cons a _ ih => simp only [groupChunkGen, a.1, ih]
  simp only [dictParse, Json.asObj, h, h']
  cases hj with
  | nil => rfl
  | cons a l => simp only [h1, h2, h3]

theorem dictParse_root {r r' : Dict Json} (h : r.get? kGroups = r'.get? kGroups) (nparts n : Nat) :
    dictParse nparts (.obj r) n = dictParse nparts (.obj r') n := by
  simp only [dictParse, Json.asObj, h]

/-- C97: of several elements of the root with the same key, the parser that reads the whole file takes the last one, without
an error for the others. -/
theorem full_root_overridden (nparts n : Nat) (a b : Dict Json) (k : Str) (v : Json) (h : k ∈ b.keys) :
    fullFileParse nparts (.obj (a ++ (k, v) :: b)) n = fullFileParse nparts (.obj (a ++ b)) n := by
  simp only [fullFileParse, readJsonStream]
  exact dictParse_root (overridden_get? h _) nparts n

/-- C97: so it does for the elements of any group. -/
theorem full_group_overridden (nparts n : Nat) (root root' : Dict Json) (js js' : List Json) (a b : Dict Json) (k : Str)
    (v : Json) (h : k ∈ b.keys) :
    fullFileParse nparts (.obj (root ++ (c!"Belege-Gruppe", .arr (js ++ .obj (a ++ (k, v) :: b) :: js')) :: root')) n =
      fullFileParse nparts (.obj (root ++ (c!"Belege-Gruppe", .arr (js ++ .obj (a ++ b) :: js')) :: root')) n := by
  simp only [fullFileParse, readJsonStream]
  have hlast : ∀ w, Dict.get? (readJsonPairs [] (root ++ (kGroups, w) :: root')) kGroups =
      ((Dict.get? root'.reverse kGroups).or (some w)).map readJsonStream := by
    intro w
    rw [readJsonPairs_get?, List.reverse_append, List.reverse_cons, List.append_assoc, get?_append]
    cases Dict.get? root'.reverse kGroups <;> simp [Dict.get?]
  cases hr : Dict.get? root'.reverse kGroups with
  | some w =>
    refine dictParse_root ?_ nparts n
    have e1 := hlast (.arr (js ++ .obj (a ++ (k, v) :: b) :: js'))
    have e2 := hlast (.arr (js ++ .obj (a ++ b) :: js'))
    rw [hr] at e1 e2
    exact e1.trans e2.symm
  | none =>
    have e1 := hlast (.arr (js ++ .obj (a ++ (k, v) :: b) :: js'))
    have e2 := hlast (.arr (js ++ .obj (a ++ b) :: js'))
    rw [hr] at e1 e2
    simp only [Option.none_or, Option.map_some, readJsonStream, readJsonItems_eq, List.map_append, List.map_cons] at e1 e2
    refine dictParse_congr e1 e2 (List.rel_append (List.forall₂_same.mpr fun j _ => ⟨rfl, rfl⟩)
      (.cons ⟨?_, ?_⟩ (List.forall₂_same.mpr fun j _ => ⟨rfl, rfl⟩))) nparts n
    · simp only [parseDEPGroup, Json.asObj, orErr, Res.ok_bind, overridden_get? h]
    · simp only [recsInGroup, Json.asObj, overridden_get? h]

/-- C97: of several lists of groups, it takes the last one. -/
theorem full_takes_last (nparts n : Nat) (pre post : Dict Json) (v : Json) (h : c!"Belege-Gruppe" ∉ post.keys) :
    fullFileParse nparts (.obj (pre ++ (c!"Belege-Gruppe", v) :: post)) n =
      fullFileParse nparts (.obj [(c!"Belege-Gruppe", v)]) n := by
  simp only [fullFileParse, readJsonStream]
  refine dictParse_root ?_ nparts n
  have hnone : Dict.get? post.reverse kGroups = none := by
    by_contra hne
    have h1 := Dict.mem_keys_iff.mpr (Option.isSome_iff_ne_none.mpr hne)
    simp only [Dict.keys, List.map_reverse, List.mem_reverse] at h1
    exact h h1
  rw [readJsonPairs_get?, readJsonPairs_get?, List.reverse_append, List.reverse_cons, List.append_assoc, get?_append, hnone]
  simp [Dict.get?, kGroups]

end

namespace Demo

attribute [local instance] env

/-- The DEP of the other examples, after a list of groups without any receipts; other elements are repeated, too. -/
def twice : Json := .obj [(kGroups, .arr [groupOf (names [c!"z"]) [] []]), (c!"x", .null), (kGroups, .arr docGroups),
  (c!"x", .int 1)]

/-- The same without the first list. -/
def noted : Json := .obj [(c!"x", .null), (kGroups, .arr docGroups), (c!"x", .int 1)]

theorem twice_keys : PlainKeys twice := by
  rintro root e k hk
  cases e
  revert k
  decide +kernel

theorem noted_keys : PlainKeys noted := by
  rintro root e k hk
  cases e
  revert k
  decide +kernel

theorem noted_unrepeated : Unrepeated noted := by
  rintro root e
  cases e
  refine ⟨by decide +kernel, ?_⟩
  intro js hj d hd
  have : js = docGroups := by
    simp [kGroups] at hj
    exact hj
  subst this
  simp only [docGroups, groupRecsFirst, groupOf, List.mem_cons, List.not_mem_nil, or_false, Json.obj.injEq] at hd
  rcases hd with rfl | rfl | rfl <;> decide +kernel

/-- An element that is no part of a DEP may be repeated. -/
theorem noted_accepted (n : Nat) : (fileParse noted n).err = none := by
  refine (text_accepted_iff noted_keys n).mpr ⟨noted_unrepeated, parsed, (readJson_dep noted_unrepeated).mpr ?_, _,
    List.mem_cons_self, by simp⟩
  have h := doc_json
  cases h with
  | mk _ js gs h hg => exact .mk _ js _ h hg

/-- A repeated list of groups is refused by the parser for files, while the parser that reads the whole file takes the last
one. -/
theorem twice_differs (n : Nat) (hn : n ≠ 0) :
    (fileParse twice n).err ≠ none ∧ fullFileParse 1 twice n = fileParse noted n ∧ (fileParse noted n).err = none := by
  refine ⟨?_, ?_, noted_accepted n⟩
  · intro h
    obtain ⟨hu, -⟩ := (text_accepted_iff twice_keys n).mp h
    have := (hu _ rfl).1
    revert this
    decide +kernel
  · rw [text_same_chunks (nparts := 1) noted_keys hn (noted_accepted n)]
    exact (full_takes_last 1 n [(kGroups, .arr [groupOf (names [c!"z"]) [] []]), (c!"x", .null)] [(c!"x", .int 1)]
      (.arr docGroups) (by decide +kernel)).trans (full_takes_last 1 n [(c!"x", .null)] [(c!"x", .int 1)]
      (.arr docGroups) (by decide +kernel)).symm

/-- The same for the elements of a group. -/
theorem group_twice_differs :
    (fileParse (.obj [(kGroups, .arr [.obj [(kRecs, names [c!"z"]), (kCert, .str []), (kCerts, names []),
      (kRecs, names [c!"a"])]])]) 5).err = some .malformedDEP ∧
    fullFileParse 1 (.obj [(kGroups, .arr [.obj [(kRecs, names [c!"z"]), (kCert, .str []), (kCerts, names []),
      (kRecs, names [c!"a"])]])]) 5 = ⟨[[⟨[utf8Enc c!"a"], none, []⟩]], none⟩ := by
  decide +kernel

end Demo

end RKSV
