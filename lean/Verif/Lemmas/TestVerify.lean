import Verif.Model.TestVerify
import Verif.Props.VerifyTool
import Verif.Props.Predict
/-
Lemmas about the test driver: verifying a DEP with and without parsing it first.
-/
namespace RKSV

section
variable [PyEnv]

theorem followIds_reads {g : List Bytes} {h : List Entry} (hr : Reads g h) (used : Used) :
    followIds used g = .ok (addAll used h) := by
  obtain ⟨rfl, hv⟩ := hr
  induction h generalizing used with
  | nil => rfl
  | cons x h ih =>
    have hx : fromJWS x.1 = .ok (x.2, c!"R1") := hv x (by simp)
    simp only [List.map_cons, followIds, expandReceipt, utf8Dec_enc, orErr, Res.ok_bind, hx]
    exact ih _ fun y hy => hv y (by simp [hy])

/-- Without verification, the state of the register and the used IDs are the same. -/
theorem follow_verified {key : Option Bytes} {ps : Option Str} {P : List (List Bytes × Verifier)} (hP : Able P)
    {s s' : RegState} {used used' : Used} (hc : Consistent s) (ok : verifyGroups key ps s used P = .ok (s', used'))
    {gs : List DepGroup} (hg : gs.map (·.recs) = P.map (·.1)) : followGroups key s used gs = .ok (s', used') := by
  induction P generalizing s used gs with
  | nil =>
    cases ok
    simp only [List.map_nil, List.map_eq_nil_iff] at hg
    subst hg
    rfl
  | cons p P ih =>
    obtain ⟨r, v⟩ := p
    cases gs with
    | nil => cases hg
    | cons g gs =>
      simp only [List.map_cons, List.cons.injEq] at hg
      simp only [verifyGroups, Res.bind_eq_ok] at ok
      obtain ⟨⟨s1, u1⟩, h1, h2⟩ := ok
      have hv := hP (r, v) (by simp)
      obtain ⟨saved, h, hs, hr, hall, ha, hu⟩ := (group_accepted_iff (c := ⟨v, key, ps⟩) hv).mp h1
      simp only [followGroups, hg.1, predicted_eq_verified (c := ⟨v, key, ps⟩) hv hc h1, Res.ok_bind,
        followIds_reads hr, ← usedAfter_iff.mp hu]
      exact ih (fun q hq => hP q (by simp [hq])) (consistent_kept (c := ⟨v, key, ps⟩) hv hc h1) h2 hg.2

omit [PyEnv] in
theorem info_known {c : Cluster} {i : Nat} {s : RegState} (h : c.regs[i]? = some s) :
    ∃ ps, Info c (some (i : Int)) c ps s := by
  cases i with
  | zero => exact ⟨none, .first s h⟩
  | succ k =>
    have hk : k < c.regs.length := by
      have := (List.getElem?_eq_some_iff.mp h).1
      omega
    exact ⟨_, .later k c.regs[k] s (List.getElem?_eq_getElem hk) h⟩

omit [PyEnv] in
/-- Asking again for the register gives the same. -/
theorem info_again {c c₁ : Cluster} {i : Nat} {ps : Option Str} {s : RegState} (h : Info c (some (i : Int)) c₁ ps s) :
    Info c₁ (some (i : Int)) c₁ ps s := by
  generalize hx : (some (i : Int) : Option Int) = idx at h
  cases h with
  | new _ h hl =>
    subst hx
    rcases h with h | h
    · cases h
    · simp only [Option.some.injEq, Nat.cast_inj] at h
      subst h
      rcases hr : c.regs.length with _ | k
      · have : c.regs = [] := List.eq_nil_of_length_eq_zero hr
        rw [this]
        exact .first _ (by simp)
      · have hlt : k < c.regs.length := by omega
        have e : c.regs.getLast? = some c.regs[k] := by
          rw [List.getLast?_eq_getElem?, hr, Nat.add_sub_cancel, List.getElem?_eq_getElem hlt]
        rw [e]
        refine .later k c.regs[k] {} ?_ ?_
        · simp [List.getElem?_append_left hlt]
        · simp [← hr]
  | first _ h => exact .first _ h
  | later k p _ hp h => exact .later k p _ hp h

theorem parsed_again {w : Workers} {nprocs : Int} {ks : KeyStore} {key : Option Bytes} {c c₁ : Cluster} {i : Nat}
    {ps : Option Str} {s : RegState} (h : Info c (some (i : Int)) c₁ ps s) (dep : Stream) :
    verifyParsedDEP w nprocs ks key c₁ (some (i : Int)) dep = verifyParsedDEP w nprocs ks key c (some (i : Int)) dep := by
  have hu : c₁.used = c.used := by cases h <;> rfl
  unfold verifyParsedDEP
  rw [getInfo_iff.mpr ⟨h, rfl⟩, getInfo_iff.mpr ⟨info_again h, hu.symm⟩]

theorem sameChunks_self (l : List Chunk) : sameChunks none none l l = .ok true := by
  induction l with
  | nil => rfl
  | cons a l ih => simp [sameChunks, ih]

theorem sameParts_true {dep : Json} {gs : List DepGroup} (h : DepJson dep gs) (hp : PlainDoc dep)
    (hsome : ∃ g ∈ gs, g.recs ≠ []) {l : List Nat} (hl : ∀ n ∈ l, n ≠ 0) : sameParts dep l = .ok true := by
  induction l with
  | nil => rfl
  | cons n l ih =>
    have hn := hl n (by simp)
    have he : (fileParse dep n).err = none := (file_accepts_iff hp n).mpr ⟨gs, h, hsome⟩
    simp only [sameParts, ← file_eq_dict (nparts := 1) h hp hn, he, sameChunks_self, Res.ok_bind, if_true]
    exact ih fun m hm => hl m (by simp [hm])

theorem depRecs_pos {dep : Json} {gs : List DepGroup} (h : DepJson dep gs) (hsome : ∃ g ∈ gs, g.recs ≠ []) :
    depRecs dep ≠ 0 := by
  cases h with
  | mk root js _ hr hg =>
    have hd : depRecs (.obj root) = totalRecs js := by
      simp only [depRecs, Json.asObj]
      rw [show Dict.get? root kGroups = some (.arr js) from hr]
    rw [hd]
    clear hr hd
    induction hg with
    | nil => simp at hsome
    | @cons j g js gs h1 _ ih =>
      rw [totalRecs, List.map_cons, List.sum_cons]
      by_cases hg : g.recs = []
      · obtain ⟨g', hm, hne⟩ := hsome
        have : ∃ g ∈ gs, g.recs ≠ [] := by
          rcases List.mem_cons.mp hm with rfl | hm
          · exact absurd hg hne
          · exact ⟨g', hm, hne⟩
        have := ih this
        unfold totalRecs at this
        omega
      · cases h1 with
        | mk d rs s cs cert chain hr _ _ _ _ =>
          have : recsInGroup (.obj d) = rs.length := by
            simp only [recsInGroup, Json.asObj]
            rw [show Dict.get? d kRecs = some (.arr (rs.map .str)) from hr]
            simp
          rw [this]
          simp only [List.map_eq_nil_iff] at hg
          have := List.length_pos_iff.mpr hg
          omega

theorem testPlain_iff {ks : KeyStore} {key : Option Bytes} {k idx : Nat} {c c' : Cluster} {dep : Json} :
    testPlain ks key k c idx dep = .ok (some c') ↔
      verifyDEP ks key c (some (idx : Int)) (dictParse 1 dep 0) = (c', .ok ()) := by
  unfold testPlain
  split <;> rename_i h <;> rw [h] <;> simp

/-- Verifying a DEP from a file, and all comparisons, succeed exactly if the DEP is accepted, and give the same state. -/
theorem testParsed_iff {d : Driver} (hw : (∃ pick, d.workers = .pool pick) ∨ d.nprocs ≤ 1) {dep : Json} (hd : GoodDoc dep)
    {c : Cluster} (hc : Settled c) {ks : KeyStore} {key : Option Bytes} {k idx : Nat} {c' : Cluster} :
    testParsed d ks key k c idx dep = .ok (some c') ↔ testPlain ks key k c idx dep = .ok (some c') := by
  rw [testPlain_iff]
  have hparsed : ∀ {c'}, verifyParsedDEP d.workers d.nprocs ks key c (some (idx : Int)) (fileParse dep (max 2 (d.draw k))) =
      (c', .ok ()) ↔ verifyDEP ks key c (some (idx : Int)) (dictParse 1 dep 0) = (c', .ok ()) :=
    parsed_mode_iff hd hc hw (file_accepts_iff hd.plain _) fun gs h hs => (mode_chunks hd.plain h hs 1 _).2
  have hback : ∀ {c'}, verifyDEP ks key c (some (idx : Int)) (dictParse 1 dep 0) = (c', .ok ()) → ∀ {c₁ ps s},
      Info c (some (idx : Int)) c₁ ps s → ∃ s' ps', Info c' (some (idx : Int)) c' ps' s' ∧
        followGroups key s c.used (fileParse dep 0).chunks.flatten = .ok (s', c'.used) ∧ (fileParse dep 0).err = none := by
    intro c' hv c₁ ps s hi
    obtain ⟨gs, hgs, hsome⟩ := (dict_accepts_iff_partial hd.arrays 1 0).mp (verifyDEP_iff.mp hv).1
    have hz := dict_chunks_zero hgs (nparts := 1) (le_refl _) hsome
    obtain ⟨-, c₂, ps₂, s₂, P, s', u', i, hi', hp, hvg, hri, hidx, rfl⟩ := verifyDEP_iff.mp hv
    have e := (getInfo_iff.mpr ⟨hi, rfl⟩).symm.trans (getInfo_iff.mpr ⟨hi', rfl⟩)
    simp only [Prod.mk.injEq, Except.ok.injEq, and_true] at e
    obtain ⟨rfl, rfl, rfl⟩ := e
    simp only [Option.some.injEq, Nat.cast_inj, reduceCtorEq, false_and, or_false] at hidx
    subst hidx
    have hlt := (List.getElem?_eq_some_iff.mp hri).1
    obtain ⟨ps', hps⟩ := info_known (c := ⟨c₁.regs.set idx s', u'⟩) (i := idx) (s := s') (by simp [hlt])
    refine ⟨s', ps', hps, ?_, by rw [file_single_chunk hgs hd.plain hsome]⟩
    have hs : Consistent s := by
      rcases hi.reg with h | rfl
      · exact (hc.regs s h).1
      · exact fresh_consistent
    refine follow_verified (packageChunk_able hp) hs hvg ?_
    rw [packageChunk_recs hp, hz, file_single_chunk hgs hd.plain hsome]
    simp only [List.flatten_cons, List.flatten_nil, List.append_nil]
    congr 1
    generalize (gs.filter fun g => g.recs ≠ []) = l
    induction l with
    | nil => rfl
    | cons g l ih => simp [← ih]
  unfold testParsed
  constructor
  · intro h
    rcases hg : c.getInfo (some (idx : Int)) with ⟨c₁, e | ⟨ps, s, u⟩⟩
    · rw [hg] at h
      cases h
    · rw [hg] at h
      obtain ⟨hi, rfl⟩ := getInfo_iff.mp hg
      simp only [Res.bind_eq_ok, ensure_eq_ok] at h
      obtain ⟨-, -, h⟩ := h
      rw [parsed_again hi] at h
      split at h
      · cases h
      · rename_i c₂ hv
        have hv := hparsed.mp hv
        obtain ⟨s', ps', hi', -, -⟩ := hback hv hi
        simp only [Res.bind_eq_ok] at h
        obtain ⟨⟨_, _⟩, _, h⟩ := h
        split at h
        · cases h
        · simp only [Res.bind_eq_ok] at h
          obtain ⟨same, -, h⟩ := h
          split at h
          · rw [getInfo_iff.mpr ⟨hi', rfl⟩] at h
            simp only at h
            split at h
            · cases h
              exact hv
            · cases h
          · cases h
  · intro hv
    obtain ⟨gs, hgs, hsome⟩ := (dict_accepts_iff_partial hd.arrays 1 0).mp (verifyDEP_iff.mp hv).1
    obtain ⟨-, c₁, ps, s, P, s', u', i, hi, -⟩ := verifyDEP_iff.mp hv
    obtain ⟨s', ps', hi', hf, he⟩ := hback hv hi
    have hpos := depRecs_pos hgs hsome
    have hsame : sameParts dep (compareSizes (depRecs dep) (max 2 (d.draw k))) = .ok true := by
      refine sameParts_true hgs hd.plain hsome ?_
      intro n hn
      unfold compareSizes at hn
      split at hn
      · simp only [List.mem_append, List.mem_map, List.mem_range, List.mem_singleton] at hn
        rcases hn with ⟨m, -, rfl⟩ | rfl <;> omega
      · simp only [List.mem_cons, List.not_mem_nil, or_false] at hn
        rcases hn with rfl | rfl | rfl | rfl <;> omega
    rw [getInfo_iff.mpr ⟨hi, rfl⟩]
    simp only [ensure_pos hpos, Res.ok_bind, parsed_again hi, hparsed.mpr hv, hf, he, hsame, if_true,
      getInfo_iff.mpr ⟨hi', rfl⟩, and_self]

end

end RKSV
