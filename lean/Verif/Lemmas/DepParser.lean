import Verif.Spec.DepParser
import Verif.Lemmas.Parallel
/-
Helper lemmas about the DEP parser for JSON values in memory.
-/
namespace RKSV

section
variable [PyEnv]

theorem parseDEPCert_iff {j : Json} {c : Cert} :
    parseDEPCert j = .ok c ↔ ∃ s, j = .str s ∧ CertOf s c := by
  unfold parseDEPCert CertOf
  simp only [Res.bind_eq_ok, orErr_eq_ok, Json.asStr_eq_some]

theorem parseDEPCert_error {j : Json} {e : Err} (h : parseDEPCert j = .error e) :
    e = .malformedDEPCertificate := by
  unfold parseDEPCert at h
  simp only [Res.bind_eq_error, orErr_eq_error] at h
  rcases h with h | ⟨_, -, h⟩ <;> exact h.2.symm

theorem parseOptCert_iff {s : Str} {o : Option Cert} : parseOptCert (.str s) = .ok o ↔ SignCert s o := by
  cases s with
  | nil =>
    simp only [parseOptCert, Except.ok.injEq]
    constructor
    · rintro rfl; exact .none
    · intro h
      cases h with
      | none => rfl
      | some _ _ hs => exact absurd rfl hs
  | cons a s =>
    simp only [parseOptCert, Res.bind_eq_ok, parseDEPCert_iff, Except.ok.injEq]
    constructor
    · rintro ⟨c, ⟨t, e, hc⟩, rfl⟩
      cases e
      exact .some _ _ (by simp) hc
    · intro h
      cases h with
      | some _ c _ hc => exact ⟨c, ⟨_, rfl, hc⟩, rfl⟩

theorem parseOptCert_error {s : Str} {e : Err} (h : parseOptCert (.str s) = .error e) :
    e = .malformedDEPCertificate := by
  cases s with
  | nil => cases h
  | cons a s =>
    simp only [parseOptCert, Res.bind_eq_error] at h
    rcases h with h | ⟨_, -, h⟩
    · exact parseDEPCert_error h
    · cases h

theorem parseChain_iff {l : List Json} {chain : List Cert} :
    mapRes parseDEPCert l = .ok chain ↔ ∃ cs : List Str, l = cs.map .str ∧ List.Forall₂ CertOf cs chain := by
  induction l generalizing chain with
  | nil =>
    simp only [mapRes, Except.ok.injEq]
    constructor
    · rintro rfl; exact ⟨[], rfl, .nil⟩
    · rintro ⟨cs, h, hf⟩
      cases cs with
      | nil => cases hf; rfl
      | cons => cases h
  | cons j l ih =>
    simp only [mapRes, Res.bind_eq_ok, parseDEPCert_iff, ih, Except.ok.injEq]
    constructor
    · rintro ⟨c, ⟨s, rfl, hc⟩, r, ⟨cs, rfl, hf⟩, rfl⟩
      exact ⟨s :: cs, rfl, .cons hc hf⟩
    · rintro ⟨cs, h, hf⟩
      cases cs with
      | nil => cases h
      | cons s cs =>
        cases h
        cases hf with
        | cons hc hf => exact ⟨_, ⟨s, rfl, hc⟩, _, ⟨cs, rfl, hf⟩, rfl⟩

theorem parseChain_error {l : List Json} {e : Err} (h : mapRes parseDEPCert l = .error e) :
    e = .malformedDEPCertificate := by
  induction l with
  | nil => cases h
  | cons j l ih =>
    simp only [mapRes, Res.bind_eq_error] at h
    rcases h with h | ⟨_, -, h | ⟨_, -, h⟩⟩
    · exact parseDEPCert_error h
    · exact ih h
    · cases h

omit [PyEnv] in
theorem shrinkAll_strs (rs : List Str) : shrinkAll (rs.map .str) = (rs.map utf8Enc, none) := by
  induction rs with
  | nil => rfl
  | cons r rs ih => simp [shrinkAll, ih, shrinkReceipt]

omit [PyEnv] in
theorem shrinkAll_none {l : List Json} {b : List Bytes} (h : shrinkAll l = (b, none)) :
    ∃ rs : List Str, l = rs.map .str ∧ b = rs.map utf8Enc := by
  induction l generalizing b with
  | nil => cases h; exact ⟨[], rfl, rfl⟩
  | cons j l ih =>
    cases j with
    | str s =>
      simp only [shrinkAll, Prod.mk.injEq] at h
      obtain ⟨rs, rfl, hb⟩ := ih (b := (shrinkAll l).1) (by rw [← h.2])
      exact ⟨s :: rs, rfl, by rw [← h.1, hb]; rfl⟩
    | _ => simp [shrinkAll] at h

theorem parseDEPGroup_json {j : Json} {g : DepGroup} (h : GroupJson j g) :
    parseDEPGroup j = .ok ⟨g.recs, none, g.cert, g.chain⟩ := by
  obtain ⟨d, rs, s, cs, cert, chain, hr, hs, hc, hcert, hchain⟩ := h
  unfold parseDEPGroup
  simp only [Res.bind_eq_ok, orErr_eq_ok]
  exact ⟨d, rfl, _, hr, _, hs, _, hc, _, rfl, s, rfl, _, rfl, cert, parseOptCert_iff.mpr hcert, chain,
    parseChain_iff.mpr ⟨cs, rfl, hchain⟩, by simp [shrinkAll_strs]⟩

/-- All groups of `gs` went through `_groupChunkGen`. -/
def Fill.groups (n : Nat) (f : Fill) (gs : List DepGroup) : Fill :=
  gs.foldl (fun f g => (g.recs.foldl (Fill.add n g.cert g.chain) f).close g.cert g.chain) f

def Fill.finish (f : Fill) : List Chunk := if 0 < f.len then f.out ++ [f.chunk] else f.out

theorem groupChunkGen_json {n : Nat} {f : Fill} {js : List Json} {gs : List DepGroup}
    (h : List.Forall₂ GroupJson js gs) : groupChunkGen n f js = ⟨(f.groups n gs).finish, none⟩ := by
  induction h generalizing f with
  | nil => rfl
  | cons hg _ ih =>
    simp only [groupChunkGen, parseDEPGroup_json hg]
    rw [ih]
    rfl

theorem groupPerChunk_json {js : List Json} {gs : List DepGroup} (h : List.Forall₂ GroupJson js gs) :
    groupPerChunk js = ⟨(gs.filter fun g => g.recs ≠ []).map fun g => [g], none⟩ := by
  induction h with
  | nil => rfl
  | @cons j g js gs hg _ ih =>
    simp only [groupPerChunk, parseDEPGroup_json hg]
    by_cases he : g.recs = []
    · simp [he, ih]
    · simp [he, ih]

theorem totalRecs_json {js : List Json} {gs : List DepGroup} (h : List.Forall₂ GroupJson js gs) :
    totalRecs js = (gs.map fun g => g.recs.length).sum := by
  induction h with
  | nil => rfl
  | @cons j g js gs hg _ ih =>
    simp only [totalRecs, List.map_cons, List.sum_cons] at ih ⊢
    rw [ih]
    congr 1
    obtain ⟨d, rs, s, cs, cert, chain, hr, hs, hc, hcert, hchain⟩ := hg
    simp only [recsInGroup, Json.asObj]
    rw [show Dict.get? d kRecs = _ from hr]
    simp

/-- Every chunk size other than zero. -/
theorem dictParse_json {j : Json} {gs : List DepGroup} (h : DepJson j gs) {nparts n : Nat} (hn : n ≠ 0) :
    dictParse nparts j n = if (Fill.groups n ⟨[], [], [], 0⟩ gs).finish = [] then ⟨[], some .malformedDEP⟩
      else ⟨(Fill.groups n ⟨[], [], [], 0⟩ gs).finish, none⟩ := by
  obtain ⟨root, js, gs, hr, hg⟩ := h
  simp only [dictParse, Json.asObj]
  rw [show Dict.get? root kGroups = _ from hr]
  cases js with
  | nil => cases hg; rfl
  | cons j js =>
    simp only [hn, and_false, if_false, groupChunkGen_json hg, true_and]

theorem dictParse_zero {j : Json} {gs : List DepGroup} (h : DepJson j gs) {nparts : Nat} (hn : nparts ≤ 1) :
    dictParse nparts j 0 = if (gs.filter fun g => g.recs ≠ []) = [] then ⟨[], some .malformedDEP⟩
      else ⟨(gs.filter fun g => g.recs ≠ []).map fun g => [g], none⟩ := by
  obtain ⟨root, js, gs, hr, hg⟩ := h
  simp only [dictParse, Json.asObj]
  rw [show Dict.get? root kGroups = _ from hr]
  cases js with
  | nil => cases hg; rfl
  | cons j js =>
    have : ¬1 < nparts := by omega
    simp only [this, false_and, if_false, if_true, groupPerChunk_json hg, true_and, List.map_eq_nil_iff]

theorem dictParse_parts {j : Json} {gs : List DepGroup} (h : DepJson j gs) {nparts : Nat} (hn : 1 < nparts) :
    dictParse nparts j 0 = dictParse nparts j (partSize (gs.map fun g => g.recs.length).sum nparts) := by
  obtain ⟨root, js, gs, hr, hg⟩ := h
  simp only [dictParse, Json.asObj]
  rw [show Dict.get? root kGroups = _ from hr]
  cases js with
  | nil => rfl
  | cons j js =>
    simp only [hn, true_and, if_true, totalRecs_json hg]
    by_cases h0 : partSize (gs.map fun g => g.recs.length).sum nparts = 0
    · simp [h0, totalRecs_json hg]
    · simp [h0]

/-! ### What the chunks are -/

/-- The invariant of `_groupChunkGen` inside group `k`, where the receipts `L` were read. -/
structure Fill.Inv (gs : List DepGroup) (n k : Nat) (L : List (Nat × Bytes)) (f : Fill) : Prop where
  pieces : ∃ (Ts : List (List (Nat × Bytes))) (T : List (Nat × Bytes)),
    L = Ts.flatten ++ (T ++ f.next.map fun r => (k, r)) ∧ (∀ p ∈ Ts, p.length = n) ∧
    List.Forall₂ (Grouped gs) Ts f.out ∧ Grouped gs T f.chunk ∧ (∀ x ∈ T, x.1 < k) ∧
    f.len = T.length + f.next.length
  short : f.len < n

theorem Fill.Inv.add {gs : List DepGroup} {n k : Nat} {L : List (Nat × Bytes)} {f : Fill}
    (h : f.Inv gs n k L) {g : DepGroup} (hg : gs[k]? = some g) (r : Bytes) :
    (f.add n g.cert g.chain r).Inv gs n k (L ++ [(k, r)]) := by
  obtain ⟨⟨Ts, T, rfl, hl, ho, hc, hlt, hlen⟩, hs⟩ := h
  unfold Fill.add
  split
  · rename_i hn
    refine ⟨⟨Ts ++ [T ++ (f.next ++ [r]).map fun r => (k, r)], [], by simp, ?_, ?_, .nil, by simp, rfl⟩,
      by simp only; omega⟩
    · intro p hp
      rcases List.mem_append.mp hp with hp | hp
      · exact hl p hp
      · rw [List.mem_singleton] at hp
        subst hp
        rw [List.length_append, List.length_map, List.length_append, List.length_singleton]
        omega
    · exact List.rel_append ho (.cons (.snoc T f.chunk k g _ hc hlt hg (by simp)) .nil)
  · rename_i hn
    refine ⟨⟨Ts, T, by simp, hl, ho, hc, hlt, ?_⟩, by simp only; omega⟩
    simp only [List.length_append, List.length_singleton]
    omega

theorem Fill.Inv.addAll {gs : List DepGroup} {n k : Nat} {L : List (Nat × Bytes)} {f : Fill}
    (h : f.Inv gs n k L) {g : DepGroup} (hg : gs[k]? = some g) (rs : List Bytes) :
    (rs.foldl (Fill.add n g.cert g.chain) f).Inv gs n k (L ++ rs.map fun r => (k, r)) := by
  induction rs generalizing L f with
  | nil => simpa using h
  | cons r rs ih =>
    have := ih (h.add hg r)
    simpa using this

theorem Fill.Inv.close {gs : List DepGroup} {n k : Nat} {L : List (Nat × Bytes)} {f : Fill}
    (h : f.Inv gs n k L) {g : DepGroup} (hg : gs[k]? = some g) :
    (f.close g.cert g.chain).Inv gs n (k + 1) L ∧ (f.close g.cert g.chain).next = [] := by
  obtain ⟨⟨Ts, T, rfl, hl, ho, hc, hlt, hlen⟩, hs⟩ := h
  unfold Fill.close
  split
  · rename_i he
    refine ⟨⟨⟨Ts, T, by simp [he], hl, ho, hc, fun x hx => Nat.lt_succ_of_lt (hlt x hx), hlen⟩, hs⟩, he⟩
  · rename_i he
    refine ⟨⟨⟨Ts, T ++ f.next.map fun r => (k, r), by simp, hl, ho, .snoc T f.chunk k g _ hc hlt hg he, ?_, ?_⟩, hs⟩, rfl⟩
    · intro x hx
      rcases List.mem_append.mp hx with hx | hx
      · exact Nat.lt_succ_of_lt (hlt x hx)
      · obtain ⟨r, -, rfl⟩ := List.mem_map.mp hx
        exact Nat.lt_succ_self k
    · simp [hlen]

theorem Fill.Inv.groups {all gs : List DepGroup} {n k : Nat} {L : List (Nat × Bytes)} {f : Fill}
    (h : f.Inv all n k L) (hf : f.next = []) (hgs : ∀ i, gs[i]? = all[k + i]? ∨ gs[i]? = none) :
    (f.groups n gs).Inv all n (k + gs.length) (L ++ numbered k gs) ∧ (f.groups n gs).next = [] := by
  induction gs generalizing k L f with
  | nil => simpa [Fill.groups, numbered] using ⟨h, hf⟩
  | cons g gs ih =>
    have hg : all[k]? = some g := by
      rcases hgs 0 with h0 | h0
      · simpa using h0.symm
      · simp at h0
    obtain ⟨h1, h2⟩ := (h.addAll hg g.recs).close hg
    have := ih h1 h2 (by
      intro i
      have := hgs (i + 1)
      rw [List.getElem?_cons_succ] at this
      rw [show k + 1 + i = k + (i + 1) by omega]
      exact this)
    rw [List.length_cons, show k + (gs.length + 1) = k + 1 + gs.length by omega, numbered, ← List.append_assoc]
    exact this

theorem fill_chunks {n : Nat} (hn : n ≠ 0) (gs : List DepGroup) :
    ∃ Ts, CutEvery n (numbered 0 gs) Ts ∧
      List.Forall₂ (Grouped gs) Ts (Fill.groups n ⟨[], [], [], 0⟩ gs).finish := by
  have h0 : Fill.Inv gs n 0 [] ⟨[], [], [], 0⟩ :=
    ⟨⟨[], [], by simp, by simp, .nil, .nil, by simp, rfl⟩, by simp only; omega⟩
  obtain ⟨⟨⟨Ts, T, hL, hl, ho, hc, -, hlen⟩, hs⟩, hnext⟩ := h0.groups (gs := gs) rfl (fun i => .inl (by simp))
  rw [hnext] at hL hlen
  simp only [List.map_nil, List.append_nil, List.nil_append, List.length_nil, Nat.add_zero] at hL hlen
  have hall : ∀ pre p post, Ts = pre ++ p :: post → p ≠ [] ∧ p.length ≤ n ∧ (post ≠ [] → p.length = n) := by
    rintro pre p post rfl
    have := hl p (by simp)
    refine ⟨?_, by omega, fun _ => this⟩
    rintro rfl
    simp at this
    omega
  unfold Fill.finish
  split
  · rename_i hpos
    refine ⟨Ts ++ [T], ⟨by simp [hL], ?_⟩, List.rel_append ho (.cons hc .nil)⟩
    intro pre p post e
    rcases List.eq_nil_or_concat post with rfl | ⟨post, q, rfl⟩
    · have := List.append_inj' e rfl
      simp only [List.cons.injEq, and_true] at this
      obtain ⟨rfl, rfl⟩ := this
      refine ⟨?_, by omega, by simp⟩
      rintro rfl
      simp only [List.length_nil] at hlen
      omega
    · have e' : Ts ++ [T] = (pre ++ p :: post) ++ [q] := by rw [e]; simp
      have := (List.append_inj' e' rfl).1
      obtain ⟨a, b, c⟩ := hall pre p post this
      refine ⟨a, b, fun _ => hl p (by rw [this]; simp)⟩
  · rename_i hpos
    have : T = [] := List.eq_nil_of_length_eq_zero (by omega)
    subst this
    refine ⟨Ts, ⟨by simpa using hL.symm, hall⟩, ho⟩

end

end RKSV
