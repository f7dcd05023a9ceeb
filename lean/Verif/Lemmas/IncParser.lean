import Verif.Lemmas.DepParser
/-
Helper lemmas about the incremental DEP parsers.
-/
namespace RKSV

/-! ### Prefixes -/

theorem join_cons_cons (c : Char) (a b : Str) (r : List Str) :
    joinWith c (a :: b :: r) = a ++ c :: joinWith c (b :: r) := rfl

theorem join_no_dot {k : Str} {q : List Str} {X : Str} (hX : '.' ∉ X) :
    joinWith '.' (k :: q) = X ↔ q = [] ∧ k = X := by
  cases q with
  | nil => simp [joinWith]
  | cons a q =>
    rw [join_cons_cons]
    simp only [reduceCtorEq, false_and, iff_false]
    rintro rfl
    simp at hX

theorem join_first {k X : Str} {q r : List Str} (hk : '.' ∉ k) (hX : '.' ∉ X)
    (h : joinWith '.' (k :: q) = joinWith '.' (X :: r)) : k = X := by
  have key : ∀ (a : Str) (q : List Str), '.' ∉ a → (joinWith '.' (a :: q)).takeWhile (· ≠ '.') = a := by
    intro a q ha
    have hall : ∀ x ∈ a, (decide (x ≠ '.')) = true := by
      intro x hx
      simp only [ne_eq, decide_not, Bool.not_eq_eq_eq_not, Bool.not_true, decide_eq_false_iff_not]
      rintro rfl
      exact ha hx
    cases q with
    | nil => 
      have := List.takeWhile_append_of_pos (l₂ := []) hall
      simpa [joinWith] using this
    | cons b q =>
      rw [join_cons_cons, List.takeWhile_append_of_pos hall]
      simp
  rw [← key k q hk, h, key X r hX]

/-- Paths inside a group. -/
theorem join_group {k : Str} {q : List Str} :
    joinWith '.' (kGroups :: c!"item" :: k :: q) = c!"Belege-Gruppe.item." ++ joinWith '.' (k :: q) := by
  rw [join_cons_cons, join_cons_cons]
  rfl

theorem join_group_eq {k X : Str} {q : List Str} (hX : '.' ∉ X) :
    joinWith '.' (kGroups :: c!"item" :: k :: q) = c!"Belege-Gruppe.item." ++ X ↔ q = [] ∧ k = X := by
  rw [join_group, List.append_cancel_left_eq, join_no_dot hX]

/-! ### Events -/

mutual
/-- The prefixes of the events of a value. -/
theorem events_path (path : List Str) : (j : Json) → ∀ x ∈ j.events path,
    ∃ q, x.1 = joinWith '.' (path ++ q) ∧ (q = [] → x.2 = .endMap → ∃ d, j = .obj d)
  | .null => by simp [Json.events]; exact ⟨[], by simp⟩
  | .bool _ => by simp [Json.events]; exact ⟨[], by simp⟩
  | .int _ => by simp [Json.events]; exact ⟨[], by simp⟩
  | .float _ => by simp [Json.events]; exact ⟨[], by simp⟩
  | .str _ => by simp [Json.events]; exact ⟨[], by simp⟩
  | .arr l => by
    intro x hx
    simp only [Json.events, List.mem_cons, List.mem_append, List.not_mem_nil, or_false] at hx
    rcases hx with rfl | hx | rfl
    · exact ⟨[], by simp⟩
    · obtain ⟨a, q, h⟩ := arrEvents_path path l x hx
      exact ⟨a :: q, h, by simp⟩
    · exact ⟨[], by simp⟩
  | .obj d => by
    intro x hx
    simp only [Json.events, List.mem_cons, List.mem_append, List.not_mem_nil, or_false] at hx
    rcases hx with rfl | hx | rfl
    · exact ⟨[], by simp⟩
    · obtain ⟨q, h⟩ := objEvents_path path d x hx
      exact ⟨q, h, fun _ _ => ⟨d, rfl⟩⟩
    · exact ⟨[], by simp⟩
theorem arrEvents_path (path : List Str) : (l : List Json) → ∀ x ∈ arrEvents path l,
    ∃ a q, x.1 = joinWith '.' (path ++ a :: q)
  | [] => by simp [arrEvents]
  | j :: l => by
    intro x hx
    simp only [arrEvents, List.mem_append] at hx
    rcases hx with hx | hx
    · obtain ⟨q, h, -⟩ := events_path _ j x hx
      exact ⟨c!"item", q, by rw [h]; simp⟩
    · exact arrEvents_path path l x hx
theorem objEvents_path (path : List Str) : (d : List (Str × Json)) → ∀ x ∈ objEvents path d,
    ∃ q, x.1 = joinWith '.' (path ++ q)
  | [] => by simp [objEvents]
  | p :: d => by
    intro x hx
    simp only [objEvents, List.mem_append] at hx
    rcases hx with hx | hx
    · exact pairEvents_path path p x hx
    · exact objEvents_path path d x hx
theorem pairEvents_path (path : List Str) : (p : Str × Json) → ∀ x ∈ pairEvents path p,
    ∃ q, x.1 = joinWith '.' (path ++ q)
  | (k, v) => by
    intro x hx
    simp only [pairEvents, List.mem_cons] at hx
    rcases hx with rfl | hx
    · exact ⟨[], by simp⟩
    · obtain ⟨q, h, -⟩ := events_path _ v x hx
      exact ⟨k :: q, by rw [h]; simp⟩
end

/-! ### Items -/

mutual
/-- Nothing is found where no path fits. -/
theorem items_none (pfx : Str) (path : List Str) (h : ∀ q, joinWith '.' (path ++ q) ≠ pfx) :
    (j : Json) → j.items pfx path = []
  | .null => by have := h []; simp only [List.append_nil] at this; simp [Json.items, this]
  | .bool _ => by have := h []; simp only [List.append_nil] at this; simp [Json.items, this]
  | .int _ => by have := h []; simp only [List.append_nil] at this; simp [Json.items, this]
  | .float _ => by have := h []; simp only [List.append_nil] at this; simp [Json.items, this]
  | .str _ => by have := h []; simp only [List.append_nil] at this; simp [Json.items, this]
  | .arr l => by
    have := h []
    simp only [List.append_nil] at this
    simp [Json.items, this, arrItems_none pfx path h l]
  | .obj d => by
    have := h []
    simp only [List.append_nil] at this
    simp [Json.items, this, objItems_none pfx path h d]
theorem arrItems_none (pfx : Str) (path : List Str) (h : ∀ q, joinWith '.' (path ++ q) ≠ pfx) :
    (l : List Json) → arrItems pfx path l = []
  | [] => rfl
  | j :: l => by
    simp only [arrItems, List.append_eq_nil_iff]
    exact ⟨items_none pfx _ (fun q => by rw [List.append_assoc]; exact h _) j, arrItems_none pfx path h l⟩
theorem objItems_none (pfx : Str) (path : List Str) (h : ∀ q, joinWith '.' (path ++ q) ≠ pfx) :
    (d : List (Str × Json)) → objItems pfx path d = []
  | [] => rfl
  | p :: d => by
    simp only [objItems, List.append_eq_nil_iff]
    exact ⟨pairItems_none pfx path h p, objItems_none pfx path h d⟩
theorem pairItems_none (pfx : Str) (path : List Str) (h : ∀ q, joinWith '.' (path ++ q) ≠ pfx) :
    (p : Str × Json) → pairItems pfx path p = []
  | (k, v) => by
    simp only [pairItems]
    exact items_none pfx _ (fun q => by rw [List.append_assoc]; exact h _) v
end

theorem items_here {pfx : Str} {path : List Str} (h : joinWith '.' path = pfx) (j : Json) :
    j.items pfx path = [j] := by
  cases j <;> simp [Json.items, h]

/-- The items of a group with the given key. -/
theorem group_items {X : Str} (hX : '.' ∉ X) {d : Dict Json} (hd : d.keys.count X ≤ 1) :
    objItems (c!"Belege-Gruppe.item." ++ X) [kGroups, c!"item"] d = (d.get? X).toList := by
  induction d with
  | nil => rfl
  | cons p d ih =>
    obtain ⟨k, v⟩ := p
    have hd0 : (k :: Dict.keys d).count X ≤ 1 := hd
    have hd' : (Dict.keys d).count X ≤ 1 := Nat.le_trans List.count_le_count_cons hd0
    simp only [objItems, pairItems, Dict.get?]
    by_cases hk : k = X
    · subst hk
      rw [List.count_cons_self] at hd0
      rw [items_here (show joinWith '.' ([kGroups, c!"item"] ++ [k]) = _ from
        (join_group_eq hX).mpr ⟨rfl, rfl⟩), ih hd']
      have : Dict.get? d k = none := by
        by_contra hne
        exact List.count_eq_zero.mp (by omega) (Dict.mem_keys_iff.mpr (Option.isSome_iff_ne_none.mpr hne))
      simp [this]
    · rw [items_none _ _ (fun q h => hk ((join_group_eq hX).mp h).2), ih hd']
      simp [hk]

theorem groups_items {X : Str} (hX : '.' ∉ X) {js : List Json}
    (h : ∀ j ∈ js, ∃ d v, j = .obj d ∧ (Dict.keys d).count X ≤ 1 ∧ Dict.get? d X = some v) :
    List.Forall₂ (fun j v => ∃ d, j = .obj d ∧ Dict.get? d X = some v) js
      (arrItems (c!"Belege-Gruppe.item." ++ X) [kGroups] js) := by
  induction js with
  | nil => exact .nil
  | cons j js ih =>
    obtain ⟨d, v, rfl, hd, hv⟩ := h j (by simp)
    simp only [arrItems]
    have hne : joinWith '.' ([kGroups] ++ [c!"item"]) ≠ c!"Belege-Gruppe.item." ++ X := by
      intro e
      have := congrArg List.length e
      rw [List.length_append] at this
      have h1 : (joinWith '.' ([kGroups] ++ [c!"item"])).length = 18 := rfl
      rw [h1] at this
      simp at this
      omega
    rw [Json.items, if_neg hne, show [kGroups] ++ [c!"item"] = [kGroups, c!"item"] from rfl, group_items hX hd, hv]
    exact .cons ⟨d, rfl, hv⟩ (ih fun j hj => h j (by simp [hj]))

/-- The items of a document with the given prefix are those of the groups. -/
theorem doc_items {X : Str} {root : Dict Json} (hn : root.keys.count kGroups ≤ 1)
    (hk : ∀ k ∈ root.keys, '.' ∉ k) {js : List Json} (hj : root.get? kGroups = some (.arr js)) :
    (Json.obj root).items (c!"Belege-Gruppe.item." ++ X) [] = arrItems (c!"Belege-Gruppe.item." ++ X) [kGroups] js := by
  rw [Json.items, if_neg (by simp [joinWith])]
  have hpfx : c!"Belege-Gruppe.item." ++ X = joinWith '.' [kGroups, c!"item", X] := by
    rw [join_group]; rfl
  induction root with
  | nil => simp [Dict.get?] at hj
  | cons p r ih =>
    obtain ⟨k, v⟩ := p
    have hn0 : (k :: Dict.keys r).count kGroups ≤ 1 := hn
    have hn' : (Dict.keys r).count kGroups ≤ 1 := Nat.le_trans List.count_le_count_cons hn0
    simp only [objItems, pairItems, List.nil_append]
    simp only [Dict.get?] at hj
    split at hj
    · rename_i e
      subst e
      cases hj
      rw [List.count_cons_self] at hn0
      have hr : objItems (c!"Belege-Gruppe.item." ++ X) [] r = [] := by
        have hall : ∀ k ∈ Dict.keys r, '.' ∉ k ∧ k ≠ kGroups := fun k hkr =>
          ⟨hk k (List.mem_cons_of_mem _ hkr), fun e => List.count_eq_zero.mp (by omega) (e ▸ hkr)⟩
        clear ih hk hn hn' hn0
        induction r with
        | nil => rfl
        | cons p r ih =>
          obtain ⟨k, v⟩ := p
          simp only [objItems, pairItems, List.nil_append]
          have h1 := hall k List.mem_cons_self
          rw [items_none, ih (fun k hk => hall k (List.mem_cons_of_mem _ hk))]
          · rfl
          · intro q e
            rw [hpfx] at e
            exact h1.2 (join_first h1.1 (by decide) e)
      rw [hr, List.append_nil, Json.items, if_neg]
      intro e
      have := congrArg List.length e
      rw [List.length_append] at this
      have h1 : (joinWith '.' [kGroups]).length = 13 := rfl
      rw [h1] at this
      simp at this
      omega
    · rename_i hne
      rw [items_none, ih hn' (fun k hk' => hk k (List.mem_cons_of_mem _ hk')) hj]
      · rfl
      · intro q e
        rw [hpfx] at e
        exact hne (join_first (hk k List.mem_cons_self) (by decide) e)

/-- The elements of a group the parsers read. -/
def GroupElem (k : Str) : Prop := k = kRecs ∨ k = kCert ∨ k = kCerts

theorem get?_of_count {d : Dict Json} {k : Str} (h : d.keys.count k ≤ 1) {v : Json} (hm : (k, v) ∈ d) :
    d.get? k = some v := by
  induction d with
  | nil => cases hm
  | cons p d ih =>
    obtain ⟨k', v'⟩ := p
    have h0 : (k' :: Dict.keys d).count k ≤ 1 := h
    simp only [Dict.get?]
    by_cases e : k' = k
    · subst e
      rw [List.count_cons_self] at h0
      rcases List.mem_cons.mp hm with e | hm
      · cases e; simp
      · have hk : k' ∈ Dict.keys d := List.mem_map.mpr ⟨_, hm, rfl⟩
        exact absurd hk (List.count_eq_zero.mp (by omega))
    · rw [if_neg e]
      refine ih (Nat.le_trans List.count_le_count_cons h0) ?_
      rcases List.mem_cons.mp hm with e' | hm
      · cases e'; exact absurd rfl e
      · exact hm

theorem count_of_nodup {l : List Str} (h : l.Nodup) (k : Str) : l.count k ≤ 1 := List.nodup_iff_count_le_one.mp h k

section
variable [PyEnv]

theorem fileNeed_json {root : Dict Json} (hn : root.keys.count kGroups ≤ 1) (hk : ∀ k ∈ root.keys, '.' ∉ k)
    {js : List Json} (hj : root.get? kGroups = some (.arr js)) (hd : ∀ d, Json.obj d ∈ js → ∀ k, GroupElem k → (Dict.keys d).count k ≤ 1)
    {gs : List DepGroup} (hg : List.Forall₂ GroupJson js gs) {i : Nat} {g : DepGroup} (hi : gs[i]? = some g) :
    fileNeed (.obj root) i = .ok (some (g.cert, g.chain)) := by
  obtain ⟨hlen, hall⟩ := List.forall₂_iff_get.mp hg
  have key : ∀ X, '.' ∉ X → GroupElem X → (∀ j g, GroupJson j g → ∃ d v, j = .obj d ∧ Dict.get? d X = some v) →
      ∃ d v, js[i]? = some (.obj d) ∧ Dict.get? d X = some v ∧
        ((Json.obj root).items (c!"Belege-Gruppe.item." ++ X) [])[i]? = some v := by
    intro X hX hel hex
    rw [doc_items hn hk hj]
    have := groups_items hX (js := js) (by
      intro j hjm
      obtain ⟨n, hn1, rfl⟩ := List.mem_iff_getElem.mp hjm
      obtain ⟨d, v, e, hv⟩ := hex _ _ (hall n hn1 (by omega))
      simp only [List.get_eq_getElem] at e
      exact ⟨d, v, e, hd d (e ▸ hjm) X hel, hv⟩)
    obtain ⟨hl2, h2⟩ := List.forall₂_iff_get.mp this
    have hi1 := (List.getElem?_eq_some_iff.mp hi).1
    obtain ⟨d, e, hv⟩ := h2 i (by omega) (by omega)
    simp only [List.get_eq_getElem] at e hv
    refine ⟨d, _, ?_, hv, List.getElem?_eq_getElem (by omega)⟩
    rw [List.getElem?_eq_getElem (by omega), e]
  have hi1 := (List.getElem?_eq_some_iff.mp hi).1
  have hgi := hall i (by omega) hi1
  have hgi' : gs.get ⟨i, hi1⟩ = g := (List.getElem?_eq_some_iff.mp hi).2
  rw [hgi'] at hgi
  obtain ⟨d1, v1, e1, hv1, hc1⟩ := key kCert (by decide) (.inr (.inl rfl)) (by
    rintro _ _ ⟨d, rs, s, cs, cert, chain, hr, hs, hc, hcert, hchain⟩
    exact ⟨d, _, rfl, hs⟩)
  obtain ⟨d2, v2, e2, hv2, hc2⟩ := key kCerts (by decide) (.inr (.inr rfl)) (by
    rintro _ _ ⟨d, rs, s, cs, cert, chain, hr, hs, hc, hcert, hchain⟩
    exact ⟨d, _, rfl, hc⟩)
  generalize hj0 : js.get ⟨i, by omega⟩ = j at hgi
  have hji : js[i]? = some j := by rw [List.getElem?_eq_getElem (by omega), ← hj0]; rfl
  obtain ⟨d, rs, s, cs, cert, chain, hr, hs, hc, hcert, hchain⟩ := hgi
  rw [hji] at e1 e2
  cases e1
  cases e2
  cases hv1.symm.trans hs
  cases hv2.symm.trans hc
  unfold fileNeed
  simp only [Res.bind_eq_ok, orErr_eq_ok]
  exact ⟨_, hc1, _, hc2, cert, parseOptCert_iff.mpr hcert, chain, parseChain_iff.mpr ⟨cs, rfl, hchain⟩, rfl⟩

/-! ### Steps -/

namespace PState

variable {need : Nat → Res (Option (Option Cert × List Cert))} {n : Nat}

theorem run_append {s s' : PState} {xs ys : List (Str × Ev)} {out : List Chunk}
    (h : run need n s xs = (out, .ok s')) :
    run need n s (xs ++ ys) = (out ++ (run need n s' ys).1, (run need n s' ys).2) := by
  induction xs generalizing s out with
  | nil => cases h; simp
  | cons x xs ih =>
    simp only [List.cons_append, run] at h ⊢
    rcases hx : advance need n s x with ⟨o, r⟩
    rw [hx] at h
    cases r with
    | error e => cases h
    | ok s1 =>
      simp only [Prod.mk.injEq] at h
      have := ih (s := s1) (out := (run need n s1 xs).1) (by rw [← h.2])
      simp only [this, ← h.1, List.append_assoc]

theorem run_trans {s s' s'' : PState} {xs ys : List (Str × Ev)} {out out' : List Chunk}
    (h : run need n s xs = (out, .ok s')) (h' : run need n s' ys = (out', .ok s'')) :
    run need n s (xs ++ ys) = (out ++ out', .ok s'') := by
  rw [run_append h, h']

/-- An event that does not complete a chunk. -/
theorem run_quiet {s s' : PState} {x : Str × Ev} {xs : List (Str × Ev)} (h : s.step x = .ok s')
    (hr : s'.ready n s.ctl = false) : run need n s (x :: xs) = run need n s' xs := by
  simp [run, advance, h, hr]

/-- Events that are ignored. -/
theorem run_skip {s : PState} {xs : List (Str × Ev)} (h : ∀ x ∈ xs, s.step x = .ok s)
    (hr : s.ready n s.ctl = false) : run need n s xs = ([], .ok s) := by
  induction xs with
  | nil => rfl
  | cons x xs ih =>
    rw [run_quiet (h x (by simp)) hr]
    exact ih fun y hy => h y (by simp [hy])

/-- The state of the incremental parser and of the parser for values in memory fit together. -/
structure Fits (n : Nat) (s : PState) (f : Fill) : Prop where
  chunk : s.chunk = f.chunk
  recs : s.wipRecs = f.next
  len : f.len = s.size + s.wipRecs.length
  short : f.len < n

theorem Fits.ready {s : PState} {f : Fill} (h : Fits n s f) (c : Ctl) : s.ready n c = false := by
  have := h.len
  have := h.short
  simp only [PState.ready, ne_eq, decide_not, Bool.and_eq_false_imp, Bool.not_eq_eq_eq_not, Bool.not_true,
    decide_eq_false_iff_not, Nat.not_le]
  intro _
  split <;> omega

/-- What was read of a group so far fits to it. -/
structure Knows (g : DepGroup) (s : PState) : Prop where
  cert : s.wipCert = none ∨ s.wipCert = g.cert
  chain : s.wipChain = none ∨ s.wipChain = some g.chain
  certSeen : s.certSeen = true → s.wipCert = g.cert
  chainSeen : s.chainSeen = true → s.wipChain = some g.chain

/-- The certificates of the group can be had when a chunk is complete. -/
def Supplied (need : Nat → Res (Option (Option Cert × List Cert))) (g : DepGroup) (s : PState) : Prop :=
  need s.idx = .ok (some (g.cert, g.chain)) ∨ ((g.cert ≠ none ∨ need s.idx = .ok none) ∧ s.certSeen = true ∧ s.chainSeen = true)

/-- Fields that do not change inside a group. -/
structure Same (s s' : PState) : Prop where
  rootSeen : s'.rootSeen = s.rootSeen
  groupsSeen : s'.groupsSeen = s.groupsSeen
  curIdx : s'.curIdx = s.curIdx
  idx : s'.idx = s.idx

theorem Same.refl (s : PState) : Same s s := ⟨rfl, rfl, rfl, rfl⟩

theorem Same.trans {s s' s'' : PState} (h : Same s s') (h' : Same s' s'') : Same s s'' :=
  ⟨h'.1.trans h.1, h'.2.trans h.2, h'.3.trans h.3, h'.4.trans h.4⟩

theorem fetch_known {g : DepGroup} {s : PState} (hk : Knows g s) (hs : Supplied need g s) {c : Ctl}
    (hc : Inside c = true) :
    s.fetch need c = .ok { s with wipCert := g.cert, wipChain := some g.chain } := by
  unfold fetch
  split
  · rename_i hi
    rcases hs with hs | ⟨h1, h2, h3⟩
    · rw [hs]; rfl
    · rcases h1 with h1 | h1
      · exfalso
        rcases hi.2 with h | h
        · exact h1 ((hk.certSeen h2).symm.trans h)
        · rw [hk.chainSeen h3] at h; cases h
      · rw [h1, ← hk.certSeen h2, ← hk.chainSeen h3]; rfl
  · rename_i hi
    simp only [hc, true_and, not_or] at hi
    have h1 := hk.cert.resolve_left hi.1
    have h2 := hk.chain.resolve_left hi.2
    rw [← h1, ← h2]

/-- One receipt. -/
theorem run_receipt {g : DepGroup} {s : PState} {f : Fill} (hc : s.ctl = .recList) (hf : Fits n s f)
    (hk : Knows g s) (hs : Supplied need g s) (t : Str) :
    ∃ out s', advance need n s (pRecsItem, .str t) = (out, .ok s') ∧ s'.ctl = .recList ∧
      (f.add n g.cert g.chain (utf8Enc t)).out = f.out ++ out ∧
      Fits n s' (f.add n g.cert g.chain (utf8Enc t)) ∧ Knows g s' ∧ Same s s' ∧
      s'.certSeen = s.certSeen ∧ s'.chainSeen = s.chainSeen ∧ s'.recsSeen = s.recsSeen := by
  obtain ⟨u, hstep, u1, u2, u3, u4, u5, u6, u7, u8, u9⟩ : ∃ u, s.step (pRecsItem, .str t) = .ok u ∧
      u.wipRecs = s.wipRecs ++ [utf8Enc t] ∧ u.chunk = s.chunk ∧ u.ctl = .recList ∧ u.wipCert = s.wipCert ∧
      u.wipChain = s.wipChain ∧ Same s u ∧ u.certSeen = s.certSeen ∧ u.chainSeen = s.chainSeen ∧
      u.recsSeen = s.recsSeen := by
    simp only [step, hc, stepRecList]
    rw [if_neg (by simp), if_pos trivial]
    exact ⟨_, rfl, rfl, rfl, rfl, rfl, rfl, ⟨rfl, rfl, rfl, rfl⟩, rfl, rfl, rfl⟩
  obtain ⟨h1, h2, h3, h4⟩ := hf
  have hn : n ≠ 0 := by omega
  have hsize : u.size = s.size := by simp only [PState.size, u2]
  simp only [advance, hstep, hc]
  have hrd : u.ready n .recList = true ↔ n ≤ f.len + 1 := by
    simp only [PState.ready, Inside, hsize, u1, if_true, List.length_append, List.length_singleton]
    simp [hn, h3, Nat.add_assoc]
  have hk' : Knows g u := ⟨by rw [u4]; exact hk.1, by rw [u5]; exact hk.2, by rw [u7, u4]; exact hk.3,
    by rw [u8, u5]; exact hk.4⟩
  have hs' : Supplied need g u := by
    unfold Supplied
    rw [u6.idx, u7, u8]
    exact hs
  by_cases hr : n ≤ f.len + 1
  · rw [if_pos (hrd.mpr hr), fetch_known hk' hs' rfl]
    have hget : ∀ w : PState, w.wipRecs = s.wipRecs ++ [utf8Enc t] → w.wipCert = g.cert →
        w.wipChain = some g.chain → w.chunk = s.chunk → w.getChunk .recList =
          (s.chunk ++ [⟨s.wipRecs ++ [utf8Enc t], g.cert, g.chain⟩], { w with chunk := [], wipRecs := [] }) := by
      intro w e1 e2 e3 e4
      have hne : w.wipRecs ≠ [] := by rw [e1]; simp
      have hm : w.merge = { w with
          chunk := s.chunk ++ [⟨s.wipRecs ++ [utf8Enc t], g.cert, g.chain⟩], wipRecs := [] } := by
        unfold merge
        rw [if_neg hne, e1, e2, e3, e4, Option.getD_some]
      simp only [getChunk, Inside, if_true, hm]
      rw [if_neg (by simp [PState.size])]
    simp only
    rw [hget { u with wipCert := g.cert, wipChain := some g.chain } u1 rfl rfl u2]
    have hadd : f.add n g.cert g.chain (utf8Enc t) =
        ⟨f.out ++ [f.chunk ++ [⟨f.next ++ [utf8Enc t], g.cert, g.chain⟩]], [], [], 0⟩ := if_pos hr
    refine ⟨_, _, rfl, u3, ?_, ?_, ?_, ⟨u6.1, u6.2, u6.3, u6.4⟩, u7, u8, u9⟩
    · rw [hadd, ← h1, ← h2]
    · rw [hadd]
      exact ⟨rfl, rfl, rfl, by simp only; omega⟩
    · exact ⟨.inr rfl, .inr rfl, fun _ => rfl, fun _ => rfl⟩
  · rw [if_neg (fun h => hr (hrd.mp h))]
    have hadd : f.add n g.cert g.chain (utf8Enc t) =
        ⟨f.out, f.chunk, f.next ++ [utf8Enc t], f.len + 1⟩ := if_neg hr
    refine ⟨_, _, rfl, u3, ?_, ?_, hk', u6, u7, u8, u9⟩
    · rw [hadd]; simp
    · rw [hadd]
      refine ⟨u2.trans h1, ?_, ?_, ?_⟩
      · rw [u1, h2]
      · rw [u1, hsize, List.length_append, List.length_singleton]
        simp only
        omega
      · simp only; omega

/-- The receipts of a group. -/
theorem run_receipts {g : DepGroup} {s : PState} {f : Fill} (hc : s.ctl = .recList) (hf : Fits n s f)
    (hk : Knows g s) (hs : Supplied need g s) (rs : List Str) :
    ∃ out s', run need n s (arrEvents [kGroups, c!"item", kRecs] (rs.map .str)) = (out, .ok s') ∧
      s'.ctl = .recList ∧
      ((rs.map utf8Enc).foldl (Fill.add n g.cert g.chain) f).out = f.out ++ out ∧
      Fits n s' ((rs.map utf8Enc).foldl (Fill.add n g.cert g.chain) f) ∧ Knows g s' ∧ Same s s' ∧
      s'.certSeen = s.certSeen ∧ s'.chainSeen = s.chainSeen ∧ s'.recsSeen = s.recsSeen := by
  induction rs generalizing s f with
  | nil => exact ⟨[], s, rfl, hc, by simp, hf, hk, .refl s, rfl, rfl, rfl⟩
  | cons t rs ih =>
    obtain ⟨o, s1, h1, hc1, ho1, hf1, hk1, hs1, e1, e2, e3⟩ := run_receipt hc hf hk hs t
    have hsup : Supplied need g s1 := by
      rcases hs with h | ⟨ha, hb, hc⟩
      · exact .inl (by rw [hs1.idx]; exact h)
      · exact .inr ⟨by rw [hs1.idx]; exact ha, e1.trans hb, e2.trans hc⟩
    obtain ⟨o', s2, h2, hc2, ho2, hf2, hk2, hs2, e4, e5, e6⟩ := ih hc1 hf1 hk1 hsup
    refine ⟨o ++ o', s2, ?_, hc2, ?_, hf2, hk2, hs1.trans hs2, e4.trans e1, e5.trans e2, e6.trans e3⟩
    · simp only [List.map_cons, arrEvents, Json.events]
      refine run_trans (s' := s1) ?_ h2
      show run need n s [(pRecsItem, .str t)] = _
      simp [run, h1]
    · simp only [List.map_cons, List.foldl_cons]
      rw [ho2, ho1, List.append_assoc]

/-- The certificate chain. -/
theorem run_chain {s : PState} {f : Fill} (hc : s.ctl = .certList) (hf : Fits n s f) {done : List Cert}
    (hd : s.wipChain = some done) {cs : List Str} {chain : List Cert} (h : List.Forall₂ CertOf cs chain) :
    run need n s (arrEvents [kGroups, c!"item", kCerts] (cs.map .str)) =
      ([], .ok { s with wipChain := some (done ++ chain) }) := by
  induction h generalizing s done with
  | nil =>
    simp only [List.map_nil, arrEvents, run, List.append_nil]
    rw [← hd]
  | @cons t c cs chain ht _ ih =>
    have hstep : s.step (pChainItem, .str t) = .ok { s with wipChain := some (done ++ [c]) } := by
      simp only [step, hc, stepCertList]
      rw [if_neg (by simp), if_pos trivial, parseDEPCert_iff.mpr ⟨t, rfl, ht⟩, hd]
      rfl
    have hf' : Fits n { s with wipChain := some (done ++ [c]) } f := ⟨hf.1, hf.2, hf.3, hf.4⟩
    simp only [List.map_cons, arrEvents, Json.events]
    show run need n s ((pChainItem, .str t) :: arrEvents [kGroups, c!"item", kCerts] (cs.map .str)) = _
    rw [run_quiet hstep (hf'.ready _)]
    rw [ih (s := { s with wipChain := some (done ++ [c]) }) hc hf' rfl]
    simp

/-- Which elements of the group were read. -/
def Seen (pre : List Str) (s : PState) : Prop :=
  (s.certSeen = true ↔ kCert ∈ pre) ∧ (s.chainSeen = true ↔ kCerts ∈ pre) ∧ (s.recsSeen = true ↔ kRecs ∈ pre)

/-- An element of a group that is ignored. -/
theorem group_ignores {s : PState} (hc : s.ctl = .group) {k : Str} (h1 : k ≠ kCert) (h2 : k ≠ kCerts)
    (h3 : k ≠ kRecs) (v : Json) : ∀ x ∈ v.events [kGroups, c!"item", k], s.step x = .ok s := by
  intro x hx
  obtain ⟨q, hq, -⟩ := events_path _ v x hx
  have hq : x.1 = joinWith '.' (kGroups :: c!"item" :: k :: q) := hq
  have n1 : x.1 ≠ pCert := fun e => h1 ((join_group_eq (X := kCert) (by decide)).mp (hq.symm.trans e)).2
  have n2 : x.1 ≠ pChain := fun e => h2 ((join_group_eq (X := kCerts) (by decide)).mp (hq.symm.trans e)).2
  have n3 : x.1 ≠ pRecs := fun e => h3 ((join_group_eq (X := kRecs) (by decide)).mp (hq.symm.trans e)).2
  have n4 : x.1 ≠ pGroup := by
    rw [hq, join_group]
    intro e
    have := congrArg List.length e
    rw [List.length_append] at this
    have e1 : pGroup.length = 18 := rfl
    rw [e1] at this
    simp at this
    omega
  simp [step, hc, stepGroup, n1, n2, n3, n4]

/-- The start of an element of a group. -/
theorem group_key {s : PState} (hc : s.ctl = .group) (k : Str) : s.step (pGroup, .mapKey k) = .ok s := by
  have h1 : pGroup ≠ pCert := by decide
  have h2 : pGroup ≠ pChain := by decide
  have h3 : pGroup ≠ pRecs := by decide
  simp [step, hc, stepGroup, h1, h2, h3]

theorem Fits.congr {s s' : PState} {f : Fill} (h : Fits n s f) (hc : s'.chunk = s.chunk)
    (hr : s'.wipRecs = s.wipRecs) : Fits n s' f :=
  ⟨hc.trans h.1, hr.trans h.2, by rw [h.3]; simp only [PState.size, hc, hr], h.4⟩

/-- One element of a group. -/
theorem run_element {g : DepGroup} {s : PState} {f : Fill} (hc : s.ctl = .group) (hf : Fits n s f)
    (hk : Knows g s) {pre : List Str} (hseen : Seen pre s) {k : Str} {v : Json} (hnew : GroupElem k → k ∉ pre)
    {rs cs : List Str} {c : Str} (hrecs : g.recs = rs.map utf8Enc) (hcert : SignCert c g.cert)
    (hchain : List.Forall₂ CertOf cs g.chain) (vr : k = kRecs → v = .arr (rs.map .str))
    (vc : k = kCert → v = .str c) (vl : k = kCerts → v = .arr (cs.map .str))
    (hsup : k = kRecs → Supplied need g s) :
    ∃ out s', run need n s (pairEvents [kGroups, c!"item"] (k, v)) = (out, .ok s') ∧ s'.ctl = .group ∧
      ((if k = kRecs then g.recs else []).foldl (Fill.add n g.cert g.chain) f).out = f.out ++ out ∧
      Fits n s' ((if k = kRecs then g.recs else []).foldl (Fill.add n g.cert g.chain) f) ∧ Knows g s' ∧
      Same s s' ∧ Seen (pre ++ [k]) s' := by
  have h1 : kRecs ≠ kCert := by decide
  have h2 : kRecs ≠ kCerts := by decide
  have h3 : kCert ≠ kCerts := by decide
  obtain ⟨s1, s2, s3⟩ := hseen
  have fl : ∀ {b : Bool} {P : Prop}, (b = true ↔ P) → ¬P → b = false := by
    intro b P h hP
    cases b
    · rfl
    · exact absurd (h.mp rfl) hP
  show ∃ out s', run need n s ((pGroup, .mapKey k) :: v.events [kGroups, c!"item", k]) = (out, .ok s') ∧ _
  simp only [run_quiet (group_key hc k) (hf.ready _)]
  by_cases hkr : k = kRecs
  · subst hkr
    cases vr rfl
    have hrs : s.recsSeen = false := fl s3 (hnew (.inl rfl))
    obtain ⟨u, hstep, u1, u2, u3, u4, u5, u6, u7, u8, u9⟩ : ∃ u, s.step (pRecs, .startArray) = .ok u ∧
        u.wipRecs = s.wipRecs ∧ u.chunk = s.chunk ∧ u.ctl = .recList ∧ u.wipCert = s.wipCert ∧
        u.wipChain = s.wipChain ∧ Same s u ∧ u.certSeen = s.certSeen ∧ u.chainSeen = s.chainSeen ∧
        u.recsSeen = true := by
      have e1 : pRecs ≠ pCert := by decide
      have e2 : pRecs ≠ pChain := by decide
      simp [step, hc, stepGroup, hrs, e1, e2]
      exact ⟨rfl, rfl, rfl, rfl⟩
    have hfu : Fits n u f := hf.congr u2 u1
    have hku : Knows g u := ⟨by rw [u4]; exact hk.1, by rw [u5]; exact hk.2, by rw [u7, u4]; exact hk.3,
      by rw [u8, u5]; exact hk.4⟩
    have hsu : Supplied need g u := by
      unfold Supplied
      rw [u6.idx, u7, u8]
      exact hsup rfl
    obtain ⟨out, w, hr, w1, w2, w3, w4, w5, w6, w7, w8⟩ := run_receipts u3 hfu hku hsu rs
    obtain ⟨z, hz, z1, z2, z3, z4, z5, z6, z7, z8, z9⟩ : ∃ z, w.step (pRecs, .endArray) = .ok z ∧
        z.wipRecs = w.wipRecs ∧ z.chunk = w.chunk ∧ z.ctl = .group ∧ z.wipCert = w.wipCert ∧
        z.wipChain = w.wipChain ∧ Same w z ∧ z.certSeen = w.certSeen ∧ z.chainSeen = w.chainSeen ∧
        z.recsSeen = w.recsSeen := by
      simp [step, w1, stepRecList]
      exact ⟨rfl, rfl, rfl, rfl⟩
    have hfz : Fits n z _ := w3.congr z2 z1
    refine ⟨out, z, ?_, z3, ?_, ?_, ?_, (u6.trans w5).trans z6, ?_⟩
    · show run need n s ((pRecs, .startArray) :: (arrEvents [kGroups, c!"item", kRecs] (rs.map .str) ++
        [(pRecs, .endArray)])) = _
      rw [run_quiet hstep (hfu.ready _), run_append hr, run_quiet hz (hfz.ready _)]
      simp [run]
    · rw [if_pos rfl, hrecs, w2]
    · rw [if_pos rfl, hrecs]; exact hfz
    · exact ⟨by rw [z4]; exact w4.1, by rw [z5]; exact w4.2, by rw [z7, z4]; exact w4.3,
        by rw [z8, z5]; exact w4.4⟩
    · refine ⟨?_, ?_, ?_⟩
      · rw [z7, w6, u7, s1]; simp [h1.symm]
      · rw [z8, w7, u8, s2]; simp [h2.symm]
      · rw [z9, w8, u9]; simp
  rw [if_neg hkr]
  simp only [List.foldl_nil]
  by_cases hkc : k = kCert
  · subst hkc
    cases vc rfl
    have hcs : s.certSeen = false := fl s1 (hnew (.inr (.inl rfl)))
    obtain ⟨u, hstep, u1, u2, u3, u4, u5, u6, u7, u8, u9⟩ : ∃ u, s.step (pCert, .str c) = .ok u ∧
        u.wipRecs = s.wipRecs ∧ u.chunk = s.chunk ∧ u.ctl = .group ∧ u.wipCert = g.cert ∧
        u.wipChain = s.wipChain ∧ Same s u ∧ u.certSeen = true ∧ u.chainSeen = s.chainSeen ∧
        u.recsSeen = s.recsSeen := by
      simp only [step, hc, stepGroup]
      rw [if_neg (by simp), if_pos trivial, if_neg (by simp [hcs]), parseOptCert_iff.mpr hcert]
      exact ⟨_, rfl, rfl, rfl, rfl, rfl, rfl, ⟨rfl, rfl, rfl, rfl⟩, rfl, rfl, rfl⟩
    have hfu : Fits n u f := hf.congr u2 u1
    refine ⟨[], u, ?_, u3, by simp, hfu, ?_, u6, ?_⟩
    · show run need n s [(pCert, .str c)] = _
      rw [run_quiet hstep (hfu.ready _)]
      rfl
    · exact ⟨.inr u4, by rw [u5]; exact hk.2, fun _ => u4, by rw [u8, u5]; exact hk.4⟩
    · refine ⟨?_, ?_, ?_⟩
      · rw [u7]; simp
      · rw [u8, s2]; simp [h3.symm]
      · rw [u9, s3]; simp [h1]
  by_cases hkl : k = kCerts
  · subst hkl
    cases vl rfl
    have hls : s.chainSeen = false := fl s2 (hnew (.inr (.inr rfl)))
    obtain ⟨u, hstep, u1, u2, u3, u4, u5, u6, u7, u8, u9⟩ : ∃ u, s.step (pChain, .startArray) = .ok u ∧
        u.wipRecs = s.wipRecs ∧ u.chunk = s.chunk ∧ u.ctl = .certList ∧ u.wipCert = s.wipCert ∧
        u.wipChain = some [] ∧ Same s u ∧ u.certSeen = s.certSeen ∧ u.chainSeen = true ∧
        u.recsSeen = s.recsSeen := by
      have e1 : pChain ≠ pCert := by decide
      simp [step, hc, stepGroup, hls, e1]
      exact ⟨rfl, rfl, rfl, rfl⟩
    have hfu : Fits n u f := hf.congr u2 u1
    have hr := run_chain (need := need) u3 hfu u5 hchain
    rw [List.nil_append] at hr
    obtain ⟨w, hw, w1, w2, w3, w4, w5, w6, w7, w8, w9⟩ : ∃ w : PState, { u with wipChain := some g.chain } = w ∧
        w.wipRecs = u.wipRecs ∧ w.chunk = u.chunk ∧ w.ctl = .certList ∧ w.wipCert = u.wipCert ∧
        w.wipChain = some g.chain ∧ Same u w ∧ w.certSeen = u.certSeen ∧ w.chainSeen = u.chainSeen ∧
        w.recsSeen = u.recsSeen := ⟨{ u with wipChain := some g.chain }, rfl, rfl, rfl, u3, rfl, rfl, ⟨rfl, rfl, rfl, rfl⟩, rfl, rfl, rfl⟩
    rw [hw] at hr
    obtain ⟨z, hz, z1, z2, z3, z4, z5, z6, z7, z8, z9⟩ : ∃ z, w.step (pChain, .endArray) = .ok z ∧
        z.wipRecs = w.wipRecs ∧ z.chunk = w.chunk ∧ z.ctl = .group ∧ z.wipCert = w.wipCert ∧
        z.wipChain = w.wipChain ∧ Same w z ∧ z.certSeen = w.certSeen ∧ z.chainSeen = w.chainSeen ∧
        z.recsSeen = w.recsSeen := by
      simp [step, w3, stepCertList]
      exact ⟨rfl, rfl, rfl, rfl⟩
    have hfz : Fits n z f := (hfu.congr w2 w1).congr z2 z1
    refine ⟨[], z, ?_, z3, by simp, hfz, ?_, (u6.trans w6).trans z6, ?_⟩
    · show run need n s ((pChain, .startArray) :: (arrEvents [kGroups, c!"item", kCerts] (cs.map .str) ++
        [(pChain, .endArray)])) = _
      rw [run_quiet hstep (hfu.ready _), run_append hr, run_quiet hz (hfz.ready _)]
      simp [run]
    · refine ⟨by rw [z4, w4, u4]; exact hk.1, .inr (by rw [z5, w5]), by rw [z7, w7, u7, z4, w4, u4]; exact hk.3,
        fun _ => by rw [z5, w5]⟩
    · refine ⟨?_, ?_, ?_⟩
      · rw [z7, w7, u7, s1]; simp [h3]
      · rw [z8, w8, u8]; simp
      · rw [z9, w9, u9, s3]; simp [h2]
  refine ⟨[], s, ?_, hc, by simp, hf, hk, .refl s, ?_⟩
  · exact run_skip (group_ignores hc hkc hkl hkr v) (hf.ready _)
  · refine ⟨?_, ?_, ?_⟩
    · rw [s1]; simp [Ne.symm hkc]
    · rw [s2]; simp [Ne.symm hkl]
    · rw [s3]; simp [Ne.symm hkr]

/-- The elements of a group. -/
theorem run_elements {g : DepGroup} {s : PState} {f : Fill} (hc : s.ctl = .group) (hf : Fits n s f)
    (hk : Knows g s) {pre : List Str} (hseen : Seen pre s) {d : Dict Json} (hnd : ∀ k, GroupElem k → (pre ++ d.keys).count k ≤ 1)
    {rs cs : List Str} {c : Str} (hrecs : g.recs = rs.map utf8Enc) (hcert : SignCert c g.cert)
    (hchain : List.Forall₂ CertOf cs g.chain) (vr : ∀ v, (kRecs, v) ∈ d → v = .arr (rs.map .str))
    (vc : ∀ v, (kCert, v) ∈ d → v = .str c) (vl : ∀ v, (kCerts, v) ∈ d → v = .arr (cs.map .str))
    (hsup : need s.idx = .ok (some (g.cert, g.chain)) ∨ ((g.cert ≠ none ∨ need s.idx = .ok none) ∧
      ∀ (a : Dict Json) v b, d = a ++ (kRecs, v) :: b → kCert ∈ pre ++ a.keys ∧ kCerts ∈ pre ++ a.keys)) :
    ∃ out s', run need n s (objEvents [kGroups, c!"item"] d) = (out, .ok s') ∧ s'.ctl = .group ∧
      ((if kRecs ∈ d.keys then g.recs else []).foldl (Fill.add n g.cert g.chain) f).out = f.out ++ out ∧
      Fits n s' ((if kRecs ∈ d.keys then g.recs else []).foldl (Fill.add n g.cert g.chain) f) ∧
      Knows g s' ∧ Same s s' ∧ Seen (pre ++ d.keys) s' := by
  induction d generalizing s f pre with
  | nil =>
    refine ⟨[], s, rfl, hc, by simp [Dict.keys], by simpa [Dict.keys] using hf, hk, .refl s, ?_⟩
    simpa [Dict.keys] using hseen
  | cons p d ih =>
    obtain ⟨k, v⟩ := p
    have hnew : GroupElem k → k ∉ pre ∧ k ∉ Dict.keys d := by
      intro he
      have : (pre ++ k :: Dict.keys d).count k ≤ 1 := hnd k he
      rw [List.count_append, List.count_cons_self] at this
      exact ⟨List.count_eq_zero.mp (by omega), List.count_eq_zero.mp (by omega)⟩
    obtain ⟨o1, s1, h1, c1, e1, f1, k1, m1, n1⟩ := run_element (need := need) hc hf hk hseen (k := k) (v := v) (fun he => (hnew he).1)
      hrecs hcert hchain (fun e => vr v (by simp [← e])) (fun e => vc v (by simp [← e]))
      (fun e => vl v (by simp [← e])) (by
        rintro rfl
        rcases hsup with h | ⟨h, h'⟩
        · exact .inl h
        · have := h' [] v d rfl
          simp only [Dict.keys, List.map_nil, List.append_nil] at this
          exact .inr ⟨h, hseen.1.mpr this.1, hseen.2.1.mpr this.2⟩)
    have hnd' : ∀ k', GroupElem k' → (pre ++ [k] ++ Dict.keys d).count k' ≤ 1 := by
      rw [List.append_assoc]; exact hnd
    obtain ⟨o2, s2, h2, c2, e2, f2, k2, m2, n2⟩ := ih c1 f1 k1 n1 hnd'
      (fun v hv => vr v (List.mem_cons_of_mem _ hv)) (fun v hv => vc v (List.mem_cons_of_mem _ hv))
      (fun v hv => vl v (List.mem_cons_of_mem _ hv)) (by
        rw [m1.idx]
        rcases hsup with h | ⟨h, h'⟩
        · exact .inl h
        · refine .inr ⟨h, ?_⟩
          intro a w b e
          have := h' ((k, v) :: a) w b (by rw [e]; rfl)
          rw [List.append_assoc]
          exact this)
    have hfold : (if kRecs ∈ Dict.keys d then g.recs else []).foldl (Fill.add n g.cert g.chain)
        ((if k = kRecs then g.recs else []).foldl (Fill.add n g.cert g.chain) f) =
        (if kRecs ∈ Dict.keys ((k, v) :: d) then g.recs else []).foldl (Fill.add n g.cert g.chain) f := by
      by_cases hkr : k = kRecs
      · subst hkr
        have hnew := (hnew (.inl rfl)).2
        simp [Dict.keys] at hnew
        simp [Dict.keys, hnew]
      · have : kRecs ∈ Dict.keys ((k, v) :: d) ↔ kRecs ∈ Dict.keys d := by
          simp [Dict.keys, Ne.symm hkr]
        simp [hkr, this]
    refine ⟨o1 ++ o2, s2, ?_, c2, ?_, ?_, k2, m1.trans m2, ?_⟩
    · simp only [objEvents]
      exact run_trans h1 h2
    · rw [← hfold, e2, e1, List.append_assoc]
    · rw [← hfold]; exact f2
    · rw [List.append_assoc] at n2; exact n2

/-- A group. -/
theorem run_group {g : DepGroup} {s : PState} {f : Fill} (hc : s.ctl = .groups) (hf : Fits n s f)
    (hw : f.next = []) {j : Json} (hj : GroupJson j g) (hnd : ∀ d, j = .obj d → ∀ k, GroupElem k → (Dict.keys d).count k ≤ 1)
    (hsup : need s.curIdx = .ok (some (g.cert, g.chain)) ∨ ((g.cert ≠ none ∨ need s.curIdx = .ok none) ∧
      ∀ d, j = .obj d → ∀ (a : Dict Json) v b, d = a ++ (kRecs, v) :: b → kCert ∈ a.keys ∧ kCerts ∈ a.keys)) :
    ∃ out s', run need n s (j.events [kGroups, c!"item"]) = (out, .ok s') ∧ s'.ctl = .groups ∧
      ((g.recs.foldl (Fill.add n g.cert g.chain) f).close g.cert g.chain).out = f.out ++ out ∧
      Fits n s' ((g.recs.foldl (Fill.add n g.cert g.chain) f).close g.cert g.chain) ∧
      s'.rootSeen = s.rootSeen ∧ s'.groupsSeen = s.groupsSeen ∧ s'.curIdx = s.curIdx + 1 := by
  obtain ⟨d, rs, t, cs, cert, chain, hr, hs, hl, hcert, hchain⟩ := hj
  have hd := hnd d rfl
  obtain ⟨u, hstep, u1, u2, u3, u4, u5, u6, u7, u8, u9, u10, u11, u12⟩ :
      ∃ u, s.step (pGroup, .startMap) = .ok u ∧
      u.wipRecs = [] ∧ u.chunk = s.chunk ∧ u.ctl = .group ∧ u.wipCert = none ∧
      u.wipChain = none ∧ u.certSeen = false ∧ u.chainSeen = false ∧ u.recsSeen = false ∧
      u.rootSeen = s.rootSeen ∧ u.groupsSeen = s.groupsSeen ∧ u.curIdx = s.curIdx + 1 ∧ u.idx = s.curIdx := by
    have e1 : pGroup ≠ kGroups := by decide
    simp [step, hc, stepGroups, e1]
  have hfu : Fits n u f := hf.congr u2 (by rw [u1, hf.recs, hw])
  have hm : ∀ (k : Str) (x y : Json), GroupElem k → Dict.get? d k = some x → (k, y) ∈ d → y = x := by
    intro k x y he hx hy
    have := get?_of_count (hd k he) hy
    rw [hx] at this
    exact (Option.some.inj this).symm
  obtain ⟨out, w, h1, c1, e1, f1, k1, m1, n1⟩ := run_elements (need := need) (pre := [])
    (g := ⟨rs.map utf8Enc, cert, chain⟩) (d := d) u3 hfu
    ⟨.inl u4, .inl u5, by rw [u6]; simp, by rw [u7]; simp⟩ (by simp [Seen, u6, u7, u8]) hd rfl hcert hchain
    (fun v hv => hm _ _ v (.inl rfl) hr hv) (fun v hv => hm _ _ v (.inr (.inl rfl)) hs hv)
    (fun v hv => hm _ _ v (.inr (.inr rfl)) hl hv) (by
      rw [u12]
      rcases hsup with h | ⟨h, h'⟩
      · exact .inl h
      · exact .inr ⟨h, fun a v b e => h' d rfl a v b e⟩)
  have mem : ∀ {k : Str} {x : Json}, Dict.get? d k = some x → k ∈ Dict.keys d := fun h =>
    Dict.mem_keys_iff.mpr (by rw [h]; rfl)
  have hkr : kRecs ∈ Dict.keys d := mem hr
  rw [if_pos hkr] at e1 f1
  have q1 := n1.1.mpr (mem hs)
  have q2 := n1.2.1.mpr (mem hl)
  have q3 := n1.2.2.mpr hkr
  have hend : w.step (pGroup, .endMap) = .ok { w.merge with ctl := .groups } := by
    simp [step, c1, stepGroup, q1, q2, q3]
  have hmerge : Fits n w.merge ((((⟨rs.map utf8Enc, cert, chain⟩ : DepGroup).recs).foldl
        (Fill.add n cert chain) f).close cert chain) ∧ w.merge.rootSeen = w.rootSeen ∧
      w.merge.groupsSeen = w.groupsSeen ∧ w.merge.curIdx = w.curIdx := by
    obtain ⟨g1, g2, g3, g4⟩ := f1
    unfold PState.merge Fill.close
    rw [← g2]
    split
    · exact ⟨⟨g1, g2, g3, g4⟩, rfl, rfl, rfl⟩
    · refine ⟨⟨?_, rfl, ?_, g4⟩, rfl, rfl, rfl⟩
      · simp only [g1, k1.certSeen q1, k1.chainSeen q2, Option.getD_some]
      · simp only at g3 ⊢
        rw [g3]
        simp [PState.size]
  obtain ⟨hm1, hm2, hm3, hm4⟩ := hmerge
  have hfz : Fits n { w.merge with ctl := .groups } _ := hm1.congr rfl rfl
  refine ⟨out, _, ?_, rfl, ?_, hfz, ?_, ?_, ?_⟩
  · show run need n s ((pGroup, .startMap) :: (objEvents [kGroups, c!"item"] d ++ [(pGroup, .endMap)])) = _
    rw [run_quiet hstep (hfu.ready _), run_append h1, run_quiet hend (hfz.ready _)]
    simp [run]
  · rw [← e1]
    unfold Fill.close
    split <;> rfl
  · show w.merge.rootSeen = _
    rw [hm2, m1.rootSeen, u9]
  · show w.merge.groupsSeen = _
    rw [hm3, m1.groupsSeen, u10]
  · show w.merge.curIdx = _
    rw [hm4, m1.curIdx, u11]

theorem close_next (g : DepGroup) (f : Fill) :
    (Fill.close g.cert g.chain f).next = [] := by
  unfold Fill.close
  split
  · assumption
  · rfl

/-- All groups. -/
theorem run_groups {s : PState} {f : Fill} (hc : s.ctl = .groups) (hf : Fits n s f) (hw : f.next = [])
    {js : List Json} {gs : List DepGroup} (hg : List.Forall₂ GroupJson js gs)
    (hnd : ∀ d, Json.obj d ∈ js → ∀ k, GroupElem k → (Dict.keys d).count k ≤ 1)
    (hsup : ∀ i g, gs[i]? = some g → need (s.curIdx + i) = .ok (some (g.cert, g.chain)) ∨ ((g.cert ≠ none ∨ need (s.curIdx + i) = .ok none) ∧
      ∀ d, js[i]? = some (.obj d) → ∀ (a : Dict Json) v b, d = a ++ (kRecs, v) :: b →
        kCert ∈ a.keys ∧ kCerts ∈ a.keys)) :
    ∃ out s', run need n s (arrEvents [kGroups] js) = (out, .ok s') ∧ s'.ctl = .groups ∧
      (f.groups n gs).out = f.out ++ out ∧ Fits n s' (f.groups n gs) ∧
      s'.rootSeen = s.rootSeen ∧ s'.groupsSeen = s.groupsSeen := by
  induction hg generalizing s f with
  | nil => exact ⟨[], s, rfl, hc, by simp [Fill.groups], hf, rfl, rfl⟩
  | @cons j g js gs hj _ ih =>
    obtain ⟨o1, s1, h1, c1, e1, f1, r1, g1, i1⟩ := run_group (need := need) hc hf hw hj
      (fun d e => hnd d (by simp [e])) (by
        rcases hsup 0 g rfl with h | ⟨h, h'⟩
        · exact .inl h
        · exact .inr ⟨h, fun d e => h' d (by simp [e])⟩)
    obtain ⟨o2, s2, h2, c2, e2, f2, r2, g2⟩ := ih c1 f1 (close_next g _) (fun d hd => hnd d (by simp [hd])) (by
      intro i g' hi
      rw [i1, show s.curIdx + 1 + i = s.curIdx + (i + 1) by omega]
      rcases hsup (i + 1) g' (by simpa using hi) with h | ⟨h, h'⟩
      · exact .inl h
      · exact .inr ⟨h, fun d e => h' d (by simpa using e)⟩)
    refine ⟨o1 ++ o2, s2, ?_, c2, ?_, f2, r2.trans r1, g2.trans g1⟩
    · simp only [arrEvents]
      exact run_trans h1 h2
    · show (Fill.groups n _ gs).out = _
      rw [e2, e1, List.append_assoc]

/-- An element of the root that is ignored. -/
theorem root_ignores {s : PState} (hc : s.ctl = .rootMap) {k : Str} (h1 : k ≠ kGroups) (h2 : k ≠ [])
    (v : Json) : ∀ x ∈ v.events [k], s.step x = .ok s := by
  intro x hx
  obtain ⟨q, hq, -⟩ := events_path _ v x hx
  have hq : x.1 = joinWith '.' (k :: q) := hq
  have n1 : x.1 ≠ kGroups := fun e => h1 ((join_no_dot (X := kGroups) (by decide)).mp (hq.symm.trans e)).2
  have n2 : x.1 ≠ [] := fun e => h2 ((join_no_dot (X := []) (by decide)).mp (hq.symm.trans e)).2
  simp [step, hc, stepRootMap, n1, n2]

theorem root_key {s : PState} (hc : s.ctl = .rootMap) (k : Str) : s.step ([], .mapKey k) = .ok s := by
  have h1 : [] ≠ kGroups := by decide
  simp [step, hc, stepRootMap, h1]

/-- Elements of the root without the groups. -/
theorem run_others {s : PState} {f : Fill} (hc : s.ctl = .rootMap) (hf : Fits n s f) {d : Dict Json}
    (h : ∀ k ∈ d.keys, k ≠ kGroups ∧ k ≠ []) : run need n s (objEvents [] d) = ([], .ok s) := by
  induction d with
  | nil => rfl
  | cons p d ih =>
    obtain ⟨k, v⟩ := p
    have hk := h k List.mem_cons_self
    have h1 : run need n s (pairEvents [] (k, v)) = ([], .ok s) := by
      show run need n s (([], .mapKey k) :: v.events [k]) = _
      rw [run_quiet (root_key hc k) (hf.ready _)]
      exact run_skip (root_ignores hc hk.1 hk.2 v) (hf.ready _)
    simp only [objEvents]
    rw [run_trans h1 (ih fun k hk => h k (List.mem_cons_of_mem _ hk))]
    rfl

end PState

/-- The incremental parsers read a DEP to its end. -/
theorem incRun_json {need : Nat → Res (Option (Option Cert × List Cert))} {n : Nat} (hn : n ≠ 0)
    {root : Dict Json} (hnd : root.keys.count kGroups ≤ 1) (hkeys : ∀ k ∈ root.keys, k ≠ [])
    {js : List Json} (hj : root.get? kGroups = some (.arr js)) (hd : ∀ d, Json.obj d ∈ js → ∀ k, GroupElem k → (Dict.keys d).count k ≤ 1)
    {gs : List DepGroup} (hg : List.Forall₂ GroupJson js gs)
    (hsup : ∀ i g, gs[i]? = some g → need i = .ok (some (g.cert, g.chain)) ∨ ((g.cert ≠ none ∨ need i = .ok none) ∧
      ∀ d, js[i]? = some (.obj d) → ∀ (a : Dict Json) v b, d = a ++ (kRecs, v) :: b →
        kCert ∈ a.keys ∧ kCerts ∈ a.keys)) :
    ∃ out s3, PState.run need n {} ((Json.obj root).events []) = (out, .ok { s3 with ctl := .root }) ∧
      (Fill.groups n ⟨[], [], [], 0⟩ gs).out = out ∧ PState.Fits n s3 (Fill.groups n ⟨[], [], [], 0⟩ gs) := by
  obtain ⟨a, b, rfl⟩ : ∃ a b, root = a ++ (kGroups, .arr js) :: b := by
    obtain ⟨a, b, h⟩ := List.append_of_mem (Dict.mem_of_get? hj)
    exact ⟨a, b, h⟩
  have hnd' : (Dict.keys a ++ kGroups :: Dict.keys b).count kGroups ≤ 1 := by
    simpa [Dict.keys] using hnd
  rw [List.count_append, List.count_cons_self] at hnd'
  have ha : ∀ k ∈ Dict.keys a, k ≠ kGroups ∧ k ≠ [] := fun k hk =>
    ⟨fun e => List.count_eq_zero.mp (show (Dict.keys a).count kGroups = 0 by omega) (e ▸ hk), hkeys k (by simp [Dict.keys] at hk ⊢; exact .inl hk)⟩
  have hb : ∀ k ∈ Dict.keys b, k ≠ kGroups ∧ k ≠ [] := fun k hk =>
    ⟨fun e => List.count_eq_zero.mp (show (Dict.keys b).count kGroups = 0 by omega) (e ▸ hk), hkeys k (by simp [Dict.keys] at hk ⊢; exact .inr (.inr hk))⟩
  have hev : ∀ (a b : Dict Json), objEvents [] (a ++ b) = objEvents [] a ++ objEvents [] b := by
    intro a b
    induction a with
    | nil => rfl
    | cons p a ih => simp only [List.cons_append, objEvents, ih, List.append_assoc]
  let f0 : Fill := ⟨[], [], [], 0⟩
  let s1 : PState := { rootSeen := true, ctl := .rootMap }
  have hf1 : PState.Fits n s1 f0 := ⟨rfl, rfl, rfl, Nat.pos_of_ne_zero hn⟩
  let s2 : PState := { rootSeen := true, ctl := .groups, groupsSeen := true }
  have hf2 : PState.Fits n s2 f0 := ⟨rfl, rfl, rfl, Nat.pos_of_ne_zero hn⟩
  have st1 : PState.step {} ([], .startMap) = .ok s1 := rfl
  have st2 : s1.step (kGroups, .startArray) = .ok s2 := rfl
  obtain ⟨out, s3, h3, c3, e3, f3, r3, g3⟩ := PState.run_groups (need := need) (n := n) (s := s2) (f := f0) rfl hf2 rfl
    hg hd (by
      intro i g hi
      have := hsup i g hi
      rwa [show s2.curIdx + i = i from Nat.zero_add i])
  have st3 : s3.step (kGroups, .endArray) = .ok { s3 with ctl := .rootMap } := by
    simp [PState.step, c3, PState.stepGroups]
  have hf3 : PState.Fits n { s3 with ctl := .rootMap } (Fill.groups n f0 gs) := f3.congr rfl rfl
  have st4 : ({ s3 with ctl := .rootMap } : PState).step ([], .endMap) = .ok { s3 with ctl := .root } := by
    have : s3.groupsSeen = true := g3
    simp [PState.step, PState.stepRootMap, this]
  have hf4 : PState.Fits n { s3 with ctl := .root } (Fill.groups n f0 gs) := f3.congr rfl rfl
  have hrun : PState.run need n {} ((Json.obj (a ++ (kGroups, .arr js) :: b)).events []) =
      (out, .ok { s3 with ctl := .root }) := by
    have hE : (Json.obj (a ++ (kGroups, .arr js) :: b)).events [] =
        ([], .startMap) :: (objEvents [] a ++ (([], .mapKey kGroups) :: (kGroups, .startArray) ::
          (arrEvents [kGroups] js ++ (kGroups, .endArray) :: (objEvents [] b ++ [([], .endMap)])))) := by
      simp only [Json.events, hev, objEvents, pairEvents]
      simp [joinWith]
    rw [hE, PState.run_quiet st1 (hf1.ready _), PState.run_append (PState.run_others rfl hf1 ha),
      PState.run_quiet (PState.root_key rfl _) (hf1.ready _), PState.run_quiet st2 (hf2.ready _),
      PState.run_append h3, PState.run_quiet st3 (hf3.ready _), PState.run_append (PState.run_others rfl hf3 hb),
      PState.run_quiet st4 (hf4.ready _)]
    simp [PState.run]
  exact ⟨out, s3, hrun, by rw [e3]; rfl, f3⟩

/-- The incremental parsers yield what the parser for values in memory yields. -/
theorem incParse_json {need : Nat → Res (Option (Option Cert × List Cert))} {n : Nat} (hn : n ≠ 0)
    {root : Dict Json} (hnd : root.keys.count kGroups ≤ 1) (hkeys : ∀ k ∈ root.keys, k ≠ [])
    {js : List Json} (hj : root.get? kGroups = some (.arr js)) (hd : ∀ d, Json.obj d ∈ js → ∀ k, GroupElem k → (Dict.keys d).count k ≤ 1)
    {gs : List DepGroup} (hg : List.Forall₂ GroupJson js gs)
    (hsup : ∀ i g, gs[i]? = some g → need i = .ok (some (g.cert, g.chain)) ∨ ((g.cert ≠ none ∨ need i = .ok none) ∧
      ∀ d, js[i]? = some (.obj d) → ∀ (a : Dict Json) v b, d = a ++ (kRecs, v) :: b →
        kCert ∈ a.keys ∧ kCerts ∈ a.keys)) :
    incParse need n false ((Json.obj root).events []) =
      if (Fill.groups n ⟨[], [], [], 0⟩ gs).finish = [] then ⟨[], some .malformedDEP⟩
      else ⟨(Fill.groups n ⟨[], [], [], 0⟩ gs).finish, none⟩ := by
  obtain ⟨out, s3, hrun, hout, f3⟩ := incRun_json hn hnd hkeys hj hd hg hsup
  let f0 : Fill := ⟨[], [], [], 0⟩
  have hout : (Fill.groups n f0 gs).out = out := hout
  have hnext : (Fill.groups n f0 gs).next = [] := by
    have : ∀ (gs : List DepGroup) (f : Fill), f.next = [] → (Fill.groups n f gs).next = [] := by
      intro gs
      induction gs with
      | nil => exact fun f h => h
      | cons g gs ih => exact fun f _ => ih _ (PState.close_next g _)
    exact this gs f0 rfl
  obtain ⟨k1, k2, k3, k4⟩ := f3
  have hlen : (Fill.groups n f0 gs).len = s3.size := by rw [k3, k2, hnext]; simp
  unfold incParse
  rw [hrun]
  have hget : (({ s3 with ctl := .root } : PState).getChunk .root).1 = if s3.size = 0 then [] else s3.chunk := by
    show (if s3.size = 0 then _ else _ : Chunk × PState).1 = _
    split <;> rfl
  have hne : s3.size ≠ 0 → s3.chunk ≠ [] := by
    intro h e
    exact h (by simp [PState.size, e])
  simp only [Bool.false_eq_true, if_false, hget]
  show _ = if (Fill.groups n f0 gs).finish = [] then _ else _
  unfold Fill.finish
  rw [hlen, hout, ← k1]
  by_cases h0 : s3.size = 0
  · simp only [h0, if_true, ne_eq, not_true_eq_false, if_false, Nat.lt_irrefl]
    split
    · rename_i h; rw [h]
    · rfl
  · have : 0 < s3.size := Nat.pos_of_ne_zero h0
    simp [h0, hne h0, this]

end

end RKSV
