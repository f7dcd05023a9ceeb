import Verif.Lemmas.IncParser
/-
The incremental parsers refuse everything that is not a DEP.
-/
namespace RKSV

section
variable [PyEnv]

namespace PState

variable {need : Nat → Res (Option (Option Cert × List Cert))} {n : Nat}

/-- The fields that decide about errors. -/
structure Ctrl (s u : PState) : Prop where
  ctl : u.ctl = s.ctl
  root : u.rootSeen = s.rootSeen
  groups : u.groupsSeen = s.groupsSeen
  recs : u.recsSeen = s.recsSeen
  cert : u.certSeen = s.certSeen
  chain : u.chainSeen = s.chainSeen

theorem Ctrl.trans {s u v : PState} (h : Ctrl s u) (h' : Ctrl u v) : Ctrl s v :=
  ⟨h'.1.trans h.1, h'.2.trans h.2, h'.3.trans h.3, h'.4.trans h.4, h'.5.trans h.5, h'.6.trans h.6⟩

theorem merge_ctrl (s : PState) : Ctrl s s.merge := by
  unfold merge
  split <;> exact ⟨rfl, rfl, rfl, rfl, rfl, rfl⟩

theorem fetch_ctrl {s s' : PState} {c : Ctl} (h : s.fetch need c = .ok s') : Ctrl s s' := by
  unfold fetch at h
  split at h
  · rw [Res.bind_eq_ok] at h
    obtain ⟨x, -, h⟩ := h
    cases h
    cases x <;> exact ⟨rfl, rfl, rfl, rfl, rfl, rfl⟩
  · cases h; exact ⟨rfl, rfl, rfl, rfl, rfl, rfl⟩

theorem getChunk_ctrl (s : PState) (c : Ctl) : Ctrl s (s.getChunk c).2 := by
  have key : ∀ u : PState, Ctrl s u →
      Ctrl s ((if u.size = 0 then ([], u) else (u.chunk, { u with chunk := [] })) : Chunk × PState).2 := by
    intro u h
    split
    · exact h
    · exact h.trans ⟨rfl, rfl, rfl, rfl, rfl, rfl⟩
  unfold getChunk
  simp only
  by_cases hc : Inside c = true
  · rw [if_pos hc]; exact key _ s.merge_ctrl
  · rw [if_neg hc]; exact key _ ⟨rfl, rfl, rfl, rfl, rfl, rfl⟩

/-- One event that raises nothing. -/
theorem run_cons_ok {s t : PState} {x : Str × Ev} {xs : List (Str × Ev)} {out : List Chunk}
    (h : run need n s (x :: xs) = (out, .ok t)) :
    ∃ u v out', s.step x = .ok u ∧ Ctrl u v ∧ run need n v xs = (out', .ok t) := by
  have key : ∀ (s' : PState) (o : List Chunk), (o ++ (run need n s' xs).1, (run need n s' xs).2) = (out, .ok t) →
      ∃ out', run need n s' xs = (out', .ok t) := fun s' o e => ⟨_, Prod.ext rfl (Prod.mk.inj e).2⟩
  simp only [run, advance] at h
  cases hs : s.step x with
  | error e => rw [hs] at h; cases (Prod.mk.inj h).2
  | ok u =>
    rw [hs] at h
    simp only at h
    by_cases hr : u.ready n s.ctl = true
    · rw [if_pos hr] at h
      cases hf : u.fetch need s.ctl with
      | error e => rw [hf] at h; cases (Prod.mk.inj h).2
      | ok v =>
        rw [hf] at h
        obtain ⟨out', h'⟩ := key _ _ h
        exact ⟨u, _, out', rfl, (fetch_ctrl hf).trans (getChunk_ctrl _ _), h'⟩
    · rw [if_neg hr] at h
      obtain ⟨out', h'⟩ := key _ _ h
      exact ⟨u, u, out', rfl, ⟨rfl, rfl, rfl, rfl, rfl, rfl⟩, h'⟩

theorem run_append_ok {s t : PState} {xs ys : List (Str × Ev)} {out : List Chunk}
    (h : run need n s (xs ++ ys) = (out, .ok t)) :
    ∃ u o1 o2, run need n s xs = (o1, .ok u) ∧ run need n u ys = (o2, .ok t) := by
  cases hx : run need n s xs with
  | mk o1 r =>
    cases r with
    | ok u =>
      rw [run_append hx] at h
      exact ⟨u, o1, _, rfl, Prod.ext rfl (Prod.mk.inj h).2⟩
    | error e =>
      exfalso
      have key : ∀ (xs : List (Str × Ev)) (s : PState) (o1 : List Chunk), run need n s xs = (o1, .error e) →
          run need n s (xs ++ ys) = (o1, .error e) := by
        intro xs
        induction xs with
        | nil => intro s o1 h; cases (Prod.mk.inj h).2
        | cons x xs ih =>
          intro s o1 h
          simp only [List.cons_append, run] at h ⊢
          rcases ha : advance need n s x with ⟨o, r⟩
          rw [ha] at h
          cases r with
          | error e' => exact h
          | ok s' =>
            simp only at h ⊢
            have h2 := ih s' (run need n s' xs).1 (Prod.ext rfl (Prod.mk.inj h).2)
            rw [h2, ← (Prod.mk.inj h).1]
      rw [key xs s o1 hx] at h
      cases (Prod.mk.inj h).2

/-- Where events are ignored, nothing changes. -/
theorem run_skip_ok {s t : PState} {xs : List (Str × Ev)} {out : List Chunk}
    (hs : ∀ u, Ctrl s u → ∀ x ∈ xs, u.step x = .ok u) (h : run need n s xs = (out, .ok t)) : Ctrl s t := by
  induction xs generalizing s out with
  | nil => cases h; exact ⟨rfl, rfl, rfl, rfl, rfl, rfl⟩
  | cons x xs ih =>
    obtain ⟨u, v, out', h1, h2, h3⟩ := run_cons_ok h
    rw [hs s ⟨rfl, rfl, rfl, rfl, rfl, rfl⟩ x (by simp)] at h1
    cases h1
    exact h2.trans (ih (fun w hw y hy => hs w (h2.trans hw) y (by simp [hy])) h3)

/-- The first event of a value. -/
def head (path : List Str) (j : Json) : Str × Ev :=
  (joinWith '.' path, match j with
    | .str s => .str s
    | .arr _ => .startArray
    | .obj _ => .startMap
    | _ => .other)

omit [PyEnv] in
theorem events_head (path : List Str) (j : Json) : ∃ xs, j.events path = head path j :: xs := by
  cases j <;> exact ⟨_, rfl⟩

/-- The list of receipts has only texts in it. -/
theorem recList_ok {s t : PState} (hc : s.ctl = .recList) {l : List Json} {out : List Chunk}
    (h : run need n s (arrEvents [kGroups, c!"item", kRecs] l) = (out, .ok t)) :
    Ctrl s t ∧ ∃ rs : List Str, l = rs.map .str := by
  induction l generalizing s out with
  | nil => cases h; exact ⟨⟨rfl, rfl, rfl, rfl, rfl, rfl⟩, [], rfl⟩
  | cons j l ih =>
    simp only [arrEvents] at h
    obtain ⟨xs, hx⟩ := events_head ([kGroups, c!"item", kRecs] ++ [c!"item"]) j
    have hp : pRecsItem ≠ pRecs := by decide
    have hpath : (head ([kGroups, c!"item", kRecs] ++ [c!"item"]) j).1 = pRecsItem := rfl
    cases j with
    | str s' =>
      simp only [Json.events, List.cons_append, List.nil_append] at h
      obtain ⟨u, v, out', h1, h2, h3⟩ := run_cons_ok h
      have : joinWith '.' [kGroups, c!"item", kRecs, c!"item"] = pRecsItem := rfl
      rw [this] at h1
      simp only [step, hc, stepRecList, hp, false_and, if_false, if_true] at h1
      cases h1
      obtain ⟨h4, rs, rfl⟩ := ih (s := v) h2.ctl h3
      exact ⟨(⟨h2.ctl.trans hc.symm, h2.root, h2.groups, h2.recs, h2.cert, h2.chain⟩ : Ctrl s v).trans h4, s' :: rs, rfl⟩
    | _ =>
      exfalso
      rw [hx] at h
      obtain ⟨u, v, out', h1, -, -⟩ := run_cons_ok h
      simp only [step, hc, stepRecList, hpath, hp, false_and, if_false] at h1
      simp only [head] at h1
      cases h1

/-- The list of certificates has only certificates in it. -/
theorem certList_ok {s t : PState} (hc : s.ctl = .certList) {l : List Json} {out : List Chunk}
    (h : run need n s (arrEvents [kGroups, c!"item", kCerts] l) = (out, .ok t)) :
    Ctrl s t ∧ ∃ (cs : List Str) (chain : List Cert), l = cs.map .str ∧ List.Forall₂ CertOf cs chain := by
  induction l generalizing s out with
  | nil => cases h; exact ⟨⟨rfl, rfl, rfl, rfl, rfl, rfl⟩, [], [], rfl, .nil⟩
  | cons j l ih =>
    simp only [arrEvents] at h
    obtain ⟨xs, hx⟩ := events_head ([kGroups, c!"item", kCerts] ++ [c!"item"]) j
    have hp : pChainItem ≠ pChain := by decide
    have hpath : (head ([kGroups, c!"item", kCerts] ++ [c!"item"]) j).1 = pChainItem := rfl
    cases j with
    | str s' =>
      simp only [Json.events, List.cons_append, List.nil_append] at h
      obtain ⟨u, v, out', h1, h2, h3⟩ := run_cons_ok h
      have : joinWith '.' [kGroups, c!"item", kCerts, c!"item"] = pChainItem := rfl
      rw [this] at h1
      simp only [step, hc, stepCertList, hp, false_and, if_false, if_true, Res.bind_eq_ok, parseDEPCert,
        orErr_eq_ok, Json.asStr, Except.ok.injEq] at h1
      obtain ⟨c, ⟨t', e, hcert⟩, rfl⟩ := h1
      cases e
      obtain ⟨h4, cs, chain, rfl, h5⟩ := ih (s := v) h2.ctl h3
      exact ⟨(⟨h2.ctl.trans hc.symm, h2.root, h2.groups, h2.recs, h2.cert, h2.chain⟩ : Ctrl s v).trans h4, s' :: cs, c :: chain, rfl, .cons hcert h5⟩
    | _ =>
      exfalso
      rw [hx] at h
      obtain ⟨u, v, out', h1, -, -⟩ := run_cons_ok h
      simp only [step, hc, stepCertList, hpath, hp, false_and, if_false] at h1
      simp only [head] at h1
      cases h1

/-- What is allowed for the elements of a group. -/
structure ElemOk (k : Str) (v : Json) : Prop where
  recs : k = kRecs → ∃ rs : List Str, v = .arr (rs.map .str)
  cert : k = kCert → ∃ t cert, v = .str t ∧ SignCert t cert
  chain : k = kCerts → ∃ (cs : List Str) (chain : List Cert), v = .arr (cs.map .str) ∧ List.Forall₂ CertOf cs chain

/-- One element of a group. -/
theorem element_ok {s t : PState} (hc : s.ctl = .group) {k : Str} {v : Json} {out : List Chunk}
    (h : run need n s (pairEvents [kGroups, c!"item"] (k, v)) = (out, .ok t)) :
    t.ctl = .group ∧ t.rootSeen = s.rootSeen ∧ t.groupsSeen = s.groupsSeen ∧ ElemOk k v ∧
      (if k = kRecs then 1 else 0) + s.recsSeen.toNat = t.recsSeen.toNat ∧
      (if k = kCert then 1 else 0) + s.certSeen.toNat = t.certSeen.toNat ∧
      (if k = kCerts then 1 else 0) + s.chainSeen.toNat = t.chainSeen.toNat := by
  simp only [pairEvents] at h
  have hkey : joinWith '.' [kGroups, c!"item"] = pGroup := rfl
  rw [hkey] at h
  obtain ⟨u, w, out', h1, h2, h3⟩ := run_cons_ok h
  rw [group_key hc] at h1
  cases h1
  have hcw : w.ctl = .group := by rw [h2.ctl, hc]
  have hpath : [kGroups, c!"item"] ++ [k] = [kGroups, c!"item", k] := rfl
  rw [hpath] at h3
  by_cases hr : k = kRecs
  · subst hr
    obtain ⟨xs, hx⟩ := events_head [kGroups, c!"item", kRecs] v
    have hp : (head [kGroups, c!"item", kRecs] v).1 = pRecs := rfl
    have n1 : pRecs ≠ pGroup := by decide
    have n2 : pRecs ≠ pCert := by decide
    have n3 : pRecs ≠ pChain := by decide
    cases v with
    | arr l =>
      simp only [Json.events] at h3
      have : joinWith '.' [kGroups, c!"item", kRecs] = pRecs := rfl
      rw [this] at h3
      obtain ⟨u, w', out', h4, h5, h6⟩ := run_cons_ok h3
      simp only [step, hcw, stepGroup, n1, n2, n3, false_and, if_false, if_true, ne_eq, not_true_eq_false] at h4
      split at h4
      · cases h4
      · rename_i hnew
        cases h4
        obtain ⟨x, o1, o2, h7, h8⟩ := run_append_ok h6
        obtain ⟨h9, rs, rfl⟩ := recList_ok (h5.ctl) h7
        obtain ⟨y, z, o3, ha, hb, hd⟩ := run_cons_ok h8
        have hcx : x.ctl = .recList := by rw [h9.ctl, h5.ctl]
        simp only [step, hcx, stepRecList, and_self, if_true] at ha
        cases ha
        cases hd
        refine ⟨hb.ctl, ?_, ?_, ⟨fun _ => ⟨rs, rfl⟩, fun e => absurd e (by decide), fun e => absurd e (by decide)⟩,
          ?_, ?_, ?_⟩
        · rw [hb.root, ← h2.root]; show x.rootSeen = _; rw [h9.root, h5.root]
        · rw [hb.groups, ← h2.groups]; show x.groupsSeen = _; rw [h9.groups, h5.groups]
        · rw [hb.recs, ← h2.recs, if_pos rfl]
          show _ = x.recsSeen.toNat
          rw [h9.recs, h5.recs, Bool.eq_false_iff.mpr hnew]
          rfl
        · rw [hb.cert, ← h2.cert, if_neg (by decide), Nat.zero_add]
          show _ = x.certSeen.toNat
          rw [h9.cert, h5.cert]
        · rw [hb.chain, ← h2.chain, if_neg (by decide), Nat.zero_add]
          show _ = x.chainSeen.toNat
          rw [h9.chain, h5.chain]
    | _ =>
      exfalso
      rw [hx] at h3
      obtain ⟨u, w', out', h4, -, -⟩ := run_cons_ok h3
      simp only [step, hcw, stepGroup, hp, n1, n2, n3, false_and, if_false, if_true] at h4
      simp only [head, ne_eq, reduceCtorEq, not_false_eq_true, if_true, ite_self] at h4
  by_cases hs : k = kCert
  · subst hs
    obtain ⟨xs, hx⟩ := events_head [kGroups, c!"item", kCert] v
    have hp : (head [kGroups, c!"item", kCert] v).1 = pCert := rfl
    have n1 : pCert ≠ pGroup := by decide
    cases v with
    | str l =>
      simp only [Json.events] at h3
      have : joinWith '.' [kGroups, c!"item", kCert] = pCert := rfl
      rw [this] at h3
      obtain ⟨u, w', out', h4, h5, h6⟩ := run_cons_ok h3
      simp only [step, hcw, stepGroup, n1, false_and, if_false, if_true] at h4
      split at h4
      · cases h4
      · rename_i hnew
        simp only [Res.bind_eq_ok, Except.ok.injEq] at h4
        obtain ⟨c, h7, rfl⟩ := h4
        cases h6
        refine ⟨h5.ctl, by rw [h5.root]; exact h2.root, by rw [h5.groups]; exact h2.groups,
          ⟨fun e => absurd e (by decide), fun _ => ⟨l, c, rfl, parseOptCert_iff.mp h7⟩, fun e => absurd e (by decide)⟩,
          ?_, ?_, ?_⟩
        · rw [h5.recs, ← h2.recs, if_neg (by decide), Nat.zero_add]
        · rw [h5.cert, ← h2.cert, if_pos rfl, Bool.eq_false_iff.mpr hnew]
          rfl
        · rw [h5.chain, ← h2.chain, if_neg (by decide), Nat.zero_add]
    | _ =>
      exfalso
      rw [hx] at h3
      obtain ⟨u, w', out', h4, -, -⟩ := run_cons_ok h3
      simp only [step, hcw, stepGroup, hp, n1, false_and, if_false, if_true] at h4
      simp only [head, ite_self, reduceCtorEq] at h4
  by_cases hl : k = kCerts
  · subst hl
    obtain ⟨xs, hx⟩ := events_head [kGroups, c!"item", kCerts] v
    have hp : (head [kGroups, c!"item", kCerts] v).1 = pChain := rfl
    have n1 : pChain ≠ pGroup := by decide
    have n2 : pChain ≠ pCert := by decide
    cases v with
    | arr l =>
      simp only [Json.events] at h3
      have : joinWith '.' [kGroups, c!"item", kCerts] = pChain := rfl
      rw [this] at h3
      obtain ⟨u, w', out', h4, h5, h6⟩ := run_cons_ok h3
      simp only [step, hcw, stepGroup, n1, n2, false_and, if_false, if_true, ne_eq, not_true_eq_false] at h4
      split at h4
      · cases h4
      · rename_i hnew
        cases h4
        obtain ⟨x, o1, o2, h7, h8⟩ := run_append_ok h6
        obtain ⟨h9, cs, chain, rfl, hch⟩ := certList_ok (h5.ctl) h7
        obtain ⟨y, z, o3, ha, hb, hd⟩ := run_cons_ok h8
        have hcx : x.ctl = .certList := by rw [h9.ctl, h5.ctl]
        simp only [step, hcx, stepCertList, and_self, if_true] at ha
        cases ha
        cases hd
        refine ⟨hb.ctl, ?_, ?_, ⟨fun e => absurd e (by decide), fun e => absurd e (by decide),
          fun _ => ⟨cs, chain, rfl, hch⟩⟩, ?_, ?_, ?_⟩
        · rw [hb.root, ← h2.root]; show x.rootSeen = _; rw [h9.root, h5.root]
        · rw [hb.groups, ← h2.groups]; show x.groupsSeen = _; rw [h9.groups, h5.groups]
        · rw [hb.recs, ← h2.recs, if_neg (by decide), Nat.zero_add]
          show _ = x.recsSeen.toNat
          rw [h9.recs, h5.recs]
        · rw [hb.cert, ← h2.cert, if_neg (by decide), Nat.zero_add]
          show _ = x.certSeen.toNat
          rw [h9.cert, h5.cert]
        · rw [hb.chain, ← h2.chain, if_pos rfl]
          show _ = x.chainSeen.toNat
          rw [h9.chain, h5.chain, Bool.eq_false_iff.mpr hnew]
          rfl
    | _ =>
      exfalso
      rw [hx] at h3
      obtain ⟨u, w', out', h4, -, -⟩ := run_cons_ok h3
      simp only [step, hcw, stepGroup, hp, n1, n2, false_and, if_false, if_true] at h4
      simp only [head, ne_eq, reduceCtorEq, not_false_eq_true, if_true, ite_self] at h4
  have h4 := run_skip_ok (fun u hu => group_ignores (s := u) (by rw [hu.ctl, hcw]) hs hl hr v) h3
  have h5 := h2.trans h4
  refine ⟨by rw [h5.ctl, hc], h5.root, h5.groups, ⟨fun e => absurd e hr, fun e => absurd e hs, fun e => absurd e hl⟩, ?_, ?_, ?_⟩
  · rw [h5.recs, if_neg hr, Nat.zero_add]
  · rw [h5.cert, if_neg hs, Nat.zero_add]
  · rw [h5.chain, if_neg hl, Nat.zero_add]

/-- The elements of a group. -/
theorem elements_ok {s t : PState} (hc : s.ctl = .group) {d : Dict Json} {out : List Chunk}
    (h : run need n s (objEvents [kGroups, c!"item"] d) = (out, .ok t)) :
    t.ctl = .group ∧ t.rootSeen = s.rootSeen ∧ t.groupsSeen = s.groupsSeen ∧ (∀ k v, (k, v) ∈ d → ElemOk k v) ∧
      d.keys.count kRecs + s.recsSeen.toNat = t.recsSeen.toNat ∧
      d.keys.count kCert + s.certSeen.toNat = t.certSeen.toNat ∧
      d.keys.count kCerts + s.chainSeen.toNat = t.chainSeen.toNat := by
  induction d generalizing s out with
  | nil => cases h; exact ⟨hc, rfl, rfl, by simp, by simp [Dict.keys], by simp [Dict.keys], by simp [Dict.keys]⟩
  | cons p d ih =>
    obtain ⟨k, v⟩ := p
    simp only [objEvents] at h
    obtain ⟨u, o1, o2, h1, h2⟩ := run_append_ok h
    obtain ⟨a1, a2, a3, a4, a5, a6, a7⟩ := element_ok hc h1
    obtain ⟨b1, b2, b3, b4, b5, b6, b7⟩ := ih a1 h2
    have hcount : ∀ K, (Dict.keys ((k, v) :: d)).count K = (Dict.keys d).count K + if k = K then 1 else 0 := by
      intro K
      simp [Dict.keys, List.count_cons]
    refine ⟨b1, b2.trans a2, b3.trans a3, ?_, ?_, ?_, ?_⟩
    · intro k' v' hm
      rcases List.mem_cons.mp hm with e | hm
      · cases e; exact a4
      · exact b4 k' v' hm
    · rw [hcount, ← b5, ← a5, Nat.add_assoc]
    · rw [hcount, ← b6, ← a6, Nat.add_assoc]
    · rw [hcount, ← b7, ← a7, Nat.add_assoc]

omit [PyEnv] in
theorem get?_of_key {d : Dict Json} {k : Str} (h : k ∈ d.keys) : ∃ v, d.get? k = some v ∧ (k, v) ∈ d := by
  cases hg : d.get? k with
  | some v => exact ⟨v, rfl, Dict.mem_of_get? hg⟩
  | none =>
    exfalso
    induction d with
    | nil => simp [Dict.keys] at h
    | cons p d ih =>
      simp only [Dict.get?] at hg
      split at hg
      · cases hg
      · rename_i hne
        simp only [Dict.keys, List.map_cons, List.mem_cons] at h
        rcases h with rfl | h
        · exact hne rfl
        · exact ih h hg

/-- Every element of a group is there once. -/
def ElemsOnce (j : Json) : Prop :=
  ∃ d, j = .obj d ∧ (Dict.keys d).count kRecs = 1 ∧ (Dict.keys d).count kCert = 1 ∧ (Dict.keys d).count kCerts = 1

/-- A group. -/
theorem group_ok {s t : PState} (hc : s.ctl = .groups) {j : Json} {out : List Chunk}
    (h : run need n s (j.events [kGroups, c!"item"]) = (out, .ok t)) :
    t.ctl = .groups ∧ t.rootSeen = s.rootSeen ∧ t.groupsSeen = s.groupsSeen ∧ (∃ g, GroupJson j g) ∧ ElemsOnce j := by
  obtain ⟨xs, hx⟩ := events_head [kGroups, c!"item"] j
  have hp : (head [kGroups, c!"item"] j).1 = pGroup := rfl
  have n1 : pGroup ≠ kGroups := by decide
  cases j with
  | obj d =>
    simp only [Json.events] at h
    have : joinWith '.' [kGroups, c!"item"] = pGroup := rfl
    rw [this] at h
    obtain ⟨u, v, o1, h1, h2, h3⟩ := run_cons_ok h
    simp only [step, hc, stepGroups, n1, false_and, if_false, and_self, if_true] at h1
    cases h1
    obtain ⟨w, o2, o3, h4, h5⟩ := run_append_ok h3
    obtain ⟨a1, a2, a3, a4, a5, a6, a7⟩ := elements_ok (h2.ctl) h4
    obtain ⟨x, y, o4, h6, h7, h8⟩ := run_cons_ok h5
    simp only [step, a1, stepGroup, and_self, if_true] at h6
    split at h6
    · rename_i hseen
      cases h6
      cases h8
      have m := w.merge_ctrl
      refine ⟨h7.ctl, ?_, ?_, ?_⟩
      · rw [h7.root]; show w.merge.rootSeen = _; rw [m.root, a2, h2.root]
      · rw [h7.groups]; show w.merge.groupsSeen = _; rw [m.groups, a3, h2.groups]
      · have hc1 : (Dict.keys d).count kCert = 1 := by rw [hseen.1, h2.cert] at a6; simpa using a6
        have hc2 : (Dict.keys d).count kCerts = 1 := by rw [hseen.2.1, h2.chain] at a7; simpa using a7
        have hc3 : (Dict.keys d).count kRecs = 1 := by rw [hseen.2.2, h2.recs] at a5; simpa using a5
        have hk1 : kCert ∈ Dict.keys d := List.count_pos_iff.mp (by omega)
        have hk2 : kCerts ∈ Dict.keys d := List.count_pos_iff.mp (by omega)
        have hk3 : kRecs ∈ Dict.keys d := List.count_pos_iff.mp (by omega)
        obtain ⟨v1, g1, m1⟩ := get?_of_key hk1
        obtain ⟨v2, g2, m2⟩ := get?_of_key hk2
        obtain ⟨v3, g3, m3⟩ := get?_of_key hk3
        obtain ⟨t, cert, rfl, hcert⟩ := (a4 _ _ m1).cert rfl
        obtain ⟨cs, chain, rfl, hchain⟩ := (a4 _ _ m2).chain rfl
        obtain ⟨rs, rfl⟩ := (a4 _ _ m3).recs rfl
        exact ⟨⟨_, .mk d rs t cs cert chain g3 g1 g2 hcert hchain⟩, d, rfl, hc3, hc1, hc2⟩
    · cases h6
  | _ =>
    exfalso
    rw [hx] at h
    obtain ⟨u, v, out', h1, -, -⟩ := run_cons_ok h
    simp only [step, hc, stepGroups, hp, n1, false_and, if_false] at h1
    simp only [head, reduceCtorEq, and_false, if_false] at h1

theorem groups_ok {s t : PState} (hc : s.ctl = .groups) {js : List Json} {out : List Chunk}
    (h : run need n s (arrEvents [kGroups] js) = (out, .ok t)) :
    t.ctl = .groups ∧ t.rootSeen = s.rootSeen ∧ t.groupsSeen = s.groupsSeen ∧
      (∃ gs, List.Forall₂ GroupJson js gs) ∧ ∀ j ∈ js, ElemsOnce j := by
  induction js generalizing s out with
  | nil => cases h; exact ⟨hc, rfl, rfl, ⟨[], .nil⟩, by simp⟩
  | cons j js ih =>
    simp only [arrEvents] at h
    obtain ⟨u, o1, o2, h1, h2⟩ := run_append_ok h
    obtain ⟨a1, a2, a3, ⟨g, a4⟩, a5⟩ := group_ok hc h1
    obtain ⟨b1, b2, b3, ⟨gs, b4⟩, b5⟩ := ih a1 h2
    exact ⟨b1, b2.trans a2, b3.trans a3, ⟨g :: gs, .cons a4 b4⟩, by simp [a5]; exact b5⟩

/-- The elements of the root. -/
theorem root_ok {s t : PState} (hc : s.ctl = .rootMap) {d : Dict Json} (hk : ∀ k ∈ d.keys, k ≠ [])
    {out : List Chunk} (h : run need n s (objEvents [] d) = (out, .ok t)) :
    t.ctl = .rootMap ∧ (∀ v, (kGroups, v) ∈ d → ∃ js gs, v = .arr js ∧ List.Forall₂ GroupJson js gs ∧ ∀ j ∈ js, ElemsOnce j) ∧
      d.keys.count kGroups + s.groupsSeen.toNat = t.groupsSeen.toNat := by
  induction d generalizing s out with
  | nil => cases h; exact ⟨hc, by simp, by simp [Dict.keys]⟩
  | cons p d ih =>
    obtain ⟨k, v⟩ := p
    simp only [objEvents] at h
    obtain ⟨u, o1, o2, h1, h2⟩ := run_append_ok h
    have hk' : ∀ k ∈ Dict.keys d, k ≠ [] := fun k hkd => hk k (by simp only [Dict.keys, List.map_cons, List.mem_cons]; exact .inr hkd)
    have hkk : k ≠ [] := hk k (by simp [Dict.keys])
    have key : u.ctl = .rootMap ∧ (k = kGroups → ∃ js gs, v = .arr js ∧ List.Forall₂ GroupJson js gs ∧ ∀ j ∈ js, ElemsOnce j) ∧
        (if k = kGroups then 1 else 0) + s.groupsSeen.toNat = u.groupsSeen.toNat := by
      simp only [pairEvents] at h1
      have : joinWith '.' ([] : List Str) = [] := rfl
      rw [this] at h1
      obtain ⟨u', w, o3, h3, h4, h5⟩ := run_cons_ok h1
      rw [root_key hc] at h3
      cases h3
      have hcw : w.ctl = .rootMap := by rw [h4.ctl, hc]
      by_cases hg : k = kGroups
      · subst hg
        obtain ⟨xs, hx⟩ := events_head ([] ++ [kGroups]) v
        have hp : (head ([] ++ [kGroups]) v).1 = kGroups := rfl
        have n1 : kGroups ≠ [] := by decide
        cases v with
        | arr js =>
          simp only [Json.events] at h5
          have : joinWith '.' ([] ++ [kGroups]) = kGroups := rfl
          rw [this] at h5
          obtain ⟨x, y, o4, h6, h7, h8⟩ := run_cons_ok h5
          simp only [step, hcw, stepRootMap, n1, false_and, if_false, if_true, ne_eq, not_true_eq_false] at h6
          split at h6
          · cases h6
          · rename_i hnew
            cases h6
            obtain ⟨z, o5, o6, h9, ha⟩ := run_append_ok h8
            obtain ⟨b1, b2, b3, ⟨gs, b4⟩, b5⟩ := groups_ok h7.ctl h9
            obtain ⟨x', y', o7, hb, hc', hd⟩ := run_cons_ok ha
            simp only [step, b1, stepGroups, and_self, if_true] at hb
            cases hb
            cases hd
            refine ⟨hc'.ctl, fun _ => ⟨js, gs, rfl, b4, b5⟩, ?_⟩
            rw [hc'.groups, if_pos rfl, ← h4.groups, Bool.eq_false_iff.mpr hnew]
            show _ = z.groupsSeen.toNat
            rw [b3, h7.groups]
            rfl
        | _ =>
          exfalso
          rw [hx] at h5
          obtain ⟨u, v, out', h6, -, -⟩ := run_cons_ok h5
          simp only [step, hcw, stepRootMap, hp, n1, false_and, if_false, if_true] at h6
          simp only [head, ne_eq, reduceCtorEq, not_false_eq_true, if_true] at h6
      · have h6 := h4.trans (run_skip_ok (fun u hu => root_ignores (s := u) (by rw [hu.ctl, hcw]) hg hkk v) h5)
        exact ⟨by rw [h6.ctl, hc], fun e => absurd e hg, by rw [h6.groups, if_neg hg, Nat.zero_add]⟩
    obtain ⟨a1, a2, a3⟩ := key
    obtain ⟨b1, b2, b3⟩ := ih a1 hk' h2
    refine ⟨b1, ?_, ?_⟩
    · intro v' hm
      rcases List.mem_cons.mp hm with e | hm
      · cases e; exact a2 rfl
      · exact b2 v' hm
    · rw [← b3, ← a3, ← Nat.add_assoc]
      simp [Dict.keys, List.count_cons]

end PState

/-- What the incremental parsers read without an error is a DEP. -/
theorem incParse_accepts {need : Nat → Res (Option (Option Cert × List Cert))} {n : Nat} {doc : Json}
    (hk : ∀ root, doc = .obj root → ∀ k ∈ Dict.keys root, k ≠ [])
    (h : (incParse need n false (doc.events [])).err = none) : (∃ gs, DepJson doc gs) ∧
      ∃ root js, doc = .obj root ∧ (Dict.keys root).count kGroups = 1 ∧ (kGroups, .arr js) ∈ root ∧ ∀ j ∈ js, PState.ElemsOnce j := by
  cases hr : PState.run need n {} (doc.events []) with
  | mk out r =>
    cases r with
    | error e => simp only [incParse, hr, reduceCtorEq] at h
    | ok t =>
      obtain ⟨xs, hx⟩ := PState.events_head [] doc
      have hp : (PState.head [] doc).1 = [] := rfl
      cases doc with
      | obj root =>
        simp only [Json.events] at hr
        have : joinWith '.' ([] : List Str) = [] := rfl
        rw [this] at hr
        obtain ⟨u, v, o1, h1, h2, h3⟩ := PState.run_cons_ok hr
        cases h1
        obtain ⟨w, o2, o3, h4, h5⟩ := PState.run_append_ok h3
        obtain ⟨a1, a2, a3⟩ := PState.root_ok h2.ctl (hk root rfl) h4
        obtain ⟨x, y, o4, h6, h7, h8⟩ := PState.run_cons_ok h5
        simp only [PState.step, a1, PState.stepRootMap, and_self, if_true] at h6
        split at h6
        · rename_i hseen
          have hc1 : (Dict.keys root).count kGroups = 1 := by rw [hseen, h2.groups] at a3; simpa using a3
          have hm : kGroups ∈ Dict.keys root := List.count_pos_iff.mp (by omega)
          obtain ⟨v1, g1, m1⟩ := PState.get?_of_key hm
          obtain ⟨js, gs, rfl, hg, ho⟩ := a2 _ m1
          exact ⟨⟨gs, .mk root js gs g1 hg⟩, root, js, rfl, hc1, m1, ho⟩
        · cases h6
      | _ =>
        exfalso
        rw [hx] at hr
        obtain ⟨u, v, out', h1, -, -⟩ := PState.run_cons_ok hr
        simp only [PState.step, PState.stepRoot, hp] at h1
        simp only [PState.head, reduceCtorEq, and_false, if_false] at h1

end

end RKSV
