import Verif.Spec.DepExport
import Verif.Props.DepParser
import Verif.Props.Formats
import Mathlib.Data.List.TakeWhile
/-
Properties C57 to C59: merging, exporting and splitting DEPs.
-/
namespace RKSV

section
variable [PyEnv]

/-! ### C57: merging -/

theorem sendGroup_held {α : Type} (made gs : List (SGroup α)) :
    certified ((sendGroup made gs).1.made ++ (sendGroup made gs).1.backing) = certified (made ++ gs) := by
  induction gs generalizing made with
  | nil => rfl
  | cons g gs ih =>
    unfold sendGroup
    split
    · simp
    · rename_i l hl
      split
      · simp
      · rename_i hs
        simp only [not_or, not_not] at hs
        rw [ih]
        obtain ⟨ys, rfl⟩ := List.getLast?_eq_some_iff.mp hl
        simp [certified, hs.1]

theorem sendRec_held {α : Type} (cur : SGroup α) (gs : List (SGroup α)) :
    (sendRec cur gs).1.cert = cur.cert ∧
    ((sendRec cur gs).2.2.map fun a => (a, cur.cert)).toList ++ certified ((sendRec cur gs).1 :: (sendRec cur gs).2.1) =
      certified (cur :: gs) := by
  induction gs generalizing cur with
  | nil =>
    unfold sendRec
    split
    · rename_i r rs e
      simp [certified, e]
    · simp
  | cons g gs ih =>
    unfold sendRec
    split
    · rename_i r rs e
      simp [certified, e]
    · rename_i e
      split
      · rename_i hs
        obtain ⟨h1, h2⟩ := ih { cur with recs := g.recs }
        refine ⟨h1, ?_⟩
        simp only at h2
        rw [h2]
        simp [certified, e, hs.1]
      · simp

theorem step_held {α : Type} (s : MStream α) (o : ReadOp) :
    ((s.step o).2.toList ++ certified ((s.step o).1.made ++ (s.step o).1.backing)).Perm
      (certified (s.made ++ s.backing)) := by
  cases o with
  | group =>
    simp only [MStream.step, Option.toList_none, List.nil_append]
    rw [sendGroup_held]
  | receipt i =>
    simp only [MStream.step]
    split
    · simp
    · rename_i cur hc
      obtain ⟨h1, h2⟩ := sendRec_held cur s.backing
      generalize sendRec cur s.backing = r at h1 h2 ⊢
      obtain ⟨cur', gs', o⟩ := r
      simp only at h1 h2 ⊢
      obtain ⟨hlt, hc'⟩ := List.getElem?_eq_some_iff.mp hc
      have e1 : s.made = s.made.take i ++ cur :: s.made.drop (i + 1) := by
        rw [← hc']; simp
      have e2 : s.made.set i cur' = s.made.take i ++ cur' :: s.made.drop (i + 1) :=
        List.set_eq_take_append_cons_drop .. |>.trans (if_pos hlt)
      rw [e2]
      conv_rhs => rw [e1]
      simp only [certified, List.flatMap_append, List.flatMap_cons] at h2 ⊢
      generalize List.flatMap (fun g : SGroup α => List.map (fun r => (r, g.cert)) g.recs) (s.made.take i) = A
      generalize List.flatMap (fun g : SGroup α => List.map (fun r => (r, g.cert)) g.recs) (s.made.drop (i + 1)) = B
      have p1 : (A ++ (cur'.recs.map (fun r => (r, cur'.cert)) ++ B) ++
          gs'.flatMap (fun g => g.recs.map fun r => (r, g.cert))).Perm
          ((cur'.recs.map (fun r => (r, cur'.cert)) ++ gs'.flatMap (fun g => g.recs.map fun r => (r, g.cert))) ++
            (A ++ B)) := by
        rw [← Multiset.coe_eq_coe]
        simp only [← Multiset.coe_add]
        abel
      have p2 : (A ++ (cur.recs.map (fun r => (r, cur.cert)) ++ B) ++
          s.backing.flatMap (fun g => g.recs.map fun r => (r, g.cert))).Perm
          ((cur.recs.map (fun r => (r, cur.cert)) ++ s.backing.flatMap (fun g => g.recs.map fun r => (r, g.cert))) ++
            (A ++ B)) := by
        rw [← Multiset.coe_eq_coe]
        simp only [← Multiset.coe_add]
        abel
      refine ((List.Perm.refl _).append p1).trans ?_
      rw [← List.append_assoc, h2]
      exact p2.symm

/-- C57: whatever a reader of a merging stream does, and in whatever order, the receipts it got together
with those still in the stream are the receipts of the groups, each with the certificate of its group. -/
theorem merge_keeps_receipts {α : Type} (gs : List (SGroup α)) (ops : List ReadOp) (s : MStream α)
    (got : List (α × Option Cert)) (h : MStream.steps ⟨gs, []⟩ ops = (s, got)) :
    (got ++ certified (s.made ++ s.backing)).Perm (certified gs) := by
  have key : ∀ (ops : List ReadOp) (s : MStream α),
      ((s.steps ops).2 ++ certified ((s.steps ops).1.made ++ (s.steps ops).1.backing)).Perm
        (certified (s.made ++ s.backing)) := by
    intro ops
    induction ops with
    | nil => intro s; exact .refl _
    | cons o ops ih =>
      intro s
      simp only [MStream.steps, List.append_assoc]
      exact ((List.Perm.refl _).append (ih _)).trans (step_held s o)
  have := key ops ⟨gs, []⟩
  rw [h] at this
  simpa using this

theorem MergedBy.certified {α : Type} {same : SGroup α → SGroup α → Prop}
    (hs : ∀ g g', same g g' → g.cert = g'.cert) {gs outs : List (SGroup α)} (h : MergedBy same gs outs) :
    certified outs = certified gs := by
  induction h with
  | nil => rfl
  | run g run rest outs hsame _ _ ih =>
    simp only [RKSV.certified, List.flatMap_cons, List.flatMap_append, List.map_append, List.cons_append] at ih ⊢
    rw [ih, List.append_assoc]
    congr 2
    rw [List.map_flatMap]
    apply List.flatMap_congr
    intro x hx
    rw [hs g x (hsame x hx)]

theorem MergedBy.chained {α : Type} {same : SGroup α → SGroup α → Prop} {gs outs : List (SGroup α)}
    (hs : ∀ g ∈ gs, ∀ g' ∈ gs, same g g' → g.cert = g'.cert ∧ g.chain = g'.chain) (h : MergedBy same gs outs) :
    chained outs = chained gs := by
  induction h with
  | nil => rfl
  | run g run rest outs hsame _ _ ih =>
    have ih := ih fun a ha b hb => hs a (by simp [ha]) b (by simp [hb])
    simp only [RKSV.chained, List.flatMap_cons, List.flatMap_append, List.map_append, List.cons_append] at ih ⊢
    rw [ih, List.append_assoc]
    congr 2
    rw [List.map_flatMap]
    apply List.flatMap_congr
    intro x hx
    obtain ⟨h1, h2⟩ := hs g (by simp) x (by simp [hx]) (hsame x hx)
    rw [h1, h2]

theorem MergedBy.recs {α : Type} {same : SGroup α → SGroup α → Prop} {gs outs : List (SGroup α)}
    (h : MergedBy same gs outs) : outs.flatMap (·.recs) = gs.flatMap (·.recs) := by
  induction h with
  | nil => rfl
  | run g run rest outs _ _ _ ih => simp [ih]

theorem MergedBy.mono {α : Type} {same same' : SGroup α → SGroup α → Prop} {gs outs : List (SGroup α)}
    (hs : ∀ g ∈ gs, ∀ g' ∈ gs, same g g' ↔ same' g g') (h : MergedBy same gs outs) : MergedBy same' gs outs := by
  induction h with
  | nil => exact .nil
  | run g run rest outs hsame hnext _ ih =>
    refine .run g run rest outs (fun x hx => (hs g (by simp) x (by simp [hx])).mp (hsame x hx)) ?_
      (ih fun a ha b hb => hs a (by simp [ha]) b (by simp [hb]))
    intro x hx h'
    have hm : x ∈ rest := List.mem_of_head? hx
    exact hnext x hx ((hs g (by simp) x (by simp [hm])).mpr h')

/-- What is left in a receipt stream, with the groups it will take. -/
def ahead {α : Type} (cur : SGroup α) (gs : List (SGroup α)) : List α :=
  cur.recs ++ (gs.takeWhile fun g => cur.cert = g.cert).flatMap (·.recs)

theorem sendRec_ahead {α : Type} (cur : SGroup α) (gs : List (SGroup α)) :
    (ahead cur gs = [] ∧ sendRec cur gs = (⟨[], cur.cert, cur.chain⟩, gs.dropWhile (fun g => cur.cert = g.cert), none)) ∨
    ∃ r rest cur' gs', ahead cur gs = r :: rest ∧ sendRec cur gs = (cur', gs', some r) ∧ cur'.cert = cur.cert ∧
      cur'.chain = cur.chain ∧ ahead cur' gs' = rest ∧
      gs'.dropWhile (fun g => cur.cert = g.cert) = gs.dropWhile (fun g => cur.cert = g.cert) := by
  induction gs generalizing cur with
  | nil =>
    obtain ⟨recs, cert, chain⟩ := cur
    cases recs with
    | nil => exact .inl ⟨rfl, rfl⟩
    | cons r rs => exact .inr ⟨r, rs, _, _, by simp [ahead], rfl, rfl, rfl, by simp [ahead], rfl⟩
  | cons g gs ih =>
    obtain ⟨recs, cert, chain⟩ := cur
    cases recs with
    | cons r rs => exact .inr ⟨r, _, _, _, by simp only [ahead, List.cons_append], rfl, rfl, rfl, rfl, rfl⟩
    | nil =>
      by_cases hs : cert = g.cert
      · have e : sendRec ⟨[], cert, chain⟩ (g :: gs) = sendRec ⟨g.recs, cert, chain⟩ gs := by
          simp [sendRec, hs]
        have ea : ahead ⟨[], cert, chain⟩ (g :: gs) = ahead ⟨g.recs, cert, chain⟩ gs := by
          simp [ahead, hs]
        rw [e, ea, show List.dropWhile (fun x : SGroup α => decide (cert = x.cert)) (g :: gs) =
          List.dropWhile (fun x : SGroup α => decide (cert = x.cert)) gs by simp [hs]]
        exact ih ⟨g.recs, cert, chain⟩
      · left
        simp [ahead, sendRec, hs]

theorem readRecs_eq {α : Type} (fuel : Nat) (cur : SGroup α) (gs : List (SGroup α))
    (hf : (ahead cur gs).length < fuel) :
    readRecs fuel cur gs =
      (ahead cur gs, ⟨[], cur.cert, cur.chain⟩, gs.dropWhile fun g => cur.cert = g.cert) := by
  induction fuel generalizing cur gs with
  | zero => omega
  | succ fuel ih =>
    unfold readRecs
    rcases sendRec_ahead cur gs with ⟨h1, h2⟩ | ⟨r, rest, cur', gs', h1, h2, h3, h4, h5, h6⟩
    · rw [h2, h1]
    · rw [h2]
      simp only
      have := ih cur' gs' (by rw [h5]; rw [h1, List.length_cons] at hf; omega)
      rw [this, h1, h5, h3, h4, h6]

theorem ahead_length {α : Type} (cur : SGroup α) (gs : List (SGroup α)) :
    (ahead cur gs).length < cur.recs.length + countRecs gs + 1 := by
  unfold ahead countRecs
  rw [List.length_append, List.length_flatMap]
  have : ((gs.takeWhile fun g => cur.cert = g.cert).map fun g => g.recs.length).sum ≤
      (gs.map fun g => g.recs.length).sum := by
    conv_rhs => rw [← List.takeWhile_append_dropWhile (p := fun g => decide (cur.cert = g.cert)) (l := gs)]
    rw [List.map_append, List.sum_append]
    omega
  omega

theorem readGroups_merged {α : Type} (fuel : Nat) (made gs : List (SGroup α)) (hf : gs.length < fuel)
    (hm : ∀ l g, made.getLast? = some l → gs.head? = some g → l.cert ≠ g.cert) :
    MergedBy SameCert gs (readGroups fuel made gs) := by
  induction fuel generalizing made gs with
  | zero => omega
  | succ fuel ih =>
    cases gs with
    | nil => exact .nil
    | cons g gs =>
      have e : sendGroup made (g :: gs) = (⟨gs, made ++ [g]⟩, true) := by
        unfold sendGroup
        split
        · rfl
        · rename_i l hl
          rw [if_pos (.inl (hm l g hl rfl))]
      unfold readGroups
      rw [e]
      simp only [List.getLast?_append, List.getLast?_singleton, Option.some_or]
      rw [readRecs_eq _ _ _ (ahead_length g gs)]
      have hsplit := List.takeWhile_append_dropWhile (p := fun x : SGroup α => decide (g.cert = x.cert)) (l := gs)
      have hih := ih ((made ++ [g]).dropLast ++ [⟨[], g.cert, g.chain⟩]) (gs.dropWhile fun x => g.cert = x.cert)
        (by
          have := congrArg List.length hsplit
          rw [List.length_append] at this
          rw [List.length_cons] at hf
          omega)
        (by
          intro l x hl hx
          simp only [List.getLast?_append, List.getLast?_singleton, Option.some_or, Option.some.injEq] at hl
          subst hl
          have := List.head?_dropWhile_not (fun x : SGroup α => decide (g.cert = x.cert)) gs
          rw [hx] at this
          simpa using this)
      have := MergedBy.run g (gs.takeWhile fun x => g.cert = x.cert) (gs.dropWhile fun x => g.cert = x.cert) _
        (same := SameCert)
        (fun x hx => by simpa [SameCert] using List.mem_takeWhile_imp hx)
        (fun x hx => by
          have := List.head?_dropWhile_not (fun x : SGroup α => decide (g.cert = x.cert)) gs
          rw [hx] at this
          simpa [SameCert] using this) hih
      rw [List.cons_append, hsplit] at this
      exact this

/-- C57 for exporters (partial: adjacent groups are merged exactly if their certificates are equal; the
certificate chains are not compared, see `Demo.merge_ignores_chain`). -/
theorem merge_export_partial {α : Type} (gs : List (SGroup α)) : MergedBy SameCert gs (mergeExport gs) :=
  readGroups_merged _ _ _ (by omega) (by simp)

/-- C57 for exporters (partial): if groups with equal certificates have equal chains, groups are merged
exactly if both are equal. -/
theorem merge_export_chains_partial {α : Type} {gs : List (SGroup α)}
    (hc : ∀ g ∈ gs, ∀ g' ∈ gs, g.cert = g'.cert → g.chain = g'.chain) :
    MergedBy SameCerts gs (mergeExport gs) ∧ chained (mergeExport gs) = chained gs := by
  have h := (merge_export_partial gs).mono (same' := SameCerts)
    (fun g hg g' hg' => ⟨fun h => ⟨h, hc g hg g' hg' h⟩, fun h => h.1⟩)
  exact ⟨h, h.chained fun _ _ _ _ h => h⟩

/-- C57: exported receipts are in order and have the certificates of their groups. -/
theorem merge_export_certified {α : Type} (gs : List (SGroup α)) : certified (mergeExport gs) = certified gs :=
  (merge_export_partial gs).certified fun _ _ h => h

theorem collectGroups_merged {α : Type} (fuel : Nat) (made : List (SGroup α)) (l : SGroup α) (gs : List (SGroup α))
    (hf : gs.length < fuel) :
    ∃ outs, collectGroups fuel ⟨gs, made ++ [l]⟩ = ⟨[], made ++ outs⟩ ∧ MergedBy SameCerts (l :: gs) outs := by
  induction fuel generalizing made l gs with
  | zero => omega
  | succ fuel ih =>
    -- the groups taken by the last stream, and what follows
    have key : ∀ (gs : List (SGroup α)) (made : List (SGroup α)) (l : SGroup α), ∃ run rest,
        gs = run ++ rest ∧ (∀ x ∈ run, SameCerts l x) ∧ (∀ x, rest.head? = some x → ¬SameCerts l x) ∧
        sendGroup (made ++ [l]) gs =
          (match rest with
          | [] => (⟨[], made ++ [⟨l.recs ++ run.flatMap (·.recs), l.cert, l.chain⟩]⟩, false)
          | g :: gs' => (⟨gs', made ++ [⟨l.recs ++ run.flatMap (·.recs), l.cert, l.chain⟩] ++ [g]⟩, true)) := by
      intro gs
      induction gs with
      | nil => intro made l; exact ⟨[], [], rfl, by simp, by simp, by simp [sendGroup]⟩
      | cons g gs ih =>
        intro made l
        by_cases hs : SameCerts l g
        · obtain ⟨run, rest, h1, h2, h3, h4⟩ := ih made ⟨l.recs ++ g.recs, l.cert, l.chain⟩
          refine ⟨g :: run, rest, by rw [h1]; rfl, ?_, h3, ?_⟩
          · intro x hx
            rcases List.mem_cons.mp hx with rfl | hx
            · exact hs
            · exact h2 x hx
          · have e : sendGroup (made ++ [l]) (g :: gs) =
                sendGroup (made ++ [⟨l.recs ++ g.recs, l.cert, l.chain⟩]) gs := by
              rw [sendGroup]
              simp only [List.getLast?_append, List.getLast?_singleton, Option.some_or, List.dropLast_concat]
              rw [if_neg]
              simp only [not_or, not_not]
              exact hs
            rw [e, h4]
            simp only [List.flatMap_cons, List.append_assoc]
        · refine ⟨[], g :: gs, rfl, by simp, by simpa using hs, ?_⟩
          rw [sendGroup]
          simp only [List.getLast?_append, List.getLast?_singleton, Option.some_or]
          rw [if_pos]
          · simp
          · by_contra h'
            simp only [not_or, not_not] at h'
            exact hs h'
    obtain ⟨run, rest, h1, h2, h3, h4⟩ := key gs made l
    unfold collectGroups
    simp only
    rw [h4]
    cases rest with
    | nil =>
      simp only
      rw [List.append_nil] at h1
      subst h1
      have := MergedBy.run l gs [] [] h2 (by simp) .nil
      rw [List.append_nil] at this
      exact ⟨_, rfl, this⟩
    | cons g gs' =>
      simp only
      obtain ⟨outs, e, hm⟩ := ih (made ++ [⟨l.recs ++ run.flatMap (·.recs), l.cert, l.chain⟩]) g gs'
        (by rw [h1, List.length_append, List.length_cons] at hf; omega)
      refine ⟨_, by rw [e, List.append_assoc], ?_⟩
      rw [h1]
      exact MergedBy.run l run (g :: gs') outs h2 h3 hm

/-- C57: if the groups are collected before their receipts are read, adjacent groups are merged exactly if
certificate and certificate chain are equal. -/
theorem merge_collect {α : Type} (gs : List (SGroup α)) :
    MergedBy SameCerts gs (mergeCollect gs) ∧ chained (mergeCollect gs) = chained gs := by
  have h : MergedBy SameCerts gs (mergeCollect gs) := by
    cases gs with
    | nil => exact .nil
    | cons g gs =>
      obtain ⟨outs, e, hm⟩ := collectGroups_merged (gs.length + 1) [] g gs (by omega)
      have e' : collectGroups ((g :: gs).length + 1) ⟨g :: gs, []⟩ = ⟨[], outs⟩ := by
        rw [List.length_cons, collectGroups]
        simpa [sendGroup] using e
      unfold mergeCollect
      rw [e']
      simp only
      have : (outs.map fun cur => (⟨(readRecs (cur.recs.length + countRecs ([] : List (SGroup α)) + 1) cur []).1,
          cur.cert, cur.chain⟩ : SGroup α)) = outs := by
        conv_rhs => rw [← List.map_id outs]
        apply List.map_congr_left
        intro cur _
        rw [readRecs_eq _ _ _ (ahead_length cur [])]
        simp [ahead]
      rw [this]
      exact hm
  exact ⟨h, h.chained fun _ _ _ _ h => h⟩

end

namespace Demo

attribute [local instance] env

instance {α : Type} [DecidableEq α] : DecidableEq (SGroup α) := fun a b =>
  decidable_of_iff (a.recs = b.recs ∧ a.cert = b.cert ∧ a.chain = b.chain)
    ⟨fun h => by cases a; cases b; simpa using h, by rintro rfl; exact ⟨rfl, rfl, rfl⟩⟩

/-- Five groups, two of them empty; the receipts are numbers. -/
def mixed : List (SGroup Nat) :=
  [⟨[1, 2], some device, []⟩, ⟨[], some device, []⟩, ⟨[3], some device, []⟩, ⟨[], none, []⟩, ⟨[4, 5], some device, []⟩]

example : mergeExport mixed = [⟨[1, 2, 3], some device, []⟩, ⟨[], none, []⟩, ⟨[4, 5], some device, []⟩] := by
  decide +kernel

example : MergedBy SameCerts mixed (mergeExport mixed) :=
  (merge_export_chains_partial (by
    intro g hg g' hg' _
    simp only [mixed, List.mem_cons, List.not_mem_nil, or_false] at hg hg'
    rcases hg with rfl | rfl | rfl | rfl | rfl <;> rcases hg' with rfl | rfl | rfl | rfl | rfl <;> rfl)).1

/-- C57 is false for the exporters: groups with the same certificate are merged although their certificate
chains differ, and the chain of the second one is lost. -/
theorem merge_ignores_chain :
    mergeExport [⟨[1], some device, [ca]⟩, ⟨[2], some device, []⟩] = [⟨[1, 2], some device, [ca]⟩] := by
  decide +kernel

/-- A reader that collects the groups first keeps them apart. -/
theorem collect_keeps_chain : mergeCollect [⟨[1], some device, [ca]⟩, ⟨[2], some device, []⟩] =
    [⟨[1], some device, [ca]⟩, ⟨[2], some device, []⟩] := by
  decide +kernel

/-- Receipts can come out of order if the groups are not read one after the other. -/
theorem read_out_of_order :
    ((⟨[⟨[1], some device, []⟩, ⟨[2], some ca, []⟩, ⟨[3], some device, []⟩], []⟩ : MStream Nat).steps
      [.group, .group, .receipt 0, .receipt 0, .receipt 1]).2 =
      [(1, some device), (3, some device), (2, some ca)] := by
  decide +kernel

end Demo

end RKSV
