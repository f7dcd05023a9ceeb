import Verif.Spec.GroupErrors
import Verif.Props.VerifyGroup
/-
The exceptions of the verification loop, stage by stage.
-/
namespace RKSV

/-- The exceptions of a computation are those of the list of faults. -/
def Stage {α : Type} (r : Res α) (l : List (Err → Prop)) : Prop := ∀ e, r = .error e ↔ FirstOf l e

theorem FirstOf.append (a b : List (Err → Prop)) (e : Err) :
    FirstOf (a ++ b) e ↔ FirstOf a e ∨ (∀ e', ¬FirstOf a e') ∧ FirstOf b e := by
  induction a with
  | nil => simp [FirstOf]
  | cons p a ih =>
    simp only [List.cons_append, FirstOf, ih]
    constructor
    · rintro (h | ⟨h, h' | ⟨h', h''⟩⟩)
      · exact .inl (.inl h)
      · exact .inl (.inr ⟨h, h'⟩)
      · exact .inr ⟨fun e' => by rintro (g | g); exacts [h _ g, h' _ g.2], h''⟩
    · rintro ((h | ⟨h, h'⟩) | ⟨h, h'⟩)
      · exact .inl h
      · exact .inr ⟨h, .inl h'⟩
      · have hp : ∀ e', ¬p e' := fun e' g => h e' (.inl g)
        exact .inr ⟨hp, .inr ⟨fun e' g => h e' (.inr ⟨hp, g⟩), h'⟩⟩

theorem Stage.bind {α β : Type} {r : Res α} {f : α → Res β} {l l' : List (Err → Prop)}
    (h : Stage r l) (h' : ∀ a, r = .ok a → Stage (f a) l') : Stage (r >>= f) (l ++ l') := by
  intro e
  rw [FirstOf.append, Res.bind_eq_error, h e]
  cases hr : r with
  | ok a =>
    have : ∀ e', ¬FirstOf l e' := fun e' g => by
      have := (h e').mpr g
      rw [hr] at this; cases this
    simp only [this, false_or, not_false_eq_true, implies_true, true_and, Except.ok.injEq,
      exists_eq_left']
    exact h' a hr e
  | error e' =>
    have g := (h e').mp hr
    constructor
    · rintro (h | ⟨a, h, _⟩)
      · exact .inl h
      · cases h
    · rintro (h | ⟨h, _⟩)
      · exact .inl h
      · exact absurd g (h _)

theorem Stage.nil {α : Type} {a : α} : Stage (.ok a : Res α) [] := fun e => by simp [FirstOf]

theorem Stage.ensure {p : Prop} [Decidable p] {e0 : Err} {q : Err → Prop}
    (h : ∀ e, q e ↔ ¬p ∧ e = e0) : Stage (ensure p e0) [q] := by
  intro e
  simp only [FirstOf, ensure_eq_error, h, and_false, or_false, eq_comm (a := e)]

theorem Stage.single {α : Type} {r : Res α} {q : Err → Prop}
    (h : ∀ e, q e ↔ r = .error e) : Stage r [q] := by
  intro e
  simp [FirstOf, h]

/-- Faults that are not present do not matter. -/
theorem Stage.skip {α : Type} {r : Res α} {l : List (Err → Prop)} {q : Err → Prop}
    (hq : ∀ e, ¬q e) (h : Stage r l) : Stage r (q :: l) := by
  intro e
  rw [h e]
  simp [FirstOf, hq]

/-- The first fault decides. -/
theorem Stage.hit {α : Type} {r : Res α} {l : List (Err → Prop)} {q : Err → Prop} {e0 : Err}
    (hr : r = .error e0) (hq : ∀ e, q e ↔ e = e0) : Stage r (q :: l) := by
  intro e
  rw [hr]
  constructor
  · intro h; cases h; exact .inl ((hq _).mpr rfl)
  · rintro (h | ⟨h, _⟩)
    · rw [(hq _).mp h]
    · exact absurd ((hq _).mpr rfl) (h _)

theorem FirstOf.absent {l : List (Err → Prop)} (h : ∀ q ∈ l, ∀ e, ¬q e) (e : Err) : ¬FirstOf l e := by
  induction l with
  | nil => simp [FirstOf]
  | cons q l ih =>
    rintro (g | ⟨_, g⟩)
    · exact h q (by simp) _ g
    · exact ih (fun q hq => h q (by simp [hq])) g

theorem Stage.clear {α : Type} {a : α} {l : List (Err → Prop)} (h : ∀ q ∈ l, ∀ e, ¬q e) :
    Stage (.ok a : Res α) l := fun e => by simp [FirstOf.absent h e]

section
variable [PyEnv]

/-- The signature and the restore receipts. -/
theorem checkSigned_stage {c : GroupCtx} (hv : c.verifier.cert ≠ none ∨ c.verifier.keyStore ≠ none)
    {s : RegState} {saved : Option Entry} {pre : List Entry} {x : Entry} (hx : x.Valid) {nr : Bool}
    (hnr : nr = false ↔ ¬RestoreDue s saved pre) :
    Stage (checkSigned c.verifier nr ((predecessor saved pre).map (·.2)) x.1)
      [fun e => WrongCert c.verifier x.2 ∧ e = .certSerialMismatch,
       fun e => ¬Unsigned x.2 ∧ (¬∃ k, KeyFor c.verifier x.2 k) ∧ e = .noPublicKey,
       fun e => ¬Unsigned x.2 ∧ (∀ k, KeyFor c.verifier x.2 k → ¬SignatureValid x.2 k) ∧
         e = .invalidSignature,
       fun e => Unsigned x.2 ∧ predecessor saved pre = none ∧ e = .signatureSystemFailedOnInitial,
       fun e => RestoreDue s saved pre ∧ predecessor saved pre ≠ none ∧
         (Unsigned x.2 ∨ ¬StandardNull x.2) ∧ e = .noRestoreReceipt] := by
  obtain ⟨t, r⟩ := x
  have hj : fromJWS t = .ok (r, c!"R1") := hx
  have hvj : c.verifier.verifyJWS t = c.verifier.verify r c!"R1" := by
    rw [Verifier.verifyJWS, hj]; rfl
  obtain ⟨h1, h2, h3, h4⟩ := verify_errors hx.parsed hv
  unfold checkSigned
  rw [hvj]
  simp only at h1 h2 h3 h4 ⊢
  by_cases hw : WrongCert c.verifier r
  · refine .hit (e0 := .certSerialMismatch) ?_ (by simp [hw])
    rw [h1 hw]
    rfl
  refine .skip (by simp [hw]) ?_
  by_cases hu : Unsigned r
  · refine .skip (by simp [hu]) (.skip (by simp [hu]) ?_)
    rw [h2 hw hu]
    have hcase : ∀ e : Err, e = .signatureSystemFailed ∨ e = .unsignedNullReceipt →
        (if e = .signatureSystemFailed ∨ e = .unsignedNullReceipt then do
            let (ro, _) ← fromJWS t
            ensure (((predecessor saved pre).map (·.2)).isSome = true) .signatureSystemFailedOnInitial
            ensure (nr = false) .noRestoreReceipt
            .ok (ro, nr)
          else .error e : Res (Receipt × Bool)) = (do
            ensure (((predecessor saved pre).map (·.2)).isSome = true) .signatureSystemFailedOnInitial
            ensure (nr = false) .noRestoreReceipt
            .ok (r, nr)) := by
      intro e he
      rw [if_pos he, hj]; rfl
    simp only
    rw [hcase _ (by split <;> simp)]
    refine Stage.bind (l := [_]) (l' := [_]) (.ensure ?_) fun a ha => ?_
    · intro e
      cases predecessor saved pre <;> simp [hu]
    · rw [ensure_eq_ok] at ha
      have hne : predecessor saved pre ≠ none := by
        intro h; rw [h] at ha; simp at ha
      refine Stage.bind (l := [_]) (l' := []) (.ensure ?_) fun a ha => .nil
      intro e
      simp only [hu, hne, ne_eq, not_false_eq_true, true_or, true_and]
      rw [hnr, not_not]
  · by_cases hk : ∃ k, KeyFor c.verifier r k
    · obtain ⟨k, hk⟩ := hk
      refine .skip (by simp only [not_and]; intro _ _ h; exact absurd ⟨k, hk⟩ h) ?_
      by_cases hs : SignatureValid r k
      · refine .skip ?_ (.skip (by simp [hu]) ?_)
        · rintro e ⟨_, h, _⟩; exact h k hk hs
        rw [(receipt_accepted_iff hx.parsed).mpr ⟨hu, k, hk, hs⟩]
        simp only
        have hsn := standardNull_iff hx.parsed
        simp only at hsn
        cases hp : predecessor saved pre with
        | none =>
          exact .clear (by simp)
        | some y =>
          simp only [Option.map_some]
          by_cases hn : StandardNull r
          · rw [if_neg (fun h => hsn.mp h hn)]
            exact .clear (by simp [hu, hn])
          · rw [if_pos (hsn.mpr hn)]
            refine Stage.bind (l := [_]) (l' := []) (.ensure ?_) fun a ha => .nil
            intro e
            rw [hnr, not_not]
            simp [hn]
      · refine .hit (e0 := .invalidSignature) ?_ ?_
        · rw [h4 hu k hk hs]; rfl
        · intro e
          simp only [hu, not_false_eq_true, true_and, and_iff_right_iff_imp]
          rintro rfl k' hk'
          cases key_unique hx.parsed hk hk'
          exact hs
    · refine .hit (e0 := .noPublicKey) ?_ (by simp [hu, hk])
      rw [h3 hw hu hk]; rfl

/-- The first receipt of a register. -/
theorem checkInitial_stage {c : GroupCtx} {saved : Option Entry} {pre : List Entry} {x : Entry}
    (hx : x.Valid) (hp : predecessor saved pre = none) (prev : Option Str) :
    Stage (checkInitial c x.2 prev)
      [fun e => predecessor saved pre = none ∧
        (∃ a ∈ [x.2.sumAStr, x.2.sumBStr, x.2.sumCStr, x.2.sumDStr, x.2.sumEStr], ¬ZeroAmount a) ∧
        e = .nonzeroTurnoverOnInitial,
       fun e => predecessor saved pre = none ∧ (Training x.2 ∨ Reversal x.2) ∧
        e = .nonstandardTypeOnInitial,
       fun e => predecessor saved pre = none ∧ (∃ t, c.prevStart = some t ∧ t ≠ []) ∧
        x.2.zda ≠ c!"AT0" ∧ e = .clusterInOpenSystem,
       fun e => predecessor saved pre = none ∧ ∃ t, c.prevStart = some t ∧ t ≠ [] ∧
        fromJWS t = .error e,
       fun e => predecessor saved pre = none ∧ (∃ t p, c.prevStart = some t ∧ t ≠ [] ∧
        Entry.Valid (t, p) ∧ p.zda ≠ c!"AT0") ∧ e = .clusterInOpenSystem] := by
  unfold checkInitial
  refine Stage.bind (l := [_]) (.ensure ?_) fun a ha => ?_
  · intro e
    rw [zero_turnover_exact_parsed hx.parsed]
    simp [hp]
    tauto
  refine Stage.bind (l := [_]) (.ensure ?_) fun a ha => ?_
  · intro e
    rw [← training_iff, ← reversal_iff]
    simp only [hp, true_and, not_not]
  rcases hps : c.prevStart with _ | _ | ⟨y, ps⟩
  · exact .clear (by simp)
  · exact .clear (by simp)
  · refine Stage.bind (l := [_]) (.ensure ?_) fun a ha => ?_
    · intro e; simp [hp]; exact fun _ => Iff.rfl
    · refine Stage.bind (l := [_]) (.single ?_) fun a ha => ?_
      · intro e; simp [hp]
      · refine Stage.bind (l := [_]) (l' := []) (.ensure ?_) fun a ha => .nil
        intro e
        obtain ⟨p, alg⟩ := a
        have hval := fromJWS_R1 ha
        simp only [hp, true_and]
        refine and_congr_left fun _ => ⟨?_, fun h => ⟨_, p, rfl, by simp, hval, h⟩⟩
        rintro ⟨t, q, e, -, hq, hz⟩
        cases e
        cases hval.unique hq rfl
        exact hz

theorem check_stage {used : Used} {pre : List Entry} {id : Str} {e : Err} :
    (addAll used pre).check id = .error e ↔ IdRefused used pre id e := by
  have := usedAfter_addAll used pre
  cases used with
  | unique ids =>
    simp only [UsedAfter] at this
    rw [this]
    simp only [Used.check, ensure_eq_error, IdRefused, Finset.mem_union, List.mem_toFinset,
      List.mem_map, not_not, eq_comm (a := e)]
  | sorted lo hi =>
    simp only [UsedAfter] at this
    rw [this]
    simp only [IdRefused]
    cases (pre.getLast?.map (·.2.receiptId)).or hi with
    | none => simp [Used.check]
    | some m =>
      simp only [Used.check, Res.bind_eq_error, ensure_eq_error, Option.some.injEq, exists_eq_left']
      refine or_congr_right (exists_congr fun a => and_congr_right fun _ =>
        or_congr_right (exists_congr fun b => and_congr_right fun _ => or_congr_right ?_))
      constructor
      · rintro ⟨l, h, hl, rfl⟩
        cases l
        · exact ⟨h, rfl⟩
        · exact absurd rfl hl
      · rintro ⟨h, rfl⟩; exact ⟨false, h, by simp, rfl⟩

/-- The receipt before. -/
theorem checkBefore_stage {c : GroupCtx} {used : Used} {saved : Option Entry} {pre : List Entry}
    {x : Entry} (hx : x.Valid) {o : Option Entry} (ho : ∀ y, Before c.prevStart saved pre y ↔ o = some y)
    (hval : ∀ y, o = some y → y.Valid) :
    Stage (checkBefore (addAll used pre) (o.map (·.2)) x.2)
      [fun e => (∃ y, Before c.prevStart saved pre y) ∧ IdRefused used pre x.2.receiptId e,
       fun e => (∃ y, Before c.prevStart saved pre y ∧ y.2.registerId ≠ x.2.registerId) ∧
        e = .changingRegisterId,
       fun e => (∃ y, Before c.prevStart saved pre y ∧ ¬(y.2.zda = c!"AT0" ↔ x.2.zda = c!"AT0")) ∧
        e = .changingSystemType,
       fun e => (∃ y, Before c.prevStart saved pre y ∧ Earlier x.2.dateTime y.2.dateTime) ∧
        e = .decreasingDate] := by
  simp only [ho]
  cases o with
  | none => exact .clear (by simp)
  | some y =>
    simp only [Option.map_some, checkBefore, checkPrevious, Option.some.injEq, exists_eq', true_and,
      exists_eq_left']
    refine Stage.bind (l := [_]) (.single fun e => check_stage.symm) fun a _ => ?_
    refine Stage.bind (l := [_]) (.ensure fun e => Iff.rfl) fun a _ => ?_
    refine Stage.bind (l := [_]) (l' := [_]) (.ensure fun e => ?_) fun a _ => ?_
    · rw [not_not]
      refine and_congr_left fun _ => ?_
      show ¬(y.2.zda = AT0 ↔ x.2.zda = AT0) ↔ _
      tauto
    · refine .ensure fun e => ?_
      rw [← earlier_iff hx (hval y rfl)]
      simp

/-- The turnover counter. -/
theorem checkCounter_stage {c : GroupCtx} {s : RegState} {pre : List Entry} {x : Entry}
    (hx : x.Valid) {n : Int} (hn : ∀ k, c.key = some k → n = s.counter + sold pre) :
    Stage (checkCounter c.key n x.2)
      [fun e => (∃ k, c.key = some k ∧ k.length ≠ 32) ∧ ¬Training x.2 ∧ e = .invalidKey,
       fun e => c.key ≠ none ∧ ¬Training x.2 ∧ x.2.turnover = .error e,
       fun e => (∃ k, c.key = some k ∧
          x.2.decryptTurnoverCounter k ≠ .ok (s.counter + sold (pre ++ [x]))) ∧
        ¬Training x.2 ∧ ¬Reversal x.2 ∧ e = .invalidTurnoverCounter] := by
  unfold checkCounter
  by_cases hd : Training x.2
  · rw [if_pos ((training_iff _).mp hd)]
    exact .clear (by simp [hd])
  rw [if_neg (mt (training_iff _).mpr hd)]
  cases hk : c.key with
  | none => exact .clear (by simp)
  | some k =>
    simp only [hd, not_false_eq_true, true_and, Option.some.injEq, exists_eq_left', ne_eq,
      reduceCtorEq]
    refine Stage.bind (l := [_]) (.ensure fun e => Iff.rfl) fun a ha => ?_
    rw [raiseForKey, ensure_eq_ok] at ha
    refine Stage.bind (l := [_]) (.single fun e => Iff.rfl) fun t ht => ?_
    have hsold : n + t = s.counter + sold (pre ++ [x]) := by
      rw [hn k hk, sold_append]
      simp [sold, hd, ht]
      ring
    by_cases hr : Reversal x.2
    · rw [if_pos ((reversal_iff _).mp hr)]
      exact .clear (by simp [hr])
    rw [if_neg (mt (reversal_iff _).mpr hr)]
    obtain ⟨tc, htc⟩ : ∃ tc, x.2.decryptTurnoverCounter k = .ok tc := by
      unfold Fields.decryptTurnoverCounter
      obtain ⟨ct, hct⟩ : ∃ ct, b64Decode false x.2.encTurnoverCounter = some ct := by
        obtain ⟨ct, h, _⟩ := hx.parsed.good.1.init.tc
        exact ⟨ct, h⟩
      rw [ensure_pos (mt (training_iff _).mpr hd), Res.ok_bind,
        ensure_pos (mt (reversal_iff _).mpr hr), Res.ok_bind, raiseForKey, ensure_pos ha, Res.ok_bind,
        hct]
      exact ⟨_, rfl⟩
    rw [htc, Res.ok_bind]
    refine Stage.bind (l := [_]) (l' := []) (.ensure fun e => ?_) fun a ha => .nil
    rw [hsold]
    simp [hr]

theorem wrongChain_iff {c : GroupCtx} {s : RegState} {saved : Option Entry} {pre : List Entry}
    {x : Entry} {o : Option Entry} (ho : ∀ y, Before c.prevStart saved pre y ↔ o = some y) :
    WrongChain c s saved pre x ↔ ¬((∀ v, Override s pre v → x.2.previousChain = v) ∧
      ((¬∃ v, Override s pre v) → ∀ y, o = some y → x.2.previousChain = chainValue y.1) ∧
      ((¬∃ v, Override s pre v) → o = none → x.2.previousChain = chainValue x.2.registerId)) := by
  constructor
  · rintro (⟨v, hv, h⟩ | ⟨y, hn, hy, h⟩ | ⟨hn, hy, h⟩) ⟨h1, h2, h3⟩
    · exact h (h1 v hv)
    · exact h (h2 hn y ((ho y).mp hy))
    · refine h (h3 hn ?_)
      cases o with
      | none => rfl
      | some y => exact absurd ⟨y, (ho y).mpr rfl⟩ hy
  · intro h
    by_contra hno
    refine h ⟨fun v hv => ?_, fun hn y hy => ?_, fun hn hy => ?_⟩ <;> by_contra hne <;> apply hno
    · exact .override v hv hne
    · exact .before y hn ((ho y).mpr hy) hne
    · refine .first hn ?_ hne
      rintro ⟨y, h⟩
      rw [ho, hy] at h
      cases h

/-- The chaining value. -/
theorem chain_stage {c : GroupCtx} {s : RegState} {saved : Option Entry} {pre : List Entry}
    {x : Entry} {o : Option Entry} (ho : ∀ y, Before c.prevStart saved pre y ↔ o = some y)
    {prev : Option Str} (h1 : ∀ y, o = some y → y.1 ≠ [] ∧ prev = some y.1)
    (h2 : o = none → prev = none ∨ prev = some []) {start : Option Str}
    (hst : start = some x.1 ↔ IsStart s saved pre x) :
    Stage (ensure (expectedChain (if pre = [] ∨ s.chainNext = some [] then s.chainNext else none)
        prev x.2 = x.2.previousChain)
        (if start = some x.1 then
          (if truthy c.prevStart then .invalidChainingOnClusterInitial else .invalidChainingOnInitial)
         else .chaining))
      [fun e => WrongChain c s saved pre x ∧ ¬IsStart s saved pre x ∧ e = .chaining,
       fun e => WrongChain c s saved pre x ∧ IsStart s saved pre x ∧
        (∃ t, c.prevStart = some t ∧ t ≠ []) ∧ e = .invalidChainingOnClusterInitial,
       fun e => WrongChain c s saved pre x ∧ IsStart s saved pre x ∧
        (¬∃ t, c.prevStart = some t ∧ t ≠ []) ∧ e = .invalidChainingOnInitial] := by
  by_cases hw : WrongChain c s saved pre x
  · have hne := mt (expectedChain_iff h1 h2 _).mp ((wrongChain_iff ho).mp hw)
    rw [ensure_neg hne]
    by_cases hi : IsStart s saved pre x
    · rw [if_pos (hst.mpr hi)]
      refine .skip (by simp [hi]) ?_
      by_cases ht : ∃ t, c.prevStart = some t ∧ t ≠ []
      · rw [if_pos (truthy_iff.mpr ht)]
        exact .hit rfl (by simp only [hw, hi, ht, true_and, implies_true])
      · rw [if_neg (mt truthy_iff.mp ht)]
        refine .skip (by simp only [ht]; simp) (.hit rfl ?_)
        simp only [hw, hi, ht, true_and, implies_true, not_false_eq_true]
    · rw [if_neg (mt hst.mp hi)]
      exact .hit rfl (by simp [hw, hi])
  · have he := (expectedChain_iff h1 h2 x.2.previousChain (r := x.2) (s := s) (pre := pre)).mpr
      (not_not.mp (mt (wrongChain_iff ho).mpr hw))
    rw [ensure_pos he]
    exact .clear (by simp [hw])

/-- One readable receipt. -/
theorem stepGroup_stage {c : GroupCtx} (hv : c.verifier.cert ≠ none ∨ c.verifier.keyStore ≠ none)
    {s : RegState} {saved : Option Entry} (hs : Saved s saved) {used : Used} {pre : List Entry}
    (hpre : ∀ x ∈ pre, x.Valid) {x : Entry} (hx : x.Valid) :
    Stage (stepGroup c (loopAfter c s saved used pre) (utf8Enc x.1))
      (faults c s saved used pre x) := by
  set l := loopAfter c s saved used pre with hl
  have hnr : l.state.needRestore = false ↔ ¬RestoreDue s saved pre := by simp [hl, loopAfter]
  have hpo : l.prevObj = (predecessor saved pre).map (·.2) := rfl
  have hcn : l.state.chainNext = if pre = [] ∨ s.chainNext = some [] then s.chainNext else none := rfl
  have hused : l.used = addAll used pre := rfl
  have hcnt : ∀ k, c.key = some k → l.state.counter = s.counter + sold pre := by
    intro k hk
    simp [hl, loopAfter, hk]
  unfold stepGroup
  rw [expandReceipt_iff.mpr rfl, Res.ok_bind]
  refine Stage.bind (l := [_, _, _, _, _]) (by rw [hpo]; exact checkSigned_stage hv hx hnr) ?_
  rintro ⟨ro, nr⟩ hsig
  have hro : ro = x.2 := by
    obtain ⟨h, _⟩ := (checkSigned_iff hv).mp hsig
    have := hx.unique h rfl
    rw [this]
  subst hro
  simp only
  -- the reference and what follows it
  have rest : ∀ (o : Option Entry), (∀ y, Before c.prevStart saved pre y ↔ o = some y) →
      (∀ y, o = some y → y.Valid) → ∀ prev, (∀ y, o = some y → y.1 ≠ [] ∧ prev = some y.1) →
      (o = none → prev = none ∨ prev = some []) →
      Stage (do
        let start := if l.prevObj.isSome then l.state.start else some x.1
        checkBefore l.used (o.map (·.2)) x.2
        let used := l.used.add x.2.receiptId
        ensure (expectedChain l.state.chainNext prev x.2 = x.2.previousChain)
          (if start = some x.1 then
            (if truthy c.prevStart then .invalidChainingOnClusterInitial else .invalidChainingOnInitial)
           else .chaining)
        let chainNext := if truthy l.state.chainNext then none else l.state.chainNext
        let counter ← checkCounter c.key l.state.counter x.2
        .ok ({ state := { l.state with start, needRestore := nr, chainNext, counter }, used,
               prev := some x.1, prevObj := some x.2 } : Loop))
      ((faults c s saved used pre x).drop 10) := by
    intro o ho hval prev h1 h2
    refine Stage.bind (l := [_, _, _, _]) (by rw [hused]; exact checkBefore_stage hx ho hval)
      fun _ _ => ?_
    refine Stage.bind (l := [_, _, _]) ?_ fun _ _ => ?_
    · rw [hcn]
      refine chain_stage ho h1 h2 ?_
      unfold IsStart
      cases hp : predecessor saved pre with
      | none => simp [hpo, hp]
      | some y =>
        simp only [hpo, hp, Option.map_some, Option.isSome_some, if_true, reduceCtorEq, false_or]
        rw [hl]
        simp only [loopAfter]
        by_cases hsv : saved = none
        · have hne : pre ≠ [] := by
            rintro rfl
            rw [hsv] at hp
            simp [predecessor] at hp
          simp [hsv, hne]
        · simp [hsv]
    · exact Stage.bind (l := [_, _, _]) (l' := []) (checkCounter_stage hx hcnt) fun _ _ => .nil
  rcases (by cases predecessor saved pre <;> simp :
    (∃ y, predecessor saved pre = some y) ∨ predecessor saved pre = none) with ⟨y, hp⟩ | hp
  · obtain ⟨hy, hprev⟩ := predecessor_valid hs hpre hp
    have href : reference c l.prev l.prevObj x.2 = .ok (l.prev, (some y : Option Entry).map (·.2)) := by
      rw [hpo, hp]; rfl
    rw [href, Res.ok_bind]
    have := rest (some y) (fun z => by rw [before_iff_some hp]; simp [eq_comm])
      (fun z hz => by cases hz; exact hy) l.prev
      (fun z hz => by cases hz; exact ⟨hy.ne_nil, hprev⟩) (by simp)
    iterate 5 refine .skip (by simp [hp]) ?_
    exact this
  · have href : reference c l.prev l.prevObj x.2 = checkInitial c x.2 l.prev := by
      rw [hpo, hp]; rfl
    rw [href]
    refine Stage.bind (l := [_, _, _, _, _]) (checkInitial_stage hx hp _) ?_
    rintro ⟨prev, po⟩ hi
    obtain ⟨_, ⟨ht, rfl, rfl⟩ | ⟨t, p, hps, hn, _, hval, _, rfl, rfl⟩⟩ := (checkInitial_iff hx).mp hi
    · refine rest none ?_ (by simp) l.prev (by simp) ?_
      · intro y
        rw [before_iff_none hp]
        simp only [reduceCtorEq, iff_false]
        rintro ⟨h, h', _⟩
        rw [truthy_iff.mpr ⟨_, h, h'⟩] at ht
        cases ht
      · intro _
        unfold predecessor at hp
        rw [Option.or_eq_none_iff] at hp
        have : l.prev = s.last := by
          simp [hl, loopAfter, hp.1]
        rw [this]
        have := hp.2
        cases hs with
        | none h => exact h
        | some => cases this
    · refine rest (some (t, p)) ?_ (fun y hy => by cases hy; exact hval) (some t)
        (fun y hy => by cases hy; exact ⟨hn, rfl⟩) (by simp)
      intro y
      rw [before_iff_none hp, hps]
      constructor
      · rintro ⟨h, _, hy⟩
        cases h
        rw [hval.unique hy rfl]
      · intro h; cases h; exact ⟨rfl, hn, hval⟩

/-- One piece of a DEP. -/
theorem stepGroup_error_iff {c : GroupCtx}
    (hv : c.verifier.cert ≠ none ∨ c.verifier.keyStore ≠ none)
    {s : RegState} {saved : Option Entry} (hs : Saved s saved) {used : Used} {pre : List Entry}
    (hpre : ∀ x ∈ pre, x.Valid) {b : Bytes} {e : Err} :
    stepGroup c (loopAfter c s saved used pre) b = .error e ↔ Refused c s saved used pre b e := by
  by_cases hb : ∃ t, b = utf8Enc t
  · obtain ⟨t, rfl⟩ := hb
    cases hj : fromJWS t with
    | ok y =>
      obtain ⟨r, alg⟩ := y
      have hx : Entry.Valid (t, r) := fromJWS_R1 hj
      rw [stepGroup_stage hv hs hpre hx e]
      constructor
      · exact fun h => .fault (t, r) e rfl hx h
      · intro h
        cases h with
        | text h => exact absurd ⟨t, rfl⟩ h
        | receipt t' _ hb h =>
          cases utf8Enc_injective hb
          rw [hj] at h; cases h
        | fault x _ hb hx' h =>
          have : t = x.1 := utf8Enc_injective hb
          cases hx.unique hx' this
          exact h
    | error e' =>
      have he : stepGroup c (loopAfter c s saved used pre) (utf8Enc t) = .error e' := by
        have hdoc := parsers_fail_documented t (.inl hj)
        have hne : ¬(e' = .signatureSystemFailed ∨ e' = .unsignedNullReceipt) := by
          rintro (rfl | rfl) <;> cases hdoc
        unfold stepGroup
        rw [expandReceipt_iff.mpr rfl, Res.ok_bind]
        have : checkSigned c.verifier (loopAfter c s saved used pre).state.needRestore
            (loopAfter c s saved used pre).prevObj t = .error e' := by
          unfold checkSigned
          rw [Verifier.verifyJWS, hj, Res.error_bind]
          simp only
          rw [if_neg hne]
        rw [this]; rfl
      rw [he]
      constructor
      · intro h; cases h; exact .receipt t _ rfl hj
      · intro h
        cases h with
        | text h => exact absurd ⟨t, rfl⟩ h
        | receipt t' _ hb h =>
          cases utf8Enc_injective hb
          rw [hj] at h; cases h; rfl
        | fault x _ hb hx' h =>
          have : t = x.1 := utf8Enc_injective hb
          have hx' : fromJWS x.1 = .ok (x.2, c!"R1") := hx'
          rw [← this, hj] at hx'
          cases hx'
  · have he : stepGroup c (loopAfter c s saved used pre) b = .error .malformedDEP := by
      unfold stepGroup
      have : expandReceipt b = .error .malformedDEP := by
        unfold expandReceipt
        rw [orErr_eq_error]
        refine ⟨?_, rfl⟩
        cases h : utf8Dec b with
        | none => rfl
        | some t => exact absurd ⟨t, (utf8Enc_dec h).symm⟩ hb
      rw [this]; rfl
    rw [he]
    constructor
    · intro h; cases h; exact .text hb
    · intro h
      cases h with
      | text h => rfl
      | receipt t _ h => exact absurd ⟨t, h⟩ hb
      | fault x _ h => exact absurd ⟨_, h⟩ hb

/-- All pieces of a group. -/
theorem runGroup_error_iff {c : GroupCtx}
    (hv : c.verifier.cert ≠ none ∨ c.verifier.keyStore ≠ none)
    {s : RegState} {saved : Option Entry} (hs : Saved s saved) {used : Used} {g : List Bytes}
    {e : Err} : ∀ {pre : List Entry}, (∀ x ∈ pre, x.Valid) →
    (runGroup c (loopAfter c s saved used pre) g = .error e ↔
      ∃ a h b post, g = a ++ b :: post ∧ Reads a h ∧
        (∀ p x q, h = p ++ x :: q → Rules c s saved used (pre ++ p) x) ∧
        Refused c s saved used (pre ++ h) b e) := by
  induction g with
  | nil =>
    intro pre _
    simp [runGroup]
  | cons b g ih =>
    intro pre hpre
    rw [runGroup, Res.bind_eq_error]
    constructor
    · rintro (h | ⟨l, hl, h⟩)
      · exact ⟨[], [], b, g, rfl, ⟨rfl, by simp⟩, by simp, by
          rw [List.append_nil]; exact (stepGroup_error_iff hv hs hpre).mp h⟩
      · obtain ⟨x, rfl, hx, hR, rfl⟩ := (stepGroup_iff hv hs hpre).mp hl
        obtain ⟨a, h', b', post, rfl, hr, hall, href⟩ := (ih (by
          intro y hy
          rcases List.mem_append.mp hy with hy | hy
          · exact hpre y hy
          · rw [List.mem_singleton.mp hy]; exact hx)).mp h
        refine ⟨utf8Enc x.1 :: a, x :: h', b', post, rfl, ⟨by simp [hr.1], ?_⟩, ?_, by simpa using href⟩
        · intro y hy
          rcases List.mem_cons.mp hy with rfl | hy
          · exact hx
          · exact hr.2 y hy
        · intro p y q e
          rcases p with _ | ⟨z, p⟩
          · cases e; simpa using hR
          · simp only [List.cons_append, List.cons.injEq] at e
            obtain ⟨rfl, e⟩ := e
            simpa using hall p y q e
    · rintro ⟨a, h, b', post, e, hr, hall, href⟩
      rcases a with _ | ⟨b0, a⟩
      · cases e
        have : h = [] := by simpa using hr.1
        subst this
        rw [List.append_nil] at href
        exact .inl ((stepGroup_error_iff hv hs hpre).mpr href)
      · simp only [List.cons_append, List.cons.injEq] at e
        obtain ⟨rfl, rfl⟩ := e
        rcases h with _ | ⟨x, h⟩
        · have := hr.1; simp at this
        · have h1 := hr.1
          simp only [List.map_cons, List.cons.injEq] at h1
          have hx := hr.2 x (by simp)
          refine .inr ⟨_, (stepGroup_iff hv hs hpre).mpr ⟨x, h1.1, hx,
            by simpa using hall [] x h rfl, rfl⟩, ?_⟩
          refine (ih (by
            intro y hy
            rcases List.mem_append.mp hy with hy | hy
            · exact hpre y hy
            · rw [List.mem_singleton.mp hy]; exact hx)).mpr ⟨a, h, b', post, rfl,
            ⟨h1.2, fun y hy => hr.2 y (by simp [hy])⟩, ?_, by simpa using href⟩
          intro p y q e
          simpa using hall (x :: p) y q (by simp [e])

end

end RKSV
