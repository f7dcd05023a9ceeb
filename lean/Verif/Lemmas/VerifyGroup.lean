import Verif.Spec.VerifyGroup
import Verif.Props.VerifyReceipt
import Verif.Props.Receipt
/-
The verification loop and the rules.
-/
namespace RKSV

section
variable [PyEnv]

omit [PyEnv] in
theorem training_iff (r : Receipt) : Training r ↔ r.isDummy = true := (kind_decoded r.toFields).1.symm

omit [PyEnv] in
theorem reversal_iff (r : Receipt) : Reversal r ↔ r.isReversal = true := (kind_decoded r.toFields).2.symm

omit [PyEnv] in
theorem unsigned_iff (r : Receipt) : Unsigned r ↔ r.isSignedBroken = true := (isSignedBroken_iff r).symm

theorem Entry.Valid.parsed {x : Entry} (h : x.Valid) : Parsed x.2 c!"R1" := .jws x.1 h

theorem Entry.Valid.unique {x y : Entry} (hx : x.Valid) (hy : y.Valid) (e : x.1 = y.1) : x = y := by
  have hx : fromJWS x.1 = .ok (x.2, c!"R1") := hx
  have hy : fromJWS y.1 = .ok (y.2, c!"R1") := hy
  rw [e, hy] at hx
  have := Except.ok.inj hx
  exact Prod.ext e (Prod.mk.inj this).1.symm

theorem standardNull_iff {r : Receipt} {alg : Str} (h : Parsed r alg) :
    (!r.isNull || r.isDummy || r.isReversal) = true ↔ ¬StandardNull r := by
  unfold StandardNull
  rw [training_iff, reversal_iff, ← zero_turnover_exact_parsed h]
  cases r.isNull <;> cases r.isDummy <;> cases r.isReversal <;> simp

theorem fromJWS_R1 {s : Str} {r : Receipt} {alg : Str} (h : fromJWS s = .ok (r, alg)) :
    Entry.Valid (s, r) := by
  have := (Parsed.jws s h).good.2
  subst this
  exact h

theorem earlier_iff {x y : Entry} (hx : x.Valid) (hy : y.Valid) :
    x.2.dateTime.before y.2.dateTime = true ↔ Earlier x.2.dateTime y.2.dateTime := by
  have v : ∀ {z : Entry}, z.Valid → z.2.dateTime.Valid := fun hz =>
    strptime_valid hz.parsed.good.1.init.dateTime
  unfold DateTime.before Earlier
  rw [decide_eq_true_eq, DateTime.key_lt_iff (v hx) (v hy)]

/-- What the verifier's verdict on a single receipt is in terms of the rules. -/
theorem verifyJWS_iff {v : Verifier} {t : Str} {r : Receipt} {alg : Str} :
    v.verifyJWS t = .ok (r, alg) ↔ Entry.Valid (t, r) ∧ alg = c!"R1" ∧ ¬Unsigned r ∧
      ∃ k, KeyFor v r k ∧ SignatureValid r k := by
  unfold Verifier.verifyJWS
  rw [Res.bind_eq_ok]
  constructor
  · rintro ⟨⟨r', a'⟩, h1, h2⟩
    have g := (Parsed.jws t h1).good
    obtain ⟨g, rfl⟩ := g
    have := (verify_iff g).mp h2
    cases this.1
    exact ⟨h1, rfl, this.2⟩
  · rintro ⟨h1, rfl, h2⟩
    exact ⟨(r, c!"R1"), h1, (receipt_accepted_iff (.jws t h1)).mpr h2⟩

theorem verify_error_iff {v : Verifier} (hv : v.cert ≠ none ∨ v.keyStore ≠ none) {r : Receipt}
    {alg : Str} (h : Parsed r alg) :
    (v.verify r alg = .error .signatureSystemFailed ∨ v.verify r alg = .error .unsignedNullReceipt) ↔
      Unsigned r ∧ ¬WrongCert v r := by
  obtain ⟨h1, h2, h3, h4⟩ := verify_errors h hv
  by_cases hw : WrongCert v r
  · simp [h1 hw, hw]
  · by_cases hu : r.signature = failureMark
    · rw [h2 hw hu]
      simp only [Unsigned, hu, hw, not_false_eq_true, and_self, iff_true, Except.error.injEq]
      split <;> simp
    · have hu' : ¬Unsigned r := hu
      simp only [hu', false_and, iff_false, not_or]
      by_cases hk : ∃ k, KeyFor v r k
      · obtain ⟨k, hk⟩ := hk
        by_cases hs : SignatureValid r k
        · rw [(receipt_accepted_iff h).mpr ⟨hu, k, hk, hs⟩]
          simp
        · rw [h4 hu k hk hs]; simp
      · rw [h3 hw hu hk]; simp

theorem checkSigned_iff {v : Verifier} (hv : v.cert ≠ none ∨ v.keyStore ≠ none) {nr nr' : Bool}
    {p : Option Receipt} {t : Str} {r : Receipt} :
    checkSigned v nr p t = .ok (r, nr') ↔ Entry.Valid (t, r) ∧
      (((¬Unsigned r ∧ ∃ k, KeyFor v r k ∧ SignatureValid r k) ∧
          (p ≠ none → ¬StandardNull r → nr = false) ∧
          (nr' = true ↔ ¬StandardNull r ∧ ∃ q, p = some q ∧ Unsigned q)) ∨
        (Unsigned r ∧ ¬WrongCert v r ∧ p ≠ none ∧ nr = false ∧ nr' = false)) := by
  unfold checkSigned
  cases hres : v.verifyJWS t with
  | ok x =>
    obtain ⟨ro, alg⟩ := x
    obtain ⟨h1, rfl, h2, h3⟩ := verifyJWS_iff.mp hres
    have hsn : (!ro.isNull || ro.isDummy || ro.isReversal) = true ↔ ¬StandardNull ro :=
      standardNull_iff h1.parsed
    have key : ∀ r, Entry.Valid (t, r) → r = ro := by
      intro r h
      have h1' : fromJWS t = .ok (ro, c!"R1") := h1
      have h' : fromJWS t = .ok (r, c!"R1") := h
      rw [h1'] at h'; cases h'; rfl
    cases p with
    | none =>
      simp only [Except.ok.injEq, Prod.mk.injEq]
      constructor
      · rintro ⟨rfl, rfl⟩
        refine ⟨h1, Or.inl ⟨⟨h2, h3⟩, ?_, ?_⟩⟩ <;> simp
      · rintro ⟨h, h' | h'⟩
        · have := key _ h; subst this
          refine ⟨rfl, ?_⟩
          have := h'.2.2
          simp at this
          simp [this]
        · simp at h'
    | some q =>
      simp only
      constructor
      · intro h
        split at h
        · rename_i hb
          simp only [Res.bind_eq_ok, ensure_eq_ok, Except.ok.injEq, Prod.mk.injEq] at h
          obtain ⟨_, hnr, rfl, rfl⟩ := h
          have : ¬StandardNull ro := hsn.mp hb
          refine ⟨h1, Or.inl ⟨⟨h2, h3⟩, fun _ _ => hnr, ?_⟩⟩
          subst hnr
          simp [this, unsigned_iff]
        · rename_i hb
          cases h
          have : StandardNull r := not_not.mp (mt hsn.mpr hb)
          refine ⟨h1, Or.inl ⟨⟨h2, h3⟩, fun _ h => absurd this h, ?_⟩⟩
          simp [this]
      · rintro ⟨h, h' | h'⟩
        · have := key _ h; subst this
          obtain ⟨_, hnr, hnr'⟩ := h'
          by_cases hn : StandardNull r
          · have hb : ¬(!r.isNull || r.isDummy || r.isReversal) = true := fun h => hsn.mp h hn
            rw [if_neg hb]
            have : nr' = false := by simpa [hn] using hnr'
            rw [this]
          · have hb : (!r.isNull || r.isDummy || r.isReversal) = true := hsn.mpr hn
            rw [if_pos hb]
            have := hnr (by simp) hn
            subst this
            rw [ensure_pos rfl, Res.ok_bind]
            simp only [hn, not_false_eq_true, true_and, Option.some.injEq, exists_eq_left'] at hnr'
            rw [unsigned_iff] at hnr'
            cases hq : q.isSignedBroken <;> rw [hq] at hnr' <;> cases nr' <;> simp at hnr' ⊢
        · have := key _ h; subst this
          exact absurd h'.1 h2
  | error e =>
    simp only
    -- the receipt was not accepted
    have hno : ∀ r, Entry.Valid (t, r) → ¬(¬Unsigned r ∧ ∃ k, KeyFor v r k ∧ SignatureValid r k) := by
      intro r h h'
      have := verifyJWS_iff.mpr ⟨h, rfl, h'⟩
      rw [hres] at this; cases this
    have herr : ∀ r, Entry.Valid (t, r) →
        ((e = .signatureSystemFailed ∨ e = .unsignedNullReceipt) ↔ Unsigned r ∧ ¬WrongCert v r) := by
      intro r h
      rw [← verify_error_iff hv h.parsed]
      have hj : fromJWS t = .ok (r, c!"R1") := h
      rw [Verifier.verifyJWS, hj, Res.ok_bind] at hres
      simp only at hres
      rw [hres]
      simp
    by_cases he : e = .signatureSystemFailed ∨ e = .unsignedNullReceipt
    · rw [if_pos he]
      simp only [Res.bind_eq_ok, ensure_eq_ok, Except.ok.injEq, Prod.mk.injEq]
      constructor
      · rintro ⟨⟨ro, a⟩, h1, _, hp, _, hnr, rfl, rfl⟩
        have hval := fromJWS_R1 h1
        refine ⟨hval, Or.inr ?_⟩
        obtain ⟨hu, hw⟩ := (herr _ hval).mp he
        exact ⟨hu, hw, by cases p <;> simp_all, hnr, hnr⟩
      · rintro ⟨h, h' | ⟨hu, hw, hp, hnr, hnr'⟩⟩
        · exact absurd h'.1 (hno _ h)
        · exact ⟨(r, c!"R1"), h, (), by cases p <;> simp_all, (), hnr, rfl, by rw [hnr, hnr']⟩
    · rw [if_neg he]
      constructor
      · intro h; cases h
      · rintro ⟨h, h' | ⟨hu, hw, -⟩⟩
        · exact absurd h'.1 (hno _ h)
        · exact absurd ((herr _ h).mpr ⟨hu, hw⟩) he

theorem checkInitial_iff {c : GroupCtx} {t : Str} {r : Receipt} (hr : Entry.Valid (t, r))
    {prev prev' : Option Str} {po' : Option Receipt} :
    checkInitial c r prev = .ok (prev', po') ↔ StandardNull r ∧
      ((truthy c.prevStart = false ∧ prev' = prev ∧ po' = none) ∨
        ∃ t p, c.prevStart = some t ∧ t ≠ [] ∧ r.zda = c!"AT0" ∧ Entry.Valid (t, p) ∧
          p.zda = c!"AT0" ∧ prev' = some t ∧ po' = some p) := by
  have hsn := standardNull_iff hr.parsed
  have h1 : StandardNull r ↔ r.isNull = true ∧ ¬(r.isDummy = true ∨ r.isReversal = true) := by
    rw [← not_iff_not, ← hsn]
    cases r.isNull <;> cases r.isDummy <;> cases r.isReversal <;> simp
  unfold checkInitial
  simp only [Res.bind_eq_ok, ensure_eq_ok]
  rw [h1]
  rcases hps : c.prevStart with _ | _ | ⟨x, ps⟩
  · simp only [Except.ok.injEq, Prod.mk.injEq, truthy, reduceCtorEq, false_and, exists_false, or_false,
      true_and]
    constructor
    · rintro ⟨_, ha, _, hb, rfl, rfl⟩; exact ⟨⟨ha, hb⟩, rfl, rfl⟩
    · rintro ⟨⟨ha, hb⟩, rfl, rfl⟩; exact ⟨(), ha, (), hb, rfl, rfl⟩
  · simp only [Except.ok.injEq, Prod.mk.injEq, truthy, Option.some.injEq, true_and]
    constructor
    · rintro ⟨_, ha, _, hb, rfl, rfl⟩; exact ⟨⟨ha, hb⟩, Or.inl ⟨rfl, rfl⟩⟩
    · rintro ⟨⟨ha, hb⟩, ⟨rfl, rfl⟩ | ⟨t, p, rfl, h, -⟩⟩
      · exact ⟨(), ha, (), hb, rfl, rfl⟩
      · exact absurd rfl h
  · simp only [Except.ok.injEq, Prod.mk.injEq, truthy, Option.some.injEq, Res.bind_eq_ok, ensure_eq_ok,
      reduceCtorEq, false_and, false_or]
    constructor
    · rintro ⟨_, ha, _, hb, _, hz, ⟨p, a⟩, hp, _, hz', rfl, rfl⟩
      exact ⟨⟨ha, hb⟩, _, p, rfl, by simp, hz, fromJWS_R1 hp, hz', rfl, rfl⟩
    · rintro ⟨⟨ha, hb⟩, t, p, rfl, -, hz, hp, hz', rfl, rfl⟩
      exact ⟨(), ha, (), hb, (), hz, (p, c!"R1"), hp, (), hz', rfl, rfl⟩

theorem checkPrevious_iff {used : Used} {x y : Entry} (hx : x.Valid) (hy : y.Valid) {u : Unit} :
    checkPrevious used y.2 x.2 = .ok u ↔ used.check x.2.receiptId = .ok () ∧
      y.2.registerId = x.2.registerId ∧ (y.2.zda = c!"AT0" ↔ x.2.zda = c!"AT0") ∧
      ¬Earlier x.2.dateTime y.2.dateTime := by
  unfold checkPrevious
  simp only [Res.bind_eq_ok, ensure_eq_ok]
  have e : (¬(y.2.zda = AT0 ∧ x.2.zda ≠ AT0 ∨ y.2.zda ≠ AT0 ∧ x.2.zda = AT0)) ↔
      (y.2.zda = c!"AT0" ↔ x.2.zda = c!"AT0") := by
    show (¬(y.2.zda = AT0 ∧ x.2.zda ≠ AT0 ∨ y.2.zda ≠ AT0 ∧ x.2.zda = AT0)) ↔
      (y.2.zda = AT0 ↔ x.2.zda = AT0)
    tauto
  rw [← earlier_iff hx hy]
  constructor
  · rintro ⟨_, h1, _, h2, _, h3, h4⟩
    exact ⟨h1, h2, e.mp h3, by simpa using h4⟩
  · rintro ⟨h1, h2, h3, h4⟩
    exact ⟨(), h1, (), h2, (), e.mpr h3, by simpa using h4⟩

omit [PyEnv] in
theorem sold_append (a b : List Entry) : sold (a ++ b) = sold a + sold b := by
  simp [sold]

theorem checkCounter_iff {key : Option Bytes} {n n' : Int} {x : Entry} :
    checkCounter key n x.2 = .ok n' ↔ (∀ k, key = some k → ¬Training x.2 → k.length = 32 ∧
        (∃ n, x.2.turnover = .ok n) ∧
        (¬Reversal x.2 → x.2.decryptTurnoverCounter k = .ok (n + sold [x]))) ∧
      n' = if key = none then n else n + sold [x] := by
  unfold checkCounter
  by_cases hd : x.2.isDummy = true
  · have hd' : Training x.2 := (training_iff _).mpr hd
    rw [if_pos hd]
    have : sold [x] = 0 := by simp [sold, hd']
    simp [this, hd', eq_comm]
  · have hd' : ¬Training x.2 := mt (training_iff _).mp hd
    rw [if_neg hd]
    cases key with
    | none => simp [eq_comm]
    | some k =>
      simp only [Option.some.injEq, forall_eq', reduceCtorEq, if_false, raiseForKey,
        Res.bind_eq_ok, ensure_eq_ok, hd', not_false_eq_true, true_implies]
      have hs : ∀ t, x.2.turnover = .ok t → sold [x] = t := by
        intro t h
        simp [sold, hd', h]
      rw [reversal_iff]
      constructor
      · rintro ⟨_, hk, t, ht, h⟩
        rw [hs t ht]
        refine ⟨⟨hk, ⟨t, ht⟩, ?_⟩, ?_⟩
        · intro hr
          rw [if_neg hr] at h
          simp only [Res.bind_eq_ok, ensure_eq_ok] at h
          obtain ⟨tc, h1, _, h2, h3⟩ := h
          rw [h1, h2]
        · split at h
          · cases h; rfl
          · simp only [Res.bind_eq_ok, ensure_eq_ok] at h
            obtain ⟨tc, h1, _, h2, h3⟩ := h
            cases h3; rfl
      · rintro ⟨⟨hk, ⟨t, ht⟩, h⟩, rfl⟩
        rw [hs t ht] at h ⊢
        refine ⟨(), hk, t, ht, ?_⟩
        split
        · rfl
        · rename_i hr
          rw [h hr]
          simp [Res.ok_bind, ensure_pos]

/-! ### Used IDs -/

/-- The object after adding the IDs of all receipts. -/
def addAll (used : Used) (h : List Entry) : Used := h.foldl (fun u x => u.add x.2.receiptId) used

omit [PyEnv] in
theorem addAll_append (used : Used) (a b : List Entry) :
    addAll used (a ++ b) = addAll (addAll used a) b := by
  simp [addAll]

omit [PyEnv] in
theorem usedAfter_addAll (used : Used) (h : List Entry) : UsedAfter used h (addAll used h) := by
  induction h using List.reverseRecOn with
  | nil => cases used <;> simp [UsedAfter, addAll]
  | append_singleton h x ih =>
    rw [addAll_append]
    cases used with
    | unique ids =>
      simp only [UsedAfter] at ih ⊢
      rw [ih]
      simp only [addAll, List.foldl_cons, List.foldl_nil, Used.add, Used.unique.injEq]
      ext a
      simp only [Finset.mem_insert, Finset.mem_union, List.mem_toFinset, List.map_append, List.mem_append,
        List.map_cons, List.map_nil, List.mem_singleton]
      tauto
    | sorted lo hi =>
      simp only [UsedAfter] at ih ⊢
      rw [ih]
      cases lo with
      | some l => simp [addAll, Used.add]
      | none =>
        cases h with
        | nil => simp [addAll, Used.add]
        | cons y h =>
          have : (y :: h ++ [x]).getLast? = some x := by
            rw [List.getLast?_append]; rfl
          rw [this]
          simp [addAll, Used.add]

omit [PyEnv] in
theorem usedAfter_iff {used used' : Used} {h : List Entry} :
    UsedAfter used h used' ↔ used' = addAll used h := by
  have := usedAfter_addAll used h
  cases used <;> simp only [UsedAfter] at this ⊢ <;> rw [this]

theorem check_addAll {used : Used} {pre : List Entry} {id : Str} :
    (addAll used pre).check id = .ok () ↔ FreshId used pre id := by
  have := usedAfter_addAll used pre
  cases used with
  | unique ids =>
    simp only [UsedAfter] at this
    rw [this]
    simp only [Used.check, ensure_eq_ok, FreshId, Finset.mem_union, List.mem_toFinset, List.mem_map, not_or,
      not_exists, not_and]
  | sorted lo hi =>
    simp only [UsedAfter] at this
    rw [this]
    simp only [FreshId]
    cases (pre.getLast?.map (·.2.receiptId)).or hi with
    | none => simp [Used.check]
    | some m =>
      simp only [Used.check, Res.bind_eq_ok, ensure_eq_ok, Option.some.injEq, forall_eq', NaturalLt]
      constructor
      · rintro ⟨a, ha, b, hb, _, hlt, rfl⟩; exact ⟨a, b, ha, hb, hlt⟩
      · rintro ⟨a, b, ha, hb, hlt⟩; exact ⟨a, ha, b, hb, true, hlt, rfl⟩

/-! ### The loop -/

open Classical in
/-- The variables of the loop after the receipts `pre`. -/
noncomputable def loopAfter (c : GroupCtx) (s : RegState) (saved : Option Entry) (used : Used)
    (pre : List Entry) : Loop where
  state :=
    { start := if saved = none ∧ pre ≠ [] then pre.head?.map (·.1) else s.start
      last := s.last
      counter := if c.key = none then s.counter else s.counter + sold pre
      needRestore := decide (RestoreDue s saved pre)
      chainNext := if pre = [] ∨ s.chainNext = some [] then s.chainNext else none }
  used := addAll used pre
  prev := (pre.getLast?.map (·.1)).or s.last
  prevObj := (predecessor saved pre).map (·.2)

theorem Entry.Valid.ne_nil {x : Entry} (h : x.Valid) : x.1 ≠ [] := by
  intro e
  have h : fromJWS x.1 = .ok (x.2, c!"R1") := h
  rw [e] at h
  cases h

theorem Saved.valid {s : RegState} {saved : Option Entry} (h : Saved s saved) :
    ∀ y, saved = Option.some y → y.Valid ∧ s.last = Option.some y.1 := by
  intro y hy
  cases h with
  | none => cases hy
  | some x hs hn hv => cases hy; exact ⟨hv, hs⟩

theorem predecessor_valid {s : RegState} {saved : Option Entry} (hs : Saved s saved)
    {pre : List Entry} (hpre : ∀ x ∈ pre, x.Valid) {y : Entry} (hy : predecessor saved pre = some y) :
    y.Valid ∧ (pre.getLast?.map (·.1)).or s.last = some y.1 := by
  unfold predecessor at hy
  cases hl : pre.getLast? with
  | none =>
    rw [hl] at hy
    simp only [Option.none_or] at hy
    simpa using hs.valid y hy
  | some z =>
    rw [hl] at hy
    cases hy
    exact ⟨hpre _ (List.mem_of_getLast? hl), rfl⟩

theorem restoreDue_snoc {s : RegState} {saved : Option Entry} {pre : List Entry} {y : Entry} :
    RestoreDue s saved (pre ++ [y]) ↔
      ¬Unsigned y.2 ∧ ¬StandardNull y.2 ∧ ∃ p, predecessor saved pre = some p ∧ Unsigned p.2 := by
  constructor
  · intro h
    generalize e : pre ++ [y] = l at h
    cases h with
    | saved => simp at e
    | late pre' p y' hp hu hs hn =>
      obtain ⟨rfl, h⟩ := List.append_inj' e rfl
      cases h
      exact ⟨hs, hn, p, hp, hu⟩
  · rintro ⟨hs, hn, p, hp, hu⟩
    exact .late pre p y hp hu hs hn

omit [PyEnv] in
theorem predecessor_snoc (saved : Option Entry) (pre : List Entry) (x : Entry) :
    predecessor saved (pre ++ [x]) = some x := by
  simp [predecessor]

omit [PyEnv] in
theorem truthy_iff {o : Option Str} : truthy o = true ↔ ∃ t, o = some t ∧ t ≠ [] := by
  rcases o with _ | _ | ⟨c, t⟩ <;> simp [truthy]

theorem expectedChain_iff {s : RegState} {pre : List Entry} {prev : Option Str}
    {r : Receipt} {o : Option Entry} (ho : ∀ y, o = some y → y.1 ≠ [] ∧ prev = some y.1)
    (ho' : o = none → prev = none ∨ prev = some []) (x : Str) :
    expectedChain (if pre = [] ∨ s.chainNext = some [] then s.chainNext else none) prev r = x ↔
      (∀ v, Override s pre v → x = v) ∧
      ((¬∃ v, Override s pre v) → ∀ y, o = some y → x = chainValue y.1) ∧
      ((¬∃ v, Override s pre v) → o = none → x = chainValue r.registerId) := by
  by_cases hov : ∃ v, Override s pre v
  · obtain ⟨v, rfl, hc, hv⟩ := hov
    rcases v with _ | ⟨a, v⟩
    · exact absurd rfl hv
    · have hov : Override s [] (a :: v) := ⟨rfl, hc, hv⟩
      have hex : ∃ v, Override s [] v := ⟨_, hov⟩
      simp only [true_or, if_true, hc, expectedChain]
      constructor
      · rintro rfl
        refine ⟨?_, fun h => absurd hex h, fun h => absurd hex h⟩
        rintro w ⟨_, h, _⟩
        rw [hc] at h; cases h; rfl
      · rintro ⟨h, -⟩
        exact (h _ hov).symm
  · have he : expectedChain (if pre = [] ∨ s.chainNext = some [] then s.chainNext else none) prev r =
        b64Encode false (chainHash r.registerId prev) := by
      unfold expectedChain
      by_cases hp : pre = []
      · rw [if_pos (Or.inl hp)]
        rcases hc : s.chainNext with _ | _ | ⟨a, v⟩
        · rfl
        · rfl
        · exact absurd ⟨_, hp, hc, by simp⟩ hov
      · by_cases hc : s.chainNext = some []
        · rw [if_pos (Or.inr hc), hc]
        · rw [if_neg (by tauto)]
    rw [he]
    have h0 : ∀ v, ¬Override s pre v := fun v h => hov ⟨v, h⟩
    simp only [h0, false_implies, implies_true, true_and, exists_false, not_false_eq_true, true_implies]
    cases o with
    | none =>
      have hr : b64Encode false (chainHash r.registerId prev) = chainValue r.registerId := by
        rcases ho' rfl with h | h <;> rw [h] <;> rfl
      rw [hr]
      simp [eq_comm]
    | some y =>
      obtain ⟨h1, h2⟩ := ho y rfl
      have hr : b64Encode false (chainHash r.registerId prev) = chainValue y.1 := by
        rw [h2]; simp [chainHash, h1, chainValue, algHash]
      rw [hr]
      simp [eq_comm]

omit [PyEnv] in
theorem expandReceipt_iff {b : Bytes} {t : Str} : expandReceipt b = .ok t ↔ b = utf8Enc t := by
  unfold expandReceipt
  rw [orErr_eq_ok]
  exact ⟨fun h => (utf8Enc_dec h).symm, fun h => by rw [h, utf8Dec_enc]⟩

/-- The receipt compared with, as a function. -/
theorem before_iff_some {ps : Option Str} {saved : Option Entry} {pre : List Entry} {p : Entry}
    (hp : predecessor saved pre = some p) (y : Entry) : Before ps saved pre y ↔ y = p := by
  constructor
  · intro h
    cases h with
    | previous h => rw [hp] at h; cases h; rfl
    | cluster h => rw [hp] at h; cases h
  · rintro rfl; exact .previous _ hp

theorem before_iff_none {ps : Option Str} {saved : Option Entry} {pre : List Entry}
    (hp : predecessor saved pre = none) (y : Entry) :
    Before ps saved pre y ↔ ps = some y.1 ∧ y.1 ≠ [] ∧ y.Valid := by
  constructor
  · intro h
    cases h with
    | previous h => rw [hp] at h; cases h
    | cluster _ h1 h2 h3 => exact ⟨h1, h2, h3⟩
  · rintro ⟨h1, h2, h3⟩; exact .cluster _ hp h1 h2 h3

/-- The variables after one more receipt. -/
theorem loopAfter_snoc {c : GroupCtx} {s : RegState} {saved : Option Entry} {used : Used}
    {pre : List Entry} {x : Entry} {nr : Bool}
    (hnr : nr = true ↔ RestoreDue s saved (pre ++ [x])) :
    loopAfter c s saved used (pre ++ [x]) =
      { state :=
          { start := if (predecessor saved pre).isSome then (loopAfter c s saved used pre).state.start
              else some x.1
            last := s.last
            counter := if c.key = none then (loopAfter c s saved used pre).state.counter
              else (loopAfter c s saved used pre).state.counter + sold [x]
            needRestore := nr
            chainNext := if truthy (loopAfter c s saved used pre).state.chainNext then none
              else (loopAfter c s saved used pre).state.chainNext }
        used := (loopAfter c s saved used pre).used.add x.2.receiptId
        prev := some x.1
        prevObj := some x.2 } := by
  classical
  have e1 : (decide (RestoreDue s saved (pre ++ [x]))) = nr := by
    cases nr <;> simp_all
  unfold loopAfter
  simp only [Loop.mk.injEq, RegState.mk.injEq]
  refine ⟨⟨?_, trivial, ?_, ?_, ?_⟩, ?_, ?_, ?_⟩
  · cases saved with
    | some y => simp [predecessor]
    | none =>
      rcases pre with _ | ⟨z, pre⟩
      · simp [predecessor]
      · have : (predecessor none (z :: pre)).isSome = true := by simp [predecessor]
        rw [this]
        simp
  · by_cases hk : c.key = none
    · simp [hk]
    · simp only [hk, if_false, sold_append]; ring
  · convert e1
  · rcases hc : s.chainNext with _ | _ | ⟨a, v⟩
    · simp [truthy]
    · simp [truthy]
    · by_cases hp : pre = [] <;> simp [hp, truthy]
  · simp [addAll]
  · simp
  · simp [predecessor]

theorem stepGroup_iff {c : GroupCtx} (hv : c.verifier.cert ≠ none ∨ c.verifier.keyStore ≠ none)
    {s : RegState} {saved : Option Entry} (hs : Saved s saved) {used : Used} {pre : List Entry}
    (hpre : ∀ x ∈ pre, x.Valid) {b : Bytes} {l' : Loop} :
    stepGroup c (loopAfter c s saved used pre) b = .ok l' ↔
      ∃ x : Entry, b = utf8Enc x.1 ∧ x.Valid ∧ Rules c s saved used pre x ∧
        l' = loopAfter c s saved used (pre ++ [x]) := by
  set l := loopAfter c s saved used pre with hl
  have hnr : l.state.needRestore = false ↔ ¬RestoreDue s saved pre := by simp [hl, loopAfter]
  have hct : ∀ x : Entry, checkCounter c.key l.state.counter x.2 =
      .ok (if c.key = none then l.state.counter else l.state.counter + sold [x]) ↔
      (∀ k, c.key = some k → ¬Training x.2 → k.length = 32 ∧ (∃ n, x.2.turnover = .ok n) ∧
        (¬Reversal x.2 → x.2.decryptTurnoverCounter k = .ok (s.counter + sold (pre ++ [x])))) := by
    intro x
    rw [checkCounter_iff]
    simp only [and_true]
    refine forall_congr' fun k => forall_congr' fun hk => ?_
    have : l.state.counter + sold [x] = s.counter + sold (pre ++ [x]) := by
      simp only [hl, loopAfter, hk, reduceCtorEq, if_false, sold_append]; ring
    rw [this]
  unfold stepGroup
  cases hp : predecessor saved pre with
  | some y =>
    obtain ⟨hy, hprev⟩ := predecessor_valid hs hpre hp
    have hpo : l.prevObj = some y.2 := by simp [hl, loopAfter, hp]
    have hpv : l.prev = some y.1 := hprev
    have hbef := fun z => before_iff_some (ps := c.prevStart) hp z
    simp only [hpo, hpv, reference, Res.ok_bind]
    simp only [Res.bind_eq_ok, ensure_eq_ok, expandReceipt_iff]
    have hch := fun r x => expectedChain_iff (s := s) (pre := pre) (prev := some y.1) (r := r)
      (o := some y) (fun z hz => by cases hz; exact ⟨hy.ne_nil, rfl⟩) (fun h => by cases h) x
    have hcn : l.state.chainNext = if pre = [] ∨ s.chainNext = some [] then s.chainNext else none := rfl
    constructor
    · rintro ⟨t, rfl, ⟨r, nr⟩, hsig, _, hprv, _, hchain, n, hcount, h⟩
      obtain ⟨hval, hsig⟩ := (checkSigned_iff hv).mp hsig
      simp only [checkBefore] at hprv
      rw [checkPrevious_iff (x := (t, r)) hval hy] at hprv
      simp only at hchain
      rw [hcn, hch] at hchain
      have hn := (checkCounter_iff (x := (t, r))).mp hcount
      have hcnt := (hct (t, r)).mp (by rw [hcount, ← hn.2])
      refine ⟨(t, r), rfl, hval, ?_, ?_⟩
      · exact {
          auth := by
            rcases hsig with h | h
            · exact Or.inl h.1
            · exact Or.inr ⟨h.1, h.2.1⟩
          restore := by
            intro hd
            have hnf : ¬l.state.needRestore = false := by rw [hnr]; exact not_not.mpr hd
            rcases hsig with h | h
            · exact ⟨h.1.1, by_contra fun hc => hnf (h.2.1 (by simp) hc)⟩
            · exact absurd h.2.2.2.1 hnf
          initial := by rw [hp]; simp
          same := by
            intro z hz
            rw [hbef] at hz; subst hz
            exact hprv.2
          fresh := fun _ => check_addAll.mp hprv.1
          chainOverride := hchain.1
          chainBefore := fun hno z hz => hchain.2.1 hno z (by rw [hbef] at hz; rw [hz])
          chainFirst := fun _ h => absurd ⟨y, (hbef y).mpr rfl⟩ h
          counter := hcnt }
      · have hdue : nr = true ↔ RestoreDue s saved (pre ++ [(t, r)]) := by
          rw [restoreDue_snoc]
          rcases hsig with h | h
          · rw [h.2.2, hp]
            constructor
            · rintro ⟨h1, q, hq, hu⟩
              cases hq
              exact ⟨h.1.1, h1, y, rfl, hu⟩
            · rintro ⟨_, h1, q, hq, hu⟩
              cases hq
              exact ⟨h1, y.2, rfl, hu⟩
          · rw [h.2.2.2.2]
            simp [h.1]
        rw [loopAfter_snoc hdue, ← hl]
        simp only [Except.ok.injEq] at h
        rw [← h, hp]
        simp only [Option.isSome_some, if_true, hn.2]
        rfl
    · rintro ⟨⟨t, r⟩, rfl, hval, hR, rfl⟩
      obtain ⟨nr, hdue⟩ : ∃ nr : Bool, nr = true ↔ RestoreDue s saved (pre ++ [(t, r)]) := by
        classical
        exact ⟨decide (RestoreDue s saved (pre ++ [(t, r)])), by simp⟩
      refine ⟨t, rfl, (r, nr), ?_, (), ?_, (), ?_, _, (hct (t, r)).mpr hR.counter, ?_⟩
      · rw [checkSigned_iff hv]
        refine ⟨hval, ?_⟩
        rcases hR.auth with h | h
        · refine Or.inl ⟨h, ?_, ?_⟩
          · intro _ hn
            rw [hnr]
            exact fun hd => hn (hR.restore hd).2
          · rw [hdue, restoreDue_snoc, hp]
            constructor
            · rintro ⟨_, h1, q, hq, hu⟩
              cases hq
              exact ⟨h1, y.2, rfl, hu⟩
            · rintro ⟨h1, q, hq, hu⟩
              cases hq
              exact ⟨h.1, h1, y, rfl, hu⟩
        · refine Or.inr ⟨h.1, h.2, by simp, ?_, ?_⟩
          · rw [hnr]
            exact fun hd => (hR.restore hd).1 h.1
          · have : ¬nr = true := by
              rw [hdue, restoreDue_snoc]
              exact fun hh => hh.1 h.1
            simpa using this
      · simp only [checkBefore]
        rw [checkPrevious_iff (x := (t, r)) hval hy]
        exact ⟨check_addAll.mpr (hR.fresh ⟨y, (hbef y).mpr rfl⟩), hR.same y ((hbef y).mpr rfl)⟩
      · rw [hcn, hch]
        exact ⟨hR.chainOverride, fun hno z hz => hR.chainBefore hno z ((hbef z).mpr (by cases hz; rfl)),
          fun _ h => by cases h⟩
      · rw [loopAfter_snoc hdue, ← hl, hp]
        simp only [Option.isSome_some, if_true]
        rfl
  | none =>
    have hnil : pre = [] ∧ saved = none := by
      unfold predecessor at hp
      rw [Option.or_eq_none_iff, List.getLast?_eq_none_iff] at hp
      exact hp
    obtain ⟨rfl, rfl⟩ := hnil
    have hlast : s.last = none ∨ s.last = some [] := by cases hs with | none h => exact h
    have hpo : l.prevObj = none := rfl
    have hpv : l.prev = s.last := by simp [hl, loopAfter]
    have hbef := fun z => before_iff_none (ps := c.prevStart) hp z
    simp only [hpo, hpv, reference]
    simp only [Res.bind_eq_ok, ensure_eq_ok, expandReceipt_iff]
    have hcn : l.state.chainNext = if ([] : List Entry) = [] ∨ s.chainNext = some [] then s.chainNext else none := rfl
    constructor
    · rintro ⟨t, rfl, ⟨r, nr⟩, hsig, ⟨prev, po⟩, hini, _, hprv, _, hchain, n, hcount, h⟩
      obtain ⟨hval, hsig⟩ := (checkSigned_iff hv).mp hsig
      have hsig : (¬Unsigned r ∧ ∃ k, KeyFor c.verifier r k ∧ SignatureValid r k) ∧ nr = false := by
        rcases hsig with h | h
        · refine ⟨h.1, ?_⟩
          have := h.2.2
          simpa using this
        · exact absurd rfl h.2.2.1
      rw [checkInitial_iff (t := t) hval] at hini
      have hn := (checkCounter_iff (x := (t, r))).mp hcount
      have hcnt := (hct (t, r)).mp (by rw [hcount, ← hn.2])
      have hdue : nr = true ↔ RestoreDue s none ([] ++ [(t, r)]) := by
        rw [restoreDue_snoc, hsig.2]
        simp [predecessor]
      have hfin : l' = loopAfter c s none used ([] ++ [(t, r)]) := by
        rw [loopAfter_snoc hdue, ← hl]
        simp only [Except.ok.injEq] at h
        rw [← h, hp]
        simp only [Option.isSome_none, Bool.false_eq_true, if_false, hn.2]
        rfl
      rcases hini with ⟨hnull, ⟨hf, rfl, rfl⟩ | ⟨t', p, hps, ht', hz, hp', hz', rfl, rfl⟩⟩
      · have hno : ∀ z, ¬Before c.prevStart none [] z := by
          intro z hz
          rw [hbef] at hz
          have : truthy c.prevStart = true := truthy_iff.mpr ⟨_, hz.1, hz.2.1⟩
          rw [hf] at this; cases this
        simp only at hchain
        rw [hcn, expectedChain_iff (o := none) (fun _ h => by cases h) (fun _ => hlast)] at hchain
        refine ⟨(t, r), rfl, hval, ?_, hfin⟩
        exact {
          auth := Or.inl hsig.1
          restore := fun _ => ⟨hsig.1.1, hnull⟩
          initial := by
            refine fun _ => ⟨hsig.1.1, hnull, ?_⟩
            intro t' h1 h2
            have : truthy c.prevStart = true := truthy_iff.mpr ⟨_, h1, h2⟩
            rw [hf] at this; cases this
          same := fun z hz => absurd hz (hno z)
          fresh := fun ⟨z, hz⟩ => absurd hz (hno z)
          chainOverride := hchain.1
          chainBefore := fun _ z hz => absurd hz (hno z)
          chainFirst := fun h _ => hchain.2.2 h rfl
          counter := hcnt }
      · have hb : ∀ z, Before c.prevStart none [] z ↔ z = (t', p) := by
          intro z
          rw [hbef, hps]
          constructor
          · rintro ⟨h1, -, h2⟩
            cases h1
            have h2 : fromJWS z.1 = .ok (z.2, c!"R1") := h2
            have hp' : fromJWS z.1 = .ok (p, c!"R1") := hp'
            rw [hp'] at h2
            cases h2
            rfl
          · rintro rfl; exact ⟨rfl, ht', hp'⟩
        simp only [checkBefore] at hprv
        rw [checkPrevious_iff (x := (t, r)) (y := (t', p)) hval hp'] at hprv
        simp only at hchain
        rw [hcn, expectedChain_iff (o := some (t', p)) (fun _ h => by cases h; exact ⟨ht', rfl⟩)
          (fun h => by cases h)] at hchain
        refine ⟨(t, r), rfl, hval, ?_, hfin⟩
        exact {
          auth := Or.inl hsig.1
          restore := fun _ => ⟨hsig.1.1, hnull⟩
          initial := by
            refine fun _ => ⟨hsig.1.1, hnull, ?_⟩
            intro t'' h1 h2
            rw [hps] at h1
            cases h1
            exact ⟨hz, p, hp', hz'⟩
          same := fun z hz => by rw [hb] at hz; subst hz; exact hprv.2
          fresh := fun _ => check_addAll.mp hprv.1
          chainOverride := hchain.1
          chainBefore := fun h z hz => by rw [hb] at hz; subst hz; exact hchain.2.1 h _ rfl
          chainFirst := fun _ h => absurd ⟨_, (hb _).mpr rfl⟩ h
          counter := hcnt }
    · rintro ⟨⟨t, r⟩, rfl, hval, hR, rfl⟩
      obtain ⟨hu, hnull, hcl⟩ := hR.initial hp
      have hauth : ¬Unsigned r ∧ ∃ k, KeyFor c.verifier r k ∧ SignatureValid r k := by
        rcases hR.auth with h | h
        · exact h
        · exact absurd h.1 hu
      have hdue : false = true ↔ RestoreDue s none ([] ++ [(t, r)]) := by
        rw [restoreDue_snoc]
        simp [predecessor]
      have hsg : checkSigned c.verifier l.state.needRestore none t = .ok (r, false) := by
        rw [checkSigned_iff hv]
        exact ⟨hval, Or.inl ⟨hauth, by simp, by simp⟩⟩
      by_cases hf : truthy c.prevStart = true
      · obtain ⟨t', hps, ht'⟩ := truthy_iff.mp hf
        obtain ⟨hz, p, hp', hz'⟩ := hcl t' hps ht'
        have hb : Before c.prevStart none [] (t', p) := (hbef _).mpr ⟨hps, ht', hp'⟩
        refine ⟨t, rfl, (r, false), hsg, (some t', some p), ?_, (), ?_, (), ?_, _,
          (hct (t, r)).mpr hR.counter, ?_⟩
        · exact (checkInitial_iff (t := t) hval).mpr ⟨hnull, Or.inr ⟨t', p, hps, ht', hz, hp', hz', rfl, rfl⟩⟩
        · exact (checkPrevious_iff (x := (t, r)) (y := (t', p)) hval hp').mpr
            ⟨check_addAll.mpr (hR.fresh ⟨_, hb⟩), hR.same _ hb⟩
        · simp only
          rw [hcn, expectedChain_iff (o := some (t', p)) (fun _ h => by cases h; exact ⟨ht', rfl⟩)
            (fun h => by cases h)]
          exact ⟨hR.chainOverride, fun h z hz => by cases hz; exact hR.chainBefore h _ hb,
            fun _ h => by cases h⟩
        · rw [loopAfter_snoc hdue, ← hl, hp]
          simp only [Option.isSome_none, Bool.false_eq_true, if_false]
          rfl
      · have hno : ¬∃ z, Before c.prevStart none [] z := by
          rintro ⟨z, hz⟩
          rw [hbef] at hz
          exact hf (truthy_iff.mpr ⟨_, hz.1, hz.2.1⟩)
        refine ⟨t, rfl, (r, false), hsg, (s.last, none), ?_, (), rfl, (), ?_, _,
          (hct (t, r)).mpr hR.counter, ?_⟩
        · exact (checkInitial_iff (t := t) hval).mpr ⟨hnull, Or.inl ⟨by simpa using hf, rfl, rfl⟩⟩
        · simp only
          rw [hcn, expectedChain_iff (o := none) (fun _ h => by cases h) (fun _ => hlast)]
          exact ⟨hR.chainOverride, (fun _ z hz => by cases hz), fun h _ => hR.chainFirst h hno⟩
        · rw [loopAfter_snoc hdue, ← hl, hp]
          simp only [Option.isSome_none, Bool.false_eq_true, if_false]
          rfl

/-- The loop accepts exactly the groups all of whose receipts obey the rules. -/
theorem runGroup_iff {c : GroupCtx} (hv : c.verifier.cert ≠ none ∨ c.verifier.keyStore ≠ none)
    {s : RegState} {saved : Option Entry} (hs : Saved s saved) {used : Used} {pre : List Entry}
    (hpre : ∀ x ∈ pre, x.Valid) {g : List Bytes} {l' : Loop} :
    runGroup c (loopAfter c s saved used pre) g = .ok l' ↔
      ∃ h, Reads g h ∧ (∀ a x b, h = a ++ x :: b → Rules c s saved used (pre ++ a) x) ∧
        l' = loopAfter c s saved used (pre ++ h) := by
  induction g generalizing pre with
  | nil =>
    simp only [runGroup, Except.ok.injEq]
    constructor
    · rintro rfl
      exact ⟨[], ⟨rfl, by simp⟩, by simp, by simp⟩
    · rintro ⟨h, ⟨hm, -⟩, -, rfl⟩
      have : h = [] := by simpa using hm
      rw [this, List.append_nil]
  | cons b g ih =>
    simp only [runGroup, Res.bind_eq_ok]
    constructor
    · rintro ⟨l, h1, h2⟩
      obtain ⟨x, rfl, hx, hR, rfl⟩ := (stepGroup_iff hv hs hpre).mp h1
      have hpre' : ∀ z ∈ pre ++ [x], z.Valid := by
        intro z hz
        rw [List.mem_append, List.mem_singleton] at hz
        rcases hz with hz | rfl
        · exact hpre z hz
        · exact hx
      obtain ⟨h, ⟨hm, hval⟩, hall, rfl⟩ := (ih hpre').mp h2
      refine ⟨x :: h, ⟨by simp [hm], ?_⟩, ?_, by simp⟩
      · intro z hz
        rcases List.mem_cons.mp hz with rfl | hz
        · exact hx
        · exact hval z hz
      · intro a y bb e
        cases a with
        | nil => cases e; simpa using hR
        | cons a0 a =>
          simp only [List.cons_append, List.cons.injEq] at e
          obtain ⟨rfl, e⟩ := e
          have := hall a y bb e
          simpa using this
    · rintro ⟨h, ⟨hm, hval⟩, hall, rfl⟩
      cases h with
      | nil => cases hm
      | cons x h =>
        simp only [List.map_cons, List.cons.injEq] at hm
        obtain ⟨rfl, rfl⟩ := hm
        have hx : x.Valid := hval x (by simp)
        have hpre' : ∀ z ∈ pre ++ [x], z.Valid := by
          intro z hz
          rw [List.mem_append, List.mem_singleton] at hz
          rcases hz with hz | rfl
          · exact hpre z hz
          · exact hx
        refine ⟨_, (stepGroup_iff hv hs hpre).mpr ⟨x, rfl, hx, by simpa using hall [] x h rfl, rfl⟩, ?_⟩
        refine (ih hpre').mpr ⟨h, ⟨rfl, fun z hz => hval z (by simp [hz])⟩, ?_, by simp⟩
        intro a y bb e
        have := hall (x :: a) y bb (by rw [e]; rfl)
        simpa using this

theorem loadLast_iff {s : RegState} {o : Option Receipt} :
    loadLast s.last = .ok o ↔ ∃ saved, Saved s saved ∧ o = saved.map (·.2) := by
  unfold loadLast
  rcases hl : s.last with _ | _ | ⟨a, t⟩
  · simp only [Except.ok.injEq]
    constructor
    · rintro rfl; exact ⟨none, .none (Or.inl hl), rfl⟩
    · rintro ⟨sv, h, rfl⟩
      cases h with
      | none => rfl
      | some x hs hn => rw [hl] at hs; cases hs
  · simp only [Except.ok.injEq]
    constructor
    · rintro rfl; exact ⟨none, .none (Or.inr hl), rfl⟩
    · rintro ⟨sv, h, rfl⟩
      cases h with
      | none => rfl
      | some x hs hn => rw [hl] at hs; exact absurd (Option.some.inj hs).symm hn
  · simp only
    constructor
    · intro h
      cases hj : fromJWS (a :: t) with
      | error e => rw [hj] at h; cases h
      | ok p =>
        obtain ⟨r, alg⟩ := p
        rw [hj] at h
        cases h
        exact ⟨some (a :: t, r), .some _ hl (by simp) (fromJWS_R1 hj), rfl⟩
    · rintro ⟨sv, h, rfl⟩
      cases h with
      | none h => rw [hl] at h; simp at h
      | some x hs hn hx =>
        rw [hl] at hs
        obtain ⟨x1, x2⟩ := x
        cases hs
        have hx : fromJWS (a :: t) = .ok (x2, c!"R1") := hx
        rw [hx]
        rfl

theorem loopAfter_nil {c : GroupCtx} {s : RegState} {saved : Option Entry} {used : Used} :
    loopAfter c s saved used [] =
      { state := s, used, prev := s.last, prevObj := saved.map (·.2) } := by
  have : RestoreDue s saved [] ↔ s.needRestore = true := by
    constructor
    · intro h
      generalize e : ([] : List Entry) = l at h
      cases h with
      | saved h => exact h
      | late => simp at e
    · exact .saved
  unfold loopAfter
  simp only [Loop.mk.injEq]
  refine ⟨?_, rfl, rfl, rfl⟩
  obtain ⟨a, b, cc, d, e⟩ := s
  simp only [RegState.mk.injEq]
  refine ⟨by simp, trivial, by simp [sold], ?_, by simp⟩
  simp only at this
  cases d <;> simp [this]

end

end RKSV
