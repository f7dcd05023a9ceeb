import Verif.Lemmas.Arbitrary
import Verif.Props.Cluster
/-
Properties C42 and C43: verification of a part of a history, starting from any receipt.
-/
namespace RKSV

section
variable [PyEnv]

/-- The receipt made up as the predecessor. -/
theorem dummy_receipt {t : Str} {r : Receipt} (hv : Entry.Valid (t, r)) {key : Option Bytes} {tc : Int}
    (htc : counterBefore r key = .ok tc) (used : Used) : ∃ d : Receipt, Entry.Valid (d.toJWS R1, d) ∧
      d.registerId = r.registerId ∧ d.zda = r.zda ∧ d.dateTime = r.dateTime ∧ ¬Unsigned d ∧
      Cluster.fromArbitraryReceipt r R1 key used =
        .ok ⟨[{ last := some (d.toJWS R1), counter := tc, chainNext := some r.previousChain }], used⟩ := by
  have hp := hv.parsed
  obtain ⟨g, -⟩ := hp.good
  obtain ⟨h1, h2, h3, h4, h5, ⟨h6, -⟩, h7, h8, h9⟩ := parsed_well_formed_partial hp
  have hz : (digitVal '0').isSome := by rw [PyEnv.digitVal_ascii (by decide)]; decide
  have hsum : UpToNewline SumForm c!"0,00" := .inl (.inl (.short '0' '0' '0' hz hz hz))
  obtain ⟨d, hd, hf⟩ := well_formed_constructible ⟨r.zda, r.registerId, c!"dummyrec", r.dateTimeStr,
    c!"0,00", c!"0,00", c!"0,00", c!"0,00", c!"0,00", c!"DUMMY000", r.certSerial,
    b64Encode false (utf8Enc c!"DUMMY000")⟩ h1 h2 (by simp) (by simp only; decide) h5 (by simp only; rw [h6]; rfl)
    (by
      intro s hs
      simp only [List.mem_cons, List.not_mem_nil, or_false, or_self] at hs
      subst hs
      exact hsum)
    (by simp only; rw [b64Decode_encode]; rfl) h9
    (by
      simp only
      exact ⟨(b64Decode false c!"DUMMY000").getD [], by decide, .inr (.inl (by decide))⟩)
  have hi := init_eq_ok.mp hd
  have hs : d.sign jwsHeader c!"DUMMY000" = .ok ⟨d, jwsHeader, c!"DUMMY000"⟩ :=
    sign_eq_ok.mpr ⟨by decide, by decide, rfl⟩
  have hgood : Good ⟨d, jwsHeader, c!"DUMMY000"⟩ := by
    refine ⟨?_, by simp only; decide, by simp only; decide, rfl, ?_, ?_, ?_⟩
    · show InitOk d.toFields d
      rw [hf]; exact hi
    · show '_' ∉ d.toFields.certSerial
      rw [hf]; exact g.serial
    · show removeChar '=' d.toFields.encTurnoverCounter ≠ []
      rw [hf]; simp only; decide
    · refine ⟨utf8Enc c!"DUMMY000", ?_, by decide⟩
      show b64Decode false d.toFields.previousChain = _
      rw [hf]
      exact b64Decode_encode _ _
  have hjws := fromJWS_toJWS hgood
  refine ⟨⟨d, jwsHeader, c!"DUMMY000"⟩, hjws, ?_, ?_, ?_, ?_, ?_⟩
  · show d.toFields.registerId = _
    rw [hf]
  · show d.toFields.zda = _
    rw [hf]
  · have a := hi.dateTime
    have b := g.init.dateTime
    simp only at a
    rw [b] at a
    exact (Option.some.inj a).symm
  · show c!"DUMMY000" ≠ failureMark
    decide
  · have hne : truthy (some (Receipt.toJWS ⟨d, jwsHeader, c!"DUMMY000"⟩ R1)) = true := by
      have := Entry.Valid.ne_nil (x := (Receipt.toJWS ⟨d, jwsHeader, c!"DUMMY000"⟩ R1, ⟨d, jwsHeader, c!"DUMMY000"⟩)) hjws
      exact truthy_text.mpr ⟨_, rfl, this⟩
    unfold Cluster.fromArbitraryReceipt
    simp only [ensure_pos (show knownAlg R1 from rfl), Res.ok_bind, htc, hd, hs, Cluster.init, hne,
      true_or, if_true]

/-- The first receipt of a group, apart from the rest. -/
theorem first_receipt {key : Option Bytes} {ps : Option Str} {s s' : RegState} {used used' : Used}
    {b : Bytes} {g : List Bytes} {v : Verifier} {P : List (List Bytes × Verifier)} :
    verifyGroups key ps s used ((b :: g, v) :: P) = .ok (s', used') ↔
      ∃ s₁ u₁, verifyGroup ⟨v, key, ps⟩ s used [b] = .ok (s₁, u₁) ∧
        verifyGroups key ps s₁ u₁ ((g, v) :: P) = .ok (s', used') := by
  have : b :: g = [b] ++ g := rfl
  simp only [verifyGroups]
  rw [this, group_split]
  simp only [Res.bind_eq_ok]
  constructor
  · rintro ⟨x, ⟨⟨s1, u1⟩, h1, h2⟩, h3⟩
    exact ⟨s1, u1, h1, x, h2, h3⟩
  · rintro ⟨s1, u1, h1, x, h2, h3⟩
    exact ⟨x, ⟨(s1, u1), h1, h2⟩, h3⟩

/-- The counter before the first receipt. -/
theorem counterBefore_ok {c : GroupCtx} {s : RegState} {saved : Option Entry} {used : Used} {x : Entry}
    (r : Rules c s saved used [] x) (hstd : c.key ≠ none → ¬Training x.2 ∧ ¬Reversal x.2) :
    ∃ tc, counterBefore x.2 c.key = .ok tc ∧ (c.key ≠ none → tc = s.counter) := by
  cases hk : c.key with
  | none => exact ⟨0, rfl, fun h => absurd rfl h⟩
  | some k =>
    obtain ⟨ht, hrv⟩ := hstd (by rw [hk]; simp)
    obtain ⟨hl, ⟨n, hn⟩, hd⟩ := r.counter k hk ht
    have hd := hd hrv
    cases k with
    | nil => simp at hl
    | cons k0 k =>
      refine ⟨s.counter, ?_, fun _ => rfl⟩
      have hs : sold ([] ++ [x]) = n := by simp [sold, ht, hn]
      unfold counterBefore
      rw [training_iff] at ht
      rw [reversal_iff] at hrv
      simp only [ht, hrv, hd, hn, hs, Res.ok_bind]
      simp

theorem valid_chain_ne_nil {x : Entry} (h : x.Valid) : x.2.previousChain ≠ [] := by
  obtain ⟨cv, hcv, hl⟩ := h.parsed.good.1.chain
  intro e
  rw [e] at hcv
  have : b64Decode false [] = some [] := by decide
  rw [this] at hcv
  cases hcv
  cases hl

/-- The first receipt is accepted from the made-up state. -/
theorem arbitrary_first {c : GroupCtx} (hv : c.verifier.cert ≠ none ∨ c.verifier.keyStore ≠ none)
    {s s₁ : RegState} {used u₁ : Used} {x : Entry} (hx : x.Valid)
    (hstd : c.key ≠ none → ¬Training x.2 ∧ ¬Reversal x.2)
    (ok : verifyGroup c s used.fresh [utf8Enc x.1] = .ok (s₁, u₁)) (ps : Option Str) :
    ∃ s₀ t₁, Cluster.fromArbitraryReceipt x.2 R1 c.key used.fresh = .ok ⟨[s₀], used.fresh⟩ ∧
      verifyGroup { c with prevStart := ps } s₀ used.fresh [utf8Enc x.1] = .ok (t₁, u₁) ∧
      Weaker c.key s₁ t₁ ∧ t₁.needRestore = false := by
  obtain ⟨saved, es, hs, hr, hall, ha, hu⟩ := (group_accepted_iff hv).mp ok
  have hes : es = [x] := reads_unique hr ⟨rfl, by simpa using hx⟩
  subst hes
  have r := hall [] x [] rfl
  obtain ⟨tc, htc, htc'⟩ := counterBefore_ok r hstd
  obtain ⟨d, hd, hd1, hd2, hd3, hd4, hc⟩ := dummy_receipt (t := x.1) hx htc used.fresh
  have hdn := hd.ne_nil
  have hchain := valid_chain_ne_nil hx
  let s₀ : RegState := { last := some (d.toJWS R1), counter := tc, chainNext := some x.2.previousChain }
  let t₁ : RegState :=
    { last := some x.1, counter := if c.key = none then tc else tc + sold [x] }
  have hsaved : Saved s₀ (some (d.toJWS R1, d)) := .some _ rfl hdn hd
  have hover : Override s₀ [] x.2.previousChain := ⟨rfl, rfl, hchain⟩
  have hnd : ¬RestoreDue s₀ (some (d.toJWS R1, d)) [x] := by
    intro h
    generalize hl : [x] = l at h
    cases h with
    | saved h => cases hl
    | late pre p y hp hu' hs' hn =>
      have : pre = [] := by
        rcases pre with _ | ⟨a, pre⟩
        · rfl
        · simp at hl
      subst this
      simp only [predecessor, List.getLast?_nil, Option.none_or, Option.some.injEq] at hp
      subst hp
      exact hd4 hu'
  refine ⟨s₀, t₁, hc, (group_accepted_iff (c := { c with prevStart := ps }) hv).mpr
    ⟨some (d.toJWS R1, d), [x], hsaved, hr, ?_, ?_, hu⟩, ?_, rfl⟩
  · intro pre y post e
    have : pre = [] ∧ y = x ∧ post = [] := by
      rcases pre with _ | ⟨a, pre⟩
      · simp at e; exact ⟨rfl, e.1.symm, e.2⟩
      · simp at e
    obtain ⟨rfl, rfl, rfl⟩ := this
    exact
      { auth := r.auth
        restore := by
          intro h
          generalize hl : ([] : List Entry) = l at h
          cases h with
          | saved h => cases h
          | late pre => simp at hl
        initial := fun h => by simp [predecessor] at h
        same := by
          intro z hz
          cases hz with
          | previous h =>
            simp only [predecessor, List.getLast?_nil, Option.none_or, Option.some.injEq] at h
            subst h
            refine ⟨hd1, by simp only [hd2], ?_⟩
            simp only [hd3, Earlier]
            omega
          | cluster h => simp [predecessor] at h
        fresh := by
          intro _
          cases used <;> simp [Used.fresh, FreshId]
        chainOverride := by
          rintro w ⟨-, hw, -⟩
          exact Option.some.inj hw
        chainBefore := fun h => absurd ⟨_, hover⟩ h
        chainFirst := fun h => absurd ⟨_, hover⟩ h
        counter := by
          intro k hk ht
          have h0 := r.counter k hk ht
          have : tc = s.counter := htc' (by rw [hk]; simp)
          simp only [s₀, this]
          exact h0 }
  · refine ⟨rfl, by simp [t₁, s₀], rfl, ?_, ?_⟩
    · simp only [t₁, Bool.false_eq_true, false_iff]
      exact hnd
    · simp [t₁, s₀, hchain]
  · refine ⟨?_, ?_, ?_, by simp [t₁], ?_⟩
    · rw [ha.last]
      simp [Blank, hx.ne_nil]
    · rw [ha.last]; rfl
    · intro hk
      rw [ha.counter]
      simp only [hk, if_false, t₁, htc' hk]
    · intro w hw
      rw [ha.chainNext]
      simp only [t₁, reduceCtorEq, iff_false]
      split
      · rename_i h
        rcases h with h | h
        · cases h
        · rw [h]; intro q; cases q; exact hw rfl
      · simp

/-- C42: an accepted history whose first receipt is a standard receipt is also accepted from the state
made up from that receipt, with the same counter and last receipt in the end, and, if there is more
than this one receipt, the same demand for a restore receipt.  Without the key any first receipt will
do, but then the counter is not known. -/
theorem arbitrary_receipt {key : Option Bytes} {ps ps' : Option Str} {s s' : RegState} {used used' : Used}
    {t : Str} {r : Receipt} {g : List Bytes} {v : Verifier} {P : List (List Bytes × Verifier)}
    (hP : Able ((utf8Enc t :: g, v) :: P)) (hx : Entry.Valid (t, r))
    (hstd : key ≠ none → ¬Training r ∧ ¬Reversal r)
    (ok : verifyGroups key ps s used ((utf8Enc t :: g, v) :: P) = .ok (s', used')) :
    ∃ s₀ s₁ u₁, Cluster.fromArbitraryReceipt r c!"R1" key used.fresh = .ok ⟨[s₀], used.fresh⟩ ∧
      verifyGroups key ps' s₀ used.fresh ((utf8Enc t :: g, v) :: P) = .ok (s₁, u₁) ∧
      s₁.last = s'.last ∧ (key ≠ none → s₁.counter = s'.counter) ∧
      (s₁.needRestore = true → s'.needRestore = true) ∧
      ((g ≠ [] ∨ ∃ p ∈ P, p.1 ≠ []) → s₁.needRestore = s'.needRestore) := by
  obtain ⟨es, hr, -, hc, -, hany⟩ := groups_used hP ok
  have ok' := hany used.fresh ((checked_fresh_true (checked_fresh hc)).weaken fun _ => trivial)
  rw [first_receipt] at ok'
  obtain ⟨s1, u1, h1, h2⟩ := ok'
  have hv := hP _ List.mem_cons_self
  obtain ⟨s₀, t₁, k1, k2, k3, -⟩ := arbitrary_first (c := ⟨v, key, ps⟩) (x := (t, r)) hv hx hstd h1 ps'
  have hP' : Able ((g, v) :: P) := by
    intro p hp
    rcases List.mem_cons.mp hp with rfl | hp
    · exact hv
    · exact hP p (List.mem_cons_of_mem _ hp)
  obtain ⟨t', m1, m2, -, -, m3, -⟩ := weaker_groups (ps' := ps') hP' k3 h2
  refine ⟨s₀, t', _, k1, first_receipt.mpr ⟨t₁, u1, k2, m1⟩, m2.last.symm, fun hk => (m2.counter hk).symm,
    m2.needRestore, ?_⟩
  rintro (hg | ⟨p, hp, hne⟩)
  · exact m3 ⟨(g, v), by simp, hg⟩
  · exact m3 ⟨p, by simp [hp], hne⟩

/-! ### C43 -/

/-- Once a register has a last receipt the previous register does not matter. -/
theorem previous_register {key : Option Bytes} {ps ps' : Option Str} {P : List (List Bytes × Verifier)}
    (hP : Able P) {s s' : RegState} (hs : ¬Blank s.last) {used used' : Used}
    (ok : verifyGroups key ps s used P = .ok (s', used')) :
    verifyGroups key ps' s used P = .ok (s', used') := by
  induction P generalizing s used with
  | nil => exact ok
  | cons p P ih =>
    obtain ⟨g, v⟩ := p
    simp only [verifyGroups, Res.bind_eq_ok] at ok ⊢
    obtain ⟨⟨s1, u1⟩, h1, h2⟩ := ok
    have hv := hP (g, v) (by simp)
    obtain ⟨saved, es, hsv, hr, hall, ha, hu⟩ := (group_accepted_iff (c := ⟨v, key, ps⟩) hv).mp h1
    obtain ⟨x, rfl⟩ : ∃ x, saved = some x := by
      cases hsv with
      | none hb => exact absurd hb hs
      | some x => exact ⟨x, rfl⟩
    refine ⟨(s1, u1), (group_accepted_iff (c := ⟨v, key, ps'⟩) hv).mpr ⟨some x, es, hsv, hr, ?_,
      ⟨ha.last, ha.start, ha.counter, ha.needRestore, ha.chainNext⟩, hu⟩,
      ih (fun q hq => hP q (by simp [hq])) ?_ h2⟩
    · intro pre y post e
      have r := hall pre y post e
      exact
        { auth := r.auth
          restore := r.restore
          initial := fun h => by simp [predecessor] at h
          same := fun z hz => r.same z (before_ps.mp hz)
          fresh := fun ⟨z, hz⟩ => r.fresh ⟨z, before_ps.mp hz⟩
          chainOverride := r.chainOverride
          chainBefore := fun hn z hz => r.chainBefore hn z (before_ps.mp hz)
          chainFirst := fun hn hb => r.chainFirst hn (fun ⟨z, hz⟩ => hb ⟨z, before_ps.mp hz⟩)
          counter := r.counter }
    · rw [ha.last]
      cases hz : es.getLast? with
      | none => simpa using hs
      | some z =>
        have := (hr.2 z (List.mem_of_getLast? hz)).ne_nil
        simp [Blank, this]

/-- The first receipt is accepted from the made-up state. -/
theorem arbitrary_start_first {c : GroupCtx} (hv : c.verifier.cert ≠ none ∨ c.verifier.keyStore ≠ none)
    {s₁ : RegState} {used u₁ : Used} {x : Entry} (hx : x.Valid)
    (ok : verifyGroup c {} used.fresh [utf8Enc x.1] = .ok (s₁, u₁)) :
    verifyGroup { c with prevStart := none } { chainNext := some x.2.previousChain } used.fresh
      [utf8Enc x.1] = .ok (s₁, u₁) := by
  obtain ⟨saved, es, hs, hr, hall, ha, hu⟩ := (group_accepted_iff hv).mp ok
  have hes : es = [x] := reads_unique hr ⟨rfl, by simpa using hx⟩
  subst hes
  have hn : saved = none := saved_unique hs (.none (.inl rfl))
  subst hn
  have r := hall [] x [] rfl
  have hchain := valid_chain_ne_nil hx
  have due : ∀ (s : RegState) l, s.needRestore = false → l.length ≤ 1 → ¬RestoreDue s none l := by
    intro s l hs hl h
    cases h with
    | saved h => rw [hs] at h; cases h
    | late pre p y hp =>
      rw [List.length_append, List.length_singleton] at hl
      have : pre = [] := List.length_eq_zero_iff.mp (by omega)
      subst this
      simp [predecessor] at hp
  have hover : Override { chainNext := some x.2.previousChain } [] x.2.previousChain := ⟨rfl, rfl, hchain⟩
  refine (group_accepted_iff (c := { c with prevStart := none }) hv).mpr
    ⟨none, [x], .none (.inl rfl), hr, ?_, ?_, hu⟩
  · intro pre y post e
    have : pre = [] ∧ y = x ∧ post = [] := by
      rcases pre with _ | ⟨a, pre⟩
      · simp at e; exact ⟨rfl, e.1.symm, e.2⟩
      · simp at e
    obtain ⟨rfl, rfl, rfl⟩ := this
    have nb : ∀ z, ¬Before none none [] z := by
      intro z hz
      cases hz with
      | previous h => simp [predecessor] at h
      | cluster _ hp => cases hp
    exact
      { auth := r.auth
        restore := fun h => absurd h (due _ _ rfl (by simp))
        initial := fun h => ⟨(r.initial h).1, (r.initial h).2.1, fun t ht => by cases ht⟩
        same := fun z hz => absurd hz (nb z)
        fresh := fun ⟨z, hz⟩ => absurd hz (nb z)
        chainOverride := by
          rintro w ⟨-, hw, -⟩
          exact Option.some.inj hw
        chainBefore := fun h => absurd ⟨_, hover⟩ h
        chainFirst := fun h => absurd ⟨_, hover⟩ h
        counter := r.counter }
  · refine ⟨ha.last, ha.start, ha.counter, ?_, ?_⟩
    · rw [ha.needRestore]
      exact iff_of_false (due _ _ rfl (by simp)) (due _ _ rfl (by simp))
    · rw [ha.chainNext]
      simp [hchain]

/-- C43: a history accepted for a new register, of a cluster or not, is accepted from the state made up
from its first receipt, with the very same resulting register state. -/
theorem arbitrary_start_receipt {key : Option Bytes} {ps : Option Str} {s' : RegState} {used used' : Used}
    {t : Str} {r : Receipt} {g : List Bytes} {v : Verifier} {P : List (List Bytes × Verifier)}
    (hP : Able ((utf8Enc t :: g, v) :: P)) (hx : Entry.Valid (t, r))
    (ok : verifyGroups key ps {} used ((utf8Enc t :: g, v) :: P) = .ok (s', used')) :
    ∃ s₀ u₁, Cluster.fromArbitraryStartReceipt r used.fresh = ⟨[s₀], used.fresh⟩ ∧
      verifyGroups key none s₀ used.fresh ((utf8Enc t :: g, v) :: P) = .ok (s', u₁) := by
  obtain ⟨es, hr, -, hc, -, hany⟩ := groups_used hP ok
  have ok' := hany used.fresh ((checked_fresh_true (checked_fresh hc)).weaken fun _ => trivial)
  rw [first_receipt] at ok'
  obtain ⟨s1, u1, h1, h2⟩ := ok'
  have hv := hP _ List.mem_cons_self
  have k1 := arbitrary_start_first (c := ⟨v, key, ps⟩) (x := (t, r)) hv hx h1
  have hP' : Able ((g, v) :: P) := by
    intro p hp
    rcases List.mem_cons.mp hp with rfl | hp
    · exact hv
    · exact hP p (List.mem_cons_of_mem _ hp)
  have hl : ¬Blank s1.last := by
    obtain ⟨saved, es, -, hr, -, ha, -⟩ := (group_accepted_iff (c := ⟨v, key, ps⟩) hv).mp h1
    have hes : es = [(t, r)] := reads_unique hr ⟨rfl, by simpa using hx⟩
    rw [ha.last, hes]
    simp [Blank, hx.ne_nil]
  refine ⟨{ chainNext := some r.previousChain }, _, ?_,
    first_receipt.mpr ⟨s1, u1, k1, previous_register hP' hl h2⟩⟩
  have : truthy (some r.previousChain) = true := truthy_text.mpr ⟨_, rfl, valid_chain_ne_nil hx⟩
  simp [Cluster.fromArbitraryStartReceipt, Cluster.init, this]

/-! ### Whole DEPs -/

theorem packageOne_recs {ks : KeyStore} {g : DepGroup} {p : List Bytes × Verifier}
    (h : packageOne ks g = .ok p) : p.1 = g.recs := by
  obtain ⟨recs, cert, chain⟩ := g
  cases cert with
  | none => cases h; rfl
  | some c =>
    simp only [packageOne, Res.bind_eq_ok, Except.ok.injEq] at h
    obtain ⟨_, -, rfl⟩ := h
    rfl

/-- C42 for `verifyDEP`: the part of a history in an accepted DEP that starts with a standard receipt
can be verified on its own. -/
theorem arbitrary_dep {ks : KeyStore} {key : Option Bytes} {c c' : Cluster} {idx : Option Int}
    {dep : Stream} (ok : verifyDEP ks key c idx dep = (c', .ok ()))
    {t : Str} {r : Receipt} {g : List Bytes} {cert : Option Cert} {chain : List Cert} {gs : List DepGroup}
    (hdep : dep.chunks.flatten = ⟨utf8Enc t :: g, cert, chain⟩ :: gs) (hx : Entry.Valid (t, r))
    (hstd : key ≠ none → ¬Training r ∧ ¬Reversal r) :
    ∃ (c₀ c₁ : Cluster) (s' s₁ : RegState) (i : Nat),
      (idx = some (i : Int) ∨ idx = none ∧ i = c.regs.length) ∧ c'.regs[i]? = some s' ∧
      Cluster.fromArbitraryReceipt r c!"R1" key c.used.fresh = .ok c₀ ∧
      verifyDEP ks key c₀ (some 0) dep = (c₁, .ok ()) ∧ c₁.regs = [s₁] ∧
      s₁.last = s'.last ∧ (key ≠ none → s₁.counter = s'.counter) ∧
      (s₁.needRestore = true → s'.needRestore = true) ∧
      ((g ≠ [] ∨ ∃ p ∈ gs, p.recs ≠ []) → s₁.needRestore = s'.needRestore) := by
  obtain ⟨herr, c₂, ps, s, P, s', u', i, hinfo, hpk, hv, hi, hidx, rfl⟩ := verifyDEP_iff.mp ok
  have hpk' := hpk
  rw [hdep] at hpk'
  have hable := packageChunk_able hpk
  obtain ⟨hpack, hmap⟩ := packageChunk_iff.mp hpk'
  simp only [mapRes, Res.bind_eq_ok, Except.ok.injEq] at hmap
  obtain ⟨⟨b, v⟩, hb, Q, hQ, rfl⟩ := hmap
  have := packageOne_recs hb
  simp only at this
  subst this
  obtain ⟨s₀, s₁, u₁, k1, k2, k3, k4, k5, k6⟩ := arbitrary_receipt (ps' := none) hable hx hstd hv
  have hlt := (List.getElem?_eq_some_iff.mp hi).1
  refine ⟨_, ⟨[s₁], u₁⟩, s', s₁, i, hidx, by simp [hlt], k1, verifyDEP_iff.mpr ⟨herr, ⟨[s₀], _⟩, none, s₀, _,
    s₁, u₁, 0, .first s₀ rfl, hpk, k2, rfl, .inl rfl, rfl⟩, rfl, k3, k4, k5, ?_⟩
  rintro (hg | ⟨p, hp, hne⟩)
  · exact k6 (.inl hg)
  · refine k6 (.inr ?_)
    rw [mapRes_iff] at hQ
    obtain ⟨j, hj⟩ := List.mem_iff_getElem?.mp hp
    obtain ⟨hl, hall⟩ := List.forall₂_iff_get.mp hQ
    obtain ⟨hj1, rfl⟩ := List.getElem?_eq_some_iff.mp hj
    refine ⟨Q[j]'(by omega), List.getElem_mem _, ?_⟩
    have := packageOne_recs (hall j hj1 (by omega))
    simp only [List.get_eq_getElem] at this
    rw [this]
    exact hne

/-- C43 for `verifyDEP`: the register is a new one, or one without receipts. -/
theorem arbitrary_start_dep {ks : KeyStore} {key : Option Bytes} {c c' : Cluster} {idx : Option Int}
    {dep : Stream}
    (hnew : idx = none ∨ idx = some (c.regs.length : Int) ∨ ∃ j : Nat, idx = some (j : Int) ∧ c.regs[j]? = some {})
    (ok : verifyDEP ks key c idx dep = (c', .ok ()))
    {t : Str} {r : Receipt} {g : List Bytes} {cert : Option Cert} {chain : List Cert} {gs : List DepGroup}
    (hdep : dep.chunks.flatten = ⟨utf8Enc t :: g, cert, chain⟩ :: gs) (hx : Entry.Valid (t, r)) :
    ∃ (s' : RegState) (i : Nat) (u₁ : Used),
      (idx = some (i : Int) ∨ idx = none ∧ i = c.regs.length) ∧ c'.regs[i]? = some s' ∧
      verifyDEP ks key (Cluster.fromArbitraryStartReceipt r c.used.fresh) (some 0) dep =
        (⟨[s'], u₁⟩, .ok ()) := by
  obtain ⟨herr, c₂, ps, s, P, s', u', i, hinfo, hpk, hv, hi, hidx, rfl⟩ := verifyDEP_iff.mp ok
  have hs : s = {} := by
    cases hinfo with
    | new => rfl
    | first _ h =>
      rcases hnew with h' | h' | ⟨j, h', hj⟩
      · cases h'
      · have := Option.some.inj h'
        have : c.regs.length = 0 := by omega
        rw [List.length_eq_zero_iff.mp this] at h
        cases h
      · have := Option.some.inj h'
        have : j = 0 := by omega
        subst this
        rw [h] at hj
        exact Option.some.inj hj
    | later k p _ hp h =>
      rcases hnew with h' | h' | ⟨j, h', hj⟩
      · cases h'
      · have := Option.some.inj h'
        have h1 := (List.getElem?_eq_some_iff.mp h).1
        omega
      · have := Option.some.inj h'
        have : j = k + 1 := by omega
        subst this
        rw [h] at hj
        exact Option.some.inj hj
  subst hs
  have hpk' := hpk
  rw [hdep] at hpk'
  have hable := packageChunk_able hpk
  obtain ⟨hpack, hmap⟩ := packageChunk_iff.mp hpk'
  simp only [mapRes, Res.bind_eq_ok, Except.ok.injEq] at hmap
  obtain ⟨⟨b, v⟩, hb, Q, hQ, rfl⟩ := hmap
  have := packageOne_recs hb
  simp only at this
  subst this
  obtain ⟨s₀, u₁, k1, k2⟩ := arbitrary_start_receipt hable hx hv
  have hlt := (List.getElem?_eq_some_iff.mp hi).1
  refine ⟨s', i, u₁, hidx, by simp [hlt], ?_⟩
  rw [k1]
  exact verifyDEP_iff.mpr ⟨herr, ⟨[s₀], _⟩, none, s₀, _, s', u₁, 0, .first s₀ rfl, hpk, k2, rfl, .inl rfl, rfl⟩

end

namespace Demo

attribute [local instance] env

/-- The day of the register from its fifth receipt on, and the state before. -/
def afternoon : Stream := ⟨[[⟨group.drop 4, some device, []⟩]], none⟩

def noon : Cluster := ⟨[⟨texts.head?, (texts.take 4).getLast?, 1000, false, none⟩],
  .unique {c!"R1", c!"R2", c!"R3", c!"R4"}⟩

set_option maxRecDepth 100000 in
theorem afternoon_ok : verifyDEP deviceStore (some aes) noon (some 0) afternoon =
    (⟨[final], .unique ids⟩, .ok ()) := eq_of_isDone (by decide +kernel)

def fifth : Receipt := (receipts.drop 4).headD ⟨⟨⟨[], [], [], [], [], [], [], [], [], [], [], []⟩, ⟨0, 0, 0, 0, 0, 0⟩,
  .fin 0, .fin 0, .fin 0, .fin 0, .fin 0⟩, [], []⟩

set_option maxRecDepth 100000 in
theorem fifth_valid : Entry.Valid (fifth.toJWS R1, fifth) := eq_of_isOk (by decide +kernel)

set_option maxRecDepth 100000 in
theorem fifth_standard : ¬Training fifth ∧ ¬Reversal fifth := by
  rw [training_iff, reversal_iff]
  decide +kernel

/-- It can be verified without that state. -/
example : ∃ c₀ c₁ s₁, Cluster.fromArbitraryReceipt fifth c!"R1" (some aes) (.unique ∅) = .ok c₀ ∧
    verifyDEP deviceStore (some aes) c₀ (some 0) afternoon = (c₁, .ok ()) ∧ c₁.regs = [s₁] ∧
    s₁.last = texts.getLast? ∧ s₁.counter = 1059 := by
  have hdep : afternoon.chunks.flatten = [⟨utf8Enc (fifth.toJWS R1) :: group.drop 5, some device, []⟩] := by
    have : group.drop 4 = utf8Enc (fifth.toJWS R1) :: group.drop 5 := by decide +kernel
    simp [afternoon, this]
  obtain ⟨c₀, c₁, s', s₁, i, hi, hs, h1, h2, h3, h4, h5, -⟩ :=
    arbitrary_dep afternoon_ok hdep fifth_valid (fun _ => fifth_standard)
  have : i = 0 := by
    rcases hi with h | ⟨h, -⟩
    · have := Option.some.inj h; omega
    · cases h
  subst this
  cases hs
  exact ⟨c₀, c₁, s₁, h1, h2, h3, h4, h5 (by simp)⟩

def eleventh : Receipt := (((secondRegister.run secondOrders).2).getD []).headD fifth

set_option maxRecDepth 100000 in
theorem eleventh_valid : Entry.Valid (secondTexts.headD [], eleventh) := eq_of_isOk (by decide +kernel)

/-- The second register of the cluster on its own. -/
example : ∃ s' u, verifyDEP closedStore (some aes)
    (Cluster.fromArbitraryStartReceipt eleventh (.unique ∅)) (some 0) secondDep = (⟨[s'], u⟩, .ok ()) := by
  have hd : secondDep.chunks.flatten =
      [⟨utf8Enc (secondTexts.headD []) :: (secondTexts.drop 1).map shrinkReceipt, none, []⟩] := by
    have : secondTexts.map shrinkReceipt =
        utf8Enc (secondTexts.headD []) :: (secondTexts.drop 1).map shrinkReceipt := by decide +kernel
    show [(⟨secondTexts.map shrinkReceipt, none, []⟩ : DepGroup)] = _
    rw [this]
  obtain ⟨s', i, u, -, -, h⟩ := arbitrary_start_dep (c := cluster) (idx := none) (.inl rfl)
    (cluster_ok none (by simp)) hd eleventh_valid
  exact ⟨s', u, h⟩

end Demo

end RKSV
