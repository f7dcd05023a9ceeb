import Verif.Lemmas.Parallel
import Verif.Lemmas.Cluster
/-
Properties C36 and C37: verification in work packages.
-/
namespace RKSV

section
variable [PyEnv]

/-- The ID of the first receipt, if it can be read, is not used yet. -/
def FirstFresh (used : Used) (g : List Bytes) : Prop :=
  ∀ x g', g = utf8Enc x.1 :: g' → Entry.Valid x → FreshId used [] x.2.receiptId

theorem checked_true_iff {flag : Prop} {used : Used} {g : List Bytes} {h : List Entry} (hr : Reads g h)
    (hc : Checked flag used h) : Checked True used h ↔ FirstFresh used g := by
  constructor
  · rintro h1 x g' e hx
    have : Reads g h := hr
    cases h with
    | nil => rw [hr.1] at e; cases e
    | cons y h =>
      have e1 := hr.1
      rw [e, List.map_cons] at e1
      simp only [List.cons.injEq] at e1
      have e2 : x.1 = y.1 := by
        have h1 := expandReceipt_iff.mpr (show utf8Enc x.1 = utf8Enc x.1 from rfl)
        rw [e1.1] at h1
        exact Except.ok.inj (h1.symm.trans (expandReceipt_iff.mpr rfl))
      obtain ⟨a, b⟩ := x
      obtain ⟨a', b'⟩ := y
      simp only at e2
      subst e2
      have hy : Entry.Valid (a, b') := hr.2 _ (by simp)
      unfold Entry.Valid at hx hy
      rw [hx] at hy
      cases hy
      have := h1 [] (a, b) h rfl (.inl trivial)
      rw [check_addAll] at this
      exact this
  · intro h1 pre x post e _
    by_cases hp : pre = []
    · subst hp
      rw [check_addAll]
      simp only [List.nil_append] at e
      subst e
      exact h1 x (post.map fun x => utf8Enc x.1) (by rw [hr.1]; rfl) (hr.2 x (by simp))
    · exact hc pre x post e (.inr hp)

/-- With receipts before it, or nothing used before, the condition on the first receipt is no
restriction. -/
theorem firstFresh_of_before {key : Option Bytes} {ps : Option Str} {P : List (List Bytes × Verifier)}
    (hP : Able P) {s s' : RegState} {used used' : Used}
    (ok : verifyGroups key ps s used P = .ok (s', used')) (h : ¬Blank s.last ∨ ¬Blank ps) :
    FirstFresh used (P.map (·.1)).flatten := by
  obtain ⟨es, hr, -, hc, -, -⟩ := groups_used hP ok
  exact (checked_true_iff hr hc).mp (hc.weaken fun _ => h)

theorem firstFresh_of_fresh (used : Used) (g : List Bytes) : FirstFresh used.fresh g := by
  intro x g' _ _
  cases used <;> simp [Used.fresh, FreshId]

/-- One process verifies the groups of all chunks one after the other, starting from the register's
state and with the cluster's used IDs, and stores the results. -/
def OneByOne (ks : KeyStore) (key : Option Bytes) (c : Cluster) (idx : Option Int) (chunks : List Chunk)
    (c' : Cluster) (R : RegState → RegState → Prop) : Prop :=
  ∃ c₁ ps s used pkgs s' used' r, c.getInfo idx = (c₁, .ok (ps, s, used)) ∧
    mapRes (packageChunk ks) chunks = .ok pkgs ∧
    verifyGroups key ps s used pkgs.flatten = .ok (s', used') ∧
    FirstFresh used (pkgs.flatten.map (·.1)).flatten ∧
    R s' r ∧ c₁.updateInfo idx r used' = .ok c'

/-- Acceptance of packages, for every relation that is a simulation. -/
theorem runBatches_iff {wk : Workers} {nprocs : Int} (hw : (∃ pick, wk = .pool pick) ∨ nprocs ≤ 1)
    {ks : KeyStore} {key : Option Bytes} {ps : Option Str} {R : RegState → RegState → Prop}
    (hR : Simulates key ps R) {s : RegState} (h : R s s) {used used' : Used} {chunks : List Chunk} :
    (∀ r, runBatches wk ks key ps s used none none (batchesAux nprocs false [] chunks) = .ok (r, used') →
      chunks ≠ [] ∧ ∃ pkgs s', mapRes (packageChunk ks) chunks = .ok pkgs ∧
        verifyGroups key ps s used pkgs.flatten = .ok (s', used') ∧
        FirstFresh used (pkgs.flatten.map (·.1)).flatten ∧ R s' r) ∧
    (∀ pkgs s', chunks ≠ [] → mapRes (packageChunk ks) chunks = .ok pkgs →
      verifyGroups key ps s used pkgs.flatten = .ok (s', used') →
      FirstFresh used (pkgs.flatten.map (·.1)).flatten →
      ∃ r, runBatches wk ks key ps s used none none (batchesAux nprocs false [] chunks) = .ok (r, used') ∧
        R s' r) := by
  have hfl := batchesAux_flatten nprocs [] chunks
  have hmem := batchesAux_mem nprocs false [] chunks (.inl rfl)
  rw [List.nil_append] at hfl
  generalize batchesAux nprocs false [] chunks = bs at hfl hmem
  have hsep : ∀ b ∈ bs, b ≠ [] ∧ Separate wk b.length := by
    intro b hb
    obtain ⟨h1, h2⟩ := hmem b hb
    refine ⟨h1, hw.imp id fun hn => ?_⟩
    rcases h2 with h2 | h2 <;> omega
  cases bs with
  | nil =>
    subst hfl
    refine ⟨fun r hr => ?_, fun pkgs s' hn => absurd rfl hn⟩
    cases hr
  | cons b bs =>
    have hb := hsep b (by simp)
    rw [List.flatten_cons] at hfl
    refine ⟨fun r hr => ?_, fun pkgs s' hn hp ok hf => ?_⟩
    · simp only [runBatches, collectPending, Res.ok_bind, Res.bind_eq_ok] at hr
      obtain ⟨pkb, hpb, ts, hts, hr⟩ := hr
      have hlen : b.length = pkb.length := (mapRes_iff.mp hpb).length_eq
      have hne : pkb ≠ [] := by
        rintro rfl
        exact hb.1 (List.length_eq_zero_iff.mp hlen)
      obtain ⟨-, pkgs, s', es, h1, h2, h3, h4, h5⟩ := batches_sound hR
        (fun b hb => hsep b (by simp [hb])) hne (hlen ▸ hb.2) (mapRes_able hpb) h hts hr
      refine ⟨?_, pkb ++ pkgs, s', ?_, h2, (checked_true_iff h3 h4).mp h4, h5⟩
      · rw [← hfl]; simp [hb.1]
      · rw [← hfl, mapRes_append, hpb, h1]; rfl
    · rw [← hfl, mapRes_append] at hp
      simp only [Res.bind_eq_ok, Except.ok.injEq] at hp
      obtain ⟨pkb, hpb, pks, hps, rfl⟩ := hp
      have hlen : b.length = pkb.length := (mapRes_iff.mp hpb).length_eq
      have hne : pkb ≠ [] := by
        rintro rfl
        exact hb.1 (List.length_eq_zero_iff.mp hlen)
      have hPa : Able (pkb ++ pks).flatten := by
        intro q hq
        obtain ⟨Q, hQ, hq⟩ := List.mem_flatten.mp hq
        rcases List.mem_append.mp hQ with hQ | hQ
        · exact mapRes_able hpb Q hQ q hq
        · exact mapRes_able hps Q hQ q hq
      obtain ⟨es, hre, -, hce, -, -⟩ := groups_used hPa ok
      obtain ⟨ts, r, h1, h2, h3⟩ := batches_complete (t' := s) hR (fun b hb => hsep b (by simp [hb])) hne
        (hlen ▸ hb.2) (mapRes_able hpb) hps h ok hre ((checked_true_iff hre hce).mpr hf)
      refine ⟨r, ?_, h3⟩
      simp only [runBatches, collectPending, Res.ok_bind, Res.bind_eq_ok]
      exact ⟨pkb, hpb, ts, h1, h2⟩

/-- C36: a pool of workers accepts a DEP, whatever the number of packages at a time and however the
workers are scheduled, exactly if verifying its groups one by one does and the ID of the first receipt
is new, and the resulting cluster state is the same. -/
theorem parallel_iff {wk : Workers} {nprocs : Int} (hw : (∃ pick, wk = .pool pick) ∨ nprocs ≤ 1)
    {ks : KeyStore} {key : Option Bytes} {c c' : Cluster} (hc : ∀ r ∈ c.regs, Consistent r)
    {idx : Option Int} {chunks : List Chunk} :
    verifyParsedDEP wk nprocs ks key c idx ⟨chunks, none⟩ = (c', .ok ()) ↔
      chunks ≠ [] ∧ OneByOne ks key c idx chunks c' (· = ·) := by
  unfold verifyParsedDEP OneByOne
  rcases hg : c.getInfo idx with ⟨c₁, e | ⟨ps, s, used⟩⟩
  · simp
  · simp only [Option.isSome_none]
    have hs : Consistent s := by
      rcases (getInfo_iff.mp hg).1.reg with h | rfl
      · exact hc s h
      · exact fresh_consistent
    have key_iff := fun used' => runBatches_iff (used' := used') hw (ks := ks) (used := used) (chunks := chunks)
      (simulates_consistent key ps) (s := s) ⟨rfl, hs⟩
    constructor
    · intro h
      cases hr : runBatches wk ks key ps s used none none (batchesAux nprocs false [] chunks) with
      | error e => rw [hr] at h; cases h
      | ok x =>
        obtain ⟨r, used'⟩ := x
        rw [hr] at h
        simp only at h
        obtain ⟨hn, pkgs, s', h1, h2, h3, rfl, -⟩ := (key_iff used').1 r hr
        cases hu : c₁.updateInfo idx s' used' with
        | error e => rw [hu] at h; cases h
        | ok d =>
          rw [hu] at h
          simp only [Prod.mk.injEq, and_true] at h
          subst h
          exact ⟨hn, c₁, ps, s, used, pkgs, s', used', s', rfl, h1, h2, h3, rfl, hu⟩
    · rintro ⟨hn, c₁', ps', s0, used0, pkgs, s', used', r, h0, h1, h2, h3, rfl, hu⟩
      simp only [Prod.mk.injEq, Except.ok.injEq] at h0
      obtain ⟨rfl, rfl, rfl, rfl⟩ := h0
      obtain ⟨r, hr, rfl, -⟩ := (key_iff used').2 pkgs s' hn h1 h2 h3
      rw [hr]
      simp only [hu]

/-- C36, for any cluster state, in particular those built from a single receipt: the verdict is the
same as one by one; the stored register state may differ in the start receipt only. -/
theorem parallel_verdict {wk : Workers} {nprocs : Int} (hw : (∃ pick, wk = .pool pick) ∨ nprocs ≤ 1)
    {ks : KeyStore} {key : Option Bytes} {c : Cluster} {idx : Option Int} {chunks : List Chunk} :
    (∀ c', verifyParsedDEP wk nprocs ks key c idx ⟨chunks, none⟩ = (c', .ok ()) →
      chunks ≠ [] ∧ OneByOne ks key c idx chunks c' Similar) ∧
    (chunks ≠ [] ∧ (∃ c', OneByOne ks key c idx chunks c' (· = ·)) →
      ∃ c', verifyParsedDEP wk nprocs ks key c idx ⟨chunks, none⟩ = (c', .ok ()) ∧
        OneByOne ks key c idx chunks c' Similar) := by
  unfold verifyParsedDEP OneByOne
  rcases hg : c.getInfo idx with ⟨c₁, e | ⟨ps, s, used⟩⟩
  · simp
  · simp only [Option.isSome_none]
    have key_iff := fun used' => runBatches_iff (used' := used') hw (ks := ks) (used := used) (chunks := chunks)
      (simulates_similar key ps) (s := s) (Similar.refl s)
    constructor
    · intro c' h
      cases hr : runBatches wk ks key ps s used none none (batchesAux nprocs false [] chunks) with
      | error e => rw [hr] at h; cases h
      | ok x =>
        obtain ⟨r, used'⟩ := x
        rw [hr] at h
        simp only at h
        obtain ⟨hn, pkgs, s', h1, h2, h3, h4⟩ := (key_iff used').1 r hr
        cases hu : c₁.updateInfo idx r used' with
        | error e => rw [hu] at h; cases h
        | ok d =>
          rw [hu] at h
          simp only [Prod.mk.injEq, and_true] at h
          subst h
          exact ⟨hn, c₁, ps, s, used, pkgs, s', used', r, rfl, h1, h2, h3, h4, hu⟩
    · rintro ⟨hn, c', c₁', ps', s0, used0, pkgs, s', used', r, h0, h1, h2, h3, rfl, hu⟩
      simp only [Prod.mk.injEq, Except.ok.injEq] at h0
      obtain ⟨rfl, rfl, rfl, rfl⟩ := h0
      obtain ⟨r, hr, h4⟩ := (key_iff used').2 pkgs s' hn h1 h2 h3
      rw [hr]
      simp only
      obtain ⟨d, hd⟩ : ∃ d, c₁.updateInfo idx r used' = .ok d := by
        simp only [Cluster.updateInfo, Res.bind_eq_ok] at hu ⊢
        obtain ⟨i, hi, -⟩ := hu
        exact ⟨_, i, hi, rfl⟩
      rw [hd]
      exact ⟨d, rfl, c₁, ps, s, used, pkgs, s', used', r, rfl, h1, h2, h3, h4, hd⟩

/-! ### C37 -/

/-- C37, the part that holds: without a pool, one package at a time gives the verdict of every pool. -/
theorem no_pool_partial {nprocs nprocs' : Int} (h1 : nprocs ≤ 1) (pick : List Err → Err)
    {ks : KeyStore} {key : Option Bytes} {c c' : Cluster} (hc : ∀ r ∈ c.regs, Consistent r)
    {idx : Option Int} {chunks : List Chunk} :
    verifyParsedDEP .alone nprocs ks key c idx ⟨chunks, none⟩ = (c', .ok ()) ↔
      verifyParsedDEP (.pool pick) nprocs' ks key c idx ⟨chunks, none⟩ = (c', .ok ()) := by
  rw [parallel_iff (.inr h1) hc, parallel_iff (.inl ⟨pick, rfl⟩) hc]

/-- All tasks are done one after the other with one object for the used IDs. -/
theorem runShared_ok {key : Option Bytes} {ps : Option Str} {used w : Used} {ts : List Task}
    (ha : ∀ t ∈ ts, Able t.groups) {ss : List RegState} (h : runShared key ps used ts = .ok (ss, w)) :
    ss.length = ts.length ∧ ∃ es, Reads (ts.flatMap fun t => (t.groups.map (·.1)).flatten) es ∧
      w = addAll used es := by
  induction ts generalizing used ss with
  | nil => cases h; exact ⟨rfl, [], ⟨rfl, by simp⟩, rfl⟩
  | cons t ts ih =>
    simp only [runShared, Res.bind_eq_ok] at h
    obtain ⟨⟨s1, u1⟩, h1, ⟨ss1, w1⟩, h2, h3⟩ := h
    cases h3
    obtain ⟨a, hra, rfl, -⟩ := groups_used (ha t (by simp)) h1
    obtain ⟨hl, b, hrb, rfl⟩ := ih (fun t ht => ha t (by simp [ht])) h2
    refine ⟨by simp [hl], a ++ b, ⟨?_, ?_⟩, (addAll_append _ _ _).symm⟩
    · rw [List.flatMap_cons, hra.1, hrb.1, List.map_append]
    · intro x hx
      rcases List.mem_append.mp hx with hx | hx
      · exact hra.2 x hx
      · exact hrb.2 x hx

theorem prepareTasks_groups {key : Option Bytes} {s : RegState}
    {pkgs : List (List (List Bytes × Verifier))} {ts : List Task}
    (h : prepareTasks key s pkgs = .ok ts) : ts.map (·.groups) = pkgs := by
  induction pkgs generalizing s ts with
  | nil => cases h; rfl
  | cons P pkgs ih =>
    simp only [prepareTasks, Res.bind_eq_ok] at h
    obtain ⟨t1, -, ts', hts', h⟩ := h
    cases h
    simp [ih hts']

/-- Without a pool two packages at a time are never accepted, unless they have no receipts: their IDs
are in one object, which is merged twice. -/
theorem shared_rejected {key : Option Bytes} {ps : Option Str} {ids : Finset Str} {w : Used}
    {ts : List Task} {r : RegState} (ha : ∀ t ∈ ts, Able t.groups) (h2 : 2 ≤ ts.length)
    (h : collect .alone key ps (.unique ids) ts = .ok (r, w)) :
    ∀ t ∈ ts, ∀ g ∈ t.groups, g.1 = [] := by
  simp only [collect, runTasks, Res.bind_eq_ok, Except.ok.injEq] at h
  obtain ⟨_, ⟨⟨ss, u⟩, hs, rfl⟩, w', hm, -⟩ := h
  obtain ⟨hl, es, hr, rfl⟩ := runShared_ok ha hs
  have hu := usedAfter_addAll (Used.unique ids).fresh es
  simp only [Used.fresh, UsedAfter, Finset.empty_union] at hu hm
  rw [hu] at hm
  match ss, hl with
  | a :: b :: ss, _ =>
    simp only [List.map_cons, Used.merge, Used.mergeOne, Res.bind_eq_ok, ensure_eq_ok,
      Except.ok.injEq] at hm
    obtain ⟨_, ⟨_, -, rfl⟩, v, hv, -⟩ := hm
    simp only [Res.bind_eq_ok, ensure_eq_ok] at hv
    obtain ⟨_, hd, -⟩ := hv
    have he : es = [] := by
      cases es with
      | nil => rfl
      | cons x es =>
        exfalso
        have hx : x.2.receiptId ∈ ((x :: es).map (·.2.receiptId)).toFinset := by simp
        exact Finset.disjoint_left.mp hd (Finset.mem_union_right _ hx) hx
    subst he
    intro t ht g hg
    have := hr.1
    simp only [List.map_nil, List.flatMap_eq_nil_iff, List.flatten_eq_nil_iff, List.mem_map] at this
    exact this t ht _ ⟨g, hg, rfl⟩
  | [a], hl => simp only [List.length_cons, List.length_nil] at hl; omega
  | [], hl => simp only [List.length_nil] at hl; omega

theorem packageAll_recs {ks : KeyStore} {gs : List DepGroup} {P : List (List Bytes × Verifier)}
    (h : packageAll ks gs = .ok P) : P.map (·.1) = gs.map (·.recs) := by
  induction gs generalizing P with
  | nil => cases h; rfl
  | cons g gs ih =>
    simp only [packageAll, Res.bind_eq_ok, orErr_eq_ok] at h
    obtain ⟨c, -, -, -, rest, hr, h⟩ := h
    cases h
    simp [ih hr]

theorem packageChunk_recs {ks : KeyStore} {c : Chunk} {P : List (List Bytes × Verifier)}
    (h : packageChunk ks c = .ok P) : P.map (·.1) = c.map (·.recs) := by
  unfold packageChunk at h
  split at h
  · split at h
    · cases h; rfl
    · simp only [Res.bind_eq_ok] at h
      obtain ⟨-, -, h⟩ := h
      cases h
      rfl
  · exact packageAll_recs h

/-- C37 is false: without a pool and with `nprocs` at least 2, no DEP is accepted that fills two
chunks. -/
theorem no_pool_rejects {nprocs : Int} (hn : 2 ≤ nprocs) {ks : KeyStore} {key : Option Bytes}
    {regs : List RegState} {ids : Finset Str} {idx : Option Int} {a b : Chunk} {chunks : List Chunk}
    (ha : ∃ g ∈ a, g.recs ≠ []) (c' : Cluster) :
    verifyParsedDEP .alone nprocs ks key ⟨regs, .unique ids⟩ idx ⟨a :: b :: chunks, none⟩ ≠
      (c', .ok ()) := by
  intro h
  unfold verifyParsedDEP at h
  rcases hg : (Cluster.mk regs (.unique ids)).getInfo idx with ⟨c₁, e | ⟨ps, s, used⟩⟩
  · rw [hg] at h; cases h
  · rw [hg] at h
    obtain ⟨-, rfl⟩ := getInfo_iff.mp hg
    simp only [Option.isSome_none] at h
    -- the first batch has at least the first two chunks
    obtain ⟨rest, bs, hb⟩ : ∃ rest bs, batchesAux nprocs false [] (a :: b :: chunks) = (a :: b :: rest) :: bs := by
      have aux : ∀ (cs acc : List Chunk), 2 ≤ acc.length → ∃ rest bs,
          batchesAux nprocs false acc cs = (acc ++ rest) :: bs := by
        intro cs
        induction cs with
        | nil =>
          intro acc hacc
          refine ⟨[], [], ?_⟩
          have : acc ≠ [] := by rintro rfl; simp at hacc
          simp [batchesAux, this]
        | cons c cs ih =>
          intro acc hacc
          unfold batchesAux
          split
          · exact ⟨[c], _, rfl⟩
          · obtain ⟨rest, bs, e⟩ := ih (acc ++ [c]) (by simp; omega)
            exact ⟨c :: rest, bs, by rw [e]; simp⟩
      have n1 : ¬nprocs ≤ ((([] : List Chunk) ++ [a]).length : Int) := by simp; omega
      rw [batchesAux, if_neg n1]
      by_cases n2 : nprocs ≤ ((([] : List Chunk) ++ [a] ++ [b]).length : Int)
      · rw [batchesAux, if_pos n2]
        exact ⟨[], _, rfl⟩
      · rw [batchesAux, if_neg n2]
        obtain ⟨rest, bs, e⟩ := aux chunks [a, b] (by simp)
        exact ⟨rest, bs, e⟩
    rw [hb] at h
    have hfail : ∀ ts t' u', (∃ pk, prepareTasks key s pk = .ok ts ∧
        mapRes (packageChunk ks) (a :: b :: rest) = .ok pk) →
        collect .alone key ps (.unique ids) ts ≠ .ok (t', u') := by
      rintro ts t' u' ⟨pk, hts, hpk⟩ hcol
      have hlen := prepareTasks_length hts
      have hl2 := (mapRes_iff.mp hpk).length_eq
      have hable : ∀ t ∈ ts, Able t.groups := by
        intro t ht
        have := prepareTasks_groups hts
        exact mapRes_able hpk _ (this ▸ List.mem_map_of_mem ht)
      have := shared_rejected hable (by rw [hlen, ← hl2]; simp) hcol
      have hm := mapRes_iff.mp hpk
      cases hm with
      | @cons _ P _ pk' hP hrest =>
        have hgr := prepareTasks_groups hts
        match ts, hgr with
        | t :: ts, hgr =>
          simp only [List.map_cons, List.cons.injEq] at hgr
          have h0 := this t (by simp)
          rw [hgr.1] at h0
          have h1 := packageChunk_recs hP
          obtain ⟨g, hg, hne⟩ := ha
          have : g.recs ∈ P.map (·.1) := by rw [h1]; exact List.mem_map_of_mem hg
          obtain ⟨q, hq, hqe⟩ := List.mem_map.mp this
          exact hne (hqe ▸ h0 q hq)
    simp only [runBatches, collectPending, Res.ok_bind] at h
    cases hpk : mapRes (packageChunk ks) (a :: b :: rest) with
    | error e => rw [hpk] at h; cases h
    | ok pk =>
      rw [hpk, Res.ok_bind] at h
      cases hts : prepareTasks key s pk with
      | error e => rw [hts] at h; cases h
      | ok ts =>
        rw [hts, Res.ok_bind] at h
        cases bs with
        | nil =>
          simp only [runBatches] at h
          cases hcol : collect .alone key ps (.unique ids) ts with
          | error e => rw [hcol] at h; cases h
          | ok x => exact hfail ts x.1 x.2 ⟨pk, hts, hpk⟩ hcol
        | cons b' bs =>
          simp only [runBatches, collectPending] at h
          cases hp2 : mapRes (packageChunk ks) b' with
          | error e => rw [hp2] at h; cases h
          | ok pk2 =>
            rw [hp2, Res.ok_bind] at h
            cases hcol : collect .alone key ps (.unique ids) ts with
            | error e => rw [hcol] at h; cases h
            | ok x => exact hfail ts x.1 x.2 ⟨pk, hts, hpk⟩ hcol

end

namespace Demo

attribute [local instance] env

/-- The store trusts the device of the register. -/
def deviceStore : KeyStore := KeyStore.putKey [] c!"1f" ([7, 8] : Bytes) (some device)

/-- The day of the register in four chunks. -/
def chunks : List Chunk :=
  [[⟨group.take 3, some device, []⟩], [⟨(group.drop 3).take 2, some device, []⟩],
   [⟨(group.drop 5).take 1, some device, []⟩, ⟨(group.drop 6).take 1, some device, []⟩],
   [⟨group.drop 7, some device, []⟩]]

def empty : Cluster := ⟨[], .unique ∅⟩

def isDone (r : Cluster × Res Unit) (c : Cluster) : Bool :=
  decide (r.1 = c) && isOk r.2 ()

theorem eq_of_isDone {r : Cluster × Res Unit} {c : Cluster} (h : isDone r c = true) :
    r = (c, .ok ()) := by
  simp only [isDone, Bool.and_eq_true, decide_eq_true_eq] at h
  exact Prod.ext h.1 (eq_of_isOk h.2)

set_option maxRecDepth 100000 in
/-- Three workers accept it, ... -/
theorem pool_ok : verifyParsedDEP (.pool fun l => l.headD .valueError) 3 deviceStore (some aes) empty none
    ⟨chunks, none⟩ = (⟨[final], .unique ids⟩, .ok ()) :=
  eq_of_isDone (by decide +kernel)

/-- ... so it is accepted one by one, and by any other pool, ... -/
example : OneByOne deviceStore (some aes) empty none chunks ⟨[final], .unique ids⟩ (· = ·) :=
  ((parallel_iff (.inl ⟨_, rfl⟩) (by simp [empty])).mp pool_ok).2

example (pick : List Err → Err) (n : Int) :
    verifyParsedDEP (.pool pick) n deviceStore (some aes) empty none ⟨chunks, none⟩ =
      (⟨[final], .unique ids⟩, .ok ()) :=
  (parallel_iff (.inl ⟨_, rfl⟩) (by simp [empty])).mpr
    ((parallel_iff (.inl ⟨_, rfl⟩) (by simp [empty])).mp pool_ok)

/-- ... and without a pool one by one, but not two at a time: C37 is false. -/
theorem no_pool_differs (n : Int) (hn : 2 ≤ n) :
    verifyParsedDEP .alone 1 deviceStore (some aes) empty none ⟨chunks, none⟩ =
      (⟨[final], .unique ids⟩, .ok ()) ∧
    ∀ c', verifyParsedDEP .alone n deviceStore (some aes) empty none ⟨chunks, none⟩ ≠ (c', .ok ()) := by
  refine ⟨(no_pool_partial (nprocs' := 3) (le_refl _) _ (by simp [empty])).mpr pool_ok, fun c' => ?_⟩
  refine no_pool_rejects hn ⟨_, List.mem_cons_self, ?_⟩ c'
  intro h
  have : (List.isEmpty (group.take 3)) = true := by simpa using h
  exact absurd this (by decide +kernel)

/-- The first receipt of a register outside a cluster is the exception: its ID may be used already
when verifying one by one, but not with a pool. -/
theorem first_id_differs :
    verifyGroup ctx fresh (.unique {c!"R1"}) (group.take 1) =
      .ok (⟨texts.head?, texts.head?, 0, false, none⟩, .unique {c!"R1"}) ∧
    (verifyParsedDEP (.pool fun l => l.headD .valueError) 1 deviceStore (some aes)
      ⟨[], .unique {c!"R1"}⟩ none ⟨[[⟨group.take 1, some device, []⟩]], none⟩).2 =
        .error .duplicateReceiptId := by
  refine ⟨eq_of_isOk (by decide +kernel), ?_⟩
  decide +kernel

end Demo

end RKSV
