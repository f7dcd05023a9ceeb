import Verif.Lemmas.RunTestFull
import Verif.Lemmas.TestPrefix
import Verif.Props.Export
import Verif.Props.EndToEnd
/-
A test case with a falsified receipt: the DEPs it is made of.
-/
namespace RKSV

section
variable [PyEnv]

/-! ### What is exported -/

/-- The group as it is read. -/
def mangledDep (g : SGroup (Mangled × Str)) : DepGroup := ⟨g.recs.map fun r => utf8Enc (Mangled.text r), g.cert, g.chain⟩

theorem mangledDep_plain (g : SGroup (Receipt × Str)) : mangledDep (plainGroup g) = g.asRead := by
  simp only [mangledDep, plainGroup, SGroup.asRead, List.map_map]
  rfl

theorem exportMangledGroup_json {g : SGroup (Mangled × Str)} (hw : ∀ c, g.cert = some c → certDER c ≠ []) :
    GroupJson (exportMangledGroup g) (mangledDep g) := by
  unfold exportMangledGroup mangledDep
  have h1 : (g.recs.map fun r => Json.str (Mangled.text r)) = (g.recs.map Mangled.text).map Json.str := by
    rw [List.map_map]; rfl
  have h2 : (g.chain.map fun c => Json.str (exportCertToPEM c)) = (g.chain.map exportCertToPEM).map Json.str := by
    rw [List.map_map]; rfl
  have h3 : (g.recs.map fun r => utf8Enc (Mangled.text r)) = (g.recs.map Mangled.text).map utf8Enc := by
    rw [List.map_map]; rfl
  rw [h1, h2, h3]
  refine .mk _ _ (match g.cert with | none => [] | some c => exportCertToPEM c) (g.chain.map exportCertToPEM) _ _
    rfl rfl rfl ?_ ?_
  · cases hc : g.cert with
    | none => exact .none
    | some c => exact .some _ _ (b64Encode_ne_nil (hw c hc)) (certOf_export c)
  · have : ∀ l : List Cert, List.Forall₂ CertOf (l.map exportCertToPEM) l := by
      intro l
      induction l with
      | nil => exact .nil
      | cons c l ih => exact .cons (certOf_export c) ih
    exact this _

/-- The certificates have some content. -/
def CertsFull (gs : List (SGroup (Mangled × Str))) : Prop := ∀ g ∈ gs, ∀ c, g.cert = some c → certDER c ≠ []

theorem ExtraOk.groups {d : Dict Json} (h : ExtraOk d) : c!"Belege-Gruppe" ∉ d.keys := by
  intro hk
  rcases h _ hk with h | h | h <;> revert h <;> decide

theorem exportMangled_json {gs : List (SGroup (Mangled × Str))} (hw : CertsFull gs) {extra : Dict Json}
    (hx : ExtraOk extra) : DepJson (exportMangled gs extra) (gs.map mangledDep) := by
  unfold exportMangled
  refine .mk _ (gs.map exportMangledGroup) _ ?_ ?_
  · rw [update_get? _ _ _ hx.groups]
    rfl
  · clear hx
    induction gs with
    | nil => exact .nil
    | cons g gs ih =>
      exact .cons (exportMangledGroup_json (hw g (by simp))) (ih fun g hg => hw g (by simp [hg]))

/-! ### The steps of the loop -/

/-- The group with these receipts of the device. -/
def TestCtx.groupOf (x : TestCtx) (sig : Nat) (recs : List (Mangled × Str)) : SGroup (Mangled × Str) :=
  match x.spec.groups, x.keys[sig]? with
  | true, some k => ⟨recs, some k.cert, k.chain⟩
  | _, _ => ⟨recs, none, []⟩

theorem groupOf_recs (x : TestCtx) (sig : Nat) (recs : List (Mangled × Str)) : (x.groupOf sig recs).recs = recs := by
  unfold TestCtx.groupOf
  split <;> rfl

theorem groupOf_frame (x : TestCtx) (sig : Nat) (recs recs' : List (Mangled × Str)) :
    x.groupOf sig recs = { x.groupOf sig recs' with recs := recs } := by
  unfold TestCtx.groupOf
  split <;> rfl

theorem certGroupFull_eq {x : TestCtx} (hp : ∀ k ∈ x.keys, k.omitSign = false) (hg : x.spec.groups = true) {s : FullState}
    {sig : Nat} {g : SGroup (Mangled × Str)} (h : x.certGroupFull s sig = .ok g) : g = x.groupOf sig s.recs := by
  unfold TestCtx.certGroupFull at h
  simp only [Res.bind_eq_ok, orErr_eq_ok] at h
  obtain ⟨k, hk, h⟩ := h
  rw [if_neg (by rw [hp k (List.mem_of_getElem? hk)]; simp)] at h
  cases h
  simp [TestCtx.groupOf, hg, hk]

theorem groupOf_plain {x : TestCtx} (hg : x.spec.groups = false) (sig : Nat) (recs : List (Mangled × Str)) :
    x.groupOf sig recs = ⟨recs, none, []⟩ := by
  simp [TestCtx.groupOf, hg]

theorem groupOf_certs {x : TestCtx} (hc : x.spec.groups = true → ∀ k ∈ x.keys, certDER k.cert ≠ []) (sig : Nat)
    (recs : List (Mangled × Str)) : ∀ c, (x.groupOf sig recs).cert = some c → certDER c ≠ [] := by
  intro c h
  unfold TestCtx.groupOf at h
  split at h
  · rename_i k hg hk
    cases h
    exact hc hg k (List.mem_of_getElem? hk)
  · cases h

theorem endGroupFull_cases {x : TestCtx} (hp : ∀ k ∈ x.keys, k.omitSign = false) {i : Instr} {s s' : FullState} {d : Nat}
    (hs : s.prevSig = some d) (h : x.endGroupFull i s = .ok s') :
    (s' = s ∧ i.newDep = kNoNew ∧ (x.spec.groups = true → d = i.device)) ∨
      s' = { s with groups := s.groups ++ [x.groupOf d s.recs], recs := [] } := by
  unfold TestCtx.endGroupFull at h
  rw [hs] at h
  cases hg : x.spec.groups with
  | true =>
    rw [hg] at h
    dsimp only at h
    split at h
    · simp only [Res.bind_eq_ok] at h
      obtain ⟨g, h1, h2⟩ := h
      cases h2
      rw [certGroupFull_eq hp hg h1]
      exact .inr (by rw [hs])
    · rename_i hn
      simp only [not_or, not_not] at hn
      cases h
      exact .inl ⟨rfl, hn.1, fun _ => hn.2⟩
  | false =>
    rw [hg] at h
    dsimp only at h
    split at h
    · cases h
      rw [groupOf_plain hg]
      exact .inr (by rw [hs])
    · rename_i hn
      cases h
      exact .inl ⟨rfl, not_not.mp hn, by simp⟩

theorem endDepFull_cases {x : TestCtx} {i : Instr} {s s' : FullState} (h : x.endDepFull i s = .ok s') :
    (s' = s ∧ i.newDep = kNoNew) ∨ i.newDep ≠ kNoNew ∧
      ∃ register lastDep extra curIdx, s' = { s with
        register, lastDep, extra, curIdx
        groups := []
        deps := s.deps ++ [exportMangled s.groups s.addTurnover] } ∧ ExtraOk extra := by
  unfold TestCtx.endDepFull at h
  split at h
  · rename_i hn
    cases h
    exact .inl ⟨rfl, hn⟩
  rename_i hn
  refine .inr ⟨hn, ?_⟩
  simp only [Res.bind_eq_ok] at h
  obtain ⟨l, -, h⟩ := h
  split at h
  · cases h
    exact ⟨_, _, _, _, rfl, by simp [ExtraOk, Dict.keys]⟩
  · split at h
    · simp only [Res.bind_eq_ok] at h
      obtain ⟨r, -, d, -, h⟩ := h
      cases h
      exact ⟨_, _, _, _, rfl, by simp [ExtraOk, Dict.keys]⟩
    · cases h
      exact ⟨_, _, _, _, rfl, by simp [ExtraOk, Dict.keys]⟩

theorem newRegisterFull_frame {x : TestCtx} {i : Instr} {s s' : FullState} (h : x.newRegisterFull i s = .ok s') :
    ∃ regs register lastStart, s' = { s with regs, register, lastStart } := by
  unfold TestCtx.newRegisterFull at h
  split at h
  · simp only [Res.bind_eq_ok] at h
    obtain ⟨r, -, h⟩ := h
    cases h
    exact ⟨_, _, _, rfl⟩
  · cases h
    exact ⟨_, _, _, rfl⟩

theorem addReceiptFull_cases {x : TestCtx} {i : Instr} {o : Order} {s s' : FullState} (h : x.addReceiptFull i o s = .ok s') :
    ∃ reg reg' m, s.regs[s.register]? = some reg ∧ reg.receiptWith o i.override = (reg', .ok m) ∧
      s'.deps = s.deps ∧ s'.groups = s.groups ∧ s'.recs = s.recs ++ [(m, i.override.algorithmPrefix.getD R1)] ∧
      s'.prevSig = some i.device ∧ s'.extra = s.extra := by
  unfold TestCtx.addReceiptFull at h
  split at h
  · cases h
  rename_i reg hreg
  split at h
  · cases h
  rename_i reg' m hm
  refine ⟨reg, reg', m, hreg, hm, ?_⟩
  cases h
  dsimp only
  split <;> exact ⟨rfl, rfl, rfl, rfl, rfl⟩

theorem FullState.extraOk {s : FullState} (h : ExtraOk s.extra) : ExtraOk s.addTurnover := by
  unfold FullState.addTurnover
  split
  · split
    · intro k hk
      rw [Dict.keys_set] at hk
      split at hk
      · exact h k hk
      · rcases List.mem_append.mp hk with h1 | h1
        · exact h k h1
        · exact .inl (List.mem_singleton.mp h1)
    · exact h
  · exact h

/-! ### What was written stays -/

/-- The elements added to a DEP are the same except for the turnover. -/
def SameLinks (a b : Dict Json) : Prop := ∀ d k, k ≠ kTurnover → Dict.get? (Dict.update d a) k = Dict.get? (Dict.update d b) k

omit [PyEnv] in
theorem update_congr {α : Type} (e : Dict α) {d d' : Dict α} {k : Str} (h : Dict.get? d k = Dict.get? d' k) :
    Dict.get? (Dict.update d e) k = Dict.get? (Dict.update d' e) k := by
  unfold Dict.update
  induction e generalizing d d' with
  | nil => exact h
  | cons p e ih =>
    rw [List.foldl_cons, List.foldl_cons]
    apply ih
    rw [Dict.get?_set, Dict.get?_set, h]

omit [PyEnv] in
theorem update_set {α : Type} (e d : Dict α) {k k' : Str} (v : α) (h : k ≠ k') :
    Dict.get? (Dict.update d (e.set k' v)) k = Dict.get? (Dict.update d e) k := by
  induction e generalizing d with
  | nil =>
    simp [Dict.set, Dict.update, Dict.get?_set, Ne.symm h]
  | cons p e ih =>
    obtain ⟨j, w⟩ := p
    unfold Dict.set
    split
    · rename_i hj
      refine update_congr e ?_
      rw [Dict.get?_set, Dict.get?_set]
      dsimp only
      subst hj
      rw [if_neg (Ne.symm h), if_neg (Ne.symm h)]
    · exact ih _

theorem FullState.sameLinks (s : FullState) : SameLinks s.addTurnover s.extra := by
  intro d k hk
  unfold FullState.addTurnover
  split
  · split
    · exact update_set _ _ _ hk
    · rfl
  · rfl

theorem registerIdx_links {a b : Dict Json} (h : SameLinks a b) (gs gs' : List (SGroup (Mangled × Str))) (seen : List Nat) (n : Nat) :
    registerIdx seen n (exportMangled gs a) = registerIdx seen n (exportMangled gs' b) := by
  have e : ∀ k, k ≠ kTurnover → k ≠ c!"Belege-Gruppe" →
      Dict.get? (Dict.update [(c!"Belege-Gruppe", .arr (gs.map exportMangledGroup))] a) k =
      Dict.get? (Dict.update [(c!"Belege-Gruppe", .arr (gs'.map exportMangledGroup))] b) k := by
    intro k h1 h2
    rw [h _ k h1]
    refine update_congr _ ?_
    simp [Dict.get?, Ne.symm h2]
  have e1 := e kContinued (by decide) (by decide)
  have e2 := e kPrevious (by decide) (by decide)
  simp only [registerIdx, exportMangled, Json.asObj, orErr, Res.ok_bind]
  simp only [kGroups] at *
  rw [e1, e2]

/-- The DEPs `D` are written; the next one starts with the groups `G` and a group of the device `sig` that starts with the
receipts `R`: it is being written, the group is complete, or the DEP is.  Its elements are `X`. -/
inductive Stays (x : TestCtx) (D : List Json) (G : List (SGroup (Mangled × Str))) (R : List (Mangled × Str)) (sig : Nat)
    (X : Dict Json) (F : FullState) : Prop
  | writing (rest : List (Mangled × Str)) (hd : F.deps = D) (hg : F.groups = G) (hr : F.recs = R ++ rest)
      (hs : x.spec.groups = true → F.prevSig = some sig) (hl : F.extra = X)
  | ended (rest : List (Mangled × Str)) (B : List (SGroup (Mangled × Str))) (hd : F.deps = D)
      (hg : F.groups = G ++ x.groupOf sig (R ++ rest) :: B) (hb : CertsFull B) (hl : F.extra = X)
  | exported (rest : List (Mangled × Str)) (B : List (SGroup (Mangled × Str))) (extra : Dict Json) (D' : List Json)
      (hd : F.deps = D ++ exportMangled (G ++ x.groupOf sig (R ++ rest) :: B) extra :: D') (hb : CertsFull B)
      (he : ExtraOk extra) (hl : SameLinks extra X)

theorem CertsFull.snoc {x : TestCtx} (hc : x.spec.groups = true → ∀ k ∈ x.keys, certDER k.cert ≠ [])
    {B : List (SGroup (Mangled × Str))} (h : CertsFull B) (d : Nat) (recs : List (Mangled × Str)) :
    CertsFull (B ++ [x.groupOf d recs]) := by
  intro g hg
  rcases List.mem_append.mp hg with hg | hg
  · exact h g hg
  · rw [List.mem_singleton.mp hg]
    exact groupOf_certs hc d recs

theorem groupOf_device {x : TestCtx} {d sig : Nat} (h : x.spec.groups = true → some d = some sig)
    (recs : List (Mangled × Str)) : x.groupOf d recs = x.groupOf sig recs := by
  cases hg : x.spec.groups with
  | true => rw [Option.some.inj (h hg)]
  | false => rw [groupOf_plain hg, groupOf_plain hg]

theorem Stays.step {x : TestCtx} (hp : ∀ k ∈ x.keys, k.omitSign = false)
    (hc : x.spec.groups = true → ∀ k ∈ x.keys, certDER k.cert ≠ []) {D : List Json} {G : List (SGroup (Mangled × Str))}
    {R : List (Mangled × Str)} {sig d : Nat} {X : Dict Json} {F F' : FullState} (hF : Stays x D G R sig X F) (hs : F.prevSig = some d)
    (hx : ExtraOk F.extra) {i : Instr} (h : x.stepFull F i = .ok F') :
    Stays x D G R sig X F' ∧ F'.prevSig = some i.device ∧ ExtraOk F'.extra := by
  unfold TestCtx.stepFull at h
  simp only [Res.bind_eq_ok] at h
  obtain ⟨o, -, s1, h1, s2, h2, s3, h3, h4⟩ := h
  obtain ⟨regs, register, lastStart, e1⟩ := newRegisterFull_frame h1
  obtain ⟨reg, reg', m, -, -, r1, r2, r3, r4, r5⟩ := addReceiptFull_cases h4
  have d1 : s1.deps = F.deps := by rw [e1]
  have g1 : s1.groups = F.groups := by rw [e1]
  have c1 : s1.recs = F.recs := by rw [e1]
  have p1 : s1.prevSig = some d := by rw [e1]; exact hs
  have x1 : ExtraOk s1.extra := by rw [e1]; exact hx
  have l1 : s1.extra = F.extra := by rw [e1]
  rcases endGroupFull_cases hp p1 h2 with ⟨rfl, hn, hdev⟩ | e2
  · rcases endDepFull_cases h3 with ⟨rfl, -⟩ | ⟨hn', -⟩
    swap
    · exact absurd hn hn'
    refine ⟨?_, r4, by rw [r5]; exact x1⟩
    cases hF with
    | writing rest hd hg hr hsig hl =>
      refine .writing (rest ++ [(m, i.override.algorithmPrefix.getD R1)]) (by rw [r1, d1, hd]) (by rw [r2, g1, hg])
        (by rw [r3, c1, hr]; simp) (fun h => ?_) (by rw [r5, l1, hl])
      rw [r4, ← hdev h, ← hsig h, hs]
    | ended rest B hd hg hb hl => exact .ended rest B (by rw [r1, d1, hd]) (by rw [r2, g1, hg]) hb (by rw [r5, l1, hl])
    | exported rest B extra D' hd hb he hl => exact .exported rest B extra D' (by rw [r1, d1, hd]) hb he hl
  · have d2 : s2.deps = F.deps := by rw [e2]; exact d1
    have g2 : s2.groups = F.groups ++ [x.groupOf d F.recs] := by rw [e2]; show s1.groups ++ [x.groupOf d s1.recs] = _; rw [g1, c1]
    have x2 : ExtraOk s2.extra := by rw [e2]; exact x1
    have l2 : s2.extra = F.extra := by rw [e2]; exact l1
    have hF2 : (∃ rest B, s2.deps = D ∧ s2.groups = G ++ x.groupOf sig (R ++ rest) :: B ∧ CertsFull B ∧ s2.extra = X) ∨
        ∃ rest B extra D', s2.deps = D ++ exportMangled (G ++ x.groupOf sig (R ++ rest) :: B) extra :: D' ∧ CertsFull B ∧
          ExtraOk extra ∧ SameLinks extra X := by
      cases hF with
      | writing rest hd hg hr hsig hl =>
        refine .inl ⟨rest, [], by rw [d2, hd], ?_, by simp [CertsFull], by rw [l2, hl]⟩
        rw [g2, hg, hr, groupOf_device (d := d) (sig := sig) fun h => by rw [← hs, hsig h]]
      | ended rest B hd hg hb hl =>
        exact .inl ⟨rest, B ++ [x.groupOf d F.recs], by rw [d2, hd], by rw [g2, hg]; simp, hb.snoc hc d F.recs, by rw [l2, hl]⟩
      | exported rest B extra D' hd hb he hl => exact .inr ⟨rest, B, extra, D', by rw [d2, hd], hb, he, hl⟩
    rcases endDepFull_cases h3 with ⟨rfl, -⟩ | ⟨-, register', lastDep, extra', curIdx, e3, he'⟩
    · refine ⟨?_, r4, by rw [r5]; exact x2⟩
      rcases hF2 with ⟨rest, B, hd, hg, hb, hl⟩ | ⟨rest, B, extra, D', hd, hb, he, hl⟩
      · exact .ended rest B (by rw [r1, hd]) (by rw [r2, hg]) hb (by rw [r5, hl])
      · exact .exported rest B extra D' (by rw [r1, hd]) hb he hl
    · have d3 : F'.deps = s2.deps ++ [exportMangled s2.groups s2.addTurnover] := by rw [r1, e3]
      refine ⟨?_, r4, by rw [r5, e3]; exact he'⟩
      rcases hF2 with ⟨rest, B, hd, hg, hb, hl⟩ | ⟨rest, B, extra, D', hd, hb, he, hl⟩
      · exact .exported rest B s2.addTurnover [] (by rw [d3, hd, hg]) hb (FullState.extraOk x2) (hl ▸ s2.sameLinks)
      · exact .exported rest B extra (D' ++ [exportMangled s2.groups s2.addTurnover]) (by rw [d3, hd]; simp) hb he hl

theorem Stays.steps {x : TestCtx} (hp : ∀ k ∈ x.keys, k.omitSign = false)
    (hc : x.spec.groups = true → ∀ k ∈ x.keys, certDER k.cert ≠ []) {D : List Json} {G : List (SGroup (Mangled × Str))}
    {R : List (Mangled × Str)} {sig d : Nat} {X : Dict Json} {F F' : FullState} (hF : Stays x D G R sig X F) (hs : F.prevSig = some d)
    (hx : ExtraOk F.extra) {l : List Instr} (h : x.stepsFull F l = .ok F') :
    Stays x D G R sig X F' ∧ (∃ d, F'.prevSig = some d) ∧ ExtraOk F'.extra := by
  induction l generalizing F d with
  | nil =>
    cases h
    exact ⟨hF, ⟨d, hs⟩, hx⟩
  | cons i l ih =>
    simp only [TestCtx.stepsFull, Res.bind_eq_ok] at h
    obtain ⟨F1, h1, h2⟩ := h
    obtain ⟨a, b, c⟩ := hF.step hp hc hs hx h1
    exact ih a b c h2

/-- The last DEP. -/
theorem finishFull_eq {x : TestCtx} (hp : ∀ k ∈ x.keys, k.omitSign = false) {d : Nat} {F : FullState}
    (hs : F.prevSig = some d) {deps : List Json} (h : x.finishFull F = .ok deps) :
    deps = F.deps ++ [exportMangled (F.groups ++ [x.groupOf d F.recs]) F.addTurnover] := by
  unfold TestCtx.finishFull at h
  rw [hs] at h
  by_cases hc : x.spec.groups = true
  · rw [if_pos hc] at h
    simp only [orErr, Res.ok_bind, Res.bind_eq_ok] at h
    obtain ⟨g, h1, h2⟩ := h
    rw [← certGroupFull_eq hp hc h1]
    exact (Except.ok.inj h2).symm
  · rw [if_neg hc] at h
    rw [groupOf_plain (by simpa using hc)]
    exact (Except.ok.inj h).symm

/-- The DEPs in the end. -/
theorem Stays.finish {x : TestCtx} (hp : ∀ k ∈ x.keys, k.omitSign = false)
    (hc : x.spec.groups = true → ∀ k ∈ x.keys, certDER k.cert ≠ []) {D : List Json} {G : List (SGroup (Mangled × Str))}
    {R : List (Mangled × Str)} {sig d : Nat} {X : Dict Json} {F : FullState} (hF : Stays x D G R sig X F) (hs : F.prevSig = some d)
    (hx : ExtraOk F.extra) {deps : List Json} (h : x.finishFull F = .ok deps) :
    ∃ rest B extra D', deps = D ++ exportMangled (G ++ x.groupOf sig (R ++ rest) :: B) extra :: D' ∧ CertsFull B ∧
      ExtraOk extra ∧ SameLinks extra X := by
  have hg := finishFull_eq hp hs h
  cases hF with
  | writing rest hd hg' hr hsig hl =>
    refine ⟨rest, [], F.addTurnover, [], ?_, by simp [CertsFull], FullState.extraOk hx, hl ▸ F.sameLinks⟩
    rw [hg, hd, hg', hr, groupOf_device (d := d) (sig := sig) fun h => by rw [← hs, hsig h]]
  | ended rest B hd hg' hb hl =>
    exact ⟨rest, B ++ [x.groupOf d F.recs], F.addTurnover, [], by rw [hg, hd, hg']; simp, hb.snoc hc d F.recs,
      FullState.extraOk hx, hl ▸ F.sameLinks⟩
  | exported rest B extra D' hd hb he hl =>
    exact ⟨rest, B, extra, _, by rw [hg, hd, List.append_assoc, List.cons_append], hb, he, hl⟩

/-! ### The falsified receipt and the honest one -/

theorem stepsFull_append (x : TestCtx) (s : FullState) (l l' : List Instr) :
    x.stepsFull s (l ++ l') = (do let s ← x.stepsFull s l; x.stepsFull s l') := by
  induction l generalizing s with
  | nil => rfl
  | cons i l ih =>
    simp only [List.cons_append, TestCtx.stepsFull, ih]
    cases x.stepFull s i <;> rfl

theorem stepsFull_instrs (spec : TestSpec) (l : List Instr) (closed : Bool) (keys : List TestKey) (key : Bytes) (size : Nat)
    (s : FullState) (l' : List Instr) :
    TestCtx.stepsFull ⟨{ spec with instrs := l }, closed, keys, key, size⟩ s l' =
      TestCtx.stepsFull ⟨spec, closed, keys, key, size⟩ s l' := by
  induction l' generalizing s with
  | nil => rfl
  | cons i l' ih =>
    simp only [TestCtx.stepsFull, ih]
    rfl

theorem steps_coherent {x : TestCtx} {l : List Instr} {s s' : TestState} (hs : Coherent s) (hn : s.cur = none → s.lastDep = [])
    (h : x.steps s l = .ok s') : Coherent s' ∧ (s'.cur = none → s'.lastDep = []) := by
  induction l generalizing s with
  | nil =>
    cases h
    exact ⟨hs, hn⟩
  | cons i l ih =>
    simp only [TestCtx.steps, Res.bind_eq_ok] at h
    obtain ⟨s1, h1, h2⟩ := h
    obtain ⟨c1, n1⟩ := step_coherent hs hn h1
    exact ih c1 (fun h => absurd h n1) h2

/-- The same round with and without a falsification. -/
theorem step_both {x : TestCtx} {i : Instr} {v : Falsify} {s s4 : TestState} {F : FullState} (hs : Coherent s)
    (hn : s.cur = none → s.lastDep = []) (h : x.step s i = .ok s4)
    (h' : x.stepFull s.full { i with override := v } = .ok F) :
    ∃ (s3 : TestState) (o : Order) (reg reg' reg2 : CashRegister) (r : Receipt) (m : Mangled) (c : Nat), x.order i = .ok o ∧
      reg.receipt o = (reg', .ok r) ∧ reg.receiptWith o v = (reg2, .ok m) ∧ s4.cur = some c ∧ s4.regs[c]? = some reg' ∧
      s4.recs = s3.recs ++ [(r, R1)] ∧ s4.groups = s3.groups ∧ s4.deps = s3.deps ∧ s4.extra = s3.extra ∧
      s4.prevSig = some i.device ∧
      F.recs = s3.recs.map plainRec ++ [(m, v.algorithmPrefix.getD R1)] ∧ F.groups = s3.groups.map plainGroup ∧
      F.deps = s3.deps ∧ F.extra = s3.extra ∧ F.prevSig = some i.device := by
  unfold TestCtx.step at h
  unfold TestCtx.stepFull at h'
  simp only [Res.bind_eq_ok] at h h'
  obtain ⟨o, ho, s1, h1, s2, h2, s3, h3, h4⟩ := h
  obtain ⟨o', ho', s1', h1', s2', h2', s3', h3', h4'⟩ := h'
  have e0 : o' = o := by
    have : x.order { i with override := v } = x.order i := rfl
    rw [this, ho] at ho'
    exact (Except.ok.inj ho').symm
  subst e0
  obtain ⟨c1, n1, l1⟩ := newRegister_coherent hs h1
  obtain ⟨k1, k2, k3, k4⟩ := endGroup_keeps h2
  have c2 : Coherent s2 := ⟨by rw [k1, k3]; exact c1.start, by rw [k1, k2]; exact c1.known⟩
  have n2 : s2.cur = none → i.newDep = kCluster ∨ s2.lastDep = [] := by
    intro h
    rw [k1] at h
    rcases n1 h with h | h
    · exact .inr (by rw [k4, l1]; exact hn h)
    · exact .inl h
  have c3 := endDep_keeps h3 c2 fun h => .inr (n2 h)
  have e1 : s1' = s1.full := by
    have := newRegister_plain x i hs
    rw [h1] at this
    rw [show x.newRegisterFull { i with override := v } s.full = x.newRegisterFull i s.full from rfl, this] at h1'
    exact (Except.ok.inj h1').symm
  subst e1
  have e2 : s2' = s2.full := by
    have := endGroup_plain x i s1
    rw [h2] at this
    rw [show x.endGroupFull { i with override := v } s1.full = x.endGroupFull i s1.full from rfl, this] at h2'
    exact (Except.ok.inj h2').symm
  subst e2
  have e3 : s3' = s3.full := by
    have := endDep_plain x i n2
    rw [h3] at this
    rw [show x.endDepFull { i with override := v } s2.full = x.endDepFull i s2.full from rfl, this] at h3'
    exact (Except.ok.inj h3').symm
  subst e3
  obtain ⟨reg, reg2, m, r1, r2, r3, r4, r5, r6, r7⟩ := addReceiptFull_cases h4'
  cases hc : s3.cur with
  | some k =>
    obtain ⟨reg1, reg', r, q1, q2, rfl⟩ := addReceipt_known hc h4
    have hk := c3.known k hc
    have : s3.full.regs[s3.full.register]? = s3.regs[k]? := by
      simp only [TestState.full, hc, List.append_nil, Option.getD_some]
    rw [this, q1] at r1
    cases r1
    exact ⟨s3, o', reg, reg', reg2, r, m, k, ho, q2, r2, hc, List.getElem?_set_self hk, rfl, rfl, rfl, rfl, rfl, r5, r4, r3, r7, r6⟩
  | none =>
    obtain ⟨reg', r, q2, rfl⟩ := addReceipt_new hc h4
    have : s3.full.regs[s3.full.register]? = some s3.fresh := by
      simp [TestState.full, hc]
    rw [this] at r1
    cases r1
    exact ⟨s3, o', s3.fresh, reg', reg2, r, m, s3.regs.length, ho, q2, r2, rfl, by simp, rfl, rfl, rfl, rfl, rfl, r5, r4, r3, r7, r6⟩

end

end RKSV
