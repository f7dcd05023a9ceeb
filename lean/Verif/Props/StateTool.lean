import Verif.Spec.StateTool
import Verif.Lemmas.Certless
import Verif.Props.Accept
import Verif.Props.Cluster
import Verif.Props.ChunkSize
import Verif.Props.VerifyTool
import Verif.Props.StateJson
/-
Properties C75 and C76: the command line tool for state files.
-/
namespace RKSV

section
variable [PyEnv]

omit [PyEnv] in
theorem pyIndex_iff {α : Type} {l : List α} {n : Int} {i : Nat} :
    pyIndex l n = .ok i ↔ ∃ a x b, l = a ++ x :: b ∧ Points n a b ∧ i = a.length := by
  have key : (∃ a x b, l = a ++ x :: b ∧ Points n a b ∧ i = a.length) ↔
      i < l.length ∧ (n = i ∨ n = (i : Int) - l.length) := by
    constructor
    · rintro ⟨a, x, b, rfl, hp, rfl⟩
      unfold Points at hp
      simp only [List.length_append, List.length_cons]
      omega
    · rintro ⟨hi, hn⟩
      refine ⟨l.take i, l[i], l.drop (i + 1), ?_, ?_, ?_⟩
      · rw [List.getElem_cons_drop, List.take_append_drop]
      · unfold Points
        simp only [List.length_take, List.length_drop]
        omega
      · simp; omega
  rw [key]
  unfold pyIndex
  simp only
  split <;> split <;> simp only [Except.ok.injEq, reduceCtorEq, false_iff] <;> omega

omit [PyEnv] in
theorem modify_iff {c c' : Cluster} {n : Int} {f : RegState → Res RegState} :
    c.modify n f = .ok c' ↔ Changes n (fun r r' => f r = .ok r') c c' := by
  unfold Cluster.modify Changes
  simp only [Res.bind_eq_ok, orErr_eq_ok, pyIndex_iff, Except.ok.injEq]
  constructor
  · rintro ⟨i, ⟨a, x, b, h, hp, rfl⟩, r, hr, r', hf, rfl⟩
    rw [h] at hr
    simp only [List.getElem?_append_right (le_refl _), Nat.sub_self, List.getElem?_cons_zero, Option.some.injEq] at hr
    subst hr
    exact ⟨a, x, r', b, h, hp, hf, by simp [h]⟩
  · rintro ⟨a, r, r', b, h, hp, hf, rfl⟩
    exact ⟨a.length, ⟨a, r, b, h, hp, rfl⟩, r, by simp [h], r', hf, by simp [h]⟩

omit [PyEnv] in
theorem noneOr_iff {t : Str} {o : Option Str} : NoneOr t o ↔ o = argOrNone t := by
  unfold NoneOr argOrNone
  split <;> simp [*]

theorem foldl_add_unique (l : List Str) (ids : Finset Str) :
    l.foldl Used.add (.unique ids) = .unique (ids ∪ l.toFinset) := by
  induction l generalizing ids with
  | nil => simp
  | cons x l ih =>
    rw [List.foldl_cons, Used.add, ih]
    congr 1
    ext y
    simp

omit [PyEnv] in
theorem foldl_add_sorted (l : List Str) : l.foldl Used.add (.sorted none none) = .sorted l.head? l.getLast? := by
  have key : ∀ (l : List Str) (lo hi : Str), l.foldl Used.add (.sorted (some lo) (some hi)) =
      .sorted (some lo) (some (l.getLast?.getD hi)) := by
    intro l
    induction l with
    | nil => intro lo hi; rfl
    | cons x l ih =>
      intro lo hi
      rw [List.foldl_cons, Used.add, ih]
      cases l <;> simp [List.getLast?_cons]
  cases l with
  | nil => rfl
  | cons x l =>
    rw [List.foldl_cons, Used.add, key]
    simp [List.getLast?_cons]

/-- C75: an editing command succeeds exactly if the edit is possible, and does what the specification says. -/
theorem state_edit_iff {v : PyVersion} {backend : Used} {n : Nat} {file : Json} {c c' : Cluster}
    (hf : Cluster.fromJson file = .ok c) {cmd : StateCmd} (he : cmd.Edits) :
    stateCommand v backend.fresh n file cmd = .ok c' ↔ Edit backend.fresh c cmd c' := by
  cases cmd with
  | create => exact he.elim
  | update => exact he.elim
  | fromReceipt => exact he.elim
  | fromStart => exact he.elim
  | «show» =>
    simp only [stateCommand, hf, Except.ok.injEq]
    constructor
    · rintro rfl; exact .show
    · rintro ⟨⟩; rfl
  | add =>
    simp only [stateCommand, hf, Res.ok_bind, addNew_iff]
    constructor
    · rintro ⟨h, rfl⟩; exact .add h
    · intro h
      cases h with
      | add h => exact ⟨h, rfl⟩
  | reset n =>
    simp only [stateCommand, hf, Res.ok_bind, register_update_iff]
    constructor
    · rintro ⟨a, r, b, h, hn, rfl⟩
      simp only [Option.some.injEq, reduceCtorEq, false_and, or_false] at hn
      subst hn
      exact .reset a b r h
    · intro h
      cases h with
      | reset a b r h => exact ⟨a, r, b, h, .inl rfl, rfl⟩
  | delete n =>
    simp only [stateCommand, hf, Res.ok_bind, Res.bind_eq_ok, pyIndex_iff, Except.ok.injEq]
    constructor
    · rintro ⟨i, ⟨a, r, b, h, hp, rfl⟩, rfl⟩
      have : c.regs.eraseIdx a.length = a ++ b := by
        rw [h, List.eraseIdx_append_of_length_le (le_refl _)]; simp
      rw [this]
      exact .delete n a b r h hp
    · intro he
      obtain ⟨a, b, r, h, hp, rfl⟩ : ∃ a b r, c.regs = a ++ r :: b ∧ Points n a b ∧ c' = ⟨a ++ b, c.used⟩ := by
        cases he with
        | delete _ a b r h hp => exact ⟨a, b, r, h, hp, rfl⟩
      refine ⟨a.length, ⟨a, r, b, h, hp, rfl⟩, ?_⟩
      rw [h, List.eraseIdx_append_of_length_le (le_refl _)]; simp
  | setLast n t =>
    simp only [stateCommand, hf, Res.ok_bind, modify_iff]
    have e : (fun r r' : RegState => (.ok { r with last := argOrNone t } : Res RegState) = .ok r') =
        fun r r' => ∃ o, NoneOr t o ∧ r' = { r with last := o } := by
      funext r r'
      simp only [noneOr_iff, exists_eq_left, Except.ok.injEq, eq_comm]
    rw [e]
    exact ⟨fun h => .setLast n t c' h, fun h => by cases h with | setLast _ _ _ h => exact h⟩
  | setCounter n x =>
    simp only [stateCommand, hf, Res.ok_bind, modify_iff]
    have e : (fun r r' : RegState => (.ok { r with counter := x } : Res RegState) = .ok r') =
        fun r r' => r' = { r with counter := x } := by
      funext r r'
      simp only [Except.ok.injEq, eq_comm]
    rw [e]
    exact ⟨fun h => .setCounter n x c' h, fun h => by cases h with | setCounter _ _ _ h => exact h⟩
  | setChain n t =>
    simp only [stateCommand, hf, Res.ok_bind, modify_iff]
    have e : (fun r r' : RegState => (.ok { r with chainNext := argOrNone t } : Res RegState) = .ok r') =
        fun r r' => ∃ o, NoneOr t o ∧ r' = { r with chainNext := o } := by
      funext r r'
      simp only [noneOr_iff, exists_eq_left, Except.ok.injEq, eq_comm]
    rw [e]
    exact ⟨fun h => .setChain n t c' h, fun h => by cases h with | setChain _ _ _ h => exact h⟩
  | toggle n =>
    simp only [stateCommand, hf, Res.ok_bind, modify_iff]
    have e : (fun r r' : RegState => (.ok { r with needRestore := !r.needRestore } : Res RegState) = .ok r') =
        fun r r' => r' = { r with needRestore := !r.needRestore } := by
      funext r r'
      simp only [Except.ok.injEq, eq_comm]
    rw [e]
    exact ⟨fun h => .toggle n c' h, fun h => by cases h with | toggle _ _ h => exact h⟩
  | setStart n t =>
    simp only [stateCommand, hf, Res.ok_bind, modify_iff]
    have e : (fun r r' : RegState => (.ok { r with start := argOrNone t } : Res RegState) = .ok r') =
        fun r r' => ∃ o, NoneOr t o ∧ r' = { r with start := o } := by
      funext r r'
      simp only [noneOr_iff, exists_eq_left, Except.ok.injEq, eq_comm]
    rw [e]
    exact ⟨fun h => .setStart n t c' h, fun h => by cases h with | setStart _ _ _ h => exact h⟩
  | readIds lines =>
    simp only [stateCommand, hf, Res.ok_bind, Except.ok.injEq]
    cases lines with
    | none =>
      constructor
      · rintro rfl; exact .noIds
      · rintro ⟨⟩; rfl
    | some lines =>
      cases backend with
      | unique ids =>
        simp only [Option.getD_some, Used.fresh, foldl_add_unique, Finset.empty_union]
        constructor
        · rintro rfl; exact .readUnique lines rfl
        · intro h
          cases h with
          | readUnique _ _ => rfl
          | readSorted _ h => cases h
      | sorted lo hi =>
        simp only [Option.getD_some, Used.fresh, foldl_add_sorted, List.head?_map, List.getLast?_map]
        constructor
        · rintro rfl; exact .readSorted lines rfl
        · intro h
          cases h with
          | readUnique _ h => cases h
          | readSorted _ _ => rfl
  | copy n source m =>
    simp only [stateCommand, hf, Res.ok_bind, Res.bind_eq_ok, pyIndex_iff, orErr_eq_ok, modify_iff, Except.ok.injEq]
    constructor
    · rintro ⟨d, hd, i, ⟨a, x, b, h, hp, rfl⟩, r, hr, hc⟩
      rw [h] at hr
      simp only [List.getElem?_append_right (le_refl _), Nat.sub_self, List.getElem?_cons_zero, Option.some.injEq] at hr
      subst hr
      refine .copy n m source d c' a b x hd h hp ?_
      simpa only [eq_comm] using hc
    · intro h
      obtain ⟨d, a, b, r, hd, h, hp, hc⟩ : ∃ d a b r, Cluster.fromJson source = .ok d ∧ d.regs = a ++ r :: b ∧
          Points m a b ∧ Changes n (fun _ r' => r' = r) c c' := by
        cases h with
        | copy _ _ _ d _ a b r hd h hp hc => exact ⟨d, a, b, r, hd, h, hp, hc⟩
      refine ⟨d, hd, _, ⟨a, r, b, h, hp, rfl⟩, r, by simp [h], ?_⟩
      simpa only [eq_comm] using hc

omit [PyEnv] in
theorem Changes.spares {n : Int} {R : RegState → RegState → Prop} {c c' : Cluster} (h : Changes n R c c') :
    Spares n c c' := by
  obtain ⟨a, r, r', b, h, hp, -, rfl⟩ := h
  exact .inr ⟨a, r, b, h, hp, rfl, .inr ⟨r', rfl⟩⟩

theorem updateGroups_spares {key : Option Bytes} {n : Int} {c c' : Cluster} {gs : List DepGroup}
    (h : updateGroups key n c gs = .ok c') : Spares n c c' := by
  have key_ : ∀ (gs : List DepGroup) (d : Cluster) (a b : List RegState) (r : RegState), d.regs = a ++ r :: b →
      Points n a b → updateGroups key n d gs = .ok c' → c'.used = d.used ∧ ∃ r', c'.regs = a ++ r' :: b := by
    intro gs
    induction gs with
    | nil =>
      intro d a b r hd _ h
      cases h
      exact ⟨rfl, r, hd⟩
    | cons g gs ih =>
      intro d a b r hd hp h
      simp only [updateGroups, Res.bind_eq_ok] at h
      obtain ⟨e, h1, h2⟩ := h
      obtain ⟨a', r1, r2, b', hd', hp', -, rfl⟩ := modify_iff.mp h1
      have hl : a'.length = a.length := by
        have := congrArg List.length (hd.symm.trans hd')
        simp only [List.length_append, List.length_cons] at this
        unfold Points at hp hp'
        omega
      obtain ⟨rfl, h3⟩ := List.append_inj (hd'.symm.trans hd) hl
      cases h3
      exact ih ⟨a' ++ r2 :: b, d.used⟩ a' b r2 rfl hp h2
  cases gs with
  | nil => cases h; exact .inl rfl
  | cons g gs =>
    have h' := h
    simp only [updateGroups, Res.bind_eq_ok] at h
    obtain ⟨e, h1, -⟩ := h
    obtain ⟨a, r, -, b, hc, hp, -⟩ := modify_iff.mp h1
    obtain ⟨h2, r', h3⟩ := key_ (g :: gs) c a b r hc hp h'
    exact .inr ⟨a, r, b, hc, hp, h2, .inr ⟨r', h3⟩⟩

/-- C75, for commands other than `resetCashRegister`: a command that names a register leaves the other registers
and the used receipt IDs alone. -/
theorem state_edit_spares_partial {v : PyVersion} {backend : Used} {n : Nat} {file : Json} {c c' : Cluster}
    (hf : Cluster.fromJson file = .ok c) {cmd : StateCmd} {i : Int} (hi : cmd.names = some i)
    (hr : ∀ i, cmd ≠ .reset i) (h : stateCommand v backend n file cmd = .ok c') : Spares i c c' := by
  cases cmd with
  | reset i => exact absurd rfl (hr i)
  | delete i =>
    cases hi
    simp only [stateCommand, hf, Res.ok_bind, Res.bind_eq_ok, pyIndex_iff, Except.ok.injEq] at h
    obtain ⟨_, ⟨a, r, b, h, hp, rfl⟩, rfl⟩ := h
    refine .inr ⟨a, r, b, h, hp, rfl, .inl ?_⟩
    rw [h, List.eraseIdx_append_of_length_le (le_refl _)]; simp
  | setLast | setCounter | setChain | toggle | setStart =>
    cases hi
    simp only [stateCommand, hf, Res.ok_bind, modify_iff] at h
    exact h.spares
  | copy =>
    cases hi
    simp only [stateCommand, hf, Res.ok_bind, Res.bind_eq_ok, modify_iff] at h
    obtain ⟨_, _, _, _, _, _, h⟩ := h
    exact h.spares
  | update i dep key =>
    cases hi
    simp only [stateCommand, hf, Res.ok_bind, Res.bind_eq_ok] at h
    obtain ⟨d, h1, h2⟩ := h
    split at h2 <;> cases h2
    exact updateGroups_spares h1
  | create | «show» | add | readIds | fromReceipt | fromStart => cases hi

/-- C75: a command that fails leaves the file alone. -/
theorem state_tool_failed {v : PyVersion} {backend : Used} {n : Nat} {order : Finset Str → List Str} {file file' : Json}
    {cmd : StateCmd} {e : Err} (h : stateTool v backend n order file cmd = (file', .error e)) : file' = file := by
  unfold stateTool at h
  split at h <;> cases h
  rfl

/-- C75 for sequences of commands on a state file: what is in the file at the end is the state before, edited
by those commands that were possible. -/
theorem state_session_iff {v : PyVersion} {backend : Used} {n : Nat} {order : Finset Str → List Str}
    (ho : ∀ s, (order s).toFinset = s) {file : Json} {c c' : Cluster} (hf : Cluster.fromJson file = .ok c)
    {l : List StateCmd} (hl : ∀ cmd ∈ l, cmd.Edits) :
    Cluster.fromJson (l.foldl (fun f cmd => (stateTool v backend.fresh n order f cmd).1) file) = .ok c' ↔
      Edits backend.fresh c l c' := by
  induction l generalizing file c with
  | nil =>
    rw [List.foldl_nil, hf, Except.ok.injEq]
    constructor
    · rintro rfl; exact .nil _
    · rintro ⟨⟩; rfl
  | cons cmd l ih =>
    have ih := fun {file c} hf => @ih file c hf fun x hx => hl x (by simp [hx])
    have hc := fun d => state_edit_iff (v := v) (backend := backend) (n := n) (c' := d) hf (hl cmd (by simp))
    rw [List.foldl_cons]
    cases hs : stateCommand v backend.fresh n file cmd with
    | error e =>
      have : (stateTool v backend.fresh n order file cmd).1 = file := by simp only [stateTool, hs]
      rw [this, ih hf]
      have hno : ∀ d, ¬Edit backend.fresh c cmd d := by
        intro d hd
        have := (hc d).mpr hd
        rw [hs] at this
        cases this
      constructor
      · exact fun h => .refused c c' cmd l hno h
      · intro h
        cases h with
        | done _ d _ _ _ h => exact absurd h (hno d)
        | refused _ _ _ _ _ h => exact h
    | ok d =>
      have : (stateTool v backend.fresh n order file cmd).1 = d.toJson order := by simp only [stateTool, hs]
      rw [this, ih (state_json_round_trip order ho d)]
      constructor
      · exact fun h => .done c d c' cmd l ((hc d).mp hs) h
      · intro h
        cases h with
        | done _ d' _ _ _ h h' =>
          have := (hc d').mpr h
          rw [hs] at this
          cases this
          exact h'
        | refused _ _ _ _ h _ => exact absurd ((hc d).mp hs) (h d)

/-! ### C76 -/

/-- Acceptance without the used IDs. -/
theorem verifyDEP_fresh {ks : KeyStore} {key : Option Bytes} {c c' : Cluster} {i : Nat} (hi : i < c.regs.length)
    {dep : Stream} (h : verifyDEP ks key c (some (i : Int)) dep = (c', .ok ())) :
    ∃ u, verifyDEP ks key ⟨c.regs, c.used.fresh⟩ (some (i : Int)) dep = (⟨c'.regs, u⟩, .ok ()) := by
  rw [verifyDEP_iff] at h
  obtain ⟨he, c₁, ps, s, P, s', u', j, hinfo, hp, hv, hri, hidx, rfl⟩ := h
  obtain ⟨h', -, -, hch, -, hany⟩ := groups_used (packageChunk_able hp) hv
  have hfr : Checked (Checks ps s) c.used.fresh h' :=
    (checked_fresh_true (checked_fresh hch)).weaken fun _ => trivial
  have hnew : c₁ = c ∧ Info ⟨c.regs, c.used.fresh⟩ (some (i : Int)) ⟨c.regs, c.used.fresh⟩ ps s := by
    generalize hx : (some (i : Int) : Option Int) = idx at hinfo
    cases hinfo with
    | new _ h hl =>
      subst hx
      rcases h with h | h
      · cases h
      · simp only [Option.some.injEq, Nat.cast_inj] at h; omega
    | first _ h => exact ⟨rfl, .first _ h⟩
    | later k p _ hp h => exact ⟨rfl, .later k p _ hp h⟩
  obtain ⟨rfl, hnew⟩ := hnew
  refine ⟨addAll c₁.used.fresh h', ?_⟩
  rw [verifyDEP_iff]
  exact ⟨he, _, ps, s, P, s', _, j, hnew, hp, hany _ hfr, hri, by simpa using hidx, rfl⟩

/-- Going through verified groups with `fromGroup`. -/
theorem groups_fold {key : Option Bytes} {ps : Option Str} {P : List (List Bytes × Verifier)} (hP : Able P)
    {s s' : RegState} {used used' : Used} (hc : Consistent s) (ok : verifyGroups key ps s used P = .ok (s', used'))
    {n : Int} {a b : List RegState} (hn : Points n a b) {u : Used} {gs : List DepGroup}
    (hg : gs.map (·.recs) = P.map (·.1)) :
    updateGroups key n ⟨a ++ s :: b, u⟩ gs = .ok ⟨a ++ s' :: b, u⟩ := by
  induction P generalizing s used gs with
  | nil =>
    cases ok
    simp only [List.map_nil, List.map_eq_nil_iff] at hg
    subst hg
    rfl
  | cons p P ih =>
    obtain ⟨r, v⟩ := p
    cases gs with
    | nil => cases hg
    | cons g gs =>
      simp only [List.map_cons, List.cons.injEq] at hg
      simp only [verifyGroups, Res.bind_eq_ok] at ok
      obtain ⟨⟨s1, u1⟩, h1, h2⟩ := ok
      have hv := hP (r, v) (by simp)
      have e : Cluster.modify ⟨a ++ s :: b, u⟩ n (fun x => x.fromGroup g.recs key) = .ok ⟨a ++ s1 :: b, u⟩ :=
        modify_iff.mpr ⟨a, s, s1, b, rfl, hn, by
          rw [hg.1]; exact predicted_eq_verified (c := ⟨v, key, ps⟩) hv hc h1, rfl⟩
      rw [updateGroups, e, Res.ok_bind]
      exact ih (fun q hq => hP q (by simp [hq])) (consistent_kept (c := ⟨v, key, ps⟩) hv hc h1) h2 hg.2

/-- C73 for the parser that skips certificates: it accepts what the file parser accepts, and yields the same receipts. -/
theorem certless_parse {doc : Json} {n : Nat} (h : (fileParse doc n).err = none) :
    (certlessParse doc n).err = none ∧
      (certlessParse doc n).chunks.map Chunk.texts = (fileParse doc n).chunks.map Chunk.texts :=
  alike_parse (fun _ => ⟨none, rfl⟩) h

/-- C76: after a DEP has been verified for a register, updating the register from the same DEP with the state tool gives
the same state of the register, whatever the chunk size; the used IDs are not updated. -/
theorem state_update_verified {dep : Json} (hd : PlainDoc dep) (ha : NoTextReceipts dep) {ks : KeyStore}
    {key : Option Bytes} {c c' : Cluster} (hc : ∀ r ∈ c.regs, Consistent r) {i : Nat} (hi : i < c.regs.length)
    (hv : verifyDEP ks key c (some (i : Int)) (dictParse 1 dep 0) = (c', .ok ())) {n : Int}
    (hn : n = i ∨ n = (i : Int) - c.regs.length) (v : PyVersion) (backend : Used) (size : Nat)
    (order : Finset Str → List Str) {file : Json} (hf : Cluster.fromJson file = .ok c) :
    stateTool v backend size order file (.update n dep key) = (Cluster.toJson order ⟨c'.regs, c.used⟩, .ok ()) := by
  obtain ⟨gs, hgs, hsome⟩ := (dict_accepts_iff_partial ha 1 0).mp (verifyDEP_iff.mp hv).1
  have hz := dict_chunks_zero hgs (nparts := 1) (le_refl _) hsome
  obtain ⟨chunks, hfile, hne, hch⟩ := (mode_chunks hd hgs hsome 1 size).2
  obtain ⟨u, hv'⟩ := verifyDEP_fresh hi hv
  obtain ⟨hpar, -⟩ := (chunk_size_partial (ks := ks) (key := key) (c := ⟨c.regs, c.used.fresh⟩) (c' := ⟨c'.regs, u⟩)
    (idx := some (i : Int)) hz (parts := ⟨chunks, none⟩) hch hne rfl (wk := .alone) (nprocs := 1)
    (.inr (le_refl _)) hc).mp ⟨hv', firstFresh_of_fresh _ _⟩
  obtain ⟨-, c₁, ps, s, used, pkgs, s', used', r, hinfo, hpk, hvg, -, rfl, hup⟩ :=
    (parallel_iff (c := ⟨c.regs, c.used.fresh⟩) (.inr (le_refl _)) hc).mp hpar
  obtain ⟨a, old, b, hregs, hidx, hc'⟩ := register_update_iff.mp hup
  simp only [Option.some.injEq, Nat.cast_inj, reduceCtorEq, false_and, or_false] at hidx
  have hinfo' := (getInfo_iff.mp hinfo).1
  have hs : c₁.regs = c.regs ∧ c.regs[i]? = some s := by
    generalize hx : (some (i : Int) : Option Int) = idx at hinfo'
    cases hinfo' with
    | new _ h hl =>
      subst hx
      rcases h with h | h
      · cases h
      · simp only [Option.some.injEq, Nat.cast_inj] at h; omega
    | first _ h =>
      simp only [Option.some.injEq, Nat.cast_eq_zero] at hx
      subst hx
      exact ⟨rfl, h⟩
    | later k p _ hp h =>
      simp only [Option.some.injEq, Nat.cast_inj] at hx
      subst hx
      exact ⟨rfl, h⟩
  obtain ⟨h1, h2⟩ := hs
  rw [h1] at hregs
  have hold : old = s := by
    rw [hregs, hidx] at h2
    simpa using h2
  subst hold
  have hpts : Points n a b := by
    have := congrArg List.length hregs
    simp only [List.length_append, List.length_cons] at this
    unfold Points
    omega
  have hable : Able pkgs.flatten := by
    intro p hp
    obtain ⟨l, hl, hpl⟩ := List.mem_flatten.mp hp
    obtain ⟨ck, -, hck⟩ := forall₂_mem_right (mapRes_iff.mp hpk) hl
    exact packageChunk_able hck p hpl
  have hrecs : chunks.map Chunk.texts = pkgs.map fun P => P.map (·.1) := by
    have := mapRes_iff.mp hpk
    clear hpk hvg hable hfile hne hch hpar
    induction this with
    | nil => rfl
    | cons h _ ih => simp only [List.map_cons, ih, packageChunk_recs h, Chunk.texts]
  obtain ⟨hce, hct⟩ := certless_parse (doc := dep) (n := size) (by rw [hfile])
  rw [hfile] at hct
  have hg : (certlessParse dep size).chunks.flatten.map (·.recs) = pkgs.flatten.map (·.1) := by
    rw [List.map_flatten, List.map_flatten, ← hrecs]
    exact congrArg List.flatten hct
  have hold : Consistent old := hc old (by rw [hregs]; simp)
  have hfold := groups_fold hable hold hvg hpts (u := c.used) hg
  have hcc : c = ⟨a ++ old :: b, c.used⟩ := by rw [← hregs]
  have hcmd : stateCommand v backend size file (.update n dep key) = .ok ⟨c'.regs, c.used⟩ := by
    simp only [stateCommand, hf, Res.ok_bind]
    rw [← hcc] at hfold
    rw [hfold, Res.ok_bind, hce]
    have := congrArg Cluster.regs hc'
    simp only at this
    rw [this]
  simp only [stateTool, hcmd]

end

namespace Demo

attribute [local instance] env

/-- A session: one command is refused. -/
def editing : List StateCmd := [.add, .setCounter 1 500, .delete 7, .toggle (-1), .setStart 0 c!"None"]

example (order : Finset Str → List Str) (ho : ∀ s, (order s).toFinset = s) (n : Nat) :
    Cluster.fromJson (editing.foldl (fun f cmd => (stateTool .py3 (.unique ∅) n order f cmd).1)
      (Cluster.toJson order ⟨[final], .unique ids⟩)) =
    .ok ⟨[{ final with start := none }, { counter := 500, needRestore := true }], .unique ids⟩ := by
  refine (state_session_iff (backend := .unique ∅) ho (state_json_round_trip order ho _)
    (by simp [editing, StateCmd.Edits])).mpr ?_
  refine .done _ _ _ _ _ (.add ?_) ?_
  · intro r hr
    have e : r = final := (Option.some.inj hr).symm
    subst e
    have h1 : final.start.isSome = true := by decide +kernel
    have h2 : final.start ≠ some [] := by decide +kernel
    obtain ⟨t, ht⟩ := Option.isSome_iff_exists.mp h1
    exact ⟨t, ht, by rintro rfl; exact h2 ht⟩
  refine .done _ _ _ _ _ (.setCounter _ _ _ ⟨[final], {}, _, [], rfl, .inl rfl, rfl, rfl⟩) ?_
  refine .refused _ _ _ _ ?_ ?_
  · intro d h
    cases h with
    | delete _ a b r h hp =>
      have := congrArg List.length h
      simp only [List.length_append, List.length_cons, List.length_nil] at this
      unfold Points at hp
      omega
  refine .done _ _ _ _ _ (.toggle _ _ ⟨[final], _, _, [], rfl, .inr rfl, rfl, rfl⟩) ?_
  refine .done _ _ _ _ _ (.setStart _ _ _ ⟨[], final, _, _, rfl, .inl rfl, ⟨none, .inl ⟨rfl, rfl⟩, rfl⟩, rfl⟩) ?_
  exact .nil _

/-- Commands for one register do touch the others: resetting the second register forgets the receipt IDs used
by the first one. -/
theorem reset_forgets (order : Finset Str → List Str) (ho : ∀ s, (order s).toFinset = s) (n : Nat) :
    stateTool .py3 (.unique ∅) n order (Cluster.toJson order ⟨[final, {}], .unique ids⟩) (.reset 1) =
      (Cluster.toJson order ⟨[final, {}], .unique ∅⟩, .ok ()) ∧
    c!"R1" ∈ ids := by
  have : stateCommand .py3 (.unique ∅) n (Cluster.toJson order ⟨[final, {}], .unique ids⟩) (.reset 1) =
      .ok ⟨[final, {}], .unique ∅⟩ :=
    (state_edit_iff (backend := .unique ∅) (cmd := .reset 1) (state_json_round_trip order ho _) trivial).mpr
      (.reset [final] [] {} rfl)
  refine ⟨by simp only [stateTool, this], by decide +kernel⟩

set_option maxRecDepth 100000 in
theorem dayDoc_first : verifyDEP deviceStore (some aes) ⟨[{}], .unique ∅⟩ (some (0 : Nat)) (dictParse 1 dayDoc 0) =
    (⟨[final], .unique ids⟩, .ok ()) :=
  eq_of_isDone (by decide +kernel)

/-- The day of the register, with any chunk size. -/
example (order : Finset Str → List Str) (ho : ∀ s, (order s).toFinset = s) (size : Nat) :
    stateTool .py3 (.unique ∅) size order (Cluster.toJson order ⟨[{}], .unique ∅⟩) (.update (-1) dayDoc (some aes)) =
      (Cluster.toJson order ⟨[final], .unique ∅⟩, .ok ()) := by
  refine state_update_verified dayDoc_plain ?_ (by simp [fresh_consistent]) (by simp) dayDoc_first (.inr rfl) _ _ _ _
    (state_json_round_trip order ho _)
  intro root js d v h hr hd hv
  cases h
  cases hr
  simp only [List.mem_cons, List.not_mem_nil, or_false] at hd
  rcases hd with hd | hd <;> cases hd <;> cases hv <;> simp [names]

end Demo

end RKSV
