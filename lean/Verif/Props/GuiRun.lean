import Verif.Model.GuiRun
import Verif.Props.Gui
/-
Property C98: the tab for DEPs of the graphical tool, for every order of events.
-/
namespace RKSV

section
variable [PyEnv]

/-- The DEP in a file is accepted with a key store and an AES key, for a register without history. -/
def DocAccepted (ks : KeyStore) (key : Option Bytes) (doc : Json) : Prop :=
  ∃ c', verifyDEP ks key ⟨[], .unique ∅⟩ none (dictParse 1 doc 0) = (c', .ok ())

/-- The machine is in state `s` after the events `evs`, from the start. -/
def GuiReaches (nprocs : Nat) (evs : List GuiEvent) (s : GuiState) : Prop := GuiState.fresh.run nprocs evs = some s

/-- The DEP shown is the one in a file loaded before. -/
def Shows (evs : List GuiEvent) (s : GuiState) (doc : Json) : Prop :=
  .load (.ok doc) ∈ evs ∧ ∃ dep, guiLoad doc = .ok dep ∧ s.dep = some dep

omit [PyEnv] in
/-- The AES key meant by a text: none if there is no text, otherwise what the text is the base64 encoding of. -/
def TypedKey (text : Str) : Option Bytes → Prop
  | none => text = []
  | some k => text ≠ [] ∧ b64Decode false text = some k

omit [PyEnv] in
theorem guiKey_iff {text : Str} {key : Option Bytes} : guiKey text = .ok key ↔ TypedKey text key := by
  unfold guiKey loadB64Key
  by_cases h : text = []
  · subst h
    cases key <;> simp [TypedKey]
  · rw [if_neg h]
    cases key with
    | none => cases hb : b64Decode false text <;> simp [TypedKey, h, orErr, Except.map]
    | some k => cases hb : b64Decode false text <;> simp [TypedKey, h, orErr, Except.map, hb]

/-! ### What the tasks find out -/

theorem groupPerChunk_singles (js : List Json) :
    ∃ dep : List DepGroup, (groupPerChunk js).chunks = dep.map (fun g => [g]) ∧ ∀ g ∈ dep, g.recs ≠ [] := by
  induction js with
  | nil => exact ⟨[], rfl, by simp⟩
  | cons j js ih =>
    obtain ⟨dep, h1, h2⟩ := ih
    rw [groupPerChunk]
    cases parseDEPGroup j with
    | error e => exact ⟨[], rfl, by simp⟩
    | ok g =>
      simp only
      cases g.err with
      | some e => exact ⟨[], rfl, by simp⟩
      | none =>
        simp only
        by_cases hr : g.recs = []
        · rw [if_pos hr]
          exact ⟨dep, h1, h2⟩
        · rw [if_neg hr]
          refine ⟨⟨g.recs, g.cert, g.chain⟩ :: dep, by simp [h1], ?_⟩
          intro x hx
          rcases List.mem_cons.mp hx with rfl | hx
          · exact hr
          · exact h2 x hx

theorem heads_singles (l : List DepGroup) :
    mapRes (fun c : Chunk => orErr c.head? .indexError) (l.map fun g => [g]) = .ok l := by
  induction l with
  | nil => rfl
  | cons g l ih =>
    rw [List.map_cons, mapRes, ih]
    rfl

/-- A file that could be loaded gives the groups with receipts. -/
theorem guiLoad_inv {doc : Json} {dep : List DepGroup} (h : guiLoad doc = .ok dep) :
    dictParse 1 doc 0 = ⟨dep.map fun g => [g], none⟩ ∧ dep ≠ [] ∧ ∀ g ∈ dep, g.recs ≠ [] := by
  have hs : ∃ dep : List DepGroup, (dictParse 1 doc 0).chunks = dep.map (fun g => [g]) ∧ (∀ g ∈ dep, g.recs ≠ []) ∧
      ((dictParse 1 doc 0).err = none → dep ≠ []) := by
    unfold dictParse
    cases doc.asObj with
    | none => exact ⟨[], rfl, by simp, by simp⟩
    | some root =>
      simp only
      split
      · rename_i j js _
        obtain ⟨dep, h1, h2⟩ := groupPerChunk_singles (j :: js)
        simp only [Nat.lt_irrefl, false_and, if_false, if_true]
        by_cases hc : (groupPerChunk (j :: js)).err = none ∧ (groupPerChunk (j :: js)).chunks = []
        · rw [if_pos hc]
          exact ⟨[], rfl, by simp, by simp⟩
        · rw [if_neg hc]
          refine ⟨dep, h1, h2, fun he hd => hc ⟨he, ?_⟩⟩
          rw [h1, hd]
          rfl
      · exact ⟨[], rfl, by simp, by simp⟩
  obtain ⟨dep', h1, h2, h3⟩ := hs
  unfold guiLoad at h
  rw [h1, heads_singles, Res.ok_bind] at h
  generalize dictParse 1 doc 0 = st at h h1 h3 ⊢
  obtain ⟨cs, err⟩ := st
  cases err with
  | some e => cases h
  | none =>
    cases h
    simp only at h1
    exact ⟨by rw [h1], h3 rfl, h2⟩

/-- The three kinds of tasks succeed exactly if the DEP is accepted. -/
theorem tasks_accepted {ks : KeyStore} {key : Option Bytes} {nprocs : Nat} (hn : nprocs ≠ 0) {doc : Json}
    {dep : List DepGroup} (h : guiLoad doc = .ok dep) :
    (∃ ts us u, guiPrepare ks key nprocs dep = .ok ts ∧ guiMain key ts = .ok us ∧ guiFinalize us = .ok u) ↔
      DocAccepted ks key doc := by
  obtain ⟨hp, hne, hall⟩ := guiLoad_inv h
  have hfl : (dep.map fun g => [g]).flatten = dep := by
    rw [← List.flatMap_def, List.flatMap_singleton']
  rw [guiTasks_iff hn hne hall]
  unfold DocAccepted
  simp only [hp, verifyDEP_iff, hfl, true_and]
  constructor
  · rintro ⟨P, ⟨s', u'⟩, hP, hx⟩
    obtain ⟨c₁, hi⟩ : ∃ c₁ : Cluster, Info ⟨[], .unique ∅⟩ none c₁ none {} ∧ c₁.regs[0]? = some ({} : RegState) :=
      ⟨_, (getInfo_iff.mp rfl).1, rfl⟩
    exact ⟨_, c₁, none, {}, P, s', u', 0, hi.1, hP, hx, hi.2, by simp, rfl⟩
  · rintro ⟨c', c₁, ps, s, P, s', u', i, hi, hP, hx, hs, -, -⟩
    have := getInfo_iff.mpr ⟨hi, rfl⟩
    cases this
    exact ⟨P, _, hP, hx⟩

/-! ### Runs -/

theorem GuiState.run_append {nprocs : Nat} {s : GuiState} {es fs : List GuiEvent} :
    s.run nprocs (es ++ fs) = (s.run nprocs es).bind fun s => s.run nprocs fs := by
  induction es generalizing s with
  | nil => rfl
  | cons e es ih =>
    simp only [List.cons_append, GuiState.run]
    cases s.step nprocs e with
    | none => rfl
    | some s => exact ih

theorem GuiReaches.snoc {nprocs : Nat} {evs : List GuiEvent} {e : GuiEvent} {s : GuiState} :
    GuiReaches nprocs (evs ++ [e]) s ↔ ∃ s₁, GuiReaches nprocs evs s₁ ∧ s₁.step nprocs e = some s := by
  unfold GuiReaches
  rw [GuiState.run_append]
  simp only [Option.bind_eq_some_iff, GuiState.run]
  constructor
  · rintro ⟨s₁, h1, s₂, h2, h3⟩
    cases h3
    exact ⟨s₁, h1, h2⟩
  · rintro ⟨s₁, h1, h2⟩
    exact ⟨s₁, h1, s, h2, rfl⟩

/-- A press of the button that starts a verification: the state in which it happens, the file shown in it, and the
key. -/
structure Started (nprocs : Nat) (evs pre post : List GuiEvent) (s : GuiState) (doc : Json) (dep : List DepGroup)
    (key : Option Bytes) : Prop where
  events : evs = pre ++ .press :: post
  reaches : GuiReaches nprocs pre s
  idle : s.verifying = false
  loaded : .load (.ok doc) ∈ pre
  parsed : guiLoad doc = .ok dep
  shown : s.dep = some dep
  key : TypedKey s.keyText key

/-- What a task was given and what it can only return, for a DEP, a key store and a key. -/
def GoodJob (nprocs : Nat) (dep : List DepGroup) (ks : KeyStore) (key : Option Bytes) : GuiJob → Prop
  | .prepare d store k => d = some dep ∧ store = ks ∧ k = key
  | .main k ts => k = key ∧ guiPrepare ks key nprocs dep = .ok ts
  | .finalize us => ∃ ts, guiPrepare ks key nprocs dep = .ok ts ∧ guiMain key ts = .ok us

/-- The same for the results that wait for the main thread. -/
def GoodCallback (nprocs : Nat) (dep : List DepGroup) (ks : KeyStore) (key : Option Bytes) : GuiCallback → Prop
  | .prepared k r => k = key ∧ ∀ ts, r = .ok ts → guiPrepare ks key nprocs dep = .ok ts
  | .finalized r => ∀ u, r = .ok u → ∃ ts us, guiPrepare ks key nprocs dep = .ok ts ∧ guiMain key ts = .ok us ∧
      guiFinalize us = .ok u

theorem Started.extend {nprocs : Nat} {evs pre post : List GuiEvent} {s : GuiState} {doc : Json}
    {dep : List DepGroup} {key : Option Bytes} (h : Started nprocs evs pre post s doc dep key) (e : GuiEvent) :
    Started nprocs (evs ++ [e]) pre (post ++ [e]) s doc dep key :=
  { h with events := by rw [h.events]; simp }

theorem mem_eraseIdx {α : Type} {l : List α} {i : Nat} {a : α} (h : a ∈ l.eraseIdx i) : a ∈ l :=
  List.mem_of_mem_eraseIdx h

/-- The events that are not caused by the user. -/
inductive GuiEvent.Background : GuiEvent → Prop
  | done (i : Nat) : Background (.done i)
  | tick (i : Nat) : Background (.tick i)

/-- How much is outstanding. -/
def GuiState.count (s : GuiState) : Nat := s.jobs.length + s.queue.length

/-- Predicates for jobs and callbacks that are kept when a job is done or a callback is called; `V` follows from the
last callback. -/
structure Closed (nprocs : Nat) (J : GuiJob → Prop) (C : GuiCallback → Prop) (V : Prop) : Prop where
  prepare : ∀ dep ks k, J (.prepare (some dep) ks k) → C (.prepared k (guiPrepare ks k nprocs dep))
  prepared : ∀ k ts, C (.prepared k (.ok ts)) → J (.main k ts)
  main : ∀ k ts us, J (.main k ts) → guiMain k ts = .ok us → J (.finalize us)
  finalize : ∀ us, J (.finalize us) → C (.finalized (guiFinalize us))
  finalized : ∀ u, C (.finalized (.ok u)) → V

/-- What a step in the background does to the state. -/
structure BgStep (J : GuiJob → Prop) (C : GuiCallback → Prop) (V : Prop) (s s' : GuiState) : Prop where
  jobs : ∀ j ∈ s'.jobs, J j
  queue : ∀ c ∈ s'.queue, C c
  dep : s'.dep = s.dep
  store : s'.store = s.store
  keyText : s'.keyText = s.keyText
  verifying : s'.verifying = true → s.verifying = true ∧ s'.label = s.label ∧ s'.enabled = s.enabled ∧
    s'.verified = s.verified ∧ s'.shown = s.shown
  stopped : s.verifying = true → s'.verifying = false →
    s'.label = .verify ∧ s'.enabled = s.enabled ∧ s'.verified = s.verified ∧ (∃ e, s'.shown = e :: s.shown) ∨
    s'.label = .valid ∧ s'.enabled = false ∧ s'.verified = true ∧ s'.shown = s.shown ∧ V
  idle : s.verifying = false → ∃ jobs queue, s' = { s with jobs := jobs, queue := queue }
  count : s'.count ≤ s.count
  less : s.verifying = true → s'.verifying = false → s'.count < s.count

theorem bgStep {nprocs : Nat} {J : GuiJob → Prop} {C : GuiCallback → Prop} {V : Prop} (hc : Closed nprocs J C V)
    {s s' : GuiState} (hJ : ∀ j ∈ s.jobs, J j) (hC : ∀ c ∈ s.queue, C c) {e : GuiEvent} (he : e.Background)
    (h : s.step nprocs e = some s') : BgStep J C V s s' := by
  cases he with
  | done i =>
    simp only [GuiState.step] at h
    cases hj : s.jobs[i]? with
    | none => rw [hj] at h; cases h
    | some j =>
      rw [hj] at h
      simp only [Option.some.injEq] at h
      obtain ⟨hi, hje⟩ := List.getElem?_eq_some_iff.mp hj
      have hmem : j ∈ s.jobs := hje ▸ List.getElem_mem hi
      have hJj := hJ j hmem
      have hJ' : ∀ j ∈ s.jobs.eraseIdx i, J j := fun j hj => hJ j (mem_eraseIdx hj)
      have hlen : (s.jobs.eraseIdx i).length + 1 = s.jobs.length := by
        rw [List.length_eraseIdx, if_pos hi]; omega
      subst h
      cases j with
      | prepare dep ks k =>
        cases dep with
        | none =>
          simp only [GuiState.done]
          exact ⟨hJ', hC, rfl, rfl, rfl, fun h => ⟨h, rfl, rfl, rfl, rfl⟩, fun h h' => by simp_all,
            fun _ => ⟨_, _, rfl⟩, by simp only [GuiState.count]; omega, fun h h' => by simp_all⟩
        | some dep =>
          simp only [GuiState.done]
          split
          · exact ⟨hJ', hC, rfl, rfl, rfl, fun h => ⟨h, rfl, rfl, rfl, rfl⟩, fun h h' => by simp_all,
              fun _ => ⟨_, _, rfl⟩, by simp only [GuiState.count]; omega, fun h h' => by simp_all⟩
          · refine ⟨hJ', ?_, rfl, rfl, rfl, fun h => ⟨h, rfl, rfl, rfl, rfl⟩, fun h h' => by simp_all,
              fun _ => ⟨_, _, rfl⟩, by simp only [GuiState.count, List.length_append, List.length_singleton]; omega,
              fun h h' => by simp_all⟩
            intro c hc'
            rcases List.mem_append.mp hc' with h' | h'
            · exact hC c h'
            · rw [List.mem_singleton.mp h']
              exact hc.prepare _ _ _ hJj
      | main k ts =>
        simp only [GuiState.done]
        split
        · exact ⟨hJ', hC, rfl, rfl, rfl, fun h => ⟨h, rfl, rfl, rfl, rfl⟩, fun h h' => by simp_all,
            fun _ => ⟨_, _, rfl⟩, by simp only [GuiState.count]; omega, fun h h' => by simp_all⟩
        · simp only [GuiState.mainCb]
          split
          · rename_i hv
            cases hm : guiMain k ts with
            | error er =>
              exact ⟨hJ', hC, rfl, rfl, rfl, fun h => by simp [GuiState.show] at h,
                fun _ _ => .inl ⟨rfl, rfl, rfl, _, rfl⟩, fun h => by simp_all,
                by simp only [GuiState.count, GuiState.show]; omega,
                fun _ _ => by simp only [GuiState.count, GuiState.show]; omega⟩
            | ok us =>
              refine ⟨?_, hC, rfl, rfl, rfl, fun h => ⟨h, rfl, rfl, rfl, rfl⟩, fun h h' => by simp_all,
                fun _ => ⟨_, _, rfl⟩, by simp only [GuiState.count, List.length_append, List.length_singleton]; omega,
                fun h h' => by simp_all⟩
              intro j hj'
              rcases List.mem_append.mp hj' with h' | h'
              · exact hJ' j h'
              · rw [List.mem_singleton.mp h']
                exact hc.main _ _ _ hJj hm
          · exact ⟨hJ', hC, rfl, rfl, rfl, fun h => ⟨h, rfl, rfl, rfl, rfl⟩, fun h h' => by simp_all,
              fun _ => ⟨_, _, rfl⟩, by simp only [GuiState.count]; omega, fun h h' => by simp_all⟩
      | finalize us =>
        simp only [GuiState.done]
        split
        · exact ⟨hJ', hC, rfl, rfl, rfl, fun h => ⟨h, rfl, rfl, rfl, rfl⟩, fun h h' => by simp_all,
            fun _ => ⟨_, _, rfl⟩, by simp only [GuiState.count]; omega, fun h h' => by simp_all⟩
        · refine ⟨hJ', ?_, rfl, rfl, rfl, fun h => ⟨h, rfl, rfl, rfl, rfl⟩, fun h h' => by simp_all,
            fun _ => ⟨_, _, rfl⟩, by simp only [GuiState.count, List.length_append, List.length_singleton]; omega,
            fun h h' => by simp_all⟩
          intro c hc'
          rcases List.mem_append.mp hc' with h' | h'
          · exact hC c h'
          · rw [List.mem_singleton.mp h']
            exact hc.finalize _ hJj
  | tick i =>
    simp only [GuiState.step] at h
    cases hj : s.queue[i]? with
    | none => rw [hj] at h; cases h
    | some c =>
      rw [hj] at h
      simp only [Option.some.injEq] at h
      obtain ⟨hi, hje⟩ := List.getElem?_eq_some_iff.mp hj
      have hCc := hC c (hje ▸ List.getElem_mem hi)
      have hC' : ∀ c ∈ s.queue.eraseIdx i, C c := fun c hc => hC c (mem_eraseIdx hc)
      have hlen : (s.queue.eraseIdx i).length + 1 = s.queue.length := by
        rw [List.length_eraseIdx, if_pos hi]; omega
      subst h
      cases c with
      | prepared k r =>
        simp only [GuiState.tick, GuiState.prepareCb]
        split
        · cases r with
          | error er =>
            exact ⟨hJ, hC', rfl, rfl, rfl, fun h => by simp [GuiState.show] at h,
              fun _ _ => .inl ⟨rfl, rfl, rfl, _, rfl⟩, fun h => by simp_all,
              by simp only [GuiState.count, GuiState.show]; omega,
              fun _ _ => by simp only [GuiState.count, GuiState.show]; omega⟩
          | ok ts =>
            refine ⟨?_, hC', rfl, rfl, rfl, fun h => ⟨h, rfl, rfl, rfl, rfl⟩, fun h h' => by simp_all,
              fun _ => ⟨_, _, rfl⟩, by simp only [GuiState.count, List.length_append, List.length_singleton]; omega,
              fun h h' => by simp_all⟩
            intro j hj'
            rcases List.mem_append.mp hj' with h' | h'
            · exact hJ j h'
            · rw [List.mem_singleton.mp h']
              exact hc.prepared _ _ hCc
        · exact ⟨hJ, hC', rfl, rfl, rfl, fun h => ⟨h, rfl, rfl, rfl, rfl⟩, fun h h' => by simp_all,
            fun _ => ⟨_, _, rfl⟩, by simp only [GuiState.count]; omega, fun h h' => by simp_all⟩
      | finalized r =>
        simp only [GuiState.tick, GuiState.finalizeCb]
        split
        · cases r with
          | error er =>
            exact ⟨hJ, hC', rfl, rfl, rfl, fun h => by simp [GuiState.show] at h,
              fun _ _ => .inl ⟨rfl, rfl, rfl, _, rfl⟩, fun h => by simp_all,
              by simp only [GuiState.count, GuiState.show]; omega,
              fun _ _ => by simp only [GuiState.count, GuiState.show]; omega⟩
          | ok u =>
            exact ⟨hJ, hC', rfl, rfl, rfl, fun h => by simp at h,
              fun _ _ => .inr ⟨rfl, rfl, rfl, rfl, hc.finalized _ hCc⟩, fun h => by simp_all,
              by simp only [GuiState.count]; omega,
              fun _ _ => by simp only [GuiState.count]; omega⟩
        · exact ⟨hJ, hC', rfl, rfl, rfl, fun h => ⟨h, rfl, rfl, rfl, rfl⟩, fun h h' => by simp_all,
            fun _ => ⟨_, _, rfl⟩, by simp only [GuiState.count]; omega, fun h h' => by simp_all⟩

theorem GuiEvent.cases_bg (e : GuiEvent) :
    e.Background ∨ (∃ f, e = .load f) ∨ (∃ t, e = .typed t) ∨ (∃ ks, e = .setStore ks) ∨ e = .press := by
  cases e with
  | load f => exact .inr (.inl ⟨f, rfl⟩)
  | typed t => exact .inr (.inr (.inl ⟨t, rfl⟩))
  | setStore ks => exact .inr (.inr (.inr (.inl ⟨ks, rfl⟩)))
  | press => exact .inr (.inr (.inr (.inr rfl)))
  | done i => exact .inl (.done i)
  | tick i => exact .inl (.tick i)

/-- Loading a file either changes nothing but the errors shown, or shows another DEP and ends everything that was
going on. -/
theorem load_cases {s s' : GuiState} {f : Res Json} (h : s.load f = some s') :
    (∃ e, s' = s.show e) ∨
    ∃ doc dep, f = .ok doc ∧ guiLoad doc = .ok dep ∧ s'.jobs = [] ∧ s'.queue = s.queue ∧ s'.verifying = false ∧
      s'.verified = false ∧ s'.label = .verify ∧
      (s'.dep = some dep ∧ s'.enabled = true ∨ s'.dep = none ∧ s'.enabled = false) := by
  unfold GuiState.load at h
  cases hf : f >>= guiLoad with
  | error e =>
    rw [hf] at h
    simp only at h
    split at h
    · cases h
      exact .inl ⟨e, rfl⟩
    · cases h
  | ok dep =>
    right
    obtain ⟨doc, rfl, hd⟩ := Res.bind_eq_ok.mp hf
    refine ⟨doc, dep, rfl, hd, ?_⟩
    rw [hf] at h
    simp only at h
    split at h
    · cases h
      exact ⟨rfl, rfl, rfl, rfl, rfl, .inl ⟨rfl, rfl⟩⟩
    · split at h
      · cases h
        exact ⟨rfl, rfl, rfl, rfl, rfl, .inr ⟨rfl, rfl⟩⟩
      · cases h

/-- Pressing the button aborts a verification, complains about the key, or starts a verification. -/
theorem press_cases {s s' : GuiState} (h : s.press = some s') : s.enabled = true ∧
    (s.verifying = true ∧ s' = s.abort ∨
     s.verifying = false ∧ (∃ e, guiKey s.keyText = .error e ∧ s' = { s with keyText := [] }.show e) ∨
     s.verifying = false ∧ ∃ key, guiKey s.keyText = .ok key ∧
       s' = { s with verifying := true, label := .verifying, jobs := s.jobs ++ [.prepare s.dep s.store key] }) := by
  unfold GuiState.press at h
  split at h
  · rename_i he
    refine ⟨he, ?_⟩
    split at h
    · rename_i hv
      cases h
      exact .inl ⟨hv, rfl⟩
    · rename_i hv
      have hv : s.verifying = false := by simpa using hv
      split at h
      · rename_i e hk
        cases h
        exact .inr (.inl ⟨hv, e, hk, rfl⟩)
      · rename_i key hk
        cases h
        exact .inr (.inr ⟨hv, key, hk, rfl⟩)
  · cases h

/-- What always holds. -/
structure Basic (evs : List GuiEvent) (s : GuiState) : Prop where
  dep : ∀ dep, s.dep = some dep → ∃ doc, .load (.ok doc) ∈ evs ∧ guiLoad doc = .ok dep
  enabled : s.enabled = true → s.dep ≠ none
  verifying : s.verifying = true → s.label = .verifying ∧ s.enabled = true
  idle : s.verifying = false → s.label ≠ .verifying
  valid : s.label = .valid → s.enabled = false ∧ s.dep ≠ none
  verified : s.verified = true ↔ s.label = .valid

/-- The trivial predicates for jobs and callbacks. -/
theorem Closed.trivial (nprocs : Nat) : Closed nprocs (fun _ => True) (fun _ => True) True :=
  ⟨fun _ _ _ _ => .intro, fun _ _ _ => .intro, fun _ _ _ _ _ => .intro, fun _ _ => .intro, fun _ _ => .intro⟩

theorem Basic.extend {evs : List GuiEvent} {s : GuiState} (h : Basic evs s) (e : GuiEvent) : Basic (evs ++ [e]) s :=
  { h with
    dep := fun dep hd =>
      let ⟨doc, h1, h2⟩ := h.dep dep hd
      ⟨doc, List.mem_append_left _ h1, h2⟩ }

theorem basic_step {nprocs : Nat} {evs : List GuiEvent} {s₁ s : GuiState} {e : GuiEvent} (h1 : Basic evs s₁)
    (h2 : s₁.step nprocs e = some s) : Basic (evs ++ [e]) s := by
  have hb := h1.extend e
  rcases e.cases_bg with he | ⟨f, rfl⟩ | ⟨t, rfl⟩ | ⟨ks, rfl⟩ | rfl
  · have st := bgStep (Closed.trivial nprocs) (fun _ _ => .intro) (fun _ _ => .intro) he h2
    by_cases hv : s₁.verifying = true
    · obtain ⟨hl, hen⟩ := hb.verifying hv
      have hdep := hb.enabled hen
      have hnv : s₁.verified = false := by
        by_contra hx
        have := hb.verified.mp (by simpa using hx)
        rw [hl] at this
        cases this
      by_cases hv' : s.verifying = true
      · obtain ⟨-, a, b, c, d⟩ := st.verifying hv'
        exact ⟨fun dep hd => hb.dep dep (st.dep ▸ hd), fun _ => st.dep ▸ hdep, fun _ => ⟨a ▸ hl, b ▸ hen⟩,
          fun hx => (by rw [hv'] at hx; cases hx), fun hx => (by rw [a, hl] at hx; cases hx), by rw [a, c]; exact hb.verified⟩
      · have hv' : s.verifying = false := by simpa using hv'
        rcases st.stopped hv hv' with ⟨a, b, c, d⟩ | ⟨a, b, c, d⟩
        · exact ⟨fun dep hd => hb.dep dep (st.dep ▸ hd), fun _ => st.dep ▸ hdep,
            fun hx => (by rw [hv'] at hx; cases hx),
            fun _ hx => (by rw [a] at hx; cases hx), fun hx => (by rw [a] at hx; cases hx), by rw [a, c, hnv]; simp⟩
        · exact ⟨fun dep hd => hb.dep dep (st.dep ▸ hd), fun _ => st.dep ▸ hdep,
            fun hx => (by rw [hv'] at hx; cases hx),
            fun _ hx => (by rw [a] at hx; cases hx), fun _ => ⟨b, st.dep ▸ hdep⟩, by rw [a, c]; simp⟩
    · obtain ⟨jobs, queue, rfl⟩ := st.idle (by simpa using hv)
      exact ⟨hb.dep, hb.enabled, hb.verifying, hb.idle, hb.valid, hb.verified⟩
  · rcases load_cases h2 with ⟨er, rfl⟩ | ⟨doc, dep, rfl, hd, -, -, c, d, l, hx⟩
    · exact ⟨hb.dep, hb.enabled, hb.verifying, hb.idle, hb.valid, hb.verified⟩
    · refine ⟨?_, ?_, fun hy => (by rw [c] at hy; cases hy), fun _ hy => (by rw [l] at hy; cases hy),
        fun hy => (by rw [l] at hy; cases hy), by rw [d, l]; simp⟩
      · intro dep' hd'
        rcases hx with ⟨hx, -⟩ | ⟨hx, -⟩
        · rw [hx] at hd'
          cases hd'
          exact ⟨doc, by simp, hd⟩
        · rw [hx] at hd'
          cases hd'
      · intro hen
        rcases hx with ⟨hx, -⟩ | ⟨-, hx⟩
        · rw [hx]; simp
        · rw [hx] at hen; cases hen
  · cases h2
    exact ⟨hb.dep, hb.enabled, hb.verifying, hb.idle, hb.valid, hb.verified⟩
  · cases h2
    exact ⟨hb.dep, hb.enabled, hb.verifying, hb.idle, hb.valid, hb.verified⟩
  · obtain ⟨hen, ⟨hv, rfl⟩ | ⟨hv, er, -, rfl⟩ | ⟨hv, key, hk, rfl⟩⟩ := press_cases h2
    · exact ⟨hb.dep, fun _ => hb.enabled hen, fun hx => (by cases hx), fun _ hx => (by cases hx),
        fun hx => (by cases hx), by simp [GuiState.abort]⟩
    · exact ⟨hb.dep, hb.enabled, hb.verifying, hb.idle, hb.valid, hb.verified⟩
    · refine ⟨hb.dep, hb.enabled, fun _ => ⟨rfl, hen⟩, fun hx => (by cases hx), fun hx => (by cases hx), ?_⟩
      have : s₁.verified = false := by
        by_contra hx
        have := (hb.valid (hb.verified.mp (by simpa using hx))).1
        rw [hen] at this
        cases this
      simp [this]

theorem basic {nprocs : Nat} {evs : List GuiEvent} {s : GuiState} (h : GuiReaches nprocs evs s) : Basic evs s := by
  induction evs using List.reverseRecOn generalizing s with
  | nil =>
    cases h
    exact ⟨fun _ h => (by cases h), fun h => (by cases h), fun h => (by cases h), fun _ h => (by cases h),
      fun h => (by cases h), by simp [GuiState.fresh]⟩
  | append_singleton evs e ih =>
    obtain ⟨s₁, h1, h2⟩ := GuiReaches.snoc.mp h
    exact basic_step (ih h1) h2

/-- A press that starts a verification, and the job it gives to the pool. -/
theorem started {nprocs : Nat} {evs : List GuiEvent} {s : GuiState} (h : GuiReaches nprocs evs s) (hen : s.enabled = true)
    (hv : s.verifying = false) {key : Option Bytes} (hk : guiKey s.keyText = .ok key) :
    ∃ doc dep, Started nprocs (evs ++ [.press]) evs [] s doc dep key := by
  have hb := basic h
  obtain ⟨dep, hd⟩ := Option.ne_none_iff_exists'.mp (hb.enabled hen)
  obtain ⟨doc, h1, h2⟩ := hb.dep dep hd
  exact ⟨doc, dep, rfl, h, hv, h1, h2, hd, guiKey_iff.mp hk⟩

/-- C98: if the text is not a key, the button shows an error and empties the text field, and nothing else happens. -/
theorem gui_no_key {nprocs : Nat} {s s' : GuiState} (hv : s.verifying = false)
    (hk : ¬∃ key, TypedKey s.keyText key) (h : s.step nprocs .press = some s') :
    ∃ e, s' = { s with keyText := [], shown := e :: s.shown } := by
  obtain ⟨-, ⟨hv', -⟩ | ⟨-, e, -, rfl⟩ | ⟨-, key, hk', -⟩⟩ := press_cases h
  · rw [hv] at hv'
    cases hv'
  · exact ⟨e, rfl⟩
  · exact absurd ⟨key, guiKey_iff.mp hk'⟩ hk

/-- C98: "Valid DEP" is never shown out of thin air.  Whatever the users do and in whatever order tasks are done and
callbacks are called, the button was pressed before while a DEP was shown that is accepted with the key store and the
AES key of that moment. -/
theorem gui_valid_once {nprocs : Nat} (hn : nprocs ≠ 0) {evs : List GuiEvent} {s : GuiState}
    (h : GuiReaches nprocs evs s) (hv : s.label = .valid) :
    ∃ pre post s₁ doc dep key, Started nprocs evs pre post s₁ doc dep key ∧ DocAccepted s₁.store key doc := by
  have main : ∀ {evs : List GuiEvent} {s : GuiState}, GuiReaches nprocs evs s →
      (∀ j ∈ s.jobs, ∃ pre post s₁ doc dep key, Started nprocs evs pre post s₁ doc dep key ∧
        GoodJob nprocs dep s₁.store key j) ∧
      (∀ c ∈ s.queue, ∃ pre post s₁ doc dep key, Started nprocs evs pre post s₁ doc dep key ∧
        GoodCallback nprocs dep s₁.store key c) ∧
      (s.label = .valid → ∃ pre post s₁ doc dep key, Started nprocs evs pre post s₁ doc dep key ∧
        DocAccepted s₁.store key doc) := by
    clear h hv s evs
    intro evs s h
    induction evs using List.reverseRecOn generalizing s with
    | nil =>
      cases h
      exact ⟨fun _ h => by simp [GuiState.fresh] at h, fun _ h => by simp [GuiState.fresh] at h,
        fun h => (by cases h)⟩
    | append_singleton evs e ih =>
      obtain ⟨s₁, h1, h2⟩ := GuiReaches.snoc.mp h
      obtain ⟨hJ, hC, hV⟩ := ih h1
      have hJ : ∀ j ∈ s₁.jobs, ∃ pre post s₁ doc dep key, Started nprocs (evs ++ [e]) pre post s₁ doc dep key ∧
          GoodJob nprocs dep s₁.store key j := fun j hj => by
        obtain ⟨pre, post, s₀, doc, dep, key, hs, hg⟩ := hJ j hj
        exact ⟨pre, _, s₀, doc, dep, key, hs.extend e, hg⟩
      have hC : ∀ c ∈ s₁.queue, ∃ pre post s₁ doc dep key, Started nprocs (evs ++ [e]) pre post s₁ doc dep key ∧
          GoodCallback nprocs dep s₁.store key c := fun j hj => by
        obtain ⟨pre, post, s₀, doc, dep, key, hs, hg⟩ := hC j hj
        exact ⟨pre, _, s₀, doc, dep, key, hs.extend e, hg⟩
      have hV : s₁.label = .valid → ∃ pre post s₁ doc dep key, Started nprocs (evs ++ [e]) pre post s₁ doc dep key ∧
          DocAccepted s₁.store key doc := fun hl => by
        obtain ⟨pre, post, s₀, doc, dep, key, hs, hg⟩ := hV hl
        exact ⟨pre, _, s₀, doc, dep, key, hs.extend e, hg⟩
      rcases e.cases_bg with he | ⟨f, rfl⟩ | ⟨t, rfl⟩ | ⟨ks, rfl⟩ | rfl
      · have hcl : Closed nprocs
            (fun j => ∃ pre post s₁ doc dep key, Started nprocs (evs ++ [e]) pre post s₁ doc dep key ∧
              GoodJob nprocs dep s₁.store key j)
            (fun c => ∃ pre post s₁ doc dep key, Started nprocs (evs ++ [e]) pre post s₁ doc dep key ∧
              GoodCallback nprocs dep s₁.store key c)
            (∃ pre post s₁ doc dep key, Started nprocs (evs ++ [e]) pre post s₁ doc dep key ∧
              DocAccepted s₁.store key doc) := by
          constructor
          · rintro dep' ks' k' ⟨pre, post, s₀, doc, dep, key, hs, hd, rfl, rfl⟩
            cases hd
            exact ⟨pre, post, s₀, doc, _, _, hs, rfl, fun _ h => h⟩
          · rintro k' ts ⟨pre, post, s₀, doc, dep, key, hs, rfl, hp⟩
            exact ⟨pre, post, s₀, doc, dep, _, hs, rfl, hp _ rfl⟩
          · rintro k' ts us ⟨pre, post, s₀, doc, dep, key, hs, rfl, hp⟩ hm
            exact ⟨pre, post, s₀, doc, dep, _, hs, ts, hp, hm⟩
          · rintro us ⟨pre, post, s₀, doc, dep, key, hs, ts, hp, hm⟩
            exact ⟨pre, post, s₀, doc, dep, key, hs, fun u hu => ⟨ts, us, hp, hm, hu⟩⟩
          · rintro u ⟨pre, post, s₀, doc, dep, key, hs, hg⟩
            obtain ⟨ts, us, hp, hm, hf⟩ := hg u rfl
            exact ⟨pre, post, s₀, doc, dep, key, hs, (tasks_accepted hn hs.parsed).mp ⟨ts, us, u, hp, hm, hf⟩⟩
        have st := bgStep hcl hJ hC he h2
        refine ⟨st.jobs, st.queue, fun hl => ?_⟩
        by_cases hv : s₁.verifying = true
        · by_cases hv' : s.verifying = true
          · have := ((basic h).verifying hv').1
            rw [hl] at this
            cases this
          · rcases st.stopped hv (by simpa using hv') with ⟨a, -⟩ | ⟨-, -, -, -, hV'⟩
            · rw [hl] at a
              cases a
            · exact hV'
        · obtain ⟨jobs, queue, rfl⟩ := st.idle (by simpa using hv)
          exact hV hl
      · rcases load_cases h2 with ⟨er, rfl⟩ | ⟨doc, dep, -, -, j, q, -, -, l, -⟩
        · exact ⟨hJ, hC, hV⟩
        · exact ⟨fun _ hx => by simp [j] at hx, fun c hx => hC c (q ▸ hx), fun hx => (by rw [l] at hx; cases hx)⟩
      · cases h2
        exact ⟨hJ, hC, hV⟩
      · cases h2
        exact ⟨hJ, hC, hV⟩
      · obtain ⟨hen, ⟨hv, rfl⟩ | ⟨hv, er, -, rfl⟩ | ⟨hv, key, hk, rfl⟩⟩ := press_cases h2
        · exact ⟨fun _ hx => by simp [GuiState.abort] at hx, hC, fun hx => (by cases hx)⟩
        · exact ⟨hJ, hC, hV⟩
        · refine ⟨fun j hj => ?_, hC, fun hx => (by cases hx)⟩
          rcases List.mem_append.mp hj with hj | hj
          · exact hJ j hj
          · rw [List.mem_singleton.mp hj]
            obtain ⟨doc, dep, hs⟩ := started h1 hen hv hk
            exact ⟨_, _, _, doc, dep, key, hs, hs.shown, rfl, rfl⟩
  exact (main h).2.2 hv

/-- No verification is started while a callback of an earlier one still waits. -/
def Patient (nprocs : Nat) (evs : List GuiEvent) : Prop :=
  ∀ pre post s₁, evs = pre ++ .press :: post → GuiReaches nprocs pre s₁ → s₁.verifying = false → s₁.queue = []

theorem Patient.left {nprocs : Nat} {evs : List GuiEvent} {e : GuiEvent} (h : Patient nprocs (evs ++ [e])) :
    Patient nprocs evs := fun pre post s₁ he => h pre (post ++ [e]) s₁ (by rw [he]; simp)

/-- C98: as long as nobody presses the button while callbacks of an earlier verification wait, "Valid DEP" tells the
truth about the DEP shown: it is accepted with the key store and the AES key of the last time the button was pressed. -/
theorem gui_valid_partial {nprocs : Nat} (hn : nprocs ≠ 0) {evs : List GuiEvent} {s : GuiState}
    (h : GuiReaches nprocs evs s) (hp : Patient nprocs evs) (hv : s.label = .valid) :
    ∃ pre post s₁ doc key, evs = pre ++ .press :: post ∧ .press ∉ post ∧ GuiReaches nprocs pre s₁ ∧ s₁.dep = s.dep ∧
      Shows evs s doc ∧ TypedKey s₁.keyText key ∧ DocAccepted s₁.store key doc := by
  have main : ∀ {evs : List GuiEvent} {s : GuiState}, GuiReaches nprocs evs s → Patient nprocs evs →
      (s.verifying = false → s.jobs = []) ∧
      (s.verifying = true → s.count ≤ 1 ∧ ∃ pre post s₁ doc dep key, Started nprocs evs pre post s₁ doc dep key ∧
        .press ∉ post ∧ s.dep = some dep ∧ (∀ j ∈ s.jobs, GoodJob nprocs dep s₁.store key j) ∧
        ∀ c ∈ s.queue, GoodCallback nprocs dep s₁.store key c) ∧
      (s.label = .valid → ∃ pre post s₁ doc dep key, Started nprocs evs pre post s₁ doc dep key ∧
        .press ∉ post ∧ s.dep = some dep ∧ DocAccepted s₁.store key doc) := by
    clear h hv hp s evs
    intro evs s h hp
    induction evs using List.reverseRecOn generalizing s with
    | nil =>
      cases h
      exact ⟨fun _ => rfl, fun h => (by cases h), fun h => (by cases h)⟩
    | append_singleton evs e ih =>
      obtain ⟨s₁, h1, h2⟩ := GuiReaches.snoc.mp h
      obtain ⟨hI, hR, hV⟩ := ih h1 hp.left
      have hb₁ := basic h1
      have hb := basic h
      by_cases hpr : e = .press
      · subst hpr
        obtain ⟨hen, ⟨hv, rfl⟩ | ⟨hv, er, -, rfl⟩ | ⟨hv, key, hk, rfl⟩⟩ := press_cases h2
        · exact ⟨fun _ => rfl, fun hx => (by cases hx), fun hx => (by cases hx)⟩
        · refine ⟨hI, fun hx => ?_, fun hx => ?_⟩
          · have : s₁.verifying = true := hx
            rw [hv] at this
            cases this
          · have := (hb₁.valid hx).1
            rw [hen] at this
            cases this
        · have hq := hp evs [] s₁ rfl h1 hv
          refine ⟨fun hx => (by cases hx), fun _ => ?_, fun hx => (by cases hx)⟩
          obtain ⟨doc, dep, hs⟩ := started h1 hen hv hk
          refine ⟨by simp [GuiState.count, hI hv, hq], _, _, _, doc, dep, key, hs, by simp, hs.shown, ?_, ?_⟩
          · intro j hj
            simp only [hI hv, List.nil_append, List.mem_singleton] at hj
            rw [hj]
            exact ⟨hs.shown, rfl, rfl⟩
          · intro c hc
            simp [hq] at hc
      · have hR : s₁.verifying = true → s₁.count ≤ 1 ∧ ∃ pre post s₀ doc dep key,
            Started nprocs (evs ++ [e]) pre post s₀ doc dep key ∧
            .press ∉ post ∧ s₁.dep = some dep ∧ (∀ j ∈ s₁.jobs, GoodJob nprocs dep s₀.store key j) ∧
            ∀ c ∈ s₁.queue, GoodCallback nprocs dep s₀.store key c := fun hx => by
          obtain ⟨hc, pre, post, s₀, doc, dep, key, hs, hnp, hr⟩ := hR hx
          refine ⟨hc, pre, _, s₀, doc, dep, key, hs.extend e, ?_, hr⟩
          intro hm
          rcases List.mem_append.mp hm with hm | hm
          · exact hnp hm
          · exact hpr (List.mem_singleton.mp hm).symm
        have hV : s₁.label = .valid → ∃ pre post s₀ doc dep key,
            Started nprocs (evs ++ [e]) pre post s₀ doc dep key ∧
            .press ∉ post ∧ s₁.dep = some dep ∧ DocAccepted s₀.store key doc := fun hx => by
          obtain ⟨pre, post, s₀, doc, dep, key, hs, hnp, hr⟩ := hV hx
          refine ⟨pre, _, s₀, doc, dep, key, hs.extend e, ?_, hr⟩
          intro hm
          rcases List.mem_append.mp hm with hm | hm
          · exact hnp hm
          · exact hpr (List.mem_singleton.mp hm).symm
        rcases e.cases_bg with he | ⟨f, rfl⟩ | ⟨t, rfl⟩ | ⟨ks, rfl⟩ | rfl
        · by_cases hv : s₁.verifying = true
          · obtain ⟨hcnt, pre, post, s₀, doc, dep, key, hs, hnp, hd, hJ, hC⟩ := hR hv
            have hcl : Closed nprocs (GoodJob nprocs dep s₀.store key) (GoodCallback nprocs dep s₀.store key)
                (DocAccepted s₀.store key doc) := by
              constructor
              · rintro dep' ks' k' ⟨hd, rfl, rfl⟩
                cases hd
                exact ⟨rfl, fun _ h => h⟩
              · rintro k' ts ⟨rfl, hp⟩
                exact ⟨rfl, hp _ rfl⟩
              · rintro k' ts us ⟨rfl, hp⟩ hm
                exact ⟨ts, hp, hm⟩
              · rintro us ⟨ts, hp, hm⟩
                exact fun u hu => ⟨ts, us, hp, hm, hu⟩
              · intro u hg
                obtain ⟨ts, us, hp, hm, hf⟩ := hg u rfl
                exact (tasks_accepted hn hs.parsed).mp ⟨ts, us, u, hp, hm, hf⟩
            have st := bgStep hcl hJ hC he h2
            by_cases hv' : s.verifying = true
            · refine ⟨fun hx => (by rw [hv'] at hx; cases hx), fun _ => ?_, fun hx => ?_⟩
              · exact ⟨st.count.trans hcnt, pre, post, s₀, doc, dep, key, hs, hnp, st.dep ▸ hd, st.jobs, st.queue⟩
              · have := (hb.verifying hv').1
                rw [hx] at this
                cases this
            · have hv' : s.verifying = false := by simpa using hv'
              refine ⟨fun _ => ?_, fun hx => (by rw [hv'] at hx; cases hx), fun hx => ?_⟩
              · have := st.less hv hv'
                have h0 : s.count = 0 := by omega
                unfold GuiState.count at h0
                exact List.length_eq_zero_iff.mp (by omega)
              · rcases st.stopped hv hv' with ⟨a, -⟩ | ⟨-, -, -, -, hacc⟩
                · rw [hx] at a
                  cases a
                · exact ⟨pre, post, s₀, doc, dep, key, hs, hnp, st.dep ▸ hd, hacc⟩
          · have hv : s₁.verifying = false := by simpa using hv
            have st := bgStep (Closed.trivial nprocs) (fun _ _ => .intro) (fun _ _ => .intro) he h2
            obtain ⟨jobs, queue, rfl⟩ := st.idle hv
            refine ⟨fun _ => ?_, fun hx => ?_, hV⟩
            · cases he with
              | done i =>
                simp only [GuiState.step, hI hv, List.getElem?_nil] at h2
                cases h2
              | tick i =>
                simp only [GuiState.step] at h2
                split at h2
                · cases h2
                · rename_i c _
                  cases c <;>
                    simp only [GuiState.tick, GuiState.prepareCb, GuiState.finalizeCb, hv, Bool.false_eq_true, if_false,
                      Option.some.injEq] at h2
                  · rw [← congrArg GuiState.jobs h2]
                    exact hI hv
                  · rw [← congrArg GuiState.jobs h2]
                    exact hI hv
            · have : s₁.verifying = true := hx
              rw [hv] at this
              cases this
        · rcases load_cases h2 with ⟨er, rfl⟩ | ⟨doc, dep, -, -, j, q, v, -, l, -⟩
          · exact ⟨hI, hR, hV⟩
          · exact ⟨fun _ => j, fun hx => (by rw [v] at hx; cases hx), fun hx => (by rw [l] at hx; cases hx)⟩
        · cases h2
          exact ⟨hI, hR, hV⟩
        · cases h2
          exact ⟨hI, hR, hV⟩
        · exact absurd rfl hpr
  obtain ⟨pre, post, s₁, doc, dep, key, hs, hnp, hd, hacc⟩ := (main h hp).2.2 hv
  refine ⟨pre, post, s₁, doc, key, hs.events, hnp, hs.reaches, by rw [hs.shown, hd], ?_, hs.key, hacc⟩
  exact ⟨by rw [hs.events]; exact List.mem_append_left _ hs.loaded, dep, hs.parsed, hd⟩

/-! ### Every verification comes to an end -/

/-- How many steps in the background are left at most. -/
def GuiJob.weight : GuiJob → Nat
  | .prepare _ _ _ => 5
  | .main _ _ => 3
  | .finalize _ => 2

def GuiCallback.weight : GuiCallback → Nat
  | .prepared _ _ => 4
  | .finalized _ => 1

def GuiState.weight (s : GuiState) : Nat := (s.jobs.map GuiJob.weight).sum + (s.queue.map GuiCallback.weight).sum

theorem sum_eraseIdx {α : Type} (f : α → Nat) {l : List α} {i : Nat} {a : α} (h : l[i]? = some a) :
    ((l.eraseIdx i).map f).sum + f a = (l.map f).sum := by
  induction l generalizing i with
  | nil => simp at h
  | cons b l ih =>
    cases i with
    | zero =>
      simp only [List.getElem?_cons_zero, Option.some.injEq] at h
      subst h
      simp only [List.eraseIdx_cons_zero, List.map_cons, List.sum_cons]
      omega
    | succ i =>
      simp only [List.getElem?_cons_succ] at h
      have := ih h
      simp only [List.eraseIdx_cons_succ, List.map_cons, List.sum_cons]
      omega

theorem background_weight {nprocs : Nat} {s s' : GuiState} {e : GuiEvent} (he : e.Background)
    (h : s.step nprocs e = some s') : s'.weight < s.weight := by
  cases he with
  | done i =>
    simp only [GuiState.step] at h
    cases hj : s.jobs[i]? with
    | none => rw [hj] at h; cases h
    | some j =>
      rw [hj] at h
      simp only [Option.some.injEq] at h
      have hw := sum_eraseIdx GuiJob.weight hj
      subst h
      cases j with
      | prepare dep ks k =>
        simp only [GuiJob.weight] at hw
        cases dep with
        | none => simp only [GuiState.done, GuiState.weight]; omega
        | some dep =>
          simp only [GuiState.done]
          split
          · simp only [GuiState.weight]; omega
          · simp only [GuiState.weight, List.map_append, List.sum_append, List.map_cons, List.map_nil, List.sum_cons,
              List.sum_nil, GuiCallback.weight]
            omega
      | main k ts =>
        simp only [GuiJob.weight] at hw
        simp only [GuiState.done]
        split
        · simp only [GuiState.weight]; omega
        · simp only [GuiState.mainCb]
          split
          · cases guiMain k ts with
            | error er => simp only [GuiState.weight, GuiState.show]; omega
            | ok us =>
              simp only [GuiState.weight, List.map_append, List.sum_append, List.map_cons, List.map_nil, List.sum_cons,
                List.sum_nil, GuiJob.weight]
              omega
          · simp only [GuiState.weight]; omega
      | finalize us =>
        simp only [GuiJob.weight] at hw
        simp only [GuiState.done]
        split
        · simp only [GuiState.weight]; omega
        · simp only [GuiState.weight, List.map_append, List.sum_append, List.map_cons, List.map_nil, List.sum_cons,
            List.sum_nil, GuiCallback.weight]
          omega
  | tick i =>
    simp only [GuiState.step] at h
    cases hj : s.queue[i]? with
    | none => rw [hj] at h; cases h
    | some c =>
      rw [hj] at h
      simp only [Option.some.injEq] at h
      have hw := sum_eraseIdx GuiCallback.weight hj
      subst h
      cases c with
      | prepared k r =>
        simp only [GuiCallback.weight] at hw
        simp only [GuiState.tick, GuiState.prepareCb]
        split
        · cases r with
          | error er => simp only [GuiState.weight, GuiState.show]; omega
          | ok ts =>
            simp only [GuiState.weight, List.map_append, List.sum_append, List.map_cons, List.map_nil, List.sum_cons,
              List.sum_nil, GuiJob.weight]
            omega
        · simp only [GuiState.weight]; omega
      | finalized r =>
        simp only [GuiCallback.weight] at hw
        simp only [GuiState.tick, GuiState.finalizeCb]
        split
        · cases r <;> (simp only [GuiState.weight, GuiState.show]; omega)
        · simp only [GuiState.weight]; omega

theorem background_length {nprocs : Nat} {s s' : GuiState} {evs : List GuiEvent} (he : ∀ e ∈ evs, e.Background)
    (h : s.run nprocs evs = some s') : evs.length + s'.weight ≤ s.weight := by
  induction evs generalizing s with
  | nil => cases h; simp
  | cons e evs ih =>
    simp only [GuiState.run, Option.bind_eq_some_iff] at h
    obtain ⟨s₁, h1, h2⟩ := h
    have := background_weight (he e (by simp)) h1
    have := ih (fun e h => he e (by simp [h])) h2
    simp only [List.length_cons]
    omega

/-- C98: from any state, if the users do nothing, after finitely many steps nothing is outstanding: no run is longer
than five steps for each job and callback, and as long as there is one, a step is possible. -/
theorem gui_settles (nprocs : Nat) (s : GuiState) :
    (∀ evs s', (∀ e ∈ evs, e.Background) → s.run nprocs evs = some s' → evs.length ≤ 5 * s.count) ∧
    (s.count ≠ 0 → ∃ e s', e.Background ∧ s.step nprocs e = some s') := by
  constructor
  · intro evs s' he h
    have h1 := background_length he h
    have h2 : s.weight ≤ 5 * s.count := by
      have hj : ∀ l : List GuiJob, (l.map GuiJob.weight).sum ≤ 5 * l.length := by
        intro l
        induction l with
        | nil => simp
        | cons j l ih => cases j <;> simp only [List.map_cons, List.sum_cons, List.length_cons, GuiJob.weight] <;> omega
      have hq : ∀ l : List GuiCallback, (l.map GuiCallback.weight).sum ≤ 5 * l.length := by
        intro l
        induction l with
        | nil => simp
        | cons j l ih => cases j <;> simp only [List.map_cons, List.sum_cons, List.length_cons, GuiCallback.weight] <;> omega
      have := hj s.jobs
      have := hq s.queue
      unfold GuiState.weight GuiState.count
      omega
    omega
  · intro hc
    cases hj : s.jobs with
    | cons j l => exact ⟨.done 0, _, .done 0, by simp only [GuiState.step, hj, List.getElem?_cons_zero]; rfl⟩
    | nil =>
      cases hq : s.queue with
      | cons c l => exact ⟨.tick 0, _, .tick 0, by simp only [GuiState.step, hq, List.getElem?_cons_zero]; rfl⟩
      | nil => simp [GuiState.count, hj, hq] at hc

theorem peel_job {nprocs : Nat} {s s' : GuiState} {j : GuiJob} {evs : List GuiEvent} (hj : s.jobs = [j])
    (hq : s.queue = []) (he : ∀ e ∈ evs, e.Background) (h : s.run nprocs evs = some s') (h0 : s'.count = 0) :
    ∃ evs', (∀ e ∈ evs', e.Background) ∧ ({ s with jobs := [] }.done nprocs j).run nprocs evs' = some s' := by
  cases evs with
  | nil =>
    cases h
    simp [GuiState.count, hj] at h0
  | cons e evs =>
    refine ⟨evs, fun e h => he e (by simp [h]), ?_⟩
    simp only [GuiState.run, Option.bind_eq_some_iff] at h
    obtain ⟨s₁, h1, h2⟩ := h
    have hb := he e (by simp)
    cases hb with
    | done i =>
      simp only [GuiState.step, hj] at h1
      cases i with
      | zero =>
        simp only [List.getElem?_cons_zero, List.eraseIdx_cons_zero, Option.some.injEq] at h1
        rw [h1]
        exact h2
      | succ i => simp at h1
    | tick i => simp [GuiState.step, hq] at h1

theorem peel_callback {nprocs : Nat} {s s' : GuiState} {c : GuiCallback} {evs : List GuiEvent} (hj : s.jobs = [])
    (hq : s.queue = [c]) (he : ∀ e ∈ evs, e.Background) (h : s.run nprocs evs = some s') (h0 : s'.count = 0) :
    ∃ evs', (∀ e ∈ evs', e.Background) ∧ ({ s with queue := [] }.tick c).run nprocs evs' = some s' := by
  cases evs with
  | nil =>
    cases h
    simp [GuiState.count, hq] at h0
  | cons e evs =>
    refine ⟨evs, fun e h => he e (by simp [h]), ?_⟩
    simp only [GuiState.run, Option.bind_eq_some_iff] at h
    obtain ⟨s₁, h1, h2⟩ := h
    have hb := he e (by simp)
    cases hb with
    | tick i =>
      simp only [GuiState.step, hq] at h1
      cases i with
      | zero =>
        simp only [List.getElem?_cons_zero, List.eraseIdx_cons_zero, Option.some.injEq] at h1
        rw [h1]
        exact h2
      | succ i => simp at h1
    | done i => simp [GuiState.step, hj] at h1

theorem peel_end {nprocs : Nat} {s s' : GuiState} {evs : List GuiEvent} (hj : s.jobs = []) (hq : s.queue = [])
    (he : ∀ e ∈ evs, e.Background) (h : s.run nprocs evs = some s') : s' = s := by
  cases evs with
  | nil =>
    cases h
    rfl
  | cons e evs =>
    simp only [GuiState.run, Option.bind_eq_some_iff] at h
    obtain ⟨s₁, h1, h2⟩ := h
    have hb := he e (by simp)
    cases hb with
    | tick i => simp [GuiState.step, hq] at h1
    | done i => simp [GuiState.step, hj] at h1

omit [PyEnv] in
theorem mapRes_left {α β : Type} {f : α → Res β} {l : List α} {l' : List β} (h : mapRes f l = .ok l') {a : α}
    (ha : a ∈ l) : ∃ b ∈ l', f a = .ok b := by
  replace h := mapRes_iff.mp h
  induction h with
  | nil => cases ha
  | cons h1 _ ih =>
    rcases List.mem_cons.mp ha with rfl | ha
    · exact ⟨_, by simp, h1⟩
    · obtain ⟨b, hb, hf⟩ := ih ha
      exact ⟨b, by simp [hb], hf⟩

omit [PyEnv] in
theorem mapRes_right {α β : Type} {f : α → Res β} {l : List α} {l' : List β} (h : mapRes f l = .ok l') {b : β}
    (hb : b ∈ l') : ∃ a ∈ l, f a = .ok b := by
  replace h := mapRes_iff.mp h
  induction h with
  | nil => cases hb
  | cons h1 _ ih =>
    rcases List.mem_cons.mp hb with rfl | hb
    · exact ⟨_, by simp, h1⟩
    · obtain ⟨a, ha, hf⟩ := ih hb
      exact ⟨a, by simp [ha], hf⟩

omit [PyEnv] in
theorem mapRes_error {α β : Type} {f : α → Res β} {l : List α} {e : Err} (h : mapRes f l = .error e) :
    ∃ a ∈ l, f a = .error e := by
  induction l with
  | nil => cases h
  | cons a l ih =>
    rw [mapRes] at h
    rcases Res.bind_eq_error.mp h with h | ⟨b, -, h⟩
    · exact ⟨a, by simp, h⟩
    · rcases Res.bind_eq_error.mp h with h | ⟨_, -, h⟩
      · obtain ⟨x, hx, hf⟩ := ih h
        exact ⟨x, by simp [hx], hf⟩
      · cases h

theorem runGroup_unique {c : GroupCtx} {l l' : Loop} {g : List Bytes} (h : runGroup c l g = .ok l')
    (hu : ∃ ids, l.used = .unique ids) : ∃ ids, l'.used = .unique ids := by
  induction g generalizing l with
  | nil => cases h; exact hu
  | cons b g ih =>
    simp only [runGroup, Res.bind_eq_ok] at h
    obtain ⟨l₁, h1, h2⟩ := h
    refine ih h2 ?_
    obtain ⟨ids, hu⟩ := hu
    simp only [stepGroup, Res.bind_eq_ok, Except.ok.injEq] at h1
    obtain ⟨_, -, _, -, _, -, _, -, _, -, _, -, rfl⟩ := h1
    simp only [hu, Used.add]
    exact ⟨_, rfl⟩

theorem verifyGroups_unique {key : Option Bytes} {ps : Option Str} {s s' : RegState} {u u' : Used}
    {P : List (List Bytes × Verifier)} (h : verifyGroups key ps s u P = .ok (s', u'))
    (hu : ∃ ids, u = .unique ids) : ∃ ids, u' = .unique ids := by
  induction P generalizing s u with
  | nil => cases h; exact hu
  | cons p P ih =>
    simp only [verifyGroups, Res.bind_eq_ok] at h
    obtain ⟨⟨s₁, u₁⟩, h1, h2⟩ := h
    refine ih h2 ?_
    simp only [verifyGroup, Res.bind_eq_ok, Except.ok.injEq, Prod.mk.injEq] at h1
    obtain ⟨_, -, l, hl, -, rfl⟩ := h1
    exact runGroup_unique hl hu

/-- The last task fails only because of a receipt ID that was used twice. -/
theorem guiFinalize_error {key : Option Bytes} {ts : List Task} {us : List Used} {e : Err}
    (hm : guiMain key ts = .ok us) (h : guiFinalize us = .error e) : e = .duplicateReceiptId := by
  have hall : ∀ u ∈ us, ∃ ids, u = .unique ids := by
    intro u hu
    obtain ⟨t, -, ht⟩ := mapRes_right hm hu
    simp only [guiMainTask, Res.bind_eq_ok, Except.ok.injEq] at ht
    obtain ⟨⟨s', u'⟩, hv, rfl⟩ := ht
    exact verifyGroups_unique hv ⟨∅, rfl⟩
  unfold guiFinalize at h
  clear hm
  generalize (∅ : Finset Str) = ids at h
  induction us generalizing ids with
  | nil => cases h
  | cons u us ih =>
    obtain ⟨ids', rfl⟩ := hall u (by simp)
    simp only [Used.merge, Used.mergeOne] at h
    by_cases hd : Disjoint ids ids'
    · rw [ensure_pos hd, Res.ok_bind, Res.ok_bind] at h
      exact ih (fun u hu => hall u (by simp [hu])) _ h
    · rw [ensure_neg hd] at h
      cases h
      rfl

/-- A task ends with an exception it does not catch: the first one, or one of those for the packages. -/
def Escapes (nprocs : Nat) (ks : KeyStore) (key : Option Bytes) (dep : List DepGroup) : Prop :=
  (∃ e, guiPrepare ks key nprocs dep = .error e ∧ e.isVerify = false) ∨
  ∃ ts t e, guiPrepare ks key nprocs dep = .ok ts ∧ t ∈ ts ∧ guiMainTask key t = .error e ∧ e.isVerify = false

/-- C98: if the button is pressed when nothing is going on, and the users then wait, the result is right: "Valid DEP"
exactly if the DEP shown is accepted; otherwise one of the exceptions about DEPs and receipts is displayed, and the
button can be pressed again.  There is a third possibility: if a task is ended by another exception, "Verifying..."
stays forever, and nothing is displayed. -/
theorem gui_outcome {nprocs : Nat} (hn : nprocs ≠ 0) {s s' : GuiState} {doc : Json} {dep : List DepGroup}
    {key : Option Bytes} {evs : List GuiEvent} (hen : s.enabled = true) (hv : s.verifying = false) (hc : s.count = 0)
    (hd : guiLoad doc = .ok dep) (hs : s.dep = some dep) (hk : TypedKey s.keyText key)
    (he : ∀ e ∈ evs, e.Background) (h : s.run nprocs (.press :: evs) = some s') (h0 : s'.count = 0) :
    (s'.label = .valid ↔ DocAccepted s.store key doc) ∧
    (s'.label = .verifying ↔ Escapes nprocs s.store key dep) ∧
    (s'.label = .valid ∧ s'.enabled = false ∧ s'.shown = s.shown ∨
     s'.label = .verify ∧ s'.enabled = true ∧ s'.verifying = false ∧ (∃ e, e.isVerify = true ∧ s'.shown = e :: s.shown) ∨
     s'.label = .verifying ∧ s'.enabled = true ∧ s'.shown = s.shown) := by
  have hj : s.jobs = [] := List.length_eq_zero_iff.mp (by unfold GuiState.count at hc; omega)
  have hq : s.queue = [] := List.length_eq_zero_iff.mp (by unfold GuiState.count at hc; omega)
  rw [← tasks_accepted hn hd]
  simp only [GuiState.run, GuiState.step, GuiState.press, hen, hv, guiKey_iff.mpr hk, hj, hs, Bool.false_eq_true, if_true, if_false,
    Option.bind_some, List.nil_append] at h
  obtain ⟨evs, he, h⟩ := peel_job (by rfl) (by exact hq) he h h0
  simp only [GuiState.done] at h
  unfold Escapes
  cases hP : guiPrepare s.store key nprocs dep with
  | error er =>
    simp only [reduceCtorEq, false_and, exists_const, Except.error.injEq, exists_eq_left']
    rw [hP] at h
    by_cases hu : er.isVerify = true
    · simp only [guiUncaught, hu, Bool.not_true, Bool.false_eq_true, if_false, hq, List.nil_append] at h
      obtain ⟨evs, he, h⟩ := peel_callback (by rfl) (by rfl) he h h0
      simp only [GuiState.tick, GuiState.prepareCb, if_true, GuiState.show] at h
      have := peel_end (by rfl) (by rfl) he h
      subst this
      exact ⟨by simp, by simp [hu], .inr (.inl ⟨rfl, rfl, rfl, er, hu, rfl⟩)⟩
    · simp only [guiUncaught, hu, Bool.not_false, if_true] at h
      have := peel_end (by rfl) (by exact hq) he h
      subst this
      exact ⟨by simp, by simpa using hu, .inr (.inr ⟨rfl, rfl, rfl⟩)⟩
  | ok ts =>
    simp only [reduceCtorEq, false_and, Except.ok.injEq, exists_and_left, exists_eq_left']
    rw [hP] at h
    simp only [guiUncaught, Bool.false_eq_true, if_false, hq, List.nil_append] at h
    obtain ⟨evs, he, h⟩ := peel_callback (by rfl) (by rfl) he h h0
    simp only [GuiState.tick, GuiState.prepareCb, if_true, List.nil_append] at h
    obtain ⟨evs, he, h⟩ := peel_job (by rfl) (by rfl) he h h0
    simp only [GuiState.done] at h
    by_cases hu : (ts.any fun t => guiUncaught (guiMainTask key t)) = true
    · rw [if_pos hu] at h
      have := peel_end (by rfl) (by rfl) he h
      subst this
      obtain ⟨t, ht, hut⟩ := List.any_eq_true.mp hu
      obtain ⟨e, hte, hee⟩ : ∃ e, guiMainTask key t = .error e ∧ e.isVerify = false := by
        cases hg : guiMainTask key t with
        | ok x => rw [hg] at hut; cases hut
        | error e => exact ⟨e, rfl, by rw [hg] at hut; simpa [guiUncaught] using hut⟩
      refine ⟨?_, ?_, .inr (.inr ⟨rfl, rfl, rfl⟩)⟩
      · simp only [reduceCtorEq, false_iff]
        rintro ⟨us, hm, -⟩
        obtain ⟨y, -, hy⟩ := mapRes_left hm ht
        rw [hte] at hy
        cases hy
      · simp only [true_iff]
        exact .inr ⟨t, ht, e, hte, hee⟩
    · rw [if_neg hu] at h
      have hesc : ¬∃ t, t ∈ ts ∧ ∃ e, guiMainTask key t = .error e ∧ e.isVerify = false := by
        rintro ⟨t, ht, e, hte, hee⟩
        exact hu (List.any_eq_true.mpr ⟨t, ht, by rw [hte]; simp [guiUncaught, hee]⟩)
      simp only [GuiState.mainCb, if_true] at h
      cases hm : guiMain key ts with
      | error er =>
        rw [hm] at h
        simp only [GuiState.show] at h
        have := peel_end (by rfl) (by rfl) he h
        subst this
        refine ⟨by simp, by simpa using hesc, .inr (.inl ⟨rfl, rfl, rfl, er, ?_, rfl⟩)⟩
        by_contra hx
        obtain ⟨t, ht, hte⟩ := mapRes_error hm
        exact hesc ⟨t, ht, er, hte, by simpa using hx⟩
      | ok us =>
        rw [hm] at h
        simp only [List.nil_append] at h
        obtain ⟨evs, he, h⟩ := peel_job (by rfl) (by rfl) he h h0
        simp only [GuiState.done] at h
        cases hf : guiFinalize us with
        | error er =>
          have hdup := guiFinalize_error hm hf
          subst hdup
          rw [hf] at h
          simp only [guiUncaught, Err.isVerify, Bool.not_true, Bool.false_eq_true, if_false, List.nil_append] at h
          obtain ⟨evs, he, h⟩ := peel_callback (by rfl) (by rfl) he h h0
          simp only [GuiState.tick, GuiState.finalizeCb, if_true, GuiState.show] at h
          have := peel_end (by rfl) (by rfl) he h
          subst this
          exact ⟨by simp [hf], by simpa using hesc, .inr (.inl ⟨rfl, rfl, rfl, _, rfl, rfl⟩)⟩
        | ok u =>
          rw [hf] at h
          simp only [guiUncaught, Bool.false_eq_true, if_false, List.nil_append] at h
          obtain ⟨evs, he, h⟩ := peel_callback (by rfl) (by rfl) he h h0
          simp only [GuiState.tick, GuiState.finalizeCb, if_true] at h
          have := peel_end (by rfl) (by rfl) he h
          subst this
          exact ⟨by simp [hf], by simpa using hesc, .inl ⟨rfl, rfl, rfl⟩⟩

/-- C98: while nothing is being verified, the callbacks that still wait change nothing; in particular nothing is
displayed after a verification was aborted, until the button is pressed again. -/
theorem gui_quiet {nprocs : Nat} {s s' : GuiState} {evs : List GuiEvent} (hv : s.verifying = false)
    (he : ∀ e ∈ evs, e.Background) (h : s.run nprocs evs = some s') :
    s'.dep = s.dep ∧ s'.label = s.label ∧ s'.enabled = s.enabled ∧ s'.verified = s.verified ∧ s'.shown = s.shown ∧
      s'.verifying = false := by
  induction evs generalizing s with
  | nil => cases h; exact ⟨rfl, rfl, rfl, rfl, rfl, hv⟩
  | cons e evs ih =>
    simp only [GuiState.run, Option.bind_eq_some_iff] at h
    obtain ⟨s₁, h1, h2⟩ := h
    obtain ⟨jobs, queue, rfl⟩ :=
      (bgStep (Closed.trivial nprocs) (fun _ _ => .intro) (fun _ _ => .intro) (he e (by simp)) h1).idle hv
    exact ih (s := { s with jobs := jobs, queue := queue }) hv (fun e h => he e (by simp [h])) h2

end

end RKSV
