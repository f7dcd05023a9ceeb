import Verif.Model.GuiThreads
import Verif.Props.GuiAnswers
/-
Property C104: the tab for DEPs of the graphical tool on Android, where tasks run in threads that are hard to stop.
-/
namespace RKSV

section
variable [PyEnv]

/-- The machine is in state `s` after the events `evs` and the given luck in stopping threads, from the start. -/
def ThreadReaches (nprocs : Nat) (evs : List (GuiEvent × List Bool)) (s : GuiState) : Prop :=
  GuiState.fresh.threadRun nprocs evs = some s

/-- What the users and the threads did, without the luck. -/
def eventsOf (evs : List (GuiEvent × List Bool)) : List GuiEvent := evs.map Prod.fst

theorem GuiState.threadRun_append {nprocs : Nat} {s : GuiState} {es fs : List (GuiEvent × List Bool)} :
    s.threadRun nprocs (es ++ fs) = (s.threadRun nprocs es).bind fun s => s.threadRun nprocs fs := by
  induction es generalizing s with
  | nil => rfl
  | cons e es ih =>
    simp only [List.cons_append, GuiState.threadRun]
    cases s.threadStep nprocs e with
    | none => rfl
    | some s => exact ih

theorem ThreadReaches.snoc {nprocs : Nat} {evs : List (GuiEvent × List Bool)} {e : GuiEvent × List Bool} {s : GuiState} :
    ThreadReaches nprocs (evs ++ [e]) s ↔ ∃ s₁, ThreadReaches nprocs evs s₁ ∧ s₁.threadStep nprocs e = some s := by
  unfold ThreadReaches
  rw [GuiState.threadRun_append]
  simp only [Option.bind_eq_some_iff, GuiState.threadRun]
  constructor
  · rintro ⟨s₁, h1, s₂, h2, h3⟩
    cases h3
    exact ⟨s₁, h1, h2⟩
  · rintro ⟨s₁, h1, h2⟩
    exact ⟨s₁, h1, s, h2, rfl⟩

theorem survivors_mem {alive : List Bool} {jobs : List GuiJob} {j : GuiJob} (h : j ∈ survivors alive jobs) : j ∈ jobs := by
  obtain ⟨p, hp, rfl⟩ := List.mem_map.mp h
  exact (List.of_mem_zip (List.mem_filter.mp hp).1).1

theorem survivors_nil (jobs : List GuiJob) : survivors [] jobs = [] := by simp [survivors]

theorem survivors_length (alive : List Bool) (jobs : List GuiJob) : (survivors alive jobs).length ≤ jobs.length := by
  unfold survivors
  rw [List.length_map]
  refine (List.length_filter_le _ _).trans ?_
  rw [List.length_zip]
  exact Nat.min_le_left _ _

/-- Every choice of threads is possible. -/
theorem survivors_any {jobs l : List GuiJob} (h : l.Sublist jobs) : ∃ alive, survivors alive jobs = l := by
  induction h with
  | slnil => exact ⟨[], rfl⟩
  | cons a _ ih =>
    obtain ⟨alive, rfl⟩ := ih
    exact ⟨false :: alive, by simp [survivors]⟩
  | cons_cons a _ ih =>
    obtain ⟨alive, rfl⟩ := ih
    exact ⟨true :: alive, by simp [survivors]⟩

/-- A step on Android is a step with a pool of processes, except that jobs may remain. -/
theorem threadStep_cases {nprocs : Nat} {s s' : GuiState} {e : GuiEvent × List Bool}
    (h : s.threadStep nprocs e = some s') :
    s.aborts e.1 = false ∧ s.step nprocs e.1 = some s' ∨
    s.aborts e.1 = true ∧ ∃ t, s.step nprocs e.1 = some t ∧ s' = { t with jobs := survivors e.2 s.jobs } := by
  obtain ⟨t, h1, h2⟩ := Option.map_eq_some_iff.mp h
  cases ha : s.aborts e.1 with
  | true =>
    rw [ha, if_pos rfl] at h2
    exact .inr ⟨rfl, t, h1, h2.symm⟩
  | false =>
    rw [ha, if_neg (by decide)] at h2
    exact .inl ⟨rfl, h2 ▸ h1⟩

theorem threadStep_background {nprocs : Nat} {s s' : GuiState} {e : GuiEvent × List Bool} (he : e.1.Background)
    (h : s.threadStep nprocs e = some s') : s.step nprocs e.1 = some s' := by
  rcases threadStep_cases h with ⟨-, h⟩ | ⟨ha, -⟩
  · exact h
  · obtain ⟨e, al⟩ := e
    cases he <;> cases ha

/-- An abort leaves no job in a pool of processes. -/
theorem aborts_jobs {nprocs : Nat} {s t : GuiState} {e : GuiEvent} (ha : s.aborts e = true)
    (h : s.step nprocs e = some t) :
    t.jobs = [] ∧ t.queue = s.queue ∧ t.verifying = false ∧ t.label = .verify := by
  cases e with
  | press =>
    simp only [GuiState.aborts, Bool.and_eq_true] at ha
    obtain ⟨-, ⟨-, rfl⟩ | ⟨hv, -⟩ | ⟨hv, -⟩⟩ := press_cases h
    · exact ⟨rfl, rfl, rfl, rfl⟩
    · rw [ha.2] at hv; cases hv
    · rw [ha.2] at hv; cases hv
  | load f =>
    simp only [GuiState.step, GuiState.load] at h
    simp only [GuiState.aborts] at ha
    cases hf : f >>= guiLoad with
    | error e => rw [hf] at ha; cases ha
    | ok dep =>
      rw [hf] at h
      simp only at h
      split at h
      · cases h; exact ⟨rfl, rfl, rfl, rfl⟩
      · split at h
        · cases h; exact ⟨rfl, rfl, rfl, rfl⟩
        · cases h
  | _ => cases ha

/-- C104: if every thread is stopped by an abort, the tab behaves as it does with a pool of processes. -/
theorem thread_refines (nprocs : Nat) (s : GuiState) (evs : List GuiEvent) :
    s.threadRun nprocs (evs.map fun e => (e, [])) = s.run nprocs evs := by
  induction evs generalizing s with
  | nil => rfl
  | cons e evs ih =>
    simp only [List.map_cons, GuiState.threadRun, GuiState.run]
    have : s.threadStep nprocs (e, []) = s.step nprocs e := by
      unfold GuiState.threadStep
      cases h : s.step nprocs e with
      | none => rfl
      | some t =>
        cases ha : s.aborts e with
        | false => simp [ha]
        | true =>
          have := (aborts_jobs ha h).1
          simp only [Option.map_some, ha, if_true, survivors_nil, Option.some.injEq]
          rw [← this]
    rw [this]
    cases s.step nprocs e with
    | none => rfl
    | some t => exact ih t

/-- As long as nothing is aborted the luck does not matter. -/
theorem threadRun_background {nprocs : Nat} {s s' : GuiState} {evs : List (GuiEvent × List Bool)}
    (he : ∀ e ∈ eventsOf evs, e.Background) (h : s.threadRun nprocs evs = some s') :
    s.run nprocs (eventsOf evs) = some s' := by
  induction evs generalizing s with
  | nil => exact h
  | cons e evs ih =>
    simp only [GuiState.threadRun, Option.bind_eq_some_iff] at h
    obtain ⟨s₁, h1, h2⟩ := h
    simp only [eventsOf, List.map_cons, GuiState.run, Option.bind_eq_some_iff]
    exact ⟨s₁, threadStep_background (he _ (by simp [eventsOf])) h1, ih (fun x hx => he x (by simp [eventsOf] at hx ⊢; exact .inr hx)) h2⟩

theorem thread_basic {nprocs : Nat} {evs : List (GuiEvent × List Bool)} {s : GuiState} (h : ThreadReaches nprocs evs s) :
    Basic (eventsOf evs) s := by
  induction evs using List.reverseRecOn generalizing s with
  | nil =>
    cases h
    exact basic (nprocs := nprocs) (evs := []) rfl
  | append_singleton evs e ih =>
    obtain ⟨s₁, h1, h2⟩ := ThreadReaches.snoc.mp h
    have hb : ∀ {t}, s₁.step nprocs e.1 = some t → Basic (eventsOf (evs ++ [e])) t := fun ht => by
      rw [eventsOf, List.map_append]
      exact basic_step (ih h1) ht
    rcases threadStep_cases h2 with ⟨-, h3⟩ | ⟨-, t, h3, rfl⟩
    · exact hb h3
    · have := hb h3
      exact ⟨this.dep, this.enabled, this.verifying, this.idle, this.valid, this.verified⟩

/-- A press of the button that starts a verification on Android: the state in which it happens, the file shown in it,
and the key. -/
structure ThreadStarted (nprocs : Nat) (evs pre post : List (GuiEvent × List Bool)) (s : GuiState) (doc : Json)
    (dep : List DepGroup) (key : Option Bytes) : Prop where
  events : ∃ alive, evs = pre ++ (.press, alive) :: post
  reaches : ThreadReaches nprocs pre s
  idle : s.verifying = false
  loaded : .load (.ok doc) ∈ eventsOf pre
  parsed : guiLoad doc = .ok dep
  shown : s.dep = some dep
  key : TypedKey s.keyText key

theorem ThreadStarted.extend {nprocs : Nat} {evs pre post : List (GuiEvent × List Bool)} {s : GuiState} {doc : Json}
    {dep : List DepGroup} {key : Option Bytes} (h : ThreadStarted nprocs evs pre post s doc dep key)
    (e : GuiEvent × List Bool) : ThreadStarted nprocs (evs ++ [e]) pre (post ++ [e]) s doc dep key :=
  { h with events := by obtain ⟨alive, h⟩ := h.events; exact ⟨alive, by rw [h]; simp⟩ }

theorem threadStarted {nprocs : Nat} {evs : List (GuiEvent × List Bool)} {s : GuiState} (h : ThreadReaches nprocs evs s)
    (hen : s.enabled = true) (hv : s.verifying = false) {key : Option Bytes} (hk : guiKey s.keyText = .ok key)
    (alive : List Bool) :
    ∃ doc dep, ThreadStarted nprocs (evs ++ [(.press, alive)]) evs [] s doc dep key := by
  have hb := thread_basic h
  obtain ⟨dep, hd⟩ := Option.ne_none_iff_exists'.mp (hb.enabled hen)
  obtain ⟨doc, h1, h2⟩ := hb.dep dep hd
  exact ⟨doc, dep, ⟨alive, rfl⟩, h, hv, h1, h2, hd, guiKey_iff.mp hk⟩

/-- The predicates for one verification are kept by its tasks. -/
theorem goodClosed {nprocs : Nat} (hn : nprocs ≠ 0) {ks : KeyStore} {key : Option Bytes} {doc : Json}
    {dep : List DepGroup} (hd : guiLoad doc = .ok dep) :
    Closed nprocs (GoodJob nprocs dep ks key) (GoodCallback nprocs dep ks key) (DocAccepted ks key doc) := by
  constructor
  · rintro dep' ks' k' ⟨hd, rfl, rfl⟩
    cases hd
    exact ⟨rfl, fun _ h => h⟩
  · rintro k' ts ⟨rfl, hp⟩
    exact ⟨rfl, hp _ rfl⟩
  · rintro k' ts us ⟨rfl, hp⟩ hm
    exact ⟨ts, hp, hm⟩
  · rintro us ⟨ts, hp, hm⟩
    exact fun u hu => ⟨ts, us, hp, hm, hu⟩
  · intro u hg
    obtain ⟨ts, us, hp, hm, hf⟩ := hg u rfl
    exact (tasks_accepted hn hd).mp ⟨ts, us, u, hp, hm, hf⟩

/-- Predicates that depend on a verification are kept if each is. -/
theorem Closed.exists {nprocs : Nat} {ι : Type} {P : ι → Prop} {J : ι → GuiJob → Prop} {C : ι → GuiCallback → Prop}
    {V : ι → Prop} (h : ∀ i, P i → Closed nprocs (J i) (C i) (V i)) :
    Closed nprocs (fun j => ∃ i, P i ∧ J i j) (fun c => ∃ i, P i ∧ C i c) (∃ i, P i ∧ V i) := by
  constructor
  · rintro dep ks k ⟨i, hp, hj⟩
    exact ⟨i, hp, (h i hp).prepare _ _ _ hj⟩
  · rintro k ts ⟨i, hp, hj⟩
    exact ⟨i, hp, (h i hp).prepared _ _ hj⟩
  · rintro k ts us ⟨i, hp, hj⟩ hm
    exact ⟨i, hp, (h i hp).main _ _ _ hj hm⟩
  · rintro us ⟨i, hp, hj⟩
    exact ⟨i, hp, (h i hp).finalize _ hj⟩
  · rintro u ⟨i, hp, hj⟩
    exact ⟨i, hp, (h i hp).finalized _ hj⟩

/-- One verification: the events before and after the button, the state, the file and the key. -/
structure Attempt where
  pre : List (GuiEvent × List Bool)
  post : List (GuiEvent × List Bool)
  state : GuiState
  doc : Json
  dep : List DepGroup
  key : Option Bytes

def Attempt.Of (nprocs : Nat) (evs : List (GuiEvent × List Bool)) (a : Attempt) : Prop :=
  ThreadStarted nprocs evs a.pre a.post a.state a.doc a.dep a.key

theorem Attempt.Of.extend {nprocs : Nat} {evs : List (GuiEvent × List Bool)} {e : GuiEvent × List Bool}
    {Q : KeyStore → Option Bytes → Json → List DepGroup → Prop}
    (h : ∃ a : Attempt, a.Of nprocs evs ∧ Q a.state.store a.key a.doc a.dep) :
    ∃ a : Attempt, a.Of nprocs (evs ++ [e]) ∧ Q a.state.store a.key a.doc a.dep := by
  obtain ⟨a, h1, h2⟩ := h
  exact ⟨{ a with post := a.post ++ [e] }, ThreadStarted.extend h1 e, h2⟩

/-- C104: on Android too "Valid DEP" is never shown out of thin air.  Whatever the users do, in whatever order threads
are done, and whichever of them could be stopped, the button was pressed before while a DEP was shown that is accepted
with the key store and the AES key of that moment. -/
theorem thread_valid_once {nprocs : Nat} (hn : nprocs ≠ 0) {evs : List (GuiEvent × List Bool)} {s : GuiState}
    (h : ThreadReaches nprocs evs s) (hv : s.label = .valid) :
    ∃ pre post s₁ doc dep key, ThreadStarted nprocs evs pre post s₁ doc dep key ∧ DocAccepted s₁.store key doc := by
  have main : ∀ {evs : List (GuiEvent × List Bool)} {s : GuiState}, ThreadReaches nprocs evs s →
      (∀ j ∈ s.jobs, ∃ a : Attempt, a.Of nprocs evs ∧ GoodJob nprocs a.dep a.state.store a.key j) ∧
      (∀ c ∈ s.queue, ∃ a : Attempt, a.Of nprocs evs ∧ GoodCallback nprocs a.dep a.state.store a.key c) ∧
      (s.label = .valid → ∃ a : Attempt, a.Of nprocs evs ∧ DocAccepted a.state.store a.key a.doc) := by
    clear h hv s evs
    intro evs s h
    induction evs using List.reverseRecOn generalizing s with
    | nil =>
      cases h
      exact ⟨fun _ h => by simp [GuiState.fresh] at h, fun _ h => by simp [GuiState.fresh] at h,
        fun h => (by cases h)⟩
    | append_singleton evs ea ih =>
      obtain ⟨s₁, h1, h2⟩ := ThreadReaches.snoc.mp h
      obtain ⟨hJ, hC, hV⟩ := ih h1
      replace hJ : ∀ j ∈ s₁.jobs, ∃ a : Attempt, a.Of nprocs (evs ++ [ea]) ∧
          GoodJob nprocs a.dep a.state.store a.key j := fun j hj =>
        Attempt.Of.extend (Q := fun ks key _ dep => GoodJob nprocs dep ks key j) (hJ j hj)
      replace hC : ∀ c ∈ s₁.queue, ∃ a : Attempt, a.Of nprocs (evs ++ [ea]) ∧
          GoodCallback nprocs a.dep a.state.store a.key c := fun c hc =>
        Attempt.Of.extend (Q := fun ks key _ dep => GoodCallback nprocs dep ks key c) (hC c hc)
      replace hV : s₁.label = .valid → ∃ a : Attempt, a.Of nprocs (evs ++ [ea]) ∧
          DocAccepted a.state.store a.key a.doc := fun hl =>
        Attempt.Of.extend (Q := fun ks key doc _ => DocAccepted ks key doc) (hV hl)
      rcases threadStep_cases h2 with ⟨ha, h2⟩ | ⟨ha, t, h3, rfl⟩
      · obtain ⟨e, al⟩ := ea
        rcases e.cases_bg with he | ⟨f, rfl⟩ | ⟨t, rfl⟩ | ⟨ks, rfl⟩ | rfl
        · have hcl := Closed.exists (P := fun a : Attempt => a.Of nprocs (evs ++ [(e, al)]))
            (J := fun a => GoodJob nprocs a.dep a.state.store a.key)
            (C := fun a => GoodCallback nprocs a.dep a.state.store a.key)
            (V := fun a => DocAccepted a.state.store a.key a.doc)
            (fun a ha => goodClosed hn ha.parsed)
          have st := bgStep hcl hJ hC he h2
          refine ⟨st.jobs, st.queue, fun hl => ?_⟩
          by_cases hv : s₁.verifying = true
          · by_cases hv' : s.verifying = true
            · have := ((thread_basic h).verifying hv').1
              rw [hl] at this
              cases this
            · rcases st.stopped hv (by simpa using hv') with ⟨a, -⟩ | ⟨-, -, -, -, hV'⟩
              · rw [hl] at a
                cases a
              · exact hV'
          · obtain ⟨jobs, queue, rfl⟩ := st.idle (by simpa using hv)
            exact hV hl
        · rcases load_cases h2 with ⟨er, rfl⟩ | ⟨doc, dep, rfl, hd, -⟩
          · exact ⟨hJ, hC, hV⟩
          · simp only [GuiState.aborts, Res.ok_bind, hd] at ha
            cases ha
        · cases h2
          exact ⟨hJ, hC, hV⟩
        · cases h2
          exact ⟨hJ, hC, hV⟩
        · obtain ⟨hen, ⟨hv, rfl⟩ | ⟨hv, er, -, rfl⟩ | ⟨hv, key, hk, rfl⟩⟩ := press_cases h2
          · simp [GuiState.aborts, hen, hv] at ha
          · exact ⟨hJ, hC, hV⟩
          · refine ⟨fun j hj => ?_, hC, fun hx => (by cases hx)⟩
            rcases List.mem_append.mp hj with hj | hj
            · exact hJ j hj
            · rw [List.mem_singleton.mp hj]
              obtain ⟨doc, dep, hs⟩ := threadStarted h1 hen hv hk al
              exact ⟨⟨_, _, _, doc, dep, key⟩, hs, hs.shown, rfl, rfl⟩
      · obtain ⟨-, hq, -, hl⟩ := aborts_jobs ha h3
        refine ⟨fun j hj => hJ j (survivors_mem hj), fun c hc => hC c (hq ▸ hc), fun hx => ?_⟩
        have hx : t.label = .valid := hx
        rw [hl] at hx
        cases hx
  obtain ⟨a, h1, h2⟩ := (main h).2.2 hv
  exact ⟨a.pre, a.post, a.state, a.doc, a.dep, a.key, h1, h2⟩

/-- No verification is started while a thread or a callback of an earlier one is still there. -/
def Rested (nprocs : Nat) (evs : List (GuiEvent × List Bool)) : Prop :=
  ∀ pre alive post s₁, evs = pre ++ (.press, alive) :: post → ThreadReaches nprocs pre s₁ → s₁.verifying = false →
    s₁.count = 0

theorem Rested.left {nprocs : Nat} {evs : List (GuiEvent × List Bool)} {e : GuiEvent × List Bool}
    (h : Rested nprocs (evs ++ [e])) : Rested nprocs evs :=
  fun pre alive post s₁ he => h pre alive (post ++ [e]) s₁ (by rw [he]; simp)

/-- C104: as long as nobody presses the button while threads or callbacks of an earlier verification are still there,
"Valid DEP" tells the truth about the DEP shown: it is accepted with the key store and the AES key of the last time the
button was pressed. -/
theorem thread_valid_partial {nprocs : Nat} (hn : nprocs ≠ 0) {evs : List (GuiEvent × List Bool)} {s : GuiState}
    (h : ThreadReaches nprocs evs s) (hp : Rested nprocs evs) (hv : s.label = .valid) :
    ∃ pre alive post s₁ doc key, evs = pre ++ (.press, alive) :: post ∧ .press ∉ eventsOf post ∧
      ThreadReaches nprocs pre s₁ ∧ s₁.dep = s.dep ∧ Shows (eventsOf evs) s doc ∧ TypedKey s₁.keyText key ∧
      DocAccepted s₁.store key doc := by
  have main : ∀ {evs : List (GuiEvent × List Bool)} {s : GuiState}, ThreadReaches nprocs evs s → Rested nprocs evs →
      (s.verifying = true → ∃ a : Attempt, a.Of nprocs evs ∧
        .press ∉ eventsOf a.post ∧ s.dep = some a.dep ∧ (∀ j ∈ s.jobs, GoodJob nprocs a.dep a.state.store a.key j) ∧
        ∀ c ∈ s.queue, GoodCallback nprocs a.dep a.state.store a.key c) ∧
      (s.label = .valid → ∃ a : Attempt, a.Of nprocs evs ∧
        .press ∉ eventsOf a.post ∧ s.dep = some a.dep ∧ DocAccepted a.state.store a.key a.doc) := by
    clear h hv hp s evs
    intro evs s h hp
    induction evs using List.reverseRecOn generalizing s with
    | nil =>
      cases h
      exact ⟨fun h => (by cases h), fun h => (by cases h)⟩
    | append_singleton evs ea ih =>
      obtain ⟨s₁, h1, h2⟩ := ThreadReaches.snoc.mp h
      obtain ⟨hR, hV⟩ := ih h1 hp.left
      have hb₁ := thread_basic h1
      have hb := thread_basic h
      rcases threadStep_cases h2 with ⟨ha, h2⟩ | ⟨ha, t, h3, rfl⟩
      · obtain ⟨e, al⟩ := ea
        by_cases hpr : e = .press
        · subst hpr
          obtain ⟨hen, ⟨hv, rfl⟩ | ⟨hv, er, -, rfl⟩ | ⟨hv, key, hk, rfl⟩⟩ := press_cases h2
          · exact ⟨fun hx => (by cases hx), fun hx => (by cases hx)⟩
          · refine ⟨fun hx => ?_, fun hx => ?_⟩
            · have : s₁.verifying = true := hx
              rw [hv] at this
              cases this
            · have := (hb₁.valid hx).1
              rw [hen] at this
              cases this
          · have h0 := hp evs al [] s₁ rfl h1 hv
            unfold GuiState.count at h0
            have hj0 : s₁.jobs = [] := List.length_eq_zero_iff.mp (by omega)
            have hq0 : s₁.queue = [] := List.length_eq_zero_iff.mp (by omega)
            refine ⟨fun _ => ?_, fun hx => (by cases hx)⟩
            obtain ⟨doc, dep, hs⟩ := threadStarted h1 hen hv hk al
            refine ⟨⟨_, _, _, doc, dep, key⟩, hs, by simp [eventsOf], hs.shown, ?_, ?_⟩
            · intro j hj
              simp only [hj0, List.nil_append, List.mem_singleton] at hj
              rw [hj]
              exact ⟨hs.shown, rfl, rfl⟩
            · intro c hc
              simp [hq0] at hc
        · have hnp : ∀ {post : List (GuiEvent × List Bool)}, .press ∉ eventsOf post → .press ∉ eventsOf (post ++ [(e, al)]) := by
            intro post hnp hm
            rw [eventsOf, List.map_append] at hm
            rcases List.mem_append.mp hm with hm | hm
            · exact hnp hm
            · exact hpr (List.mem_singleton.mp hm).symm
          replace hR : s₁.verifying = true → ∃ a : Attempt, a.Of nprocs (evs ++ [(e, al)]) ∧
              .press ∉ eventsOf a.post ∧ s₁.dep = some a.dep ∧
              (∀ j ∈ s₁.jobs, GoodJob nprocs a.dep a.state.store a.key j) ∧
              ∀ c ∈ s₁.queue, GoodCallback nprocs a.dep a.state.store a.key c := fun hx => by
            obtain ⟨a, hs, hn', hr⟩ := hR hx
            exact ⟨{ a with post := a.post ++ [(e, al)] }, ThreadStarted.extend hs _, hnp hn', hr⟩
          replace hV : s₁.label = .valid → ∃ a : Attempt, a.Of nprocs (evs ++ [(e, al)]) ∧
              .press ∉ eventsOf a.post ∧ s₁.dep = some a.dep ∧ DocAccepted a.state.store a.key a.doc := fun hx => by
            obtain ⟨a, hs, hn', hr⟩ := hV hx
            exact ⟨{ a with post := a.post ++ [(e, al)] }, ThreadStarted.extend hs _, hnp hn', hr⟩
          rcases e.cases_bg with he | ⟨f, rfl⟩ | ⟨t, rfl⟩ | ⟨ks, rfl⟩ | rfl
          · by_cases hv : s₁.verifying = true
            · obtain ⟨a, hs, hnp, hd, hJ, hC⟩ := hR hv
              have st := bgStep (goodClosed hn hs.parsed) hJ hC he h2
              refine ⟨fun _ => ⟨a, hs, hnp, st.dep ▸ hd, st.jobs, st.queue⟩, fun hx => ?_⟩
              by_cases hv' : s.verifying = true
              · have := (hb.verifying hv').1
                rw [hx] at this
                cases this
              · rcases st.stopped hv (by simpa using hv') with ⟨a, -⟩ | ⟨-, -, -, -, hacc⟩
                · rw [hx] at a
                  cases a
                · exact ⟨a, hs, hnp, st.dep ▸ hd, hacc⟩
            · have hv : s₁.verifying = false := by simpa using hv
              have st := bgStep (Closed.trivial nprocs) (fun _ _ => .intro) (fun _ _ => .intro) he h2
              obtain ⟨jobs, queue, rfl⟩ := st.idle hv
              refine ⟨fun hx => ?_, hV⟩
              have : s₁.verifying = true := hx
              rw [hv] at this
              cases this
          · rcases load_cases h2 with ⟨er, rfl⟩ | ⟨doc, dep, rfl, hd, -⟩
            · exact ⟨hR, hV⟩
            · simp only [GuiState.aborts, Res.ok_bind, hd] at ha
              cases ha
          · cases h2
            exact ⟨hR, hV⟩
          · cases h2
            exact ⟨hR, hV⟩
          · exact absurd rfl hpr
      · obtain ⟨-, -, hv, hl⟩ := aborts_jobs ha h3
        refine ⟨fun hx => ?_, fun hx => ?_⟩
        · have hx : t.verifying = true := hx
          rw [hv] at hx
          cases hx
        · have hx : t.label = .valid := hx
          rw [hl] at hx
          cases hx
  obtain ⟨a, hs, hnp, hd, hacc⟩ := (main h hp).2 hv
  obtain ⟨alive, he⟩ := hs.events
  refine ⟨a.pre, alive, a.post, a.state, a.doc, a.key, he, hnp, hs.reaches, by rw [hs.shown, hd], ?_, hs.key, hacc⟩
  refine ⟨?_, a.dep, hs.parsed, hd⟩
  rw [he, eventsOf, List.map_append]
  exact List.mem_append_left _ hs.loaded

/-- C104: pressing the button when nothing is going on, and waiting, gives the right answer, if the AES key has the
right length (or is missing) and all amounts are finite. -/
theorem thread_result {nprocs : Nat} (hn : nprocs ≠ 0) {s s' : GuiState} {doc : Json} {dep : List DepGroup}
    {key : Option Bytes} {alive : List Bool} {evs : List (GuiEvent × List Bool)} (hen : s.enabled = true)
    (hv : s.verifying = false) (hc : s.count = 0) (hd : guiLoad doc = .ok dep) (hs : s.dep = some dep)
    (hk : TypedKey s.keyText key) (ha : Answerable key (dep.flatMap (·.recs)))
    (he : ∀ e ∈ eventsOf evs, e.Background) (h : s.threadRun nprocs ((.press, alive) :: evs) = some s')
    (h0 : s'.count = 0) :
    DocAccepted s.store key doc ∧ s'.label = .valid ∧ s'.shown = s.shown ∨
    ¬DocAccepted s.store key doc ∧ s'.label = .verify ∧ s'.enabled = true ∧
      ∃ e, e.isVerify = true ∧ s'.shown = e :: s.shown := by
  simp only [GuiState.threadRun, Option.bind_eq_some_iff] at h
  obtain ⟨s₁, h1, h2⟩ := h
  refine gui_result hn (evs := eventsOf evs) hen hv hc hd hs hk ha he ?_ h0
  rw [GuiState.run, Option.bind_eq_some_iff]
  refine ⟨s₁, ?_, threadRun_background he h2⟩
  rcases threadStep_cases h1 with ⟨-, h1⟩ | ⟨ha', -⟩
  · exact h1
  · simp [GuiState.aborts, hv] at ha'

/-- C104: threads that could not be stopped end by themselves: from any state, if the users do nothing, no run is longer
than five steps for each thread and callback. -/
theorem thread_settles (nprocs : Nat) (s : GuiState) :
    (∀ evs s', (∀ e ∈ eventsOf evs, e.Background) → s.threadRun nprocs evs = some s' → evs.length ≤ 5 * s.count) ∧
    (s.count ≠ 0 → ∃ e s', e.Background ∧ ∀ alive, s.threadStep nprocs (e, alive) = some s') := by
  obtain ⟨h1, h2⟩ := gui_settles nprocs s
  constructor
  · intro evs s' he h
    have := h1 (eventsOf evs) s' he (threadRun_background he h)
    rwa [eventsOf, List.length_map] at this
  · intro hc
    obtain ⟨e, s', he, hs⟩ := h2 hc
    refine ⟨e, s', he, fun alive => ?_⟩
    unfold GuiState.threadStep
    rw [hs]
    cases he <;> rfl

end

namespace Demo

attribute [local instance] env

/-- A file is loaded and the button is pressed; another file is loaded while the thread for the first one is working,
and the button is pressed again.  The thread for the first file could not be stopped, and it and the threads after it
are done first. -/
def threadRaceEvents : List (GuiEvent × List Bool) :=
  [(.load (.ok dayDoc), []), (.typed (b64Encode false aes), []), (.setStore deviceStore, []), (.press, []),
    (.load (.ok closedDoc), [true]), (.press, []), (.done 0, []), (.tick 0, []), (.done 1, []), (.done 1, []),
    (.tick 0, [])]

set_option maxRecDepth 100000 in
theorem thread_race_label : ((GuiState.fresh.threadRun 1 threadRaceEvents).any fun s => s.label = .valid) = true := by
  decide +kernel

set_option maxRecDepth 100000 in
theorem closed_unprepared_one :
    (guiLoad closedDoc >>= guiPrepare deviceStore (some aes) 1).isOk = false := by decide +kernel

/-- No callback waits when a verification is started, which is all that is needed with a pool of processes. -/
def ThreadPatient (nprocs : Nat) (evs : List (GuiEvent × List Bool)) : Prop :=
  ∀ pre alive post s₁, evs = pre ++ (.press, alive) :: post → ThreadReaches nprocs pre s₁ → s₁.verifying = false →
    s₁.queue = []

theorem press_states {nprocs : Nat} {evs : List (GuiEvent × List Bool)} (p : GuiState → Bool)
    (h : (List.range evs.length).all (fun k => match evs[k]? with
      | some (.press, _) => (GuiState.fresh.threadRun nprocs (evs.take k)).all p
      | _ => true) = true) {pre post : List (GuiEvent × List Bool)} {alive : List Bool} {s₁ : GuiState}
    (he : evs = pre ++ (.press, alive) :: post) (hr : ThreadReaches nprocs pre s₁) : p s₁ = true := by
  have := List.all_eq_true.mp h pre.length (by rw [he]; simp)
  rw [he] at this
  simp only [List.getElem?_append_right (Nat.le_refl _), Nat.sub_self, List.getElem?_cons_zero, List.take_left'] at this
  rw [show GuiState.fresh.threadRun nprocs pre = some s₁ from hr] at this
  simpa using this

set_option maxRecDepth 100000 in
theorem thread_race_patient : ThreadPatient 1 threadRaceEvents := by
  intro pre alive post s₁ he hr hv
  have := press_states (nprocs := 1) (fun s => s.verifying || s.queue.isEmpty) (by decide +kernel) he hr
  simpa [hv] using this

theorem thread_dep {nprocs : Nat} {s s' : GuiState} {evs : List (GuiEvent × List Bool)}
    (he : ∀ e ∈ eventsOf evs, e.Background ∨ e = .press) (h : s.threadRun nprocs evs = some s') : s'.dep = s.dep := by
  induction evs generalizing s with
  | nil => cases h; rfl
  | cons e evs ih =>
    simp only [GuiState.threadRun, Option.bind_eq_some_iff] at h
    obtain ⟨s₁, h1, h2⟩ := h
    rw [ih (fun x hx => he x (by simp only [eventsOf, List.map_cons]; exact List.mem_cons_of_mem _ hx)) h2]
    have hd : ∀ {t}, s.step nprocs e.1 = some t → t.dep = s.dep := fun ht => by
      obtain ⟨e, al⟩ := e
      rcases he e (by simp [eventsOf]) with hb | rfl
      · exact (bgStep (Closed.trivial nprocs) (fun _ _ => .intro) (fun _ _ => .intro) hb ht).dep
      · obtain ⟨-, ⟨-, rfl⟩ | ⟨-, er, -, rfl⟩ | ⟨-, key, -, rfl⟩⟩ := press_cases ht <;> rfl
    rcases threadStep_cases h1 with ⟨-, h3⟩ | ⟨-, t, h3, rfl⟩
    · exact hd h3
    · exact (hd h3 :)

/-- C104, the restriction is needed: after these events "Valid DEP" is shown for a DEP that is not accepted with the key
store and the AES key that were there all the time, although no callback waited whenever the button was pressed. -/
theorem thread_race : ThreadPatient 1 threadRaceEvents ∧ ∃ s, ThreadReaches 1 threadRaceEvents s ∧ s.label = .valid ∧
    Shows (eventsOf threadRaceEvents) s closedDoc ∧ ¬DocAccepted deviceStore (some aes) closedDoc := by
  refine ⟨thread_race_patient, ?_⟩
  have h := thread_race_label
  obtain ⟨dep, hd, hsh⟩ : ∃ dep, guiLoad closedDoc = .ok dep ∧ guiShow dep = .ok () := by
    obtain ⟨dep, h1, h2⟩ := Res.bind_eq_ok.mp (eq_of_isOk closed_shows)
    exact ⟨dep, h1, h2⟩
  cases hr : GuiState.fresh.threadRun 1 threadRaceEvents with
  | none => rw [hr] at h; cases h
  | some s =>
    rw [hr] at h
    refine ⟨s, hr, by simpa using h, ⟨by simp [threadRaceEvents, eventsOf], dep, hd, ?_⟩, ?_⟩
    · rw [show threadRaceEvents = threadRaceEvents.take 4 ++ (.load (.ok closedDoc), [true]) :: threadRaceEvents.drop 5
        from rfl, GuiState.threadRun_append, Option.bind_eq_some_iff] at hr
      obtain ⟨s₁, -, hr⟩ := hr
      simp only [GuiState.threadRun, Option.bind_eq_some_iff] at hr
      obtain ⟨s₂, h2, hr⟩ := hr
      rw [thread_dep ?_ hr]
      · simp only [GuiState.threadStep, GuiState.step, GuiState.load, GuiState.aborts, Res.ok_bind, hd, hsh,
          Option.map_some, if_true, Option.some.injEq] at h2
        rw [← h2]
        rfl
      · intro e he
        simp only [threadRaceEvents, eventsOf, List.drop_succ_cons, List.drop_zero, List.map_cons, List.map_nil,
          List.mem_cons, List.not_mem_nil, or_false] at he
        rcases he with rfl | rfl | rfl | rfl | rfl | rfl
        · exact .inr rfl
        all_goals first | exact .inl (.done _) | exact .inl (.tick _)
    · intro hacc
      obtain ⟨ts, -, -, hp, -⟩ := (tasks_accepted (nprocs := 1) (by decide) hd).mpr hacc
      have := closed_unprepared_one
      rw [hd, Res.ok_bind, hp] at this
      cases this

/-- The day of the register on Android, aborted once by pressing the button again, and repeated after the thread that
could not be stopped was done. -/
def threadDayEvents : List (GuiEvent × List Bool) :=
  [(.load (.ok dayDoc), []), (.typed (b64Encode false aes), []), (.setStore deviceStore, []), (.press, []),
    (.press, [true]), (.done 0, []), (.tick 0, []), (.press, []), (.done 0, []), (.tick 0, []), (.done 0, []),
    (.done 0, []), (.tick 0, [])]

set_option maxRecDepth 100000 in
/-- These events meet the hypotheses of `thread_valid_once` and `thread_valid_partial`. -/
theorem thread_day : Rested 1 threadDayEvents ∧ ∃ s, ThreadReaches 1 threadDayEvents s ∧ s.label = .valid := by
  constructor
  · intro pre alive post s₁ he hr hv
    have := press_states (nprocs := 1) (fun s => s.verifying || s.count = 0) (by decide +kernel) he hr
    simpa [hv] using this
  · have h : ((GuiState.fresh.threadRun 1 threadDayEvents).any fun s => s.label = .valid) = true := by decide +kernel
    cases hr : GuiState.fresh.threadRun 1 threadDayEvents with
    | none => rw [hr] at h; cases h
    | some s =>
      rw [hr] at h
      exact ⟨s, hr, by simpa using h⟩

end Demo

end RKSV
