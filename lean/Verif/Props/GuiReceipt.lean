import Verif.Model.GuiReceipt
import Verif.Props.LineTools
import Verif.Props.Url
import Verif.Props.Counter
import Verif.Props.GuiRun
import Verif.Props.Parallel
/-
C99: the window for a receipt in the graphical tool.
-/
namespace RKSV

section
variable [PyEnv]

/-- The receipt has a valid signature under a key from the key store. -/
def GenuineReceipt (ks : KeyStore) (r : Receipt) : Prop :=
  r.signature ≠ failureMark ∧ ∃ k, KeyFor (.fromKeyStore ks) r k ∧ SignatureValid r k

/-- The text is a receipt in this format; for a URL, the server returns the QR code of a receipt, and the URL contains
the hash of this receipt. -/
inductive ViewReads (v : PyVersion) (get : Str → Option Str) : ViewFormat → Str → Receipt → Str → Prop
  | jws {t : Str} {r : Receipt} {alg : Str} (h : fromJWS t = .ok (r, alg)) : ViewReads v get .jws t r alg
  | qr {t : Str} {r : Receipt} {alg : Str} (h : fromBasic t = .ok (r, alg)) : ViewReads v get .qr t r alg
  | ocr {t : Str} {r : Receipt} {alg : Str} (h : fromOCR v t = .ok (r, alg)) : ViewReads v get .ocr t r alg
  | url {t code hash : Str} {r : Receipt} {alg : Str} (hc : get t = some code) (h : fromBasic code = .ok (r, alg))
      (hh : getURLHashFromURL t = some hash) (hu : r.toURLHash alg = .ok hash) : ViewReads v get .url t r alg

theorem ViewReads.parsed {v : PyVersion} {get : Str → Option Str} {f : ViewFormat} {t : Str} {r : Receipt} {alg : Str}
    (h : ViewReads v get f t r alg) : Parsed r alg := by
  cases h with
  | jws h => exact .jws _ h
  | qr h => exact .basic _ h
  | ocr h => exact .ocr _ _ h
  | url _ h => exact .basic _ h

theorem readView_iff {v : PyVersion} {get : Str → Option Str} {f : ViewFormat} {t : Str} {r : Receipt} {alg : Str} :
    readView v get f t = some (.ok (r, alg)) ↔ ViewReads v get f t r alg := by
  constructor
  · intro h
    cases f with
    | jws => exact .jws (by simpa [readView] using h)
    | qr => exact .qr (by simpa [readView] using h)
    | ocr => exact .ocr (by simpa [readView] using h)
    | url =>
      simp only [readView, Option.map_eq_some_iff, Res.bind_eq_ok, ensure_eq_ok, Except.ok.injEq, Prod.mk.injEq] at h
      obtain ⟨code, hc, ⟨r', a'⟩, h1, _, -, _, h2, rfl, rfl⟩ := h
      obtain ⟨hash, e1, e2⟩ := (url_hash_verified_iff (.basic _ h1) _).1.mp h2
      exact .url hc h1 e1 e2
  · intro h
    have hp := h.parsed
    cases h with
    | jws h => simp [readView, h]
    | qr h => simp [readView, h]
    | ocr h => simp [readView, h]
    | url hc h1 e1 e2 =>
      have h2 := (url_hash_verified_iff hp _).1.mpr ⟨_, e1, e2⟩
      obtain ⟨-, rfl⟩ := hp.good
      simp only [readView, hc, Option.map_some, h1, Res.ok_bind, ensure_pos (knownAlg_iff.mpr rfl), h2]

/-- The exceptions of reading are about the receipt, apart from OCR codes under Python 3. -/
theorem readView_error {v : PyVersion} {get : Str → Option Str} {f : ViewFormat} {t : Str} {e : Err}
    (h : readView v get f t = some (.error e)) :
    isReceiptException e = true ∨ f = .ocr ∧ v = .py3 ∧ e = .attributeError := by
  have base : ∀ {e}, ReceiptErr e → isReceiptException e = true := fun h => (by cases h <;> rfl)
  cases f with
  | jws => exact .inl (base (parsers_fail_documented t (.inl (by simpa [readView] using h))))
  | qr => exact .inl (base (parsers_fail_documented t (.inr (.inl (by simpa [readView] using h)))))
  | ocr =>
    rcases ocr_fails_documented v t (by simpa [readView] using h) with h | ⟨h1, h2⟩
    · exact .inl (base h)
    · exact .inr ⟨rfl, h1, h2⟩
  | url =>
    left
    simp only [readView, Option.map_eq_some_iff, Res.bind_eq_error, ensure_eq_error, ensure_eq_ok, reduceCtorEq,
      and_false, exists_false, or_false] at h
    obtain ⟨code, -, h | ⟨⟨r, alg⟩, h1, ⟨-, h⟩ | ⟨_, -, h⟩⟩⟩ := h
    · exact base (parsers_fail_documented _ (.inr (.inl h)))
    · rw [← h]; rfl
    · have := (url_hash_verified_iff (.basic _ h1) (getURLHashFromURL t)).2 (by rw [h]; simp)
      rw [h] at this
      cases this
      rfl

/-- C99: a window is opened exactly for texts that are receipts, and shows the receipt the text stands for; otherwise one
error is displayed, apart from OCR codes under Python 3, which can end the application. -/
theorem receipt_window_opens (v : PyVersion) (get : Str → Option Str) (store : KeyStore) (f : ViewFormat) (t : Str) :
    (∀ s, viewReceipt v get store f t = .window s ↔ ∃ r alg, ViewReads v get f t r alg ∧ s = .init store r alg false) ∧
    (∀ e, viewReceipt v get store f t = .message e → ¬∃ r alg, ViewReads v get f t r alg) ∧
    (viewReceipt v get store f t = .ends → f = .ocr ∧ v = .py3) := by
  unfold viewReceipt
  cases h : readView v get f t with
  | none =>
    have hno : ¬∃ r alg, ViewReads v get f t r alg := by
      rintro ⟨r, alg, hr⟩
      rw [readView_iff.mpr hr] at h
      cases h
    refine ⟨fun s => ⟨fun h => (by cases h), fun ⟨r, alg, hr, _⟩ => absurd ⟨r, alg, hr⟩ hno⟩, fun _ _ => hno,
      fun h => (by cases h)⟩
  | some x =>
    cases x with
    | ok x =>
      obtain ⟨r, alg⟩ := x
      have hr := readView_iff.mp h
      refine ⟨fun s => ⟨fun h => ?_, ?_⟩, fun _ h => (by cases h), fun h => (by cases h)⟩
      · cases h
        exact ⟨r, alg, hr, rfl⟩
      · rintro ⟨r', alg', hr', rfl⟩
        rw [readView_iff.mpr hr'] at h
        cases h
        rfl
    | error e =>
      have hno : ¬∃ r alg, ViewReads v get f t r alg := by
        rintro ⟨r, alg, hr⟩
        rw [readView_iff.mpr hr] at h
        cases h
      refine ⟨fun s => ⟨fun h => ?_, fun ⟨r, alg, hr, _⟩ => absurd ⟨r, alg, hr⟩ hno⟩, fun _ _ => hno, fun h' => ?_⟩
      · simp only at h
        split at h <;> cases h
      · rcases readView_error h with h1 | ⟨h1, h2, -⟩
        · simp [h1] at h'
        · exact ⟨h1, h2⟩

/-- The task for a receipt either finds it genuine, or returns an exception that it catches. -/
theorem view_verify {ks : KeyStore} {r : Receipt} {alg : Str} (hp : Parsed r alg) :
    ((Verifier.fromKeyStore ks).verify r alg = .ok (r, alg) ∧ GenuineReceipt ks r) ∨
    ∃ e, (Verifier.fromKeyStore ks).verify r alg = .error e ∧ isReceiptException e = true ∧ ¬GenuineReceipt ks r := by
  cases h : (Verifier.fromKeyStore ks).verify r alg with
  | ok x =>
    left
    obtain ⟨g, rfl⟩ := hp.good
    obtain ⟨rfl, h3⟩ := (verify_iff g).mp h
    exact ⟨rfl, h3⟩
  | error e =>
    refine .inr ⟨e, rfl, ?_, fun hg => ?_⟩
    · obtain ⟨-, k2, k3, k4⟩ := verify_errors (v := .fromKeyStore ks) hp (.inr (by simp [Verifier.fromKeyStore]))
      have hw : ¬WrongCert (.fromKeyStore ks) r := by
        rintro ⟨c, hc, -⟩; cases hc
      by_cases hm : r.signature = failureMark
      · rw [k2 hw hm] at h
        cases h
        split <;> rfl
      · by_cases hk : ∃ k, KeyFor (.fromKeyStore ks) r k
        · obtain ⟨k, hk⟩ := hk
          by_cases hs : SignatureValid r k
          · rw [(receipt_accepted_iff hp).mpr ⟨hm, k, hk, hs⟩] at h; cases h
          · rw [k4 hm k hk hs] at h; cases h; rfl
        · rw [k3 hw hm hk] at h; cases h; rfl
    · rw [(receipt_accepted_iff hp).mpr hg] at h
      cases h

/-- The window for a receipt is in state `s` after the events `evs`; `store` is the key store when it was opened. -/
def ViewReaches (store : KeyStore) (r : Receipt) (alg : Str) (evs : List ViewEvent) (s : ReceiptView) : Prop :=
  (ReceiptView.init store r alg false).run evs = some s

theorem ReceiptView.run_append {s : ReceiptView} {es fs : List ViewEvent} :
    s.run (es ++ fs) = (s.run es).bind fun s => s.run fs := by
  induction es generalizing s with
  | nil => rfl
  | cons e es ih =>
    simp only [List.cons_append, ReceiptView.run]
    cases s.step e with
    | none => rfl
    | some s => exact ih

theorem ViewReaches.snoc {store : KeyStore} {r : Receipt} {alg : Str} {evs : List ViewEvent} {e : ViewEvent}
    {s : ReceiptView} : ViewReaches store r alg (evs ++ [e]) s ↔ ∃ s₁, ViewReaches store r alg evs s₁ ∧ s₁.step e = some s := by
  unfold ViewReaches
  rw [ReceiptView.run_append]
  simp only [Option.bind_eq_some_iff, ReceiptView.run]
  constructor
  · rintro ⟨s₁, h1, s₂, h2, h3⟩
    cases h3
    exact ⟨s₁, h1, h2⟩
  · rintro ⟨s₁, h1, h2⟩
    exact ⟨s₁, h1, s, h2, rfl⟩

/-- The text was typed, or is the key in a file that was chosen. -/
def KeyGiven (evs : List ViewEvent) (text : Str) : Prop := .typed text ∈ evs ∨ .decrypt (.ok text) ∈ evs

theorem KeyGiven.extend {evs : List ViewEvent} {text : Str} (h : KeyGiven evs text) (e : ViewEvent) :
    KeyGiven (evs ++ [e]) text := h.imp (List.mem_append_left _) (List.mem_append_left _)

/-- What changes in the part of the state that has to do with the key. -/
theorem setKey_cases {s s' : ReceiptView} {o : Option Str} (h : s.setKey o = some s') :
    (∃ t es, s' = { s with key := none, keyText := t, shown := es } ∧ (t = s.keyText ∨ t = [])) ∨
    ∃ text k c, o = some text ∧ b64Decode false text = some k ∧ k.length = 32 ∧ viewCounter s.rcpt s.alg k = .ok c ∧
      s' = { s with key := some k, keyText := text, decryptEnabled := false, counter := c } := by
  cases o with
  | none =>
    cases h
    exact .inl ⟨s.keyText, s.shown, rfl, .inl rfl⟩
  | some text =>
    simp only [ReceiptView.setKey] at h
    split at h
    · cases h
      exact .inl ⟨[], _, rfl, .inr rfl⟩
    · rename_i k hk
      simp only [Res.bind_eq_ok, ensure_eq_ok, raiseForKey, loadB64Key, orErr_eq_ok, Except.ok.injEq] at hk
      obtain ⟨k', hd, _, -, _, hl, rfl⟩ := hk
      split at h
      · cases h
      · rename_i c hc
        cases h
        exact .inr ⟨text, k', c, rfl, hd, hl, hc, rfl⟩

/-- What holds whenever the window waits for an event. -/
structure ViewInv (store : KeyStore) (r : Receipt) (alg : Str) (evs : List ViewEvent) (s : ReceiptView) : Prop where
  rcpt : s.rcpt = r
  algo : s.alg = alg
  signature : s.signature = if r.signature = failureMark then none else some r.signature
  enabled : s.enabled = true ↔ s.button = .verify
  unsigned : r.signature = failureMark ↔ s.button = .noSignature
  count : s.jobs.length + s.queue.length = if s.button = .verifying then 1 else 0
  pressed : s.button = .verifying ∨ s.button = .valid → ∃ pre post s₁, evs = pre ++ .verify :: post ∧ .verify ∉ post ∧
    ViewReaches store r alg pre s₁ ∧ (∀ ks ∈ s.jobs, ks = s₁.store) ∧
    (∀ q ∈ s.queue, q = none → GenuineReceipt s₁.store r) ∧ (s.button = .valid → GenuineReceipt s₁.store r)
  typed : s.keyText = [] ∨ KeyGiven evs s.keyText
  marked : r.isDummy = true ∨ r.isReversal = true → s.decryptEnabled = false ∧ s.counter = plainCounter r
  unmarked : r.isDummy = false → r.isReversal = false →
    (s.decryptEnabled = true ∧ s.counter = .text r.encTurnoverCounter) ∨
    (s.decryptEnabled = false ∧ ∃ text k n, KeyGiven evs text ∧ b64Decode false text = some k ∧ k.length = 32 ∧
      r.decryptTurnoverCounter k = .ok n ∧ s.counter = .amount n)

theorem viewInv {store : KeyStore} {r : Receipt} {alg : Str} (hp : Parsed r alg) {evs : List ViewEvent} {s : ReceiptView}
    (h : ViewReaches store r alg evs s) : ViewInv store r alg evs s := by
  obtain ⟨g, halg⟩ := hp.good
  induction evs using List.reverseRecOn generalizing s with
  | nil =>
    cases h
    have hb := isSignedBroken_iff r
    by_cases hm : r.signature = failureMark
    · have hb' := hb.mpr hm
      refine ⟨rfl, rfl, ?_, ?_, ?_, ?_, ?_, .inl rfl, ?_, ?_⟩
      · simp [ReceiptView.init, hb', hm]
      · simp [ReceiptView.init, hb']
      · simp [ReceiptView.init, hb', hm]
      · simp [ReceiptView.init, hb']
      · simp [ReceiptView.init, hb']
      · rintro (h | h) <;> simp [ReceiptView.init, h]
      · intro h1 h2
        simp [ReceiptView.init, h1, h2, plainCounter]
    · have hb' : r.isSignedBroken = false := by
        cases hx : r.isSignedBroken with
        | false => rfl
        | true => exact absurd (hb.mp hx) hm
      refine ⟨rfl, rfl, ?_, ?_, ?_, ?_, ?_, .inl rfl, ?_, ?_⟩
      · simp [ReceiptView.init, hb', hm]
      · simp [ReceiptView.init, hb']
      · simp [ReceiptView.init, hb', hm]
      · simp [ReceiptView.init, hb']
      · simp [ReceiptView.init, hb']
      · rintro (h | h) <;> simp [ReceiptView.init, h]
      · intro h1 h2
        simp [ReceiptView.init, h1, h2, plainCounter]
  | append_singleton evs e ih =>
    obtain ⟨s₁, h1, h2⟩ := ViewReaches.snoc.mp h
    have i := ih h1
    have htyped : s₁.keyText = [] ∨ KeyGiven (evs ++ [e]) s₁.keyText := i.typed.imp id fun h => h.extend e
    have hunmarked : r.isDummy = false → r.isReversal = false →
        (s₁.decryptEnabled = true ∧ s₁.counter = .text r.encTurnoverCounter) ∨
        (s₁.decryptEnabled = false ∧ ∃ text k n, KeyGiven (evs ++ [e]) text ∧ b64Decode false text = some k ∧
          k.length = 32 ∧ r.decryptTurnoverCounter k = .ok n ∧ s₁.counter = .amount n) := by
      intro a b
      rcases i.unmarked a b with h | ⟨h, t, k, n, h1, h2⟩
      · exact .inl h
      · exact .inr ⟨h, t, k, n, h1.extend e, h2⟩
    have hpressed : e ≠ .verify → s₁.button = .verifying ∨ s₁.button = .valid → ∃ pre post s₂,
        evs ++ [e] = pre ++ .verify :: post ∧ .verify ∉ post ∧
        ViewReaches store r alg pre s₂ ∧ (∀ ks ∈ s₁.jobs, ks = s₂.store) ∧
        (∀ q ∈ s₁.queue, q = none → GenuineReceipt s₂.store r) ∧ (s₁.button = .valid → GenuineReceipt s₂.store r) := by
      intro he hb
      obtain ⟨pre, post, s₂, e1, e2, e3⟩ := i.pressed hb
      refine ⟨pre, post ++ [e], s₂, by rw [e1]; simp, ?_, e3⟩
      rw [List.mem_append, not_or]
      exact ⟨e2, by simpa using fun h => he h.symm⟩
    cases e with
    | verify =>
      simp only [ReceiptView.step] at h2
      split at h2
      · rename_i hen
        cases h2
        have hb := i.enabled.mp hen
        have hc := i.count
        rw [hb] at hc
        simp only [reduceCtorEq, if_false, Nat.add_eq_zero_iff, List.length_eq_zero_iff] at hc
        refine ⟨i.rcpt, i.algo, i.signature, by simp, ?_, ?_, ?_, htyped, i.marked, hunmarked⟩
        · rw [i.unsigned, hb]; simp
        · simp [hc.1, hc.2]
        · intro _
          refine ⟨evs, [], s₁, rfl, by simp, h1, ?_, ?_, by simp⟩
          · simp [hc.1]
          · simp [hc.2]
      · cases h2
    | typed text =>
      cases h2
      exact ⟨i.rcpt, i.algo, i.signature, i.enabled, i.unsigned, i.count, hpressed (by simp),
        .inr (.inl (by simp)), i.marked, hunmarked⟩
    | setStore ks =>
      cases h2
      exact ⟨i.rcpt, i.algo, i.signature, i.enabled, i.unsigned, i.count, hpressed (by simp), htyped, i.marked, hunmarked⟩
    | decrypt file =>
      have key : ∀ {s₁' : ReceiptView} {o : Option Str}, s₁'.setKey o = some s → (∃ es, s₁' = { s₁ with shown := es }) →
          s₁.decryptEnabled = true → (∀ t, o = some t → KeyGiven (evs ++ [.decrypt file]) t) →
          ViewInv store r alg (evs ++ [.decrypt file]) s := by
        rintro s₁' o hs ⟨es, rfl⟩ hde hg
        have hnd : r.isDummy = false ∧ r.isReversal = false := by
          constructor <;> by_contra hcon
          · have := (i.marked (.inl (by simpa using hcon))).1
            rw [hde] at this; cases this
          · have := (i.marked (.inr (by simpa using hcon))).1
            rw [hde] at this; cases this
        rcases setKey_cases hs with ⟨t, es, rfl, ht⟩ | ⟨text, k, c, rfl, hd, hl, hc, rfl⟩
        · refine ⟨i.rcpt, i.algo, i.signature, i.enabled, i.unsigned, i.count, hpressed (by simp), ?_, i.marked, hunmarked⟩
          rcases ht with rfl | rfl
          · exact htyped
          · exact .inl rfl
        · refine ⟨i.rcpt, i.algo, i.signature, i.enabled, i.unsigned, i.count, hpressed (by simp), .inr (hg _ rfl), ?_, ?_⟩
          · rintro (h | h)
            · rw [hnd.1] at h; cases h
            · rw [hnd.2] at h; cases h
          · intro a b
            right
            refine ⟨rfl, text, k, ?_⟩
            have hk : k ≠ [] := by
              rintro rfl
              cases hl
            simp only [i.rcpt, i.algo, viewCounter, a, b, Bool.false_eq_true, if_false] at hc
            rw [if_pos ⟨hk, knownAlg_iff.mpr halg⟩] at hc
            simp only [Res.bind_eq_ok, Except.ok.injEq] at hc
            obtain ⟨n, hn, rfl⟩ := hc
            exact ⟨n, hg _ rfl, hd, hl, hn, rfl⟩
      simp only [ReceiptView.step] at h2
      split at h2
      · rename_i hde
        split at h2
        · rename_i hne
          refine key h2 ⟨s₁.shown, rfl⟩ hde ?_
          rintro t ⟨⟩
          exact htyped.resolve_left hne
        · cases file with
          | ok text =>
            refine key h2 ⟨s₁.shown, rfl⟩ hde ?_
            rintro t ⟨⟩
            exact .inr (by simp)
          | error er =>
            simp only at h2
            split at h2
            · exact key h2 ⟨_, rfl⟩ hde (fun t h => by cases h)
            · cases h2
      · cases h2
    | done j =>
      simp only [ReceiptView.step] at h2
      cases hj : s₁.jobs[j]? with
      | none => rw [hj] at h2; cases h2
      | some ks =>
        have hmem := List.mem_of_getElem? hj
        have hlen : 0 < s₁.jobs.length := List.length_pos_of_mem hmem
        have hc := i.count
        have hb : s₁.button = .verifying := by
          by_contra hcon
          rw [if_neg hcon] at hc
          omega
        rw [if_pos hb] at hc
        obtain ⟨a, ha⟩ := List.length_eq_one_iff.mp (show s₁.jobs.length = 1 by omega)
        have hq : s₁.queue = [] := List.length_eq_zero_iff.mp (by omega)
        rw [ha] at hj
        cases j with
        | succ j => simp at hj
        | zero =>
          simp only [List.getElem?_cons_zero, Option.some.injEq] at hj
          subst hj
          obtain ⟨pre, post, s₂, e1, e2, e3, e4, e5⟩ := hpressed (by simp) (.inl hb)
          have hks : a = s₂.store := e4 a hmem
          simp only [ha, List.getElem?_cons_zero, i.rcpt, i.algo, hq, List.nil_append, List.eraseIdx_cons_zero] at h2
          rcases view_verify (ks := a) hp with ⟨hv, hg⟩ | ⟨er, hv, hr, hg⟩
          · rw [hv] at h2
            cases h2
            refine ⟨rfl, rfl, i.signature, i.enabled, i.unsigned, by simp [hb], fun _ => ⟨pre, post, s₂, e1, e2, e3, ?_, ?_, ?_⟩,
              htyped, i.marked, hunmarked⟩
            · simp
            · rw [← hks]; simpa using hg
            · simp [hb]
          · rw [hv] at h2
            simp only [hr, if_true, Option.some.injEq] at h2
            subst h2
            refine ⟨rfl, rfl, i.signature, i.enabled, i.unsigned, by simp [hb], fun _ => ⟨pre, post, s₂, e1, e2, e3, ?_, ?_, ?_⟩,
              htyped, i.marked, hunmarked⟩
            · simp
            · simp
            · simp [hb]
    | tick j =>
      simp only [ReceiptView.step] at h2
      cases hj : s₁.queue[j]? with
      | none => rw [hj] at h2; cases h2
      | some q =>
        have hmem := List.mem_of_getElem? hj
        have hlen : 0 < s₁.queue.length := List.length_pos_of_mem hmem
        have hc := i.count
        have hb : s₁.button = .verifying := by
          by_contra hcon
          rw [if_neg hcon] at hc
          omega
        have hus : r.signature ≠ failureMark := by
          intro h
          rw [i.unsigned.mp h] at hb
          cases hb
        rw [if_pos hb] at hc
        obtain ⟨a, ha⟩ := List.length_eq_one_iff.mp (show s₁.queue.length = 1 by omega)
        have hq : s₁.jobs = [] := List.length_eq_zero_iff.mp (by omega)
        rw [ha] at hj
        cases j with
        | succ j => simp at hj
        | zero =>
          simp only [List.getElem?_cons_zero, Option.some.injEq] at hj
          subst hj
          obtain ⟨pre, post, s₂, e1, e2, e3, -, e5, -⟩ := hpressed (by simp) (.inl hb)
          simp only [ha, List.getElem?_cons_zero, List.eraseIdx_cons_zero, Option.some.injEq] at h2
          cases a with
          | none =>
            subst h2
            refine ⟨i.rcpt, i.algo, i.signature, by simp [ReceiptView.verifyCb], by simp [ReceiptView.verifyCb, hus],
              by simp [ReceiptView.verifyCb, hq], fun _ => ⟨pre, post, s₂, e1, e2, e3, ?_, ?_, ?_⟩, htyped, i.marked, hunmarked⟩
            · simp [ReceiptView.verifyCb, hq]
            · simp [ReceiptView.verifyCb]
            · exact fun _ => e5 none hmem rfl
          | some er =>
            subst h2
            refine ⟨i.rcpt, i.algo, i.signature, by simp [ReceiptView.verifyCb], by simp [ReceiptView.verifyCb, hus],
              by simp [ReceiptView.verifyCb, hq], ?_, htyped, i.marked, hunmarked⟩
            rintro (h | h) <;> cases h

/-- C99: "Valid Signature" is only shown for receipts with a valid signature under a key from the key store, as it was
when the button was pressed the last time, whatever the users do in the meantime and afterwards. -/
theorem receipt_window_sound {store : KeyStore} {r : Receipt} {alg : Str} (hp : Parsed r alg) {evs : List ViewEvent}
    {s : ReceiptView} (h : ViewReaches store r alg evs s) (hv : s.button = .valid) :
    ∃ pre post s₁, evs = pre ++ .verify :: post ∧ .verify ∉ post ∧ ViewReaches store r alg pre s₁ ∧
      GenuineReceipt s₁.store r := by
  obtain ⟨pre, post, s₁, h1, h2, h3, -, -, h4⟩ := (viewInv hp h).pressed (.inr hv)
  exact ⟨pre, post, s₁, h1, h2, h3, h4 hv⟩

/-- C99: receipts of a failed signature device say "No Signature" all the time, and cannot be verified. -/
theorem receipt_window_unsigned {store : KeyStore} {r : Receipt} {alg : Str} (hp : Parsed r alg) {evs : List ViewEvent}
    {s : ReceiptView} (h : ViewReaches store r alg evs s) :
    (s.button = .noSignature ↔ r.signature = failureMark) ∧ (r.signature = failureMark → s.enabled = false) := by
  have i := viewInv hp h
  refine ⟨i.unsigned.symm, fun hm => ?_⟩
  by_contra hcon
  have := i.enabled.mp (by simpa using hcon)
  rw [i.unsigned.mp hm] at this
  cases this

/-- The events that are not caused by the user. -/
inductive ViewEvent.Background : ViewEvent → Prop
  | done (i : Nat) : Background (.done i)
  | tick (i : Nat) : Background (.tick i)

/-- C99: pressing the button that verifies always gives an answer.  There is exactly one way for the work in the
background to go on, it ends after two steps, and then "Valid Signature" is shown if the receipt is genuine; otherwise
one error about the receipt is displayed, and all is as before. -/
theorem receipt_window_answers {store : KeyStore} {r : Receipt} {alg : Str} (hp : Parsed r alg) {evs : List ViewEvent}
    {s : ReceiptView} (h : ViewReaches store r alg evs s) (hen : s.enabled = true) :
    (∀ bg s', (∀ e ∈ bg, e.Background) → s.run (.verify :: bg) = some s' →
      bg = [] ∨ bg = [.done 0] ∨ bg = [.done 0, .tick 0]) ∧
    ∃ s', s.run [.verify, .done 0, .tick 0] = some s' ∧
      (GenuineReceipt s.store r ∧ s' = { s with button := .valid, enabled := false } ∨
       ¬GenuineReceipt s.store r ∧ ∃ e, isReceiptException e = true ∧ s' = { s with shown := e :: s.shown }) := by
  have i := viewInv hp h
  have hb := i.enabled.mp hen
  have hc := i.count
  rw [hb] at hc
  simp only [reduceCtorEq, if_false, Nat.add_eq_zero_iff, List.length_eq_zero_iff] at hc
  obtain ⟨hj, hq⟩ := hc
  have hr := i.rcpt
  have ha := i.algo
  cases s with | mk rcpt al key keyText button enabled decryptEnabled counter signature st jobs queue shown =>
  simp only at hen hb hj hq hr ha
  subst hen hb hj hq hr ha
  refine ⟨fun bg s' hbg hs => ?_, ?_⟩
  · simp only [ReceiptView.run, ReceiptView.step, if_true, Option.bind_some, List.nil_append] at hs
    cases bg with
    | nil => exact .inl rfl
    | cons e bg =>
      right
      simp only [ReceiptView.run, Option.bind_eq_some_iff] at hs
      obtain ⟨s₁, h1, h2⟩ := hs
      have hbe := hbg e (by simp)
      cases hbe with
      | tick j => simp [ReceiptView.step] at h1
      | done j =>
        cases j with
        | succ j => simp [ReceiptView.step] at h1
        | zero =>
          have hs1 : s₁.jobs = [] ∧ s₁.queue.length ≤ 1 := by
            simp only [ReceiptView.step, List.getElem?_cons_zero, List.eraseIdx_cons_zero, List.nil_append] at h1
            split at h1
            · cases h1; simp
            · split at h1 <;> cases h1 <;> simp
          cases bg with
          | nil => exact .inl rfl
          | cons e' bg =>
            right
            simp only [ReceiptView.run, Option.bind_eq_some_iff] at h2
            obtain ⟨s₂, h3, h4⟩ := h2
            have hbe := hbg e' (by simp)
            cases hbe with
            | done j => simp [ReceiptView.step, hs1.1] at h3
            | tick j =>
              simp only [ReceiptView.step] at h3
              cases hx : s₁.queue[j]? with
              | none => rw [hx] at h3; cases h3
              | some q =>
                have hlt := (List.getElem?_eq_some_iff.mp hx).1
                have hj0 : j = 0 := by omega
                subst hj0
                rw [hx] at h3
                simp only [Option.some.injEq] at h3
                obtain ⟨a, haq⟩ := List.length_eq_one_iff.mp (show s₁.queue.length = 1 by omega)
                have hs2 : s₂.jobs = [] ∧ s₂.queue = [] := by
                  subst h3
                  cases q <;> simp [ReceiptView.verifyCb, hs1.1, haq]
                cases bg with
                | nil => rfl
                | cons e'' bg =>
                  simp only [ReceiptView.run, Option.bind_eq_some_iff] at h4
                  obtain ⟨s₃, h5, -⟩ := h4
                  have hbe := hbg e'' (by simp)
                  cases hbe with
                  | done j => simp [ReceiptView.step, hs2.1] at h5
                  | tick j => simp [ReceiptView.step, hs2.2] at h5
  · rcases view_verify (ks := st) hp with ⟨hv, hg⟩ | ⟨er, hv, he, hg⟩
    · refine ⟨_, ?_, .inl ⟨hg, rfl⟩⟩
      simp [ReceiptView.run, ReceiptView.step, hv, ReceiptView.verifyCb]
    · refine ⟨_, ?_, .inr ⟨hg, er, he, rfl⟩⟩
      simp [ReceiptView.run, ReceiptView.step, hv, he, ReceiptView.verifyCb]

/-- C99: the turnover counter displayed.  Training and cancelled receipts show `TRA` and `STO`.  The others show the text
on the receipt, until a key of the right length was given; then they show the number decrypted with this key. -/
theorem receipt_window_counter {store : KeyStore} {r : Receipt} {alg : Str} (hp : Parsed r alg) {evs : List ViewEvent}
    {s : ReceiptView} (h : ViewReaches store r alg evs s) :
    (r.isDummy = true → s.counter = .text c!"TRA") ∧
    (r.isReversal = true → s.counter = .text c!"STO") ∧
    (r.isDummy = false → r.isReversal = false →
      s.counter = .text r.encTurnoverCounter ∨
      ∃ text key n, KeyGiven evs text ∧ b64Decode false text = some key ∧ key.length = 32 ∧
        r.decryptTurnoverCounter key = .ok n ∧ s.counter = .amount n) := by
  have i := viewInv hp h
  refine ⟨fun hd => ?_, fun hs => ?_, fun h1 h2 => ?_⟩
  · rw [(i.marked (.inl hd)).2, plainCounter, if_pos hd]
  · have hd : r.isDummy = false := by
      cases hx : r.isDummy with
      | false => rfl
      | true =>
        simp only [Fields.isDummy, Fields.isReversal, decide_eq_true_eq] at hx hs
        rw [hx] at hs
        cases hs
    rw [(i.marked (.inr hs)).2, plainCounter, hd, if_neg (by simp), if_pos hs]
  · exact (i.unmarked h1 h2).imp (·.2) (·.2)

/-- What happens when a text is given as key: if it stands for 32 bytes the counter is decrypted with them and shown;
otherwise there is one error, the text field is empty, and the rest is as before. -/
def KeyAnswer (s : ReceiptView) (r : Receipt) (text : Str) (result : Option ReceiptView) : Prop :=
  (∀ key, b64Decode false text = some key → key.length = 32 → ∃ n, r.decryptTurnoverCounter key = .ok n ∧
    result = some { s with keyText := text, key := some key, decryptEnabled := false, counter := .amount n }) ∧
  ((¬∃ key, b64Decode false text = some key ∧ key.length = 32) →
    ∃ e, result = some { s with keyText := [], key := none, shown := e :: s.shown })

/-- C99: the button that decrypts takes the text in the text field as key; if there is none, that of a file, and if the
file cannot be read, or holds no key, there is one error and no key. -/
theorem receipt_window_decrypts {store : KeyStore} {r : Receipt} {alg : Str} (hp : Parsed r alg) {evs : List ViewEvent}
    {s : ReceiptView} (h : ViewReaches store r alg evs s) (hen : s.decryptEnabled = true) (text : Str) :
    (text ≠ [] → ∀ file, KeyAnswer s r text (s.run [.typed text, .decrypt file])) ∧
    (s.keyText = [] → KeyAnswer s r text (s.run [.decrypt (.ok text)])) ∧
    (s.keyText = [] → ∀ e ∈ [Err.valueError, .unicodeError, .keyError],
      s.run [.decrypt (.error e)] = some { s with key := none, shown := e :: s.shown }) := by
  have i := viewInv hp h
  have hk : knownAlg s.alg := by
    rw [i.algo]
    exact knownAlg_iff.mpr hp.good.2
  have hnd : r.isDummy = false ∧ r.isReversal = false := by
    constructor <;> by_contra hcon
    · have := (i.marked (.inl (by simpa using hcon))).1
      rw [hen] at this; cases this
    · have := (i.marked (.inr (by simpa using hcon))).1
      rw [hen] at this; cases this
  have answer : ∀ u, KeyAnswer s r text (({ s with keyText := u } : ReceiptView).setKey (some text)) := by
    intro u
    constructor
    · intro key hd hl
      have hne : key ≠ [] := by
        rintro rfl
        cases hl
      have hn : ∃ n, r.decryptTurnoverCounter key = .ok n := by
        obtain ⟨ct, hct, -⟩ := hp.good.1.init.tc
        simp [Fields.decryptTurnoverCounter, ensure, hnd.1, hnd.2, raiseForKey, hl, hct, orErr, Res.ok_bind]
      obtain ⟨n, hn⟩ := hn
      refine ⟨n, hn, ?_⟩
      simp [ReceiptView.setKey, loadB64Key, hd, orErr, ensure, raiseForKey,
        hl, viewCounter, i.rcpt, hnd.1, hnd.2, hne, hk, hn, Res.ok_bind]
    · intro hno
      have he : ∃ e, (do
          let k ← loadB64Key text
          ensure (knownAlg s.alg) .unknownAlgorithm
          raiseForKey k
          .ok k : Res Bytes) = .error e := by
        cases hd : b64Decode false text with
        | none =>
          simp only [loadB64Key, hd, orErr, Res.error_bind]
          exact ⟨_, rfl⟩
        | some k =>
          have hl : ¬k.length = 32 := fun hl => hno ⟨k, hd, hl⟩
          refine ⟨.invalidKey, ?_⟩
          simp [loadB64Key, hd, orErr, hk, raiseForKey, ensure, hl, Res.ok_bind, Res.error_bind]
      obtain ⟨e, he⟩ := he
      refine ⟨e, ?_⟩
      simp only [ReceiptView.setKey, he]
  refine ⟨fun ht file => ?_, fun hkt => ?_, fun hkt e he => ?_⟩
  · have := answer text
    simpa [ReceiptView.run, ReceiptView.step, hen, ht] using this
  · have hrun : s.run [.decrypt (.ok text)] = s.setKey (some text) := by
      simp [ReceiptView.run, ReceiptView.step, hen, hkt]
    rw [hrun]
    exact answer s.keyText
  · simp only [List.mem_cons, List.not_mem_nil, or_false] at he
    rcases he with rfl | rfl | rfl <;>
      simp [ReceiptView.run, ReceiptView.step, hen, hkt, keyFileCaught, ReceiptView.setKey]

/-- C99: the window does not end the application: what its buttons allow has an effect, unless a file with a key raises
an exception that is not expected. -/
theorem receipt_window_total {store : KeyStore} {r : Receipt} {alg : Str} (hp : Parsed r alg) {evs : List ViewEvent}
    {s : ReceiptView} (h : ViewReaches store r alg evs s) {e : ViewEvent} (hs : s.step e = none) :
    (e = .verify ∧ s.enabled = false) ∨ (∃ f, e = .decrypt f ∧ s.decryptEnabled = false) ∨
    (∃ er, e = .decrypt (.error er) ∧ s.keyText = [] ∧ keyFileCaught er = false) ∨
    (∃ i, e = .done i ∧ s.jobs.length ≤ i) ∨ ∃ i, e = .tick i ∧ s.queue.length ≤ i := by
  have i := viewInv hp h
  have key : ∀ {s₁ : ReceiptView} {o : Option Str}, s₁.rcpt = r → s₁.alg = alg → s₁.setKey o ≠ none := by
    intro s₁ o hr ha hn
    cases o with
    | none => cases hn
    | some text =>
      simp only [ReceiptView.setKey] at hn
      split at hn
      · cases hn
      · rename_i k hk
        simp only [Res.bind_eq_ok, ensure_eq_ok, raiseForKey, Except.ok.injEq] at hk
        obtain ⟨k', -, _, -, _, hl, rfl⟩ := hk
        split at hn
        · rename_i er hc
          rw [hr, ha] at hc
          unfold viewCounter at hc
          split at hc
          · cases hc
          · rename_i hd
            split at hc
            · cases hc
            · rename_i hv
              split at hc
              · obtain ⟨ct, hct, -⟩ := hp.good.1.init.tc
                simp [Fields.decryptTurnoverCounter, ensure, hd, hv, raiseForKey, hl, hct, orErr, Res.ok_bind] at hc
              · cases hc
        · cases hn
  cases e with
  | verify =>
    simp only [ReceiptView.step] at hs
    split at hs
    · cases hs
    · rename_i hen
      exact .inl ⟨rfl, by simpa using hen⟩
  | typed t => cases hs
  | setStore ks => cases hs
  | decrypt file =>
    right
    simp only [ReceiptView.step] at hs
    split at hs
    · split at hs
      · exact absurd hs (key i.rcpt i.algo)
      · rename_i hne
        cases file with
        | ok text => exact absurd hs (key i.rcpt i.algo)
        | error er =>
          simp only at hs
          split at hs
          · exact absurd hs (key i.rcpt i.algo)
          · rename_i hc
            exact .inr (.inl ⟨er, rfl, by simpa using hne, by simpa using hc⟩)
    · rename_i hen
      exact .inl ⟨file, rfl, by simpa using hen⟩
  | done j =>
    refine .inr (.inr (.inr (.inl ⟨j, rfl, ?_⟩)))
    simp only [ReceiptView.step] at hs
    cases hj : s.jobs[j]? with
    | none => exact List.getElem?_eq_none_iff.mp hj
    | some ks =>
      rw [hj] at hs
      simp only at hs
      split at hs
      · cases hs
      · split at hs <;> cases hs
  | tick j =>
    refine .inr (.inr (.inr (.inr ⟨j, rfl, ?_⟩)))
    simp only [ReceiptView.step] at hs
    cases hj : s.queue[j]? with
    | none => exact List.getElem?_eq_none_iff.mp hj
    | some q => rw [hj] at hs; cases hs

end

namespace Demo

attribute [local instance] env

/-- The second receipt of the day. -/
def secondText : Str := texts[1]?.getD []

/-- The window for the second receipt of the day, after these events. -/
def secondAfter (store : KeyStore) (evs : List ViewEvent) : Option ReceiptView :=
  match viewReceipt .py3 (fun _ => none) store .jws secondText with
  | .window s => s.run evs
  | _ => none

set_option maxRecDepth 100000 in
/-- The second receipt of the day is opened, verified and its counter decrypted. -/
theorem second_window : ((secondAfter deviceStore [.verify, .typed (b64Encode false aes), .done 0, .decrypt (.ok []),
    .tick 0]).any fun s => s.button = .valid ∧ s.counter = .amount 1230 ∧ s.shown = []) = true := by
  decide +kernel

set_option maxRecDepth 100000 in
/-- Without the key of the device it is refused with one message; with a key of the wrong length another one. -/
theorem second_refused : ((secondAfter [] [.verify, .done 0, .tick 0, .typed c!"AAAA", .decrypt (.ok [])]).any
    fun s => s.button = .verify ∧ s.enabled = true ∧ s.shown = [.invalidKey, .noPublicKey] ∧ s.decryptEnabled = true) = true := by
  decide +kernel

/-- C99, the exception: under Python 3 an OCR code ends the application. -/
theorem ocr_ends (store : KeyStore) : viewReceipt .py3 (fun _ => none) store .ocr
    c!"_R1-AT1_reg_rec 1_2020-01-02T03:04:05_0,00_0,00_0,00_0,00_-0,00_AAAAAAA=_1f-k_AAAAAAA=_AAAAAAAA" = .ends := by
  have h : fromOCR .py3 c!"_R1-AT1_reg_rec 1_2020-01-02T03:04:05_0,00_0,00_0,00_0,00_-0,00_AAAAAAA=_1f-k_AAAAAAA=_AAAAAAAA" =
      .error .attributeError := by decide +kernel
  rw [viewReceipt, readView, h]
  rfl

end Demo

end RKSV
