import Verif.Model.UrlTools
import Verif.Props.LineTools
/-
Property C102: receipt.py and verify_receipt.py for URLs, and together with receipt_host.py.
-/
namespace RKSV

section
variable [PyEnv]

/-- The server answers the URL with a receipt. -/
def Fetches (get : Str → Option Str) (url : Str) (r : Receipt) (alg : Str) : Prop :=
  ∃ code, get url = some code ∧ fromBasic code = .ok (r, alg)

/-- The server answers the URL with a receipt with a valid signature under a key from the key store, and the hash in
the URL is that of this receipt. -/
def GenuineUrl (get : Str → Option Str) (ks : KeyStore) (url : Str) : Prop :=
  ∃ r alg hash, Fetches get url r alg ∧ r.signature ≠ failureMark ∧
    (∃ k, KeyFor (.fromKeyStore ks) r k ∧ SignatureValid r k) ∧
    getURLHashFromURL url = some hash ∧ r.toURLHash alg = .ok hash

/-! ### receipt.py -/

theorem fetch_write_iff {o : OutFormat} {code s : Str} :
    (fromBasic code >>= fun r => o.write r.1 r.2) = .ok s ↔
      ∃ r alg, fromBasic code = .ok (r, alg) ∧ o.write r alg = .ok s := by
  rw [Res.bind_eq_ok]
  constructor
  · rintro ⟨⟨r, alg⟩, h1, h2⟩; exact ⟨r, alg, h1, h2⟩
  · rintro ⟨r, alg, h1, h2⟩; exact ⟨(r, alg), h1, h2⟩

/-- C102: receipt.py with URLs prints one line per URL, the receipt the server returned for it, and ends normally
exactly if the server returns a receipt for every one. -/
theorem url_tool_iff {get : Str → Option Str} {o : OutFormat} {text out : Str} :
    receiptUrlTool get o text = (out, none) ↔
      ∃ outs, out = textFile outs ∧ List.Forall₂
        (fun l s => ∃ r alg, Fetches get (pyStrip l) r alg ∧ o.write r alg = .ok s) (fileLines text) outs := by
  unfold receiptUrlTool
  generalize fileLines text = ls
  induction ls generalizing out with
  | nil =>
    simp only [convertUrls, Prod.mk.injEq, and_true]
    constructor
    · rintro rfl; exact ⟨[], rfl, .nil⟩
    · rintro ⟨outs, rfl, h⟩; cases h; rfl
  | cons l ls ih =>
    simp only [convertUrls]
    constructor
    · intro h
      split at h
      · cases h
      · rename_i code hcode
        split at h
        · cases h
        · rename_i s hs
          simp only [Prod.mk.injEq] at h
          obtain ⟨rfl, h⟩ := h
          obtain ⟨outs, e, hf⟩ := ih.mp (Prod.ext rfl h)
          obtain ⟨r, alg, h1, h2⟩ := fetch_write_iff.mp hs
          refine ⟨s :: outs, ?_, .cons ⟨r, alg, ⟨code, hcode, h1⟩, h2⟩ hf⟩
          show _ = (s ++ ['\n']) ++ textFile outs
          rw [List.append_assoc]
          exact congrArg (fun x => s ++ '\n' :: x) e
    · rintro ⟨_, rfl, h⟩
      cases h with
      | @cons _ s _ outs h hs =>
        obtain ⟨r, alg, ⟨code, hcode, h1⟩, h2⟩ := h
        have hw := fetch_write_iff.mpr ⟨r, alg, h1, h2⟩
        have := ih.mpr ⟨outs, rfl, hs⟩
        simp only [hcode, hw, this]
        simp [textFile]

/-- C102: otherwise it prints the receipts before the first URL for which the server returns none, and ends with an
exception that tells whether there was no answer or one that is not a receipt. -/
theorem url_tool_stops {get : Str → Option Str} {o : OutFormat} {text out : Str} {e : UrlEnd} :
    receiptUrlTool get o text = (out, some e) ↔
      ∃ pre l post outs, fileLines text = pre ++ l :: post ∧ out = textFile outs ∧
        List.Forall₂ (fun l s => ∃ r alg, Fetches get (pyStrip l) r alg ∧ o.write r alg = .ok s) pre outs ∧
        ((get (pyStrip l) = none ∧ e = .request) ∨
          ∃ code e', get (pyStrip l) = some code ∧ fromBasic code = .error e' ∧ e = .other e') := by
  unfold receiptUrlTool
  generalize fileLines text = ls
  induction ls generalizing out with
  | nil =>
    simp only [convertUrls, Prod.mk.injEq, reduceCtorEq, and_false, false_iff]
    rintro ⟨pre, l, post, outs, h, -⟩
    cases pre <;> cases h
  | cons l ls ih =>
    simp only [convertUrls]
    constructor
    · intro h
      split at h
      · rename_i hno
        simp only [Prod.mk.injEq, Option.some.injEq] at h
        obtain ⟨rfl, rfl⟩ := h
        exact ⟨[], l, ls, [], rfl, rfl, .nil, .inl ⟨hno, rfl⟩⟩
      · rename_i code hcode
        split at h
        · rename_i e' he
          simp only [Prod.mk.injEq, Option.some.injEq] at h
          obtain ⟨rfl, rfl⟩ := h
          refine ⟨[], l, ls, [], rfl, rfl, .nil, .inr ⟨code, e', hcode, ?_, rfl⟩⟩
          rw [Res.bind_eq_error] at he
          rcases he with he | ⟨⟨r, alg⟩, h1, h2⟩
          · exact he
          · obtain ⟨s, hs⟩ := write_total (Parsed.basic _ h1) o
            rw [hs] at h2; cases h2
        · rename_i s hs
          simp only [Prod.mk.injEq] at h
          obtain ⟨rfl, h⟩ := h
          obtain ⟨pre, l', post, outs, h1, h2, h3, h4⟩ := ih.mp (Prod.ext rfl h)
          obtain ⟨r, alg, k1, k2⟩ := fetch_write_iff.mp hs
          refine ⟨l :: pre, l', post, s :: outs, by rw [h1]; rfl, ?_, .cons ⟨r, alg, ⟨code, hcode, k1⟩, k2⟩ h3, h4⟩
          show _ = (s ++ ['\n']) ++ textFile outs
          rw [List.append_assoc]
          exact congrArg (fun x => s ++ '\n' :: x) h2
    · rintro ⟨pre, l', post, outs, h1, rfl, h3, h4⟩
      cases h3 with
      | nil =>
        simp only [List.nil_append, List.cons.injEq] at h1
        obtain ⟨rfl, rfl⟩ := h1
        rcases h4 with ⟨h4, rfl⟩ | ⟨code, e', h4, h5, rfl⟩
        · rw [h4]; rfl
        · simp only [h4, h5, Res.error_bind]; rfl
      | @cons l₀ s pre outs h hs =>
        simp only [List.cons_append, List.cons.injEq] at h1
        obtain ⟨rfl, rfl⟩ := h1
        obtain ⟨r, alg, ⟨code, hcode, k1⟩, k2⟩ := h
        have hw := fetch_write_iff.mpr ⟨r, alg, k1, k2⟩
        have := ih.mpr ⟨pre, l', post, outs, rfl, rfl, hs, h4⟩
        simp only [hcode, hw, this]
        simp [textFile]

/-! ### verify_receipt.py -/

theorem url_genuine_iff {get : Str → Option Str} {ks : KeyStore} {url : Str} :
    getAndVerifyURL get (.fromKeyStore ks) url = some (.ok ()) ↔ GenuineUrl get ks url := by
  rw [url_verified_iff]
  constructor
  · rintro ⟨code, r, alg, hash, h1, h2, h3⟩; exact ⟨r, alg, hash, ⟨code, h1, h2⟩, h3⟩
  · rintro ⟨r, alg, hash, ⟨code, h1, h2⟩, h3⟩; exact ⟨code, r, alg, hash, h1, h2, h3⟩

/-- A receipt that can be read fails verification with one of the reported exceptions only. -/
theorem parsed_verify_error {ks : KeyStore} {r : Receipt} {alg : Str} (hp : Parsed r alg) {e : Err}
    (h : (Verifier.fromKeyStore ks).verify r alg = .error e) : isReceiptException e = true := by
  obtain ⟨k1, k2, k3, k4⟩ := verify_errors (v := .fromKeyStore ks) hp (.inr (by simp [Verifier.fromKeyStore]))
  have hw : ¬WrongCert (.fromKeyStore ks) r := by
    rintro ⟨c, hc, -⟩; cases hc
  by_cases hm : r.signature = failureMark
  · rw [k2 hw hm] at h
    cases h
    split <;> rfl
  · by_cases hk : ∃ k, KeyFor (.fromKeyStore ks) r k
    · obtain ⟨k, hk⟩ := hk
      by_cases hs : SignatureValid r k
      · rw [(receipt_accepted_iff hp).mpr ⟨hm, k, hk, hs⟩] at h; cases h
      · rw [k4 hm k hk hs] at h; cases h; rfl
    · rw [k3 hw hm hk] at h; cases h; rfl

theorem url_verify_error {get : Str → Option Str} {ks : KeyStore} {url : Str} {e : Err}
    (h : getAndVerifyURL get (.fromKeyStore ks) url = some (.error e)) : isReceiptException e = true := by
  simp only [getAndVerifyURL, Option.map_eq_some_iff] at h
  obtain ⟨code, h1, h2⟩ := h
  rw [Res.bind_eq_error] at h2
  rcases h2 with h2 | ⟨⟨r', alg'⟩, h2, h3⟩
  · rw [Verifier.verifyBasic, Res.bind_eq_error] at h2
    rcases h2 with h2 | ⟨⟨r, alg⟩, h2, h3⟩
    · have := parsers_fail_documented _ (.inr (.inl h2))
      cases this <;> rfl
    · exact parsed_verify_error (.basic _ h2) h3
  · rw [Verifier.verifyBasic, Res.bind_eq_ok] at h2
    obtain ⟨⟨r, alg⟩, h2, h4⟩ := h2
    have hp : Parsed r alg := .basic _ h2
    obtain ⟨g, ha⟩ := hp.good
    subst ha
    obtain ⟨e', -⟩ := (verify_iff g).mp h4
    cases e'
    have h3' : verifyURLHash r' (getURLHashFromURL url) = .error e := h3
    rw [(url_hash_verified_iff hp _).2 (by rw [h3']; simp)] at h3'
    cases h3'
    rfl

open Classical in
/-- The loop up to the first URL the server does not answer. -/
theorem verifyUrls_report {get : Str → Option Str} {ks : KeyStore} {ls rest : List Str}
    (hget : ∀ l ∈ ls, get (pyStrip l) ≠ none) {idx fails : Nat} (hle : fails ≤ idx) :
    ∃ fs : List (Nat × Err), (fs.map (·.1)).Pairwise (· < ·) ∧
      (∀ i e, (i, e) ∈ fs ↔ ∃ j l, i = idx + j ∧ ls[j]? = some l ∧
        getAndVerifyURL get (.fromKeyStore ks) (pyStrip l) = some (.error e)) ∧
      ∃ fails' ≤ idx + ls.length,
        idx + ls.length - fails' = idx - fails + ls.countP (fun l => decide (GenuineUrl get ks (pyStrip l))) ∧
        (verifyUrls get (.fromKeyStore ks) idx fails (ls ++ rest)).failures =
          fs ++ (verifyUrls get (.fromKeyStore ks) (idx + ls.length) fails' rest).failures ∧
        (verifyUrls get (.fromKeyStore ks) idx fails (ls ++ rest)).summary =
          (verifyUrls get (.fromKeyStore ks) (idx + ls.length) fails' rest).summary := by
  induction ls generalizing idx fails with
  | nil => exact ⟨[], by simp, by simp, fails, hle, by simp, rfl, rfl⟩
  | cons l ls ih =>
    have hget' : ∀ l ∈ ls, get (pyStrip l) ≠ none := fun l hl => hget l (by simp [hl])
    obtain ⟨code, hcode⟩ := Option.ne_none_iff_exists'.mp (hget l (by simp))
    have hsome : ∃ x, getAndVerifyURL get (.fromKeyStore ks) (pyStrip l) = some x := ⟨_, by rw [getAndVerifyURL, hcode]; rfl⟩
    obtain ⟨x, hx⟩ := hsome
    have hlen : idx + (l :: ls).length = idx + 1 + ls.length := by simp; omega
    simp only [List.cons_append, verifyUrls, hx, hlen]
    cases x with
    | ok u =>
      obtain ⟨fs, h1, h2, f, hf, h3, h4, h5⟩ := ih hget' (idx := idx + 1) (fails := fails) (by omega)
      refine ⟨fs, h1, fun i e => ?_, f, hf, ?_, h4, h5⟩
      · rw [h2]
        constructor
        · rintro ⟨j, l', rfl, hj, hl'⟩
          exact ⟨j + 1, l', by omega, by simpa using hj, hl'⟩
        · rintro ⟨j, l', rfl, hj, hl'⟩
          cases j with
          | zero =>
            simp only [List.getElem?_cons_zero, Option.some.injEq] at hj
            subst hj
            rw [hx] at hl'; cases hl'
          | succ j => exact ⟨j, l', by omega, by simpa using hj, hl'⟩
      · rw [List.countP_cons_of_pos (by rw [decide_eq_true_iff]; exact url_genuine_iff.mp hx), h3]
        omega
    | error e₀ =>
      obtain ⟨fs, h1, h2, f, hf, h3, h4, h5⟩ := ih hget' (idx := idx + 1) (fails := fails + 1) (by omega)
      simp only [url_verify_error hx, if_true]
      refine ⟨(idx, e₀) :: fs, ?_, fun i e => ?_, f, hf, ?_, by rw [h4]; rfl, h5⟩
      · rw [List.map_cons, List.pairwise_cons]
        refine ⟨fun i hi => ?_, h1⟩
        obtain ⟨⟨i', e⟩, hm, rfl⟩ := List.mem_map.mp hi
        obtain ⟨j, _, rfl, -⟩ := (h2 _ _).mp hm
        simp only
        omega
      · rw [List.mem_cons, h2]
        constructor
        · rintro (h | ⟨j, l', rfl, hj, hl'⟩)
          · cases h
            exact ⟨0, l, rfl, rfl, hx⟩
          · exact ⟨j + 1, l', by omega, by simpa using hj, hl'⟩
        · rintro ⟨j, l', rfl, hj, hl'⟩
          cases j with
          | zero =>
            simp only [List.getElem?_cons_zero, Option.some.injEq] at hj
            subst hj
            rw [hx] at hl'; cases hl'
            exact .inl rfl
          | succ j => exact .inr ⟨j, l', by omega, by simpa using hj, hl'⟩
      · rw [List.countP_cons_of_neg (by
          rw [decide_eq_true_iff, ← url_genuine_iff, hx]; simp), h3]
        omega

open Classical in
/-- C102: if the server answers all URLs, whatever it answers, verify_receipt.py goes through all of them; it reports,
in order, exactly those that do not lead to a genuine receipt with the hash in the URL, each with the error of its
verification, and the last line tells how many of how many do. -/
theorem verify_url_tool {get : Str → Option Str} {ks : KeyStore} {arg : Option Str} {text : Str} {lines : List Str}
    (hl : lines = match arg with | some s => [s] | none => fileLines text)
    (hget : ∀ l ∈ lines, get (pyStrip l) ≠ none) :
    (verifyUrlTool get ks arg text).summary =
      .ok (lines.countP fun l => decide (GenuineUrl get ks (pyStrip l)), lines.length) ∧
    ((verifyUrlTool get ks arg text).failures.map (·.1)).Pairwise (· < ·) ∧
    (∀ i, (∃ e, (i, e) ∈ (verifyUrlTool get ks arg text).failures) ↔
      ∃ l, lines[i]? = some l ∧ ¬GenuineUrl get ks (pyStrip l)) ∧
    ∀ i e, (i, e) ∈ (verifyUrlTool get ks arg text).failures ↔
      ∃ l, lines[i]? = some l ∧ getAndVerifyURL get (.fromKeyStore ks) (pyStrip l) = some (.error e) := by
  have hrep : verifyUrlTool get ks arg text = verifyUrls get (.fromKeyStore ks) 0 0 (lines ++ []) := by
    rw [hl, List.append_nil]; rfl
  rw [hrep]
  obtain ⟨fs, h1, h2, f, hf, h3, h4, h5⟩ := verifyUrls_report (rest := []) hget (ks := ks) (idx := 0) (fails := 0) (le_refl _)
  simp only [verifyUrls, List.append_nil] at h4
  simp only [Nat.zero_add, Nat.sub_zero] at h2 h3 h5
  have h6 : ∀ i e, (i, e) ∈ fs ↔ ∃ l, lines[i]? = some l ∧
      getAndVerifyURL get (.fromKeyStore ks) (pyStrip l) = some (.error e) := by
    intro i e
    rw [h2]
    constructor
    · rintro ⟨j, l, rfl, h⟩; exact ⟨l, h⟩
    · rintro ⟨l, h⟩; exact ⟨i, l, rfl, h⟩
  rw [List.append_nil] at h5 ⊢
  rw [h4, h5]
  refine ⟨by simp only [verifyUrls, h3], h1, fun i => ?_, h6⟩
  simp only [h6]
  constructor
  · rintro ⟨e, l, hj, he⟩
    refine ⟨l, hj, fun hg => ?_⟩
    rw [url_genuine_iff.mpr hg] at he; cases he
  · rintro ⟨l, hj, hg⟩
    obtain ⟨code, hcode⟩ := Option.ne_none_iff_exists'.mp (hget l (List.mem_of_getElem? hj))
    obtain ⟨x, hx⟩ : ∃ x, getAndVerifyURL get (.fromKeyStore ks) (pyStrip l) = some x :=
      ⟨_, by rw [getAndVerifyURL, hcode]; rfl⟩
    cases x with
    | ok u => exact absurd (url_genuine_iff.mp hx) hg
    | error e => exact ⟨e, l, hj, hx⟩

/-- C102: an URL the server does not answer ends verify_receipt.py: the URLs before it are reported, nothing is said
about those after it, and the line with the numbers is missing. -/
theorem verify_url_tool_stops {get : Str → Option Str} {ks : KeyStore} {text : Str} {pre post : List Str} {l : Str}
    (hl : fileLines text = pre ++ l :: post) (hpre : ∀ l ∈ pre, get (pyStrip l) ≠ none) (hno : get (pyStrip l) = none) :
    (verifyUrlTool get ks none text).summary = .error .request ∧
    ((verifyUrlTool get ks none text).failures.map (·.1)).Pairwise (· < ·) ∧
    ∀ i e, (i, e) ∈ (verifyUrlTool get ks none text).failures ↔
      ∃ l, pre[i]? = some l ∧ getAndVerifyURL get (.fromKeyStore ks) (pyStrip l) = some (.error e) := by
  obtain ⟨fs, h1, h2, f, hf, h3, h4, h5⟩ :=
    verifyUrls_report (rest := l :: post) hpre (ks := ks) (idx := 0) (fails := 0) (le_refl _)
  have hx : getAndVerifyURL get (.fromKeyStore ks) (pyStrip l) = none := by
    rw [getAndVerifyURL, hno]; rfl
  simp only [verifyUrls, hx, List.append_nil] at h4 h5
  simp only [verifyUrlTool, hl, h4, h5]
  refine ⟨trivial, h1, fun i e => ?_⟩
  rw [h2]
  constructor
  · rintro ⟨j, l, rfl, h⟩; exact ⟨l, by simpa using h⟩
  · rintro ⟨l, h⟩; exact ⟨i, l, by simp, h⟩

/-! ### Together with receipt_host.py -/

/-- No two of these receipts that differ have the same hash. -/
def DistinctHashes (ts : List Str) : Prop :=
  ∀ t ∈ ts, ∀ t' ∈ ts, ∀ hash code code', HostedAs t hash code → HostedAs t' hash code' → code = code'

theorem hosted_get {ts : List Str} {d : Dict Str} (hd : hostReceipts [] ts = .ok d) (hdist : DistinctHashes ts)
    {t hash code : Str} (ht : t ∈ ts) (hh : HostedAs t hash code) : d.get? hash = some code := by
  have key : ∀ ts : List Str, (∃ t ∈ ts, HostedAs t hash code) → (∀ t ∈ ts, ∀ c, HostedAs t hash c → c = code) →
      ∃ pre t post, ts = pre ++ t :: post ∧ HostedAs t hash code ∧ ∀ t' ∈ post, ∀ code', ¬HostedAs t' hash code' := by
    intro ts
    induction ts with
    | nil => rintro ⟨t, h, -⟩; cases h
    | cons x ts ih =>
      rintro ⟨t, ht, hh⟩ hu
      by_cases hex : ∃ t ∈ ts, HostedAs t hash code
      · obtain ⟨pre, t, post, rfl, h⟩ := ih hex fun t ht => hu t (by simp [ht])
        exact ⟨x :: pre, t, post, rfl, h⟩
      · rcases List.mem_cons.mp ht with rfl | ht
        · refine ⟨[], t, ts, rfl, hh, fun t' ht' c hc => ?_⟩
          have := hu t' (by simp [ht']) c hc
          subst this
          exact hex ⟨t', ht', hc⟩
        · exact absurd ⟨t, ht, hh⟩ hex
  exact (hostReceipts_iff.2 d hd hash code).mpr
    (key ts ⟨t, ht, hh⟩ fun t' ht' c hc => (hdist t ht t' ht' hash code c hh hc).symm)

/-- The texts of receipts as lines, and the URLs under which a server at `base` has them. -/
structure HostedLines (base : Str) (ts urls : List Str) : Prop where
  canonical : ∀ t ∈ ts, ∃ r alg, fromJWS t = .ok (r, alg) ∧ CanonicalJWS t ∧ CanonicalB64 r.signature
  address : ∀ c ∈ base, isSpace c = false ∧ c ≠ '#'
  urls : List.Forall₂ (fun t url => ∃ hash code, HostedAs t hash code ∧ url = base ++ '/' :: hash) ts urls

theorem hosted_url_line {base t url hash code : Str} {r : Receipt} {alg : Str} (hr : fromJWS t = .ok (r, alg))
    (hh : HashOf r alg hash code) (hb : ∀ c ∈ base, isSpace c = false ∧ c ≠ '#') (hu : url = base ++ '/' :: hash) :
    pyStrip (url ++ ['\n']) = url ∧ OneLine url ∧ getURLHashFromURL url = some hash := by
  obtain ⟨_, hash', -, k2, -, k3, k4⟩ := url_hash_form (.jws t hr)
  rw [hh.2] at k2
  cases k2
  have hsep : ¬B64Char true '/' := by rw [← isB64_iff]; decide
  have hb' : '#' ∉ base := fun h => (hb _ h).2 rfl
  have hns : ∀ c ∈ url, isSpace c = false := by
    intro c hc
    rw [hu] at hc
    simp only [List.mem_append, List.mem_cons] at hc
    rcases hc with hc | rfl | hc
    · exact (hb c hc).1
    · rw [PyEnv.isSpace_ascii (by decide)]; decide
    · exact b64_not_space (.inl (isB64_iff.mpr (k4 c hc)))
  refine ⟨by rw [pyStrip_line]; exact stripBoth_eq_self hns, ⟨fun h => ?_, fun h => ?_⟩, ?_⟩
  · have := hns _ h
    rw [PyEnv.isSpace_ascii (by decide)] at this
    exact absurd this (by decide)
  · have := hns _ h
    rw [PyEnv.isSpace_ascii (by decide)] at this
    exact absurd this (by decide)
  · rw [hu]
    exact url_path base hash '/' hsep (by decide) hb' k4 k3

/-- The lines of the file the server was started with. -/
theorem HostedLines.lines {base : Str} {ts urls : List Str} (h : HostedLines base ts urls) :
    fileLines (textFile ts) = ts.map (· ++ ['\n']) ∧ (∀ t ∈ ts, pyStrip (t ++ ['\n']) = t) ∧
    fileLines (textFile urls) = urls.map (· ++ ['\n']) ∧ hostLines (textFile ts) = hostReceipts [] ts := by
  have h1 : fileLines (textFile ts) = ts.map (· ++ ['\n']) := fileLines_textFile fun t ht => by
    obtain ⟨r, alg, hr, hc, hs⟩ := h.canonical t ht
    have hns := jws_no_space hr hc hs
    exact ⟨fun hm => (hns _ hm).2.1 rfl, fun hm => (hns _ hm).2.2 rfl⟩
  have h2 : ∀ t ∈ ts, pyStrip (t ++ ['\n']) = t := by
    intro t ht
    obtain ⟨r, alg, hr, hc, hs⟩ := h.canonical t ht
    rw [pyStrip_line]
    exact stripBoth_eq_self fun c hc' => (jws_no_space hr hc hs c hc').1
  refine ⟨h1, h2, fileLines_textFile fun url hu => ?_, ?_⟩
  · obtain ⟨t, -, hash, code, ⟨r, alg, hr, hh⟩, e⟩ := forall₂_mem_right h.urls hu
    exact (hosted_url_line hr hh h.address e).2.1
  · rw [hostLines, h1, List.map_map]
    congr 1
    exact (List.map_congr_left (g := id) h2).trans (List.map_id _)

omit [PyEnv] in
theorem forall₂_imp_mem {α β : Type} {R S : α → β → Prop} {a : List α} {b : List β} (h : List.Forall₂ R a b)
    (hi : ∀ x ∈ a, ∀ y, R x y → S x y) : List.Forall₂ S a b := by
  induction h with
  | nil => exact .nil
  | cons h _ ih => exact .cons (hi _ (by simp) _ h) (ih fun x hx => hi x (by simp [hx]))

/-- What is known about one line. -/
theorem HostedLines.line {base : Str} {ts urls : List Str} (h : HostedLines base ts urls) (hdist : DistinctHashes ts)
    {get : Str → Option Str} (hget : ∀ d, hostLines (textFile ts) = .ok d → ∀ hash, get (base ++ '/' :: hash) = d.get? hash) :
    (∃ d, hostLines (textFile ts) = .ok d) ∧
    List.Forall₂ (fun t url => ∃ r alg hash code, fromJWS t = .ok (r, alg) ∧ r.toJWS alg = t ∧ HashOf r alg hash code ∧
      pyStrip (url ++ ['\n']) = url ∧ getURLHashFromURL url = some hash ∧ get url = some code ∧
      fromBasic code = .ok (r, alg)) ts urls := by
  obtain ⟨-, -, -, hd⟩ := h.lines
  rw [hd] at hget ⊢
  obtain ⟨d, hd⟩ := hostReceipts_iff.1.mpr fun t ht => by
    obtain ⟨r, alg, hr, -⟩ := h.canonical t ht
    exact ⟨r, alg, hr⟩
  refine ⟨⟨d, hd⟩, forall₂_imp_mem h.urls fun t ht url hu => ?_⟩
  obtain ⟨hash, code, hh', e⟩ := hu
  have hin := hosted_get hd hdist ht hh'
  obtain ⟨r, alg, hr, hh⟩ := hh'
  obtain ⟨r', alg', hr', hc, hs⟩ := h.canonical t ht
  rw [hr] at hr'
  cases hr'
  obtain ⟨code', hb1, hb2⟩ := qr_round_trip_canonical (.jws t hr) hs
  rw [hh.1] at hb1
  cases hb1
  obtain ⟨k1, -, k3⟩ := hosted_url_line hr hh h.address e
  exact ⟨r, alg, hash, code, hr, (jws_string_round_trip hr).mpr hc, hh, k1, k3, by rw [e, hget d hd, hin], hb2⟩

/-- C102: the receipts a server started with receipt_host.py has are fetched by receipt.py as the same texts the
server was given. -/
theorem hosted_urls_convert {base : Str} {ts urls : List Str} (h : HostedLines base ts urls) (hdist : DistinctHashes ts)
    {get : Str → Option Str} (hget : ∀ d, hostLines (textFile ts) = .ok d → ∀ hash, get (base ++ '/' :: hash) = d.get? hash) :
    (∃ d, hostLines (textFile ts) = .ok d) ∧
    receiptUrlTool get .jws (textFile urls) = (textFile ts, none) := by
  obtain ⟨h1, h2⟩ := h.line hdist hget
  refine ⟨h1, url_tool_iff.mpr ⟨ts, rfl, ?_⟩⟩
  rw [h.lines.2.2.1, List.forall₂_map_left_iff]
  refine (List.Forall₂.imp ?_ h2).flip
  rintro t url ⟨r, alg, hash, code, hr, hj, hh, k1, k2, k3, k4⟩
  exact ⟨r, alg, ⟨code, by rw [k1]; exact k3, k4⟩, by rw [OutFormat.write, hj]⟩

/-- C102: verifying the URLs of the receipts a server has gives the same report as verifying the receipts. -/
theorem hosted_urls_verify {base : Str} {ts urls : List Str} (h : HostedLines base ts urls) (hdist : DistinctHashes ts)
    {get : Str → Option Str} (hget : ∀ d, hostLines (textFile ts) = .ok d → ∀ hash, get (base ++ '/' :: hash) = d.get? hash)
    {v : PyVersion} {ks : KeyStore} :
    (verifyUrlTool get ks none (textFile urls)).failures = (verifyReceiptTool v ks .jws none (textFile ts)).failures ∧
    ∃ x, (verifyUrlTool get ks none (textFile urls)).summary = .ok x ∧
      (verifyReceiptTool v ks .jws none (textFile ts)).summary = .ok x := by
  obtain ⟨-, h2⟩ := h.line hdist hget
  obtain ⟨l1, l2, l3, -⟩ := h.lines
  simp only [verifyUrlTool, verifyReceiptTool, l1, l3, InFormat.verify]
  generalize 0 = idx
  have key : ∀ fails, (verifyUrls get (.fromKeyStore ks) idx fails (urls.map (· ++ ['\n']))).failures =
      (verifyLines (Verifier.fromKeyStore ks).verifyJWS idx fails (ts.map (· ++ ['\n']))).failures ∧
      ∃ x, (verifyUrls get (.fromKeyStore ks) idx fails (urls.map (· ++ ['\n']))).summary = .ok x ∧
        (verifyLines (Verifier.fromKeyStore ks).verifyJWS idx fails (ts.map (· ++ ['\n']))).summary = .ok x := by
    clear h hget hdist l1 l3
    induction h2 generalizing idx with
    | nil => intro fails; exact ⟨rfl, _, rfl, rfl⟩
    | @cons t url ts urls hx _ ih =>
      intro fails
      obtain ⟨r, alg, hash, code, hr, hj, hh, k1, k2, k3, k4⟩ := hx
      have hp : Parsed r alg := .jws t hr
      have ih := fun idx => ih (fun t ht => l2 t (by simp [ht])) idx
      have e1 : (Verifier.fromKeyStore ks).verifyJWS t = (Verifier.fromKeyStore ks).verify r alg := by
        rw [Verifier.verifyJWS, hr, Res.ok_bind]
      have e2 : getAndVerifyURL get (.fromKeyStore ks) url =
          some ((Verifier.fromKeyStore ks).verify r alg >>= fun x => verifyURLHash x.1 (some hash)) := by
        simp only [getAndVerifyURL, k3, k2, Option.map_some, Verifier.verifyBasic, k4, Res.ok_bind]
      simp only [List.map_cons, verifyUrls, verifyLines, k1, l2 t (by simp), e1, e2]
      cases hv : (Verifier.fromKeyStore ks).verify r alg with
      | ok x =>
        obtain ⟨g, ha⟩ := hp.good
        subst ha
        obtain ⟨e', -⟩ := (verify_iff g).mp hv
        subst e'
        simp only [Res.ok_bind, (url_hash_verified_iff hp (some hash)).1.mpr ⟨hash, rfl, hh.2⟩]
        exact ih (idx + 1) fails
      | error e =>
        simp only [Res.error_bind, parsed_verify_error hp hv, if_true]
        obtain ⟨i1, x, i2, i3⟩ := ih (idx + 1) (fails + 1)
        exact ⟨by rw [i1], x, i2, i3⟩
  exact key idx

end

namespace Demo

attribute [local instance] env

/-- A request that fails and an answer that is no receipt: the program tells which it was. -/
example : receiptUrlTool (fun u => if u = c!"a" then some c!"x" else none) .jws c!"a\n" = ([], some (.other .malformedReceipt)) ∧
    receiptUrlTool (fun u => if u = c!"a" then some c!"x" else none) .jws c!"b\na\n" = ([], some .request) := by
  decide +kernel

def sameUrlReport (a b : UrlReport) : Bool :=
  decide (a.failures = b.failures) &&
    match a.summary, b.summary with
    | .ok x, .ok y => decide (x = y)
    | .error x, .error y => decide (x = y)
    | _, _ => false

theorem sameUrlReport_eq {a b : UrlReport} (h : sameUrlReport a b = true) : a = b := by
  obtain ⟨f, s⟩ := a
  obtain ⟨f', s'⟩ := b
  simp only [sameUrlReport, Bool.and_eq_true, decide_eq_true_eq] at h
  obtain ⟨rfl, h⟩ := h
  cases s <;> cases s' <;> simp at h <;> rw [h]

/-- A server with a receipt that it was given twice: it can be fetched, and verified, by its URL.  In this example
all receipts have the same hash, so there are no others. -/
example : ∃ (t url : Str) (get : Str → Option Str), t ∈ texts ∧
    receiptUrlTool get .jws (textFile [url, url]) = (textFile [t, t], none) ∧
    (verifyUrlTool get deviceStore none (textFile [url, url])).failures =
      (verifyReceiptTool .py3 deviceStore .jws none (textFile [t, t])).failures := by
  obtain ⟨t, ht⟩ : ∃ t, t ∈ texts := List.exists_mem_of_ne_nil _ (by decide +kernel)
  obtain ⟨r, alg, h1, h2, h3, -⟩ := plainText_spec (texts_plain t ht)
  obtain ⟨hash, code, hh⟩ := hosted_total h2
  have hl : HostedLines c!"http://localhost:5000" [t, t]
      [c!"http://localhost:5000" ++ '/' :: hash, c!"http://localhost:5000" ++ '/' :: hash] := by
    refine ⟨?_, by decide +kernel, .cons ⟨hash, code, hh, rfl⟩ (.cons ⟨hash, code, hh, rfl⟩ .nil)⟩
    intro t' ht'
    have : t' = t := by simpa using ht'
    subst this
    exact ⟨r, alg, h2, h1, h3⟩
  have hdist : DistinctHashes [t, t] := by
    intro a ha b hb hash c c' h h'
    have ha : a = t := by simpa using ha
    have hb : b = t := by simpa using hb
    subst ha
    subst hb
    exact (h.det h').2
  let get : Str → Option Str := fun u =>
    match hostLines (textFile [t, t]) with
    | .ok d => d.get? (u.drop 22)
    | .error _ => none
  have hget : ∀ d, hostLines (textFile [t, t]) = .ok d →
      ∀ hash, get (c!"http://localhost:5000" ++ '/' :: hash) = d.get? hash := by
    intro d hd hash
    show (match hostLines (textFile [t, t]) with
      | .ok d => d.get? ((c!"http://localhost:5000" ++ '/' :: hash).drop 22)
      | .error _ => none) = _
    rw [hd]
    rfl
  exact ⟨t, _, get, ht, (hosted_urls_convert hl hdist hget).2, (hosted_urls_verify hl hdist hget).1⟩

/-- verify_receipt.py goes on after an answer that is no receipt, and stops at a request that fails. -/
example : verifyUrlTool (fun u => if u = c!"a" then some c!"x" else none) deviceStore none c!"a\na\n" =
      ⟨[(0, .malformedReceipt), (1, .malformedReceipt)], .ok (0, 2)⟩ ∧
    verifyUrlTool (fun u => if u = c!"a" then some c!"x" else none) deviceStore none c!"a\nb\na\n" =
      ⟨[(0, .malformedReceipt)], .error .request⟩ := by
  constructor <;> exact sameUrlReport_eq (by decide +kernel)

end Demo

end RKSV
