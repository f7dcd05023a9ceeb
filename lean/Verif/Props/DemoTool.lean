import Verif.Spec.DemoTool
import Verif.Props.CashRegMakes
import Verif.Props.EndToEnd
/-
C87: the DEP demo.py prints is accepted by verify.py.
-/
namespace RKSV

/-! ### Receipt IDs -/

theorem pad5_chars (n : Nat) : ∀ c ∈ pad5 n, ∃ d, d < 10 ∧ c = dig d := by
  intro c hc
  rcases List.mem_append.mp hc with hc | hc
  · exact ⟨0, by omega, List.eq_of_mem_replicate hc⟩
  · exact natDec_chars n c hc

theorem pad5_ne_nil (n : Nat) : pad5 n ≠ [] := by
  intro h
  exact natDec_ne_nil n (List.append_eq_nil_iff.mp h).2

theorem pad5_no_underscore (n : Nat) : '_' ∉ pad5 n := by
  intro h
  obtain ⟨d, hd, e⟩ := pad5_chars n _ h
  exact dig_ne hd (c := '_') (by decide) e.symm

section
variable [PyEnv]

theorem readDigits_zeros (k : Nat) : readDigits 10 0 true (List.replicate (k + 1) '0') = some 0 := by
  induction k with
  | zero =>
    have := pyDigit_dig (b := 10) (n := 0) (by omega)
    rw [show dig 0 = '0' from rfl] at this
    simp [readDigits, this]
  | succ k ih =>
    have := readDigits_append ih (pyDigit_dig (n := 0) (by omega)) (dig_ne (by omega) (by decide))
    rw [List.replicate_succ']
    exact this

theorem readDigits_pad (k n : Nat) : readDigits 10 0 true (List.replicate k '0' ++ natDec n) = some n := by
  induction n using Nat.strongRecOn with
  | ind n ih =>
    by_cases h : n < 10
    · rw [natDec_lt h]
      cases k with
      | zero => simp [readDigits, dig_ne h (c := '_') (by decide), pyDigit_dig h]
      | succ k =>
        rw [readDigits_append (readDigits_zeros k) (pyDigit_dig h) (dig_ne h (by decide))]
        simp
    · rw [natDec_ge (by omega), ← List.append_assoc]
      rw [readDigits_append (ih (n / 10) (by omega)) (pyDigit_dig (n := n % 10) (by omega))
        (dig_ne (by omega) (by decide))]
      congr 1
      omega

theorem pyInt_pad5 (n : Nat) : pyInt 10 (pad5 n) = some (n : Int) := by
  unfold pyInt
  have hch := pad5_chars n
  have hsp : ∀ c ∈ pad5 n, intSpace c = false := by
    intro c hc
    obtain ⟨d, hd, rfl⟩ := hch c hc
    have := dig_toNat hd
    simp only [intSpace, Bool.or_eq_false_iff, Bool.and_eq_false_iff, decide_eq_false_iff_not]
    omega
  rw [stripBoth_eq_self hsp]
  have hpre : skipHexPrefix 10 (pad5 n) = pad5 n := by
    unfold skipHexPrefix
    split
    · rw [if_neg]; rintro ⟨h, -⟩; omega
    · rfl
  have hsign : intSign (pad5 n) = (false, pad5 n) := by
    unfold intSign
    split
    · rename_i r e
      obtain ⟨d, hd, h⟩ := hch '-' (by rw [e]; simp)
      exact absurd h.symm (dig_ne hd (by decide))
    · rename_i r e
      obtain ⟨d, hd, h⟩ := hch '+' (by rw [e]; simp)
      exact absurd h.symm (dig_ne hd (by decide))
    · rfl
  rw [hsign]
  simp only [hpre]
  rw [show readDigits 10 0 true (pad5 n) = some n from readDigits_pad _ n]
  simp

theorem pad5_injective {m n : Nat} (h : pad5 m = pad5 n) : m = n := by
  classical
  have h1 := pyInt_pad5 m
  rw [h, pyInt_pad5] at h1
  have := Option.some.inj h1
  omega

/-- The IDs are in natural order. -/
theorem pad5_lt {m n : Nat} (h : m < n) : NaturalLt (pad5 m) (pad5 n) := by
  rw [naturalLt_iff]
  have cut : ∀ n, Cut (pad5 n) [[], pad5 n, []] := by
    intro n
    have := Cut.run [] (pad5 n) [] [[]] (by simp) (pad5_ne_nil n) (by
      intro c hc
      obtain ⟨d, hd, rfl⟩ := pad5_chars n c hc
      have := dig_toNat hd
      unfold Digit
      rw [char_le_iff, char_le_iff, this]
      exact ⟨by rw [show '0'.toNat = 48 from rfl]; omega, by rw [show '9'.toNat = 57 from rfl]; omega⟩) (by simp) (.text [] (by simp))
    simpa using this
  have part : ∀ n, List.Forall₂ PartOf [[], pad5 n, []] [.txt (PyEnv.lower []), .num n, .txt (PyEnv.lower [])] := by
    intro n
    refine .cons (.txt _ rfl) (.cons (.num _ _ ?_ (pyInt_pad5 n)) (.cons (.txt _ rfl) .nil))
    unfold isDigitStr
    have h1 := pad5_ne_nil n
    cases h : pad5 n with
    | nil => exact absurd h h1
    | cons c s =>
      rw [← h]
      simp only [Bool.and_eq_true, List.all_eq_true]
      refine ⟨by rw [h]; rfl, ?_⟩
      intro c hc
      obtain ⟨d, hd, rfl⟩ := pad5_chars n c hc
      exact PyEnv.isDigit_of_digitVal (digitVal_dig hd)
  exact ⟨_, _, _, _, cut m, cut n, part m, part n, .diff [_] _ _ _ _ (.num _ _ (by exact_mod_cast h))⟩

/-! ### The orders -/

omit [PyEnv] in
theorem pad5_zero : pad5 0 = c!"00000" := rfl

theorem demoOrders_ids (sys : SigSystem) (draws : Nat → Draw) {num : Nat} (h : 1 ≤ num) :
    (demoOrders sys draws num).map (·.receiptId) = (List.range num).map pad5 := by
  obtain ⟨n, rfl⟩ : ∃ n, num = n + 1 := ⟨num - 1, by omega⟩
  rw [List.range_eq_range', List.range'_succ]
  simp only [demoOrders, List.map_cons, List.map_map, Nat.add_sub_cancel, Nat.zero_add]
  rfl

theorem demoOrders_fresh (sys : SigSystem) (draws : Nat → Draw) {num : Nat} (h : 1 ≤ num) (backend : Used) :
    FreshIds backend.fresh ((demoOrders sys draws num).map (·.receiptId)) := by
  rw [demoOrders_ids _ _ h]
  cases backend with
  | unique ids =>
    refine ⟨List.Nodup.map (fun a b => pad5_injective) List.nodup_range, by simp⟩
  | sorted lo hi =>
    intro pre a post e m hm
    simp only [Option.or_none] at hm
    obtain ⟨q, rfl⟩ := List.getLast?_eq_some_iff.mp hm
    have h1 : ((List.range num).map pad5)[q.length]? = some m := by rw [e]; simp
    have h2 : ((List.range num).map pad5)[q.length + 1]? = some a := by rw [e]; simp
    simp only [List.getElem?_map, Option.map_eq_some_iff] at h1 h2
    obtain ⟨x, hx, rfl⟩ := h1
    obtain ⟨y, hy, rfl⟩ := h2
    rw [List.getElem?_range (by
      by_contra hc
      rw [List.getElem?_eq_none (by simpa using hc)] at hx
      cases hx)] at hx
    rw [List.getElem?_range (by
      by_contra hc
      rw [List.getElem?_eq_none (by simpa using hc)] at hy
      cases hy)] at hy
    cases hx
    cases hy
    exact pad5_lt (by omega)

theorem mem_demoOrders {sys : SigSystem} {draws : Nat → Draw} {num : Nat} {o : Order} (h : o ∈ demoOrders sys draws num) :
    o = demoStart sys (draws 0) ∨ ∃ i, 1 ≤ i ∧ i < num ∧ o = demoOrder sys draws i := by
  rcases List.mem_cons.mp h with h | h
  · exact .inl h
  · obtain ⟨i, hi, rfl⟩ := List.mem_map.mp h
    rw [List.mem_range'_1] at hi
    exact .inr ⟨i, hi.1, by omega, rfl⟩

omit [PyEnv] in
theorem zero_cents : InCents ⟨.fin 0, false⟩ 0 := ⟨by
  unfold centsToF64
  norm_num
  exact (by decide +kernel : F64.fin 0 = toF64 0), by norm_num⟩


/-- The amounts of a receipt. -/
theorem demoOrder_adds {sys : SigSystem} {draws : Nat → Draw} {num : Nat} (hd : Draws draws num) {o : Order}
    (h : o ∈ demoOrders sys draws num) : ∃ n, o.Adds n ∧ |n| ≤ 500000 := by
  rcases mem_demoOrders h with rfl | ⟨i, -, hi, rfl⟩
  · exact ⟨0, ⟨0, 0, 0, 0, 0, zero_cents, zero_cents, zero_cents, zero_cents, zero_cents, by norm_num, rfl⟩, by norm_num⟩
  · obtain ⟨a, ha, ha'⟩ := hd.sumA i hi
    obtain ⟨b, hb, hb'⟩ := hd.sumB i hi
    obtain ⟨c, hc, hc'⟩ := hd.sumC i hi
    obtain ⟨e, he, he'⟩ := hd.sumE i hi
    obtain ⟨d, hd, hd'⟩ := hd.sumD i hi
    refine ⟨_, ⟨a, b, c, d, e, ha, hb, hc, hd, he, by linarith, rfl⟩, ?_⟩
    split
    · norm_num
    · rw [abs_le] at *
      omega

theorem demoOrder_date {sys : SigSystem} {draws : Nat → Draw} {num : Nat} (hn : 1 ≤ num) (hd : Draws draws num) {o : Order}
    (h : o ∈ demoOrders sys draws num) : o.dateTime.Valid ∧ 1000 ≤ o.dateTime.year := by
  rcases mem_demoOrders h with rfl | ⟨i, -, hi, rfl⟩
  · exact hd.date 0 (by omega)
  · exact hd.date i hi

omit [PyEnv] in
theorem exists_forall₂ {α β : Type} {R : α → β → Prop} {l : List α} (h : ∀ a ∈ l, ∃ b, R a b) :
    ∃ l', List.Forall₂ R l l' := by
  induction l with
  | nil => exact ⟨[], .nil⟩
  | cons a l ih =>
    obtain ⟨b, hb⟩ := h a (by simp)
    obtain ⟨l', hl⟩ := ih fun a ha => h a (by simp [ha])
    exact ⟨b :: l', .cons hb hl⟩

omit [PyEnv] in
theorem abs_sum_le {l : List Int} {B : Int} (h : ∀ x ∈ l, |x| ≤ B) : |l.sum| ≤ l.length * B := by
  induction l with
  | nil => simp
  | cons a l ih =>
    have h1 := h a (by simp)
    have h2 := ih fun x hx => h x (by simp [hx])
    have h3 := abs_add_le a l.sum
    simp only [List.sum_cons, List.length_cons]
    push_cast
    linarith

theorem demoOrder_sys {sys : SigSystem} {draws : Nat → Draw} {num : Nat} {o : Order}
    (h : o ∈ demoOrders sys draws num) : o.sys = sys ∧ o.algorithm = R1 := by
  rcases mem_demoOrders h with rfl | ⟨i, -, hi, rfl⟩ <;> exact ⟨rfl, rfl⟩

/-- The orders obey the rules. -/
theorem demoOrders_abide {zda serial : Str} {priv : PrivKey} (hs : '_' ∉ serial) {draws : Nat → Draw} {num : Nat}
    (hn : 1 ≤ num) (hd : Draws draws num) (backend : Used) :
    RuleAbiding backend.fresh (demoOrders (.working zda serial priv) draws num) := by
  have hsys := fun {o} => demoOrder_sys (sys := .working zda serial priv) (draws := draws) (num := num) (o := o)
  have hw : ∀ o ∈ demoOrders (.working zda serial priv) draws num, ¬o.Fails := by
    intro o ho
    simp [Order.Fails, (hsys ho).1]
  refine ⟨?_, ?_, ?_, ?_, ?_, demoOrders_fresh _ _ hn _⟩
  · intro o ho
    obtain ⟨n, ⟨a, b, c, d, e, ha, hb, hc, hd, he, -⟩, -⟩ := demoOrder_adds hd ho
    obtain ⟨h1, h2⟩ := demoOrder_date hn ‹_› ho
    exact ⟨⟨_, ha⟩, ⟨_, hb⟩, ⟨_, hc⟩, ⟨_, hd⟩, ⟨_, he⟩, h1, h2, by rw [(hsys ho).1]; exact hs⟩
  · intro o ho
    cases ho
    exact ⟨id, zero_cents, zero_cents, zero_cents, zero_cents, zero_cents, rfl, rfl⟩
  · intro pre a b c post e hf
    exact absurd hf (hw a (by rw [e]; simp))
  · intro a ha b hb
    rw [(hsys ha).1, (hsys hb).1]
  · refine List.pairwise_cons.mpr ⟨?_, ?_⟩
    · intro o ho
      obtain ⟨i, hi, rfl⟩ := List.mem_map.mp ho
      rw [List.mem_range'_1] at hi
      exact hd.clock 0 i (by omega) (by omega)
    · refine List.pairwise_map.mpr (List.Pairwise.imp_of_mem ?_ (List.pairwise_lt_range' (s := 1) (n := num - 1)))
      intro i j _ hj hij
      rw [List.mem_range'_1] at hj
      exact hd.clock i j hij (by omega)

/-- demo.py makes all receipts, unless there are so many that the counter overflows. -/
theorem demo_runs {zda serial : Str} {priv : PrivKey}
    (hform : UpToNewline ZdaForm zda ∧ ((WithSuffix CompanyId serial ∧ zda = c!"AT0") ∨
      (WithSuffix HexSerial serial ∧ zda ≠ c!"AT0")))
    {draws : Nat → Draw} {num : Nat} (hn : 1 ≤ num) (hmax : num * 500000 < 2 ^ 63) (hd : Draws draws num)
    {reg : CashRegister} (hz : reg.size = 8) (hid : reg.registerId = c!"PIGGYBANK-007") (hc : reg.counter = 0)
    (hk : reg.key.length = 32) :
    ∃ reg' rs, reg.run (demoOrders (.working zda serial priv) draws num) = (reg', some rs) := by
  obtain ⟨ns, hns⟩ := exists_forall₂ (l := demoOrders (.working zda serial priv) draws num)
    (R := fun o n => o.Adds n ∧ |n| ≤ 500000) fun o ho => demoOrder_adds hd ho
  have hl : ns.length = num := by
    rw [← hns.length_eq]
    simp [demoOrders]
    omega
  rw [run_made_iff (ns := ns) (by omega) (fun o ho => demoOrder_date hn hd ho) (hns.imp fun _ _ h => h.1)]
  intro i o ho
  have ho' := List.mem_of_getElem? ho
  obtain ⟨h1, h2⟩ := demoOrder_sys ho'
  refine ⟨⟨h2, ?_, ?_, by rw [h1]; exact hform.1, by rw [h1]; exact hform.2⟩, ?_, fun _ _ => ⟨hk, ?_⟩⟩
  · rw [hid]; decide
  · rcases mem_demoOrders ho' with rfl | ⟨i, -, hi, rfl⟩
    · exact ⟨pad5_ne_nil 0, pad5_no_underscore 0⟩
    · exact ⟨pad5_ne_nil i, pad5_no_underscore i⟩
  · intro _ _ _ _ e
    rw [h1] at e
    cases e
  · have hb : |(ns.take (i + 1)).sum| ≤ (ns.take (i + 1)).length * 500000 := by
      apply abs_sum_le
      intro x hx
      have hx := List.mem_of_mem_take hx
      obtain ⟨j, hj, rfl⟩ := List.mem_iff_getElem.mp hx
      exact (List.forall₂_iff_get.mp hns).2 j (by rw [hns.length_eq]; exact hj) hj |>.2
    have h3 : (ns.take (i + 1)).length ≤ num := by rw [← hl]; simp
    rw [abs_le] at hb
    rw [hz, hc, FitsBytes, zero_add]
    generalize (ns.take (i + 1)).sum = S at hb
    generalize (ns.take (i + 1)).length = L at hb h3
    norm_num at hmax ⊢
    omega

/-- Receipts carry the provider and serial of the signature system. -/
theorem run_system {reg reg' : CashRegister} {os : List Order} {rs : List Receipt} (h : reg.run os = (reg', some rs)) :
    ∀ o r, (o, r) ∈ os.zip rs → r.zda = o.sys.zda ∧ r.certSerial = o.sys.serial := by
  induction os generalizing reg rs with
  | nil => simp
  | cons o os ih =>
    obtain ⟨reg1, r, rs, rfl, hr, hrun⟩ := run_cons.mp h
    intro x y hxy
    rcases List.mem_cons.mp hxy with e | e
    · cases e
      obtain ⟨c⟩ := call_of_receipt hr
      have := c.fields
      exact ⟨congrArg Fields.zda this, congrArg Fields.certSerial this⟩
    · exact ih hrun x y e

omit [PyEnv] in
theorem natHex_no {c : Char} (h : isHexLower c = false) (n : Nat) : c ∉ natHex n := by
  intro hc
  rw [natHex_chars n c hc] at h
  cases h

/-- C87: whatever the random numbers are, demo.py prints a DEP with as many receipts as asked for, and verify.py
accepts it in every mode if the key store has the key. -/
theorem demo_accepted {ks : KeyStore} {sys : SigSystem} (hsys : HasKey ks sys) {keyText : Str} {key : Bytes}
    (hkey : loadB64Key keyText = .ok key) (hlen : key.length = 32) {store : Json}
    (hsk : loadKeyFromJson store = .ok (some key) ∨ loadKeyFromJson store = .ok none)
    (hks : readStoreFromJson store = .ok ks) {num : Nat} (hn : 1 ≤ num) (hmax : num * 500000 < 2 ^ 63)
    {draws : Nat → Draw} (hd : Draws draws num) {m : Mode} (hm : FileMode m) (backend : Used) :
    ∃ dep g, demo sys keyText num draws = .printed dep ∧ DepJson dep [g] ∧ g.recs.length = num ∧
      verifyTool backend.fresh m .fresh store dep none = .ok none := by
  obtain ⟨zda, sn, priv, rfl, hu, hform, hkf⟩ : ∃ zda sn priv, sys = .working zda sn priv ∧ '_' ∉ sn ∧
      (UpToNewline ZdaForm zda ∧ ((WithSuffix CompanyId sn ∧ zda = c!"AT0") ∨
        (WithSuffix HexSerial sn ∧ zda ≠ c!"AT0"))) ∧
      ∀ r : Receipt, r.zda = zda → r.certSerial = sn → KeyFor (.fromKeyStore ks) r (pubOf priv) := by
    cases hsys with
    | cert c priv hk =>
      refine ⟨_, _, _, rfl, ?_, ⟨.inl (.provider 'A' 'T' '7' ['7'] (by decide) (by decide) (by decide) ?_),
        .inr ⟨.plain _ ?_ ?_, by decide⟩⟩, ?_⟩
      · exact natHex_no (by decide) _
      · intro c hc
        rw [List.mem_singleton.mp hc, show '7' = dig 7 from rfl, digitVal_dig (by omega)]
        rfl
      · rw [HexSerial, pyInt_natHex]
        rfl
      · exact natHex_no (by decide) _
      · intro r h1 h2
        refine .openStoreHex ks (serial c).natAbs (by rw [h1]; decide) rfl rfl ?_ ?_
        · rw [h2]
          refine ⟨natHex (serial c).natAbs, .inr ⟨rfl, natHex_ne_nil _, ?_⟩, pyInt_natHex _⟩
          intro u e
          exact natHex_no (c := '-') (by decide) (serial c).natAbs (by rw [e]; simp)
        · rw [intHex, if_neg (by omega), Int.natAbs_natCast]
          exact hk
    | key id priv hid hu hk =>
      refine ⟨_, _, _, rfl, hu, ⟨.inl .closed, .inl ⟨hid, rfl⟩⟩, ?_⟩
      intro r h1 h2
      exact .closedStore ks h1 rfl rfl (by rw [h2]; exact hk)
  have hreg : ∃ reg, CashRegister.make c!"PIGGYBANK-007" none 0 key = .ok reg ∧ reg.size = 8 ∧
      reg.registerId = c!"PIGGYBANK-007" ∧ reg.counter = 0 ∧ reg.key = key ∧ reg.last = none := by
    refine ⟨⟨_, _, _, _, _⟩, ?_, rfl, rfl, rfl, rfl, rfl⟩
    simp [CashRegister.make, ensure, Res.ok_bind]
  obtain ⟨reg, hmake, hz, hid, hc, hk, hl⟩ := hreg
  obtain ⟨reg', rs, hrun⟩ := demo_runs (priv := priv) hform hn hmax hd hz hid hc (by rw [hk]; exact hlen)
  have hrl : rs.length = num := by
    rw [← run_length hrun]
    simp [demoOrders]
    omega
  let p : Part := ⟨m, .fresh, [⟨rs.map fun r => (r, c!"R1"), none, []⟩], []⟩
  have hne : rs ≠ [] := by
    rintro rfl
    simp at hrl
    omega
  have hp : p.Good := by
    refine ⟨by simp [p, Dict.keys], by simp [p, Dict.keys], ⟨_, List.mem_singleton.mpr rfl, by simpa using hne⟩, ?_,
      .inl (List.length_filter_le _ _), hm.procs, hm.order, ?_⟩
    · intro g hg c hc
      rw [List.mem_singleton.mp hg] at hc
      cases hc
    · rcases hm.file with h | h
      · exact .inl h
      · exact .inr (.inl h)
  refine ⟨exportDEP p.groups p.extra, _, ?_, hp.json, by simp [p, SGroup.asRead, hrl], ?_⟩
  · simp [demo, hkey, hmake, hrun, p]
    omega
  · obtain ⟨key', hkey', hkk⟩ : ∃ key', loadKeyFromJson store = .ok key' ∧
        ∀ k, key' = some k → k = reg.key ∧ k.length = 32 := by
      rcases hsk with h | h
      · exact ⟨_, h, by rintro _ ⟨⟩; exact ⟨hk.symm, hlen⟩⟩
      · exact ⟨_, h, by simp⟩
    refine register_new hkey' hks (by exact hrun) (by omega) (demoOrders_abide hu hn hd backend) (.inl hl) hc hkk hp rfl
      (by simp [p, receiptsOf]) ?_
    intro g hg _
    rw [List.mem_singleton.mp hg]
    refine ⟨_, .store rfl, ?_⟩
    intro o r hor _
    have ho := (demoOrder_sys (List.of_mem_zip hor).1).1
    unfold SignedFor
    rw [ho]
    obtain ⟨h1, h2⟩ := run_system hrun o r hor
    rw [ho] at h1 h2
    exact hkf r h1 h2

end

namespace Demo

attribute [local instance] env

/-- A draw: a sale over 12,30 and 0,99. -/
def draw (i : Nat) : Draw where
  now := ⟨2020, 1, 2, 3, 4, 5⟩
  sumA := ⟨centsToF64 1230, false⟩
  sumB := ⟨centsToF64 99, false⟩
  sumC := ⟨.fin 0, true⟩
  sumD := ⟨.fin 0, false⟩
  sumE := ⟨.fin 0, false⟩
  dummy := i % 5 = 4
  reversal := i % 3 = 2
  rand := i

theorem draws (num : Nat) : Draws draw num where
  sumA _ _ := ⟨1230, in_cents 1230 false (by norm_num), by norm_num⟩
  sumB _ _ := ⟨99, in_cents 99 false (by norm_num), by norm_num⟩
  sumC _ _ := ⟨0, in_cents_zero _, by norm_num⟩
  sumD _ _ := ⟨0, in_cents_zero _, by norm_num⟩
  sumE _ _ := ⟨0, in_cents_zero _, by norm_num⟩
  date _ _ := (by decide : (⟨2020, 1, 2, 3, 4, 5⟩ : DateTime).Valid ∧ 1000 ≤ 2020)
  clock _ _ _ _ := by simp [draw, Earlier]

theorem closed_has_key : HasKey closedStore (demoClosed closedId ([7, 8] : Bytes)) :=
  .key _ _ (certSerialType_company.mp (by decide +kernel)) (by decide) rfl

/-- The hypotheses of `demo_accepted` can be met: a million receipts. -/
example {m : Mode} (hm : FileMode m) (backend : Used) : ∃ dep g,
    demo (demoClosed closedId ([7, 8] : Bytes)) (b64Encode false aes) (1000000 : Nat) draw = .printed dep ∧
      DepJson dep [g] ∧ g.recs.length = 1000000 ∧
      verifyTool backend.fresh m .fresh (closedStore.toJson (some (b64Encode false aes))) dep none = .ok none :=
  demo_accepted (ks := closedStore) closed_has_key (key := aes) (eq_of_isOk (by decide +kernel)) (by decide)
    (.inl rfl) rfl (by norm_num) (by norm_num) (draws _) hm backend

end Demo

end RKSV
