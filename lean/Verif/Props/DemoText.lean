import Verif.Model.DemoText
import Verif.Props.ExportText
/-
C105 for demo.py.
-/
namespace RKSV

section
variable [PyEnv]

theorem stream_ok {reg reg' : CashRegister} {os : List Order} {rs : List Receipt} (h : reg.run os = (reg', some rs)) :
    reg.stream os = rs.map .ok := by
  induction os generalizing reg reg' rs with
  | nil => simp only [CashRegister.run, Prod.mk.injEq, Option.some.injEq] at h; rw [← h.2]; rfl
  | cons o os ih =>
    rw [CashRegister.run] at h
    rw [CashRegister.stream]
    generalize reg.receipt o = p at h
    obtain ⟨reg1, e | r⟩ := p
    · simp at h
    · dsimp only at h ⊢
      cases hr : reg1.run os with
      | mk reg2 rs2 =>
        rw [hr] at h
        simp only [Prod.mk.injEq, Option.map_eq_some_iff] at h
        obtain ⟨-, rs2, rfl, rfl⟩ := h
        rw [ih hr]
        rfl

theorem stream_error {reg reg' : CashRegister} {os : List Order} (h : reg.run os = (reg', none)) :
    ∃ (rs : List Receipt) (e : Err), reg.stream os = rs.map .ok ++ [.error e] := by
  induction os generalizing reg reg' with
  | nil => simp [CashRegister.run] at h
  | cons o os ih =>
    rw [CashRegister.run] at h
    rw [CashRegister.stream]
    generalize reg.receipt o = p at h
    obtain ⟨reg1, e | r⟩ := p
    · exact ⟨[], e, rfl⟩
    · dsimp only at h ⊢
      cases hr : reg1.run os with
      | mk reg2 rs2 =>
        rw [hr] at h
        simp only [Prod.mk.injEq, Option.map_eq_none_iff] at h
        obtain ⟨-, rfl⟩ := h
        obtain ⟨rs, e, h⟩ := ih hr
        exact ⟨r :: rs, e, by rw [h]; rfl⟩

/-- **C105**: demo.py prints the complete text of its DEP or, if a receipt cannot be made, a text that is no JSON and ends
with an exception. -/
theorem demo_printed (ft : F64 → Str) (sys : SigSystem) (keyText : Str) {num : Nat} (hn : 1 ≤ num) (draws : Nat → Draw) :
    match demo sys keyText num draws with
    | .tooFew => False
    | .printed dep => demoPrinted sys keyText num draws = (jsonText ft 0 dep ++ ['\n'], none)
    | .raised => ∃ out e, demoPrinted sys keyText num draws = (out, some e) ∧ ¬ JsonFile out := by
  rw [demo, if_neg (by omega), demoPrinted]
  cases loadB64Key keyText with
  | error e => exact ⟨[], e, rfl, not_file_nil⟩
  | ok key =>
    dsimp only
    cases CashRegister.make c!"PIGGYBANK-007" none 0 key with
    | error e => exact ⟨[], e, rfl, not_file_nil⟩
    | ok reg =>
      dsimp only
      rw [Int.toNat_natCast]
      cases hr : reg.run (demoOrders sys draws num) with
      | mk reg' rs =>
        cases rs with
        | some rs =>
          dsimp only
          have := export_complete ft [⟨[], [], rs.map fun r => r.toJWS c!"R1"⟩]
          rw [stream_ok hr]
          simp only [List.map_cons, List.map_nil, FullGroup.out, List.map_map, Function.comp_def] at this
          simp only [List.map_map, Function.comp_def, Except.map]
          rw [this]
          simp [depJson, FullGroup.json, exportDEP, exportGroup, Dict.update, Function.comp_def]
        | none =>
          dsimp only
          obtain ⟨rs, e, hs⟩ := stream_error hr
          rw [hs]
          obtain ⟨h1, h2⟩ := export_json_iff [⟨[], [], (rs.map (.ok : Receipt → Res Receipt) ++ [Except.error e]).map fun r : Res Receipt =>
            r.map fun r : Receipt => r.toJWS c!"R1"⟩] none
          have hf : firstException [⟨[], [], (rs.map (.ok : Receipt → Res Receipt) ++ [Except.error e]).map fun r : Res Receipt =>
              r.map fun r : Receipt => r.toJWS c!"R1"⟩] none = some e := by
            have := findErr_ok (rs.map fun r => r.toJWS c!"R1") [.error e]
            simp only [List.map_map, Function.comp_def] at this
            simp only [firstException, List.flatMap_cons, List.flatMap_nil, List.append_nil, Option.or_none, List.map_append,
              List.map_map, Function.comp_def, Except.map, List.map_cons, List.map_nil]
            rw [this]
            rfl
          rw [hf] at h1 h2
          exact ⟨_, e, Prod.ext rfl h1, fun h => by simpa using h2.mp h⟩

end

end RKSV
