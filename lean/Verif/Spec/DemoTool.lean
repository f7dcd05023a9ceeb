import Verif.Model.DemoTool
import Verif.Spec.EndToEnd
/-
Specification vocabulary for demo.py.
-/
namespace RKSV

section
variable [PyEnv]

/-- `round(random.uniform(-1000, 1000), 2)`: at most a thousand euros, in whole cents. -/
def RandomSum (x : PyFloat) : Prop := ∃ c, InCents x c ∧ |c| ≤ 100000

/-- What the random numbers and the clock may be for `num` receipts: anything in the range asked for, and a clock that is not put
back. -/
structure Draws (draws : Nat → Draw) (num : Nat) : Prop where
  sumA : ∀ i < num, RandomSum (draws i).sumA
  sumB : ∀ i < num, RandomSum (draws i).sumB
  sumC : ∀ i < num, RandomSum (draws i).sumC
  sumD : ∀ i < num, RandomSum (draws i).sumD
  sumE : ∀ i < num, RandomSum (draws i).sumE
  date : ∀ i < num, (draws i).now.Valid ∧ 1000 ≤ (draws i).now.year
  clock : ∀ i j, i < j → j < num → ¬Earlier (draws j).now (draws i).now

/-- The key store has the key of the signature system. -/
inductive HasKey (ks : KeyStore) : SigSystem → Prop
  | cert (cert : Cert) (priv : PrivKey) (hk : ks.getKey (natHex (serial cert).natAbs) = some (pubOf priv)) :
      HasKey ks (demoOpen cert priv)
  | key (id : Str) (priv : PrivKey) (hid : WithSuffix CompanyId id) (hu : '_' ∉ id)
      (hk : ks.getKey id = some (pubOf priv)) : HasKey ks (demoClosed id priv)

end

end RKSV
