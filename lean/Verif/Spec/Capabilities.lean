import Verif.Model.Capabilities
/-!
# Which events get through

Specification: the kernel passes on an event of a virtual device when its type and its code were announced (`input_get_disposition` in `drivers/input/input.c`); and what a device
can send is what its bits say.
-/
namespace KM

/-- The device can send events of this type with this code -/
def DevInfo.Sends (i : DevInfo) (type code : Nat) : Prop :=
  (type = 1 ∧ i.key.testBit code = true) ∨ (type = 2 ∧ i.rel.testBit code = true) ∨ (type = 3 ∧ i.abs.testBit code = true) ∨
  (type = 5 ∧ i.sw.testBit code = true) ∨ (type = 4 ∧ i.msc.testBit code = true)

instance (i : DevInfo) (t c : Nat) : Decidable (i.Sends t c) := by unfold DevInfo.Sends; infer_instance

/-- The codes are the ones of `input-event-codes.h` (`KEY_MAX` is 0x2ff, all other codes are less than 64), and the range of each absolute axis is known -/
structure DevInfo.Valid (i : DevInfo) : Prop where
  rel : i.rel < 2 ^ 64
  abs : i.abs < 2 ^ 64
  sw : i.sw < 2 ^ 64
  msc : i.msc < 2 ^ 64
  prop : i.prop < 2 ^ 64
  axes : ∀ c, i.abs.testBit c = true → (i.absInfo.lookup c).isSome

/-- The kernel passes on the event of a virtual device -/
def Announced.Passes (a : Announced) (type code : Nat) : Prop :=
  type = 0 ∨ (type ∈ a.types ∧
    ((type = 1 ∧ code ∈ a.keys) ∨ (type = 2 ∧ code ∈ a.rels) ∨ (type = 3 ∧ code ∈ a.abss.map (·.1)) ∨ (type = 5 ∧ code ∈ a.sws) ∨ (type = 4 ∧ code ∈ a.mscs)))

instance (a : Announced) (t c : Nat) : Decidable (a.Passes t c) := by unfold Announced.Passes; infer_instance

end KM
