import Mathlib.SetTheory.Cardinal.Finite
import Verif.Proof.Privacy
import Verif.Props.ExampleSession

/-!
# C52: what the evaluator sees does not depend on the secret inputs

`Verif.Spec.Privacy` defines the garbler's random choices (`Coins`), the evaluator's `View` and when
the random choices are `Good`.
-/

namespace TinyGarble.Props
open TinyGarble Spec

/-- C52. Take two inputs that agree on the public parts and on the values of the revealed wires. Then
the good random choices for the one and for the other correspond one to one, such that the
evaluator's view is the same for corresponding choices: its labels, all garbled tables it receives
in cycles `0 … n`, the decoding bits, and the cipher at all points but the hidden ones. -/
theorem C52_same_view {P : Setting} {n : Nat} (wf : WF P.c) (hg : GFresh P.gst0) {x x' : Inputs}
    (hx : x.pInit = P.pInit ∧ x.pInput = P.pInput) (hx' : x'.pInit = P.pInit ∧ x'.pInput = P.pInput)
    {v v' : Nat → Nat → Bool} (hv : Solves P.c x v) (hv' : Solves P.c x' v') {reveal : Nat → Nat → Prop}
    (hr : ∀ k ≤ n, ∀ w, OutWire P.c w → reveal k w → v k w = v' k w) :
    ∃ φ : {ω : Coins P.c n // P.Good v ω} ≃ {ω : Coins P.c n // P.Good v' ω},
      ∀ ω, P.view x' v' reveal (φ ω).1 = P.view x v reveal ω.1 := by
  have A := fun (ω : Coins P.c n) (h : P.Good v ω) => shiftCoins_spec wf hg hx hx' hv hv' hr h
  have B := fun (ω : Coins P.c n) (h : P.Good v' ω) => shiftCoins_spec wf hg hx' hx hv' hv
    (fun k hk w hw h => (hr k hk w hw h).symm) h
  exact ⟨⟨fun ω => ⟨_, (A ω.1 ω.2).1⟩, fun ω => ⟨_, (B ω.1 ω.2).1⟩,
    fun ω => Subtype.ext (A ω.1 ω.2).2.2, fun ω => Subtype.ext (B ω.1 ω.2).2.2⟩, fun ω => (A ω.1 ω.2).2.1⟩

/-- There are finitely many random choices, so that counting them is meaningful. -/
instance coins_finite (c : Circuit) (n : Nat) : Finite (Coins c n) := by
  have : Finite Block := Finite.of_injective BitVec.toFin fun a b h => by
    cases a; cases b; cases h; rfl
  refine Finite.of_injective (fun ω : Coins c n => (ω.R, ω.init, ω.input, ω.cipher)) ?_
  intro a b h
  cases a; cases b
  simpa using h

/-- C52, counted: whatever test is applied to the view, as many good random choices pass it for the
one input as for the other. In particular there are as many good random choices. -/
theorem C52_no_test_distinguishes {P : Setting} {n : Nat} (wf : WF P.c) (hg : GFresh P.gst0) {x x' : Inputs}
    (hx : x.pInit = P.pInit ∧ x.pInput = P.pInput) (hx' : x'.pInit = P.pInit ∧ x'.pInput = P.pInput)
    {v v' : Nat → Nat → Bool} (hv : Solves P.c x v) (hv' : Solves P.c x' v') {reveal : Nat → Nat → Prop}
    (hr : ∀ k ≤ n, ∀ w, OutWire P.c w → reveal k w → v k w = v' k w) (test : View P.c n → Prop) :
    Nat.card {ω : Coins P.c n // P.Good v ω ∧ test (P.view x v reveal ω)}
      = Nat.card {ω : Coins P.c n // P.Good v' ω ∧ test (P.view x' v' reveal ω)} := by
  obtain ⟨φ, hφ⟩ := C52_same_view (n := n) wf hg hx hx' hv hv' hr
  apply Nat.card_congr
  refine ⟨fun ω => ⟨(φ ⟨ω.1, ω.2.1⟩).1, (φ ⟨ω.1, ω.2.1⟩).2, ?_⟩,
    fun ω => ⟨(φ.symm ⟨ω.1, ω.2.1⟩).1, (φ.symm ⟨ω.1, ω.2.1⟩).2, ?_⟩, ?_, ?_⟩
  · rw [hφ]; exact ω.2.2
  · have := hφ (φ.symm ⟨ω.1, ω.2.1⟩)
    rw [φ.apply_symm_apply] at this
    rw [← this]; exact ω.2.2
  · intro ω; apply Subtype.ext; simp
  · intro ω; apply Subtype.ext; simp

/-! ### Example: the serial adder on 5 + 7 and on 6 + 6 -/

def exSetting : Setting := ⟨exCircuit, 0, 0, exS.fan0, exS.gst0, true⟩
def exX' : Inputs := ⟨0, 0, 0, 0, 0b110, 0b110⟩
def exCoins : Coins exSetting.c 2 :=
  ⟨exR, fun _ => 0, fun cid i => (exPair (3 + 2 * cid + i)).label0, exEnc⟩
def exV (x : Inputs) : Nat → Nat → Bool := plainWires exCircuit x fun _ => false

theorem exHidden : exSetting.hidden exCoins (exV exX) =
    [0xdaa66d2c7ddf7441dad6412116c9589b#128, 0x78dde6e5fd29f057ce73018173b720d1#128,
     0x052136e7ecdfa183d03b9799400f24e2#128, 0xb54cda58fbbee882b5ac82422d92b13b#128,
     0xa259bac787ca84ef77a343a3fd365831#128, 0xafc0838dc0713e8290b7b4d174c6c3b1#128,
     0xba9ac53f98982c66d17b3210f5040c51#128, 0xfc2d5b3f5a8a34153427e3d39c305a41#128,
     0x538454127b09649ba94942a28a807977#128, 0xf1bbcdcbfa53e0ad9ce60302e76e41ad#128,
     0xb00bcfa111f149db279b17d8fd45f532#128, 0xcab7616424f9256794678216a9ca567f#128,
     0x2abb024d37d9169f2d08126b40b6c066#128, 0x39687a191ff88a4f299a4660644d406c#128] := by
  decide +kernel

theorem exPoints0 : exSetting.points exCoins (exV exX) false 0 =
    [0xc8923b54ed74b9aec8e2175986629574#128, 0x6ae9b09d6d823db8dc4757f9e31ced3e#128] := by
  decide +kernel

theorem exPoints1 : exSetting.points exCoins (exV exX) false 1 =
    [0x1715609f7c746c6cc20fc1e1d0a4e90d#128, 0xa7788c206b15256da798d43abd397cd4#128,
     0xb06decbf17614900659715db6d9d95de#128, 0xbdf4d5f550daf36d8283e2a9e46d0e5e#128,
     0xa8ae93470833e189c34f646865afc1be#128, 0xee190d47ca21f9fa2613b5ab0c9b97ae#128] := by
  decide +kernel

theorem exPoints2 : exSetting.points exCoins (exV exX) false 2 =
    [0x41b0026aeba2a974bb7d14da1a2bb498#128, 0xe38f9bb36af82d428ed2557a77c58c42#128,
     0xa23f99d9815a843435af41a06dee38dd#128, 0xd883371cb452e8888653d46e39619b90#128,
     0x388f5435a772db703f3c4413d01d0d89#128, 0x2b5c2c618f5347a03bae1018f4e68d83#128] := by
  decide +kernel

theorem separate_of {L L' : List Block} (h : (L.all fun p => !L'.contains p) = true) : ∀ p ∈ L, p ∉ L' := by
  simpa using h

theorem exCoins_good : exSetting.Good (exV exX) exCoins where
  odd := by decide
  noCollision := by
    intro k hk
    have : k = 0 ∨ k = 1 ∨ k = 2 := by omega
    rcases this with rfl | rfl | rfl <;> exact checkG_sound (by decide +kernel)
  distinct := by rw [exHidden]; decide +kernel
  separate := by
    intro k hk
    have : k = 0 ∨ k = 1 ∨ k = 2 := by omega
    rw [exHidden]
    rcases this with rfl | rfl | rfl
    · rw [exPoints0]; exact separate_of (by decide +kernel)
    · rw [exPoints1]; exact separate_of (by decide +kernel)
    · rw [exPoints2]; exact separate_of (by decide +kernel)

/-- The hypotheses are met: both additions give the same output bits, the inputs differ, and there
are good random choices, with 14 hidden points. -/
example : WF exSetting.c ∧ GFresh exSetting.gst0
    ∧ (exX.pInit = exSetting.pInit ∧ exX.pInput = exSetting.pInput)
    ∧ (exX'.pInit = exSetting.pInit ∧ exX'.pInput = exSetting.pInput)
    ∧ Solves exSetting.c exX (exV exX) ∧ Solves exSetting.c exX' (exV exX')
    ∧ (∀ k ≤ 2, ∀ w, OutWire exSetting.c w → exV exX k w = exV exX' k w)
    ∧ exSetting.Good (exV exX) exCoins ∧ (exSetting.hidden exCoins (exV exX)).length = 14
    ∧ secretInputBit exSetting.c exX 0 0 ≠ secretInputBit exSetting.c exX' 0 0 := by
  refine ⟨exCircuit_wf, fun _ => rfl, ⟨rfl, rfl⟩, ⟨rfl, rfl⟩, plainWires_solves exCircuit_wf _ _,
    plainWires_solves exCircuit_wf _ _, ?_, exCoins_good, by rw [exHidden]; rfl, by decide⟩
  intro k hk w hw
  have hw4 : w = 4 := by
    rcases hw with ⟨i, _, h⟩ | ⟨h, _⟩
    · exact h.symm
    · exact absurd h (by decide)
  subst hw4
  have : k = 0 ∨ k = 1 ∨ k = 2 := by omega
  rcases this with rfl | rfl | rfl <;> decide +kernel

end TinyGarble.Props
