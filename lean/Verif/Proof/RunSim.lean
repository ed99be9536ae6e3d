import Verif.Proof.EvalSim
import Verif.Spec.Run

/-! Simulation of several clock cycles. -/

namespace TinyGarble
open Spec

/-! ### Assigning values to a range of fresh atoms -/

def extendRange (gl : Nat → Block) (base : Nat) (v : Nat → Block) : Nat → Nat → Block
  | 0 => gl
  | n + 1 => extend (extendRange gl base v n) (base + n) (v n)

theorem extendRange_add {gl : Nat → Block} (h : Additive gl) (base : Nat) (v : Nat → Block) (n : Nat) :
    Additive (extendRange gl base v n) := by
  induction n with
  | zero => exact h
  | succ n ih => exact ih.extend _ _

theorem extendRange_old (gl : Nat → Block) {base f : Nat} (v : Nat → Block) (n : Nat) (hf : f < 2 ^ base) :
    extendRange gl base v n f = gl f := by
  induction n with
  | zero => rfl
  | succ n ih =>
    unfold extendRange
    rw [extend_old _ _ (Nat.lt_of_lt_of_le hf (Nat.pow_le_pow_right (by omega) (by omega))), ih]

theorem extendRange_new (gl : Nat → Block) (base : Nat) (v : Nat → Block) {n k : Nat} (hk : k < n) :
    extendRange gl base v n (2 ^ (base + k)) = v k := by
  induction n with
  | zero => omega
  | succ n ih =>
    unfold extendRange
    by_cases e : k = n
    · subst e; exact extend_new _ _ _
    · rw [extend_old _ _ (Nat.pow_lt_pow_right (by omega) (by omega)), ih (by omega)]

def extendRangeB (pv : Nat → Bool) (base : Nat) (v : Nat → Bool) : Nat → Nat → Bool
  | 0 => pv
  | n + 1 => extendB (extendRangeB pv base v n) (base + n) (v n)

theorem extendRangeB_add {pv : Nat → Bool} (h : AdditiveB pv) (base : Nat) (v : Nat → Bool) (n : Nat) :
    AdditiveB (extendRangeB pv base v n) := by
  induction n with
  | zero => exact h
  | succ n ih => exact ih.extend _ _

theorem extendRangeB_old (pv : Nat → Bool) {base f : Nat} (v : Nat → Bool) (n : Nat) (hf : f < 2 ^ base) :
    extendRangeB pv base v n f = pv f := by
  induction n with
  | zero => rfl
  | succ n ih =>
    unfold extendRangeB
    rw [extendB_old _ _ (Nat.lt_of_lt_of_le hf (Nat.pow_le_pow_right (by omega) (by omega))), ih]

theorem extendRangeB_new (pv : Nat → Bool) (base : Nat) (v : Nat → Bool) {n k : Nat} (hk : k < n) :
    extendRangeB pv base v n (2 ^ (base + k)) = v k := by
  induction n with
  | zero => omega
  | succ n ih =>
    unfold extendRangeB
    by_cases e : k = n
    · subst e; exact extendB_new _ _ _
    · rw [extendB_old _ _ (Nat.pow_lt_pow_right (by omega) (by omega)), ih (by omega)]

/-- Maps for the atoms of the inputs of cycle `cid`, and of the initial values if `cid = 0`. -/
theorem exists_inputs_map (c : Circuit) (cid : Nat) {gl : Nat → Block} (h : Additive gl) (vi vx : Nat → Block) :
    ∃ gl', Additive gl' ∧ (0 < cid → ∀ f < 2 ^ atomBase c cid, gl' f = gl f)
      ∧ (cid = 0 → ∀ k < c.secretInitSize, gl' (2 ^ k) = vi k)
      ∧ (∀ k < c.secretInputSize, gl' (2 ^ atomIn c cid k) = vx k) := by
  by_cases h0 : cid = 0
  · subst h0
    refine ⟨extendRange (extendRange gl 0 vi c.secretInitSize) (atomBase c 0) vx c.secretInputSize,
      extendRange_add (extendRange_add h _ _ _) _ _ _, by omega, ?_, ?_⟩
    · intro _ k hk
      rw [extendRange_old _ _ _ (Nat.pow_lt_pow_right (by omega) (by unfold atomBase; omega))]
      have := extendRange_new gl 0 vi hk
      simpa using this
    · intro k hk
      exact extendRange_new _ _ _ hk
  · refine ⟨extendRange gl (atomBase c cid) vx c.secretInputSize, extendRange_add h _ _ _, ?_,
      by omega, ?_⟩
    · intro _ f hf
      exact extendRange_old _ _ _ hf
    · intro k hk
      exact extendRange_new _ _ _ hk

theorem exists_inputs_mapB (c : Circuit) (cid : Nat) {pv : Nat → Bool} (h : AdditiveB pv) (vi vx : Nat → Bool) :
    ∃ pv', AdditiveB pv' ∧ (0 < cid → ∀ f < 2 ^ atomBase c cid, pv' f = pv f)
      ∧ (cid = 0 → ∀ k < c.secretInitSize, pv' (2 ^ k) = vi k)
      ∧ (∀ k < c.secretInputSize, pv' (2 ^ atomIn c cid k) = vx k) := by
  by_cases h0 : cid = 0
  · subst h0
    refine ⟨extendRangeB (extendRangeB pv 0 vi c.secretInitSize) (atomBase c 0) vx c.secretInputSize,
      extendRangeB_add (extendRangeB_add h _ _ _) _ _ _, by omega, ?_, ?_⟩
    · intro _ k hk
      rw [extendRangeB_old _ _ _ (Nat.pow_lt_pow_right (by omega) (by unfold atomBase; omega))]
      have := extendRangeB_new pv 0 vi hk
      simpa using this
    · intro k hk
      exact extendRangeB_new _ _ _ hk
  · refine ⟨extendRangeB pv (atomBase c cid) vx c.secretInputSize, extendRangeB_add h _ _ _, ?_,
      by omega, ?_⟩
    · intro _ f hf
      exact extendRangeB_old _ _ _ hf
    · intro k hk
      exact extendRangeB_new _ _ _ hk

/-! ### The wires below the gates, symbolically -/

theorem prep_out {c : Circuit} {pInit pInput cid : Nat} {sw : Nat → SWire} {w : Nat}
    (h : w < c.initSize ∨ c.gateLo ≤ w) : symInputs c pInput cid (symDff c pInit cid sw) w = sw w := by
  have hl := layout c
  unfold symInputs symDff
  rw [setRange_out _ _ (by omega), setRange_out _ _ (by omega), setRange_out _ _ (by omega)]

theorem prep_dff {c : Circuit} {pInit pInput cid : Nat} {sw : Nat → SWire} {i : Nat} (hi : i < c.dffSize) :
    symInputs c pInput cid (symDff c pInit cid sw) (c.dffLo + i) =
      if cid = 0 then symDffInit c pInit i
      else fetch c.wireSize (.pub false) (.pub true) (.pub false) sw (c.D i) := by
  have hl := layout c
  unfold symInputs symDff
  rw [setRange_out _ _ (by omega), setRange_out _ _ (by omega), setRange_in _ _ (by omega),
    show c.dffLo + i - c.dffLo = i by omega]

theorem prep_pin {c : Circuit} {pInit pInput cid : Nat} {sw : Nat → SWire} {k : Nat} (hk : k < c.pInput) :
    symInputs c pInput cid (symDff c pInit cid sw) (c.pInputLo + k) =
      .pub (pInput.testBit (cid * c.pInput + k)) := by
  have hl := layout c
  unfold symInputs
  rw [setRange_out _ _ (by omega), setRange_in _ _ (by omega), show c.pInputLo + k - c.pInputLo = k by omega]

theorem prep_sin {c : Circuit} {pInit pInput cid : Nat} {sw : Nat → SWire} {k : Nat} (hk : k < c.secretInputSize) :
    symInputs c pInput cid (symDff c pInit cid sw) (c.gInputLo + k) = .sec (2 ^ atomIn c cid k) false := by
  unfold symInputs
  rw [setRange_in _ _ (by omega), show c.gInputLo + k - c.gInputLo = k by omega]

theorem wire_cases (c : Circuit) (w : Nat) :
    (w < c.initSize ∨ c.gateLo ≤ w) ∨ (∃ i < c.dffSize, w = c.dffLo + i) ∨ (∃ k < c.pInput, w = c.pInputLo + k)
      ∨ (∃ k < c.secretInputSize, w = c.gInputLo + k) := by
  have hl := layout c
  by_cases h1 : w < c.initSize ∨ c.gateLo ≤ w
  · exact Or.inl h1
  · right
    by_cases h2 : c.dffLo ≤ w
    · exact Or.inl ⟨w - c.dffLo, by omega, by omega⟩
    · right
      by_cases h3 : w < c.gInputLo
      · exact Or.inl ⟨w - c.pInputLo, by omega, by omega⟩
      · exact Or.inr ⟨w - c.gInputLo, by omega, by omega⟩

/-- When is an initial flip-flop value secret, and which one? -/
theorem symDffInit_cases (c : Circuit) (pInit i : Nat) :
    (∃ b, symDffInit c pInit i = .pub b) ∨
    (∃ k < c.secretInitSize, c.I i = ((c.pInit + k : Nat) : Int) ∧ symDffInit c pInit i = .sec (2 ^ k) false) := by
  have hl := layout c
  unfold symDffInit
  simp only
  split
  · exact Or.inl ⟨_, rfl⟩
  · split
    · exact Or.inl ⟨_, rfl⟩
    · split
      · rename_i h
        split
        · exact Or.inl ⟨_, rfl⟩
        · right
          exact ⟨(c.I i - c.pInit).toNat, by omega, by omega, rfl⟩
      · exact Or.inl ⟨_, rfl⟩

theorem pInitHi_eq (c : Circuit) : c.pInitHi = c.pInit :=
  Nat.le_antisymm (Nat.le_refl c.pInit) (Nat.le_refl c.pInit)

/-- Labels below the gates (both parties). -/
theorem prep_lab {α : Type} {c : Circuit} (wf : WF c) {pInit pInput cid : Nat} {sw : Nat → SWire}
    (hz : cid = 0 → ∀ w, sw w = .hid)
    (L0 L : Nat → Bool → α) (wires latch initL inL : Nat → α)
    (hb : ∀ w f i, sw w = .sec f i → f < 2 ^ atomBase c cid)
    (hL : 0 < cid → ∀ f < 2 ^ atomBase c cid, ∀ i, L f i = L0 f i)
    (hold : ∀ w < c.wireSize, OnSec (sw w) fun f i => wires w = L0 f i)
    (hinit : cid = 0 → ∀ k < c.secretInitSize, initL k = L (2 ^ k) false)
    (hin : ∀ k < c.secretInputSize, inL k = L (2 ^ atomIn c cid k) false) :
    ∀ w < c.wireSize, OnSec (symInputs c pInput cid (symDff c pInit cid sw) w) fun f i =>
      setRange (if cid = 0 then setRange wires c.dffLo c.dffSize
          (fun i => dffInitLabel c initL i (wires (c.dffLo + i)))
        else setRange wires c.dffLo c.dffSize
          (setRange latch 0 c.dffSize (fun i => dffLatchLabel c wires i (latch i))))
        c.gInputLo c.secretInputSize inL w = L f i := by
  have hl := layout c
  have hws := wireSize_eq c
  have hold' : ∀ w < c.wireSize, OnSec (sw w) fun f i => wires w = L f i := by
    intro w hw
    by_cases h0 : cid = 0
    · rw [hz h0]; trivial
    · have h1 := hold w hw
      have h2 := hb w
      revert h1 h2
      cases sw w with
      | sec f i => intro h1 h2; simp only [onSec_sec] at *; rw [h1, hL (by omega) f (h2 f i rfl)]
      | _ => intro _ _; trivial
  intro w hw
  rcases wire_cases c w with h | ⟨i, hi, rfl⟩ | ⟨k, hk, rfl⟩ | ⟨k, hk, rfl⟩
  · rw [prep_out h, setRange_out _ _ (by omega)]
    have := hold' w hw
    split
    · rw [setRange_out _ _ (by omega)]; exact this
    · rw [setRange_out _ _ (by omega)]; exact this
  · rw [prep_dff hi, setRange_out _ _ (by omega)]
    split
    · rename_i h0
      rw [setRange_in _ _ (by omega), show c.dffLo + i - c.dffLo = i by omega]
      rcases symDffInit_cases c pInit i with ⟨b, e⟩ | ⟨k, hk, e1, e2⟩
      · rw [e]; trivial
      · rw [e2]
        simp only [onSec_sec]
        unfold dffInitLabel
        simp only [e1, pInitHi_eq]
        rw [if_pos (by omega), show ((((c.pInit + k : Nat) : Int)) - (c.pInit : Int)).toNat = k by omega]
        exact hinit h0 k hk
    · rename_i h0
      rw [setRange_in _ _ (by omega), show c.dffLo + i - c.dffLo = i by omega, setRange_in _ _ (by omega)]
      simp only [Nat.sub_zero]
      unfold dffLatchLabel
      rcases fetch_readable (wf.D i hi) (Nat.le_refl _) (SWire.pub false) (.pub true) (.pub false) sw
        with ⟨h1, e⟩ | ⟨h1, h2, h3, e⟩
      · rw [e]
        split
        · trivial
        · split <;> trivial
      · rw [e]
        rcases fetch_readable (wf.D i hi) (Nat.le_refl _) (latch i) (latch i) (latch i) wires
          with ⟨h1', _⟩ | ⟨_, _, _, e'⟩
        · omega
        · rw [e']; exact hold' _ h3
  · rw [prep_pin hk]; trivial
  · rw [prep_sin hk, setRange_in _ _ (by omega), show c.gInputLo + k - c.gInputLo = k by omega]
    exact hin k hk

/-- Values below the gates (both parties). `tv` is the party's representation of values. -/
theorem prep_val {c : Circuit} {pInit pInput cid : Nat} {sw : Nat → SWire} (mark : Bool)
    (tv : SWire → WVal) (hpub : ∀ b, tv (.pub b) = .pub b) (hsec : ∀ f, tv (.sec f false) = .sec false)
    (hhid : tv .hid = .sec false)
    (hsin : ∀ k < c.secretInputSize, sw (c.gInputLo + k) = .hid ∨ ∃ f, sw (c.gInputLo + k) = .sec f false)
    {val latchVal : Nat → WVal} (hold : ∀ w < c.wireSize, val w = tv (sw w)) :
    let val1 := if cid = 0 then setRange val c.dffLo c.dffSize (dffInitVal c pInit)
        else setRange val c.dffLo c.dffSize (setRange latchVal 0 c.dffSize (dffLatchVal c val))
    let val2 := setPublicInputs c pInput cid val1
    ∀ w < c.wireSize, (if mark then setRange val2 c.gInputLo c.secretInputSize (fun _ => .sec false) else val2) w
      = tv (symInputs c pInput cid (symDff c pInit cid sw) w) := by
  have hl := layout c
  have hws := wireSize_eq c
  intro val1 val2 w hw
  have out1 : (w < c.dffLo ∨ c.gateLo ≤ w) → val1 w = val w := by
    intro h
    simp only [val1]
    split
    · exact setRange_out _ _ (by omega)
    · exact setRange_out _ _ (by omega)
  rcases wire_cases c w with h | ⟨i, hi, rfl⟩ | ⟨k, hk, rfl⟩ | ⟨k, hk, rfl⟩
  · rw [prep_out h, ← hold w hw, ← out1 (by omega)]
    have e2 : val2 w = val1 w := by
      simp only [val2]; unfold setPublicInputs; exact setRange_out _ _ (by omega)
    split
    · rw [setRange_out _ _ (by omega), e2]
    · exact e2
  · rw [prep_dff hi]
    have e2 : val2 (c.dffLo + i) = val1 (c.dffLo + i) := by
      simp only [val2]; unfold setPublicInputs; exact setRange_out _ _ (by omega)
    have e1 : val1 (c.dffLo + i) = tv (if cid = 0 then symDffInit c pInit i
        else fetch c.wireSize (.pub false) (.pub true) (.pub false) sw (c.D i)) := by
      simp only [val1]
      split
      · rw [setRange_in _ _ (by omega), show c.dffLo + i - c.dffLo = i by omega]
        unfold dffInitVal symDffInit CONST_ZERO CONST_ONE
        simp only [pInitHi_eq]
        split
        · exact (hpub _).symm
        · split
          · exact (hpub _).symm
          · split
            · split
              · exact (hpub _).symm
              · exact (hsec _).symm
            · exact (hpub _).symm
      · rw [setRange_in _ _ (by omega), show c.dffLo + i - c.dffLo = i by omega, setRange_in _ _ (by omega)]
        simp only [Nat.sub_zero]
        unfold dffLatchVal
        rw [← fetch_map tv hold, hpub, hpub]
    rw [← e1, ← e2]
    split
    · exact setRange_out _ _ (by omega)
    · rfl
  · rw [prep_pin hk, hpub]
    have e2 : val2 (c.pInputLo + k) = .pub (pInput.testBit (cid * c.pInput + k)) := by
      simp only [val2]; unfold setPublicInputs
      rw [setRange_in _ _ (by omega), show c.pInputLo + k - c.pInputLo = k by omega]
    split
    · rw [setRange_out _ _ (by omega), e2]
    · exact e2
  · rw [prep_sin hk, hsec]
    have e2 : val2 (c.gInputLo + k) = val (c.gInputLo + k) := by
      rw [← out1 (by omega)]
      simp only [val2]; unfold setPublicInputs; exact setRange_out _ _ (by omega)
    split
    · rw [setRange_in _ _ (by omega)]
    · rw [e2, hold _ hw]
      rcases hsin k hk with e | ⟨f, e⟩ <;> rw [e]
      · exact hhid
      · exact hsec f

/-- Plain values below the gates. -/
theorem prep_plain {c : Circuit} (wf : WF c) {inp : Inputs} {cid : Nat} {sw : Nat → SWire} {xprev x : Nat → Bool}
    {pv0 pv : Nat → Bool} (hx : PlainEqs c inp cid xprev x)
    (h : PSim c pv0 c.wireSize sw xprev) (hadd : AdditiveB pv)
    (hb : ∀ w f i, sw w = .sec f i → f < 2 ^ atomBase c cid)
    (hold : 0 < cid → ∀ f < 2 ^ atomBase c cid, pv f = pv0 f)
    (hinit : cid = 0 → ∀ k < c.secretInitSize, pv (2 ^ k) = secretInitBit c inp k)
    (hin : ∀ k < c.secretInputSize, pv (2 ^ atomIn c cid k) = secretInputBit c inp cid k) :
    PSim c pv c.gateLo (symInputs c inp.pInput cid (symDff c inp.pInit cid sw)) x := by
  have hl := layout c
  have hws := wireSize_eq c
  have key : ∀ w, c.initSize ≤ w → w < c.gateLo →
      OnPub (symInputs c inp.pInput cid (symDff c inp.pInit cid sw) w) (fun b => x w = b) ∧
      OnSec (symInputs c inp.pInput cid (symDff c inp.pInit cid sw) w) (fun f i => x w = (pv f ^^ i)) := by
    intro w h1 h2
    rcases wire_cases c w with h' | ⟨i, hi, rfl⟩ | ⟨k, hk, rfl⟩ | ⟨k, hk, rfl⟩
    · omega
    · rw [prep_dff hi, hx.dff i hi]
      split
      · rename_i h0
        rcases symDffInit_cases c inp.pInit i with ⟨b, e⟩ | ⟨k, hk, e1, e2⟩
        · rw [e]
          refine ⟨?_, trivial⟩
          simp only [onPub_pub]
          unfold symDffInit at e
          unfold plainDffInit CONST_ZERO CONST_ONE
          simp only [pInitHi_eq] at e ⊢
          by_cases c1 : c.I i = -2
          · rw [if_pos c1] at e ⊢; simpa using e
          rw [if_neg c1] at e ⊢
          by_cases c2 : c.I i = -3
          · rw [if_pos c2] at e ⊢; simpa using e
          rw [if_neg c2] at e ⊢
          by_cases c3 : 0 ≤ c.I i ∧ c.I i < (c.initSize : Int)
          · rw [if_pos c3] at e ⊢
            by_cases c4 : c.I i < (c.pInit : Int)
            · rw [if_pos c4] at e ⊢; simpa using e
            · rw [if_neg c4] at e; simp at e
          · rw [if_neg c3] at e ⊢; simpa using e
        · rw [e2]
          refine ⟨trivial, ?_⟩
          simp only [onSec_sec, hinit h0 k hk]
          unfold plainDffInit secretInitBit CONST_ZERO CONST_ONE
          simp only [pInitHi_eq, e1]
          have hg : c.gInitHi = c.pInit + c.gInit := by unfold Circuit.gInitHi; rfl
          rw [if_neg (by omega), if_neg (by omega), if_pos (by omega), if_neg (by omega), hg]
          by_cases c5 : k < c.gInit
          · rw [if_pos (by omega), if_pos c5,
              show (((c.pInit + k : Nat) : Int) - (c.pInit : Int)).toNat = k by omega]
            simp
          · rw [if_neg (by omega), if_neg c5,
              show (((c.pInit + k : Nat) : Int) - ((c.pInit + c.gInit : Nat) : Int)).toNat = k - c.gInit by omega]
            simp
      · rename_i h0
        have := fetch_plain h (wf.D i hi) (Nat.le_refl _) (bad := .pub false) (by simp) (by simp)
        have hbd := fetch_bound (c := c) hb (bad := .pub false) (by simp) (c.D i)
        revert this hbd
        generalize fetch c.wireSize (SWire.pub false) (.pub true) (.pub false) sw (c.D i) = o
        intro this hbd
        cases o with
        | pub b => exact ⟨this.1 b rfl, trivial⟩
        | sec f j =>
          refine ⟨trivial, ?_⟩
          simp only [onSec_sec]
          rw [hold (by omega) f (hbd f j rfl)]
          exact this.2 f j rfl
        | hid => exact ⟨trivial, trivial⟩
    · rw [prep_pin hk]
      refine ⟨?_, trivial⟩
      have := hx.input k (by unfold Circuit.inputSize; omega)
      simp only [onPub_pub]
      rw [this]
      unfold plainInput
      simp only
      rw [if_pos (by omega)]
      congr 1
      omega
    · rw [prep_sin hk]
      refine ⟨trivial, ?_⟩
      have hin' : c.inputSize = c.pInput + c.secretInputSize := by
        unfold Circuit.inputSize Circuit.secretInputSize; omega
      have := hx.input (c.pInput + k) (by omega)
      rw [show c.pInputLo + (c.pInput + k) = c.gInputLo + k by omega] at this
      simp only [onSec_sec]
      rw [this, hin k hk]
      have he : c.eInputLo = c.gInputLo + c.gInput := by unfold Circuit.eInputLo; rfl
      unfold plainInput secretInputBit
      simp only
      rw [if_neg (by omega)]
      by_cases c5 : k < c.gInput
      · rw [if_pos (by omega), if_pos c5]
        simp only [Bool.xor_false]
        congr 1
        omega
      · rw [if_neg (by omega), if_neg c5]
        simp only [Bool.xor_false]
        congr 1
        omega
  exact ⟨hadd, fun w h1 h2 => (key w h1 h2).1, fun w h1 h2 => (key w h1 h2).2⟩

end TinyGarble
