import Verif.Proof.Program
import Verif.Proof.EvalCheck

/-! Superfluous gates. The evaluator computes the label of a superfluous gate with random rows instead of a
table. For given secret inputs and given rows there is a label the garbler could have had for that gate
such that the evaluator's label represents the value of the gate. With these labels instead of the
garbler's, the labels of both parties are related on all wires; and for almost all random choices of the
garbler these labels do not collide. -/

namespace TinyGarble
open Spec

theorem evalHalfGates_shift {enc enc' : Block → Block} (cid gid : Nat) (A B t0 t1 : Block) {d : Block}
    (a : enc' (A ^^^ tweak0 cid gid) = enc (A ^^^ tweak0 cid gid) ^^^ d)
    (b : enc' (B ^^^ tweak1 cid gid) = enc (B ^^^ tweak1 cid gid)) :
    evalHalfGates enc' cid gid A B t0 t1 = evalHalfGates enc cid gid A B t0 t1 ^^^ d := by
  have h0 : hashBlock enc' A (tweak0 cid gid) = hashBlock enc A (tweak0 cid gid) ^^^ d := by
    unfold hashBlock xorBlock; rw [a, ← BitVec.xor_assoc]
  have h1 : hashBlock enc' B (tweak1 cid gid) = hashBlock enc B (tweak1 cid gid) := by
    unfold hashBlock xorBlock; rw [b]
  unfold evalHalfGates
  simp only [h0, h1]
  (repeat' split) <;> simp only [xorBlock] <;> bxor

section
variable (P : Setting) {n : Nat} (pv : Nat → Bool) (row : Nat → Nat → Block × Block)

/-- The label for value 0 of the output of gate `g` in cycle `k`: the garbler's when the table is sent,
otherwise the one that fits what the evaluator computes with the rows `row k g`. -/
def outLabel (enc : Block → Block) (gl : Nat → Block) (R : Block) (k g f : Nat) (j : Bool) (f' : Nat) (j' : Bool) :
    Block :=
  if 0 < (P.sym k).fan g then
    (garbleHalfGates enc R k g (P.c.gate g).type (gPair gl R f j) (gPair gl R f' j')).1.label0
  else evalHalfGates enc k g (gl f ^^^ scale (pv f) R) (gl f' ^^^ scale (pv f') R) (row k g).1 (row k g).2
    ^^^ scale (pv (2 ^ atomGate P.c k g)) R

variable {P}

open Classical in
/-- By how much the cipher is to be changed for gate `g` in cycle `k`; for the other gates the unused
label. -/
noncomputable def virtShift (ω : Draw (P.atoms n)) (F : Block → Block) (k g : Nat) : Block :=
  if Slot P k g then
    match symIn0 P.c (P.sym k).sw (P.c.gate g), symIn1 P.c (P.sym k).sw (P.c.gate g) with
    | .sec f j, .sec f' j' => outLabel P pv row F ω.gl ω.1.1 k g f j f' j' ^^^ ω.gl (2 ^ atomGate P.c k g)
    | _, _ => 0#128
  else total ω.2 (atomGate P.c k g)

/-- The random choices that lead to the labels `ω`. -/
noncomputable def virtProgram (ω : Draw (P.atoms n)) (F : Block → Block) : Coins P.c n where
  R := ω.1.1
  init := fun k => total ω.2 k
  input := fun cid k => total ω.2 (atomIn P.c cid k)
  cipher := fun p => F p ^^^ change ω (virtShift pv row ω F) p

/-- The labels `ω` belong to the random choices `q`. -/
structure VSim (q : Coins P.c n) (ω : Draw (P.atoms n)) : Prop where
  R : q.R = ω.1.1
  init : ∀ k (h : k < P.c.secretInitSize), q.init ⟨k, h⟩ = ω.gl (2 ^ k)
  input : ∀ cid (hc : cid < n + 1) k (hk : k < P.c.secretInputSize), q.input ⟨cid, hc⟩ ⟨k, hk⟩ = ω.gl (2 ^ atomIn P.c cid k)
  slot : ∀ k ≤ n, ∀ g ∈ (P.sym k).tabs, ∀ f j f' j', symIn0 P.c (P.sym k).sw (P.c.gate g) = .sec f j →
    symIn1 P.c (P.sym k).sw (P.c.gate g) = .sec f' j' →
    outLabel P pv row q.cipher ω.gl q.R k g f j f' j' = ω.gl (2 ^ atomGate P.c k g)

variable {pv row}

theorem virtProgram_sim (wf : WF P.c) {ω : Draw (P.atoms n)} (L : Lucky ω) (F : Block → Block) :
    VSim pv row (virtProgram pv row ω F) ω := by
  have hsf : ∀ g < P.c.gateSize, P.sfan g = totalFan P.c.gateSize (fun j => cnt P.c j g) + extUses P.c g :=
    fun g hg => fillFanout_counts wf P.fan0 hg
  refine ⟨rfl, ?_, ?_, ?_⟩
  · intro k hk
    have hlt : k < P.atoms n := by unfold Spec.Setting.atoms atomBase; omega
    rw [show ω.gl (2 ^ k) = total ω.2 k from lin_pow _ hlt]
    rfl
  · intro cid hc k hk
    rw [show ω.gl (2 ^ atomIn P.c cid k) = total ω.2 (atomIn P.c cid k) from lin_pow _ (atomIn_lt P.c (by omega) hk)]
    rfl
  · intro k hk g hi f j f' j' e e'
    have hk' : k < n + 1 := by omega
    have hlt := (symRun_inv wf hsf P.pInit P.pInput k).tabLt g hi
    have slot : Slot P k g := ⟨hi, f, j, f', j', e, e'⟩
    have p0 := point_first (n := n) ω.gl ω.1.1 hk' hlt e
    have p1 := point_second (n := n) ω.gl ω.1.1 hk' hlt e'
    have c0 : ∀ b, (virtProgram pv row ω F).cipher (labelOf (gPair ω.gl ω.1.1 f j) b ^^^ tweak0 k g)
        = F (labelOf (gPair ω.gl ω.1.1 f j) b ^^^ tweak0 k g) ^^^ virtShift pv row ω F k g := by
      intro b
      show F _ ^^^ change ω (virtShift pv row ω F) _ = _
      rw [p0 b, change_first L _ slot rfl]
    have c1 : ∀ b, (virtProgram pv row ω F).cipher (labelOf (gPair ω.gl ω.1.1 f' j') b ^^^ tweak1 k g)
        = F (labelOf (gPair ω.gl ω.1.1 f' j') b ^^^ tweak1 k g) := by
      intro b
      show F _ ^^^ change ω (virtShift pv row ω F) _ = _
      rw [p1 b, change_second L _ slot rfl, BitVec.xor_zero]
    have key : outLabel P pv row (virtProgram pv row ω F).cipher ω.gl ω.1.1 k g f j f' j'
        = outLabel P pv row F ω.gl ω.1.1 k g f j f' j' ^^^ virtShift pv row ω F k g := by
      unfold outLabel
      split
      · exact garbleHalfGates_shift ω.1.1 k g _ _ _ (c0 false) (c0 true) (c1 false) (c1 true)
      · have l0 : labelOf (gPair ω.gl ω.1.1 f j) (j ^^ pv f) = ω.gl f ^^^ scale (pv f) ω.1.1 := by
          rw [labelOf_gPair, scale_xor]; bxor
        have l1 : labelOf (gPair ω.gl ω.1.1 f' j') (j' ^^ pv f') = ω.gl f' ^^^ scale (pv f') ω.1.1 := by
          rw [labelOf_gPair, scale_xor]; bxor
        have d0 := c0 (j ^^ pv f)
        have d1 := c1 (j' ^^ pv f')
        rw [l0] at d0; rw [l1] at d1
        rw [evalHalfGates_shift k g _ _ _ _ d0 d1]
        bxor
    show outLabel P pv row (virtProgram pv row ω F).cipher ω.gl ω.1.1 k g f j f' j' = _
    rw [key]
    unfold virtShift
    rw [if_pos slot, e, e']
    simp only
    rw [xor_cancel_left]

/-- The inputs of a gate are older than its output. -/
theorem slot_bound (wf : WF P.c) {k g : Nat} (hg : g < P.c.gateSize) :
    (∀ f j, symIn0 P.c (P.sym k).sw (P.c.gate g) = .sec f j → f < 2 ^ atomGate P.c k g)
    ∧ (∀ f j, symIn1 P.c (P.sym k).sw (P.c.gate g) = .sec f j → f < 2 ^ atomGate P.c k g) := by
  have hsf : ∀ g < P.c.gateSize, P.sfan g = totalFan P.c.gateSize (fun j => cnt P.c j g) + extUses P.c g :=
    fun g hg => fillFanout_counts wf P.fan0 hg
  have one : ∀ s : SState, SPre P.c k s.sw →
      (∀ f j, symIn0 P.c (symCycle P.c P.sfan P.pInit P.pInput k s).sw (P.c.gate g) = .sec f j → f < 2 ^ atomGate P.c k g)
      ∧ (∀ f j, symIn1 P.c (symCycle P.c P.sfan P.pInit P.pInput k s).sw (P.c.gate g) = .sec f j →
        f < 2 ^ atomGate P.c k g) := by
    intro s hs
    have inv := symLoop_inv wf (symPrep_inv wf hsf (pInit := P.pInit) (pInput := P.pInput) hs) (n := g) (by omega)
    have stS : ∀ w < P.c.gateLo + g, (symCycle P.c P.sfan P.pInit P.pInput k s).sw w
        = (forLoop (symStep P.c k) g (symPrep P.c P.sfan P.pInit P.pInput k s)).sw w := fun w hw =>
      forLoop_stable (symStep P.c k) SState.sw P.c.gateLo (fun i s w => symStep_sw P.c k i s) _ (by omega) hw
    rw [symIn0_congr wf hg stS, symIn1_congr wf hg stS]
    exact ⟨fun f j e => symIn0_bound inv.bound (c := P.c) (P.c.gate g) f j e,
      fun f j e => symIn1_bound inv.bound (c := P.c) (P.c.gate g) f j e⟩
  cases k with
  | zero => exact one _ (spre_zero _)
  | succ k => exact one _ (SEnd.pre wf (symRun_inv wf hsf P.pInit P.pInput k))

theorem lin_below {N M : Nat} {b b' : Nat → Block} (hM : M ≤ N) (h : ∀ i < M, b i = b' i) {f : Nat} (hf : f < 2 ^ M) :
    lin N b f = lin N b' f := by
  induction N with
  | zero => rfl
  | succ N ih =>
    simp only [lin]
    by_cases e : M = N + 1
    · subst e
      rw [lin_congr (fun i hi => h i (by omega)), h N (by omega)]
    · have : f.testBit N = false := Nat.testBit_lt_two_pow (Nat.lt_of_lt_of_le hf (Nat.pow_le_pow_right (by omega) (by omega)))
      rw [ih (by omega), this]
      simp

/-- The labels and the original cipher can be recovered. -/
theorem virtProgram_injective (wf : WF P.c) {ω ω' : Draw (P.atoms n)} (L : Lucky ω) (L' : Lucky ω')
    {F F' : Block → Block} (h : virtProgram pv row ω F = virtProgram pv row ω' F')
    (hz : ∀ k ≤ n, ∀ g < P.c.gateSize, virtShift pv row ω F k g = virtShift pv row ω' F' k g) : ω = ω' ∧ F = F' := by
  have V := virtProgram_sim (pv := pv) (row := row) wf L F
  have V' := virtProgram_sim (pv := pv) (row := row) wf L' F'
  rw [← h] at V'
  generalize hq : virtProgram pv row ω F = q at V V'
  have hR : ω.1 = ω'.1 := Subtype.ext (V.R.symm.trans V'.R)
  have tot : ∀ i < P.atoms n, total ω.2 i = total ω'.2 i := by
    intro i
    induction i using Nat.strong_induction_on with
    | _ i ih =>
      intro hi
      have e1 : ω.gl (2 ^ i) = total ω.2 i := lin_pow _ hi
      have e2 : ω'.gl (2 ^ i) = total ω'.2 i := lin_pow _ hi
      rw [← e1, ← e2]
      rcases atom_cases P.c hi with h1 | ⟨cid, hc, k, hk, rfl⟩ | ⟨cid, hc, g, hg', rfl⟩
      · rw [← V.init i h1, ← V'.init i h1]
      · rw [← V.input cid (by omega) k hk, ← V'.input cid (by omega) k hk]
      · by_cases s : Slot P cid g
        · obtain ⟨hm, f, j, f', j', e, e'⟩ := s
          obtain ⟨b0, b1⟩ := slot_bound (P := P) wf (k := cid) hg'
          have f0 : ω.gl f = ω'.gl f :=
            lin_below (Nat.le_of_lt hi) (fun i h => ih i h (by omega)) (b0 f j e)
          have f1 : ω.gl f' = ω'.gl f' :=
            lin_below (Nat.le_of_lt hi) (fun i h => ih i h (by omega)) (b1 f' j' e')
          rw [← V.slot cid hc g hm f j f' j' e e', ← V'.slot cid hc g hm f j f' j' e e']
          unfold outLabel gPair
          rw [f0, f1]
        · have := hz cid hc g hg'
          unfold virtShift at this
          rw [if_neg s, if_neg s] at this
          rw [e1, e2, this]
  have hb : ω = ω' := by
    refine Prod.ext hR ?_
    funext i
    have := tot i.1 i.2
    unfold total at this
    rwa [dif_pos i.2, dif_pos i.2] at this
  subst hb
  refine ⟨rfl, ?_⟩
  funext p
  have hc : F p ^^^ change ω (virtShift pv row ω F) p = F' p ^^^ change ω (virtShift pv row ω F') p :=
    congrFun (congrArg Coins.cipher (hq.trans (hq.symm.trans h))) p
  have : change ω (virtShift pv row ω F) p = change ω (virtShift pv row ω F') p := by
    unfold change
    split
    next ex =>
      have a := ex.choose.1.2
      exact hz _ (by omega) _ ex.choose.2.1.2
    next => rfl
  rw [this] at hc
  exact xor_right_cancel hc

variable (pv row)

/-- The random choices for which such labels exist and do not collide. -/
def Smooth (q : Coins P.c n) : Prop := ∃ ω : Draw (P.atoms n), Lucky ω ∧ VSim pv row q ω

theorem lucky_smooth (wf : WF P.c) :
    Nat.card {ω : Draw (P.atoms n) // Lucky ω} * Nat.card (Block → Block)
      ≤ Nat.card {q : Coins P.c n // getLSB q.R = true ∧ Smooth pv row q} * Nat.card (GateBlocks P n) := by
  rw [← Nat.card_prod, ← Nat.card_prod]
  refine Nat.card_le_card_of_injective (fun q =>
    (⟨virtProgram pv row q.1.1 q.2, q.1.1.1.2, q.1.1, q.1.2, virtProgram_sim wf q.1.2 q.2⟩,
      fun k g => virtShift pv row q.1.1 q.2 k g)) ?_
  rintro ⟨⟨ω, L⟩, F⟩ ⟨⟨ω', L'⟩, F'⟩ h
  simp only [Prod.mk.injEq, Subtype.mk.injEq] at h
  obtain ⟨rfl, rfl⟩ := virtProgram_injective wf L L' h.1
    (fun k hk g hg => congrFun (congrFun h.2 ⟨k, by omega⟩) ⟨g, hg⟩)
  rfl

theorem rough_count (wf : WF P.c) (hn : n < 2 ^ 64) :
    Nat.card {q : Coins P.c n // getLSB q.R = true ∧ ¬ Smooth pv row q} * 2 ^ 127
      ≤ (16 * ((n + 1) * P.c.gateSize) ^ 2 + 2 ^ 64 * ((n + 1) * P.c.gateSize))
        * Nat.card {ω : Coins P.c n // getLSB ω.R = true} := by
  have hu := unlucky_count wf hn
  have hs := card_split (fun _ : Draw (P.atoms n) => True) Lucky
  simp only [true_and] at hs
  have ht : Nat.card {_ω : Draw (P.atoms n) // True} = Nat.card (Draw (P.atoms n)) :=
    Nat.card_congr ⟨fun ω => ω.1, fun ω => ⟨ω, trivial⟩, fun _ => rfl, fun _ => rfl⟩
  rw [ht] at hs
  have hO := card_split (fun ω : Coins P.c n => getLSB ω.R = true) (Smooth pv row)
  have hZ : 0 < Nat.card (GateBlocks P n) := by
    have : Nonempty (GateBlocks P n) := ⟨fun _ _ => 0#128⟩
    exact Nat.card_pos
  generalize (2 : Nat) ^ 127 = A at *
  generalize (16 * ((n + 1) * P.c.gateSize) ^ 2 + 2 ^ 64 * ((n + 1) * P.c.gateSize)) = K at *
  exact bad_arith (draws_coins P n) hs hO (lucky_smooth pv row wf) hu hZ

end

end TinyGarble
