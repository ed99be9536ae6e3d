import Verif.Proof.Hdl.A23ProgSha3
import Verif.Proof.A23Sponge

/-! # The program sha3: the result -/

namespace TinyGarble.Proof.Hdl.A23.Sym

open TinyGarble.Spec.Arm

/-- A word becomes known. -/
theorem Desc.learnWord {prog : List (BitVec 32)} {τ : Abs} {s : State} (h : Desc prog τ s) {a v : BitVec 32} (hv : s.word a = v) :
    Desc prog { τ with mem := (a, some v) :: τ.mem } s := by
  refine ⟨h.pc, h.reg, h.flags, fun b w hb hw => ?_⟩
  unfold Abs.word find at hw
  by_cases hab : a = b
  · rw [if_pos hab] at hw
    cases hw
    rw [← hab, hv]
  · rw [if_neg hab] at hw
    exact h.word b w hb hw

theorem Leads.learnWord {prog : List (BitVec 32)} {m : Layout} {τ τ' : Abs} {P Q : State → Prop} {k : Nat} {a v : BitVec 32}
    (h : Leads prog m { τ with mem := (a, some v) :: τ.mem } P k τ' Q) (hv : ∀ s, P s → s.word a = v) : Leads prog m τ P k τ' Q :=
  fun l s hl hD hP => h l s hl (hD.learnWord (hv s hP)) hP

namespace Sha3Code

open TinyGarble.Hdl.A23.Programs (sha3Code)
open Flow (E T B bitAt vals vals_cons vals_nil vals_append)

abbrev M (s : State) (n : Nat) : BitVec 8 := s.mem (BitVec.ofNat 32 n)

/-- The state of the hash function, in the memory. -/
def hashOf (s : State) : Spec.Sha3.State := fun x y z => bitAt s (bitId x.val y.val z.val)

theorem val_add (x c : Fin 5) : (x + c).val = (x.val + c.val) % 5 := rfl

theorem theta_vals (s : State) (x y : Fin 5) (z : Fin 64) : vals s (thetaBits (64 * (5 * y.val + x.val) + z.val)) = Spec.Sha3.theta (hashOf s) x y z := by
  have hc : ∀ (x : Fin 5) (z : Fin 64), vals s (columnBits x.val z.val) = Spec.Sha3.column (hashOf s) x z := by
    intro x z
    show (_ ^^ (_ ^^ (_ ^^ (_ ^^ (_ ^^ false))))) = (_ ^^ _ ^^ _ ^^ _ ^^ _)
    rw [Bool.xor_false]
    simp only [Bool.xor_assoc]
    rfl
  have e1 : (x + 1).val = (x.val + 1) % 5 := rfl
  have e4 : (x - 1).val = (x.val + 4) % 5 := by rcases TinyGarble.A23.fin5_cases x with rfl | rfl | rfl | rfl | rfl <;> rfl
  have ez : (z - 1).val = (z.val + 63) % 64 := by
    rw [Fin.sub_def]; show (64 - 1 + z.val) % 64 = _; rw [Nat.add_comm]
  unfold thetaBits
  rw [vals_cons, vals_append, show (64 * (5 * y.val + x.val) + z.val) / 64 % 5 = x.val by omega, show (64 * (5 * y.val + x.val) + z.val) % 64 = z.val by omega,
    ← e1, ← e4, ← ez, hc, hc]
  rfl

theorem pi_vals (s : State) (x y : Fin 5) (z : Fin 64) :
    vals s (piBits (64 * (5 * y.val + x.val) + z.val)) = Spec.Sha3.pi (Spec.Sha3.rho (hashOf s)) x y z := by
  unfold piBits
  dsimp only
  rw [show (64 * (5 * y.val + x.val) + z.val) / 64 % 5 = x.val by omega, show (64 * (5 * y.val + x.val) + z.val) % 64 = z.val by omega,
    show (64 * (5 * y.val + x.val) + z.val) / 320 = y.val by omega, vals_cons, vals_nil, Bool.xor_false]
  have ex : (x.val + 3 * y.val) % 5 = (x + 3 * y).val := by
    show _ = (x.val + (3 * y.val) % 5) % 5
    omega
  rw [ex, ← (TinyGarble.A23.rho_table (x + 3 * y) x).1]
  rfl

theorem chi_vals (s : State) (x y : Fin 5) (z : Fin 64) : vals s (chiBits (64 * (5 * y.val + x.val) + z.val)) = Spec.Sha3.chi (hashOf s) x y z := by
  unfold chiBits
  dsimp only
  rw [show (64 * (5 * y.val + x.val) + z.val) / 64 % 5 = x.val by omega, show (64 * (5 * y.val + x.val) + z.val) % 64 = z.val by omega,
    show (64 * (5 * y.val + x.val) + z.val) / 320 = y.val by omega, vals_cons, vals_cons, vals_nil, Bool.xor_false]
  show (_ ^^ (_ && _)) = (_ ^^ (_ && _))
  rw [Bool.and_comm]
  rfl

theorem iota_vals (s : State) {n : Nat} (hn : n < 24) (x y : Fin 5) (z : Fin 64) :
    vals s (iotaBits n (64 * (5 * y.val + x.val) + z.val)) = Spec.Sha3.iota (hashOf s) n x y z := by
  unfold iotaBits Spec.Sha3.iota
  rw [vals_cons]
  by_cases h : x = 0 ∧ y = 0
  · rw [if_pos h, h.1, h.2]
    rw [← TinyGarble.A23.constants_table ⟨n, hn⟩ z]
    have e0 : 64 * (5 * (0 : Fin 5).val + (0 : Fin 5).val) + z.val = z.val := Nat.zero_add _
    have e : B.val s (.at (8 * 0xb50 + (64 * (5 * (0 : Fin 5).val + (0 : Fin 5).val) + z.val))) = hashOf s 0 0 z := rfl
    rw [e, e0]
    congr 1
    dsimp only
    cases hb : (TinyGarble.A23.keccakRoundConstants.getD n 0).getLsbD z.val with
    | true => rw [if_pos ⟨z.isLt, rfl⟩]; rfl
    | false => rw [if_neg fun h => by cases h.2]; rfl
  · rw [if_neg h, if_neg, vals_nil, Bool.xor_false]
    · rfl
    · intro h'
      have h1 := h'.1
      exact h ⟨by omega, by omega⟩

/-- A check of all bits of the state. -/
theorem hashOf_eq {s s' : State} {t : T} (ha : Flow.Agree s t s') {f : Nat → List B} (hf : t.wordsAre 0xb50 50 f = true) {X : Spec.Sha3.State}
    (hX : ∀ x y z, vals s (f (64 * (5 * y.val + x.val) + z.val)) = X x y z) : hashOf s' = X := by
  funext x y z
  rw [← hX]
  exact ha.bits hf (by omega) (by omega) (by omega)

/-- Before round `n`. -/
structure Round (n : Nat) (X : Spec.Sha3.State) (s : State) : Prop where
  state : hashOf s = X
  number : n < 24 → s.word 0x04000044 = BitVec.ofNat 32 n
  constant : n < 24 → s.word 0x04000070 = BitVec.ofNat 32 (0xa88 + 8 * n)

theorem Round.next {n : Nat} {X Y : Spec.Sha3.State} {s s' : State} {t : T} (h : Round n X s) (ha : Flow.Agree s t s') (hw : t.within [] changed = true)
    (hs : hashOf s' = Y) : Round n Y s' := by
  have key : ∀ a ∈ [0x04000044, 0x04000070], s'.word (BitVec.ofNat 32 a) = s.word (BitVec.ofNat 32 a) := by
    intro a h
    refine ha.outsideWord hw ?_ ?_ (fun r hr => absurd hr List.not_mem_nil) ?_
    · revert a; decide
    · revert a; decide
    · revert a; decide
  exact ⟨hs, fun hn => (key 0x04000044 (by simp)).trans (h.number hn), fun hn => (key 0x04000070 (by simp)).trans (h.constant hn)⟩

theorem leads_theta {n : Nat} (hn : n < 24) (X : Spec.Sha3.State) :
    Leads sha3Code lay (hRound n) (Round n X) 743 hTheta (Round n (Spec.Sha3.theta X)) := by
  rw [hRound, if_neg (by omega)]
  refine Leads.of_shows show_theta fun s s' t _ ha hF h => ?_
  simp only [Bool.and_eq_true] at hF
  refine h.next ha hF.1 (hashOf_eq ha hF.2 fun x y z => ?_)
  rw [theta_vals, h.state]

theorem leads_pi (n : Nat) (X : Spec.Sha3.State) : Leads sha3Code lay hTheta (Round n X) 528 hPi (Round n (Spec.Sha3.pi (Spec.Sha3.rho X))) := by
  refine Leads.of_shows show_pi fun s s' t _ ha hF h => ?_
  simp only [Bool.and_eq_true] at hF
  refine h.next ha hF.1 (hashOf_eq ha hF.2 fun x y z => ?_)
  rw [pi_vals, h.state]

theorem leads_chi (n : Nat) (X : Spec.Sha3.State) : Leads sha3Code lay hPi (Round n X) 511 hChi (Round n (Spec.Sha3.chi X)) := by
  refine Leads.of_shows show_chi fun s s' t _ ha hF h => ?_
  simp only [Bool.and_eq_true] at hF
  refine h.next ha hF.1 (hashOf_eq ha hF.2 fun x y z => ?_)
  rw [chi_vals, h.state]

theorem leads_iota {n : Nat} (hn : n < 24) (X : Spec.Sha3.State) :
    Leads sha3Code lay hChi (Round n X) 31 (hRound (n + 1)) (Round (n + 1) (Spec.Sha3.iota X n)) := by
  refine Leads.learnWord (a := 0x04000070) (v := BitVec.ofNat 32 (0xa88 + 8 * n)) (Leads.learnWord (a := 0x04000044) (v := BitVec.ofNat 32 n) ?_
    fun s h => h.number hn) fun s h => h.constant hn
  refine Leads.of_shows (show_iota n hn) fun s s' t _ ha hF h => ?_
  simp only [Bool.and_eq_true, Bool.or_eq_true, beq_iff_eq] at hF
  refine ⟨hashOf_eq ha hF.1 fun x y z => ?_, fun h1 => ?_, fun h1 => ?_⟩
  · rw [iota_vals s hn, h.state]
  · rcases hF.2 with h2 | h2
    · omega
    · exact ha.word _ _ h2.1
  · rcases hF.2 with h2 | h2
    · omega
    · exact ha.word _ _ h2.2

theorem leads_rounds (X : Spec.Sha3.State) : Leads sha3Code lay (hRound 0) (Round 0 X) (24 * 1813) (hRound 24) (Round 24 (Spec.Sha3.keccakP X)) :=
  Leads.loop hRound (fun n => Round n (Spec.Sha3.rounds X n)) _ 24 fun n hn =>
    (leads_theta hn _).trans (leads_pi n _) |>.trans (leads_chi n _) |>.trans (leads_iota hn _)

/-- At the start: the two halves of the message, and an empty context. -/
structure Input (g e : List (BitVec 8)) (s : State) : Prop where
  gl : g.length = 8
  el : e.length = 8
  garbler : ∀ p < 8, M s (0x01000000 + p) = g.getD p 0
  evaluator : ∀ p < 8, M s (0x02000000 + p) = e.getD p 0
  hash : ∀ i < 1600, bitAt s (8 * 0xb50 + i) = false
  rest : s.word 0xca0 = 0

/-- The padded block is written. -/
structure Block (m : List (BitVec 8)) (s : State) : Prop where
  block : ∀ p < 136, M s (0xc18 + p) = TinyGarble.A23.padded m p
  hash : ∀ i < 1600, bitAt s (8 * 0xb50 + i) = false

theorem low_b (s : State) (n : Nat) : BitVec.ofNat 8 ((E.b (BitVec.ofNat 32 n)).val s).toNat = M s n := by
  show BitVec.ofNat 8 ((M s n).setWidth 32).toNat = _
  have := (M s n).isLt
  apply BitVec.eq_of_toNat_eq
  rw [BitVec.toNat_ofNat, BitVec.toNat_setWidth]
  omega

theorem leads_block (g e : List (BitVec 8)) : Leads sha3Code lay .init (Input g e) 1167 hBlock (Block (g ++ e)) := by
  refine Leads.learnWord (a := 0xca0) (v := 0) ?_ fun s h => h.rest
  refine Leads.of_shows show_block fun s s' t _ ha hF h => ?_
  simp only [Bool.and_eq_true] at hF
  refine ⟨fun p hp => ?_, fun i hi => ?_⟩
  · have := ha.at (List.all_eq_true.1 hF.2 p (List.mem_range.2 hp))
    refine this.trans ?_
    have hgl := h.gl
    have hel := h.el
    unfold blockE TinyGarble.A23.padded
    rw [List.length_append, hgl, hel]
    by_cases h8 : p < 8
    · rw [if_pos h8, low_b, h.garbler p h8, if_pos (by omega), if_neg (by omega), List.getD_eq_getElem?_getD, List.getD_eq_getElem?_getD,
        List.getElem?_append_left (by omega), BitVec.or_zero]
    · rw [if_neg h8]
      by_cases h16 : p < 16
      · rw [if_pos h16, low_b, h.evaluator (p - 8) (by omega), if_pos (by omega), if_neg (by omega), List.getD_eq_getElem?_getD, List.getD_eq_getElem?_getD,
          List.getElem?_append_right (by omega), hgl, BitVec.or_zero]
      · rw [if_neg h16, if_neg (show ¬ p < 8 + 8 by omega)]
        by_cases e16 : p = 16
        · rw [if_pos e16, if_pos (by omega), if_neg (by omega)]; simp only [E.val, Op.eval, Shift.const, Shift.by]; decide
        · rw [if_neg e16, if_neg (show ¬ p = 8 + 8 by omega)]
          by_cases e135 : p = 135
          · rw [if_pos e135, if_pos e135]; simp only [E.val, Op.eval, Shift.const, Shift.by]; decide
          · rw [if_neg e135, if_neg e135]; simp only [E.val, Op.eval, Shift.const, Shift.by]; decide
  · rw [ha.outsideBit hF.1 (by omega)]
    · exact h.hash i hi
    · intro r hr
      simp only [List.mem_cons, List.not_mem_nil, or_false] at hr
      subst hr
      dsimp only
      omega
    · intro r hr
      simp only [List.mem_cons, List.not_mem_nil, or_false] at hr
      rcases hr with rfl | rfl <;> dsimp only <;> omega

/-- The state after absorbing. -/
def absorbed (m : List (BitVec 8)) : Spec.Sha3.State :=
  Spec.Sha3.stateOf fun i => false ^^ (if i < 1088 then (TinyGarble.A23.paddedBits (Spec.Sha3.bits m)).getD (1088 * 0 + i) false else false)

theorem leads_absorb {m : List (BitVec 8)} (hm : m.length < 136) : Leads sha3Code lay hBlock (Block m) 316 (hRound 0) (Round 0 (absorbed m)) := by
  refine Leads.of_shows show_absorb fun s s' t _ ha hF h => ?_
  simp only [Bool.and_eq_true, beq_iff_eq] at hF
  refine ⟨hashOf_eq ha hF.1.1 fun x y z => ?_, fun _ => ha.word _ _ hF.1.2, fun _ => ha.word _ _ hF.2⟩
  unfold absorbed Spec.Sha3.stateOf absorbBits
  have hi : 64 * (5 * y.val + x.val) + z.val < 1600 := by omega
  generalize 64 * (5 * y.val + x.val) + z.val = i at hi
  rw [vals_cons]
  have e : B.val s (.at (8 * 0xb50 + i)) = false := h.hash i hi
  rw [e]
  congr 1
  by_cases hlt : i < 1088
  · rw [if_pos hlt, if_pos hlt, vals_cons, vals_nil, Bool.xor_false, Nat.mul_zero, Nat.zero_add, TinyGarble.A23.paddedBits_get hm hlt, ← h.block (i / 8) (by omega)]
    show bitAt s _ = _
    unfold bitAt
    rw [show (8 * 0xc18 + i) / 8 = 0xc18 + i / 8 by omega, show (8 * 0xc18 + i) % 8 = i % 8 by omega]
  · rw [if_neg hlt, if_neg hlt]
    rfl

theorem leads_out (X : Spec.Sha3.State) : Leads sha3Code lay (hRound 24) (Round 24 X) 559 stopped
    fun s => ∀ i < 256, (M s (0x03000000 + i / 8)).getLsbD (i % 8) = Spec.Sha3.stringOf X i := by
  refine Leads.of_shows show_out fun s s' t _ ha hF h i hi => ?_
  have := ha.at (List.all_eq_true.1 hF (i / 8) (List.mem_range.2 (by omega)))
  rw [low_b] at this
  rw [show M s' (0x03000000 + i / 8) = M s (0xb50 + i / 8) from this, ← h.state]
  unfold Spec.Sha3.stringOf hashOf bitAt bitId
  rw [show (Fin.ofNat 5 (i / 64 % 5)).val = i / 64 % 5 % 5 from rfl, show (Fin.ofNat 5 (i / 320)).val = i / 320 % 5 from rfl,
    show (Fin.ofNat 64 (i % 64)).val = i % 64 % 64 from rfl,
    show (8 * 0xb50 + (64 * (5 * (i / 320 % 5) + i / 64 % 5 % 5) + i % 64 % 64)) = 8 * 0xb50 + i by omega, show (8 * 0xb50 + i) / 8 = 0xb50 + i / 8 by omega,
    show (8 * 0xb50 + i) % 8 = i % 8 by omega]

/-- The program computes the digest. -/
theorem leads_sha3 (g e : List (BitVec 8)) : Leads sha3Code lay .init (Input g e) 45554 stopped
    fun s => ∀ i < 256, (M s (0x03000000 + i / 8)).getLsbD (i % 8) = Spec.Sha3.sha3_256 (Spec.Sha3.bits (g ++ e)) i := by
  intro l s hl hD hP
  have hm : (g ++ e).length < 136 := by rw [List.length_append, hP.gl, hP.el]; omega
  have h := (leads_block g e).trans (leads_absorb hm) |>.trans (leads_rounds _) |>.trans (leads_out _)
  refine Leads.mono h (fun _ h => h) (fun s' h' i hi => ?_) l s hl hD hP
  rw [h' i hi]
  show _ = Spec.Sha3.absorb (TinyGarble.A23.paddedBits (Spec.Sha3.bits (g ++ e))) ((TinyGarble.A23.paddedBits (Spec.Sha3.bits (g ++ e))).length / 1088) i
  rw [TinyGarble.A23.paddedBits_length hm]
  rfl

end Sha3Code

end TinyGarble.Proof.Hdl.A23.Sym
