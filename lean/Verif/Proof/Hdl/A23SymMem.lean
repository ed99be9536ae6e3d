import Verif.Proof.Hdl.A23SymLoop
import Verif.Props.Hdl.A23
import Verif.Model.Hdl.A23Programs

/-! # Symbolic execution: from the circuit to micro-operations -/

namespace TinyGarble.Proof.Hdl.A23.Sym

open TinyGarble.Spec.Arm
open TinyGarble.Spec.Hdl (part)
open TinyGarble.Props.Hdl (armStart armLayout branchToSelf C81_circuit_partial C81_circuit_halt_partial)
open TinyGarble.Hdl.A23 (Sizes a23 run)
open TinyGarble.Spec.Mips (put fetch)

/-- Reading a word after writing one. -/
theorem word_put (s : State) (a b : Nat) (v : BitVec 32) (ha : a % 4 = 0) (hb : b % 4 = 0) (ha' : a < 2 ^ 32) (hb' : b < 2 ^ 32) :
    (s.putWord (BitVec.ofNat 32 a) v).word (BitVec.ofNat 32 b) = if b = a then v else s.word (BitVec.ofNat 32 b) := by
  split
  · rename_i h; rw [h, word_putWord_same]
  · rename_i h
    refine word_put_word s _ _ _ v.toNat rfl ?_
    rw [align_of_mod (by rw [BitVec.toNat_ofNat, Nat.mod_eq_of_lt ha']; exact ha), align_of_mod (by rw [BitVec.toNat_ofNat, Nat.mod_eq_of_lt hb']; exact hb)]
    intro he
    have := congrArg BitVec.toNat he
    rw [BitVec.toNat_ofNat, BitVec.toNat_ofNat] at this
    omega

section
variable (z : Sizes) (undef : Nat → BitVec 32) (p : BitVec (z.code * 32)) (g : BitVec (z.g * 32)) (e : BitVec (z.e * 32))

theorem start_word (b n : Nat) (f : Nat → BitVec 8) (w : Nat) (hb : b < 3) (hn : n < 2 ^ 22) (s : State)
    (hm : ∀ j < 2 ^ 24, s.mem (BitVec.ofNat 32 (b * 2 ^ 24 + j)) = f j) (hf : ∀ j, f j = BitVec.ofNat 8 (w / 2 ^ (8 * j))) :
    s.word (BitVec.ofNat 32 (b * 2 ^ 24 + 4 * n)) = BitVec.ofNat 32 (w / 2 ^ (32 * n)) := by
  have := word_of_bytes s (4 * n) (b * 2 ^ 24 + 4 * n) w (by omega) (by omega) fun j hj => by
    rw [Nat.add_assoc, hm _ (by omega), hf]
  rw [this, ← Nat.mul_assoc]

theorem start_prog (n : Nat) (hn : n < 2 ^ 22) : (armStart z p g e).word (BitVec.ofNat 32 (4 * n)) = part 32 p n := by
  have := start_word 0 n (part 8 p) p.toNat (by omega) hn (armStart z p g e) (fun j hj => by
    show (match _ with | 0 => _ | 1 => _ | 2 => _ | _ => _) = _
    rw [BitVec.toNat_ofNat, show (0 * 2 ^ 24 + j) % 2 ^ 32 / 2 ^ 24 = 0 by omega, show (0 * 2 ^ 24 + j) % 2 ^ 32 % 2 ^ 24 = j by omega]
    rfl) fun j => rfl
  rw [Nat.zero_mul, Nat.zero_add] at this
  exact this

theorem start_g (n : Nat) (hn : n < 2 ^ 22) : (armStart z p g e).word (BitVec.ofNat 32 (0x01000000 + 4 * n)) = part 32 g n :=
  start_word 1 n (part 8 g) g.toNat (by omega) hn (armStart z p g e) (fun j hj => by
    show (match _ with | 0 => _ | 1 => _ | 2 => _ | _ => _) = _
    rw [BitVec.toNat_ofNat, show (1 * 2 ^ 24 + j) % 2 ^ 32 / 2 ^ 24 = 1 by omega, show (1 * 2 ^ 24 + j) % 2 ^ 32 % 2 ^ 24 = j by omega]
    rfl) fun j => rfl

theorem start_e (n : Nat) (hn : n < 2 ^ 22) : (armStart z p g e).word (BitVec.ofNat 32 (0x02000000 + 4 * n)) = part 32 e n :=
  start_word 2 n (part 8 e) e.toNat (by omega) hn (armStart z p g e) (fun j hj => by
    show (match _ with | 0 => _ | 1 => _ | 2 => _ | _ => _) = _
    rw [BitVec.toNat_ofNat, show (2 * 2 ^ 24 + j) % 2 ^ 32 / 2 ^ 24 = 2 by omega, show (2 * 2 ^ 24 + j) % 2 ^ 32 % 2 ^ 24 = j by omega]
    rfl) fun j => rfl

theorem start_desc {prog : List (BitVec 32)} (hz : prog.length ≤ 2 ^ 22) (hp : ∀ i (h : i < prog.length), part 32 p i = prog[i]) :
    Desc prog .init (armStart z p g e) := by
  refine ⟨rfl, fun r v hr hv => ?_, fun f hf => ?_, fun a w ha hw => ?_⟩
  · unfold Abs.reg Abs.init at hv
    dsimp only at hv
    rw [List.getElem?_replicate] at hv
    split at hv
    · cases hv; rfl
    · cases hv
  · cases hf; rfl
  · have hw : origin prog a = some w := hw
    unfold origin at hw
    obtain ⟨hi, hw⟩ := List.getElem?_eq_some_iff.1 hw
    rw [← hw, ← hp _ hi, ← start_prog z p g e _ (by omega)]
    congr 1
    apply BitVec.eq_of_toNat_eq
    rw [BitVec.toNat_ofNat]
    have := a.isLt
    omega

/-- The result of the circuit when the machine gets to the branch to itself. -/
theorem reach_result {m : Layout} {k : Nat} {s : State} (hr : Reach (armLayout z) (armStart z p g e) k s) (h5 : s.pc = 5) (hself : s.word 0x14 = branchToSelf)
    (hz : z.code ≤ 2 ^ 22) (hm : Within m (armLayout z)) (hc : 5 < m.code) :
    (∀ T < 1 + k, (run z undef p g e T).1.terminate = false) ∧ (run z undef p g e (1 + k)).1.terminate = true ∧
    ∀ T, 1 + k ≤ T → ∀ i < z.out, i < 2 ^ 22 → part 32 (a23 z undef p g e T) i = s.word (BitVec.ofNat 32 (0x03000000 + 4 * i)) := by
  obtain ⟨t, h1, h2, h3⟩ := hr.to_trace
  have h5' : 5 < z.code := lt_of_lt_of_le hc hm.1
  have := C81_circuit_partial z undef p g e hz t _ h1 h3 h5' h5
  rw [h2] at this
  refine ⟨this.1, this.2.1, fun T hT i hi hi' => ?_⟩
  have hbyte : ∀ j < 4 * z.out, j < 2 ^ 24 → part 8 (a23 z undef p g e T) j = s.mem (BitVec.ofNat 32 (0x03000000 + j)) := by
    intro j hj hj'
    by_cases hT1 : T = 1 + k
    · rw [hT1]; exact this.2.2 j hj hj'
    · have := (C81_circuit_halt_partial z undef p g e hz t _ h1 (fun k hk s' c i a b => (h3 k hk s' c i a b).1) (by
        show s.pc.toNat < _
        rw [h5]; exact h5') (by
        show State.word _ (addr s.pc) = _
        rw [h5]
        exact hself) (T - (2 + k))).1 j hj hj'
      rw [h2, show 2 + k + (T - (2 + k)) = T by omega] at this
      exact this
  rw [word_of_bytes s (4 * i) (0x03000000 + 4 * i) (a23 z undef p g e T).toNat (by omega) (by omega), ← Nat.mul_assoc]
  · rfl
  · intro j hj
    have := hbyte (4 * i + j) (by omega) (by omega)
    rw [Nat.add_assoc]
    exact this.symm

/-- The result of the circuit, by the micro-operations of the program. -/
theorem program_result {prog : List (BitVec 32)} {m : Layout} {ms : List Micro} {k : Nat} {τ : Abs} (hR : Runs prog m .init ms k τ) (h5 : τ.pc = 5)
    (hself : τ.word prog 0x14 = some branchToSelf)
    (hz : z.code ≤ 2 ^ 22) (hm : Within m (armLayout z)) (hc : 5 < m.code) (hl : prog.length ≤ z.code) (hp : ∀ i (h : i < prog.length), part 32 p i = prog[i]) :
    (∀ T < 1 + k, (run z undef p g e T).1.terminate = false) ∧ (run z undef p g e (1 + k)).1.terminate = true ∧
    ∀ T, 1 + k ≤ T → ∀ i < z.out, i < 2 ^ 22 →
      part 32 (a23 z undef p g e T) i = (applyAll (armStart z p g e) ms).word (BitVec.ofNat 32 (0x03000000 + 4 * i)) := by
  obtain ⟨hr, hd⟩ := hR _ _ hm (start_desc z p g e (by omega) hp)
  have := reach_result z undef p g e hr h5 (hd.word 0x14 _ (by decide) hself) hz hm hc
  exact this

end

end TinyGarble.Proof.Hdl.A23.Sym
