import Verif.Proof.Hdl.Aes
import Verif.Proof.Hdl.Sha3
import Verif.Spec.Hdl.Crypto

/-!
# AES and Keccak as circuits (C72, C73)
-/

namespace TinyGarble.Props.Hdl

open TinyGarble.Hdl TinyGarble.Spec TinyGarble.Spec.Hdl TinyGarble.Proof.Hdl

/-! ## AES -/

theorem entry_eq_byte {n : Nat} (v : BitVec n) : entry 8 v = byte v := by
  funext i
  apply BitVec.eq_of_toNat_eq
  rw [TinyGarble.Hdl.entry, BitVec.extractLsb'_toNat, byte, BitVec.toNat_ofNat, Nat.shiftRight_eq_div_pow]

/-- **C72**, aes_1cc.v: the output is the encryption of the evaluator's message with the garbler's key. -/
theorem C72_aes_1cc (key msg : BitVec 128) :
    ∃ w, Aes.KeySchedule 4 (Aes.wordsOfBytes (byte key)) w ∧
      Aes.stateOfBytes (byte (Hdl.Aes.aes1cc key msg)) = Aes.cipher 10 w (Aes.stateOfBytes (byte msg)) := by
  refine ⟨Proof.Hdl.Aes.words key, ?_, ?_⟩
  · rw [← entry_eq_byte]
    exact Proof.Hdl.Aes.schedule key
  · rw [← entry_eq_byte, ← entry_eq_byte]
    exact Proof.Hdl.Aes.aes1cc_eq key msg

/-- **C72**, aes_11cc.v: the output of the eleventh cycle is the encryption of the evaluator's message with the garbler's key. -/
theorem C72_aes_11cc (key msg : BitVec 128) :
    ∃ o w, (Hdl.Aes.aes11cc key msg 11)[10]? = some o ∧ Aes.KeySchedule 4 (Aes.wordsOfBytes (byte key)) w ∧
      Aes.stateOfBytes (byte o) = Aes.cipher 10 w (Aes.stateOfBytes (byte msg)) := by
  obtain ⟨w, h1, h2⟩ := C72_aes_1cc key msg
  refine ⟨Hdl.Aes.aes1cc key msg, w, ?_, h1, h2⟩
  rw [Proof.Hdl.Aes.aes11cc_eq]
  rfl

/-- **C72**: all bytes of the output are determined by its state. -/
theorem C72_state_determines (x y : BitVec 128) (h : Aes.stateOfBytes (byte x) = Aes.stateOfBytes (byte y)) : x = y := by
  rw [← entry_eq_byte, ← entry_eq_byte] at h
  apply eq_of_bits
  intro j hj
  have := congrFun (congrFun h ⟨j / 8 % 4, by omega⟩) ⟨j / 32, by omega⟩
  have := congrArg (fun z => z.getLsbD (j % 8)) this
  simp only [Aes.stateOfBytes, TinyGarble.Hdl.entry, BitVec.getLsbD_extractLsb'] at this
  rw [show 8 * (4 * (j / 32) + j / 8 % 4) + j % 8 = j by omega] at this
  have hm : j % 8 < 8 := by omega
  simpa [hm] using this

/-! ## Keccak -/

theorem stateOf_eq (v : BitVec 1600) : Proof.Hdl.Sha3.stateOf v = keccakState v := by
  funext x y z
  show (v.extractLsb' _ 64).getLsbD z.val = _
  rw [BitVec.getLsbD_extractLsb']
  simp [keccakState]

/-- **C73**, sha3_comb.v with one cycle: the output is Keccak-p[1600, 24] of the inputs. -/
theorem C73_comb_partial (g e : BitVec 288) :
    keccakState (Hdl.Sha3.sha3Comb 1 g e) = Sha3.keccakP (keccakState ((e ++ g).setWidth 1600)) := by
  rw [← stateOf_eq, ← stateOf_eq]
  exact Proof.Hdl.Sha3.state_comb _ 24 (Nat.le_refl _)

/-- **C73**, sha3_comb.v with another parameter computes only the first `24 / CC` rounds. -/
theorem C73_comb_rounds (CC : Nat) (g e : BitVec 288) :
    keccakState (Hdl.Sha3.sha3Comb CC g e) = Sha3.rounds (keccakState ((e ++ g).setWidth 1600)) (24 / CC) := by
  rw [← stateOf_eq, ← stateOf_eq]
  exact Proof.Hdl.Sha3.state_comb _ _ (Nat.div_le_self _ _)

theorem iterate_eq (A : Sha3.State) (n : Nat) : Proof.Hdl.Sha3.plain^[n] A = roundsWithoutConstant A n := by
  induction n with
  | zero => rfl
  | succ n ih => rw [Function.iterate_succ_apply', ih]; rfl

/-- **C73**, sha3_seq.v: what the circuit computes. In the first cycle no constants are added; then the rounds begin with round 0. -/
theorem C73_seq_late (CC : Nat) (hCC : 2 ≤ CC) (hCC24 : CC ≤ 24) (g e : BitVec 288) (t : Nat) (ht : t ≤ CC) :
    ∃ o, (Hdl.Sha3.sha3Seq CC g e (CC + 1))[t]? = some o ∧
      keccakState o = Sha3.rounds (roundsWithoutConstant (keccakState ((e ++ g).setWidth 1600)) (24 / CC)) (24 / CC * t) := by
  have hn : 0 < 24 / CC := Nat.div_pos hCC24 (by omega)
  obtain ⟨o, h1, h2⟩ := Proof.Hdl.Sha3.run_regs hCC hn (keccakState ((e ++ g).setWidth 1600)) (CC + 1) 0 (by omega)
    ⟨false, 0, (e ++ g).setWidth 1600⟩ ⟨rfl, rfl, stateOf_eq _⟩ t (by omega)
  refine ⟨o, h1, ?_⟩
  rw [← stateOf_eq, h2, iterate_eq, Nat.zero_add]

theorem withoutConstant_zero (n : Nat) : roundsWithoutConstant (fun _ _ _ => false) n = fun _ _ _ => false := by
  induction n with
  | zero => rfl
  | succ n ih => rw [roundsWithoutConstant, ih]; exact Proof.Hdl.Sha3.plain_zero

/-- **C73**, the claim does not hold of sha3_seq.v: there are inputs for which the output after 24 cycles of one round is not
Keccak-p[1600, 24] of the inputs. -/
theorem C73_seq_fails : ∃ g e o, (Hdl.Sha3.sha3Seq 24 g e 25)[23]? = some o ∧
    keccakState o ≠ Sha3.keccakP (keccakState ((e ++ g).setWidth 1600)) := by
  obtain ⟨o, h1, h2⟩ := C73_seq_late 24 (by omega) (by omega) 0 0 23 (by omega)
  refine ⟨0, 0, o, h1, ?_⟩
  have hz : keccakState (((0 : BitVec 288) ++ (0 : BitVec 288)).setWidth 1600) = fun _ _ _ => false := by
    funext x y z
    simp [keccakState]
  rw [h2, hz, withoutConstant_zero]
  exact Proof.Hdl.Sha3.zero_rounds_ne

/-- **C73**: in both circuits the inputs are the last nine lanes; the other lanes, among them all of the rate of SHA3-512
and 16 of the 17 of the rate of SHA3-256, are zero. -/
theorem C73_input_lanes (g e : BitVec 288) (x y : Fin 5) (z : Fin 64) (h : 5 * y.val + x.val < 16) :
    keccakState ((e ++ g).setWidth 1600) x y z = false := by
  rw [keccakState, BitVec.getLsbD_setWidth, BitVec.getLsbD_of_ge _ _ (by omega)]
  simp

/-! ## Examples -/

example : (Hdl.Aes.aes11cc 0x0f0e0d0c0b0a09080706050403020100#128 0xffeeddccbbaa99887766554433221100#128 11)[10]? =
    some 0x5ac5b47080b7cdd830047b6ad8e0c469#128 := by decide +kernel

example : ∃ g e : BitVec 288, Hdl.Sha3.sha3Comb 24 g e ≠ (e ++ g).setWidth 1600 := ⟨1, 0, by decide +kernel⟩

example : 2 ≤ 6 ∧ 6 ≤ 24 ∧ ((Hdl.Sha3.sha3Seq 24 1 0 2).length = 2) := by decide +kernel

end TinyGarble.Props.Hdl
