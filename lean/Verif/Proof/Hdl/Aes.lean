import Verif.Model.Hdl.Aes
import Verif.Proof.Hdl.Lib
import Verif.Proof.A23Aes

/-! AES as a circuit. -/

namespace TinyGarble.Proof.Hdl.Aes

open TinyGarble.Hdl TinyGarble.Hdl.Aes TinyGarble.Proof.Hdl
open TinyGarble (double8_xor mul_two mul_three)

theorem entry_of {n M : Nat} (f : Nat → BitVec M) {i : Nat} (hi : i < n) : entry M (ofEntries n M f) i = f i := by
  apply eq_of_bits
  intro j hj
  rw [entry, BitVec.getLsbD_extractLsb', ofEntries, getLsbD_ofBits]
  have h1 : M * i + j < n * M := by
    calc M * i + j < M * i + M := by omega
      _ = M * (i + 1) := by rw [Nat.mul_succ]
      _ ≤ M * n := Nat.mul_le_mul_left _ hi
      _ = n * M := Nat.mul_comm ..
  have h2 : (M * i + j) / M = i := by
    rw [Nat.mul_add_div (by omega), Nat.div_eq_of_lt hj, Nat.add_zero]
  have h3 : (M * i + j) % M = j := by rw [Nat.mul_add_mod, Nat.mod_eq_of_lt hj]
  rw [h2, h3]
  simp [hj, h1]

theorem entry_xor {w : Nat} (M : Nat) (x y : BitVec w) (i : Nat) : entry M (x ^^^ y) i = entry M x i ^^^ entry M y i := by
  apply eq_of_bits
  intro j hj
  simp [entry, hj]

theorem byte_of_word {w : Nat} (x : BitVec w) (i : Nat) {r : Nat} (hr : r < 4) : entry 8 (entry 32 x i) r = entry 8 x (4 * i + r) := by
  apply eq_of_bits
  intro j hj
  rw [entry, entry, entry, BitVec.getLsbD_extractLsb', BitVec.getLsbD_extractLsb', BitVec.getLsbD_extractLsb']
  have h : 8 * r + j < 32 := by omega
  simp only [hj, h, decide_true, Bool.true_and]
  congr 1
  omega

/-- The state of a vector. -/
def stateOf (x : BitVec 128) : Spec.Aes.State := Spec.Aes.stateOfBytes (entry 8 x)

theorem stateOf_congr {f g : Nat → BitVec 8} (h : ∀ p < 16, f p = g p) : Spec.Aes.stateOfBytes f = Spec.Aes.stateOfBytes g := by
  funext r c
  exact h _ (by omega)

theorem sbox_eq : ∀ b : BitVec 8, sbox b = Spec.Aes.sbox b := by decide +kernel

theorem state_SubBytes (x : BitVec 128) : stateOf (SubBytes x) = Spec.Aes.subBytes (stateOf x) := by
  rw [stateOf, stateOf_congr (g := fun p => Spec.Aes.sbox (entry 8 x p))]
  · rfl
  · intro p hp
    rw [SubBytes, entry_of _ hp, sbox_eq]

theorem wires : ∀ i < 128, shiftRowsWires.getD i 0 = 8 * (4 * (((i / 8) / 4 + (i / 8) % 4) % 4) + (i / 8) % 4) + i % 8 := by decide +kernel

theorem state_ShiftRows (x : BitVec 128) : stateOf (ShiftRows x) = Spec.Aes.shiftRows (stateOf x) := by
  rw [stateOf, stateOf_congr (g := fun p => entry 8 x (4 * ((p / 4 + p % 4) % 4) + p % 4))]
  · exact TinyGarble.A23.state_shiftRows (entry 8 x)
  · intro p hp
    apply eq_of_bits
    intro j hj
    unfold ShiftRows entry
    simp only []
    rw [BitVec.getLsbD_extractLsb', getLsbD_ofBits, BitVec.getLsbD_extractLsb']
    have h : 8 * p + j < 128 := by omega
    simp only [hj, h, decide_true, Bool.true_and]
    rw [show 127 - (127 - (8 * p + j)) = 8 * p + j by omega, wires _ h, show (8 * p + j) / 8 = p by omega,
      show (8 * p + j) % 8 = j by omega]
    congr 1
    omega

theorem xtime_eq (b : BitVec 8) : xtime b = TinyGarble.double8 b := by
  rw [← TinyGarble.A23.xtime_eq b]
  revert b
  decide +kernel

theorem state_MixColumns (x : BitVec 128) : stateOf (MixColumns x) = Spec.Aes.mixColumns (stateOf x) := by
  rw [stateOf, stateOf_congr (g := TinyGarble.A23.mixed (entry 8 x))]
  · exact TinyGarble.A23.state_mixColumns (entry 8 x)
  · intro p hp
    rw [MixColumns, entry_of _ hp]
    unfold TinyGarble.A23.mixed
    have h4 : p % 4 = 0 ∨ p % 4 = 1 ∨ p % 4 = 2 ∨ p % 4 = 3 := by omega
    rcases h4 with h | h | h | h <;> simp only [h, TinyGarble.A23.xtime_eq, xtime_eq, Nat.reduceAdd, Nat.reduceMod, Nat.add_zero, BitVec.xor_assoc] <;>
      generalize double8 _ = d <;> ac_rfl

theorem state_AddRoundKey (x y : BitVec 128) (w : Nat → Spec.Aes.Word) (i : Nat)
    (h : ∀ c r : Fin 4, entry 8 y (4 * c.val + r.val) = w (4 * i + c.val) r) :
    stateOf (AddRoundKey x y) = Spec.Aes.addRoundKey w i (stateOf x) := by
  funext r c
  show entry 8 (x ^^^ y) _ = entry 8 x _ ^^^ w (4 * i + c.val) r
  rw [entry_xor, h]

/-! ### The key schedule -/

/-- The words of the expanded key. -/
def words (key : BitVec 128) : Nat → Spec.Aes.Word := fun i r => entry 8 (keyWord key i) r.val

theorem byte_high (x : BitVec 32) {r : Nat} (hr : r < 3) : entry 8 (x.extractLsb' 8 24) r = entry 8 x (r + 1) := by
  apply eq_of_bits
  intro j hj
  rw [entry, entry, BitVec.getLsbD_extractLsb', BitVec.getLsbD_extractLsb', BitVec.getLsbD_extractLsb']
  have h : 8 * r + j < 24 := by omega
  simp only [hj, h, decide_true, Bool.true_and]
  congr 1
  omega

theorem byte_append_last (a : BitVec 8) (b : BitVec 24) : entry 8 (a ++ b) 3 = a := by
  apply eq_of_bits
  intro j hj
  rw [entry, BitVec.getLsbD_extractLsb', BitVec.getLsbD_append, if_neg (by omega)]
  simp only [hj, decide_true, Bool.true_and]
  congr 1
  omega

theorem byte_append_low (a : BitVec 8) (b : BitVec 24) {r : Nat} (hr : r < 3) : entry 8 (a ++ b) r = entry 8 b r := by
  apply eq_of_bits
  intro j hj
  rw [entry, entry, BitVec.getLsbD_extractLsb', BitVec.getLsbD_extractLsb', BitVec.getLsbD_append, if_pos (by omega)]

theorem byte_append_first (a : BitVec 24) (b : BitVec 8) : entry 8 (a ++ b) 0 = b := by
  apply eq_of_bits
  intro j hj
  rw [entry, BitVec.getLsbD_extractLsb', BitVec.getLsbD_append, if_pos (by omega)]
  simp only [hj, decide_true, Bool.true_and]
  congr 1
  omega

theorem byte_append_high (a : BitVec 24) (b : BitVec 8) (r : Nat) : entry 8 (a ++ b) (r + 1) = entry 8 a r := by
  apply eq_of_bits
  intro j hj
  rw [entry, entry, BitVec.getLsbD_extractLsb', BitVec.getLsbD_extractLsb', BitVec.getLsbD_append, if_neg (by omega)]
  congr 2
  omega

theorem byte_coreKey (w : BitVec 32) (rcon : BitVec 8) (r : Fin 4) :
    entry 8 (coreKey w rcon) r.val = Spec.Aes.sbox (entry 8 w (r + 1 : Fin 4).val) ^^^ (if r = 0 then rcon else 0#8) := by
  have hQ : ∀ (y : BitVec 32) (r : Nat), r < 4 → entry 8 ((SubBytes (y ++ 0#96)).extractLsb' 96 32) r = Spec.Aes.sbox (entry 8 y r) := by
    intro y r hr
    have e32 : ∀ z : BitVec 128, z.extractLsb' 96 32 = entry 32 z 3 := fun z => rfl
    rw [e32, byte_of_word _ _ hr, SubBytes, entry_of _ (by omega), sbox_eq]
    congr 1
    apply eq_of_bits
    intro j hj
    rw [entry, entry, BitVec.getLsbD_extractLsb', BitVec.getLsbD_extractLsb', BitVec.getLsbD_append]
    simp only [hj, decide_true, Bool.true_and]
    rw [if_neg (by omega)]
    congr 1
    omega
  have hR : ∀ r : Fin 4, entry 8 (w.extractLsb' 0 8 ++ w.extractLsb' 8 24) r.val = entry 8 w (r + 1 : Fin 4).val := by
    intro r
    rcases TinyGarble.A23.fin4_cases r with rfl | rfl | rfl | rfl
    · exact (byte_append_low _ _ (by decide)).trans (byte_high w (by decide))
    · exact (byte_append_low _ _ (by decide)).trans (byte_high w (by decide))
    · exact (byte_append_low _ _ (by decide)).trans (byte_high w (by decide))
    · exact byte_append_last _ _
  unfold coreKey
  simp only []
  rw [← hR r, ← hQ _ _ r.isLt]
  generalize (SubBytes _).extractLsb' 96 32 = Q
  rcases TinyGarble.A23.fin4_cases r with rfl | rfl | rfl | rfl
  · rw [if_pos rfl, BitVec.xor_comm]
    exact (byte_append_first _ _)
  · rw [if_neg (by decide), BitVec.xor_zero]
    exact (byte_append_high _ _ 0).trans (byte_high Q (by decide))
  · rw [if_neg (by decide), BitVec.xor_zero]
    exact (byte_append_high _ _ 1).trans (byte_high Q (by decide))
  · rw [if_neg (by decide), BitVec.xor_zero]
    exact (byte_append_high _ _ 2).trans (byte_high Q (by decide))

theorem rcon_eq : ∀ i < 10, RCon.getD i 0 = Spec.Aes.xtimes 1#8 i := by decide

theorem schedule (key : BitVec 128) : Spec.Aes.KeySchedule 4 (Spec.Aes.wordsOfBytes (entry 8 key)) (words key) := by
  constructor
  · intro i hi
    funext r
    rw [words, keyWord, if_pos hi, byte_of_word _ _ r.isLt]
    rfl
  · intro i hi hi2
    funext r
    rw [words, keyWord, if_neg (by omega)]
    by_cases h : i % 4 = 0
    · rw [if_pos h, if_pos h, entry_xor, byte_coreKey, rcon_eq _ (by omega)]
      show _ = entry 8 _ _ ^^^ (Spec.Aes.sbox (entry 8 _ _) ^^^ Spec.Aes.rcon (i / 4) r)
      rfl
    · rw [if_neg h, if_neg h, if_neg (by omega), entry_xor, BitVec.xor_comm]
      rfl

theorem byte_expanded (key : BitVec 128) (i : Nat) (c r : Fin 4) : entry 8 (expandedKey key i) (4 * c.val + r.val) = words key (4 * i + c.val) r := by
  rw [← byte_of_word _ _ r.isLt, expandedKey, entry_of _ c.isLt]
  rfl

theorem state_round (key msg : BitVec 128) (i : Nat) : stateOf (roundInput key msg i) = Spec.Aes.rounds (words key) (stateOf msg) i := by
  induction i with
  | zero => exact state_AddRoundKey _ _ _ _ (byte_expanded key 0)
  | succ i ih =>
    rw [roundInput, state_AddRoundKey _ _ _ _ (byte_expanded key (i + 1)), state_MixColumns, state_ShiftRows, state_SubBytes, ih]
    rfl

theorem aes1cc_eq (key msg : BitVec 128) : stateOf (aes1cc key msg) = Spec.Aes.cipher 10 (words key) (stateOf msg) := by
  rw [aes1cc, state_AddRoundKey _ _ _ _ (byte_expanded key 10), state_ShiftRows, state_SubBytes, state_round]
  rfl

/-! ### Eleven cycles -/

theorem entry_ext {x y : BitVec 128} (h : ∀ i < 4, entry 32 x i = entry 32 y i) : x = y := by
  apply eq_of_bits
  intro j hj
  have := congrArg (fun z => z.getLsbD (j % 32)) (h (j / 32) (by omega))
  simp only [entry, BitVec.getLsbD_extractLsb'] at this
  rw [show 32 * (j / 32) + j % 32 = j by omega] at this
  have hm : j % 32 < 32 := by omega
  simpa [hm] using this

theorem nextKey (key : BitVec 128) {t : Nat} (ht : t < 10) : KeyExpansionSeq (expandedKey key t) (BitVec.ofNat 4 t) = expandedKey key (t + 1) := by
  have hc : (BitVec.ofNat 4 t).toNat = t := by rw [BitVec.toNat_ofNat]; omega
  have hw : ∀ i, i < 4 → entry 32 (expandedKey key t) i = keyWord key (4 * t + i) := fun i hi => by rw [expandedKey, entry_of _ hi]
  have k0 : keyWord key (4 * (t + 1) + 0) = keyWord key (4 * t + 0) ^^^ coreKey (keyWord key (4 * t + 3)) (RCon.getD t 0) := by
    rw [keyWord, if_neg (by omega), if_pos (by omega), show 4 * (t + 1) + 0 - 4 = 4 * t + 0 by omega,
      show 4 * (t + 1) + 0 - 1 = 4 * t + 3 by omega, show (4 * (t + 1) + 0) / 4 - 1 = t by omega]
  have k : ∀ i, i < 3 → keyWord key (4 * (t + 1) + (i + 1)) = keyWord key (4 * t + (i + 1)) ^^^ keyWord key (4 * (t + 1) + i) := by
    intro i hi
    rw [keyWord, if_neg (by omega), if_neg (by omega), show 4 * (t + 1) + (i + 1) - 4 = 4 * t + (i + 1) by omega,
      show 4 * (t + 1) + (i + 1) - 1 = 4 * (t + 1) + i by omega, BitVec.xor_comm]
  have k1 := k 0 (by omega)
  have k2 := k 1 (by omega)
  have k3 := k 2 (by omega)
  apply entry_ext
  intro i hi
  unfold KeyExpansionSeq
  simp only [hc, ht, if_true]
  rw [entry_of _ hi, hw 0 (by omega), hw 1 (by omega), hw 2 (by omega), hw 3 (by omega), ← k0]
  rw [← k1, ← k2, ← k3, expandedKey, entry_of _ hi]
  have hi4 : i = 0 ∨ i = 1 ∨ i = 2 ∨ i = 3 := by omega
  rcases hi4 with rfl | rfl | rfl | rfl <;> rfl

/-- The registers before cycle `t`. -/
def regsAt (key msg : BitVec 128) (t : Nat) : Regs :=
  ⟨expandedKey key t, match t with | 0 => msg | t + 1 => roundInput key msg t, BitVec.ofNat 4 t⟩

theorem step_lt (key msg : BitVec 128) {t : Nat} (ht : t < 10) :
    aes11ccStep (regsAt key msg t) () = (regsAt key msg (t + 1), roundInput key msg t) := by
  have hc : (BitVec.ofNat 4 t).toNat = t := by rw [BitVec.toNat_ofNat]; omega
  have hn : BitVec.ofNat 4 t + 1 = BitVec.ofNat 4 (t + 1) := by
    apply BitVec.eq_of_toNat_eq
    simp
  have hout : (aes11ccStep (regsAt key msg t) ()).2 = roundInput key msg t := by
    unfold aes11ccStep regsAt
    cases t with
    | zero => rfl
    | succ t =>
      have h0 : BitVec.ofNat 4 (t + 1) ≠ 0 := by
        intro h
        rw [h] at hc
        simp at hc
      simp only [h0, hc, ht, if_true, if_false]
      rfl
  refine Prod.ext ?_ hout
  have : (aes11ccStep (regsAt key msg t) ()).1 = ⟨KeyExpansionSeq (regsAt key msg t).key (regsAt key msg t).counter,
    (aes11ccStep (regsAt key msg t) ()).2, (regsAt key msg t).counter + 1⟩ := rfl
  rw [this, hout]
  show Regs.mk _ _ _ = Regs.mk _ _ _
  rw [show (regsAt key msg t).key = expandedKey key t from rfl, show (regsAt key msg t).counter = BitVec.ofNat 4 t from rfl, nextKey key ht, hn]

theorem step_last (key msg : BitVec 128) : (aes11ccStep (regsAt key msg 10) ()).2 = aes1cc key msg := by
  unfold aes11ccStep regsAt
  have h0 : BitVec.ofNat 4 10 ≠ 0 := by decide
  have h1 : ¬ (BitVec.ofNat 4 10).toNat < 10 := by decide
  simp only [h0, h1, if_false]
  rfl

theorem run_from (key msg : BitVec 128) (t n : Nat) (h : t + n = 11) (hn : 0 < n) :
    runSeq aes11ccStep (regsAt key msg t) (List.replicate n ()) = (List.range' t (n - 1)).map (roundInput key msg) ++ [aes1cc key msg] := by
  induction n generalizing t with
  | zero => omega
  | succ n ih =>
    rw [List.replicate_succ, runSeq]
    cases n with
    | zero =>
      obtain rfl : t = 10 := by omega
      rw [step_last]
      rfl
    | succ n =>
      rw [step_lt key msg (by omega), ih (t + 1) (by omega) (by omega)]
      rfl

theorem aes11cc_eq (key msg : BitVec 128) : aes11cc key msg 11 = (List.range' 0 10).map (roundInput key msg) ++ [aes1cc key msg] := by
  have h0 : expandedKey key 0 = key := by
    apply entry_ext
    intro i hi
    rw [expandedKey, entry_of _ hi, keyWord, if_pos (by omega), show 4 * 0 + i = i by omega]
  have := run_from key msg 0 11 rfl (by omega)
  unfold regsAt at this
  rw [h0] at this
  exact this

end TinyGarble.Proof.Hdl.Aes
