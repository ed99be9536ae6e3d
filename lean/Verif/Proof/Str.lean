import Verif.Spec.Str
import Verif.Proof.BN
import Mathlib.Tactic.Ring
import Mathlib.Data.List.Induction
import Mathlib.Data.List.Basic

/-!
# Numerals
-/

namespace TinyGarble.Proof
open TinyGarble Spec

theorem ofDigits_append (b : Nat) (l : List Nat) (d : Nat) : ofDigits b (l ++ [d]) = b * ofDigits b l + d := by
  simp [ofDigits]

theorem foldl_base (b : Nat) (f : Char → Nat) (s : List Char) (a : Nat) :
    s.foldl (fun a c => b * a + f c) a = a * b ^ s.length + s.foldl (fun a c => b * a + f c) 0 := by
  induction s generalizing a with
  | nil => simp
  | cons c s ih =>
    rw [List.foldl_cons, ih, List.foldl_cons, ih (b * 0 + f c), List.length_cons, Nat.pow_succ]
    simp only [Nat.mul_zero, Nat.zero_add, Nat.add_mul, Nat.add_assoc]
    congr 1
    rw [Nat.mul_comm b a, Nat.mul_assoc, Nat.mul_comm b]

theorem hexValue_append (s t : List Char) : hexValue (s ++ t) = hexValue s * 16 ^ t.length + hexValue t := by
  unfold hexValue
  rw [List.foldl_append, foldl_base]

theorem binValue_append (s t : List Char) : binValue (s ++ t) = binValue s * 2 ^ t.length + binValue t := by
  unfold binValue
  rw [List.foldl_append, foldl_base]

theorem binValue_lt (s : List Char) : binValue s < 2 ^ s.length := by
  induction s with
  | nil => simp [binValue]
  | cons c s ih =>
    rw [show c :: s = [c] ++ s from rfl, binValue_append, List.length_append, Nat.pow_add]
    have : binValue [c] ≤ 1 := by unfold binValue; simp; split <;> omega
    have h2 : binValue [c] * 2 ^ s.length ≤ 1 * 2 ^ s.length := Nat.mul_le_mul_right _ this
    simp only [List.length_singleton]
    omega

theorem hexDigits_succ (digit : Nat → Char) (k n : Nat) :
    hexDigits digit (k + 1) n = hexDigits digit k (n / 16) ++ [digit (n % 16)] := by
  unfold hexDigits
  rw [List.range_succ, List.map_append, List.map_singleton]
  congr 1
  · apply List.map_congr_left
    intro i hi
    have hi : i < k := by simpa using hi
    rw [Nat.div_div_eq_div_mul, ← Nat.pow_succ']
    congr 4
    omega
  · simp

theorem hexDigits_length (digit : Nat → Char) (k n : Nat) : (hexDigits digit k n).length = k := by
  simp [hexDigits]

theorem hexDigits_mem {digit : Nat → Char} {k n : Nat} {c : Char} (h : c ∈ hexDigits digit k n) :
    ∃ d < 16, c = digit d := by
  unfold hexDigits at h
  obtain ⟨i, -, rfl⟩ := List.mem_map.mp h
  exact ⟨_, Nat.mod_lt _ (by decide), rfl⟩

theorem upper_value : ∀ d < 16, hexAlphabet.idxOf (upperDigit d).toUpper = d := by decide
theorem lower_value : ∀ d < 16, hexAlphabet.idxOf (lowerDigit d).toUpper = d := by decide
theorem upper_mem : ∀ d < 16, upperDigit d ∈ hexAlphabet := by decide
theorem upper_isHex : ∀ d < 16, upperDigit d ∈ "0123456789ABCDEFabcdef".toList := by decide
theorem lower_isHex : ∀ d < 16, lowerDigit d ∈ "0123456789ABCDEFabcdef".toList := by decide
theorem hexDigit_eq : ∀ c ∈ "0123456789ABCDEFabcdef".toList, hexDigit? c = some (hexAlphabet.idxOf c.toUpper) := by decide
theorem hexIdx_lt : ∀ c ∈ "0123456789ABCDEFabcdef".toList, hexAlphabet.idxOf c.toUpper < 16 := by decide
theorem upper_ofIdx : ∀ c ∈ hexAlphabet, c ∈ "0123456789ABCDEFabcdef".toList := by decide

theorem hexDigits_value {digit : Nat → Char} (hd : ∀ d < 16, hexAlphabet.idxOf (digit d).toUpper = d) (k n : Nat) :
    hexValue (hexDigits digit k n) = n % 16 ^ k := by
  induction k generalizing n with
  | zero => simp [hexDigits, hexValue, Nat.mod_one]
  | succ k ih =>
    rw [hexDigits_succ, hexValue_append, ih]
    have : hexValue [digit (n % 16)] = n % 16 := by
      unfold hexValue
      simp only [List.foldl_cons, List.foldl_nil, Nat.mul_zero, Nat.zero_add]
      exact hd _ (Nat.mod_lt _ (by decide))
    rw [this, List.length_singleton, Nat.pow_one, Nat.pow_succ', Nat.mod_mul]
    omega

theorem le_numBytes {n : Nat} (h : n ≠ 0) : 256 ^ (numBytes n - 1) ≤ n := by
  have h1 : 2 ^ (numBits n - 1) ≤ n := by
    unfold numBits
    rw [if_neg h, Nat.add_sub_cancel]
    exact Nat.log2_self_le h
  calc 256 ^ (numBytes n - 1) = 2 ^ (8 * (numBytes n - 1)) := by rw [Nat.pow_mul]
    _ ≤ 2 ^ (numBits n - 1) := Nat.pow_le_pow_right (by decide) (by unfold numBytes; omega)
    _ ≤ n := h1

theorem numBytes_pos {n : Nat} (h : n ≠ 0) : 0 < numBytes n := by
  unfold numBytes numBits
  rw [if_neg h]; omega

theorem bn2hex_value (n : Nat) : hexValue (bn2hex n) = n := by
  unfold bn2hex
  split
  · next h => subst h; decide
  · rw [hexDigits_value upper_value, Nat.pow_mul]
    exact Nat.mod_eq_of_lt (lt_numBytes n)

theorem bn2hex_shows (n : Nat) : Shows (bn2hex n) n where
  value := bn2hex_value n
  digits := by
    intro c hc
    unfold bn2hex at hc
    split at hc
    · rw [List.mem_singleton] at hc; subst hc; decide
    · obtain ⟨d, hd, rfl⟩ := hexDigits_mem hc
      exact upper_mem d hd
  short := by
    unfold bn2hex
    by_cases h : n = 0
    · left; rw [if_pos h]
    · right
      rw [if_neg h, hexDigits_length]
      have hp := numBytes_pos h
      refine ⟨by omega, ?_, ?_⟩
      · intro e
        have := congrArg List.length e
        rw [hexDigits_length] at this
        simp at this
        omega
      · intro e
        obtain ⟨m, hm⟩ : ∃ m, numBytes n = m + 1 := ⟨_, (Nat.succ_pred_eq_of_pos hp).symm⟩
        have hlow := le_numBytes h
        have hhi := lt_numBytes n
        rw [hm] at hlow hhi e
        rw [Nat.add_sub_cancel] at hlow
        have e2 : (hexDigits upperDigit (2 * (m + 1)) n).take 2
            = [upperDigit (n / 16 ^ (2 * m + 1) % 16), upperDigit (n / 16 ^ (2 * m) % 16)] := by
          unfold hexDigits
          rw [show 2 * (m + 1) = 2 + 2 * m by omega, List.range_add, List.map_append, List.take_append_of_le_length (by simp),
            List.take_of_length_le (by simp)]
          simp only [List.range_succ, List.range_zero, List.nil_append, List.map_append, List.map_cons, List.map_nil,
            List.cons_append]
          rw [show 2 + 2 * m - 1 - 0 = 2 * m + 1 by omega, show 2 + 2 * m - 1 - 1 = 2 * m by omega]
        rw [e2] at e
        injection e with e3 e4
        injection e4 with e4 _
        have hz : ∀ d < 16, upperDigit d = '0' → d = 0 := by decide
        have a := hz _ (Nat.mod_lt _ (by decide)) e3
        have b := hz _ (Nat.mod_lt _ (by decide)) e4
        have hd : n / 16 ^ (2 * m) < 256 := by
          apply Nat.div_lt_of_lt_mul
          rw [Nat.pow_mul]
          rw [Nat.pow_succ] at hhi
          exact hhi
        have hge : 1 ≤ n / 16 ^ (2 * m) := by
          rw [Nat.le_div_iff_mul_le (Nat.pow_pos (by decide)), Nat.one_mul, Nat.pow_mul]
          exact hlow
        rw [Nat.pow_succ, ← Nat.div_div_eq_div_mul] at a
        omega

theorem hexValue_lt {s : List Char} (h : IsHex s) : hexValue s < 16 ^ s.length := by
  induction s with
  | nil => simp [hexValue]
  | cons c s ih =>
    rw [show c :: s = [c] ++ s from rfl, hexValue_append, List.length_append, Nat.pow_add]
    have h1 : hexValue [c] ≤ 15 := by
      have := hexIdx_lt c (h c (by simp))
      unfold hexValue
      simp only [List.foldl_cons, List.foldl_nil]
      omega
    have h2 : hexValue [c] * 16 ^ s.length ≤ 15 * 16 ^ s.length := Nat.mul_le_mul_right _ h1
    have h3 := ih fun x hx => h x (by simp [hx])
    simp only [List.length_singleton]
    omega

theorem leadingHex_isHex {s : List Char} (h : IsHex s) (t : List Char) (ht : ∀ c, t.head? = some c → hexDigit? c = none) :
    leadingHex (s ++ t) = s.map fun c => hexAlphabet.idxOf c.toUpper := by
  induction s with
  | nil =>
    cases t with
    | nil => rfl
    | cons c t => simp only [List.nil_append, leadingHex, ht c rfl, List.map_nil]
  | cons c s ih =>
    simp only [List.cons_append, leadingHex, hexDigit_eq c (h c (by simp)), List.map_cons]
    rw [ih fun x hx => h x (by simp [hx])]

theorem leadingHex_all {s : List Char} (h : IsHex s) : leadingHex s = s.map fun c => hexAlphabet.idxOf c.toUpper := by
  have := leadingHex_isHex h [] (by simp)
  rwa [List.append_nil] at this

theorem ofDigits_hex (s : List Char) : ofDigits 16 (s.map fun c => hexAlphabet.idxOf c.toUpper) = hexValue s := by
  unfold ofDigits hexValue
  rw [List.foldl_map]

theorem hex2bn_isHex {s : List Char} (h : IsHex s) : hex2bn s = hexValue s := by
  have : hex2bn s = ofDigits 16 (leadingHex s) := by
    unfold hex2bn
    split
    · next t => exact absurd (h '-' (by simp)) (by decide)
    · rfl
  rw [this, leadingHex_all h, ofDigits_hex]

theorem hexDigits_isHex {digit : Nat → Char} (hd : ∀ d < 16, digit d ∈ "0123456789ABCDEFabcdef".toList) (k n : Nat) :
    IsHex (hexDigits digit k n) := by
  intro c hc
  obtain ⟨d, h, rfl⟩ := hexDigits_mem hc
  exact hd d h

/-! ## Binary -/

theorem ofDigits_bin (s : List Char) : ofDigits 2 (s.map fun c => if c = '1' then 1 else 0) = binValue s := by
  unfold ofDigits binValue
  rw [List.foldl_map]

theorem isBin_all (s : List Char) : (s.all fun c => c = '0' || c = '1') = true ↔ IsBin s := by
  simp [IsBin]

theorem isBin_append {s t : List Char} (hs : IsBin s) (ht : IsBin t) : IsBin (s ++ t) := by
  intro c hc
  rcases List.mem_append.mp hc with h | h
  · exact hs c h
  · exact ht c h

theorem isBin_zeros (n : Nat) : IsBin (List.replicate n '0') := fun c hc => Or.inl (List.eq_of_mem_replicate hc)

theorem binValue_zeros (n : Nat) : binValue (List.replicate n '0') = 0 := by
  induction n with
  | zero => rfl
  | succ n ih => rw [List.replicate_succ', binValue_append, ih]; rfl

theorem bitset64_ok {s : List Char} (h : IsBin s) (hl : s.length ≤ 64) : bitset64 s = .ok (binValue s) := by
  unfold bitset64
  rw [if_pos ((isBin_all s).mpr h), List.take_of_length_le hl, ofDigits_bin]

/-- The `w` low-order binary digits of a number. -/
def binDigits (w n : Nat) : List Char := (List.range w).map fun i => bitChar (n.testBit (w - 1 - i))

theorem binDigits_length (w n : Nat) : (binDigits w n).length = w := by simp [binDigits]

theorem binDigits_isBin (w n : Nat) : IsBin (binDigits w n) := by
  intro c hc
  obtain ⟨i, -, rfl⟩ := List.mem_map.mp hc
  unfold bitChar
  split <;> simp

theorem binDigits_succ (w n : Nat) : binDigits (w + 1) n = binDigits w (n / 2) ++ [bitChar (n.testBit 0)] := by
  unfold binDigits
  rw [List.range_succ, List.map_append, List.map_singleton]
  congr 1
  · apply List.map_congr_left
    intro i hi
    have hi : i < w := by simpa using hi
    rw [show w + 1 - 1 - i = (w - 1 - i) + 1 by omega, Nat.testBit_succ]
  · simp

theorem binDigits_value (w n : Nat) : binValue (binDigits w n) = n % 2 ^ w := by
  induction w generalizing n with
  | zero => simp [binDigits, binValue, Nat.mod_one]
  | succ w ih =>
    rw [binDigits_succ, binValue_append, ih, List.length_singleton, Nat.pow_one, Nat.pow_succ', Nat.mod_mul]
    have : binValue [bitChar (n.testBit 0)] = n % 2 := by
      rw [Nat.testBit_zero]
      rcases Nat.mod_two_eq_zero_or_one n with h | h <;> simp [h, bitChar, binValue]
    rw [this]
    omega

/-- A binary numeral is determined by its length and value. -/
theorem eq_binDigits {s : List Char} (h : IsBin s) : s = binDigits s.length (binValue s) := by
  induction s using List.reverseRecOn with
  | nil => rfl
  | append_singleton s c ih =>
    rw [List.length_append, List.length_singleton, binDigits_succ, binValue_append, List.length_singleton, Nat.pow_one]
    have hb : binValue [c] ≤ 1 := by unfold binValue; simp; split <;> omega
    rw [show (binValue s * 2 + binValue [c]) / 2 = binValue s by omega, ← ih fun x hx => h x (by simp [hx])]
    congr 2
    rw [Nat.testBit_zero, show (binValue s * 2 + binValue [c]) % 2 = binValue [c] by omega]
    rcases h c (by simp) with rfl | rfl <;> rfl

theorem binValue_cons (c : Char) (s : List Char) :
    binValue (c :: s) = (if c = '1' then 1 else 0) * 2 ^ s.length + binValue s := by
  rw [show c :: s = [c] ++ s from rfl, binValue_append]
  simp [binValue]

theorem twosLoop_spec {s : List Char} (h : IsBin s) :
    (twosLoop s).1.length = s.length ∧ IsBin (twosLoop s).1 ∧ ((twosLoop s).2 = true ↔ binValue s ≠ 0)
    ∧ binValue (twosLoop s).1 = (2 ^ s.length - binValue s) % 2 ^ s.length := by
  induction s with
  | nil => exact ⟨rfl, fun _ h => (by cases h), (by simp [twosLoop, binValue]), (by simp [twosLoop, binValue])⟩
  | cons c s ih =>
    obtain ⟨h1, h2, h3, h4⟩ := ih fun x hx => h x (by simp [hx])
    have hlt := binValue_lt s
    have hpos : 0 < 2 ^ s.length := Nat.pow_pos (by decide)
    refine ⟨by simp [twosLoop, h1], ?_, ?_, ?_⟩
    · intro x hx
      simp only [twosLoop, List.mem_cons] at hx
      rcases hx with rfl | hx
      · split
        · split <;> simp
        · exact h c (by simp)
      · exact h2 x hx
    · rw [binValue_cons]
      rcases h c (by simp) with rfl | rfl
      · simp [twosLoop, h3]
      · simp [twosLoop]
    · simp only [twosLoop]
      rw [binValue_cons, binValue_cons, h1, h4, List.length_cons, Nat.pow_succ]
      by_cases hz : binValue s = 0
      · have : (twosLoop s).2 = false := by
          cases e : (twosLoop s).2
          · rfl
          · exact absurd hz (h3.mp e)
        rw [this, hz]
        rcases h c (by simp) with rfl | rfl
        · simp
        · simp
          omega
      · rw [h3.mpr hz, Nat.mod_eq_of_lt (show 2 ^ s.length - binValue s < 2 ^ s.length by omega)]
        rcases h c (by simp) with rfl | rfl
        · simp
          rw [Nat.mod_eq_of_lt (by omega)]; omega
        · simp
          omega

theorem head_bit (c : Char) (s : List Char) : (binValue (c :: s)).testBit s.length = decide (c = '1') := by
  have hlt := binValue_lt s
  have hpos : 0 < 2 ^ s.length := Nat.pow_pos (by decide)
  rw [binValue_cons, Nat.testBit_eq_decide_div_mod_eq]
  by_cases h : c = '1'
  · simp only [h, if_true, Nat.one_mul]
    rw [Nat.add_div_left _ hpos, Nat.div_eq_of_lt hlt]
    rfl
  · simp only [h, if_false, Nat.zero_mul, Nat.zero_add]
    rw [Nat.div_eq_of_lt hlt]
    rfl

theorem bin2dec_pos (s : List Char) (b : Bool) : bin2dec ('0' :: s) b
    = (bitset64 ('0' :: s)).bind fun n => .ok (BitVec.ofNat 64 n).toInt := by
  cases b <;> rfl

theorem bin2dec_neg (s : List Char) : bin2dec ('1' :: s) true
    = (bitset64 (towsComplement ('1' :: s))).bind fun n =>
      if (BitVec.ofNat 64 n).toInt = -2 ^ 63 then .undef else .ok (-(BitVec.ofNat 64 n).toInt) := rfl

theorem bin2dec_unsigned (s : List Char) : bin2dec s false
    = (bitset64 s).bind fun n => .ok (BitVec.ofNat 64 n).toInt := by
  unfold bin2dec
  simp

theorem toInt_small {n : Nat} (h : n < 2 ^ 63) : (BitVec.ofNat 64 n).toInt = n := by
  rw [BitVec.toInt_eq_toNat_of_lt]
  · rw [BitVec.toNat_ofNat, Nat.mod_eq_of_lt (by omega)]
  · rw [BitVec.toNat_ofNat, Nat.mod_eq_of_lt (by omega)]
    omega

theorem bin2dec_signed {s : List Char} (h : IsBin s) (hl : s.length ≤ 64) (hu : ¬ (s.length = 64 ∧ binValue s = 2 ^ 63)) :
    bin2dec s true = .ok (signed s.length (binValue s)) := by
  cases s with
  | nil => decide
  | cons c s =>
    have hlt := binValue_lt (c :: s)
    have hlt' := binValue_lt s
    have hc := binValue_cons c s
    have hbit := head_bit c s
    have hp : 2 ^ (c :: s).length = 2 * 2 ^ s.length := by rw [List.length_cons, Nat.pow_succ']
    have hl' : s.length ≤ 63 := by simpa using hl
    have hle : 2 ^ s.length ≤ 2 ^ 63 := Nat.pow_le_pow_right (by decide) hl'
    have hpos : 0 < 2 ^ s.length := Nat.pow_pos (by decide)
    unfold signed
    rw [Nat.mod_eq_of_lt hlt, show (c :: s).length - 1 = s.length from rfl, hbit]
    rcases h c (by simp) with rfl | rfl
    · rw [bin2dec_pos, bitset64_ok h hl, if_neg (by simp)]
      simp only [Outcome.bind]
      rw [toInt_small]
      simp at hc; omega
    · obtain ⟨a1, a2, -, a4⟩ := twosLoop_spec h
      rw [bin2dec_neg, show towsComplement ('1' :: s) = (twosLoop ('1' :: s)).1 from rfl, bitset64_ok a2 (by omega), a4,
        if_pos (by simp), hp]
      simp only [if_true, Nat.one_mul] at hc
      have hb : 2 * 2 ^ s.length - binValue ('1' :: s) < 2 ^ 63 := by
        by_cases e : s.length = 63
        · have : binValue ('1' :: s) ≠ 2 ^ 63 := fun e' => hu ⟨by simp [e], e'⟩
          rw [e] at hc ⊢
          omega
        · have : 2 ^ s.length < 2 ^ 63 := Nat.pow_lt_pow_right (by decide) (by omega)
          omega
      simp only [Outcome.bind]
      rw [Nat.mod_eq_of_lt (show 2 * 2 ^ s.length - binValue ('1' :: s) < 2 * 2 ^ s.length by omega), toInt_small hb,
        if_neg (by omega)]
      congr 1
      have : ((2 : Int) ^ ('1' :: s).length) = ((2 * 2 ^ s.length : Nat) : Int) := by rw [← hp]; push_cast; rfl
      rw [this]
      omega

theorem dec2bin_eq (v : BitVec 64) (w : BitVec 16) (h : w.toNat ≤ 64) : dec2bin v w = .ok (binDigits w.toNat v.toNat) := by
  unfold dec2bin
  rw [if_neg (by omega)]
  congr 1
  unfold bits64 binDigits
  apply List.ext_getElem
  · simp; omega
  · intro i h1 h2
    simp only [List.getElem_drop, List.getElem_map, List.getElem_range]
    rw [← BitVec.testBit_toNat]
    congr 2
    simp at h1 h2
    omega

theorem nibbleBin_spec {c : Char} (h : c ∈ "0123456789ABCDEFabcdef".toList) :
    (nibbleBin c).length = 4 ∧ IsBin (nibbleBin c) ∧ binValue (nibbleBin c) = hexAlphabet.idxOf c.toUpper := by
  have key : ∀ c ∈ "0123456789ABCDEFabcdef".toList, (nibbleBin c).length = 4
    ∧ (nibbleBin c).all (fun c => c = '0' || c = '1') = true ∧ binValue (nibbleBin c) = hexAlphabet.idxOf c.toUpper := by
    decide
  obtain ⟨a, b, d⟩ := key c h
  exact ⟨a, (isBin_all _).mp b, d⟩

theorem hex2bin_spec {s : List Char} (h : IsHex s) (hl : s.length < 2 ^ 16) :
    (hex2bin s).length = 4 * s.length ∧ IsBin (hex2bin s) ∧ binValue (hex2bin s) = hexValue s := by
  unfold hex2bin
  rw [Nat.mod_eq_of_lt hl, List.take_length]
  clear hl
  induction s using List.reverseRecOn with
  | nil => exact ⟨rfl, fun _ h => (by cases h), rfl⟩
  | append_singleton s c ih =>
    obtain ⟨a, b, d⟩ := ih fun x hx => h x (by simp [hx])
    obtain ⟨a', b', d'⟩ := nibbleBin_spec (h c (by simp))
    rw [List.flatMap_append, List.flatMap_singleton, List.length_append, List.length_append, a, a', binValue_append, a',
      hexValue_append, d, d']
    refine ⟨by simp; omega, isBin_append b b', ?_⟩
    simp [hexValue]

theorem nibbleHex_spec {b : List Char} (hl : b.length = 4) (h : IsBin b) :
    ∃ c ∈ hexAlphabet, nibbleHex b = [c] ∧ hexAlphabet.idxOf c.toUpper = binValue b := by
  have hlt := binValue_lt b
  rw [hl] at hlt
  unfold nibbleHex
  rw [if_pos ⟨hl, (isBin_all b).mpr h⟩, ofDigits_bin]
  exact ⟨_, upper_mem _ hlt, rfl, upper_value _ hlt⟩

theorem chunks_spec (m : Nat) (t : List Char) (hl : t.length = 4 * m) (h : IsBin t) :
    ((List.range m).flatMap fun i => nibbleHex ((t.drop (4 * i)).take 4)).length = m
    ∧ (∀ c ∈ (List.range m).flatMap fun i => nibbleHex ((t.drop (4 * i)).take 4), c ∈ hexAlphabet)
    ∧ hexValue ((List.range m).flatMap fun i => nibbleHex ((t.drop (4 * i)).take 4)) = binValue t := by
  induction m generalizing t with
  | zero =>
    have : t = [] := List.eq_nil_of_length_eq_zero (by omega)
    subst this
    exact ⟨rfl, fun _ h => (by cases h), rfl⟩
  | succ m ih =>
    have ha : (t.take (4 * m)).length = 4 * m := by simp; omega
    have hb : (t.drop (4 * m)).length = 4 := by simp; omega
    have e : t = t.take (4 * m) ++ t.drop (4 * m) := (List.take_append_drop _ _).symm
    obtain ⟨i1, i2, i3⟩ := ih (t.take (4 * m)) ha fun c hc => h c (List.mem_of_mem_take hc)
    have ec : ((List.range m).flatMap fun i => nibbleHex (((t.take (4 * m)).drop (4 * i)).take 4))
        = (List.range m).flatMap fun i => nibbleHex ((t.drop (4 * i)).take 4) := by
      apply List.flatMap_congr
      intro i hi
      have hi : i < m := by simpa using hi
      rw [List.drop_take, List.take_take, Nat.min_eq_left (by omega)]
    rw [ec] at i1 i2 i3
    obtain ⟨c, hc, hn, hv⟩ := nibbleHex_spec hb fun c hc => h c (List.mem_of_mem_drop hc)
    have et : (t.drop (4 * m)).take 4 = t.drop (4 * m) := List.take_of_length_le (by omega)
    rw [List.range_succ, List.flatMap_append, List.flatMap_singleton, et, hn]
    refine ⟨by rw [List.length_append, i1]; rfl, ?_, ?_⟩
    · intro x hx
      rcases List.mem_append.mp hx with hx | hx
      · exact i2 x hx
      · rw [List.mem_singleton] at hx; subst hx; exact hc
    · rw [hexValue_append, i3]
      conv => rhs; rw [e]
      rw [binValue_append, hb, ← hv]
      simp [hexValue]

theorem bin2hex_spec {s : List Char} (h : IsBin s) (hl : s.length + 4 < 2 ^ 16) :
    (bin2hex s).length = s.length / 4 + 1 ∧ (∀ c ∈ bin2hex s, c ∈ hexAlphabet) ∧ hexValue (bin2hex s) = binValue s := by
  unfold bin2hex
  simp only
  rw [Nat.mod_eq_of_lt (show s.length < 2 ^ 16 by omega)]
  have e1 : (List.replicate (4 - s.length % 4) '0' ++ s).length = 4 * (s.length / 4 + 1) := by simp; omega
  rw [e1, Nat.mod_eq_of_lt (show 4 * (s.length / 4 + 1) < 2 ^ 16 by omega),
    show (4 * (s.length / 4 + 1) + 3) / 4 = s.length / 4 + 1 by omega]
  obtain ⟨a, b, c⟩ := chunks_spec _ _ e1 (isBin_append (isBin_zeros _) h)
  refine ⟨a, b, ?_⟩
  rw [c, binValue_append, binValue_zeros, Nat.zero_mul, Nat.zero_add]

theorem isHex_of_upper {s : List Char} (h : ∀ c ∈ s, c ∈ hexAlphabet) : IsHex s := fun c hc => upper_ofIdx c (h c hc)

theorem binValue_field {b : List Char} (p w : Nat) (h : p + w ≤ b.length) :
    binValue ((b.drop p).take w) = binValue b / 2 ^ (b.length - p - w) % 2 ^ w := by
  have e : b = b.take p ++ ((b.drop p).take w ++ (b.drop p).drop w) := by
    rw [List.take_append_drop, List.take_append_drop]
  have l1 : ((b.drop p).take w).length = w := by simp; omega
  have l2 : ((b.drop p).drop w).length = b.length - p - w := by simp; omega
  have h1 := binValue_lt ((b.drop p).drop w)
  have h2 := binValue_lt ((b.drop p).take w)
  rw [l1] at h2
  rw [l2] at h1
  have ev : binValue b = binValue (b.take p) * 2 ^ (w + (b.length - p - w))
      + (binValue ((b.drop p).take w) * 2 ^ (b.length - p - w) + binValue ((b.drop p).drop w)) := by
    conv => lhs; rw [e]
    rw [binValue_append, binValue_append, List.length_append, l1, l2]
  rw [ev, Nat.pow_add, ← Nat.mul_assoc, ← Nat.add_assoc, ← Nat.add_mul, Nat.mul_comm _ (2 ^ (b.length - p - w)),
    Nat.mul_add_div (Nat.pow_pos (by decide)), Nat.div_eq_of_lt h1, Nat.add_zero, Nat.mul_comm, Nat.mul_add_mod,
    Nat.mod_eq_of_lt h2]

theorem fitLeft_spec {s : List Char} (h : IsBin s) (len : Nat) :
    (fitLeft s len).length = len ∧ IsBin (fitLeft s len) ∧ binValue (fitLeft s len) = binValue s % 2 ^ len := by
  unfold fitLeft
  split
  · next hl =>
    refine ⟨by simp; omega, isBin_append (isBin_zeros _) h, ?_⟩
    rw [binValue_append, binValue_zeros, Nat.zero_mul, Nat.zero_add, Nat.mod_eq_of_lt]
    exact Nat.lt_of_lt_of_le (binValue_lt s) (Nat.pow_le_pow_right (by decide) (by omega))
  · next hl =>
    refine ⟨by simp; omega, fun c hc => h c (List.mem_of_mem_drop hc), ?_⟩
    have := binValue_field (b := s) (s.length - len) len (by omega)
    rw [List.take_of_length_le (by simp; omega), show s.length - (s.length - len) - len = 0 by omega, Nat.pow_zero,
      Nat.div_one] at this
    exact this

end TinyGarble.Proof
