import Verif.Model.BN
import Verif.Proof.Proc
import Verif.Proof.Semantics

/-! Lemmas on big numbers. -/

namespace TinyGarble.Proof
open TinyGarble Spec

theorem forLoop_congr {σ : Type} {f g : Nat → σ → σ} {n : Nat} (h : ∀ i < n, ∀ s, f i s = g i s) (s : σ) :
    forLoop f n s = forLoop g n s := by
  induction n with
  | zero => rfl
  | succ n ih => simp only [forLoop]; rw [ih fun i hi => h i (by omega), h n (by omega)]

theorem lt_numBits (n : Nat) : n < 2 ^ numBits n := by
  unfold numBits
  split
  · subst_vars; decide
  · exact Nat.lt_log2_self

theorem testBit_of_numBits_le {n i : Nat} (h : numBits n ≤ i) : n.testBit i = false :=
  Nat.testBit_lt_two_pow (Nat.lt_of_lt_of_le (lt_numBits n) (Nat.pow_le_pow_right (by omega) h))

theorem numBits_le {n k : Nat} (h : n < 2 ^ k) : numBits n ≤ k := by
  unfold numBits
  split
  · omega
  · rename_i h0
    have := Nat.log2_self_le h0
    have : 2 ^ n.log2 < 2 ^ k := by omega
    have := (Nat.pow_lt_pow_iff_right (by omega : 1 < 2)).1 this
    omega

theorem lt_numBits_of_testBit {n i : Nat} (h : n.testBit i = true) : i < numBits n := by
  by_cases h' : i < numBits n
  · exact h'
  · rw [testBit_of_numBits_le (by omega)] at h; cases h

/-! ## Bytes -/

theorem leBytes_length (k n : Nat) : (leBytes k n).length = k := by simp [leBytes]

theorem leBytes_succ (k n : Nat) : leBytes (k + 1) n = BitVec.ofNat 8 n :: leBytes k (n / 256) := by
  unfold leBytes
  rw [List.range_succ_eq_map, List.map_cons, List.map_map]
  simp only [Nat.pow_zero, Nat.div_one, List.cons.injEq, true_and]
  apply List.map_congr_left
  intro i _
  simp only [Function.comp, Nat.succ_eq_add_one]
  rw [Nat.pow_succ, Nat.mul_comm, Nat.div_div_eq_div_mul]

theorem leValue_leBytes (k n : Nat) : leValue (leBytes k n) = n % 256 ^ k := by
  induction k generalizing n with
  | zero => simp [leBytes, leValue, Nat.mod_one]
  | succ k ih =>
    rw [leBytes_succ, leValue, ih, Nat.pow_succ, Nat.mul_comm (256 ^ k), Nat.mod_mul]
    simp

theorem leValue_lt (l : List Byte) : leValue l < 256 ^ l.length := by
  induction l with
  | nil => simp [leValue]
  | cons b l ih =>
    simp only [leValue, List.length_cons, Nat.pow_succ]
    have := b.isLt
    omega

theorem leBytes_leValue (l : List Byte) : leBytes l.length (leValue l) = l := by
  induction l with
  | nil => rfl
  | cons b l ih =>
    rw [List.length_cons, leBytes_succ, leValue]
    have h : (b.toNat + 256 * leValue l) / 256 = leValue l := by have := b.isLt; omega
    rw [h, ih]
    congr 1
    apply BitVec.eq_of_toNat_eq
    rw [BitVec.toNat_ofNat]
    have := b.isLt
    omega

theorem leBytes_getElem (k n i : Nat) (h : i < (leBytes k n).length) : (leBytes k n)[i] = BitVec.ofNat 8 (n / 256 ^ i) := by
  simp [leBytes]

theorem lt_numBytes (n : Nat) : n < 256 ^ numBytes n := by
  have h1 := lt_numBits n
  have : (256 : Nat) = 2 ^ 8 := by decide
  rw [this, ← Nat.pow_mul]
  apply Nat.lt_of_lt_of_le h1
  apply Nat.pow_le_pow_right (by omega)
  unfold numBytes
  omega

theorem beValue_bnBytes (n : Nat) : beValue (bnBytes n) = n := by
  unfold beValue bnBytes
  rw [List.reverse_reverse, leValue_leBytes, Nat.mod_eq_of_lt (lt_numBytes n)]

theorem bnBytes_length (n : Nat) : (bnBytes n).length = numBytes n := by simp [bnBytes, leBytes_length]

/-! ## Conversions between blocks and numbers -/

theorem bytesBlock_blockBytes (w : Block) : bytesBlock (blockBytes w) = w := by
  unfold bytesBlock blockBytes
  rw [leValue_leBytes, Nat.mod_eq_of_lt (by have := w.isLt; omega)]
  simp

theorem blockBytes_bytesBlock {l : List Byte} (h : l.length = 16) : blockBytes (bytesBlock l) = l := by
  unfold bytesBlock blockBytes
  have h1 := leValue_lt l
  rw [h] at h1
  rw [BitVec.toNat_ofNat, Nat.mod_eq_of_lt (by omega)]
  have := leBytes_leValue l
  rwa [h] at this

theorem blockBytes_length (w : Block) : (blockBytes w).length = 16 := leBytes_length _ _

theorem blockToBN_eq (w : Block) : blockToBN w = w.toNat := by
  unfold blockToBN switchEndian beValue
  rw [blockBytes_bytesBlock (by rw [List.length_reverse, blockBytes_length]), List.reverse_reverse]
  unfold blockBytes
  rw [leValue_leBytes, Nat.mod_eq_of_lt (by have := w.isLt; omega)]

theorem bnToBlock_eq (n : Nat) : bnToBlock n = BitVec.ofNat 128 n := by
  unfold bnToBlock
  have : ((List.range 16).map fun i : Nat =>
      if 0 ≤ ((numBytes n : Nat) : Int) - (i : Int) - 1 then (bnBytes n).getD (numBytes n - i - 1) 0 else 0) = leBytes 16 n := by
    unfold leBytes
    apply List.map_congr_left
    intro i _
    by_cases h : 0 ≤ ((numBytes n : Nat) : Int) - (i : Int) - 1
    · rw [if_pos h]
      unfold bnBytes
      have hi : numBytes n - i - 1 < (leBytes (numBytes n) n).reverse.length := by
        rw [List.length_reverse, leBytes_length]; omega
      rw [List.getD_eq_getElem?_getD, List.getElem?_eq_getElem hi, Option.getD_some]
      rw [List.getElem_reverse, leBytes_getElem]
      congr 3
      rw [leBytes_length]; omega
    · rw [if_neg h]
      have h1 := lt_numBytes n
      have h2 : 256 ^ numBytes n ≤ 256 ^ i := Nat.pow_le_pow_right (by omega) (by omega)
      rw [Nat.div_eq_of_lt (by omega)]
      rfl
  simp only [this]
  unfold bytesBlock
  rw [leValue_leBytes]
  apply BitVec.eq_of_toNat_eq
  simp only [BitVec.toNat_ofNat]
  rw [show (256 : Nat) ^ 16 = 2 ^ 128 by decide, Nat.mod_mod]

/-! ## Bit loops -/

theorem bitLoop_testBit {b : Nat → Bool} (n r j : Nat) :
    (forLoop (fun i r => bnSetBit r i (b i)) n r).testBit j = if j < n then b j else r.testBit j := by
  induction n with
  | zero => simp [forLoop]
  | succ n ih =>
    simp only [forLoop]
    rw [bnSetBit_testBit, ih]
    by_cases h : j = n
    · subst h; simp
    · rw [if_neg h]
      by_cases h' : j < n
      · rw [if_pos h', if_pos (by omega)]
      · rw [if_neg h', if_neg (by omega)]

theorem ite_numBits_testBit (v i : Nat) : (if i < numBits v then v.testBit i else false) = v.testBit i := by
  split
  · rfl
  · exact (testBit_of_numBits_le (by omega)).symm

theorem bnXor_testBit (r bits v w j : Nat) :
    (bnXor r bits v w).testBit j = if j < bits then (v.testBit j ^^ w.testBit j) else r.testBit j := by
  unfold bnXor
  rw [forLoop_congr (g := fun i r => bnSetBit r i (v.testBit i ^^ w.testBit i)), bitLoop_testBit]
  intro i _ s
  simp only [ite_numBits_testBit]
  by_cases h : v.testBit i = w.testBit i
  · simp [h]
  · rw [if_pos h]; congr 1; revert h; cases v.testBit i <;> cases w.testBit i <;> simp

/-- A loop whose iteration `i` looks only at bit `i` of the original number. -/
theorem inPlace_testBit {f : Nat → Bool → Bool} (n r : Nat) : ∀ j,
    (forLoop (fun i r => bnSetBit r i (f i (r.testBit i))) n r).testBit j
      = if j < n then f j (r.testBit j) else r.testBit j := by
  induction n with
  | zero => simp [forLoop]
  | succ n ih =>
    intro j
    simp only [forLoop]
    rw [bnSetBit_testBit, ih, ih]
    by_cases h : j = n
    · subst h; simp
    · rw [if_neg h]
      by_cases h' : j < n
      · rw [if_pos h', if_pos (by omega)]
      · rw [if_neg h', if_neg (by omega)]

theorem bnXorInPlace_testBit (r bits w j : Nat) :
    (bnXorInPlace r bits w).testBit j = if j < bits then (r.testBit j ^^ w.testBit j) else r.testBit j := by
  have key : ∀ vLen, numBits r ≤ vLen → ∀ n j, (forLoop (fun i r =>
      if (if i < vLen then r.testBit i else false) ≠ (if i < numBits w then w.testBit i else false)
      then bnSetBit r i true else bnSetBit r i false) n r).testBit j
        = if j < n then (r.testBit j ^^ w.testBit j) else r.testBit j := by
    intro vLen hv n
    induction n with
    | zero => intro j; simp [forLoop]
    | succ n ih =>
      intro j
      simp only [forLoop]
      generalize hs : forLoop _ n r = s at ih ⊢
      have hn : s.testBit n = r.testBit n := by rw [ih, if_neg (by omega)]
      have e : (if n < vLen then s.testBit n else false) = r.testBit n := by
        rw [hn]
        split
        · rfl
        · exact (testBit_of_numBits_le (by omega)).symm
      rw [e, ite_numBits_testBit]
      have e2 : (if r.testBit n ≠ w.testBit n then bnSetBit s n true else bnSetBit s n false)
          = bnSetBit s n (r.testBit n ^^ w.testBit n) := by
        by_cases h : r.testBit n = w.testBit n
        · simp [h]
        · rw [if_pos h]; congr 1; revert h; cases r.testBit n <;> cases w.testBit n <;> simp
      rw [e2, bnSetBit_testBit, ih]
      by_cases h : j = n
      · subst h; simp
      · rw [if_neg h]
        by_cases h' : j < n
        · rw [if_pos h', if_pos (by omega)]
        · rw [if_neg h', if_neg (by omega)]
  exact key _ (Nat.le_refl _) bits j

theorem bnInvert_testBit (v bits j : Nat) :
    (bnInvert v bits).testBit j = if j < bits then !(v.testBit j) else v.testBit j := by
  have key : ∀ n j, (forLoop (fun i r => if numBits v ≤ i ∨ r.testBit i = false then bnSetBit r i true
      else bnSetBit r i false) n v).testBit j = if j < n then !(v.testBit j) else v.testBit j := by
    intro n
    induction n with
    | zero => intro j; simp [forLoop]
    | succ n ih =>
      intro j
      simp only [forLoop]
      generalize hs : forLoop _ n v = s at ih ⊢
      have hn : s.testBit n = v.testBit n := by rw [ih, if_neg (by omega)]
      have e2 : (if numBits v ≤ n ∨ s.testBit n = false then bnSetBit s n true else bnSetBit s n false)
          = bnSetBit s n (!(v.testBit n)) := by
        rw [hn]
        by_cases h : v.testBit n = true
        · have := lt_numBits_of_testBit h
          rw [h, if_neg (by simp; omega)]; rfl
        · rw [Bool.not_eq_true] at h
          rw [h, if_pos (Or.inr rfl)]; rfl
      rw [e2, bnSetBit_testBit, ih]
      by_cases h : j = n
      · subst h; simp
      · rw [if_neg h]
        by_cases h' : j < n
        · rw [if_pos h', if_pos (by omega)]
        · rw [if_neg h', if_neg (by omega)]
  exact key bits j

/-! ## Full ones and transposition -/

theorem leValue_ones (k : Nat) : leValue (List.replicate k 0xff#8) = 256 ^ k - 1 := by
  induction k with
  | zero => rfl
  | succ k ih =>
    rw [List.replicate_succ, leValue, ih, Nat.pow_succ]
    have : 0 < 256 ^ k := Nat.pow_pos (by omega)
    have : (0xff#8).toNat = 255 := rfl
    omega

theorem numBits_ones (k : Nat) : numBits (2 ^ k - 1) = k := by
  apply Nat.le_antisymm
  · exact numBits_le (by have : 0 < 2 ^ k := Nat.pow_pos (by omega); omega)
  · cases k with
    | zero => omega
    | succ k =>
      have : (2 ^ (k + 1) - 1).testBit k = true := by rw [Nat.testBit_two_pow_sub_one]; simp
      exact lt_numBits_of_testBit this

theorem bnFullOne_eq (bits : Nat) : bnFullOne bits = (2 ^ bits - 1, true) := by
  unfold bnFullOne beValue
  simp only [List.reverse_replicate, leValue_ones]
  have e : 256 ^ (bits / 8 + 1) = 2 ^ (8 * (bits / 8 + 1)) := by
    rw [show (256 : Nat) = 2 ^ 8 by decide, ← Nat.pow_mul]
  rw [e]
  unfold bnMaskBits bnTop
  rw [numBits_ones, if_neg (by omega)]
  congr 1
  apply Nat.eq_of_testBit_eq
  intro j
  rw [Nat.testBit_mod_two_pow, Nat.testBit_two_pow_sub_one, Nat.testBit_two_pow_sub_one]
  by_cases h : j < bits
  · simp [h]; omega
  · simp [h]

theorem bnTop_of_testBit {n i : Nat} (h : n.testBit i = true) : i / 64 < bnTop n := by
  have := lt_numBits_of_testBit h
  unfold bnTop
  omega

theorem switchRow_eq (v : Nat → Nat) (vLen i : Nat) :
    ∃ w, switchRow v vLen i = some w ∧ ∀ k, w.testBit k = if k < vLen then (v k).testBit i else false := by
  have key : ∀ n ≤ vLen, ∃ w, forLoop (fun k (w : Option Nat) => match w with
      | none => none
      | some w =>
        if (v k).testBit i then some (bnSetBit w k true)
        else
          let r := bnClearBit w k
          if r.2 then some r.1 else none) n (some (2 ^ vLen - 1)) = some w
      ∧ ∀ k, w.testBit k = if k < n then (v k).testBit i else decide (k < vLen) := by
    intro n
    induction n with
    | zero => intro _; exact ⟨_, rfl, fun k => by simp [Nat.testBit_two_pow_sub_one]⟩
    | succ n ih =>
      intro hn
      obtain ⟨w, h1, h2⟩ := ih (by omega)
      simp only [forLoop]
      rw [h1]
      have hset : ∀ b, (v n).testBit i = b → ∀ k, (bnSetBit w n b).testBit k
          = if k < n + 1 then (v k).testBit i else decide (k < vLen) := by
        intro b hb k
        rw [bnSetBit_testBit, h2]
        by_cases h : k = n
        · subst h; simp [hb]
        · rw [if_neg h]
          by_cases h' : k < n
          · rw [if_pos h', if_pos (by omega)]
          · rw [if_neg h', if_neg (by omega)]
      by_cases hb : (v n).testBit i = true
      · simp only [hb, if_true]
        exact ⟨_, rfl, hset true hb⟩
      · rw [Bool.not_eq_true] at hb
        have ht : w.testBit n = true := by rw [h2]; simp; omega
        have := bnTop_of_testBit ht
        have hc : bnClearBit w n = (bnSetBit w n false, true) := by
          unfold bnClearBit; rw [if_neg (by omega)]
        simp only [hb, hc]
        exact ⟨_, rfl, hset false hb⟩
  obtain ⟨w, h1, h2⟩ := key vLen (Nat.le_refl _)
  refine ⟨w, ?_, ?_⟩
  · unfold switchRow
    simp only [bnFullOne_eq]
    rw [if_neg (by simp)]
    exact h1
  · intro k
    rw [h2]
    by_cases h : k < vLen
    · rw [if_pos h, if_pos h]
    · rw [if_neg h, if_neg h]; simpa using h

theorem switchRowColumn_eq (v : Nat → Nat) (vLen bitLen : Nat) :
    ∃ w, switchRowColumn v vLen bitLen = some w
      ∧ ∀ i < bitLen, ∀ k, (w i).testBit k = if k < vLen then (v k).testBit i else false := by
  unfold switchRowColumn
  induction bitLen with
  | zero => exact ⟨_, rfl, fun i hi => absurd hi (by omega)⟩
  | succ n ih =>
    obtain ⟨w, h1, h2⟩ := ih
    obtain ⟨r, h3, h4⟩ := switchRow_eq v vLen n
    simp only [forLoop]
    rw [h1, h3]
    refine ⟨_, rfl, ?_⟩
    intro i hi k
    unfold upd
    by_cases h : i = n
    · subst h; simp only [if_true]; exact h4 k
    · rw [if_neg h]; exact h2 i (by omega) k

theorem switchRowColumnPair_eq (v : Nat → Nat → Nat) (vLen bitLen : Nat) :
    ∃ w, switchRowColumnPair v vLen bitLen = some w
      ∧ ∀ i < bitLen, ∀ j < 2, ∀ k, (w i j).testBit k = if k < vLen then (v k j).testBit i else false := by
  unfold switchRowColumnPair
  induction bitLen with
  | zero => exact ⟨_, rfl, fun i hi => absurd hi (by omega)⟩
  | succ n ih =>
    obtain ⟨w, h1, h2⟩ := ih
    obtain ⟨r, h3, h4⟩ := switchRow_eq (fun k => v k 0) vLen n
    obtain ⟨r', h3', h4'⟩ := switchRow_eq (fun k => v k 1) vLen n
    simp only [forLoop]
    rw [h1, h3, h3']
    refine ⟨_, rfl, ?_⟩
    intro i hi j hj k
    unfold upd
    by_cases h : i = n
    · subst h
      simp only [if_true]
      by_cases hj0 : j = 0
      · subst hj0; simp only [if_true]; exact h4 k
      · obtain rfl : j = 1 := by omega
        rw [if_neg hj0]; exact h4' k
    · rw [if_neg h]; exact h2 i (by omega) j hj k

/-! ## Transmission -/

theorem toInt32_of_lt {n : Nat} (h : n < 2 ^ 31) : toInt32 n = n := by
  unfold toInt32
  rw [BitVec.toInt_eq_toNat_of_lt]
  · rw [BitVec.toNat_ofNat, Nat.mod_eq_of_lt (by omega)]
  · rw [BitVec.toNat_ofNat, Nat.mod_eq_of_lt (by omega)]; omega

theorem dual_data {l : List Byte} {n : Nat} (hl : l.length = n) (h : n < 2 ^ 31) :
    Dual (sendData l n) (recvData n) () l l [] := by
  unfold sendData recvData
  rw [toInt32_of_lt h]
  subst hl
  by_cases h0 : (l.length : Int) ≤ 0
  · rw [if_pos h0, if_pos h0]
    have : l = [] := List.length_eq_zero_iff.1 (by omega)
    subst this
    exact .done
  · rw [if_neg h0, if_neg h0]
    simp only [Int.toNat_natCast, List.take_length]
    exact dual_bytes l

/-- The bytes of `SendBN`. -/
def bnWire (a : Nat) : List Byte := leBytes 4 (numBytes a) ++ bnBytes a

theorem dual_bn {a : Int} (h : numBytes a.natAbs < 2 ^ 31) :
    Dual (sendBN a) recvBN () (a.natAbs : Int) (bnWire a.natAbs) [] := by
  unfold sendBN recvBN
  have hv : leValue (leBytes 4 (numBytes a.natAbs)) = numBytes a.natAbs := by
    rw [leValue_leBytes, Nat.mod_eq_of_lt (by omega)]
  refine (dual_data (leBytes_length 4 _) (by decide)).bind (s' := bnBytes a.natAbs) (r' := []) ?_
  rw [hv, toInt32_of_lt h, if_neg (by omega)]
  have := (dual_data (bnBytes_length a.natAbs) h).bind (f := fun _ => .ret ())
    (g := fun bytes => .ret ((beValue bytes : Nat) : Int)) .done
  rw [bind_ret, beValue_bnBytes] at this
  simpa using this

end TinyGarble.Proof
