import Verif.Proof.Aes

/-!
# Rounds of the cipher, and their inverse
-/

namespace TinyGarble
open Spec

/-- The AES state held in a register (FIPS-197, 3.4): byte `4 c + r` is in row `r`, column `c`. -/
def stateOf (x : Block) : Aes.State := fun r c => byteAt x (4 * c.val + r.val)

theorem ext_state {x y : Block} (h : stateOf x = stateOf y) : x = y := by
  apply ext_bytes
  intro i hi
  have := congrFun (congrFun h ⟨i % 4, by omega⟩) ⟨i / 4, by omega⟩
  simp only [stateOf] at this
  rwa [Nat.div_add_mod] at this

theorem stateOf_ofBytes (f : Nat → Byte) (r c : Fin 4) : stateOf (ofBytes f) r c = f (4 * c.val + r.val) := by
  unfold stateOf
  rw [byteAt_ofBytes _ (by omega)]

theorem stateOf_subBytes (x : Block) : stateOf (subBytes x) = Aes.subBytes (stateOf x) := by
  funext r c
  rw [subBytes, stateOf_ofBytes, subByte_eq]; rfl

theorem stateOf_shiftRows (x : Block) : stateOf (shiftRows x) = Aes.shiftRows (stateOf x) := by
  funext r c
  rw [shiftRows, stateOf_ofBytes]
  unfold Aes.shiftRows stateOf
  congr 1
  rw [Fin.val_add]; omega

theorem columnByte_state (x : Block) (r c : Fin 4) (k : Fin 4) :
    columnByte x (4 * c.val + r.val) k.val = stateOf x (r + k) c := by
  unfold columnByte stateOf
  congr 1
  rw [Fin.val_add]; omega

theorem stateOf_mixColumns (x : Block) : stateOf (mixColumns x) = Aes.mixColumns (stateOf x) := by
  funext r c
  rw [mixColumns, stateOf_ofBytes]
  dsimp only
  have h0 := columnByte_state x r c 0
  have h1 := columnByte_state x r c 1
  have h2 := columnByte_state x r c 2
  have h3 := columnByte_state x r c 3
  rw [show ((0 : Fin 4) : Nat) = 0 from rfl, Fin.add_zero] at h0
  rw [show ((1 : Fin 4) : Nat) = 1 from rfl] at h1
  rw [show ((2 : Fin 4) : Nat) = 2 from rfl] at h2
  rw [show ((3 : Fin 4) : Nat) = 3 from rfl] at h3
  rw [h0, h1, h2, h3]
  unfold Aes.mixColumns
  rw [mul_two, mul_three]

/-- `ShiftRows` and `SubBytes` commute. -/
theorem sub_shift (s : Aes.State) : Aes.subBytes (Aes.shiftRows s) = Aes.shiftRows (Aes.subBytes s) := rfl

/-- The words of the round keys. -/
def wordsOf (k : Nat → Block) : Nat → Aes.Word := fun i r => byteAt (k (i / 4)) (4 * (i % 4) + r.val)

theorem stateOf_xor (x : Block) (k : Nat → Block) (n : Nat) :
    stateOf (x ^^^ k n) = Aes.addRoundKey (wordsOf k) n (stateOf x) := by
  funext r c
  unfold stateOf Aes.addRoundKey wordsOf
  rw [byteAt_xor]
  congr 2
  · congr 1; omega
  · omega

theorem stateOf_aesenc (x : Block) (k : Nat → Block) (n : Nat) :
    stateOf (aesenc x (k n))
      = Aes.addRoundKey (wordsOf k) n (Aes.mixColumns (Aes.shiftRows (Aes.subBytes (stateOf x)))) := by
  rw [aesenc, stateOf_xor, stateOf_mixColumns, stateOf_subBytes, stateOf_shiftRows, sub_shift]

theorem stateOf_aesenclast (x : Block) (k : Nat → Block) (n : Nat) :
    stateOf (aesenclast x (k n)) = Aes.addRoundKey (wordsOf k) n (Aes.shiftRows (Aes.subBytes (stateOf x))) := by
  rw [aesenclast, stateOf_xor, stateOf_subBytes, stateOf_shiftRows, sub_shift]

theorem stateOf_rounds (x : Block) (k : Nat → Block) (n : Nat) :
    stateOf (forLoop (fun j tmp => aesenc tmp (k (j + 1))) n (x ^^^ k 0))
      = Aes.rounds (wordsOf k) (stateOf x) n := by
  induction n with
  | zero => exact stateOf_xor x k 0
  | succ n ih => rw [forLoop, stateOf_aesenc, ih]; rfl

theorem stateOf_encrypt (x : Block) (key : AesKey) :
    stateOf (aesEncrypt x key) = Aes.cipher key.rounds (wordsOf key.rdKey) (stateOf x) := by
  unfold aesEncrypt
  dsimp only
  rw [stateOf_aesenclast, stateOf_rounds]; rfl

/-! ### Blocks of the array -/

theorem forLoop_upd {α : Type} (f : α → α) (n : Nat) (a : Nat → α) (i : Nat) :
    forLoop (fun i b => upd b i (f (b i))) n a i = if i < n then f (a i) else a i := by
  induction n with
  | zero => simp [forLoop]
  | succ n ih =>
    simp only [forLoop, upd]
    by_cases h : i = n
    · subst h
      have : forLoop (fun i b => upd b i (f (b i))) i a i = a i := by rw [ih]; simp
      simp [this]
    · rw [if_neg h, ih]
      by_cases h' : i < n
      · rw [if_pos h', if_pos (by omega)]
      · rw [if_neg h', if_neg (by omega)]

theorem forLoop_rounds {α β : Type} (f : β → α → α) (k : Nat → β) (n m : Nat) (a : Nat → α) (i : Nat) :
    forLoop (fun j b => forLoop (fun i b => upd b i (f (k j) (b i))) n b) m a i
      = if i < n then forLoop (fun j x => f (k j) x) m (a i) else a i := by
  induction m with
  | zero => simp [forLoop]
  | succ m ih =>
    rw [forLoop, forLoop_upd (f (k m)), ih]
    by_cases h : i < n <;> simp [h, forLoop]

theorem ecbEncrypt_apply (blks : Nat → Block) (n : Nat) (key : AesKey) (i : Nat) :
    aesEcbEncryptBlks blks n key i = if i < n then aesEncrypt (blks i) key else blks i := by
  unfold aesEcbEncryptBlks aesEncrypt
  dsimp only
  rw [forLoop_upd (fun x => aesenclast x (key.rdKey key.rounds)),
    forLoop_rounds (fun k x => aesenc x k) (fun j => key.rdKey (j + 1)), forLoop_upd (fun x => x ^^^ key.rdKey 0)]
  by_cases h : i < n <;> simp [h]

theorem ecbDecrypt_apply (blks : Nat → Block) (n : Nat) (key : AesKey) (i : Nat) :
    aesEcbDecryptBlks blks n key i = if i < n then aesDecrypt (blks i) key else blks i := by
  unfold aesEcbDecryptBlks aesDecrypt
  dsimp only
  rw [forLoop_upd (fun x => aesdeclast x (key.rdKey key.rounds)),
    forLoop_rounds (fun k x => aesdec x k) (fun j => key.rdKey (j + 1)), forLoop_upd (fun x => x ^^^ key.rdKey 0)]
  by_cases h : i < n <;> simp [h]

/-! ### Decryption -/

theorem invSub_sub (x : Block) : invSubBytes (subBytes x) = x := by
  apply ext_bytes
  intro i hi
  rw [invSubBytes, byteAt_ofBytes _ hi, subBytes, byteAt_ofBytes _ hi, invSubByte_subByte]

theorem invShift_shift (x : Block) : invShiftRows (shiftRows x) = x := by
  apply ext_bytes
  intro i hi
  rw [invShiftRows, byteAt_ofBytes _ hi, shiftRows, byteAt_ofBytes _ (Nat.mod_lt _ (by omega))]
  congr 1
  omega

/-- Substitution and row shift commute. -/
theorem invSub_invShift (x : Block) : invSubBytes (invShiftRows x) = invShiftRows (invSubBytes x) := by
  apply ext_bytes
  intro i hi
  rw [invSubBytes, byteAt_ofBytes _ hi, invShiftRows, byteAt_ofBytes _ hi, invShiftRows, byteAt_ofBytes _ hi,
    invSubBytes, byteAt_ofBytes _ (Nat.mod_lt _ (by omega))]

theorem columnByte_ofBytes (f : Nat → Byte) {i : Nat} (k : Nat) (hi : i < 16) :
    columnByte (ofBytes f) i k = f (i / 4 * 4 + (i + k) % 4) := by
  rw [columnByte, byteAt_ofBytes _ (by omega)]

theorem columnByte_column (x : Block) (i k j : Nat) :
    columnByte x (i / 4 * 4 + (i + k) % 4) j = columnByte x i (k + j) := by
  unfold columnByte
  congr 1
  omega

theorem columnByte_add4 (x : Block) (i k : Nat) : columnByte x i (k + 4) = columnByte x i k := by
  unfold columnByte
  congr 2
  omega

def m14 (a : Byte) : Byte := double8 (double8 (double8 a)) ^^^ double8 (double8 a) ^^^ double8 a
def m11 (a : Byte) : Byte := double8 (double8 (double8 a)) ^^^ double8 a ^^^ a
def m13 (a : Byte) : Byte := double8 (double8 (double8 a)) ^^^ double8 (double8 a) ^^^ a
def m9 (a : Byte) : Byte := double8 (double8 (double8 a)) ^^^ a
def m3 (a : Byte) : Byte := double8 a ^^^ a

theorem m14_xor (a b : Byte) : m14 (a ^^^ b) = m14 a ^^^ m14 b := by simp only [m14, double8_xor]; ac_rfl
theorem m11_xor (a b : Byte) : m11 (a ^^^ b) = m11 a ^^^ m11 b := by simp only [m11, double8_xor]; ac_rfl
theorem m13_xor (a b : Byte) : m13 (a ^^^ b) = m13 a ^^^ m13 b := by simp only [m13, double8_xor]; ac_rfl
theorem m9_xor (a b : Byte) : m9 (a ^^^ b) = m9 a ^^^ m9 b := by simp only [m9, double8_xor]; ac_rfl

theorem invMix_group1 (a : Byte) : m14 (double8 a) ^^^ m11 a ^^^ m13 a ^^^ m9 (m3 a) = a := by
  have : ∀ a : Fin 256, (fun a : Byte => m14 (double8 a) ^^^ m11 a ^^^ m13 a ^^^ m9 (m3 a)) (BitVec.ofFin a)
    = BitVec.ofFin a := by decide +kernel
  exact this a.toFin

theorem invMix_group2 (a : Byte) : m14 (m3 a) ^^^ m11 (double8 a) ^^^ m13 a ^^^ m9 a = 0#8 := by
  have : ∀ a : Fin 256, (fun a : Byte => m14 (m3 a) ^^^ m11 (double8 a) ^^^ m13 a ^^^ m9 a) (BitVec.ofFin a)
    = 0#8 := by decide +kernel
  exact this a.toFin

theorem invMix_group3 (a : Byte) : m14 a ^^^ m11 (m3 a) ^^^ m13 (double8 a) ^^^ m9 a = 0#8 := by
  have : ∀ a : Fin 256, (fun a : Byte => m14 a ^^^ m11 (m3 a) ^^^ m13 (double8 a) ^^^ m9 a) (BitVec.ofFin a)
    = 0#8 := by decide +kernel
  exact this a.toFin

theorem invMix_group4 (a : Byte) : m14 a ^^^ m11 a ^^^ m13 (m3 a) ^^^ m9 (double8 a) = 0#8 := by
  have : ∀ a : Fin 256, (fun a : Byte => m14 a ^^^ m11 a ^^^ m13 (m3 a) ^^^ m9 (double8 a)) (BitVec.ofFin a)
    = 0#8 := by decide +kernel
  exact this a.toFin

theorem invMix_column (a b c d : Byte) :
    m14 (double8 a ^^^ m3 b ^^^ c ^^^ d) ^^^ m11 (double8 b ^^^ m3 c ^^^ d ^^^ a)
      ^^^ m13 (double8 c ^^^ m3 d ^^^ a ^^^ b) ^^^ m9 (double8 d ^^^ m3 a ^^^ b ^^^ c) = a := by
  have h : m14 (double8 a ^^^ m3 b ^^^ c ^^^ d) ^^^ m11 (double8 b ^^^ m3 c ^^^ d ^^^ a)
      ^^^ m13 (double8 c ^^^ m3 d ^^^ a ^^^ b) ^^^ m9 (double8 d ^^^ m3 a ^^^ b ^^^ c)
      = (m14 (double8 a) ^^^ m11 a ^^^ m13 a ^^^ m9 (m3 a)) ^^^ (m14 (m3 b) ^^^ m11 (double8 b) ^^^ m13 b ^^^ m9 b)
        ^^^ (m14 c ^^^ m11 (m3 c) ^^^ m13 (double8 c) ^^^ m9 c) ^^^ (m14 d ^^^ m11 d ^^^ m13 (m3 d) ^^^ m9 (double8 d)) := by
    simp only [m14_xor, m11_xor, m13_xor, m9_xor]; ac_rfl
  rw [h, invMix_group1, invMix_group2, invMix_group3, invMix_group4]
  simp

theorem invMixColumns_byte (x : Block) {i : Nat} (hi : i < 16) :
    byteAt (invMixColumns x) i = m14 (columnByte x i 0) ^^^ m11 (columnByte x i 1) ^^^ m13 (columnByte x i 2)
      ^^^ m9 (columnByte x i 3) := by
  rw [invMixColumns, byteAt_ofBytes _ hi]; rfl

theorem mixColumns_column (x : Block) {i : Nat} (k : Nat) (hi : i < 16) :
    columnByte (mixColumns x) i k = double8 (columnByte x i k) ^^^ m3 (columnByte x i (k + 1))
      ^^^ columnByte x i (k + 2) ^^^ columnByte x i (k + 3) := by
  rw [mixColumns, columnByte_ofBytes _ _ hi]
  simp only [columnByte_column, Nat.add_zero]; rfl

theorem invMix_mix (x : Block) : invMixColumns (mixColumns x) = x := by
  apply ext_bytes
  intro i hi
  have hx : byteAt x i = columnByte x i 0 := by unfold columnByte; congr 1; omega
  have h4 : columnByte x i 4 = columnByte x i 0 := columnByte_add4 x i 0
  have h5 : columnByte x i 5 = columnByte x i 1 := columnByte_add4 x i 1
  have h6 : columnByte x i 6 = columnByte x i 2 := columnByte_add4 x i 2
  rw [invMixColumns_byte _ hi, mixColumns_column _ _ hi, mixColumns_column _ _ hi, mixColumns_column _ _ hi,
    mixColumns_column _ _ hi, hx]
  simp only [Nat.reduceAdd, h4, h5, h6]
  exact invMix_column _ _ _ _

theorem columnByte_xor (x y : Block) (i k : Nat) :
    columnByte (x ^^^ y) i k = columnByte x i k ^^^ columnByte y i k := byteAt_xor _ _ _

theorem invMix_xor (x y : Block) : invMixColumns (x ^^^ y) = invMixColumns x ^^^ invMixColumns y := by
  apply ext_bytes
  intro i hi
  rw [byteAt_xor, invMixColumns_byte _ hi, invMixColumns_byte _ hi, invMixColumns_byte _ hi]
  simp only [columnByte_xor, m14_xor, m11_xor, m13_xor, m9_xor]
  ac_rfl

theorem xor_xor_right (x k : Block) : x ^^^ k ^^^ k = x := by
  rw [BitVec.xor_assoc, BitVec.xor_self, BitVec.xor_zero]

/-- One step of decryption undoes a full round. -/
theorem aesdec_round (s k k' : Block) :
    aesdec (subBytes (shiftRows (aesenc s k))) (invMixColumns k') = invMixColumns (mixColumns (subBytes (shiftRows s)) ^^^ k ^^^ k') := by
  unfold aesdec
  rw [invSub_invShift, invSub_sub, invShift_shift, aesenc, ← invMix_xor]

theorem aesdec_undo (s k : Block) :
    aesdec (subBytes (shiftRows (aesenc s k))) (invMixColumns k) = subBytes (shiftRows s) := by
  rw [aesdec_round, xor_xor_right, invMix_mix]

theorem aesdeclast_undo (s k : Block) : aesdeclast (subBytes (shiftRows s)) k = s ^^^ k := by
  unfold aesdeclast
  rw [invSub_invShift, invSub_sub, invShift_shift]

/-- Decryption, with the round keys of `AESSetDecryptKeyFast`, after encryption. -/
theorem decrypt_encrypt {e d : AesKey} (hr : d.rounds = e.rounds) (hpos : 0 < e.rounds)
    (h0 : d.rdKey 0 = e.rdKey e.rounds) (hl : d.rdKey e.rounds = e.rdKey 0)
    (hm : ∀ i, 0 < i → i < e.rounds → d.rdKey i = invMixColumns (e.rdKey (e.rounds - i))) (x : Block) :
    aesDecrypt (aesEncrypt x e) d = x := by
  unfold aesDecrypt
  dsimp only
  rw [hr]
  have main : ∀ m, m ≤ e.rounds - 1 →
      forLoop (fun j tmp => aesdec tmp (d.rdKey (j + 1))) m (aesEncrypt x e ^^^ d.rdKey 0)
        = subBytes (shiftRows (forLoop (fun j tmp => aesenc tmp (e.rdKey (j + 1))) (e.rounds - 1 - m) (x ^^^ e.rdKey 0))) := by
    intro m
    induction m with
    | zero =>
      intro _
      simp only [forLoop, aesEncrypt, aesenclast, h0, xor_xor_right, Nat.sub_zero]
    | succ m ih =>
      intro hm'
      rw [forLoop, ih (by omega), hm (m + 1) (by omega) (by omega)]
      have e1 : e.rounds - 1 - m = (e.rounds - 1 - (m + 1)) + 1 := by omega
      rw [e1, forLoop, show e.rounds - (m + 1) = e.rounds - 1 - (m + 1) + 1 from by omega]
      exact aesdec_undo _ _
  rw [main _ (Nat.le_refl _), Nat.sub_self, forLoop, hl, aesdeclast_undo, xor_xor_right]

theorem decryptKeyLoop_apply (ekey : Nat → Block) (n j : Nat) (d : Nat → Block) (i : Nat) :
    decryptKeyLoop ekey n j d i = if i = 0 then ekey (j + n) else if i ≤ n then invMixColumns (ekey (j + (n - i))) else d i := by
  induction n generalizing j d with
  | zero =>
    unfold decryptKeyLoop upd
    by_cases h : i = 0
    · simp [h]
    · simp [h]
  | succ n ih =>
    rw [decryptKeyLoop, ih]
    by_cases h : i = 0
    · rw [if_pos h, if_pos h]; congr 1; omega
    · rw [if_neg h, if_neg h]
      by_cases h1 : i ≤ n
      · rw [if_pos h1, if_pos (by omega)]; congr 2; omega
      · rw [if_neg h1]
        unfold upd
        by_cases h2 : i = n + 1
        · rw [if_pos h2, if_pos (by omega), h2]; congr 2; omega
        · rw [if_neg h2, if_neg (by omega)]

theorem decryptKey_spec (e : AesKey) (old : Nat → Block) (hpos : 0 < e.rounds) (x : Block) :
    aesDecrypt (aesEncrypt x e) (aesSetDecryptKeyFast e old) = x := by
  have h : ∀ i, (aesSetDecryptKeyFast e old).rdKey i
      = if i = 0 then e.rdKey (1 + (e.rounds - 1)) else if i ≤ e.rounds - 1
        then invMixColumns (e.rdKey (1 + (e.rounds - 1 - i))) else upd old e.rounds (e.rdKey 0) i :=
    fun i => decryptKeyLoop_apply _ _ _ _ _
  refine decrypt_encrypt (e := e) (d := aesSetDecryptKeyFast e old) rfl hpos ?_ ?_ ?_ x
  · rw [h, if_pos rfl]; congr 1; omega
  · rw [h, if_neg (by omega), if_neg (by omega)]; simp [upd]
  · intro i h1 h2
    rw [h, if_neg (by omega), if_pos (by omega)]; congr 2; omega

end TinyGarble
