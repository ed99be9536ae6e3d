import Verif.Proof.AesKey
import Mathlib.Data.Fintype.EquivFin

/-!
# C53: the block cipher is AES
-/

namespace TinyGarble.Props
open TinyGarble Spec

/-- The register loaded from 16 bytes of memory. -/
def loadBlock (m : Nat → Byte) (off : Nat) : Block := ofBytes fun i => m (off + i)

/-- The key that `AESSetEncryptKey(userKey, bits, key)` makes from the memory `m` at `userKey`, when `key` held
`old` before. -/
def setKey (m : Nat → Byte) (bits : Nat) (old : Nat → Block) : AesKey :=
  aesSetEncryptKey (loadBlock m 0) (loadBlock m 16) bits old

theorem load_words (m : Nat → Byte) {i : Nat} (h : i < 8) :
    keyWords (loadBlock m 0) (loadBlock m 16) i = Aes.wordsOfBytes m i := by
  funext r
  unfold keyWords Aes.wordsOfBytes loadBlock
  split
  · rw [byteAt_ofBytes _ (by omega)]; congr 1; omega
  · rw [byteAt_ofBytes _ (by omega)]; congr 1; omega

theorem setKey_schedule (m : Nat → Byte) (old : Nat → Block) {bits : Nat} (h : bits = 128 ∨ bits = 192 ∨ bits = 256) :
    Aes.KeySchedule (bits / 32) (Aes.wordsOfBytes m) (wordsOf (setKey m bits old).rdKey) := by
  rcases h with rfl | rfl | rfl
  · have S := schedule128 (loadBlock m 0) (loadBlock m 16) old
    exact ⟨fun i hi => (S.start i hi).trans (load_words m (by omega)), S.step⟩
  · have S := schedule192 (loadBlock m 0) (loadBlock m 16) old
    exact ⟨fun i hi => (S.start i hi).trans (load_words m (by omega)), S.step⟩
  · have S := schedule256 (loadBlock m 0) (loadBlock m 16) old
    exact ⟨fun i hi => (S.start i hi).trans (load_words m (by omega)), S.step⟩

/-- C53. For every key of 128, 192 or 256 bits and every array, `AESEcbEncryptBlks` with the key of
`AESSetEncryptKey` replaces each of the first `n` blocks by its encryption under AES with that key, and
leaves the others alone. -/
theorem C53_encrypt (m : Nat → Byte) (old : Nat → Block) {bits : Nat} (h : bits = 128 ∨ bits = 192 ∨ bits = 256)
    (blks : Nat → Block) (n : Nat) :
    ∃ w, Aes.KeySchedule (bits / 32) (Aes.wordsOfBytes m) w ∧
      (∀ i < n, Aes.stateOfBytes (byteAt (aesEcbEncryptBlks blks n (setKey m bits old) i))
        = Aes.cipher (bits / 32 + 6) w (Aes.stateOfBytes (byteAt (blks i))))
      ∧ ∀ i, n ≤ i → aesEcbEncryptBlks blks n (setKey m bits old) i = blks i := by
  refine ⟨wordsOf (setKey m bits old).rdKey, setKey_schedule m old h, ?_, ?_⟩
  · intro i hi
    rw [ecbEncrypt_apply, if_pos hi]
    have e : (setKey m bits old).rounds = bits / 32 + 6 := by
      show 6 + bits / 32 = _; omega
    have := stateOf_encrypt (blks i) (setKey m bits old)
    rw [e] at this
    exact this
  · intro i hi
    rw [ecbEncrypt_apply, if_neg (by omega)]

/-- C53. `AESEncrypt` does the same to one block. -/
theorem C53_encrypt_one (x : Block) (key : AesKey) :
    aesEncrypt x key = aesEcbEncryptBlks (fun _ => x) 1 key 0 := by
  rw [ecbEncrypt_apply, if_pos (by omega)]

/-- C53. `AESDecrypt` does to one block what `AESEcbDecryptBlks` does. -/
theorem C53_decrypt_one (x : Block) (key : AesKey) :
    aesDecrypt x key = aesEcbDecryptBlks (fun _ => x) 1 key 0 := by
  rw [ecbDecrypt_apply, if_pos (by omega)]

/-- C53. Decryption with the key of `AESSetDecryptKey` gives back what was encrypted, block by block. -/
theorem C53_decrypt (m : Nat → Byte) (old temp old' : Nat → Block) {bits : Nat}
    (h : bits = 128 ∨ bits = 192 ∨ bits = 256) (blks : Nat → Block) (n : Nat) :
    aesEcbDecryptBlks (aesEcbEncryptBlks blks n (setKey m bits old)) n
      (aesSetDecryptKey (loadBlock m 0) (loadBlock m 16) bits temp old') = blks := by
  have key : ∀ x, aesDecrypt (aesEncrypt x (setKey m bits old))
      (aesSetDecryptKey (loadBlock m 0) (loadBlock m 16) bits temp old') = x := by
    intro x
    have e : aesEncrypt x (setKey m bits old) = aesEncrypt x (setKey m bits temp) := by
      apply ext_state
      rw [stateOf_encrypt, stateOf_encrypt]
      have hk : ∀ i ≤ bits / 32 + 6, (setKey m bits old).rdKey i = (setKey m bits temp).rdKey i := by
        intro i hi
        unfold setKey aesSetEncryptKey
        rcases h with rfl | rfl | rfl
        · show aes128KeyExpansion _ _ _ = aes128KeyExpansion _ _ _
          rw [keys128 _ _ _ (by omega), keys128 _ _ _ (by omega)]
        · show aes192KeyExpansion _ _ _ _ = aes192KeyExpansion _ _ _ _
          have hi : i < 13 := by omega
          interval_cases i <;> rfl
        · show aes256KeyExpansion _ _ _ _ = aes256KeyExpansion _ _ _ _
          have hi : i < 15 := by omega
          interval_cases i <;> rfl
      have hr : (setKey m bits old).rounds = bits / 32 + 6 := by show 6 + bits / 32 = _; omega
      have hr' : (setKey m bits temp).rounds = bits / 32 + 6 := by show 6 + bits / 32 = _; omega
      rw [hr, hr']
      have hw : ∀ i < 4 * (bits / 32 + 7), wordsOf (setKey m bits old).rdKey i = wordsOf (setKey m bits temp).rdKey i := by
        intro i hi
        unfold wordsOf
        rw [hk (i / 4) (by omega)]
      have ha : ∀ n ≤ bits / 32 + 6, ∀ s, Aes.addRoundKey (wordsOf (setKey m bits old).rdKey) n s
          = Aes.addRoundKey (wordsOf (setKey m bits temp).rdKey) n s := by
        intro n hn s
        funext r c
        unfold Aes.addRoundKey
        rw [hw (4 * n + c.val) (by omega)]
      have hrounds : ∀ n ≤ bits / 32 + 6, ∀ s, Aes.rounds (wordsOf (setKey m bits old).rdKey) s n
          = Aes.rounds (wordsOf (setKey m bits temp).rdKey) s n := by
        intro n
        induction n with
        | zero => intro _ s; exact ha 0 (by omega) s
        | succ n ih =>
          intro hn s
          unfold Aes.rounds
          rw [ih (by omega), ha _ hn]
      unfold Aes.cipher
      rw [hrounds _ (by omega), ha _ (Nat.le_refl _)]
    rw [e]
    exact decryptKey_spec (setKey m bits temp) old' (by show 0 < 6 + bits / 32; omega) x
  funext i
  rw [ecbDecrypt_apply, ecbEncrypt_apply]
  split
  · exact key _
  · rfl

/-- C53. Under every key encryption is a permutation of the blocks: no two blocks are encrypted to the same. -/
theorem C53_permutation (key : AesKey) (h : 0 < key.rounds) : Function.Bijective fun x => aesEncrypt x key := by
  have hi : Function.Injective fun x => aesEncrypt x key := by
    intro x y e
    have hx := decryptKey_spec key (fun _ => 0) h x
    rw [← hx, ← decryptKey_spec key (fun _ => 0) h y]
    exact congrArg (fun z => aesDecrypt z _) e
  have : Finite Block := Finite.of_injective BitVec.toFin fun a b h => by
    cases a; cases b; cases h; rfl
  exact ⟨hi, Finite.surjective_of_injective hi⟩

/-! ### Examples: the test vectors of FIPS-197, appendices B and C -/

/-- The bytes of a number written in hexadecimal, most significant first. -/
def hexBytes (len v : Nat) : Nat → Byte := fun i => BitVec.ofNat 8 (v / 256 ^ (len - 1 - i))

example : aesEncrypt (loadBlock (hexBytes 16 0x3243f6a8885a308d313198a2e0370734) 0)
    (setKey (hexBytes 16 0x2b7e151628aed2a6abf7158809cf4f3c) 128 fun _ => 0)
    = loadBlock (hexBytes 16 0x3925841d02dc09fbdc118597196a0b32) 0 := by decide +kernel

example : aesEncrypt (loadBlock (hexBytes 16 0x00112233445566778899aabbccddeeff) 0)
    (setKey (hexBytes 24 0x000102030405060708090a0b0c0d0e0f1011121314151617) 192 fun _ => 0)
    = loadBlock (hexBytes 16 0xdda97ca4864cdfe06eaf70a0ec0d7191) 0 := by decide +kernel

example : aesEncrypt (loadBlock (hexBytes 16 0x00112233445566778899aabbccddeeff) 0)
    (setKey (hexBytes 32 0x000102030405060708090a0b0c0d0e0f101112131415161718191a1b1c1d1e1f) 256 fun _ => 0)
    = loadBlock (hexBytes 16 0x8ea2b7ca516745bfeafc49904b496089) 0 := by decide +kernel

/-- A key as in `C53_permutation`. -/
example : 0 < (setKey (hexBytes 16 0x2b7e151628aed2a6abf7158809cf4f3c) 128 fun _ => 0).rounds := by decide

end TinyGarble.Props
