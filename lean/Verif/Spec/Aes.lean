/-!
# AES (FIPS-197)

States are 4 × 4 matrices of bytes, row first. Section numbers refer to FIPS-197 (2001).
-/

namespace TinyGarble.Spec.Aes

abbrev Byte := BitVec 8
/-- A column of four bytes. -/
abbrev Word := Fin 4 → Byte
abbrev State := Fin 4 → Fin 4 → Byte

/-- The state read from 16 bytes (3.4): byte `4 c + r` goes to row `r`, column `c`. -/
def stateOfBytes (m : Nat → Byte) : State := fun r c => m (4 * c.val + r.val)

/-- The words of a sequence of bytes (3.5). -/
def wordsOfBytes (m : Nat → Byte) : Nat → Word := fun i r => m (4 * i + r.val)

/-- Multiplication by `x` modulo `x^8 + x^4 + x^3 + x + 1` (4.2.1). -/
def xtime (b : Byte) : Byte := if b.msb then (b <<< 1) ^^^ 0x1b#8 else b <<< 1

/-- `x^i • b`. -/
def xtimes (b : Byte) : Nat → Byte
  | 0 => b
  | i + 1 => xtime (xtimes b i)

/-- Multiplication in the field of 256 elements (4.2): the sum of `x^i • b` over the bits `i` of `a`. -/
def mul (a b : Byte) : Byte :=
  (List.range 8).foldl (fun s i => if a.getLsbD i then s ^^^ xtimes b i else s) 0#8

/-- The multiplicative inverse, 0 for 0: `b^254 = b^2 • b^4 • … • b^128`. -/
def inv (b : Byte) : Byte :=
  let b2 := mul b b
  let b4 := mul b2 b2
  let b8 := mul b4 b4
  let b16 := mul b8 b8
  let b32 := mul b16 b16
  let b64 := mul b32 b32
  let b128 := mul b64 b64
  mul b2 (mul b4 (mul b8 (mul b16 (mul b32 (mul b64 b128)))))

/-- The affine map (5.1.1, equation 5.1): bit `i` is the sum of bits `i`, `i+4`, …, `i+7` and of bit `i` of 63. -/
def affine (b : Byte) : Byte :=
  b ^^^ b.rotateLeft 1 ^^^ b.rotateLeft 2 ^^^ b.rotateLeft 3 ^^^ b.rotateLeft 4 ^^^ 0x63#8

/-- The substitution box (5.1.1). -/
def sbox (b : Byte) : Byte := affine (inv b)

def subBytes (s : State) : State := fun r c => sbox (s r c)

/-- 5.1.2: row `r` is shifted by `r`. -/
def shiftRows (s : State) : State := fun r c => s r (c + r)

/-- 5.1.3. -/
def mixColumns (s : State) : State := fun r c =>
  mul 0x02 (s r c) ^^^ mul 0x03 (s (r + 1) c) ^^^ s (r + 2) c ^^^ s (r + 3) c

/-- 5.1.4: word `4 round + c` is added to column `c`. -/
def addRoundKey (w : Nat → Word) (round : Nat) (s : State) : State := fun r c => s r c ^^^ w (4 * round + c) r

/-- The state after the initial addition of the key and `n` full rounds (5.1). -/
def rounds (w : Nat → Word) (s : State) : Nat → State
  | 0 => addRoundKey w 0 s
  | n + 1 => addRoundKey w (n + 1) (mixColumns (shiftRows (subBytes (rounds w s n))))

/-- The cipher with `nr` rounds (5.1, figure 5): the last one has no `mixColumns`. -/
def cipher (nr : Nat) (w : Nat → Word) (s : State) : State :=
  addRoundKey w nr (shiftRows (subBytes (rounds w s (nr - 1))))

def subWord (a : Word) : Word := fun r => sbox (a r)
def rotWord (a : Word) : Word := fun r => a (r + 1)
def addWord (a b : Word) : Word := fun r => a r ^^^ b r

/-- `Rcon[i] = [x^(i-1), 0, 0, 0]` (5.2). -/
def rcon (i : Nat) : Word := fun r => if r = 0 then xtimes 1#8 (i - 1) else 0#8

/-- `w` is the key schedule of the key words `key 0, …, key (nk - 1)` (5.2, figure 11). The number of
rounds is `nk + 6`, so there are `4 (nk + 7)` words. -/
structure KeySchedule (nk : Nat) (key : Nat → Word) (w : Nat → Word) : Prop where
  start : ∀ i < nk, w i = key i
  step : ∀ i, nk ≤ i → i < 4 * (nk + 7) →
    w i = addWord (w (i - nk))
      (if i % nk = 0 then addWord (subWord (rotWord (w (i - 1)))) (rcon (i / nk))
       else if 6 < nk ∧ i % nk = 4 then subWord (w (i - 1))
       else w (i - 1))

end TinyGarble.Spec.Aes
