import Verif.Model.A23Aes

/-!
# SHA-3 on the ARM core

Models a23/sha3/sha3.c. The processor is little endian, so that `le2me_64` and `me64_to_le_str` do not change the order of bytes
(byte_order.h:151,158). `message` is accessed as bytes and as words; it is a list of bytes here. `none` is an access outside of an array.
-/

namespace TinyGarble.A23

abbrev Lane := BitVec 64

/-- `ROTL64` (byte_order.h:164). A shift by 64 or more is undefined; the code has constants from 1 to 62. -/
def rotl64 (q : Lane) (n : Nat) : Lane := q <<< n ^^^ q >>> (64 - n)

/-- `a[d] ^= v`. -/
def xorInto (a : List Lane) (d : Nat) (v : Lane) : Option (List Lane) := do
  let x ← a[d]?
  store a d (x ^^^ v)

/-- `keccak_theta` (sha3.c:89-108). `C` and `D` are static arrays; every element is written before it is read. -/
def keccakTheta (A : List Lane) : Option (List Lane) := do
  let C ← loop (fun x C => do
    let a0 ← A[x]?
    let a1 ← A[x + 5]?
    let a2 ← A[x + 10]?
    let a3 ← A[x + 15]?
    let a4 ← A[x + 20]?
    store C x (a0 ^^^ a1 ^^^ a2 ^^^ a3 ^^^ a4)) 5 (List.replicate 5 0)
  let c0 ← C[0]?
  let c1 ← C[1]?
  let c2 ← C[2]?
  let c3 ← C[3]?
  let c4 ← C[4]?
  let D := [rotl64 c1 1 ^^^ c4, rotl64 c2 1 ^^^ c0, rotl64 c3 1 ^^^ c1, rotl64 c4 1 ^^^ c2, rotl64 c0 1 ^^^ c3]
  loop (fun x A => do
    let d ← D[x]?
    let A ← xorInto A x d
    let A ← xorInto A (x + 5) d
    let A ← xorInto A (x + 10) d
    let A ← xorInto A (x + 15) d
    xorInto A (x + 20) d) 5 A

/-- The assignments `state[i] = ROTL64(state[i], n)` (sha3.c:160-183). -/
def rhoConstants : List (Nat × Nat) := [
  (1, 1), (2, 62), (3, 28), (4, 27), (5, 36), (6, 44), (7, 6), (8, 55), (9, 20), (10, 3), (11, 10), (12, 43),
  (13, 25), (14, 39), (15, 41), (16, 45), (17, 15), (18, 21), (19, 8), (20, 18), (21, 2), (22, 61), (23, 56), (24, 14)]

/-- sha3.c:159-183. -/
def keccakRho : List (Nat × Nat) → List Lane → Option (List Lane)
  | [], A => some A
  | (i, n) :: rest, A => do
    let x ← A[i]?
    let A ← store A i (rotl64 x n)
    keccakRho rest A

/-- The assignments `A[d] = A[s]` of `keccak_pi` (sha3.c:114-136). -/
def piMoves : List (Nat × Nat) := [
  (1, 6), (6, 9), (9, 22), (22, 14), (14, 20), (20, 2), (2, 12), (12, 13), (13, 19), (19, 23), (23, 15), (15, 4),
  (4, 24), (24, 21), (21, 8), (8, 16), (16, 5), (5, 3), (3, 18), (18, 17), (17, 11), (11, 7), (7, 10)]

def moves : List (Nat × Nat) → List Lane → Option (List Lane)
  | [], A => some A
  | (d, s) :: rest, A => do
    let x ← A[s]?
    let A ← store A d x
    moves rest A

/-- `keccak_pi` (sha3.c:111-139). -/
def keccakPi (A : List Lane) : Option (List Lane) := do
  let a1 ← A[1]?
  let A ← moves piMoves A
  store A 10 a1

/-- `keccak_chi` (sha3.c:142-152); `i` is `5 t`. -/
def keccakChi (A : List Lane) : Option (List Lane) :=
  loop (fun t A => do
    let i := 5 * t
    let a0 ← A[0 + i]?
    let a1 ← A[1 + i]?
    let a2 ← A[2 + i]?
    let A ← xorInto A (0 + i) (~~~a1 &&& a2)
    let a2 ← A[2 + i]?
    let a3 ← A[3 + i]?
    let A ← xorInto A (1 + i) (~~~a2 &&& a3)
    let a3 ← A[3 + i]?
    let a4 ← A[4 + i]?
    let A ← xorInto A (2 + i) (~~~a3 &&& a4)
    let a4 ← A[4 + i]?
    let A ← xorInto A (3 + i) (~~~a4 &&& a0)
    xorInto A (4 + i) (~~~a0 &&& a1)) 5 A

/-- `keccak_round_constants` (sha3.c:69-76). -/
def keccakRoundConstants : List Lane := [
  0x0000000000000001, 0x0000000000008082, 0x800000000000808A, 0x8000000080008000,
  0x000000000000808B, 0x0000000080000001, 0x8000000080008081, 0x8000000000008009,
  0x000000000000008A, 0x0000000000000088, 0x0000000080008009, 0x000000008000000A,
  0x000000008000808B, 0x800000000000008B, 0x8000000000008089, 0x8000000000008003,
  0x8000000000008002, 0x8000000000000080, 0x000000000000800A, 0x800000008000000A,
  0x8000000080008081, 0x8000000000008080, 0x0000000080000001, 0x8000000080008008]

/-- `rhash_sha3_permutation` (sha3.c:154-191). -/
def sha3Permutation (A : List Lane) : Option (List Lane) :=
  loop (fun round A => do
    let A ← keccakTheta A
    let A ← keccakRho rhoConstants A
    let A ← keccakPi A
    let A ← keccakChi A
    let c ← keccakRoundConstants[round]?
    xorInto A 0 c) 24 A

/-- The context (sha3.c:51-61). -/
structure Sha3Ctx where
  hash : List Lane
  message : List Byte
  rest : Nat

/-- The context is static, hence zero at the start (sha3.c:63); `rhash_sha3_256_init` does nothing (sha3.c:82-84). -/
def Sha3Ctx.start : Sha3Ctx := ⟨List.replicate 25 0, List.replicate 136 0, 0⟩

/-- The word `message[i]`, little endian. -/
def messageWord (m : List Byte) (i : Nat) : Option Lane := do
  let b0 ← m[8 * i + 0]?
  let b1 ← m[8 * i + 1]?
  let b2 ← m[8 * i + 2]?
  let b3 ← m[8 * i + 3]?
  let b4 ← m[8 * i + 4]?
  let b5 ← m[8 * i + 5]?
  let b6 ← m[8 * i + 6]?
  let b7 ← m[8 * i + 7]?
  some (b7 ++ b6 ++ b5 ++ b4 ++ b3 ++ b2 ++ b1 ++ b0)

/-- `rhash_sha3_256_process_block` (sha3.c:197-218). -/
def processBlock (c : Sha3Ctx) : Option Sha3Ctx := do
  let h ← loop (fun i h => do
    let w ← messageWord c.message i
    xorInto h i w) 17 c.hash
  let h ← sha3Permutation h
  some { c with hash := h }

/-- `while (a > b) a -= b` (sha3.c:223-227) with a bound on the number of steps; `none` if it does not suffice. -/
def modLoop : Nat → Nat → Nat → Option Nat
  | 0, _, _ => none
  | fuel + 1, a, b => if a > b then modLoop fuel (a - b) b else some a

/-- `mod`. With a positive `b` there are at most `a` steps; sums are less than 2^32. -/
def mod (a b : Nat) : Option Nat := modLoop (a + 1) a b

/-- `memcpy(dest + at, src, n)` (sha3.c:33-39). -/
def memcpy (dest : List Byte) (at_ : Nat) (src : List Byte) (n : Nat) : Option (List Byte) :=
  loop (fun i d => do
    let x ← src[i]?
    store d (at_ + i) x) n dest

/-- `memset(s + at, c, n)` (sha3.c:27-32). -/
def memset (s : List Byte) (at_ : Nat) (c : Byte) (n : Nat) : Option (List Byte) :=
  loop (fun i d => store d (at_ + i) c) n s

/-- The last statement of `rhash_sha3_update` (sha3.c:272-274). -/
def saveLeftovers (c : Sha3Ctx) (msg : List Byte) (size : Nat) : Option Sha3Ctx :=
  if size ≠ 0 then do
    let m ← memcpy c.message 0 msg size
    some { c with message := m }
  else some c

/-- `rhash_sha3_update` (sha3.c:238-275). -/
def sha3Update (c : Sha3Ctx) (msg : List Byte) (size : Nat) : Option Sha3Ctx := do
  let index := c.rest
  let rest ← mod (c.rest + size) 136
  if index ≠ 0 then do
    let left := 136 - index
    let m ← memcpy c.message index msg (if size < left then size else left)
    let c := { c with message := m, rest := rest }
    if size < left then some c else saveLeftovers c msg size
  else saveLeftovers { c with rest := rest } msg size

/-- `p[i] |= v` (sha3.c:289-290). -/
def orInto (m : List Byte) (i : Nat) (v : Byte) : Option (List Byte) := do
  let x ← m[i]?
  store m i (x ||| v)

/-- The bytes of words, little endian. -/
def laneBytes (h : List Lane) : List Byte :=
  h.flatMap fun w => (List.range 8).map fun i => w.extractLsb' (8 * i) 8

/-- `rhash_sha3_final` (sha3.c:282-300). -/
def sha3Final (c : Sha3Ctx) (o0 : List Byte) : Option (List Byte) := do
  let m ← memset c.message c.rest 0 (136 - c.rest)
  let m ← orInto m c.rest 0x06
  let m ← orInto m (136 - 1) 0x80
  let c ← processBlock { c with message := m }
  memcpy o0 0 (laneBytes c.hash) (100 - 136 / 2)

/-- `gc_main` (sha3.c:302-312), for inputs of `gs` and `es` bytes (8 each in the code). -/
def sha3Main (gs es : Nat) (g e o0 : List Byte) : Option (List Byte) := do
  let c ← sha3Update .start g gs
  let c ← sha3Update c e es
  sha3Final c o0

end TinyGarble.A23
