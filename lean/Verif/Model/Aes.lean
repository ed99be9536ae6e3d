import Verif.Model.Rng
import Verif.Model.Proc

/-!
# The block cipher (crypto/aes.h)

The SSE and AES instructions after Intel's definitions: byte 0 is the lowest byte of the register, byte
`4 c + r` is row `r`, column `c` of the AES state. Loads are from the caller's memory, whatever its
alignment (`_mm_load_si128` needs aligned addresses; that is not modelled).
-/

namespace TinyGarble

/-- Byte `i` of a register. -/
def byteAt (x : Block) (i : Nat) : Byte := x.extractLsb' (8 * i) 8

/-- The register with the given bytes. -/
def ofBytes (f : Nat → Byte) : Block :=
  f 15 ++ f 14 ++ f 13 ++ f 12 ++ f 11 ++ f 10 ++ f 9 ++ f 8 ++ f 7 ++ f 6 ++ f 5 ++ f 4 ++ f 3 ++ f 2 ++ f 1 ++ f 0

/-- The substitution table of the processor. -/
def sboxTable : List Nat :=
  [0x63, 0x7c, 0x77, 0x7b, 0xf2, 0x6b, 0x6f, 0xc5, 0x30, 0x01, 0x67, 0x2b, 0xfe, 0xd7, 0xab, 0x76,
   0xca, 0x82, 0xc9, 0x7d, 0xfa, 0x59, 0x47, 0xf0, 0xad, 0xd4, 0xa2, 0xaf, 0x9c, 0xa4, 0x72, 0xc0,
   0xb7, 0xfd, 0x93, 0x26, 0x36, 0x3f, 0xf7, 0xcc, 0x34, 0xa5, 0xe5, 0xf1, 0x71, 0xd8, 0x31, 0x15,
   0x04, 0xc7, 0x23, 0xc3, 0x18, 0x96, 0x05, 0x9a, 0x07, 0x12, 0x80, 0xe2, 0xeb, 0x27, 0xb2, 0x75,
   0x09, 0x83, 0x2c, 0x1a, 0x1b, 0x6e, 0x5a, 0xa0, 0x52, 0x3b, 0xd6, 0xb3, 0x29, 0xe3, 0x2f, 0x84,
   0x53, 0xd1, 0x00, 0xed, 0x20, 0xfc, 0xb1, 0x5b, 0x6a, 0xcb, 0xbe, 0x39, 0x4a, 0x4c, 0x58, 0xcf,
   0xd0, 0xef, 0xaa, 0xfb, 0x43, 0x4d, 0x33, 0x85, 0x45, 0xf9, 0x02, 0x7f, 0x50, 0x3c, 0x9f, 0xa8,
   0x51, 0xa3, 0x40, 0x8f, 0x92, 0x9d, 0x38, 0xf5, 0xbc, 0xb6, 0xda, 0x21, 0x10, 0xff, 0xf3, 0xd2,
   0xcd, 0x0c, 0x13, 0xec, 0x5f, 0x97, 0x44, 0x17, 0xc4, 0xa7, 0x7e, 0x3d, 0x64, 0x5d, 0x19, 0x73,
   0x60, 0x81, 0x4f, 0xdc, 0x22, 0x2a, 0x90, 0x88, 0x46, 0xee, 0xb8, 0x14, 0xde, 0x5e, 0x0b, 0xdb,
   0xe0, 0x32, 0x3a, 0x0a, 0x49, 0x06, 0x24, 0x5c, 0xc2, 0xd3, 0xac, 0x62, 0x91, 0x95, 0xe4, 0x79,
   0xe7, 0xc8, 0x37, 0x6d, 0x8d, 0xd5, 0x4e, 0xa9, 0x6c, 0x56, 0xf4, 0xea, 0x65, 0x7a, 0xae, 0x08,
   0xba, 0x78, 0x25, 0x2e, 0x1c, 0xa6, 0xb4, 0xc6, 0xe8, 0xdd, 0x74, 0x1f, 0x4b, 0xbd, 0x8b, 0x8a,
   0x70, 0x3e, 0xb5, 0x66, 0x48, 0x03, 0xf6, 0x0e, 0x61, 0x35, 0x57, 0xb9, 0x86, 0xc1, 0x1d, 0x9e,
   0xe1, 0xf8, 0x98, 0x11, 0x69, 0xd9, 0x8e, 0x94, 0x9b, 0x1e, 0x87, 0xe9, 0xce, 0x55, 0x28, 0xdf,
   0x8c, 0xa1, 0x89, 0x0d, 0xbf, 0xe6, 0x42, 0x68, 0x41, 0x99, 0x2d, 0x0f, 0xb0, 0x54, 0xbb, 0x16]

/-- The inverse substitution table of the processor. -/
def invSboxTable : List Nat :=
  [0x52, 0x09, 0x6a, 0xd5, 0x30, 0x36, 0xa5, 0x38, 0xbf, 0x40, 0xa3, 0x9e, 0x81, 0xf3, 0xd7, 0xfb,
   0x7c, 0xe3, 0x39, 0x82, 0x9b, 0x2f, 0xff, 0x87, 0x34, 0x8e, 0x43, 0x44, 0xc4, 0xde, 0xe9, 0xcb,
   0x54, 0x7b, 0x94, 0x32, 0xa6, 0xc2, 0x23, 0x3d, 0xee, 0x4c, 0x95, 0x0b, 0x42, 0xfa, 0xc3, 0x4e,
   0x08, 0x2e, 0xa1, 0x66, 0x28, 0xd9, 0x24, 0xb2, 0x76, 0x5b, 0xa2, 0x49, 0x6d, 0x8b, 0xd1, 0x25,
   0x72, 0xf8, 0xf6, 0x64, 0x86, 0x68, 0x98, 0x16, 0xd4, 0xa4, 0x5c, 0xcc, 0x5d, 0x65, 0xb6, 0x92,
   0x6c, 0x70, 0x48, 0x50, 0xfd, 0xed, 0xb9, 0xda, 0x5e, 0x15, 0x46, 0x57, 0xa7, 0x8d, 0x9d, 0x84,
   0x90, 0xd8, 0xab, 0x00, 0x8c, 0xbc, 0xd3, 0x0a, 0xf7, 0xe4, 0x58, 0x05, 0xb8, 0xb3, 0x45, 0x06,
   0xd0, 0x2c, 0x1e, 0x8f, 0xca, 0x3f, 0x0f, 0x02, 0xc1, 0xaf, 0xbd, 0x03, 0x01, 0x13, 0x8a, 0x6b,
   0x3a, 0x91, 0x11, 0x41, 0x4f, 0x67, 0xdc, 0xea, 0x97, 0xf2, 0xcf, 0xce, 0xf0, 0xb4, 0xe6, 0x73,
   0x96, 0xac, 0x74, 0x22, 0xe7, 0xad, 0x35, 0x85, 0xe2, 0xf9, 0x37, 0xe8, 0x1c, 0x75, 0xdf, 0x6e,
   0x47, 0xf1, 0x1a, 0x71, 0x1d, 0x29, 0xc5, 0x89, 0x6f, 0xb7, 0x62, 0x0e, 0xaa, 0x18, 0xbe, 0x1b,
   0xfc, 0x56, 0x3e, 0x4b, 0xc6, 0xd2, 0x79, 0x20, 0x9a, 0xdb, 0xc0, 0xfe, 0x78, 0xcd, 0x5a, 0xf4,
   0x1f, 0xdd, 0xa8, 0x33, 0x88, 0x07, 0xc7, 0x31, 0xb1, 0x12, 0x10, 0x59, 0x27, 0x80, 0xec, 0x5f,
   0x60, 0x51, 0x7f, 0xa9, 0x19, 0xb5, 0x4a, 0x0d, 0x2d, 0xe5, 0x7a, 0x9f, 0x93, 0xc9, 0x9c, 0xef,
   0xa0, 0xe0, 0x3b, 0x4d, 0xae, 0x2a, 0xf5, 0xb0, 0xc8, 0xeb, 0xbb, 0x3c, 0x83, 0x53, 0x99, 0x61,
   0x17, 0x2b, 0x04, 0x7e, 0xba, 0x77, 0xd6, 0x26, 0xe1, 0x69, 0x14, 0x63, 0x55, 0x21, 0x0c, 0x7d]

def subByte (b : Byte) : Byte := BitVec.ofNat 8 (sboxTable.getD b.toNat 0)
def invSubByte (b : Byte) : Byte := BitVec.ofNat 8 (invSboxTable.getD b.toNat 0)

/-- Multiplication by 2 in the field of 256 elements. -/
def double8 (b : Byte) : Byte := (b <<< 1) ^^^ (if b.msb then 0x1b#8 else 0#8)

def subBytes (x : Block) : Block := ofBytes fun i => subByte (byteAt x i)
def invSubBytes (x : Block) : Block := ofBytes fun i => invSubByte (byteAt x i)

/-- Row `r` is rotated left by `r` columns. -/
def shiftRows (x : Block) : Block := ofBytes fun i => byteAt x ((i + 4 * (i % 4)) % 16)

/-- Row `r` is rotated right by `r` columns. -/
def invShiftRows (x : Block) : Block := ofBytes fun i => byteAt x ((i + 12 * (i % 4)) % 16)

/-- Byte in row `r + k` of the column of byte `i = 4 c + r`. -/
def columnByte (x : Block) (i k : Nat) : Byte := byteAt x (i / 4 * 4 + (i + k) % 4)

def mixColumns (x : Block) : Block := ofBytes fun i =>
  let a := columnByte x i 0
  let b := columnByte x i 1
  double8 a ^^^ (double8 b ^^^ b) ^^^ columnByte x i 2 ^^^ columnByte x i 3

/-- Multiplication by 14, 11, 13, 9. -/
def invMixColumns (x : Block) : Block := ofBytes fun i =>
  let a := columnByte x i 0
  let b := columnByte x i 1
  let c := columnByte x i 2
  let d := columnByte x i 3
  let d2 := double8
  (d2 (d2 (d2 a)) ^^^ d2 (d2 a) ^^^ d2 a) ^^^ (d2 (d2 (d2 b)) ^^^ d2 b ^^^ b)
    ^^^ (d2 (d2 (d2 c)) ^^^ d2 (d2 c) ^^^ c) ^^^ (d2 (d2 (d2 d)) ^^^ d)

/-- `_mm_aesenc_si128`. -/
def aesenc (a k : Block) : Block := mixColumns (subBytes (shiftRows a)) ^^^ k

/-- `_mm_aesenclast_si128`. -/
def aesenclast (a k : Block) : Block := subBytes (shiftRows a) ^^^ k

/-- `_mm_aesdec_si128`. -/
def aesdec (a k : Block) : Block := invMixColumns (invSubBytes (invShiftRows a)) ^^^ k

/-- `_mm_aesdeclast_si128`. -/
def aesdeclast (a k : Block) : Block := invSubBytes (invShiftRows a) ^^^ k

/-- `SubWord`: the substitution on the bytes of a 32-bit lane. -/
def subLane (w : Lane) : Lane :=
  subByte (w.extractLsb' 24 8) ++ subByte (w.extractLsb' 16 8) ++ subByte (w.extractLsb' 8 8)
    ++ subByte (w.extractLsb' 0 8)

/-- `RotWord` of a little-endian lane: byte 1 becomes byte 0. -/
def rotLane (w : Lane) : Lane := w.rotateRight 8

/-- `_mm_aeskeygenassist_si128`. -/
def aeskeygenassist (a : Block) (rcon : Byte) : Block :=
  lanes (subLane (lane a 1)) (rotLane (subLane (lane a 1)) ^^^ rcon.zeroExtend 32)
    (subLane (lane a 3)) (rotLane (subLane (lane a 3)) ^^^ rcon.zeroExtend 32)

/-- `_mm_shuffle_ps` (the casts between integers and floats do not change bits). -/
def shufflePs (a b : Block) (imm : Nat) : Block :=
  lanes (lane a (imm % 4)) (lane a (imm / 4 % 4)) (lane b (imm / 16 % 4)) (lane b (imm / 64 % 4))

/-- `_mm_shuffle_epi32`. -/
def shuffleEpi32 (a : Block) (imm : Nat) : Block := shufflePs a a imm

/-- `EXPAND_ASSIST` (aes.h:81-90): the new values of `v1` and `v3`; `v2` is a temporary. -/
def expandAssist (v1 v3 v4 : Block) (shuff : Nat) (rcon : Byte) : Block × Block :=
  let v2 := aeskeygenassist v4 rcon
  let v3 := shufflePs v3 v1 16
  let v1 := v1 ^^^ v3
  let v3 := shufflePs v3 v1 140
  let v1 := v1 ^^^ v3
  let v2 := shuffleEpi32 v2 shuff
  (v1 ^^^ v2, v3)

/-- `AES_KEY` (aes.h:75-78). -/
structure AesKey where
  rdKey : Nat → Block
  rounds : Nat

/-- The constants that `AES128KeyExpansion` passes to the macro, in order (aes.h:110-129). -/
def rcons128 : List Byte := [1, 2, 4, 8, 16, 32, 64, 128, 27, 54]

/-- The statements `EXPAND_ASSIST(x0, x1, x2, x0, 255, rcon); kp[..] = x0` of `AES128KeyExpansion`: the
values stored. -/
def expand128 (x0 x2 : Block) : List Byte → List Block
  | [] => []
  | rc :: rs =>
    let r := expandAssist x0 x2 x0 255 rc
    r.1 :: expand128 r.1 r.2 rs

/-- `AES128KeyExpansion` (aes.h:105-130); `key` is what is read at `userkey`, `old` the former contents. -/
def aes128KeyExpansion (key : Block) (old : Nat → Block) : Nat → Block :=
  fun i => (key :: expand128 key 0 rcons128).getD i (old i)

/-- `EXPAND192_STEP` (aes.h:92-103) for each of the constants; `x3` is also the `tmp` of the next. -/
def expand192 (x0 x2 x3 : Block) : List Byte → List Block
  | [] => []
  | rc :: rs =>
    let tmp := x3
    let r := expandAssist x0 x2 x3 85 rc
    let x0 := r.1
    let x3 := x3 ^^^ (x3 <<< 32)
    let x3 := x3 ^^^ shuffleEpi32 x0 255
    let k0 := shufflePs tmp x0 68
    let k1 := shufflePs x0 x3 78
    let r := expandAssist x0 r.2 x3 85 (rc * 2)
    let x0 := r.1
    let x3 := x3 ^^^ (x3 <<< 32)
    let x3 := x3 ^^^ shuffleEpi32 x0 255
    k0 :: k1 :: x0 :: expand192 x0 r.2 x3 rs

/-- `AES192KeyExpansion` (aes.h:132-141). The 16 bytes at `userkey + 16` are read although the key has
only 8 more. -/
def aes192KeyExpansion (key key16 : Block) (old : Nat → Block) : Nat → Block :=
  fun i => (key :: expand192 key 0 key16 [1, 4, 16, 64]).getD i (old i)

/-- The statements of `AES256KeyExpansion` (aes.h:148-173) but the last. -/
def expand256 (x0 x2 x3 : Block) : List Byte → List Block
  | [] =>
    [(expandAssist x0 x2 x3 255 64).1]
  | rc :: rs =>
    let r := expandAssist x0 x2 x3 255 rc
    let x0 := r.1
    let r := expandAssist x3 r.2 x0 170 rc
    let x3 := r.1
    x0 :: x3 :: expand256 x0 r.2 x3 rs

/-- `AES256KeyExpansion` (aes.h:143-174). -/
def aes256KeyExpansion (key key16 : Block) (old : Nat → Block) : Nat → Block :=
  fun i => (key :: key16 :: expand256 key 0 key16 [1, 2, 4, 8, 16, 32]).getD i (old i)

/-- `AESSetEncryptKey` (aes.h:176-189). With any other number of bits the key is left as it was. -/
def aesSetEncryptKey (key key16 : Block) (bits : Nat) (old : Nat → Block) : AesKey where
  rdKey := if bits = 128 then aes128KeyExpansion key old
    else if bits = 192 then aes192KeyExpansion key key16 old
    else if bits = 256 then aes256KeyExpansion key key16 old else old
  rounds := 6 + bits / 32

/-- The loop `while (i) dkey[i--] = aesimc(ekey[j++])` of `AESSetDecryptKeyFast` (aes.h:198-199) and the
last assignment. -/
def decryptKeyLoop (ekey : Nat → Block) : Nat → Nat → (Nat → Block) → (Nat → Block)
  | 0, j, d => upd d 0 (ekey j)
  | i + 1, j, d => decryptKeyLoop ekey i (j + 1) (upd d (i + 1) (invMixColumns (ekey j)))

/-- `AESSetDecryptKeyFast` (aes.h:191-201), for `rounds` at least 1 (otherwise the index runs below 0). -/
def aesSetDecryptKeyFast (ekey : AesKey) (old : Nat → Block) : AesKey where
  rdKey := decryptKeyLoop ekey.rdKey (ekey.rounds - 1) 1 (upd old ekey.rounds (ekey.rdKey 0))
  rounds := ekey.rounds

/-- `AESSetDecryptKey` (aes.h:203-209). -/
def aesSetDecryptKey (key key16 : Block) (bits : Nat) (temp old : Nat → Block) : AesKey :=
  aesSetDecryptKeyFast (aesSetEncryptKey key key16 bits temp) old

/-- `AESEncrypt` (aes.h:211-221), for `rounds` at least 1. -/
def aesEncrypt (x : Block) (key : AesKey) : Block :=
  let tmp := x ^^^ key.rdKey 0
  let tmp := forLoop (fun j tmp => aesenc tmp (key.rdKey (j + 1))) (key.rounds - 1) tmp
  aesenclast tmp (key.rdKey key.rounds)

/-- `AESDecrypt` (aes.h:223-233), for `rounds` at least 1. -/
def aesDecrypt (x : Block) (key : AesKey) : Block :=
  let tmp := x ^^^ key.rdKey 0
  let tmp := forLoop (fun j tmp => aesdec tmp (key.rdKey (j + 1))) (key.rounds - 1) tmp
  aesdeclast tmp (key.rdKey key.rounds)

/-- `AESEcbEncryptBlks` (aes.h:235-245), for `rounds` at least 1: all blocks are taken through a round before the
next round. -/
def aesEcbEncryptBlks (blks : Nat → Block) (nblks : Nat) (key : AesKey) : Nat → Block :=
  let blks := forLoop (fun i b => upd b i (b i ^^^ key.rdKey 0)) nblks blks
  let blks := forLoop (fun j b =>
    forLoop (fun i b => upd b i (aesenc (b i) (key.rdKey (j + 1)))) nblks b) (key.rounds - 1) blks
  forLoop (fun i b => upd b i (aesenclast (b i) (key.rdKey key.rounds))) nblks blks

/-- `AESEcbDecryptBlks` (aes.h:247-257), for `rounds` at least 1. -/
def aesEcbDecryptBlks (blks : Nat → Block) (nblks : Nat) (key : AesKey) : Nat → Block :=
  let blks := forLoop (fun i b => upd b i (b i ^^^ key.rdKey 0)) nblks blks
  let blks := forLoop (fun j b =>
    forLoop (fun i b => upd b i (aesdec (b i) (key.rdKey (j + 1)))) nblks b) (key.rounds - 1) blks
  forLoop (fun i b => upd b i (aesdeclast (b i) (key.rdKey key.rounds))) nblks blks

end TinyGarble
