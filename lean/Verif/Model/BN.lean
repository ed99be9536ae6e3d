import Verif.Model.Proc
import Verif.Model.Plain

/-!
# Big numbers

Models crypto/BN.cpp and `SwitchRowColumnBN`, `SwitchRowColumnBNPair` of crypto/OT_extension.cpp.
OpenSSL's `BIGNUM` is a natural number (an integer where the sign matters); `BN_num_bits` is the
length, `BN_is_bit_set` is `Nat.testBit`, `BN_set_bit`/`BN_clear_bit` are `bnSetBit` on the value.
Where the code uses a return value that depends on OpenSSL's number of used 64-bit words (`top`),
this is modelled for normalised numbers.
-/

namespace TinyGarble

/-- `BN_num_bits`. -/
def numBits (n : Nat) : Nat := if n = 0 then 0 else n.log2 + 1

/-- `BN_num_bytes`. -/
def numBytes (n : Nat) : Nat := (numBits n + 7) / 8

/-- `BN_bn2bin`: the magnitude, highest byte first, without leading zero bytes. -/
def bnBytes (n : Nat) : List Byte := (leBytes (numBytes n) n).reverse

/-- Number of used words of a normalised number (64-bit words). -/
def bnTop (n : Nat) : Nat := (numBits n + 63) / 64

/-- `BN_clear_bit` with its result: it fails when the bit lies beyond the used words. -/
def bnClearBit (n i : Nat) : Nat × Bool :=
  if bnTop n ≤ i / 64 then (n, false) else (bnSetBit n i false, true)

/-- `BN_mask_bits` with its result: it fails when the number is already shorter. -/
def bnMaskBits (n bits : Nat) : Nat × Bool :=
  if bnTop n ≤ bits / 64 then (n, false) else (n % 2 ^ bits, true)

/-- `BN_invert` (crypto/BN.cpp:30-40). -/
def bnInvert (v bits : Nat) : Nat :=
  let vLen := numBits v
  forLoop (fun i r => if vLen ≤ i ∨ r.testBit i = false then bnSetBit r i true else bnSetBit r i false) bits v

/-- `BN_full_one` (crypto/BN.cpp:43-50): new value and result; `0xffff` is truncated to a byte by
`memset`. -/
def bnFullOne (bits : Nat) : Nat × Bool :=
  let words := bits / 8 + 1
  bnMaskBits (beValue (List.replicate words 0xff#8)) bits

/-- `BN_xor` (crypto/BN.cpp:52-66) when `r` is none of the arguments. -/
def bnXor (r bits v w : Nat) : Nat :=
  let vLen := numBits v
  let wLen := numBits w
  forLoop (fun i r =>
    let vb := if i < vLen then v.testBit i else false
    let wb := if i < wLen then w.testBit i else false
    if vb ≠ wb then bnSetBit r i true else bnSetBit r i false) bits r

/-- `BN_xor(r, bits, r, w)`: the result is also the first argument. -/
def bnXorInPlace (r bits w : Nat) : Nat :=
  let vLen := numBits r
  let wLen := numBits w
  forLoop (fun i r =>
    let vb := if i < vLen then r.testBit i else false
    let wb := if i < wLen then w.testBit i else false
    if vb ≠ wb then bnSetBit r i true else bnSetBit r i false) bits r

/-- The 16 bytes of a block in memory (x86). -/
def blockBytes (w : Block) : List Byte := leBytes 16 w.toNat

/-- A block read from 16 bytes of memory. -/
def bytesBlock (l : List Byte) : Block := BitVec.ofNat 128 (leValue l)

/-- `_m128_switch_endian` (crypto/block.h:116-117): byte `i` of the result is byte `15 - i`. -/
def switchEndian (w : Block) : Block := bytesBlock (blockBytes w).reverse

/-- `BlockToBN` (crypto/BN.cpp:68-73). -/
def blockToBN (w : Block) : Nat := beValue (blockBytes (switchEndian w))

/-- `BNToBlock` (crypto/BN.cpp:75-96). -/
def bnToBlock (a : Nat) : Block :=
  let aWords := numBytes a
  let aByte := bnBytes a
  bytesBlock ((List.range 16).map fun i : Nat =>
    if 0 ≤ (aWords : Int) - (i : Int) - 1 then aByte.getD (aWords - i - 1) 0 else 0)

/-- `SendBN` (crypto/BN.cpp:100-117): the length as an `int`, then the magnitude. -/
def sendBN (a : Int) : Proc Unit :=
  let size := numBytes a.natAbs
  (sendData (leBytes 4 size) 4).bind fun _ => sendData (bnBytes a.natAbs) size

/-- `RecvBN` (crypto/BN.cpp:118-135). A negative length makes `new` throw, which ends the program. -/
def recvBN : Proc Int :=
  (recvData 4).bind fun l =>
    if toInt32 (leValue l) < 0 then .fail
    else (recvData (leValue l)).bind fun bytes => .ret (beValue bytes)

/-- Row `i` of `SwitchRowColumnBN` (crypto/OT_extension.cpp:93-103); `none` when a `BN_CHECK` fails. -/
def switchRow (v : Nat → Nat) (vLen i : Nat) : Option Nat :=
  let f := bnFullOne vLen
  if f.2 = false then none
  else forLoop (fun k (w : Option Nat) => match w with
    | none => none
    | some w =>
      if (v k).testBit i then some (bnSetBit w k true)
      else
        let r := bnClearBit w k
        if r.2 then some r.1 else none) vLen (some f.1)

/-- `SwitchRowColumnBN` (crypto/OT_extension.cpp:90-107): the rows of the result. -/
def switchRowColumn (v : Nat → Nat) (vLen bitLen : Nat) : Option (Nat → Nat) :=
  forLoop (fun i (w : Option (Nat → Nat)) => match w, switchRow v vLen i with
    | some w, some r => some (upd w i r)
    | _, _ => none) bitLen (some fun _ => 0)

/-- `SwitchRowColumnBNPair` (crypto/OT_extension.cpp:109-129): row `i`, member `j` of the pair. -/
def switchRowColumnPair (v : Nat → Nat → Nat) (vLen bitLen : Nat) : Option (Nat → Nat → Nat) :=
  forLoop (fun i (w : Option (Nat → Nat → Nat)) =>
    match w, switchRow (fun k => v k 0) vLen i, switchRow (fun k => v k 1) vLen i with
    | some w, some r0, some r1 => some (upd w i (fun j => if j = 0 then r0 else r1))
    | _, _, _ => none) bitLen (some fun _ _ => 0)

end TinyGarble
