import Verif.Model.BN
import Verif.Model.Block
import Verif.Model.Protocol

/-!
# Strings (util/util.cpp, util/log.cpp)

A `std::string` is a `List Char` of single-byte characters. `Outcome` distinguishes the three ways a
function can end: with a value, with a C++ exception, with undefined behaviour. `unsigned long` has 64
bits. A number given to OpenSSL as an `int` (shift distances, bit counts) is below 2^31.
-/

namespace TinyGarble

/-- How a call ends. -/
inductive Outcome (α : Type) where
  | ok (a : α)
  /-- a C++ exception is thrown -/
  | throws
  /-- undefined behaviour -/
  | undef
deriving DecidableEq, Repr

namespace Outcome
variable {α β σ : Type}

def bind : Outcome α → (α → Outcome β) → Outcome β
  | ok a, f => f a
  | throws, _ => throws
  | undef, _ => undef

/-- `for (i = 0; i < n; i++)` with a body that may throw. -/
def forO (f : Nat → σ → Outcome σ) : Nat → σ → Outcome σ
  | 0, s => ok s
  | n + 1, s => (forO f n s).bind (f n)

end Outcome

/-! ## Digits -/

/-- OpenSSL's `Hex[]`, and the digits of `bin2hex`. -/
def upperDigit (n : Nat) : Char := "0123456789ABCDEF".toList.getD n '0'

/-- The digits printed with `std::hex`. -/
def lowerDigit (n : Nat) : Char := "0123456789abcdef".toList.getD n '0'

/-- The value of a character for which `isxdigit` holds. -/
def hexDigit? (c : Char) : Option Nat :=
  if '0' ≤ c ∧ c ≤ '9' then some (c.toNat - '0'.toNat)
  else if 'a' ≤ c ∧ c ≤ 'f' then some (c.toNat - 'a'.toNat + 10)
  else if 'A' ≤ c ∧ c ≤ 'F' then some (c.toNat - 'A'.toNat + 10)
  else none

/-- `k` digits of `n` in base 16, highest first. -/
def hexDigits (digit : Nat → Char) (k n : Nat) : List Char :=
  (List.range k).map fun i => digit (n / 16 ^ (k - 1 - i) % 16)

/-! ## OpenSSL conversions -/

/-- `BN_bn2hex` of a non-negative number: "0", or two digits for each byte without leading zero bytes. -/
def bn2hex (n : Nat) : List Char := if n = 0 then ['0'] else hexDigits upperDigit (2 * numBytes n) n

/-- The hexadecimal digits at the start of a string. -/
def leadingHex : List Char → List Nat
  | [] => []
  | c :: s => match hexDigit? c with
    | some d => d :: leadingHex s
    | none => []

/-- The number with the given digits, highest first. -/
def ofDigits (base : Nat) (l : List Nat) : Nat := l.foldl (fun a d => base * a + d) 0

/-- The magnitude of the number after `BN_hex2bn(&n, s)` on a fresh number: an optional sign and the hexadecimal
digits that follow; 0 if there are none. The sign is never looked at (`BN_is_bit_set`). -/
def hex2bn (s : List Char) : Nat :=
  match s with
  | '-' :: s => ofDigits 16 (leadingHex s)
  | s => ofDigits 16 (leadingHex s)

/-! ## Output strings -/

/-- `BN_rshift(temp, outputs, i * output_size); BN_mask_bits(temp, output_size)` (util.cpp:206-207). -/
def outputField (os outputs i : Nat) : Nat := outputs / 2 ^ (i * os) % 2 ^ os

/-- Loop of the separated mode (util.cpp:205-212, 234-241). -/
def separatedStr (os outputs cycles : Nat) : List Char :=
  forLoop (fun i s => s ++ bn2hex (outputField os outputs i) ++ (if i < cycles - 1 then ['\n'] else [])) cycles []

/-- `OutputBN2StrHighMem` (util.cpp:197-223). -/
def outputStrHigh (os outputs cycles : Nat) (mode : OutputMode) : List Char :=
  match mode with
  | .consecutive => bn2hex outputs
  | .separatedClock => separatedStr os outputs cycles
  | .lastClock => bn2hex (outputField os outputs (cycles - 1))

/-- `OutputBN2StrLowMem` (util.cpp:225-248). -/
def outputStrLow (os outputs cycles : Nat) (mode : OutputMode) : List Char :=
  match mode with
  | .consecutive => bn2hex outputs
  | .separatedClock => separatedStr os outputs cycles
  | .lastClock => bn2hex outputs

/-! ## Blocks as strings -/

/-- `stream << std::hex << std::setw(pad) << std::setfill('0') << v` for an unsigned `v` (`to_string_hex`,
util.cpp:190-195): as many digits as needed, at least one, padded with '0'. -/
def toStringHex (v pad : Nat) : List Char := hexDigits lowerDigit (max pad (max 1 ((numBits v + 3) / 4))) v

/-- `operator<<(ostream, block)` (log.cpp:152-161): the four 32-bit words, highest first. -/
def showBlock (b : Block) : List Char :=
  toStringHex (b.toNat / 2 ^ 96) 8 ++ ' ' :: toStringHex (b.toNat / 2 ^ 64 % 2 ^ 32) 8
    ++ ' ' :: toStringHex (b.toNat / 2 ^ 32 % 2 ^ 32) 8 ++ ' ' :: toStringHex (b.toNat % 2 ^ 32) 8

/-- `isspace` in the C locale. -/
def isSpace (c : Char) : Bool := c = ' ' || (9 ≤ c.toNat && c.toNat ≤ 13)

/-- The digits that `strtoull` reads in base 16 after white space and sign: "0x" is skipped if a digit follows. -/
def strtoullDigits (s : List Char) : List Nat :=
  match s with
  | '0' :: x :: rest =>
    if (x = 'x' ∨ x = 'X') ∧ leadingHex rest ≠ [] then leadingHex rest else leadingHex ('0' :: x :: rest)
  | s => leadingHex s

/-- `std::stoull(s, nullptr, 16)`: white space, sign, digits; the rest is ignored; an exception if there are no
digits or the number does not fit. -/
def stoull16 (s : List Char) : Outcome (BitVec 64) :=
  let conv (neg : Bool) (ds : List Nat) : Outcome (BitVec 64) :=
    if ds = [] then .throws
    else if 2 ^ 64 ≤ ofDigits 16 ds then .throws
    else .ok (if neg then - BitVec.ofNat 64 (ofDigits 16 ds) else BitVec.ofNat 64 (ofDigits 16 ds))
  match s.dropWhile isSpace with
  | '-' :: s => conv true (strtoullDigits s)
  | '+' :: s => conv false (strtoullDigits s)
  | s => conv false (strtoullDigits s)

/-- `Str2Block` (util.cpp:152-188) with `v` not null; `none` is FAILURE. -/
def str2Block (s : List Char) : Option Block :=
  let v := s.filter fun c => c != ' ' && c != '\t' && c != '_'
  if 32 < v.length then none
  else
    let v := List.replicate (32 - v.length) '0' ++ v
    match stoull16 (v.drop 16), stoull16 (v.take 16) with
    | .ok lo, .ok hi => some (makeBlock hi.toNat lo.toNat)
    | _, _ => none

/-! ## Binary, decimal, hexadecimal -/

/-- `'1'` or `'0'`. -/
def bitChar (b : Bool) : Char := if b then '1' else '0'

/-- `std::bitset<64>(dec).to_string()`. -/
def bits64 (dec : BitVec 64) : List Char := (List.range 64).map fun i => bitChar (dec.getLsbD (63 - i))

/-- `dec2bin` (util.cpp:292-296): `substr(64 - bit_len, bit_len)` throws when `bit_len > 64`. -/
def dec2bin (dec : BitVec 64) (bitLen : BitVec 16) : Outcome (List Char) :=
  if 64 < bitLen.toNat then .throws else .ok ((bits64 dec).drop (64 - bitLen.toNat))

/-- Loop of `towsComplement` (util.cpp:282-288), from the right: the new characters and `invert`. -/
def twosLoop : List Char → List Char × Bool
  | [] => ([], false)
  | c :: s =>
    let r := twosLoop s
    ((if r.2 then (if c = '1' then '0' else '1') else c) :: r.1, r.2 || c = '1')

/-- `towsComplement` (util.cpp:278-290). -/
def towsComplement (s : List Char) : List Char := (twosLoop s).1

/-- `std::bitset<64>(s).to_ulong()`: throws unless every character is '0' or '1'; only the first 64
characters count. -/
def bitset64 (s : List Char) : Outcome Nat :=
  if s.all (fun c => c = '0' || c = '1') then
    .ok (ofDigits 2 ((s.take 64).map fun c => if c = '1' then 1 else 0))
  else .throws

/-- `bin2dec` (util.cpp:298-305). The conversion to `int64_t` is modulo 2^64; negating the smallest value
overflows. -/
def bin2dec (bin : List Char) (s : Bool) : Outcome Int :=
  let neg := s && bin.head? = some '1'
  (bitset64 (if neg then towsComplement bin else bin)).bind fun n =>
  let dec := (BitVec.ofNat 64 n).toInt
  if neg then (if dec = -2 ^ 63 then .undef else .ok (-dec)) else .ok dec

/-- The four binary digits for a hexadecimal one (util.cpp:314-329); nothing for another character. -/
def nibbleBin (h : Char) : List Char :=
  match hexDigit? h with
  | some d => [bitChar (d.testBit 3), bitChar (d.testBit 2), bitChar (d.testBit 1), bitChar (d.testBit 0)]
  | none => []

/-- `hex2bin` (util.cpp:307-333): the length is kept in a `uint16_t`. -/
def hex2bin (hex : List Char) : List Char := (hex.take (hex.length % 2 ^ 16)).flatMap nibbleBin

/-- The hexadecimal digit for four binary ones (util.cpp:344-359); nothing for another string. -/
def nibbleHex (b : List Char) : List Char :=
  if b.length = 4 ∧ b.all (fun c => c = '0' || c = '1') then
    [upperDigit (ofDigits 2 (b.map fun c => if c = '1' then 1 else 0))]
  else []

/-- `bin2hex` (util.cpp:335-363): lengths are kept in a `uint16_t`; one to four zeros are put in front. -/
def bin2hex (bin : List Char) : List Char :=
  let len := bin.length % 2 ^ 16
  let bin := List.replicate (4 - len % 4) '0' ++ bin
  let len := bin.length % 2 ^ 16
  (List.range ((len + 3) / 4)).flatMap fun i => nibbleHex ((bin.drop (4 * i)).take 4)

/-- `formatGCInputString` (util.cpp:250-257). Reading `bit_len` past its end is undefined. -/
def formatGCInputString (input : List (BitVec 64)) (bitLen : List (BitVec 16)) : Outcome (List Char) :=
  (Outcome.forO (fun i s =>
    match bitLen[i]? with
    | none => .undef
    | some l => (dec2bin (input.getD i 0) l).bind fun d => .ok (s ++ d)) input.length []).bind fun s =>
  .ok (bin2hex s)

/-- First loop of `parseGCOutputString` (util.cpp:262-266): the total width, a `uint16_t`. -/
def parseLen (bitLen : List (BitVec 16)) (offset : BitVec 16) (n : Nat) : Outcome (BitVec 16) :=
  Outcome.forO (fun i len => match bitLen[i]? with
    | none => .undef
    | some l => .ok (len + l)) n offset

/-- `s.substr(pos, n)`: throws if `pos` is past the end. -/
def substr (s : List Char) (pos n : Nat) : Outcome (List Char) :=
  if s.length < pos then .throws else .ok ((s.drop pos).take n)

/-- The string is padded or cut to its last `len` characters (util.cpp:267-268). -/
def fitLeft (s : List Char) (len : Nat) : List Char :=
  if s.length < len then List.replicate (len - s.length) '0' ++ s else s.drop (s.length - len)

/-- `parseGCOutputString` (util.cpp:259-276): the new contents of the vector `output`. The number of
outputs is kept in a `uint8_t`, widths and positions in a `uint16_t`. -/
def parseGCOutputString (output : List Int) (str : List Char) (bitLen : List (BitVec 16)) (offset : BitVec 16) :
    Outcome (List Int) :=
  let n := output.length % 2 ^ 8
  (parseLen bitLen offset n).bind fun len =>
  let bin := fitLeft (hex2bin str) len.toNat
  (Outcome.forO (fun i (r : List Int × BitVec 16) => match bitLen[i]? with
    | none => .undef
    | some l => (substr bin r.2.toNat l.toNat).bind fun s => (bin2dec s true).bind fun v =>
      .ok (r.1.set i v, r.2 + l)) n (output, 0#16)).bind fun r => .ok r.1

/-- `formatGCOutputMask` (util.cpp:365-377). -/
def formatGCOutputMask (garblerShare evaluatorShare : BitVec 16) (garblerLeft : Bool) : List Char :=
  bin2hex (if garblerLeft then List.replicate garblerShare.toNat '1' ++ List.replicate evaluatorShare.toNat '0'
    else List.replicate evaluatorShare.toNat '0' ++ List.replicate garblerShare.toNat '1')

/-! ## Other helpers -/

/-- `std::tolower` in the C locale. -/
def toLower (c : Char) : Char := if 'A' ≤ c ∧ c ≤ 'Z' then Char.ofNat (c.toNat + 32) else c

/-- `icompare` (util.cpp:396-406). -/
def icompare (a b : List Char) : Bool :=
  if a.length = b.length then (a.zip b).all fun p => toLower p.1 == toLower p.2 else false

end TinyGarble
