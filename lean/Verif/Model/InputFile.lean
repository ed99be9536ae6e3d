import Verif.Model.Str
import Verif.Model.Verilog

/-!
# Files with inputs

Models `ReadFileOrPassHex` (util.cpp) and the native test of the programs for the ARM core (a23/lib/a23_main_testing.cpp). A file is
given by its text; `file` maps the names of the files that can be opened to their texts.
-/

namespace TinyGarble

/-- The lines for which `std::getline` succeeds: an empty rest after the last newline is not a line. -/
def getLines (text : List Char) : List (List Char) :=
  let l := fileLines text
  if l.getLast? = some [] then l.dropLast else l

/-- `ReadFileOrPassHex` (util.cpp:379-393). Later lines come first. -/
def readFileOrPassHex (file : List Char → Option (List Char)) (s : List Char) : List Char :=
  match file s with
  | some text => (getLines text).foldl (fun hex line => line ++ hex) []
  | none => s

/-- The bytes that `BN_bn2bin` writes, highest first (none for zero). -/
def bn2binBytes (n : Nat) : List (BitVec 8) :=
  (List.range (numBytes n)).map fun i => BitVec.ofNat 8 (n / 256 ^ (numBytes n - 1 - i))

/-- `BNtoByteLittleEndian` (a23_main_testing.cpp:37-52): the bytes written to `v`. -/
def bnToByteLittleEndian (n vLen : Nat) : List (BitVec 8) :=
  let temp := bn2binBytes n
  (List.range vLen).map fun i =>
    if i < temp.length then temp.getD (temp.length - i - 1) 0 else 0

/-- `BN_bin2bn`: the number whose bytes are given, highest first. -/
def bin2bn (l : List (BitVec 8)) : Nat := l.foldl (fun a b => 256 * a + b.toNat) 0

/-- `ByteLittleEndiantoBN` (a23_main_testing.cpp:54-66). -/
def byteLittleEndianToBN (v : List (BitVec 8)) : Nat :=
  bin2bn ((List.range v.length).map fun i => v.getD (v.length - i - 1) 0)

/-- An array of `int` in the memory of a little-endian machine, byte by byte. -/
def wordsToBytes (w : List (BitVec 32)) : List (BitVec 8) :=
  w.flatMap fun (x : BitVec 32) => (List.range 4).map fun i => BitVec.setWidth 8 (x >>> (8 * i))

def bytesToWord (b : List (BitVec 8)) : BitVec 32 := BitVec.ofNat 32 (b.foldr (fun x a => x.toNat + 256 * a) 0)

def bytesToWords : Nat → List (BitVec 8) → List (BitVec 32)
  | 0, _ => []
  | n + 1, b => bytesToWord (b.take 4) :: bytesToWords n (b.drop 4)

/-- `main` of the native test (a23_main_testing.cpp:106-142) for a given `gc_main`, after the options are read: the string that is
printed; `none` if `gc_main` has undefined behaviour. `gFile`, `eFile` are the names of the two input files. -/
def a23TestMain (gcMain : List (BitVec 32) → List (BitVec 32) → List (BitVec 32) → Option (List (BitVec 32)))
    (file : List Char → Option (List Char)) (gFile eFile : List Char) : Option (List Char) := do
  let gBn := hex2bn (readFileOrPassHex file gFile)
  let eBn := hex2bn (readFileOrPassHex file eFile)
  let g := bytesToWords 64 (bnToByteLittleEndian gBn (64 * 4))
  let e := bytesToWords 64 (bnToByteLittleEndian eBn (64 * 4))
  let o ← gcMain g e (List.replicate 64 0)
  some (bn2hex (byteLittleEndianToBN (wordsToBytes o)))

end TinyGarble
