import Verif.Model.InputFile

/-!
# From an executable to the file with the program

Models `amber-elfsplitter` (a23/tools/amber-elfsplitter.c), compiled for a little-endian machine with 32-bit `int` and natural alignment,
and the script after it (a23/tools/amber-code32.sh), which together make `p.txt` (a23/include/common.mk:89-90, 105-106). A byte that is
printed is the character with that code. Not modelled: opening and reading the file, `malloc` that fails, messages on standard error.
-/

namespace TinyGarble.Elf

abbrev Byte := BitVec 8

/-- How the program ends: it reads or writes outside of a buffer (or through a pointer that is not aligned, or overflows `int`); it calls
`exit(1)`; it returns 0, having printed the text. -/
inductive Result where
  | undef
  | failure
  | done (stdout : List Char)
deriving DecidableEq

/-- A field of type `unsigned short` in `inbuf`; `none` if outside. -/
def u16 (f : List Byte) (o : Nat) : Option Nat := do
  let a ← f[o]?
  let b ← f[o + 1]?
  some (a.toNat + 256 * b.toNat)

/-- A field of type `unsigned int` in `inbuf`; `none` if outside. -/
def u32 (f : List Byte) (o : Nat) : Option Nat := do
  let a ← u16 f o
  let b ← u16 f (o + 2)
  some (a + 65536 * b)

/-- `strncmp(inbuf + o, s, strlen(s)) == 0` for a string without null characters; `none` if it reads outside. -/
def startsWith (f : List Byte) (o : Nat) : List Char → Option Bool
  | [] => some true
  | c :: s => do
    let b ← f[o]?
    if b.toNat = c.toNat then startsWith f (o + 1) s else some false

/-- Conversions `%x` and `%0wx` of `printf` (for numbers below 2^32). -/
def printX (w n : Nat) : List Char :=
  let k := max w (max 1 ((List.range 8).findSome? (fun i => if n / 16 ^ (7 - i) ≠ 0 then some (8 - i) else none) |>.getD 1))
  hexDigits lowerDigit k n

/-- `%s` of the string at offset `o` of `inbuf`, with at most `k` characters left in the buffer; `none` if it is not terminated. -/
def cString (f : List Byte) (o : Nat) : Nat → Option (List Char)
  | 0 => none
  | k + 1 => do
    let b ← f[o]?
    if b = 0 then some [] else
      let s ← cString f (o + 1) k
      some (Char.ofNat b.toNat :: s)

/-- `pSHT` (amber-elfsplitter.c:177-203). -/
def pSHT (t : Nat) : List Char :=
  (["SHT_NULL", "SHT_PROGBITS", "SHT_SYMTAB", "SHT_STRTAB", "SHT_RELA", "SHT_HASH", "SHT_DYNAMIC", "SHT_NOTE", "SHT_NOBITS", "SHT_REL",
    "SHT_SHLIB", "SHT_DYNSYM", "SHT_UNKNOWN12", "SHT_UNKNOWN13", "SHT_INIT_ARRAY", "SHT_FINI_ARRAY", "SHT_PREINIT_ARRAY", "SHT_GROUP",
    "SHT_SYMTAB_SHNDX", "SHT_NUM"].getD t "???").toList

/-- The state of the second loop: `outbuf` and `max_out`. -/
structure Out where
  buf : Nat → Byte
  max : Nat

/-- `outbuf[outP] = b; if (outP > max_out) max_out = outP;` (amber-elfsplitter.c:331-332, 341-342), with `cap` bytes in `outbuf`. -/
def Out.put (cap : Nat) (s : Out) (outP : Nat) (b : Byte) : Option Out :=
  if outP < cap then some ⟨fun i => if i = outP then b else s.buf i, if s.max < outP then outP else s.max⟩ else none

/-- Body of the loop over the bytes of a section with contents (amber-elfsplitter.c:329-332). `k` and `outP` are `unsigned int`. -/
def copyByte (f : List Byte) (addr offset : Nat) (s : Out) (j : Nat) : Option Out := do
  let b ← f[(j + offset) % 2 ^ 32]?
  s.put (2 * f.length) ((addr + j) % 2 ^ 32) b

/-- Body of the loop over the bytes of a section without contents (amber-elfsplitter.c:340-342). -/
def zeroByte (f : List Byte) (addr : Nat) (s : Out) (j : Nat) : Option Out :=
  s.put (2 * f.length) ((j + addr) % 2 ^ 32) 0

/-- `elfSection` (amber-elfsplitter.c:302, 310): the offset of header `i` in `inbuf`; `none` if the pointer is not aligned. -/
def sectionAt (shoff shentsize i : Nat) : Option Nat :=
  let p := shoff + shentsize * i
  if p % 4 = 0 then some p else none

/-- The loop that looks for the string section (amber-elfsplitter.c:301-307): the offset found so far. -/
def findStrings (f : List Byte) (shoff shentsize : Nat) (found : Option Nat) (i : Nat) : Option (Option Nat) := do
  let p ← sectionAt shoff shentsize i
  let t ← u32 f (p + 4)
  if t = 3 ∧ found = none then
    let o ← u32 f (p + 16)
    some (some o)
  else some found

/-- What is printed about a section (amber-elfsplitter.c:313-323). `strings` is `StringSectionOffset`, indeterminate if no section was found:
then the read through the pointer is undefined. -/
def describe (f : List Byte) (strings : Option Nat) (p : Nat) : Option (List Char) := do
  let type ← u32 f (p + 4)
  let offset ← u32 f (p + 16)
  if type ≠ 0 then
    let base ← strings
    let name ← u32 f p
    let s ← cString f (base + name) (f.length - (base + name))
    let size ← u32 f (p + 20)
    let addr ← u32 f (p + 12)
    some ("// Section name ".toList ++ s ++ "\n//  Type ".toList ++ pSHT type ++ ", Size 0x".toList ++ printX 0 size
      ++ ", Start address 0x".toList ++ printX 8 addr ++ ", File offset 0x".toList ++ printX 0 offset ++ ", boffset ".toList
      ++ printX 0 (offset % 4) ++ ['\n'])
  else some []

/-- Body of the loop over the sections (amber-elfsplitter.c:309-345). -/
def doSection (f : List Byte) (shoff shentsize : Nat) (strings : Option Nat) (s : List Char × Out) (i : Nat) :
    Option (List Char × Out) := do
  let p ← sectionAt shoff shentsize i
  let t ← describe f strings p
  let type ← u32 f (p + 4)
  if type = 1 then
    let size ← u32 f (p + 20)
    let addr ← u32 f (p + 12)
    let offset ← u32 f (p + 16)
    let o ← (List.range size).foldlM (copyByte f addr offset) s.2
    some (s.1 ++ t, o)
  else if type = 8 then
    let size ← u32 f (p + 20)
    let addr ← u32 f (p + 12)
    let o ← (List.range size).foldlM (zeroByte f addr) s.2
    some (s.1 ++ t ++ (if size ≠ 0 then "// .bss Dump Zeros\n".toList else []), o)
  else some (s.1 ++ t, s.2)

/-- A line of the output (amber-elfsplitter.c:349). -/
def memLine (buf : Nat → Byte) (j : Nat) : List Char :=
  '@' :: printX 8 j ++ ' ' :: (hexDigits lowerDigit 2 (buf (j + 3)).toNat ++ hexDigits lowerDigit 2 (buf (j + 2)).toNat
    ++ hexDigits lowerDigit 2 (buf (j + 1)).toNat ++ hexDigits lowerDigit 2 (buf j).toNat)

/-- `for (j = 0; j < max_out + 3; j = j + 4)` (amber-elfsplitter.c:348-350): `(max_out + 6) / 4` rounds. -/
def dump (cap : Nat) (s : Out) : Option (List Char) :=
  (List.range ((s.max + 6) / 4)).foldlM (fun t i => if 4 * i + 3 < cap then some (t ++ memLine s.buf (4 * i) ++ ['\n']) else none) []

/-- The loop over the program headers, which only reads (amber-elfsplitter.c:288-295). -/
def readProgram (f : List Byte) (phoff phentsize : Nat) (_ : Unit) (i : Nat) : Option Unit := do
  let p ← sectionAt phoff phentsize i
  let _ ← u32 f (p + 8)
  let _ ← u32 f (p + 20)
  some ()

/-- The part after the checks (amber-elfsplitter.c:288-350); `junk` is the initial content of `outbuf`, which comes from `malloc`. -/
def convert (junk : Nat → Byte) (f : List Byte) : Option (List Char) := do
  let phnum ← u16 f 44
  let phoff ← u32 f 28
  let phentsize ← u16 f 42
  (List.range phnum).foldlM (readProgram f phoff phentsize) ()
  let shnum ← u16 f 48
  let shoff ← u32 f 32
  let shentsize ← u16 f 46
  let strings ← (List.range shnum).foldlM (findStrings f shoff shentsize) none
  let s ← (List.range shnum).foldlM (doSection f shoff shentsize strings) ([], ⟨junk, 0⟩)
  let d ← dump (2 * f.length) s.2
  some (s.1 ++ d)

/-- `main` (amber-elfsplitter.c:207-356) for a file with the bytes `f`: both buffers are allocated, of `f.length` and `2 * f.length` bytes
(the product is an `int`), and the file is checked. -/
def splitter (junk : Nat → Byte) (f : List Byte) : Result :=
  if 2 ^ 30 ≤ f.length then .undef
  else match startsWith f 1 "ELF".toList with
    | none => .undef
    | some false => .failure
    | some true => match u16 f 18 with
      | none => .undef
      | some m => if m ≠ 40 then .failure else match convert junk f with
        | none => .undef
        | some t => .done t

def isBlank (c : Char) : Bool := c = ' ' || c = '\t'

/-- `awk '{print $2}'` of a line: the second field, empty if there is none. -/
def secondField (l : List Char) : List Char :=
  (((l.dropWhile isBlank).dropWhile (fun c => !isBlank c)).dropWhile isBlank).takeWhile (fun c => !isBlank c)

/-- `grep '@' $1 | awk '{print $2}' > $2` (a23/tools/amber-code32.sh:42): the text of the second file for the text of the first one. -/
def code32 (text : List Char) : List Char :=
  ((getLines text).filter (fun l => decide ('@' ∈ l))).flatMap fun l => secondField l ++ ['\n']

end TinyGarble.Elf
