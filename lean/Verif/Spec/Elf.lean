/-!
# Executables

The part of the ELF standard (32 bits, little-endian) that says which byte a file puts at an address.
-/

namespace TinyGarble.Spec.Elf

variable (f : List (BitVec 8))

/-- The byte at offset `o`. -/
def byte (o : Nat) : BitVec 8 := f.getD o 0
/-- Two bytes, lowest first. -/
def half (o : Nat) : Nat := (byte f o).toNat + 2 ^ 8 * (byte f (o + 1)).toNat
/-- Four bytes, lowest first. -/
def word (o : Nat) : Nat := half f o + 2 ^ 16 * half f (o + 2)

/-! ELF header -/
def machine : Nat := half f 0x12
def phoff : Nat := word f 0x1c
def shoff : Nat := word f 0x20
def phentsize : Nat := half f 0x2a
def phnum : Nat := half f 0x2c
def shentsize : Nat := half f 0x2e
def shnum : Nat := half f 0x30

/-! Header of section `i` -/
def header (i : Nat) : Nat := shoff f + i * shentsize f
def name (i : Nat) : Nat := word f (header f i)
def type (i : Nat) : Nat := word f (header f i + 0x4)
def flags (i : Nat) : Nat := word f (header f i + 0x8)
def addr (i : Nat) : Nat := word f (header f i + 0xc)
def offset (i : Nat) : Nat := word f (header f i + 0x10)
def size (i : Nat) : Nat := word f (header f i + 0x14)

def PROGBITS := 1
def STRTAB := 3
def NOBITS := 8

/-- SHF_ALLOC: the section occupies memory when the program runs. -/
def Alloc (i : Nat) : Prop := (flags f i).testBit 1 = true

instance (i : Nat) : Decidable (Alloc f i) := inferInstanceAs (Decidable (_ = _))

/-- Address `a` is within section `i`, whether or not the section occupies memory. -/
def Within (i a : Nat) : Prop := addr f i ≤ a ∧ a < addr f i + size f i

instance (i a : Nat) : Decidable (Within f i a) := inferInstanceAs (Decidable (_ ∧ _))

/-- The byte that section `i` has for address `a`. -/
def content (i a : Nat) : BitVec 8 := if type f i = NOBITS then 0 else byte f (offset f i + (a - addr f i))

/-- Section `i` occupies address `a`. -/
def Occupies (i a : Nat) : Prop := Alloc f i ∧ Within f i a

/-- When the program starts, the byte at address `a` is `b`: the content of the section that occupies `a`, zero for a section without
contents. -/
def ImageByte (a : Nat) (b : BitVec 8) : Prop :=
  ∃ i < shnum f, Occupies f i a ∧ b = content f i a

/-- A well-formed executable for ARM: the tables lie in the file and are aligned, the contents of the sections lie in the file, and no
address is occupied twice. -/
structure WellFormed : Prop where
  length : 0x34 ≤ f.length
  magic : byte f 0 = 0x7f ∧ byte f 1 = 0x45 ∧ byte f 2 = 0x4c ∧ byte f 3 = 0x46
  arm : machine f = 40
  programs : phnum f = 0 ∨ (phoff f % 4 = 0 ∧ phentsize f % 4 = 0 ∧ 0x20 ≤ phentsize f ∧ phoff f + phnum f * phentsize f ≤ f.length)
  sections : shoff f % 4 = 0 ∧ shentsize f % 4 = 0 ∧ 0x28 ≤ shentsize f ∧ shoff f + shnum f * shentsize f ≤ f.length
  contents : ∀ i < shnum f, type f i ≠ 0 → type f i ≠ NOBITS → offset f i + size f i ≤ f.length
  once : ∀ i < shnum f, ∀ k < shnum f, ∀ a, Occupies f i a → Occupies f k a → i = k

/-- Section `i` is one of those that are copied to the memory by `amber-elfsplitter`. -/
def Copied (i : Nat) : Prop := type f i = PROGBITS ∨ type f i = NOBITS

instance (i : Nat) : Decidable (Copied f i) := inferInstanceAs (Decidable (_ ∨ _))

/-- Section `i` is the first string table. -/
def FirstStrings (i : Nat) : Prop := i < shnum f ∧ type f i = STRTAB ∧ ∀ k < i, type f k ≠ STRTAB

/-- At offset `o` begins a string without the characters `@` and newline, which ends within the file. -/
def Quiet (o : Nat) : Prop :=
  ∃ n, o + n < f.length ∧ byte f (o + n) = 0 ∧ ∀ k < n, byte f (o + k) ≠ 0 ∧ byte f (o + k) ≠ 0x40 ∧ byte f (o + k) ≠ 0x0a

/-- Restrictions of `amber-elfsplitter`: the file is smaller than 1 GB; it has a string table, and the first one, which need not be the one
for the names of sections, has harmless strings at the places of these names; no section reaches beyond twice the length of the file, less
five bytes. -/
structure Acceptable : Prop where
  short : f.length < 2 ^ 30
  strings : ∃ k, FirstStrings f k ∧ ∀ i < shnum f, type f i ≠ 0 → Quiet f (offset f k + name f i)
  room : ∀ i < shnum f, Copied f i → size f i ≠ 0 → addr f i + size f i + 5 ≤ 2 * f.length

/-- The sections that are copied are those that occupy memory (unless they are empty). -/
def Plain : Prop := ∀ i < shnum f, size f i ≠ 0 → (Alloc f i ↔ Copied f i)

end TinyGarble.Spec.Elf
