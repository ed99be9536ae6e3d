import Verif.Model.Hdl.Mips

/-!
# The program for the MIPS processor

Models circuit_synthesis/mips/test/benchmarks/hamming.s. The repository has the text only. Its 16 instructions have one encoding, except for
the offsets of the two branches, which depend on the place from which the assembler counts; they are parameters here.
-/

namespace TinyGarble.Hdl.Mips

/-- The words of hamming.s:15-38, with the offsets of `beq $2, $9, end` (24) and of `beq $6, $0, SAME` (29). -/
def hamming (toEnd toSame : BitVec 16) : List (BitVec 32) :=
  [0x8C090000#32,     --  0        lw   $9, 0($0)
   0x00094880#32,     --  1        sll  $9, $9, 2
   0x20020008#32,     --  2        addi $2, $0, 8
   0x00491820#32,     --  3        add  $3, $2, $9
   0x21290008#32,     --  4        addi $9, $9, 8
   0x1049#16 ++ toEnd, -- 5  loop: beq  $2, $9, end
   0x8C440000#32,     --  6        lw   $4, 0($2)
   0x8C650000#32,     --  7        lw   $5, 0($3)
   0x00853026#32,     --  8        xor  $6, $4, $5
   0x10C0#16 ++ toSame, -- 9       beq  $6, $0, SAME
   0x214A0001#32,     -- 10        addi $10, $10, 1
   0x20420004#32,     -- 11  SAME: addi $2, $2, 4
   0x20630004#32,     -- 12        addi $3, $3, 4
   0x08000005#32,     -- 13        j    loop
   0xAC0A0004#32,     -- 14  end:  sw   $10, 4($0)
   0x0800000F#32]     -- 15  f:    j    f

/-- The words as the manual says: an offset counts from the instruction after the branch. -/
def hammingManual : List (BitVec 32) := hamming 8 1

/-- The words with offsets that count from the branch itself. -/
def hammingFromBranch : List (BitVec 32) := hamming 9 2

/-- The words as the manual says for a processor with delay slots, which have `nop`s: an assembler inserts them unless it is told not to. -/
def hammingDelaySlots : List (BitVec 32) :=
  [0x8C090000#32, 0x00094880#32, 0x20020008#32, 0x00491820#32, 0x21290008#32,
   0x1049000B#32,     --  5  loop: beq  $2, $9, end
   0,
   0x8C440000#32, 0x8C650000#32, 0x00853026#32,
   0x10C00002#32,     -- 10        beq  $6, $0, SAME
   0,
   0x214A0001#32, 0x20420004#32, 0x20630004#32,
   0x08000005#32,     -- 15        j    loop
   0,
   0xAC0A0004#32,     -- 17  end:  sw   $10, 4($0)
   0x08000012#32,     -- 18  f:    j    f
   0]

end TinyGarble.Hdl.Mips
