import Verif.Proof.Hdl.A23ProgPaths

set_option linter.unusedSimpArgs false

/-! # The program merge-sort

The conditional return of the recursive function (`movle pc, lr`, line 12) is always executed, see `C80_false_conditional_jump`; so the two halves are
merged as they are. -/

namespace TinyGarble.Proof.Hdl.A23.Sym.Merge

open TinyGarble.Spec.Arm
open TinyGarble.Hdl.A23.Programs (mergeSortCode)
open Sum (imm_one)
open Dijkstra (holds_lt holds_ge cell)

def lay : Layout := ⟨229, 32, 32, 32, 64⟩

abbrev at' (x : Nat) : BitVec 32 := BitVec.ofNat 32 x

/-- The addresses of entry `i` of the array and of the array `b`. -/
abbrev outAt (i : Nat) : BitVec 32 := BitVec.ofNat 32 (0x03000000 + 4 * i)
abbrev tmpAt (i : Nat) : BitVec 32 := BitVec.ofNat 32 (0x300 + 4 * i)

/-- The addresses of the variables `i`, `j`, `k`. -/
abbrev iAt : BitVec 32 := BitVec.ofNat 32 0x388
abbrev jAt : BitVec 32 := BitVec.ofNat 32 0x380
abbrev kAt : BitVec 32 := BitVec.ofNat 32 0x384

/-- The saved registers. -/
def mem : List (BitVec 32 × Option (BitVec 32)) :=
  (0x040000fc, some 0x0c000014) :: (List.range 5).map (fun i => (at' (0x040000e8 + 4 * i), some 0))

def first : List Micro :=
  [.const 13 0x04000100, .const 0 0x01000000, .const 1 0x02000000, .const 2 0x03000000, .const 14 0x0c000014, .const 13 0x040000fc,
    .store 14 false 0x040000fc#32 (.c 0x0c000014), .const 14 0x01000000, .const 0 0x03000000, .const 3 0]

/-- Before entry `n` of the input. -/
def xhead (n : Nat) : Abs :=
  ⟨if n = 32 then 93 else 86, [some 0x03000000, some 0x02000000, none, some (at' n), some 0, some 0, some 0, some 0, some 0, none, none, none, none,
    some 0x040000fc, some 0x01000000], if n = 32 then some ⟨false, true, true, false⟩ else none, [(0x040000fc, some 0x0c000014)]⟩

def xbody (n : Nat) : List Micro :=
  [.load 14 false 12 (at' (0x01000000 + 4 * n)), .load 14 false 2 (at' (0x02000000 + 4 * n)), .dp 14 .eor false 2 (.r 2) (.reg (.r 12) .lsl 0),
    .store 14 false (outAt n) (.r 2), .const 3 (at' (n + 1)), .flags (diff (at' (n + 1)) 32 true).2]

/-- To the first loop, with both recursive calls. -/
def mid : List Micro :=
  [.const 2 31, .const 1 0, .const 13 0x04000100, .const 14 0x0c000014, .const 13 0x040000e8,
    .store 14 false 0x040000e8#32 (.c 0), .store 14 false 0x040000ec#32 (.c 0), .store 14 false 0x040000f0#32 (.c 0), .store 14 false 0x040000f4#32 (.c 0),
    .store 14 false 0x040000f8#32 (.c 0), .store 14 false 0x040000fc#32 (.c 0x0c000014), .const 5 0x03000000, .const 6 0, .const 4 31, .const 2 31, .const 2 31,
    .const 2 15, .const 7 0x38c, .store 14 false 0x38c#32 (.c 15), .const 14 0x6c00005c, .flags ⟨false, false, true, false⟩, .const 1 15, .const 2 31,
    .const 1 16, .const 0 0x03000000, .const 14 0x2c000070, .flags ⟨false, false, true, false⟩, .const 1 15, .const 3 0x388, .const 2 16,
    .store 14 false 0x388#32 (.c 16), .const 12 0x300]

/-- Before the copy of entry `15 - n`. -/
def chead (n : Nat) : Abs :=
  ⟨33, [none, some 15, none, some 0x388, some 31, some 0x03000000, some 0, some 0x38c, some 0, none, none, none, some 0x300, some 0x040000e8, none], none,
    (0x388, some (at' (16 - n))) :: mem⟩

def cbody (n : Nat) : List Micro :=
  [.const 2 (at' (16 - n)), .flags (diff 0 (at' (16 - n)) true).2, .const 0 (at' (15 - n)), .const 2 (at' (0x4000000f - n)), .load 14 false 2 (outAt (15 - n)),
    .store 14 false (tmpAt (15 - n)) (.r 2), .store 14 false 0x388#32 (.c (at' (15 - n)))]

def cend : List Micro :=
  [.const 2 0, .flags ⟨false, true, true, false⟩, .const 2 0x380, .store 14 false 0x380#32 (.c 15), .const 14 0x300, .const 0 46]

/-- Before the copy of entry `16 + n`. -/
def dhead (n : Nat) : Abs :=
  ⟨46, [some 46, none, some 0x380, some 0x388, some 31, some 0x03000000, some 0, none, none, none, none, none, none, some 0x040000e8, some 0x300], none,
    (0x380, some (at' (15 + n))) :: mem⟩

def dbody (n : Nat) : List Micro :=
  [.const 1 (at' (15 + n)), .flags (diff 31 (at' (15 + n)) true).2, .const 12 (at' (16 + n)), .load 14 false 7 (outAt (16 + n)), .const 1 (at' (31 - n)),
    .store 14 false (tmpAt (31 - n)) (.r 7), .store 14 false 0x380#32 (.c (at' (16 + n)))]

def dend : List Micro :=
  [.const 1 31, .flags ⟨false, true, true, false⟩, .const 1 0x384, .store 14 false 0x384#32 (.c 0), .const 6 0x300]

/-- In the last loop, at line `pc + 1`. -/
def khead (pc : BitVec 24) (lr : Option (BitVec 32)) (k : Nat) : Abs :=
  ⟨pc, [none, some 0x384, some 0x380, some 0x388, some 31, some 0x03000000, some 0x300, none, none, none, none, none, none, some 0x040000e8, lr], none,
    (0x384, some (at' k)) :: mem⟩

def kstart (k : Nat) : List Micro := [.const 14 (at' k), .flags (diff 31 (at' k) true).2, .load 14 false 12 iAt]
def kleft (i : Nat) : List Micro := [.load 14 false 8 (tmpAt i), .load 14 false 0 jAt]
def kright (j : Nat) : List Micro := [.load 14 false 7 (tmpAt j)]
def kbody (k : Nat) : List Micro :=
  [.dp 14 .cmp true 0 (.r 8) (.reg (.r 7) .lsl 0), .dp 11 .add false 12 (.r 12) (.imm 0 1), .store 11 false iAt (.r 12), .store 11 false (outAt k) (.r 8),
    .dp 10 .sub false 0 (.r 0) (.imm 0 1), .store 10 false jAt (.r 0), .store 10 false (outAt k) (.r 7), .const 0 (at' k), .const 0 (at' (k + 1)),
    .store 14 false 0x384#32 (.c (at' (k + 1)))]

def last : List Micro :=
  [.const 14 32, .flags (diff 31 32 true).2, .const 13 0x04000100, .const 4 0, .const 5 0, .const 6 0, .const 7 0, .const 8 0]

theorem run_first : check mergeSortCode lay .init 9 first 21 (xhead 0) = true := by decide +kernel
theorem run_xbody : ∀ n < 32, check mergeSortCode lay (xhead n) 7 (xbody n) 15 (xhead (n + 1)) = true := by decide +kernel
theorem run_mid : check mergeSortCode lay (xhead 32) 28 mid 61 (chead 0) = true := by decide +kernel
theorem run_cbody : ∀ n < 16, check mergeSortCode lay (chead n) 9 (cbody n) 21 (chead (n + 1)) = true := by decide +kernel
theorem run_cend : check mergeSortCode lay (chead 16) 7 cend 17 (dhead 0) = true := by decide +kernel
theorem run_dbody : ∀ n < 16, check mergeSortCode lay (dhead n) 9 (dbody n) 21 (dhead (n + 1)) = true := by decide +kernel
theorem run_dend : check mergeSortCode lay (dhead 16) 6 dend 16 (khead 58 none 0) = true := by decide +kernel
theorem run_kstart : ∀ k < 32, check mergeSortCode lay (khead 58 none k) 4 (kstart k) 10 (khead 62 (some (at' k)) k) = true := by decide +kernel
theorem run_kleft : ∀ k < 32, ∀ i < k + 1,
    check mergeSortCode lay ((khead 62 (some (at' k)) k).setReg 12 (some (at' i))) 2 (kleft i) 6 (khead 64 (some (at' k)) k) = true := by decide +kernel
theorem run_kright : ∀ k < 32, ∀ i < k + 1,
    check mergeSortCode lay ((khead 64 (some (at' k)) k).setReg 0 (some (at' (31 - k + i)))) 1 (kright (31 - k + i)) 3 (khead 65 (some (at' k)) k) = true := by decide +kernel
theorem run_kbody : ∀ k < 32, check mergeSortCode lay (khead 65 (some (at' k)) k) 11 (kbody k) 25 (khead 58 none (k + 1)) = true := by decide +kernel
theorem run_last : check mergeSortCode lay (khead 58 none 32) 4 last 17 stopped = true := by decide +kernel

end TinyGarble.Proof.Hdl.A23.Sym.Merge
