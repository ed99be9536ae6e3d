import Verif.Proof.Hdl.A23SymLeads
import Verif.Proof.Hdl.A23ProgBubble
import Verif.Proof.A23Dijkstra

/-! # The program dijkstra -/

namespace TinyGarble.Proof.Hdl.A23.Sym.Dijkstra

open TinyGarble.Spec.Arm
open TinyGarble.Hdl.A23.Programs (dijkstraCode)
open Sum (imm_one)

def lay : Layout := ⟨257, 64, 64, 8, 64⟩

abbrev at' (x : Nat) : BitVec 32 := BitVec.ofNat 32 x

/-- The addresses of entry `i` of the graph, of distance `v` and of mark `v`. -/
abbrev graphAt (i : Nat) : BitVec 32 := BitVec.ofNat 32 (0x300 + 4 * i)
abbrev distAt (v : Nat) : BitVec 32 := BitVec.ofNat 32 (0x03000000 + 4 * v)
abbrev markAt (v : Nat) : BitVec 32 := BitVec.ofNat 32 (0x040000c0 + 4 * v)

/-- The saved registers. -/
def mem : List (BitVec 32 × Option (BitVec 32)) :=
  (0x040000fc, some 0x0c000014) :: (List.range 7).map (fun i => (at' (0x040000e0 + 4 * i), some 0))

def first : List Micro :=
  [.const 13 0x04000100, .const 0 0x01000000, .const 1 0x02000000, .const 2 0x03000000, .const 14 0x0c000014, .const 13 0x040000e0,
    .store 14 false 0x040000e0#32 (.c 0), .store 14 false 0x040000e4#32 (.c 0), .store 14 false 0x040000e8#32 (.c 0), .store 14 false 0x040000ec#32 (.c 0),
    .store 14 false 0x040000f0#32 (.c 0), .store 14 false 0x040000f4#32 (.c 0), .store 14 false 0x040000f8#32 (.c 0), .store 14 false 0x040000fc#32 (.c 0x0c000014),
    .const 13 0x040000c0, .const 3 0, .const 6 0x300, .const 4 0x300]

/-- Before row `i` of the input. -/
def rhead (i : Nat) : Abs :=
  ⟨if i = 8 then 29 else 15, [some 0x01000000, some 0x02000000, some 0x03000000, some (at' (32 * i)), some 0x300, none, some 0x300, none, none, none, none, none, none,
    some 0x040000c0, none], none, mem⟩

def rstart (i : Nat) : List Micro :=
  [.const 12 0, .const 9 (at' (0x300 + 32 * i)), .const 8 (at' (0x01000000 + 32 * i)), .const 7 (at' (0x02000000 + 32 * i))]

/-- Before entry `j` of row `i`. -/
def xhead (i j : Nat) : Abs :=
  ⟨if j = 8 then 26 else 19, [some 0x01000000, some 0x02000000, some 0x03000000, some (at' (32 * i)), some 0x300, none, some 0x300, some (at' (0x02000000 + 32 * i)),
    some (at' (0x01000000 + 32 * i)), some (at' (0x300 + 32 * i)), none, none, some (at' j), some 0x040000c0, none], none, mem⟩

def xbody (i j : Nat) : List Micro :=
  [.load 14 false 10 (at' (0x01000000 + 4 * (8 * i + j))), .load 14 false 5 (at' (0x02000000 + 4 * (8 * i + j))), .dp 14 .eor false 5 (.r 5) (.reg (.r 10) .lsl 0),
    .store 14 false (graphAt (8 * i + j)) (.r 5), .const 12 (at' (j + 1)), .flags (diff (at' (j + 1)) 8 true).2]

def rend (i : Nat) : List Micro := [.const 3 (at' (32 * (i + 1))), .flags (diff (at' (32 * (i + 1))) 256 true).2]

def mid : List Micro := [.const 3 0, .const 0 0x7fff, .const 1 0]

/-- Before the initialisation of distance `v`. -/
def dhead (v : Nat) : Abs :=
  ⟨if v = 8 then 37 else 32, [some 0x7fff, some 0, some 0x03000000, some (at' v), some 0x300, none, none, none, none, none, none, none, none, some 0x040000c0, none], none, mem⟩

def dbody (v : Nat) : List Micro :=
  [.store 14 false (distAt v) (.c 0x7fff), .store 14 false (markAt v) (.c 0), .const 3 (at' (v + 1)), .flags (diff (at' (v + 1)) 8 true).2]

def mid2 : List Micro := [.store 14 false (distAt 0) (.c 0), .const 12 7, .const 5 1, .const 6 0x7fff]

/-- Before round `t`. -/
def ohead (t : Nat) : Abs :=
  ⟨if t = 7 then 84 else 41, [none, none, some 0x03000000, none, some 0x300, some 1, some 0x7fff, none, none, none, none, none, some (at' (7 - t)), some 0x040000c0, none],
    none, mem⟩

def ostart : List Micro := [.const 1 0x7fff, .const 3 0]

/-- In the search for the nearest vertex, before vertex `v`. -/
def mhead (v : Nat) : Abs :=
  ⟨if v = 8 then 55 else 43, [none, none, some 0x03000000, some (at' v), some 0x300, some 1, some 0x7fff, none, none, none, none, none, none,
    some 0x040000c0, none], none, mem⟩

def mbody (v : Nat) : List Micro :=
  [.load 14 false 7 (distAt v), .load 14 false 0 (markAt v), .dp 14 .cmp true 0 (.r 7) (.reg (.r 1) .lsl 0), .dp 13 .cmp true 0 (.r 0) (.imm 0 0),
    .dp 0 .mov false 0 (.c 0) (.imm 0 1), .dp 1 .mov false 0 (.c 0) (.imm 0 0), .dp 14 .cmp true 0 (.r 0) (.imm 0 0),
    .dp 1 .mov false 14 (.c 0) (.reg (.c (at' v)) .lsl 0), .dp 1 .mov false 1 (.c 0) (.reg (.r 7) .lsl 0), .const 3 (at' (v + 1)), .flags (diff (at' (v + 1)) 8 true).2]

def ustart (u : Nat) : List Micro :=
  [.const 0 (at' (4 * u)), .const 3 0x040000e0, .const 3 (at' (0x040000e0 + 4 * u)), .store 14 false (markAt u) (.c 1), .const 0 (distAt u),
    .const 8 (at' (0x300 + 32 * u)), .const 3 0]

/-- Before the update of distance `v` by way of `u`. -/
def ihead (u v : Nat) : Abs :=
  ⟨if v = 8 then 82 else 62, [some (distAt u), none, some 0x03000000, some (at' v), some 0x300, some 1, some 0x7fff, none, some (at' (0x300 + 32 * u)), none, none, none,
    none, some 0x040000c0, none], none, mem⟩

def ibody (u v : Nat) : List Micro :=
  [.load 14 false 10 (distAt u), .load 14 false 9 (graphAt (8 * u + v)), .dp 14 .add false 7 (.r 10) (.reg (.r 9) .lsl 0), .load 14 false 1 (markAt v),
    .dp 14 .rsb true 1 (.r 1) (.imm 0 1), .dp 3 .mov false 1 (.c 0) (.imm 0 0), .dp 14 .cmp true 0 (.r 10) (.reg (.c 0x7fff) .lsl 0), .dp 0 .mov false 1 (.c 0) (.imm 0 0),
    .dp 14 .cmp true 0 (.r 9) (.imm 0 0), .dp 0 .mov false 1 (.c 0) (.imm 0 0), .dp 1 .and false 1 (.r 1) (.imm 0 1), .load 14 false 9 (distAt v),
    .dp 14 .cmp true 0 (.r 7) (.reg (.r 9) .lsl 0), .dp 10 .mov false 1 (.c 0) (.imm 0 0), .dp 11 .and false 1 (.r 1) (.imm 0 1), .dp 14 .cmp true 0 (.r 1) (.imm 0 0),
    .store 1 false (distAt v) (.r 7), .const 3 (at' (v + 1)), .flags (diff (at' (v + 1)) 8 true).2]

def iend (t : Nat) : List Micro := [.const 12 (at' (6 - t)), .flags (diff (at' (7 - t)) 1 true).2]

def last : List Micro :=
  [.const 13 0x040000e0, .const 13 0x04000100, .const 4 0, .const 5 0, .const 6 0, .const 7 0, .const 8 0, .const 9 0, .const 10 0]

theorem run_first : check dijkstraCode lay .init 10 first 31 (rhead 0) = true := by decide +kernel
theorem run_rstart : ∀ i < 8, check dijkstraCode lay (rhead i) 4 (rstart i) 4 (xhead i 0) = true := by decide +kernel
theorem run_xbody : ∀ i < 8, ∀ j < 8, check dijkstraCode lay (xhead i j) 7 (xbody i j) 15 (xhead i (j + 1)) = true := by decide +kernel
theorem run_rend : ∀ i < 8, check dijkstraCode lay (xhead i 8) 3 (rend i) 5 (rhead (i + 1)) = true := by decide +kernel
theorem run_mid : check dijkstraCode lay (rhead 8) 3 mid 5 (dhead 0) = true := by decide +kernel
theorem run_dbody : ∀ v < 8, check dijkstraCode lay (dhead v) 5 (dbody v) 11 (dhead (v + 1)) = true := by decide +kernel
theorem run_mid2 : check dijkstraCode lay (dhead 8) 4 mid2 8 (ohead 0) = true := by decide +kernel
theorem run_ostart : ∀ t < 7, check dijkstraCode lay (ohead t) 2 ostart 4 (mhead 0) = true := by decide +kernel
theorem run_mbody : ∀ v < 8, check dijkstraCode lay (mhead v) 12 (mbody v) 18 (mhead (v + 1)) = true := by decide +kernel
theorem run_ustart : ∀ u < 8, check dijkstraCode lay ((mhead 8).setReg 14 (some (at' u))) 7 (ustart u) 9 (ihead u 0) = true := by decide +kernel
theorem run_ibody : ∀ u < 8, ∀ v < 8, check dijkstraCode lay (ihead u v) 20 (ibody u v) 32 (ihead u (v + 1)) = true := by decide +kernel
theorem run_iend : ∀ t < 7, ∀ u < 8, check dijkstraCode lay ((ihead u 8).setReg 12 (some (at' (7 - t)))) 2 (iend t) 4 (ohead (t + 1)) = true := by decide +kernel
theorem run_last : check dijkstraCode lay (ohead 7) 2 last 13 stopped = true := by decide +kernel

end TinyGarble.Proof.Hdl.A23.Sym.Dijkstra
