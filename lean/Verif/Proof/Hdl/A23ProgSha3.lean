import Verif.Proof.Hdl.A23SymBits
import Verif.Model.Hdl.A23ProgramSha3
import Verif.Proof.A23Sha3

/-! # The program sha3: execution -/

namespace TinyGarble.Proof.Hdl.A23.Sym.Sha3Code

open TinyGarble.Spec.Arm
open TinyGarble.Hdl.A23.Programs (sha3Code)
open Flow (E T B)

def lay : Layout := ⟨831, 2, 2, 8, 64⟩

abbrev nat (n : Nat) : Option (BitVec 32) := some (BitVec.ofNat 32 n)

/-- At the start, where the number of bytes in the block is 0. -/
def hStart : Abs := { Abs.init with mem := [(0xca0, some 0)] }

/-- Known words: the pointer to the result, and the address to which the main function returns. -/
def base : List (BitVec 32 × Option (BitVec 32)) := [(0x04000074, some 0x03000000), (0x040000fc, some 0x0c000014)]

def head (q : BitVec 24) (r3 r8 r12 : Option (BitVec 32)) : Abs :=
  ⟨q, [none, none, none, r3, none, none, none, none, r8, none, none, none, r12, some 0x04000038, none], none, base⟩

/-- Before the block is absorbed. -/
def hBlock : Abs := head 68 none none (some 0xb50)
/-- The loop for the rounds. -/
def hRound (n : Nat) : Abs := if n = 24 then head 661 (some 0xb50) none none else head 207 (some 0xb50) none none
/-- In a round: after theta, after rho and pi, and after chi. -/
def hTheta : Abs := head 351 (some 0xb50) (some 0xb50) none
def hPi : Abs := head 594 (some 0xb50) (some 0xb50) none
def hChi : Abs := head 649 (some 0xb50) none none
def hIota (n : Nat) : Abs := { hChi with mem := (0x04000044, nat n) :: (0x04000070, nat (0xa88 + 8 * n)) :: hChi.mem }

/-- The address of a bit of the state. -/
def bitId (x y z : Nat) : Nat := 8 * 0xb50 + (64 * (5 * y + x) + z)

def columnBits (x z : Nat) : List B := (List.range 5).map fun y => .at (bitId x y z)

def thetaBits (i : Nat) : List B :=
  .at (8 * 0xb50 + i) :: (columnBits ((i / 64 % 5 + 4) % 5) (i % 64) ++ columnBits ((i / 64 % 5 + 1) % 5) ((i % 64 + 63) % 64))

/-- The place of a bit before rho and pi. -/
def piBits (i : Nat) : List B :=
  let x := i / 64 % 5
  let y := i / 320
  [.at (bitId ((x + 3 * y) % 5) x ((64 - TinyGarble.A23.rhoAmount (5 * x + (x + 3 * y) % 5) + i % 64) % 64))]

def chiBits (i : Nat) : List B :=
  let x := i / 64 % 5
  let y := i / 320
  [.at (8 * 0xb50 + i), .andNot (bitId ((x + 2) % 5) y (i % 64)) (bitId ((x + 1) % 5) y (i % 64))]

def iotaBits (n i : Nat) : List B := .at (8 * 0xb50 + i) :: if i < 64 ∧ (TinyGarble.A23.keccakRoundConstants.getD n 0).getLsbD i then [.one] else []

def absorbBits (i : Nat) : List B := .at (8 * 0xb50 + i) :: if i < 1088 then [.at (8 * 0xc18 + i)] else []

/-- The bytes of the padded message. -/
def blockE (p : Nat) : E :=
  if p < 8 then .b (BitVec.ofNat 32 (0x01000000 + p))
  else if p < 16 then .b (BitVec.ofNat 32 (0x02000000 + (p - 8)))
  else if p = 16 then .lo (.op .orr (.lo (.c 0)) (.c 6))
  else if p = 135 then .lo (.op .mvn (.c 0) (.sh .lsr 0x19 (.op .mvn (.c 0) (.sh .lsl 0x19 (.lo (.c 0))))))
  else .lo (.c 0)

theorem show_block : shows sha3Code lay hStart 495 1167 hBlock (fun t => t.within [(0xc18, 0xca0)] [(0xca0, 0xca4), (0x04000034, 0x04000100)]
    && (List.range 136).all fun p => t.byteIs (0xc18 + p) (blockE p)) = true := by decide +kernel

theorem show_absorb : shows sha3Code lay hBlock 139 316 (hRound 0) (fun t => t.wordsAre 0xb50 50 absorbBits
    && Flow.look 0x04000044 t.words == some (.c 0) && Flow.look 0x04000070 t.words == some (.c 0xa88)) = true := by decide +kernel

/-- The parts of the memory that the functions of a round change. -/
def changed : List (Nat × Nat) := [(0xb50, 0xc18), (0xca8, 0xcf8), (0x04000038, 0x04000044), (0x04000048, 0x04000070), (0x04000078, 0x040000fc)]

theorem show_theta : shows sha3Code lay (head 207 (some 0xb50) none none) 356 743 hTheta (fun t => t.within [] changed && t.wordsAre 0xb50 50 thetaBits) = true := by decide +kernel

theorem show_pi : shows sha3Code lay hTheta 243 528 hPi (fun t => t.within [] changed && t.wordsAre 0xb50 50 piBits) = true := by decide +kernel

theorem show_chi : shows sha3Code lay hPi 271 511 hChi (fun t => t.within [] changed && t.wordsAre 0xb50 50 chiBits) = true := by decide +kernel

theorem show_iota : ∀ n < 24, shows sha3Code lay (hIota n) 12 31 (hRound (n + 1)) (fun t => t.wordsAre 0xb50 50 (iotaBits n)
    && (n == 23 || Flow.look 0x04000044 t.words == some (.c (BitVec.ofNat 32 (n + 1)))
      && Flow.look 0x04000070 t.words == some (.c (BitVec.ofNat 32 (0xa88 + 8 * (n + 1)))))) = true := by decide +kernel

theorem show_out : shows sha3Code lay (hRound 24) 227 559 stopped (fun t => (List.range 32).all fun k => t.byteIs (0x03000000 + k) (.b (BitVec.ofNat 32 (0xb50 + k)))) = true := by
  decide +kernel

end TinyGarble.Proof.Hdl.A23.Sym.Sha3Code
