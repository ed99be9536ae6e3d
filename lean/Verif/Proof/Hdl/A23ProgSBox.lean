import Verif.Proof.Hdl.A23SymTrack
import Verif.Proof.Hdl.A23ProgSmall
import Verif.Proof.A23Sbox

/-! # The program sbox -/

namespace TinyGarble.Proof.Hdl.A23.Sym

open TinyGarble.Spec.Arm

/-- An operation of registers. -/
def opr (op : Op) (rd a b : BitVec 4) : Micro := .dp 14 op false rd (.r a) (.reg (.r b) .lsl 0)

/-- An operation of a register and a constant. -/
def opi (op : Op) (rd a : BitVec 4) (x : BitVec 8) : Micro := .dp 14 op false rd (.r a) (.imm 0 x)

namespace SBox

open TinyGarble.Hdl.A23.Programs (sbox)

def lay : Layout := ⟨232, 1, 1, 1, 64⟩

def first : List Micro :=
  [.const 13 0x04000100#32, .const 0 0x01000000#32, .const 1 0x02000000#32, .const 2 0x03000000#32, .const 14 0x0c000014#32, .const 13 0x040000f8#32,
    .store 14 false 0x040000f8#32 (.c 0x00000000#32), .store 14 false 0x040000fc#32 (.c 0x0c000014#32), .const 4 0x03000000#32, .load 14 false 0 0x01000000#32,
    .load 14 false 3 0x02000000#32, opr .eor 0 0 3, opi .and 0 0 255, .const 14 0x0c000390#32]

def save : List Micro :=
  [.const 13 0x040000d4#32, .store 14 false 0x040000d4#32 (.c 0x03000000#32), .store 14 false 0x040000d8#32 (.c 0x00000000#32),
    .store 14 false 0x040000dc#32 (.c 0x00000000#32), .store 14 false 0x040000e0#32 (.c 0x00000000#32), .store 14 false 0x040000e4#32 (.c 0x00000000#32),
    .store 14 false 0x040000e8#32 (.c 0x00000000#32), .store 14 false 0x040000ec#32 (.c 0x00000000#32), .store 14 false 0x040000f0#32 (.c 0x00000000#32),
    .store 14 false 0x040000f4#32 (.c 0x0c000390#32), .const 13 0x04000090#32]

/-- The bits. -/
def bits (a : BitVec 32) : List Micro :=
  [.dp 14 .mov false 2 (.c 0x00000000#32) (.reg (.r 0) .lsr 4), opi .and 2 2 1, .dp 14 .mov false 14 (.c 0x00000000#32) (.reg (.r 0) .lsr 2), opi .and 14 14 1,
    opr .eor 3 2 14, .store 14 false (a + 8) (.r 3), .dp 14 .mov false 9 (.c 0x00000000#32) (.reg (.r 0) .lsr 7),
    .dp 14 .mov false 12 (.c 0x00000000#32) (.reg (.r 0) .lsr 1), opi .and 12 12 1, opr .eor 7 9 12, opr .eor 3 2 9, .store 14 false (a + 12) (.r 3),
    opr .eor 3 14 9, .store 14 false (a + 16) (.r 3), .dp 14 .mov false 3 (.c 0x00000000#32) (.reg (.r 0) .lsr 6), opi .and 3 3 1,
    .dp 14 .mov false 4 (.c 0x00000000#32) (.reg (.r 0) .lsl 26), .dp 14 .eor false 4 (.r 3) (.reg (.r 4) .lsr 31), opi .and 8 0 1, opr .eor 5 4 8,
    opr .eor 2 2 5, .store 14 false (a + 32) (.r 2), .load 14 false 2 (a + 8), opr .eor 2 2 7, .store 14 false (a + 20) (.r 2), opr .eor 2 9 5,
    .store 14 false (a + 36) (.r 2), opr .eor 2 12 5, .store 14 false (a + 24) (.r 2), opr .eor 2 14 9, .load 14 false 1 (a + 24), opr .eor 2 2 1,
    .store 14 false (a + 40) (.r 2), .dp 14 .mov false 0 (.c 0x00000000#32) (.reg (.r 0) .lsl 28), .load 14 false 2 (a + 20),
    .dp 14 .eor false 0 (.r 2) (.reg (.r 0) .lsr 31), opr .eor 10 14 0, opr .eor 0 0 3, opr .eor 3 8 10, .store 14 false (a + 60) (.r 3), opr .eor 3 4 10,
    .store 14 false (a + 28) (.r 3), .load 14 false 3 (a + 12), opr .eor 3 3 0, .store 14 false (a + 4) (.r 3), opr .eor 3 8 3,
    .store 14 false (a + 44) (.r 3), opr .eor 3 4 10, .load 14 false 2 (a + 4), opr .eor 3 3 2, .store 14 false (a + 48) (.r 3), opr .eor 4 4 2,
    .load 14 false 3 (a + 20), opr .and 14 3 10, opr .and 6 7 4, .load 14 false 3 (a + 12), opr .and 3 3 2, .load 14 false 2 (a + 8),
    .load 14 false 1 (a + 48), opr .and 1 2 1, opr .eor 2 3 1, .load 14 false 1 (a + 16), .load 14 false 12 (a + 28), opr .and 12 1 12, opr .eor 11 3 12,
    opr .eor 0 0 14, .load 14 false 3 (a + 40), opr .eor 1 8 10, opr .and 3 3 1, opr .eor 3 3 0, opr .eor 3 3 2, .load 14 false 1 (a + 32), opr .and 1 8 1,
    .load 14 false 0 (a + 16), opr .eor 1 1 0, .load 14 false 0 (a + 28), opr .eor 1 1 0, opr .eor 14 14 1, opr .eor 14 14 11, .load 14 false 1 (a + 24),
    opr .and 1 5 1, opr .eor 1 1 7, opr .eor 1 1 4, opr .eor 1 1 6, opr .eor 1 1 2, opr .eor 9 9 4, opr .eor 6 6 9, .load 14 false 2 (a + 36),
    .load 14 false 0 (a + 44), opr .and 12 2 0, opr .eor 6 6 12, opr .eor 12 11 6, opr .eor 9 3 14, opr .and 3 3 1, opr .eor 6 12 3, opr .and 0 9 6,
    opr .eor 0 0 14, opr .eor 11 1 12, opr .eor 3 3 14, opr .and 3 3 11, opr .eor 2 12 3, opr .eor 3 6 2, opr .and 12 12 3, opr .eor 1 1 2, opr .eor 1 1 12,
    opr .eor 12 12 6, opr .and 12 12 0, opr .eor 12 12 9, opr .eor 3 1 12, .store 14 false (a + 52) (.r 3), opr .eor 3 0 2, opr .eor 9 0 12, opr .eor 6 2 1,
    opr .eor 14 1 12, opr .eor 14 14 3, opr .and 8 8 2, .store 14 false (a + 56) (.r 8), opr .and 4 4 9, opr .and 5 5 12, .load 14 false 8 (a + 44),
    opr .and 8 8 0, .store 14 false (a + 44) (.r 8), .load 14 false 8 (a + 48), opr .and 11 8 14, .load 14 false 8 (a + 40), opr .and 8 8 1,
    .store 14 false (a + 40) (.r 8), opr .and 9 9 7, .load 14 false 7 (a + 8), opr .and 14 7 14, .store 14 false (a + 48) (.r 14), .load 14 false 14 (a + 12),
    opr .and 8 14 3, .load 14 false 14 (a + 48), opr .eor 8 8 14, .load 14 false 14 (a + 24), opr .and 12 12 14, .load 14 false 14 (a + 44), opr .eor 12 12 14,
    .store 14 false (a + 8) (.r 12), opr .and 14 10 6, opr .eor 14 14 4, .load 14 false 7 (a + 56), opr .eor 7 7 9, opr .eor 7 7 14, opr .eor 10 8 5,
    .load 14 false 12 (a + 4), opr .and 3 3 12, opr .eor 4 4 3, opr .eor 4 4 11, .load 14 false 3 (a + 28), .load 14 false 12 (a + 52), opr .and 3 3 12,
    opr .eor 11 11 3, opr .eor 11 11 10, .load 14 false 3 (a + 20), opr .and 6 6 3, .load 14 false 3 (a + 40), opr .eor 6 6 3, opr .eor 6 6 10, opr .eor 5 5 4,
    .load 14 false 3 (a + 36), opr .and 3 3 0, opr .eor 3 3 7, opr .eor 3 3 11, .load 14 false 0 (a + 60), opr .and 1 1 0, opr .eor 1 1 6, opr .eor 6 6 4,
    .load 14 false 0 (a + 8), opr .eor 9 9 0, opr .eor 9 9 11, opi .eor 9 9 1, .dp 14 .mov false 9 (.c 0x00000000#32) (.reg (.r 9) .lsl 1), opr .eor 7 7 8,
    opr .eor 7 7 0, opi .eor 7 7 1, .dp 14 .orr false 6 (.r 9) (.reg (.r 6) .lsl 7), opr .eor 14 14 1, opr .orr 6 7 6, .load 14 false 0 (a + 56),
    .load 14 false 12 (a + 44), opr .eor 8 0 12, opr .eor 1 1 8, .dp 14 .orr false 6 (.r 6) (.reg (.r 14) .lsl 4), .load 14 false 0 (a + 32), opr .and 2 2 0,
    .load 14 false 0 (a + 40), opr .eor 2 2 0, opr .eor 2 2 3, .dp 14 .orr false 1 (.r 6) (.reg (.r 1) .lsl 3),
    .dp 14 .orr false 0 (.r 1) (.reg (.r 2) .lsl 2), opr .eor 14 14 5, opi .eor 14 14 1, opi .bic 0 0 64, .dp 14 .orr false 0 (.r 0) (.reg (.r 14) .lsl 6),
    .load 14 false 2 (a + 16), .load 14 false 1 (a + 52), opr .and 2 2 1, .load 14 false 1 (a + 48), opr .eor 2 2 1, opr .eor 5 5 3, opr .eor 5 5 2,
    opi .eor 5 5 1, opi .bic 0 0 32, .dp 14 .orr false 0 (.r 0) (.reg (.r 5) .lsl 5), opi .and 0 0 255]

def last : List Micro :=
  [.const 13 0x040000d4#32, .const 13 0x040000f8#32, .const 4 0x03000000#32, .const 5 0x00000000#32, .const 6 0x00000000#32, .const 7 0x00000000#32,
    .const 8 0x00000000#32, .const 9 0x00000000#32, .const 10 0x00000000#32, .const 11 0x00000000#32, .store 14 false 0x03000000#32 (.r 0),
    .const 13 0x04000100#32, .const 4 0x00000000#32]

def all : List Micro := first ++ (save ++ bits 0x04000090#32 ++ last)

theorem runs : Runs sbox lay .init all 395 stopped := .of_check (n := 225) (by decide +kernel)

def table (i : Nat) : BitVec 32 := BitVec.ofNat 32 (TinyGarble.A23.sboxTable.getD i 0).toNat

theorem table_eq (x : BitVec 8) : table x.toNat = (Spec.Aes.sbox x).setWidth 32 := by
  have := TinyGarble.A23.tableSBoxValue_eq x
  unfold TinyGarble.A23.tableSBoxValue at this
  rw [table, List.getD_eq_getElem?_getD, this, Option.getD_some]
  exact BitVec.ofNat_toNat ..

theorem track : (Track.start.run (save ++ bits 0x04000090#32 ++ last)).map (fun t => Track.look 0x03000000#32 t.mem) = some (.val (Track.pack table 256)) := by
  decide +kernel

theorem first_reg (s : State) : (applyAll s first).reg 0 = (s.word 0x01000000#32 ^^^ s.word 0x02000000#32) &&& 255#32 := by
  unfold first opr opi
  micro
  rw [show (BitVec.zeroExtend 32 (255 : BitVec 8)).rotateRight (2 * BitVec.toNat (0 : BitVec 4)) = 255#32 by decide]

theorem first_byte (w : BitVec 32) : w &&& 255#32 = BitVec.ofNat 32 (w.setWidth 8).toNat := by
  apply BitVec.eq_of_toNat_eq
  rw [BitVec.toNat_and, show (255#32).toNat = 2 ^ 8 - 1 from rfl, Nat.and_two_pow_sub_one_eq_mod, BitVec.toNat_ofNat, BitVec.toNat_setWidth]
  omega

theorem result (s : State) : (applyAll s all).word 0x03000000#32 = (Spec.Aes.sbox ((s.word 0x01000000#32 ^^^ s.word 0x02000000#32).setWidth 8)).setWidth 32 := by
  rw [all, applyAll_append]
  have h0 := first_reg s
  rw [first_byte] at h0
  generalize (s.word 0x01000000#32 ^^^ s.word 0x02000000#32).setWidth 8 = x at *
  have hx : x.toNat < 256 := x.isLt
  have ht := track
  cases hr : Track.start.run (save ++ bits 0x04000090#32 ++ last) with
  | none => rw [hr] at ht; cases ht
  | some t =>
    rw [hr] at ht
    have := ((Track.agree_start hx h0).run hx hr).word 0x03000000#32
    rw [show Track.look 0x03000000#32 t.mem = .val (Track.pack table 256) from Option.some.inj ht] at this
    have this : _ = Track.lane (Track.pack table 256) x.toNat := this
    rw [this, Track.lane_pack _ hx, table_eq]

end SBox

end TinyGarble.Proof.Hdl.A23.Sym
