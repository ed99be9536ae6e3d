import Verif.Model.Hdl.Seq

/-!
# AES as a circuit

Models circuit_synthesis/aes. Byte `i` of a vector are the bits `8 i + 7 … 8 i`.
-/

namespace TinyGarble.Hdl.Aes

/-- `sbox` (SubBytes.v:1-135). The vectors `x` and `s` are declared as `[0:7]`, so bit 0 is the most significant one. -/
def sbox (num : BitVec 8) : BitVec 8 :=
  let x0 := num.getLsbD 7; let x1 := num.getLsbD 6; let x2 := num.getLsbD 5; let x3 := num.getLsbD 4; let x4 := num.getLsbD 3
  let x5 := num.getLsbD 2; let x6 := num.getLsbD 1; let x7 := num.getLsbD 0; let y14 := x3 ^^ x5; let y13 := x0 ^^ x6
  let y9 := x0 ^^ x3; let y8 := x0 ^^ x5; let t0 := x1 ^^ x2; let y1 := t0 ^^ x7; let y4 := y1 ^^ x3; let y12 := y13 ^^ y14
  let y2 := y1 ^^ x0; let y5 := y1 ^^ x6; let y3 := y5 ^^ y8; let t1 := x4 ^^ y12; let y15 := t1 ^^ x5; let y20 := t1 ^^ x1
  let y6 := y15 ^^ x7; let y10 := y15 ^^ t0; let y11 := y20 ^^ y9; let y7 := x7 ^^ y11; let y17 := y10 ^^ y11
  let y19 := y10 ^^ y8; let y16 := t0 ^^ y11; let y21 := y13 ^^ y16; let y18 := x0 ^^ y16; let t2 := y12 && y15
  let t3 := y3 && y6; let t4 := t3 ^^ t2; let t5 := y4 && x7; let t6 := t5 ^^ t2; let t7 := y13 && y16; let t8 := y5 && y1
  let t9 := t8 ^^ t7; let t10 := y2 && y7; let t11 := t10 ^^ t7; let t12 := y9 && y11; let t13 := y14 && y17
  let t14 := t13 ^^ t12; let t15 := y8 && y10; let t16 := t15 ^^ t12; let t17 := t4 ^^ t14; let t18 := t6 ^^ t16
  let t19 := t9 ^^ t14; let t20 := t11 ^^ t16; let t21 := t17 ^^ y20; let t22 := t18 ^^ y19; let t23 := t19 ^^ y21
  let t24 := t20 ^^ y18; let t25 := t21 ^^ t22; let t26 := t21 && t23; let t27 := t24 ^^ t26; let t28 := t25 && t27
  let t29 := t28 ^^ t22; let t30 := t23 ^^ t24; let t31 := t22 ^^ t26; let t32 := t31 && t30; let t33 := t32 ^^ t24
  let t34 := t23 ^^ t33; let t35 := t27 ^^ t33; let t36 := t24 && t35; let t37 := t36 ^^ t34; let t38 := t27 ^^ t36
  let t39 := t29 && t38; let t40 := t25 ^^ t39; let t41 := t40 ^^ t37; let t42 := t29 ^^ t33; let t43 :=  t29 ^^ t40
  let t44 :=  t33 ^^ t37; let t45 := t42 ^^ t41; let z0 := t44 && y15; let z1 := t37 && y6; let z2 := t33 && x7
  let z3 := t43 && y16; let z4 := t40 && y1; let z5 := t29 && y7; let z6 := t42 && y11; let z7 := t45 && y17
  let z8 := t41 && y10; let z9 := t44 && y12; let z10 := t37 && y3; let z11 := t33 && y4; let z12 := t43 && y13
  let z13 := t40 && y5; let z14 := t29 && y2; let z15 := t42 && y9; let z16 := t45 && y14; let z17 := t41 && y8
  let t46 := z15 ^^ z16; let t47 := z10 ^^ z11; let t48 := z5 ^^ z13; let t49 := z9 ^^ z10; let t50 := z2 ^^ z12
  let t51 := z2 ^^ z5; let t52 := z7 ^^ z8; let t53 := z0 ^^ z3; let t54 := z6 ^^ z7; let t55 := z16 ^^ z17
  let t56 := z12 ^^ t48; let t57 := t50 ^^ t53; let t58 := z4 ^^ t46; let t59 := z3 ^^ t54; let t60 := t46 ^^ t57
  let t61 := z14 ^^ t57; let t62 := t52 ^^ t58; let t63 := t49 ^^ t58; let t64 := z4 ^^ t59; let t65 := t61 ^^ t62
  let t66 := z1 ^^ t63; let s0 := t59 ^^ t63; let s6 := (!t56) ^^ t62; let s7 := (!t48) ^^ t60; let t67 := t64 ^^ t65
  let s3 := t53 ^^ t66; let s4 := t51 ^^ t66; let s5 := t47 ^^ t65; let s1 := (!t64) ^^ s3; let s2 := (!t55) ^^ t67
  ofBits 8 fun i => match i with
    | 0 => s7 | 1 => s6 | 2 => s5 | 3 => s4 | 4 => s3 | 5 => s2 | 6 => s1 | _ => s0

/-- `SubBytes` (SubBytes.v:137-152). -/
def SubBytes (x : BitVec 128) : BitVec 128 := ofEntries 16 8 fun i => sbox (entry 8 x i)

/-- The wires in the concatenation that is assigned to `zr` (ShiftRows.v:23). -/
def shiftRowsWires : List Nat := [
  0, 1, 2, 3, 4, 5, 6, 7, 40, 41, 42, 43, 44, 45, 46, 47,
  80, 81, 82, 83, 84, 85, 86, 87, 120, 121, 122, 123, 124, 125, 126, 127,
  32, 33, 34, 35, 36, 37, 38, 39, 72, 73, 74, 75, 76, 77, 78, 79,
  112, 113, 114, 115, 116, 117, 118, 119, 24, 25, 26, 27, 28, 29, 30, 31,
  64, 65, 66, 67, 68, 69, 70, 71, 104, 105, 106, 107, 108, 109, 110, 111,
  16, 17, 18, 19, 20, 21, 22, 23, 56, 57, 58, 59, 60, 61, 62, 63,
  96, 97, 98, 99, 100, 101, 102, 103, 8, 9, 10, 11, 12, 13, 14, 15,
  48, 49, 50, 51, 52, 53, 54, 55, 88, 89, 90, 91, 92, 93, 94, 95]

/-- `ShiftRows` (ShiftRows.v:1-25): `{w0, …, w127} = xr`, so `w0` is bit 127 of `xr`. -/
def ShiftRows (x : BitVec 128) : BitVec 128 :=
  let xr := fun i => x.getLsbD (127 - i)
  let w := fun i => xr (127 - i)
  let zr := fun i => w (shiftRowsWires.getD (127 - i) 0)
  ofBits 128 fun i => zr (127 - i)

/-- `xtime` (MixColumns.v:1-23). -/
def xtime (x : BitVec 8) : BitVec 8 := if x.getLsbD 7 then (x <<< 1) ^^^ 0x1B#8 else x <<< 1

/-- `MixColumns` (MixColumns.v:26-74). -/
def MixColumns (x : BitVec 128) : BitVec 128 := ofEntries 16 8 fun p =>
  let i := p / 4
  let a0 := entry 8 x (4 * i + 0)
  let a1 := entry 8 x (4 * i + 1)
  let a2 := entry 8 x (4 * i + 2)
  let a3 := entry 8 x (4 * i + 3)
  let temp := a0 ^^^ a1 ^^^ a2 ^^^ a3
  let c0 := xtime (a0 ^^^ a1)
  let c1 := xtime (a1 ^^^ a2)
  let c2 := xtime (a2 ^^^ a3)
  let c3 := xtime (a3 ^^^ a0)
  match p % 4 with
  | 0 => a0 ^^^ temp ^^^ c0
  | 1 => a1 ^^^ temp ^^^ c1
  | 2 => a2 ^^^ temp ^^^ c2
  | _ => a3 ^^^ temp ^^^ c3

/-- `AddRoundKey` (AddRoundKey.v:1-12). -/
def AddRoundKey (x y : BitVec 128) : BitVec 128 := x ^^^ y

/-- `RCon` (KeyExpansion.v:21-30; KeyExpansionSeq.v:25-35 with an eleventh entry). -/
def RCon : List (BitVec 8) := [0x01, 0x02, 0x04, 0x08, 0x10, 0x20, 0x40, 0x80, 0x1b, 0x36, 0x00]

/-- `t[i]` (KeyExpansion.v:58-64, KeyExpansionSeq.v:60-62), from the last word and the constant. -/
def coreKey (w : BitVec 32) (rcon : BitVec 8) : BitVec 32 :=
  let rotWord : BitVec 32 := w.extractLsb' 0 8 ++ w.extractLsb' 8 24
  let Q : BitVec 32 := (SubBytes (rotWord ++ 0#96)).extractLsb' 96 32
  Q.extractLsb' 8 24 ++ (rcon ^^^ Q.extractLsb' 0 8)

/-- `w[i]` (KeyExpansion.v:43-55). -/
def keyWord (key : BitVec 128) (i : Nat) : BitVec 32 :=
  if i < 4 then entry 32 key i
  else if i % 4 = 0 then keyWord key (i - 4) ^^^ coreKey (keyWord key (i - 1)) (RCon.getD (i / 4 - 1) 0)
  else keyWord key (i - 1) ^^^ keyWord key (i - 4)
termination_by i
decreasing_by all_goals omega

/-- `expandedKeyi[i]`: part `i` of `expandedKey` (KeyExpansion.v:36-41, aes_1cc.v:41-46). -/
def expandedKey (key : BitVec 128) (i : Nat) : BitVec 128 := ofEntries 4 32 fun j => keyWord key (4 * i + j)

/-- `x1[i]` (aes_1cc.v:48-79): the input of round `i`. -/
def roundInput (key msg : BitVec 128) : Nat → BitVec 128
  | 0 => AddRoundKey msg (expandedKey key 0)
  | i + 1 => AddRoundKey (MixColumns (ShiftRows (SubBytes (roundInput key msg i)))) (expandedKey key (i + 1))

/-- aes_1cc.v:5-82. -/
def aes1cc (key msg : BitVec 128) : BitVec 128 :=
  AddRoundKey (ShiftRows (SubBytes (roundInput key msg 9))) (expandedKey key 10)

/-- `KeyExpansionSeq` (KeyExpansionSeq.v:1-65). For `counter > 10` the index of `RCon` is out of range; this happens only after the
cycle with the result. -/
def KeyExpansionSeq (key : BitVec 128) (counter : BitVec 4) : BitVec 128 :=
  let w := fun i => if counter.toNat < 10 then entry 32 key i else 0#32
  let t := coreKey (w 3) (RCon.getD counter.toNat 0)
  let wNext0 := w 0 ^^^ t
  let wNext1 := w 1 ^^^ wNext0
  let wNext2 := w 2 ^^^ wNext1
  let wNext3 := w 3 ^^^ wNext2
  ofEntries 4 32 fun i => match i with | 0 => wNext0 | 1 => wNext1 | 2 => wNext2 | _ => wNext3

/-- The registers of aes_11cc.v. -/
structure Regs where
  key : BitVec 128
  msg : BitVec 128
  counter : BitVec 4

/-- aes_11cc.v:36-75, one cycle. -/
def aes11ccStep (s : Regs) (_ : Unit) : Regs × BitVec 128 :=
  let shiftRowOut := ShiftRows (SubBytes s.msg)
  let mixColOut := MixColumns shiftRowOut
  let input := if s.counter = 0 then s.msg else if s.counter.toNat < 10 then mixColOut else shiftRowOut
  let out := AddRoundKey input s.key
  (⟨KeyExpansionSeq s.key s.counter, out, s.counter + 1⟩, out)

/-- aes_11cc.v:5-78, the outputs of `n` cycles. -/
def aes11cc (g e : BitVec 128) (n : Nat) : List (BitVec 128) := runSeq aes11ccStep ⟨g, e, 0⟩ (List.replicate n ())

end TinyGarble.Hdl.Aes
