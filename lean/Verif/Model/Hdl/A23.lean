import Verif.Model.Hdl.Seq

/-!
# The ARM processor

Models circuit_synthesis/a23: a23_gc_main.v and its modules. The selectors of multiplexers are natural numbers here, with the values of the
code. Left out are registers whose value is never used: `mtrans_r15`, `saved_current_instruction_address`,
`pre_fetch_instruction_address` (a23_decode.v:185, 187, 200).
-/

namespace TinyGarble.Hdl.A23

/-- Bits `i` to `i + w - 1` of a word. -/
def slice {n : Nat} (x : BitVec n) (i w : Nat) : BitVec w := x.extractLsb' i w

/-- The states of the control unit (a23_decode.v:91-112). -/
inductive Control
  | rstWait1 | rstWait2 | intWait1 | intWait2 | execute | preFetchExec | memWait1 | memWait2 | pcStall1 | pcStall2
  | mtransExec1 | mtransExec2 | mtransExec3 | mtransExec3b | mtransExec4 | multProc1 | multProc2 | multStore
  deriving DecidableEq

/-- The types of instructions (a23_localparams.vh:44-53). -/
inductive IType
  | regop | mult | swap | trans | mtrans | branch | codtrans | coregop | cortrans | swi
  deriving DecidableEq

/-- `itype` (a23_decode.v:259-271). -/
def itype (i : BitVec 32) : IType :=
  if slice i 23 5 = 0b00010#5 ∧ slice i 20 2 = 0 ∧ slice i 4 4 = 0b1001#4 then .swap
  else if slice i 22 6 = 0 ∧ slice i 4 4 = 0b1001#4 then .mult
  else if slice i 26 2 = 0 then .regop
  else if slice i 26 2 = 1 then .trans
  else if slice i 25 3 = 4 then .mtrans
  else if slice i 25 3 = 5 then .branch
  else if slice i 25 3 = 6 then .codtrans
  else if slice i 24 4 = 14 ∧ i.getLsbD 4 = false then .coregop
  else if slice i 24 4 = 14 ∧ i.getLsbD 4 = true then .cortrans
  else .swi

/-- The registers between decode and execute (a23_decode.v:61-85, 210-218). -/
structure Ctl where
  imm32 : BitVec 32
  immShift : BitVec 5
  condition : BitVec 4
  rmSel : BitVec 4
  rdsSel : BitVec 4
  rnSel : BitVec 4
  /-- 0 nothing, 1 register, 2 immediate, 3 alignment -/
  bsAmount : Nat
  /-- 0 immediate, 1 memory, 2 register -/
  bsData : Nat
  bsFunc : BitVec 2
  aluSwap : Bool
  aluNot : Bool
  /-- 0 zero, 1 one, 2 carry -/
  aluCin : Nat
  aluCout : Bool
  aluOut : Nat
  useCarry : Bool
  mulEnable : Bool
  mulAccum : Bool
  address : Nat
  pcSel : Nat
  byteSel : Nat
  statusSel : Nat
  regWrite : Nat
  writeWen : Bool
  pcWen : Bool
  regWen : BitVec 15
  flagsWen : Bool

/-- The outputs of the block of control signals (a23_decode.v:431-462), with their default values. -/
structure Nxt where
  savedWen : Bool := false
  preWen : Bool := false
  bsAmount : Nat := 0
  bsData : Nat := 0
  bsFunc : BitVec 2 := 0
  aluSwap : Bool := false
  aluNot : Bool := false
  aluCin : Nat := 0
  aluCout : Bool := false
  aluOut : Nat := 0
  useCarry : Bool := false
  mulEnable : Bool := false
  mulAccum : Bool := false
  address : Nat := 0
  pcSel : Nat := 0
  byteSel : Nat := 0
  statusSel : Nat := 0
  regWrite : Nat := 0
  writeWen : Bool := false
  pcWen : Bool := true
  wsel : BitVec 4 := 15
  flagsWen : Bool := false

/-- `opcode` (a23_decode.v:278). -/
def opcode (i : BitVec 32) : Nat := (slice i 21 4).toNat

/-- `opcode_compare` (a23_decode.v:308-312). -/
def opcodeCompare (i : BitVec 32) : Bool := opcode i == 10 || opcode i == 11 || opcode i == 9 || opcode i == 8

/-- `shift_extend` (a23_decode.v:295). -/
def shiftExtend (i : BitVec 32) : Bool := !i.getLsbD 25 && !i.getLsbD 4 && slice i 7 5 == 0 && slice i 5 2 == 3

/-- The part of the block for data processing (a23_decode.v:465-569). The opcodes are AND 0, EOR 1, SUB 2, RSB 3, ADD 4, ADC 5, SBC 6, RSC 7,
TST 8, TEQ 9, CMP 10, CMN 11, ORR 12, MOV 13, BIC 14, MVN 15. -/
def regopNxt (i : BitVec 32) (n : Nxt) : Nxt :=
  let op := opcode i
  let n := if opcodeCompare i = false then
      (if slice i 12 4 = 15 then { n with pcSel := 1, address := 1 } else { n with wsel := slice i 12 4 }) else n
  let n := if i.getLsbD 25 = false then { n with bsFunc := slice i 5 2 } else n
  let n := if i.getLsbD 25 = false then { n with bsData := 2 } else n
  let n := if i.getLsbD 25 = false ∧ i.getLsbD 4 then { n with bsAmount := 1 } else n
  let n := if i.getLsbD 25 = false ∧ i.getLsbD 4 = false then { n with bsAmount := 2 } else n
  let n := if op = 0 ∨ op = 1 ∨ op = 8 ∨ op = 9 ∨ op = 12 ∨ op = 13 ∨ op = 14 ∨ op = 15 then { n with statusSel := 5 } else n
  let n := if op = 4 ∨ op = 11 then { n with aluOut := 1, useCarry := shiftExtend i } else n
  let n := if op = 5 then { n with aluOut := 1, aluCin := 2, useCarry := shiftExtend i } else n
  let n := if op = 2 ∨ op = 10 then { n with aluOut := 1, aluCin := 1, aluNot := true } else n
  let n := if op = 6 then { n with aluOut := 1, aluCin := 2, aluNot := true, useCarry := true } else n
  let n := if op = 3 then { n with aluOut := 1, aluCin := 1, aluNot := true, aluSwap := true } else n
  let n := if op = 7 then { n with aluOut := 1, aluCin := 2, aluNot := true, aluSwap := true, useCarry := true } else n
  let n := if op = 0 ∨ op = 8 then { n with aluOut := 8, aluCout := true } else n
  let n := if op = 1 ∨ op = 9 then { n with aluOut := 6, aluCout := true, useCarry := true } else n
  let n := if op = 12 then { n with aluOut := 7, aluCout := true, useCarry := true } else n
  let n := if op = 14 then { n with aluOut := 8, aluNot := true, aluCout := true, useCarry := true } else n
  let n := if op = 13 then { n with aluCout := true, useCarry := true } else n
  if op = 15 then { n with aluNot := true, aluCout := true, useCarry := true } else n

/-- The part for loads and stores (a23_decode.v:572-611). -/
def transNxt (i : BitVec 32) (n : Nxt) : Nxt :=
  let n := { n with savedWen := true, pcWen := false, aluOut := 1 }
  let n := if i.getLsbD 23 = false then { n with aluCin := 1, aluNot := true } else n
  let n := if i.getLsbD 20 = false then
      { n with writeWen := true, byteSel := if i.getLsbD 22 then 1 else n.byteSel } else n
  let n := if (i.getLsbD 24 ∧ i.getLsbD 21) ∨ i.getLsbD 24 = false then
      (if slice i 16 4 = 15 then { n with pcSel := 1 } else { n with wsel := slice i 16 4 }) else n
  let n := if i.getLsbD 24 = false then { n with address := 4 } else { n with address := 1 }
  let n := if i.getLsbD 25 then { n with bsData := 2 } else n
  if i.getLsbD 25 ∧ slice i 7 5 ≠ 0 then { n with bsFunc := slice i 5 2, bsAmount := 2 } else n

/-- The part for branches (a23_decode.v:613-622). -/
def branchNxt (i : BitVec 32) (n : Nxt) : Nxt :=
  let n := { n with pcSel := 3, address := 8, aluOut := 1 }
  if i.getLsbD 24 then { n with wsel := 14, regWrite := 1 } else n

/-- The part for multiple loads and stores (a23_decode.v:624-653). -/
def mtransNxt (i : BitVec 32) (n : Nxt) : Nxt :=
  let n := { n with savedWen := true, pcWen := false, aluOut := 1 }
  let n := if i.getLsbD 23 then
      (if i.getLsbD 24 then { n with address := 7 } else { n with address := 4 })
    else
      let n := { n with aluCin := 1, aluNot := true }
      if i.getLsbD 24 = false then { n with address := 6 } else { n with address := 1 }
  let n := if i.getLsbD 20 = false then { n with writeWen := true } else n
  if i.getLsbD 21 then { n with wsel := slice i 16 4 } else n

/-- The part for multiplication (a23_decode.v:656-665). -/
def multNxt (i : BitVec 32) (n : Nxt) : Nxt :=
  let n := { n with mulEnable := true, savedWen := true, pcWen := false }
  if i.getLsbD 21 then { n with mulAccum := true } else n

/-- The part for valid instructions (a23_decode.v:464-677). -/
def validNxt (i : BitVec 32) (n : Nxt) : Nxt :=
  let n := if itype i = .regop then regopNxt i n else n
  let n := if itype i = .trans then transNxt i n else n
  let n := if itype i = .branch then branchNxt i n else n
  let n := if itype i = .mtrans then mtransNxt i n else n
  let n := if itype i = .mult then multNxt i n else n
  if itype i = .regop ∧ i.getLsbD 20 then
    let n := { n with flagsWen := true }
    if slice i 12 4 = 15 then { n with statusSel := 1 } else n
  else n

/-- `instruction_valid` (a23_decode.v:826). -/
def valid (s : Control) : Bool := s == .execute || s == .preFetchExec

/-- The control signals (a23_decode.v:431-819). `mulEnable` and `mulAccum` are `o_multiply_function`, `low` is `i_execute_address[1:0]`. -/
def controlNxt (s : Control) (i : BitVec 32) (mulEnable mulAccum : Bool) (low : BitVec 2) (d2 : BitVec 4) : Nxt :=
  let n : Nxt := {}
  let n := if valid s then validNxt i n else n
  let n := if s = .memWait1 then { n with preWen := true, address := 3, pcWen := false } else n
  let n := if s = .memWait2 ∧ itype i = .trans ∧ i.getLsbD 20 then
      let n := { n with bsData := 1, bsAmount := 3 }
      let n := if low ≠ 0 then { n with bsFunc := 3 } else n
      let n := if i.getLsbD 22 then { n with aluOut := 3 } else n
      if slice i 12 4 = 15 then { n with pcSel := 1, address := 1 } else { n with wsel := slice i 12 4 }
    else n
  let n := if s = .mtransExec1 then
      let n := { n with preWen := true, address := 5, pcWen := false }
      if i.getLsbD 20 = false then { n with writeWen := true } else n
    else n
  let n := if s = .mtransExec2 then
      let n := { n with address := 5, pcWen := false, bsData := 1 }
      if i.getLsbD 20 then { n with wsel := d2 } else { n with writeWen := true }
    else n
  let n := if s = .mtransExec3 then
      let n := { n with address := 3, pcWen := false, bsData := 1 }
      if i.getLsbD 20 then { n with wsel := d2 } else n
    else n
  let n := if s = .mtransExec3b then { n with preWen := true, address := 3, pcWen := false } else n
  let n := if s = .mtransExec4 then
      let n := { n with bsData := 1 }
      if i.getLsbD 20 then
        if d2 = 15 then
          let n := { n with address := 1, pcSel := 1, pcWen := true }
          if i.getLsbD 22 then { n with statusSel := 1, flagsWen := true } else n
        else { n with wsel := d2 }
      else n
    else n
  let n := if s = .multProc1 then { n with preWen := true, pcWen := false, mulEnable := mulEnable, mulAccum := mulAccum } else n
  let n := if s = .multProc2 then { n with pcWen := false, address := 3, mulEnable := mulEnable, mulAccum := mulAccum } else n
  if s = .multStore then
    let n := { n with regWrite := 2, mulEnable := mulEnable, mulAccum := mulAccum, wsel := slice i 16 4 }
    if i.getLsbD 20 then { n with statusSel := 4, flagsWen := true } else n
  else n

/-- The first register of a list (a23_decode.v:364-382). -/
def mtransReg (i : BitVec 32) : BitVec 4 :=
  if i.getLsbD 0 then 0 else if i.getLsbD 1 then 1 else if i.getLsbD 2 then 2 else if i.getLsbD 3 then 3
  else if i.getLsbD 4 then 4 else if i.getLsbD 5 then 5 else if i.getLsbD 6 then 6 else if i.getLsbD 7 then 7
  else if i.getLsbD 8 then 8 else if i.getLsbD 9 then 9 else if i.getLsbD 10 then 10 else if i.getLsbD 11 then 11
  else if i.getLsbD 12 then 12 else if i.getLsbD 13 then 13 else if i.getLsbD 14 then 14 else 15

/-- The instruction without the first register of its list (a23_decode.v:385-403): the bits up to that one are zero. -/
def mtransInstruction (i : BitVec 32) : BitVec 32 :=
  ofBits 32 fun k => if k < 16 then i.getLsbD k && decide ((mtransReg i).toNat < k) else i.getLsbD k

/-- The number of registers (a23_decode.v:407-422). -/
def mtransNum (i : BitVec 32) : BitVec 5 :=
  (List.range 16).foldl (fun s k => s + (0#4 ++ BitVec.ofBool (i.getLsbD (15 - k)))) 0

/-- `control_state_nxt` (a23_decode.v:829-900). `i_multiply_done` is constantly 1 (a23_multiply.v:83). -/
def stateNxt (s : Control) (i : BitVec 32) (n : Nxt) : Control :=
  let writePc := n.pcWen && n.pcSel != 0
  match s with
  | .rstWait1 => .rstWait2
  | .rstWait2 => .execute
  | .intWait1 => .intWait2
  | .intWait2 => .execute
  | .pcStall1 => .pcStall2
  | .pcStall2 => .execute
  | .multStore => .preFetchExec
  | .memWait1 => .memWait2
  | .memWait2 => if writePc then .pcStall1 else .preFetchExec
  | .mtransExec1 => if slice (mtransInstruction i) 0 16 ≠ 0 then .mtransExec2 else .mtransExec3
  | .mtransExec2 => if mtransNum i = 1 then .mtransExec3 else .mtransExec2
  | .mtransExec3 => .mtransExec4
  | .mtransExec3b => .mtransExec4
  | .mtransExec4 => if writePc then .pcStall1 else .preFetchExec
  | .multProc1 => .multProc2
  | .multProc2 => .multStore
  | .execute | .preFetchExec =>
    if itype i = .mult then .multProc1
    else if itype i = .mtrans then
      (if mtransNum i ≠ 0 then (if mtransNum i = 1 then .mtransExec3b else .mtransExec1) else .mtransExec3)
    else if writePc then .pcStall1
    else if itype i = .trans then .memWait1
    else .execute

/-- `imm32_nxt` (a23_decode.v:324-346). -/
def imm32 (i : BitVec 32) : BitVec 32 :=
  let imm8 := slice i 0 8
  match itype i with
  | .mult => 0
  | .mtrans => 0#25 ++ mtransNum i ++ 0#2
  | .branch => (if i.getLsbD 23 then BitVec.allOnes 6 else 0) ++ slice i 0 24 ++ 0#2
  | .trans => 0#20 ++ slice i 0 12
  | _ =>
    match (slice i 8 4).toNat with
    | 0 => 0#24 ++ imm8
    | 1 => slice imm8 0 2 ++ 0#24 ++ slice imm8 2 6
    | 2 => slice imm8 0 4 ++ 0#24 ++ slice imm8 4 4
    | 3 => slice imm8 0 6 ++ 0#24 ++ slice imm8 6 2
    | 4 => imm8 ++ 0#24
    | 5 => 0#2 ++ imm8 ++ 0#22
    | 6 => 0#4 ++ imm8 ++ 0#20
    | 7 => 0#6 ++ imm8 ++ 0#18
    | 8 => 0#8 ++ imm8 ++ 0#16
    | 9 => 0#10 ++ imm8 ++ 0#14
    | 10 => 0#12 ++ imm8 ++ 0#12
    | 11 => 0#14 ++ imm8 ++ 0#10
    | 12 => 0#16 ++ imm8 ++ 0#8
    | 13 => 0#18 ++ imm8 ++ 0#6
    | 14 => 0#20 ++ imm8 ++ 0#4
    | _ => 0#22 ++ imm8 ++ 0#2

/-- `rds_use_rs` (a23_decode.v:302-306). -/
def rdsUseRs (s : Control) (i : BitVec 32) : Bool :=
  (itype i == .regop && !i.getLsbD 25 && i.getLsbD 4) || (itype i == .mult && (s == .multProc1 || s == .multProc2 || valid s))

/-- `o_rds_sel_nxt` (a23_decode.v:286-289). -/
def rdsSel (s : Control) (i : BitVec 32) : BitVec 4 :=
  if itype i = .mtrans then mtransReg i
  else if itype i = .branch then 15
  else if rdsUseRs s i then slice i 8 4
  else slice i 12 4

/-- `decode` (a23_functions.vh:56-78). -/
def decodeReg (r : BitVec 4) : BitVec 15 := if r = 15 then 0 else 1#15 <<< r.toNat

/-! ## Barrel shifter -/

/-- `lsl_struct` (a23_barrel_shift.v), with the carry in bit 32; `i` steps are done. -/
def lslStruct (x : BitVec 32) (shift : BitVec 5) : BitVec 33 :=
  [4, 3, 2, 1, 0].foldl (fun (t : BitVec 33) i =>
    if shift.getLsbD i then
      ofBits 33 fun k => if k = 32 then t.getLsbD (32 - 2 ^ i) else if k < 2 ^ i then false else t.getLsbD (k - 2 ^ i)
    else t) (BitVec.cons (x.getLsbD 31) x)

/-- `lsr_struct` and `asr_struct`, which differ in `sign` (a23_barrel_shift.v). -/
def srStruct (sign : Bool) (x : BitVec 32) (shift : BitVec 5) : BitVec 33 :=
  [4, 3, 2, 1, 0].foldl (fun (t : BitVec 33) i =>
    if shift.getLsbD i then
      ofBits 33 fun k => if k = 32 then t.getLsbD (2 ^ i - 1) else if k < 32 - 2 ^ i then t.getLsbD (k + 2 ^ i) else sign
    else t) (BitVec.cons (x.getLsbD 0) x)

/-- `ror_struct` (a23_barrel_shift.v). -/
def rorStruct (x : BitVec 32) (shift : BitVec 5) : BitVec 33 :=
  [4, 3, 2, 1, 0].foldl (fun (t : BitVec 33) i =>
    if shift.getLsbD i then
      ofBits 33 fun k => if k = 32 then t.getLsbD (2 ^ i - 1) else if k < 32 - 2 ^ i then t.getLsbD (k + 2 ^ i) else t.getLsbD (k - (32 - 2 ^ i))
    else t) (BitVec.cons (x.getLsbD 31) x)

/-- `a23_barrel_shift`: the result and the carry. -/
def barrelShift (x : BitVec 32) (carry : Bool) (amount : BitVec 8) (f : BitVec 2) : BitVec 32 × Bool :=
  let shift := slice amount 0 5
  let t := match f.toNat with
    | 0 => lslStruct x shift
    | 1 => srStruct false x shift
    | 2 => srStruct (x.getLsbD 31) x shift
    | _ => rorStruct x shift
  (slice t 0 32, if amount = 0 then carry else t.getLsbD 32)

/-! ## ALU -/

/-- The flags: negative, zero, carry, overflow. -/
structure Flags where
  n : Bool
  z : Bool
  c : Bool
  v : Bool
  deriving DecidableEq

/-- The flags as a vector `{n, z, c, v}`. -/
def Flags.bits (f : Flags) : BitVec 4 := BitVec.ofBool f.n ++ BitVec.ofBool f.z ++ BitVec.ofBool f.c ++ BitVec.ofBool f.v

/-- The flags in a vector. -/
def Flags.of (x : BitVec 4) : Flags := ⟨x.getLsbD 3, x.getLsbD 2, x.getLsbD 1, x.getLsbD 0⟩

/-- `a23_alu` (a23_alu.v:43-158): result and flags. -/
def alu (aIn bIn : BitVec 32) (bsCarry statusCarry : Bool) (swap notSel : Bool) (cin : Nat) (cout : Bool) (out : Nat) : BitVec 32 × Flags :=
  let a := if swap then bIn else aIn
  let b := if swap then aIn else bIn
  let bNot := if notSel then ~~~b else b
  let carryIn := if cin = 0 then false else if cin = 1 then true else statusCarry
  let fadder : BitVec 33 := BitVec.cons false a + BitVec.cons false bNot + (0#32 ++ BitVec.ofBool carryIn)
  let carryOut := if cout then bsCarry else fadder.getLsbD 32
  let overflow := out == 1 && ((!a.getLsbD 31 && !bNot.getLsbD 31 && fadder.getLsbD 31) || (a.getLsbD 31 && bNot.getLsbD 31 && !fadder.getLsbD 31))
  let o := match out with
    | 0 => bNot
    | 1 => slice fadder 0 32
    | 2 => 0#16 ++ slice bNot 0 16
    | 3 => 0#24 ++ slice bNot 0 8
    | 4 => (if bNot.getLsbD 15 then BitVec.allOnes 16 else 0) ++ slice bNot 0 16
    | 5 => (if bNot.getLsbD 7 then BitVec.allOnes 24 else 0) ++ slice bNot 0 8
    | 6 => a ^^^ bNot
    | 7 => a ||| bNot
    | _ => a &&& bNot
  let onlyCarry := out == 1 && cin == 2
  (o, if onlyCarry then ⟨false, false, carryOut, false⟩ else ⟨o.getLsbD 31, o == 0, carryOut, overflow⟩)

/-- `conditional_execute` (a23_functions.vh:131-156). -/
def conditional (c : BitVec 4) (f : Flags) : Bool :=
  match c.toNat with
  | 0 => f.z
  | 1 => !f.z
  | 2 => f.c
  | 3 => !f.c
  | 4 => f.n
  | 5 => !f.n
  | 6 => f.v
  | 7 => !f.v
  | 8 => f.c && !f.z
  | 9 => !f.c || f.z
  | 10 => f.n == f.v
  | 11 => f.n != f.v
  | 12 => !f.z && f.n == f.v
  | 13 => f.z || f.n != f.v
  | 14 => true
  | _ => false

/-! ## The core -/

/-- The registers of the core: decode (58-85, 180-193), execute (125, 146, and the outputs `o_write_enable`, `o_write_data`, `o_byte_enable`),
multiply (74-75), register bank (72-87). -/
structure Core where
  readData : BitVec 32
  readAlign : BitVec 5
  ctl : Ctl
  state : Control
  mtransD1 : BitVec 4
  mtransD2 : BitVec 4
  saved : BitVec 32
  preFetch : BitVec 32
  writeEnable : Bool
  writeData : BitVec 32
  address : BitVec 32
  byteEnable : BitVec 4
  flags : Flags
  product : BitVec 32
  count : BitVec 4
  regs : BitVec 4 → BitVec 32
  r15 : BitVec 24

/-- Reset of the control registers (a23_decode.v:907-936). -/
def Ctl.reset : Ctl where
  imm32 := 0
  immShift := 0
  condition := 14
  rmSel := 0
  rdsSel := 0
  rnSel := 0
  bsAmount := 0
  bsData := 0
  bsFunc := 0
  aluSwap := false
  aluNot := false
  aluCin := 0
  aluCout := false
  aluOut := 0
  useCarry := false
  mulEnable := false
  mulAccum := false
  address := 0
  pcSel := 0
  byteSel := 0
  statusSel := 0
  regWrite := 0
  writeWen := false
  pcWen := true
  regWen := 0
  flagsWen := false

/-- Reset (a23_decode.v:907-936, 971-976, a23_execute.v:286-291, a23_multiply.v:87-89, a23_register_bank.v:121-137). -/
def Core.reset : Core where
  readData := 0
  readAlign := 0
  ctl := .reset
  state := .rstWait2
  mtransD1 := 0
  mtransD2 := 0
  saved := 0
  preFetch := 0
  writeEnable := false
  writeData := 0
  address := 0
  byteEnable := 0
  flags := ⟨false, false, false, false⟩
  product := 0
  count := 0
  regs := fun _ => 0
  r15 := 0

/-- `instruction` (a23_decode.v:233-254). -/
def Core.instruction (c : Core) : BitVec 32 :=
  match c.state with
  | .memWait1 | .memWait2 | .mtransExec1 | .mtransExec2 | .mtransExec3 | .mtransExec3b | .mtransExec4 | .multProc1 | .multProc2
  | .multStore => c.saved
  | .preFetchExec => c.preFetch
  | _ => c.readData

/-- `a23_decode` (907-998), one cycle: the registers between decode and execute. -/
def Core.ctlNext (c : Core) : Ctl :=
  let i := c.instruction
  let n := controlNxt c.state i c.ctl.mulEnable c.ctl.mulAccum (slice c.address 0 2) c.mtransD2
  { imm32 := imm32 i
    immShift := slice i 7 5
    condition := if valid c.state then slice i 28 4 else c.ctl.condition
    rmSel := slice i 0 4
    rdsSel := rdsSel c.state i
    rnSel := if itype i = .branch then 15 else slice i 16 4
    bsAmount := n.bsAmount
    bsData := n.bsData
    bsFunc := n.bsFunc
    aluSwap := n.aluSwap
    aluNot := n.aluNot
    aluCin := n.aluCin
    aluCout := n.aluCout
    aluOut := n.aluOut
    useCarry := n.useCarry
    mulEnable := n.mulEnable
    mulAccum := n.mulAccum
    address := n.address
    pcSel := n.pcSel
    byteSel := n.byteSel
    statusSel := n.statusSel
    regWrite := n.regWrite
    writeWen := n.writeWen
    pcWen := n.pcWen
    regWen := decodeReg n.wsel
    flagsWen := n.flagsWen }

/-- `execute` (a23_execute.v:263). -/
def Core.execute (c : Core) : Bool := conditional c.ctl.condition c.flags

/-- `pc` (a23_register_bank.v:190, 206). -/
def Core.pc (c : Core) : BitVec 32 := 0#6 ++ c.r15 ++ 0#2

/-- Register 15 with the flags (a23_register_bank.v:178-188). -/
def Core.word15 (c : Core) (pc : BitVec 24) : BitVec 32 := c.flags.bits ++ 1#1 ++ 1#1 ++ pc ++ 0#2

/-- `rm` (a23_register_bank.v:211-226). -/
def Core.rm (c : Core) : BitVec 32 := if c.ctl.rmSel = 15 then c.word15 c.r15 else c.regs c.ctl.rmSel

/-- `rs` (a23_register_bank.v:234-252). -/
def Core.rs (c : Core) : BitVec 32 := if c.ctl.rdsSel = 15 then c.pc else c.regs c.ctl.rdsSel

/-- `rn` (a23_register_bank.v:284-299). -/
def Core.rn (c : Core) : BitVec 32 := if c.ctl.rnSel = 15 then c.pc else c.regs c.ctl.rnSel

/-- `shift_amount` (a23_execute.v:175-178). -/
def Core.shiftAmount (c : Core) : BitVec 8 :=
  match c.ctl.bsAmount with
  | 0 => 0
  | 1 => slice c.rs 0 8
  | 2 => 0#3 ++ c.ctl.immShift
  | _ => 0#3 ++ c.readAlign

/-- `barrel_shift_in` (a23_execute.v:183-185). -/
def Core.shiftIn (c : Core) : BitVec 32 :=
  match c.ctl.bsData with
  | 0 => c.ctl.imm32
  | 1 => c.readData
  | _ => c.rm

/-- `barrel_shift_out` and `barrel_shift_carry` (a23_execute.v:307-316). -/
def Core.shifted (c : Core) : BitVec 32 × Bool :=
  barrelShift c.shiftIn (if c.ctl.useCarry then c.flags.c else false) c.shiftAmount c.ctl.bsFunc

/-- `barrel_shift_carry_alu` (a23_execute.v:323-325). -/
def Core.shiftCarry (c : Core) : Bool :=
  if c.ctl.bsData = 0 then (if slice c.ctl.immShift 1 4 = 0 then c.flags.c else c.ctl.imm32.getLsbD 31) else c.shifted.2

/-- `alu_out` and `alu_flags` (a23_execute.v:327-335). -/
def Core.alu (c : Core) : BitVec 32 × Flags :=
  A23.alu c.rn c.shifted.1 c.shiftCarry c.flags.c c.ctl.aluSwap c.ctl.aluNot c.ctl.aluCin c.ctl.aluCout c.ctl.aluOut

/-- `pc_nxt` (a23_execute.v:213-219). -/
def Core.pcNxt (c : Core) : BitVec 32 :=
  match c.ctl.pcSel with
  | 0 => c.pc + 4
  | 1 => c.alu.1
  | _ => if c.execute = false then c.pc - 4 else c.alu.1

/-- `o_address_nxt` (a23_execute.v:193-207); `pcf` is in a23_functions.vh:45-50. -/
def Core.addressNxt (c : Core) : BitVec 32 :=
  let filtered := if c.ctl.pcWen ∧ c.ctl.pcSel = 1 then 0#6 ++ slice c.alu.1 2 24 ++ 0#2 else c.alu.1
  match c.ctl.address with
  | 0 => c.pc + 4
  | 1 => filtered
  | 3 => c.pc
  | 4 => c.rn
  | 5 => c.address + 4
  | 6 => c.alu.1 + 4
  | 7 => c.rn + 4
  | _ => if c.execute = false then c.pc - 4 else filtered

/-- `rd` (a23_register_bank.v:184-188, 258-276). -/
def Core.rd (c : Core) : BitVec 32 :=
  if c.ctl.rdsSel = 15 then c.word15 (slice c.pcNxt 2 24) else c.regs c.ctl.rdsSel

/-- `reg_write_nxt` (a23_execute.v:225-236). -/
def Core.regWriteNxt (c : Core) : BitVec 32 :=
  match c.ctl.regWrite with
  | 0 => c.alu.1
  | 1 => c.word15 (slice (c.pc - 4) 2 24)
  | _ => c.product

/-- `status_bits_flags_nxt` (a23_execute.v:152-159), with the flags of a23_multiply.v:82. -/
def Core.flagsNxt (c : Core) : Flags :=
  match c.ctl.statusSel with
  | 0 => c.alu.2
  | 1 => .of (slice c.alu.1 28 4)
  | 4 => ⟨c.product.getLsbD 31, c.product == 0, c.flags.c, c.flags.v⟩
  | 5 => { c.alu.2 with v := c.flags.v }
  | _ => ⟨true, true, true, true⟩

/-- `byte_enable_nxt` (a23_execute.v:242-250). -/
def Core.byteEnableNxt (c : Core) : BitVec 4 :=
  let a := c.addressNxt
  match c.ctl.byteSel with
  | 0 => 0b1111
  | 2 => if a.getLsbD 1 = false then 0b0011 else 0b1100
  | _ => match (slice a 0 2).toNat with
    | 0 => 0b0001
    | 1 => 0b0010
    | 2 => 0b0100
    | _ => 0b1000

/-- The multiplier (a23_multiply.v:86-101): the new `product` and `count`. -/
def Core.mulNext (c : Core) : BitVec 32 × BitVec 4 :=
  if c.ctl.mulEnable then
    (if c.execute ∧ c.count = 0 then c.rs * c.rm
     else if c.execute ∧ c.ctl.mulAccum ∧ c.count = 3 then c.product + c.rs
     else c.product, c.count + 1)
  else (0, 0)

/-- `a23_core`, one cycle; `read` is `i_m_read`. -/
def Core.next (c : Core) (read : BitVec 32) : Core :=
  let i := c.instruction
  let n := controlNxt c.state i c.ctl.mulEnable c.ctl.mulAccum (slice c.address 0 2) c.mtransD2
  { readData := read
    readAlign := slice c.address 0 2 ++ 0#3
    ctl := c.ctlNext
    state := stateNxt c.state i n
    mtransD1 := mtransReg i
    mtransD2 := c.mtransD1
    saved := if itype i = .mtrans then mtransInstruction i else if n.savedWen then i else c.saved
    preFetch := if n.preWen then c.readData else c.preFetch
    writeEnable := c.execute && c.ctl.writeWen
    writeData := if c.ctl.byteSel = 0 then c.rd else slice c.rd 0 8 ++ slice c.rd 0 8 ++ slice c.rd 0 8 ++ slice c.rd 0 8
    address := c.addressNxt
    byteEnable := c.byteEnableNxt
    flags := if c.execute && c.ctl.flagsWen then c.flagsNxt else c.flags
    product := c.mulNext.1
    count := c.mulNext.2
    regs := fun k => if c.execute && c.ctl.regWen.getLsbD k.toNat then c.regWriteNxt else c.regs k
    r15 := if c.ctl.pcWen then slice c.pcNxt 2 24 else c.r15 }

/-! ## Memory -/

/-- The parameters of a23_mem.v:5-9, in words. -/
structure Sizes where
  code : Nat
  g : Nat
  e : Nat
  out : Nat
  stack : Nat

/-- The memories (a23_mem.v:27-31). -/
structure Mem where
  p : Nat → BitVec 8
  g : Nat → BitVec 8
  e : Nat → BitVec 8
  out : Nat → BitVec 8
  stack : Nat → BitVec 8

/-- The word `{m[t+3], m[t+2], m[t+1], m[t]}` of a memory of `size` words; outside of the memory it is undefined, given by `undef`. -/
def readBytes (size : Nat) (m : Nat → BitVec 8) (t : Nat) (undef : BitVec 32) : BitVec 32 :=
  if t + 3 < 4 * size then m (t + 3) ++ m (t + 2) ++ m (t + 1) ++ m t else undef

/-- `o_m_read` (a23_mem.v:56-64), for `i_m_address = {address[31:2], 00}` (a23_core.v:101). -/
def Mem.read (z : Sizes) (m : Mem) (address : BitVec 32) (undef : BitVec 32) : BitVec 32 :=
  let t := (slice address 2 22).toNat * 4
  match (slice address 24 8).toNat with
  | 0 => readBytes z.code m.p t undef
  | 1 => readBytes z.g m.g t undef
  | 2 => readBytes z.e m.e t undef
  | 3 => readBytes z.out m.out t undef
  | 4 => readBytes z.stack m.stack t undef
  | _ => 0

/-- The writes to a memory of `size` words (a23_mem.v:102-121); writing outside of the memory has no effect. -/
def writeBytes (size : Nat) (m : Nat → BitVec 8) (t : Nat) (be : BitVec 4) (d : BitVec 32) : Nat → BitVec 8 := fun k =>
  if k < 4 * size then
    match be.toNat with
    | 15 => if k = t + 3 then slice d 24 8 else if k = t + 2 then slice d 16 8 else if k = t + 1 then slice d 8 8 else if k = t then slice d 0 8 else m k
    | 1 => if k = t then slice d 0 8 else m k
    | 2 => if k = t + 1 then slice d 0 8 else m k
    | 4 => if k = t + 2 then slice d 0 8 else m k
    | 8 => if k = t + 3 then slice d 0 8 else m k
    | _ => m k
  else m k

/-- a23_mem.v:84-165, one cycle. -/
def Mem.next (z : Sizes) (m : Mem) (address : BitVec 32) (en : Bool) (be : BitVec 4) (d : BitVec 32) : Mem :=
  let t := (slice address 2 22).toNat * 4
  if en then
    match (slice address 24 8).toNat with
    | 0 => { m with p := writeBytes z.code m.p t be d }
    | 3 => { m with out := writeBytes z.out m.out t be d }
    | 4 => { m with stack := writeBytes z.stack m.stack t be d }
    | _ => m
  else m

/-- One cycle of a23_gc_main.v; `undef` is the value of a read outside of the memories. -/
def cycle (z : Sizes) (undef : BitVec 32) (s : Core × Mem) : Core × Mem :=
  (s.1.next (s.2.read z s.1.address undef), s.2.next z s.1.address s.1.writeEnable s.1.byteEnable s.1.writeData)

/-- The memories after reset (a23_mem.v:68-83); the inputs are vectors of words. -/
def Mem.reset (z : Sizes) (p : BitVec (z.code * 32)) (g : BitVec (z.g * 32)) (e : BitVec (z.e * 32)) : Mem :=
  ⟨entry 8 p, entry 8 g, entry 8 e, fun _ => 0, fun _ => 0⟩

/-- The state after `t` cycles. -/
def run (z : Sizes) (undef : Nat → BitVec 32) (p : BitVec (z.code * 32)) (g : BitVec (z.g * 32)) (e : BitVec (z.e * 32)) : Nat → Core × Mem
  | 0 => (.reset, .reset z p g e)
  | t + 1 => cycle z (undef t) (run z undef p g e t)

/-- a23_gc_main.v: the output in cycle `t`. -/
def a23 (z : Sizes) (undef : Nat → BitVec 32) (p : BitVec (z.code * 32)) (g : BitVec (z.g * 32)) (e : BitVec (z.e * 32)) (t : Nat) :
    BitVec (z.out * 32) :=
  (ofEntries (4 * z.out) 8 (run z undef p g e t).2.out).setWidth _

/-- `terminate` (a23_core.v:95). -/
def Core.terminate (c : Core) : Bool := slice c.address 2 30 == 6 && c.addressNxt == 0x1c

end TinyGarble.Hdl.A23
