import Verif.Model.Hdl.Seq

/-!
# The MIPS processor

Models circuit_synthesis/mips: Lite_MIPS.v and its modules, with the constants of defined.vh. `Mult.v` is not connected (Lite_MIPS.v:185-195).
`W = 32`.
-/

namespace TinyGarble.Hdl.Mips

/-- The outputs of `Control` (Control.v:21-34). -/
structure Ctl where
  rs : BitVec 5
  rt : BitVec 5
  rd : BitVec 5 := 0
  /-- `alu_func`: 0 nothing, 1 add, 2 subtract, 3 less than, 4 less than signed, 5 or, 6 and, 7 xor, 8 nor -/
  alu : Nat := 0
  /-- `shift_func`: 0 nothing, 1 left, 3 right signed, 2 right unsigned -/
  shift : Nat := 0
  /-- `mult_func` -/
  mult : Nat := 0
  /-- `branch_func`: 0 less than zero, 1 less or equal, 2 equal, 3 not equal, 4 greater or equal, 5 greater, 6 yes, 7 no -/
  branch : Nat := 7
  /-- `a_source_out`: 0 register, 1 shift amount -/
  a : Nat := 0
  /-- `b_source_out`: 0 register, 1 immediate, 2 signed immediate -/
  b : Nat := 0
  /-- `c_source_out`: 1 ALU, 2 memory, 4 next address, 5 upper immediate -/
  c : Nat := 1
  /-- `pc_source_out`: 0 next, 1 jump, 2 branch, 3 register -/
  pc : Nat := 0
  /-- `mem_source_out`: 4 read 32, 5 write 32, 8 read 16, 10 read 16 signed, 9 write 16, 12 read 8, 14 read 8 signed, 13 write 8 -/
  mem : Nat := 0

/-- The field of `w` bits of an instruction that begins at bit `i`. -/
def field (opcode : BitVec 32) (i w : Nat) : BitVec w := opcode.extractLsb' i w

/-- Control.v:66-834. The cases for `opcode[31:29]` and `opcode[28:26]` are one case here, as are those for `func[5:3]` and `func[2:0]`
and those for `opcode[20:19]` and `opcode[18:16]`. The numbers 63 and 46 and the six bits `{1'b1,r3}` are truncated to five bits. -/
def control (opcode : BitVec 32) : Ctl :=
  let r1 := field opcode 21 5
  let r2 := field opcode 16 5
  let r3 := field opcode 11 5
  match (field opcode 26 6).toNat with
  | 0 => -- SPECIAL, 85-370
    match (field opcode 0 6).toNat with
    | 0 => { rs := r1, rt := r2, rd := r3, shift := 1, a := 1 }
    | 2 => { rs := r1, rt := r2, rd := r3, shift := 2, a := 1 }
    | 3 => { rs := r1, rt := r2, rd := r3, shift := 3, a := 1 }
    | 4 => { rs := r1, rt := r2, rd := r3, shift := 1 }
    | 6 => { rs := r1, rt := r2, rd := r3, shift := 2 }
    | 7 => { rs := r1, rt := r2, rd := r3, shift := 3 }
    | 8 => { rs := r1, rt := 0, rd := 0, branch := 6, pc := 3, alu := 5 }
    | 9 => { rs := r1, rt := 0, rd := r3, branch := 6, pc := 3, c := 4, alu := 5 }
    | 12 => { rs := 63, rt := 0, rd := 46, branch := 6, pc := 3, c := 4, alu := 5 }
    | 13 => { rs := 63, rt := 0, rd := 46, branch := 6, pc := 3, c := 4, alu := 5 }
    | 16 => { rs := r1, rt := r2, rd := r3, mult := 2 }
    | 17 => { rs := r1, rt := r2, mult := 4 }
    | 18 => { rs := r1, rt := r2, rd := r3, mult := 1 }
    | 19 => { rs := r1, rt := r2, mult := 3 }
    | 24 => { rs := r1, rt := r2, mult := 6 }
    | 25 => { rs := r1, rt := r2, mult := 5 }
    | 26 => { rs := r1, rt := r2, mult := 8 }
    | 27 => { rs := r1, rt := r2, mult := 7 }
    | 32 => { rs := r1, rt := r2, rd := r3, alu := 1 }
    | 33 => { rs := r1, rt := r2, rd := r3, alu := 1 }
    | 34 => { rs := r1, rt := r2, rd := r3, alu := 2 }
    | 35 => { rs := r1, rt := r2, rd := r3, alu := 2 }
    | 36 => { rs := r1, rt := r2, rd := r3, alu := 6 }
    | 37 => { rs := r1, rt := r2, rd := r3, alu := 5 }
    | 38 => { rs := r1, rt := r2, rd := r3, alu := 7 }
    | 39 => { rs := r1, rt := r2, rd := r3, alu := 8 }
    | 42 => { rs := r1, rt := r2, rd := r3, alu := 4 }
    | 43 => { rs := r1, rt := r2, rd := r3, alu := 3 }
    | _ => { rs := r1, rt := r2 }
  | 1 => -- REGIMM, 371-482
    match r2.toNat with
    | 0 => { rs := r1, rt := 0, alu := 5, branch := 0, pc := 2 }
    | 1 => { rs := r1, rt := 0, alu := 5, branch := 4, pc := 2 }
    | 16 => { rs := r1, rt := 0, rd := 31, alu := 5, branch := 0, pc := 2, c := 4 }
    | 17 => { rs := r1, rt := 0, rd := 31, alu := 5, branch := 4, pc := 2, c := 4 }
    | _ => { rs := r1, rt := r2 }
  | 2 => { rs := r1, rt := r2, branch := 6, pc := 1 }
  | 3 => { rs := r1, rt := r2, rd := 31, c := 4, branch := 6, pc := 1 }
  | 4 => { rs := r1, rt := r2, alu := 7, branch := 2, pc := 2 }
  | 5 => { rs := r1, rt := r2, alu := 7, branch := 3, pc := 2 }
  | 6 => { rs := r1, rt := 0, alu := 5, branch := 1, pc := 2 }
  | 7 => { rs := r1, rt := 0, alu := 5, branch := 5, pc := 2 }
  | 8 => { rs := r1, rt := r2, rd := r2, b := 2, alu := 1 }
  | 9 => { rs := r1, rt := r2, rd := r2, b := 2, alu := 1 }
  | 10 => { rs := r1, rt := r2, rd := r2, b := 2, alu := 4 }
  | 11 => { rs := r1, rt := r2, rd := r2, b := 1, alu := 3 }
  | 12 => { rs := r1, rt := r2, rd := r2, b := 1, alu := 6 }
  | 13 => { rs := r1, rt := r2, rd := r2, b := 1, alu := 5 }
  | 14 => { rs := r1, rt := r2, rd := r2, b := 1, alu := 7 }
  | 15 => { rs := r1, rt := r2, rd := r2, c := 5 }
  | 16 => -- COP0, 610-634
    match r1.toNat with
    | 0 => { rs := r3, rt := 0, rd := r2, alu := 5 }
    | 4 => { rs := r2, rt := 0, rd := r3, alu := 5 }
    | _ => { rs := r1, rt := r2 }
  | 32 => { rs := r1, rt := r2, rd := r2, b := 2, alu := 1, c := 2, mem := 14 }
  | 33 => { rs := r1, rt := r2, rd := r2, b := 2, alu := 1, c := 2, mem := 10 }
  | 34 => { rs := r1, rt := r2, rd := r2, b := 2, alu := 1, c := 2, mem := 4 }
  | 35 => { rs := r1, rt := r2, rd := r2, b := 2, alu := 1, c := 2, mem := 4 }
  | 36 => { rs := r1, rt := r2, rd := r2, b := 2, alu := 1, c := 2, mem := 12 }
  | 37 => { rs := r1, rt := r2, rd := r2, b := 2, alu := 1, c := 2, mem := 8 }
  | 38 => { rs := r1, rt := r2, rd := r2, b := 2, alu := 1, c := 2, mem := 4 }
  | 40 => { rs := r1, rt := r2, b := 2, alu := 1, mem := 13 }
  | 41 => { rs := r1, rt := r2, b := 2, alu := 1, mem := 9 }
  | 42 => { rs := r1, rt := r2, b := 2, alu := 1, mem := 5 }
  | 43 => { rs := r1, rt := r2, b := 2, alu := 1, mem := 5 }
  | _ => { rs := r1, rt := r2 }

/-- ALU.v:3-85. -/
def alu (a b : BitVec 32) (f : Nat) : BitVec 32 :=
  let cin := f == 2 || f == 3 || f == 4
  let bbnot := if cin then ~~~b else b
  let r := ADD a bbnot cin
  match f with
  | 1 => r.1
  | 2 => r.1
  | 3 => 0#31 ++ BitVec.ofBool (!r.2)
  | 4 => 0#31 ++ BitVec.ofBool ((a.getLsbD 31 && !b.getLsbD 31) || (r.1.getLsbD 31 && (!a.getLsbD 31 ^^ b.getLsbD 31)))
  | 5 => a ||| b
  | 6 => a &&& b
  | 7 => a ^^^ b
  | 8 => ~~~(a ||| b)
  | _ => 0

/-- Shifter.v:3-35. -/
def shifter (value : BitVec 32) (amount : BitVec 5) (f : Nat) : BitVec 32 :=
  match f with
  | 1 => value <<< amount.toNat
  | 3 => value.sshiftRight amount.toNat
  | 2 => value >>> amount.toNat
  | _ => 0

/-- `a_out` (Bus_Mux.v:53-62); the source `A_FROM_PC` is never selected. -/
def aOut (imm : BitVec 16) (rs : BitVec 32) (aMux : Nat) : BitVec 32 :=
  match aMux with
  | 0 => rs
  | 1 => 0#27 ++ imm.extractLsb' 6 5
  | _ => 0

/-- `b_out` (Bus_Mux.v:64-75); the source `B_FROM_IMMX4` is never selected. -/
def bOut (imm : BitVec 16) (rt : BitVec 32) (bMux : Nat) : BitVec 32 :=
  match bMux with
  | 0 => rt
  | 1 => 0#16 ++ imm
  | 2 => imm.signExtend 32
  | _ => 0

/-- `reg_dest_out` (Bus_Mux.v:77-98), without the sources that are never selected. -/
def regDest (imm : BitVec 16) (cBus cMemory : BitVec 32) (pcPlus4 : BitVec 30) (cMux : Nat) : BitVec 32 :=
  match cMux with
  | 1 => cBus
  | 2 => cMemory
  | 4 => pcPlus4 ++ 0#2
  | 5 => imm ++ 0#16
  | _ => 0

/-- `take_branch` (Bus_Mux.v:100-119). -/
def takeBranch (c : BitVec 32) (f : Nat) : Bool :=
  match f with
  | 0 => c.getLsbD 31
  | 1 => c.getLsbD 31 || c == 0
  | 2 => c == 0
  | 3 => !(c == 0)
  | 4 => !c.getLsbD 31
  | 5 => !c.getLsbD 31 && !(c == 0)
  | 6 => true
  | _ => false

/-- `pc_future` (PC_Next.v:28-74). -/
def pcFuture (pc pcNew : BitVec 30) (take : Bool) (opcode : BitVec 32) (src : Nat) : BitVec 30 :=
  match src with
  | 1 => pc.extractLsb' 26 4 ++ field opcode 0 26
  | 2 => if take then pc + (field opcode 0 16).signExtend 30 else pc + 1
  | 3 => pcNew
  | _ => pc + 1

/-- `data_out` (Data_Mem.v:99-143); `w` is `memory[addr[L+1:2]]` and `a` is `addr[1:0]`. -/
def dataOut (w : BitVec 32) (a : BitVec 2) (src : Nat) : BitVec 32 :=
  let half := if a.getLsbD 1 then w.extractLsb' 16 16 else w.extractLsb' 0 16
  let byte := w.extractLsb' (8 * a.toNat) 8
  match src with
  | 4 => w
  | 8 => 0#16 ++ half
  | 10 => (if a.getLsbD 1 then (if w.getLsbD 16 then BitVec.allOnes 16 else 0) else (if w.getLsbD 15 then BitVec.allOnes 16 else 0)) ++ half
  | 12 => 0#24 ++ byte
  | 14 => (if w.getLsbD 7 then BitVec.allOnes 24 else 0) ++ byte
  | _ => 0

/-- An assignment to the bits `[i+n-1:i]` of a word. -/
def setBits {n : Nat} (w : BitVec 32) (i : Nat) (d : BitVec n) : BitVec 32 :=
  ofBits 32 fun k => if i ≤ k ∧ k < i + n then d.getLsbD (k - i) else w.getLsbD k

/-- The new content of `memory[addr[L+1:2]]` (Data_Mem.v:73-95). -/
def dataIn (w : BitVec 32) (a : BitVec 2) (d : BitVec 32) (src : Nat) : BitVec 32 :=
  match src with
  | 5 => d
  | 9 => if a.getLsbD 1 then setBits w 16 (d.extractLsb' 0 16) else setBits w 0 (d.extractLsb' 0 16)
  | 13 => setBits w (8 * a.toNat) (d.extractLsb' 0 8)
  | _ => w

/-- The registers of the processor: `pc` (PC_Next.v:27), `registers` (Reg_Bank.v:26), `memory` (Data_Mem.v:34). -/
structure Regs where
  pc : BitVec 30
  registers : Nat → BitVec 32
  memory : Nat → BitVec 32

/-- Reset (PC_Next.v:80-83, Reg_Bank.v:37-42, Data_Mem.v:66-72). -/
def reset (e : Nat → BitVec 32) : Regs := ⟨0, fun _ => 0, e⟩

/-- Lite_MIPS.v:63-208 with the instruction `opcode`: the registers at the end of the cycle. -/
def execute (L : Nat) (opcode : BitVec 32) (ctl : Ctl) (st : Regs) : Regs :=
  let imm := field opcode 0 16
  let regSource := st.registers ctl.rs.toNat
  let regTarget := st.registers ctl.rt.toNat
  let aBus := aOut imm regSource ctl.a
  let bBus := bOut imm regTarget ctl.b
  let cBus := alu aBus bBus ctl.alu ||| shifter bBus (aBus.extractLsb' 0 5) ctl.shift ||| 0
  let addr := (cBus.extractLsb' 2 L).toNat
  let low := cBus.extractLsb' 0 2
  let cMemory := dataOut (st.memory addr) low ctl.mem
  let dest := regDest imm cBus cMemory (st.pc + 1) ctl.c
  let take := takeBranch cBus ctl.branch
  { pc := pcFuture st.pc (cBus.extractLsb' 2 30) take opcode ctl.pc
    registers := fun k => if k = ctl.rd.toNat ∧ ctl.rd ≠ 0 then dest else st.registers k
    memory := fun k => if k = addr then dataIn (st.memory addr) low regTarget ctl.mem else st.memory k }

/-- Lite_MIPS.v, one cycle, with `2 ^ L` words of instructions `inst` and of data. `none`: the address `pc[L+3:2]`, which has two bits
more than the memory has (Inst_Mem.v:39), is outside of the memory of instructions, so that the instruction is undefined. -/
def step (L : Nat) (inst : Nat → BitVec 32) (st : Regs) : Option Regs :=
  let index := (st.pc.extractLsb' 0 (L + 2)).toNat
  if 2 ^ L ≤ index then none
  else some (execute L (inst index) (control (inst index)) st)

/-- The registers after `t` cycles. -/
def run (L : Nat) (inst e : Nat → BitVec 32) : Nat → Option Regs
  | 0 => some (reset e)
  | t + 1 => (run L inst e t).bind (step L inst)

/-- Lite_MIPS.v:3-208: the output in cycle `t`, the memory of data; the garbler's input are the instructions, the evaluator's the data. -/
def liteMips (L : Nat) (gInit eInit : BitVec (2 ^ L * 32)) (t : Nat) : Option (BitVec (2 ^ L * 32)) :=
  (run L (fun i => entry 32 gInit i) (fun i => entry 32 eInit i) t).map fun st => ofEntries (2 ^ L) 32 st.memory

end TinyGarble.Hdl.Mips
