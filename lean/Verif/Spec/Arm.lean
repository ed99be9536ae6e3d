import Verif.Spec.Mips

/-!
# ARM

The instructions of ARM version 2 (26-bit program counter) that the circuit has, as the manual describes them: data processing, multiplication,
loads and stores of words and bytes, multiple loads and stores, branches. The other instructions, and what the manual calls unpredictable,
are left out: `decode` or `exec` is none.

Register 15 has the program counter in bits 2 to 25 and the flags in bits 28 to 31; the bits that disable interrupts (26 and 27) are set
and the mode (bits 0 and 1) is 0.
-/

namespace TinyGarble.Spec.Arm

open TinyGarble.Spec.Mips (bits Fits fetch put)

/-- The flags. -/
structure Flags where
  n : Bool
  z : Bool
  c : Bool
  v : Bool
  deriving DecidableEq

/-- The conditions EQ, NE, CS, CC, MI, PL, VS, VC, HI, LS, GE, LT, GT, LE, AL and NV (never). -/
def holds (c : BitVec 4) (f : Flags) : Bool :=
  match c.toNat with
  | 0 => f.z
  | 1 => !f.z
  | 2 => f.c
  | 3 => !f.c
  | 4 => f.n
  | 5 => !f.n
  | 6 => f.v
  | 7 => !f.v
  | 8 => f.c && !f.z
  | 9 => !f.c || f.z
  | 10 => f.n == f.v
  | 11 => f.n != f.v
  | 12 => !f.z && f.n == f.v
  | 13 => f.z || f.n != f.v
  | 14 => true
  | _ => false

/-- Data processing operations, in the order of their codes. -/
inductive Op
  | and | eor | sub | rsb | add | adc | sbc | rsc | tst | teq | cmp | cmn | orr | mov | bic | mvn
  deriving DecidableEq

/-- Operations whose result is not stored. -/
def Op.compare : Op → Bool
  | .tst | .teq | .cmp | .cmn => true
  | _ => false

/-- Kinds of shifts. -/
inductive Shift
  | lsl | lsr | asr | ror
  deriving DecidableEq

/-- The second operand of data processing: a byte that is rotated to the right by `2 rot`, a register that is shifted by a constant or by
the lowest byte of a register. -/
inductive Operand
  | imm (rot : BitVec 4) (x : BitVec 8)
  | reg (rm : BitVec 4) (k : Shift) (n : BitVec 5)
  | regReg (rm : BitVec 4) (k : Shift) (rs : BitVec 4)
  deriving DecidableEq

/-- The offset of a load or store. -/
inductive Offset
  | imm (x : BitVec 12)
  | reg (rm : BitVec 4) (k : Shift) (n : BitVec 5)
  deriving DecidableEq

/-- The instructions. -/
inductive Instr
  /-- `rd := rn op o`; the flags are changed if `s` -/
  | dp (op : Op) (s : Bool) (rd rn : BitVec 4) (o : Operand)
  /-- `rd := rm * rs`, or `rd := rm * rs + rn` if `acc` -/
  | mul (acc s : Bool) (rd rn rs rm : BitVec 4)
  /-- Load or store of `rd`. The offset is added to `rn` or, if not `up`, subtracted; if `pre`, before the access, otherwise afterwards. -/
  | transfer (load byte up pre wb : Bool) (rd rn : BitVec 4) (o : Offset)
  /-- Load or store of the registers in `list`. -/
  | multi (load up pre wb : Bool) (rn : BitVec 4) (list : BitVec 16)
  | branch (link : Bool) (off : BitVec 24)
  deriving DecidableEq

/-- The operation with a code. -/
def Op.ofCode (n : Nat) : Op :=
  match n with
  | 0 => .and
  | 1 => .eor
  | 2 => .sub
  | 3 => .rsb
  | 4 => .add
  | 5 => .adc
  | 6 => .sbc
  | 7 => .rsc
  | 8 => .tst
  | 9 => .teq
  | 10 => .cmp
  | 11 => .cmn
  | 12 => .orr
  | 13 => .mov
  | 14 => .bic
  | _ => .mvn

/-- The kind of shift with a code. -/
def Shift.ofCode (n : Nat) : Shift :=
  match n with
  | 0 => .lsl
  | 1 => .lsr
  | 2 => .asr
  | _ => .ror

/-- Bit `i`. -/
def bit (x : BitVec 32) (i : Nat) : Bool := x.toNat / 2 ^ i % 2 = 1

/-- Whether a word has the encoding of a multiplication. -/
def isMul (x : BitVec 32) : Bool := bits x 22 6 = 0 ∧ bits x 4 4 = 9

/-- The encoding of data processing. A comparison without setting flags, and with register 15 as destination, is another instruction. -/
def decodeDp (x : BitVec 32) (o : Operand) : Option Instr :=
  let op := Op.ofCode (bits x 21 4).toNat
  if op.compare ∧ (bit x 20 = false ∨ bits x 12 4 = 15) then none
  else some (.dp op (bit x 20) (bits x 12 4) (bits x 16 4) o)

/-- The encoding of the instructions, without the condition. -/
def decode (x : BitVec 32) : Option Instr :=
  let k := Shift.ofCode (bits x 5 2).toNat
  match (bits x 25 3).toNat with
  | 0 =>
    if isMul x then some (.mul (bit x 21) (bit x 20) (bits x 16 4) (bits x 12 4) (bits x 8 4) (bits x 0 4))
    else if bit x 4 = false then decodeDp x (.reg (bits x 0 4) k (bits x 7 5))
    else if bit x 7 = false then decodeDp x (.regReg (bits x 0 4) k (bits x 8 4))
    else none
  | 1 => decodeDp x (.imm (bits x 8 4) (bits x 0 8))
  | 2 => some (.transfer (bit x 20) (bit x 22) (bit x 23) (bit x 24) (bit x 21) (bits x 12 4) (bits x 16 4) (.imm (bits x 0 12)))
  | 3 =>
    if bit x 4 then none
    else some (.transfer (bit x 20) (bit x 22) (bit x 23) (bit x 24) (bit x 21) (bits x 12 4) (bits x 16 4) (.reg (bits x 0 4) k (bits x 7 5)))
  | 4 => if bit x 22 then none else some (.multi (bit x 20) (bit x 23) (bit x 24) (bit x 21) (bits x 16 4) (bits x 0 16))
  | 5 => some (.branch (bit x 24) (bits x 0 24))
  | _ => none

/-- The memories in words: the code from address 0, inputs of the garbler from `0x01000000`, of the evaluator from `0x02000000`, the output
from `0x03000000`, the stack from `0x04000000`. -/
structure Layout where
  code : Nat
  g : Nat
  e : Nat
  out : Nat
  stack : Nat

/-- The bytes that can be read. -/
def Layout.readable (l : Layout) (a : BitVec 32) : Bool :=
  let i := a.toNat % 2 ^ 24
  match a.toNat / 2 ^ 24 with
  | 0 => i < 4 * l.code
  | 1 => i < 4 * l.g
  | 2 => i < 4 * l.e
  | 3 => i < 4 * l.out
  | 4 => i < 4 * l.stack
  | _ => false

/-- The bytes that can be written: not the inputs. -/
def Layout.writable (l : Layout) (a : BitVec 32) : Bool :=
  l.readable a && a.toNat / 2 ^ 24 != 1 && a.toNat / 2 ^ 24 != 2

/-- The state of the machine. `pc` is the address of the next instruction, in words; `reg` is about registers 0 to 14. -/
structure State where
  pc : BitVec 24
  reg : BitVec 4 → BitVec 32
  flags : Flags
  mem : BitVec 32 → BitVec 8

/-- The flags as bits 28 to 31 of register 15. -/
def Flags.word (f : Flags) : BitVec 32 :=
  BitVec.ofNat 32 (2 ^ 31 * f.n.toNat + 2 ^ 30 * f.z.toNat + 2 ^ 29 * f.c.toNat + 2 ^ 28 * f.v.toNat)

/-- The flags in bits 28 to 31. -/
def Flags.ofWord (x : BitVec 32) : Flags := ⟨bit x 31, bit x 30, bit x 29, bit x 28⟩

/-- An address in words as a number of bytes. -/
def addr (pc : BitVec 24) : BitVec 32 := BitVec.ofNat 32 (4 * pc.toNat)

/-- Register 15 with address `pc`. -/
def State.r15 (s : State) (pc : BitVec 24) : BitVec 32 := s.flags.word + 0x0c000000#32 + addr pc

/-- A register as first operand or base: the program counter is two instructions ahead, the flags are not seen. -/
def State.base (s : State) (r : BitVec 4) : BitVec 32 := if r = 15 then addr (s.pc + 2) else s.reg r

/-- A register as second operand: register 15 includes the flags. -/
def State.second (s : State) (r : BitVec 4) : BitVec 32 := if r = 15 then s.r15 (s.pc + 2) else s.reg r

/-- A register that is stored: the program counter is three instructions ahead. -/
def State.stored (s : State) (r : BitVec 4) : BitVec 32 := if r = 15 then s.r15 (s.pc + 3) else s.reg r

/-- Writing a register; register 15 changes the program counter only. -/
def State.write (s : State) (r : BitVec 4) (v : BitVec 32) : State :=
  if r = 15 then { s with pc := bits v 2 24 } else { s with reg := fun k => if k = r then v else s.reg k }

/-- The next instruction. -/
def State.next (s : State) : State := { s with pc := s.pc + 1 }

/-- Shift by `1 ≤ n ≤ 32`: the result and the last bit that is shifted out. -/
def Shift.by (k : Shift) (x : BitVec 32) (n : Nat) : BitVec 32 × Bool :=
  match k with
  | .lsl => (x <<< n, bit x (32 - n))
  | .lsr => (x >>> n, bit x (n - 1))
  | .asr => (x.sshiftRight n, bit x (n - 1))
  | .ror => (x.rotateRight n, bit x (n - 1))

/-- Shift by a constant: 0 means 32 for shifts to the right, and for `ror` a rotation through the carry. -/
def Shift.const (k : Shift) (x : BitVec 32) (n : BitVec 5) (c : Bool) : BitVec 32 × Bool :=
  if n = 0 then
    match k with
    | .lsl => (x, c)
    | .ror => (BitVec.ofNat 32 (x.toNat / 2 + 2 ^ 31 * c.toNat), bit x 0)
    | k => k.by x 32
  else k.by x n.toNat

/-- Shift by the lowest byte of a register. -/
def Shift.register (k : Shift) (x : BitVec 32) (n : Nat) (c : Bool) : BitVec 32 × Bool :=
  if n = 0 then (x, c)
  else if n ≤ 32 then k.by x n
  else match k with
    | .lsl | .lsr => (0, false)
    | .asr => k.by x 32
    | .ror => k.by x (if n % 32 = 0 then 32 else n % 32)

/-- The second operand and the carry of the shifter. Register 15 together with a shift by a register is unpredictable. -/
def Operand.eval (o : Operand) (s : State) (rn : BitVec 4) : Option (BitVec 32 × Bool) :=
  match o with
  | .imm rot x =>
    let v := (x.zeroExtend 32).rotateRight (2 * rot.toNat)
    some (v, if rot = 0 then s.flags.c else bit v 31)
  | .reg rm k n => some (k.const (s.second rm) n s.flags.c)
  | .regReg rm k rs => if rm = 15 ∨ rs = 15 ∨ rn = 15 then none else some (k.register (s.reg rm) ((s.reg rs).toNat % 2 ^ 8) s.flags.c)

/-- The flags N and Z of a result, with C and V. -/
def Flags.result (v : BitVec 32) (c o : Bool) : Flags := ⟨bit v 31, v = 0, c, o⟩

/-- Addition with carry `k`. -/
def sum (a b : BitVec 32) (k : Bool) : BitVec 32 × Flags :=
  let v := BitVec.ofNat 32 (a.toNat + b.toNat + k.toNat)
  (v, .result v (2 ^ 32 ≤ a.toNat + b.toNat + k.toNat) (¬ Fits (a.toInt + b.toInt + k.toNat)))

/-- Subtraction; `k` is the negation of the borrow, and C is set if there is no borrow. -/
def diff (a b : BitVec 32) (k : Bool) : BitVec 32 × Flags :=
  let v := a - b - BitVec.ofNat 32 (!k).toNat
  (v, .result v (b.toNat + (!k).toNat ≤ a.toNat) (¬ Fits (a.toInt - b.toInt - (!k).toNat)))

/-- The result and the flags of an operation; `sc` is the carry of the shifter. -/
def Op.eval (op : Op) (a b : BitVec 32) (sc : Bool) (f : Flags) : BitVec 32 × Flags :=
  let logical (v : BitVec 32) := (v, Flags.result v sc f.v)
  match op with
  | .and | .tst => logical (a &&& b)
  | .eor | .teq => logical (a ^^^ b)
  | .sub | .cmp => diff a b true
  | .rsb => diff b a true
  | .add | .cmn => sum a b false
  | .adc => sum a b f.c
  | .sbc => diff a b f.c
  | .rsc => diff b a f.c
  | .orr => logical (a ||| b)
  | .mov => logical b
  | .bic => logical (a &&& ~~~b)
  | .mvn => logical (~~~b)

/-- The lowest address of the word of an address. -/
def align (a : BitVec 32) : BitVec 32 := BitVec.ofNat 32 (a.toNat / 4 * 4)

/-- The word at an address, whose lowest two bits are ignored. -/
def State.word (s : State) (a : BitVec 32) : BitVec 32 := BitVec.ofNat 32 (fetch s.mem (align a) 4)

/-- Storing a word. -/
def State.putWord (s : State) (a v : BitVec 32) : State := { s with mem := put s.mem (align a) v.toNat 4 }

/-- The registers of a list, the lowest one first. -/
def registers (list : BitVec 16) : List (BitVec 4) := ((List.range 16).filter fun k => list.getLsbD k).map (BitVec.ofNat 4)

/-- Loading registers from `a` on. -/
def State.loadAll (s : State) (a : BitVec 32) : List (BitVec 4) → State
  | [] => s
  | r :: rs => (s.write r (s.word a)).loadAll (a + 4) rs

/-- Storing words from `a` on. -/
def State.storeAll (s : State) (a : BitVec 32) : List (BitVec 32) → State
  | [] => s
  | v :: vs => (s.putWord a v).storeAll (a + 4) vs

/-- `n` words from `a` on satisfy `p`. -/
def words (p : BitVec 32 → Bool) (a : BitVec 32) : Nat → Bool
  | 0 => true
  | n + 1 => p a && words p (a + 4) n

/-- The offset of a load or store; register 15 is unpredictable. -/
def Offset.eval (o : Offset) (s : State) : Option (BitVec 32) :=
  match o with
  | .imm x => some (x.zeroExtend 32)
  | .reg rm k n => if rm = 15 then none else some (k.const (s.reg rm) n s.flags.c).1

/-- The address after adding or subtracting an offset. -/
def move (up : Bool) (a d : BitVec 32) : BitVec 32 := if up then a + d else a - d

/-- The lowest address of a multiple load or store of `n` registers. -/
def start (up pre : Bool) (base : BitVec 32) (n : Nat) : BitVec 32 :=
  let size := BitVec.ofNat 32 (4 * n)
  match up, pre with
  | true, false => base
  | true, true => base + 4
  | false, false => base - size + 4
  | false, true => base - size

/-- The effect of an instruction whose condition holds; none is an access outside of the memories, or unpredictable. -/
def exec (l : Layout) (s : State) : Instr → Option State
  | .dp op set rd rn o => (o.eval s rn).map fun (b, sc) =>
    let r := op.eval (s.base rn) b sc s.flags
    if op.compare then { s.next with flags := r.2 }
    else if rd = 15 then { s.write 15 r.1 with flags := if set then .ofWord r.1 else s.flags }
    else { s.next.write rd r.1 with flags := if set then r.2 else s.flags }
  | .mul acc set rd rn rs rm =>
    if rd = 15 ∨ rs = 15 ∨ rm = 15 ∨ (acc ∧ rn = 15) then none
    else
      let v := s.reg rm * s.reg rs + if acc then s.reg rn else 0
      some { s.next.write rd v with flags := if set then .result v s.flags.c s.flags.v else s.flags }
  | .transfer load byte up pre wb rd rn o => (o.eval s).bind fun d =>
    let moved := move up (s.base rn) d
    let a := if pre then moved else s.base rn
    if (pre = false ∧ wb) ∨ ((pre = false ∨ wb) ∧ (rn = 15 ∨ rn = rd)) then none
    else
      let s' := if pre = false ∨ wb then s.next.write rn moved else s.next
      if load then
        if l.readable a then
          some (s'.write rd (if byte then (s.mem a).zeroExtend 32 else (s.word a).rotateRight (8 * (a.toNat % 4))))
        else none
      else
        if l.writable a then
          some (if byte then { s' with mem := put s.mem a (s.stored rd).toNat 1 } else s'.putWord a (s.stored rd))
        else none
  | .multi load up pre wb rn list =>
    let rs := registers list
    let n := rs.length
    let a := start up pre (s.reg rn) n
    if rn = 15 ∨ list = 0 ∨ (wb ∧ list.getLsbD rn.toNat) then none
    else
      let s' := if wb then s.next.write rn (move up (s.reg rn) (BitVec.ofNat 32 (4 * n))) else s.next
      if load then (if words l.readable a n then some (s'.loadAll a rs) else none)
      else (if words l.writable a n then some (s'.storeAll a (rs.map s.stored)) else none)
  | .branch link off =>
    let s' := if link then s.write 14 (s.r15 (s.pc + 1)) else s
    some { s' with pc := s.pc + 2 + off }

/-- The next instruction and its condition. -/
def State.fetch (l : Layout) (s : State) : Option (BitVec 4 × Instr) :=
  let x := s.word (addr s.pc)
  if s.pc.toNat < l.code then (decode x).map fun i => (bits x 28 4, i) else none

/-- One instruction. -/
def step (l : Layout) (s : State) : Option State :=
  (s.fetch l).bind fun (c, i) => if holds c s.flags then exec l s i else some s.next

/-- The state after `t` instructions. -/
def trace (l : Layout) (s : State) : Nat → Option State
  | 0 => some s
  | t + 1 => (trace l s t).bind (step l)

/-- Whether an instruction, when it is executed, writes to register 15 other than by a branch. -/
def Instr.jumps : Instr → Bool
  | .dp op _ rd _ _ => !op.compare && rd = 15
  | .transfer load _ _ _ _ rd _ _ => load && rd = 15
  | .multi load _ _ _ _ list => load && list.getLsbD 15
  | _ => false

/-- The number of cycles of the circuit. -/
def Instr.cycles : Instr → Nat
  | .mul .. => 4
  | .branch .. => 3
  | .dp op s rd rn o => if (Instr.dp op s rd rn o).jumps then 3 else 1
  | .transfer l b u p w rd rn o => if (Instr.transfer l b u p w rd rn o).jumps then 5 else 3
  | .multi l u p w rn list =>
    (if (registers list).length = 1 then 3 else (registers list).length + 2) + if (Instr.multi l u p w rn list).jumps then 2 else 0

/-- Operands that the circuit computes as the manual says: not a shift to the right by the constant 32, not a rotation through the carry, and
not a shift (other than a rotation) by a register that is 32 or more. -/
def Operand.supported (o : Operand) (s : State) : Prop :=
  match o with
  | .imm _ _ => True
  | .reg _ k n => n = 0 → k = .lsl
  | .regReg _ k rs => k = .ror ∨ (s.reg rs).toNat % 2 ^ 8 < 32

/-- An operand that is a register, not shifted. -/
def Operand.plain (o : Operand) (s : State) : Prop :=
  match o with
  | .imm _ _ => False
  | .reg _ _ n => n = 0
  | .regReg _ _ rs => (s.reg rs).toNat % 2 ^ 8 = 0

/-- Instructions, to be executed, that the circuit executes as the manual says. Besides the operands: the flags are not set by an addition or
subtraction with carry, and by AND and TST with a register that is not shifted only if the carry is clear; multiplication does not add; a
store does not change the next instruction. -/
def Instr.supported (i : Instr) (s : State) : Prop :=
  match i with
  | .dp op set rd _ o => o.supported s ∧ (set ∧ rd ≠ 15 →
      op ≠ .adc ∧ op ≠ .sbc ∧ op ≠ .rsc ∧ ((op = .and ∨ op = .tst) ∧ o.plain s → s.flags.c = false))
  | .mul acc _ _ _ _ _ => acc = false
  | .transfer load _ up pre _ _ rn o =>
    (match o with
      | .imm _ => True
      | .reg _ k n => n = 0 → k = .lsl) ∧
    (load = false → ∀ d, o.eval s = some d → align (if pre then move up (s.base rn) d else s.base rn) ≠ addr (s.pc + 1))
  | .multi load up pre _ rn list =>
    load = false → words (fun a => align a ≠ addr (s.pc + 1)) (start up pre (s.reg rn) (registers list).length) (registers list).length
  | .branch _ _ => True

/-- Instructions that the circuit can go through even if the condition does not hold: not a multiple load or store of no registers, and not a
multiplication that is followed by a multiplication. -/
def Instr.passable (i : Instr) (l : Layout) (s : State) : Prop :=
  match i with
  | .mul .. => s.pc.toNat + 1 < l.code → isMul (s.word (addr (s.pc + 1))) = false
  | .multi _ _ _ _ _ list => list ≠ 0
  | _ => True

/-- The executions of instructions in which the circuit does what the manual says. If the condition `c` does not hold the instruction
must not have register 15 as destination. -/
def Supported (l : Layout) (s : State) (c : BitVec 4) (i : Instr) : Prop :=
  (holds c s.flags = true → i.supported s) ∧ (holds c s.flags = false → i.jumps = false) ∧ i.passable l s

/-- The machine at the start: at address 0, all registers and flags zero, the program and the inputs in the memory. -/
def State.init (p g e : Nat → BitVec 8) : State where
  pc := 0
  reg := fun _ => 0
  flags := ⟨false, false, false, false⟩
  mem := fun a =>
    match a.toNat / 2 ^ 24 with
    | 0 => p (a.toNat % 2 ^ 24)
    | 1 => g (a.toNat % 2 ^ 24)
    | 2 => e (a.toNat % 2 ^ 24)
    | _ => 0

/-- The number of cycles of the first `t` instructions. -/
def cost (l : Layout) (s : State) : Nat → Nat
  | 0 => 0
  | t + 1 => cost l s t + (((trace l s t).bind (State.fetch l)).map fun (_, i) => i.cycles).getD 0

end TinyGarble.Spec.Arm
