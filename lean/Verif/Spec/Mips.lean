/-!
# MIPS

The instructions of MIPS I that the circuit has, as the manual describes them, without delay slots (an instruction after a branch
is executed only if the branch is not taken). Memory is little-endian and has `2 ^ A` bytes; further bits of an address are ignored.
-/

namespace TinyGarble.Spec.Mips

/-- Operations on two words. -/
inductive Op
  | add | addu | sub | subu | and | or | xor | nor | slt | sltu
  deriving DecidableEq

/-- Shifts. -/
inductive Shift
  | sll | srl | sra
  deriving DecidableEq

/-- Conditions of branches. -/
inductive Cond
  | eq | ne | lez | gtz | ltz | gez
  deriving DecidableEq

/-- Sizes of memory accesses. -/
inductive Size
  | byte | half | word
  deriving DecidableEq

/-- The instructions. -/
inductive Instr
  /-- `rd := rs op rt` -/
  | reg (op : Op) (rd rs rt : BitVec 5)
  /-- `rt := rs op imm` -/
  | imm (op : Op) (rt rs : BitVec 5) (imm : BitVec 16)
  /-- `rd := rt shifted by n` -/
  | shift (op : Shift) (rd rt : BitVec 5) (n : BitVec 5)
  /-- `rd := rt shifted by rs` -/
  | shiftv (op : Shift) (rd rt rs : BitVec 5)
  | lui (rt : BitVec 5) (imm : BitVec 16)
  /-- `rt := memory[base + off]` -/
  | load (size : Size) (signed : Bool) (rt base : BitVec 5) (off : BitVec 16)
  /-- `memory[base + off] := rt` -/
  | store (size : Size) (rt base : BitVec 5) (off : BitVec 16)
  | branch (c : Cond) (link : Bool) (rs rt : BitVec 5) (off : BitVec 16)
  | jump (link : Bool) (target : BitVec 26)
  /-- The address of the next instruction is stored in `rd`. -/
  | jumpReg (rd rs : BitVec 5)
  deriving DecidableEq

/-- Bits `i` to `i + w - 1` of an instruction. -/
def bits (x : BitVec 32) (i w : Nat) : BitVec w := BitVec.ofNat w (x.toNat / 2 ^ i)

/-- The encoding of the instructions. -/
def decode (x : BitVec 32) : Option Instr :=
  let rs := bits x 21 5
  let rt := bits x 16 5
  let rd := bits x 11 5
  let shamt := bits x 6 5
  let imm := bits x 0 16
  match (bits x 26 6).toNat with
  | 0 => match (bits x 0 6).toNat with
    | 0 => some (.shift .sll rd rt shamt)
    | 2 => some (.shift .srl rd rt shamt)
    | 3 => some (.shift .sra rd rt shamt)
    | 4 => some (.shiftv .sll rd rt rs)
    | 6 => some (.shiftv .srl rd rt rs)
    | 7 => some (.shiftv .sra rd rt rs)
    | 8 => some (.jumpReg 0 rs)
    | 9 => some (.jumpReg rd rs)
    | 32 => some (.reg .add rd rs rt)
    | 33 => some (.reg .addu rd rs rt)
    | 34 => some (.reg .sub rd rs rt)
    | 35 => some (.reg .subu rd rs rt)
    | 36 => some (.reg .and rd rs rt)
    | 37 => some (.reg .or rd rs rt)
    | 38 => some (.reg .xor rd rs rt)
    | 39 => some (.reg .nor rd rs rt)
    | 42 => some (.reg .slt rd rs rt)
    | 43 => some (.reg .sltu rd rs rt)
    | _ => none
  | 1 => match rt.toNat with
    | 0 => some (.branch .ltz false rs 0 imm)
    | 1 => some (.branch .gez false rs 0 imm)
    | 16 => some (.branch .ltz true rs 0 imm)
    | 17 => some (.branch .gez true rs 0 imm)
    | _ => none
  | 2 => some (.jump false (bits x 0 26))
  | 3 => some (.jump true (bits x 0 26))
  | 4 => some (.branch .eq false rs rt imm)
  | 5 => some (.branch .ne false rs rt imm)
  | 6 => some (.branch .lez false rs 0 imm)
  | 7 => some (.branch .gtz false rs 0 imm)
  | 8 => some (.imm .add rt rs imm)
  | 9 => some (.imm .addu rt rs imm)
  | 10 => some (.imm .slt rt rs imm)
  | 11 => some (.imm .sltu rt rs imm)
  | 12 => some (.imm .and rt rs imm)
  | 13 => some (.imm .or rt rs imm)
  | 14 => some (.imm .xor rt rs imm)
  | 15 => some (.lui rt imm)
  | 32 => some (.load .byte true rt rs imm)
  | 33 => some (.load .half true rt rs imm)
  | 35 => some (.load .word true rt rs imm)
  | 36 => some (.load .byte false rt rs imm)
  | 37 => some (.load .half false rt rs imm)
  | 40 => some (.store .byte rt rs imm)
  | 41 => some (.store .half rt rs imm)
  | 43 => some (.store .word rt rs imm)
  | _ => none

/-- The state of the machine. -/
structure State (A : Nat) where
  pc : BitVec 32
  reg : BitVec 5 → BitVec 32
  mem : BitVec A → BitVec 8

/-- Whether an integer is the value of a word. -/
def Fits (n : Int) : Prop := -2 ^ 31 ≤ n ∧ n < 2 ^ 31

instance (n : Int) : Decidable (Fits n) := inferInstanceAs (Decidable (_ ∧ _))

/-- The value of an operation; none is an overflow, which causes an exception. -/
def Op.eval (op : Op) (a b : BitVec 32) : Option (BitVec 32) :=
  match op with
  | .add => if Fits (a.toInt + b.toInt) then some (a + b) else none
  | .addu => some (a + b)
  | .sub => if Fits (a.toInt - b.toInt) then some (a - b) else none
  | .subu => some (a - b)
  | .and => some (a &&& b)
  | .or => some (a ||| b)
  | .xor => some (a ^^^ b)
  | .nor => some (~~~(a ||| b))
  | .slt => some (if a.toInt < b.toInt then 1 else 0)
  | .sltu => some (if a.toNat < b.toNat then 1 else 0)

/-- The immediate operand of an operation: sign-extended for the arithmetic operations, also the unsigned comparison. -/
def Op.operand (op : Op) (x : BitVec 16) : BitVec 32 :=
  match op with
  | .and | .or | .xor | .nor => x.zeroExtend 32
  | _ => x.signExtend 32

/-- The value of a shift. -/
def Shift.eval (op : Shift) (x : BitVec 32) (n : Nat) : BitVec 32 :=
  match op with
  | .sll => x <<< n
  | .srl => x >>> n
  | .sra => x.sshiftRight n

/-- Whether a branch is taken. -/
def Cond.holds (c : Cond) (a b : BitVec 32) : Bool :=
  match c with
  | .eq => a = b
  | .ne => a ≠ b
  | .lez => a.toInt ≤ 0
  | .gtz => 0 < a.toInt
  | .ltz => a.toInt < 0
  | .gez => 0 ≤ a.toInt

/-- The number of bytes. -/
def Size.bytes : Size → Nat
  | .byte => 1
  | .half => 2
  | .word => 4

/-- The number that is stored in `n` bytes from address `a` on, the lowest one first. -/
def fetch {A : Nat} (mem : BitVec A → BitVec 8) (a : BitVec A) : Nat → Nat
  | 0 => 0
  | n + 1 => (mem a).toNat + 2 ^ 8 * fetch mem (a + 1) n

/-- Storing the lower `n` bytes of a number. -/
def put {A : Nat} (mem : BitVec A → BitVec 8) (a : BitVec A) (v : Nat) : Nat → BitVec A → BitVec 8
  | 0 => mem
  | n + 1 => put (fun b => if b = a then BitVec.ofNat 8 v else mem b) (a + 1) (v / 2 ^ 8) n

/-- Writing a register; register 0 is always 0. -/
def State.set {A : Nat} (s : State A) (r : BitVec 5) (v : BitVec 32) : State A :=
  { s with reg := fun k => if k = r ∧ r ≠ 0 then v else s.reg k }

/-- The next instruction. -/
def State.next {A : Nat} (s : State A) : State A := { s with pc := s.pc + 4 }

/-- The effect of an instruction; none is an exception. -/
def exec {A : Nat} (s : State A) : Instr → Option (State A)
  | .reg op rd rs rt => (op.eval (s.reg rs) (s.reg rt)).map fun v => (s.set rd v).next
  | .imm op rt rs x => (op.eval (s.reg rs) (op.operand x)).map fun v => (s.set rt v).next
  | .shift op rd rt n => some (s.set rd (op.eval (s.reg rt) n.toNat)).next
  | .shiftv op rd rt rs => some (s.set rd (op.eval (s.reg rt) ((s.reg rs).toNat % 32))).next
  | .lui rt x => some (s.set rt (BitVec.ofNat 32 (x.toNat * 2 ^ 16))).next
  | .load size signed rt base off =>
    let a := s.reg base + off.signExtend 32
    if a.toNat % size.bytes = 0 then
      let v := BitVec.ofNat (8 * size.bytes) (fetch s.mem (a.setWidth A) size.bytes)
      some (s.set rt (if signed then v.signExtend 32 else v.zeroExtend 32)).next
    else none
  | .store size rt base off =>
    let a := s.reg base + off.signExtend 32
    if a.toNat % size.bytes = 0 then some { s.next with mem := put s.mem (a.setWidth A) (s.reg rt).toNat size.bytes }
    else none
  | .branch c link rs rt off =>
    let s' := if link then s.set 31 (s.pc + 4) else s
    some { s' with pc := if c.holds (s.reg rs) (s.reg rt) then s.pc + 4 + off.signExtend 32 * 4 else s.pc + 4 }
  | .jump link target =>
    let s' := if link then s.set 31 (s.pc + 4) else s
    some { s' with pc := (s.pc + 4).extractLsb' 28 4 ++ target ++ 0#2 }
  | .jumpReg rd rs => if (s.reg rs).toNat % 4 = 0 then some { s.set rd (s.pc + 4) with pc := s.reg rs } else none

/-- The state after `t` instructions of a program, whose word `i` is at address `4 i`; none is an exception or a word that is not one of
the instructions. -/
def trace {A : Nat} (prog : Nat → BitVec 32) (s : State A) : Nat → Option (State A)
  | 0 => some s
  | t + 1 => (trace prog s t).bind fun s => (decode (prog (s.pc.toNat / 4))).bind (exec s)

/-- The executions of instructions in which the circuit does what the manual says: not a comparison `sltiu` with a negative
immediate, not a signed load of a byte or of a half that is not the lowest one of its word, not a branch that is taken, and not a
jump in the last word of a region of 256 megabytes. -/
def Supported {A : Nat} (s : State A) : Instr → Prop
  | .imm .sltu _ _ x => x.toNat < 2 ^ 15
  | .load .byte true _ base off => (s.reg base + off.signExtend 32).toNat % 4 = 0
  | .load .half true _ base off => (s.reg base + off.signExtend 32).toNat % 4 = 0
  | .branch c _ rs rt _ => c.holds (s.reg rs) (s.reg rt) = false
  | .jump _ _ => s.pc.toNat % 2 ^ 28 + 4 < 2 ^ 28
  | _ => True

/-! ## Unaligned loads -/

/-- `lwl`, the upper part of an unaligned word that ends with byte `k` of the aligned word `w`, with the lower part of register `r`. -/
def loadLeft (r w : BitVec 32) (k : Nat) : BitVec 32 := BitVec.ofNat 32 (w.toNat * 2 ^ (8 * (3 - k)) + r.toNat % 2 ^ (8 * (3 - k)))

/-- `lwr`, the lower part of an unaligned word that begins with byte `k` of the aligned word `w`, with the upper part of register `r`. -/
def loadRight (r w : BitVec 32) (k : Nat) : BitVec 32 := BitVec.ofNat 32 (w.toNat / 2 ^ (8 * k) + r.toNat / 2 ^ (32 - 8 * k) * 2 ^ (32 - 8 * k))

/-! ## Branches that go one instruction too early -/

/-- The instruction that does what the circuit does: a branch that is taken goes to the instruction before the one that it should go to, which
is what a branch with an offset that is smaller by one does. -/
def Instr.early : Instr → Instr
  | .branch c link rs rt off => .branch c link rs rt (off - 1)
  | i => i

/-- The state after `t` instructions of a program whose instruction at address `4 i` is `code i`; none is an exception or a word that is not
one of the instructions. -/
def traceOf {A : Nat} (code : Nat → Option Instr) (s : State A) : Nat → Option (State A)
  | 0 => some s
  | t + 1 => (traceOf code s t).bind fun s => (code (s.pc.toNat / 4)).bind (exec s)

/-- As `Supported`, but with all branches except those with the least offset. -/
def SupportedEarly {A : Nat} (s : State A) : Instr → Prop
  | .branch _ _ _ _ off => off ≠ 0x8000#16
  | i => Supported s i

end TinyGarble.Spec.Mips
