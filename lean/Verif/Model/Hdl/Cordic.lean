import Verif.Model.Hdl.Seq

/-!
# CORDIC

Models circuit_synthesis/cordic: cordic.v, alpha_table.v, barrel_shifter_left.v.
-/

namespace TinyGarble.Hdl.Cordic

/-- `MOD_CIR`, `MOD_LIN`, `MOD_HYP` (cordic.vh:4-6). -/
inductive Mod where
  | cir | lin | hyp
deriving DecidableEq

/-- `DIR_ROT`, `DIR_VEC` (cordic.vh:1-2). -/
inductive Dir where
  | rot | vec
deriving DecidableEq

/-- alpha_table.v:27-46. -/
def cir16 : List Nat := [
  0b0011001001000100, 0b0001110110101100, 0b0000111110101110, 0b0000011111110101, 0b0000001111111111, 0b0000001000000000,
  0b0000000100000000, 0b0000000010000000, 0b0000000001000000, 0b0000000000100000, 0b0000000000010000, 0b0000000000001000,
  0b0000000000000100, 0b0000000000000010, 0b0000000000000001]

/-- alpha_table.v:48-67. -/
def lin16 : List Nat := [
  0b0100000000000000, 0b0010000000000000, 0b0001000000000000, 0b0000100000000000, 0b0000010000000000, 0b0000001000000000,
  0b0000000100000000, 0b0000000010000000, 0b0000000001000000, 0b0000000000100000, 0b0000000000010000, 0b0000000000001000,
  0b0000000000000100, 0b0000000000000010, 0b0000000000000001]

/-- alpha_table.v:69-88. -/
def hyp16 : List Nat := [
  0b0010001100101000, 0b0001000001011001, 0b0000100000001011, 0b0000010000000001, 0b0000001000000000, 0b0000000100000000,
  0b0000000010000000, 0b0000000001000000, 0b0000000000100000, 0b0000000000010000, 0b0000000000001000, 0b0000000000000100,
  0b0000000000000010, 0b0000000000000001, 0b0000000000000001]

/-- alpha_table.v:91-127. -/
def cir32 : List Nat := [
  0x3243F6A8, 0x1DAC6705, 0x0FADBAFC, 0x07F56EA6, 0x03FEAB76, 0x01FFD55B, 0x00FFFAAA, 0x007FFF55, 0x003FFFEA, 0x001FFFFD,
  0x000FFFFF, 0x0007FFFF, 0x0003FFFF, 0x0001FFFF, 0x0000FFFF, 0x00007FFF, 0x00003FFF, 0x00001FFF, 0x00000FFF, 0x000007FF,
  0x000003FF, 0x000001FF, 0x000000FF, 0x0000007F, 0x0000003F, 0x0000001F, 0x0000000F, 0x00000008, 0x00000004, 0x00000002,
  0x00000001, 0x00000000]

/-- alpha_table.v:129-165 and 167-204, which are the same. -/
def lin32 : List Nat := [
  0x80000000, 0x40000000, 0x20000000, 0x10000000, 0x08000000, 0x04000000, 0x02000000, 0x01000000, 0x00800000, 0x00400000,
  0x00200000, 0x00100000, 0x00080000, 0x00040000, 0x00020000, 0x00010000, 0x00008000, 0x00004000, 0x00002000, 0x00001000,
  0x00000800, 0x00000400, 0x00000200, 0x00000100, 0x00000080, 0x00000040, 0x00000020, 0x00000010, 0x00000008, 0x00000004,
  0x00000002, 0x00000001]

/-- `alpha_table` (alpha_table.v:24-206). The `else` in front of `MOD == MOD_LIN` in line 128 belongs to `L == 32`. -/
def alpha (L : Nat) (mod : Mod) (iter : Nat) : BitVec L :=
  let table :=
    if L = 16 then
      match mod with
      | .cir => cir16
      | .lin => lin16
      | .hyp => hyp16
    else if L = 32 then cir32 else lin32
  BitVec.ofNat L (table.getD iter 0)

/-- `barrel_shifter_left` (barrel_shifter_left.v:16-34): it shifts to the right. -/
def barrel {N : Nat} (a : BitVec N) (shift : BitVec (clog2 N + 1)) : BitVec N :=
  (List.range (clog2 N + 1)).foldl (fun a i => if shift.getLsbD i then a >>> 2 ^ i else a) a

/-- The registers (cordic.v:40-42, 52). -/
structure Regs (L W : Nat) where
  x : BitVec L
  y : BitVec L
  z : BitVec L
  iter : BitVec (W + 1)

/-- The registers after `rst` (cordic.v:174-178). -/
def start {L W : Nat} (g : BitVec (2 * L)) (e : BitVec L) : Regs L W := ⟨g.extractLsb' L L, g.extractLsb' 0 L, e, 0⟩

/-- `di` (cordic.v:72-78). -/
def di {L W : Nat} (dir : Dir) (s : Regs L W) : Bool :=
  match dir with
  | .rot => s.z.getLsbD (L - 1)
  | .vec => s.x.getLsbD (L - 1) && s.y.getLsbD (L - 1)

/-- `xi_next`, `yi_next`, `zi_next` (cordic.v:60-171). -/
def next {L W : Nat} (mod : Mod) (dir : Dir) (s : Regs L W) : BitVec L × BitVec L × BitVec L :=
  let alphai := alpha L mod (s.iter.extractLsb' 0 W).toNat
  let xs := barrel s.x (s.iter.setWidth _)
  let ys := barrel s.y (s.iter.setWidth _)
  let d := di dir s
  let yd := if d then -xs else xs
  let zd := if d then alphai else -alphai
  let xd := match mod with
    | .hyp => if d then -ys else ys
    | .lin => 0
    | .cir => if d then ys else -ys
  ((ADD s.x xd false).1, (ADD s.y yd false).1, (ADD s.z zd false).1)

/-- An edge of the clock (cordic.v:179-186), with `ITER = FRAC + 1` (cordic.v:22). -/
def step {L W : Nat} (frac : Nat) (mod : Mod) (dir : Dir) (s : Regs L W) : Regs L W :=
  if s.iter.toNat < frac + 1 then
    let (x, y, z) := next mod dir s
    ⟨x, y, z, s.iter + 1⟩
  else s

/-- The outputs of a cycle: `o = {a, b, c}` and `terminate` (cordic.v:37-38, 189-194). -/
def outputs {L W : Nat} (frac : Nat) (s : Regs L W) : BitVec (L + (L + L)) × Bool := (s.x ++ (s.y ++ s.z), decide (s.iter.toNat = frac + 1))

/-- The registers in cycle `t` (cordic.v:5-196), with `L = DEC + FRAC`. -/
def regs (dec frac : Nat) (mod : Mod) (dir : Dir) (g : BitVec (2 * (dec + frac))) (e : BitVec (dec + frac)) :
    Nat → Regs (dec + frac) (clog2 (frac + 1))
  | 0 => start g e
  | t + 1 => step frac mod dir (regs dec frac mod dir g e t)

/-- The outputs in cycle `t`. -/
def cordic (dec frac : Nat) (mod : Mod) (dir : Dir) (g : BitVec (2 * (dec + frac))) (e : BitVec (dec + frac)) (t : Nat) :
    BitVec ((dec + frac) + ((dec + frac) + (dec + frac))) × Bool := outputs frac (regs dec frac mod dir g e t)

end TinyGarble.Hdl.Cordic
