import Verif.Model.A23

/-!
# CORDIC on the ARM core

Models a23/cordic/cordic.c. `none` is signed overflow or an access outside of an array. `>>` of a negative `int`, which C leaves to the
implementation, is the arithmetic shift.
-/

namespace TinyGarble.A23

/-- Subtraction of two `int`: overflow is undefined. -/
def subS (x y : Word) : Option Word := if x.ssubOverflow y then none else some (x - y)

/-- `cordic_1K` (cordic.c:14). -/
def cordic1K : Word := 0x26DD3B6A

/-- `cordic_ctab` (cordic.c:18-23). -/
def cordicTab : List Word := [
  0x3243F6A8, 0x1DAC6705, 0x0FADBAFC, 0x07F56EA6, 0x03FEAB76, 0x01FFD55B, 0x00FFFAAA, 0x007FFF55, 0x003FFFEA, 0x001FFFFD,
  0x000FFFFF, 0x0007FFFF, 0x0003FFFF, 0x0001FFFF, 0x0000FFFF, 0x00007FFF, 0x00003FFF, 0x00001FFF, 0x00000FFF, 0x000007FF,
  0x000003FF, 0x000001FF, 0x000000FF, 0x0000007F, 0x0000003F, 0x0000001F, 0x0000000F, 0x00000008, 0x00000004, 0x00000002,
  0x00000001, 0x00000000]

/-- The local variables `x`, `y`, `z`. -/
structure CState where
  x : Word
  y : Word
  z : Word
deriving DecidableEq

/-- Body of the loop (cordic.c:30-36). -/
def cordicStep (k : Nat) (s : CState) : Option CState := do
  let d := s.z.sshiftRight 31
  let u ← subS ((s.y.sshiftRight k) ^^^ d) d
  let tx ← subS s.x u
  let v ← subS ((s.x.sshiftRight k) ^^^ d) d
  let ty ← addS s.y v
  let a ← cordicTab[k]?
  let w ← subS (a ^^^ d) d
  let tz ← subS s.z w
  some ⟨tx, ty, tz⟩

/-- `cordic` (cordic.c:25-40): the values of `*s` and `*c`. -/
def cordic (theta : Word) : Option (Word × Word) := do
  let r ← loop cordicStep 32 ⟨cordic1K, 0, theta⟩
  some (r.y, r.x)

/-- `gc_main` (cordic.c:42-48). `cordic` writes `*c` first. -/
def cordicMain (g e o0 : List Word) : Option (List Word) := do
  let x ← g[0]?
  let y ← e[0]?
  let (s, c) ← cordic (x ^^^ y)
  let o ← store o0 1 c
  store o 0 s

end TinyGarble.A23
