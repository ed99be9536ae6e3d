import Verif.Model.Hdl.Lib

/-!
# The technology mapping for yosys

Models circuit_synthesis/lib/stdcells_S.v: the modules by which yosys replaces the operators of Verilog. The cells marked
`techmap_simplemap` are the operators on single bits, built into yosys: here they are those of Lean. `$pos` and `$bu0` differ only for
undefined bits. Parameters that are widths are natural numbers; zero widths are not legal in Verilog.
-/

namespace TinyGarble.Hdl.Stdcells

/-- `$pos` and `$bu0`: extension, by the sign if `A_SIGNED`, or truncation. -/
def pos {n : Nat} (signed : Bool) (a : BitVec n) (m : Nat) : BitVec m := if signed then a.signExtend m else a.setWidth m

/-- `$__shift` (stdcells_S.v:132-155). -/
def shift {W : Nat} (x : Bool) (s : Int) (a : BitVec W) : BitVec W :=
  ofBits W fun i => if (i : Int) + s < 0 then false else if (i : Int) + s < W then a.getLsbD ((i : Int) + s).toNat else x

/-- `BB_WIDTH` (stdcells_S.v:168, 227, 286, 345). -/
def bbWidth (W nb : Nat) : Nat := if clog2 W + 2 < nb then clog2 W + 2 else nb

/-- `BBIT` (stdcells_S.v:190-194): the last stage stands for all higher bits of `B`. -/
def bbit {nb : Nat} (W : Nat) (b : BitVec nb) (i : Nat) : Bool :=
  if i = bbWidth W nb - 1 ∧ bbWidth W nb < nb then b >>> (bbWidth W nb - 1) != 0 else b.getLsbD i

/-- The chain of stages (stdcells_S.v:176-211): stage `i` shifts by `sh i` if `BBIT`. -/
def stages {W nb : Nat} (sh : Nat → BitVec W → BitVec W) (a : BitVec W) (b : BitVec nb) : BitVec W :=
  (List.range (bbWidth W nb)).foldl (fun unshifted i => if bbit W b i then sh i unshifted else unshifted) a

/-- `2 ** (i > 30 ? 30 : i)`. -/
def amount (i : Nat) : Nat := 2 ^ (if i > 30 then 30 else i)

/-- `$shl` (stdcells_S.v:159-214). -/
def shl {na nb : Nat} (signed : Bool) (a : BitVec na) (b : BitVec nb) (Y : Nat) : BitVec Y :=
  stages (fun i => shift false (0 - (amount i : Int))) (pos signed a Y) b

/-- `$shr` (stdcells_S.v:218-273). -/
def shr {na nb : Nat} (signed : Bool) (a : BitVec na) (b : BitVec nb) (Y : Nat) : BitVec Y :=
  let W := if na > Y then na else Y
  (stages (fun i => shift false (amount i)) (pos signed a W) b).setWidth Y

/-- `$sshl` (stdcells_S.v:277-332). -/
def sshl {na nb : Nat} (signed : Bool) (a : BitVec na) (b : BitVec nb) (Y : Nat) : BitVec Y :=
  stages (fun i => shift false (0 - (amount i : Int))) (pos signed a Y) b

/-- `$sshr` (stdcells_S.v:336-400). -/
def sshr {na nb : Nat} (signed : Bool) (a : BitVec na) (b : BitVec nb) (Y : Nat) : BitVec Y :=
  let W := if na > Y then na else Y
  let c := stages (fun i => shift (signed && a.getLsbD (na - 1)) (amount i)) (pos signed a W) b
  ofBits Y fun i => if i < W then c.getLsbD i else if signed then c.getLsbD (W - 1) else false

/-- `$__fulladd` (stdcells_S.v:404-424): `X` and `Y`. -/
def fulladd (a b c : Bool) : Bool × Bool :=
  let t1 := a ^^ c
  let t2 := b ^^ c
  let t3 := t1 && t2
  (t3 ^^ c, t1 ^^ b)

/-- `carry` (stdcells_S.v:439-454). -/
def carries {W : Nat} (a b : BitVec W) (cin : Bool) : Nat → Bool
  | 0 => cin
  | i + 1 => (fulladd (a.getLsbD i) (b.getLsbD i) (carries a b cin i)).1

/-- The outputs of `$__alu`. -/
structure Alu (W : Nat) where
  y : BitVec W
  cout : Bool
  csign : Bool

/-- `$__alu` (stdcells_S.v:429-457). -/
def alu {W : Nat} (a b : BitVec W) (cin : Bool) : Alu W where
  y := ofBits W fun i => (fulladd (a.getLsbD i) (b.getLsbD i) (carries a b cin i)).2
  cout := carries a b cin W
  csign := carries a b cin (W - 1)

/-- `$add` (stdcells_S.v:715-742); `c` is the lowest bit of the input `C`. -/
def add {na nb : Nat} (sa sb : Bool) (a : BitVec na) (b : BitVec nb) (c : Bool) (Y : Nat) : BitVec Y := (alu (pos sa a Y) (pos sb b Y) c).y

/-- `$sub` (stdcells_S.v:746-771). -/
def sub {na nb : Nat} (sa sb : Bool) (a : BitVec na) (b : BitVec nb) (Y : Nat) : BitVec Y := (alu (pos sa a Y) (~~~(pos sb b Y)) true).y

/-- `$neg` (stdcells_S.v:53-74). -/
def neg {n : Nat} (signed : Bool) (a : BitVec n) (Y : Nat) : BitVec Y := sub signed signed 0#1 a Y

/-- `$lt` (stdcells_S.v:461-506). -/
def lt {na nb : Nat} (sa sb : Bool) (a : BitVec na) (b : BitVec nb) (Y : Nat) : BitVec Y :=
  let W := if na > nb then na else nb
  let r := alu (pos sa a W) (~~~(pos sb b W)) true
  let cf := !r.cout
  let of := r.cout ^^ r.csign
  let sf := r.y.getLsbD (W - 1)
  if sa && sb then (BitVec.ofBool (of != sf)).setWidth Y else (BitVec.ofBool cf).setWidth Y

/-- `$le` (stdcells_S.v:510-555). -/
def le {na nb : Nat} (sa sb : Bool) (a : BitVec na) (b : BitVec nb) (Y : Nat) : BitVec Y :=
  let W := if na > nb then na else nb
  let r := alu (pos sa a W) (~~~(pos sb b W)) true
  let cf := !r.cout
  let of := r.cout ^^ r.csign
  let zf := r.y == 0
  let sf := r.y.getLsbD (W - 1)
  if sa && sb then (BitVec.ofBool (zf || of != sf)).setWidth Y else (BitVec.ofBool (zf || cf)).setWidth Y

/-- `$ge` (stdcells_S.v:659-683). -/
def ge {na nb : Nat} (sa sb : Bool) (a : BitVec na) (b : BitVec nb) (Y : Nat) : BitVec Y := le sb sa b a Y

/-- `$gt` (stdcells_S.v:687-711). -/
def gt {na nb : Nat} (sa sb : Bool) (a : BitVec na) (b : BitVec nb) (Y : Nat) : BitVec Y := lt sb sa b a Y

/-- `$eq` and `$eqx` (stdcells_S.v:559-580, 609-630). -/
def eq {na nb : Nat} (sa sb : Bool) (a : BitVec na) (b : BitVec nb) (Y : Nat) : BitVec Y :=
  let W := if na > nb then na else nb
  (BitVec.ofBool (pos sa a W ^^^ pos sb b W == 0)).setWidth Y

/-- `$ne` and `$nex` (stdcells_S.v:584-605, 634-655). -/
def ne {na nb : Nat} (sa sb : Bool) (a : BitVec na) (b : BitVec nb) (Y : Nat) : BitVec Y :=
  let W := if na > nb then na else nb
  (BitVec.ofBool (pos sa a W ^^^ pos sb b W != 0)).setWidth Y

/-- `$__arraymul` (stdcells_S.v:775-791): `partials`. -/
def partials {W : Nat} (a b : BitVec W) : Nat → BitVec W
  | 0 => if a.getLsbD 0 then b else 0
  | i + 1 => (if a.getLsbD (i + 1) then b <<< (i + 1) else 0) + partials a b i

/-- `$mul` (stdcells_S.v:795-819). -/
def mul {na nb : Nat} (sa sb : Bool) (a : BitVec na) (b : BitVec nb) (Y : Nat) : BitVec Y := partials (pos sa a Y) (pos sb b Y) (Y - 1)

/-- One stage of `$__div_mod_u` (stdcells_S.v:835-846) with `k = WIDTH - (i + 1)`: the bit of `Y` and the output of the stage. -/
def divStage {W : Nat} (b : BitVec W) (k : Nat) (stageIn : BitVec W) : Bool × BitVec W :=
  let d : BitVec (W + k) := b ++ 0#k
  let y := decide (d.toNat ≤ stageIn.toNat)
  (y, if y then (stageIn.setWidth (W + k) - d).setWidth W else stageIn)

/-- The input of stage `i` of `$__div_mod_u`. -/
def divChain {W : Nat} (a b : BitVec W) : Nat → BitVec W
  | 0 => a
  | i + 1 => (divStage b (W - (i + 1)) (divChain a b i)).2

/-- `$__div_mod_u` (stdcells_S.v:823-849): quotient and remainder. -/
def divModU {W : Nat} (a b : BitVec W) : BitVec W × BitVec W :=
  (ofBits W fun j => (divStage b j (divChain a b (W - (j + 1)))).1, divChain a b W)

/-- The width in `$__div_mod` (stdcells_S.v:857-859). -/
def divWidth (na nb Y : Nat) : Nat := if na ≥ nb ∧ na ≥ Y then na else if nb ≥ na ∧ nb ≥ Y then nb else Y

/-- `$__div_mod` (stdcells_S.v:853-889): `Y` and `R`. -/
def divMod {na nb : Nat} (sa sb : Bool) (a : BitVec na) (b : BitVec nb) (Y : Nat) : BitVec Y × BitVec Y :=
  let W := divWidth na nb Y
  let aBuf := pos sa a W
  let bBuf := pos sb b W
  let aNeg := aBuf.getLsbD (W - 1)
  let bNeg := bBuf.getLsbD (W - 1)
  let u := divModU (if sa && aNeg then -aBuf else aBuf) (if sb && bNeg then -bBuf else bBuf)
  ((if sa && sb && aNeg != bNeg then -u.1 else u.1).setWidth Y, (if sa && sb && aNeg then -u.2 else u.2).setWidth Y)

/-- `$div` (stdcells_S.v:893-917). -/
def div {na nb : Nat} (sa sb : Bool) (a : BitVec na) (b : BitVec nb) (Y : Nat) : BitVec Y := (divMod sa sb a b Y).1

/-- `$mod` (stdcells_S.v:921-945). -/
def mod {na nb : Nat} (sa sb : Bool) (a : BitVec na) (b : BitVec nb) (Y : Nat) : BitVec Y := (divMod sa sb a b Y).2

/-- `$pmux` (stdcells_S.v:1008-1037). -/
def pmux {W S : Nat} (a : BitVec W) (b : BitVec (W * S)) (s : BitVec S) : BitVec W :=
  let bAndS := fun k => b.getLsbD k && s.getLsbD (k / W)
  let yB := ofBits W fun i => (List.range S).any fun j => bAndS (W * j + i)
  if s != 0 then yB else a

/-- `status_found_first` (stdcells_S.v:1051-1067). -/
def foundFirst {S : Nat} (s : BitVec S) : Nat → Bool
  | 0 => s.getLsbD 0
  | i + 1 => foundFirst s i || s.getLsbD (i + 1)

/-- `$safe_pmux` (stdcells_S.v:1041-1078). -/
def safePmux {W S : Nat} (a : BitVec W) (b : BitVec (W * S)) (s : BitVec S) : BitVec W :=
  let foundSecond := fun i => (match i with | 0 => false | i + 1 => foundFirst s i) && s.getLsbD i
  pmux a b (if (List.range S).any foundSecond then 0 else s)

end TinyGarble.Hdl.Stdcells
