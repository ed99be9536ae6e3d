import Verif.Model.Hdl.Seq

/-!
# Keccak as a circuit

Models circuit_synthesis/sha3.
-/

namespace TinyGarble.Hdl.Sha3

/-- `rconst` (rconst.v:18-34): for each bit of `rc` that can be set, the bits of `i` that set it. -/
def rconstBits : List (Nat × List Nat) := [
  (0, [0, 4, 5, 6, 7, 10, 12, 13, 14, 15, 20, 22]),
  (1, [1, 2, 4, 8, 11, 12, 13, 15, 16, 18, 19]),
  (3, [2, 4, 7, 8, 9, 10, 11, 12, 13, 14, 18, 19, 23]),
  (7, [1, 2, 4, 6, 8, 9, 12, 13, 14, 17, 20, 21]),
  (15, [1, 2, 3, 4, 6, 7, 10, 12, 14, 15, 16, 18, 20, 21, 23]),
  (31, [3, 5, 6, 10, 11, 12, 19, 20, 22, 23]),
  (63, [2, 3, 6, 7, 13, 14, 15, 16, 17, 19, 20, 21, 23])]

/-- `rconst` (rconst.v:18-34). -/
def rconst (i : BitVec 24) : BitVec 64 := ofBits 64 fun z => rconstBits.any fun r => r.1 == z && r.2.any i.getLsbD

/-- `` `low_pos(x,y) `` (round.v:17-18). -/
def lowPos (x y : Nat) : Nat := 1599 - 64 * (5 * y + x) - 63

/-- `` `add_1 ``, `` `add_2 ``, `` `sub_1 `` (round.v:19-21). -/
def add1 (x : Nat) : Nat := if x = 4 then 0 else x + 1
def add2 (x : Nat) : Nat := if x = 3 then 0 else if x = 4 then 1 else x + 2
def sub1 (x : Nat) : Nat := if x = 0 then 4 else x - 1

/-- `` `rot_up(in, n) `` and `` `rot_up_1(in) `` (round.v:22-23). -/
def rotUp (a : BitVec 64) (n : Nat) : BitVec 64 := (a.extractLsb' 0 (64 - n) ++ a.extractLsb' (64 - n) n).setWidth 64

/-- The rotations of `d[x][y]` (round.v:72-97), in the order of the assignments, `5 y + x`. For `d[0][0]` there is none. -/
def rotations : List Nat := [
  0, 1, 62, 28, 27,
  36, 44, 6, 55, 20,
  3, 10, 43, 25, 39,
  41, 45, 15, 21, 8,
  18, 2, 61, 56, 14]

/-- The assignments `e[x][y] = d[x'][y']` (round.v:99-124). -/
def moves : List ((Nat × Nat) × (Nat × Nat)) := [
  ((0, 0), (0, 0)), ((0, 2), (1, 0)), ((0, 4), (2, 0)), ((0, 1), (3, 0)), ((0, 3), (4, 0)),
  ((1, 3), (0, 1)), ((1, 0), (1, 1)), ((1, 2), (2, 1)), ((1, 4), (3, 1)), ((1, 1), (4, 1)),
  ((2, 1), (0, 2)), ((2, 3), (1, 2)), ((2, 0), (2, 2)), ((2, 2), (3, 2)), ((2, 4), (4, 2)),
  ((3, 4), (0, 3)), ((3, 1), (1, 3)), ((3, 3), (2, 3)), ((3, 0), (3, 3)), ((3, 2), (4, 3)),
  ((4, 2), (0, 4)), ((4, 4), (1, 4)), ((4, 1), (2, 4)), ((4, 3), (3, 4)), ((4, 0), (4, 4))]

/-- `round` (round.v:25-162): the value of `g[x][y]`. -/
def roundLane (inp : BitVec 1600) (roundConst : BitVec 64) (x y : Nat) : BitVec 64 :=
  let a := fun x y => inp.extractLsb' (lowPos x y) 64
  let b := fun x => a x 0 ^^^ a x 1 ^^^ a x 2 ^^^ a x 3 ^^^ a x 4
  let c := fun x y => a x y ^^^ b (sub1 x) ^^^ rotUp (b (add1 x)) 1
  let d := fun x y => if x = 0 ∧ y = 0 then c 0 0 else rotUp (c x y) (rotations.getD (5 * y + x) 0)
  let e : Nat → Nat → BitVec 64 := fun x y => match moves.find? fun m => m.1 == (x, y) with
    | some m => d m.2.1 m.2.2
    | none => 0
  let f := fun x y => e x y ^^^ (~~~(e (add1 x) y) &&& e (add2 x) y)
  if x = 0 ∧ y = 0 then
    ofBits 64 fun z => if z = 0 ∨ z = 1 ∨ z = 3 ∨ z = 7 ∨ z = 15 ∨ z = 31 ∨ z = 63 then (f 0 0).getLsbD z ^^ roundConst.getLsbD z
      else (f 0 0).getLsbD z
  else f x y

/-- `round` (round.v:25-162): the lanes `g[x][y]` are the bits from `` `high_pos(x,y) `` to `` `low_pos(x,y) `` of `out`. -/
def round (inp : BitVec 1600) (roundConst : BitVec 64) : BitVec 1600 :=
  ofEntries 25 64 fun k => roundLane inp roundConst ((24 - k) % 5) ((24 - k) / 5)

/-- `round_out[q-1]` in sha3_comb.v:40-87; the argument of `rconst` in instance `q` has only bit `q` set. -/
def combRounds (inp : BitVec 1600) : Nat → BitVec 1600
  | 0 => inp
  | q + 1 => round (combRounds inp q) (rconst (BitVec.twoPow 24 q))

/-- sha3_comb.v:18-90. The vector `{e_input, g_input}` is extended with zeros. -/
def sha3Comb (CC : Nat) (g e : BitVec 288) : BitVec 1600 := combRounds ((e ++ g).setWidth 1600) (24 / CC)

/-- The registers of sha3_seq.v. -/
structure Regs (CC : Nat) where
  init : Bool
  rcI : BitVec CC
  roundReg : BitVec 1600

/-- `rc_j[k]` (sha3_seq.v:63-74). -/
def rcJ {CC : Nat} (rcI : BitVec CC) (k : Nat) : BitVec 24 :=
  ofBits 24 ((List.range CC).foldl (fun r t => setBit r (24 / CC * t + k) (rcI.getLsbD t)) fun _ => false)

/-- `round_out[q-1]` in one cycle of sha3_seq.v:58-110. -/
def seqRounds {CC : Nat} (s : Regs CC) : Nat → BitVec 1600
  | 0 => s.roundReg
  | q + 1 => round (seqRounds s q) (rconst (rcJ s.rcI q))

/-- One cycle of sha3_seq.v:42-59; `{rc_i[CC-2:0], ~init}` needs `CC ≥ 2`. -/
def sha3SeqStep (CC : Nat) (s : Regs CC) (_ : Unit) : Regs CC × BitVec 1600 :=
  let out := seqRounds s (24 / CC)
  (⟨true, (s.rcI.extractLsb' 0 (CC - 1) ++ BitVec.ofBool (!s.init)).setWidth CC, out⟩, out)

/-- sha3_seq.v:18-112, the outputs of `n` cycles. -/
def sha3Seq (CC : Nat) (g e : BitVec 288) (n : Nat) : List (BitVec 1600) :=
  runSeq (sha3SeqStep CC) ⟨false, 0, (e ++ g).setWidth 1600⟩ (List.replicate n ())

end TinyGarble.Hdl.Sha3
