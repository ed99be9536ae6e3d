import Verif.Model.Hdl.Lib

/-!
# Sequential circuits

One call of `step` is one clock cycle: the outputs are those before the clock edge, the new state is stored at the edge. `rst` is only
active before the first cycle, so the initial state is the one the reset gives (this is how TinyGarble runs a netlist).
-/

namespace TinyGarble.Hdl

/-- The outputs of all cycles. -/
def runSeq (step : σ → ι → σ × ο) : σ → List ι → List ο
  | _, [] => []
  | s, i :: is => (step s i).2 :: runSeq step (step s i).1 is

/-- sum.v:44-72, one cycle; the state is `carry_on`, which is only used for `CC > 1`. -/
def sumStep (N CC : Nat) (carryOn : Bool) (i : BitVec (N / CC) × BitVec (N / CC)) : Bool × BitVec (N / CC) :=
  if CC > 1 then
    let r := ADD i.1 i.2 carryOn
    (r.2, r.1)
  else (carryOn, (ADD i.1 i.2 false).1)

/-- sum.v:3-72. -/
def sum (N CC : Nat) (g e : List (BitVec (N / CC))) : List (BitVec (N / CC)) := runSeq (sumStep N CC) false (g.zip e)

/-- compare.v:3-61, one cycle; the state is `ci`. -/
def compareStep (N CC : Nat) (ci : Bool) (i : BitVec (N / CC) × BitVec (N / CC)) : Bool × Bool :=
  let ci := if CC > 1 then ci else true
  let co := (ADD i.1 (~~~i.2) ci).2
  (co, co)

/-- compare.v:3-61. -/
def compare (N CC : Nat) (g e : List (BitVec (N / CC))) : List Bool := runSeq (compareStep N CC) true (g.zip e)

/-- hamming.v:3-93, one cycle; the state is `oglobal`. -/
def hammingStep (N CC : Nat) (oglobal : BitVec (log2 N)) (i : BitVec (N / CC) × BitVec (N / CC)) : BitVec (log2 N) × BitVec (log2 N) :=
  let olocal := COUNT (N / CC) (i.1 ^^^ i.2)
  if CC > 1 then
    let o := (ADD oglobal ((0#(log2 N - log2 (N / CC)) ++ olocal).setWidth (log2 N)) false).1
    (o, o)
  else (0, olocal.setWidth (log2 N))

/-- hamming.v:3-93. -/
def hamming (N CC : Nat) (g e : List (BitVec (N / CC))) : List (BitVec (log2 N)) := runSeq (hammingStep N CC) 0 (g.zip e)

/-- mult.v:3-73 (combinational): `e_input` is connected to a port with `N/CC` bits. -/
def mult (N CC : Nat) (g e : BitVec N) : BitVec N :=
  let oLarge : BitVec (2 * N) := (MULT g (e.setWidth (N / CC))).setWidth (2 * N)
  oLarge.extractLsb' 0 N

/-- Entry `i` of a vector of `M`-bit numbers, `x[M*(i+1)-1 : M*i]`. -/
def entry {w : Nat} (M : Nat) (x : BitVec w) (i : Nat) : BitVec M := x.extractLsb' (M * i) M

/-- A vector of `M`-bit numbers. -/
def ofEntries (n M : Nat) (f : Nat → BitVec M) : BitVec (n * M) := ofBits (n * M) fun i => (f (i / M)).getLsbD (i % M)

/-- matrix_mult_N_M_0.v:3-73 (combinational). `xij*yij` is the Verilog product, of `2M` bits by the width of the left hand side. -/
def matrixMult0 (N M : Nat) (g e : BitVec (M * N * N)) : BitVec (N * N * M) :=
  let x (i j : Nat) : BitVec M := entry M g (N * i + j)
  let y (i j : Nat) : BitVec M := entry M e (N * i + j)
  let xy (i j k : Nat) : BitVec (2 * M) := (x i k).setWidth (2 * M) * (y k j).setWidth (2 * M)
  let o (i j : Nat) : BitVec M := (List.range' 1 (N - 1)).foldl (fun o k => (xy i j k).setWidth M + o) ((xy i j 0).setWidth M)
  ofEntries (N * N) M fun a => o (a / N) (a % N)

/-- matrix_mult_N_M_1.v:3-113, one cycle; the state are the registers `oi`. The outputs are the registers. -/
def matrixMult1Step (N M : Nat) (oi : Nat → BitVec M) (i : BitVec (N * M) × BitVec (N * N * M)) : (Nat → BitVec M) × BitVec (N * M) :=
  let x (k : Nat) : BitVec M := entry M i.1 k
  let y (a b : Nat) : BitVec M := entry M i.2 (N * a + b)
  let next (r : Nat) : BitVec M := (List.range N).foldl
    (fun o k => (ADD ((MULT (x k) (y k r)).extractLsb' 0 M) o false).1) (oi r)
  (next, ofEntries N M oi)

/-- matrix_mult_N_M_1.v:3-113. -/
def matrixMult1 (N M : Nat) (i : List (BitVec (N * M) × BitVec (N * N * M))) : List (BitVec (N * M)) :=
  runSeq (matrixMult1Step N M) (fun _ => 0) i

/-- matrix_mult_N_M_2.v:3-89, one cycle; the state is the register `o`, which is the output. -/
def matrixMult2Step (N M : Nat) (o : BitVec M) (i : BitVec (N * M) × BitVec (N * M)) : BitVec M × BitVec M :=
  ((List.range N).foldl (fun o k => (ADD ((MULT (entry M i.1 k) (entry M i.2 k)).extractLsb' 0 M) o false).1) o, o)

/-- matrix_mult_N_M_2.v:3-89. -/
def matrixMult2 (N M : Nat) (i : List (BitVec (N * M) × BitVec (N * M))) : List (BitVec M) := runSeq (matrixMult2Step N M) 0 i

/-- matrix_mult_N_M_3.v:3-37, one cycle; the state is `o_reg`. -/
def matrixMult3Step (M : Nat) (oReg : BitVec M) (i : BitVec M × BitVec M) : BitVec M × BitVec M :=
  let xy : BitVec (2 * M) := i.1.setWidth (2 * M) * i.2.setWidth (2 * M)
  let o := xy.setWidth M + oReg
  (o, o)

/-- matrix_mult_N_M_3.v:3-37. -/
def matrixMult3 (M : Nat) (i : List (BitVec M × BitVec M)) : List (BitVec M) := runSeq (matrixMult3Step M) 0 i

/-- non_secret_test.v:3-70, one cycle; the state is `sel`. -/
def nonSecretStep {N : Nat} (sel : Bool) (i : BitVec N × BitVec N) : Bool × BitVec N :=
  (!sel, MUX (ADD i.1 i.2 false).1 (SUB i.1 i.2).1 sel)

/-- non_secret_test.v:3-70. -/
def nonSecret {N : Nat} (i : List (BitVec N × BitVec N)) : List (BitVec N) := runSeq nonSecretStep false i

/-- argmax.v:1-48, `max` and `ind`; `max_i`, `ind_i` are the state of the fold. -/
def argmax (N M : Nat) (input : BitVec (M * N)) : BitVec M × BitVec (log2 N) :=
  (List.range' 1 (N - 1)).foldl (fun (s : BitVec M × BitVec (log2 N)) g =>
      let greater := decide (s.1.toNat > (entry M input g).toNat)
      (if greater then s.1 else entry M input g, if greater then s.2 else BitVec.ofNat _ g))
    (entry M input 0, 0)

/-- `encoder_` (encoder.v:34-82), `logS = l + 1`. -/
def encoder_ : (l : Nat) → (Nat → Bool) → (Nat → Bool)
  | 0, inp => fun i => if i = 0 then inp 1 else false
  | l + 1, inp =>
    let S := 2 ^ (l + 2)
    let o0 := encoder_ l inp
    let o1 := encoder_ l (fun i => inp (S / 2 + i))
    fun i => if i = l + 1 then (List.range (S / 2)).any (fun j => inp (S / 2 + j)) else o0 i || o1 i

/-- encoder.v:1-31: the upper half of the inputs is the evaluator's. -/
def encoder (logS : Nat) (g e : BitVec (2 ^ logS / 2)) : BitVec logS :=
  ofBits logS (encoder_ (logS - 1) fun i => if i < 2 ^ logS / 2 then g.getLsbD i else e.getLsbD (i - 2 ^ logS / 2))

end TinyGarble.Hdl
