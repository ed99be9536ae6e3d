/-!
# The library of circuits (circuit_synthesis/syn_lib)

A Verilog module is a function of its input vectors; its parameters are the widths. `A[i]` is `A.getLsbD i`, a connection between
vectors of different widths is `setWidth` (truncation or extension by zeros, as for unsigned Verilog vectors), and a `generate` loop that
instantiates one cell per bit is a fold over the indices of the instances. Bits that no instance drives are modelled as 0 (they would be
`z`); `Verif/Proof/Hdl/Lib.lean` shows that every bit is driven once.
-/

namespace TinyGarble.Hdl

/-- The vector with the given bits. -/
def ofBits : (n : Nat) → (Nat → Bool) → BitVec n
  | 0, _ => 0#0
  | n + 1, f => BitVec.cons (f n) (ofBits n f)

/-- Full adder (FA.v:3-17): `S` and `CO`. -/
def fa (A B CI : Bool) : Bool × Bool :=
  let n1 := A ^^ CI
  let n2 := B ^^ CI
  let n3 := n1 && n2
  (n1 ^^ B, n3 ^^ CI)

/-- The indices of the cells in the order of the `generate` loops of ADD.v, SUB.v, COMP.v and MUX.v (`MAX_LOOP = 512`). -/
def instances (n : Nat) : List Nat :=
  if n < 512 then List.range n
  else ((List.range (n / 512)).flatMap fun h => (List.range 512).map fun g => h * 512 + g) ++
    List.range' (n / 512 * 512) (n - n / 512 * 512)

def setBit (f : Nat → Bool) (i : Nat) (b : Bool) : Nat → Bool := fun j => if j = i then b else f j

/-- The wires `C[N:0]` and `S[N-1:0]`. -/
structure Chain where
  C : Nat → Bool
  S : Nat → Bool

/-- Instance `g` of the full adder in ADD.v, SUB.v and COMP.v; `B` is what is connected to its second input. -/
def chainStep (A B : Nat → Bool) (w : Chain) (g : Nat) : Chain :=
  let r := fa (A g) (B g) (w.C g)
  { C := setBit w.C (g + 1) r.2, S := setBit w.S g r.1 }

/-- The chain of full adders in ADD.v, SUB.v and COMP.v. -/
def chain (n : Nat) (A B : Nat → Bool) (C0 : Bool) : Chain :=
  (instances n).foldl (chainStep A B) { C := setBit (fun _ => false) 0 C0, S := fun _ => false }

/-- ADD.v:3-66: `S` and `CO`. -/
def ADD {n m : Nat} (A : BitVec n) (B : BitVec m) (CI : Bool) : BitVec n × Bool :=
  let BB : BitVec n := if n > m then (0#(n - m) ++ B).setWidth n else B.setWidth n
  let w := chain n A.getLsbD BB.getLsbD CI
  (ofBits n w.S, w.C n)

/-- SUB.v:3-60: `S` and `CO`. -/
def SUB {n m : Nat} (A : BitVec n) (B : BitVec m) : BitVec n × Bool :=
  let BB : BitVec n := (0#(n - m) ++ B).setWidth n
  let w := chain n A.getLsbD (fun g => !BB.getLsbD g) true
  (ofBits n w.S, w.C n)

/-- COMP.v:3-70. -/
def COMP {n m : Nat} (A : BitVec n) (B : BitVec m) : Bool :=
  let BB : BitVec n := if n > m then (0#(n - m) ++ B).setWidth n else B.setWidth n
  (chain n A.getLsbD (fun g => !BB.getLsbD g) true).C n

/-- MUX.v:3-36. -/
def MUX {n : Nat} (A B : BitVec n) (S : Bool) : BitVec n :=
  ofBits n ((instances n).foldl
    (fun O g => setBit O g (((A.getLsbD g ^^ B.getLsbD g) && S) ^^ A.getLsbD g)) fun _ => false)

/-- MUX.v:3-36 with `N = 1`. -/
def MUX1 (A B S : Bool) : Bool := (MUX (BitVec.ofBool A) (BitVec.ofBool B) S).getLsbD 0

/-- TwosComplement.v:3-17. -/
def TwosComplement {n : Nat} (A : BitVec n) : BitVec n := (ADD (~~~A) 0#n true).1

/-- The sign extension `BB` in ADD_.v and SUB_.v. -/
def signBB (n : Nat) {m : Nat} (B : BitVec m) : BitVec n :=
  if n > m then (BitVec.fill (n - m) (B.getLsbD (m - 1)) ++ B).setWidth n else B.setWidth n

/-- ADD_.v:3-35 (signed addition): `O[N:0]`. -/
def ADD_ {n m : Nat} (A : BitVec n) (B : BitVec m) : BitVec (n + 1) :=
  let r := ADD A (signBB n B) false
  BitVec.cons (MUX1 r.2 (r.1.getLsbD (n - 1)) (A.getLsbD (n - 1) ^^ B.getLsbD (m - 1))) r.1

/-- SUB_.v:3-34 (signed subtraction): `O[N:0]`. -/
def SUB_ {n m : Nat} (A : BitVec n) (B : BitVec m) : BitVec (n + 1) :=
  let r := ADD A (~~~(signBB n B)) true
  BitVec.cons (MUX1 r.2 (r.1.getLsbD (n - 1)) (!(A.getLsbD (n - 1) ^^ B.getLsbD (m - 1)))) r.1

/-- MULT.v:3-40: `w[g]` for `g` from 0 to `N-1`, then `O = w[N-1]`. -/
def MULT {n m : Nat} (A : BitVec n) (B : BitVec m) : BitVec (n + m) :=
  let B_ : BitVec (n + m) := 0#n ++ B
  let w0 := if A.getLsbD 0 then B_ else 0
  (List.range' 1 (n - 1)).foldl (fun w g =>
    let shifted : BitVec (n + m) := (B_.extractLsb' 0 (n + m - g) ++ 0#g).setWidth (n + m)
    let AA := MUX 0#(n + m) shifted (A.getLsbD g)
    (ADD AA w false).1) w0

/-- DIV.v:3-44: the quotient; the state of the fold is `A_[g+1]` and the bits of `O`. -/
def DIV {n m : Nat} (A : BitVec n) (B : BitVec m) : BitVec n :=
  let A_N : BitVec (n + m) := (0#m ++ A).setWidth (n + m)
  let r := (List.range n).reverse.foldl (fun (st : BitVec (n + m) × (Nat → Bool)) g =>
    let operand : BitVec (n + m) := (BitVec.allOnes (n - g) ++ ~~~B ++ BitVec.allOnes g).setWidth (n + m)
    let d := ADD st.1 operand true
    (MUX st.1 d.1 d.2, setBit st.2 g d.2)) (A_N, fun _ => false)
  ofBits n r.2

/-- MULT_.v:3-55 (signed multiplication). -/
def MULT_ {n m : Nat} (A : BitVec n) (B : BitVec m) : BitVec (n + m) :=
  let A__ := MUX A (TwosComplement A) (A.getLsbD (n - 1))
  let B__ := MUX B (TwosComplement B) (B.getLsbD (m - 1))
  let O_ := MULT A__ B__
  MUX O_ (TwosComplement O_) (A.getLsbD (n - 1) ^^ B.getLsbD (m - 1))

/-- DIV_.v:3-55 (signed division). -/
def DIV_ {n m : Nat} (A : BitVec n) (B : BitVec m) : BitVec n :=
  let A__ := MUX A (TwosComplement A) (A.getLsbD (n - 1))
  let B__ := MUX B (TwosComplement B) (B.getLsbD (m - 1))
  let O_ := DIV A__ B__
  MUX O_ (TwosComplement O_) (A.getLsbD (n - 1) ^^ B.getLsbD (m - 1))

/-- `squar_root_unit` (square_root_comb.v:36-58) for `N = 2 h`: `y` and `y0`. -/
def squarRootUnit {h : Nat} (x : BitVec (h + h)) (yIn y0In : BitVec h) : BitVec h × BitVec h :=
  let ySqr := MULT yIn yIn
  let t := COMP x ySqr
  let yMinY0 : BitVec h := (SUB_ yIn y0In).setWidth h
  let yMid := MUX yMinY0 yIn t
  let y0 := y0In >>> 1
  ((ADD_ yMid y0).setWidth h, y0)

/-- square_root_comb.v:3-33 for `N = 2 h` (for odd `N` the top bit of `y_sqr` has no driver). `M` is the number of steps. -/
def squareRoot {h : Nat} (M : Nat) (A : BitVec (h + h)) : BitVec h :=
  let Y0 : BitVec h := (1#1 ++ 0#(h - 1)).setWidth h
  ((List.range M).foldl (fun (st : BitVec h × BitVec h) _ => squarRootUnit A st.1 st.2) (Y0, Y0)).1

/-- `$clog2`. -/
def clog2 (n : Nat) : Nat := if n ≤ 1 then 0 else 1 + clog2 ((n + 1) / 2)
  termination_by n

/-- SHIFT_LEFT.v:4-34 (with the direction of the code). -/
def SHIFT_LEFT {n : Nat} (a : BitVec n) (amount : BitVec (clog2 n + 1)) : BitVec n :=
  (List.range (clog2 n + 1)).foldl (fun ai i => if amount.getLsbD i then ai >>> 2 ^ i else ai) a

/-- SHIFT_RIGHT.v:4-34 (with the direction of the code). -/
def SHIFT_RIGHT {n : Nat} (a : BitVec n) (amount : BitVec (clog2 n + 1)) : BitVec n :=
  (List.range (clog2 n + 1)).foldl (fun ai i => if amount.getLsbD i then ai <<< 2 ^ i else ai) a

/-- The function `log2` of COUNT.v, hamming.v, argmax.v, knns: the number of binary digits. -/
def log2 (n : Nat) : Nat := if n = 0 then 0 else log2 (n / 2) + 1
  termination_by n

theorem two_pow_log2_le (n : Nat) (h : n ≠ 0) : 2 ^ (log2 n - 1) ≤ n := by
  induction n using Nat.strongRecOn with
  | ind n ih =>
    rw [log2, if_neg h]
    by_cases h2 : n / 2 = 0
    · rw [h2, log2]; simp; omega
    · have := ih (n / 2) (by omega) h2
      have h3 : log2 (n / 2) ≠ 0 := by rw [log2, if_neg h2]; omega
      have h4 : 2 ^ (log2 (n / 2) + 1 - 1) = 2 * 2 ^ (log2 (n / 2) - 1) := by
        rw [← Nat.pow_succ']; congr 1; omega
      omega

/-- COUNT.v:3-110: the number of ones. The cases `g4`–`g8`; `N = 0` has no driver for `S`. -/
def COUNT (n : Nat) (A : BitVec n) : BitVec (log2 n) :=
  let K := log2 n
  let K2 := log2 (n - 2 ^ (K - 1))
  if n = 0 then 0
  else if n = 1 then (BitVec.ofBool (A.getLsbD 0)).setWidth _
  else if n = 2 then
    let r := ADD (BitVec.ofBool (A.getLsbD 1)) 0#1 (A.getLsbD 0)
    (BitVec.cons r.2 r.1).setWidth _
  else if n = 3 then
    let r := ADD (BitVec.ofBool (A.getLsbD 1)) (BitVec.ofBool (A.getLsbD 2)) (A.getLsbD 0)
    (BitVec.cons r.2 (r.1.setWidth (K - 1))).setWidth _
  else
    let S1 : BitVec (K - 1) := (COUNT (2 ^ (K - 1) - 1) (A.extractLsb' (n - 2 ^ (K - 1) + 1) (2 ^ (K - 1) - 1))).setWidth _
    let S2 : BitVec K2 :=
      if n - 2 ^ (K - 1) > 0 then COUNT (n - 2 ^ (K - 1)) (A.extractLsb' 1 (n - 2 ^ (K - 1))) else 0
    let S2pad : BitVec (K - 1) := S2.setWidth _
    let r := ADD S1 S2pad (A.getLsbD 0)
    (BitVec.cons r.2 r.1).setWidth _
  termination_by n
  decreasing_by
    · have := two_pow_log2_le n (by omega)
      have := Nat.two_pow_pos (log2 n - 1)
      omega
    · have := Nat.two_pow_pos (log2 n - 1)
      omega

end TinyGarble.Hdl
