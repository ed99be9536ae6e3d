import Verif.Spec.Bristol

/-!
# The files that are read as Bristol circuits

What stands in such a file, character by character; nothing is said about the order of the gates.
-/

namespace TinyGarble.Spec

/-- `l` begins with the number `v`: white space, perhaps a sign, and digits; `r` is what follows, and something has to follow. A negative number is
taken modulo 2^64. -/
def NumberAt (l : List Char) (v : Nat) (r : List Char) : Prop :=
  ∃ white sign ds, l = white ++ (sign ++ (ds ++ r)) ∧ (∀ c ∈ white, isWhite c = true) ∧ sign ∈ [[], ['-'], ['+']]
    ∧ ds ≠ [] ∧ (∀ c ∈ ds, isDec c = true) ∧ (∃ c t, r = c :: t ∧ isDec c = false)
    ∧ decValue ds < 2 ^ 64 ∧ v = if sign = ['-'] then (2 ^ 64 - decValue ds) % 2 ^ 64 else decValue ds

/-- `l` begins, after white space, with the word `k`, which is one of the three kinds of gates; `r` is what follows. -/
def KindAt (l : List Char) (k : Name) (r : List Char) : Prop :=
  ∃ white, l = white ++ (k ++ r) ∧ (∀ c ∈ white, isWhite c = true) ∧ k ∈ ["AND".toList, "XOR".toList, "INV".toList]
    ∧ (r = [] ∨ ∃ c t, r = c :: t ∧ isWhite c = true)

/-- What is read of a gate: its first input, perhaps its second input, its output, its kind. -/
structure FileGate where
  first : Nat
  second : Option Nat
  output : Nat
  kind : Name

/-- `l` begins with a gate: the number of inputs, one or two, any number, the inputs, the output and the kind. The number of inputs need not be that
of the kind. -/
def GateAt (l : List Char) (g : FileGate) (r : List Char) : Prop :=
  ∃ n m r1 r2 r3 r4 r5, NumberAt l n r1 ∧ NumberAt r1 m r2 ∧ NumberAt r2 g.first r3
    ∧ ((n = 1 ∧ g.second = none ∧ r4 = r3) ∨ (n = 2 ∧ ∃ b, g.second = some b ∧ NumberAt r3 b r4))
    ∧ NumberAt r4 g.output r5 ∧ KindAt r5 g.kind r

/-- `l` begins with the given gates, one after the other. -/
def GatesAt : List Char → List FileGate → List Char → Prop
  | l, [], r => r = l
  | l, g :: gs, r => ∃ m, GateAt l g m ∧ GatesAt m gs r

/-- What is read of a file. -/
structure FileBristol where
  wires : Nat
  g : Nat
  e : Nat
  out : Nat
  gates : List FileGate

/-- The file begins with the number of gates and the other four sizes, then come as many gates as announced, then anything. There is a gate and a
wire. -/
def BristolAt (l : List Char) (B : FileBristol) : Prop :=
  ∃ r1 r2 r3 r4 r5 r, NumberAt l B.gates.length r1 ∧ NumberAt r1 B.wires r2 ∧ NumberAt r2 B.g r3 ∧ NumberAt r3 B.e r4
    ∧ NumberAt r4 B.out r5 ∧ GatesAt r5 B.gates r ∧ B.gates ≠ [] ∧ B.wires ≠ 0

end TinyGarble.Spec
