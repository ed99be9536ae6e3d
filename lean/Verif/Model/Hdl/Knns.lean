import Verif.Model.Hdl.Seq

/-!
# Nearest neighbours

Models circuit_synthesis/knns and circuit_synthesis/knns_td.
-/

namespace TinyGarble.Hdl

/-! ## Distances -/

/-- `COUNT` of `g_input ^ e_input` (first_nns_comb.v:49-57, k_nns_seq.v:60-68). -/
def hammingDist {W : Nat} (g e : BitVec W) : BitVec (log2 W) := COUNT W (g ^^^ e)

/-- `SUB_1` (taxicab_distance.v:29-48). -/
def SUB_1 {n : Nat} (A B : BitVec n) : BitVec (n + 1) :=
  let r := ADD A (~~~B) true
  BitVec.cons (!r.2) r.1

/-- `taxicab_distance` (taxicab_distance.v:1-27). -/
def taxicabDistance {n : Nat} (x1 y1 x2 y2 : BitVec n) : BitVec (n + 1 + 1) :=
  let x12 := SUB_1 x1 x2
  let x21 := SUB_1 x2 x1
  let xabs := MUX x12 x21 (x12.getLsbD n)
  let y12 := SUB_1 y1 y2
  let y21 := SUB_1 y2 y1
  let yabs := MUX y12 y21 (y12.getLsbD n)
  let r := ADD xabs yabs false
  BitVec.cons r.2 r.1

/-- The distance of two points `{x, y}` (first_nns_comb_td.v:35-70, first_nns_seq_td.v:34-58, k_nns_seq_td.v:35-75). -/
def taxicabDist {W : Nat} (g e : BitVec (2 * W)) : BitVec (W + 1 + 1) :=
  taxicabDistance (e.extractLsb' W W) (e.extractLsb' 0 W) (g.extractLsb' W W) (g.extractLsb' 0 W)

/-! ## The nearest one -/

/-- `min_val[i]`, `min_dist[i]` (first_nns_comb.v:61-111, first_nns_comb_td.v:73-125), `i` from 0 to `N - 1`, for given `DBi` and `dist`. -/
def firstNns {D V : Nat} (N : Nat) (val : Nat → BitVec V) (dist : Nat → BitVec D) : BitVec V × BitVec D :=
  (List.range' 1 (N - 1)).foldl (fun (s : BitVec V × BitVec D) i =>
      let gt := COMP s.2 (dist i)
      (MUX (val i) s.1 gt, MUX (dist i) s.2 gt))
    (val 0, dist 0)

/-- first_nns_comb.v:1-114. -/
def firstNnsComb (W N : Nat) (g : BitVec W) (e : BitVec (W * N)) : BitVec W :=
  (firstNns N (entry W e) fun i => hammingDist g (entry W e i)).1

/-- first_nns_comb_td.v:1-128. -/
def firstNnsCombTd (W N : Nat) (g : BitVec (2 * W)) (e : BitVec (2 * W * N)) : BitVec (2 * W) :=
  (firstNns N (entry (2 * W) e) fun i => taxicabDist g (entry (2 * W) e i)).1

/-- first_nns_seq.v:53-105, first_nns_seq_td.v:61-113, one cycle, for a given distance; the state are `min_val_reg` and `min_dist_reg`. -/
def firstNnsSeqStep {D V : Nat} (s : BitVec V × BitVec D) (i : BitVec V × BitVec D) : (BitVec V × BitVec D) × BitVec V :=
  let gt := COMP s.2 i.2
  let minVal := MUX i.1 s.1 gt
  ((minVal, MUX i.2 s.2 gt), minVal)

/-- first_nns_seq.v:1-109. The distance is that of `g_input ^ DBi`, where `DBi` is not declared; here it is any sequence `dist`. -/
def firstNnsSeq (W : Nat) (e : List (BitVec W)) (dist : List (BitVec (log2 W))) : List (BitVec W) :=
  runSeq firstNnsSeqStep (0, BitVec.allOnes _) (e.zip dist)

/-- first_nns_seq_td.v:1-117. -/
def firstNnsSeqTd (W : Nat) (i : List (BitVec (2 * W) × BitVec (2 * W))) : List (BitVec (2 * W)) :=
  runSeq firstNnsSeqStep (0, BitVec.allOnes (W + 1 + 1)) (i.map fun p => (p.2, taxicabDist p.1 p.2))

/-! ## The K nearest ones -/

/-- A value with its distance. -/
abbrev Item (D V : Nat) := BitVec D × BitVec V

/-- `local_min_dist[K-j]` and `local_min_val[K-j]` (k_nns_seq.v:71-80, 107-118, 139-150, 176-177). -/
def localMin {D V : Nat} (K : Nat) (reg : Nat → Item D V) (x : Item D V) : Nat → Item D V
  | 0 => x
  | j + 1 =>
    let i := K - 1 - j
    let below := localMin K reg x j
    let gt1 := COMP (reg i).1 below.1
    (MUX (reg i).1 below.1 gt1, MUX (reg i).2 below.2 gt1)

/-- `min_dist[i]` and `min_val[i]` (k_nns_seq.v:82-98, 120-136, 152-170). -/
def minItem {D V : Nat} (K : Nat) (reg : Nat → Item D V) (x : Item D V) (i : Nat) : Item D V :=
  let l := localMin K reg x (K - i)
  if i > 0 then
    let gt2 := COMP (reg (i - 1)).1 l.1
    (MUX l.1 (reg (i - 1)).1 gt2, MUX l.2 (reg (i - 1)).2 gt2)
  else l

/-- k_nns_seq.v:54-203, one cycle. -/
def kNnsStep {D V : Nat} (K : Nat) (reg : Nat → Item D V) (x : Item D V) : (Nat → Item D V) × BitVec (K * V) :=
  (minItem K reg x, ofEntries K V fun i => (minItem K reg x i).2)

/-- k_nns_seq.v:1-206; the inputs are pairs of `g_input` and `e_input`. -/
def kNnsSeq (W K : Nat) (i : List (BitVec W × BitVec W)) : List (BitVec (K * W)) :=
  runSeq (kNnsStep K) (fun _ => (BitVec.allOnes (log2 W), 0)) (i.map fun p => (hammingDist p.1 p.2, p.2))

/-- k_nns_seq_td.v:1-214 and knns_seq_td.v:1-214; here the garbler gives the points that are compared. The result is `min_val_out`, which
is declared as a wire and not as a port; the output `o` itself has no driver (k_nns_seq_td.v:39 assigns `min_val_out = o`). -/
def kNnsSeqTd (W K : Nat) (i : List (BitVec (2 * W) × BitVec (2 * W))) : List (BitVec (K * (2 * W))) :=
  runSeq (kNnsStep K) (fun _ => (BitVec.allOnes (W + 1 + 1), 0)) (i.map fun p =>
    (taxicabDist p.1 p.2, (p.1.extractLsb' W W ++ p.1.extractLsb' 0 W).setWidth (2 * W)))

end TinyGarble.Hdl
