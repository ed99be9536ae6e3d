/-!
# The C programs for the ARM core

Models the functions `gc_main` of a23/bubble-sort, merge-sort, sum, compare, temp, hamming, matrix-mul, mul,
dijkstra, and what they call. `int` and `unsigned int` are 32-bit words (`arm-linux-gnueabi`), in memory
least significant byte first. A result `none` means undefined behaviour (access outside of an array, signed
overflow, use of an uninitialised variable) or non-termination. The sizes `G_SIZE`, `E_SIZE`, `O_SIZE` that the
programs fix by `#define` are the lengths of the lists, so that the theorems hold for every size; `o0` is the
memory of the output array before.
-/

namespace TinyGarble.A23

/-- An `int` or `unsigned int`. -/
abbrev Word := BitVec 32

/-- `a[i] = v`; `none` outside of the array. -/
def store {α : Type} (l : List α) (i : Nat) (v : α) : Option (List α) :=
  if i < l.length then some (l.set i v) else none

/-- `for (i = 0; i < n; i++)`. -/
def loop {σ : Type} (body : Nat → σ → Option σ) : Nat → σ → Option σ
  | 0, s => some s
  | n + 1, s => do
    let s ← loop body n s
    body n s

/-- Addition of two `int`: overflow is undefined. -/
def addS (x y : Word) : Option Word := if x.saddOverflow y then none else some (x + y)

/-- Multiplication of two `int`: overflow is undefined. -/
def mulS (x y : Word) : Option Word := if x.smulOverflow y then none else some (x * y)

/-- `o[i] = g[i] ^ e[i]` (bubble-sort.c:21-23, merge-sort.c:31-33; dijkstra.c:81-85 with the two-dimensional
array row by row). -/
def xorShares (g e : List Word) (n : Nat) (o : List Word) : Option (List Word) :=
  loop (fun i o => do
    let x ← g[i]?
    let y ← e[i]?
    store o i (x ^^^ y)) n o

/-! ## bubble-sort.c -/

/-- Body of the inner loop (bubble-sort.c:8-12). -/
def bubbleStep (i : Nat) (a : List Word) : Option (List Word) := do
  let x ← a[i]?
  let y ← a[i + 1]?
  if y.slt x then do
    let a ← store a i y
    store a (i + 1) x
  else some a

/-- `bubble_sort` (bubble-sort.c:5-15). -/
def bubbleSort (n : Nat) (a : List Word) : Option (List Word) :=
  loop (fun j a => loop bubbleStep (n - j - 1) a) (n - 1) a

/-- `gc_main` (bubble-sort.c:17-26), `G_SIZE = n`. -/
def bubbleMain (n : Nat) (g e o0 : List Word) : Option (List Word) := do
  let o ← xorShares g e n o0
  bubbleSort n o

/-! ## merge-sort.c -/

/-- The array to be sorted and the global variables `b`, `i`, `j`, `m` (merge-sort.c:5-6). The variable `k` is only
used inside of the last loop. -/
structure MState where
  a : List Word
  b : List Word
  i : Nat
  j : Nat
  m : Nat
deriving DecidableEq

/-- `for (i = m + 1; i > l; i--) b[i - 1] = array[i - 1]` (merge-sort.c:12-13), from `i` on. -/
def copyLeft (l : Nat) : Nat → MState → Option MState
  | 0, s => some { s with i := 0 }
  | i + 1, s =>
    if l < i + 1 then do
      let x ← s.a[i]?
      let b ← store s.b i x
      copyLeft l i { s with b := b }
    else some { s with i := i + 1 }

/-- `for (j = m; j < r; j++) b[r + m - j] = array[j + 1]` (merge-sort.c:14-15): `n = r - m` iterations. -/
def copyRight (r : Nat) (n : Nat) (s : MState) : Option MState := do
  let s' ← loop (fun t s => do
    let x ← s.a[s.m + t + 1]?
    let b ← store s.b (r - t) x
    some { s with b := b }) n s
  some { s' with j := s.m + n }

/-- Iteration `k` of the last loop (merge-sort.c:17-21). (After the last iteration `j` may be -1 in C, here 0; it is not
used then.) -/
def mergeStep (k : Nat) (s : MState) : Option MState := do
  let x ← s.b[s.i]?
  let y ← s.b[s.j]?
  if x.slt y then do
    let a ← store s.a k x
    some { s with a := a, i := s.i + 1 }
  else do
    let a ← store s.a k y
    some { s with a := a, j := s.j - 1 }

/-- `mergesort` (merge-sort.c:7-24). All variables are global: the recursive calls change `m`. -/
def mergesort (l r : Nat) (s : MState) : Option MState :=
  if l < r then do
    let s := { s with m := (r + l) / 2 }
    let s ← mergesort l s.m s
    let s ← mergesort (s.m + 1) r s
    let s ← copyLeft l (s.m + 1) s
    let s ← copyRight r (r - s.m) s
    loop (fun t => mergeStep (l + t)) (r + 1 - l) s
  else some s
partial_fixpoint

/-- `gc_main` (merge-sort.c:26-36), `G_SIZE = n`. The global variables are zero at the start. -/
def mergeMain (n : Nat) (g e o0 : List Word) : Option (List Word) := do
  let o ← xorShares g e n o0
  let s ← mergesort 0 (n - 1) ⟨o, List.replicate n 0, 0, 0, 0⟩
  some s.a

/-! ## sum.c, compare.c, temp.c -/

/-- The flag C after `cmp d, #1` (sum.c:15, 24; compare.c:16): no borrow in `d - 1`. -/
def cmp1 (d : Word) : Bool := decide (1 ≤ d.toNat)

/-- `adcs c, a, b` with the flag C = `f` (sum.c:16, compare.c:17): the sum and the new flag. `adc` (sum.c:25) gives the same
sum. -/
def adcs (a b : Word) (f : Bool) : Word × Bool :=
  (a + b + (if f then 1 else 0), decide (2 ^ 32 ≤ a.toNat + b.toNat + f.toNat))

/-- `mov dd, #0; movhs dd, #1` (sum.c:17-18, compare.c:18-19): `hs` is the condition that C is set. -/
def movhs (f : Bool) : Word := if f then 1 else 0

/-- `sum_array` for the ARM core (sum.c:11-29). -/
def sumArm (n : Nat) (g e o : List Word) : Option (List Word) := do
  let (o, carry) ← loop (fun i (s : List Word × Word) => do
    let a ← g[i]?
    let b ← e[i]?
    let (c, f) := adcs a b (cmp1 s.2)
    let o ← store s.1 i c
    some (o, movhs f)) (n - 1) (o, 0)
  let a ← g[n - 1]?
  let b ← e[n - 1]?
  store o (n - 1) (adcs a b (cmp1 carry)).1

/-- `(((uint)x)&1<<31)>>31` (sum.c:35-37). The `1<<31` of two `int` is taken as the word with bit 31 set (undefined in C99,
defined since C++14; the branch is compiled as C++). -/
def topBit (x : Word) : Word := (x &&& (1#32 <<< 31)) >>> 31

/-- `sum_array` elsewhere (sum.c:31-40). `g[i] + e[i]` is an addition of two `int`, the addition of `carry` is unsigned. -/
def sumPortable (n : Nat) (g e o : List Word) : Option (List Word) := do
  let (o, _) ← loop (fun i (s : List Word × Word) => do
    let x ← g[i]?
    let y ← e[i]?
    let z ← addS x y
    let o ← store s.1 i (z + s.2)
    let om := topBit (z + s.2)
    let carry := ((topBit x ^^^ om) ||| (topBit y ^^^ om)) ^^^ om
    some (o, carry)) n (o, 0)
  some o

/-- `compare_array` for the ARM core (compare.c:10-24). -/
def compareArm (n : Nat) (g e : List Word) : Option Word := do
  let carry ← loop (fun i (carry : Word) => do
    let a ← g[i]?
    let b ← e[i]?
    let nei := ~~~ b
    let (_, f) := adcs a nei (cmp1 carry)
    some (movhs f)) n 1
  some (if carry = 0 then 1 else 0)

/-- `compare_array` elsewhere (compare.c:26-32). -/
def comparePortable (n : Nat) (g e : List Word) : Option Word :=
  loop (fun i (greater : Word) => do
    let x ← g[i]?
    let y ← e[i]?
    some (if x = y then greater else if x.slt y then 1 else 0)) n 0

/-- `gc_main` (compare.c:35-40) with one of the two functions. -/
def compareMain (compare : Nat → List Word → List Word → Option Word) (n : Nat) (g e o0 : List Word) : Option (List Word) := do
  let c ← compare n g e
  store o0 0 c

/-- `hasCarry` (temp.c:9-11). -/
def hasCarry (a b s : Word) : Word :=
  (((a >>> 31) ^^^ (s >>> 31)) &&& ((b >>> 31) ^^^ (s >>> 31))) ^^^ (a >>> 31) ^^^ (b >>> 31) ^^^ (s >>> 31)

/-- `gc_main` (temp.c:14-24). All additions are unsigned. -/
def tempMain (n : Nat) (g e o0 : List Word) : Option (List Word) := do
  let (o, _) ← loop (fun i (s : List Word × Word) => do
    let x ← g[i]?
    let y ← e[i]?
    let o ← store s.1 i (x + y + s.2)
    some (o, hasCarry x y (x + y + s.2))) n (o0, 0)
  some o

/-! ## hamming.c -/

/-- `while (a >>= 1) ++l` (hamming.c:10-12). -/
def log2Loop (a l : Nat) : Nat := if a / 2 = 0 then l else log2Loop (a / 2) (l + 1)

/-- `((const uint8_t*) a)[i]` (hamming.c:23-24). -/
def byteAt (a : List Word) (i : Nat) : Option (BitVec 8) := do
  let x ← a[i / 4]?
  some ((x >>> (8 * (i % 4))).setWidth 8)

/-- `gc_main` (hamming.c:18-40), `G_SIZE = n`. `dist` is a global array, zero at the start. The operations on `uint8_t` are on
promoted `int`s, without overflow. -/
def hammingMain (n : Nat) (g e o0 : List Word) : Option (List Word) := do
  let dist ← loop (fun i dist => loop (fun j dist => do
      let x ← byteAt g i
      let y ← byteAt e i
      store dist (i * 8 + j) (((x ^^^ y) &&& (1#8 <<< j)) >>> j)) 8 dist) (n * 4) (List.replicate (8 * n * 4) (0 : BitVec 8))
  let l := log2Loop (8 * n * 4) 0
  let dist ← loop (fun t dist => loop (fun i dist => do
      let x ← dist[2 * i]?
      let y ← dist[2 * i + 1]?
      store dist i (x + y)) (2 ^ (l - 1 - t)) dist) l dist
  let d ← dist[0]?
  store o0 0 (d.setWidth 32)

/-! ## matrix-mul.c, mul.c -/

/-- `gc_main` (matrix-mul.c:11-24), `N = n`. -/
def matrixMain (n : Nat) (g e o0 : List Word) : Option (List Word) :=
  loop (fun i o => loop (fun j o => do
    let temp ← loop (fun k temp => do
      let x ← g[i * n + k]?
      let y ← e[k * n + j]?
      let p ← mulS x y
      addS temp p) n 0
    store o (i * n + j) temp) n o) n o0

/-- `gc_main` (mul.c:5-10). -/
def mulMain (g e o0 : List Word) : Option (List Word) := do
  let x ← g[0]?
  let y ← e[0]?
  let p ← mulS x y
  store o0 0 p

/-! ## dijkstra.c -/

/-- `INT_MAX` (dijkstra.c:6). -/
def INT_MAX : Word := 32767

/-- `minDistance` (dijkstra.c:12-29), `V = n`. Returning the uninitialised `min_index` is undefined. -/
def minDistance (n : Nat) (dist sptSet : List Word) : Option Nat := do
  let (_, idx) ← loop (fun v (s : Word × Option Nat) => do
    let d ← dist[v]?
    let p ← sptSet[v]?
    if p = 0 ∧ d.sle s.1 then some (d, some v) else some s) n (INT_MAX, none)
  idx

/-- Body of the inner loop (dijkstra.c:56-72). -/
def relax (n : Nat) (graph : List Word) (sptSet : List Word) (u v : Nat) (dist : List Word) : Option (List Word) := do
  let du ← dist[u]?
  let w ← graph[u * n + v]?
  let s ← addS du w
  let dv ← dist[v]?
  let p ← sptSet[v]?
  if s.slt dv ∧ p = 0 ∧ w ≠ 0 ∧ du ≠ INT_MAX then store dist v s else some dist

/-- `dijkstra` (dijkstra.c:33-74). The array `graph` is stored row by row; `sptSet` is overwritten before it is read. -/
def dijkstra (n : Nat) (graph : List Word) (src : Nat) (dist : List Word) : Option (List Word) := do
  let (dist, sptSet) ← loop (fun i (s : List Word × List Word) => do
    let d ← store s.1 i INT_MAX
    let p ← store s.2 i 0
    some (d, p)) n (dist, List.replicate n 0)
  let dist ← store dist src 0
  let (dist, _) ← loop (fun _ (s : List Word × List Word) => do
    let u ← minDistance n s.1 s.2
    let sptSet ← store s.2 u 1
    let dist ← loop (fun v dist => relax n graph sptSet u v dist) n s.1
    some (dist, sptSet)) (n - 1) (dist, sptSet)
  some dist

/-- `gc_main` (dijkstra.c:76-88), `V = n`. -/
def dijkstraMain (n : Nat) (g e o0 : List Word) : Option (List Word) := do
  let graph ← xorShares g e (n * n) (List.replicate (n * n) 0)
  dijkstra n graph 0 o0

end TinyGarble.A23
