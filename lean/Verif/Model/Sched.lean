/-!
# Ordering tasks by level

Models `QuickSort`, `TopSort` (scd/scheduling.cpp:26-85). Arrays are lists; a result `none` means an access
outside of an array (undefined behaviour) or non-termination. `int64_t` values are unbounded integers; the sums of
positions stay below twice the array length.
-/

namespace TinyGarble

/-- `a[i]`; `none` outside of the array. -/
def getI {α : Type} (l : List α) (i : Int) : Option α := if 0 ≤ i then l[i.toNat]? else none

/-- `a[i] = v`; `none` outside of the array. -/
def setI {α : Type} (l : List α) (i : Int) (v : α) : Option (List α) :=
  if 0 ≤ i ∧ i.toNat < l.length then some (l.set i.toNat v) else none

/-- `while (arr[i] > pivot) i++` (scheduling.cpp:33-34). -/
def scanUp (arr : List Int) (pivot i : Int) : Option Int := do
  let x ← getI arr i
  if pivot < x then scanUp arr pivot (i + 1) else some i
partial_fixpoint

/-- `while (arr[j] < pivot) j--` (scheduling.cpp:35-36). -/
def scanDown (arr : List Int) (pivot j : Int) : Option Int := do
  let x ← getI arr j
  if x < pivot then scanDown arr pivot (j - 1) else some j
partial_fixpoint

/-- Exchange of two elements (scheduling.cpp:38-40, 42-44). -/
def swapI (l : List Int) (i j : Int) : Option (List Int) := do
  let tmp ← getI l i
  let y ← getI l j
  let l ← setI l i y
  setI l j tmp

/-- The variables `arr`, `index`, `i`, `j`. -/
structure Partition where
  arr : List Int
  index : List Int
  i : Int
  j : Int

/-- The partition loop (scheduling.cpp:32-49). -/
def partitionLoop (pivot : Int) (s : Partition) : Option Partition :=
  if s.i ≤ s.j then do
    let i ← scanUp s.arr pivot s.i
    let j ← scanDown s.arr pivot s.j
    if i ≤ j then do
      let arr ← swapI s.arr i j
      let index ← swapI s.index i j
      partitionLoop pivot ⟨arr, index, i + 1, j - 1⟩
    else partitionLoop pivot ⟨s.arr, s.index, i, j⟩
  else some s
partial_fixpoint

/-- `QuickSort` (scheduling.cpp:26-57): `arr` and `index` afterwards. -/
def quickSort (arr index : List Int) (left right : Int) : Option (List Int × List Int) := do
  let pivot ← getI arr ((left + right).tdiv 2)
  let p ← partitionLoop pivot ⟨arr, index, left, right⟩
  let r ← (if left < p.j then quickSort p.arr p.index left p.j else some (p.arr, p.index) : Option (List Int × List Int))
  if p.i < right then quickSort r.1 r.2 p.i right else some r
partial_fixpoint

/-- `ReadGate` (scd/v_2_scd.h:65-70). -/
structure ReadGate where
  input0 : Int
  input1 : Int
  output : Int
  type : Int
deriving DecidableEq, Repr

/-- Body of the inner loop of `TopSort` (scheduling.cpp:71-76): a later gate with its level. -/
def maxStep (out max : Int) (p : ReadGate × Int) : Int :=
  let max := if p.1.input0 = out then (if max < p.2 then p.2 else max) else max
  if p.1.input1 = out then (if max < p.2 then p.2 else max) else max

/-- `max` of `TopSort` for one task (scheduling.cpp:69-77). -/
def maxLevel (out : Int) (later : List (ReadGate × Int)) : Int := later.foldl (maxStep out) 0

/-- `sl` of `TopSort` (scheduling.cpp:67-79), computed from the last task to the first. -/
def levels : List ReadGate → List Int
  | [] => []
  | g :: later => (1 + maxLevel g.output (later.zip (levels later))) :: levels later

/-- `TopSort` (scheduling.cpp:59-85): `index` afterwards. -/
def topSort (G : List ReadGate) : Option (List Int) := do
  let r ← quickSort (levels G) ((List.range G.length).map fun i : Nat => (i : Int)) 0 ((G.length : Int) - 1)
  return r.2

end TinyGarble
