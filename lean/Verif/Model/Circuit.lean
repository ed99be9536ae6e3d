import Verif.Model.Gate

/-!
# Circuits

Models `GarbledCircuit` (garbled_circuit_util.h:88-210), `NumOfNonXor`, `FillFanout`,
`ReduceFanout` (garbled_circuit_util.cpp:45-55, 451-518).

A C array together with its size is modelled as a function `Nat → α` and a size; the loops of the
code never go beyond the size, the values beyond it are irrelevant.
-/

namespace TinyGarble

/-- `for (i = 0; i < n; i++) s = f(i, s)`. -/
def forLoop {σ : Type} (f : Nat → σ → σ) : Nat → σ → σ
  | 0, s => s
  | n + 1, s => f n (forLoop f n s)

/-- Array assignment `a[i] = v`. -/
def upd {α : Type} (a : Nat → α) (i : Nat) (v : α) : Nat → α := fun j => if j = i then v else a j

/-- A loop `for (i = 0; i < n; i++) a[lo + i] = v(i)` whose right-hand sides do not read `a`. -/
def setRange {α : Type} (a : Nat → α) (lo n : Nat) (v : Nat → α) : Nat → α :=
  fun w => if lo ≤ w ∧ w < lo + n then v (w - lo) else a w

/-- `GarbledGate` (garbled_circuit_util.h:74-80). The field `output` is not stored: `ReadSCD`
(scd/scd.cpp:89-92) always sets it to `get_gate_lo_index() + i` for gate `i`. The field `fanout` is
kept separately (`fillFanout`). -/
structure Gate where
  input0 : Int
  input1 : Int
  type : Int
deriving DecidableEq, Repr

/-- `GarbledCircuit` (garbled_circuit_util.h:88-105). -/
structure Circuit where
  pInit : Nat
  gInit : Nat
  eInit : Nat
  pInput : Nat
  gInput : Nat
  eInput : Nat
  dffSize : Nat
  outputSize : Nat
  terminateId : Nat
  gateSize : Nat
  gate : Nat → Gate
  outputs : Nat → Int
  D : Nat → Int
  I : Nat → Int

namespace Circuit
variable (c : Circuit)

/-- `get_init_size` (garbled_circuit_util.h:107-109). -/
def initSize : Nat := c.pInit + c.gInit + c.eInit
/-- `get_input_size` (garbled_circuit_util.h:110-112). -/
def inputSize : Nat := c.pInput + c.gInput + c.eInput
/-- `get_wire_size` (garbled_circuit_util.h:113-115). -/
def wireSize : Nat := c.initSize + c.inputSize + c.dffSize + c.gateSize
/-- `get_secret_init_size` (garbled_circuit_util.h:117-119). -/
def secretInitSize : Nat := c.gInit + c.eInit
/-- `get_secret_input_size` (garbled_circuit_util.h:120-122). -/
def secretInputSize : Nat := c.gInput + c.eInput
/-- `get_p_init_hi_index` (garbled_circuit_util.h:142-144); `get_p_init_lo_index` is 0. -/
def pInitHi : Nat := c.pInit
/-- `get_g_init_hi_index` (garbled_circuit_util.h:149-151). -/
def gInitHi : Nat := c.pInitHi + c.gInit
/-- `get_e_init_hi_index` = `get_init_hi_index` = `get_p_input_lo_index`
(garbled_circuit_util.h:156-170). -/
def pInputLo : Nat := c.gInitHi + c.eInit
/-- `get_p_input_hi_index` = `get_g_input_lo_index` (garbled_circuit_util.h:171-177). -/
def gInputLo : Nat := c.pInputLo + c.pInput
/-- `get_g_input_hi_index` = `get_e_input_lo_index` (garbled_circuit_util.h:178-184). -/
def eInputLo : Nat := c.gInputLo + c.gInput
/-- `get_e_input_hi_index` = `get_dff_lo_index` (garbled_circuit_util.h:185-195). -/
def dffLo : Nat := c.eInputLo + c.eInput
/-- `get_dff_hi_index` = `get_gate_lo_index` (garbled_circuit_util.h:196-202). -/
def gateLo : Nat := c.dffLo + c.dffSize

end Circuit

/-- The index tests repeated in all evaluation loops (e.g. garbled_circuit_low_mem.cpp:436-460,
scd_evaluator.cpp:159-182): the two constants, a wire in range, or an invalid index. -/
def fetch {α : Type} (n : Nat) (zero one bad : α) (arr : Nat → α) (idx : Int) : α :=
  if idx = CONST_ZERO then zero
  else if idx = CONST_ONE then one
  else if 0 ≤ idx ∧ idx < (n : Int) then arr idx.toNat
  else bad

/-- `NumOfNonXor` (garbled_circuit_util.cpp:45-55). -/
def numOfNonXor (c : Circuit) : Nat :=
  forLoop (fun i n =>
    if (c.gate i).type ≠ XORGATE ∧ (c.gate i).type ≠ XNORGATE ∧ (c.gate i).type ≠ NOTGATE
    then n + 1 else n) c.gateSize 0

/-- `garbledGates[w - gate_bias].fanout++` guarded by `w >= gate_bias`
(garbled_circuit_util.cpp:462-469, 472-476, 479-485, 488-493). -/
def incIfGate (c : Circuit) (w : Int) (f : Nat → Nat) : Nat → Nat :=
  if (c.gateLo : Int) ≤ w then upd f (w - c.gateLo).toNat (f (w - c.gateLo).toNat + 1) else f

/-- Body of the first loop of `FillFanout` (garbled_circuit_util.cpp:454-470). The flag records that
no `CHECK_EXPR` has failed so far; after a failure the function has returned and the counts stay. -/
def fillFanoutGate (c : Circuit) (gid : Nat) (s : (Nat → Nat) × Bool) : (Nat → Nat) × Bool :=
  if s.2 = false then s
  else
    let f := upd s.1 gid 0
    let g := c.gate gid
    if (c.gateLo : Int) ≤ g.input0 ∧ ¬ (g.input0 - c.gateLo < (gid : Int)) then (f, false)
    else
      let f := incIfGate c g.input0 f
      if (c.gateLo : Int) ≤ g.input1 ∧ ¬ (g.input1 - c.gateLo < (gid : Int)) then (f, false)
      else (incIfGate c g.input1 f, true)

/-- `FillFanout` (garbled_circuit_util.cpp:451-502): the counts left in the gates and whether the
result is SUCCESS. `f0` is the uninitialised `fanout` memory. An index at or beyond `wire_size` in
`D` or `outputs` writes outside of the gate array in the code; here it writes to an entry that is
never used, and the circuits considered in the theorems do not have such indices. -/
def fillFanout (c : Circuit) (f0 : Nat → Nat) : (Nat → Nat) × Bool :=
  let s := forLoop (fillFanoutGate c) c.gateSize (f0, true)
  if s.2 = false then s
  else
    let f := forLoop (fun i f => incIfGate c (c.D i) f) c.dffSize s.1
    let f := forLoop (fun i f => incIfGate c (c.outputs i) f) c.outputSize f
    let f := if 0 < c.terminateId then incIfGate c c.terminateId f else f
    (f, (List.range c.gateSize).all (fun i => decide (0 < f i)))

/-- Sum of all use counts; measure for the recursion of `ReduceFanout`. -/
def totalFan (n : Nat) (f : Nat → Nat) : Nat := forLoop (fun i s => s + f i) n 0

theorem totalFan_upd_ge {n i : Nat} (h : n ≤ i) (f : Nat → Nat) (v : Nat) :
    totalFan n (upd f i v) = totalFan n f := by
  unfold totalFan
  induction n with
  | zero => rfl
  | succ n ih =>
    simp only [forLoop]
    rw [ih (by omega)]
    simp [upd, show n ≠ i by omega]

theorem totalFan_upd {n i : Nat} (h : i < n) (f : Nat → Nat) (v : Nat) :
    totalFan n (upd f i v) + f i = totalFan n f + v := by
  induction n with
  | zero => omega
  | succ n ih =>
    show (totalFan n (upd f i v) + upd f i v n) + f i = totalFan n f + f n + v
    by_cases hi : i = n
    · subst hi
      rw [totalFan_upd_ge (Nat.le_refl _)]
      simp [upd]; omega
    · have := ih (by omega)
      simp only [upd, if_neg (show n ≠ i by omega)]
      omega

/-- `ReduceFanout` (garbled_circuit_util.cpp:504-518). The result carries the fact that the sum of
counts does not grow, which is needed for termination of the nested recursion; it terminates for
every circuit, cyclic ones included. -/
def reduceFanoutAux (c : Circuit) (f : Nat → Nat) (wid : Int) :
    { f' : Nat → Nat // totalFan c.gateSize f' ≤ totalFan c.gateSize f } :=
  if h : 0 ≤ wid - (c.gateLo : Int) ∧ wid - (c.gateLo : Int) < (c.gateSize : Int)
      ∧ 0 < f (wid - (c.gateLo : Int)).toNat then
    let gid := (wid - (c.gateLo : Int)).toNat
    let f1 := upd f gid (f gid - 1)
    have h1 : totalFan c.gateSize f1 < totalFan c.gateSize f := by
      have := totalFan_upd (n := c.gateSize) (i := gid) (by omega) f (f gid - 1)
      have : 0 < f gid := h.2.2
      show totalFan c.gateSize (upd f gid (f gid - 1)) < _
      omega
    if f1 gid = 0 then
      let r1 := reduceFanoutAux c f1 (c.gate gid).input0
      let r2 := reduceFanoutAux c r1.1 (c.gate gid).input1
      ⟨r2.1, Nat.le_trans r2.2 (Nat.le_trans r1.2 (Nat.le_of_lt h1))⟩
    else ⟨f1, Nat.le_of_lt h1⟩
  else ⟨f, Nat.le_refl _⟩
termination_by totalFan c.gateSize f
decreasing_by
  · exact h1
  · exact Nat.lt_of_le_of_lt r1.2 h1

/-- `ReduceFanout` (garbled_circuit_util.cpp:504-518): the new counts. -/
def reduceFanout (c : Circuit) (f : Nat → Nat) (wid : Int) : Nat → Nat := (reduceFanoutAux c f wid).1

end TinyGarble
