import Verif.Proof.Compile

/-! # The numbers of the named wires -/

namespace TinyGarble.Proof
open TinyGarble.Spec TinyGarble.Props

theorem printNat_inj {i j : Nat} (h : printNat i = printNat j) : i = j := by
  rw [← decValue_printNat i, ← decValue_printNat j, h]

theorem takeWhile_port (p : Name) (hp : '[' ∉ p) (l : List Char) : (p ++ '[' :: l).takeWhile (fun ch => decide (ch ≠ '[')) = p := by
  induction p with
  | nil => simp
  | cons a p ih =>
    have h1 : a ≠ '[' := fun e => hp (by simp [e])
    have h2 : '[' ∉ p := fun e => hp (by simp [e])
    rw [List.cons_append, List.takeWhile_cons, if_pos (by simpa using h1), ih h2]

theorem indexName_inj {p q : Name} (hp : '[' ∉ p) (hq : '[' ∉ q) {i j : Nat} (h : indexName p i = indexName q j) :
    p = q ∧ i = j := by
  unfold indexName at h
  have e : p = q := by
    rw [← takeWhile_port p hp (printNat i ++ [']']), h, takeWhile_port q hq]
  subst e
  refine ⟨rfl, printNat_inj ?_⟩
  have := List.append_cancel_left h
  simpa using this

/-- The six ports. -/
def portName : Fin 6 → Name
  | 0 => pInitName | 1 => gInitName | 2 => eInitName | 3 => pInputName | 4 => gInputName | 5 => eInputName

def portSize (s : CircuitStr) : Fin 6 → Nat
  | 0 => s.pInit | 1 => s.gInit | 2 => s.eInit | 3 => s.pInput | 4 => s.gInput | 5 => s.eInput

def portBase (s : CircuitStr) : Fin 6 → Nat
  | 0 => 0 | 1 => s.pInit | 2 => s.pInit + s.gInit | 3 => inBase s | 4 => inBase s + s.pInput
  | 5 => inBase s + s.pInput + s.gInput

theorem portName_clean : ∀ q, '[' ∉ portName q := by decide
theorem portName_inj : ∀ q r, portName q = portName r → q = r := by decide

theorem driver_port (s : CircuitStr) (q : Fin 6) {k : Nat} (h : k < portSize s q) :
    driver s (portBase s q + k) = indexName (portName q) k := by
  match q with
  | 0 => rw [show portBase s 0 = 0 from rfl, Nat.zero_add]; exact driver_pInit s h
  | 1 => exact driver_gInit s h
  | 2 => exact driver_eInit s h
  | 3 => exact driver_pInput s h
  | 4 => exact driver_gInput s h
  | 5 => exact driver_eInput s h

theorem port_of_lt (s : CircuitStr) {i : Nat} (h : i < cellBase s) : ∃ q, ∃ k < portSize s q, i = portBase s q + k := by
  unfold cellBase inBase at h
  by_cases h1 : i < s.pInit
  · exact ⟨0, i, h1, by simp [portBase]⟩
  by_cases h2 : i < s.pInit + s.gInit
  · exact ⟨1, i - s.pInit, by simp only [portSize]; omega, by simp only [portBase]; omega⟩
  by_cases h3 : i < s.pInit + s.gInit + s.eInit
  · exact ⟨2, i - (s.pInit + s.gInit), by simp only [portSize]; omega, by simp only [portBase]; omega⟩
  by_cases h4 : i < inBase s + s.pInput
  · exact ⟨3, i - inBase s, by simp only [portSize]; unfold inBase at *; omega, by simp only [portBase]; unfold inBase at *; omega⟩
  by_cases h5 : i < inBase s + s.pInput + s.gInput
  · exact ⟨4, i - (inBase s + s.pInput), by simp only [portSize]; omega, by simp only [portBase]; unfold inBase at *; omega⟩
  · exact ⟨5, i - (inBase s + s.pInput + s.gInput), by simp only [portSize]; unfold inBase at *; omega,
      by simp only [portBase]; unfold inBase at *; omega⟩

theorem port_lt (s : CircuitStr) (q : Fin 6) {k : Nat} (h : k < portSize s q) : portBase s q + k < cellBase s := by
  unfold cellBase inBase
  match q with
  | 0 | 1 | 2 | 3 | 4 | 5 => simp only [portSize] at h; simp only [portBase, inBase]; omega

theorem portBit_iff (s : CircuitStr) (n : Name) : InitBit s n ∨ InputBit s n ↔ ∃ i < cellBase s, n = driver s i := by
  constructor
  · have key : ∀ q : Fin 6, (∃ k < portSize s q, n = indexName (portName q) k) → ∃ i < cellBase s, n = driver s i := by
      rintro q ⟨k, hk, rfl⟩
      exact ⟨_, port_lt s q hk, (driver_port s q hk).symm⟩
    rintro ((h | h | h) | (h | h | h))
    · exact key 0 h
    · exact key 1 h
    · exact key 2 h
    · exact key 3 h
    · exact key 4 h
    · exact key 5 h
  · rintro ⟨i, hi, rfl⟩
    by_cases h : i < inBase s
    · exact Or.inl (initBit_driver h)
    · obtain ⟨q, k, hk, rfl⟩ := port_of_lt s hi
      right
      rw [driver_port s q hk]
      match q, hk, h with
      | 3, hk, _ => exact Or.inl ⟨k, hk, rfl⟩
      | 4, hk, _ => exact Or.inr (Or.inl ⟨k, hk, rfl⟩)
      | 5, hk, _ => exact Or.inr (Or.inr ⟨k, hk, rfl⟩)
      | 0, hk, h => exact absurd (show _ < _ from by simp only [portBase, portSize, inBase] at *; omega) h
      | 1, hk, h => exact absurd (show _ < _ from by simp only [portBase, portSize, inBase] at *; omega) h
      | 2, hk, h => exact absurd (show _ < _ from by simp only [portBase, portSize, inBase] at *; omega) h

theorem driver_cell (s : CircuitStr) {k : Nat} (h : k < (s.dffs ++ s.gates).length) :
    driver s (cellBase s + k) = ((s.dffs ++ s.gates)[k]).output := by
  by_cases hk : k < s.dffs.length
  · rw [driver_dff s hk, List.getElem_append_left hk]
  · rw [List.length_append] at h
    have := driver_gate s (k := k - s.dffs.length) (by omega)
    rw [show cellBase s + s.dffs.length + (k - s.dffs.length) = cellBase s + k by omega] at this
    rw [this, List.getElem_append_right (by omega)]

theorem cellOutput_driver (s : CircuitStr) {i : Nat} (h : cellBase s ≤ i) (hi : i < drivers s) : CellOutput s (driver s i) := by
  rw [drivers_eq] at hi
  by_cases h4 : i < cellBase s + s.dffs.length
  · refine Or.inl ⟨s.dffs[i - cellBase s]'(by omega), List.getElem_mem _, ?_⟩
    rw [← driver_dff s (by omega)]
    congr 1; omega
  · refine Or.inr ⟨s.gates[i - (cellBase s + s.dffs.length)]'(by omega), List.getElem_mem _, ?_⟩
    rw [← driver_gate s (by omega)]
    congr 1; omega

theorem driver_source (s : CircuitStr) {i : Nat} (hi : i < drivers s) : Source s (driver s i) := by
  by_cases h : i < inBase s
  · exact Or.inr (Or.inl (initBit_driver h))
  · exact Or.inr (Or.inr (source_driver (by omega) hi))

/-- The cells have names of their own. -/
structure OwnNames (s : CircuitStr) : Prop where
  cells : ((s.dffs ++ s.gates).map (·.output)).Nodup
  fresh : ∀ n, CellOutput s n → ¬ ConstName n ∧ ¬ InitBit s n ∧ ¬ InputBit s n

theorem driver_inj {s : CircuitStr} (O : OwnNames s) {i j : Nat} (hi : i < drivers s) (hj : j < drivers s)
    (h : driver s i = driver s j) : i = j := by
  have hcells := O.cells
  have hlen : (s.dffs ++ s.gates).length = s.dffs.length + s.gates.length := by simp
  by_cases h1 : i < cellBase s
  · by_cases h2 : j < cellBase s
    · obtain ⟨q, k, hk, rfl⟩ := port_of_lt s h1
      obtain ⟨r, l, hl, rfl⟩ := port_of_lt s h2
      rw [driver_port s q hk, driver_port s r hl] at h
      obtain ⟨e1, e2⟩ := indexName_inj (portName_clean q) (portName_clean r) h
      rw [portName_inj _ _ e1, e2]
    · have := (O.fresh _ (cellOutput_driver s (by omega) hj)).2
      have h' := (portBit_iff s (driver s j)).2 ⟨i, h1, h.symm⟩
      tauto
  · by_cases h2 : j < cellBase s
    · have := (O.fresh _ (cellOutput_driver s (by omega) hi)).2
      have h' := (portBit_iff s (driver s i)).2 ⟨j, h2, h⟩
      tauto
    · rw [drivers_eq] at hi hj
      have a := driver_cell s (k := i - cellBase s) (by omega)
      have b := driver_cell s (k := j - cellBase s) (by omega)
      rw [show cellBase s + (i - cellBase s) = i by omega] at a
      rw [show cellBase s + (j - cellBase s) = j by omega] at b
      rw [a, b] at h
      have h' := (List.Nodup.getElem_inj_iff hcells (i := i - cellBase s) (j := j - cellBase s)
        (hi := by rw [List.length_map]; omega) (hj := by rw [List.length_map]; omega)).1 (by rw [List.getElem_map, List.getElem_map]; exact h)
      omega

theorem port_not_const (q : Fin 6) (k : Nat) : ¬ ConstName (indexName (portName q) k) := by
  unfold ConstName indexName
  intro h
  match q with
  | 0 | 1 | 2 | 3 | 4 | 5 => simp [portName, pInitName, gInitName, eInitName, pInputName, gInputName, eInputName] at h

theorem driver_not_const {s : CircuitStr} (O : OwnNames s) {i : Nat} (hi : i < drivers s) : ¬ ConstName (driver s i) := by
  by_cases h : i < cellBase s
  · obtain ⟨q, k, hk, rfl⟩ := port_of_lt s h
    rw [driver_port s q hk]
    exact port_not_const q k
  · exact (O.fresh _ (cellOutput_driver s (by omega) hi)).1

/-! ## One source for each net -/

theorem _root_.TinyGarble.Spec.OneDriver.own {s : CircuitStr} (O : OneDriver s) : OwnNames s := ⟨O.cells, O.fresh⟩

theorem const_source {s : CircuitStr} {n : Name} (h : ConstName n) : Source s n := Or.inl h

theorem Entry.unique {s : CircuitStr} (O : OneDriver s) {n : Name} {w u : Int} (h : Entry s n w) (h' : Entry s n u) : w = u := by
  have key : ∀ a b, Source s a → Source s b → SameNet s a n → SameNet s b n → a = b := fun a b ha hb h1 h2 =>
    O.nets a b ha hb (h1.trans _ _ _ (h2.symm _ _))
  have c0 : ConstName ([] : Name) := Or.inl rfl
  have c1 : ConstName zeroName := Or.inr (Or.inl rfl)
  have c2 : ConstName oneName := Or.inr (Or.inr rfl)
  have d01 : ([] : Name) ≠ zeroName := by decide
  have d02 : ([] : Name) ≠ oneName := by decide
  have d12 : zeroName ≠ oneName := by decide
  rcases h with ⟨i, rfl, hi, h⟩ | ⟨rfl, h⟩ | ⟨rfl, h⟩ | ⟨rfl, h⟩ <;>
    rcases h' with ⟨j, rfl, hj, h'⟩ | ⟨rfl, h'⟩ | ⟨rfl, h'⟩ | ⟨rfl, h'⟩
  · rw [driver_inj O.own hi hj (key _ _ (driver_source s hi) (driver_source s hj) h h')]
  · exact absurd (key _ _ (driver_source s hi) (const_source c0) h h' ▸ c0) (driver_not_const O.own hi)
  · exact absurd (key _ _ (driver_source s hi) (const_source c1) h h' ▸ c1) (driver_not_const O.own hi)
  · exact absurd (key _ _ (driver_source s hi) (const_source c2) h h' ▸ c2) (driver_not_const O.own hi)
  · exact absurd (key _ _ (driver_source s hj) (const_source c0) h' h ▸ c0) (driver_not_const O.own hj)
  · rfl
  · exact absurd (key _ _ (const_source c0) (const_source c1) h h') d01
  · exact absurd (key _ _ (const_source c0) (const_source c2) h h') d02
  · exact absurd (key _ _ (driver_source s hj) (const_source c1) h' h ▸ c1) (driver_not_const O.own hj)
  · exact absurd (key _ _ (const_source c0) (const_source c1) h' h) d01
  · rfl
  · exact absurd (key _ _ (const_source c1) (const_source c2) h h') d12
  · exact absurd (key _ _ (driver_source s hj) (const_source c2) h' h ▸ c2) (driver_not_const O.own hj)
  · exact absurd (key _ _ (const_source c0) (const_source c2) h' h) d02
  · exact absurd (key _ _ (const_source c1) (const_source c2) h' h) d12
  · rfl

theorem Entry.driver {s : CircuitStr} {i : Nat} (hi : i < drivers s) : Entry s (driver s i) i :=
  Or.inl ⟨i, rfl, hi, Relation.EqvGen.refl _⟩

end TinyGarble.Proof
