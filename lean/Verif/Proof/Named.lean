import Verif.Spec.Named
import Verif.Proof.Scd

/-! # The table of wire numbers -/

namespace TinyGarble.Proof
open TinyGarble.Spec

/-- The name denotes wire `i`: it is the wire's driver, or the short name of a port of one bit. -/
def Denotes (s : CircuitStr) (i : Nat) (n : Name) : Prop :=
  n = driver s i ∨ ∃ p ∈ ports s, p.2 = 1 ∧ n = p.1 ∧ driver s i = indexName p.1 0

theorem Denotes.sameNet {s : CircuitStr} {i : Nat} {n : Name} (h : Denotes s i n) : SameNet s (driver s i) n := by
  rcases h with rfl | ⟨p, hp, h1, rfl, h2⟩
  · exact Relation.EqvGen.refl _
  · rw [h2]
    exact Relation.EqvGen.symm _ _ (Relation.EqvGen.rel _ _ (Or.inr ⟨p, hp, h1, rfl, rfl⟩))

/-- `k` wires are numbered. -/
structure Numbered (s : CircuitStr) (n : Numbering) (k : Nat) : Prop where
  next : n.next = k
  sound : ∀ name w, n.table name = some w → ∃ i : Nat, w = i ∧ i < k ∧ Denotes s i name
  known : ∀ i < k, (n.table (driver s i)).isSome

theorem insert_isSome (t : WireTable) (a b : Name) (w : Int) (h : (t a).isSome ∨ a = b) : ((t.insert b w) a).isSome := by
  unfold WireTable.insert
  split
  · rename_i e
    subst e
    split <;> rfl
  · rcases h with h | h
    · exact h
    · contradiction

theorem insert_some {t : WireTable} {a b : Name} {w u : Int} (h : (t.insert b w) a = some u) :
    t a = some u ∨ (t a = none ∧ a = b ∧ u = w) := by
  unfold WireTable.insert at h
  split at h
  · rename_i e
    subst e
    split at h
    · rename_i u' e'
      left
      rw [e']
      simpa using h
    · rename_i e'
      right
      exact ⟨e', rfl, by simpa using h.symm⟩
  · exact Or.inl h

theorem Numbered.insert {s : CircuitStr} {n : Numbering} {k : Nat} (h : Numbered s n k) {i : Nat} (hi : i < k) {name : Name}
    (hd : Denotes s i name) : Numbered s ⟨n.table.insert name i, n.next⟩ k := by
  refine ⟨h.next, fun a u hu => ?_, fun j hj => insert_isSome _ _ _ _ (Or.inl (h.known j hj))⟩
  rcases insert_some hu with hu | ⟨_, rfl, rfl⟩
  · exact h.sound a u hu
  · exact ⟨i, rfl, hi, hd⟩

theorem Numbered.add {s : CircuitStr} {n : Numbering} {k : Nat} (h : Numbered s n k) {name : Name}
    (hd : name = driver s k) : Numbered s (n.add name) (k + 1) := by
  unfold Numbering.add
  refine ⟨by rw [h.next], fun a u hu => ?_, fun j hj => ?_⟩
  · rcases insert_some hu with hu | ⟨_, rfl, rfl⟩
    · obtain ⟨i, e, hi, hd⟩ := h.sound a u hu
      exact ⟨i, e, by omega, hd⟩
    · exact ⟨k, by rw [h.next], by omega, Or.inl hd⟩
  · refine insert_isSome _ _ _ _ ?_
    by_cases e : j = k
    · right; rw [e, hd]
    · left; exact h.known j (by omega)

theorem Numbered.array {s : CircuitStr} {n : Numbering} {b size : Nat} (h : Numbered s n b) (p : Name)
    (hp : (p, size) ∈ ports s) (hd : ∀ i < size, driver s (b + i) = indexName p i) :
    Numbered s (addWireArray p size n) (b + size) := by
  unfold addWireArray
  split
  · rename_i e
    subst e
    have hd0 := hd 0 (by omega)
    refine ⟨by rw [h.next], fun a u hu => ?_, fun j hj => ?_⟩
    · rcases insert_some hu with hu | ⟨_, rfl, rfl⟩
      · rcases insert_some hu with hu | ⟨_, rfl, rfl⟩
        · obtain ⟨i, e, hi, hd⟩ := h.sound a u hu
          exact ⟨i, e, by omega, hd⟩
        · exact ⟨b, by rw [h.next], by omega, Or.inr ⟨_, hp, rfl, rfl, hd0⟩⟩
      · exact ⟨b, by rw [h.next], by omega, Or.inl hd0.symm⟩
    · refine insert_isSome _ _ _ _ ?_
      by_cases e : j = b
      · right; rw [e]; exact hd0
      · left
        exact insert_isSome _ _ _ _ (Or.inl (h.known j (by omega)))
  · clear * - h hd
    induction size with
    | zero => exact h
    | succ m ih =>
      rw [forLoop]
      exact (ih (fun i hi => hd i (by omega))).add (hd m (by omega)).symm

theorem Numbered.cells {s : CircuitStr} : ∀ (gs : List GateStr) {n : Numbering} {b : Nat}, Numbered s n b →
    (∀ i (hi : i < gs.length), driver s (b + i) = gs[i].output) →
    Numbered s (gs.foldl (fun n g => n.add g.output) n) (b + gs.length)
  | [], _, _, h, _ => h
  | g :: gs, n, b, h, hd => by
    rw [List.foldl_cons, List.length_cons]
    have h1 := h.add (name := g.output) (hd 0 (by simp)).symm
    have := Numbered.cells gs h1 (fun i hi => by
      have := hd (i + 1) (by simp; omega)
      rw [Nat.add_right_comm, Nat.add_assoc] at *
      simpa using this)
    rw [show b + (gs.length + 1) = b + 1 + gs.length by omega]
    exact this

section layout
variable (s : CircuitStr)

theorem driver_pInit {k : Nat} (h : k < s.pInit) : driver s k = indexName pInitName k := by
  unfold driver; rw [if_pos h]

theorem driver_gInit {k : Nat} (h : k < s.gInit) : driver s (s.pInit + k) = indexName gInitName k := by
  unfold driver
  rw [if_neg (by omega), if_pos (by omega)]
  congr 1; omega

theorem driver_eInit {k : Nat} (h : k < s.eInit) : driver s (s.pInit + s.gInit + k) = indexName eInitName k := by
  unfold driver
  rw [if_neg (by omega), if_neg (by omega), if_pos (by omega)]
  congr 1; omega

/-- First input. -/
def inBase : Nat := s.pInit + s.gInit + s.eInit
/-- First flip-flop. -/
def cellBase : Nat := inBase s + s.pInput + s.gInput + s.eInput

theorem driver_pInput {k : Nat} (h : k < s.pInput) : driver s (inBase s + k) = indexName pInputName k := by
  unfold driver inBase
  rw [if_neg (by omega), if_neg (by omega), if_neg (by omega)]
  simp only
  rw [if_pos (by omega)]
  congr 1; omega

theorem driver_gInput {k : Nat} (h : k < s.gInput) : driver s (inBase s + s.pInput + k) = indexName gInputName k := by
  unfold driver inBase
  rw [if_neg (by omega), if_neg (by omega), if_neg (by omega)]
  simp only
  rw [if_neg (by omega), if_pos (by omega)]
  congr 1; omega

theorem driver_eInput {k : Nat} (h : k < s.eInput) :
    driver s (inBase s + s.pInput + s.gInput + k) = indexName eInputName k := by
  unfold driver inBase
  rw [if_neg (by omega), if_neg (by omega), if_neg (by omega)]
  simp only
  rw [if_neg (by omega), if_neg (by omega), if_pos (by omega)]
  congr 1; omega

theorem driver_dff {k : Nat} (h : k < s.dffs.length) : driver s (cellBase s + k) = s.dffs[k].output := by
  unfold driver cellBase inBase
  rw [if_neg (by omega), if_neg (by omega), if_neg (by omega)]
  simp only
  rw [if_neg (by omega), if_neg (by omega), if_neg (by omega)]
  have e : s.pInit + s.gInit + s.eInit + s.pInput + s.gInput + s.eInput + k - (s.pInit + s.gInit + s.eInit)
    - (s.pInput + s.gInput + s.eInput) = k := by omega
  simp only [e]
  rw [dif_pos h]

theorem driver_gate {k : Nat} (h : k < s.gates.length) :
    driver s (cellBase s + s.dffs.length + k) = s.gates[k].output := by
  unfold driver cellBase inBase
  rw [if_neg (by omega), if_neg (by omega), if_neg (by omega)]
  simp only
  rw [if_neg (by omega), if_neg (by omega), if_neg (by omega)]
  have e : s.pInit + s.gInit + s.eInit + s.pInput + s.gInput + s.eInput + s.dffs.length + k - (s.pInit + s.gInit + s.eInit)
    - (s.pInput + s.gInput + s.eInput) = s.dffs.length + k := by omega
  simp only [e]
  rw [dif_neg (by omega), dif_pos (by omega)]
  congr 2; omega

theorem drivers_eq : drivers s = cellBase s + s.dffs.length + s.gates.length := by
  unfold drivers cellBase inBase; omega

/-- The numbering before the constants are entered. -/
def driverTable0 : Numbering :=
  let n : Numbering := ⟨fun _ => none, 0⟩
  let n := addWireArray pInitName s.pInit n
  let n := addWireArray gInitName s.gInit n
  let n := addWireArray eInitName s.eInit n
  let n := addWireArray pInputName s.pInput n
  let n := addWireArray gInputName s.gInput n
  let n := addWireArray eInputName s.eInput n
  let n := s.dffs.foldl (fun n g => n.add g.output) n
  s.gates.foldl (fun n g => n.add g.output) n

theorem driverTable_eq : (driverTable s).table
    = ((((driverTable0 s).table.insert [] (-1)).insert zeroName CONST_ZERO).insert oneName CONST_ONE) := rfl

theorem driverTable0_numbered : Numbered s (driverTable0 s) (drivers s) := by
  have h0 : Numbered s ⟨fun _ => none, 0⟩ 0 := ⟨rfl, fun _ _ h => (by cases h), fun i hi => absurd hi (by omega)⟩
  have h1 := h0.array pInitName (size := s.pInit) (by simp [ports]) (fun i hi => by rw [Nat.zero_add]; exact driver_pInit s hi)
  rw [Nat.zero_add] at h1
  have h2 := h1.array gInitName (size := s.gInit) (by simp [ports]) (fun i hi => driver_gInit s hi)
  have h3 := h2.array eInitName (size := s.eInit) (by simp [ports]) (fun i hi => driver_eInit s hi)
  have h4 := h3.array pInputName (size := s.pInput) (by simp [ports]) (fun i hi => driver_pInput s hi)
  have h5 := h4.array gInputName (size := s.gInput) (by simp [ports]) (fun i hi => driver_gInput s hi)
  have h6 := h5.array eInputName (size := s.eInput) (by simp [ports]) (fun i hi => driver_eInput s hi)
  have h7 := h6.cells s.dffs (fun i hi => driver_dff s hi)
  have h8 := h7.cells s.gates (fun i hi => driver_gate s hi)
  rw [drivers_eq]
  exact h8

end layout

/-- What an entry of the table says. -/
def Entry (s : CircuitStr) (n : Name) (w : Int) : Prop :=
  (∃ i : Nat, w = i ∧ i < drivers s ∧ SameNet s (driver s i) n) ∨ (w = -1 ∧ SameNet s [] n)
  ∨ (w = -2 ∧ SameNet s zeroName n) ∨ (w = -3 ∧ SameNet s oneName n)

theorem Entry.trans {s : CircuitStr} {a b : Name} {w : Int} (h : Entry s a w) (hab : SameNet s a b) : Entry s b w := by
  rcases h with ⟨i, e, hi, h⟩ | ⟨e, h⟩ | ⟨e, h⟩ | ⟨e, h⟩
  · exact Or.inl ⟨i, e, hi, h.trans _ _ _ hab⟩
  · exact Or.inr (Or.inl ⟨e, h.trans _ _ _ hab⟩)
  · exact Or.inr (Or.inr (Or.inl ⟨e, h.trans _ _ _ hab⟩))
  · exact Or.inr (Or.inr (Or.inr ⟨e, h.trans _ _ _ hab⟩))

theorem driverTable_entry (s : CircuitStr) (n : Name) (w : Int) (h : (driverTable s).table n = some w) : Entry s n w := by
  rw [driverTable_eq] at h
  rcases insert_some h with h | ⟨_, rfl, rfl⟩
  · rcases insert_some h with h | ⟨_, rfl, rfl⟩
    · rcases insert_some h with h | ⟨_, rfl, rfl⟩
      · obtain ⟨i, e, hi, hd⟩ := (driverTable0_numbered s).sound n w h
        exact Or.inl ⟨i, e, hi, hd.sameNet⟩
      · exact Or.inr (Or.inl ⟨rfl, Relation.EqvGen.refl _⟩)
    · exact Or.inr (Or.inr (Or.inl ⟨rfl, Relation.EqvGen.refl _⟩))
  · exact Or.inr (Or.inr (Or.inr ⟨rfl, Relation.EqvGen.refl _⟩))

theorem assignStep_entry {s : CircuitStr} {t : WireTable} (ht : ∀ n w, t n = some w → Entry s n w) {a : Name × Name}
    (ha : a ∈ s.assigns) : ∀ n w, assignStep t a n = some w → Entry s n w := by
  intro n w h
  have hj : SameNet s a.1 a.2 := Relation.EqvGen.rel _ _ (Or.inl ha)
  unfold assignStep at h
  cases e : t a.1 with
  | some u =>
    rw [e] at h
    simp only [WireTable.set] at h
    split at h
    · rename_i en
      obtain rfl : u = w := by simpa using h
      rw [en]
      exact (ht _ _ e).trans hj
    · exact ht n w h
  | none =>
    rw [e] at h
    cases e2 : t a.2 with
    | some u =>
      rw [e2] at h
      simp only [WireTable.set] at h
      split at h
      · rename_i en
        obtain rfl : u = w := by simpa using h
        rw [en]
        exact (ht _ _ e2).trans (hj.symm _ _)
      · exact ht n w h
    | none =>
      rw [e2] at h
      exact ht n w h

/-- The table after the assignments. -/
def fullTable (s : CircuitStr) : WireTable := s.assigns.foldl assignStep (driverTable s).table

theorem fullTable_entry (s : CircuitStr) : ∀ n w, fullTable s n = some w → Entry s n w := by
  unfold fullTable
  suffices ∀ (l : List (Name × Name)) (t : WireTable), (∀ a ∈ l, a ∈ s.assigns) → (∀ n w, t n = some w → Entry s n w) →
      ∀ n w, l.foldl assignStep t n = some w → Entry s n w from
    this s.assigns _ (fun _ h => h) (driverTable_entry s)
  intro l
  induction l with
  | nil => intro t _ h; exact h
  | cons a l ih =>
    intro t hl ht
    rw [List.foldl_cons]
    exact ih _ (fun b hb => hl b (by simp [hb])) (assignStep_entry ht (hl a (by simp)))

/-! ## With the checks -/

theorem access_true {t : WireTable} {n : Name} {r : Int × WireTable} (h : access true t n = some r) :
    t n = some r.1 ∧ r.2 = t := by
  unfold access at h
  split at h
  · rename_i w e
    obtain rfl : (w, t) = r := by simpa using h
    exact ⟨e, rfl⟩
  · simp at h

theorem accessGate_true {t : WireTable} {g : GateStr} {r : ReadGate × WireTable} (h : accessGate true t g = some r) :
    r.2 = t ∧ t g.input0 = some r.1.input0 ∧ t g.input1 = some r.1.input1 ∧ t g.output = some r.1.output
      ∧ r.1.type = g.type := by
  unfold accessGate at h
  simp only [Option.bind_eq_bind, Option.bind_eq_some_iff] at h
  obtain ⟨a, ha, b, hb, o, ho, e⟩ := h
  obtain ⟨a1, a2⟩ := access_true ha
  rw [a2] at hb
  obtain ⟨b1, b2⟩ := access_true hb
  rw [b2] at ho
  obtain ⟨o1, o2⟩ := access_true ho
  obtain rfl : _ = r := by simpa using e
  exact ⟨o2, a1, b1, o1, rfl⟩

theorem accessGates_true : ∀ {gs : List GateStr} {t : WireTable} {r : List ReadGate × WireTable},
    accessGates true t gs = some r → r.2 = t ∧ r.1.length = gs.length ∧ ∀ i (h : i < gs.length) (h' : i < r.1.length),
      t gs[i].input0 = some r.1[i].input0 ∧ t gs[i].input1 = some r.1[i].input1 ∧ t gs[i].output = some r.1[i].output
      ∧ r.1[i].type = gs[i].type
  | [], t, r, h => by
    obtain rfl : _ = r := by simpa [accessGates] using h
    exact ⟨rfl, rfl, fun i h => absurd h (by simp)⟩
  | g :: gs, t, r, h => by
    unfold accessGates at h
    simp only [Option.bind_eq_bind, Option.bind_eq_some_iff] at h
    obtain ⟨a, ha, b, hb, e⟩ := h
    obtain ⟨a2, a0⟩ := accessGate_true ha
    rw [a2] at hb
    obtain ⟨b1, b2, b3⟩ := accessGates_true hb
    obtain rfl : _ = r := by simpa using e
    refine ⟨b1, by simp [b2], fun i h h' => ?_⟩
    cases i with
    | zero => exact a0
    | succ i => exact b3 i (by simpa using h) (by simpa using h')

theorem accessOutputs_true {size : Nat} : ∀ {k i : Nat} {t : WireTable} {r : List Int × WireTable},
    accessOutputs true size k i t = some r → r.2 = t ∧ r.1.length = k ∧ ∀ j (h : j < r.1.length),
      ∃ n, t n = some r.1[j] ∧ (n = indexName outName (i + j) ∨ (size = 1 ∧ (n = indexName outName 0 ∨ n = outName)))
  | 0, i, t, r, h => by
    obtain rfl : _ = r := by simpa [accessOutputs] using h
    exact ⟨rfl, rfl, fun j h => absurd h (by simp)⟩
  | k + 1, i, t, r, h => by
    unfold accessOutputs at h
    simp only [Option.bind_eq_bind, Option.bind_eq_some_iff] at h
    obtain ⟨a, ha, b, hb, e⟩ := h
    have a0 : a.2 = t ∧ ∃ n, t n = some a.1 ∧ (n = indexName outName i ∨ (size = 1 ∧ (n = indexName outName 0 ∨ n = outName))) := by
      split at ha
      · rename_i hs
        split at ha
        · obtain ⟨a1, a2⟩ := access_true ha
          exact ⟨a2, _, a1, Or.inr ⟨hs, Or.inl rfl⟩⟩
        · obtain ⟨a1, a2⟩ := access_true ha
          exact ⟨a2, _, a1, Or.inr ⟨hs, Or.inr rfl⟩⟩
      · obtain ⟨a1, a2⟩ := access_true ha
        exact ⟨a2, _, a1, Or.inl rfl⟩
    obtain ⟨a2, a1⟩ := a0
    rw [a2] at hb
    obtain ⟨b1, b2, b3⟩ := accessOutputs_true hb
    obtain rfl : _ = r := by simpa using e
    refine ⟨b1, by simp [b2], fun j h => ?_⟩
    cases j with
    | zero => exact a1
    | succ j =>
      obtain ⟨n, e1, e2⟩ := b3 j (by simpa using h)
      refine ⟨n, e1, ?_⟩
      rw [show i + (j + 1) = i + 1 + j by omega]
      exact e2

/-- The circuit that `IdAssignment` produces. -/
structure Assigned (s : CircuitStr) (c : ReadCircuit) : Prop where
  pInit : c.pInit = s.pInit
  gInit : c.gInit = s.gInit
  eInit : c.eInit = s.eInit
  pInput : c.pInput = s.pInput
  gInput : c.gInput = s.gInput
  eInput : c.eInput = s.eInput
  gates : c.gates.length = s.gates.length
  dffs : c.dffs.length = s.dffs.length
  outputs : c.outputs.length = s.outputSize
  gate : ∀ i (h : i < s.gates.length) (h' : i < c.gates.length), fullTable s s.gates[i].input0 = some c.gates[i].input0
    ∧ fullTable s s.gates[i].input1 = some c.gates[i].input1 ∧ fullTable s s.gates[i].output = some c.gates[i].output
    ∧ c.gates[i].type = s.gates[i].type
  dff : ∀ i (h : i < s.dffs.length) (h' : i < c.dffs.length), fullTable s s.dffs[i].input0 = some c.dffs[i].input0
    ∧ fullTable s s.dffs[i].input1 = some c.dffs[i].input1 ∧ fullTable s s.dffs[i].output = some c.dffs[i].output
    ∧ c.dffs[i].type = s.dffs[i].type
  output : ∀ j (h : j < c.outputs.length), ∃ n, fullTable s n = some c.outputs[j]
    ∧ (n = outputBit j ∨ (s.outputSize = 1 ∧ (n = outputBit 0 ∨ n = outName)))
  term : if s.hasTerminate then fullTable s terminateName = some c.terminateId ∧ c.terminateId ≠ 0 else c.terminateId = 0

theorem idAssignment_assigned {s : CircuitStr} {c : ReadCircuit} (h : idAssignment true s = some c) : Assigned s c := by
  unfold idAssignment at h
  simp only [Option.bind_eq_bind, Option.bind_eq_some_iff] at h
  obtain ⟨gs, hg, ds, hd, os, ho, ti, ht, e⟩ := h
  obtain ⟨g1, g2, g3⟩ := accessGates_true hg
  rw [g1] at hd
  obtain ⟨d1, d2, d3⟩ := accessGates_true hd
  rw [d1] at ho
  obtain ⟨o1, o2, o3⟩ := accessOutputs_true ho
  rw [o1] at ht
  obtain rfl : _ = c := by simpa using e
  refine ⟨rfl, rfl, rfl, rfl, rfl, rfl, g2, d2, o2, g3, d3, fun j h => ?_, ?_⟩
  · obtain ⟨n, e1, e2⟩ := o3 j h
    rw [Nat.zero_add] at e2
    exact ⟨n, e1, e2⟩
  · change (if s.hasTerminate = true then fullTable s terminateName = some ti ∧ ti ≠ 0 else ti = 0)
    split at ht
    · rename_i hh
      rw [if_pos hh]
      simp only [true_and] at ht
      change (if (fullTable s terminateName).getD 0 = 0 then none else some ((fullTable s terminateName).getD 0))
        = some ti at ht
      split at ht
      · cases ht
      · rename_i hn
        obtain rfl : _ = ti := by simpa using ht
        cases hx : fullTable s terminateName with
        | none => rw [hx] at hn; simp at hn
        | some w => rw [hx] at hn; simp at hn; exact ⟨rfl, hn⟩
    · rename_i hh
      rw [if_neg hh]
      simpa using ht.symm

end TinyGarble.Proof
