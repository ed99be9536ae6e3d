import Verif.Proof.NamedLayout

/-! # Existence of a meaning -/

namespace TinyGarble.Proof
open TinyGarble.Spec TinyGarble.Props

open Classical in
/-- The number of the source of a net. -/
noncomputable def netNumber (s : CircuitStr) (n : Name) : Int := if h : ∃ w, Entry s n w then h.choose else 0

theorem netNumber_eq {s : CircuitStr} (O : OneDriver s) {n : Name} {w : Int} (h : Entry s n w) : netNumber s n = w := by
  have h' : ∃ w, Entry s n w := ⟨w, h⟩
  unfold netNumber
  rw [dif_pos h']
  exact Entry.unique O h'.choose_spec h

theorem netNumber_same {s : CircuitStr} (O : OneDriver s) {a b : Name} (hab : SameNet s a b) : netNumber s a = netNumber s b := by
  by_cases h : ∃ w, Entry s a w
  · obtain ⟨w, h⟩ := h
    rw [netNumber_eq O h, netNumber_eq O (h.trans hab)]
  · have h' : ¬ ∃ w, Entry s b w := fun ⟨w, hw⟩ => h ⟨w, hw.trans (hab.symm _ _)⟩
    unfold netNumber
    rw [dif_neg h, dif_neg h']

theorem netNumber_driver {s : CircuitStr} (O : OneDriver s) {i : Nat} (hi : i < drivers s) : netNumber s (driver s i) = i :=
  netNumber_eq O (Entry.driver hi)

theorem netNumber_port {s : CircuitStr} (O : OneDriver s) (q : Fin 6) {k : Nat} (hk : k < portSize s q) :
    netNumber s (indexName (portName q) k) = (portBase s q + k : Nat) := by
  rw [← driver_port s q hk]
  refine netNumber_driver O ?_
  have := port_lt s q hk
  rw [drivers_eq]; omega

/-- The bit of an initial value. -/
def initValue (s : CircuitStr) (x : Inputs) (k : Nat) : Bool :=
  if k < s.pInit then x.pInit.testBit k
  else if k < s.pInit + s.gInit then x.gInit.testBit (k - s.pInit)
  else x.eInit.testBit (k - (s.pInit + s.gInit))

open Classical in
/-- The valuation of the names made of one of the wires. -/
noncomputable def nameValue (s : CircuitStr) (x : Inputs) (u : Nat → Nat → Bool) (t : Nat) (n : Name) : Bool :=
  Spec.operand (fun k => if k < inBase s then initValue s x k else u t k) (if ∃ w, Entry s n w then netNumber s n else -1)

variable {s : CircuitStr} {c : ReadCircuit}

theorem nameValue_eq (O : OneDriver s) (x : Inputs) (u : Nat → Nat → Bool) (t : Nat) {n : Name} {w : Int} (h : Entry s n w) :
    nameValue s x u t n = Spec.operand (fun k => if k < inBase s then initValue s x k else u t k) w := by
  unfold nameValue
  rw [if_pos ⟨w, h⟩, netNumber_eq O h]

theorem nameValue_driver (O : OneDriver s) (x : Inputs) (u : Nat → Nat → Bool) (t : Nat) {i : Nat} (hi : i < drivers s) :
    nameValue s x u t (driver s i) = if i < inBase s then initValue s x i else u t i := by
  rw [nameValue_eq O x u t (Entry.driver hi)]
  unfold Spec.operand
  rw [if_neg (by omega), if_neg (by omega), Int.toNat_natCast]

theorem nameValue_read (A : Assigned s c) (L : Legal s) (O : OneDriver s) (x : Inputs) (u : Nat → Nat → Bool) (t : Nat) {n : Name}
    {w : Int} (h : Entry s n w) (hr : Read s n) : nameValue s x u t n = Spec.operand (u t) w := by
  rw [nameValue_eq O x u t h]
  unfold Spec.operand
  rcases A.readable L h hr with h1 | ⟨h1, h2⟩
  · split
    · rfl
    · first | rfl | (rw [if_pos h1]; rfl)
  · rw [A.initSize] at h1
    rw [if_neg (by omega), if_neg (by omega)]
    have hn : ¬ w.toNat < inBase s := by omega
    simp only [if_neg hn]
    rw [if_neg (by omega), if_neg (by omega)]

theorem nameValue_solves (A : Assigned s c) (L : Legal s) (O : OneDriver s) {x : Inputs} {u : Nat → Nat → Bool}
    (hu : Solves (asCircuit c) x u) : NamedSolves s x (nameValue s x u) := by
  have hport : ∀ t (q : Fin 6) k, k < portSize s q → nameValue s x u t (indexName (portName q) k)
      = if portBase s q + k < inBase s then initValue s x (portBase s q + k) else u t (portBase s q + k) := by
    intro t q k hk
    rw [← driver_port s q hk]
    refine nameValue_driver O x u t ?_
    have := port_lt s q hk
    rw [drivers_eq]; omega
  refine ⟨fun t a b hab => ?_, fun t => ?_, fun t => ?_, fun t => ?_, fun t k hk => ?_, fun t k hk => ?_, fun t k hk => ?_,
    fun t k hk => ?_, fun t k hk => ?_, fun t k hk => ?_, fun g hg => ?_, fun t g hg => ?_, fun t g hg => ?_⟩
  · have hs : SameNet s a b := Relation.EqvGen.rel _ _ hab
    unfold nameValue
    have e : (∃ w, Entry s a w) ↔ ∃ w, Entry s b w :=
      ⟨fun ⟨w, h⟩ => ⟨w, h.trans hs⟩, fun ⟨w, h⟩ => ⟨w, h.trans (hs.symm _ _)⟩⟩
    rw [netNumber_same O hs]
    congr 1
    by_cases h : ∃ w, Entry s a w
    · rw [if_pos h, if_pos (e.1 h)]
    · rw [if_neg h, if_neg (fun h' => h (e.2 h'))]
  · have e : Entry s zeroName (-2) := Or.inr (Or.inr (Or.inl ⟨rfl, Relation.EqvGen.refl _⟩))
    exact nameValue_eq O x u t e
  · have e : Entry s oneName (-3) := Or.inr (Or.inr (Or.inr ⟨rfl, Relation.EqvGen.refl _⟩))
    exact nameValue_eq O x u t e
  · have e : Entry s [] (-1) := Or.inr (Or.inl ⟨rfl, Relation.EqvGen.refl _⟩)
    exact nameValue_eq O x u t e
  · refine (hport t 0 k hk).trans ?_
    have hb : portBase s 0 + k = k := Nat.zero_add k
    rw [hb, if_pos (by unfold inBase; omega)]
    unfold initValue
    rw [if_pos hk]
  · refine (hport t 1 k hk).trans ?_
    have hb : portBase s 1 + k = s.pInit + k := rfl
    rw [hb, if_pos (by unfold inBase; omega)]
    unfold initValue
    rw [if_neg (by omega), if_pos (by omega), Nat.add_sub_cancel_left]
  · refine (hport t 2 k hk).trans ?_
    have hb : portBase s 2 + k = s.pInit + s.gInit + k := rfl
    rw [hb, if_pos (by unfold inBase; omega)]
    unfold initValue
    rw [if_neg (by omega), if_neg (by omega), Nat.add_sub_cancel_left]
  · refine (hport t 3 k hk).trans ?_
    have hb : portBase s 3 + k = inBase s + k := rfl
    rw [hb, if_neg (by omega), ← A.inputBase]
    have := hu.pIn t k (by change k < c.pInput; rw [A.pInput]; exact hk)
    rw [this]; simp only [asCircuit]; rw [A.pInput]
  · refine (hport t 4 k hk).trans ?_
    have hb : portBase s 4 + k = inBase s + s.pInput + k := rfl
    rw [hb, if_neg (by omega), ← A.inputBase, ← A.pInput]
    have := hu.gIn t k (by change k < c.gInput; rw [A.gInput]; exact hk)
    refine this.trans ?_
    simp only [asCircuit]; rw [A.gInput]
  · refine (hport t 5 k hk).trans ?_
    have hb : portBase s 5 + k = inBase s + s.pInput + s.gInput + k := rfl
    rw [hb, if_neg (by omega), ← A.inputBase, ← A.pInput, ← A.gInput]
    have := hu.eIn t k (by change k < c.eInput; rw [A.eInput]; exact hk)
    refine this.trans ?_
    simp only [asCircuit]; rw [A.eInput]
  · obtain ⟨i, hi, rfl⟩ := List.getElem_of_mem hg
    have hi' : i < c.dffs.length := by rw [A.dffs]; exact hi
    have hb : ¬ cellBase s + i < inBase s := by unfold cellBase; omega
    rw [← driver_dff s hi, nameValue_driver O x u 0 (by rw [drivers_eq]; omega), if_neg hb, ← A.ffBase, hu.ffInit i hi']
    have e : (asCircuit c).I i = c.dffs[i].input1 := by simp [asCircuit, List.getElem?_eq_getElem hi']
    rw [e]
    have en := fullTable_entry s _ _ (A.dff i hi hi').2.1
    rw [nameValue_eq O x u 0 en]
    unfold initialBit Spec.operand
    simp only [asCircuit, A.pInit, A.gInit, A.eInit]
    split
    · rfl
    split
    · rfl
    rename_i h1 h2
    have hlt : (c.dffs[i].input1).toNat < inBase s := by
      rcases en with ⟨j, e, hj, en⟩ | ⟨e, en⟩ | ⟨e, en⟩ | ⟨e, en⟩
      · by_contra hc
        refine L.inits _ hg _ (source_driver (i := j) (by omega) hj) en
      · omega
      · omega
      · omega
    rw [if_pos hlt]
    unfold initValue
    unfold inBase at hlt
    split
    · rfl
    split
    · rfl
    first | rfl | rw [if_pos hlt]
  · obtain ⟨i, hi, rfl⟩ := List.getElem_of_mem hg
    have hi' : i < c.dffs.length := by rw [A.dffs]; exact hi
    have hb : ¬ cellBase s + i < inBase s := by unfold cellBase; omega
    rw [← driver_dff s hi, nameValue_driver O x u _ (by rw [drivers_eq]; omega), if_neg hb, ← A.ffBase, hu.ffNext t i hi']
    have e : (asCircuit c).D i = c.dffs[i].input0 := by simp [asCircuit, List.getElem?_eq_getElem hi']
    rw [e]
    exact (nameValue_read A L O x u t (fullTable_entry s _ _ (A.dff i hi hi').1) (Or.inr (Or.inl ⟨_, hg, rfl⟩))).symm
  · obtain ⟨i, hi, rfl⟩ := List.getElem_of_mem hg
    have hi' : i < c.gates.length := by rw [A.gates]; exact hi
    have hb : ¬ cellBase s + s.dffs.length + i < inBase s := by unfold cellBase; omega
    rw [← driver_gate s hi, nameValue_driver O x u _ (by rw [drivers_eq]; omega), if_neg hb, ← A.gateBase, hu.gate t i hi']
    have e : (asCircuit c).gate i = ⟨c.gates[i].input0, c.gates[i].input1, c.gates[i].type⟩ := by
      simp [asCircuit, List.getElem?_eq_getElem hi']
    rw [e]
    obtain ⟨h0, h1, _, h3⟩ := A.gate i hi hi'
    rw [nameValue_read A L O x u t (fullTable_entry s _ _ h0) (Or.inl ⟨_, hg, Or.inl rfl⟩),
      nameValue_read A L O x u t (fullTable_entry s _ _ h1) (Or.inl ⟨_, hg, Or.inr rfl⟩), h3]

end TinyGarble.Proof
