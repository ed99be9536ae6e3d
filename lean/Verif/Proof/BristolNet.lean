import Verif.Proof.Bristol

/-! # The netlist of a Bristol circuit -/

namespace TinyGarble.Proof
open TinyGarble.Spec TinyGarble.Props

/-! ## When `IdAssignment` succeeds -/

theorem access_ok {t : WireTable} {n : Name} (h : (t n).isSome) : ∃ w, access true t n = some (w, t) := by
  obtain ⟨w, hw⟩ := Option.isSome_iff_exists.1 h
  exact ⟨w, by unfold access; rw [hw]⟩

theorem accessGates_ok {t : WireTable} : ∀ (gs : List GateStr),
    (∀ g ∈ gs, (t g.input0).isSome ∧ (t g.input1).isSome ∧ (t g.output).isSome) → ∃ r, accessGates true t gs = some (r, t)
  | [], _ => ⟨[], rfl⟩
  | g :: gs, h => by
    obtain ⟨h0, h1, h2⟩ := h g (by simp)
    obtain ⟨r, hr⟩ := accessGates_ok gs (fun g hg => h g (by simp [hg]))
    obtain ⟨a, ha⟩ := access_ok h0
    obtain ⟨b, hb⟩ := access_ok h1
    obtain ⟨o, ho⟩ := access_ok h2
    exact ⟨⟨a, b, o, g.type⟩ :: r, by simp [accessGates, accessGate, ha, hb, ho, hr]⟩

theorem accessOutputs_ok {t : WireTable} (size : Nat) : ∀ (k i : Nat),
    (∀ j, i ≤ j → j < i + k → (t (indexName outName j)).isSome) → (size = 1 → (t (indexName outName 0)).isSome) →
    ∃ r, accessOutputs true size k i t = some (r, t)
  | 0, _, _, _ => ⟨[], rfl⟩
  | k + 1, i, h, h0 => by
    obtain ⟨r, hr⟩ := accessOutputs_ok size k (i + 1) (fun j h1 h2 => h j (by omega) (by omega)) h0
    obtain ⟨w, hw⟩ := access_ok (h i (by omega) (by omega))
    unfold accessOutputs
    by_cases hs : size = 1
    · obtain ⟨u, hu⟩ := access_ok (h0 hs)
      refine ⟨u :: r, ?_⟩
      simp only [if_pos hs, if_pos (h0 hs), hu]
      simp [hr]
    · refine ⟨w :: r, ?_⟩
      simp only [if_neg hs, hw]
      simp [hr]

theorem driverTable_known (s : CircuitStr) {i : Nat} (hi : i < drivers s) : ((driverTable s).table (driver s i)).isSome := by
  rw [driverTable_eq]
  exact insert_isSome _ _ _ _ (Or.inl (insert_isSome _ _ _ _ (Or.inl (insert_isSome _ _ _ _ (Or.inl
    ((driverTable0_numbered s).known i hi))))))

theorem driverTable_missing (s : CircuitStr) : ((driverTable s).table []).isSome := by
  rw [driverTable_eq]
  exact insert_isSome _ _ _ _ (Or.inl (insert_isSome _ _ _ _ (Or.inl (insert_isSome _ _ _ _ (Or.inr rfl)))))

/-! ## Nets without assignments -/

theorem ports_clean (s : CircuitStr) : ∀ p ∈ ports s, '[' ∉ p.1 := by
  intro p hp
  simp only [ports, List.mem_cons, List.not_mem_nil, or_false] at hp
  rcases hp with rfl | rfl | rfl | rfl | rfl | rfl | rfl <;> simp only <;> decide

theorem ports_head (s : CircuitStr) : ∀ p ∈ ports s, p.1 ≠ [] ∧ ¬ ConstName p.1 ∧ ∀ l, p.1 ≠ 'w' :: l := by
  intro p hp
  simp only [ports, List.mem_cons, List.not_mem_nil, or_false] at hp
  unfold ConstName
  rcases hp with rfl | rfl | rfl | rfl | rfl | rfl | rfl <;> exact ⟨by simp only; decide, by simp only; decide, fun l h => by simp [pInitName, gInitName,
    eInitName, pInputName, gInputName, eInputName, outName] at h⟩

open Classical in
/-- The long name of a port of one bit. -/
noncomputable def longName (s : CircuitStr) (n : Name) : Name := if ∃ p ∈ ports s, n = p.1 then indexName n 0 else n

theorem longName_other {s : CircuitStr} {n : Name} (h : ∀ p ∈ ports s, n ≠ p.1) : longName s n = n := by
  unfold longName
  rw [if_neg]
  rintro ⟨p, hp, e⟩
  exact h p hp e

theorem longName_index (s : CircuitStr) (q : Name) (k : Nat) : longName s (indexName q k) = indexName q k := by
  refine longName_other fun p hp e => ports_clean s p hp ?_
  rw [← e]
  simp [indexName]

theorem sameNet_longName {s : CircuitStr} (h0 : s.assigns = []) {a b : Name} (h : SameNet s a b) : longName s a = longName s b := by
  induction h with
  | rel a b h =>
    rcases h with h | ⟨p, hp, _, rfl, rfl⟩
    · rw [h0] at h; cases h
    · rw [longName_index]
      unfold longName
      rw [if_pos ⟨p, hp, rfl⟩]
  | refl a => rfl
  | symm a b _ ih => exact ih.symm
  | trans a b c _ _ ih1 ih2 => exact ih1.trans ih2

/-! ## Names of wires -/

/-- Inputs and outputs do not overlap. -/
structure BSizes (B : Bristol) : Prop where
  sizes : B.g + B.e + B.out ≤ B.wires
  small : B.wires < 2 ^ 63

section
variable {B : Bristol} (S : BSizes B)
include S

omit S in
theorem bname_g {w : Nat} (h : w < B.g) : bname B w = indexName gInputName w := by
  unfold bname bristWire
  exact if_pos h

theorem bname_e {w : Nat} (h : B.g ≤ w) (h' : w < B.g + B.e) : bname B w = indexName eInputName (w - B.g) := by
  have := S.small; have := S.sizes
  unfold bname bristWire
  rw [if_neg (by simp only [bristPorts]; omega), if_pos (by simp only [bristPorts]; omega)]
  rfl

theorem bname_o {w : Nat} (h : B.wires - B.out ≤ w) (h' : w < B.wires) : bname B w = indexName outName (w - (B.wires - B.out)) := by
  have := S.small; have := S.sizes
  unfold bname bristWire
  rw [if_neg (by simp only [bristPorts]; omega), if_neg (by simp only [bristPorts]; omega),
    if_pos (by simp only [bristPorts]; omega)]
  congr 1
  simp only [bristPorts]; omega

theorem bname_w {w : Nat} (h : B.g + B.e ≤ w) (h' : w < B.wires - B.out) : bname B w = 'w' :: printNat w := by
  have := S.small; have := S.sizes
  unfold bname bristWire
  rw [if_neg (by simp only [bristPorts]; omega), if_neg (by simp only [bristPorts]; omega),
    if_neg (by simp only [bristPorts]; omega)]

theorem bname_inj {a b : Nat} (ha : a < B.wires) (hb : b < B.wires) (h : bname B a = bname B b) : a = b := by
  have hs := S.sizes
  have cg : '[' ∉ gInputName := by decide
  have ce : '[' ∉ eInputName := by decide
  have co : '[' ∉ outName := by decide
  have ng : ∀ k l, indexName gInputName k ≠ 'w' :: l := fun k l h => by simp [indexName, gInputName] at h
  have ne : ∀ k l, indexName eInputName k ≠ 'w' :: l := fun k l h => by simp [indexName, eInputName] at h
  have no : ∀ k l, indexName outName k ≠ 'w' :: l := fun k l h => by simp [indexName, outName] at h
  have dge : gInputName ≠ eInputName := by decide
  have dgo : gInputName ≠ outName := by decide
  have deo : eInputName ≠ outName := by decide
  have cases : ∀ w, w < B.wires → (w < B.g ∧ bname B w = indexName gInputName w)
      ∨ (B.g ≤ w ∧ w < B.g + B.e ∧ bname B w = indexName eInputName (w - B.g))
      ∨ (B.g + B.e ≤ w ∧ w < B.wires - B.out ∧ bname B w = 'w' :: printNat w)
      ∨ (B.wires - B.out ≤ w ∧ bname B w = indexName outName (w - (B.wires - B.out))) := by
    intro w hw
    by_cases h1 : w < B.g
    · exact Or.inl ⟨h1, bname_g h1⟩
    by_cases h2 : w < B.g + B.e
    · exact Or.inr (Or.inl ⟨by omega, h2, bname_e S (by omega) h2⟩)
    by_cases h3 : w < B.wires - B.out
    · exact Or.inr (Or.inr (Or.inl ⟨by omega, h3, bname_w S (by omega) h3⟩))
    · exact Or.inr (Or.inr (Or.inr ⟨by omega, bname_o S (by omega) hw⟩))
  rcases cases a ha with ⟨a1, ea⟩ | ⟨a1, a2, ea⟩ | ⟨a1, a2, ea⟩ | ⟨a1, ea⟩ <;>
    rcases cases b hb with ⟨b1, eb⟩ | ⟨b1, b2, eb⟩ | ⟨b1, b2, eb⟩ | ⟨b1, eb⟩ <;> rw [ea, eb] at h
  · exact (indexName_inj cg cg h).2
  · exact absurd (indexName_inj cg ce h).1 dge
  · exact absurd h (ng _ _)
  · exact absurd (indexName_inj cg co h).1 dgo
  · exact absurd (indexName_inj ce cg h).1.symm dge
  · have := (indexName_inj ce ce h).2; omega
  · exact absurd h (ne _ _)
  · exact absurd (indexName_inj ce co h).1 deo
  · exact absurd h.symm (ng _ _)
  · exact absurd h.symm (ne _ _)
  · exact printNat_inj (by simpa using h)
  · exact absurd h.symm (no _ _)
  · exact absurd (indexName_inj co cg h).1.symm dgo
  · exact absurd (indexName_inj co ce h).1.symm deo
  · exact absurd h (no _ _)
  · have := (indexName_inj co co h).2; omega

end

theorem _root_.TinyGarble.Spec.Bristol.Proper.bsizes {B : Bristol} (P : B.Proper) : BSizes B := ⟨P.sizes, P.small⟩

section
variable {B : Bristol} (P : B.Proper)
include P

theorem bname_shape {w : Nat} (h : w < B.wires) : (∃ q k, bname B w = indexName q k) ∨ ∃ l, bname B w = 'w' :: l := by
  by_cases h1 : w < B.g
  · exact Or.inl ⟨_, _, bname_g h1⟩
  by_cases h2 : w < B.g + B.e
  · exact Or.inl ⟨_, _, bname_e P.bsizes (by omega) h2⟩
  by_cases h3 : w < B.wires - B.out
  · exact Or.inr ⟨_, bname_w P.bsizes (by omega) h3⟩
  · exact Or.inl ⟨_, _, bname_o P.bsizes (by omega) h⟩

theorem bname_port {w : Nat} (h : w < B.wires) (s : CircuitStr) : ∀ p ∈ ports s, bname B w ≠ p.1 := by
  intro p hp e
  rcases bname_shape P h with ⟨q, k, e'⟩ | ⟨l, e'⟩
  · refine ports_clean s p hp ?_
    rw [← e, e']
    simp [indexName]
  · exact (ports_head s p hp).2.2 l (by rw [← e, e'])

theorem bname_const {w : Nat} (h : w < B.wires) : ¬ ConstName (bname B w) := by
  by_cases h1 : w < B.g
  · rw [bname_g h1]; exact port_not_const 4 w
  by_cases h2 : w < B.g + B.e
  · rw [bname_e P.bsizes (by omega) h2]; exact port_not_const 5 _
  by_cases h3 : w < B.wires - B.out
  · rw [bname_w P.bsizes (by omega) h3]
    unfold ConstName
    simp
  · rw [bname_o P.bsizes (by omega) h]
    unfold ConstName indexName outName
    simp

theorem bgate_output (gate : BGate) : (bgate B gate).output = bname B gate.out := by cases gate <;> rfl

theorem bcircuit_inBase : inBase (bcircuit B) = 0 := rfl
theorem bcircuit_cellBase : cellBase (bcircuit B) = B.g + B.e := by
  simp [cellBase, inBase, bcircuit, bristPorts, CircuitStr.empty]

theorem bcircuit_drivers : drivers (bcircuit B) = B.g + B.e + B.gates.length := by
  rw [drivers_eq, bcircuit_cellBase P]
  simp [bcircuit, bristPorts, CircuitStr.empty]

theorem bcircuit_input {w : Nat} (h : w < B.g + B.e) : driver (bcircuit B) w = bname B w := by
  by_cases h1 : w < B.g
  · have := driver_port (bcircuit B) 4 (k := w) h1
    rw [show portBase (bcircuit B) 4 = 0 from rfl, Nat.zero_add] at this
    rw [this, bname_g h1]; rfl
  · have := driver_port (bcircuit B) 5 (k := w - B.g) (show w - B.g < B.e by omega)
    rw [show portBase (bcircuit B) 5 = B.g by simp [portBase, inBase, bcircuit, bristPorts, CircuitStr.empty],
      show B.g + (w - B.g) = w by omega] at this
    rw [this, bname_e P.bsizes (by omega) h]; rfl

theorem bcircuit_gate {j : Nat} (h : j < B.gates.length) : driver (bcircuit B) (B.g + B.e + j) = bname B B.gates[j].out := by
  have h' : j < (bcircuit B).gates.length := by simp [bcircuit, h]
  have := driver_gate (bcircuit B) (k := j) h'
  rw [bcircuit_cellBase P, show (bcircuit B).dffs.length = 0 from rfl, Nat.add_zero] at this
  rw [this, ← bgate_output P]
  simp [bcircuit]

theorem bcircuit_cell {n : Name} (h : CellOutput (bcircuit B) n) : ∃ gate ∈ B.gates, n = bname B gate.out := by
  rcases h with ⟨g, hg, rfl⟩ | ⟨g, hg, rfl⟩
  · cases hg
  · simp only [bcircuit, List.mem_map] at hg
    obtain ⟨gate, hm, rfl⟩ := hg
    exact ⟨gate, hm, bgate_output P gate⟩

theorem bcircuit_noInit {n : Name} : ¬ InitBit (bcircuit B) n := by
  rintro (⟨k, hk, _⟩ | ⟨k, hk, _⟩ | ⟨k, hk, _⟩) <;> exact absurd hk (Nat.not_lt_zero k)

theorem bcircuit_inputBit {n : Name} (h : InputBit (bcircuit B) n) : ∃ w < B.g + B.e, n = bname B w := by
  obtain ⟨i, hi, rfl⟩ := (portBit_iff (bcircuit B) n).1 (Or.inr h)
  rw [bcircuit_cellBase P] at hi
  exact ⟨i, hi, bcircuit_input P hi⟩

theorem bcircuit_legal : Legal (bcircuit B) := by
  refine ⟨fun g hg => absurd hg (List.not_mem_nil (a := g)), fun n _ d hd => absurd hd (bcircuit_noInit P), fun g hg => ?_,
    fun g hg => absurd hg (List.not_mem_nil (a := g))⟩
  simp only [bcircuit, List.mem_map] at hg
  obtain ⟨gate, _, rfl⟩ := hg
  cases gate <;> simp only [bgate] <;> decide

theorem bcircuit_source {n : Name} (h : Source (bcircuit B) n) : ConstName n ∨ ∃ w < B.wires, n = bname B w := by
  have hs := P.sizes
  rcases h with h | h | h | h
  · exact Or.inl h
  · exact absurd h (bcircuit_noInit P)
  · obtain ⟨w, hw, e⟩ := bcircuit_inputBit P h
    exact Or.inr ⟨w, by omega, e⟩
  · obtain ⟨gate, hm, e⟩ := bcircuit_cell P h
    exact Or.inr ⟨_, (P.drives gate hm).2, e⟩

theorem bcircuit_oneDriver : OneDriver (bcircuit B) := by
  have hs := P.sizes
  refine ⟨fun a b ha hb hab => ?_, ?_, fun n hn => ?_⟩
  · have h := sameNet_longName (s := bcircuit B) rfl hab
    have fix : ∀ n, Source (bcircuit B) n → longName (bcircuit B) n = n := by
      intro n hn
      refine longName_other fun p hp e => ?_
      rcases bcircuit_source P hn with hc | ⟨w, hw, rfl⟩
      · exact (ports_head _ p hp).2.1 (e ▸ hc)
      · exact bname_port P hw _ p hp e
    rwa [fix a ha, fix b hb] at h
  · have e : ((bcircuit B).dffs ++ (bcircuit B).gates).map (·.output) = (B.gates.map (·.out)).map (bname B) := by
      simp only [bcircuit, bristPorts, CircuitStr.empty, List.nil_append, List.map_map]
      exact List.map_congr_left fun gate _ => bgate_output P gate
    rw [e]
    refine List.Nodup.map_on (fun a ha b hb hab => ?_) P.once
    obtain ⟨g1, h1, rfl⟩ := List.mem_map.1 ha
    obtain ⟨g2, h2, rfl⟩ := List.mem_map.1 hb
    exact bname_inj P.bsizes (P.drives g1 h1).2 (P.drives g2 h2).2 hab
  · obtain ⟨gate, hm, rfl⟩ := bcircuit_cell P hn
    obtain ⟨h1, h2⟩ := P.drives gate hm
    refine ⟨bname_const P h2, bcircuit_noInit P, fun hi => ?_⟩
    obtain ⟨w, hw, e⟩ := bcircuit_inputBit P hi
    have := bname_inj P.bsizes h2 (by omega) e
    omega

/-- Where a wire is driven. -/
theorem bcircuit_driven {i : Nat} (hi : i ≤ B.gates.length) {a : Nat}
    (h : a < B.g + B.e ∨ ∃ j, ∃ hj : j < i, (B.gates[j]'(Nat.lt_of_lt_of_le hj hi)).out = a) :
    ∃ k < B.g + B.e + i, driver (bcircuit B) k = bname B a := by
  rcases h with h | ⟨j, hj, rfl⟩
  · exact ⟨a, by omega, bcircuit_input P h⟩
  · exact ⟨B.g + B.e + j, by omega, bcircuit_gate P (by omega)⟩

theorem fullTable_noassign {s : CircuitStr} (h : s.assigns = []) : fullTable s = (driverTable s).table := by
  unfold fullTable; rw [h]; rfl

theorem bcircuit_operands {i : Nat} (hi : i < B.gates.length) {n : Name}
    (h : n = (bgate B B.gates[i]).input0 ∨ n = (bgate B B.gates[i]).input1) :
    n = [] ∨ ∃ k < B.g + B.e + i, driver (bcircuit B) k = n := by
  have hr := P.reads i hi
  cases hg : B.gates[i] with
  | and a b o =>
    rw [hg] at h hr
    rcases h with rfl | rfl
    · exact Or.inr (bcircuit_driven P (by omega) (hr a (by simp [BGate.ins])))
    · exact Or.inr (bcircuit_driven P (by omega) (hr b (by simp [BGate.ins])))
  | xor a b o =>
    rw [hg] at h hr
    rcases h with rfl | rfl
    · exact Or.inr (bcircuit_driven P (by omega) (hr a (by simp [BGate.ins])))
    · exact Or.inr (bcircuit_driven P (by omega) (hr b (by simp [BGate.ins])))
  | inv a o =>
    rw [hg] at h hr
    rcases h with rfl | rfl
    · exact Or.inr (bcircuit_driven P (by omega) (hr a (by simp [BGate.ins])))
    · exact Or.inl rfl

theorem bcircuit_out {k : Nat} (h : k < B.out) : ∃ j < B.g + B.e + B.gates.length, driver (bcircuit B) j = outputBit k := by
  have hs := P.sizes
  obtain ⟨gate, hm, e⟩ := P.driven (B.wires - B.out + k) (by omega) (by omega)
  obtain ⟨j, hj, rfl⟩ := List.getElem_of_mem hm
  refine ⟨B.g + B.e + j, by omega, ?_⟩
  rw [bcircuit_gate P hj, e, bname_o P.bsizes (by omega) (by omega)]
  unfold outputBit
  congr 1; omega

theorem bcircuit_id : ∃ c, idAssignment true (bcircuit B) = some c := by
  have hs := P.sizes
  have known : ∀ n, (n = [] ∨ ∃ k < drivers (bcircuit B), driver (bcircuit B) k = n) → (fullTable (bcircuit B) n).isSome := by
    rintro n (rfl | ⟨k, hk, rfl⟩)
    · rw [fullTable_noassign P rfl]; exact driverTable_missing _
    · rw [fullTable_noassign P rfl]; exact driverTable_known _ hk
  rw [bcircuit_drivers P] at known
  have hout : ∀ k < B.out, (fullTable (bcircuit B) (indexName outName k)).isSome := by
    intro k hk
    obtain ⟨j, hj, e⟩ := bcircuit_out P hk
    exact known _ (Or.inr ⟨j, hj, e⟩)
  obtain ⟨gs, hgs⟩ := accessGates_ok (t := fullTable (bcircuit B)) (bcircuit B).gates (by
    intro g hg
    simp only [bcircuit, List.mem_map] at hg
    obtain ⟨gate, hm, rfl⟩ := hg
    obtain ⟨i, hi, rfl⟩ := List.getElem_of_mem hm
    refine ⟨known _ ?_, known _ ?_, known _ (Or.inr ⟨B.g + B.e + i, by omega, ?_⟩)⟩
    · rcases bcircuit_operands P hi (Or.inl rfl) with h | ⟨k, hk, h⟩
      · exact Or.inl h
      · exact Or.inr ⟨k, by omega, h⟩
    · rcases bcircuit_operands P hi (Or.inr rfl) with h | ⟨k, hk, h⟩
      · exact Or.inl h
      · exact Or.inr ⟨k, by omega, h⟩
    · rw [bcircuit_gate P hi, bgate_output P])
  obtain ⟨os, hos⟩ := accessOutputs_ok (t := fullTable (bcircuit B)) B.out B.out 0
    (fun j _ hj => hout j (by omega)) (fun h1 => hout 0 (by omega))
  refine ⟨⟨0, 0, 0, 0, B.g, B.e, gs, [], os, 0, []⟩, ?_⟩
  · unfold idAssignment
    change (do
      let gates ← accessGates true (fullTable (bcircuit B)) (bcircuit B).gates
      let dffs ← accessGates true gates.2 []
      let outputs ← accessOutputs true B.out B.out 0 dffs.2
      let terminateId ← (if (false : Bool) = true then
          let w := (outputs.2 terminateName).getD 0
          if (true : Bool) = true ∧ w = 0 then none else some w
        else some 0 : Option Int)
      return (⟨0, 0, 0, 0, B.g, B.e, gates.1, dffs.1, outputs.1, terminateId, []⟩ : ReadCircuit)) = _
    simp only [hgs, Option.bind_eq_bind, Option.bind_some, accessGates, hos]
    rfl

theorem bcircuit_number {c : ReadCircuit} (A : Assigned (bcircuit B) c) {i : Nat} (hi : i < B.gates.length)
    (h' : i < c.gates.length) : c.gates[i].input0 < (B.g + B.e + i : Nat) ∧ c.gates[i].input1 < (B.g + B.e + i : Nat) := by
  have O := bcircuit_oneDriver P
  have hsi : i < (bcircuit B).gates.length := by simp [bcircuit, hi]
  have eg : (bcircuit B).gates[i] = bgate B B.gates[i] := by simp [bcircuit]
  obtain ⟨e0, e1, _, _⟩ := A.gate i hsi h'
  rw [eg] at e0 e1
  have key : ∀ n w, fullTable (bcircuit B) n = some w → (n = [] ∨ ∃ k < B.g + B.e + i, driver (bcircuit B) k = n) →
      w < (B.g + B.e + i : Nat) := by
    rintro n w e (rfl | ⟨k, hk, rfl⟩)
    · have := Entry.unique O (fullTable_entry _ _ _ e) (Or.inr (Or.inl ⟨rfl, Relation.EqvGen.refl _⟩))
      omega
    · have := Entry.unique O (fullTable_entry _ _ _ e) (Entry.driver (by rw [bcircuit_drivers P]; omega))
      omega
  exact ⟨key _ _ e0 (bcircuit_operands P hi (Or.inl rfl)), key _ _ e1 (bcircuit_operands P hi (Or.inr rfl))⟩

theorem bcircuit_wf {c : ReadCircuit} (A : Assigned (bcircuit B) c) : NetlistWF c := by
  have O := bcircuit_oneDriver P
  have hw := A.wireCount
  have hg := A.gates
  have hgl : (bcircuit B).gates.length = B.gates.length := by simp [bcircuit]
  have hiid : c.iid = B.g + B.e := by
    rw [A.iid, bcircuit_cellBase P]; rfl
  have hinit : (asCircuit c).initSize = 0 := A.initSize
  rw [bcircuit_drivers P] at hw
  have hin := P.inputs
  have hfew := P.few
  refine ⟨by omega, ?_, ?_, ?_, ?_, ?_, by omega⟩
  · refine acyclic_of_rank (fun w => w) ?_
    rintro b a ⟨i, g, hgi, rfl, hb⟩
    obtain ⟨hi, rfl⟩ := List.getElem?_eq_some_iff.1 hgi
    have := bcircuit_number P A (by omega) hi
    omega
  · intro g hm
    obtain ⟨i, hi, rfl⟩ := List.getElem_of_mem hm
    have hn := bcircuit_number P A (by omega) hi
    have ht := (A.gate i (by omega) hi).2.2.2
    refine ⟨?_, ?_, ?_⟩
    · unfold Readable; rw [hinit, hw]; omega
    · unfold Readable; rw [hinit, hw]; omega
    · rw [ht]; exact (bcircuit_legal P).types _ (List.getElem_mem _)
  · intro g hm
    have : c.dffs.length = 0 := A.dffs
    rw [List.eq_nil_of_length_eq_zero this] at hm
    cases hm
  · intro w hm
    obtain ⟨j, hj, rfl⟩ := List.getElem_of_mem hm
    have e := A.outEntry hj
    rw [A.outputs] at hj
    obtain ⟨k, hk, ek⟩ := bcircuit_out P (k := j) hj
    rw [← ek] at e
    have := Entry.unique O e (Entry.driver (by rw [bcircuit_drivers P]; exact hk))
    rw [hinit, hw]
    omega
  · have := A.term
    rw [if_neg (by simp [bcircuit, bristPorts, CircuitStr.empty])] at this
    exact Or.inl this

/-- The gates computed one after the other satisfy the equations. -/
theorem beval_prefix {x : Inputs} {v : Nat → Name → Bool} (hv : NamedSolves (bcircuit B) x v) (t : Nat) (f : Nat → Bool)
    (hf : ∀ w < B.g + B.e, v t (bname B w) = f w) : ∀ (i : Nat) (hi : i ≤ B.gates.length) (a : Nat),
    (a < B.g + B.e ∨ ∃ j, ∃ hj : j < i, (B.gates[j]'(Nat.lt_of_lt_of_le hj hi)).out = a) →
    v t (bname B a) = (B.gates.take i).foldl (fun v gate w => if w = gate.out then gate.value v else v w) f a := by
  intro i
  induction i with
  | zero =>
    intro hi a ha
    rcases ha with ha | ⟨j, hj, _⟩
    · simpa using hf a ha
    · omega
  | succ i ih =>
    intro hi a ha
    have hi' : i < B.gates.length := by omega
    rw [List.take_add_one, List.getElem?_eq_getElem hi', Option.toList_some, List.foldl_append, List.foldl_cons, List.foldl_nil]
    by_cases he : a = B.gates[i].out
    · rw [if_pos he, he]
      have hg := hv.gate t (bgate B B.gates[i]) (List.mem_map.2 ⟨_, List.getElem_mem hi', rfl⟩)
      rw [bgate_output P] at hg
      rw [hg]
      have hr := P.reads i hi'
      have IH := ih (by omega)
      generalize List.foldl (fun v gate w => if w = gate.out then gate.value v else v w) f (B.gates.take i) = u at IH
      cases hgi : B.gates[i] with
      | and a b o =>
        rw [hgi] at hr
        simp only [bgate, BGate.value]
        rw [IH a (hr a (by simp [BGate.ins])), IH b (hr b (by simp [BGate.ins]))]
        cases u a <;> cases u b <;> decide
      | xor a b o =>
        rw [hgi] at hr
        simp only [bgate, BGate.value]
        rw [IH a (hr a (by simp [BGate.ins])), IH b (hr b (by simp [BGate.ins]))]
        cases u a <;> cases u b <;> decide
      | inv a o =>
        rw [hgi] at hr
        simp only [bgate, BGate.value]
        rw [IH a (hr a (by simp [BGate.ins])), hv.missing]
        cases u a <;> decide
    · rw [if_neg he]
      refine ih (by omega) a ?_
      rcases ha with ha | ⟨j, hj, e⟩
      · exact Or.inl ha
      · right
        by_cases hji : j = i
        · subst hji; exact absurd e.symm he
        · exact ⟨j, by omega, e⟩

end
end TinyGarble.Proof
