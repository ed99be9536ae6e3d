import Verif.Proof.Sort

/-! # Renumbering: lemmas -/

namespace TinyGarble.Proof
open TinyGarble.Spec Relation

theorem mapM_eq {α β : Type} (f : α → Option β) (g : α → β) : ∀ (l : List α), (∀ a ∈ l, f a = some (g a)) →
    l.mapM f = some (l.map g)
  | [], _ => rfl
  | a :: l, h => by
    rw [List.mapM_cons, h a (List.mem_cons_self ..), mapM_eq f g l (fun b hb => h b (List.mem_cons_of_mem _ hb))]
    rfl

theorem invertList_spec (sorted : List Int) (n : Nat)
    (hp : sorted.Perm ((List.range n).map fun i : Nat => (i : Int))) :
    ∃ inv, invertList sorted = some inv ∧ inv.length = n ∧
      ∀ (k w : Nat), sorted[k]? = some (w : Int) → inv[w]? = some (k : Int) := by
  have hl : sorted.length = n := by rw [hp.length_eq]; simp
  have hmem : ∀ x ∈ sorted, ∃ w : Nat, w < n ∧ x = (w : Int) := by
    intro x hx
    obtain ⟨w, hw, rfl⟩ := List.mem_map.mp (hp.mem_iff.mp hx)
    exact ⟨w, List.mem_range.mp hw, rfl⟩
  have hnd : sorted.Nodup := by
    refine hp.nodup_iff.mpr ?_
    refine List.Nodup.map (fun a b h => Int.ofNat.inj h) List.nodup_range
  have key : ∀ m ≤ n, ∃ inv, (List.range m).foldlM (fun (inv : List Int) (i : Nat) => do
      let w ← getI sorted i
      setI inv w i) (List.replicate sorted.length 0) = some inv ∧ inv.length = n ∧
      ∀ k < m, ∀ w : Nat, sorted[k]? = some (w : Int) → inv[w]? = some (k : Int) := by
    intro m
    induction m with
    | zero => intro _; exact ⟨_, rfl, by simp [hl], fun k hk => by omega⟩
    | succ m ih =>
      intro hm
      obtain ⟨inv, e, len, h⟩ := ih (by omega)
      have hms : m < sorted.length := by omega
      obtain ⟨w, hw, ew⟩ := hmem _ (List.getElem_mem hms)
      refine ⟨inv.set w m, ?_, by simp [len], ?_⟩
      · rw [List.range_succ, List.foldlM_append, e]
        simp only [Option.bind_eq_bind, Option.bind_some, List.foldlM_cons, List.foldlM_nil, getI_nat]
        rw [List.getElem?_eq_getElem hms, ew]
        simp only [Option.bind_some]
        rw [setI_nat _ _ _ (by omega)]
        rfl
      · intro k hk u hu
        by_cases hkm : k = m
        · subst hkm
          rw [List.getElem?_eq_getElem hms, ew] at hu
          obtain rfl : w = u := Int.ofNat.inj (Option.some.inj hu)
          rw [List.getElem?_set_self (by omega)]
        · have hne : w ≠ u := by
            rintro rfl
            have hks : k < sorted.length := by omega
            rw [List.getElem?_eq_getElem hks, ← ew] at hu
            have := (List.Nodup.getElem_inj_iff hnd).mp (Option.some.inj hu)
            exact hkm this
          rw [List.getElem?_set_ne hne]
          exact h k (by omega) u hu
  obtain ⟨inv, e, len, h⟩ := key n (Nat.le_refl _)
  refine ⟨inv, ?_, len, fun k w hk => ?_⟩
  · unfold invertList; rw [← e, hl]
  · have : k < sorted.length := by
      rcases Nat.lt_or_ge k sorted.length with h | h
      · exact h
      · rw [List.getElem?_eq_none h] at hk; cases hk
    exact h k (by omega) w hk

/-- The two directions of the renumbering: wire `w` gets the new number `π w`; the new wire `k` was `σ k`. -/
structure Renum (c : ReadCircuit) (order inv : List Int) (π σ : Nat → Nat) : Prop where
  order : ∀ k < wireCount c, order[k]? = some (σ k : Int)
  inv : ∀ w < wireCount c, inv[w]? = some (π w : Int)
  σlt : ∀ k < wireCount c, σ k < wireCount c
  πlt : ∀ w < wireCount c, π w < wireCount c
  πσ : ∀ k < wireCount c, π (σ k) = k
  σπ : ∀ w < wireCount c, σ (π w) = w
  σfix : ∀ w < c.iid, σ w = w
  πfix : ∀ w < c.iid, π w = w
  lt : ∀ a b, Feeds c b a → b < wireCount c → π b < π a

theorem renum_exists {c : ReadCircuit} {order : List Int} (h : Ordered c order) :
    ∃ inv π σ, invertList order = some inv ∧ Renum c order inv π σ := by
  obtain ⟨inv, e, len, hi⟩ := invertList_spec order _ h.all
  have hl : order.length = wireCount c := by rw [h.all.length_eq]; simp
  have hmem : ∀ k < wireCount c, ∃ w : Nat, w < wireCount c ∧ order[k]? = some (w : Int) := by
    intro k hk
    have hk' : k < order.length := by omega
    obtain ⟨w, hw, ew⟩ := List.mem_map.mp (h.all.mem_iff.mp (List.getElem_mem hk'))
    exact ⟨w, List.mem_range.mp hw, by rw [List.getElem?_eq_getElem hk', ew]⟩
  have hsurj : ∀ w < wireCount c, ∃ k : Nat, k < wireCount c ∧ order[k]? = some (w : Int) := by
    intro w hw
    have : (w : Int) ∈ order := h.all.mem_iff.mpr (List.mem_map.mpr ⟨w, List.mem_range.mpr hw, rfl⟩)
    obtain ⟨k, hk, ek⟩ := List.mem_iff_getElem.mp this
    exact ⟨k, by omega, by rw [List.getElem?_eq_getElem hk, ek]⟩
  have ho : ∀ k < wireCount c, order[k]? = some (((order[k]?.getD 0).toNat : Nat) : Int) := by
    intro k hk
    obtain ⟨w, _, ew⟩ := hmem k hk
    rw [ew]; simp
  have hinv : ∀ k w : Nat, order[k]? = some (w : Int) → (inv[w]?.getD 0).toNat = k := by
    intro k w hk
    rw [hi k w hk]; simp
  have hso : ∀ k w : Nat, order[k]? = some (w : Int) → (order[k]?.getD 0).toNat = w := by
    intro k w hk
    rw [hk]; simp
  have hio : c.iid ≤ wireCount c := by unfold wireCount; omega
  refine ⟨inv, fun w => (inv[w]?.getD 0).toNat, fun k => (order[k]?.getD 0).toNat, e, ho, ?_, ?_, ?_, ?_, ?_, ?_, ?_, ?_⟩
  · intro w hw
    obtain ⟨k, hk, ek⟩ := hsurj w hw
    rw [hi k w ek]; simp
  · intro k hk
    obtain ⟨w, hw, ew⟩ := hmem k hk
    simp only [hso k w ew]; exact hw
  · intro w hw
    obtain ⟨k, hk, ek⟩ := hsurj w hw
    simp only [hinv k w ek]; exact hk
  · intro k hk
    exact hinv k _ (ho k hk)
  · intro w hw
    obtain ⟨k, hk, ek⟩ := hsurj w hw
    simp only [hinv k w ek]
    exact hso k w ek
  · intro w hw
    exact hso w w (h.first w hw)
  · intro w hw
    exact hinv w w (h.first w hw)
  · intro a b hf hb
    have ha : a < wireCount c := by
      obtain ⟨i, g, hg, rfl, _⟩ := hf
      have : i < c.gates.length := by
        rcases Nat.lt_or_ge i c.gates.length with h | h
        · exact h
        · rw [List.getElem?_eq_none h] at hg; cases hg
      unfold wireCount; omega
    obtain ⟨k, hk, ek⟩ := hsurj a ha
    obtain ⟨m, hm, em⟩ := h.after k a b ek hf
    simp only [hinv k a ek, hinv m b em]
    exact hm

/-- The new number of a reference. -/
def newRef (π : Nat → Nat) (w : Int) : Int := if w < 0 then w else (π w.toNat : Int)

theorem Renum.renumber {c : ReadCircuit} {order inv : List Int} {π σ : Nat → Nat} (R : Renum c order inv π σ)
    (h0 : 0 < c.iid) {w : Int} (hw : w < (wireCount c : Int)) : renumber inv w = some (newRef π w) := by
  unfold TinyGarble.renumber newRef
  by_cases h : 0 < w
  · rw [if_pos h, if_neg (by omega)]
    obtain ⟨u, rfl⟩ : ∃ u : Nat, w = (u : Int) := ⟨w.toNat, by omega⟩
    rw [getI_nat, R.inv u (by omega), Int.toNat_natCast]
  · rw [if_neg h]
    by_cases h' : w < 0
    · rw [if_pos h']
    · obtain rfl : w = 0 := by omega
      rw [if_neg h']
      have := R.πfix 0 h0
      simp [this]

theorem Renum.getI {c : ReadCircuit} {order inv : List Int} {π σ : Nat → Nat} (R : Renum c order inv π σ)
    {w : Int} (h0 : 0 ≤ w) (hw : w < (wireCount c : Int)) : getI inv w = some (newRef π w) := by
  unfold newRef
  rw [if_neg (by omega)]
  obtain ⟨u, rfl⟩ : ∃ u : Nat, w = (u : Int) := ⟨w.toNat, by omega⟩
  rw [getI_nat, R.inv u (by omega), Int.toNat_natCast]

/-- The netlist after `SortNetlist`. -/
def renumbered (c : ReadCircuit) (order : List Int) (π : Nat → Nat) : ReadCircuit :=
  { c with
    gates := (List.range c.gates.length).map fun i => match c.gates[i]? with
      | some g => { g with input0 := newRef π g.input0, input1 := newRef π g.input1, output := (π (c.iid + i) : Int) }
      | none => ⟨0, 0, 0, 0⟩
    dffs := c.dffs.map fun g => { g with input0 := newRef π g.input0, input1 := newRef π g.input1, output := newRef π g.output }
    outputs := c.outputs.map (newRef π)
    terminateId := newRef π c.terminateId
    schedule := (order.drop c.iid).map fun w : Int => w - (c.iid : Int) }

/-- All of `SortNetlist` but the outputs and the terminate signal. -/
theorem sortNetlist_steps {c : ReadCircuit} (h0 : 0 < c.iid) (ha : Acyclic c) (hop : OperandsExist c)
    (hd : ∀ g ∈ c.dffs, g.input0 < (wireCount c : Int) ∧ g.input1 < (wireCount c : Int)
      ∧ 0 ≤ g.output ∧ g.output < (wireCount c : Int)) :
    ∃ order inv π σ, Ordered c order ∧ Renum c order inv π σ ∧ sortNetlist c = (do
      let outputs ← c.outputs.mapM (TinyGarble.getI inv)
      let terminateId ← (if c.terminateId ≠ 0 then TinyGarble.getI inv c.terminateId else some 0 : Option Int)
      return some { renumbered c order π with outputs := outputs, terminateId := terminateId }) := by
  rcases topologicalSort_spec c hop with ⟨_, h⟩ | ⟨order, e, h⟩
  · exact absurd ha h
  obtain ⟨inv, π, σ, ei, R⟩ := renum_exists h
  refine ⟨order, inv, π, σ, h, R, ?_⟩
  have hdff : c.dffs.mapM (renumberDff inv) = some (c.dffs.map fun g =>
      { g with input0 := newRef π g.input0, input1 := newRef π g.input1, output := newRef π g.output }) := by
    refine mapM_eq _ _ _ fun g hg => ?_
    obtain ⟨g0, g1, g2, g3⟩ := hd g hg
    unfold renumberDff
    rw [R.renumber h0 g0, R.renumber h0 g1, R.getI g2 g3]
    rfl
  have hgates : (List.range c.gates.length).mapM (renumberGate c inv) = some (renumbered c order π).gates := by
    refine mapM_eq _ _ _ fun i hi => ?_
    have hi := List.mem_range.mp hi
    unfold renumberGate
    obtain ⟨g0, g1⟩ := hop _ (List.getElem_mem hi)
    rw [getI_nat, getI_nat, R.inv _ (by unfold wireCount; omega), List.getElem?_eq_getElem hi]
    simp only [Option.bind_eq_bind, Option.bind_some]
    rw [R.renumber h0 g0, R.renumber h0 g1]
    rfl
  have hchk : gateChecked c (renumbered c order π).gates = true := by
    unfold gateChecked
    rw [List.all_eq_true]
    intro i hi
    have hi : i < c.gates.length := by simpa [renumbered] using hi
    have e1 : (renumbered c order π).gates[i]? = some { c.gates[i] with
        input0 := newRef π c.gates[i].input0, input1 := newRef π c.gates[i].input1, output := (π (c.iid + i) : Int) } := by
      simp [renumbered, List.getElem?_map, List.getElem?_range hi, List.getElem?_eq_getElem hi]
    rw [e1, List.getElem?_eq_getElem hi]
    obtain ⟨g0, g1⟩ := hop _ (List.getElem_mem hi)
    have go : ∀ w : Int, w < (wireCount c : Int) → (c.gates[i].input0 = w ∨ c.gates[i].input1 = w) →
        (!decide (0 < w) || decide (newRef π w < (π (c.iid + i) : Int))) = true := by
      intro w hw hor
      by_cases hp : 0 < w
      · have : newRef π w < (π (c.iid + i) : Int) := by
          unfold newRef
          rw [if_neg (by omega)]
          have := R.lt (c.iid + i) w.toNat ⟨i, _, List.getElem?_eq_getElem hi, rfl, by
            rcases hor with h | h
            · left; omega
            · right; omega⟩ (by omega)
          omega
        simp [this]
      · simp [hp]
    simp only [Bool.and_eq_true]
    exact ⟨go _ g0 (Or.inl rfl), go _ g1 (Or.inr rfl)⟩
  unfold sortNetlist
  rw [e]
  simp only [Option.bind_eq_bind, Option.bind_some]
  rw [ei]
  simp only [Option.bind_some]
  rw [hdff]
  simp only [Option.bind_some]
  rw [hgates]
  simp only [Option.bind_some]
  rw [if_neg (by rw [hchk]; decide)]
  rfl

theorem sortNetlist_eq {c : ReadCircuit} (wf : NetlistWF c) :
    ∃ order inv π σ, Ordered c order ∧ Renum c order inv π σ ∧ sortNetlist c = some (some (renumbered c order π)) := by
  have hop : OperandsExist c := by
    intro g hg
    obtain ⟨h0, h1, _⟩ := wf.gates g hg
    unfold Readable at h0 h1
    omega
  obtain ⟨order, inv, π, σ, ho, R, e⟩ := sortNetlist_steps wf.some wf.acyclic hop (fun g hg => by
    obtain ⟨h0, h1⟩ := wf.dffs g hg
    unfold Readable at h0
    exact ⟨by omega, h1⟩)
  refine ⟨order, inv, π, σ, ho, R, ?_⟩
  have hout : c.outputs.mapM (TinyGarble.getI inv) = some (c.outputs.map (newRef π)) := by
    refine mapM_eq _ _ _ fun w hw => ?_
    obtain ⟨h0, h1⟩ := wf.outputs w hw
    exact R.getI (by omega) h1
  have hterm : (if c.terminateId ≠ 0 then TinyGarble.getI inv c.terminateId else some 0 : Option Int)
      = some (newRef π c.terminateId) := by
    rcases wf.term with h | ⟨h0, h1⟩
    · rw [h]; simp [newRef, R.πfix 0 wf.some]
    · by_cases h : c.terminateId = 0
      · rw [h]; simp [newRef, R.πfix 0 wf.some]
      · rw [if_pos h]; exact R.getI (by omega) h1
  rw [e, hout]
  simp only [Option.bind_eq_bind, Option.bind_some]
  rw [hterm]
  rfl

section sem
variable {c : ReadCircuit} {order inv : List Int} {π σ : Nat → Nat}

theorem Renum.operand (R : Renum c order inv π σ) (v : Nat → Bool) {w : Int} (hw : w < (wireCount c : Int)) :
    operand (fun k => v (σ k)) (newRef π w) = operand v w := by
  unfold Spec.operand newRef
  by_cases h : w < 0
  · simp [h]
  · rw [if_neg h, if_neg (by omega), if_neg (by omega), if_neg (by omega), if_neg (by omega), Int.toNat_natCast]
    show v (σ (π w.toNat)) = _
    rw [R.σπ _ (by omega)]

/-- Wires that are not gates stay, gates stay gates. -/
theorem Renum.πge (R : Renum c order inv π σ) {w : Nat} (h1 : c.iid ≤ w) (h2 : w < wireCount c) : c.iid ≤ π w := by
  rcases Nat.lt_or_ge (π w) c.iid with h | h
  · have e := R.σfix _ h
    rw [R.σπ w h2] at e
    omega
  · exact h

theorem Renum.σge (R : Renum c order inv π σ) {w : Nat} (h1 : c.iid ≤ w) (h2 : w < wireCount c) : c.iid ≤ σ w := by
  rcases Nat.lt_or_ge (σ w) c.iid with h | h
  · have e := R.πfix _ h
    rw [R.πσ w h2] at e
    omega
  · exact h

theorem Renum.initialBit (R : Renum c order inv π σ) (x : Inputs) {w : Int} (hw : w < (wireCount c : Int)) :
    Spec.initialBit (asCircuit c) x (newRef π w) = Spec.initialBit (asCircuit c) x w := by
  unfold newRef
  by_cases h : w < 0
  · rw [if_pos h]
  · rw [if_neg h]
    by_cases h2 : w.toNat < c.iid
    · rw [R.πfix _ h2]
      congr 1; omega
    · have := R.πge (w := w.toNat) (by omega) (by omega)
      unfold ReadCircuit.iid at this h2
      unfold Spec.initialBit asCircuit
      simp only
      rw [Int.toNat_natCast]
      simp only [if_neg (show ¬ ((π w.toNat : Nat) : Int) = -3 by omega), if_neg (show ¬ ((π w.toNat : Nat) : Int) < 0 by omega),
        if_neg (show ¬ w = -3 by omega), if_neg h,
        if_neg (show ¬ π w.toNat < c.pInit by omega), if_neg (show ¬ π w.toNat < c.pInit + c.gInit by omega),
        if_neg (show ¬ π w.toNat < c.pInit + c.gInit + c.eInit by omega),
        if_neg (show ¬ w.toNat < c.pInit by omega), if_neg (show ¬ w.toNat < c.pInit + c.gInit by omega),
        if_neg (show ¬ w.toNat < c.pInit + c.gInit + c.eInit by omega)]

/-- Gate `k` of the result. -/
theorem Renum.gate (R : Renum c order inv π σ) {k : Nat} (hk : k < c.gates.length) :
    ∃ (i : Nat) (hi : i < c.gates.length), σ (c.iid + k) = c.iid + i ∧
      (scheduled (renumbered c order π)).gate k =
        ⟨newRef π c.gates[i].input0, newRef π c.gates[i].input1, c.gates[i].type⟩ := by
  have hkw : c.iid + k < wireCount c := by unfold wireCount; omega
  have h1 := R.σge (w := c.iid + k) (by omega) hkw
  have h2 := R.σlt _ hkw
  have hi : σ (c.iid + k) - c.iid < c.gates.length := by unfold wireCount at h2; omega
  refine ⟨σ (c.iid + k) - c.iid, hi, by omega, ?_⟩
  have es : (renumbered c order π).schedule[k]? = some (((σ (c.iid + k) - c.iid : Nat)) : Int) := by
    simp only [renumbered, List.getElem?_map, List.getElem?_drop]
    rw [R.order _ hkw]
    simp only [Option.map_some]
    congr 1; omega
  unfold scheduled
  simp only [es, Int.toNat_natCast]
  unfold asCircuit
  simp only [renumbered, List.getElem?_map, List.getElem?_range hi, Option.map_some, List.getElem?_eq_getElem hi]

/-- A gate of the netlist in the result. -/
theorem Renum.gate' (R : Renum c order inv π σ) {i : Nat} (hi : i < c.gates.length) :
    ∃ k < c.gates.length, π (c.iid + i) = c.iid + k ∧
      (scheduled (renumbered c order π)).gate k =
        ⟨newRef π c.gates[i].input0, newRef π c.gates[i].input1, c.gates[i].type⟩ := by
  have hiw : c.iid + i < wireCount c := by unfold wireCount; omega
  have h1 := R.πge (w := c.iid + i) (by omega) hiw
  have h2 := R.πlt _ hiw
  have hk : π (c.iid + i) - c.iid < c.gates.length := by unfold wireCount at h2; omega
  refine ⟨π (c.iid + i) - c.iid, hk, by omega, ?_⟩
  obtain ⟨j, hj, e, eg⟩ := R.gate hk
  have : j = i := by
    rw [show c.iid + (π (c.iid + i) - c.iid) = π (c.iid + i) by omega, R.σπ _ hiw] at e
    omega
  subst this
  exact eg

theorem bases_as (c : ReadCircuit) : gateBase (asCircuit c) = c.iid := by
  unfold gateBase ffBase inputBase asCircuit ReadCircuit.iid; simp only

theorem Renum.solves (R : Renum c order inv π σ) (wf : NetlistWF c) (x : Inputs)
    (v : Nat → Nat → Bool) (h : Solves (asCircuit c) x v) :
    Solves (scheduled (renumbered c order π)) x (fun t k => v t (σ k)) := by
  have hl : ∀ w, w < ffBase (asCircuit c) + c.dffs.length → σ w = w := by
    intro w hw
    refine R.σfix _ ?_
    unfold ffBase inputBase asCircuit at hw
    unfold ReadCircuit.iid
    exact hw
  refine ⟨fun t k hk => ?_, fun t k hk => ?_, fun t k hk => ?_, fun i hi => ?_, fun t i hi => ?_, fun t k hk => ?_⟩
  · refine Eq.trans ?_ (h.pIn t k hk)
    have hk : k < c.pInput := hk
    show v t (σ (inputBase (asCircuit c) + k)) = _
    rw [hl _ (by unfold ffBase; simp only [asCircuit]; omega)]
  · refine Eq.trans ?_ (h.gIn t k hk)
    have hk : k < c.gInput := hk
    show v t (σ (inputBase (asCircuit c) + c.pInput + k)) = _
    rw [hl _ (by unfold ffBase; simp only [asCircuit]; omega)]
    rfl
  · refine Eq.trans ?_ (h.eIn t k hk)
    have hk : k < c.eInput := hk
    show v t (σ (inputBase (asCircuit c) + c.pInput + c.gInput + k)) = _
    rw [hl _ (by unfold ffBase; simp only [asCircuit]; omega)]
    rfl
  · have hi : i < c.dffs.length := by simpa [scheduled, asCircuit, renumbered] using hi
    show v 0 (σ (ffBase (scheduled (renumbered c order π)) + i)) = _
    have e1 : (scheduled (renumbered c order π)).I i = newRef π ((asCircuit c).I i) := by
      simp [scheduled, asCircuit, renumbered, List.getElem?_eq_getElem hi]
    rw [e1, show ffBase (scheduled (renumbered c order π)) = ffBase (asCircuit c) from rfl, hl _ (by omega), h.ffInit i hi]
    refine (R.initialBit x ?_).symm
    have := (wf.dffs _ (List.getElem_mem hi)).2.1
    simpa [asCircuit, List.getElem?_eq_getElem hi] using this
  · have hi : i < c.dffs.length := by simpa [scheduled, asCircuit, renumbered] using hi
    show v (t + 1) (σ (ffBase (scheduled (renumbered c order π)) + i)) = _
    have e1 : (scheduled (renumbered c order π)).D i = newRef π ((asCircuit c).D i) := by
      simp [scheduled, asCircuit, renumbered, List.getElem?_eq_getElem hi]
    rw [e1, show ffBase (scheduled (renumbered c order π)) = ffBase (asCircuit c) from rfl, hl _ (by omega), h.ffNext t i hi]
    refine (R.operand (v t) ?_).symm
    have := (wf.dffs _ (List.getElem_mem hi)).1
    unfold Readable at this
    simp only [asCircuit, List.getElem?_eq_getElem hi] at this ⊢
    omega
  · have hk : k < c.gates.length := by simpa [scheduled, asCircuit, renumbered] using hk
    obtain ⟨i, hi, es, eg⟩ := R.gate hk
    have hb : gateBase (scheduled (renumbered c order π)) = c.iid := by
      rw [← bases_as]
      unfold gateBase ffBase inputBase scheduled asCircuit renumbered
      simp
    show v t (σ (gateBase (scheduled (renumbered c order π)) + k)) = _
    rw [hb, es, eg]
    have hg := h.gate t i hi
    rw [bases_as] at hg
    rw [hg]
    have eg0 : (asCircuit c).gate i = ⟨c.gates[i].input0, c.gates[i].input1, c.gates[i].type⟩ := by
      simp [asCircuit, List.getElem?_eq_getElem hi]
    rw [eg0]
    obtain ⟨h0, h1, _⟩ := wf.gates _ (List.getElem_mem hi)
    unfold Readable at h0 h1
    rw [R.operand (v t) (w := c.gates[i].input0) (by omega), R.operand (v t) (w := c.gates[i].input1) (by omega)]

theorem Renum.solves' (R : Renum c order inv π σ) (wf : NetlistWF c) (x : Inputs)
    (u : Nat → Nat → Bool) (h : Solves (scheduled (renumbered c order π)) x u) :
    Solves (asCircuit c) x (fun t w => u t (π w)) := by
  have hl : ∀ w, w < ffBase (asCircuit c) + c.dffs.length → π w = w := by
    intro w hw
    refine R.πfix _ ?_
    unfold ffBase inputBase asCircuit at hw
    unfold ReadCircuit.iid
    exact hw
  have hop : ∀ (t : Nat) {w : Int}, w < (wireCount c : Int) →
      Spec.operand (fun w => u t (π w)) w = Spec.operand (u t) (newRef π w) := by
    intro t w hw
    unfold Spec.operand newRef
    by_cases hn : w < 0
    · simp [hn]
    · rw [if_neg hn, if_neg (by omega), if_neg (by omega), if_neg (by omega), if_neg (by omega), Int.toNat_natCast]
  refine ⟨fun t k hk => ?_, fun t k hk => ?_, fun t k hk => ?_, fun i hi => ?_, fun t i hi => ?_, fun t i hi => ?_⟩
  · refine Eq.trans ?_ (h.pIn t k hk)
    have hk : k < c.pInput := hk
    show u t (π (inputBase (asCircuit c) + k)) = _
    rw [hl _ (by unfold ffBase; simp only [asCircuit]; omega)]
    rfl
  · refine Eq.trans ?_ (h.gIn t k hk)
    have hk : k < c.gInput := hk
    show u t (π (inputBase (asCircuit c) + c.pInput + k)) = _
    rw [hl _ (by unfold ffBase; simp only [asCircuit]; omega)]
    rfl
  · refine Eq.trans ?_ (h.eIn t k hk)
    have hk : k < c.eInput := hk
    show u t (π (inputBase (asCircuit c) + c.pInput + c.gInput + k)) = _
    rw [hl _ (by unfold ffBase; simp only [asCircuit]; omega)]
    rfl
  · have hi : i < c.dffs.length := hi
    show u 0 (π (ffBase (asCircuit c) + i)) = _
    have e1 : (scheduled (renumbered c order π)).I i = newRef π ((asCircuit c).I i) := by
      simp [scheduled, asCircuit, renumbered, List.getElem?_eq_getElem hi]
    have hh := h.ffInit i (by simpa [scheduled, asCircuit, renumbered] using hi)
    rw [e1, show ffBase (scheduled (renumbered c order π)) = ffBase (asCircuit c) from rfl] at hh
    rw [hl _ (by omega), hh]
    refine R.initialBit x ?_
    have := (wf.dffs _ (List.getElem_mem hi)).2.1
    simpa [asCircuit, List.getElem?_eq_getElem hi] using this
  · have hi : i < c.dffs.length := hi
    show u (t + 1) (π (ffBase (asCircuit c) + i)) = _
    have e1 : (scheduled (renumbered c order π)).D i = newRef π ((asCircuit c).D i) := by
      simp [scheduled, asCircuit, renumbered, List.getElem?_eq_getElem hi]
    have hh := h.ffNext t i (by simpa [scheduled, asCircuit, renumbered] using hi)
    rw [e1, show ffBase (scheduled (renumbered c order π)) = ffBase (asCircuit c) from rfl] at hh
    rw [hl _ (by omega), hh]
    refine (hop t ?_).symm
    have := (wf.dffs _ (List.getElem_mem hi)).1
    unfold Readable at this
    simp only [asCircuit, List.getElem?_eq_getElem hi] at this ⊢
    omega
  · have hi : i < c.gates.length := hi
    obtain ⟨k, hk, es, eg⟩ := R.gate' hi
    have hb : gateBase (scheduled (renumbered c order π)) = c.iid := by
      rw [← bases_as]
      unfold gateBase ffBase inputBase scheduled asCircuit renumbered
      simp
    show u t (π (gateBase (asCircuit c) + i)) = _
    have hg := h.gate t k (by simpa [scheduled, asCircuit, renumbered] using hk)
    rw [hb, eg] at hg
    rw [bases_as, es, hg]
    have eg0 : (asCircuit c).gate i = ⟨c.gates[i].input0, c.gates[i].input1, c.gates[i].type⟩ := by
      simp [asCircuit, List.getElem?_eq_getElem hi]
    rw [eg0]
    obtain ⟨h0, h1, _⟩ := wf.gates _ (List.getElem_mem hi)
    unfold Readable at h0 h1
    rw [hop t (w := c.gates[i].input0) (by omega), hop t (w := c.gates[i].input1) (by omega)]

theorem Renum.init_ge (R : Renum c order inv π σ) {w : Nat} (h1 : (asCircuit c).initSize ≤ w) (h2 : w < wireCount c) :
    (asCircuit c).initSize ≤ π w := by
  have hi : (asCircuit c).initSize ≤ c.iid := by
    unfold Circuit.initSize asCircuit ReadCircuit.iid; simp only; omega
  rcases Nat.lt_or_ge w c.iid with h | h
  · rw [R.πfix w h]; exact h1
  · exact Nat.le_trans hi (R.πge h h2)

theorem Renum.wf (R : Renum c order inv π σ) (wf : NetlistWF c) :
    WF (scheduled (renumbered c order π)) := by
  have hlo : (scheduled (renumbered c order π)).gateLo = c.iid := by
    simp [Circuit.gateLo, Circuit.dffLo, Circuit.eInputLo, Circuit.gInputLo, Circuit.pInputLo, Circuit.gInitHi, Circuit.pInitHi,
      scheduled, asCircuit, renumbered, ReadCircuit.iid]
  have hws : (scheduled (renumbered c order π)).wireSize = wireCount c := by
    simp [Circuit.wireSize, Circuit.initSize, Circuit.inputSize, scheduled, asCircuit, renumbered, ReadCircuit.iid, wireCount]
    omega
  have hin : (scheduled (renumbered c order π)).initSize = (asCircuit c).initSize := rfl
  have hread : ∀ (w : Int) (hi : Nat), Readable (asCircuit c) (wireCount c) w →
      (∀ u : Nat, w = (u : Int) → π u < hi) → Readable (scheduled (renumbered c order π)) hi (newRef π w) := by
    intro w hi h1 h2
    unfold Readable at h1 ⊢
    unfold newRef
    by_cases hn : w < 0
    · rw [if_pos hn]; exact Or.inl hn
    · rw [if_neg hn]
      have a := h2 w.toNat (by omega)
      have b := R.init_ge (w := w.toNat) (by omega) (by omega)
      rw [hin]
      exact Or.inr ⟨by omega, by omega⟩
  have hgate : ∀ k < c.gates.length, ∀ w : Int, ∀ (i : Nat) (hi : i < c.gates.length), σ (c.iid + k) = c.iid + i →
      (c.gates[i].input0 = w ∨ c.gates[i].input1 = w) → Readable (asCircuit c) (wireCount c) w →
      Readable (scheduled (renumbered c order π)) (c.iid + k) (newRef π w) := by
    intro k hk w i hi es hor hr
    refine hread w _ hr fun u hu => ?_
    subst hu
    have hkw : c.iid + k < wireCount c := by unfold wireCount; omega
    have := R.lt (c.iid + i) u ⟨i, _, List.getElem?_eq_getElem hi, rfl, hor⟩ (by unfold Readable at hr; omega)
    rw [← es, R.πσ _ hkw] at this
    exact this
  refine ⟨fun k hk => ?_, fun k hk => ?_, fun k hk => ?_, fun i hi => ?_, fun i hi => ?_, ?_, ?_⟩
  · have hk : k < c.gates.length := by simpa [scheduled, asCircuit, renumbered] using hk
    obtain ⟨i, hi, es, eg⟩ := R.gate hk
    rw [eg, hlo]
    exact hgate k hk _ i hi es (Or.inl rfl) (wf.gates _ (List.getElem_mem hi)).1
  · have hk : k < c.gates.length := by simpa [scheduled, asCircuit, renumbered] using hk
    obtain ⟨i, hi, es, eg⟩ := R.gate hk
    rw [eg, hlo]
    exact hgate k hk _ i hi es (Or.inr rfl) (wf.gates _ (List.getElem_mem hi)).2.1
  · have hk : k < c.gates.length := by simpa [scheduled, asCircuit, renumbered] using hk
    obtain ⟨i, hi, es, eg⟩ := R.gate hk
    rw [eg]
    exact (wf.gates _ (List.getElem_mem hi)).2.2
  · have hi : i < c.dffs.length := by simpa [scheduled, asCircuit, renumbered] using hi
    have e1 : (scheduled (renumbered c order π)).D i = newRef π c.dffs[i].input0 := by
      simp [scheduled, asCircuit, renumbered, List.getElem?_eq_getElem hi]
    rw [e1, hws]
    have hr := (wf.dffs _ (List.getElem_mem hi)).1
    refine hread _ _ hr fun u hu => R.πlt _ ?_
    unfold Readable at hr; omega
  · have hi : i < c.outputs.length := by simpa [scheduled, asCircuit, renumbered] using hi
    have e1 : (scheduled (renumbered c order π)).outputs i = newRef π c.outputs[i] := by
      simp [scheduled, asCircuit, renumbered, List.getElem?_eq_getElem hi]
    rw [e1, hws, hin]
    obtain ⟨h0, h1⟩ := wf.outputs _ (List.getElem_mem hi)
    unfold newRef
    rw [if_neg (by omega)]
    have a := R.init_ge (w := c.outputs[i].toNat) (by omega) (by omega)
    have b := R.πlt c.outputs[i].toNat (by omega)
    omega
  · rw [hws, hin]
    show (newRef π c.terminateId).toNat = 0 ∨ _ ≤ (newRef π c.terminateId).toNat ∧ (newRef π c.terminateId).toNat < _
    rcases wf.term with h | ⟨h0, h1⟩
    · left; rw [h]; simp [newRef, R.πfix 0 wf.some]
    · right
      unfold newRef
      rw [if_neg (by omega), Int.toNat_natCast]
      exact ⟨R.init_ge (by omega) (by omega), R.πlt _ (by omega)⟩
  · show (renumbered c order π).gates.length < _
    simpa [renumbered] using wf.size

end sem

end TinyGarble.Proof
