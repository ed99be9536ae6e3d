import Verif.Proof.VerilogParse
import Verif.Proof.NamedLayout

/-! # The parsed netlist and the meaning of the module -/

namespace TinyGarble.Proof
open TinyGarble.Spec

/-! ## Shape of the netlist -/

/-- The ports of a module with all gates and flip-flops of its cells. -/
def moduleNet (items : List Item) : CircuitStr :=
  { frame items with
    gates := (locate 0 (cells items)).flatMap (fun e => cellGates e.1 e.2)
    dffs := (cells items).flatMap cellDffs }

theorem setPort_get (s : CircuitStr) (w : Nat) (n : Name) :
    (setPort s w n).gates = s.gates ∧ (setPort s w n).dffs = s.dffs ∧ (setPort s w n).assigns = s.assigns
    ∧ (setPort s w n).pInit = (if "p_init".toList = n then w else s.pInit)
    ∧ (setPort s w n).gInit = (if "g_init".toList = n then w else s.gInit)
    ∧ (setPort s w n).eInit = (if "e_init".toList = n then w else s.eInit)
    ∧ (setPort s w n).pInput = (if "p_input".toList = n then w else s.pInput)
    ∧ (setPort s w n).gInput = (if "g_input".toList = n then w else s.gInput)
    ∧ (setPort s w n).eInput = (if "e_input".toList = n then w else s.eInput)
    ∧ (setPort s w n).outputSize = (if "o".toList = n then w else s.outputSize)
    ∧ (setPort s w n).hasTerminate = (s.hasTerminate || decide ("terminate".toList = n)) := by
  by_cases h : n ∈ ["p_init".toList, "g_init".toList, "e_init".toList, "p_input".toList, "g_input".toList, "e_input".toList,
      "o".toList, "terminate".toList]
  · simp only [List.mem_cons, List.not_mem_nil, or_false] at h
    rcases h with rfl | rfl | rfl | rfl | rfl | rfl | rfl | rfl <;> simp [setPort]
  · simp only [List.mem_cons, List.not_mem_nil, or_false, not_or] at h
    obtain ⟨h1, h2, h3, h4, h5, h6, h7, h8⟩ := h
    have e : setPort s w n = s := by
      unfold setPort
      rw [if_neg h1, if_neg h2, if_neg h3, if_neg h4, if_neg h5, if_neg h6, if_neg h7, if_neg h8]
    rw [e]
    refine ⟨rfl, rfl, rfl, (if_neg (Ne.symm h1)).symm, (if_neg (Ne.symm h2)).symm, (if_neg (Ne.symm h3)).symm,
      (if_neg (Ne.symm h4)).symm, (if_neg (Ne.symm h5)).symm, (if_neg (Ne.symm h6)).symm, (if_neg (Ne.symm h7)).symm, ?_⟩
    rw [decide_eq_false (Ne.symm h8), Bool.or_false]

theorem fold_keep {α : Type} (get : CircuitStr → α) (w : Nat) (h : ∀ s n, get (setPort s w n) = get s) (names : List Name) :
    ∀ s, get (names.foldl (fun s n => setPort s w n) s) = get s := by
  induction names with
  | nil => intro s; rfl
  | cons n names ih => intro s; rw [List.foldl_cons, ih, h]

theorem fold_set (get : CircuitStr → Nat) (w : Nat) (p : Name) (h : ∀ s n, get (setPort s w n) = if p = n then w else get s)
    (names : List Name) : ∀ s, get (names.foldl (fun s n => setPort s w n) s) = if p ∈ names then w else get s := by
  induction names with
  | nil => intro s; simp
  | cons n names ih =>
    intro s
    rw [List.foldl_cons, ih, h]
    by_cases h1 : p ∈ names <;> by_cases h2 : p = n <;> simp [h1, h2]

theorem fold_term (w : Nat) (names : List Name) : ∀ s : CircuitStr, (names.foldl (fun s n => setPort s w n) s).hasTerminate
    = (s.hasTerminate || decide ("terminate".toList ∈ names)) := by
  induction names with
  | nil => intro s; simp
  | cons n names ih =>
    intro s
    rw [List.foldl_cons, ih, (setPort_get s w n).2.2.2.2.2.2.2.2.2.2, Bool.or_assoc]
    congr 1
    rw [← Bool.decide_or]
    exact decide_eq_decide.2 List.mem_cons.symm

theorem apply_get (get : CircuitStr → Nat) (p : Name) (h : ∀ s w n, get (setPort s w n) = if p = n then w else get s)
    (hk : ∀ s : CircuitStr, ∀ g d a, get { s with gates := g, dffs := d, assigns := a } = get s) (s : CircuitStr) (i : Item) :
    get (applyItem s i) = (i.declares p).getD (get s) := by
  cases i with
  | input m names | output m names =>
    refine (fold_set get (msbWidth m) p (fun s n => h s _ n) names s).trans ?_
    simp only [Item.declares]
    split
    · cases m <;> rfl
    · rfl
  | assign a b => exact hk s s.gates s.dffs _
  | cell c => exact hk s _ _ s.assigns
  | other ws => rfl

theorem applies_get (get : CircuitStr → Nat) (p : Name) (h : ∀ s w n, get (setPort s w n) = if p = n then w else get s)
    (hk : ∀ s : CircuitStr, ∀ g d a, get { s with gates := g, dffs := d, assigns := a } = get s) (items : List Item)
    (hp : items.Pairwise (fun i j => ∀ n, i.declares n ≠ none → j.declares n = none)) :
    ∀ s, get (applyItems s items) = (items.findSome? (Item.declares p)).getD (get s) := by
  induction items with
  | nil => intro s; rfl
  | cons i items ih =>
    intro s
    rw [List.pairwise_cons] at hp
    have e : applyItems s (i :: items) = applyItems (applyItem s i) items := rfl
    rw [e, ih hp.2, apply_get get p h hk, List.findSome?_cons]
    cases hd : i.declares p with
    | none => rfl
    | some w =>
      have : items.findSome? (Item.declares p) = none := by
        rw [List.findSome?_eq_none_iff]
        intro j hj
        exact hp.1 j hj p (by rw [hd]; simp)
      rw [this]; rfl

theorem applies_term (items : List Item) : ∀ s : CircuitStr, (applyItems s items).hasTerminate
    = (s.hasTerminate || (items.findSome? (Item.declares "terminate".toList)).isSome) := by
  induction items with
  | nil => intro s; simp [applyItems]
  | cons i items ih =>
    intro s
    have e : applyItems s (i :: items) = applyItems (applyItem s i) items := rfl
    have e2 : (applyItem s i).hasTerminate = (s.hasTerminate || (i.declares "terminate".toList).isSome) := by
      cases i with
      | input m names | output m names =>
        refine (fold_term _ names s).trans ?_
        simp only [Item.declares]
        split
        · rename_i h; rw [decide_eq_true h]; rfl
        · rename_i h; rw [decide_eq_false h]; rfl
      | assign a b => simp [applyItem, Item.declares]
      | cell c => simp [applyItem, Item.declares]
      | other ws => simp [applyItem, Item.declares]
    rw [e, ih, e2, List.findSome?_cons]
    cases i.declares "terminate".toList <;> simp

theorem applies_lists (items : List Item) : ∀ s : CircuitStr,
    (applyItems s items).gates = s.gates ++ (locate s.gates.length (cells items)).flatMap (fun e => cellGates e.1 e.2)
    ∧ (applyItems s items).dffs = s.dffs ++ (cells items).flatMap cellDffs
    ∧ (applyItems s items).assigns = s.assigns ++ items.filterMap Item.assign? := by
  induction items with
  | nil => intro s; simp [applyItems, cells, locate]
  | cons i items ih =>
    intro s
    have e : applyItems s (i :: items) = applyItems (applyItem s i) items := rfl
    obtain ⟨h1, h2, h3⟩ := ih (applyItem s i)
    rw [e, h1, h2, h3]
    cases i with
    | input m names | output m names =>
      have k1 := fold_keep (·.gates) (msbWidth m) (fun s n => (setPort_get s _ n).1) names s
      have k2 := fold_keep (·.dffs) (msbWidth m) (fun s n => (setPort_get s _ n).2.1) names s
      have k3 := fold_keep (·.assigns) (msbWidth m) (fun s n => (setPort_get s _ n).2.2.1) names s
      simp only [applyItem, k1, k2, k3, cells, List.filterMap_cons, Item.cell?, Item.assign?, true_and]
    | assign a b => simp [applyItem, cells, List.filterMap_cons, Item.cell?, Item.assign?]
    | cell c => simp [applyItem, cells, List.filterMap_cons, Item.cell?, Item.assign?, locate]
    | other ws => simp [applyItem, cells, List.filterMap_cons, Item.cell?, Item.assign?]

theorem applies_eq {items : List Item} (h : ProperModule items) : applyItems CircuitStr.empty items = moduleNet items := by
  obtain ⟨h1, h2, h3⟩ := applies_lists items CircuitStr.empty
  have h4 := applies_term items CircuitStr.empty
  have s1 := applies_get (·.pInit) "p_init".toList (fun s w n => (setPort_get s w n).2.2.2.1) (fun _ _ _ _ => rfl) items h.once
    CircuitStr.empty
  have s2 := applies_get (·.gInit) "g_init".toList (fun s w n => (setPort_get s w n).2.2.2.2.1) (fun _ _ _ _ => rfl) items
    h.once CircuitStr.empty
  have s3 := applies_get (·.eInit) "e_init".toList (fun s w n => (setPort_get s w n).2.2.2.2.2.1) (fun _ _ _ _ => rfl) items
    h.once CircuitStr.empty
  have s4 := applies_get (·.pInput) "p_input".toList (fun s w n => (setPort_get s w n).2.2.2.2.2.2.1) (fun _ _ _ _ => rfl) items
    h.once CircuitStr.empty
  have s5 := applies_get (·.gInput) "g_input".toList (fun s w n => (setPort_get s w n).2.2.2.2.2.2.2.1) (fun _ _ _ _ => rfl)
    items h.once CircuitStr.empty
  have s6 := applies_get (·.eInput) "e_input".toList (fun s w n => (setPort_get s w n).2.2.2.2.2.2.2.2.1) (fun _ _ _ _ => rfl)
    items h.once CircuitStr.empty
  have s7 := applies_get (·.outputSize) "o".toList (fun s w n => (setPort_get s w n).2.2.2.2.2.2.2.2.2.1) (fun _ _ _ _ => rfl)
    items h.once CircuitStr.empty
  unfold moduleNet frame width
  generalize applyItems CircuitStr.empty items = N at *
  cases N
  simp only [CircuitStr.empty, List.nil_append, List.length_nil, Bool.false_or] at *
  subst h1 h2 h3 h4 s1 s2 s3 s4 s5 s6 s7
  rfl

/-! ## Gates of one cell -/

/-- The equations of gates. -/
def GatesHold (gs : List GateStr) (u : Name → Bool) : Prop := ∀ g ∈ gs, u g.output = truth g.type (u g.input0) (u g.input1)

theorem val_netAt {c : Cell} {q : String} (h : c.net q ≠ none) (u : Name → Bool) : c.val u q = u (netAt c q) := by
  unfold Cell.val netAt
  cases e : c.net q with
  | none => exact absurd e h
  | some n => rfl

theorem net_netAt {c : Cell} {q : String} (h : c.net q ≠ none) : c.net q = some (netAt c q) := by
  unfold netAt
  cases e : c.net q with
  | none => exact absurd e h
  | some n => rfl

theorem drives_iff {c : Cell} {q : String} (h : c.net q ≠ none) (u : Name → Bool) (b : Bool) :
    c.Drives u q b ↔ u (netAt c q) = b := by
  unfold Cell.Drives
  rw [net_netAt h]
  simp

theorem truth_and (a b : Bool) : truth 8 a b = (a && b) := by cases a <;> cases b <;> decide
theorem truth_xor (a b : Bool) : truth 6 a b = (a ^^ b) := by cases a <;> cases b <;> decide

/-- The gates of a cell compute its function. -/
theorem computes_of_gates {c : Cell} (h : c.Proper) {id : Nat} {u : Name → Bool} (hu : GatesHold (cellGates id c) u) :
    c.Computes u := by
  have hi := h.inputs
  have ho := h.outputs
  unfold GatesHold cellGates at hu
  unfold Cell.Computes
  cases hk : c.kind <;> simp only [hk] at hi ho hu ⊢
  case mux =>
    have n1 := val_netAt (hi "IN0" (by decide)) u
    have n2 := val_netAt (hi "IN1" (by decide)) u
    have n3 := val_netAt (hi "SEL" (by decide)) u
    rw [drives_iff (by simpa [CellKind.outputs] using ho), n1, n2, n3]
    simp only [muxGates, List.mem_cons, List.not_mem_nil, or_false, forall_eq_or_imp, forall_eq, XORGATE, ANDGATE, truth_xor,
      truth_and] at hu
    rw [hu.2.2, hu.2.1, hu.1]
    cases u (netAt c "IN0") <;> cases u (netAt c "IN1") <;> cases u (netAt c "SEL") <;> rfl
  case hadder =>
    have n1 := val_netAt (hi "IN0" (by decide)) u
    have n2 := val_netAt (hi "IN1" (by decide)) u
    rw [n1, n2]
    refine ⟨fun n hn => ?_, fun n hn => ?_⟩
    · have := hu ⟨netAt c "IN0", netAt c "IN1", n, XORGATE⟩ (by unfold hadderGates; rw [hn]; simp)
      simpa only [XORGATE, truth_xor] using this
    · have := hu ⟨netAt c "IN0", netAt c "IN1", n, ANDGATE⟩ (by unfold hadderGates; rw [hn]; simp)
      simpa only [ANDGATE, truth_and] using this
  case fadder =>
    have n1 := val_netAt (hi "IN0" (by decide)) u
    have n2 := val_netAt (hi "IN1" (by decide)) u
    have n3 := val_netAt (hi "CIN" (by decide)) u
    rw [n1, n2, n3]
    have m1 := hu ⟨netAt c "IN0", netAt c "CIN", "FADDER_MID_1_".toList ++ printNat id, XORGATE⟩ (by unfold fadderGates; simp)
    simp only [XORGATE, truth_xor] at m1
    refine ⟨fun n hn => ?_, fun n hn => ?_⟩
    · have := hu ⟨netAt c "IN1", "FADDER_MID_1_".toList ++ printNat id, n, XORGATE⟩ (by unfold fadderGates; rw [hn]; simp)
      simp only [XORGATE, truth_xor, m1] at this
      rw [this]
      cases u (netAt c "IN0") <;> cases u (netAt c "IN1") <;> cases u (netAt c "CIN") <;> rfl
    · have m2 := hu ⟨netAt c "IN1", netAt c "CIN", "FADDER_MID_2_".toList ++ printNat id, XORGATE⟩
        (by unfold fadderGates; rw [hn]; simp)
      have m3 := hu ⟨"FADDER_MID_1_".toList ++ printNat id, "FADDER_MID_2_".toList ++ printNat id,
        "FADDER_MID_3_".toList ++ printNat id, ANDGATE⟩ (by unfold fadderGates; rw [hn]; simp)
      have m4 := hu ⟨netAt c "CIN", "FADDER_MID_3_".toList ++ printNat id, n, XORGATE⟩ (by unfold fadderGates; rw [hn]; simp)
      simp only [XORGATE, truth_xor] at m2 m4
      simp only [ANDGATE, truth_and] at m3
      rw [m4, m3, m2, m1]
      cases u (netAt c "IN0") <;> cases u (netAt c "IN1") <;> cases u (netAt c "CIN") <;> rfl
  case iv =>
    have n1 := val_netAt (hi "A" (by decide)) u
    rw [drives_iff (by simpa [CellKind.outputs] using ho), n1, hu _ List.mem_cons_self]
    rfl
  all_goals
    have n1 := val_netAt (hi "A" (by decide)) u
    have n2 := val_netAt (hi "B" (by decide)) u
    rw [drives_iff (by simpa [CellKind.outputs] using ho), n1, n2, hu _ List.mem_cons_self]
    simp only [gateTypeOf]
    cases u (netAt c "A") <;> cases u (netAt c "B") <;> rfl

/-- The values of the names that the program makes up for a cell. -/
def midPairs (id : Nat) (c : Cell) (u : Name → Bool) : List (Name × Bool) :=
  match c.kind with
  | .mux => [("MUX_MID_1_".toList ++ printNat id, c.val u "IN0" ^^ c.val u "IN1"),
      ("MUX_MID_2_".toList ++ printNat id, c.val u "SEL" && (c.val u "IN0" ^^ c.val u "IN1"))]
  | .fadder => [("FADDER_MID_1_".toList ++ printNat id, c.val u "IN0" ^^ c.val u "CIN"),
      ("FADDER_MID_2_".toList ++ printNat id, c.val u "IN1" ^^ c.val u "CIN"),
      ("FADDER_MID_3_".toList ++ printNat id, (c.val u "IN0" ^^ c.val u "CIN") && (c.val u "IN1" ^^ c.val u "CIN"))]
  | _ => []

/-- The gates hold when the cell computes its function and the made-up names have their values. -/
theorem gates_of_computes {c : Cell} (h : c.Proper) {id : Nat} {u w : Name → Bool} (hc : c.Computes u)
    (hw : ∀ q n, c.net q = some n → w n = u n) (hm : ∀ e ∈ midPairs id c u, w e.1 = e.2) : GatesHold (cellGates id c) w := by
  have hi := h.inputs
  have ho := h.outputs
  have hw' : ∀ q, c.net q ≠ none → w (netAt c q) = c.val u q := by
    intro q hq
    rw [val_netAt hq, hw q _ (net_netAt hq)]
  have hd : ∀ {q n b}, c.Drives u q b → c.net q = some n → w n = b := by
    intro q n b hd hn
    rw [hw q n hn, hd n hn]
  unfold GatesHold cellGates
  unfold Cell.Computes at hc
  unfold midPairs at hm
  cases hk : c.kind <;> simp only [hk] at hi ho hc hm ⊢
  case mux =>
    have n1 := hw' _ (hi "IN0" (by decide))
    have n2 := hw' _ (hi "IN1" (by decide))
    have n3 := hw' _ (hi "SEL" (by decide))
    have n4 := hd hc (net_netAt (by simpa [CellKind.outputs] using ho))
    simp only [List.mem_cons, List.not_mem_nil, or_false, forall_eq_or_imp, forall_eq] at hm
    simp only [muxGates, List.mem_cons, List.not_mem_nil, or_false, forall_eq_or_imp, forall_eq, XORGATE, ANDGATE, truth_xor,
      truth_and]
    rw [hm.1, hm.2, n1, n2, n3, n4]
    cases c.val u "IN0" <;> cases c.val u "IN1" <;> cases c.val u "SEL" <;> decide
  case hadder =>
    have n1 := hw' _ (hi "IN0" (by decide))
    have n2 := hw' _ (hi "IN1" (by decide))
    intro g hg
    unfold hadderGates at hg
    rcases List.mem_append.1 hg with hg | hg
    · cases hn : c.net "SUM" with
      | none => rw [hn] at hg; cases hg
      | some n =>
        rw [hn] at hg
        obtain rfl := List.mem_singleton.1 hg
        simp only [XORGATE, truth_xor]
        rw [hd hc.1 hn, n1, n2]
    · cases hn : c.net "COUT" with
      | none => rw [hn] at hg; cases hg
      | some n =>
        rw [hn] at hg
        obtain rfl := List.mem_singleton.1 hg
        simp only [ANDGATE, truth_and]
        rw [hd hc.2 hn, n1, n2]
  case fadder =>
    have n1 := hw' _ (hi "IN0" (by decide))
    have n2 := hw' _ (hi "IN1" (by decide))
    have n3 := hw' _ (hi "CIN" (by decide))
    simp only [List.mem_cons, List.not_mem_nil, or_false, forall_eq_or_imp, forall_eq] at hm
    intro g hg
    unfold fadderGates at hg
    rcases List.mem_append.1 hg with hg | hg
    · rcases List.mem_append.1 hg with hg | hg
      · obtain rfl := List.mem_singleton.1 hg
        simp only [XORGATE, truth_xor]
        rw [hm.1, n1, n3]
      · cases hn : c.net "SUM" with
        | none => rw [hn] at hg; cases hg
        | some n =>
          rw [hn] at hg
          obtain rfl := List.mem_singleton.1 hg
          simp only [XORGATE, truth_xor]
          rw [hd hc.1 hn, hm.1, n2]
          cases c.val u "IN0" <;> cases c.val u "IN1" <;> cases c.val u "CIN" <;> rfl
    · cases hn : c.net "COUT" with
      | none => rw [hn] at hg; cases hg
      | some n =>
        rw [hn] at hg
        simp only [List.mem_cons, List.not_mem_nil, or_false] at hg
        rcases hg with rfl | rfl | rfl
        · simp only [XORGATE, truth_xor]
          rw [hm.2.1, n2, n3]
        · simp only [ANDGATE, truth_and]
          rw [hm.1, hm.2.1, hm.2.2]
        · simp only [XORGATE, truth_xor]
          rw [hd hc.2 hn, hm.2.2, n3]
          cases c.val u "IN0" <;> cases c.val u "IN1" <;> cases c.val u "CIN" <;> rfl
  case dff => intro g hg; cases hg
  case iv =>
    intro g hg
    obtain rfl := List.mem_singleton.1 hg
    rw [hd hc (net_netAt (by simpa [CellKind.outputs] using ho)), ← hw' _ (hi "A" (by decide))]
    rfl
  all_goals
    intro g hg
    obtain rfl := List.mem_singleton.1 hg
    simp only [gateTypeOf]
    rw [hd hc (net_netAt (by simpa [CellKind.outputs] using ho)), ← hw' _ (hi "A" (by decide)), ← hw' _ (hi "B" (by decide))]
    cases w (netAt c "A") <;> cases w (netAt c "B") <;> rfl

end TinyGarble.Proof
