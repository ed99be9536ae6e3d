import Verif.Proof.VerilogNet
import Mathlib.Data.List.Nodup

/-! # From valuations of the module to valuations of the netlist, and back -/

namespace TinyGarble.Proof
open TinyGarble.Spec

/-! ## Names that the program makes up -/

theorem midName_head {n : Name} (h : MidName n) : n.head? = some 'M' ∨ n.head? = some 'F' := by
  rcases h with ⟨l, rfl⟩ | ⟨l, rfl⟩
  · exact Or.inl rfl
  · exact Or.inr rfl

theorem not_mid {n : Name} (h : n.head? ≠ some 'M' ∧ n.head? ≠ some 'F') : ¬ MidName n :=
  fun hm => (midName_head hm).elim h.1 h.2

theorem index_not_mid {p : Name} (hp : p ∈ [pInitName, gInitName, eInitName, pInputName, gInputName, eInputName, outName]) (k : Nat) :
    ¬ MidName p ∧ p ≠ [] ∧ ¬ MidName (indexName p k) ∧ indexName p k ≠ [] := by
  have key : ∀ p ∈ [pInitName, gInitName, eInitName, pInputName, gInputName, eInputName, outName],
      p ≠ [] ∧ p.head? ≠ some 'M' ∧ p.head? ≠ some 'F' := by decide
  obtain ⟨h1, h2⟩ := key p hp
  refine ⟨not_mid h2, h1, not_mid ?_, by simp [indexName]⟩
  unfold indexName
  cases p with
  | nil => exact absurd rfl h1
  | cons a l => exact h2

/-- Names outside the module: made up or empty. -/
def Outside (n : Name) : Prop := MidName n ∨ n = []

theorem joined_inside {items : List Item} (h : ProperModule items) (hm : NoMidNames items) {a b : Name}
    (hj : Joined (frame items) a b) : ¬ Outside a ∧ ¬ Outside b := by
  rcases hj with hj | ⟨p, hp, _, rfl, rfl⟩
  · have h1 := hm.assigns _ hj
    obtain ⟨i, hi, e⟩ := List.mem_filterMap.1 hj
    have hp := h.each i hi
    cases i with
    | assign a' b' =>
      simp only [Item.assign?, Option.some.injEq, Prod.mk.injEq] at e
      obtain ⟨rfl, rfl⟩ := e
      exact ⟨fun ho => ho.elim h1.1 hp.1.1, fun ho => ho.elim h1.2 hp.2.1⟩
    | input m l | output m l | cell c | other ws => cases e
  · have : p.1 ∈ [pInitName, gInitName, eInitName, pInputName, gInputName, eInputName, outName] := by
      simp only [ports, List.mem_cons, List.not_mem_nil, or_false] at hp
      rcases hp with rfl | rfl | rfl | rfl | rfl | rfl | rfl <;> simp
    obtain ⟨h1, h2, h3, h4⟩ := index_not_mid this 0
    exact ⟨fun ho => ho.elim h1 h2, fun ho => ho.elim h3 h4⟩

theorem sameNet_inside {items : List Item} (h : ProperModule items) (hm : NoMidNames items) {a b : Name}
    (hs : SameNet (frame items) a b) : a = b ∨ (¬ Outside a ∧ ¬ Outside b) := by
  induction hs with
  | rel a b hab => exact Or.inr (joined_inside h hm hab)
  | refl a => exact Or.inl rfl
  | symm a b _ ih => exact ih.imp Eq.symm (fun x => ⟨x.2, x.1⟩)
  | trans a b c _ _ ih1 ih2 =>
    rcases ih1 with rfl | ih1
    · exact ih2
    · rcases ih2 with rfl | ih2
      · exact Or.inr ih1
      · exact Or.inr ⟨ih1.1, ih2.2⟩

/-- The five kinds of made-up names. -/
def midPrefix : Fin 5 → Name
  | 0 => "MUX_MID_1_".toList
  | 1 => "MUX_MID_2_".toList
  | 2 => "FADDER_MID_1_".toList
  | 3 => "FADDER_MID_2_".toList
  | 4 => "FADDER_MID_3_".toList

theorem midPrefix_ne : ∀ j k : Fin 5, j ≠ k →
    ∃ i ∈ List.range 13, i < (midPrefix j).length ∧ i < (midPrefix k).length ∧ (midPrefix j)[i]? ≠ (midPrefix k)[i]? := by
  decide +kernel

theorem midPrefix_inj {j k : Fin 5} {a b : Nat} (h : midPrefix j ++ printNat a = midPrefix k ++ printNat b) : j = k ∧ a = b := by
  have : j = k := by
    by_contra hne
    obtain ⟨i, _, h1, h2, h3⟩ := midPrefix_ne j k hne
    apply h3
    rw [← List.getElem?_append_left h1 (l₂ := printNat a), ← List.getElem?_append_left h2 (l₂ := printNat b), h]
  subst this
  exact ⟨rfl, printNat_inj (List.append_cancel_left h)⟩

theorem midPrefix_pre : ∀ j : Fin 5, "MUX_MID_".toList <+: midPrefix j ∨ "FADDER_MID_".toList <+: midPrefix j := by
  decide +kernel

theorem midPrefix_mid (j : Fin 5) (a : Nat) : MidName (midPrefix j ++ printNat a) :=
  (midPrefix_pre j).imp (fun h => h.trans (List.prefix_append _ _)) (fun h => h.trans (List.prefix_append _ _))

/-! ## Positions of cells -/

theorem locate_mem {k : Nat} {cs : List Cell} {e : Nat × Cell} (h : e ∈ locate k cs) : k ≤ e.1 ∧ e.2 ∈ cs := by
  induction cs generalizing k with
  | nil => cases h
  | cons c cs ih =>
    rw [locate] at h
    rcases List.mem_cons.1 h with rfl | h
    · exact ⟨Nat.le_refl _, List.mem_cons_self⟩
    · have := ih h
      exact ⟨by omega, List.mem_cons_of_mem _ this.2⟩

theorem locate_pairwise (cs : List Cell) : ∀ k, (locate k cs).Pairwise (fun a b => a.1 + (cellGates a.1 a.2).length ≤ b.1) := by
  induction cs with
  | nil => intro k; exact List.Pairwise.nil
  | cons c cs ih =>
    intro k
    rw [locate, List.pairwise_cons]
    exact ⟨fun b hb => (locate_mem hb).1, ih _⟩

theorem locate_map (cs : List Cell) : ∀ k, (locate k cs).map (·.2) = cs := by
  induction cs with
  | nil => intro k; rfl
  | cons c cs ih => intro k; rw [locate, List.map_cons, ih]

theorem locate_of_mem {cs : List Cell} {c : Cell} (h : c ∈ cs) (k : Nat) : ∃ i, (i, c) ∈ locate k cs := by
  rw [← locate_map cs k] at h
  obtain ⟨⟨i, c'⟩, he, rfl⟩ := List.mem_map.1 h
  exact ⟨i, he⟩

theorem locate_unique {cs : List Cell} {k i : Nat} {c c' : Cell} (h : (i, c) ∈ locate k cs) (h' : (i, c') ∈ locate k cs)
    (hl : 0 < (cellGates i c).length) (hl' : 0 < (cellGates i c').length) : c = c' := by
  induction cs generalizing k with
  | nil => cases h
  | cons d cs ih =>
    rw [locate] at h h'
    rcases List.mem_cons.1 h with e | h
    · obtain ⟨rfl, rfl⟩ := Prod.mk.inj e
      rcases List.mem_cons.1 h' with e' | h'
      · exact (Prod.mk.inj e').2.symm
      · have := (locate_mem h').1
        simp only at this
        omega
    · rcases List.mem_cons.1 h' with e' | h'
      · obtain ⟨rfl, rfl⟩ := Prod.mk.inj e'
        have := (locate_mem h).1
        simp only at this
        omega
      · exact ih h h'

/-! ## Values of the made-up names -/

theorem midPairs_name {id : Nat} {c : Cell} {u : Name → Bool} {e : Name × Bool} (h : e ∈ midPairs id c u) :
    ∃ j : Fin 5, e.1 = midPrefix j ++ printNat id ∧ 0 < (cellGates id c).length := by
  unfold midPairs at h
  unfold cellGates
  cases hk : c.kind <;> simp only [hk, List.mem_cons, List.not_mem_nil, or_false] at h ⊢
  · rcases h with rfl | rfl
    · exact ⟨0, rfl, by simp [muxGates]⟩
    · exact ⟨1, rfl, by simp [muxGates]⟩
  · have hl : 0 < (fadderGates id (netAt c "IN0") (netAt c "IN1") (netAt c "CIN") (c.net "SUM") (c.net "COUT")).length := by
      unfold fadderGates
      simp
    rcases h with rfl | rfl | rfl
    · exact ⟨2, rfl, hl⟩
    · exact ⟨3, rfl, hl⟩
    · exact ⟨4, rfl, hl⟩

theorem midPairs_unique {id : Nat} {c : Cell} {u : Name → Bool} {n : Name} {b b' : Bool} (h : (n, b) ∈ midPairs id c u)
    (h' : (n, b') ∈ midPairs id c u) : b = b' := by
  unfold midPairs at h h'
  cases hk : c.kind <;> simp only [hk, List.mem_cons, List.not_mem_nil, or_false, Prod.mk.injEq] at h h'
  · rcases h with ⟨rfl, rfl⟩ | ⟨rfl, rfl⟩ <;> rcases h' with ⟨e, rfl⟩ | ⟨e, rfl⟩
    · rfl
    · exact absurd (midPrefix_inj (j := 0) (k := 1) e).1 (by decide)
    · exact absurd (midPrefix_inj (j := 1) (k := 0) e).1 (by decide)
    · rfl
  · rcases h with ⟨rfl, rfl⟩ | ⟨rfl, rfl⟩ | ⟨rfl, rfl⟩ <;> rcases h' with ⟨e, rfl⟩ | ⟨e, rfl⟩ | ⟨e, rfl⟩
    · rfl
    · exact absurd (midPrefix_inj (j := 2) (k := 3) e).1 (by decide)
    · exact absurd (midPrefix_inj (j := 2) (k := 4) e).1 (by decide)
    · exact absurd (midPrefix_inj (j := 3) (k := 2) e).1 (by decide)
    · rfl
    · exact absurd (midPrefix_inj (j := 3) (k := 4) e).1 (by decide)
    · exact absurd (midPrefix_inj (j := 4) (k := 2) e).1 (by decide)
    · exact absurd (midPrefix_inj (j := 4) (k := 3) e).1 (by decide)
    · rfl

/-- A valuation extended to the made-up names. -/
def extend (items : List Item) (u : Name → Bool) (n : Name) : Bool :=
  match ((locate 0 (cells items)).flatMap (fun e => midPairs e.1 e.2 u)).find? (fun p => p.1 = n) with
  | some p => p.2
  | none => u n

theorem extend_mid {items : List Item} {u : Name → Bool} {e : Nat × Cell} (he : e ∈ locate 0 (cells items)) {p : Name × Bool}
    (hp : p ∈ midPairs e.1 e.2 u) : extend items u p.1 = p.2 := by
  unfold extend
  split
  · rename_i q hq
    have hm := List.mem_of_find?_eq_some hq
    have hn : q.1 = p.1 := by simpa using List.find?_some hq
    obtain ⟨e', he', hq'⟩ := List.mem_flatMap.1 hm
    obtain ⟨j, e1, l1⟩ := midPairs_name hp
    obtain ⟨j', e2, l2⟩ := midPairs_name hq'
    have hid : e.1 = e'.1 := by
      rw [hn, e1] at e2
      exact (midPrefix_inj e2).2
    have hc : e.2 = e'.2 := by
      obtain ⟨i, c⟩ := e
      obtain ⟨i', c'⟩ := e'
      simp only at hid l1 l2
      subst hid
      exact locate_unique he he' l1 l2
    rw [← hid, ← hc] at hq'
    obtain ⟨n, b⟩ := p
    obtain ⟨n', b'⟩ := q
    simp only at hn
    subst hn
    exact midPairs_unique hq' hp
  · rename_i hq
    exact absurd (List.find?_eq_none.1 hq p (List.mem_flatMap.2 ⟨e, he, hp⟩)) (by simp)

theorem extend_user (items : List Item) (u : Name → Bool) {n : Name} (hn : ¬ MidName n) : extend items u n = u n := by
  unfold extend
  split
  · rename_i q hq
    obtain ⟨e', he', hq'⟩ := List.mem_flatMap.1 (List.mem_of_find?_eq_some hq)
    have e : q.1 = n := by simpa using List.find?_some hq
    obtain ⟨j, e1, _⟩ := midPairs_name hq'
    exact absurd (by rw [← e, e1]; exact midPrefix_mid _ _) hn
  · rfl

/-! ## Valuations -/

theorem cell_proper {items : List Item} (h : ProperModule items) {c : Cell} (hc : c ∈ cells items) : c.Proper := by
  obtain ⟨i, hi, e⟩ := List.mem_filterMap.1 hc
  have := h.each i hi
  cases i with
  | cell c' =>
    simp only [Item.cell?, Option.some.injEq] at e
    subst e
    exact this
  | input m l | output m l | assign a b | other ws => cases e

theorem net_out {c : Cell} (h : c.Proper) (hk : c.kind = .dff) : c.net "Q" ≠ none := by
  have := h.outputs
  rw [hk] at this
  simpa [CellKind.outputs] using this

theorem verilog_of_named {items : List Item} (h : ProperModule items) {x : Inputs} {v : Nat → Name → Bool}
    (hv : NamedSolves (moduleNet items) x v) : VerilogSolves items x v := by
  refine ⟨⟨hv.joined, hv.zero, hv.one, hv.missing, hv.pInit, hv.gInit, hv.eInit, hv.pInput, hv.gInput, hv.eInput,
    fun g hg => (by cases hg), fun t g hg => (by cases hg), fun t g hg => (by cases hg)⟩, fun c hc t => ?_, fun c hc hk => ?_⟩
  · obtain ⟨i, hi⟩ := locate_of_mem hc 0
    exact computes_of_gates (cell_proper h hc) (id := i) fun g hg => hv.gate t g (List.mem_flatMap.2 ⟨_, hi, hg⟩)
  · have P := cell_proper h hc
    have hg : (⟨netAt c "D", netAt c "I", netAt c "Q", DFFGATE⟩ : GateStr) ∈ (moduleNet items).dffs := by
      refine List.mem_flatMap.2 ⟨c, hc, ?_⟩
      unfold cellDffs
      rw [if_pos hk]
      exact List.mem_singleton.2 rfl
    have hd : c.net "D" ≠ none := P.inputs "D" (by rw [hk]; decide)
    have hi := P.init hk
    refine ⟨?_, fun t => ?_⟩
    · rw [drives_iff (net_out P hk), val_netAt hi]
      exact hv.ffInit _ hg
    · rw [drives_iff (net_out P hk), val_netAt hd]
      exact hv.ffNext t _ hg

theorem named_of_verilog {items : List Item} (h : ProperModule items) (hm : NoMidNames items) {x : Inputs} {v : Nat → Name → Bool}
    (hv : VerilogSolves items x v) : NamedSolves (moduleNet items) x (fun t => extend items (v t)) := by
  have hu : ∀ t n, ¬ MidName n → extend items (v t) n = v t n := fun t n hn => extend_user items (v t) hn
  have hi : ∀ t p k, p ∈ [pInitName, gInitName, eInitName, pInputName, gInputName, eInputName, outName] →
      extend items (v t) (indexName p k) = v t (indexName p k) := fun t p k hp => hu t _ (index_not_mid hp k).2.2.1
  have hdff : ∀ g ∈ (moduleNet items).dffs, ∃ c ∈ cells items, c.kind = .dff
      ∧ g = ⟨netAt c "D", netAt c "I", netAt c "Q", DFFGATE⟩ := by
    intro g hg
    obtain ⟨c, hc, hg⟩ := List.mem_flatMap.1 hg
    unfold cellDffs at hg
    split at hg
    · rename_i hk
      exact ⟨c, hc, hk, List.mem_singleton.1 hg⟩
    · cases hg
  have hnet : ∀ t, ∀ c ∈ cells items, ∀ q, c.net q ≠ none → extend items (v t) (netAt c q) = v t (netAt c q) :=
    fun t c hc q hq => hu t _ (hm.cells c hc q _ (net_netAt hq))
  refine ⟨fun t a b hab => ?_, fun t => ?_, fun t => ?_, fun t => ?_, fun t k hk => ?_, fun t k hk => ?_, fun t k hk => ?_,
    fun t k hk => ?_, fun t k hk => ?_, fun t k hk => ?_, fun g hg => ?_, fun t g hg => ?_, fun t g hg => ?_⟩
  · have hj := joined_inside h hm hab
    rw [hu t a (fun x => hj.1 (Or.inl x)), hu t b (fun x => hj.2 (Or.inl x))]
    exact hv.ports.joined t a b hab
  · exact (hu t _ (not_mid (by decide))).trans (hv.ports.zero t)
  · exact (hu t _ (not_mid (by decide))).trans (hv.ports.one t)
  · exact (hu t _ (not_mid (by decide))).trans (hv.ports.missing t)
  · exact (hi t _ k (by simp)).trans (hv.ports.pInit t k hk)
  · exact (hi t _ k (by simp)).trans (hv.ports.gInit t k hk)
  · exact (hi t _ k (by simp)).trans (hv.ports.eInit t k hk)
  · exact (hi t _ k (by simp)).trans (hv.ports.pInput t k hk)
  · exact (hi t _ k (by simp)).trans (hv.ports.gInput t k hk)
  · exact (hi t _ k (by simp)).trans (hv.ports.eInput t k hk)
  · obtain ⟨c, hc, hk, rfl⟩ := hdff g hg
    have P := cell_proper h hc
    have hs := (hv.stores c hc hk).1
    rw [drives_iff (net_out P hk), val_netAt (P.init hk)] at hs
    simp only
    rw [hnet 0 c hc _ (net_out P hk), hnet 0 c hc _ (P.init hk), hs]
  · obtain ⟨c, hc, hk, rfl⟩ := hdff g hg
    have P := cell_proper h hc
    have hd : c.net "D" ≠ none := P.inputs "D" (by rw [hk]; decide)
    have hs := (hv.stores c hc hk).2 t
    rw [drives_iff (net_out P hk), val_netAt hd] at hs
    simp only
    rw [hnet _ c hc _ (net_out P hk), hnet t c hc _ hd, hs]
  · obtain ⟨e, he, hg⟩ := List.mem_flatMap.1 hg
    have hc := (locate_mem he).2
    exact gates_of_computes (cell_proper h hc) (hv.computes e.2 hc t)
      (fun q n hq => hu t n (hm.cells e.2 hc q n hq)) (fun p hp => extend_mid he hp) g hg

end TinyGarble.Proof
