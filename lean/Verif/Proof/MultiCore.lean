import Verif.Spec.MultiCore
import Verif.Proof.SortNet
import Verif.Proof.Sched
import Mathlib.Data.Nat.Find

/-! # Distributing the gates over several cores: lemmas -/

namespace TinyGarble.Proof
open TinyGarble.Spec

theorem minIndexFrom_spec : ∀ (rest pre : List Int) (minimum : Int) (mi : Nat),
    pre[mi]? = some minimum → (∀ x ∈ pre, minimum ≤ x) →
    ∃ m : Nat, ∃ x, minIndexFrom minimum mi pre.length rest = (m : Int) ∧ (pre ++ rest)[m]? = some x ∧ ∀ y ∈ pre ++ rest, x ≤ y
  | [], pre, minimum, mi, h, hm => ⟨mi, minimum, rfl, by simpa using h, by simpa using hm⟩
  | x :: rest, pre, minimum, mi, h, hm => by
    have hlen : ((pre.length : Int) + 1) = ((pre ++ [x]).length : Int) := by simp
    have happ : pre ++ x :: rest = (pre ++ [x]) ++ rest := by simp
    rw [minIndexFrom, happ, hlen]
    by_cases hx : x < minimum
    · rw [if_pos hx]
      refine minIndexFrom_spec rest (pre ++ [x]) x pre.length (by simp) ?_
      intro y hy
      rcases List.mem_append.mp hy with hy | hy
      · have := hm y hy; omega
      · obtain rfl : y = x := by simpa using hy
        omega
    · rw [if_neg hx]
      refine minIndexFrom_spec rest (pre ++ [x]) minimum mi ?_ ?_
      · rw [List.getElem?_append_left (List.getElem?_eq_some_iff.mp h).1, h]
      · intro y hy
        rcases List.mem_append.mp hy with hy | hy
        · exact hm y hy
        · obtain rfl : y = x := by simpa using hy
          omega

theorem getMinIndex_spec (l : List Int) (h : 0 < l.length) :
    ∃ m : Nat, ∃ x, getMinIndex l = some (m : Int) ∧ l[m]? = some x ∧ ∀ y ∈ l, x ≤ y := by
  match l, h with
  | a :: rest, _ =>
    obtain ⟨m, x, e, h1, h2⟩ := minIndexFrom_spec rest [a] a 0 rfl (by simp)
    exact ⟨m, x, by simp only [getMinIndex]; exact congrArg some e, h1, h2⟩

/-- What holds of the arrays throughout: `done` are the gates placed so far, in this order; `used m` those on core `m`. -/
structure CInv (c : ReadCircuit) (N : Nat) (s : CoreState) (done : List Int) (used : Nat → List Int) : Prop where
  len : s.p1.length = c.gates.length
  p1 : ∀ i : Nat, i < c.gates.length → ∃ x, s.p1[i]? = some x ∧ (x ≠ -1 ↔ (i : Int) ∈ done)
  core : s.core.length = N
  row : ∀ m < N, ∃ rest, s.core[m]? = some (used m ++ rest) ∧ c.gates.length ≤ (used m ++ rest).length
  index : s.coreIndex = (List.range N).map fun m => ((used m).length : Int)
  busy : s.coreBusy = (List.range N).map fun m => ((used m).length : Int)
  count : s.scheduled = done.length
  nodup : done.Nodup
  range : ∀ k ∈ done, 0 ≤ k ∧ k < (c.gates.length : Int)
  perm : ((List.range N).flatMap used).Perm done
  sub : ∀ m < N, (used m).Sublist done
  even : ∀ a < N, ∀ b < N, (used a).length ≤ (used b).length + 1
  order : ∀ (i : Nat) (k : Int) (g : ReadGate), done[i]? = some k → c.gates[k.toNat]? = some g →
    ∀ w, (w = g.input0 ∨ w = g.input1) → (c.iid : Int) ≤ w → ∃ j < i, done[j]? = some (w - (c.iid : Int))

theorem CInv.short {c : ReadCircuit} {N : Nat} {s : CoreState} {done : List Int} {used : Nat → List Int}
    (h : CInv c N s done used) : done.length ≤ c.gates.length := by
  have hs : done ⊆ (List.range c.gates.length).map (fun i : Nat => (i : Int)) := by
    intro x hx
    exact (mem_wires _ _).mpr (h.range x hx)
  have := (h.nodup.subperm hs).length_le
  simpa using this

theorem flatMap_upd (used : Nat → List Int) (m : Nat) (k : Int) : ∀ (l : List Nat), l.Nodup → m ∈ l →
    (l.flatMap fun i => if i = m then used i ++ [k] else used i).Perm (l.flatMap used ++ [k])
  | a :: l, hn, hm => by
    obtain ⟨ha, hl⟩ := List.nodup_cons.mp hn
    simp only [List.flatMap_cons]
    by_cases h : a = m
    · subst h
      have e : (l.flatMap fun i => if i = a then used i ++ [k] else used i) = l.flatMap used := by
        refine List.flatMap_congr fun i hi => ?_
        rw [if_neg (fun (e : i = a) => ha (e ▸ hi))]
      rw [if_pos rfl, e, List.append_assoc, List.append_assoc]
      exact List.Perm.append_left _ List.perm_append_comm
    · rw [if_neg h, List.append_assoc]
      refine List.Perm.append_left _ (flatMap_upd used m k l hl ?_)
      rcases List.mem_cons.mp hm with e | e
      · exact absurd e.symm h
      · exact e

theorem set_map_range {α : Type} (f : Nat → α) (N m : Nat) (v : α) :
    ((List.range N).map f).set m v = (List.range N).map fun i => if i = m then v else f i := by
  refine List.ext_getElem? fun i => ?_
  rw [List.getElem?_set]
  by_cases h : m = i
  · subst h
    rw [if_pos rfl]
    by_cases hm : m < N
    · simp [hm]
    · simp [hm]
  · rw [if_neg h]
    by_cases hi : i < N
    · simp [List.getElem?_range hi, Ne.symm h]
    · simp [hi]

theorem placeGate_spec {c : ReadCircuit} {N : Nat} {s : CoreState} {done : List Int} {used : Nat → List Int}
    (h : CInv c N s done used) (hN : 0 < N) {k : Int} (h0 : 0 ≤ k) (hk : k < (c.gates.length : Int)) (hnew : k ∉ done)
    (hord : ∀ g, c.gates[k.toNat]? = some g → ∀ w, (w = g.input0 ∨ w = g.input1) → (c.iid : Int) ≤ w →
      w - (c.iid : Int) ∈ done) :
    ∃ s' used', placeGate s k = some s' ∧ CInv c N s' (done ++ [k]) used' := by
  obtain ⟨m, x, em, hx, hmin⟩ := getMinIndex_spec s.coreBusy (by rw [h.busy]; simpa using hN)
  have hm : m < N := by
    have := (List.getElem?_eq_some_iff.mp hx).1
    rw [h.busy] at this
    simpa using this
  have ex : x = ((used m).length : Int) := by
    rw [h.busy] at hx
    simpa [List.getElem?_range hm] using hx.symm
  have hleast : ∀ b < N, (used m).length ≤ (used b).length := by
    intro b hb
    have := hmin ((used b).length : Int) (by rw [h.busy]; exact List.mem_map.mpr ⟨b, List.mem_range.mpr hb, rfl⟩)
    omega
  obtain ⟨u, rfl⟩ : ∃ u : Nat, k = (u : Int) := ⟨k.toNat, by omega⟩
  have hu : u < c.gates.length := by omega
  have hnd : (done ++ [(u : Int)]).Nodup := by
    rw [List.nodup_append]
    refine ⟨h.nodup, List.nodup_singleton _, ?_⟩
    intro a ha b hb e
    obtain rfl : b = (u : Int) := by simpa using hb
    exact hnew (e ▸ ha)
  have hlt : done.length < c.gates.length := by
    have hs : done ++ [(u : Int)] ⊆ (List.range c.gates.length).map (fun i : Nat => (i : Int)) := by
      intro x hx
      refine (mem_wires _ _).mpr ?_
      rcases List.mem_append.mp hx with hx | hx
      · exact h.range x hx
      · obtain rfl : x = (u : Int) := by simpa using hx
        omega
    have := (hnd.subperm hs).length_le
    simp at this
    omega
  obtain ⟨rest, er, hcap⟩ := h.row m hm
  have hul : (used m).length ≤ done.length := (h.sub m hm).length_le
  have hrest : 0 < rest.length := by
    rw [List.length_append] at hcap
    omega
  obtain ⟨r, rest', rfl⟩ : ∃ r rest', rest = r :: rest' := by
    cases rest with
    | nil => simp at hrest
    | cons r rest' => exact ⟨_, _, rfl⟩
  have eset : (used m ++ r :: rest').set (used m).length (u : Int) = (used m ++ [(u : Int)]) ++ rest' := by
    rw [List.set_append_right _ _ (Nat.le_refl _)]
    simp
  refine ⟨⟨s.p1.set u m, s.core.set m ((used m ++ [(u : Int)]) ++ rest'), s.coreIndex.set m (((used m).length : Int) + 1),
    s.coreBusy.set m (((used m).length : Int) + 1), s.scheduled + 1⟩,
    fun i => if i = m then used i ++ [(u : Int)] else used i, ?_, ?_⟩
  · unfold placeGate
    rw [em]
    simp only [Option.bind_eq_bind, Option.bind_some]
    rw [setI_nat _ _ _ (by rw [h.len]; exact hu)]
    simp only [Option.bind_some]
    rw [getI_nat, er]
    simp only [Option.bind_some]
    have ei : s.coreIndex[m]? = some ((used m).length : Int) := by
      rw [h.index]; simp [List.getElem?_range hm]
    have eb : s.coreBusy[m]? = some ((used m).length : Int) := by
      rw [h.busy]; simp [List.getElem?_range hm]
    rw [getI_nat, ei]
    simp only [Option.bind_some]
    rw [setI_nat _ _ _ (by simp), eset]
    simp only [Option.bind_some]
    rw [setI_nat _ _ _ (by rw [h.core]; exact hm)]
    simp only [Option.bind_some]
    rw [setI_nat _ _ _ (by rw [h.index]; simpa using hm)]
    simp only [Option.bind_some]
    rw [getI_nat, eb]
    simp only [Option.bind_some]
    rw [setI_nat _ _ _ (by rw [h.busy]; simpa using hm)]
    rfl
  · refine ⟨by simpa using h.len, ?_, by simpa using h.core, ?_, ?_, ?_, ?_, hnd, ?_, ?_, ?_, ?_, ?_⟩
    · intro i hi
      show ∃ x, (s.p1.set u (m : Int))[i]? = some x ∧ _
      rw [List.getElem?_set]
      by_cases e : u = i
      · subst e
        rw [if_pos rfl, if_pos (by rw [h.len]; exact hu)]
        exact ⟨m, rfl, by constructor <;> intro _ <;> [simp; omega]⟩
      · rw [if_neg e]
        obtain ⟨x, ex, hx⟩ := h.p1 i hi
        refine ⟨x, ex, hx.trans ?_⟩
        rw [List.mem_append]
        constructor
        · exact Or.inl
        · rintro (h | h)
          · exact h
          · have : (i : Int) = u := by simpa using h
            omega
    · intro a ha
      show ∃ rest, (s.core.set m _)[a]? = _ ∧ _
      rw [List.getElem?_set]
      by_cases e : m = a
      · subst e
        rw [if_pos rfl, if_pos (by rw [h.core]; exact hm)]
        refine ⟨rest', by simp, ?_⟩
        simp only [List.length_append, List.length_cons] at hcap ⊢
        simp
        omega
      · rw [if_neg e]
        obtain ⟨rest, e1, e2⟩ := h.row a ha
        exact ⟨rest, by rw [if_neg (Ne.symm e)]; exact e1, by rw [if_neg (Ne.symm e)]; exact e2⟩
    · show s.coreIndex.set m _ = _
      rw [h.index, set_map_range]
      refine List.map_congr_left fun i _ => ?_
      by_cases e : i = m
      · subst e; simp
      · simp [e]
    · show s.coreBusy.set m _ = _
      rw [h.busy, set_map_range]
      refine List.map_congr_left fun i _ => ?_
      by_cases e : i = m
      · subst e; simp
      · simp [e]
    · show s.scheduled + 1 = _
      rw [h.count]; simp
    · intro x hx
      rcases List.mem_append.mp hx with hx | hx
      · exact h.range x hx
      · obtain rfl : x = (u : Int) := by simpa using hx
        omega
    · exact (flatMap_upd used m _ _ List.nodup_range (List.mem_range.mpr hm)).trans (h.perm.append_right _)
    · intro a ha
      by_cases e : a = m
      · rw [if_pos e]
        exact (h.sub a ha).append (List.Sublist.refl _)
      · rw [if_neg e]
        exact (h.sub a ha).trans (List.sublist_append_left _ _)
    · intro a ha b hb
      have h1 := h.even a ha b hb
      have h2 := hleast b hb
      by_cases ea : a = m
      · subst ea
        by_cases eb : b = a
        · subst eb; simp
        · simp [eb]; omega
      · by_cases eb : b = m
        · simp [ea, eb]
          have := h.even a ha m hm
          omega
        · simp [ea, eb]; omega
    · intro i k g hi hg w hw hge
      rcases Nat.lt_or_ge i done.length with hl | hl
      · rw [List.getElem?_append_left hl] at hi
        obtain ⟨j, hj, ej⟩ := h.order i k g hi hg w hw hge
        exact ⟨j, hj, by rw [List.getElem?_append_left (by omega)]; exact ej⟩
      · rw [List.getElem?_append_right hl] at hi
        have hi0 : i - done.length = 0 := by
          by_contra hne
          rw [List.getElem?_eq_none (by simp; omega)] at hi
          cases hi
        rw [hi0] at hi
        obtain rfl : (u : Int) = k := by simpa using hi
        obtain ⟨j, hj, ej⟩ := List.mem_iff_getElem.mp (hord g hg w hw hge)
        exact ⟨j, by omega, by rw [List.getElem?_append_left hj, List.getElem?_eq_getElem hj, ej]⟩

/-- `p0` marks exactly the gates of `done`. -/
def Marks (c : ReadCircuit) (p0 done : List Int) : Prop :=
  p0.length = c.gates.length ∧ ∀ i : Nat, i < c.gates.length → ∃ x, p0[i]? = some x ∧ (x ≠ -1 ↔ (i : Int) ∈ done)

/-- Every operand of gate `k` that is a gate is in `done`. -/
def AllReady (c : ReadCircuit) (done : List Int) (k : Int) : Prop :=
  ∀ g, c.gates[k.toNat]? = some g → ∀ w, (w = g.input0 ∨ w = g.input1) → (c.iid : Int) ≤ w → w - (c.iid : Int) ∈ done

theorem operandReady_spec {c : ReadCircuit} {p0 done : List Int} (h : Marks c p0 done) {w : Int} (hw : w < (wireCount c : Int)) :
    ∃ r, operandReady c p0 w = some r ∧ (r = true ↔ ((c.iid : Int) ≤ w → w - (c.iid : Int) ∈ done)) := by
  unfold operandReady
  by_cases hlt : w - (c.iid : Int) < 0
  · rw [if_pos hlt]
    refine ⟨true, rfl, ?_⟩
    constructor
    · intro _ h; omega
    · intro _; rfl
  · rw [if_neg hlt]
    obtain ⟨u, hu⟩ : ∃ u : Nat, w - (c.iid : Int) = (u : Int) := ⟨(w - (c.iid : Int)).toNat, by omega⟩
    have hul : u < c.gates.length := by unfold wireCount at hw; omega
    obtain ⟨x, ex, hx⟩ := h.2 u hul
    rw [hu, getI_nat, ex]
    refine ⟨decide (x ≠ -1), rfl, ?_⟩
    rw [decide_eq_true_iff, hx]
    constructor
    · intro h _; exact h
    · intro h; exact h (by omega)

theorem scheduleStep_spec {c : ReadCircuit} (hop : OperandsExist c) {N : Nat} {s : CoreState} {done : List Int}
    {used : Nat → List Int} (h : CInv c N s done used) (hN : 0 < N) {p0 done0 : List Int} (hp : Marks c p0 done0)
    (hsub : done0 ⊆ done) {k : Int} (h0 : 0 ≤ k) (hk : k < (c.gates.length : Int)) (hnew : k ∈ done → k ∈ done0) :
    ∃ s' new used', scheduleStep c p0 s k = some s' ∧ CInv c N s' (done ++ new) used' ∧ (∀ x ∈ new, x = k) ∧
      (AllReady c done0 k → k ∈ done ++ new) := by
  obtain ⟨u, rfl⟩ : ∃ u : Nat, k = (u : Int) := ⟨k.toNat, by omega⟩
  have hu : u < c.gates.length := by omega
  obtain ⟨x, ex, hx⟩ := hp.2 u hu
  unfold scheduleStep
  rw [getI_nat, ex]
  simp only [Option.bind_eq_bind, Option.bind_some]
  by_cases hx1 : x = -1
  · rw [if_pos hx1, getI_nat, List.getElem?_eq_getElem hu]
    simp only [Option.bind_some]
    obtain ⟨w0, w1⟩ := hop _ (List.getElem_mem hu)
    obtain ⟨r0, e0, i0⟩ := operandReady_spec hp w0
    obtain ⟨r1, e1, i1⟩ := operandReady_spec hp w1
    have hnot : (u : Int) ∉ done := fun hd => (hx.mpr (hnew hd)) hx1
    have hg : c.gates[(u : Int).toNat]? = some c.gates[u] := by
      rw [Int.toNat_natCast, List.getElem?_eq_getElem hu]
    rw [e0]
    simp only [Option.bind_some]
    by_cases hr0 : r0 = true
    · rw [if_pos hr0, e1]
      simp only [Option.bind_some]
      by_cases hr1 : r1 = true
      · rw [if_pos hr1]
        obtain ⟨s', used', e, hI⟩ := placeGate_spec h hN h0 hk hnot (by
          intro g hgg w hw hge
          rw [hg] at hgg
          obtain rfl : c.gates[u] = g := by simpa using hgg
          rcases hw with rfl | rfl
          · exact hsub (i0.mp hr0 hge)
          · exact hsub (i1.mp hr1 hge))
        exact ⟨s', [(u : Int)], used', e, hI, by simp, by simp⟩
      · rw [if_neg hr1]
        refine ⟨s, [], used, rfl, by simpa using h, by simp, fun ha => ?_⟩
        exact absurd (i1.mpr (ha _ hg _ (Or.inr rfl))) hr1
    · rw [if_neg hr0]
      refine ⟨s, [], used, rfl, by simpa using h, by simp, fun ha => ?_⟩
      exact absurd (i0.mpr (ha _ hg _ (Or.inl rfl))) hr0
  · rw [if_neg hx1]
    refine ⟨s, [], used, rfl, by simpa using h, by simp, fun _ => ?_⟩
    simpa using hsub (hx.mp hx1)

theorem schedulePass_spec {c : ReadCircuit} (hop : OperandsExist c) {N : Nat} (hN : 0 < N) {p0 done0 : List Int}
    (hp : Marks c p0 done0) : ∀ (idx : List Int) (s : CoreState) (done : List Int) (used : Nat → List Int),
    CInv c N s done used → done0 ⊆ done → idx.Nodup → (∀ k ∈ idx, 0 ≤ k ∧ k < (c.gates.length : Int)) →
    (∀ k ∈ idx, k ∈ done → k ∈ done0) →
    ∃ s' new used', schedulePass c idx p0 s = some s' ∧ CInv c N s' (done ++ new) used' ∧
      ∀ k ∈ idx, AllReady c done0 k → k ∈ done ++ new
  | [], s, done, used, h, _, _, _, _ => ⟨s, [], used, rfl, by simpa using h, by simp⟩
  | k :: idx, s, done, used, h, hsub, hn, hr, hnew => by
    obtain ⟨hkn, hn'⟩ := List.nodup_cons.mp hn
    obtain ⟨s1, new1, used1, e1, h1, hk1, ha1⟩ := scheduleStep_spec hop h hN hp hsub (hr k (by simp)).1 (hr k (by simp)).2
      (hnew k (by simp))
    obtain ⟨s2, new2, used2, e2, h2, ha2⟩ := schedulePass_spec hop hN hp idx s1 (done ++ new1) used1 h1
      (fun x hx => List.mem_append_left _ (hsub hx)) hn' (fun x hx => hr x (by simp [hx])) (by
        intro x hx hd
        rcases List.mem_append.mp hd with hd | hd
        · exact hnew x (by simp [hx]) hd
        · exact absurd (hk1 x hd ▸ hx) hkn)
    refine ⟨s2, new1 ++ new2, used2, ?_, by rw [← List.append_assoc]; exact h2, ?_⟩
    · unfold schedulePass at e2 ⊢
      rw [List.foldlM_cons, e1]
      exact e2
    · intro x hx ha
      rw [← List.append_assoc]
      rcases List.mem_cons.mp hx with rfl | hx
      · exact List.mem_append_left _ (ha1 ha)
      · exact ha2 x hx ha

/-- The order of all wires that a distribution gives. -/
def wireOrder (c : ReadCircuit) (done : List Int) : List Int :=
  ((List.range c.iid).map fun i : Nat => (i : Int)) ++ done.map fun k : Int => k + (c.iid : Int)

theorem CInv.ordered {c : ReadCircuit} {N : Nat} {s : CoreState} {done : List Int} {used : Nat → List Int}
    (h : CInv c N s done used) (hfull : done.length = c.gates.length) : Ordered c (wireOrder c done) := by
  have hperm : done.Perm ((List.range c.gates.length).map (fun i : Nat => (i : Int))) := by
    have hs : done ⊆ (List.range c.gates.length).map (fun i : Nat => (i : Int)) := by
      intro x hx
      exact (mem_wires _ _).mpr (h.range x hx)
    exact (h.nodup.subperm hs).perm_of_length_le (by simp [hfull])
  have hl : ((List.range c.iid).map fun i : Nat => (i : Int)).length = c.iid := by simp
  refine ⟨?_, ?_, ?_⟩
  · intro i hi
    unfold wireOrder
    rw [List.getElem?_append_left (by simpa using hi)]
    simp [List.getElem?_range hi]
  · unfold wireOrder wireCount
    rw [List.range_add, List.map_append]
    refine List.Perm.append_left _ ?_
    have := hperm.map (fun k : Int => k + (c.iid : Int))
    rw [List.map_map] at this
    rw [List.map_map]
    refine this.trans (List.Perm.of_eq ?_)
    refine List.map_congr_left fun i _ => ?_
    simp only [Function.comp]
    omega
  · rintro k a b hk ⟨i, g, hg, rfl, hb⟩
    have hi : i < c.gates.length := (List.getElem?_eq_some_iff.mp hg).1
    unfold wireOrder at hk
    have hge : c.iid ≤ k := by
      by_contra hlt
      rw [List.getElem?_append_left (by simpa using hlt)] at hk
      rw [List.getElem?_map, List.getElem?_range (by omega)] at hk
      simp at hk
      omega
    rw [List.getElem?_append_right (by simpa using hge), hl, List.getElem?_map] at hk
    obtain ⟨z, hz, ez⟩ := Option.map_eq_some_iff.mp hk
    obtain rfl : z = (i : Int) := by omega
    by_cases hbi : b < c.iid
    · refine ⟨b, by omega, ?_⟩
      unfold wireOrder
      rw [List.getElem?_append_left (by simpa using hbi)]
      simp [List.getElem?_range hbi]
    · obtain ⟨j, hj, ej⟩ := h.order (k - c.iid) i g hz (by simpa using hg) (b : Int)
        (by rcases hb with h | h; exacts [Or.inl h.symm, Or.inr h.symm]) (by omega)
      refine ⟨c.iid + j, by omega, ?_⟩
      unfold wireOrder
      rw [List.getElem?_append_right (by simp), hl, List.getElem?_map,
        show c.iid + j - c.iid = j from by omega, ej]
      simp

/-- While gates are missing in an acyclic netlist, one of them can be placed. -/
theorem exists_ready {c : ReadCircuit} (hop : OperandsExist c) (ha : Acyclic c) {done : List Int}
    (hmiss : ∃ i : Nat, i < c.gates.length ∧ (i : Int) ∉ done) :
    ∃ k : Nat, k < c.gates.length ∧ (k : Int) ∉ done ∧ AllReady c done k := by
  rcases topologicalSort_spec c hop with ⟨_, h⟩ | ⟨order, _, ho⟩
  · exact absurd ha h
  have hex : ∃ p : Nat, ∃ i : Nat, i < c.gates.length ∧ (i : Int) ∉ done ∧ order[p]? = some ((c.iid + i : Nat) : Int) := by
    obtain ⟨i, hi, hn⟩ := hmiss
    have : ((c.iid + i : Nat) : Int) ∈ order := ho.all.mem_iff.mpr (List.mem_map.mpr ⟨_, List.mem_range.mpr (by unfold wireCount; omega), rfl⟩)
    obtain ⟨p, hp, ep⟩ := List.mem_iff_getElem.mp this
    exact ⟨p, i, hi, hn, by rw [List.getElem?_eq_getElem hp, ep]⟩
  classical
  obtain ⟨i, hi, hn, hp⟩ := Nat.find_spec hex
  refine ⟨i, hi, hn, ?_⟩
  intro g hg w hw hge
  rw [Int.toNat_natCast] at hg
  by_contra hnot
  obtain ⟨b, rfl⟩ : ∃ b : Nat, w = (b : Int) := ⟨w.toNat, by omega⟩
  obtain ⟨m, hm, em⟩ := ho.after _ _ b hp ⟨i, g, hg, rfl, by rcases hw with h | h; exacts [Or.inl h.symm, Or.inr h.symm]⟩
  have hb : b < wireCount c := by
    obtain ⟨o0, o1⟩ := hop g (List.mem_of_getElem? hg)
    rcases hw with h | h <;> omega
  refine Nat.find_min hex hm ⟨b - c.iid, by unfold wireCount at hb; omega, ?_, ?_⟩
  · intro hd
    exact hnot (by rwa [show (b : Int) - (c.iid : Int) = ((b - c.iid : Nat) : Int) from by omega])
  · rw [em, show c.iid + (b - c.iid) = b from by omega]

theorem CInv.marks {c : ReadCircuit} {N : Nat} {s : CoreState} {done : List Int} {used : Nat → List Int}
    (h : CInv c N s done used) : Marks c s.p1 done := ⟨h.len, h.p1⟩

theorem CInv.missing {c : ReadCircuit} {N : Nat} {s : CoreState} {done : List Int} {used : Nat → List Int}
    (_h : CInv c N s done used) (hlt : done.length < c.gates.length) : ∃ i : Nat, i < c.gates.length ∧ (i : Int) ∉ done := by
  by_contra hno
  have hs : (List.range c.gates.length).map (fun i : Nat => (i : Int)) ⊆ done := by
    intro x hx
    obtain ⟨i, hi, rfl⟩ := List.mem_map.mp hx
    by_contra hn
    exact hno ⟨i, List.mem_range.mp hi, hn⟩
  have := ((nodup_wires c.gates.length).subperm hs).length_le
  simp at this
  omega

theorem scheduleLoop_spec {c : ReadCircuit} (hop : OperandsExist c) (ha : Acyclic c) {N : Nat} (hN : 0 < N) {idx : List Int}
    (hidx : idx.Perm ((List.range c.gates.length).map (fun i : Nat => (i : Int)))) :
    ∀ (fuel : Nat) (s : CoreState) (done : List Int) (used : Nat → List Int), CInv c N s done used →
    c.gates.length - done.length ≤ fuel →
    ∃ s' done' used', scheduleLoop c idx s = some s' ∧ CInv c N s' done' used' ∧ done'.length = c.gates.length := by
  have hmem : ∀ k ∈ idx, 0 ≤ k ∧ k < (c.gates.length : Int) := fun k hk => (mem_wires _ _).mp (hidx.mem_iff.mp hk)
  have hn : idx.Nodup := hidx.nodup_iff.mpr (nodup_wires _)
  intro fuel
  induction fuel with
  | zero =>
    intro s done used h hf
    have := h.short
    rw [scheduleLoop, if_neg (by rw [h.count]; omega)]
    exact ⟨s, done, used, rfl, h, by omega⟩
  | succ fuel ih =>
    intro s done used h hf
    have hshort := h.short
    rw [scheduleLoop]
    by_cases hlt : s.scheduled < (c.gates.length : Int)
    · rw [if_pos hlt]
      have hlt' : done.length < c.gates.length := by rw [h.count] at hlt; omega
      obtain ⟨s', new, used', e, h', hall⟩ := schedulePass_spec hop hN h.marks idx s done used h (fun _ hx => hx) hn hmem
        (fun _ _ hd => hd)
      obtain ⟨k, hk, hkn, hkr⟩ := exists_ready hop ha (h.missing hlt')
      have hk' := hall k (hidx.mem_iff.mpr ((mem_wires _ _).mpr ⟨by omega, by omega⟩)) hkr
      have hpos : 0 < new.length := by
        rcases List.mem_append.mp hk' with hd | hd
        · exact absurd hd hkn
        · exact List.length_pos_of_mem hd
      rw [e]
      simp only [Option.bind_eq_bind, Option.bind_some]
      exact ih s' (done ++ new) used' h' (by rw [List.length_append]; omega)
    · rw [if_neg hlt]
      exact ⟨s, done, used, rfl, h, by rw [h.count] at hlt; omega⟩

theorem startCores_inv (c : ReadCircuit) {N : Nat} {core : List (List Int)} (hl : core.length = N)
    (hr : ∀ row ∈ core, c.gates.length ≤ row.length) : CInv c N (startCores c N core) [] fun _ => [] := by
  refine ⟨by simp [startCores], ?_, hl, ?_, ?_, ?_, rfl, List.nodup_nil, by simp, ?_, by simp, by simp, by simp⟩
  · intro i hi
    exact ⟨-1, by simp [startCores, hi], by simp⟩
  · intro m hm
    have hm' : m < core.length := by omega
    exact ⟨core[m], by simp [startCores, hm'], by simpa using hr _ (List.getElem_mem hm')⟩
  · refine List.ext_getElem? fun i => ?_
    simp [startCores, List.getElem?_replicate]
  · refine List.ext_getElem? fun i => ?_
    simp [startCores, List.getElem?_replicate]
  · simp

open Relation in
theorem visit_reach (c : ReadCircuit) (st : SortState) (idx : Int) (r : Except (List Int) SortState)
    (h : visit c st idx = some r) : ∀ st', r = .ok st' → ∀ w ∈ st'.sorted, w ∈ st.sorted ∨
      (0 ≤ idx ∧ ReflTransGen (Feeds c) w.toNat idx.toNat) := by
  refine visit.partial_correctness c (motive := fun st idx r => ∀ st', r = .ok st' → ∀ w ∈ st'.sorted, w ∈ st.sorted ∨
      (0 ≤ idx ∧ ReflTransGen (Feeds c) w.toNat idx.toNat)) ?_ st idx r h
  intro f ih st idx r hr
  by_cases h0 : idx < 0
  · rw [if_pos h0] at hr
    obtain rfl : Except.ok st = r := by simpa using hr
    rintro st' e w hw
    cases e
    exact Or.inl hw
  rw [if_neg h0] at hr
  obtain ⟨u, rfl⟩ : ∃ u : Nat, idx = (u : Int) := ⟨idx.toNat, by omega⟩
  obtain ⟨m, hm, hr⟩ := Option.bind_eq_some_iff.mp hr
  cases m with
  | temp =>
    obtain rfl : Except.error _ = r := by simpa using hr
    intro st' e
    cases e
  | per =>
    obtain rfl : Except.ok st = r := by simpa using hr
    rintro st' e w hw
    cases e
    exact Or.inl hw
  | un =>
    obtain ⟨marks, _, hr⟩ := Option.bind_eq_some_iff.mp hr
    obtain ⟨g, hg, hr⟩ := Option.bind_eq_some_iff.mp hr
    obtain ⟨r0, h0', hr⟩ := Option.bind_eq_some_iff.mp hr
    have hfeed : ∀ w : Int, (w = g.input0 ∨ w = g.input1) → 0 ≤ w → Feeds c w.toNat u := by
      intro w hw hw0
      unfold getI at hg
      by_cases hge : 0 ≤ (u : Int) - (c.iid : Int)
      · rw [if_pos hge] at hg
        exact ⟨_, g, hg, by omega, by rcases hw with h | h; exacts [Or.inl (by omega), Or.inr (by omega)]⟩
      · rw [if_neg hge] at hg; cases hg
    have i0 := ih _ _ _ h0'
    cases r0 with
    | error loop =>
      obtain rfl : Except.error _ = r := by simpa using hr
      intro st' e
      cases e
    | ok st1 =>
      obtain ⟨r1, h1', hr⟩ := Option.bind_eq_some_iff.mp hr
      have i1 := ih _ _ _ h1'
      cases r1 with
      | error loop =>
        obtain rfl : Except.error _ = r := by simpa using hr
        intro st' e
        cases e
      | ok st2 =>
        obtain ⟨marks2, _, hr⟩ := Option.bind_eq_some_iff.mp hr
        obtain rfl : Except.ok _ = r := by simpa using hr
        rintro st' e w hw
        cases e
        rcases List.mem_append.mp hw with hw | hw
        · rcases i1 st2 rfl w hw with hw | ⟨hz, hw⟩
          · rcases i0 st1 rfl w hw with hw | ⟨hz, hw⟩
            · exact Or.inl hw
            · exact Or.inr ⟨by omega, hw.tail (hfeed _ (Or.inl rfl) hz)⟩
          · exact Or.inr ⟨by omega, hw.tail (hfeed _ (Or.inr rfl) hz)⟩
        · obtain rfl : w = (u : Int) := by simpa using hw
          exact Or.inr ⟨by omega, ReflTransGen.refl⟩

open Relation in
theorem dfsAll_spec (c : ReadCircuit) (hop : OperandsExist c) : ∀ (ws : List Int) (st : SortState), SInv c st →
    (∀ t : Nat, st.marks[t]? ≠ some .temp) → (∀ w ∈ ws, w < (wireCount c : Int)) →
    (∃ loop, dfsAll c st ws = some (.error loop) ∧ ∃ a, TransGen (Feeds c) a a) ∨
    (∃ st', dfsAll c st ws = some (.ok st') ∧ SInv c st' ∧
      (∀ w ∈ st'.sorted, w ∈ st.sorted ∨ ∃ x ∈ ws, 0 ≤ x ∧ ReflTransGen (Feeds c) w.toNat x.toNat) ∧
      (∀ w ∈ st.sorted, w ∈ st'.sorted) ∧ (∀ x ∈ ws, 0 ≤ x → x ∈ st'.sorted))
  | [], st, inv, _, _ => Or.inr ⟨st, rfl, inv, fun _ h => Or.inl h, fun _ h => h, by simp⟩
  | x :: ws, st, inv, ht, hw => by
    rw [dfsAll]
    rcases visit_spec c hop _ st x inv (hw x (by simp)) (Nat.le_refl _) (fun _ t h => absurd h (ht t)) with
      ⟨loop, e, ha⟩ | ⟨st1, e, hv, hper⟩
    · rw [e]
      exact Or.inl ⟨loop, rfl, ha⟩
    · have hr := visit_reach c st x _ e st1 rfl
      rw [e]
      simp only [Option.bind_eq_bind, Option.bind_some]
      rcases dfsAll_spec c hop ws st1 hv.inv (fun t h => ht t ((hv.temp t).mp h)) (fun w h => hw w (by simp [h])) with
        h | ⟨st2, e2, inv2, r2, k2, x2⟩
      · exact Or.inl h
      · refine Or.inr ⟨st2, e2, inv2, ?_, fun w h => k2 w (hv.pre.subset h), ?_⟩
        · intro w hw2
          rcases r2 w hw2 with h | ⟨y, hy, h⟩
          · rcases hr w h with h | h
            · exact Or.inl h
            · exact Or.inr ⟨x, by simp, h⟩
          · exact Or.inr ⟨y, by simp [hy], h⟩
        · intro y hy hy0
          rcases List.mem_cons.mp hy with rfl | hy
          · refine k2 _ ?_
            have := (hv.inv.mem y.toNat).mpr (hper hy0)
            rwa [show ((y.toNat : Nat) : Int) = y by omega] at this
          · exact x2 y hy hy0

open Relation in
theorem SInv.closed {c : ReadCircuit} {st : SortState} (h : SInv c st) {a b : Nat} (hr : ReflTransGen (Feeds c) a b)
    (hb : (b : Int) ∈ st.sorted) : (a : Int) ∈ st.sorted := by
  induction hr using ReflTransGen.head_induction_on with
  | refl => exact hb
  | head hf _ ih =>
    obtain ⟨k, hk⟩ := List.mem_iff_getElem?.mp ih
    obtain ⟨m, _, hm⟩ := h.order k _ _ hk hf
    exact List.mem_of_getElem? hm

/-- What `FindPath` finds. -/
theorem findPath_spec (c : ReadCircuit) (hop : OperandsExist c) (hw : ∀ w ∈ readOutside c, w < (wireCount c : Int)) :
    ∃ r, findPath c = some r ∧ (r = true ↔ Acyclic c ∧ ∀ i < c.gates.length, Needed c i) := by
  unfold findPath
  rcases dfsAll_spec c hop (readOutside c) _ (initial_inv c) (by
      intro t
      dsimp only
      intro h
      have := List.mem_of_getElem? h
      simp only [List.mem_map] at this
      obtain ⟨i, _, e⟩ := this
      split at e <;> cases e) hw with ⟨loop, e, a, ha⟩ | ⟨st, e, inv, reach, keep, roots⟩
  · unfold readOutside at e
    refine ⟨false, by dsimp only; rw [e]; rfl, ?_⟩
    constructor
    · intro h; cases h
    · rintro ⟨h, _⟩; exact absurd ha (h a)
  · unfold readOutside at e
    refine ⟨st.marks.all fun m => decide (m = Mark.per), by dsimp only; rw [e]; rfl, ?_⟩
    rw [List.all_eq_true]
    have hall : (∀ m ∈ st.marks, decide (m = Mark.per) = true) ↔ ∀ w < wireCount c, (w : Int) ∈ st.sorted := by
      constructor
      · intro h w hw
        have hl : w < st.marks.length := by rw [inv.len]; exact hw
        refine (inv.mem w).mpr ?_
        rw [List.getElem?_eq_getElem hl]
        exact congrArg some (of_decide_eq_true (h _ (List.getElem_mem hl)))
      · intro h m hm
        obtain ⟨w, hl, rfl⟩ := List.mem_iff_getElem.mp hm
        have := (inv.mem w).mp (h w (by rw [← inv.len]; exact hl))
        rw [List.getElem?_eq_getElem hl] at this
        exact decide_eq_true (by simpa using this)
    rw [hall]
    constructor
    · intro h
      refine ⟨?_, ?_⟩
      · have hl : st.sorted.length = wireCount c := inv.full fun w hw => (inv.mem w).mp (h w hw)
        have nd := inv.nodup
        intro a ha
        have pos : ∀ a b, Relation.TransGen (Feeds c) b a → ∀ k : Nat, st.sorted[k]? = some (a : Int) →
            ∃ m < k, st.sorted[m]? = some (b : Int) := by
          intro a b hab
          induction hab with
          | single hf => intro k hk; exact inv.order k _ _ hk hf
          | tail _ hf ih =>
            intro k hk
            obtain ⟨m, hm, e⟩ := inv.order k _ _ hk hf
            obtain ⟨m', hm', e'⟩ := ih m e
            exact ⟨m', by omega, e'⟩
        have hex : ∃ b, Feeds c b a := by
          cases ha with
          | single h => exact ⟨_, h⟩
          | tail _ h => exact ⟨_, h⟩
        obtain ⟨b, i, g, hg, rfl, _⟩ := hex
        obtain ⟨hi, _⟩ := List.getElem?_eq_some_iff.mp hg
        obtain ⟨k, hk⟩ := List.mem_iff_getElem?.mp (h (c.iid + i) (by unfold wireCount; omega))
        obtain ⟨m, hm, e⟩ := pos _ _ ha k hk
        exact (List.nodup_iff_getElem?_ne_getElem?.mp nd) m k hm (List.getElem?_eq_some_iff.mp hk).1 (e.trans hk.symm)
      · intro i hi
        rcases reach _ (h (c.iid + i) (by unfold wireCount; omega)) with hin | ⟨x, hx, h0, hr⟩
        · have := (mem_wires _ _).mp hin
          omega
        · exact ⟨x.toNat, by rwa [show ((x.toNat : Nat) : Int) = x by omega], by rwa [Int.toNat_natCast] at hr⟩
    · rintro ⟨_, hn⟩ w hw
      by_cases hwi : w < c.iid
      · exact (inv.mem w).mpr (inv.inputs w hwi)
      · obtain ⟨x, hx, hr⟩ := hn (w - c.iid) (by unfold wireCount at hw; omega)
        rw [show c.iid + (w - c.iid) = w from by omega] at hr
        exact inv.closed hr (roots x hx (by omega))

end TinyGarble.Proof
