import Mathlib.Data.List.Nodup
import Verif.Proof.Accident

/-! The cipher can be chosen such that the garbled gates get given fresh labels: this is how the random
choices of the garbler relate to independent random labels. -/

namespace TinyGarble
open Spec

/-- Changing the cipher by the same block at the two points of the first input changes the output
labels by that block. -/
theorem garbleHalfGates_shift {enc enc' : Block → Block} (R : Block) (cid gid : Nat) (t : Int) (l0 l1 : BlockPair)
    {d : Block} (a0 : enc' (l0.label0 ^^^ tweak0 cid gid) = enc (l0.label0 ^^^ tweak0 cid gid) ^^^ d)
    (a1 : enc' (l0.label1 ^^^ tweak0 cid gid) = enc (l0.label1 ^^^ tweak0 cid gid) ^^^ d)
    (b0 : enc' (l1.label0 ^^^ tweak1 cid gid) = enc (l1.label0 ^^^ tweak1 cid gid))
    (b1 : enc' (l1.label1 ^^^ tweak1 cid gid) = enc (l1.label1 ^^^ tweak1 cid gid)) :
    (garbleHalfGates enc' R cid gid t l0 l1).1.label0 = (garbleHalfGates enc R cid gid t l0 l1).1.label0 ^^^ d := by
  have h0 : hashBlock enc' l0.label0 (tweak0 cid gid) = hashBlock enc l0.label0 (tweak0 cid gid) ^^^ d := by
    unfold hashBlock xorBlock; rw [a0, ← BitVec.xor_assoc]
  have h1 : hashBlock enc' l0.label1 (tweak0 cid gid) = hashBlock enc l0.label1 (tweak0 cid gid) ^^^ d := by
    unfold hashBlock xorBlock; rw [a1, ← BitVec.xor_assoc]
  have h2 : hashBlock enc' l1.label0 (tweak1 cid gid) = hashBlock enc l1.label0 (tweak1 cid gid) := by
    unfold hashBlock xorBlock; rw [b0]
  have h3 : hashBlock enc' l1.label1 (tweak1 cid gid) = hashBlock enc l1.label1 (tweak1 cid gid) := by
    unfold hashBlock xorBlock; rw [b1]
  unfold garbleHalfGates
  generalize type2V t = v
  obtain ⟨v1, v2, v3⟩ := v
  cases v1 <;> cases v2 <;> cases v3 <;> simp only [Bool.false_eq_true, if_true, if_false, h0, h1, h2, h3] <;>
    (repeat' split) <;> simp only [xorBlock] <;> bxor

section
variable {P : Setting} {n : Nat}

/-- Gate `g` gets a garbled table in cycle `k`. -/
def Slot (P : Setting) (k g : Nat) : Prop :=
  g ∈ (P.sym k).tabs ∧ ∃ f j f' j', symIn0 P.c (P.sym k).sw (P.c.gate g) = .sec f j
    ∧ symIn1 P.c (P.sym k).sw (P.c.gate g) = .sec f' j'

open Classical in
/-- By how much the cipher is to be changed for gate `g` in cycle `k`; for the other gates the unused
label. -/
noncomputable def gateShift (ω : Draw (P.atoms n)) (F : Block → Block) (k g : Nat) : Block :=
  if Slot P k g then
    match symIn0 P.c (P.sym k).sw (P.c.gate g), symIn1 P.c (P.sym k).sw (P.c.gate g) with
    | .sec f j, .sec f' j' =>
      (garbleHalfGates F ω.1.1 k g (P.c.gate g).type (gPair ω.gl ω.1.1 f j) (gPair ω.gl ω.1.1 f' j')).1.label0
        ^^^ ω.gl (2 ^ atomGate P.c k g)
    | _, _ => 0#128
  else total ω.2 (atomGate P.c k g)

open Classical in
/-- The change of the cipher at point `p`. -/
noncomputable def change (ω : Draw (P.atoms n)) (z : Nat → Nat → Block) (p : Block) : Block :=
  if h : ∃ x : Use P n, Slot P x.1 x.2.1 ∧ x.2.2.1 = false ∧ x.point ω.gl ω.1.1 = p
  then z h.choose.1 h.choose.2.1 else 0#128

/-- The random choices that lead to the labels `ω`. -/
noncomputable def program (ω : Draw (P.atoms n)) (F : Block → Block) : Coins P.c n where
  R := ω.1.1
  init := fun k => total ω.2 k
  input := fun cid k => total ω.2 (atomIn P.c cid k)
  cipher := fun p => F p ^^^ change ω (gateShift ω F) p

theorem Slot.use {k g : Nat} (s : Slot P k g) (hk : k < n + 1) (hg : g < P.c.gateSize) (half e : Bool) :
    ∃ f j, Use.sw P n (⟨k, hk⟩, ⟨g, hg⟩, half, e) = .sec f j := by
  obtain ⟨_, f, j, f', j', h, h'⟩ := s
  unfold Use.sw
  cases half
  · exact ⟨f, j, by simpa using h⟩
  · exact ⟨f', j', by simpa using h'⟩

/-- Different uses have different points. -/
theorem Lucky.inj {ω : Draw (P.atoms n)} (L : Lucky ω) {x y : Use P n} (hx : Slot P x.1 x.2.1)
    (hy : Slot P y.1 y.2.1) (h : x.point ω.gl ω.1.1 = y.point ω.gl ω.1.1) : x = y := by
  by_contra hne
  exact L.uses x y ⟨hx.use x.1.2 x.2.1.2 x.2.2.1 x.2.2.2, hy.use y.1.2 y.2.1.2 y.2.2.1 y.2.2.2, hne, h⟩

theorem change_first {ω : Draw (P.atoms n)} (L : Lucky ω) (z : Nat → Nat → Block) {x : Use P n}
    (hx : Slot P x.1 x.2.1) (h : x.2.2.1 = false) : change ω z (x.point ω.gl ω.1.1) = z x.1 x.2.1 := by
  have ex : ∃ y : Use P n, Slot P y.1 y.2.1 ∧ y.2.2.1 = false ∧ y.point ω.gl ω.1.1 = x.point ω.gl ω.1.1 :=
    ⟨x, hx, h, rfl⟩
  unfold change
  rw [dif_pos ex]
  have := L.inj ex.choose_spec.1 hx ex.choose_spec.2.2
  rw [this]

theorem change_second {ω : Draw (P.atoms n)} (L : Lucky ω) (z : Nat → Nat → Block) {x : Use P n}
    (hx : Slot P x.1 x.2.1) (h : x.2.2.1 = true) : change ω z (x.point ω.gl ω.1.1) = 0#128 := by
  unfold change
  rw [dif_neg]
  rintro ⟨y, hy, hf, e⟩
  have := L.inj hy hx e
  rw [this, h] at hf
  exact Bool.noConfusion hf

theorem point_first (gl : Nat → Block) (R : Block) {k g : Nat} (hk : k < n + 1) (hg : g < P.c.gateSize) {f : Nat}
    {j : Bool} (h : symIn0 P.c (P.sym k).sw (P.c.gate g) = .sec f j) (b : Bool) :
    labelOf (gPair gl R f j) b ^^^ tweak0 k g = Use.point gl R ((⟨k, hk⟩, ⟨g, hg⟩, false, b) : Use P n) := by
  have e : Use.sw P n (⟨k, hk⟩, ⟨g, hg⟩, false, b) = .sec f j := by unfold Use.sw; simpa using h
  unfold Use.point
  rw [e, labelOf_gPair]
  simp only [scale_xor, Props.tweakOf, Bool.false_eq_true, if_false, BitVec.xor_assoc]

theorem point_second (gl : Nat → Block) (R : Block) {k g : Nat} (hk : k < n + 1) (hg : g < P.c.gateSize) {f : Nat}
    {j : Bool} (h : symIn1 P.c (P.sym k).sw (P.c.gate g) = .sec f j) (b : Bool) :
    labelOf (gPair gl R f j) b ^^^ tweak1 k g = Use.point gl R ((⟨k, hk⟩, ⟨g, hg⟩, true, b) : Use P n) := by
  have e : Use.sw P n (⟨k, hk⟩, ⟨g, hg⟩, true, b) = .sec f j := by unfold Use.sw; simpa using h
  unfold Use.point
  rw [e, labelOf_gPair]
  simp only [scale_xor, Props.tweakOf, if_true, BitVec.xor_assoc]

theorem atomGate_lt (c : Circuit) {k g : Nat} (hk : k ≤ n) (hg : g < c.gateSize) :
    atomGate c k g < atomBase c (n + 1) := by
  have := atomBase_mono c (show k + 1 ≤ n + 1 by omega)
  rw [← atomGate_end] at this
  unfold atomGate at this ⊢; omega

theorem atomIn_lt (c : Circuit) {k i : Nat} (hk : k ≤ n) (hi : i < c.secretInputSize) :
    atomIn c k i < atomBase c (n + 1) := by
  have := atomBase_mono c (show k + 1 ≤ n + 1 by omega)
  rw [← atomGate_end] at this
  unfold atomGate at this; unfold atomIn; omega

/-- The execution with the programmed random choices has the given labels. -/
theorem program_sim (wf : WF P.c) (hg : GFresh P.gst0) {ω : Draw (P.atoms n)} (L : Lucky ω) (F : Block → Block) :
    ∀ k ≤ n, GSim P.c (program ω F).cipher ω.1.1 k P.c.gateSize ω.gl (P.sym k) (P.run (program ω F) k).1
      (P.run (program ω F) k).2 := by
  have hws := wireSize_eq P.c
  have hsf : ∀ g < P.c.gateSize, P.sfan g = totalFan P.c.gateSize (fun j => cnt P.c j g) + extUses P.c g :=
    fun g hg => fillFanout_counts wf P.fan0 hg
  have labels : GLabels P.c ω.1.1 (P.gin (program ω F)) ω.gl n := by
    refine ⟨lin_additive _ _, ?_, ?_⟩
    · intro k hk
      have hlt : k < P.atoms n := by unfold Spec.Setting.atoms atomBase; omega
      unfold Setting.gin gPair
      simp only [dif_pos hk, scale_false, BitVec.xor_zero]
      rw [show ω.gl (2 ^ k) = total ω.2 k from lin_pow _ hlt]
      rfl
    · intro cid hc k hk
      unfold Setting.gin gPair
      simp only [dif_pos (And.intro (show cid < n + 1 by omega) hk), scale_false, BitVec.xor_zero]
      rw [show ω.gl (2 ^ atomIn P.c cid k) = total ω.2 (atomIn P.c cid k) from lin_pow _ (atomIn_lt P.c hc hk)]
      rfl
  have facts : ∀ k ≤ n, GateFacts P.c (program ω F).cipher ω.1.1 k ω.gl (P.sym k) := by
    intro k hk
    have hk' : k < n + 1 := by omega
    refine ⟨?_, ?_⟩
    · intro i hi f j f' j' e e' hne
      have a := fun b => L.gates (⟨k, hk'⟩, ⟨i, hi⟩, b)
      constructor
      · by_contra h
        exact a false ⟨f, j, f', j', e, e', hne, by simpa [labelOf] using h⟩
      · by_contra h
        exact a true ⟨f, j, f', j', e, e', hne, by simpa [labelOf] using h⟩
    · intro i hi f j f' j' e e' _
      have hlt := (symRun_inv wf hsf P.pInit P.pInput k).tabLt i hi
      have slot : Slot P k i := ⟨hi, f, j, f', j', e, e'⟩
      have p0 := point_first (n := n) ω.gl ω.1.1 hk' hlt e
      have p1 := point_second (n := n) ω.gl ω.1.1 hk' hlt e'
      have c0 : ∀ b, (program ω F).cipher (labelOf (gPair ω.gl ω.1.1 f j) b ^^^ tweak0 k i)
          = F (labelOf (gPair ω.gl ω.1.1 f j) b ^^^ tweak0 k i) ^^^ gateShift ω F k i := by
        intro b
        show F _ ^^^ change ω (gateShift ω F) _ = _
        rw [p0 b, change_first L _ slot rfl]
      have c1 : ∀ b, (program ω F).cipher (labelOf (gPair ω.gl ω.1.1 f' j') b ^^^ tweak1 k i)
          = F (labelOf (gPair ω.gl ω.1.1 f' j') b ^^^ tweak1 k i) := by
        intro b
        show F _ ^^^ change ω (gateShift ω F) _ = _
        rw [p1 b, change_second L _ slot rfl, BitVec.xor_zero]
      rw [garbleHalfGates_shift ω.1.1 k i _ _ _ (c0 false) (c0 true) (c1 false) (c1 true)]
      unfold gateShift
      rw [if_pos slot, e, e']
      simp only
      rw [xor_cancel_left]
  exact garbleRun_check wf ω.1.2 hsf (gin := P.gin (program ω F)) (pInit := P.pInit) (pInput := P.pInput)
    (fun _ => ⟨rfl, rfl⟩) P.lowMem hg labels facts

/-- The points of a cycle, as uses. -/
theorem points_use (wf : WF P.c) {ω : Coins P.c n} {gl : Nat → Block} {k : Nat} (hk : k < n + 1)
    (G : GSim P.c ω.cipher ω.R k P.c.gateSize gl (P.sym k) (P.run ω k).1 (P.run ω k).2) (v : Nat → Nat → Bool)
    (o : Bool) {T : Table} (hT : T ∈ (P.run ω k).2) :
    ∃ hlt : T.gid.toNat < P.c.gateSize, Slot P k T.gid.toNat ∧
      labelOf ((P.run ω k).1.wires (P.c.gate T.gid.toNat).input0.toNat)
          (v k (P.c.gate T.gid.toNat).input0.toNat ^^ o) ^^^ tweak0 k T.gid.toNat
        = Use.point gl ω.R ((⟨k, hk⟩, ⟨T.gid.toNat, hlt⟩, false, v k (P.c.gate T.gid.toNat).input0.toNat ^^ o) : Use P n)
      ∧ labelOf ((P.run ω k).1.wires (P.c.gate T.gid.toNat).input1.toNat)
          (v k (P.c.gate T.gid.toNat).input1.toNat ^^ o) ^^^ tweak1 k T.gid.toNat
        = Use.point gl ω.R ((⟨k, hk⟩, ⟨T.gid.toNat, hlt⟩, true, v k (P.c.gate T.gid.toNat).input1.toNat ^^ o) : Use P n) := by
  obtain ⟨f, j, f', j', E⟩ := G.table wf hT
  refine ⟨E.lt, ⟨?_, f, j, f', j', E.sym0, E.sym1⟩, ?_, ?_⟩
  · rw [← G.gids]; exact List.mem_map.2 ⟨T, hT, rfl⟩
  · rw [E.l0]; exact point_first gl ω.R hk E.lt E.sym0 _
  · rw [E.l1]; exact point_second gl ω.R hk E.lt E.sym1 _

/-- What is known about a point of a cycle. -/
theorem mem_points (wf : WF P.c) {ω : Coins P.c n} {gl : Nat → Block} {k : Nat} (hk : k < n + 1)
    (G : GSim P.c ω.cipher ω.R k P.c.gateSize gl (P.sym k) (P.run ω k).1 (P.run ω k).2) {v : Nat → Nat → Bool}
    {o : Bool} {p : Block} (hp : p ∈ P.points ω v o k) :
    ∃ x : Use P n, x.1.1 = k ∧ Slot P x.1 x.2.1 ∧ x.point gl ω.R = p
      ∧ x.2.2.2 = (v k (if x.2.2.1 then (P.c.gate x.2.1).input1 else (P.c.gate x.2.1).input0).toNat ^^ o) := by
  unfold Setting.points at hp
  obtain ⟨T, hT, hp⟩ := List.mem_flatMap.1 hp
  obtain ⟨hlt, slot, e0, e1⟩ := points_use wf hk G v o hT
  simp only [List.mem_cons, List.not_mem_nil, or_false] at hp
  rcases hp with rfl | rfl
  · exact ⟨_, rfl, slot, e0.symm, by simp⟩
  · exact ⟨_, rfl, slot, e1.symm, by simp⟩

/-- Lucky labels make good random choices. -/
theorem program_good (wf : WF P.c) (hg : GFresh P.gst0) {ω : Draw (P.atoms n)} (L : Lucky ω) (F : Block → Block)
    (v : Nat → Nat → Bool) : P.Good v (program ω F) := by
  have hws := wireSize_eq P.c
  have hsf : ∀ g < P.c.gateSize, P.sfan g = totalFan P.c.gateSize (fun j => cnt P.c j g) + extUses P.c g :=
    fun g hg => fillFanout_counts wf P.fan0 hg
  have G := program_sim wf hg L F
  refine ⟨ω.1.2, ?_, ?_, ?_⟩
  · intro k hk i hi f j f' j' e e' hne
    obtain ⟨q1, q2, q3, q4⟩ := fetch_sec (wf.in0 i hi) (by omega) (by simp) e
    obtain ⟨q1', q2', q3', q4'⟩ := fetch_sec (wf.in1 i hi) (by omega) (bad1_ne_sec (P.c.gate i).type) e'
    have l := (G k hk).lab _ (show (P.c.gate i).input0.toNat < P.c.wireSize by omega)
    have l' := (G k hk).lab _ (show (P.c.gate i).input1.toNat < P.c.wireSize by omega)
    rw [q4] at l; rw [q4'] at l'
    simp only [onSec_sec] at l l'
    rw [l, l']
    have a := fun b => L.gates (⟨k, by omega⟩, ⟨i, hi⟩, b)
    constructor
    · by_contra h
      exact a false ⟨f, j, f', j', e, e', hne, by simpa [labelOf] using h⟩
    · by_contra h
      exact a true ⟨f, j, f', j', e, e', hne, by simpa [labelOf] using h⟩
  · unfold Setting.hidden
    rw [List.nodup_flatMap]
    constructor
    · intro k hk
      have hk : k < n + 1 := List.mem_range.1 hk
      have Gk := G k (by omega)
      unfold Setting.points
      rw [List.nodup_flatMap]
      constructor
      · intro T hT
        obtain ⟨hlt, slot, e0, e1⟩ := points_use wf hk Gk v true hT
        simp only [List.nodup_cons, List.mem_cons, List.not_mem_nil, or_false, not_false_eq_true, List.nodup_nil,
          and_true]
        rw [e0, e1]
        intro h
        have := L.inj slot slot h
        simp at this
      · have sorted : ((P.run (program ω F) k).2.map fun T => T.gid.toNat).Pairwise (· < ·) := by
          rw [Gk.gids]; exact (symRun_inv wf hsf P.pInit P.pInput k).sorted
        rw [List.pairwise_map] at sorted
        refine sorted.imp_of_mem ?_
        intro T T' hT hT' hlt p hp hp'
        obtain ⟨hlt1, slot1, e0, e1⟩ := points_use wf hk Gk v true hT
        obtain ⟨hlt2, slot2, e0', e1'⟩ := points_use wf hk Gk v true hT'
        simp only [List.mem_cons, List.not_mem_nil, or_false] at hp hp'
        rw [e0, e1] at hp
        rw [e0', e1'] at hp'
        have key : ∀ b e b' e', Use.point ω.gl ω.1.1 ((⟨k, hk⟩, ⟨T.gid.toNat, hlt1⟩, b, e) : Use P n)
            = Use.point ω.gl ω.1.1 ((⟨k, hk⟩, ⟨T'.gid.toNat, hlt2⟩, b', e') : Use P n) → False := by
          intro b e b' e' h
          have := L.inj slot1 slot2 h
          simp only [Prod.mk.injEq, Fin.mk.injEq] at this
          omega
        rcases hp with rfl | rfl <;> rcases hp' with h | h <;> exact key _ _ _ _ h
    · refine List.pairwise_lt_range.imp_of_mem ?_
      intro k k' hk hk' hlt p hp hp'
      have hk : k < n + 1 := List.mem_range.1 hk
      have hk' : k' < n + 1 := List.mem_range.1 hk'
      obtain ⟨x, e1, s1, q1, _⟩ := mem_points wf hk (G k (by omega)) hp
      obtain ⟨y, e2, s2, q2, _⟩ := mem_points wf hk' (G k' (by omega)) hp'
      have := L.inj s1 s2 (q1.trans q2.symm)
      rw [this] at e1
      omega
  · intro k hk p hp hp'
    unfold Setting.hidden at hp'
    obtain ⟨k', hk', hp'⟩ := List.mem_flatMap.1 hp'
    have hk' : k' < n + 1 := List.mem_range.1 hk'
    obtain ⟨x, e1, s1, q1, r1⟩ := mem_points wf (by omega) (G k hk) hp
    obtain ⟨y, e2, s2, q2, r2⟩ := mem_points wf hk' (G k' (by omega)) hp'
    have := L.inj s1 s2 (q1.trans q2.symm)
    subst this
    have : k = k' := by omega
    subst this
    rw [r1] at r2
    revert r2
    cases v k (if x.2.2.1 then (P.c.gate x.2.1).input1 else (P.c.gate x.2.1).input0).toNat <;> simp

/-- The label of a table's output wire is the gate's atom. -/
theorem slot_label (wf : WF P.c) {enc : Block → Block} {R : Block} {gl : Nat → Block} {k g : Nat} {st : GState}
    {tabs : List Table} (G : GSim P.c enc R k P.c.gateSize gl (P.sym k) st tabs) (s : Slot P k g) :
    (st.wires (P.c.gateLo + g)).label0 = gl (2 ^ atomGate P.c k g) := by
  have hws := wireSize_eq P.c
  have hm := s.1
  rw [← G.gids] at hm
  obtain ⟨T, hT, rfl⟩ := List.mem_map.1 hm
  obtain ⟨f, j, f', j', E⟩ := G.table wf hT
  have hlt := E.lt
  have lo := G.lab _ (show P.c.gateLo + T.gid.toNat < P.c.wireSize by omega)
  rw [E.out] at lo
  simp only [onSec_sec] at lo
  rw [lo]
  simp [gPair]

theorem atom_cases (c : Circuit) {i : Nat} (hi : i < atomBase c (n + 1)) :
    i < c.secretInitSize ∨ (∃ cid ≤ n, ∃ k < c.secretInputSize, i = atomIn c cid k)
      ∨ ∃ cid ≤ n, ∃ g < c.gateSize, i = atomGate c cid g := by
  by_cases h : i < c.secretInitSize
  · exact .inl h
  right
  unfold atomBase at hi
  obtain ⟨r, rfl⟩ := Nat.exists_eq_add_of_le (Nat.le_of_not_lt h)
  generalize hW : c.secretInputSize + c.gateSize = W at hi
  have hr : r < (n + 1) * W := by omega
  have hW0 : 0 < W := by
    rcases Nat.eq_zero_or_pos W with h0 | h0
    · rw [h0] at hr; omega
    · exact h0
  have hq : r / W ≤ n := by
    have := (Nat.div_lt_iff_lt_mul hW0).2 hr
    omega
  have hm := Nat.mod_lt r hW0
  have e := Nat.div_add_mod r W
  rw [Nat.mul_comm] at e
  by_cases h2 : r % W < c.secretInputSize
  · refine .inl ⟨r / W, hq, r % W, h2, ?_⟩
    unfold atomIn atomBase; rw [hW]; omega
  · refine .inr ⟨r / W, hq, r % W - c.secretInputSize, by omega, ?_⟩
    unfold atomGate atomBase; rw [hW]; omega

/-- The labels and the original cipher can be recovered. -/
theorem program_injective (wf : WF P.c) (hg : GFresh P.gst0) {ω ω' : Draw (P.atoms n)} (L : Lucky ω) (L' : Lucky ω')
    {F F' : Block → Block} (h : program ω F = program ω' F')
    (hz : ∀ k ≤ n, ∀ g < P.c.gateSize, gateShift ω F k g = gateShift ω' F' k g) : ω = ω' ∧ F = F' := by
  have G := program_sim wf hg L F
  have G' := program_sim wf hg L' F'
  have hR : ω.1 = ω'.1 := Subtype.ext (congrArg Coins.R h)
  have tot : ∀ i < P.atoms n, total ω.2 i = total ω'.2 i := by
    intro i hi
    rcases atom_cases P.c hi with h1 | ⟨cid, hc, k, hk, rfl⟩ | ⟨cid, hc, g, hg', rfl⟩
    · exact congrFun (congrArg Coins.init h) ⟨i, h1⟩
    · exact congrFun (congrFun (congrArg Coins.input h) ⟨cid, by omega⟩) ⟨k, hk⟩
    · by_cases s : Slot P cid g
      · have a := slot_label wf (G cid hc) s
        have a' := slot_label wf (G' cid hc) s
        rw [h, a'] at a
        have e1 : ω.gl (2 ^ atomGate P.c cid g) = total ω.2 (atomGate P.c cid g) := lin_pow _ hi
        have e2 : ω'.gl (2 ^ atomGate P.c cid g) = total ω'.2 (atomGate P.c cid g) := lin_pow _ hi
        rw [e1, e2] at a
        exact a.symm
      · have := hz cid hc g hg'
        unfold gateShift at this
        rwa [if_neg s, if_neg s] at this
  have hb : ω = ω' := by
    refine Prod.ext hR ?_
    funext i
    have := tot i.1 i.2
    unfold total at this
    rwa [dif_pos i.2, dif_pos i.2] at this
  subst hb
  refine ⟨rfl, ?_⟩
  funext p
  have hc : F p ^^^ change ω (gateShift ω F) p = F' p ^^^ change ω (gateShift ω F') p :=
    congrFun (congrArg Coins.cipher h) p
  have : change ω (gateShift ω F) p = change ω (gateShift ω F') p := by
    unfold change
    split
    next ex =>
      have a := ex.choose.1.2
      exact hz _ (by omega) _ ex.choose.2.1.2
    next => rfl
  rw [this] at hc
  exact xor_right_cancel hc

/-- Values for the gates. -/
abbrev GateBlocks (P : Setting) (n : Nat) : Type := Fin (n + 1) → Fin P.c.gateSize → Block

theorem coins_equiv (c : Circuit) (n : Nat) : Nonempty ({ω : Coins c n // getLSB ω.R = true} ≃
    OddBlock × (Fin c.secretInitSize → Block) × (Fin (n + 1) → Fin c.secretInputSize → Block) × (Block → Block)) :=
  ⟨⟨fun ω => (⟨ω.1.R, ω.2⟩, ω.1.init, ω.1.input, ω.1.cipher), fun q => ⟨⟨q.1.1, q.2.1, q.2.2.1, q.2.2.2⟩, q.1.2⟩,
    fun _ => rfl, fun _ => rfl⟩⟩

instance coinsFinite (c : Circuit) (n : Nat) : Finite (Coins c n) := by
  refine Finite.of_injective (fun ω : Coins c n => (ω.R, ω.init, ω.input, ω.cipher)) ?_
  intro a b h
  cases a; cases b
  simpa using h

theorem draws_coins (P : Setting) (n : Nat) : Nat.card (Draw (P.atoms n)) * Nat.card (Block → Block)
    = Nat.card {ω : Coins P.c n // getLSB ω.R = true} * Nat.card (GateBlocks P n) := by
  rw [Nat.card_congr (coins_equiv P.c n).some]
  simp only [Nat.card_prod]
  rw [show Nat.card (GateBlocks P n) = (Nat.card Block ^ P.c.gateSize) ^ (n + 1) by
      rw [Nat.card_fun, Nat.card_fun, Nat.card_eq_fintype_card (α := Fin _), Nat.card_eq_fintype_card (α := Fin _),
        Fintype.card_fin, Fintype.card_fin]]
  rw [show Nat.card (Fin (n + 1) → Fin P.c.secretInputSize → Block)
      = (Nat.card Block ^ P.c.secretInputSize) ^ (n + 1) by
      rw [Nat.card_fun, Nat.card_fun, Nat.card_eq_fintype_card (α := Fin _), Nat.card_eq_fintype_card (α := Fin _),
        Fintype.card_fin, Fintype.card_fin]]
  rw [show Nat.card (Fin P.c.secretInitSize → Block) = Nat.card Block ^ P.c.secretInitSize by
      rw [Nat.card_fun, Nat.card_eq_fintype_card (α := Fin _), Fintype.card_fin]]
  rw [show Nat.card (Fin (P.atoms n) → Block) = Nat.card Block ^ P.atoms n by
      rw [Nat.card_fun, Nat.card_eq_fintype_card (α := Fin _), Fintype.card_fin]]
  unfold Spec.Setting.atoms atomBase
  generalize Nat.card Block = B
  generalize Nat.card (Block → Block) = F
  rw [Nat.pow_add, Nat.mul_add, Nat.pow_add, Nat.mul_comm (n + 1), Nat.mul_comm (n + 1), Nat.pow_mul, Nat.pow_mul]
  ring

/-- At least as many random choices are good as draws are lucky. -/
theorem lucky_good (wf : WF P.c) (hg : GFresh P.gst0) (v : Nat → Nat → Bool) :
    Nat.card {ω : Draw (P.atoms n) // Lucky ω} * Nat.card (Block → Block)
      ≤ Nat.card {ω : Coins P.c n // getLSB ω.R = true ∧ P.Good v ω} * Nat.card (GateBlocks P n) := by
  rw [← Nat.card_prod, ← Nat.card_prod]
  refine Nat.card_le_card_of_injective (fun q =>
    (⟨program q.1.1 q.2, q.1.1.1.2, program_good wf hg q.1.2 q.2 v⟩, fun k g => gateShift q.1.1 q.2 k g)) ?_
  rintro ⟨⟨ω, L⟩, F⟩ ⟨⟨ω', L'⟩, F'⟩ h
  simp only [Prod.mk.injEq, Subtype.mk.injEq] at h
  obtain ⟨rfl, rfl⟩ := program_injective wf hg L L' h.1
    (fun k hk g hg => congrFun (congrFun h.2 ⟨k, by omega⟩) ⟨g, hg⟩)
  rfl

theorem bad_arith {D F O Z l u G b A K : Nat} (hD : D * F = O * Z) (hl : D = l + u) (hO : O = G + b)
    (h : l * F ≤ G * Z) (hu : u * A ≤ K * D) (hZ : 0 < Z) : b * A ≤ K * O := by
  have h1 : b * Z ≤ u * F := by
    rw [hl, hO, Nat.add_mul, Nat.add_mul] at hD
    omega
  have h2 : (b * A) * Z ≤ (K * O) * Z := by
    calc (b * A) * Z = (b * Z) * A := by ring
      _ ≤ (u * F) * A := Nat.mul_le_mul_right _ h1
      _ = (u * A) * F := by ring
      _ ≤ (K * D) * F := Nat.mul_le_mul_right _ hu
      _ = K * (D * F) := by ring
      _ = (K * O) * Z := by rw [hD]; ring
  exact Nat.le_of_mul_le_mul_right h2 hZ

/-- Few random choices are not good. -/
theorem bad_count (wf : WF P.c) (hg : GFresh P.gst0) (hn : n < 2 ^ 64) (v : Nat → Nat → Bool) :
    Nat.card {ω : Coins P.c n // getLSB ω.R = true ∧ ¬ P.Good v ω} * 2 ^ 127
      ≤ (16 * ((n + 1) * P.c.gateSize) ^ 2 + 2 ^ 64 * ((n + 1) * P.c.gateSize))
        * Nat.card {ω : Coins P.c n // getLSB ω.R = true} := by
  have hu := unlucky_count wf hn
  have hs := card_split (fun _ : Draw (P.atoms n) => True) Lucky
  simp only [true_and] at hs
  have ht : Nat.card {_ω : Draw (P.atoms n) // True} = Nat.card (Draw (P.atoms n)) :=
    Nat.card_congr ⟨fun ω => ω.1, fun ω => ⟨ω, trivial⟩, fun _ => rfl, fun _ => rfl⟩
  rw [ht] at hs
  have hO := card_split (fun ω : Coins P.c n => getLSB ω.R = true) (P.Good v)
  have hZ : 0 < Nat.card (GateBlocks P n) := by
    have : Nonempty (GateBlocks P n) := ⟨fun _ _ => 0#128⟩
    exact Nat.card_pos
  generalize (2 : Nat) ^ 127 = A at *
  generalize (16 * ((n + 1) * P.c.gateSize) ^ 2 + 2 ^ 64 * ((n + 1) * P.c.gateSize)) = K at *
  exact bad_arith (draws_coins P n) hs hO (lucky_good wf hg v) hu hZ

end

end TinyGarble
