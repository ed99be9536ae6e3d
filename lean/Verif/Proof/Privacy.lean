import Verif.Proof.Garbler
import Verif.Proof.PrivacyGate
import Verif.Proof.Semantics

/-! The evaluator's view does not depend on the secret inputs: the map between random choices. -/

namespace TinyGarble
open Spec

/-! ### Association lists -/

/-- The block associated with `p`, 0 if there is none. -/
def assoc (p : Block) : List (Block × Block) → Block
  | [] => 0#128
  | q :: l => if p = q.1 then q.2 else assoc p l

theorem assoc_mem {p d : Block} {l : List (Block × Block)} (hn : (l.map Prod.fst).Nodup) (h : (p, d) ∈ l) :
    assoc p l = d := by
  induction l with
  | nil => simp at h
  | cons q l ih =>
    rw [List.map_cons, List.nodup_cons] at hn
    unfold assoc
    rcases List.mem_cons.1 h with rfl | h
    · rw [if_pos rfl]
    · rw [if_neg, ih hn.2 h]
      rintro rfl
      exact hn.1 (List.mem_map.2 ⟨_, h, rfl⟩)

theorem assoc_not_mem {p : Block} {l : List (Block × Block)} (h : p ∉ l.map Prod.fst) : assoc p l = 0#128 := by
  induction l with
  | nil => rfl
  | cons q l ih =>
    rw [List.map_cons, List.mem_cons, not_or] at h
    unfold assoc
    rw [if_neg h.1, ih h.2]

theorem map_inj_lists {α β : Type} {f : α → β} {l l' : List α} (h : l.map f = l'.map f)
    (hi : ∀ a ∈ l, ∀ b ∈ l', f a = f b → a = b) : l = l' := by
  induction l generalizing l' with
  | nil => cases l' with
    | nil => rfl
    | cons b l' => simp at h
  | cons a l ih => cases l' with
    | nil => simp at h
    | cons b l' =>
      simp only [List.map_cons, List.cons.injEq] at h
      rw [hi a (by simp) b (by simp) h.1, ih h.2 (fun x hx y hy => hi x (by simp [hx]) y (by simp [hy]))]

theorem flatMap_congr' {α β : Type} {l : List α} {f g : α → List β} (h : ∀ a ∈ l, f a = g a) :
    l.flatMap f = l.flatMap g := by
  induction l with
  | nil => rfl
  | cons a l ih =>
    rw [List.flatMap_cons, List.flatMap_cons, h a (by simp), ih (fun b hb => h b (by simp [hb]))]

/-! ### The tables of a cycle -/

theorem fetch_sec {c : Circuit} {hi : Nat} {w : Int} (h : Readable c hi w)
    (hhi : hi ≤ c.wireSize) {bad : SWire} (hbad : ∀ f i, bad ≠ .sec f i) {sw : Nat → SWire} {f : Nat} {i : Bool}
    (hs : fetch c.wireSize (.pub false) (.pub true) bad sw w = .sec f i) :
    0 ≤ w ∧ c.initSize ≤ w.toNat ∧ w.toNat < hi ∧ sw w.toNat = .sec f i := by
  rcases fetch_readable h hhi (SWire.pub false) (.pub true) bad sw with ⟨h1, e⟩ | ⟨h1, h2, h3, e⟩
  · exfalso
    rw [e] at hs
    split at hs
    · simp at hs
    · split at hs
      · simp at hs
      · exact hbad f i hs
  · rw [e] at hs
    exact ⟨h1, h2, h3, hs⟩

/-- What is known about one of the tables. -/
structure TableFacts (c : Circuit) (enc : Block → Block) (R : Block) (cid : Nat) (gl : Nat → Block) (s : SState)
    (st : GState) (T : Table) (f : Nat) (j : Bool) (f' : Nat) (j' : Bool) : Prop where
  lt : T.gid.toNat < c.gateSize
  type : (c.gate T.gid.toNat).type ∈ tableTypes
  in0 : 0 ≤ (c.gate T.gid.toNat).input0 ∧ c.initSize ≤ (c.gate T.gid.toNat).input0.toNat
    ∧ (c.gate T.gid.toNat).input0.toNat < c.wireSize ∧ s.sw (c.gate T.gid.toNat).input0.toNat = .sec f j
  in1 : 0 ≤ (c.gate T.gid.toNat).input1 ∧ c.initSize ≤ (c.gate T.gid.toNat).input1.toNat
    ∧ (c.gate T.gid.toNat).input1.toNat < c.wireSize ∧ s.sw (c.gate T.gid.toNat).input1.toNat = .sec f' j'
  sym0 : symIn0 c s.sw (c.gate T.gid.toNat) = .sec f j
  sym1 : symIn1 c s.sw (c.gate T.gid.toNat) = .sec f' j'
  l0 : st.wires (c.gate T.gid.toNat).input0.toNat = gPair gl R f j
  l1 : st.wires (c.gate T.gid.toNat).input1.toNat = gPair gl R f' j'
  rows : (T.row0, T.row1) = (garbleHalfGates enc R cid T.gid.toNat (c.gate T.gid.toNat).type
    (gPair gl R f j) (gPair gl R f' j')).2
  out : s.sw (c.gateLo + T.gid.toNat) = .sec (2 ^ atomGate c cid T.gid.toNat) false
  label : gl (2 ^ atomGate c cid T.gid.toNat) = (garbleHalfGates enc R cid T.gid.toNat (c.gate T.gid.toNat).type
    (gPair gl R f j) (gPair gl R f' j')).1.label0

theorem GSim.table {c : Circuit} (wf : WF c) {enc : Block → Block} {R : Block} {cid : Nat} {gl : Nat → Block}
    {s : SState} {st : GState} {tabs : List Table} (h : GSim c enc R cid c.gateSize gl s st tabs) {T : Table}
    (hT : T ∈ tabs) : ∃ f j f' j', TableFacts c enc R cid gl s st T f j f' j' := by
  have hws := wireSize_eq c
  have hsz := wf.size
  obtain ⟨g, hg, hgid, r1, r2, r3, r4, r5, f, j, f', j', e, e'⟩ := h.rows T hT
  have eg : T.gid.toNat = g := by rw [hgid, BitVec.toNat_ofNat, Nat.mod_eq_of_lt (by omega)]
  obtain ⟨q1, q2, q3, q4⟩ := fetch_sec (wf.in0 g hg) (by omega) (by simp) e
  obtain ⟨q1', q2', q3', q4'⟩ := fetch_sec (wf.in1 g hg) (by omega) (bad1_ne_sec (c.gate g).type) e'
  have i0 := (inLabel_readable (wf.in0 g hg) (by omega) (by simp) e zeroPair st.wires).1
  have i1 := (inLabel_readable (wf.in1 g hg) (by omega) (bad1_ne_sec (c.gate g).type) e' zeroPair st.wires).1
  have l := h.lab _ (show (c.gate g).input0.toNat < c.wireSize by omega)
  have l' := h.lab _ (show (c.gate g).input1.toNat < c.wireSize by omega)
  have lo := h.lab _ (show c.gateLo + g < c.wireSize by omega)
  rw [q4] at l; rw [q4'] at l'; rw [r4] at lo
  simp only [onSec_sec] at l l' lo
  rw [i0, i1, l, l'] at r1 r2 r3
  subst eg
  refine ⟨f, j, f', j', ⟨hg, r5, ⟨q1, q2, by omega, q4⟩, ⟨q1', q2', by omega, q4'⟩, e, e', l, l',
    Prod.ext r1 r2, r4, ?_⟩⟩
  rw [← r3, lo]
  simp [gPair]

/-! ### The map between random choices -/

section
variable (P : Setting) {n : Nat}

/-- The corrections of the cipher at the hidden points. -/
def deltas (ω : Coins P.c n) (v v' : Nat → Nat → Bool) : List (Block × Block) :=
  (List.range (n + 1)).flatMap fun cid => (P.run ω cid).2.flatMap fun T =>
    let g := T.gid.toNat
    let a := (P.c.gate g).input0.toNat
    let b := (P.c.gate g).input1.toNat
    [(labelOf ((P.run ω cid).1.wires a) (v cid a ^^ true) ^^^ tweak0 cid g, scale (v cid b ^^ v' cid b) ω.R),
     (labelOf ((P.run ω cid).1.wires b) (v cid b ^^ true) ^^^ tweak1 cid g, scale (v cid a ^^ v' cid a) ω.R)]

theorem deltas_fst (ω : Coins P.c n) (v v' : Nat → Nat → Bool) :
    (deltas P ω v v').map Prod.fst = P.hidden ω v := by
  unfold deltas Setting.hidden Setting.points
  rw [List.map_flatMap]
  congr 1
  funext cid
  rw [List.map_flatMap]
  rfl

/-- The random choices that give the same view when the inputs are `x'` instead of `x`. -/
def shiftCoins (x x' : Inputs) (v v' : Nat → Nat → Bool) (ω : Coins P.c n) : Coins P.c n where
  R := ω.R
  init := fun k => ω.init k ^^^ scale (secretInitBit P.c x k ^^ secretInitBit P.c x' k) ω.R
  input := fun cid k => ω.input cid k ^^^ scale (secretInputBit P.c x cid k ^^ secretInputBit P.c x' cid k) ω.R
  cipher := fun p => ω.cipher p ^^^ assoc p (deltas P ω v v')

end

/-- What the two executions have in common. -/
structure Shifted (P : Setting) {n : Nat} (v v' : Nat → Nat → Bool) (ω ω' : Coins P.c n) (gl gl' : Nat → Block)
    (pv pv' : Nat → Bool) : Prop where
  R : ω'.R = ω.R
  map : ∀ f, gl' f = gl f ^^^ scale (pv f ^^ pv' f) ω.R
  sim : ∀ k ≤ n, GSim P.c ω.cipher ω.R k P.c.gateSize gl (symRun P.c P.sfan P.pInit P.pInput k) (P.run ω k).1
    (P.run ω k).2
  sim' : ∀ k ≤ n, GSim P.c ω'.cipher ω'.R k P.c.gateSize gl' (symRun P.c P.sfan P.pInit P.pInput k) (P.run ω' k).1
    (P.run ω' k).2
  pl : ∀ k ≤ n, PSim P.c pv P.c.wireSize (symRun P.c P.sfan P.pInit P.pInput k).sw (v k)
  pl' : ∀ k ≤ n, PSim P.c pv' P.c.wireSize (symRun P.c P.sfan P.pInit P.pInput k).sw (v' k)
  tables : ∀ k ≤ n, (P.run ω' k).2 = (P.run ω k).2

theorem gPair_shift {gl gl' : Nat → Block} {pv pv' : Nat → Bool} {R : Block}
    (h : ∀ f, gl' f = gl f ^^^ scale (pv f ^^ pv' f) R) (f : Nat) (j : Bool) :
    gPair gl' R f j = ⟨(gl f ^^^ scale j R) ^^^ scale ((pv f ^^ j) ^^ (pv' f ^^ j)) R,
      (gl f ^^^ scale j R) ^^^ scale ((pv f ^^ j) ^^ (pv' f ^^ j)) R ^^^ R⟩ := by
  unfold gPair
  rw [h f]
  have : ((pv f ^^ j) ^^ (pv' f ^^ j)) = (pv f ^^ pv' f) := by cases pv f <;> cases pv' f <;> cases j <;> rfl
  rw [this]
  have : gl f ^^^ scale (pv f ^^ pv' f) R ^^^ scale j R = gl f ^^^ scale j R ^^^ scale (pv f ^^ pv' f) R := by
    generalize scale (pv f ^^ pv' f) R = z; bxor
  rw [this]

theorem labelOf_gPair (gl : Nat → Block) (R : Block) (f : Nat) (j b : Bool) :
    labelOf (gPair gl R f j) b = (gl f ^^^ scale j R) ^^^ scale b R := by
  unfold labelOf gPair
  cases b <;> simp

/-- The label of a value is the same in both executions. -/
theorem labelOf_shift {gl gl' : Nat → Block} {pv pv' : Nat → Bool} {R : Block}
    (h : ∀ f, gl' f = gl f ^^^ scale (pv f ^^ pv' f) R) (f : Nat) (j o : Bool) :
    labelOf (gPair gl' R f j) ((pv' f ^^ j) ^^ o) = labelOf (gPair gl R f j) ((pv f ^^ j) ^^ o) := by
  rw [labelOf_gPair, labelOf_gPair, h f]
  cases pv f <;> cases pv' f <;> cases j <;> cases o <;> simp <;> bxor

theorem PSim.sec_at {c : Circuit} {pv : Nat → Bool} {sw : Nat → SWire} {x : Nat → Bool} {f w : Nat} {j : Bool}
    (h : PSim c pv c.wireSize sw x)
    (hw : c.initSize ≤ w ∧ w < c.wireSize ∧ sw w = .sec f j) : x w = (pv f ^^ j) := by
  have := h.sec w hw.1 hw.2.1
  rw [hw.2.2] at this
  exact this

/-- The second execution is like the first one. -/
theorem shift_sim {P : Setting} {n : Nat} (wf : WF P.c) (hg : GFresh P.gst0) {x x' : Inputs}
    (hx : x.pInit = P.pInit ∧ x.pInput = P.pInput) (hx' : x'.pInit = P.pInit ∧ x'.pInput = P.pInput)
    {v v' : Nat → Nat → Bool} (hv : Solves P.c x v) (hv' : Solves P.c x' v') {ω : Coins P.c n}
    (good : P.Good v ω) :
    ∃ gl gl' pv pv', Shifted P v v' ω (shiftCoins P x x' v v' ω) gl gl' pv pv' := by
  have hws := wireSize_eq P.c
  have hsf : ∀ g < P.c.gateSize, P.sfan g = totalFan P.c.gateSize (fun j => cnt P.c j g) + extUses P.c g :=
    fun g hg => fillFanout_counts wf P.fan0 hg
  have hR := good.odd
  -- the labels of `ω`
  obtain ⟨gl, L, G⟩ := garbleRun_map wf hR hsf (gin := P.gin ω) (pInit := P.pInit) (pInput := P.pInput)
    (fun _ => ⟨rfl, rfl⟩)
    (fun k hk => by unfold Setting.gin; simp only [dif_pos hk])
    (fun cid k hk => by
      unfold Setting.gin
      by_cases h : cid < n + 1
      · simp only [dif_pos (And.intro h hk)]
      · simp only [dif_neg (fun q : cid < n + 1 ∧ k < P.c.secretInputSize => h q.1)]
        simp [zeroBlock])
    P.lowMem hg n good.noCollision
  -- the plain values
  have plain : ∀ (y : Inputs) (u : Nat → Nat → Bool), y.pInit = P.pInit ∧ y.pInput = P.pInput → Solves P.c y u →
      ∃ pv, AdditiveB pv ∧ (∀ k < P.c.secretInitSize, pv (2 ^ k) = secretInitBit P.c y k)
        ∧ (∀ cid ≤ n, ∀ k < P.c.secretInputSize, pv (2 ^ atomIn P.c cid k) = secretInputBit P.c y cid k)
        ∧ ∀ k ≤ n, PSim P.c pv P.c.wireSize (symRun P.c P.sfan P.pInit P.pInput k).sw (u k) := by
    intro y u hy hu
    obtain ⟨pv, p1, p2, p3, p4⟩ := plainRun_map wf hsf y (fun _ => false) n
    refine ⟨pv, p1, p2, p3, ?_⟩
    intro k hk
    have q := p4 k hk
    rw [hy.1, hy.2] at q
    have e := fun w h1 h2 => solves_unique wf (plainWires_solves wf y fun _ => false) hu k w h1 h2
    exact ⟨q.add, fun w h1 h2 => by have := q.pub w h1 h2; rwa [e w h1 h2] at this,
      fun w h1 h2 => by have := q.sec w h1 h2; rwa [e w h1 h2] at this⟩
  obtain ⟨pv, pA, pI, pX, pS⟩ := plain x v hx hv
  obtain ⟨pv', pA', pI', pX', pS'⟩ := plain x' v' hx' hv'
  let gl' : Nat → Block := fun f => gl f ^^^ scale (pv f ^^ pv' f) ω.R
  have hgl' : ∀ f, gl' f = gl f ^^^ scale (pv f ^^ pv' f) ω.R := fun _ => rfl
  let ω' := shiftCoins P x x' v v' ω
  have eR : ω'.R = ω.R := rfl
  -- the swap at a table
  have swap : ∀ k ≤ n, ∀ T ∈ (P.run ω k).2, ∀ f j f' j',
      TableFacts P.c ω.cipher ω.R k gl (symRun P.c P.sfan P.pInit P.pInput k) (P.run ω k).1 T f j f' j' →
      let r' := garbleHalfGates ω'.cipher ω'.R k T.gid.toNat (P.c.gate T.gid.toNat).type
        (gPair gl' ω.R f j) (gPair gl' ω.R f' j')
      r'.2 = (T.row0, T.row1) ∧ r'.1.label0 = gl' (2 ^ atomGate P.c k T.gid.toNat) := by
    intro k hk T hT f j f' j' F
    have va := (pS k hk).sec_at F.in0.2
    have vb := (pS k hk).sec_at F.in1.2
    have va' := (pS' k hk).sec_at F.in0.2
    have vb' := (pS' k hk).sec_at F.in1.2
    have hlt := F.lt
    -- the value of the gate
    have vo := (pS k hk).sec_at (w := P.c.gateLo + T.gid.toNat)
      ⟨by have := layout P.c; omega, by omega, F.out⟩
    have vo' := (pS' k hk).sec_at (w := P.c.gateLo + T.gid.toNat)
      ⟨by have := layout P.c; omega, by omega, F.out⟩
    have op : ∀ (u : Nat → Bool) (w : Int), 0 ≤ w → operand u w = u w.toNat := by
      intro u w h0; unfold operand; rw [if_neg (by omega), if_neg (by omega)]
    have gv := hv.gate k T.gid.toNat F.lt
    have gv' := hv'.gate k T.gid.toNat F.lt
    rw [(bases P.c).2.2, op _ _ F.in0.1, op _ _ F.in1.1, va, vb, vo, Bool.xor_false] at gv
    rw [(bases P.c).2.2, op _ _ F.in0.1, op _ _ F.in1.1, va', vb', vo', Bool.xor_false] at gv'
    -- hidden and computed points
    have mem : ∀ o p, p ∈ [labelOf ((P.run ω k).1.wires (P.c.gate T.gid.toNat).input0.toNat)
          (v k (P.c.gate T.gid.toNat).input0.toNat ^^ o) ^^^ tweak0 k T.gid.toNat,
        labelOf ((P.run ω k).1.wires (P.c.gate T.gid.toNat).input1.toNat)
          (v k (P.c.gate T.gid.toNat).input1.toNat ^^ o) ^^^ tweak1 k T.gid.toNat] → p ∈ P.points ω v o k := by
      intro o p hp
      unfold Setting.points
      exact List.mem_flatMap.2 ⟨T, hT, hp⟩
    have memD : ∀ q, q ∈ [(labelOf ((P.run ω k).1.wires (P.c.gate T.gid.toNat).input0.toNat)
          (v k (P.c.gate T.gid.toNat).input0.toNat ^^ true) ^^^ tweak0 k T.gid.toNat,
          scale (v k (P.c.gate T.gid.toNat).input1.toNat ^^ v' k (P.c.gate T.gid.toNat).input1.toNat) ω.R),
        (labelOf ((P.run ω k).1.wires (P.c.gate T.gid.toNat).input1.toNat)
          (v k (P.c.gate T.gid.toNat).input1.toNat ^^ true) ^^^ tweak1 k T.gid.toNat,
          scale (v k (P.c.gate T.gid.toNat).input0.toNat ^^ v' k (P.c.gate T.gid.toNat).input0.toNat) ω.R)] →
        q ∈ deltas P ω v v' := by
      intro q hq
      unfold deltas
      exact List.mem_flatMap.2 ⟨k, by simp; omega, List.mem_flatMap.2 ⟨T, hT, hq⟩⟩
    have hn : ((deltas P ω v v').map Prod.fst).Nodup := by rw [deltas_fst]; exact good.distinct
    have free : ∀ p ∈ P.points ω v false k, ω'.cipher p = ω.cipher p := by
      intro p hp
      have := good.separate k hk p hp
      rw [← deltas_fst P ω v v'] at this
      show ω.cipher p ^^^ assoc p (deltas P ω v v') = _
      rw [assoc_not_mem this, BitVec.xor_zero]
    have hid : ∀ p d, (p, d) ∈ deltas P ω v v' → ω'.cipher p = ω.cipher p ^^^ d := by
      intro p d hp
      show ω.cipher p ^^^ assoc p (deltas P ω v v') = _
      rw [assoc_mem hn hp]
    rw [F.l0, F.l1, va, vb] at mem
    rw [F.l0, F.l1, va, vb, va', vb'] at memD
    simp only [labelOf_gPair] at mem memD
    have m0 := free _ (mem false _ (List.mem_cons_self))
    have m1 := free _ (mem false _ (List.mem_cons_of_mem _ List.mem_cons_self))
    have d0 := hid _ _ (memD _ (List.mem_cons_self))
    have d1 := hid _ _ (memD _ (List.mem_cons_of_mem _ List.mem_cons_self))
    rw [Bool.xor_false] at m0 m1
    rw [Bool.xor_true] at d0 d1
    have key := garbleHalfGates_swap hR F.type (gl f ^^^ scale j ω.R) (gl f' ^^^ scale j' ω.R)
      (pv f ^^ j) (pv f' ^^ j') (pv' f ^^ j) (pv' f' ^^ j') m0 d0 m1 d1
    have rows := F.rows
    have label := F.label
    intro r'
    simp only [r', eR]
    rw [gPair_shift hgl' f j, gPair_shift hgl' f' j', rows, hgl', label, gv, gv']
    exact key
  -- facts at the gates for the second execution
  have facts : ∀ k ≤ n, GateFacts P.c ω'.cipher ω'.R k gl' (symRun P.c P.sfan P.pInit P.pInput k) := by
    intro k hk
    refine ⟨?_, ?_⟩
    · intro i hi f j f' j' e e' hne
      have nc := good.noCollision k hk i hi f j f' j' e e' hne
      obtain ⟨q1, q2, q3, q4⟩ := fetch_sec (wf.in0 i hi) (by omega) (by simp) e
      obtain ⟨q1', q2', q3', q4'⟩ := fetch_sec (wf.in1 i hi) (by omega) (bad1_ne_sec (P.c.gate i).type) e'
      have l := (G k hk).lab _ (show (P.c.gate i).input0.toNat < P.c.wireSize by omega)
      have l' := (G k hk).lab _ (show (P.c.gate i).input1.toNat < P.c.wireSize by omega)
      rw [q4] at l; rw [q4'] at l'
      simp only [onSec_sec] at l l'
      have nc2 : cmpBlock (gPair gl ω.R f j).label0 (gPair gl ω.R f' j').label0 = false ∧
          cmpBlock (gPair gl ω.R f j).label0 (gPair gl ω.R f' j').label1 = false := by
        rw [← l, ← l']; exact nc
      rw [eR, gPair_shift hgl' f j, gPair_shift hgl' f' j']
      unfold gPair at nc2
      generalize gl f ^^^ scale j ω.R = a at nc2 ⊢
      generalize gl f' ^^^ scale j' ω.R = b at nc2 ⊢
      simp only at nc2 ⊢
      have c0 : cmpBlock (a ^^^ ω.R) b = false := by
        rw [← nc2.2]; apply cmpBlock_congr; bxor
      have c1 : cmpBlock (a ^^^ ω.R) (b ^^^ ω.R) = false := by
        rw [← nc2.1]; apply cmpBlock_congr; bxor
      have c2 : cmpBlock (a ^^^ ω.R) (b ^^^ ω.R ^^^ ω.R) = false := by
        rw [← nc2.2]; apply cmpBlock_congr; bxor
      have c3 : cmpBlock a (b ^^^ ω.R ^^^ ω.R) = false := by
        rw [← nc2.1]; apply cmpBlock_congr; bxor
      cases ((pv f ^^ j) ^^ (pv' f ^^ j)) <;> cases ((pv f' ^^ j') ^^ (pv' f' ^^ j')) <;>
        simp only [scale_true, scale_false, BitVec.xor_zero]
      · exact nc2
      · exact ⟨nc2.2, c3⟩
      · exact ⟨c0, c1⟩
      · exact ⟨c1, c2⟩
    · intro i hi f j f' j' e e' ht
      rw [← (G k hk).gids] at hi
      obtain ⟨T, hT, rfl⟩ := List.mem_map.1 hi
      obtain ⟨f1, j1, f1', j1', F⟩ := (G k hk).table wf hT
      have s0 := F.sym0
      have s1 := F.sym1
      rw [e] at s0; rw [e'] at s1
      cases s0; cases s1
      exact (swap k hk T hT _ _ _ _ F).2
  -- the labels of the second execution
  have L' : GLabels P.c ω'.R (P.gin ω') gl' n := by
    refine ⟨?_, ?_, ?_⟩
    · intro a b
      simp only [gl']
      rw [L.add, pA, pA']
      cases pv a <;> cases pv b <;> cases pv' a <;> cases pv' b <;> simp <;> bxor
    · intro k hk
      have := L.init k hk
      unfold Setting.gin at this ⊢
      simp only [dif_pos hk, gPair, scale_false, BitVec.xor_zero] at this ⊢
      have e : gl (2 ^ k) = ω.init ⟨k, hk⟩ := by
        have := congrArg BlockPair.label0 this; exact this.symm
      simp only [gl']
      rw [e, pI k hk, pI' k hk]
      rfl
    · intro cid hc k hk
      have := L.input cid hc k hk
      unfold Setting.gin at this ⊢
      simp only [dif_pos (And.intro (show cid < n + 1 by omega) hk), gPair, scale_false, BitVec.xor_zero] at this ⊢
      have e : gl (2 ^ atomIn P.c cid k) = ω.input ⟨cid, by omega⟩ ⟨k, hk⟩ := by
        have := congrArg BlockPair.label0 this; exact this.symm
      simp only [gl']
      rw [e, pX cid hc k hk, pX' cid hc k hk]
      rfl
  have G' := garbleRun_check wf (by rw [eR]; exact hR) hsf (gin := P.gin ω') (pInit := P.pInit)
    (pInput := P.pInput) (fun _ => ⟨rfl, rfl⟩) P.lowMem hg L' facts
  refine ⟨gl, gl', pv, pv', ⟨eR, hgl', G, G', pS, pS', ?_⟩⟩
  intro k hk
  apply map_inj_lists (f := fun T => T.gid.toNat)
  · have := (G' k hk).gids
    rw [← (G k hk).gids] at this
    exact this
  · intro T' hT' T hT egid
    obtain ⟨f, j, f', j', F⟩ := (G k hk).table wf hT
    obtain ⟨f1, j1, f1', j1', F'⟩ := (G' k hk).table wf hT'
    have s0 := F'.sym0
    have s1 := F'.sym1
    rw [egid, F.sym0] at s0
    rw [egid, F.sym1] at s1
    cases s0; cases s1
    have sw := (swap k hk T hT _ _ _ _ F).1
    have r := F'.rows
    rw [egid] at r
    have r2 : (T'.row0, T'.row1) = (T.row0, T.row1) := by
      rw [r]; exact sw
    have := BitVec.eq_of_toNat_eq egid
    cases T; cases T'
    simp only [Prod.mk.injEq] at r2
    rw [r2.1, r2.2]
    cases this; rfl


section
variable {P : Setting} {n : Nat} {v v' : Nat → Nat → Bool} {ω ω' : Coins P.c n} {gl gl' : Nat → Block}
  {pv pv' : Nat → Bool}

/-- Every table's points are the same in both executions. -/
theorem Shifted.label_eq (wf : WF P.c) (S : Shifted P v v' ω ω' gl gl' pv pv') {k : Nat} (hk : k ≤ n) {T : Table}
    (hT : T ∈ (P.run ω k).2) (o : Bool) :
    labelOf ((P.run ω' k).1.wires (P.c.gate T.gid.toNat).input0.toNat)
        (v' k (P.c.gate T.gid.toNat).input0.toNat ^^ o)
      = labelOf ((P.run ω k).1.wires (P.c.gate T.gid.toNat).input0.toNat)
        (v k (P.c.gate T.gid.toNat).input0.toNat ^^ o)
    ∧ labelOf ((P.run ω' k).1.wires (P.c.gate T.gid.toNat).input1.toNat)
        (v' k (P.c.gate T.gid.toNat).input1.toNat ^^ o)
      = labelOf ((P.run ω k).1.wires (P.c.gate T.gid.toNat).input1.toNat)
        (v k (P.c.gate T.gid.toNat).input1.toNat ^^ o) := by
  obtain ⟨f, j, f', j', F⟩ := (S.sim k hk).table wf hT
  have hT' : T ∈ (P.run ω' k).2 := by rw [S.tables k hk]; exact hT
  obtain ⟨f1, j1, f1', j1', F'⟩ := (S.sim' k hk).table wf hT'
  have s0 := F'.sym0
  have s1 := F'.sym1
  rw [F.sym0] at s0; rw [F.sym1] at s1
  cases s0; cases s1
  rw [F.l0, F.l1, F'.l0, F'.l1, (S.pl k hk).sec_at F.in0.2, (S.pl k hk).sec_at F.in1.2,
    (S.pl' k hk).sec_at F.in0.2, (S.pl' k hk).sec_at F.in1.2, S.R]
  exact ⟨labelOf_shift S.map _ _ _, labelOf_shift S.map _ _ _⟩

theorem Shifted.points_eq (wf : WF P.c) (S : Shifted P v v' ω ω' gl gl' pv pv') {k : Nat} (hk : k ≤ n) (o : Bool) :
    P.points ω' v' o k = P.points ω v o k := by
  unfold Setting.points
  rw [S.tables k hk]
  apply flatMap_congr'
  intro T hT
  obtain ⟨e0, e1⟩ := S.label_eq wf hk hT o
  simp only [e0, e1]

theorem Shifted.hidden_eq (wf : WF P.c) (S : Shifted P v v' ω ω' gl gl' pv pv') :
    P.hidden ω' v' = P.hidden ω v := by
  unfold Setting.hidden
  apply flatMap_congr'
  intro k hk
  exact S.points_eq wf (by simp at hk; omega) true

theorem Shifted.deltas_eq (wf : WF P.c) (S : Shifted P v v' ω ω' gl gl' pv pv') :
    deltas P ω' v' v = deltas P ω v v' := by
  unfold deltas
  apply flatMap_congr'
  intro k hk
  have hk' : k ≤ n := by simp at hk; omega
  rw [S.tables k hk']
  apply flatMap_congr'
  intro T hT
  obtain ⟨e0, e1⟩ := S.label_eq wf hk' hT true
  simp only [e0, e1, S.R]
  rw [Bool.xor_comm (v' k (P.c.gate T.gid.toNat).input1.toNat), Bool.xor_comm (v' k (P.c.gate T.gid.toNat).input0.toNat)]

theorem Shifted.sent_eq (S : Shifted P v v' ω ω' gl gl' pv pv') (wf : WF P.c) {k : Nat} (hk : k ≤ n) :
    P.sent ω' k = P.sent ω k := by
  show selectTables (P.run ω' k).1.fan (P.run ω' k).2 = selectTables (P.run ω k).1.fan (P.run ω k).2
  rw [S.tables k hk]
  unfold selectTables
  apply List.filter_congr
  intro T hT
  obtain ⟨f, j, f', j', F⟩ := (S.sim k hk).table wf hT
  rw [(S.sim' k hk).fan _ F.lt, (S.sim k hk).fan _ F.lt]

/-- A revealed wire whose value agrees has the same labels in both executions. -/
theorem Shifted.wire_eq (wf : WF P.c) (S : Shifted P v v' ω ω' gl gl' pv pv') {k : Nat} (hk : k ≤ n) {w : Nat}
    (hw : OutWire P.c w) :
    (P.run ω' k).1.val w = (P.run ω k).1.val w
    ∧ (((P.run ω k).1.val w).isSecret = true → v k w = v' k w → (P.run ω' k).1.wires w = (P.run ω k).1.wires w) := by
  have hsf : ∀ g < P.c.gateSize, P.sfan g = totalFan P.c.gateSize (fun j => cnt P.c j g) + extUses P.c g :=
    fun g hg => fillFanout_counts wf P.fan0 hg
  have hend := symRun_inv wf hsf P.pInit P.pInput k
  have hr : P.c.initSize ≤ w ∧ w < P.c.wireSize
      ∧ (symRun P.c P.sfan P.pInit P.pInput k).sw w ≠ .hid := by
    rcases hw with ⟨i, hi, rfl⟩ | ⟨h0, rfl⟩
    · have := wf.outputs i hi
      exact ⟨by omega, by omega, SInv.out_ne_hid wf hend hi⟩
    · have := wf.term
      exact ⟨by omega, by omega, SInv.term_ne_hid wf hend h0⟩
  obtain ⟨h1, h2, h3⟩ := hr
  have e1 := (S.sim k hk).val w h2
  have e1' := (S.sim' k hk).val w h2
  have e2 := (S.sim k hk).lab w h2
  have e2' := (S.sim' k hk).lab w h2
  have e3 := (S.pl k hk).sec w h1 h2
  have e3' := (S.pl' k hk).sec w h1 h2
  refine ⟨by rw [e1, e1'], ?_⟩
  rw [e1]
  revert e2 e2' e3 e3' h3
  cases (symRun P.c P.sfan P.pInit P.pInput k).sw w with
  | hid => intro h3; exact absurd rfl h3
  | pub b => intro _ _ _ _ _ h; simp [SWire.toW, WVal.isSecret] at h
  | sec f j =>
    intro _ e2 e2' e3 e3' _ hvv
    simp only [onSec_sec] at e2 e2' e3 e3'
    rw [e3, e3'] at hvv
    have : pv f = pv' f := by cases h : pv f <;> cases h' : pv' f <;> cases j <;> simp_all
    rw [e2, e2', S.R]
    unfold gPair
    rw [S.map f, this]
    simp

end

/-- The map between random choices, with all its properties. -/
theorem shiftCoins_spec {P : Setting} {n : Nat} (wf : WF P.c) (hg : GFresh P.gst0) {x x' : Inputs}
    (hx : x.pInit = P.pInit ∧ x.pInput = P.pInput) (hx' : x'.pInit = P.pInit ∧ x'.pInput = P.pInput)
    {v v' : Nat → Nat → Bool} (hv : Solves P.c x v) (hv' : Solves P.c x' v') {reveal : Nat → Nat → Prop}
    (hr : ∀ k ≤ n, ∀ w, OutWire P.c w → reveal k w → v k w = v' k w) {ω : Coins P.c n}
    (good : P.Good v ω) :
    P.Good v' (shiftCoins P x x' v v' ω)
    ∧ P.view x' v' reveal (shiftCoins P x x' v v' ω) = P.view x v reveal ω
    ∧ shiftCoins P x' x v' v (shiftCoins P x x' v v' ω) = ω := by
  obtain ⟨gl, gl', pv, pv', S⟩ := shift_sim wf hg hx hx' hv hv' good
  have hh := S.hidden_eq wf
  refine ⟨⟨good.odd, ?_, ?_, ?_⟩, ?_, ?_⟩
  · intro k hk i hi f j f' j' e e' hne
    have hws := wireSize_eq P.c
    have nc := good.noCollision k hk i hi f j f' j' e e' hne
    obtain ⟨q1, q2, q3, q4⟩ := fetch_sec (wf.in0 i hi) (by omega) (by simp) e
    obtain ⟨q1', q2', q3', q4'⟩ := fetch_sec (wf.in1 i hi) (by omega) (bad1_ne_sec (P.c.gate i).type) e'
    have l := (S.sim k hk).lab _ (show (P.c.gate i).input0.toNat < P.c.wireSize by omega)
    have l' := (S.sim k hk).lab _ (show (P.c.gate i).input1.toNat < P.c.wireSize by omega)
    have m := (S.sim' k hk).lab _ (show (P.c.gate i).input0.toNat < P.c.wireSize by omega)
    have m' := (S.sim' k hk).lab _ (show (P.c.gate i).input1.toNat < P.c.wireSize by omega)
    rw [q4] at l m; rw [q4'] at l' m'
    simp only [onSec_sec] at l l' m m'
    rw [l, l'] at nc
    rw [m, m', S.R, gPair_shift S.map f j, gPair_shift S.map f' j']
    unfold gPair at nc
    generalize gl f ^^^ scale j ω.R = a at nc ⊢
    generalize gl f' ^^^ scale j' ω.R = b at nc ⊢
    simp only at nc ⊢
    have c0 : cmpBlock (a ^^^ ω.R) b = false := by
      rw [← nc.2]; apply cmpBlock_congr; bxor
    have c1 : cmpBlock (a ^^^ ω.R) (b ^^^ ω.R) = false := by
      rw [← nc.1]; apply cmpBlock_congr; bxor
    have c2 : cmpBlock (a ^^^ ω.R) (b ^^^ ω.R ^^^ ω.R) = false := by
      rw [← nc.2]; apply cmpBlock_congr; bxor
    have c3 : cmpBlock a (b ^^^ ω.R ^^^ ω.R) = false := by
      rw [← nc.1]; apply cmpBlock_congr; bxor
    cases ((pv f ^^ j) ^^ (pv' f ^^ j)) <;> cases ((pv f' ^^ j') ^^ (pv' f' ^^ j')) <;>
      simp only [scale_true, scale_false, BitVec.xor_zero]
    · exact nc
    · exact ⟨nc.2, c3⟩
    · exact ⟨c0, c1⟩
    · exact ⟨c1, c2⟩
  · rw [hh]; exact good.distinct
  · intro k hk p hp
    rw [hh]
    rw [S.points_eq wf hk] at hp
    exact good.separate k hk p hp
  · have two : ∀ (a : Block) (p q : Bool), labelOf ⟨a ^^^ scale (p ^^ q) ω.R, a ^^^ scale (p ^^ q) ω.R ^^^ ω.R⟩ q
        = labelOf ⟨a, a ^^^ ω.R⟩ p := by
      intro a p q
      unfold labelOf
      cases p <;> cases q <;> simp [BitVec.xor_assoc]
    unfold Setting.view
    apply View.ext
    · funext k
      simp only [Setting.gin, dif_pos k.2]
      exact two _ _ _
    · funext cid k
      simp only [Setting.gin, dif_pos (And.intro cid.2 k.2)]
      exact two _ _ _
    · funext cid
      exact S.sent_eq wf (by omega)
    · funext cid w
      simp only
      by_cases hw : OutWire P.c w
      · obtain ⟨e1, e2⟩ := S.wire_eq wf (show cid.1 ≤ n by omega) hw
        rw [e1]
        by_cases hc : reveal cid w ∧ ((P.run ω cid).1.val w).isSecret = true
        · rw [if_pos ⟨hw, hc⟩, if_pos ⟨hw, hc⟩, e2 hc.2 (hr cid (by omega) w hw hc.1)]
        · rw [if_neg (fun h => hc h.2), if_neg (fun h => hc h.2)]
      · rw [if_neg (fun h => hw h.1), if_neg (fun h => hw h.1)]
    · funext p
      simp only
      rw [hh]
      by_cases hp : p ∈ P.hidden ω v
      · rw [if_pos hp, if_pos hp]
      · rw [if_neg hp, if_neg hp]
        have hp' := hp
        rw [← deltas_fst P ω v v'] at hp'
        show some (ω.cipher p ^^^ assoc p (deltas P ω v v')) = _
        rw [assoc_not_mem hp', BitVec.xor_zero]
  · have hd := S.deltas_eq wf
    have back : ∀ (a : Block) (p q : Bool) (R : Block), a ^^^ scale (p ^^ q) R ^^^ scale (q ^^ p) R = a := by
      intro a p q R
      rw [Bool.xor_comm q p, BitVec.xor_assoc, BitVec.xor_self, BitVec.xor_zero]
    have : shiftCoins P x' x v' v (shiftCoins P x x' v v' ω)
        = ⟨ω.R, fun k => ω.init k, fun cid k => ω.input cid k, fun p => ω.cipher p⟩ := by
      rw [shiftCoins]
      congr 1
      · funext k; exact back _ _ _ _
      · funext cid k; exact back _ _ _ _
      · funext p
        rw [hd]
        show ω.cipher p ^^^ assoc p (deltas P ω v v') ^^^ assoc p (deltas P ω v v') = _
        rw [BitVec.xor_assoc, BitVec.xor_self, BitVec.xor_zero]
    exact this

end TinyGarble
