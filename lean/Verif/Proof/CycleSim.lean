import Verif.Proof.GateSim
import Verif.Model.Plain

/-! Simulation of one clock cycle. -/

namespace TinyGarble
open Spec

/-! ### Use counts only depend on initialised entries -/

theorem reduceFanout_congr {c : Circuit} (wf : WF c) {n : Nat} (f : Nat → Nat) (w : Int) :
    ∀ h : Nat → Nat, (∀ g < n, f g = h g) → w < ((c.gateLo + n : Nat) : Int) →
      ∀ g < n, reduceFanout c f w g = reduceFanout c h w g := by
  apply reduceFanout_induct c (fun f w f' => ∀ h : Nat → Nat, (∀ g < n, f g = h g) →
    w < ((c.gateLo + n : Nat) : Int) → ∀ g < n, f' g = reduceFanout c h w g)
  · intro f w hno h hfh hw g hg
    rw [reduceFanout_eq, if_neg]
    · exact hfh g hg
    · rintro ⟨h1, h2, h3⟩
      rw [← hfh _ (by omega)] at h3
      exact hno ⟨h1, h2, h3⟩
  · intro f w k hk hkG hfk h hfh hw g hg
    have hkn : k < n := by omega
    have e : (w - (c.gateLo : Int)).toNat = k := by omega
    rw [reduceFanout_eq, e, if_pos ⟨by omega, by omega, by rw [← hfh k hkn]; omega⟩]
    rw [upd_same, if_neg (by rw [← hfh k hkn]; omega)]
    by_cases hgk : g = k
    · subst hgk; rw [upd_same, upd_same, hfh g hg]
    · rw [upd_ne _ _ hgk, upd_ne _ _ hgk, hfh g hg]
  · intro f w f2 f3 k hk hkG hfk ih1 ih2 h hfh hw g hg
    have hkn : k < n := by omega
    have e : (w - (c.gateLo : Int)).toNat = k := by omega
    have r0 := wf.in0 k hkG
    have r1 := wf.in1 k hkG
    unfold Readable at r0 r1
    rw [reduceFanout_eq, e, if_pos ⟨by omega, by omega, by rw [← hfh k hkn]; omega⟩]
    rw [upd_same, if_pos (by rw [← hfh k hkn]; omega)]
    have e0 : h k - 1 = 0 := by rw [← hfh k hkn]; omega
    rw [e0]
    apply ih2 _ _ (by omega) g hg
    apply ih1 _ _ (by omega)
    intro g' hg'
    by_cases hgk : g' = k
    · subst hgk; rw [upd_same, upd_same]
    · rw [upd_ne _ _ hgk, upd_ne _ _ hgk, hfh g' hg']

theorem symReduce_congr {c : Circuit} (wf : WF c) {n i : Nat} (hi : i < n) (hn : n ≤ c.gateSize)
    {a b : SWire} {f h : Nat → Nat} (hfh : ∀ g < n, f g = h g) :
    ∀ g < n, symReduce c i a b f g = symReduce c i a b h g := by
  have r0 := wf.in0 i (by omega)
  have r1 := wf.in1 i (by omega)
  unfold Readable at r0 r1
  unfold symReduce
  have h0 : ∀ g < n, upd f i 0 g = upd h i 0 g := by
    intro g hg
    by_cases hgi : g = i
    · subst hgi; rw [upd_same, upd_same]
    · rw [upd_ne _ _ hgi, upd_ne _ _ hgi, hfh g hg]
  have h1 : ∀ g < n, (if a.isPub then upd f i 0 else reduceFanout c (upd f i 0) (c.gate i).input0) g
      = (if a.isPub then upd h i 0 else reduceFanout c (upd h i 0) (c.gate i).input0) g := by
    intro g hg
    split
    · exact h0 g hg
    · exact reduceFanout_congr wf _ _ _ h0 (by omega) g hg
  intro g hg
  split
  · exact h1 g hg
  · exact reduceFanout_congr wf _ _ _ h1 (by omega) g hg

/-! ### Loops that write one entry per iteration -/

theorem forLoop_stable {σ β : Type} (f : Nat → σ → σ) (get : σ → Nat → β) (lo : Nat)
    (h : ∀ i s w, w ≠ lo + i → get (f i s) w = get s w) (s : σ) {m n : Nat} (hmn : m ≤ n) {w : Nat}
    (hw : w < lo + m) : get (forLoop f n s) w = get (forLoop f m s) w := by
  induction n with
  | zero => have : m = 0 := by omega
            subst this; rfl
  | succ n ih =>
    by_cases e : m = n + 1
    · subst e; rfl
    · simp only [forLoop]
      rw [h n _ w (by omega), ih (by omega)]

theorem symStep_sw (c : Circuit) (cid i : Nat) (s : SState) {w : Nat} (h : w ≠ c.gateLo + i) :
    (symStep c cid i s).sw w = s.sw w := by
  unfold symStep
  split
  · exact upd_ne _ _ h
  · rfl

theorem garbleStep_wires (c : Circuit) (enc : Block → Block) (R : Block) (cid i : Nat)
    (s : GState × List Table) {w : Nat} (h : w ≠ c.gateLo + i) :
    (garbleStep c enc R cid i s).1.wires w = s.1.wires w := by
  unfold garbleStep
  simp only
  split
  · exact upd_ne _ _ h
  · rfl

theorem evalStep_wires (c : Circuit) (enc : Block → Block) (cid i : Nat)
    (s : EState) {w : Nat} (h : w ≠ c.gateLo + i) :
    (evalStep c enc cid i s).wires w = s.wires w := by
  unfold evalStep
  simp only
  split
  · exact upd_ne _ _ h
  · rfl

/-- `fetch` only looks at the array below the bound of a readable index. -/
theorem fetch_congr {α : Type} {c : Circuit} {hi : Nat} {w : Int} (h : Readable c hi w)
    (hhi : hi ≤ c.wireSize) {z o b : α} {arr arr' : Nat → α} (he : ∀ v < hi, arr v = arr' v) :
    fetch c.wireSize z o b arr w = fetch c.wireSize z o b arr' w := by
  rcases fetch_readable h hhi z o b arr with ⟨h1, e⟩ | ⟨h1, h2, h3, e⟩
  · rw [e]
    rcases fetch_readable h hhi z o b arr' with ⟨_, e'⟩ | ⟨h1', _⟩
    · rw [e']
    · omega
  · rw [e]
    rcases fetch_readable h hhi z o b arr' with ⟨h1', _⟩ | ⟨_, _, _, e'⟩
    · omega
    · rw [e', he _ h3]

theorem fetch_map {α β : Type} (f : α → β) {n : Nat} {z o b : α} {arr : Nat → α} {arr' : Nat → β}
    (h : ∀ w < n, arr' w = f (arr w)) (w : Int) :
    fetch n (f z) (f o) (f b) arr' w = f (fetch n z o b arr w) := by
  unfold fetch
  split
  · rfl
  · split
    · rfl
    · split
      · exact h _ (by omega)
      · rfl

theorem inVal0_W {c : Circuit} {val : Nat → WVal} {sw : Nat → SWire}
    (h : ∀ w < c.wireSize, val w = (sw w).toW) (g : Gate) : inVal0 c val g = (symIn0 c sw g).toW :=
  by
  unfold inVal0 symIn0
  exact fetch_map SWire.toW (z := .pub false) (o := .pub true) (b := .pub false) h _

theorem inVal1_W {c : Circuit} {val : Nat → WVal} {sw : Nat → SWire}
    (h : ∀ w < c.wireSize, val w = (sw w).toW) (g : Gate) : inVal1 c val g = (symIn1 c sw g).toW := by
  unfold inVal1 symIn1
  rw [← fetch_map SWire.toW h]
  by_cases e : g.type = 12
  · simp [e, NOTGATE, SWire.toW]
  · simp [e, NOTGATE, SWire.toW]

theorem inVal0_E {c : Circuit} {val : Nat → WVal} {sw : Nat → SWire}
    (h : ∀ w < c.wireSize, val w = (sw w).toE) (g : Gate) : inVal0 c val g = (symIn0 c sw g).toE :=
  by
  unfold inVal0 symIn0
  exact fetch_map SWire.toE (z := .pub false) (o := .pub true) (b := .pub false) h _

theorem inVal1_E {c : Circuit} {val : Nat → WVal} {sw : Nat → SWire}
    (h : ∀ w < c.wireSize, val w = (sw w).toE) (g : Gate) : inVal1 c val g = (symIn1 c sw g).toE := by
  unfold inVal1 symIn1
  rw [← fetch_map SWire.toE h]
  by_cases e : g.type = 12
  · simp [e, NOTGATE, SWire.toE]
  · simp [e, NOTGATE, SWire.toE]

/-! ### The known-values loop -/

theorem knownLoop_sim {c : Circuit} (wf : WF c) (sf : Nat → Nat) (to : SWire → WVal)
    (hto : to = SWire.toW ∨ to = SWire.toE) {s0 : SState} {val0 : Nat → WVal} {fan0 : Nat → Nat}
    (h0 : ∀ w < c.wireSize, val0 w = to (s0.sw w)) {n : Nat} (hn : n ≤ c.gateSize) :
    let s := forLoop (symKnownStep c sf) n s0
    let k := forLoop (knownStep c sf) n (val0, fan0)
    (∀ w < c.wireSize, k.1 w = to (s.sw w)) ∧ (∀ g < n, k.2 g = s.fan g) := by
  induction n with
  | zero => exact ⟨h0, fun g hg => absurd hg (Nat.not_lt_zero _)⟩
  | succ n ih =>
    obtain ⟨h1, h2⟩ := ih (by omega)
    simp only [forLoop]
    generalize forLoop (symKnownStep c sf) n s0 = s at h1 h2
    generalize forLoop (knownStep c sf) n (val0, fan0) = k at h1 h2
    have ht := wf.type n (by omega)
    have e0 : inVal0 c k.1 (c.gate n) = to (symIn0 c s.sw (c.gate n)) := by
      rcases hto with h | h <;> subst h
      · exact inVal0_W h1 _
      · exact inVal0_E h1 _
    have e1 : inVal1 c k.1 (c.gate n) = to (symIn1 c s.sw (c.gate n)) := by
      rcases hto with h | h <;> subst h
      · exact inVal1_W h1 _
      · exact inVal1_E h1 _
    unfold knownStep symKnownStep
    simp only [e0, e1, upd_same]
    generalize symIn0 c s.sw (c.gate n) = a
    generalize symIn1 c s.sw (c.gate n) = b
    have hk : knownValue (to a) (to b) (c.gate n).type = to (symKnown (c.gate n).type a b) := by
      rcases hto with h | h <;> subst h
      · exact (knownValue_sym ht a b _ _ (Or.inl rfl) (Or.inl rfl)).1
      · exact (knownValue_sym ht a b _ _ (Or.inr rfl) (Or.inr rfl)).2
    have hsec : ∀ o : SWire, (to o).isSecret = !o.isPub := by
      intro o; rcases hto with h | h <;> subst h <;> simp
    have hred : ∀ f, reduceInputs c n (to a) (to b) f = symReduce c n a b f := by
      intro f; rcases hto with h | h <;> subst h
      · exact symReduce_toW _ _ _ _ _
      · exact symReduce_toE _ _ _ _ _
    rw [hk, hsec]
    generalize symKnown (c.gate n).type a b = o
    have hval : ∀ w < c.wireSize, upd k.1 (c.gateLo + n) (to o) w = to (upd s.sw (c.gateLo + n) o w) := by
      intro w hw
      by_cases e : w = c.gateLo + n
      · subst e; rw [upd_same, upd_same]
      · rw [upd_ne _ _ e, upd_ne _ _ e]; exact h1 w hw
    have hfan : ∀ g < n + 1, upd k.2 n (sf n) g = upd s.fan n (sf n) g := by
      intro g hg
      by_cases e : g = n
      · subst e; rw [upd_same, upd_same]
      · rw [upd_ne _ _ e, upd_ne _ _ e]; exact h2 g (by omega)
    cases hp : o.isPub
    · simp only [Bool.not_false, if_true, Bool.false_eq_true, if_false]
      exact ⟨hval, hfan⟩
    · simp only [Bool.not_true, Bool.false_eq_true, if_false, if_true]
      rw [hred]
      exact ⟨hval, symReduce_congr wf (by omega) hn hfan⟩

/-! ### The garbler's secret-values loop -/

theorem inLabel_readable {α : Type} {c : Circuit} {hi : Nat} {w : Int} (h : Readable c hi w)
    (hhi : hi ≤ c.wireSize) {bad : SWire} (hbad : ∀ f i, bad ≠ .sec f i) {sw : Nat → SWire} {f : Nat} {i : Bool}
    (hs : fetch c.wireSize (.pub false) (.pub true) bad sw w = .sec f i) (z : α) (wires : Nat → α) :
    inLabel c z wires w = wires w.toNat ∧ sw w.toNat = .sec f i ∧ w.toNat < hi := by
  unfold inLabel
  rcases fetch_readable h hhi (SWire.pub false) (.pub true) bad sw with ⟨h1, e⟩ | ⟨h1, h2, h3, e⟩
  · exfalso
    rw [e] at hs
    split at hs
    · simp at hs
    · split at hs
      · simp at hs
      · exact hbad f i hs
  · rw [e] at hs
    rcases fetch_readable h hhi z z z wires with ⟨h1', _⟩ | ⟨_, _, _, e'⟩
    · omega
    · exact ⟨e', hs, h3⟩

theorem bad1_ne_sec (t : Int) : ∀ f i, (if t ≠ 12 then SWire.pub false else .hid) ≠ .sec f i := by
  intro f i; split <;> simp

/-- Relation of garbler and symbolic state, after `n` gates. -/
structure GSim (c : Circuit) (enc : Block → Block) (R : Block) (cid n : Nat) (gl : Nat → Block) (s : SState)
    (st : GState) (tabs : List Table) : Prop where
  add : Additive gl
  val : ∀ w < c.wireSize, st.val w = (s.sw w).toW
  lab : ∀ w < c.wireSize, OnSec (s.sw w) fun f i => st.wires w = gPair gl R f i
  fan : ∀ g < c.gateSize, st.fan g = s.fan g
  gids : tabs.map (fun T => T.gid.toNat) = s.tabs
  rows : ∀ T ∈ tabs, ∃ g < n, T.gid = BitVec.ofNat 32 g ∧
    let h := garbleHalfGates enc R cid g (c.gate g).type (inLabel c zeroPair st.wires (c.gate g).input0)
      (inLabel c zeroPair st.wires (c.gate g).input1)
    T.row0 = h.2.1 ∧ T.row1 = h.2.2 ∧ st.wires (c.gateLo + g) = h.1
      ∧ s.sw (c.gateLo + g) = .sec (2 ^ atomGate c cid g) false
      ∧ (c.gate g).type ∈ tableTypes
      ∧ ∃ f i f' i', symIn0 c s.sw (c.gate g) = .sec f i ∧ symIn1 c s.sw (c.gate g) = .sec f' i'

theorem symIn0_congr {c : Circuit} (wf : WF c) {g : Nat} (hg : g < c.gateSize) {sw sw' : Nat → SWire}
    (h : ∀ w < c.gateLo + g, sw w = sw' w) : symIn0 c sw (c.gate g) = symIn0 c sw' (c.gate g) := by
  have hws := wireSize_eq c
  exact fetch_congr (wf.in0 g hg) (by omega) h

theorem symIn1_congr {c : Circuit} (wf : WF c) {g : Nat} (hg : g < c.gateSize) {sw sw' : Nat → SWire}
    (h : ∀ w < c.gateLo + g, sw w = sw' w) : symIn1 c sw (c.gate g) = symIn1 c sw' (c.gate g) := by
  have hws := wireSize_eq c
  exact fetch_congr (wf.in1 g hg) (by omega) h

theorem inLabel_congr {α : Type} {c : Circuit} {hi : Nat} {w : Int} (h : Readable c hi w)
    (hhi : hi ≤ c.wireSize) {z : α} {arr arr' : Nat → α} (he : ∀ v < hi, arr v = arr' v) :
    inLabel c z arr w = inLabel c z arr' w := fetch_congr h hhi he

/-- One iteration. -/
theorem garbleStep_sim {c : Circuit} (wf : WF c) {enc : Block → Block} {R : Block} (hR : getLSB R = true)
    {sf : Nat → Nat} {cid : Nat} {gl : Nat → Block} {s : SState} {st : GState} {tabs : List Table} {n : Nat}
    (hn : n < c.gateSize) (inv : SInv c sf cid n s) (h : GSim c enc R cid n gl s st tabs)
    (ncn : ∀ f i f' i', symIn0 c s.sw (c.gate n) = .sec f i → symIn1 c s.sw (c.gate n) = .sec f' i' → f ≠ f' →
      cmpBlock (st.wires (c.gate n).input0.toNat).label0 (st.wires (c.gate n).input1.toNat).label0 = false ∧
      cmpBlock (st.wires (c.gate n).input0.toNat).label0 (st.wires (c.gate n).input1.toNat).label1 = false) :
    ∃ gl2, (∀ f < 2 ^ atomGate c cid n, gl2 f = gl f) ∧ (gl2 = gl ∨ n ∈ (symStep c cid n s).tabs) ∧
      GSim c enc R cid (n + 1) gl2 (symStep c cid n s)
        (garbleStep c enc R cid n (st, tabs)).1 (garbleStep c enc R cid n (st, tabs)).2 := by
  have hws := wireSize_eq c
  have hv := h.val (c.gateLo + n) (by omega)
  have hf := h.fan n (by omega)
  unfold garbleStep symStep
  simp only [hv, hf, toW_isSecret, Bool.not_eq_true']
  by_cases hp : 0 < s.fan n ∧ (s.sw (c.gateLo + n)).isPub = false
  · rw [if_pos hp, if_pos hp]
    have ha := inv.in0 wf (by omega) (Nat.le_refl _) hp.1 hp.2
    have hb := inv.in1 wf (by omega) (Nat.le_refl _) hp.1 hp.2
    have ba := symIn0_bound inv.bound (c := c) (c.gate n)
    have bb := symIn1_bound inv.bound (c := c) (c.gate n)
    rw [inVal0_W h.val, inVal1_W h.val]
    have l0 : ∀ f i, symIn0 c s.sw (c.gate n) = .sec f i →
        inLabel c zeroPair st.wires (c.gate n).input0 = st.wires (c.gate n).input0.toNat
        ∧ (c.gate n).input0.toNat < c.gateLo + n
        ∧ st.wires (c.gate n).input0.toNat = gPair gl R f i := by
      intro f i e
      obtain ⟨e1, e2, e3⟩ := inLabel_readable (wf.in0 n (by omega)) (by omega) (by simp) e zeroPair st.wires
      have := h.lab _ (show (c.gate n).input0.toNat < c.wireSize by omega)
      rw [e2] at this
      exact ⟨e1, e3, this⟩
    have l1 : ∀ f i, symIn1 c s.sw (c.gate n) = .sec f i →
        inLabel c zeroPair st.wires (c.gate n).input1 = st.wires (c.gate n).input1.toNat
        ∧ (c.gate n).input1.toNat < c.gateLo + n
        ∧ st.wires (c.gate n).input1.toNat = gPair gl R f i := by
      intro f i e
      obtain ⟨e1, e2, e3⟩ := inLabel_readable (wf.in1 n (by omega)) (by omega)
        (bad1_ne_sec (c.gate n).type) e zeroPair st.wires
      have := h.lab _ (show (c.gate n).input1.toNat < c.wireSize by omega)
      rw [e2] at this
      exact ⟨e1, e3, this⟩
    have key := garbleGate_sym (enc := enc) (R := R) hR (cid := cid) (gid := n) (atom := atomGate c cid n)
      (wf.type n (by omega)) h.add ha hb
      (l0 := inLabel c zeroPair st.wires (c.gate n).input0)
      (l1 := inLabel c zeroPair st.wires (c.gate n).input1)
      (fun f i e => by obtain ⟨e1, _, e3⟩ := l0 f i e; rw [e1, e3])
      (fun f i e => by obtain ⟨e1, _, e3⟩ := l1 f i e; rw [e1, e3])
      (fun f i f' i' e e' hne => by
        obtain ⟨e1, e2, _⟩ := l0 f i e
        obtain ⟨e1', e2', _⟩ := l1 f' i' e'
        have := ncn f i f' i' e e' hne
        rw [e1, e1']; exact this)
    simp only at key
    obtain ⟨k1, k2, k3, k4⟩ := key
    rw [k1]
    simp only [toW_isSecret]
    have hfan : ∀ g < c.gateSize,
        (if (!(symGate (atomGate c cid n) (c.gate n).type (symIn0 c s.sw (c.gate n)) (symIn1 c s.sw (c.gate n))).isPub) = true
          then st.fan
          else reduceInputs c n (symIn0 c s.sw (c.gate n)).toW (symIn1 c s.sw (c.gate n)).toW st.fan) g
        = (if (symGate (atomGate c cid n) (c.gate n).type (symIn0 c s.sw (c.gate n)) (symIn1 c s.sw (c.gate n))).isPub = true
          then symReduce c n (symIn0 c s.sw (c.gate n)) (symIn1 c s.sw (c.gate n)) s.fan else s.fan) g := by
      intro g hg
      rw [symReduce_toW]
      cases (symGate (atomGate c cid n) (c.gate n).type (symIn0 c s.sw (c.gate n)) (symIn1 c s.sw (c.gate n))).isPub
      · simp only [Bool.not_false, if_true, Bool.false_eq_true, if_false]
        exact h.fan g hg
      · simp only [Bool.not_true, if_true, Bool.false_eq_true, if_false]
        exact symReduce_congr wf (by omega) (Nat.le_refl _) h.fan g hg
    -- rows of earlier tables stay valid
    have rowsOld : ∀ o p, ∀ T ∈ tabs, ∃ g < n + 1, T.gid = BitVec.ofNat 32 g ∧
        let h := garbleHalfGates enc R cid g (c.gate g).type
          (inLabel c zeroPair (upd st.wires (c.gateLo + n) p) (c.gate g).input0)
          (inLabel c zeroPair (upd st.wires (c.gateLo + n) p) (c.gate g).input1)
        T.row0 = h.2.1 ∧ T.row1 = h.2.2 ∧ upd st.wires (c.gateLo + n) p (c.gateLo + g) = h.1
          ∧ upd s.sw (c.gateLo + n) o (c.gateLo + g) = .sec (2 ^ atomGate c cid g) false
          ∧ (c.gate g).type ∈ tableTypes
          ∧ ∃ f i f' i', symIn0 c (upd s.sw (c.gateLo + n) o) (c.gate g) = .sec f i
            ∧ symIn1 c (upd s.sw (c.gateLo + n) o) (c.gate g) = .sec f' i' := by
      intro o p T hT
      obtain ⟨g, hg, hgid, hr⟩ := h.rows T hT
      refine ⟨g, by omega, hgid, ?_⟩
      have c0 : inLabel c zeroPair (upd st.wires (c.gateLo + n) p) (c.gate g).input0
          = inLabel c zeroPair st.wires (c.gate g).input0 :=
        inLabel_congr (wf.in0 g (by omega)) (by omega) (fun v hv => upd_ne _ _ (by omega))
      have c1 : inLabel c zeroPair (upd st.wires (c.gateLo + n) p) (c.gate g).input1
          = inLabel c zeroPair st.wires (c.gate g).input1 :=
        inLabel_congr (wf.in1 g (by omega)) (by omega) (fun v hv => upd_ne _ _ (by omega))
      rw [c0, c1, symIn0_congr wf (show g < c.gateSize by omega)
        (fun w hw => upd_ne s.sw (i := c.gateLo + n) o (show w ≠ c.gateLo + n by omega)),
        symIn1_congr wf (show g < c.gateSize by omega)
        (fun w hw => upd_ne s.sw (i := c.gateLo + n) o (show w ≠ c.gateLo + n by omega)),
        upd_ne _ _ (by omega), upd_ne _ _ (by omega)]
      exact hr
    have hvalnew : ∀ w < c.wireSize, upd st.val (c.gateLo + n)
          (symGate (atomGate c cid n) (c.gate n).type (symIn0 c s.sw (c.gate n)) (symIn1 c s.sw (c.gate n))).toW w
        = (upd s.sw (c.gateLo + n)
          (symGate (atomGate c cid n) (c.gate n).type (symIn0 c s.sw (c.gate n)) (symIn1 c s.sw (c.gate n))) w).toW := by
      intro w hw
      by_cases e : w = c.gateLo + n
      · subst e; rw [upd_same, upd_same]
      · rw [upd_ne _ _ e, upd_ne _ _ e]; exact h.val w hw
    cases htab : symTable (c.gate n).type (symIn0 c s.sw (c.gate n)) (symIn1 c s.sw (c.gate n))
    · -- no table
      refine ⟨gl, fun _ _ => rfl, Or.inl rfl, h.add, hvalnew, ?_, hfan, ?_, ?_⟩
      · intro w hw
        simp only
        by_cases e : w = c.gateLo + n
        · subst e; rw [upd_same, upd_same]; exact k3 htab
        · rw [upd_ne _ _ e, upd_ne _ _ e]; exact h.lab w hw
      · rw [k2, htab]; simpa using h.gids
      · rw [k2, htab]; simpa using rowsOld _ _
    · -- a table
      obtain ⟨ko, kl, kR⟩ := k4 htab
      rw [ko] at hvalnew hfan ⊢
      refine ⟨extend gl (atomGate c cid n) _, ?_, Or.inr (by simp), h.add.extend _
        (garbleHalfGates enc R cid n (c.gate n).type (inLabel c zeroPair st.wires (c.gate n).input0)
          (inLabel c zeroPair st.wires (c.gate n).input1)).1.label0, hvalnew, ?_, hfan, ?_, ?_⟩
      · intro f hf
        rw [extend_old _ _ hf]
      · intro w hw
        simp only
        by_cases e : w = c.gateLo + n
        · subst e; rw [upd_same, upd_same, kl]
          rw [kl] at kR
          simp only [onSec_sec, gPair, extend_new, scale_false, BitVec.xor_zero]
          rw [← kR]
        · rw [upd_ne _ _ e, upd_ne _ _ e]
          have := h.lab w hw
          have hb := inv.bound w
          revert this hb
          cases s.sw w with
          | sec f i =>
            intro this hb
            simp only [onSec_sec] at this ⊢
            rw [this]; unfold gPair
            rw [extend_old _ _ (hb f i rfl)]
          | _ => intro _ _; trivial
      · rw [k2, htab]
        have hsz := wf.size
        simp [h.gids, BitVec.toNat_ofNat]
        omega
      · rw [k2, htab]
        intro T hT
        simp only [if_true, Option.toList_some, List.mem_append, List.mem_singleton] at hT
        rcases hT with hT | hT
        · exact rowsOld _ _ T hT
        · subst hT
          refine ⟨n, by omega, rfl, ?_⟩
          have c0 : ∀ p, inLabel c zeroPair (upd st.wires (c.gateLo + n) p) (c.gate n).input0
              = inLabel c zeroPair st.wires (c.gate n).input0 := fun p =>
            inLabel_congr (wf.in0 n (by omega)) (by omega) (fun v hv => upd_ne _ _ (by omega))
          have c1 : ∀ p, inLabel c zeroPair (upd st.wires (c.gateLo + n) p) (c.gate n).input1
              = inLabel c zeroPair st.wires (c.gate n).input1 := fun p =>
            inLabel_congr (wf.in1 n (by omega)) (by omega) (fun v hv => upd_ne _ _ (by omega))
          simp only [c0, c1, upd_same]
          rw [symIn0_congr wf (show n < c.gateSize by omega)
            (fun w hw => upd_ne s.sw (i := c.gateLo + n) _ (show w ≠ c.gateLo + n by omega)),
            symIn1_congr wf (show n < c.gateSize by omega)
            (fun w hw => upd_ne s.sw (i := c.gateLo + n) _ (show w ≠ c.gateLo + n by omega))]
          refine ⟨trivial, trivial, kl, trivial, ?_, ?_⟩
          · revert htab
            cases symIn0 c s.sw (c.gate n) <;> cases symIn1 c s.sw (c.gate n) <;> simp [symTable]
          · revert htab
            cases symIn0 c s.sw (c.gate n) <;> cases symIn1 c s.sw (c.gate n) <;> simp [symTable]
  · rw [if_neg hp, if_neg hp]
    refine ⟨gl, fun _ _ => rfl, Or.inl rfl, h.add, h.val, h.lab, h.fan, h.gids, ?_⟩
    intro T hT
    obtain ⟨g, hg, hr⟩ := h.rows T hT
    exact ⟨g, by omega, hr⟩

theorem garbleLoop_sim {c : Circuit} (wf : WF c) {enc : Block → Block} {R : Block} (hR : getLSB R = true)
    {sf : Nat → Nat} {cid : Nat} {gl0 : Nat → Block} {s0 : SState} {st0 : GState}
    (hinv : SInv c sf cid 0 s0) (h0 : GSim c enc R cid 0 gl0 s0 st0 [])
    (nc : NoCollisionG c (forLoop (symStep c cid) c.gateSize s0).sw
      (forLoop (garbleStep c enc R cid) c.gateSize (st0, [])).1.wires)
    {n : Nat} (hn : n ≤ c.gateSize) :
    ∃ gl, (∀ f < 2 ^ atomGate c cid 0, gl f = gl0 f) ∧
      GSim c enc R cid n gl (forLoop (symStep c cid) n s0)
        (forLoop (garbleStep c enc R cid) n (st0, [])).1 (forLoop (garbleStep c enc R cid) n (st0, [])).2 := by
  have hws := wireSize_eq c
  induction n with
  | zero => exact ⟨gl0, fun _ _ => rfl, h0⟩
  | succ n ih =>
    obtain ⟨gl, hgl0, h⟩ := ih (by omega)
    have inv := symLoop_inv wf hinv (n := n) (by omega)
    -- stability of what the gate reads
    have stS : ∀ w < c.gateLo + n, (forLoop (symStep c cid) c.gateSize s0).sw w
        = (forLoop (symStep c cid) n s0).sw w := fun w hw =>
      forLoop_stable (symStep c cid) SState.sw c.gateLo (fun i s w => symStep_sw c cid i s) s0 (by omega) hw
    have stG : ∀ w < c.gateLo + n, (forLoop (garbleStep c enc R cid) c.gateSize (st0, [])).1.wires w
        = (forLoop (garbleStep c enc R cid) n (st0, [])).1.wires w := fun w hw =>
      forLoop_stable (garbleStep c enc R cid) (fun p => p.1.wires) c.gateLo
        (fun i s w => garbleStep_wires c enc R cid i s) (st0, []) (by omega) hw
    have ncn := nc n (by omega)
    rw [symIn0_congr wf (by omega) stS, symIn1_congr wf (by omega) stS] at ncn
    simp only [forLoop]
    generalize forLoop (symStep c cid) n s0 = s at *
    generalize forLoop (garbleStep c enc R cid) n (st0, []) = gs at *
    obtain ⟨st, tabs⟩ := gs
    simp only at *
    obtain ⟨gl2, k1, _, k3⟩ := garbleStep_sim wf hR (by omega) inv h (fun f i f' i' e e' hne => by
      have := ncn f i f' i' e e' hne
      obtain ⟨_, _, e3⟩ := inLabel_readable (wf.in0 n (by omega)) (by omega) (by simp) e zeroPair st.wires
      obtain ⟨_, _, e3'⟩ := inLabel_readable (wf.in1 n (by omega)) (by omega)
        (bad1_ne_sec (c.gate n).type) e' zeroPair st.wires
      rwa [stG _ e3, stG _ e3'] at this)
    refine ⟨gl2, fun f hf => ?_, k3⟩
    rw [k1 f (Nat.lt_of_lt_of_le hf (Nat.pow_le_pow_right (by omega) (by unfold atomGate; omega))), hgl0 f hf]

end TinyGarble
