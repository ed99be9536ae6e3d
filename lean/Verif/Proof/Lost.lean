import Verif.Model.Lost
import Verif.Spec.Lost
import Verif.Proof.Sym

/-! # Lost connections: lemmas -/

namespace TinyGarble.Proof
open TinyGarble Spec

variable {α β σ : Type}

theorem on_bind (p : Proc α) (f : α → Proc β) (w : Conn) : (p.bind f).on w = Ret.andThen (p.on w) fun a w => (f a).on w := by
  induction p generalizing w with
  | ret a => rfl
  | fail => rfl
  | undef => rfl
  | send b k ih =>
    rcases w with ⟨l, _ | n⟩
    · rfl
    · exact ih ⟨l, n⟩
  | recv k ih =>
    rcases w with ⟨_ | ⟨b, l⟩, n⟩
    · rfl
    · exact ih b ⟨l, n⟩

/-- A program that lacks a byte that it has to read or to write fails. -/
theorem on_short {p : Proc α} {a : α} {u : List Byte} {m : Nat} (h : p.on ⟨u, m⟩ = (.ok a, ⟨[], 0⟩)) {l : List Byte} {n : Nat}
    (hl : l <+: u) (hn : n ≤ m) (hlt : l.length < u.length ∨ n < m) : (p.on ⟨l, n⟩).1 = .failed := by
  induction p generalizing u m l n with
  | ret b =>
    have h : ((.ok b, ⟨u, m⟩) : Ret α × Conn) = (.ok a, ⟨[], 0⟩) := h
    rw [Prod.mk.injEq, Conn.mk.injEq] at h
    rw [h.2.1, h.2.2] at hlt
    simp at hlt
  | fail => cases h
  | undef => cases h
  | send b k ih =>
    rcases m with _ | m
    · cases h
    · rcases n with _ | n
      · rfl
      · exact ih h hl (by omega) (by omega)
  | recv k ih =>
    rcases u with _ | ⟨b, u⟩
    · cases h
    · rcases l with _ | ⟨b', l⟩
      · rfl
      · obtain ⟨rfl, hl'⟩ := List.cons_prefix_cons.1 hl
        exact ih b' h hl' hn (by simpa using hlt)

theorem andThen_failed {r : Ret α × Conn} {f : α → Conn → Ret β × Conn} (h : r.1 = .failed) : (Ret.andThen r f).1 = .failed := by
  rcases r with ⟨_ | _ | _, w⟩
  · cases h
  · rfl
  · cases h

theorem andThen_ok {r : Ret α × Conn} {f : α → Conn → Ret β × Conn} {b : β} {w' : Conn} (h : Ret.andThen r f = (.ok b, w')) :
    ∃ a w, r = (.ok a, w) ∧ f a w = (.ok b, w') := by
  rcases r with ⟨a | _ | _, w⟩
  · exact ⟨a, w, rfl, h⟩
  · cases h
  · cases h

theorem andThen_assoc {γ : Type} (r : Ret α × Conn) (f : α → Conn → Ret β × Conn) (g : β → Conn → Ret γ × Conn) :
    Ret.andThen (Ret.andThen r f) g = Ret.andThen r fun a w => Ret.andThen (f a w) g := by
  rcases r with ⟨_ | _ | _, w⟩ <;> rfl

theorem orElse_ok (a : α) (w : Conn) (d : β) (f : α → Conn → Ret β × Conn) : Ret.orElse (.ok a, w) d f = f a w := rfl

/-- While nothing fails the two models agree. -/
theorem evalLoopHigh_on (cr : Crypto) (c : Circuit) (A : Args) (E : EEnv) (key : Block) (init input : Nat → Block) (n cid : Nat) (st : EState)
    (saved : Nat → Block × WVal) (w : Conn) {r : (Nat → Block × WVal) × Nat} {w' : Conn}
    (h : (evalLoopHigh cr c A E key init input n cid st saved).on w = (.ok r, w')) :
    evalLoopHighOn cr c A E key init input n cid st saved w = (.ok r, w') := by
  induction n generalizing cid st saved w with
  | zero => exact h
  | succ n ih =>
    rw [evalLoopHigh, on_bind] at h
    obtain ⟨rt, w1, h1, h⟩ := andThen_ok h
    rw [evalLoopHighOn, h1]
    show (if _ then _ else _) = _
    revert h
    dsimp only
    generalize hst : evalCycle c (cr.enc key) (fillFanout c E.fan0).1 cid _ (st.receive rt.2) = st'
    intro h
    by_cases hi : st'.ts.ind ≠ rt.1
    · rw [if_pos hi]
      rw [if_pos hi] at h
      exact h
    · rw [if_neg hi]
      rw [if_neg hi, on_bind] at h
      obtain ⟨stop, w2, h2, h⟩ := andThen_ok h
      rw [h2]
      show (if _ then _ else _) = _
      cases stop with
      | true => exact h
      | false => exact ih _ _ _ _ h

theorem garbleLoopHigh_on (cr : Crypto) (c : Circuit) (A : Args) (G : GEnv) (n cid : Nat) (st : GState) (saved : Nat → BlockPair × WVal) (w : Conn)
    {r : (Nat → BlockPair × WVal) × Nat} {w' : Conn} (h : (garbleLoopHigh cr c A G n cid st saved).on w = (.ok r, w')) :
    garbleLoopHighOn cr c A G n cid st saved w = (.ok r, w') := by
  induction n generalizing cid st saved w with
  | zero => exact h
  | succ n ih =>
    rw [garbleLoopHigh, on_bind] at h
    obtain ⟨_, w1, h1, h⟩ := andThen_ok h
    rw [garbleLoopHighOn, h1]
    rw [on_bind] at h
    obtain ⟨stop, w2, h2, h⟩ := andThen_ok h
    rw [orElse_ok, h2, orElse_ok]
    cases stop with
    | true => exact h
    | false => exact ih _ _ _ _ h

theorem evaluateBN_on (cr : Crypto) (c : Circuit) (A : Args) (E : EEnv) (w : Conn) {r : Nat × Nat} {w' : Conn}
    (h : (evaluateBN cr c A E).on w = (.ok r, w')) : evaluateOn cr c A E w = (.ok r, w') := by
  unfold evaluateBN at h
  unfold evaluateOn
  split at h
  · cases h
  · rename_i h0
    rw [if_neg h0]
    split at h
    · cases h
    · rename_i h1
      rw [if_neg h1]
      rw [on_bind] at h
      obtain ⟨l, w1, e1, h⟩ := andThen_ok h
      rw [e1]
      show (if _ then _ else _) = _
      split at h
      · rename_i hu
        rw [if_pos hu]; exact h
      · rename_i hu
        rw [if_neg hu]
        rw [evalHigh, on_bind] at h
        obtain ⟨lab, w2, e2, h⟩ := andThen_ok h
        rw [evalHighOn, e2]
        show (if _ then _ else _) = _
        split at h
        · cases h
        · rename_i hr
          rw [if_neg hr]
          rw [on_bind] at h
          obtain ⟨s, w3, e3, h⟩ := andThen_ok h
          rw [evalLoopHigh_on cr c A E _ _ _ _ _ _ _ _ e3]
          rw [on_bind] at h
          exact h

theorem garbleBN_on (cr : Crypto) (c : Circuit) (A : Args) (G : GEnv) (w : Conn) {r : Nat × Nat} {w' : Conn}
    (h : (garbleBN cr c A G).on w = (.ok r, w')) : garbleOn cr c A G (fun _ => (zeroPair, .sec false)) w = (.ok r, w') := by
  unfold garbleBN at h
  unfold garbleOn
  split at h
  · cases h
  · rename_i h0
    rw [if_neg h0]
    split at h
    · cases h
    · rename_i h1
      rw [if_neg h1]
      rw [on_bind] at h
      obtain ⟨l, w1, e1, h⟩ := andThen_ok h
      rw [e1]
      show (if _ then _ else _) = _
      split at h
      · rename_i hu
        rw [if_pos hu]; exact h
      · rename_i hu
        rw [if_neg hu]
        rw [garbleHigh, on_bind] at h
        obtain ⟨lab, w2, e2, h⟩ := andThen_ok h
        rw [garbleHighOn, e2]
        show (if _ then _ else _) = _
        split at h
        · cases h
        · rename_i hr
          rw [if_neg hr]
          rw [on_bind] at h
          obtain ⟨s, w3, e3, h⟩ := andThen_ok h
          rw [garbleLoopHigh_on cr c A G _ _ _ _ _ e3]
          rw [on_bind] at h
          exact h

theorem evaluateOn_low {cr : Crypto} {c : Circuit} {A : Args} {E : EEnv} (hu : A.useLow = true) (w : Conn) :
    evaluateOn cr c A E w = (evaluateBN cr c A E).on w := by
  unfold evaluateBN evaluateOn
  split
  · rfl
  · split
    · rfl
    · rw [on_bind]

theorem garbleOn_low {cr : Crypto} {c : Circuit} {A : Args} {G : GEnv} {out0 : Nat → BlockPair × WVal} (hu : A.useLow = true) (w : Conn) :
    garbleOn cr c A G out0 w = (garbleBN cr c A G).on w := by
  unfold garbleBN garbleOn
  split
  · rfl
  · split
    · rfl
    · rw [on_bind]

theorem forP_ret {f : Nat → σ → Proc σ} {g : Nat → σ → σ} {n : Nat} (s : σ) (h : ∀ i < n, ∀ s, f i s = .ret (g i s)) :
    Proc.forP f n s = .ret (forLoop g n s) := by
  induction n with
  | zero => rfl
  | succ n ih =>
    rw [Proc.forP, ih fun i hi => h i (by omega)]
    exact h n (by omega) _

theorem forP_same {f : Nat → σ → Proc σ} {n : Nat} (s : σ) (h : ∀ i < n, f i s = .ret s) : Proc.forP f n s = .ret s := by
  induction n with
  | zero => rfl
  | succ n ih =>
    rw [Proc.forP, ih fun i hi => h i (by omega)]
    exact h n (by omega)

/-- Outputs that seem to be public zeros are zeros. -/
theorem evalOutputsHigh_zero (c : Circuit) (A : Args) {saved : Nat → Block × WVal} (h : ∀ j, (saved j).2 = .pub false) (cycles : Nat) :
    evalOutputsHigh c A saved cycles = .ret 0 := by
  unfold evalOutputsHigh
  apply forP_same
  intro cid _
  unfold evalOutputs
  apply forP_same
  intro i _
  unfold evalOutputStep
  dsimp only
  rw [h]
  show Proc.ret (bnSetBit 0 _ false) = _
  unfold bnSetBit
  rw [if_neg (by decide), if_neg (by simp)]

/-! ## The garbler in high-memory mode -/

theorem sendBytes_on (l : List Byte) (inc : List Byte) (n : Nat) :
    (∃ k, (Proc.sendBytes l).on ⟨inc, n⟩ = (.ok (), ⟨inc, k⟩)) ∨ (Proc.sendBytes l).on ⟨inc, n⟩ = (.failed, ⟨inc, 0⟩) := by
  induction l generalizing n with
  | nil => exact Or.inl ⟨n, rfl⟩
  | cons b l ih =>
    rcases n with _ | n
    · exact Or.inr rfl
    · exact ih n

theorem sendData_on (l : List Byte) (len : Nat) (inc : List Byte) (n : Nat) :
    (∃ k, (sendData l len).on ⟨inc, n⟩ = (.ok (), ⟨inc, k⟩)) ∨ (sendData l len).on ⟨inc, n⟩ = (.failed, ⟨inc, 0⟩) := by
  unfold sendData
  split
  · exact Or.inl ⟨n, rfl⟩
  · exact sendBytes_on _ inc n

theorem sendTables_on (tabs : List Table) (pad : Nat → Nat → Byte) (inc : List Byte) (n : Nat) :
    (∃ k, (sendTables tabs pad).on ⟨inc, n⟩ = (.ok (), ⟨inc, k⟩)) ∨ (sendTables tabs pad).on ⟨inc, n⟩ = (.failed, ⟨inc, 0⟩) := by
  unfold sendTables
  rw [on_bind]
  rcases sendData_on (leBytes 8 tabs.length) 8 inc n with ⟨k, h⟩ | h
  · rw [h]
    exact sendData_on _ _ inc k
  · rw [h]
    exact Or.inr rfl

/-- A program that fails on a dead connection. -/
def Dead (p : Proc α) : Prop := p.on ⟨[], 0⟩ = (.failed, ⟨[], 0⟩)

theorem dead_bind {p : Proc α} (h : Dead p) (f : α → Proc β) : Dead (p.bind f) := by
  unfold Dead at *
  rw [on_bind, h]
  rfl

theorem forP_cases {f : Nat → σ → Proc σ} {n : Nat} (s : σ) (h : ∀ i < n, ∀ s, (∃ a, f i s = .ret a) ∨ Dead (f i s)) :
    (∃ a, Proc.forP f n s = .ret a) ∨ Dead (Proc.forP f n s) := by
  induction n with
  | zero => exact Or.inl ⟨s, rfl⟩
  | succ n ih =>
    rcases ih fun i hi => h i (by omega) with ⟨a, ha⟩ | hd
    · rw [Proc.forP, ha]
      exact h n (by omega) a
    · exact Or.inr (dead_bind hd _)

theorem forP_dead {f : Nat → σ → Proc σ} {n : Nat} (s : σ) (h : ∀ i < n, ∀ s, (∃ a, f i s = .ret a) ∨ Dead (f i s)) {i : Nat} (hi : i < n)
    (hd : ∀ s, Dead (f i s)) : Dead (Proc.forP f n s) := by
  induction n with
  | zero => omega
  | succ n ih =>
    by_cases hin : i = n
    · rcases forP_cases (n := n) s fun i hi => h i (by omega) with ⟨a, ha⟩ | hx
      · rw [Proc.forP, ha, ← hin]
        exact hd a
      · exact dead_bind hx _
    · exact dead_bind (ih (fun i hi => h i (by omega)) (by omega)) _

theorem garbleOutputStep_cases (mask : Nat) (lab : Nat → BlockPair) (val : Nat → WVal) (off i : Nat) (out : Nat) :
    (∃ a, garbleOutputStep mask lab val off i out = .ret a) ∨ Dead (garbleOutputStep mask lab val off i out) := by
  unfold garbleOutputStep
  split
  · exact Or.inl ⟨_, rfl⟩
  · split
    · exact Or.inl ⟨_, rfl⟩
    · exact Or.inl ⟨_, rfl⟩
  · split
    · exact Or.inr (dead_bind (by unfold Dead; rfl) _)
    · exact Or.inr (dead_bind (by unfold Dead; rfl) _)

theorem garbleOutputStep_dead {mask : Nat} {lab : Nat → BlockPair} {val : Nat → WVal} {off i : Nat} (h : ∃ b, val i = .sec b) (out : Nat) :
    Dead (garbleOutputStep mask lab val off i out) := by
  obtain ⟨b, hb⟩ := h
  unfold garbleOutputStep
  rw [hb]
  dsimp only
  split
  · exact dead_bind (by unfold Dead; rfl) _
  · exact dead_bind (by unfold Dead; rfl) _

theorem forP_congr {f g : Nat → σ → Proc σ} {n : Nat} (s : σ) (h : ∀ i < n, ∀ s, f i s = g i s) : Proc.forP f n s = Proc.forP g n s := by
  induction n with
  | zero => rfl
  | succ n ih =>
    rw [Proc.forP, Proc.forP, ih fun i hi => h i (by omega), show f n = g n from funext fun s => h n (by omega) s]

theorem index_lt {cid cycles i n : Nat} (hc : cid < cycles) (hi : i < n) : cid * n + i < cycles * n := by
  have : (cid + 1) * n ≤ cycles * n := Nat.mul_le_mul_right _ hc
  rw [Nat.succ_mul] at this
  omega

theorem garbleOutputsHigh_congr (c : Circuit) (A : Args) {s t : Nat → BlockPair × WVal} {cycles : Nat} (h : ∀ j < cycles * c.outputSize, s j = t j) :
    garbleOutputsHigh c A s cycles = garbleOutputsHigh c A t cycles := by
  unfold garbleOutputsHigh
  apply forP_congr
  intro cid hc out
  unfold garbleOutputs
  apply forP_congr
  intro i hi out
  unfold garbleOutputStep
  dsimp only
  rw [h _ (index_lt hc hi)]

theorem garbleOutputsHigh_dead (c : Circuit) (A : Args) {s : Nat → BlockPair × WVal} {cycles : Nat} (h0 : 0 < cycles) {i : Nat} (hi : i < c.outputSize)
    (h : ∃ b, (s i).2 = .sec b) : Dead (garbleOutputsHigh c A s cycles) := by
  unfold garbleOutputsHigh
  refine forP_dead _ (fun cid hc out => ?_) h0 fun out => ?_
  · exact forP_cases _ fun i hi s => garbleOutputStep_cases ..
  · refine forP_dead _ (fun i hi s => garbleOutputStep_cases ..) hi fun out => garbleOutputStep_dead ?_ out
    show ∃ b, (s (0 * c.outputSize + i)).2 = .sec b
    rw [Nat.zero_mul, Nat.zero_add]
    exact h

theorem garbleStop_public {c : Circuit} {period cid : Nat} {st : GState}
    (h : period ≠ 0 → cid % period = 0 → ∃ b, st.val c.terminateId = .pub b) : ∃ b, garbleStop c period cid st = .ret b := by
  unfold garbleStop
  split
  · next hc =>
    obtain ⟨b, hb⟩ := h hc.1 hc.2.2
    rw [hb]
    exact ⟨b, rfl⟩
  · exact ⟨false, rfl⟩

theorem garble_parallel (cr : Crypto) (c : Circuit) (A : Args) (G : GEnv) (hp : PublicSignal cr c A G) (n cid : Nat) (hn : cid + n = A.cycles)
    (s t : Nat → BlockPair × WVal) (h : ∀ j < cid * c.outputSize, s j = t j) (m : Nat) :
    (∃ r r' w N, (garbleLoopHigh cr c A G n cid (beforeCycle cr c A G cid) s).on ⟨[], m⟩ = (.ok (r, N), w) ∧
      garbleLoopHighOn cr c A G n cid (beforeCycle cr c A G cid) t ⟨[], m⟩ = (.ok (r', N), w) ∧ ∀ j < N * c.outputSize, r j = r' j) ∨
    (∃ r', garbleLoopHighOn cr c A G n cid (beforeCycle cr c A G cid) t ⟨[], m⟩ = (.ok (r', A.cycles), ⟨[], 0⟩) ∧ 0 < n ∧
      ∀ j < (cid + 1) * c.outputSize, r' j =
        recordOutputs c cid (beforeCycle cr c A G (cid + 1)).wires (beforeCycle cr c A G (cid + 1)).val t j) := by
  induction n generalizing cid s t m with
  | zero => exact Or.inl ⟨s, t, _, cid, rfl, rfl, h⟩
  | succ n ih =>
    obtain ⟨stop, hstop⟩ : ∃ b, garbleStop c A.period cid (beforeCycle cr c A G (cid + 1)) = .ret b :=
      garbleStop_public (hp cid (by omega))
    have key : ∀ tabs : List Table, ∀ s t : Nat → BlockPair × WVal, (∀ j < (cid + 1) * c.outputSize, s j = t j) →
        (∃ r r' w N, ((sendTables tabs (G.pad cid)).bind fun _ => (garbleStop c A.period cid (beforeCycle cr c A G (cid + 1))).bind fun stop =>
            if stop then .ret (s, cid + 1) else garbleLoopHigh cr c A G n (cid + 1) (beforeCycle cr c A G (cid + 1)) s).on ⟨[], m⟩ =
              (.ok (r, N), w) ∧
          (Ret.orElse ((sendTables tabs (G.pad cid)).on ⟨[], m⟩) (t, A.cycles) fun _ w =>
            Ret.orElse ((garbleStop c A.period cid (beforeCycle cr c A G (cid + 1))).on w) (t, A.cycles) fun stop w =>
            if stop then (.ok (t, cid + 1), w) else garbleLoopHighOn cr c A G n (cid + 1) (beforeCycle cr c A G (cid + 1)) t w) =
              (.ok (r', N), w) ∧
          ∀ j < N * c.outputSize, r j = r' j) ∨
        (∃ r', (Ret.orElse ((sendTables tabs (G.pad cid)).on ⟨[], m⟩) (t, A.cycles) fun _ w =>
            Ret.orElse ((garbleStop c A.period cid (beforeCycle cr c A G (cid + 1))).on w) (t, A.cycles) fun stop w =>
            if stop then (.ok (t, cid + 1), w) else garbleLoopHighOn cr c A G n (cid + 1) (beforeCycle cr c A G (cid + 1)) t w) =
              (.ok (r', A.cycles), ⟨[], 0⟩) ∧
          ∀ j < (cid + 1) * c.outputSize, r' j = t j) := by
      intro tabs s t hst
      rw [on_bind, hstop]
      rcases sendTables_on tabs (G.pad cid) [] m with ⟨k, hk⟩ | hk
      · rw [hk]
        rcases stop with _ | _
        · show (∃ r r' w N, (garbleLoopHigh cr c A G n (cid + 1) (beforeCycle cr c A G (cid + 1)) s).on ⟨[], k⟩ = _ ∧
              garbleLoopHighOn cr c A G n (cid + 1) (beforeCycle cr c A G (cid + 1)) t ⟨[], k⟩ = _ ∧ _) ∨
            ∃ r', garbleLoopHighOn cr c A G n (cid + 1) (beforeCycle cr c A G (cid + 1)) t ⟨[], k⟩ = _ ∧ _
          rcases ih (cid + 1) (by omega) s t hst k with h1 | ⟨r', e1, e2, e3⟩
          · exact Or.inl h1
          · refine Or.inr ⟨r', e1, fun j hj => ?_⟩
            rw [e3 j (by rw [Nat.succ_mul]; omega)]
            exact setRange_out _ _ (by omega)
        · exact Or.inl ⟨s, t, ⟨[], k⟩, cid + 1, rfl, rfl, hst⟩
      · rw [hk]
        exact Or.inr ⟨t, rfl, fun _ _ => rfl⟩
    rw [garbleLoopHigh, garbleLoopHighOn]
    have hrec : ∀ j < (cid + 1) * c.outputSize,
        recordOutputs c cid (beforeCycle cr c A G (cid + 1)).wires (beforeCycle cr c A G (cid + 1)).val s j =
        recordOutputs c cid (beforeCycle cr c A G (cid + 1)).wires (beforeCycle cr c A G (cid + 1)).val t j := by
      intro j hj
      rw [Nat.succ_mul] at hj
      unfold recordOutputs
      by_cases hj' : cid * c.outputSize ≤ j ∧ j < cid * c.outputSize + c.outputSize
      · rw [setRange_in _ _ hj', setRange_in _ _ hj']
      · rw [setRange_out _ _ hj', setRange_out _ _ hj']
        exact h j (by omega)
    rcases key _ _ _ hrec with h1 | ⟨r', h1, h2⟩
    · exact Or.inl h1
    · exact Or.inr ⟨r', h1, by omega, h2⟩

/-- When the garbler cannot finish it fails, if some output of the first cycle is secret. -/
theorem garbleHigh_reports (cr : Crypto) (c : Circuit) (A : Args) (G : GEnv) (out0 : Nat → BlockPair × WVal) (hp : PublicSignal cr c A G)
    (hr : refsInRange c = true) {i : Nat} (hi : i < c.outputSize)
    (hsec : ∃ b, (beforeCycle cr c A G 1).val (c.outputs i).toNat = .sec b) (w : Conn) {m : Nat}
    (hlab : (garbleTransferHigh cr c A (initLabelsHigh G.rnd) (inputLabelsHigh c G.rnd) (G.ot 0) (G.ext 0)).on w = (.ok (), ⟨[], m⟩))
    (hf : ((garbleHigh cr c A G).on w).1 = .failed) : (garbleHighOn cr c A G out0 w).1 = .failed := by
  unfold garbleHigh at hf
  unfold garbleHighOn
  rw [on_bind, hlab] at hf
  rw [hlab]
  show (if _ then _ else _ : Ret (Nat × Nat) × Conn).1 = _
  have hf : (Proc.on (if refsInRange c = false then .undef else _) ⟨[], m⟩).1 = .failed := hf
  rw [if_neg (by rw [hr]; decide)] at hf ⊢
  rw [on_bind] at hf
  rcases garble_parallel cr c A G hp A.cycles 0 (Nat.zero_add _) (fun _ => (zeroPair, .sec false)) out0 (fun j hj => by omega) m with
    ⟨r, r', w', N, e1, e2, e3⟩ | ⟨r', e1, e2, e3⟩
  · change garbleLoopHighOn cr c A G A.cycles 0 G.st0 out0 ⟨[], m⟩ = _ at e2
    change (garbleLoopHigh cr c A G A.cycles 0 G.st0 _).on ⟨[], m⟩ = _ at e1
    rw [e1] at hf
    rw [e2]
    have hf : (((garbleOutputsHigh c A r N).bind fun out => .ret (out, N)).on w').1 = .failed := hf
    rw [on_bind, garbleOutputsHigh_congr c A e3] at hf
    exact hf
  · change garbleLoopHighOn cr c A G A.cycles 0 G.st0 out0 ⟨[], m⟩ = _ at e1
    rw [e1]
    have : Dead (garbleOutputsHigh c A r' A.cycles) := by
      refine garbleOutputsHigh_dead c A e2 hi ?_
      rw [e3 i (by omega)]
      unfold recordOutputs
      rw [setRange_in _ _ (by omega)]
      obtain ⟨b, hb⟩ := hsec
      refine ⟨b, ?_⟩
      rw [← hb, Nat.zero_mul, Nat.sub_zero]
    show (Ret.andThen ((garbleOutputsHigh c A r' A.cycles).on ⟨[], 0⟩) _).1 = _
    rw [this]
    rfl

/-! ## Nothing fails -/

theorem garbleLoopHigh_ok (cr : Crypto) (c : Circuit) (A : Args) (G : GEnv) (n cid : Nat) (st : GState) (s t : Nat → BlockPair × WVal)
    (h : ∀ j < cid * c.outputSize, s j = t j) {w w' : Conn} {r : Nat → BlockPair × WVal} {N : Nat}
    (ho : (garbleLoopHigh cr c A G n cid st s).on w = (.ok (r, N), w')) :
    ∃ r', garbleLoopHighOn cr c A G n cid st t w = (.ok (r', N), w') ∧ ∀ j < N * c.outputSize, r j = r' j := by
  induction n generalizing cid st s t w with
  | zero =>
    cases ho
    exact ⟨t, rfl, h⟩
  | succ n ih =>
    rw [garbleLoopHigh, on_bind] at ho
    obtain ⟨_, w1, h1, ho⟩ := andThen_ok ho
    rw [on_bind] at ho
    obtain ⟨stop, w2, h2, ho⟩ := andThen_ok ho
    rw [garbleLoopHighOn, h1]
    show ∃ r', Ret.orElse ((garbleStop c A.period cid _).on w1) _ _ = _ ∧ _
    rw [h2]
    have hrec : ∀ (wi : Nat → BlockPair) (va : Nat → WVal), ∀ j < (cid + 1) * c.outputSize, recordOutputs c cid wi va s j = recordOutputs c cid wi va t j := by
      intro wi va j hj
      rw [Nat.succ_mul] at hj
      unfold recordOutputs
      by_cases hj' : cid * c.outputSize ≤ j ∧ j < cid * c.outputSize + c.outputSize
      · rw [setRange_in _ _ hj', setRange_in _ _ hj']
      · rw [setRange_out _ _ hj', setRange_out _ _ hj']
        exact h j (by omega)
    rcases stop with _ | _
    · exact ih (cid + 1) _ _ _ (hrec _ _) ho
    · cases ho
      exact ⟨_, rfl, hrec _ _⟩

/-- When nothing fails, it makes no difference that failures are ignored. -/
theorem garbleHigh_ok (cr : Crypto) (c : Circuit) (A : Args) (G : GEnv) (out0 : Nat → BlockPair × WVal) {w w' : Conn} {r : Nat × Nat}
    (h : (garbleHigh cr c A G).on w = (.ok r, w')) : garbleHighOn cr c A G out0 w = (.ok r, w') := by
  unfold garbleHigh at h
  unfold garbleHighOn
  rw [on_bind] at h
  obtain ⟨_, w1, h1, h⟩ := andThen_ok h
  rw [h1]
  show (if _ then _ else _ : Ret (Nat × Nat) × Conn) = _
  by_cases hr : refsInRange c = false
  · rw [if_pos hr] at h
    cases h
  rw [if_neg hr] at h ⊢
  rw [on_bind] at h
  obtain ⟨⟨saved, N⟩, w2, h2, h⟩ := andThen_ok h
  obtain ⟨r', e1, e2⟩ := garbleLoopHigh_ok cr c A G A.cycles 0 G.st0 _ out0 (fun j hj => by omega) h2
  rw [e1]
  change ((garbleOutputsHigh c A saved N).bind fun out => .ret (out, N)).on w2 = _ at h
  rw [on_bind, garbleOutputsHigh_congr c A e2] at h
  exact h

/-! ## A secret terminate signal -/

/-- A program that only sends. -/
def Sends (p : Proc α) : Prop := ∃ k a, ∀ inc n, p.on ⟨inc, n + k⟩ = (.ok a, ⟨inc, n⟩)

theorem sends_ret (a : α) : Sends (.ret a) := ⟨0, a, fun _ _ => rfl⟩

theorem sends_bind {p : Proc α} {f : α → Proc β} (hp : Sends p) (hf : ∀ a, Sends (f a)) : Sends (p.bind f) := by
  obtain ⟨k, a, h⟩ := hp
  obtain ⟨k', b, h'⟩ := hf a
  refine ⟨k' + k, b, fun inc n => ?_⟩
  rw [on_bind, ← Nat.add_assoc, h]
  exact h' inc n

theorem sends_forP {f : Nat → σ → Proc σ} (hf : ∀ i s, Sends (f i s)) (n : Nat) (s : σ) : Sends (Proc.forP f n s) := by
  induction n with
  | zero => exact sends_ret s
  | succ n ih => exact sends_bind ih fun a => hf n a

theorem sends_sendBytes (l : List Byte) : Sends (Proc.sendBytes l) := by
  refine ⟨l.length, (), fun inc n => ?_⟩
  induction l generalizing n with
  | nil => rfl
  | cons b l ih => exact ih n

theorem sends_sendData (l : List Byte) (len : Nat) : Sends (sendData l len) := by
  unfold sendData
  split
  · exact sends_ret ()
  · exact sends_sendBytes _

theorem sends_sendTables (tabs : List Table) (pad : Nat → Nat → Byte) : Sends (sendTables tabs pad) := by
  unfold sendTables
  exact sends_bind (sends_sendData _ _) fun _ => sends_sendData _ _

theorem sends_garbleOutputsHigh (c : Circuit) (A : Args) (hm : A.mask = 0) (saved : Nat → BlockPair × WVal) (cycles : Nat) :
    Sends (garbleOutputsHigh c A saved cycles) := by
  unfold garbleOutputsHigh
  refine sends_forP (fun cid out => ?_) _ _
  unfold garbleOutputs
  refine sends_forP (fun i out => ?_) _ _
  unfold garbleOutputStep
  split
  · exact sends_ret _
  · split
    · exact sends_ret _
    · exact sends_ret _
  · rw [if_pos (Or.inr (by rw [hm]; exact Nat.zero_testBit i))]
    exact sends_bind (sends_sendData _ _) fun _ => sends_ret _

/-- With a secret terminate signal and no answer the loop fails after the tables and the bit of the garbler are sent. -/
theorem garbleHigh_unanswered (cr : Crypto) (c : Circuit) (A : Args) (G : GEnv) (out0 : Nat → BlockPair × WVal) (h0 : A.cycles ≠ 0)
    (hm : A.mask = 0) (hp : A.period ≠ 0) (ht : c.terminateId ≠ 0) (hr : refsInRange c = true)
    (hsec : ∃ b, (beforeCycle cr c A G 1).val c.terminateId = .sec b) :
    ∃ k out, ∀ w m, k ≤ m →
      (garbleTransferHigh cr c A (initLabelsHigh G.rnd) (inputLabelsHigh c G.rnd) (G.ot 0) (G.ext 0)).on w = (.ok (), ⟨[], m⟩) →
      ((garbleHigh cr c A G).on w).1 = .failed ∧ (garbleHighOn cr c A G out0 w).1 = .ok (out, A.cycles) := by
  obtain ⟨n, hn⟩ : ∃ n, A.cycles = n + 1 := ⟨A.cycles - 1, by omega⟩
  obtain ⟨b, hb⟩ := hsec
  have hstop : garbleStop c A.period 0 (beforeCycle cr c A G 1) =
      (sendData (shortBytes (getLSB ((beforeCycle cr c A G 1).wires c.terminateId).label0)) 2).bind fun _ =>
        (recvData 2).bind fun l => .ret (shortIs l (getLSB ((beforeCycle cr c A G 1).wires c.terminateId).label0)) := by
    unfold garbleStop
    rw [if_pos ⟨hp, by omega, Nat.zero_mod _⟩, hb]
    rfl
  obtain ⟨k1, u1, e1⟩ := sends_sendTables (selectTables
    (garbleCycle false c (cr.enc (keyOf G.rnd)) (offsetOf G.rnd) (fillFanout c G.fan0).1 0
      ⟨A.pInit, A.pInput, initLabelsHigh G.rnd, fun k => inputLabelsHigh c G.rnd (0 * c.secretInputSize + k)⟩ G.st0).1.fan
    (garbleCycle false c (cr.enc (keyOf G.rnd)) (offsetOf G.rnd) (fillFanout c G.fan0).1 0
      ⟨A.pInit, A.pInput, initLabelsHigh G.rnd, fun k => inputLabelsHigh c G.rnd (0 * c.secretInputSize + k)⟩ G.st0).2) (G.pad 0)
  obtain ⟨k2, u2, e2⟩ := sends_sendData (shortBytes (getLSB ((beforeCycle cr c A G 1).wires c.terminateId).label0)) 2
  obtain ⟨k3, out, e3⟩ := sends_garbleOutputsHigh c A hm
    (recordOutputs c 0 (beforeCycle cr c A G 1).wires (beforeCycle cr c A G 1).val out0) A.cycles
  refine ⟨k3 + k2 + k1, out, fun w m hm' hlab => ?_⟩
  obtain ⟨m, rfl⟩ : ∃ x, m = x + k3 + k2 + k1 := ⟨m - (k3 + k2 + k1), by omega⟩
  have hs : ∀ r, (garbleStop c A.period 0 (beforeCycle cr c A G 1)).on ⟨[], r + k2⟩ = (.failed, ⟨[], r⟩) := by
    intro r
    rw [hstop, on_bind, e2]
    rfl
  constructor
  · unfold garbleHigh
    rw [on_bind, hlab]
    show (Proc.on (if _ then _ else _) ⟨[], m + k3 + k2 + k1⟩).1 = _
    rw [if_neg (by rw [hr]; decide), on_bind, show garbleLoopHigh cr c A G A.cycles = garbleLoopHigh cr c A G (n + 1) by rw [hn], garbleLoopHigh]
    rw [on_bind]
    rw [e1]
    show (Ret.andThen (Proc.on (Proc.bind (garbleStop c A.period 0 (beforeCycle cr c A G 1)) _) ⟨[], m + k3 + k2⟩) _).1 = _
    rw [on_bind, hs]
    rfl
  · unfold garbleHighOn
    rw [hlab]
    show (if _ then _ else _ : Ret (Nat × Nat) × Conn).1 = _
    rw [if_neg (by rw [hr]; decide), show garbleLoopHighOn cr c A G A.cycles = garbleLoopHighOn cr c A G (n + 1) by rw [hn], garbleLoopHighOn]
    rw [e1]
    show (Ret.andThen (Ret.orElse ((garbleStop c A.period 0 (beforeCycle cr c A G 1)).on ⟨[], m + k3 + k2⟩) _ _) _).1 = _
    rw [hs]
    show (Ret.andThen ((garbleOutputsHigh c A (recordOutputs c 0 (beforeCycle cr c A G 1).wires (beforeCycle cr c A G 1).val out0) A.cycles).on
      ⟨[], m + k3⟩) _).1 = _
    rw [e3]
    rfl

end TinyGarble.Proof
