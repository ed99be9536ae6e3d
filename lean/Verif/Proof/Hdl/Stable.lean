import Verif.Model.Hdl.Stable
import Verif.Spec.Hdl.Stable
import Verif.Proof.Hdl.Arith
import Verif.Props.Hdl.Seq
import Mathlib.Data.Nat.Find
import Mathlib.Algebra.Order.BigOperators.Group.Finset

/-!
# The deferred acceptance algorithm in stable_match_seq.v
-/

namespace TinyGarble.Proof.Hdl

open TinyGarble.Hdl TinyGarble.Spec.Hdl TinyGarble.Props.Hdl

/-! ## Parts of the circuit -/

theorem anyUpTo_spec (x : Nat → Bool) (i : Nat) : anyUpTo x i = true ↔ ∃ j ≤ i, x j = true := by
  induction i with
  | zero => simp [anyUpTo]
  | succ i ih =>
    rw [anyUpTo, Bool.or_eq_true, ih]
    constructor
    · rintro (h | ⟨j, hj, h⟩)
      · exact ⟨_, Nat.le_refl _, h⟩
      · exact ⟨j, by omega, h⟩
    · rintro ⟨j, hj, h⟩
      by_cases e : j = i + 1
      · subst e; exact .inl h
      · exact .inr ⟨j, by omega, h⟩

theorem firstOne_spec (x : Nat → Bool) (i : Nat) : firstOne x i = true ↔ x i = true ∧ ∀ j < i, x j = false := by
  cases i with
  | zero => simp [firstOne, anyUpTo]
  | succ i =>
    rw [firstOne, Bool.and_eq_true, Bool.not_eq_true', and_comm]
    refine and_congr_right fun _ => ?_
    rw [← Bool.not_eq_true, anyUpTo_spec]
    constructor
    · intro h j hj
      rw [← Bool.not_eq_true]
      exact fun hx => h ⟨j, by omega, hx⟩
    · rintro h ⟨j, hj, hx⟩
      rw [h j (by omega)] at hx
      exact absurd hx (by simp)

/-- `a` is listed, and `b` later or not at all. -/
def Bef (K : Nat) (f : Nat → Nat) (a b : Nat) : Prop := ∃ i < K, f i = a ∧ ∀ j ≤ i, f j ≠ b

theorem bef_irrefl (K : Nat) (f : Nat → Nat) (a : Nat) : ¬ Bef K f a a := by
  rintro ⟨i, -, h1, h2⟩
  exact h2 i (Nat.le_refl _) h1

theorem bef_asymm {K : Nat} {f : Nat → Nat} {a b : Nat} (h : Bef K f a b) : ¬ Bef K f b a := by
  obtain ⟨i, -, h1, h2⟩ := h
  rintro ⟨j, -, h3, h4⟩
  by_cases e : i ≤ j
  · exact h4 i e h1
  · exact h2 j (by omega) h3

/-- If `k` is not before `s`, then not before anyone who is before `s`. -/
theorem bef_mono {K : Nat} {f : Nat → Nat} {k s s' : Nat} (h : ¬ Bef K f k s) (h' : Bef K f s' s) : ¬ Bef K f k s' := by
  rintro ⟨i, hi, h1, h2⟩
  obtain ⟨j, hj, h3, h4⟩ := h'
  refine h ⟨i, hi, h1, fun u hu => h4 u ?_⟩
  by_cases e : j ≤ i
  · exact absurd h3 (h2 j e)
  · omega

theorem bef_total {K : Nat} {f : Nat → Nat} {a b : Nat} (hab : a ≠ b) (hb : ∃ i < K, f i = b) (h : ¬ Bef K f a b) : Bef K f b a := by
  classical
  obtain ⟨i, hi, h1⟩ := hb
  by_contra hn
  have : ∃ j ≤ i, f j = a := by
    by_contra hc
    exact hn ⟨i, hi, h1, fun j hj e => hc ⟨j, hj, e⟩⟩
  have hex : ∃ j, f j = a := ⟨_, this.choose_spec.2⟩
  have hm : Nat.find hex ≤ i := Nat.le_trans (Nat.find_min' hex this.choose_spec.2) this.choose_spec.1
  have hb : ∃ j ≤ Nat.find hex, f j = b := by
    by_contra hc
    exact h ⟨Nat.find hex, by omega, Nat.find_spec hex, fun j hj e => hc ⟨j, hj, e⟩⟩
  obtain ⟨j, hj, e⟩ := hb
  refine hn ⟨j, by omega, e, fun u hu hu' => ?_⟩
  have h2 := Nat.find_min' hex hu'
  have h3 : j = Nat.find hex := by omega
  rw [h3, Nat.find_spec hex] at e
  exact hab e

theorem smBetter_spec (Kr : Nat) (pref : Nat → Nat) (s1 s2 : Nat) : smBetter Kr pref s1 s2 = true ↔ Bef Kr pref s2 s1 := by
  classical
  simp only [smBetter, List.any_eq_true, List.mem_range, Bool.and_eq_true, firstOne_spec, beq_iff_eq]
  constructor
  · rintro ⟨i, hi, ⟨h1, h2⟩, h3⟩
    refine ⟨i, hi, h3.symm, fun j hj e => ?_⟩
    have h4 : s1 ≠ pref i := by
      rintro e
      simp [h3.symm, e] at h1
    by_cases hji : j = i
    · subst hji; exact h4 e.symm
    · have h5 := h2 j (by omega)
      simp only [e, beq_self_eq_true, Bool.true_xor, Bool.not_eq_false', beq_iff_eq] at h5
      exact h4 (by rw [← h5]; exact h3)
  · rintro ⟨i, hi, h1, h2⟩
    have hex : ∃ j, pref j = s2 := ⟨i, h1⟩
    have hle := Nat.find_min' hex h1
    have hs := Nat.find_spec hex
    refine ⟨Nat.find hex, by omega, ⟨?_, ?_⟩, hs.symm⟩
    · have := h2 _ hle
      simp [hs] at this ⊢
      exact fun e => this e.symm
    · intro j hj
      have h3 := Nat.find_min hex hj
      have h4 := h2 j (by omega)
      have e1 : (s1 == pref j) = false := by simpa using fun e => h4 e.symm
      have e2 : (s2 == pref j) = false := by simpa using fun e => h3 e.symm
      rw [e1, e2]; rfl

theorem clog2_pos {S : Nat} (hS : 2 ≤ S) : 0 < clog2 S := by
  rw [clog2, if_neg (by omega)]; omega

/-- The encoder returns the first suitor that can propose. -/
theorem smEncode_spec {S : Nat} (hS : 2 ≤ S) (can : Nat → Bool) (hc : ∀ i, can i = true → i < S) :
    (∃ j, can j = true) → can (smEncode S (firstOne can)) = true ∧ firstOne can (smEncode S (firstOne can)) = true := by
  classical
  intro hex
  have hs := Nat.find_spec hex
  have hlt := hc _ hs
  have hf : ∀ p, firstOne can p = true ↔ p = Nat.find hex := by
    intro p
    rw [firstOne_spec]
    constructor
    · rintro ⟨h1, h2⟩
      have h3 := Nat.find_min' hex h1
      by_contra hne
      rw [h2 (Nat.find hex) (by omega)] at hs
      exact absurd hs (by simp)
    · rintro rfl
      exact ⟨hs, fun j hj => by simpa using Nat.find_min hex hj⟩
  have hl := clog2_pos hS
  have hle := clog2_spec S
  have : smEncode S (firstOne can) = Nat.find hex := by
    have hb : ofBits (clog2 S) (encoder_ (clog2 S - 1) (firstOne can)) = BitVec.ofNat _ (Nat.find hex) := by
      apply eq_of_bits
      intro k hk
      rw [getLsbD_ofBits, BitVec.getLsbD_ofNat]
      simp only [hk, decide_true, Bool.true_and]
      rw [Bool.eq_iff_iff, encoder_spec _ _ _ (by omega), show clog2 S - 1 + 1 = clog2 S by omega]
      constructor
      · rintro ⟨q, hq, h1, h2⟩
        rw [hf] at h1
        rwa [← h1]
      · intro h
        exact ⟨_, by omega, (hf _).mpr rfl, h⟩
    rw [smEncode, hb, BitVec.toNat_ofNat, Nat.mod_eq_of_lt (by omega)]
  rw [this]
  exact ⟨hs, (hf _).mpr rfl⟩

/-! ## Invariant -/

section
variable (S R Ks Kr : Nat) (P Q : Nat → Nat → Nat)

/-- What holds after each cycle: the list of `k` has been gone through up to entry `Ks - pc k`, and each reviewer asked so far has a partner
that it does not like less than `k`. -/
structure SmInv (st : SmRegs) : Prop where
  s_lt : st.s < S
  pc_le : ∀ k, st.pc k ≤ Ks
  run : ∀ k, st.sIsRunning k = true → k = st.s
  suitor : ∀ k, k < S → (st.sIsMatch k = true ↔ ∃ r < R, st.rIsMatch r = true ∧ st.matchList r = k)
  reviewer : ∀ r < R, st.rIsMatch r = true → st.matchList r < S ∧ st.pc (st.matchList r) < Ks ∧
    Q (st.matchList r) (Ks - st.pc (st.matchList r) - 1) = r
  asked : ∀ k < S, ∀ i, i < Ks - st.pc k → st.rIsMatch (Q k i) = true ∧ ¬ Bef Kr (P (Q k i)) k (st.matchList (Q k i))

/-- A suitor that wants to propose. -/
def Active (st : SmRegs) (k : Nat) : Prop := k < S ∧ st.pc k ≠ 0 ∧ st.sIsMatch k = false

theorem smInv_reset (hS : 2 ≤ S) : SmInv S R Ks Kr P Q (smReset Ks) where
  s_lt := by show 0 < S; omega
  pc_le k := Nat.le_refl _
  run k h := by simpa [smReset] using h
  suitor k _ := by simp [smReset]
  reviewer r _ h := by simp [smReset] at h
  asked k _ i hi := by simp [smReset] at hi

variable {S R Ks Kr P Q}

/-- The next suitor. -/
theorem smNext_s (hS : 2 ≤ S) (hQ : ∀ s < S, ∀ i < Ks, Q s i < R) {st : SmRegs} (h : SmInv S R Ks Kr P Q st) :
    ∃ st', smNext S R Ks Kr P Q st = some st' ∧ st'.s < S ∧ (∀ k, st'.sIsRunning k = true → k = st'.s) ∧
      ((∃ k, Active S st k ∧ st.sIsRunning k = false) → Active S st st'.s ∧ st.sIsRunning st'.s = false) ∧
      (¬ (Active S st st.s) → st'.pc = st.pc ∧ st'.sIsMatch = st.sIsMatch ∧ st'.rIsMatch = st.rIsMatch ∧ st'.matchList = st.matchList) ∧
      (Active S st st.s → st'.pc = upd st.pc st.s (st.pc st.s - 1) ∧
        ((st.rIsMatch (Q st.s (Ks - st.pc st.s)) = false ∧ st'.sIsMatch = upd st.sIsMatch st.s true ∧
            st'.rIsMatch = upd st.rIsMatch (Q st.s (Ks - st.pc st.s)) true ∧
            st'.matchList = upd st.matchList (Q st.s (Ks - st.pc st.s)) st.s) ∨
          (st.rIsMatch (Q st.s (Ks - st.pc st.s)) = true ∧
            Bef Kr (P (Q st.s (Ks - st.pc st.s))) st.s (st.matchList (Q st.s (Ks - st.pc st.s))) ∧
            st'.sIsMatch = upd (upd st.sIsMatch st.s true) (st.matchList (Q st.s (Ks - st.pc st.s))) false ∧ st'.rIsMatch = st.rIsMatch ∧
            st'.matchList = upd st.matchList (Q st.s (Ks - st.pc st.s)) st.s) ∨
          (st.rIsMatch (Q st.s (Ks - st.pc st.s)) = true ∧
            ¬ Bef Kr (P (Q st.s (Ks - st.pc st.s))) st.s (st.matchList (Q st.s (Ks - st.pc st.s))) ∧
            st'.sIsMatch = st.sIsMatch ∧ st'.rIsMatch = st.rIsMatch ∧ st'.matchList = st.matchList))) := by
  have hs := h.s_lt
  have hpc := h.pc_le st.s
  have hact : Active S st st.s ↔ (st.pc st.s != 0 && !st.sIsMatch st.s) = true := by
    simp [Active, hs]
  simp only [← smBetter_spec]
  obtain ⟨x, hx⟩ : ∃ x, x = smNext S R Ks Kr P Q st := ⟨_, rfl⟩
  rw [← hx]
  unfold smNext at hx
  extract_lets pcS propose r s1 better can enci enco running next at hx
  have hcan : ∀ i, can i = true → Active S st i ∧ st.sIsRunning i = false := by
    intro i hi
    simp only [can, Bool.and_eq_true, decide_eq_true_eq, bne_iff_ne, Bool.not_eq_true'] at hi
    exact ⟨⟨hi.1.1.1, hi.1.1.2, hi.1.2⟩, hi.2⟩
  have hcan' : ∀ i, Active S st i → st.sIsRunning i = false → can i = true := by
    intro i hi hr
    simp only [can, Bool.and_eq_true, decide_eq_true_eq, bne_iff_ne, Bool.not_eq_true']
    exact ⟨⟨⟨hi.1, hi.2.1⟩, hi.2.2⟩, hr⟩
  have henc := smEncode_spec hS can (fun i hi => (hcan i hi).1.1)
  change (∃ j, can j = true) → can enco = true ∧ next = true at henc
  have hnext : next = true → can enco = true := fun hn => ((firstOne_spec _ _).mp hn).1
  have hr : (propose && decide (R ≤ r)) = false := by
    rw [← Bool.not_eq_true, Bool.and_eq_true, decide_eq_true_eq]
    rintro ⟨h1, h2⟩
    have : pcS ≠ 0 := ((hact.mpr h1).2.1)
    have := hQ st.s hs (Ks - pcS) (by show Ks - pcS < Ks; have : pcS ≤ Ks := hpc; omega)
    change r < R at this
    omega
  rw [hr] at hx
  refine ⟨_, hx, ?_, ?_, ?_, ?_, ?_⟩
  · show (if next = true then enco else st.s) < S
    split
    · rename_i hn; exact (hcan _ (hnext hn)).1.1
    · exact hs
  · intro k hk
    change (if next = true then upd running enco true else running) k = true at hk
    show k = if next = true then enco else st.s
    split at hk
    · rename_i hn
      rw [if_pos hn]
      rw [upd] at hk
      split at hk
      · assumption
      · simp only [running, upd] at hk
        split at hk
        · simp at hk
        · have := h.run k hk
          contradiction
    · simp only [running, upd] at hk
      split at hk
      · simp at hk
      · have := h.run k hk
        contradiction
  · rintro ⟨k, hk, hkr⟩
    obtain ⟨h1, h2⟩ := henc ⟨k, hcan' k hk hkr⟩
    show Active S st (if next = true then enco else st.s) ∧ st.sIsRunning (if next = true then enco else st.s) = false
    rw [if_pos h2]
    exact hcan _ h1
  · intro hn
    have hp : propose = false := by
      rw [← Bool.not_eq_true]; exact fun e => hn (hact.mpr e)
    simp only [hp]
    exact ⟨rfl, rfl, rfl, rfl⟩
  · intro ha
    have hp : propose = true := hact.mp ha
    simp only [hp, if_true]
    refine ⟨rfl, ?_⟩
    change (st.rIsMatch r = false ∧ _ ∧ _ ∧ _) ∨ (st.rIsMatch r = true ∧ better = true ∧ _ ∧ _ ∧ _) ∨ (st.rIsMatch r = true ∧ ¬ better = true ∧ _ ∧ _ ∧ _)
    cases hm : st.rIsMatch r
    · exact .inl ⟨rfl, by simp, by simp; rfl, by simp; rfl⟩
    · cases hb : better
      · exact .inr (.inr ⟨rfl, by simp, by simp, by simp, by simp⟩)
      · exact .inr (.inl ⟨rfl, rfl, by simp; rfl, by simp, by simp; rfl⟩)

theorem upd_self {α : Type} (f : Nat → α) (k : Nat) (v : α) : upd f k v k = v := if_pos rfl

theorem upd_ne {α : Type} (f : Nat → α) {k i : Nat} (v : α) (h : i ≠ k) : upd f k v i = f i := if_neg h

/-- One cycle preserves the invariant. -/
theorem smInv_step (hS : 2 ≤ S) (hQ : ∀ s < S, ∀ i < Ks, Q s i < R) {st st' : SmRegs} (h : SmInv S R Ks Kr P Q st)
    (hst : smNext S R Ks Kr P Q st = some st') : SmInv S R Ks Kr P Q st' := by
  obtain ⟨st'', h0, h1, h2, -, h4, h5⟩ := smNext_s hS hQ h
  obtain rfl : st'' = st' := Option.some.inj (h0.symm.trans hst)
  by_cases ha : Active S st st.s
  · obtain ⟨e1, h6⟩ := h5 ha
    have hs := h.s_lt
    have hpcle := h.pc_le st.s
    have hpc0 : st.pc st.s ≠ 0 := ha.2.1
    have hrR := hQ st.s hs (Ks - st.pc st.s) (by omega)
    have hnot : ∀ r < R, st.rIsMatch r = true → st.matchList r ≠ st.s := by
      intro r hr hm e
      have := (h.suitor st.s hs).mpr ⟨r, hr, hm, e⟩
      rw [ha.2.2] at this
      exact absurd this (by simp)
    generalize hr : Q st.s (Ks - st.pc st.s) = r at *
    have hpcs : st''.pc st.s = st.pc st.s - 1 := by rw [e1, upd_self]
    have hpcne : ∀ k, k ≠ st.s → st''.pc k = st.pc k := fun k hk => by rw [e1, upd_ne _ _ hk]
    have hpc_le : ∀ k, st''.pc k ≤ Ks := by
      intro k
      by_cases hk : k = st.s
      · subst hk; rw [hpcs]; omega
      · rw [hpcne k hk]; exact h.pc_le k
    have hlast : Q st.s (Ks - st''.pc st.s - 1) = r := by
      rw [hpcs, ← hr]; congr 1; omega
    -- who has been asked
    have hask : (∀ k < S, ∀ i, i < Ks - st.pc k → st''.rIsMatch (Q k i) = true ∧ ¬ Bef Kr (P (Q k i)) k (st''.matchList (Q k i))) →
        (st''.rIsMatch r = true ∧ ¬ Bef Kr (P r) st.s (st''.matchList r)) →
        ∀ k < S, ∀ i, i < Ks - st''.pc k → st''.rIsMatch (Q k i) = true ∧ ¬ Bef Kr (P (Q k i)) k (st''.matchList (Q k i)) := by
      intro hold hnew k hk i hi
      by_cases e : k = st.s
      · subst e
        rw [hpcs] at hi
        by_cases ei : i = Ks - st.pc st.s
        · rw [ei, hr]; exact hnew
        · exact hold st.s hk i (by omega)
      · rw [hpcne k e] at hi
        exact hold k hk i hi
    rcases h6 with ⟨m0, m1, m2, m3⟩ | ⟨m0, mb, m1, m2, m3⟩ | ⟨m0, mb, m1, m2, m3⟩
    · -- the reviewer was free
      refine ⟨h1, hpc_le, h2, ?_, ?_, hask ?_ ?_⟩
      · intro k hk
        rw [m1, m2, m3]
        by_cases e : k = st.s
        · subst e
          rw [upd_self]
          exact ⟨fun _ => ⟨r, hrR, upd_self _ _ _, upd_self _ _ _⟩, fun _ => rfl⟩
        · rw [upd_ne _ _ e, h.suitor k hk]
          constructor
          · rintro ⟨q, hq, q1, q2⟩
            have : q ≠ r := by rintro rfl; rw [m0] at q1; exact absurd q1 (by simp)
            exact ⟨q, hq, by rw [upd_ne _ _ this]; exact q1, by rw [upd_ne _ _ this]; exact q2⟩
          · rintro ⟨q, hq, q1, q2⟩
            have : q ≠ r := by rintro rfl; rw [upd_self] at q2; exact e q2.symm
            rw [upd_ne _ _ this] at q1 q2
            exact ⟨q, hq, q1, q2⟩
      · intro q hq hm
        rw [m3]
        by_cases e : q = r
        · subst e
          rw [upd_self]
          exact ⟨hs, by rw [hpcs]; omega, hlast⟩
        · rw [m2, upd_ne _ _ e] at hm
          rw [upd_ne _ _ e, hpcne _ (hnot q hq hm)]
          exact h.reviewer q hq hm
      · intro k hk i hi
        obtain ⟨q1, q2⟩ := h.asked k hk i hi
        have : Q k i ≠ r := by intro e; rw [e, m0] at q1; exact absurd q1 (by simp)
        rw [m2, m3, upd_ne _ _ this, upd_ne _ _ this]
        exact ⟨q1, q2⟩
      · rw [m2, m3, upd_self, upd_self]
        exact ⟨rfl, bef_irrefl _ _ _⟩
    · -- the reviewer prefers the new suitor
      have hs1 := h.reviewer r hrR m0
      have hs1ne : st.matchList r ≠ st.s := hnot r hrR m0
      refine ⟨h1, hpc_le, h2, ?_, ?_, hask ?_ ?_⟩
      · intro k hk
        rw [m1, m2, m3]
        by_cases e : k = st.s
        · subst e
          rw [upd_ne _ _ (Ne.symm hs1ne), upd_self]
          exact ⟨fun _ => ⟨r, hrR, m0, upd_self _ _ _⟩, fun _ => rfl⟩
        · by_cases e' : k = st.matchList r
          · subst e'
            rw [upd_self]
            refine ⟨fun hh => absurd hh (by simp), ?_⟩
            rintro ⟨q, hq, q1, q2⟩
            have : q ≠ r := by rintro rfl; rw [upd_self] at q2; exact e q2.symm
            rw [upd_ne _ _ this] at q2
            have h9 := (h.reviewer q hq q1).2.2
            rw [q2, hs1.2.2] at h9
            exact absurd h9.symm this
          · rw [upd_ne _ _ e', upd_ne _ _ e, h.suitor k hk]
            constructor
            · rintro ⟨q, hq, q1, q2⟩
              have : q ≠ r := by rintro rfl; exact e' q2.symm
              exact ⟨q, hq, q1, by rw [upd_ne _ _ this]; exact q2⟩
            · rintro ⟨q, hq, q1, q2⟩
              have : q ≠ r := by rintro rfl; rw [upd_self] at q2; exact e q2.symm
              rw [upd_ne _ _ this] at q2
              exact ⟨q, hq, q1, q2⟩
      · intro q hq hm
        rw [m3]
        by_cases e : q = r
        · subst e
          rw [upd_self]
          exact ⟨hs, by rw [hpcs]; omega, hlast⟩
        · rw [m2] at hm
          rw [upd_ne _ _ e, hpcne _ (hnot q hq hm)]
          exact h.reviewer q hq hm
      · intro k hk i hi
        obtain ⟨q1, q2⟩ := h.asked k hk i hi
        rw [m2, m3]
        refine ⟨q1, ?_⟩
        by_cases e : Q k i = r
        · rw [e] at q2
          rw [e, upd_self]
          exact bef_mono q2 mb
        · rw [upd_ne _ _ e]; exact q2
      · rw [m2, m3, upd_self]
        exact ⟨m0, bef_irrefl _ _ _⟩
    · -- the suitor is rejected
      refine ⟨h1, hpc_le, h2, ?_, ?_, hask ?_ ?_⟩
      · intro k hk
        rw [m1, m2, m3]
        exact h.suitor k hk
      · intro q hq hm
        rw [m2] at hm
        rw [m3, hpcne _ (hnot q hq hm)]
        exact h.reviewer q hq hm
      · intro k hk i hi
        rw [m2, m3]
        exact h.asked k hk i hi
      · rw [m2, m3]
        exact ⟨m0, mb⟩
  · obtain ⟨e1, e2, e3, e4⟩ := h4 ha
    refine ⟨h1, ?_, h2, ?_, ?_, ?_⟩
    · rw [e1]; exact h.pc_le
    · rw [e2, e3, e4]; exact h.suitor
    · rw [e1, e3, e4]; exact h.reviewer
    · rw [e1, e3, e4]; exact h.asked

/-- The registers after every number of cycles. -/
theorem smRun_inv (hS : 2 ≤ S) (hQ : ∀ s < S, ∀ i < Ks, Q s i < R) (t : Nat) :
    ∃ st, smRun S R Ks Kr P Q t = some st ∧ SmInv S R Ks Kr P Q st := by
  induction t with
  | zero => exact ⟨_, rfl, smInv_reset S R Ks Kr P Q hS⟩
  | succ t ih =>
    obtain ⟨st, h1, h2⟩ := ih
    obtain ⟨st', h3, -⟩ := smNext_s hS hQ h2
    exact ⟨st', by rw [smRun, h1]; exact h3, smInv_step hS hQ h2 h3⟩

/-! ## The end -/

/-- The number of proposals that are left. -/
def left (S : Nat) (st : SmRegs) : Nat := ∑ k ∈ Finset.range S, st.pc k

theorem left_reset : left S (smReset Ks) = S * Ks := by
  simp [left, smReset]

theorem left_active {st st' : SmRegs} (ha : Active S st st.s) (e : st'.pc = upd st.pc st.s (st.pc st.s - 1)) : left S st' + 1 = left S st := by
  have hm : st.s ∈ Finset.range S := Finset.mem_range.mpr ha.1
  rw [left, left, ← Finset.add_sum_erase _ _ hm, ← Finset.add_sum_erase _ st.pc hm, e, upd_self]
  have : ∑ x ∈ (Finset.range S).erase st.s, upd st.pc st.s (st.pc st.s - 1) x = ∑ x ∈ (Finset.range S).erase st.s, st.pc x :=
    Finset.sum_congr rfl fun x hx => upd_ne _ _ (Finset.ne_of_mem_erase hx)
  have := ha.2.1
  omega

/-- If someone wants to propose and the current suitor does not, then the next one does. -/
theorem next_active (hS : 2 ≤ S) (hQ : ∀ s < S, ∀ i < Ks, Q s i < R) {st st' : SmRegs} (h : SmInv S R Ks Kr P Q st)
    (hst : smNext S R Ks Kr P Q st = some st') (hn : ¬ Active S st st.s) {k : Nat} (hk : Active S st k) :
    Active S st' st'.s ∧ st'.pc = st.pc := by
  obtain ⟨st'', h0, -, -, h3, h4, -⟩ := smNext_s hS hQ h
  obtain rfl : st'' = st' := Option.some.inj (h0.symm.trans hst)
  obtain ⟨e1, e2, -, -⟩ := h4 hn
  have hrun : st.sIsRunning k = false := by
    rw [← Bool.not_eq_true]
    intro hr
    exact hn (h.run k hr ▸ hk)
  obtain ⟨h5, -⟩ := h3 ⟨k, hk, hrun⟩
  exact ⟨⟨h5.1, by rw [e1]; exact h5.2.1, by rw [e2]; exact h5.2.2⟩, e1⟩

/-- Once nobody wants to propose, it stays so. -/
theorem inactive_step (hS : 2 ≤ S) (hQ : ∀ s < S, ∀ i < Ks, Q s i < R) {st st' : SmRegs} (h : SmInv S R Ks Kr P Q st)
    (hst : smNext S R Ks Kr P Q st = some st') (hn : ∀ k, ¬ Active S st k) : ∀ k, ¬ Active S st' k := by
  obtain ⟨st'', h0, -, -, -, h4, -⟩ := smNext_s hS hQ h
  obtain rfl : st'' = st' := Option.some.inj (h0.symm.trans hst)
  obtain ⟨e1, e2, -, -⟩ := h4 (hn _)
  intro k
  rw [Active, e1, e2]
  exact hn k

/-- The number of cycles that are left at most. -/
theorem smRun_end (hS : 2 ≤ S) (hQ : ∀ s < S, ∀ i < Ks, Q s i < R) (t : Nat) {st : SmRegs} (hst : smRun S R Ks Kr P Q t = some st) :
    (∀ k, ¬ Active S st k) ∨ (t + 2 * left S st ≤ 2 * (S * Ks)) ∨ (t + 2 * left S st ≤ 2 * (S * Ks) + 1 ∧ Active S st st.s) := by
  induction t generalizing st with
  | zero =>
    obtain rfl : smReset Ks = st := Option.some.inj hst
    right; left
    rw [left_reset]; omega
  | succ t ih =>
    obtain ⟨s0, h1, h2⟩ := smRun_inv (Kr := Kr) (P := P) hS hQ t
    rw [smRun, h1] at hst
    change smNext S R Ks Kr P Q s0 = some st at hst
    obtain ⟨st'', h0, -, -, h3, h4, h5⟩ := smNext_s hS hQ h2
    obtain rfl : st'' = st := Option.some.inj (h0.symm.trans hst)
    have hih := ih h1
    by_cases hall : ∀ k, ¬ Active S s0 k
    · exact .inl (inactive_step hS hQ h2 hst hall)
    · by_cases ha : Active S s0 s0.s
      · have := left_active ha (h5 ha).1
        right; left
        rcases hih with h | h | h
        · exact absurd h hall
        · omega
        · omega
      · have hall' : ∃ k, Active S s0 k := by
          by_contra hc
          exact hall fun k hk => hc ⟨k, hk⟩
        obtain ⟨k, hk⟩ := hall'
        obtain ⟨h6, h7⟩ := next_active hS hQ h2 hst ha hk
        have e : left S st'' = left S s0 := by rw [left, left, h7]
        rcases hih with h | h | h
        · exact absurd h hall
        · exact .inr (.inr ⟨by omega, h6⟩)
        · exact absurd h.2 ha

/-- After `2 S Ks` cycles nobody wants to propose. -/
theorem smRun_inactive (hS : 2 ≤ S) (hQ : ∀ s < S, ∀ i < Ks, Q s i < R) (t : Nat) (ht : 2 * S * Ks ≤ t) {st : SmRegs}
    (hst : smRun S R Ks Kr P Q t = some st) : ∀ k, ¬ Active S st k := by
  have hpos : ∀ k, Active S st k → 1 ≤ left S st := by
    intro k hk
    have h1 : st.pc k ≤ left S st := Finset.single_le_sum (fun _ _ => Nat.zero_le _) (Finset.mem_range.mpr hk.1)
    have := hk.2.1
    omega
  have e : 2 * S * Ks = 2 * (S * Ks) := Nat.mul_assoc _ _ _
  rcases smRun_end hS hQ t hst with h | h | ⟨h, h'⟩
  · exact h
  · intro k hk
    have := hpos k hk
    omega
  · intro k hk
    have := hpos k hk
    omega

/-! ## The matching -/

/-- The matching in the registers. -/
def matching (R : Nat) (st : SmRegs) (r : Nat) : Option Nat := if r < R ∧ st.rIsMatch r = true then some (st.matchList r) else none

theorem matching_some {st : SmRegs} {r s : Nat} : matching R st r = some s ↔ r < R ∧ st.rIsMatch r = true ∧ st.matchList r = s := by
  rw [matching]
  split
  · rename_i h
    simp [h]
  · rename_i h
    simp only [reduceCtorEq, false_iff]
    exact fun hh => h ⟨hh.1, hh.2.1⟩

/-- A list of preferences. -/
def prefs (K : Nat) (f : Nat → Nat → Nat) (k : Nat) : List Nat := (List.range K).map (f k)

theorem prefs_get {K : Nat} {f : Nat → Nat → Nat} {k i a : Nat} : (prefs K f k)[i]? = some a ↔ i < K ∧ f k i = a := by
  rw [prefs, List.getElem?_map, Option.map_eq_some_iff]
  constructor
  · rintro ⟨j, h1, h2⟩
    rw [List.getElem?_eq_some_iff] at h1
    obtain ⟨h3, h4⟩ := h1
    rw [List.getElem_range] at h4
    subst h4
    exact ⟨by simpa using h3, h2⟩
  · rintro ⟨h1, h2⟩
    exact ⟨i, by rw [List.getElem?_range h1], h2⟩

theorem before_prefs {K : Nat} {f : Nat → Nat → Nat} {k a b : Nat} : Before (prefs K f k) a b ↔ Bef K (f k) a b := by
  constructor
  · rintro ⟨i, h1, h2⟩
    rw [prefs_get] at h1
    refine ⟨i, h1.1, h1.2, fun j hj e => h2 j hj ?_⟩
    rw [prefs_get]
    exact ⟨by omega, e⟩
  · rintro ⟨i, h1, h2, h3⟩
    refine ⟨i, prefs_get.mpr ⟨h1, h2⟩, fun j hj e => ?_⟩
    exact h3 j hj (prefs_get.mp e).2

theorem mem_prefs {K : Nat} {f : Nat → Nat → Nat} {k a : Nat} : a ∈ prefs K f k ↔ ∃ i < K, f k i = a := by
  simp [prefs]

theorem matching_stable {st : SmRegs} (h : SmInv S R Ks Kr P Q st) (hn : ∀ k, ¬ Active S st k) :
    Stable S R (prefs Ks Q) (prefs Kr P) (matching R st) where
  matched r s hm := by
    rw [matching_some] at hm
    obtain ⟨h1, h2, h3⟩ := h.reviewer r hm.1 hm.2.1
    rw [hm.2.2] at h1 h2 h3
    exact ⟨hm.1, h1, mem_prefs.mpr ⟨_, by omega, h3⟩⟩
  one r r' s hm hm' := by
    rw [matching_some] at hm hm'
    have h1 := (h.reviewer r hm.1 hm.2.1).2.2
    have h2 := (h.reviewer r' hm'.1 hm'.2.1).2.2
    rw [hm.2.2] at h1
    rw [hm'.2.2] at h2
    exact h1.symm.trans h2
  stable s hs r hr := by
    rintro ⟨h1, h2, h3⟩
    -- `s` has asked `r`
    have hasked : ∃ i < Ks - st.pc s, Q s i = r := by
      cases hm : st.sIsMatch s
      · have : st.pc s = 0 := by
          by_contra hne
          exact hn s ⟨hs, hne, hm⟩
        rw [this]
        exact mem_prefs.mp h1
      · obtain ⟨r', hr', m1, m2⟩ := (h.suitor s hs).mp hm
        have hb := h2 r' (matching_some.mpr ⟨hr', m1, m2⟩)
        rw [before_prefs] at hb
        obtain ⟨i, hi, e1, e2⟩ := hb
        obtain ⟨-, h5, h6⟩ := h.reviewer r' hr' m1
        rw [m2] at h5 h6
        refine ⟨i, ?_, e1⟩
        by_contra hc
        exact e2 (Ks - st.pc s - 1) (by omega) h6
    obtain ⟨i, hi, rfl⟩ := hasked
    obtain ⟨h4, h5⟩ := h.asked s hs i hi
    have hb := h3 _ (matching_some.mpr ⟨hr, h4, rfl⟩)
    exact h5 (before_prefs.mp hb)

/-! ## The matching is the best one for the suitors -/

/-- A reviewer who has rejected a suitor is not its partner in any stable matching. -/
def Rejected (S Ks : Nat) (Q : Nat → Nat → Nat) (μ : Nat → Option Nat) (st : SmRegs) : Prop :=
  ∀ k < S, ∀ i, i < Ks - st.pc k → st.matchList (Q k i) ≠ k → μ (Q k i) ≠ some k

/-- `k` prefers `r` to its partner in `μ` if everyone before has rejected it. -/
theorem prefers {μ : Nat → Option Nat} (hμ : Stable S R (prefs Ks Q) (prefs Kr P) μ) {k i : Nat} (hk : k < S) (hi : i < Ks)
    (hrej : ∀ j < i, Q k j ≠ Q k i → μ (Q k j) ≠ some k) {k' : Nat} (hne : k ≠ k') (hb : Bef Kr (P (Q k i)) k k') (hR : Q k i < R) : μ (Q k i) ≠ some k' := by
  intro hm
  refine hμ.stable k hk (Q k i) hR ⟨mem_prefs.mpr ⟨i, hi, rfl⟩, ?_, ?_⟩
  · intro r' hr'
    rw [before_prefs]
    refine ⟨i, hi, rfl, fun j hj e => ?_⟩
    by_cases ej : Q k j = Q k i
    · rw [← e, ej] at hr'
      rw [hm] at hr'
      exact hne (Option.some.inj hr').symm
    · have hji : j ≠ i := fun h => ej (by rw [h])
      exact hrej j (by omega) ej (by rw [e]; exact hr')
  · intro s' hs'
    rw [hm] at hs'
    obtain rfl := Option.some.inj hs'
    exact before_prefs.mpr hb

theorem rejected_step (hS : 2 ≤ S) (hQ : ∀ s < S, ∀ i < Ks, Q s i < R) (hP : ∀ r < R, ∀ s < S, ∃ i < Kr, P r i = s) {μ : Nat → Option Nat}
    (hμ : Stable S R (prefs Ks Q) (prefs Kr P) μ) {st st' : SmRegs} (h : SmInv S R Ks Kr P Q st)
    (hst : smNext S R Ks Kr P Q st = some st') (hr : Rejected S Ks Q μ st) : Rejected S Ks Q μ st' := by
  obtain ⟨st'', h0, -, -, -, h4, h5⟩ := smNext_s hS hQ h
  obtain rfl : st'' = st' := Option.some.inj (h0.symm.trans hst)
  by_cases ha : Active S st st.s
  · obtain ⟨e1, h6⟩ := h5 ha
    have hs := h.s_lt
    have hpcle := h.pc_le st.s
    have hpc0 : st.pc st.s ≠ 0 := ha.2.1
    have hrR := hQ st.s hs (Ks - st.pc st.s) (by omega)
    have hnot : ∀ r < R, st.rIsMatch r = true → st.matchList r ≠ st.s := by
      intro r hr hm e
      have := (h.suitor st.s hs).mpr ⟨r, hr, hm, e⟩
      rw [ha.2.2] at this
      exact absurd this (by simp)
    -- all whom the current suitor has asked before have rejected it
    have hcur : ∀ j < Ks - st.pc st.s, μ (Q st.s j) ≠ some st.s := by
      intro j hj
      exact hr st.s hs j hj (hnot _ (hQ _ hs j (by omega)) (h.asked st.s hs j hj).1)
    have hpcs : st''.pc st.s = st.pc st.s - 1 := by rw [e1, upd_self]
    have hpcne : ∀ k, k ≠ st.s → st''.pc k = st.pc k := fun k hk => by rw [e1, upd_ne _ _ hk]
    intro k hk i hi hm
    by_cases e : k = st.s
    · subst e
      rw [hpcs] at hi
      by_cases ei : i = Ks - st.pc st.s
      · -- the proposal of this cycle was rejected
        rcases h6 with ⟨-, -, -, m3⟩ | ⟨-, -, -, -, m3⟩ | ⟨m0, mb, -, -, m3⟩
        · rw [m3, ei, upd_self] at hm; exact absurd rfl hm
        · rw [m3, ei, upd_self] at hm; exact absurd rfl hm
        · rw [m3] at hm
          rw [← ei] at m0 mb hrR
          obtain ⟨g1, g2, g3⟩ := h.reviewer _ hrR m0
          generalize hs1 : st.matchList (Q st.s i) = s1 at *
          generalize hi0 : Ks - st.pc s1 - 1 = i0 at *
          have hb := bef_total (Ne.symm hm) (hP _ hrR s1 g1) mb
          rw [← g3] at hb hrR ⊢
          refine prefers hμ g1 (by omega) ?_ hm hb hrR
          intro j hj hje
          refine hr s1 g1 j (by omega) ?_
          intro ej
          have hjR := hQ s1 g1 j (by omega)
          have hjm := (h.asked s1 g1 j (by omega)).1
          have := (h.reviewer _ hjR hjm).2.2
          rw [ej, hi0] at this
          exact hje this.symm
      · exact hcur i (by omega)
    · rw [hpcne k e] at hi
      rcases h6 with ⟨m0, -, -, m3⟩ | ⟨m0, mb, -, -, m3⟩ | ⟨-, -, -, -, m3⟩
      · rw [m3] at hm
        by_cases eq : Q k i = Q st.s (Ks - st.pc st.s)
        · have := (h.asked k hk i hi).1
          rw [eq, m0] at this
          exact absurd this (by simp)
        · rw [upd_ne _ _ eq] at hm
          exact hr k hk i hi hm
      · rw [m3] at hm
        by_cases eq : Q k i = Q st.s (Ks - st.pc st.s)
        · by_cases ek : st.matchList (Q k i) = k
          · rw [← eq, ek, eq] at mb
            rw [eq]
            refine prefers hμ hs (by omega) (fun j hj _ => hcur j hj) (fun h => e h.symm) mb hrR
          · exact hr k hk i hi ek
        · rw [upd_ne _ _ eq] at hm
          exact hr k hk i hi hm
      · rw [m3] at hm
        exact hr k hk i hi hm
  · obtain ⟨e1, e2, e3, e4⟩ := h4 ha
    intro k hk i
    rw [e1, e4]
    exact hr k hk i

theorem smRun_rejected (hS : 2 ≤ S) (hQ : ∀ s < S, ∀ i < Ks, Q s i < R) (hP : ∀ r < R, ∀ s < S, ∃ i < Kr, P r i = s) {μ : Nat → Option Nat}
    (hμ : Stable S R (prefs Ks Q) (prefs Kr P) μ) (t : Nat) {st : SmRegs} (hst : smRun S R Ks Kr P Q t = some st) : Rejected S Ks Q μ st := by
  induction t generalizing st with
  | zero =>
    obtain rfl : smReset Ks = st := Option.some.inj hst
    intro k _ i hi
    simp [smReset] at hi
  | succ t ih =>
    obtain ⟨s0, h1, h2⟩ := smRun_inv (Kr := Kr) (P := P) hS hQ t
    rw [smRun, h1] at hst
    exact rejected_step hS hQ hP hμ h2 hst (ih h1)

/-- No suitor has a better partner in another stable matching. -/
theorem matching_best (hQ : ∀ s < S, ∀ i < Ks, Q s i < R) {μ : Nat → Option Nat} (hμ : Stable S R (prefs Ks Q) (prefs Kr P) μ) {st : SmRegs}
    (h : SmInv S R Ks Kr P Q st) (hn : ∀ k, ¬ Active S st k) (hr : Rejected S Ks Q μ st) {s r : Nat} (hm : μ r = some s) :
    ∃ r', matching R st r' = some s ∧ ¬ Before (prefs Ks Q s) r r' := by
  obtain ⟨-, hs, hin⟩ := hμ.matched r s hm
  obtain ⟨i, hi, rfl⟩ := mem_prefs.mp hin
  cases hsm : st.sIsMatch s
  · have h0 : st.pc s = 0 := by
      by_contra hne
      exact hn s ⟨hs, hne, hsm⟩
    have hi' : i < Ks - st.pc s := by omega
    refine absurd hm (hr s hs i hi' fun e => ?_)
    have := (h.suitor s hs).mpr ⟨_, hQ s hs i hi, (h.asked s hs i hi').1, e⟩
    rw [hsm] at this
    exact absurd this (by simp)
  · obtain ⟨r', hr', m1, m2⟩ := (h.suitor s hs).mp hsm
    refine ⟨r', matching_some.mpr ⟨hr', m1, m2⟩, ?_⟩
    rw [before_prefs]
    rintro ⟨j, hj, e1, e2⟩
    obtain ⟨-, h5, h6⟩ := h.reviewer r' hr' m1
    rw [m2] at h5 h6
    have hj' : j < Ks - st.pc s := by
      by_contra hc
      exact e2 (Ks - st.pc s - 1) (by omega) h6
    rw [← e1] at hm
    refine absurd hm (hr s hs j hj' fun e => ?_)
    have := (h.reviewer _ (hQ s hs j hj) (h.asked s hs j hj').1).2.2
    rw [e, h6] at this
    exact e2 j (Nat.le_refl _) this.symm

end

end TinyGarble.Proof.Hdl
