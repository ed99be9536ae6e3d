import Verif.Proof.Hdl.A23ProgMerged
import Verif.Proof.Merge

/-! # The loops of the program merge-sort -/

namespace TinyGarble.Proof.Hdl.A23.Sym.Merge

open TinyGarble.Spec.Arm
open TinyGarble.Hdl.A23.Programs (mergeSortCode)
open TinyGarble.Proof.Merge (pos res pos_inv)

/-- The inputs, and the first `n` entries of the array. -/
def Read (g e : Nat → BitVec 32) (n : Nat) (s : State) : Prop :=
  (∀ j < 32, s.word (at' (0x01000000 + 4 * j)) = g j) ∧ (∀ j < 32, s.word (at' (0x02000000 + 4 * j)) = e j) ∧ ∀ j < n, s.word (outAt j) = g j ^^^ e j

theorem leads_read (g e : Nat → BitVec 32) : Leads mergeSortCode lay .init (Read g e 0) (21 + 32 * 15) (xhead 32) (Read g e 32) := by
  refine Leads.trans (Q := Read g e 0) (Leads.of_runs (.of_check run_first) fun s s' hw hg h => ?_) (Leads.loop xhead (Read g e) _ 32 fun n hn =>
    Leads.of_runs (.of_check (run_xbody n hn)) fun s s' hw hg ⟨a, b, c⟩ => ⟨fun k hk => ?_, fun k hk => ?_, fun k hk => ?_⟩)
  · exact ⟨fun j hj => (hw _).trans <| (first_word s _ (by omega)).trans (h.1 j hj), fun j hj => (hw _).trans <| (first_word s _ (by omega)).trans (h.2.1 j hj), fun j hj => absurd hj (by omega)⟩
  · refine (hw _).trans ?_
    rw [xbody_word, if_neg (align_ne _ _ (by omega) (by omega) (by omega)), a k hk]
  · refine (hw _).trans ?_
    rw [xbody_word, if_neg (align_ne _ _ (by omega) (by omega) (by omega)), b k hk]
  · refine (hw _).trans ?_
    rw [xbody_word, a _ (by omega), b _ (by omega)]
    by_cases h : k = n
    · rw [h, if_pos rfl]
    · rw [if_neg (align_ne _ _ (by omega) (by omega) (by omega)), c k (by omega)]

/-- The array, the last `n` entries of the first half of the copy, and `i`. -/
def Left (X : Nat → BitVec 32) (n : Nat) (s : State) : Prop :=
  (∀ j < 32, s.word (outAt j) = X j) ∧ (∀ j < 16, 16 - n ≤ j → s.word (tmpAt j) = X j) ∧ s.word iAt = at' (16 - n)

theorem leads_left (X : Nat → BitVec 32) : Leads mergeSortCode lay (xhead 32) (fun s => ∀ j < 32, s.word (outAt j) = X j) (61 + 16 * 21) (chead 16) (Left X 16) := by
  refine Leads.trans (Q := Left X 0) (Leads.of_runs (.of_check run_mid) fun s s' hw hg h => ⟨fun j hj => ?_, fun j hj h => absurd h (by omega), ?_⟩)
    (Leads.loop chead (Left X) _ 16 fun n hn => Leads.of_runs (.of_check (run_cbody n hn)) fun s s' hw hg ⟨a, b, c⟩ => ⟨fun j hj => ?_, fun j hj hn' => ?_, ?_⟩)
  · refine (hw _).trans ?_
    rw [mid_word _ _ (by omega) (by omega), if_neg (align_ne _ _ (by omega) (by omega) (by omega)), h j hj]
  · refine (hw _).trans ?_
    rw [mid_word _ _ (by omega) (by omega), if_pos rfl]
    rfl
  · refine (hw _).trans ?_
    rw [cbody_word, if_neg (align_ne _ _ (by omega) (by omega) (by omega)), if_neg (align_ne _ _ (by omega) (by omega) (by omega)), a j hj]
  · refine (hw _).trans ?_
    rw [cbody_word, if_neg (align_ne _ _ (by omega) (by omega) (by omega))]
    by_cases h : j = 15 - n
    · rw [h, if_pos rfl, a _ (by omega)]
    · rw [if_neg (align_ne _ _ (by omega) (by omega) (by omega)), b j hj (by omega)]
  · refine (hw _).trans ?_
    rw [cbody_word, if_pos rfl, show 16 - (n + 1) = 15 - n by omega]

/-- The array, the first half of the copy, the last `n` entries of the copy, `i` and `j`. -/
def Right (X : Nat → BitVec 32) (n : Nat) (s : State) : Prop :=
  (∀ j < 32, s.word (outAt j) = X j) ∧ (∀ j < 16, s.word (tmpAt j) = X j) ∧ (∀ j < 32, 32 - n ≤ j → s.word (tmpAt j) = X (47 - j))
    ∧ s.word iAt = at' 0 ∧ s.word jAt = at' (15 + n)

theorem leads_right (X : Nat → BitVec 32) : Leads mergeSortCode lay (chead 16) (Left X 16) (17 + 16 * 21) (dhead 16) (Right X 16) := by
  refine Leads.trans (Q := Right X 0) (Leads.of_runs (.of_check run_cend) fun s s' hw hg ⟨a, b, c⟩ => ⟨fun j hj => ?_, fun j hj => ?_, fun j hj h => absurd h (by omega), ?_, ?_⟩)
    (Leads.loop dhead (Right X) _ 16 fun n hn => Leads.of_runs (.of_check (run_dbody n hn)) fun s s' hw hg ⟨a, b, c, d, e⟩ =>
      ⟨fun j hj => ?_, fun j hj => ?_, fun j hj hn' => ?_, ?_, ?_⟩)
  · refine (hw _).trans ?_
    rw [cend_word, if_neg (align_ne _ _ (by omega) (by omega) (by omega)), a j hj]
  · refine (hw _).trans ?_
    rw [cend_word, if_neg (align_ne _ _ (by omega) (by omega) (by omega)), b j hj (by omega)]
  · refine (hw _).trans ?_
    rw [cend_word, if_neg (align_ne _ _ (by omega) (by omega) (by omega)), c]
  · refine (hw _).trans ?_
    rw [cend_word, if_pos rfl]
    rfl
  · refine (hw _).trans ?_
    rw [dbody_word, if_neg (align_ne _ _ (by omega) (by omega) (by omega)), if_neg (align_ne _ _ (by omega) (by omega) (by omega)), a j hj]
  · refine (hw _).trans ?_
    rw [dbody_word, if_neg (align_ne _ _ (by omega) (by omega) (by omega)), if_neg (align_ne _ _ (by omega) (by omega) (by omega)), b j hj]
  · refine (hw _).trans ?_
    rw [dbody_word, if_neg (align_ne _ _ (by omega) (by omega) (by omega))]
    by_cases h : j = 31 - n
    · rw [h, if_pos rfl, a _ (by omega)]
      congr 1; omega
    · rw [if_neg (align_ne _ _ (by omega) (by omega) (by omega)), c j hj (by omega)]
  · refine (hw _).trans ?_
    rw [dbody_word, if_neg (align_ne _ _ (by omega) (by omega) (by omega)), if_neg (align_ne _ _ (by omega) (by omega) (by omega)), d]
  · refine (hw _).trans ?_
    rw [dbody_word, if_pos rfl, show 15 + (n + 1) = 16 + n by omega]

/-- The copy. -/
def copy (X : Nat → BitVec 32) (x : Nat) : BitVec 32 := if x < 16 then X x else X (47 - x)

/-- The copy, the ends of what is left and what was taken. -/
def Merged (B : Nat → BitVec 32) (k : Nat) (s : State) : Prop :=
  (∀ x < 32, s.word (tmpAt x) = B x) ∧ (k < 32 → s.word iAt = at' (pos B 31 k).1 ∧ s.word jAt = at' (pos B 31 k).2) ∧ ∀ x < k, s.word (outAt x) = res B 31 x

theorem Merged.congr {B : Nat → BitVec 32} {k : Nat} {s s' : State} (h : Merged B k s) (hw : ∀ b, s'.word b = s.word b) : Merged B k s' :=
  ⟨fun x hx => (hw _).trans (h.1 x hx), fun hk => ⟨(hw _).trans (h.2.1 hk).1, (hw _).trans (h.2.1 hk).2⟩, fun x hx => (hw _).trans (h.2.2 x hx)⟩

theorem leads_step (B : Nat → BitVec 32) (k : Nat) (hk : k < 32) :
    Leads mergeSortCode lay (khead 58 none k) (Merged B k) (10 + 6 + 3 + 25) (khead 58 none (k + 1)) (Merged B (k + 1)) := by
  obtain ⟨hp1, hp2⟩ := pos_inv B 31 k (by omega)
  have hj : (pos B 31 k).2 = 31 - k + (pos B 31 k).1 := by omega
  have s1 : Leads mergeSortCode lay (khead 58 none k) (Merged B k) 10 (khead 62 (some (at' k)) k) fun s => Merged B k s ∧ s.reg 12 = at' (pos B 31 k).1 :=
    Leads.of_runs (.of_check (run_kstart k hk)) fun s s' hw hg h => ⟨h.congr fun b => (hw b).trans (kstart_word ..),
      (hg _).trans <| (kstart_reg ..).trans (h.2.1 hk).1⟩
  have s2 : Leads mergeSortCode lay (khead 62 (some (at' k)) k) (fun s => Merged B k s ∧ s.reg 12 = at' (pos B 31 k).1) 6 (khead 64 (some (at' k)) k)
      fun s => (Merged B k s ∧ s.reg 12 = at' (pos B 31 k).1) ∧ s.reg 8 = B (pos B 31 k).1 ∧ s.reg 0 = at' (31 - k + (pos B 31 k).1) :=
    Leads.learn (Leads.of_runs (.of_check (run_kleft k hk _ (by omega))) fun s s' hw hg ⟨h, h12⟩ => ⟨⟨h.congr fun b => (hw b).trans (kleft_word ..),
      (hg _).trans <| (kleft_regs ..).1.trans h12⟩, (hg _).trans <| (kleft_regs ..).2.1.trans (h.1 _ (by omega)),
      (hg _).trans <| (kleft_regs ..).2.2.trans ((h.2.1 hk).2.trans (by rw [hj]))⟩) fun s h => h.2
  have s3 : Leads mergeSortCode lay (khead 64 (some (at' k)) k)
      (fun s => (Merged B k s ∧ s.reg 12 = at' (pos B 31 k).1) ∧ s.reg 8 = B (pos B 31 k).1 ∧ s.reg 0 = at' (31 - k + (pos B 31 k).1)) 3 (khead 65 (some (at' k)) k)
      fun s => (Merged B k s ∧ s.reg 12 = at' (pos B 31 k).1) ∧ s.reg 8 = B (pos B 31 k).1 ∧ s.reg 0 = at' (pos B 31 k).2 ∧ s.reg 7 = B (pos B 31 k).2 :=
    Leads.learn (Leads.of_runs (.of_check (run_kright k hk _ (by omega))) fun s s' hw hg ⟨⟨h, h12⟩, h8, h0⟩ =>
      ⟨⟨h.congr fun b => (hw b).trans (kright_word ..), (hg _).trans <| (kright_regs ..).1.trans h12⟩, (hg _).trans <| (kright_regs ..).2.1.trans h8,
      (hg _).trans <| (kright_regs ..).2.2.1.trans (h0.trans (by rw [hj])),
      (hg _).trans <| (kright_regs ..).2.2.2.trans (by rw [← hj]; exact h.1 _ (by omega))⟩) fun s h => h.2.2
  refine ((s1.trans s2).trans s3).trans
    (Leads.of_runs (.of_check (run_kbody k hk)) fun s s' hw hg ⟨⟨h, h12⟩, h8, h0, h7⟩ => ⟨fun x hx => ?_, fun hk' => ⟨?_, ?_⟩, fun x hx => ?_⟩)
  · refine (hw _).trans ?_
    rw [kbody_word, if_neg (align_ne _ _ (by omega) (by omega) (by omega)), if_neg (align_ne _ _ (by omega) (by omega) (by omega)),
      if_neg (align_ne _ _ (by omega) (by omega) (by omega)), if_neg (align_ne _ _ (by omega) (by omega) (by omega)),
      if_neg (align_ne _ _ (by omega) (by omega) (by omega)), ite_self, h.1 x hx]
  · refine (hw _).trans ?_
    rw [kbody_word, if_neg (align_ne _ _ (by omega) (by omega) (by omega)), h8, h7, pos]
    split
    · rw [if_neg (align_ne _ _ (by omega) (by omega) (by omega)), if_pos rfl, h12]
      exact (BitVec.ofNat_add ..).symm
    · rw [if_neg (align_ne _ _ (by omega) (by omega) (by omega)), if_neg (align_ne _ _ (by omega) (by omega) (by omega)), (h.2.1 hk).1]
  · refine (hw _).trans ?_
    rw [kbody_word, if_neg (align_ne _ _ (by omega) (by omega) (by omega)), h8, h7, pos]
    split
    · rw [if_neg (align_ne _ _ (by omega) (by omega) (by omega)), if_neg (align_ne _ _ (by omega) (by omega) (by omega)), (h.2.1 hk).2]
    · rw [if_neg (align_ne _ _ (by omega) (by omega) (by omega)), if_pos rfl, h0]
      have : (pos B 31 k).2 = (pos B 31 k).2 - 1 + 1 := by omega
      conv_lhs => rw [this, at', BitVec.ofNat_add]
      exact BitVec.add_sub_cancel _ _
  · refine (hw _).trans ?_
    rw [kbody_word, if_neg (align_ne _ _ (by omega) (by omega) (by omega)), h8, h7]
    by_cases hx' : x = k
    · rw [hx', if_pos rfl, if_pos rfl]
      rfl
    · rw [if_neg (align_ne _ _ (by omega) (by omega) (by omega)), if_neg (align_ne _ _ (by omega) (by omega) (by omega)),
        if_neg (align_ne _ _ (by omega) (by omega) (by omega)), if_neg (align_ne _ _ (by omega) (by omega) (by omega)), ite_self, h.2.2 x (by omega)]

theorem leads_all (g e : Nat → BitVec 32) : Leads mergeSortCode lay .init (Read g e 0) 2692 stopped
    (fun s => ∀ k < 32, s.word (outAt k) = res (copy fun j => g j ^^^ e j) 31 k) := by
  have h1 := (leads_read g e).mono (Q' := fun s => ∀ j < 32, s.word (outAt j) = (fun j => g j ^^^ e j) j) (fun s h => h) (fun s h => h.2.2)
  have h2 := (h1.trans (leads_left _)).trans (leads_right _)
  have h3 := h2.trans (Leads.of_runs (Q := Merged (copy fun j => g j ^^^ e j) 0) (.of_check run_dend) fun s s' hw hg ⟨a, b, c, d, f⟩ =>
    ⟨fun x hx => by
      refine (hw _).trans ?_
      rw [dend_word, if_neg (align_ne _ _ (by omega) (by omega) (by omega)), copy]
      split
      · exact b x (by omega)
      · exact c x hx (by omega),
    fun _ => ⟨by
      refine (hw _).trans ?_
      rw [dend_word, if_neg (align_ne _ _ (by omega) (by omega) (by omega)), d]
      rfl, by
      refine (hw _).trans ?_
      rw [dend_word, if_neg (align_ne _ _ (by omega) (by omega) (by omega)), f]
      rfl⟩, fun x hx => absurd hx (by omega)⟩)
  have h4 := h3.trans (Leads.loop (khead 58 none) (Merged _) _ 32 fun k hk => leads_step _ k hk)
  exact h4.trans (Leads.of_runs (Q := fun s => ∀ k < 32, s.word (outAt k) = res (copy fun j => g j ^^^ e j) 31 k) (.of_check run_last)
    fun s s' hw hg h k hk => (hw _).trans <| (last_word ..).trans (h.2.2 k hk))

end TinyGarble.Proof.Hdl.A23.Sym.Merge
