import Verif.Proof.Hdl.A23SymFlow
import Verif.Proof.Hdl.A23ProgSBox

/-! # The substitution box of the program aes -/

namespace TinyGarble.Proof.Hdl.A23.Sym.AesCode

open TinyGarble.Spec.Arm
open TinyGarble.Hdl.A23.Programs (aesCode)
open SBox (table table_eq)

def lay : Layout := ⟨474, 4, 4, 4, 64⟩

abbrev nat (n : Nat) : Option (BitVec 32) := some (BitVec.ofNat 32 n)

/-- A byte of the memory. -/
abbrev M (s : State) (n : Nat) : BitVec 8 := s.mem (BitVec.ofNat 32 n)

/-- Before the function: only the stack pointer is known. -/
def enter (S : Nat) : Abs := ⟨59, [none, none, none, none, none, none, none, none, none, none, none, none, none, nat S, none], none, []⟩

/-- Before its last instruction. -/
def leave (S : Nat) : Abs := ⟨268, [none, none, none, none, none, none, none, none, none, none, none, none, none, nat (S - 36), none], none, []⟩

def leaveTo (S : Nat) (L : BitVec 32) (f : Flags) : Abs := { leave S with flags := some f, mem := [(BitVec.ofNat 32 (S - 4), some L)] }

/-- The function up to its last instruction. -/
def body (S : Nat) : Bool :=
  match (enter S).run aesCode lay 209 with
  | some (τ, ms, k) => k == 341 && weaker aesCode (leave S) τ && (match Track.start.run ms with
    | some t => t.reg 0 == .val (Track.pack table 256) && Track.look (BitVec.ofNat 32 (S - 4)) t.mem == .reg 14
      && (List.range 8).all (fun j => Track.look (BitVec.ofNat 32 (S - 36 + 4 * j)) t.mem == .reg (BitVec.ofNat 4 (4 + j)))
      && t.mem.all fun x => S - 104 ≤ x.1.toNat && x.1.toNat < S
    | none => false)
  | none => false

set_option maxRecDepth 100000 in
theorem body_key : body 0x040000c8 = true := by decide +kernel

set_option maxRecDepth 100000 in
theorem body_sub : body 0x040000b8 = true := by decide +kernel

/-- What the function leaves as it is. -/
structure Called (S : Nat) (s s' : State) : Prop where
  reg : ∀ j < 8, s'.reg (BitVec.ofNat 4 (4 + j)) = s.reg (BitVec.ofNat 4 (4 + j))
  flags : s'.flags = s.flags
  mem : ∀ n < 2 ^ 32, n < S - 104 ∨ S ≤ n → M s' n = M s n

theorem body_leads {S : Nat} (hb : body S = true) (hS : S < 2 ^ 32) (h4 : S % 4 = 0) (h104 : 104 ≤ S) (s0 : State) (x : BitVec 8) (hx : s0.reg 0 = BitVec.ofNat 32 x.toNat) :
    Leads aesCode lay (enter S) (fun s => s = s0) 341 (leave S) fun s =>
      s.reg 0 = (Spec.Aes.sbox x).setWidth 32 ∧ s.word (BitVec.ofNat 32 (S - 4)) = s0.reg 14
      ∧ (∀ j < 8, s.word (BitVec.ofNat 32 (S - 36 + 4 * j)) = s0.reg (BitVec.ofNat 4 (4 + j))) ∧ s.flags = s0.flags
      ∧ ∀ n < 2 ^ 32, n < S - 104 ∨ S ≤ n → M s n = M s0 n := by
  unfold body at hb
  cases hr : (enter S).run aesCode lay 209 with
  | none => rw [hr] at hb; cases hb
  | some y =>
    obtain ⟨τ1, ms, k1⟩ := y
    rw [hr] at hb
    dsimp only at hb
    rw [Bool.and_eq_true, Bool.and_eq_true, beq_iff_eq] at hb
    obtain ⟨⟨hk, hw⟩, hF⟩ := hb
    subst hk
    cases ht : Track.start.run ms with
    | none => rw [ht] at hF; cases hF
    | some t =>
      rw [ht] at hF
      dsimp only at hF
      rw [Bool.and_eq_true, Bool.and_eq_true, Bool.and_eq_true, beq_iff_eq, beq_iff_eq] at hF
      obtain ⟨⟨⟨f1, f2⟩, f3⟩, f4⟩ := hF
      have hR : Runs aesCode lay (enter S) ms 341 (leave S) := .of_check (n := 209) (by
        unfold check
        rw [hr]
        dsimp only
        rw [hw, beq_self_eq_true, beq_self_eq_true]
        rfl)
      rintro l s hl hD rfl
      obtain ⟨h1, h2⟩ := hR l s hl hD
      have ha := (Track.agree_start x.isLt hx).run x.isLt ht
      refine ⟨_, h1, h2, ?_, ?_, fun j hj => ?_, ha.flags, fun n hn hout => ?_⟩
      · have := ha.reg 0
        rw [f1] at this
        have this : (applyAll s ms).reg 0 = Track.lane (Track.pack table 256) x.toNat := this
        rw [Track.lane_pack _ x.isLt, table_eq] at this
        exact this
      · have := ha.word (BitVec.ofNat 32 (S - 4))
        rw [f2] at this
        exact this
      · have := ha.word (BitVec.ofNat 32 (S - 36 + 4 * j))
        have f := List.all_eq_true.1 f3 j (List.mem_range.2 hj)
        rw [beq_iff_eq] at f
        rw [f] at this
        exact this
      · refine ha.other _ fun y hy he => ?_
        have f := List.all_eq_true.1 f4 y hy
        rw [he, Bool.and_eq_true, align_toNat, BitVec.toNat_ofNat] at f
        have := of_decide_eq_true f.1
        have := of_decide_eq_true f.2
        omega

/-- The known words are not in the frame of the function. -/
def clear (S : Nat) (mem : List (BitVec 32 × Option (BitVec 32))) : Bool := mem.all fun x => (x.1.toNat < S - 104 || S ≤ x.1.toNat) && 1704 ≤ x.1.toNat

theorem code_length : aesCode.length = 426 := by decide +kernel

theorem clear_word {S : Nat} {τ : Abs} (hc : clear S τ.mem = true) (hS : 0x04000068 ≤ S) {a w : BitVec 32} (h : τ.word aesCode a = some w) :
    a.toNat < S - 104 ∨ S ≤ a.toNat := by
  unfold Abs.word at h
  cases hf : find a τ.mem with
  | some t =>
    have hm : ∃ x ∈ τ.mem, x.1 = a := by
      by_contra hn
      rw [find_none fun x hx he => hn ⟨x, hx, he⟩] at hf
      cases hf
    obtain ⟨x, hx, rfl⟩ := hm
    have := List.all_eq_true.1 hc x hx
    rw [Bool.and_eq_true, Bool.or_eq_true] at this
    exact this.1.imp of_decide_eq_true of_decide_eq_true
  | none =>
    rw [hf] at h
    obtain ⟨hl, -⟩ := List.getElem?_eq_some_iff.1 (show aesCode[a.toNat / 4]? = some w from h)
    have := code_length
    left
    omega

theorem clear_origin {S : Nat} {τ : Abs} (hc : clear S τ.mem = true) {a w : BitVec 32} (h : origin aesCode a = some w) : τ.word aesCode a = some w := by
  have hl : a.toNat / 4 < 426 := by
    obtain ⟨hl, -⟩ := List.getElem?_eq_some_iff.1 (show aesCode[a.toNat / 4]? = some w from h)
    rw [code_length] at hl
    exact hl
  unfold Abs.word
  rw [find_none fun x hx he => ?_]
  · exact h
  · have := List.all_eq_true.1 hc x hx
    rw [Bool.and_eq_true] at this
    have := of_decide_eq_true this.2
    rw [he] at this
    omega

/-- A byte in a register. -/
theorem regs_cases {p : BitVec 4 → Prop} (h : ∀ j < 16, p (BitVec.ofNat 4 j)) (r : BitVec 4) : p r := by
  have := h r.toNat r.isLt
  rwa [BitVec.ofNat_toNat, BitVec.setWidth_eq] at this

/-- Calling the function. -/
theorem call {S : Nat} (hb : body S = true) (hS : S < 2 ^ 32) (h4 : S % 4 = 0) (h104 : 0x04000068 ≤ S) {L : BitVec 32} {q : BitVec 24} {f : Flags}
    (hx : shows aesCode lay (leaveTo S L f) 1 13 ⟨q, [], some f, []⟩ (fun t => t.within [] [] && t.reg 0 == .r 0 && t.reg 13 == .c (BitVec.ofNat 32 S)
      && (List.range 8).all fun j => t.reg (BitVec.ofNat 4 (4 + j)) == .w (BitVec.ofNat 32 (S - 36 + 4 * j))) = true)
    {r4 r5 r6 r7 r8 r9 r10 r11 : Option (BitVec 32)} {mem : List (BitVec 32 × Option (BitVec 32))} (hc : clear S mem = true)
    {P Q : State → Prop} (hp : ∀ s, P s → ∃ x : BitVec 8, s.reg 0 = BitVec.ofNat 32 x.toNat ∧
      ∀ s', s'.reg 0 = (Spec.Aes.sbox x).setWidth 32 → Called S s s' → Q s') :
    Leads aesCode lay ⟨59, [none, none, none, none, r4, r5, r6, r7, r8, r9, r10, r11, none, nat S, some L], some f, mem⟩ P 354
      ⟨q, [none, none, none, none, r4, r5, r6, r7, r8, r9, r10, r11, none, nat S, none], some f, mem⟩ Q := by
  intro l s hl hD hP
  obtain ⟨x, hx0, hQ⟩ := hp s hP
  have hD0 : Desc aesCode (enter S) s := by
    refine ⟨hD.pc, fun r v hr hv => ?_, fun f hf => (by cases hf), fun a w ha h => hD.word a w ha (clear_origin hc h)⟩
    by_cases h13 : r = 13
    · subst h13
      exact hD.reg 13 v hr hv
    · have hn : ∀ j < 16, BitVec.ofNat 4 j ≠ 13 → (enter S).reg (BitVec.ofNat 4 j) = none := by
        intro j hj
        rcases (show j = 0 ∨ j = 1 ∨ j = 2 ∨ j = 3 ∨ j = 4 ∨ j = 5 ∨ j = 6 ∨ j = 7 ∨ j = 8 ∨ j = 9 ∨ j = 10 ∨ j = 11 ∨ j = 12 ∨ j = 13 ∨ j = 14 ∨ j = 15 by omega)
          with rfl | rfl | rfl | rfl | rfl | rfl | rfl | rfl | rfl | rfl | rfl | rfl | rfl | rfl | rfl | rfl <;> first | exact fun _ => rfl | exact fun h => absurd rfl h
      have := regs_cases (p := fun r => r ≠ 13 → (enter S).reg r = none) hn r h13
      rw [this] at hv
      cases hv
  obtain ⟨s1, c1, d1, e0, e14, e4, ef, em⟩ := body_leads hb hS h4 (by omega) s x hx0 l s hl hD0 rfl
  have h14 : s.reg 14 = L := hD.reg 14 L (by decide) rfl
  have hfl : s.flags = f := hD.flags f rfl
  have d1' : Desc aesCode (leaveTo S L f) s1 := by
    refine ⟨d1.pc, d1.reg, fun g hg => ?_, fun a w ha h => ?_⟩
    · cases hg; rw [ef, hfl]
    · unfold Abs.word leaveTo leave find at h
      split at h
      · rename_i t ht
        split at ht
        · rename_i he
          cases ht
          cases h
          rw [← he, e14, h14]
        · cases ht
      · exact d1.word a w ha h
  obtain ⟨s2, c2, d2, g0, g13, g4, gm⟩ := Leads.of_shows (P := fun s => s = s1) (Q := fun s2 => s2.reg 0 = s1.reg 0 ∧ s2.reg 13 = BitVec.ofNat 32 S
      ∧ (∀ j < 8, s2.reg (BitVec.ofNat 4 (4 + j)) = s1.word (BitVec.ofNat 32 (S - 36 + 4 * j))) ∧ ∀ n < 2 ^ 32, M s2 n = M s1 n) hx (fun s s' t _ ha hF he => by
    subst he
    rw [Bool.and_eq_true, Bool.and_eq_true, Bool.and_eq_true, beq_iff_eq, beq_iff_eq] at hF
    obtain ⟨⟨⟨g1, g2⟩, g3⟩, g4⟩ := hF
    refine ⟨by rw [ha.reg, g2]; rfl, by rw [ha.reg, g3]; rfl, fun j hj => ?_, fun n hn => ha.outside g1 hn (fun r hr => absurd hr (List.not_mem_nil)) (fun r hr => absurd hr (List.not_mem_nil))⟩
    have := List.all_eq_true.1 g4 j (List.mem_range.2 hj)
    rw [beq_iff_eq] at this
    rw [ha.reg, this]
    rfl) l s1 hl d1' rfl
  have hcalled : Called S s s2 := by
    refine ⟨fun j hj => by rw [g4 j hj, e4 j hj], ?_, fun n hn h => by rw [gm n hn, em n hn h]⟩
    rw [d2.flags f rfl, hfl]
  have hmem : ∀ b : BitVec 32, b.toNat < S - 104 ∨ S ≤ b.toNat → s2.mem b = s.mem b := by
    intro b h
    have := hcalled.mem b.toNat b.isLt h
    unfold M at this
    rwa [BitVec.ofNat_toNat, BitVec.setWidth_eq] at this
  refine ⟨s2, c1.trans c2, ⟨d2.pc, fun r v hr hv => ?_, fun g hg => ?_, fun a w ha h => ?_⟩, hQ s2 (by rw [g0, e0]) hcalled⟩
  · by_cases h13 : r = 13
    · subst h13
      cases hv
      exact g13
    · have hn : ∀ j < 16, BitVec.ofNat 4 j ≠ 13 → ∀ v, (Abs.mk q [none, none, none, none, r4, r5, r6, r7, r8, r9, r10, r11, none, nat S, none] (some f) mem).reg (BitVec.ofNat 4 j) = some v → s2.reg (BitVec.ofNat 4 j) = v := by
        intro j hj
        rcases (show j = 4 ∨ j = 5 ∨ j = 6 ∨ j = 7 ∨ j = 8 ∨ j = 9 ∨ j = 10 ∨ j = 11 ∨ j = 0 ∨ j = 1 ∨ j = 2 ∨ j = 3 ∨ j = 12 ∨ j = 13 ∨ j = 14 ∨ j = 15 by omega)
          with rfl | rfl | rfl | rfl | rfl | rfl | rfl | rfl | rfl | rfl | rfl | rfl | rfl | rfl | rfl | rfl
        · exact fun _ v hv => (hcalled.reg 0 (by omega)).trans (hD.reg 4 v (by decide) hv)
        · exact fun _ v hv => (hcalled.reg 1 (by omega)).trans (hD.reg 5 v (by decide) hv)
        · exact fun _ v hv => (hcalled.reg 2 (by omega)).trans (hD.reg 6 v (by decide) hv)
        · exact fun _ v hv => (hcalled.reg 3 (by omega)).trans (hD.reg 7 v (by decide) hv)
        · exact fun _ v hv => (hcalled.reg 4 (by omega)).trans (hD.reg 8 v (by decide) hv)
        · exact fun _ v hv => (hcalled.reg 5 (by omega)).trans (hD.reg 9 v (by decide) hv)
        · exact fun _ v hv => (hcalled.reg 6 (by omega)).trans (hD.reg 10 v (by decide) hv)
        · exact fun _ v hv => (hcalled.reg 7 (by omega)).trans (hD.reg 11 v (by decide) hv)
        all_goals first | exact fun h => absurd rfl h | (intro _ v hv; cases hv)
      exact regs_cases (p := fun r => r ≠ 13 → ∀ v, (Abs.mk q [none, none, none, none, r4, r5, r6, r7, r8, r9, r10, r11, none, nat S, none] (some f) mem).reg r = some v → s2.reg r = v) hn r h13 v hv
  · cases hg
    exact d2.flags f rfl
  · have hout := clear_word (τ := ⟨q, [], some f, mem⟩) hc h104 h
    have : s2.word a = s.word a := Flow.word_of_parts fun b hb => by
      apply hmem
      have h1 := align_toNat b
      have h2 := align_toNat a
      rw [hb] at h1
      omega
    rw [this]
    exact hD.word a w ha h

end TinyGarble.Proof.Hdl.A23.Sym.AesCode
