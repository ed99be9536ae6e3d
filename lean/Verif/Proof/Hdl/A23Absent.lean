import Verif.Proof.Hdl.A23Run
import Verif.Spec.ArmAbsent

/-! # The ARM processor: instructions that do nothing -/

namespace TinyGarble.Proof.Hdl.A23

open TinyGarble TinyGarble.Hdl TinyGarble.Hdl.A23
open TinyGarble.Spec.Arm (Layout State Instr align addr bit holds)
open TinyGarble.Spec.Arm.Circuit (Supported)
open TinyGarble.Spec.Arm.Absent

/-- The types of instructions for which no control signals are set. -/
def Mute (t : IType) : Prop := t = .swap ∨ t = .codtrans ∨ t = .coregop ∨ t = .cortrans ∨ t = .swi

theorem absent_mute {x : BitVec 32} (h : absent x) : Mute (itype x) := by
  rcases h with h | h
  · obtain ⟨h1, h2, h3⟩ := h
    rw [bits_eq] at h1 h2 h3
    have h4 : slice x 4 4 = 0b1001#4 := by
      rw [slice_iff] at h3 ⊢
      simp at h3 ⊢
      omega
    rw [itype, if_pos ⟨h1, h2, h4⟩]
    exact Or.inl rfl
  · have h : TinyGarble.Spec.Mips.bits x 26 2 = 3 := h
    rw [bits_eq] at h
    have h1 : ¬ slice x 26 2 = 0 := by rw [h]; decide
    have h2 : ¬ slice x 26 2 = 1 := by rw [h]; decide
    have h' := (slice_iff ..).1 h
    simp at h'
    have h3 : ¬ slice x 25 3 = 4 := by rw [slice_iff]; simp; omega
    have h4 : ¬ slice x 25 3 = 5 := by rw [slice_iff]; simp; omega
    unfold itype
    rw [if_neg (by rintro ⟨a, -, -⟩; rw [slice_iff] at a; simp at a; omega), if_neg (by rintro ⟨a, -⟩; rw [slice_iff] at a; simp at a; omega),
      if_neg h1, if_neg h2, if_neg h3, if_neg h4]
    unfold Mute
    split
    · simp
    · split
      · simp
      · split <;> simp

theorem absent_decode {x : BitVec 32} (h : absent x) : TinyGarble.Spec.Arm.decode x = none := by
  have hs := absent_mute h
  cases hd : TinyGarble.Spec.Arm.decode x with
  | none => rfl
  | some j =>
    have hi := isInstr hd
    have : itype x = .regop ∨ itype x = .mult ∨ itype x = .trans ∨ itype x = .mtrans ∨ itype x = .branch := by
      cases j with
      | dp op set rd rn o => exact Or.inl hi.1
      | mul acc set rd rn rs rm => exact Or.inr (Or.inl hi.1)
      | transfer load byte up pre wb rd rn o => exact Or.inr (Or.inr (Or.inl hi.1))
      | multi load up pre wb rn list => exact Or.inr (Or.inr (Or.inr (Or.inl hi.1)))
      | branch link off => exact Or.inr (Or.inr (Or.inr (Or.inr hi.1)))
    rcases this with e | e | e | e | e <;> rw [e] at hs <;> simp [Mute] at hs

theorem mute_nxt {x : BitVec 32} (h : Mute (itype x)) : validNxt x {} = {} := by
  unfold validNxt
  rcases h with h | h | h | h | h <;> rw [h] <;> rfl

theorem mute_state {x : BitVec 32} (h : Mute (itype x)) : stateNxt .execute x {} = .execute := by
  unfold stateNxt
  rcases h with h | h | h | h | h <;> rw [h] <;> rfl

theorem absent_step {z : Sizes} (hz : z.code ≤ 2 ^ 22) {s : State} {c : Core} {m : Mem} (hR : R z s c m) (h : atAbsent (lay z) s) (u : Nat → BitVec 32) :
    R z s.next (cycles z u 1 (c, m)).1 (cycles z u 1 (c, m)).2 := by
  obtain ⟨hp, hx⟩ := h
  have hp : s.pc.toNat < z.code := hp
  have hpipe := hR.pipe hp
  have hc := hpipe.ctl
  have hs := absent_mute hx
  have hn := mute_nxt hs
  have hst : c.state = .execute := by rw [hpipe.state, hn, mute_state hs]
  apply boundary hz
  refine ⟨hR.mem, hR.we, by rw [hst]; rfl, ?_, ?_, ?_, ?_, ?_, ?_, ?_, ?_⟩
  · rw [hc]; show (validNxt _ {}).writeWen = _; rw [hn]
  · rw [hc]; show (validNxt _ {}).pcSel = _; rw [hn]
  · rw [hc]; show (validNxt _ {}).pcWen = _; rw [hn]
  · rw [hc]; show (validNxt _ {}).address = _; rw [hn]
  · rw [hR.r15]; show _ = s.pc + 1 + 1; rw [add11]
  · intro k hk
    have : c.ctl.regWen = 0 := by rw [hc]; show decodeReg (validNxt _ {}).wsel = _; rw [hn]; rfl
    rw [this, if_neg (by simp)]
    exact hR.regs k hk
  · have : c.ctl.flagsWen = false := by rw [hc]; show (validNxt _ {}).flagsWen = _; rw [hn]
    rw [this, Bool.and_false, if_neg (by simp)]
    exact hR.flags
  · intro h1
    have h1 : (s.pc + 1).toNat < z.code := h1
    rw [toNat_add1 _ (by omega)] at h1
    refine ⟨?_, ?_, fun _ => by rw [hc]; show (validNxt _ {}).mulEnable = _; rw [hn]⟩
    · unfold Core.instruction
      rw [hst]
      exact hR.data h1
    · show c.address = addr (s.pc + 1 + 1)
      rw [add11]; exact hpipe.address

section
variable (z : Sizes) (undef : Nat → BitVec 32) (p : BitVec (z.code * 32)) (g : BitVec (z.g * 32)) (e : BitVec (z.e * 32))

theorem run_absent (hz : z.code ≤ 2 ^ 22) (t : Nat) (s : State)
    (ht : Spec.Arm.Absent.trace (lay z) (State.init (entry 8 p) (entry 8 g) (entry 8 e)) t = some s)
    (hs : ∀ k < t, ∀ s' c i, Spec.Arm.Absent.trace (lay z) (State.init (entry 8 p) (entry 8 g) (entry 8 e)) k = some s' → ¬ atAbsent (lay z) s' →
      s'.fetch (lay z) = some (c, i) → Supported (lay z) s' c i) :
    R z s (run z undef p g e (2 + Spec.Arm.Absent.cost (lay z) (State.init (entry 8 p) (entry 8 g) (entry 8 e)) t)).1
      (run z undef p g e (2 + Spec.Arm.Absent.cost (lay z) (State.init (entry 8 p) (entry 8 g) (entry 8 e)) t)).2 := by
  induction t generalizing s with
  | zero =>
    rw [← Option.some.inj ht]
    exact run_start z undef p g e hz
  | succ t ih =>
    obtain ⟨s1, h1, h2⟩ := Option.bind_eq_some_iff.1 ht
    have hR := ih s1 h1 fun k hk => hs k (by omega)
    rw [Spec.Arm.Absent.cost, h1, Option.map_some, Option.getD_some, ← Nat.add_assoc, run_add, Spec.Arm.Absent.cycles]
    rw [Spec.Arm.Absent.step] at h2
    by_cases ha : atAbsent (lay z) s1
    · rw [if_pos ha] at h2 ⊢
      cases h2
      exact absent_step hz hR ha _
    · rw [if_neg ha] at h2 ⊢
      cases hf : s1.fetch (lay z) with
      | none => rw [Spec.Arm.Circuit.step, hf] at h2; cases h2
      | some x => exact instr_step hz hR (cond := x.1) (i := x.2) hf h2 (hs t (by omega) s1 x.1 x.2 h1 ha hf) _

end

end TinyGarble.Proof.Hdl.A23
