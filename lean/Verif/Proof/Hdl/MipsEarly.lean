import Verif.Proof.Hdl.Mips

/-!
# The MIPS processor with branches
-/

namespace TinyGarble.Proof.Hdl.Mips

open TinyGarble.Hdl TinyGarble.Hdl.Mips TinyGarble.Proof.Hdl
open TinyGarble.Spec.Mips (State Instr Cond bits traceOf SupportedEarly)

theorem trace_eq {A : Nat} (prog : Nat → BitVec 32) (s : State A) (t : Nat) :
    TinyGarble.Spec.Mips.trace prog s t = traceOf (fun i => TinyGarble.Spec.Mips.decode (prog i)) s t := by
  induction t with
  | zero => rfl
  | succ t ih => rw [TinyGarble.Spec.Mips.trace, traceOf, ih]

variable {L : Nat} {st : Regs} {x : BitVec 32}

/-- The whole state after a branch that is taken. -/
theorem taken_state {f br c : Nat} {rs rt rd : BitVec 5} {link : Bool}
    (ht : takeBranch (alu (st.registers rs.toNat) (st.registers rt.toNat) f) br = true) (hl : if link then rd = 31 ∧ c = 4 else rd = 0) :
    abs L (execute L x { rs := rs, rt := rt, rd := rd, alu := f, branch := br, pc := 2, c := c } st) =
      { (if link then (abs L st).set 31 ((abs L st).pc + 4) else abs L st) with pc := (abs L st).pc + (bits x 0 16).signExtend 32 * 4 } := by
  rw [jump_class ((abs L st).pc + 4) ((abs L st).pc + (bits x 0 16).signExtend 32 * 4) (by simp) (by simp) (by simp) (taken_case ht)]
  · cases link
    · rw [if_neg (by simp)] at hl
      subst hl
      exact set_zero_pc (abs L st) _ _
    · rw [if_pos rfl] at hl
      rw [hl.1]; rfl
  · intro h
    cases link
    · rw [if_neg (by simp)] at hl
      exact absurd hl h
    · rw [if_pos rfl] at hl
      rw [dest_eq h, hl.2]
      exact pc_next st.pc

theorem taken_refines_state {c : Cond} {link : Bool} {rs rt : BitVec 5} {off : BitVec 16} (h0 : st.registers 0 = 0)
    (hi : TinyGarble.Spec.Mips.decode x = some (.branch c link rs rt off)) (ht : c.holds ((abs L st).reg rs) ((abs L st).reg rt) = true) :
    abs L (execute L x (TinyGarble.Hdl.Mips.control x) st) =
      { (if link then (abs L st).set 31 ((abs L st).pc + 4) else abs L st) with pc := (abs L st).pc + off.signExtend 32 * 4 } := by
  have h0' : st.registers (0 : BitVec 5).toNat = 0 := h0
  simp only [TinyGarble.Spec.Mips.decode] at hi
  have hC := TinyGarble.Hdl.Mips.control.eq_1 x
  simp only [field_eq] at hC
  split at hi
  · split at hi <;> simp at hi
  · rename_i h1
    simp only [h1] at hC
    split at hi
    all_goals rename_i h2
    all_goals first | contradiction | skip
    all_goals simp only [h2] at hC
    all_goals rw [hC]
    all_goals injection hi with hi
    all_goals injection hi with e1 e2 e3 e4 e5
    all_goals subst e1 e2 e3 e4 e5
    · exact taken_state (link := false) (c := 1) (by rw [← ht]; rw [(holds_zero _ _).2.2.1, h0']; rfl) rfl
    · exact taken_state (link := false) (c := 1) (by rw [← ht]; rw [(holds_zero _ _).2.2.2, h0']; rfl) rfl
    · exact taken_state (link := true) (c := 4) (by rw [← ht]; rw [(holds_zero _ _).2.2.1, h0']; rfl) ⟨rfl, rfl⟩
    · exact taken_state (link := true) (c := 4) (by rw [← ht]; rw [(holds_zero _ _).2.2.2, h0']; rfl) ⟨rfl, rfl⟩
  all_goals first | (simp at hi; done) | skip
  all_goals rename_i h1
  all_goals simp only [h1] at hC
  all_goals rw [hC]
  all_goals injection hi with hi
  all_goals injection hi with e1 e2 e3 e4 e5
  all_goals subst e1 e2 e3 e4 e5
  · exact taken_state (link := false) (c := 1) (by rw [← ht]; exact (holds_eq _ _).symm) rfl
  · exact taken_state (link := false) (c := 1) (by rw [← ht]; exact (holds_ne _ _).symm) rfl
  · exact taken_state (link := false) (c := 1) (by rw [← ht]; rw [(holds_zero _ _).1, h0']; rfl) rfl
  · exact taken_state (link := false) (c := 1) (by rw [← ht]; rw [(holds_zero _ _).2.1, h0']; rfl) rfl

theorem early_offset (off : BitVec 16) (h : off ≠ 0x8000#16) (p : BitVec 32) :
    p + 4 + (off - 1).signExtend 32 * 4 = p + off.signExtend 32 * 4 := by
  have h1 : (off - 1).signExtend 32 = off.signExtend 32 - 1 := by
    apply BitVec.eq_of_toInt_eq
    have h2 : off.toInt ≠ -2 ^ 15 := fun h2 => h (BitVec.eq_of_toInt_eq (by rw [h2]; decide))
    have h3 := BitVec.le_toInt off
    have h4 := BitVec.toInt_lt (x := off)
    rw [BitVec.toInt_signExtend_of_le (by omega), BitVec.toInt_sub, BitVec.toInt_sub, BitVec.toInt_signExtend_of_le (by omega),
      show (1 : BitVec 16).toInt = 1 from by decide, show (1 : BitVec 32).toInt = 1 from by decide,
      Int.bmod_eq_of_le (by omega) (by omega), Int.bmod_eq_of_le (by omega) (by omega)]
  rw [h1]
  generalize off.signExtend 32 = y
  have h2 : (y - 1) * 4 = y * 4 - 4 := by
    apply BitVec.eq_of_toNat_eq
    rw [BitVec.toNat_mul, BitVec.toNat_sub, BitVec.toNat_sub, BitVec.toNat_mul, show (4 : BitVec 32).toNat = 4 from rfl, show (1 : BitVec 32).toNat = 1 from rfl]
    omega
  rw [h2, BitVec.add_assoc, BitVec.add_comm 4, BitVec.sub_add_cancel]

theorem execute_early {i : Instr} {s' : State (L + 2)} (h0 : st.registers 0 = 0) (hi : TinyGarble.Spec.Mips.decode x = some i)
    (he : TinyGarble.Spec.Mips.exec (abs L st) i.early = some s') (hs : SupportedEarly (abs L st) i) :
    abs L (execute L x (TinyGarble.Hdl.Mips.control x) st) = s' := by
  cases i with
  | branch c link rs rt off =>
    have hs : off ≠ 0x8000#16 := hs
    cases ht : c.holds ((abs L st).reg rs) ((abs L st).reg rt) with
    | false =>
      refine execute_refines h0 hi ?_ ht
      rw [← he]
      simp only [TinyGarble.Spec.Mips.exec, Instr.early, ht, Bool.false_eq_true, if_false]
    | true =>
      rw [taken_refines_state h0 hi ht]
      apply Option.some.inj
      rw [← he]
      simp only [TinyGarble.Spec.Mips.exec, Instr.early, ht, if_true, early_offset off hs]
  | _ => exact execute_refines h0 hi he hs

theorem run_early (prog e : Nat → BitVec 32) (t : Nat) (s' : State (L + 2))
    (ht : traceOf (fun i => (TinyGarble.Spec.Mips.decode (prog i)).map Instr.early) (abs L (reset e)) t = some s')
    (hs : ∀ u < t, ∀ s i, traceOf (fun i => (TinyGarble.Spec.Mips.decode (prog i)).map Instr.early) (abs L (reset e)) u = some s →
      TinyGarble.Spec.Mips.decode (prog (s.pc.toNat / 4)) = some i → s.pc.toNat / 4 < 2 ^ L ∧ SupportedEarly s i) :
    ∃ st, run L prog e t = some st ∧ abs L st = s' ∧ st.registers 0 = 0 := by
  induction t generalizing s' with
  | zero => exact ⟨reset e, rfl, Option.some.inj ht, rfl⟩
  | succ t ih =>
    rw [traceOf] at ht
    obtain ⟨s, h1, h2⟩ := Option.bind_eq_some_iff.mp ht
    obtain ⟨j, h3, h4⟩ := Option.bind_eq_some_iff.mp h2
    obtain ⟨i, h10, rfl⟩ := Option.map_eq_some_iff.mp h3
    clear h3
    obtain ⟨st, h5, h6, h7⟩ := ih s h1 fun u hu => hs u (by omega)
    obtain ⟨h8, h9⟩ := hs t (by omega) s i h1 h10
    subst h6
    rw [abs_pc] at h10 h8
    refine ⟨_, ?_, execute_early h7 h10 h4 h9, execute_zero h7⟩
    rw [run, h5]
    exact step_eq prog h8

end TinyGarble.Proof.Hdl.Mips
