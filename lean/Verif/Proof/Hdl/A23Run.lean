import Verif.Proof.Hdl.A23MultiFirst

/-! # The ARM processor: executions -/

namespace TinyGarble.Proof.Hdl.A23

open TinyGarble TinyGarble.Hdl TinyGarble.Hdl.A23
open TinyGarble.Spec.Arm (Layout State Instr align addr bit holds decode)
open TinyGarble.Spec.Arm.Circuit (exec Supported step trace cost)

theorem instr_step {z : Sizes} (hz : z.code ≤ 2 ^ 22) {s s' : State} {c : Core} {m : Mem} (hR : R z s c m) {cond : BitVec 4} {i : Instr}
    (hf : s.fetch (lay z) = some (cond, i)) (he : step (lay z) s = some s') (hs : Supported (lay z) s cond i) (u : Nat → BitVec 32) :
    R z s' (cycles z u i.cycles (c, m)).1 (cycles z u i.cycles (c, m)).2 := by
  rw [step, hf] at he
  have he : effect (lay z) s cond i = some s' := he
  unfold State.fetch at hf
  dsimp only at hf
  split at hf
  · rename_i hp
    have hp : s.pc.toNat < z.code := hp
    obtain ⟨j, hj, hf⟩ := Option.map_eq_some_iff.1 hf
    have hi := isInstr hj
    obtain ⟨rfl, rfl⟩ : TinyGarble.Spec.Mips.bits _ 28 4 = cond ∧ j = i := by
      rw [Prod.mk.injEq] at hf; exact hf
    rw [bits_eq] at he hs
    cases j with
    | dp op set rd rn o => exact dp_step hz hR hp rfl hi he hs u
    | mul acc set rd rn rs rm => exact mul_step hz hR hp rfl hi he hs u
    | transfer load byte up pre wb rd rn o => exact trans_step hz hR hp rfl hi he hs u
    | multi load up pre wb rn list => exact multi_step hz hR hp rfl hi he hs u
    | branch link off => exact branch_step hz hR hp rfl hi he u
  · cases hf

section
variable (z : Sizes) (undef : Nat → BitVec 32) (p : BitVec (z.code * 32)) (g : BitVec (z.g * 32)) (e : BitVec (z.e * 32))

theorem run_add (a b : Nat) : run z undef p g e (a + b) = cycles z (fun k => undef (k + a)) b (run z undef p g e a) := by
  induction b generalizing a with
  | zero => rfl
  | succ b ih =>
    rw [show a + (b + 1) = a + 1 + b by omega, ih, cycles]
    have h1 : (fun k => undef (k + (a + 1))) = fun k => undef (k + 1 + a) := by
      funext k; congr 1; omega
    rw [h1]
    show cycles z _ b (cycle z (undef a) (run z undef p g e a)) = cycles z _ b (cycle z (undef (0 + a)) (run z undef p g e a))
    rw [Nat.zero_add]

theorem run_start (hz : z.code ≤ 2 ^ 22) :
    R z (State.init (entry 8 p) (entry 8 g) (entry 8 e)) (run z undef p g e 2).1 (run z undef p g e 2).2 := by
  have hmem : (State.init (entry 8 p) (entry 8 g) (entry 8 e)).mem = absMem (Mem.reset z p g e) := by
    funext a
    show (match a.toNat / 2 ^ 24 with
      | 0 => entry 8 p (a.toNat % 2 ^ 24) | 1 => entry 8 g (a.toNat % 2 ^ 24) | 2 => entry 8 e (a.toNat % 2 ^ 24) | _ => 0) = sel _ (a.toNat / 2 ^ 24) _
    generalize a.toNat / 2 ^ 24 = k
    unfold sel
    rcases k with _ | _ | _ | _ | _ | k <;> rfl
  show R z _ (cycle z (undef 1) (cycle z (undef 0) (.reset, .reset z p g e))).1 (cycle z (undef 1) (cycle z (undef 0) (.reset, .reset z p g e))).2
  apply boundary hz
  refine ⟨hmem, rfl, rfl, rfl, rfl, rfl, rfl, ?_, ?_, rfl, ?_⟩
  · show slice (Core.reset.pc + 4) 2 24 = (0 : BitVec 24) + 1
    decide
  · intro k hk
    rw [if_neg]
    · show (if _ then _ else _) = _
      rw [if_neg]
      · rfl
      · rw [show Core.reset.ctl.regWen = 0 from rfl]
        simp
    · show ¬ (_ && (decodeReg 15).getLsbD k.toNat) = true
      rw [show decodeReg 15 = 0 from rfl]
      simp
  · intro h
    refine ⟨?_, ?_, fun _ => rfl⟩
    · have hst : (Core.reset.next ((Mem.reset z p g e).read z 0 (undef 0))).state = .execute := rfl
      show (Core.reset.next ((Mem.reset z p g e).read z 0 (undef 0))).instruction = _
      unfold Core.instruction
      rw [hst]
      exact read_word z _ _ (addr 0) _ hmem (readable_addr z hz 0 h)
    · show Core.reset.addressNxt = addr (0 + 1)
      decide

theorem run_refines (hz : z.code ≤ 2 ^ 22) (t : Nat) (s : State)
    (ht : trace (lay z) (State.init (entry 8 p) (entry 8 g) (entry 8 e)) t = some s)
    (hs : ∀ k < t, ∀ s' c i, trace (lay z) (State.init (entry 8 p) (entry 8 g) (entry 8 e)) k = some s' → s'.fetch (lay z) = some (c, i) →
      Supported (lay z) s' c i) :
    R z s (run z undef p g e (2 + cost (lay z) (State.init (entry 8 p) (entry 8 g) (entry 8 e)) t)).1
      (run z undef p g e (2 + cost (lay z) (State.init (entry 8 p) (entry 8 g) (entry 8 e)) t)).2 := by
  induction t generalizing s with
  | zero =>
    rw [← Option.some.inj ht]
    exact run_start z undef p g e hz
  | succ t ih =>
    obtain ⟨s1, h1, h2⟩ := Option.bind_eq_some_iff.1 ht
    have hR := ih s1 h1 fun k hk => hs k (by omega)
    have h3 : ∃ c i, s1.fetch (lay z) = some (c, i) := by
      cases hf : s1.fetch (lay z) with
      | none => rw [step, hf] at h2; cases h2
      | some x => exact ⟨x.1, x.2, rfl⟩
    obtain ⟨c, i, hf⟩ := h3
    have hc : cost (lay z) (State.init (entry 8 p) (entry 8 g) (entry 8 e)) (t + 1) =
        cost (lay z) (State.init (entry 8 p) (entry 8 g) (entry 8 e)) t + i.cycles := by
      rw [cost, h1]
      show _ + ((s1.fetch (lay z)).map _).getD 0 = _
      rw [hf]; rfl
    rw [hc, ← Nat.add_assoc, run_add]
    exact instr_step hz hR hf h2 (hs t (by omega) s1 c i h1 hf) _

end

/-- Nothing is stored while the program counter is written. -/
theorem Jump.quiet {z : Sizes} {s : State} {c : Core} {m : Mem} (h : Jump z s c m) (u : Nat → BitVec 32) (j : Nat) (hj : j ≤ 3) :
    (cycles z u j (c, m)).2 = m := by
  have h1 : cycle z (u 0) (c, m) = (c.next (m.read z c.address (u 0)), m) := cycle_quiet z _ c m h.we
  have hj : j = 0 ∨ j = 1 ∨ j = 2 ∨ j = 3 := by omega
  rcases hj with rfl | rfl | rfl | rfl
  · rfl
  · show (cycle z (u 0) (c, m)).2 = m
    rw [h1]
  · show (cycle z (u 1) (cycle z (u 0) (c, m))).2 = m
    rw [h1, cycle_quiet _ _ _ _ (next_we _ h.store)]
  · show (cycle z (u 2) (cycle z (u 1) (cycle z (u 0) (c, m)))).2 = m
    rw [h1, cycle_quiet _ _ _ _ (next_we _ h.store), cycle_quiet _ _ _ _ (next_we _ (idle_next c _ (Or.inl h.state)).store)]

/-- The address while the first instruction after a jump is decoded. -/
theorem Jump.addresses {z : Sizes} (hz : z.code ≤ 2 ^ 22) {s : State} {c : Core} {m : Mem} (h : Jump z s c m) (hp : s.pc.toNat < z.code) (u : Nat → BitVec 32) :
    (cycles z u 2 (c, m)).1.address = addr (s.pc + 1) ∧ (cycles z u 2 (c, m)).1.addressNxt = addr (s.pc + 2) := by
  show (cycle z (u 1) (cycle z (u 0) (c, m))).1.address = _ ∧ (cycle z (u 1) (cycle z (u 0) (c, m))).1.addressNxt = _
  rw [cycle_quiet z _ c m h.we]
  generalize m.read z c.address (u 0) = r1
  have id : Idle (c.next r1) := idle_next c r1 (Or.inl h.state)
  have hst : (c.next r1).state = .pcStall2 := by show stateNxt c.state _ _ = _; rw [h.state]; rfl
  have hr : (c.next r1).r15 = s.pc := by
    show (if c.ctl.pcWen then slice c.pcNxt 2 24 else c.r15) = _
    rw [h.pcWen, if_pos rfl, h.pc]
  rw [cycle_quiet z _ _ m (next_we _ h.store)]
  generalize m.read z (c.next r1).address (u 1) = r2
  have ie : Idle ((c.next r1).next r2) := idle_next _ r2 (Or.inr hst)
  constructor
  · show (c.next r1).addressNxt = _
    unfold Core.addressNxt
    rw [id.addressSel]
    show (c.next r1).pc + 4 = _
    rw [pc_eq, hr, addr_add4 _ (by omega)]
  · unfold Core.addressNxt
    rw [ie.addressSel]
    show ((c.next r1).next r2).pc + 4 = _
    have hr2 : ((c.next r1).next r2).r15 = s.pc + 1 := by
      show (if (c.next r1).ctl.pcWen then slice (c.next r1).pcNxt 2 24 else _) = _
      rw [id.pcWen, if_pos rfl]
      unfold Core.pcNxt
      rw [id.pcSel]
      show slice ((c.next r1).pc + 4) 2 24 = _
      rw [pc_eq, hr, slice_addr_add4]
    rw [pc_eq, hr2, addr_add4 _ (by rw [toNat_add1] <;> omega), add11]

end TinyGarble.Proof.Hdl.A23
