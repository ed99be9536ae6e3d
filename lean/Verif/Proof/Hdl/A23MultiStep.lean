import Verif.Proof.Hdl.A23Multi

/-! # The ARM processor: multiple loads and stores do what the manual says -/

namespace TinyGarble.Proof.Hdl.A23

open TinyGarble TinyGarble.Hdl TinyGarble.Hdl.A23
open TinyGarble.Spec.Arm (Layout State Instr align addr bit holds move registers start words)
open TinyGarble.Spec.Arm.Circuit (exec Supported)
open TinyGarble.Spec.Mips (fetch put)

theorem loadAll_mem (t : State) (a : BitVec 32) (l : List (BitVec 4)) : (t.loadAll a l).mem = t.mem := by
  induction l generalizing t a with
  | nil => rfl
  | cons r l ih => rw [State.loadAll, ih, write_mem]

/-- After a cycle in which the address is incremented. -/
theorem Multi.address_next {z : Sizes} {s : State} {x y : BitVec 32} {r : BitVec 4} {c : Core} (h : Multi z s x y r c) (hn : regsOf y ≠ []) :
    c.addressNxt = c.address + 4 := by
  have hl : (regsOf y).length ≠ 0 := fun h => hn (List.length_eq_zero_iff.1 h)
  unfold Core.addressNxt
  rw [h.address, if_neg hl]
  rfl

theorem multi_load {z : Sizes} (hz : z.code ≤ 2 ^ 22) {s : State} (hp : s.pc.toNat < z.code) {x : BitVec 32} (hL : x.getLsbD 20 = true)
    (hh : holds (slice x 28 4) s.flags = true) (n : Nat) {y : BitVec 32} (hy : (regsOf y).length = n) {r : BitVec 4} {c : Core} {m : Mem} (h : Multi z s x y r c)
    {t : State} (hw : words (lay z).readable c.address (n + 1) = true) (hpc : t.pc = s.pc + 1) (hfl : t.flags = s.flags)
    (hs : t.mem = s.mem) (hmem : t.mem = absMem m) (hwe : c.writeEnable = false)
    (hreg : ∀ k : BitVec 4, k ≠ 15 → (if c.execute && c.ctl.regWen.getLsbD k.toNat then c.regWriteNxt else c.regs k) = t.reg k)
    (hlt : ∀ k ∈ regsOf y, r.toNat < k.toNat) (u : Nat → BitVec 32) {N : Nat} (hN : N = n + 2 + if (15 : BitVec 4) ∈ r :: regsOf y then 2 else 0) :
    R z (t.loadAll c.address (r :: regsOf y)) (cycles z u N (c, m)).1 (cycles z u N (c, m)).2 := by
  induction n generalizing y r c t u N with
  | zero =>
    have hn : regsOf y = [] := List.length_eq_zero_iff.1 hy
    have hrd : m.read z c.address (u 0) = t.word c.address := by
      apply read_word z m t _ _ hmem
      rw [words, words, Bool.and_true] at hw; exact hw
    rw [hn] at hN ⊢
    show R z (t.write r (t.word c.address)) _ _
    by_cases h15 : r = 15
    · rw [if_pos (by rw [h15]; simp)] at hN
      rw [hN, show 0 + 2 + 2 = 1 + 3 from rfl, cycles_add]
      show R z _ (cycles z _ 3 (cycle z (u 0) (c, m))).1 (cycles z _ 3 (cycle z (u 0) (c, m))).2
      rw [cycle_quiet z _ c m hwe, hrd]
      apply h.lastJump hz hn hL h15
      · rw [State.write, if_pos h15, bits_eq]
      · rw [write_flags]; exact hfl
      · rw [write_mem]; exact hmem
      · intro k hk
        rw [write_reg _ _ _ _ hk, if_neg (by rw [h15]; exact hk)]
        exact (hreg k hk).symm
    · rw [if_neg (by rw [List.mem_singleton]; exact fun h => h15 h.symm)] at hN
      rw [hN]
      show R z _ (cycle z (u 1) (cycle z (u 0) (c, m))).1 (cycle z (u 1) (cycle z (u 0) (c, m))).2
      rw [cycle_quiet z _ c m hwe, hrd]
      apply h.last hz hp hn (fun _ => h15)
      · rw [write_pc _ _ h15]; exact hpc
      · rw [write_flags]; exact hfl
      · rw [write_mem]; exact hmem
      · intro k hk
        rw [write_reg _ _ _ _ hk, h.execute]
        by_cases h1 : k = r
        · rw [if_pos h1, if_pos ⟨hh, hL, h1⟩]
        · rw [if_neg h1, if_neg (fun h => h1 h.2.2)]
          exact (hreg k hk).symm
      · intro _
        apply word_congr
        rw [write_mem]; exact hs
  | succ n ih =>
    have hn : regsOf y ≠ [] := by intro h; rw [h] at hy; cases hy
    have hcons := regsOf_cons y hn
    have hrd : m.read z c.address (u 0) = t.word c.address := by
      apply read_word z m t _ _ hmem
      rw [words, Bool.and_eq_true] at hw; exact hw.1
    have h15 : r ≠ 15 := by
      rintro rfl
      have := hlt (mtransReg y) (by rw [hcons]; exact List.mem_cons_self)
      have := (mtransReg y).isLt
      rw [show (15 : BitVec 4).toNat = 15 from rfl] at *
      omega
    rw [show N = 1 + (N - 1) by omega, cycles_add]
    show R z _ (cycles z _ (N - 1) (cycle z (u 0) (c, m))).1 (cycles z _ (N - 1) (cycle z (u 0) (c, m))).2
    rw [cycle_quiet z _ c m hwe, hrd]
    obtain ⟨h1, h2, h3⟩ := h.next hn (t.word c.address)
    have had : (c.next (t.word c.address)).address = c.address + 4 := h.address_next hn
    have hex : (c.next (t.word c.address)).execute = true := by rw [h1.execute]; exact hh
    rw [hcons, State.loadAll, ← had]
    apply ih (by rw [hcons] at hy; exact Nat.succ.inj hy) h1
    · rw [had]; rw [words, Bool.and_eq_true] at hw; exact hw.2
    · rw [write_pc _ _ h15]; exact hpc
    · rw [write_flags]; exact hfl
    · rw [write_mem]; exact hs
    · rw [write_mem]; exact hmem
    · apply next_we
      rw [h.writeWen, hL]; rfl
    · intro k hk
      rw [hex, h2, h3, hL, if_pos rfl, decodeReg_bit, Bool.true_and, write_reg _ _ _ _ hk]
      by_cases h4 : k = r
      · rw [if_pos h4, if_pos (by rw [decide_eq_true_eq]; exact ⟨h4, hk⟩)]
      · rw [if_neg h4, if_neg (by rw [decide_eq_true_eq]; exact fun h => h4 h.1)]
        exact hreg k hk
    · intro k hk
      exact (regsOf_rest y k hk).1
    · rw [hN, hcons]
      have : (15 : BitVec 4) ∈ r :: mtransReg y :: regsOf (mtransInstruction y) ↔ (15 : BitVec 4) ∈ mtransReg y :: regsOf (mtransInstruction y) := by
        rw [List.mem_cons]
        exact ⟨fun h => h.resolve_left fun h => h15 h.symm, Or.inr⟩
      by_cases h5 : (15 : BitVec 4) ∈ mtransReg y :: regsOf (mtransInstruction y)
      · rw [if_pos (this.2 h5), if_pos h5]; omega
      · rw [if_neg (fun h => h5 (this.1 h)), if_neg h5]; omega

theorem stored_eq {s : State} {c : Core} (h : Regs s c) (hps : c.ctl.pcSel = 0) : c.rd = s.stored c.ctl.rdsSel := by
  unfold Core.rd State.stored
  split
  · rw [word15_eq h]
    congr 1
    unfold Core.pcNxt
    rw [hps]
    show slice (c.pc + 4) 2 24 = _
    rw [pc_eq, slice_addr_add4, h.r15, add21]
  · rename_i h1; exact h.regs _ h1

theorem stored_eq' {z : Sizes} {s : State} {x y : BitVec 32} {r : BitVec 4} {c : Core} (h : Multi z s x y r c)
    (hr : mtransReg y ≠ 15 → c.regs (mtransReg y) = s.reg (mtransReg y)) : c.rd = s.stored (mtransReg y) := by
  unfold Core.rd State.stored
  rw [h.rds]
  split
  · unfold Core.word15 State.r15
    rw [flags_word, h.flags]
    congr 2
    unfold Core.pcNxt
    rw [h.pcSel]
    show slice (c.pc + 4) 2 24 = _
    rw [pc_eq, slice_addr_add4, h.r15, add21]
  · rename_i h1; exact hr h1

theorem multi_store {z : Sizes} (hz : z.code ≤ 2 ^ 22) {s : State} (hp : s.pc.toNat < z.code) {x : BitVec 32} (hL : x.getLsbD 20 = false)
    (hh : holds (slice x 28 4) s.flags = true) (n : Nat) {y : BitVec 32} (hy : (regsOf y).length = n) {r : BitVec 4} {c : Core} {m : Mem} (h : Multi z s x y r c)
    {t : State} (hw : words (lay z).writable (c.address + 4) n = true) (hcode : words (fun a => align a ≠ addr (s.pc + 1)) (c.address + 4) n = true)
    (hpc : t.pc = s.pc + 1) (hfl : t.flags = s.flags)
    (hs : t.word (addr (s.pc + 1)) = s.word (addr (s.pc + 1)))
    (hmem : t.mem = absMem (m.next z c.address c.writeEnable c.byteEnable c.writeData))
    (hreg : ∀ k : BitVec 4, k ≠ 15 → (if c.execute && c.ctl.regWen.getLsbD k.toNat then c.regWriteNxt else c.regs k) = t.reg k)
    (hsr : ∀ k ∈ regsOf y, k ≠ 15 → c.regs k = s.reg k ∧ t.reg k = s.reg k) (u : Nat → BitVec 32) :
    R z (t.storeAll (c.address + 4) ((regsOf y).map s.stored)) (cycles z u (n + 2) (c, m)).1 (cycles z u (n + 2) (c, m)).2 := by
  induction n generalizing y r c m t u with
  | zero =>
    have hn : regsOf y = [] := List.length_eq_zero_iff.1 hy
    rw [hn]
    show R z t (cycle z (u 1) (cycle z (u 0) (c, m))).1 (cycle z (u 1) (cycle z (u 0) (c, m))).2
    show R z t (cycle z (u 1) (c.next (m.read z c.address (u 0)), m.next z c.address c.writeEnable c.byteEnable c.writeData)).1
      (cycle z (u 1) (c.next (m.read z c.address (u 0)), m.next z c.address c.writeEnable c.byteEnable c.writeData)).2
    apply h.last hz hp hn (fun h => by rw [hL] at h; cases h) _ hpc hfl hmem
    · intro k hk
      rw [if_neg (by rw [hL]; exact fun h => absurd h.2.1 (by decide))]
      exact (hreg k hk).symm
    · exact fun _ => hs
  | succ n ih =>
    have hn : regsOf y ≠ [] := by intro h; rw [h] at hy; cases hy
    have hcons := regsOf_cons y hn
    have hl : (regsOf y).length ≠ 0 := by omega
    rw [show n + 1 + 2 = 1 + (n + 2) by omega, cycles_add]
    show R z _ (cycles z _ (n + 2) (cycle z (u 0) (c, m))).1 (cycles z _ (n + 2) (cycle z (u 0) (c, m))).2
    show R z _ (cycles z _ (n + 2) (c.next (m.read z c.address (u 0)), m.next z c.address c.writeEnable c.byteEnable c.writeData)).1
      (cycles z _ (n + 2) (c.next (m.read z c.address (u 0)), m.next z c.address c.writeEnable c.byteEnable c.writeData)).2
    generalize m.read z c.address (u 0) = rd
    obtain ⟨h1, h2, h3⟩ := h.next hn rd
    have had : (c.next rd).address = c.address + 4 := h.address_next hn
    have hval : c.rd = s.stored (mtransReg y) := stored_eq' h fun h5 => (hsr _ (by rw [hcons]; exact List.mem_cons_self) h5).1
    rw [words, Bool.and_eq_true] at hw hcode
    rw [hcons, List.map_cons, State.storeAll, ← had]
    rw [hL, if_neg (by decide)] at h2
    apply ih (by rw [hcons] at hy; exact Nat.succ.inj hy) h1
    · rw [had]; exact hw.2
    · rw [had]; exact hcode.2
    · exact hpc
    · exact hfl
    · rw [← hs]
      apply word_put_word t _ (c.next rd).address _ (s.stored (mtransReg y)).toNat rfl
      rw [align_addr, had]
      exact of_decide_eq_true hcode.1
    · have hwe : (c.next rd).writeEnable = true := by
        show (c.execute && c.ctl.writeWen) = true
        rw [h.execute, hh, h.writeWen, hL, decide_eq_true hl]; rfl
      have hbe : (c.next rd).byteEnable = 0b1111 := by
        show c.byteEnableNxt = _
        unfold Core.byteEnableNxt
        rw [h.byteSel]; rfl
      have hwd : (c.next rd).writeData = s.stored (mtransReg y) := by
        show (if c.ctl.byteSel = 0 then c.rd else _) = _
        rw [if_pos h.byteSel, hval]
      rw [hwe, hbe, hwd, write_word z _ _ _ (by rw [had]; exact hw.1), ← hmem]
      rfl
    · intro k hk
      rw [h2, decodeReg_bit, if_neg (by rw [Bool.and_eq_true, decide_eq_true_eq]; exact fun h => h.2.2 h.2.1)]
      exact hreg k hk
    · intro k hk hk15
      have hk' := (regsOf_rest y k hk).2
      refine ⟨?_, (hsr k hk' hk15).2⟩
      rw [← (hsr k hk' hk15).2]
      exact hreg k hk15

theorem multi_idle {z : Sizes} (hz : z.code ≤ 2 ^ 22) {s : State} (hp : s.pc.toNat < z.code) {x : BitVec 32}
    (hh : holds (slice x 28 4) s.flags = false) (n : Nat) {y : BitVec 32} (hy : (regsOf y).length = n) {r : BitVec 4} {c : Core} {m : Mem} (h : Multi z s x y r c)
    (hmem : s.mem = absMem m) (hwe : c.writeEnable = false) (hreg : ∀ k : BitVec 4, k ≠ 15 → c.regs k = s.reg k)
    (h15 : x.getLsbD 20 = true → (15 : BitVec 4) ∉ r :: regsOf y) (u : Nat → BitVec 32) :
    R z s.next (cycles z u (n + 2) (c, m)).1 (cycles z u (n + 2) (c, m)).2 := by
  have hregs : ∀ {y r} {c : Core} (_ : Multi z s x y r c) (rd : BitVec 32), (c.next rd).regs = c.regs := by
    intro y r c h rd
    funext k
    show (if c.execute && _ then _ else c.regs k) = _
    rw [h.execute, hh]; rfl
  induction n generalizing y r c u with
  | zero =>
    have hn : regsOf y = [] := List.length_eq_zero_iff.1 hy
    show R z _ (cycle z (u 1) (cycle z (u 0) (c, m))).1 (cycle z (u 1) (cycle z (u 0) (c, m))).2
    rw [cycle_quiet z _ c m hwe]
    apply h.last hz hp hn
    · intro hL hr
      exact h15 hL (by rw [hr]; exact List.mem_cons_self)
    · rfl
    · rfl
    · exact hmem
    · intro k hk
      rw [h.execute, hh, if_neg (fun h => absurd h.1 (by decide)), hregs h, hreg k hk]; rfl
    · intro _
      exact word_congr rfl _
  | succ n ih =>
    have hn : regsOf y ≠ [] := by intro h; rw [h] at hy; cases hy
    have hcons := regsOf_cons y hn
    rw [show n + 1 + 2 = 1 + (n + 2) by omega, cycles_add]
    show R z _ (cycles z _ (n + 2) (cycle z (u 0) (c, m))).1 (cycles z _ (n + 2) (cycle z (u 0) (c, m))).2
    rw [cycle_quiet z _ c m hwe]
    generalize m.read z c.address (u 0) = rd
    obtain ⟨h1, h2, h3⟩ := h.next hn rd
    apply ih (by rw [hcons] at hy; exact Nat.succ.inj hy) h1
    · show (c.execute && _) = false
      rw [h.execute, hh]; rfl
    · intro k hk
      rw [hregs h]; exact hreg k hk
    · intro hL h5
      apply h15 hL
      rw [hcons]
      exact List.mem_cons_of_mem _ h5

end TinyGarble.Proof.Hdl.A23
