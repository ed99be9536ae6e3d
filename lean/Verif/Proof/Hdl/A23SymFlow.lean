import Verif.Proof.Hdl.A23SymTrack
import Verif.Proof.Hdl.A23SymLeads

/-!
# Symbolic execution: expressions

`Flow.run` gives the registers and the memory after micro-operations as expressions in the registers and the memory before them. With `Leads.of_shows`
a part of a program is executed and its effect read off in one step.
-/

namespace TinyGarble.Proof.Hdl.A23.Sym

open TinyGarble.Spec.Arm
open TinyGarble.Spec.Mips (put)

namespace Flow

/-- Expressions: constants, registers, bytes and words of the memory; the lowest byte, shifts and operations. -/
inductive E
  | c (v : BitVec 32)
  | r (k : BitVec 4)
  | b (a : BitVec 32)
  | w (a : BitVec 32)
  | lo (x : E)
  | sh (k : Shift) (n : BitVec 5) (x : E)
  | op (o : Op) (x y : E)
  | mul (x y : E)
  deriving DecidableEq

def E.val (s : State) : E → BitVec 32
  | .c v => v
  | .r k => s.reg k
  | .b a => (s.mem a).zeroExtend 32
  | .w a => s.word a
  | .lo x => (BitVec.ofNat 8 (x.val s).toNat).zeroExtend 32
  | .sh k n x => (k.const (x.val s) n false).1
  | .op o x y => (o.eval (x.val s) (y.val s) false ⟨false, false, false, false⟩).1
  | .mul x y => x.val s * y.val s

/-- The lowest byte. -/
def E.byte : E → E
  | .b a => .b a
  | x => .lo x

/-- The registers, and the bytes and words that were stored. -/
structure T where
  regs : List E
  bytes : List (BitVec 32 × E)
  words : List (BitVec 32 × E)
  deriving DecidableEq

def look (a : BitVec 32) : List (BitVec 32 × E) → Option E
  | [] => none
  | (b, t) :: l => if b = a then some t else look a l

def T.reg (t : T) (k : BitVec 4) : E := (t.regs[k.toNat]?).getD (.r k)

def T.set (t : T) (k : BitVec 4) (x : E) : T := { t with regs := t.regs.set k.toNat x }

def T.src (t : T) : Src → E
  | .c v => .c v
  | .r k => t.reg k

def T.opd (t : T) : Opd → Option E
  | .imm rot x => some (.c ((x.zeroExtend 32).rotateRight (2 * rot.toNat)))
  | .reg x k n => if k = .lsl ∧ n = 0 then some (t.src x) else if k = .ror then none else some (.sh k n (t.src x))
  | .regReg .. => none

/-- No byte of the word was stored. -/
def T.free (t : T) (a : BitVec 32) : Bool := t.bytes.all fun x => align x.1 ≠ a

def T.step (t : T) : Micro → Option T
  | .const rd v => some (t.set rd (.c v))
  | .flags _ => some t
  | .dp g op set rd a o =>
    if g = 14 ∧ set = false ∧ op.compare = false ∧ Circuit.withCarry op = false then
      match t.opd o with
      | some y => some (t.set rd (.op op (t.src a) y))
      | none => none
    else none
  | .mul g set rd a b => if g = 14 ∧ set = false then some (t.set rd (.mul (t.src a) (t.src b))) else none
  | .load g byte rd a =>
    if g = 14 then
      if byte then
        if look (align a) t.words = none then
          some (t.set rd (match look a t.bytes with
            | some x => x.byte
            | none => .b a))
        else none
      else if a.toNat % 4 = 0 then
        match look a t.words with
        | some x => some (t.set rd x)
        | none => if t.free a then some (t.set rd (.w a)) else none
      else none
    else none
  | .store g byte a x =>
    if g = 14 then
      if byte then
        if look (align a) t.words = none then some { t with bytes := (a, t.src x) :: t.bytes } else none
      else if a.toNat % 4 = 0 ∧ t.free a = true then some { t with words := (a, t.src x) :: t.words }
      else none
    else none

def T.run (t : T) : List Micro → Option T
  | [] => some t
  | m :: ms => match t.step m with
    | some t' => t'.run ms
    | none => none

/-- The byte at an address, if no word was stored there. -/
def T.byteAt (t : T) (b : BitVec 32) : E :=
  match look b t.bytes with
  | some x => x.byte
  | none => .b b

structure Agree (s0 : State) (t : T) (s : State) : Prop where
  len : t.regs.length = 16
  reg : ∀ k, s.reg k = (t.reg k).val s0
  byte : ∀ b, look (align b) t.words = none → s.mem b = match look b t.bytes with
    | some x => BitVec.ofNat 8 (x.val s0).toNat
    | none => s0.mem b
  word : ∀ a x, look a t.words = some x → s.word a = x.val s0
  aligned : ∀ x ∈ t.words, x.1.toNat % 4 = 0
  sep : ∀ x ∈ t.bytes, look (align x.1) t.words = none

theorem look_mem {a : BitVec 32} {l : List (BitVec 32 × E)} {x : E} (h : look a l = some x) : (a, x) ∈ l := by
  induction l with
  | nil => cases h
  | cons y l ih =>
    obtain ⟨b, t⟩ := y
    unfold look at h
    split at h
    · rename_i hb
      cases h
      rw [hb]
      exact List.mem_cons_self ..
    · exact List.mem_cons_of_mem _ (ih h)

theorem look_all {a : BitVec 32} {l : List (BitVec 32 × E)} (h : ∀ x ∈ l, x.1 ≠ a) : look a l = none := by
  cases hl : look a l with
  | none => rfl
  | some x => exact absurd rfl (h _ (look_mem hl))

theorem byte_val (s : State) (x : E) : (x.byte).val s = (BitVec.ofNat 8 (x.val s).toNat).zeroExtend 32 := by
  cases x with
  | b a =>
    show BitVec.zeroExtend 32 (s.mem a) = (BitVec.ofNat 8 (BitVec.zeroExtend 32 (s.mem a)).toNat).zeroExtend 32
    have := (s.mem a).isLt
    congr 1
    apply BitVec.eq_of_toNat_eq
    rw [BitVec.toNat_ofNat, BitVec.zeroExtend_eq_setWidth, BitVec.toNat_setWidth]
    omega
  | _ => rfl

theorem align_align (a : BitVec 32) : align (align a) = align a := by
  apply align_of_mod
  rw [align_toNat]
  omega

theorem word_of_parts {s s' : State} {a : BitVec 32} (h : ∀ b, align b = align a → s'.mem b = s.mem b) : s'.word a = s.word a := by
  have key : ∀ i : Nat, i < 4 → align (align a + BitVec.ofNat 32 i) = align a := by
    intro i hi
    apply BitVec.eq_of_toNat_eq
    have hal := align_toNat a
    have hlt := a.isLt
    rw [align_toNat, BitVec.toNat_add, BitVec.toNat_ofNat]
    omega
  have h0 := h _ (key 0 (by omega))
  have h1 := h _ (key 1 (by omega))
  have h2 := h _ (key 2 (by omega))
  have h3 := h _ (key 3 (by omega))
  generalize hc : align a = c at *
  have e0 : c + BitVec.ofNat 32 0 = c := BitVec.add_zero c
  have e1 : c + BitVec.ofNat 32 1 = c + 1 := rfl
  have e2 : c + BitVec.ofNat 32 2 = c + 1 + 1 := by rw [BitVec.add_assoc]; rfl
  have e3 : c + BitVec.ofNat 32 3 = c + 1 + 1 + 1 := by rw [BitVec.add_assoc, BitVec.add_assoc]; rfl
  rw [e0] at h0
  rw [e1] at h1
  rw [e2] at h2
  rw [e3] at h3
  unfold State.word
  rw [hc]
  simp only [Spec.Mips.fetch, h0, h1, h2, h3]

section
variable {s0 s : State} {t : T} (h : Agree s0 t s)
include h

theorem Agree.src (x : Src) : x.val s = (t.src x).val s0 := by
  cases x with
  | c v => rfl
  | r k => exact h.reg k

theorem Agree.opd {o : Opd} {y : E} (ho : t.opd o = some y) (c : Bool) : (o.eval (Src.val s) c).1 = y.val s0 := by
  cases o with
  | imm rot x => cases ho; rfl
  | reg x k n =>
    unfold T.opd at ho
    dsimp only at ho
    show (k.const (x.val s) n c).1 = _
    rw [h.src]
    split at ho
    · rename_i hk
      cases ho
      rw [hk.1, hk.2]
      rfl
    · split at ho
      · cases ho
      · rename_i hk
        cases ho
        show _ = (k.const _ n false).1
        unfold Shift.const
        by_cases hn : n = 0
        · rw [if_pos hn, if_pos hn]
          cases k <;> first | rfl | exact absurd rfl hk
        · rw [if_neg hn, if_neg hn]
  | regReg x k n => cases ho

theorem Agree.set (k : BitVec 4) {x : E} {v : BitVec 32} {s' : State} (hv : v = x.val s0) (hr : ∀ j, s'.reg j = if j = k then v else s.reg j)
    (hm : s'.mem = s.mem) : Agree s0 (t.set k x) s' := by
  refine ⟨by unfold T.set; rw [List.length_set]; exact h.len, fun j => ?_, fun b hb => by rw [hm]; exact h.byte b hb, fun a y ha => by rw [word_congr hm]; exact h.word a y ha, h.aligned, h.sep⟩
  rw [hr]
  unfold T.reg T.set
  dsimp only
  rw [List.getElem?_set]
  by_cases hj : j = k
  · rw [if_pos hj, if_pos (by rw [hj]), if_pos (by rw [h.len]; exact k.isLt), hv]
    rfl
  · rw [if_neg hj, if_neg fun h => hj (BitVec.eq_of_toNat_eq h.symm)]
    exact h.reg j

theorem Agree.free {a : BitVec 32} (ha : a.toNat % 4 = 0) (hw : look a t.words = none) (hf : t.free a = true) : s.word a = s0.word a := by
  apply word_of_parts
  intro b hb
  rw [align_of_mod ha] at hb
  rw [h.byte b (by rw [hb]; exact hw), look_all]
  intro x hx he
  have := List.all_eq_true.1 hf x hx
  rw [he, hb] at this
  exact of_decide_eq_true this rfl

theorem Agree.step {m : Micro} {t' : T} (hs : t.step m = some t') : Agree s0 t' (m.apply s) := by
  cases m with
  | const rd v =>
    cases hs
    exact h.set rd (v := v) rfl (fun _ => rfl) rfl
  | flags f => cases hs; exact ⟨h.len, h.reg, h.byte, h.word, h.aligned, h.sep⟩
  | mul g set rd a b =>
    unfold T.step at hs
    dsimp only at hs
    split at hs
    swap
    · cases hs
    rename_i hc
    obtain ⟨rfl, rfl⟩ := hc
    cases hs
    refine h.set rd (v := a.val s * b.val s) ?_ (fun _ => rfl) rfl
    rw [h.src, h.src]
    rfl
  | dp g op set rd a o =>
    unfold T.step at hs
    dsimp only at hs
    split at hs
    swap
    · cases hs
    rename_i hc
    obtain ⟨rfl, rfl, hcmp, hcar⟩ := hc
    split at hs
    swap
    · cases hs
    rename_i y hy
    cases hs
    have e : (Micro.dp 14 op false rd a o).apply s = setReg s rd (dpResult s op a o).1 := by
      rw [dp_apply, if_pos (holds_always _), if_neg (by rw [hcmp]; decide), if_neg (by decide)]
      rfl
    rw [e]
    refine h.set rd (v := (dpResult s op a o).1) ?_ (fun _ => rfl) rfl
    rw [dpResult, h.opd hy, h.src]
    exact eval_fst op _ _ _ _ _ _ hcar
  | load g byte rd a =>
    unfold T.step at hs
    dsimp only at hs
    split at hs
    swap
    · cases hs
    rename_i hc
    subst hc
    split at hs
    · rename_i hb
      subst hb
      split at hs
      swap
      · cases hs
      rename_i hw
      cases hs
      refine h.set rd (v := (s.mem a).zeroExtend 32) ?_ (fun _ => rfl) rfl
      rw [h.byte a hw]
      split
      · rename_i x hx
        exact (byte_val s0 x).symm
      · rfl
    · rename_i hb
      have hb : byte = false := by cases byte with | false => rfl | true => exact absurd rfl hb
      subst hb
      split at hs
      swap
      · cases hs
      rename_i ha
      split at hs
      · rename_i x hx
        cases hs
        exact h.set rd (v := s.word a) (h.word a x hx) (fun _ => rfl) rfl
      · rename_i hx
        split at hs
        swap
        · cases hs
        rename_i hf
        cases hs
        exact h.set rd (v := s.word a) (h.free ha hx hf) (fun _ => rfl) rfl
  | store g byte a x =>
    unfold T.step at hs
    dsimp only at hs
    split at hs
    swap
    · cases hs
    rename_i hc
    subst hc
    split at hs
    · rename_i hb
      subst hb
      split at hs
      swap
      · cases hs
      rename_i hw
      cases hs
      refine ⟨h.len, fun k => by rw [store_reg]; exact h.reg k, fun b hb => ?_, fun b y hb => ?_, h.aligned, fun y hy => ?_⟩
      · rw [store_mem]
        show _ = match look b ((a, t.src x) :: t.bytes) with
          | some x => _
          | none => _
        rw [look]
        by_cases hba : b = a
        · rw [if_pos ⟨hba, rfl⟩, if_pos hba.symm, h.src]
        · rw [if_neg fun h => hba h.1, if_neg (Ne.symm hba)]
          exact h.byte b hb
      · have e : (Micro.store 14 true a x).apply s = { s with mem := put s.mem a (x.val s).toNat 1 } := rfl
        have hb' : look b t.words = some y := hb
        have hal : b.toNat % 4 = 0 := h.aligned _ (look_mem hb')
        rw [e, word_put_byte s _ a b _ rfl (align_eq hal fun he => by rw [← he, hb'] at hw; cases hw)]
        exact h.word b y hb'
      · rcases List.mem_cons.1 hy with rfl | hy
        · exact hw
        · exact h.sep y hy
    · rename_i hb
      have hb : byte = false := by cases byte with | false => rfl | true => exact absurd rfl hb
      subst hb
      split at hs
      swap
      · cases hs
      rename_i ha
      obtain ⟨ha, hf⟩ := ha
      cases hs
      have e : (Micro.store 14 false a x).apply s = s.putWord a (x.val s) := rfl
      have hfree : ∀ y ∈ t.bytes, align y.1 ≠ a := fun y hy => of_decide_eq_true (List.all_eq_true.1 hf y hy)
      refine ⟨h.len, fun k => by rw [store_reg]; exact h.reg k, fun b hb => ?_, fun b y hb => ?_, fun y hy => ?_, fun y hy => ?_⟩
      · have hb : look (align b) ((a, t.src x) :: t.words) = none := hb
        rw [look] at hb
        split at hb
        · cases hb
        · rename_i hab
          rw [store_byte s a b x (by rw [align_of_mod ha]; exact Ne.symm hab)]
          exact h.byte b hb
      · have hb : look b ((a, t.src x) :: t.words) = some y := hb
        rw [look] at hb
        rw [e]
        split at hb
        · rename_i hab
          cases hb
          rw [← hab, word_putWord_same]
          exact h.src x
        · rename_i hab
          have hal : b.toNat % 4 = 0 := h.aligned _ (look_mem hb)
          rw [word_putWord, if_neg (by rw [align_of_mod ha, align_of_mod hal]; exact hab)]
          exact h.word b y hb
      · rcases List.mem_cons.1 hy with rfl | hy
        · exact ha
        · exact h.aligned y hy
      · show look (align y.1) ((a, t.src x) :: t.words) = none
        rw [look, if_neg (Ne.symm (hfree y hy))]
        exact h.sep y hy

end

theorem Agree.run {s0 s : State} {t t' : T} (h : Agree s0 t s) {ms : List Micro} (hr : t.run ms = some t') : Agree s0 t' (applyAll s ms) := by
  induction ms generalizing t s with
  | nil => cases hr; exact h
  | cons m ms ih =>
    unfold T.run at hr
    split at hr
    · rename_i t1 h1
      exact ih (h.step h1) hr
    · cases hr

/-- At the start. -/
def start : T := ⟨(List.range 16).map fun k => .r (BitVec.ofNat 4 k), [], []⟩

theorem agree_start (s : State) : Agree s start s := by
  refine ⟨rfl, fun k => ?_, fun b _ => rfl, fun a x hx => (by cases hx), fun x hx => absurd hx (List.not_mem_nil), fun x hx => absurd hx (List.not_mem_nil)⟩
  unfold T.reg start
  rw [List.getElem?_map, List.getElem?_range k.isLt]
  show s.reg k = s.reg (BitVec.ofNat 4 k.toNat)
  rw [BitVec.ofNat_toNat, BitVec.setWidth_eq]

/-- Where bytes and words were stored. -/
def T.within (t : T) (rb rw : List (Nat × Nat)) : Bool :=
  t.bytes.all (fun x => rb.any fun r => r.1 ≤ x.1.toNat && x.1.toNat < r.2) && t.words.all (fun x => rw.any fun r => r.1 ≤ x.1.toNat && x.1.toNat < r.2)

/-- The byte at an address is given by an expression. -/
def T.byteIs (t : T) (n : Nat) (x : E) : Bool := look (align (BitVec.ofNat 32 n)) t.words == none && t.byteAt (BitVec.ofNat 32 n) == x

theorem Agree.outside {s0 s : State} {t : T} (h : Agree s0 t s) {rb rw : List (Nat × Nat)} (hw : t.within rb rw = true) {n : Nat} (hn : n < 2 ^ 32)
    (h1 : ∀ r ∈ rb, n < r.1 ∨ r.2 ≤ n) (h2 : ∀ r ∈ rw, 4 * (n / 4) < r.1 ∨ r.2 ≤ 4 * (n / 4)) : s.mem (BitVec.ofNat 32 n) = s0.mem (BitVec.ofNat 32 n) := by
  have e : (BitVec.ofNat 32 n).toNat = n := by rw [BitVec.toNat_ofNat]; omega
  have ea : (align (BitVec.ofNat 32 n)).toNat = 4 * (n / 4) := by rw [align_toNat, e]; omega
  rw [T.within, Bool.and_eq_true] at hw
  rw [h.byte _ (look_all fun x hx he => ?_), look_all fun x hx he => ?_]
  · obtain ⟨r, hr, h⟩ := List.any_eq_true.1 (List.all_eq_true.1 hw.1 x hx)
    rw [he, e, Bool.and_eq_true] at h
    have := of_decide_eq_true h.1
    have := of_decide_eq_true h.2
    have := h1 r hr
    omega
  · obtain ⟨r, hr, h⟩ := List.any_eq_true.1 (List.all_eq_true.1 hw.2 x hx)
    rw [he, ea, Bool.and_eq_true] at h
    have := of_decide_eq_true h.1
    have := of_decide_eq_true h.2
    have := h2 r hr
    omega

theorem Agree.at {s0 s : State} {t : T} (h : Agree s0 t s) {n : Nat} {x : E} (hb : t.byteIs n x = true) :
    s.mem (BitVec.ofNat 32 n) = BitVec.ofNat 8 (x.val s0).toNat := by
  rw [T.byteIs, Bool.and_eq_true, beq_iff_eq, beq_iff_eq] at hb
  rw [h.byte _ hb.1, ← hb.2]
  unfold T.byteAt
  have small : ∀ x : BitVec 8, BitVec.ofNat 8 (x.zeroExtend 32).toNat = x := by
    intro x
    have := x.isLt
    apply BitVec.eq_of_toNat_eq
    rw [BitVec.toNat_ofNat, BitVec.zeroExtend_eq_setWidth, BitVec.toNat_setWidth]
    omega
  cases look (BitVec.ofNat 32 n) t.bytes with
  | none => exact (small _).symm
  | some x =>
    show _ = BitVec.ofNat 8 (x.byte.val s0).toNat
    rw [byte_val, small]

end Flow

/-- Executing `n` instructions from `τ` takes `k` cycles and leads to `τ'`; the effect is as `F` says. -/
def shows (prog : List (BitVec 32)) (m : Layout) (τ : Abs) (n k : Nat) (τ' : Abs) (F : Flow.T → Bool) : Bool :=
  match τ.run prog m n with
  | some (τ1, ms, k1) => k1 == k && weaker prog τ' τ1 && (match Flow.start.run ms with
    | some t => F t
    | none => false)
  | none => false

/-- The state after the instructions, by expressions in the state before them. -/
theorem Leads.of_shows {prog : List (BitVec 32)} {m : Layout} {τ τ' : Abs} {n k : Nat} {F : Flow.T → Bool} {P Q : State → Prop}
    (h : shows prog m τ n k τ' F = true) (hq : ∀ s s' t, Desc prog τ s → Flow.Agree s t s' → F t = true → P s → Q s') : Leads prog m τ P k τ' Q := by
  unfold shows at h
  cases hr : τ.run prog m n with
  | none => rw [hr] at h; cases h
  | some x =>
    obtain ⟨τ1, ms, k1⟩ := x
    rw [hr] at h
    dsimp only at h
    rw [Bool.and_eq_true, Bool.and_eq_true, beq_iff_eq] at h
    obtain ⟨⟨hk, hw⟩, hF⟩ := h
    subst hk
    cases ht : Flow.start.run ms with
    | none => rw [ht] at hF; cases hF
    | some t =>
      rw [ht] at hF
      have hR : Runs prog m τ ms k1 τ' := .of_check (n := n) (by
        unfold check
        rw [hr]
        dsimp only
        rw [hw, beq_self_eq_true, beq_self_eq_true]
        rfl)
      intro l s hl hD hP
      obtain ⟨h1, h2⟩ := hR l s hl hD
      have ha := (Flow.agree_start s).run ht
      exact ⟨_, h1, h2, hq s _ t hD ⟨ha.len, ha.reg, ha.byte, ha.word, ha.aligned, ha.sep⟩ hF hP⟩

theorem Leads.sum {prog : List (BitVec 32)} {m : Layout} (τ : Nat → Abs) (P : Nat → State → Prop) (k : Nat → Nat) (n : Nat)
    (h : ∀ i < n, Leads prog m (τ i) (P i) (k i) (τ (i + 1)) (P (i + 1))) : Leads prog m (τ 0) (P 0) ((List.range n).map k).sum (τ n) (P n) := by
  induction n with
  | zero => exact fun l s hl hD hP => ⟨s, .refl _, hD, hP⟩
  | succ n ih =>
    rw [List.range_succ, List.map_append, List.sum_append, List.map_singleton, List.sum_singleton]
    exact (ih fun i hi => h i (by omega)).trans (h n (Nat.lt_succ_self n))

end TinyGarble.Proof.Hdl.A23.Sym
