import Verif.Proof.Hdl.A23Sym
import Verif.Proof.Hdl.A23Transfer

/-! # Symbolic execution: instructions -/

namespace TinyGarble.Proof.Hdl.A23.Sym

open TinyGarble.Spec.Arm
open TinyGarble.Spec.Mips (bits put)

def Src.known : Src → Bool
  | .c _ => true
  | .r _ => false

/-- The value of a constant. -/
def Src.konst : Src → BitVec 32
  | .c v => v
  | .r _ => 0

def Opd.known : Opd → Bool
  | .imm _ _ => true
  | .reg x _ _ => x.known
  | .regReg x _ n => x.known && n.known

def Abs.src (τ : Abs) (r : BitVec 4) : Src :=
  match τ.reg r with
  | some v => .c v
  | none => .r r

def Abs.base (τ : Abs) (r : BitVec 4) : Src := if r = 15 then .c (addr (τ.pc + 2)) else τ.src r

def Abs.opd (τ : Abs) (rn : BitVec 4) : Operand → Option Opd
  | .imm rot x => some (.imm rot x)
  | .reg rm k n => if rm = 15 ∨ (n = 0 ∧ k ≠ .lsl) then none else some (.reg (τ.src rm) k n)
  | .regReg rm k rs =>
    if rm = 15 ∨ rs = 15 ∨ rn = 15 then none
    else match τ.src rs with
      | .c v => if k = .ror ∨ v.toNat % 2 ^ 8 < 32 then some (.regReg (τ.src rm) k (.c v)) else none
      | .r _ => none

/-- Operations whose result and flags do not depend on the flags before. -/
def arith : Op → Bool
  | .sub | .rsb | .add | .cmp | .cmn => true
  | _ => false

def isImm : Operand → Bool
  | .imm _ _ => true
  | _ => false

/-- The first operand of data processing; `mov` and `mvn` have none. -/
def Abs.first (τ : Abs) (op : Op) (rn : BitVec 4) : Src := if op = .mov ∨ op = .mvn then .c 0 else τ.base rn

def Abs.dp (τ : Abs) (g : BitVec 4) (op : Op) (set : Bool) (rd rn : BitVec 4) (o : Operand) : Option (List Micro × BitVec 24) :=
  match τ.opd rn o with
  | none => none
  | some o' =>
    if set = true ∧ (op = .and ∨ op = .tst) ∧ isImm o = false then none
    else
      let f := τ.flags.getD ⟨false, false, false, false⟩
      let b := o'.eval Src.konst f.c
      let r := op.eval (τ.first op rn).konst b.1 b.2 f
      let known := (τ.first op rn).known && o'.known && (τ.flags.isSome || !Circuit.withCarry op)
      if (Instr.dp op set rd rn o).jumps then (if set = false ∧ known then some ([], bits r.1 2 24) else none)
      else if g = 14 ∧ known ∧ (τ.flags.isSome ∨ (set = false ∧ op.compare = false) ∨ arith op) then
        some ((if op.compare then [] else [.const rd r.1]) ++ (if op.compare ∨ set then [.flags (Circuit.flags op r.2)] else []), τ.pc + 1)
      else some ([.dp g op set rd (τ.first op rn) o'], τ.pc + 1)

section
variable {prog : List (BitVec 32)} {τ : Abs} {s : State} (h : Desc prog τ s)
include h

theorem src_val (r : BitVec 4) (hr : r ≠ 15) : (τ.src r).val s = s.reg r := by
  unfold Abs.src
  split
  · rename_i v hv; exact (h.reg r v hr hv).symm
  · rfl

theorem base_val (r : BitVec 4) : (τ.base r).val s = s.base r := by
  unfold Abs.base State.base
  split
  · rw [h.pc]; rfl
  · rename_i hr; exact src_val h r hr

theorem first_val (op : Op) (rn : BitVec 4) (x : BitVec 32) (c : Bool) (f : Flags) : op.eval ((τ.first op rn).val s) x c f = op.eval (s.base rn) x c f := by
  unfold Abs.first
  split
  · rename_i ho
    rcases ho with rfl | rfl <;> rfl
  · rw [base_val h]

theorem opd_eval {rn : BitVec 4} {o : Operand} {o' : Opd} (ho : τ.opd rn o = some o') :
    o.eval s rn = some (o'.eval (Src.val s) s.flags.c) ∧ o.supported s ∧
    (∀ v c c', (o'.eval v c).1 = (o'.eval v c').1) := by
  cases o with
  | imm rot x => cases ho; exact ⟨rfl, trivial, fun _ _ _ => rfl⟩
  | reg rm k n =>
    unfold Abs.opd at ho
    dsimp only at ho
    split at ho
    · cases ho
    rename_i hn
    rw [not_or] at hn
    cases ho
    refine ⟨?_, fun hn0 => ?_, fun v c c' => ?_⟩
    · show some (k.const (s.second rm) n s.flags.c) = some (k.const ((τ.src rm).val s) n s.flags.c)
      rw [State.second, if_neg hn.1, src_val h rm hn.1]
    · by_contra hk; exact hn.2 ⟨hn0, hk⟩
    · show (k.const _ n c).1 = (k.const _ n c').1
      unfold Shift.const
      split
      · rename_i hn0
        have hk : k = .lsl := by by_contra hk; exact hn.2 ⟨hn0, hk⟩
        rw [hk]
      · rfl
  | regReg rm k rs =>
    unfold Abs.opd at ho
    dsimp only at ho
    split at ho
    · cases ho
    rename_i hn
    have hrm : rm ≠ 15 := fun h => hn (Or.inl h)
    have hrs : rs ≠ 15 := fun h => hn (Or.inr (Or.inl h))
    have hv := src_val h rs hrs
    split at ho
    swap
    · cases ho
    rename_i v hsv
    rw [hsv] at hv
    have hv : v = s.reg rs := hv
    split at ho
    swap
    · cases ho
    rename_i hk
    cases ho
    refine ⟨?_, ?_, fun w c c' => ?_⟩
    · show (if rm = 15 ∨ rs = 15 ∨ rn = 15 then none else some (k.register (s.reg rm) ((s.reg rs).toNat % 2 ^ 8) s.flags.c)) =
        some (k.register ((τ.src rm).val s) (v.toNat % 2 ^ 8) s.flags.c)
      rw [if_neg hn, src_val h rm hrm, hv]
    · show k = .ror ∨ (s.reg rs).toNat % 2 ^ 8 < 32
      rw [← hv]; exact hk
    · show (k.register _ _ c).1 = (k.register _ _ c').1
      unfold Shift.register
      split
      · rfl
      · split
        · rfl
        · cases k <;> rfl

omit h in
theorem known_val {x : Src} (hx : x.known = true) : x.val s = x.konst := by
  cases x with
  | c v => rfl
  | r k => cases hx

omit h in
theorem opd_known {o' : Opd} (ho : o'.known = true) (c : Bool) : o'.eval (Src.val s) c = o'.eval Src.konst c := by
  cases o' with
  | imm => rfl
  | reg x k n =>
    show k.const (x.val s) n c = k.const x.konst n c
    rw [known_val ho]
  | regReg x k n =>
    have ho : (x.known && n.known) = true := ho
    rw [Bool.and_eq_true] at ho
    show k.register (x.val s) ((n.val s).toNat % 2 ^ 8) c = k.register x.konst (n.konst.toNat % 2 ^ 8) c
    rw [known_val ho.1, known_val ho.2]

omit h in
theorem eval_fst (op : Op) (a b : BitVec 32) (sc sc' : Bool) (f f' : Flags) (h : Circuit.withCarry op = false) :
    (op.eval a b sc f).1 = (op.eval a b sc' f').1 := by
  cases op <;> first | rfl | cases h

omit h in
theorem eval_arith (op : Op) (a b : BitVec 32) (sc sc' : Bool) (f f' : Flags) (h : arith op = true) :
    op.eval a b sc f = op.eval a b sc' f' := by
  cases op <;> first | rfl | cases h

omit h in
theorem flags_compare {op : Op} (hc : op.compare = true) (f : Flags) : Circuit.flags op f = f := by
  cases op <;> first | rfl | cases hc

/-- What holds for the micro-operations of an instruction with condition `g`. -/
def Does (l : Layout) (s : State) (g : BitVec 4) (i : Instr) (ms : List Micro) (q : BitVec 24) : Prop :=
  (holds g s.flags = true → Circuit.supported i s ∧ Circuit.exec l s i = some { applyAll s ms with pc := q }) ∧
  (holds g s.flags = false → Circuit.skipped i s ∧ Circuit.pass s i = some { applyAll s ms with pc := q }) ∧
  i.passable l s

theorem dp_does {l : Layout} {g : BitVec 4} {op : Op} {set : Bool} {rd rn : BitVec 4} {o : Operand} {ms : List Micro} {q : BitVec 24}
    (hd : τ.dp g op set rd rn o = some (ms, q)) : Does l s g (.dp op set rd rn o) ms q := by
  unfold Abs.dp at hd
  split at hd
  · cases hd
  rename_i o' ho
  obtain ⟨h1, h2, h3⟩ := opd_eval h ho
  split at hd
  · cases hd
  rename_i hand
  have hsup : Circuit.supported (.dp op set rd rn o) s := by
    refine ⟨h2, fun hs hp => ?_⟩
    cases o with
    | imm => exact hp.2.elim
    | reg => exact absurd ⟨hs.1, hp.1, rfl⟩ hand
    | regReg => exact absurd ⟨hs.1, hp.1, rfl⟩ hand
  have hbase := first_val h op rn
  dsimp only at hd
  generalize hf : τ.flags.getD ⟨false, false, false, false⟩ = f at hd
  have hfs : τ.flags.isSome = true → s.flags = f := by
    intro hs
    obtain ⟨f', hf'⟩ := Option.isSome_iff_exists.1 hs
    rw [← hf, hf', h.flags f' hf']
    rfl
  -- the value, if it is known
  have hval : ((τ.first op rn).known && o'.known && (τ.flags.isSome || !Circuit.withCarry op)) = true →
      (op.eval (s.base rn) (o'.eval (Src.val s) s.flags.c).1 (o'.eval (Src.val s) s.flags.c).2 s.flags).1 =
        (op.eval (τ.first op rn).konst (o'.eval Src.konst f.c).1 (o'.eval Src.konst f.c).2 f).1 := by
    intro hk
    rw [Bool.and_eq_true, Bool.and_eq_true] at hk
    rw [← hbase, known_val hk.1.1, opd_known hk.1.2]
    have hk2 := hk.2
    rw [Bool.or_eq_true] at hk2
    rcases hk2 with hk2 | hk2
    · rw [hfs hk2]
    · rw [h3 Src.konst s.flags.c f.c]
      exact eval_fst _ _ _ _ _ _ _ (by simpa using hk2)
  split at hd
  · -- a jump
    rename_i hj
    split at hd
    swap
    · cases hd
    rename_i hk
    cases hd
    have hv := hval hk.2
    generalize o'.eval (Src.val s) s.flags.c = b at h1 hv
    have hj' : op.compare = false ∧ rd = 15 := by
      have : (!op.compare && decide (rd = 15)) = true := hj
      rw [Bool.and_eq_true, decide_eq_true_eq] at this
      exact ⟨by simpa using this.1, this.2⟩
    refine ⟨fun _ => ⟨hsup, ?_⟩, fun _ => ⟨fun _ => h2, ?_⟩, trivial⟩
    · show (if set = true ∧ rd ≠ 15 then _ else Option.map _ (o.eval s rn)) = _
      rw [if_neg (by rw [hk.1]; simp), h1]
      show some (if op.compare = true then _ else if rd = 15 then _ else _) = _
      rw [if_neg (by rw [hj'.1]; decide), if_pos hj'.2, hk.1, if_neg (by decide), hv]
      rfl
    · show (if (Instr.dp op set rd rn o).jumps then _ else _) = _
      rw [if_pos hj, h1]
      show some (s.write 15 _) = _
      rw [hv]
      rfl
  · rename_i hj
    have hj' : ¬ (op.compare = false ∧ rd = 15) := by
      intro h
      apply hj
      show (!op.compare && decide (rd = 15)) = true
      rw [h.1, h.2]; rfl
    have hpass : Circuit.pass s (.dp op set rd rn o) = some s.next := by
      show (if (Instr.dp op set rd rn o).jumps then _ else _) = _
      rw [if_neg hj]
    have hskip : Circuit.skipped (.dp op set rd rn o) s := fun h => absurd h hj
    -- the effect
    have hex : ∀ b r, o.eval s rn = some b → op.eval (s.base rn) b.1 b.2 s.flags = r → Circuit.exec l s (.dp op set rd rn o) =
        some (if op.compare then { s.next with flags := r.2 }
          else { setReg s.next rd r.1 with flags := if set then Circuit.flags op r.2 else s.flags }) := by
      intro b r hb hr
      subst hr
      have hu : TinyGarble.Spec.Arm.exec l s (.dp op set rd rn o) = some (if op.compare then { s.next with flags := (op.eval (s.base rn) b.1 b.2 s.flags).2 }
          else if rd = 15 then { s.write 15 (op.eval (s.base rn) b.1 b.2 s.flags).1 with
            flags := if set then .ofWord (op.eval (s.base rn) b.1 b.2 s.flags).1 else s.flags }
          else { s.next.write rd (op.eval (s.base rn) b.1 b.2 s.flags).1 with
            flags := if set then (op.eval (s.base rn) b.1 b.2 s.flags).2 else s.flags }) := by
        show Option.map _ (o.eval s rn) = _
        rw [hb]; rfl
      show (if set = true ∧ rd ≠ 15 then _ else _) = _
      by_cases hc : op.compare = true
      · rw [if_pos hc] at hu
        rw [hu, if_pos hc]
        split
        · show some ({ s.next with flags := Circuit.flags op _ } : State) = _
          rw [flags_compare hc]
        · rfl
      · have hr : rd ≠ 15 := fun h => hj' ⟨by simpa using hc, h⟩
        rw [if_neg hc, if_neg hr, State.write, if_neg hr] at hu
        rw [hu, if_neg hc]
        cases set with
        | true => rw [if_pos ⟨rfl, hr⟩]; rfl
        | false => rw [if_neg (by simp)]; rfl
    split at hd
    · -- known
      rename_i hk
      cases hd
      obtain ⟨hg, hkn, hfl⟩ := hk
      refine ⟨fun _ => ⟨hsup, ?_⟩, fun hh => ?_, trivial⟩
      swap
      · rw [hg] at hh; cases hh
      rw [hex _ _ h1 rfl]
      have hv := hval hkn
      -- the flags, if they are set
      have hfv : op.compare = true ∨ set = true → op.eval (s.base rn) (o'.eval (Src.val s) s.flags.c).1 (o'.eval (Src.val s) s.flags.c).2 s.flags =
          op.eval (τ.first op rn).konst (o'.eval Src.konst f.c).1 (o'.eval Src.konst f.c).2 f := by
        intro hcs
        rw [Bool.and_eq_true, Bool.and_eq_true] at hkn
        rw [← hbase, known_val hkn.1.1, opd_known hkn.1.2]
        rcases hfl with hfl | hfl | hfl
        · rw [hfs hfl]
        · rcases hcs with hcs | hcs
          · rw [hcs] at hfl; cases hfl.2
          · rw [hcs] at hfl; cases hfl.1
        · rw [h3 Src.konst s.flags.c f.c]
          exact eval_arith _ _ _ _ _ _ _ hfl
      congr 1
      by_cases hc : op.compare = true
      · rw [if_pos hc, if_pos hc, if_pos (Or.inl hc), hfv (Or.inl hc), flags_compare hc, ← h.pc]
        rfl
      · rw [if_neg hc, if_neg hc]
        cases hs : set with
        | true =>
          rw [if_pos (Or.inr rfl), if_pos rfl, hfv (Or.inr hs), ← h.pc]
          rfl
        | false =>
          rw [if_neg (show ¬ (op.compare = true ∨ false = true) from fun h => h.elim hc (by decide)), if_neg (by decide), hv, ← h.pc]
          rfl
    · -- not known
      cases hd
      refine ⟨fun hh => ⟨hsup, ?_⟩, fun hh => ⟨hskip, ?_⟩, trivial⟩
      · rw [hex _ _ h1 rfl]
        congr 1
        show _ = { (if holds g s.flags then (if op.compare then _ else _) else s : State) with pc := τ.pc + 1 }
        rw [if_pos hh, hbase, ← h.pc]
        by_cases hc : op.compare = true
        · rw [if_pos hc, if_pos hc]; rfl
        · rw [if_neg hc, if_neg hc]; rfl
      · rw [hpass]
        congr 1
        show _ = { (if holds g s.flags then _ else s : State) with pc := τ.pc + 1 }
        rw [hh, if_neg (by decide), ← h.pc]
        rfl

omit h in
theorem addr_mod (q : BitVec 24) : (addr q).toNat % 4 = 0 := by
  rw [addr_toNat]; omega

/-- The next word is not a multiplication. -/
def Abs.single (prog : List (BitVec 32)) (τ : Abs) : Bool :=
  match τ.word prog (addr (τ.pc + 1)) with
  | some w => !isMul w
  | none => false

theorem single_sound (hs : τ.single prog = true) : isMul (s.word (addr (s.pc + 1))) = false := by
  unfold Abs.single at hs
  split at hs
  · rename_i w hw
    rw [h.pc, h.word _ w (addr_mod _) hw]
    simpa using hs
  · cases hs

def Abs.mul (prog : List (BitVec 32)) (τ : Abs) (g : BitVec 4) (set : Bool) (rd rs rm : BitVec 4) : Option (List Micro × BitVec 24) :=
  if rd = 15 ∨ rs = 15 ∨ rm = 15 ∨ τ.single prog = false then none else some ([.mul g set rd (τ.src rm) (τ.src rs)], τ.pc + 1)

theorem mul_does {l : Layout} {g : BitVec 4} {acc set : Bool} {rd rn rs rm : BitVec 4} {ms : List Micro} {q : BitVec 24}
    (hd : τ.mul prog g set rd rs rm = some (ms, q)) : Does l s g (.mul acc set rd rn rs rm) ms q := by
  unfold Abs.mul at hd
  split at hd
  · cases hd
  rename_i hn
  cases hd
  have h1 : rd ≠ 15 := fun h => hn (Or.inl h)
  have h2 : rs ≠ 15 := fun h => hn (Or.inr (Or.inl h))
  have h3 : rm ≠ 15 := fun h => hn (Or.inr (Or.inr (Or.inl h)))
  refine ⟨fun hh => ⟨trivial, ?_⟩, fun hh => ⟨rfl, ?_⟩, fun _ => single_sound h ?_⟩
  · show (if rd = 15 ∨ rs = 15 ∨ rm = 15 ∨ (false = true ∧ rn = 15) then none
      else some ({ s.next.write rd (s.reg rm * s.reg rs + 0) with
        flags := if set then .result (s.reg rm * s.reg rs + 0) s.flags.c s.flags.v else s.flags } : State)) = _
    rw [if_neg (fun h => h.elim h1 fun h => h.elim h2 fun h => h.elim h3 fun h => absurd h.1 (by decide)),
      show s.reg rm * s.reg rs + (0 : BitVec 32) = s.reg rm * s.reg rs from BitVec.add_zero _, State.write, if_neg h1]
    congr 1
    show _ = { (if holds g s.flags then { setReg s rd ((τ.src rm).val s * (τ.src rs).val s) with
      flags := if set then .result ((τ.src rm).val s * (τ.src rs).val s) s.flags.c s.flags.v else s.flags } else s : State) with pc := τ.pc + 1 }
    rw [if_pos hh, src_val h rm h3, src_val h rs h2, ← h.pc]
    rfl
  · show some s.next = some { (if holds g s.flags then _ else s : State) with pc := τ.pc + 1 }
    rw [hh, if_neg (by decide), ← h.pc]
    rfl
  · by_contra hs
    exact hn (Or.inr (Or.inr (Or.inr (by simpa using hs))))

def Abs.offset (τ : Abs) : Offset → Option (BitVec 32)
  | .imm x => some (x.zeroExtend 32)
  | .reg rm k n =>
    if rm = 15 ∨ (n = 0 ∧ k ≠ .lsl) then none
    else match τ.reg rm with
      | some v => some (k.const v n false).1
      | none => none

/-- Offsets that the circuit supports. -/
def offsetOk (o : Offset) : Prop :=
  match o with
  | .imm _ => True
  | .reg _ k n => n = 0 → k = .lsl

theorem offset_eval {o : Offset} {d : BitVec 32} (ho : τ.offset o = some d) :
    o.eval s = some d ∧ offsetOk o := by
  cases o with
  | imm x => cases ho; exact ⟨rfl, trivial⟩
  | reg rm k n =>
    unfold Abs.offset at ho
    dsimp only at ho
    split at ho
    · cases ho
    rename_i hn
    split at ho
    swap
    · cases ho
    rename_i v hv
    cases ho
    have hr : rm ≠ 15 := fun h => hn (Or.inl h)
    have hk : n = 0 → k = .lsl := fun h0 => by by_contra hk; exact hn (Or.inr ⟨h0, hk⟩)
    refine ⟨?_, hk⟩
    show (if rm = 15 then none else some (k.const (s.reg rm) n s.flags.c).1) = _
    rw [if_neg hr, h.reg rm v hr hv]
    unfold Shift.const
    split
    · rename_i h0
      rw [hk h0]
    · rfl

def Abs.transfer (prog : List (BitVec 32)) (m : Layout) (τ : Abs) (g : BitVec 4) (load byte up pre wb : Bool) (rd rn : BitVec 4) (o : Offset) :
    Option (List Micro × BitVec 24) :=
  match τ.offset o, τ.base rn with
  | some d, .c b =>
    let moved := move up b d
    let a := if pre then moved else b
    if (pre = false ∧ wb = true) ∨ ((pre = false ∨ wb = true) ∧ (rn = 15 ∨ rn = rd ∨ g ≠ 14)) ∨ (byte = false ∧ a.toNat % 4 ≠ 0) then none
    else
      let ws := if pre = false ∨ wb = true then [Micro.const rn moved] else []
      if load then
        if m.readable a = false then none
        else if rd = 15 then
          if g = 14 ∧ byte = false then
            match τ.word prog a with
            | some v => some (ws, bits v 2 24)
            | none => none
          else none
        else
          match τ.word prog a with
          | some w => some (ws ++ [if g = 14 ∧ byte = false then .const rd w else .load g byte rd a], τ.pc + 1)
          | none => some (ws ++ [.load g byte rd a], τ.pc + 1)
      else if rd = 15 ∨ m.writable a = false ∨ align a = addr (τ.pc + 1) then none
      else some (ws ++ [.store g byte a (τ.src rd)], τ.pc + 1)
  | _, _ => none

/-- Memories that are at least as large. -/
def Within (m l : Layout) : Prop := m.code ≤ l.code ∧ m.g ≤ l.g ∧ m.e ≤ l.e ∧ m.out ≤ l.out ∧ m.stack ≤ l.stack

omit h in
theorem readable_mono {m l : Layout} (hl : Within m l) {a : BitVec 32} (hr : m.readable a = true) : l.readable a = true := by
  obtain ⟨h1, h2, h3, h4, h5⟩ := hl
  unfold Layout.readable at *
  dsimp only at *
  generalize a.toNat / 2 ^ 24 = k at *
  rcases k with _ | _ | _ | _ | _ | k
  all_goals first | (have hr := of_decide_eq_true hr; refine decide_eq_true ?_; omega) | exact Bool.noConfusion hr

omit h in
theorem writable_mono {m l : Layout} (hl : Within m l) {a : BitVec 32} (hr : m.writable a = true) : l.writable a = true := by
  unfold Layout.writable at *
  rw [Bool.and_eq_true, Bool.and_eq_true] at *
  exact ⟨⟨readable_mono hl hr.1.1, hr.1.2⟩, hr.2⟩

omit h in
theorem rotateRight_zero (x : BitVec 32) : x.rotateRight (8 * 0) = x := by
  have : x.rotateRight 0 = x := by
    apply BitVec.eq_of_getLsbD_eq
    intro i hi
    rw [BitVec.getLsbD_rotateRight]
    simp [hi]
  exact this

theorem transfer_does {m l : Layout} (hl : Within m l) {g : BitVec 4} {load byte up pre wb : Bool} {rd rn : BitVec 4} {o : Offset} {ms : List Micro}
    {q : BitVec 24} (hd : τ.transfer prog m g load byte up pre wb rd rn o = some (ms, q)) :
    Does l s g (.transfer load byte up pre wb rd rn o) ms q := by
  unfold Abs.transfer at hd
  split at hd
  swap
  · cases hd
  rename_i d b ho hb
  obtain ⟨h1, h2⟩ := offset_eval h ho
  have hbase : s.base rn = b := by rw [← base_val h rn, hb]; rfl
  dsimp only at hd
  obtain ⟨a, ha⟩ : ∃ a, a = if pre = true then move up b d else b := ⟨_, rfl⟩
  rw [← ha] at hd
  split at hd
  · cases hd
  rename_i hcond
  rw [not_or, not_or] at hcond
  obtain ⟨hc1, hc2, hc3⟩ := hcond
  -- writing back the base
  obtain ⟨back, hback⟩ : ∃ p : Prop, p = (pre = false ∨ wb = true) := ⟨_, rfl⟩
  have hne : ¬ ((pre = false ∧ wb = true) ∨ ((pre = false ∨ wb = true) ∧ (rn = 15 ∨ rn = rd))) := by
    rintro (h | ⟨h, h'⟩)
    · exact hc1 h
    · exact hc2 ⟨h, h'.elim Or.inl fun h => Or.inr (Or.inl h)⟩
  obtain ⟨ws, hws⟩ : ∃ ws, ws = if pre = false ∨ wb = true then [Micro.const rn (move up b d)] else [] := ⟨_, rfl⟩
  rw [← hws] at hd
  obtain ⟨s1, hs1⟩ : ∃ s1, s1 = applyAll s ws := ⟨_, rfl⟩
  have hs' : (if pre = false ∨ wb = true then s.next.write rn (move up b d) else s.next) = { s1 with pc := s.pc + 1 } := by
    rw [hs1, hws]
    split
    · rename_i hb1
      rw [State.write, if_neg (fun h => hc2 ⟨hb1, Or.inl h⟩)]
      rfl
    · rfl
  have hflags : s1.flags = s.flags := by rw [hs1, hws]; split <;> rfl
  have hmem : s1.mem = s.mem := by rw [hs1, hws]; split <;> rfl
  have hreg : s1.reg rd = s.reg rd := by
    rw [hs1, hws]
    split
    · rename_i hb1
      show (if rd = rn then _ else s.reg rd) = _
      rw [if_neg (fun h => hc2 ⟨hb1, Or.inr (Or.inl h.symm)⟩)]
    · rfl
  have hno : holds g s.flags = false → s1 = s := by
    intro hh
    rw [hs1, hws, if_neg]
    · rfl
    · intro hb1
      refine hc2 ⟨hb1, Or.inr (Or.inr ?_)⟩
      rintro rfl
      cases hh
  have hall : ∀ x, applyAll s (ws ++ [x]) = x.apply s1 := by
    intro x
    rw [hs1]
    exact List.foldl_append ..
  have hex : TinyGarble.Spec.Arm.exec l s (.transfer load byte up pre wb rd rn o) =
      if load then
        if l.readable a then
          some (({ s1 with pc := s.pc + 1 } : State).write rd (if byte then (s.mem a).zeroExtend 32 else (s.word a).rotateRight (8 * (a.toNat % 4))))
        else none
      else
        if l.writable a then
          some (if byte then { ({ s1 with pc := s.pc + 1 } : State) with mem := put s.mem a (s.stored rd).toNat 1 }
            else ({ s1 with pc := s.pc + 1 } : State).putWord a (s.stored rd))
        else none := by
    show (o.eval s).bind _ = _
    rw [h1]
    show (if _ then none else _) = _
    rw [if_neg hne, hbase, ← ha, hs']
  have hsupp : load = false → align a ≠ addr (τ.pc + 1) →
      Circuit.supported (.transfer load byte up pre wb rd rn o) s := by
    intro _ hal
    refine ⟨h2, fun _ d' hd' => ?_⟩
    rw [h1] at hd'
    cases hd'
    rw [hbase, ← ha, h.pc]
    exact hal
  have hsupl : load = true → Circuit.supported (.transfer load byte up pre wb rd rn o) s := by
    intro hld
    refine ⟨h2, fun hl' => ?_⟩
    rw [hld] at hl'; cases hl'
  by_cases hload : load = true
  · rw [if_pos hload] at hd
    split at hd
    · cases hd
    rename_i hrd
    have hrd : l.readable a = true := readable_mono hl (by simpa using hrd)
    rw [if_pos hload, if_pos hrd] at hex
    by_cases h15 : rd = 15
    · rw [if_pos h15] at hd
      split at hd
      swap
      · cases hd
      rename_i hg
      split at hd
      swap
      · cases hd
      rename_i v hv
      cases hd
      have hmod : a.toNat % 4 = 0 := by by_contra hm; exact hc3 ⟨hg.2, hm⟩
      refine ⟨fun _ => ⟨hsupl hload, ?_⟩, fun hh => ?_, trivial⟩
      · show TinyGarble.Spec.Arm.exec l s (.transfer load byte up pre wb rd rn o) = _
        rw [hex, hg.2, if_neg (by decide), hmod, rotateRight_zero, h.word a v hmod hv, h15, State.write, if_pos rfl, ← hs1]
      · rw [hg.1] at hh; cases hh
    · rw [if_neg h15] at hd
      have hjump : (Instr.transfer load byte up pre wb rd rn o).jumps = false := by
        show (load && decide (rd = 15)) = false
        rw [decide_eq_false h15, Bool.and_false]
      have hval : (if byte = true then (s.mem a).zeroExtend 32 else (s.word a).rotateRight (8 * (a.toNat % 4))) =
          if byte = true then (s.mem a).zeroExtend 32 else s.word a := by
        cases hbyte : byte with
        | true => rfl
        | false =>
          have hmod : a.toNat % 4 = 0 := by by_contra hm; exact hc3 ⟨hbyte, hm⟩
          rw [hmod, rotateRight_zero]
      rw [hval, State.write, if_neg h15] at hex
      have hwd : s1.word a = s.word a := word_congr hmem a
      have hload' : Does l s g (.transfer load byte up pre wb rd rn o) (ws ++ [.load g byte rd a]) (τ.pc + 1) := by
        refine ⟨fun hh => ⟨hsupl hload, ?_⟩, fun hh => ⟨hjump, ?_⟩, trivial⟩
        · show TinyGarble.Spec.Arm.exec l s (.transfer load byte up pre wb rd rn o) = _
          rw [hex, hall]
          congr 1
          show _ = { (if holds g s1.flags then setReg s1 rd (if byte then (s1.mem a).zeroExtend 32 else s1.word a) else s1 : State) with pc := τ.pc + 1 }
          rw [hflags, if_pos hh, hmem, hwd, ← h.pc]
          unfold setReg
          dsimp only
          rw [hflags, hmem]
        · show some s.next = _
          rw [hall]
          congr 1
          show _ = { (if holds g s1.flags then _ else s1 : State) with pc := τ.pc + 1 }
          rw [hflags, hh, if_neg (by decide), hno hh, ← h.pc]
          rfl
      split at hd
      · rename_i w hw
        cases hd
        split
        · rename_i hg
          have hmod : a.toNat % 4 = 0 := by by_contra hm; exact hc3 ⟨hg.2, hm⟩
          refine ⟨fun _ => ⟨hsupl hload, ?_⟩, fun hh => ?_, trivial⟩
          · show TinyGarble.Spec.Arm.exec l s (.transfer load byte up pre wb rd rn o) = _
            rw [hex, hall, hg.2, if_neg (by decide), h.word a w hmod hw, ← h.pc]
            rfl
          · rw [hg.1] at hh; cases hh
        · exact hload'
      · cases hd
        exact hload'
  · rw [if_neg hload] at hd
    split at hd
    · cases hd
    rename_i hn
    have h15 : rd ≠ 15 := fun h => hn (Or.inl h)
    have hw : l.writable a = true := writable_mono hl (by by_contra hw; exact hn (Or.inr (Or.inl (by simpa using hw))))
    cases hd
    rw [if_neg hload, if_pos hw] at hex
    have hjump : (Instr.transfer load byte up pre wb rd rn o).jumps = false := by
      show (load && decide (rd = 15)) = false
      rw [decide_eq_false h15, Bool.and_false]
    refine ⟨fun hh => ⟨hsupp (by simpa using hload) (fun h => hn (Or.inr (Or.inr h))), ?_⟩, fun hh => ⟨hjump, ?_⟩, trivial⟩
    · show TinyGarble.Spec.Arm.exec l s (.transfer load byte up pre wb rd rn o) = _
      rw [hex, hall]
      congr 1
      show _ = { (if holds g s1.flags then (if byte then { s1 with mem := put s1.mem a ((τ.src rd).val s1).toNat 1 } else s1.putWord a ((τ.src rd).val s1)) else s1 : State)
        with pc := τ.pc + 1 }
      have hsv : (τ.src rd).val s1 = s.stored rd := by
        rw [State.stored, if_neg h15, ← src_val h rd h15]
        cases hsr : τ.src rd with
        | c v => rfl
        | r k =>
          have : k = rd := by
            unfold Abs.src at hsr
            split at hsr
            · cases hsr
            · cases hsr; rfl
          rw [this]; exact hreg
      rw [hflags, if_pos hh, hsv, hmem, ← h.pc]
      split
      · rfl
      · unfold State.putWord
        dsimp only
        rw [hflags, hmem]
    · show some s.next = _
      rw [hall]
      congr 1
      show _ = { (if holds g s1.flags then _ else s1 : State) with pc := τ.pc + 1 }
      rw [hflags, hh, if_neg (by decide), hno hh, ← h.pc]
      rfl

end

end TinyGarble.Proof.Hdl.A23.Sym
