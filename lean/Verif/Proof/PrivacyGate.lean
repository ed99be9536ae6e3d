import Verif.Proof.Gate
import Verif.Spec.Privacy

/-! One garbled table does not depend on the values of the gate's inputs. -/

namespace TinyGarble
open Spec

/-- Algebraic core: rows when labels are swapped and the cipher is corrected at the hidden points. -/
theorem halfGates_rows (R A0 B0 h0 h1 k0 k1 h0' h1' k0' k1' : Block) (x y x' y' q : Bool)
    (e0 : (if x' then h1' else h0') = (if x then h1 else h0))
    (e1 : (if x' then h0' else h1') = (if x then h0 else h1) ^^^ scale (y ^^ y') R)
    (e2 : (if y' then k1' else k0') = (if y then k1 else k0))
    (e3 : (if y' then k0' else k1') = (if y then k0 else k1) ^^^ scale (x ^^ x') R) :
    (h0' ^^^ h1') ^^^ scale (q ^^ (y ^^ y')) R = (h0 ^^^ h1) ^^^ scale q R
    ∧ (k0' ^^^ k1') ^^^ (A0 ^^^ scale (x ^^ x') R) = (k0 ^^^ k1) ^^^ A0 := by
  have s0 : h0' ^^^ h1' = (h0 ^^^ h1) ^^^ scale (y ^^ y') R := by
    cases x <;> cases x' <;> simp only [Bool.false_eq_true, if_true, if_false] at e0 e1 <;> rw [e0, e1] <;>
      generalize scale (y ^^ y') R = z <;> bxor
  have s1 : k0' ^^^ k1' = (k0 ^^^ k1) ^^^ scale (x ^^ x') R := by
    cases y <;> cases y' <;> simp only [Bool.false_eq_true, if_true, if_false] at e2 e3 <;> rw [e2, e3] <;>
      generalize scale (x ^^ x') R = z <;> bxor
  rw [s0, s1, scale_xor q]
  generalize scale (x ^^ x') R = z
  generalize scale (y ^^ y') R = z'
  generalize scale q R = z''
  constructor <;> bxor

theorem sel_active {m m' : Block → Block} (R a0 : Block) (x x' v : Bool)
    (h : m' (a0 ^^^ scale x R) = m (a0 ^^^ scale x R)) :
    (if (x' ^^ v) then m' ((a0 ^^^ scale (x ^^ x') R) ^^^ scale (!v) R)
      else m' ((a0 ^^^ scale (x ^^ x') R) ^^^ scale v R))
    = (if (x ^^ v) then m (a0 ^^^ scale (!v) R) else m (a0 ^^^ scale v R)) := by
  rw [BitVec.xor_assoc, ← scale_xor, BitVec.xor_assoc, ← scale_xor]
  revert h
  cases x <;> cases x' <;> cases v <;> simp only [Bool.xor_false, Bool.xor_true, Bool.not_true, Bool.not_false,
    Bool.false_eq_true, if_true, if_false] <;> exact id

theorem sel_hidden {m m' : Block → Block} (R a0 : Block) (x x' v : Bool) {d : Block}
    (h : m' (a0 ^^^ scale (!x) R) = m (a0 ^^^ scale (!x) R) ^^^ d) :
    (if (x' ^^ v) then m' ((a0 ^^^ scale (x ^^ x') R) ^^^ scale v R)
      else m' ((a0 ^^^ scale (x ^^ x') R) ^^^ scale (!v) R))
    = (if (x ^^ v) then m (a0 ^^^ scale v R) else m (a0 ^^^ scale (!v) R)) ^^^ d := by
  rw [BitVec.xor_assoc, ← scale_xor, BitVec.xor_assoc, ← scale_xor]
  revert h
  cases x <;> cases x' <;> cases v <;> simp only [Bool.xor_false, Bool.xor_true, Bool.not_true, Bool.not_false,
    Bool.false_eq_true, if_true, if_false] <;> exact id

/-- Swapping the labels of inputs whose values change, and correcting the cipher at the two hidden
points, keeps both rows and swaps the output labels if the output value changes. -/
theorem garbleHalfGates_swap {enc enc' : Block → Block} {R : Block} (hR : getLSB R = true) {cid gid : Nat}
    {t : Int} (ht : t ∈ tableTypes) (a0 b0 : Block) (x y x' y' : Bool)
    (e0 : enc' ((a0 ^^^ scale x R) ^^^ tweak0 cid gid) = enc ((a0 ^^^ scale x R) ^^^ tweak0 cid gid))
    (e1 : enc' ((a0 ^^^ scale (!x) R) ^^^ tweak0 cid gid)
      = enc ((a0 ^^^ scale (!x) R) ^^^ tweak0 cid gid) ^^^ scale (y ^^ y') R)
    (e2 : enc' ((b0 ^^^ scale y R) ^^^ tweak1 cid gid) = enc ((b0 ^^^ scale y R) ^^^ tweak1 cid gid))
    (e3 : enc' ((b0 ^^^ scale (!y) R) ^^^ tweak1 cid gid)
      = enc ((b0 ^^^ scale (!y) R) ^^^ tweak1 cid gid) ^^^ scale (x ^^ x') R) :
    let a0' := a0 ^^^ scale (x ^^ x') R
    let b0' := b0 ^^^ scale (y ^^ y') R
    let g := garbleHalfGates enc R cid gid t ⟨a0, a0 ^^^ R⟩ ⟨b0, b0 ^^^ R⟩
    let g' := garbleHalfGates enc' R cid gid t ⟨a0', a0' ^^^ R⟩ ⟨b0', b0' ^^^ R⟩
    g'.2 = g.2 ∧ g'.1.label0 = g.1.label0 ^^^ scale (truth t x y ^^ truth t x' y') R := by
  intro a0' b0' g g'
  have sel0 : ∀ (v : Bool) (a : Block), (if v then a ^^^ R else a) = a ^^^ scale v R := by
    intro v a; cases v <;> simp
  have sel1 : ∀ (v : Bool) (a : Block), (if v then a else a ^^^ R) = a ^^^ scale (!v) R := by
    intro v a; cases v <;> simp
  have cancel : ∀ (a : Block) (p q : Bool), a ^^^ scale p R ^^^ scale q R = a ^^^ scale (p ^^ q) R := by
    intro a p q; rw [scale_xor, BitVec.xor_assoc]
  have lsb : ∀ (a : Block) (p : Bool), getLSB (a ^^^ scale p R) = (getLSB a ^^ p) := by
    intro a p; rw [getLSB_xor]; cases p <;> simp [hR]; simp [getLSB]
  -- the cipher on all four points, as hashes
  have H : ∀ (f f' : Block → Block) (p tw d : Block), f' (p ^^^ tw) = f (p ^^^ tw) ^^^ d →
      hashBlock f' p tw = hashBlock f p tw ^^^ d := by
    intro f f' p tw d e
    unfold hashBlock
    simp only [xorBlock]
    rw [e]
    simp only [BitVec.xor_assoc]
  have h0 := H enc enc' _ _ 0#128 (by rw [e0, BitVec.xor_zero])
  have h1 := H enc enc' _ _ _ e1
  have h2 := H enc enc' _ _ 0#128 (by rw [e2, BitVec.xor_zero])
  have h3 := H enc enc' _ _ _ e3
  rw [BitVec.xor_zero] at h0 h2
  have rows : g'.2 = g.2 := by
    have e3' : ∀ v : Bool × Bool × Bool, ∀ (A B : BlockPair) (p : Block × Block),
        (if v.2.2 = true then (A, p) else (B, p)).2 = p := by
      intro v A B p; split <;> rfl
    have hite : ∀ (p : Bool) (a b : Block), (if p then xorBlock a b else a) = a ^^^ scale p b :=
      fun p a b => ite_scale p a b
    have dd : ∀ p q v : Bool, ((p ^^ v) ^^ (q ^^ v)) = (p ^^ q) := by decide
    have key := fun (v0 v1 : Bool) => halfGates_rows R (a0 ^^^ scale v0 R) (b0 ^^^ scale v1 R)
      (hashBlock enc (a0 ^^^ scale v0 R) (tweak0 cid gid)) (hashBlock enc (a0 ^^^ scale (!v0) R) (tweak0 cid gid))
      (hashBlock enc (b0 ^^^ scale v1 R) (tweak1 cid gid)) (hashBlock enc (b0 ^^^ scale (!v1) R) (tweak1 cid gid))
      (hashBlock enc' (a0' ^^^ scale v0 R) (tweak0 cid gid)) (hashBlock enc' (a0' ^^^ scale (!v0) R) (tweak0 cid gid))
      (hashBlock enc' (b0' ^^^ scale v1 R) (tweak1 cid gid)) (hashBlock enc' (b0' ^^^ scale (!v1) R) (tweak1 cid gid))
      (x ^^ v0) (y ^^ v1) (x' ^^ v0) (y' ^^ v1) (getLSB (b0 ^^^ scale v1 R))
      (sel_active (m := fun p => hashBlock enc p _) (m' := fun p => hashBlock enc' p _) R a0 x x' v0 h0) (by rw [dd y y' v1]; exact sel_hidden (m := fun p => hashBlock enc p _) (m' := fun p => hashBlock enc' p _) R a0 x x' v0 h1)
      (sel_active (m := fun p => hashBlock enc p _) (m' := fun p => hashBlock enc' p _) R b0 y y' v1 h2) (by rw [dd x x' v0]; exact sel_hidden (m := fun p => hashBlock enc p _) (m' := fun p => hashBlock enc' p _) R b0 y y' v1 h3)
    have k := key (type2V t).1 (type2V t).2.1
    simp only [g, g', garbleHalfGates, sel0, sel1, hite]
    rw [e3' (type2V t), e3' (type2V t)]
    simp only [xorBlock]
    refine Prod.ext ?_ ?_
    · simp only
      rw [← k.1, show getLSB (b0' ^^^ scale (type2V t).2.1 R)
        = (getLSB (b0 ^^^ scale (type2V t).2.1 R) ^^ ((y ^^ (type2V t).2.1) ^^ (y' ^^ (type2V t).2.1))) from by
          simp only [b0', lsb]; cases y <;> cases y' <;> cases (type2V t).2.1 <;> cases getLSB b0 <;> rfl]
    · simp only
      rw [← k.2]
      congr 1
      simp only [a0', cancel]
      congr 2
      cases x <;> cases x' <;> cases (type2V t).1 <;> rfl
  refine ⟨rows, ?_⟩
  have c1 := (evalHalfGates_correct enc R hR cid gid ht a0 b0 x y).1
  have c2 := (evalHalfGates_correct enc' R hR cid gid ht a0' b0' x' y').1
  have ev : ∀ A B r0 r1, hashBlock enc' A (tweak0 cid gid) = hashBlock enc A (tweak0 cid gid) →
      hashBlock enc' B (tweak1 cid gid) = hashBlock enc B (tweak1 cid gid) →
      evalHalfGates enc' cid gid A B r0 r1 = evalHalfGates enc cid gid A B r0 r1 := by
    intro A B r0 r1 q1 q2
    unfold evalHalfGates
    simp only [q1, q2]
  have ea : a0' ^^^ scale x' R = a0 ^^^ scale x R := by
    simp only [a0', cancel]; cases x <;> cases x' <;> rfl
  have eb : b0' ^^^ scale y' R = b0 ^^^ scale y R := by
    simp only [b0', cancel]; cases y <;> cases y' <;> rfl
  rw [ea, eb, ev _ _ _ _ h0 h2] at c2
  have : g'.1.label0 ^^^ scale (truth t x' y') R = g.1.label0 ^^^ scale (truth t x y) R := by
    rw [← c1]
    show g'.1.label0 ^^^ scale (truth t x' y') R = evalHalfGates enc cid gid (a0 ^^^ scale x R) (b0 ^^^ scale y R) g.2.1 g.2.2
    rw [← rows]
    exact c2.symm
  have := congrArg (· ^^^ scale (truth t x' y') R) this
  rw [BitVec.xor_assoc, BitVec.xor_self, BitVec.xor_zero] at this
  rw [this, scale_xor, BitVec.xor_assoc]

end TinyGarble
