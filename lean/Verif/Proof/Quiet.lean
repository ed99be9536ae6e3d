import Verif.Model.Quiet
import Verif.Proof.Lost

/-! # The build without logging: lemmas -/

namespace TinyGarble.Proof
open TinyGarble Spec

variable {α β σ : Type}

/-- A program that does not return FAILURE itself. -/
def NoFail : Proc α → Prop
  | .ret _ => True
  | .fail => False
  | .undef => True
  | .send _ k => NoFail k
  | .recv k => ∀ b, NoFail (k b)

theorem NoFail.bind {p : Proc α} {f : α → Proc β} (hp : NoFail p) (hf : ∀ a, NoFail (f a)) : NoFail (p.bind f) := by
  induction p with
  | ret a => exact hf a
  | fail => exact hp
  | undef => trivial
  | send b k ih => exact ih hp
  | recv k ih => exact fun b => ih b (hp b)

theorem NoFail.forP {f : Nat → σ → Proc σ} (h : ∀ i s, NoFail (f i s)) (n : Nat) (s : σ) : NoFail (Proc.forP f n s) := by
  induction n with
  | zero => trivial
  | succ n ih => exact ih.bind fun x => h n x

theorem noFail_sendData (l : List Byte) (n : Nat) : NoFail (sendData l n) := by
  unfold sendData
  split
  · trivial
  · generalize l.take _ = l
    induction l with
    | nil => trivial
    | cons b l ih => exact ih

theorem noFail_recvData (n : Nat) : NoFail (recvData n) := by
  unfold recvData
  split
  · trivial
  · generalize (toInt32 n).toNat = n
    induction n with
    | zero => trivial
    | succ n ih => exact fun b => ih.bind fun _ => trivial

theorem noFail_ret (a : α) : NoFail (.ret a) := trivial

theorem noFail_undef : NoFail (.undef : Proc α) := trivial

theorem quiet_noFail {p : Proc α} (h : NoFail p) (s : Nat → Byte) : (p.quiet s).1 ≠ .failed := by
  induction p generalizing s with
  | ret a => simp [Proc.quiet]
  | fail => exact absurd h (by simp [NoFail])
  | undef => simp [Proc.quiet]
  | send b k ih => exact ih h s
  | recv k ih => exact ih (s 0) (h (s 0)) _

attribute [local irreducible] NoFail

theorem noFail_recvLabels (base size : Nat) (mem : Nat → Block) : NoFail (recvLabels base size mem) :=
  NoFail.forP (fun _ _ => (noFail_recvData 16).bind fun _ => noFail_ret _) size mem

theorem noFail_sendBN (a : Int) : NoFail (sendBN a) := (noFail_sendData _ _).bind fun _ => noFail_sendData _ _

theorem noFail_recvTables (c : Circuit) : NoFail (recvTables c) := by
  refine (noFail_recvData 8).bind fun l => ?_
  split
  · first | exact noFail_ret _ | exact noFail_undef
  · exact (noFail_recvData _).bind fun _ => noFail_ret _

theorem noFail_evalOutputs (mask : Nat) (lab : Nat → Block) (val : Nat → WVal) (off n out : Nat) : NoFail (evalOutputs mask lab val off n out) := by
  refine NoFail.forP (fun i s => ?_) n out
  unfold evalOutputStep
  split
  · first | exact noFail_ret _ | exact noFail_undef
  · split <;> exact noFail_ret _
  · split
    · exact (noFail_recvData _).bind fun _ => noFail_ret _
    · exact (noFail_sendData _ _).bind fun _ => noFail_ret _

theorem noFail_evalStop (c : Circuit) (period cid : Nat) (st : EState) : NoFail (evalStop c period cid st) := by
  unfold evalStop
  split
  · unfold evalTerminate
    split
    · first | exact noFail_ret _ | exact noFail_undef
    · exact (noFail_recvData _).bind fun _ => (noFail_recvData _).bind fun _ => noFail_ret _
  · first | exact noFail_ret _ | exact noFail_undef

variable (cr : Crypto) (c : Circuit) (A : Args) (E : EEnv)

theorem noFail_evalTransferLow (gSize eSize cid eNum : Nat) (mem : Nat → Block) (rk : Nat → Nat) (ce : ExtRecvCoins) :
    NoFail (evalTransferLow cr gSize eSize cid eNum mem true rk ce) :=
  (noFail_recvLabels _ _ _).bind fun _ => (noFail_sendBN _).bind fun _ => noFail_recvLabels _ _ _

theorem noFail_evalTransferHigh (h : A.disableOT = true) (init0 input0 : Nat → Block) (rk : Nat → Nat) (ce : ExtRecvCoins) :
    NoFail (evalTransferHigh cr c A init0 input0 rk ce) := by
  refine (noFail_recvLabels _ _ _).bind fun _ => (NoFail.forP (fun _ _ => noFail_recvLabels _ _ _) _ _).bind fun _ => ?_
  rw [h, if_pos rfl]
  exact (noFail_sendBN _).bind fun _ => (noFail_recvLabels _ _ _).bind fun _ => (noFail_sendBN _).bind fun _ =>
    (NoFail.forP (fun _ _ => noFail_recvLabels _ _ _) _ _).bind fun _ => noFail_ret _

theorem noFail_loopLow (h : A.disableOT = true) (key : Block) (init : Nat → Block) (n cid : Nat) (st : EState) (input : Nat → Block) (out : Nat) :
    NoFail (evalLoopLowQuiet cr c A E key init n cid st input out) := by
  induction n generalizing cid st input out with
  | zero => exact noFail_ret _
  | succ n ih =>
    unfold evalLoopLowQuiet
    rw [h]
    refine (noFail_evalTransferLow cr _ _ _ _ _ _ _).bind fun _ => (noFail_recvTables c).bind fun _ => (noFail_evalOutputs _ _ _ _ _ _).bind fun _ =>
      (noFail_evalStop _ _ _ _).bind fun _ => ?_
    split
    · first | exact noFail_ret _ | exact noFail_undef
    · exact ih _ _ _ _

theorem noFail_loopHigh (key : Block) (init input : Nat → Block) (n cid : Nat) (st : EState) (saved : Nat → Block × WVal) :
    NoFail (evalLoopHighQuiet cr c A E key init input n cid st saved) := by
  induction n generalizing cid st saved with
  | zero => exact noFail_ret _
  | succ n ih =>
    unfold evalLoopHighQuiet
    refine (noFail_recvTables c).bind fun _ => (noFail_evalStop _ _ _ _).bind fun _ => ?_
    split
    · first | exact noFail_ret _ | exact noFail_undef
    · exact ih _ _ _

theorem noFail_evaluate (h : A.disableOT = true) (h0 : A.cycles ≠ 0) (hp : A.period ≠ 0 → c.terminateId ≠ 0) : NoFail (evaluateQuiet cr c A E) := by
  unfold evaluateQuiet
  rw [if_neg h0, if_neg fun hh => hp hh.1 hh.2]
  refine (noFail_recvData 16).bind fun l => ?_
  split
  · unfold evalLowQuiet
    rw [h]
    refine (noFail_evalTransferLow cr _ _ _ _ _ _ _).bind fun _ => ?_
    split
    · first | exact noFail_ret _ | exact noFail_undef
    · exact noFail_loopLow cr c A E h _ _ _ _ _ _ _
  · unfold evalHighQuiet
    refine (noFail_evalTransferHigh cr c A h _ _ _ _).bind fun _ => ?_
    split
    · first | exact noFail_ret _ | exact noFail_undef
    · exact (noFail_loopHigh cr c A E _ _ _ _ _ _ _).bind fun _ =>
        (NoFail.forP (fun _ _ => noFail_evalOutputs _ _ _ _ _ _) _ _).bind fun _ => noFail_ret _

/-- A program that does not return FAILURE when all that it reads is zero. -/
def Calm (p : Proc α) : Prop := (p.quiet fun _ => 0).1 ≠ .failed

theorem quiet_zero (p : Proc α) : (p.quiet fun _ => 0).2 = fun _ => 0 := by
  induction p with
  | ret a => rfl
  | fail => rfl
  | undef => rfl
  | send b k ih => exact ih
  | recv k ih => exact ih 0

theorem quiet_bind_zero (p : Proc α) (f : α → Proc β) :
    (∀ a, (p.quiet fun _ => 0).1 = .ok a → ((p.bind f).quiet fun _ => 0) = (f a).quiet fun _ => 0) ∧
    ((p.quiet fun _ => 0).1 = .undefined → ((p.bind f).quiet fun _ => 0).1 = .undefined) := by
  induction p with
  | ret a => exact ⟨fun b h => by cases h; rfl, fun h => by cases h⟩
  | fail => exact ⟨fun b h => by (cases h), fun h => by (cases h)⟩
  | undef => exact ⟨fun b h => by (cases h), fun _ => rfl⟩
  | send b k ih => exact ih
  | recv k ih => exact ih 0

theorem Calm.bind {p : Proc α} {f : α → Proc β} (hp : Calm p) (hf : ∀ a, Calm (f a)) : Calm (p.bind f) := by
  obtain ⟨h1, h2⟩ := quiet_bind_zero p f
  unfold Calm at hp ⊢
  generalize (p.quiet fun _ => 0).1 = r at *
  rcases r with a | _ | _
  · rw [h1 a rfl]
    exact hf a
  · exact absurd rfl hp
  · rw [h2 rfl]
    exact fun h => by cases h

theorem NoFail.calm {p : Proc α} (h : NoFail p) : Calm p := quiet_noFail h _

theorem calm_recvBN : Calm recvBN := by
  unfold Calm
  decide +kernel

theorem noFail_sendLabels (lab : Nat → BlockPair) (base n off size : Nat) : NoFail (sendLabels lab base n off size) :=
  NoFail.forP (fun _ _ => noFail_sendData _ _) size ()

theorem noFail_sendTables (tabs : List Table) (pad : Nat → Nat → Byte) : NoFail (sendTables tabs pad) :=
  (noFail_sendData _ _).bind fun _ => noFail_sendData _ _

theorem noFail_garbleOutputs (mask : Nat) (lab : Nat → BlockPair) (val : Nat → WVal) (off n out : Nat) :
    NoFail (garbleOutputs mask lab val off n out) := by
  refine NoFail.forP (fun i s => ?_) n out
  unfold garbleOutputStep
  split
  · first | exact noFail_ret _ | exact noFail_undef
  · split <;> exact noFail_ret _
  · split
    · exact (noFail_sendData _ _).bind fun _ => noFail_ret _
    · exact (noFail_recvData _).bind fun _ => noFail_ret _

theorem noFail_garbleStop (c : Circuit) (period cid : Nat) (st : GState) : NoFail (garbleStop c period cid st) := by
  unfold garbleStop
  split
  · unfold garbleTerminate
    split
    · first | exact noFail_ret _ | exact noFail_undef
    · exact (noFail_sendData _ _).bind fun _ => (noFail_recvData _).bind fun _ => noFail_ret _
  · first | exact noFail_ret _ | exact noFail_undef

variable (G : GEnv)

theorem calm_garbleTransferLow (gSize eSize cid gNum : Nat) (lab : Nat → BlockPair) (co : OTSendCoins) (ce : ExtSendCoins) :
    Calm (garbleTransferLow cr gSize eSize cid gNum lab true co ce) :=
  (noFail_sendLabels _ _ _ _ _).calm.bind fun _ => calm_recvBN.bind fun _ => (noFail_sendLabels _ _ _ _ _).calm

theorem calm_garbleTransferHigh (h : A.disableOT = true) (initLab inputLab : Nat → BlockPair) (co : OTSendCoins) (ce : ExtSendCoins) :
    Calm (garbleTransferHigh cr c A initLab inputLab co ce) := by
  refine (noFail_sendLabels _ _ _ _ _).calm.bind fun _ => (NoFail.forP (fun _ _ => noFail_sendLabels _ _ _ _ _) _ _).calm.bind fun _ => ?_
  rw [h, if_pos rfl]
  exact calm_recvBN.bind fun _ => (noFail_sendLabels _ _ _ _ _).calm.bind fun _ => calm_recvBN.bind fun _ =>
    (NoFail.forP (fun _ _ => noFail_sendLabels _ _ _ _ _) _ _).calm

theorem calm_garbleLoopLow (h : A.disableOT = true) (n cid : Nat) (st : GState) (out : Nat) : Calm (garbleLoopLow cr c A G n cid st out) := by
  induction n generalizing cid st out with
  | zero => exact (noFail_ret _).calm
  | succ n ih =>
    unfold garbleLoopLow
    rw [h]
    refine (calm_garbleTransferLow cr _ _ _ _ _ _ _).bind fun _ => (noFail_sendTables _ _).calm.bind fun _ =>
      (noFail_garbleOutputs _ _ _ _ _ _).calm.bind fun _ => (noFail_garbleStop _ _ _ _).calm.bind fun _ => ?_
    split
    · exact (noFail_ret _).calm
    · exact ih _ _ _

theorem noFail_garbleLoopHigh (n cid : Nat) (st : GState) (saved : Nat → BlockPair × WVal) : NoFail (garbleLoopHigh cr c A G n cid st saved) := by
  induction n generalizing cid st saved with
  | zero => exact noFail_ret _
  | succ n ih =>
    unfold garbleLoopHigh
    refine (noFail_sendTables _ _).bind fun _ => (noFail_garbleStop _ _ _ _).bind fun _ => ?_
    split
    · exact noFail_ret _
    · exact ih _ _ _

theorem calm_garble (h : A.disableOT = true) (h0 : A.cycles ≠ 0) (hp : A.period ≠ 0 → c.terminateId ≠ 0) : Calm (garbleBN cr c A G) := by
  unfold garbleBN
  rw [if_neg h0, if_neg fun hh => hp hh.1 hh.2]
  refine (noFail_sendData _ _).calm.bind fun _ => ?_
  split
  · unfold garbleLow
    rw [h]
    refine (calm_garbleTransferLow cr _ _ _ _ _ _ _).bind fun _ => ?_
    split
    · exact noFail_undef.calm
    · exact calm_garbleLoopLow cr c A G h _ _ _ _
  · unfold garbleHigh
    refine (calm_garbleTransferHigh cr c A h _ _ _ _).bind fun _ => ?_
    split
    · exact noFail_undef.calm
    · exact (noFail_garbleLoopHigh cr c A G _ _ _ _).calm.bind fun _ =>
        (NoFail.forP (fun _ _ => noFail_garbleOutputs _ _ _ _ _ _) _ _).calm.bind fun _ => (noFail_ret _).calm

/-- Without a failure it makes no difference that failures are ignored. -/
theorem quiet_of_on {p : Proc α} {a : α} {u : List Byte} {m : Nat} {w : Conn} (h : p.on ⟨u, m⟩ = (.ok a, w)) (s : Nat → Byte)
    (hs : ∀ i (hi : i < u.length), s i = u[i]) : ∃ s', p.quiet s = (.ok a, s') ∧ ∀ i (hi : i < w.inc.length), s' i = w.inc[i] := by
  induction p generalizing u m s with
  | ret b =>
    have h : ((.ok b, ⟨u, m⟩) : Ret α × Conn) = (.ok a, w) := h
    rw [Prod.mk.injEq] at h
    obtain ⟨h1, rfl⟩ := h
    exact ⟨s, by rw [Proc.quiet, h1], hs⟩
  | fail => cases h
  | undef => cases h
  | send b k ih =>
    rcases m with _ | m
    · cases h
    · exact ih h s hs
  | recv k ih =>
    rcases u with _ | ⟨b, u⟩
    · cases h
    · have h0 : s 0 = b := hs 0 (by simp)
      rw [Proc.quiet, h0]
      exact ih b h _ fun i hi => hs (i + 1) (by simp; omega)

/-- A program that does at least what another one does, except when that one returns FAILURE. -/
inductive Refines : Proc α → Proc α → Prop
  | refl (p : Proc α) : Refines p p
  | fail (q : Proc α) : Refines .fail q
  | bind {β : Type} (p : Proc β) {f g : β → Proc α} (h : ∀ b, Refines (f b) (g b)) : Refines (p.bind f) (p.bind g)

theorem Refines.on {p q : Proc α} (h : Refines p q) {a : α} {w w' : Conn} (hp : p.on w = (.ok a, w')) : q.on w = (.ok a, w') := by
  induction h generalizing w with
  | refl p => exact hp
  | fail q => cases hp
  | bind p h ih =>
    rw [on_bind] at hp ⊢
    obtain ⟨b, v, h1, h2⟩ := andThen_ok hp
    rw [h1]
    exact ih b h2

theorem refines_loopLow (key : Block) (init : Nat → Block) (n cid : Nat) (st : EState) (input : Nat → Block) (out : Nat) :
    Refines (evalLoopLow cr c A E key init n cid st input out) (evalLoopLowQuiet cr c A E key init n cid st input out) := by
  induction n generalizing cid st input out with
  | zero => exact .refl _
  | succ n ih =>
    unfold evalLoopLow evalLoopLowQuiet
    refine .bind _ fun input => .bind _ fun rt => ?_
    dsimp only
    split
    · exact .fail _
    · refine .bind _ fun out => .bind _ fun stop => ?_
      split
      · exact .refl _
      · exact ih _ _ _ _

theorem refines_evaluate (hu : A.useLow = true) : Refines (evaluateBN cr c A E) (evaluateQuiet cr c A E) := by
  unfold evaluateBN evaluateQuiet
  rw [hu]
  split
  · exact .refl _
  · split
    · exact .refl _
    · refine .bind _ fun l => ?_
      rw [if_pos rfl, if_pos rfl]
      unfold evalLow evalLowQuiet
      refine .bind _ fun init => ?_
      split
      · exact .refl _
      · exact refines_loopLow cr c A E _ _ _ _ _ _ _

end TinyGarble.Proof
