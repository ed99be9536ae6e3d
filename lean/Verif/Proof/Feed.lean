import Verif.Model.Protocol
import Verif.Proof.BN
import Verif.Proof.Proc
import Verif.Spec.Feed
import Verif.Spec.Talk

/-!
# Programs facing arbitrary bytes
-/

namespace TinyGarble
open Spec

variable {α β σ : Type}

/-- Undefined behaviour is reached only after reading bytes (the last ones first in the list `rd`) that satisfy `W`. -/
def OnlyAfter (W : List Byte → Prop) : List Byte → Proc α → Prop
  | _, .ret _ => True
  | _, .fail => True
  | rd, .undef => W rd
  | rd, .send _ k => OnlyAfter W rd k
  | rd, .recv k => ∀ b, OnlyAfter W (b :: rd) (k b)

theorem onlyAfter_ret {W : List Byte → Prop} {a : α} {rd} : OnlyAfter W rd (.ret a) := trivial

theorem onlyAfter_fail {W : List Byte → Prop} {rd} : OnlyAfter W rd (.fail : Proc α) := trivial

theorem onlyAfter_bind {W : List Byte → Prop} {P : Proc α} {f : α → Proc β} :
    ∀ {rd}, OnlyAfter W rd P → (∀ a rd, OnlyAfter W rd (f a)) → OnlyAfter W rd (P.bind f) := by
  induction P with
  | ret a => intro rd _ hf; exact hf a rd
  | fail => intros; trivial
  | undef => intro rd h _; exact h
  | send b k ih => intro rd h hf; exact ih h hf
  | recv k ih => intro rd h hf b; exact ih b (h b) hf

theorem onlyAfter_forP {W : List Byte → Prop} {f : Nat → σ → Proc σ} (h : ∀ i s rd, OnlyAfter W rd (f i s)) :
    ∀ n s rd, OnlyAfter W rd (Proc.forP f n s)
  | 0, _, _ => trivial
  | n + 1, s, rd => onlyAfter_bind (onlyAfter_forP h n s rd) fun a rd => h n a rd

theorem onlyAfter_sendBytes {W : List Byte → Prop} : ∀ l rd, OnlyAfter W rd (Proc.sendBytes l)
  | [], _ => trivial
  | _ :: l, rd => onlyAfter_sendBytes l rd

theorem onlyAfter_recvBytes {W : List Byte → Prop} : ∀ n rd, OnlyAfter W rd (Proc.recvBytes n)
  | 0, _ => trivial
  | n + 1, rd => fun b => onlyAfter_bind (onlyAfter_recvBytes n (b :: rd)) fun _ _ => onlyAfter_ret

theorem onlyAfter_undef {W : List Byte → Prop} {rd} (h : W rd) : OnlyAfter W rd (.undef : Proc α) := h

theorem onlyAfter_recvBytes_bind {W : List Byte → Prop} {f : List Byte → Proc β} :
    ∀ n rd, (∀ l : List Byte, l.length = n → OnlyAfter W (l.reverse ++ rd) (f l)) → OnlyAfter W rd ((Proc.recvBytes n).bind f)
  | 0, rd, h => h [] rfl
  | n + 1, rd, h => fun b => by
      show OnlyAfter W (b :: rd) (((Proc.recvBytes n).bind fun l => Proc.ret (b :: l)).bind f)
      rw [show ((Proc.recvBytes n).bind fun l => Proc.ret (b :: l)).bind f = (Proc.recvBytes n).bind fun l => f (b :: l) from by
        rw [Proof.bind_assoc]; rfl]
      refine onlyAfter_recvBytes_bind n (b :: rd) fun l hl => ?_
      have := h (b :: l) (by simp [hl])
      simpa using this

theorem onlyAfter_sendData {W : List Byte → Prop} (l n rd) : OnlyAfter W rd (sendData l n) := by
  unfold sendData; split
  · trivial
  · exact onlyAfter_sendBytes _ _

theorem onlyAfter_recvData {W : List Byte → Prop} (n rd) : OnlyAfter W rd (recvData n) := by
  unfold recvData; split
  · trivial
  · exact onlyAfter_recvBytes _ _

attribute [local irreducible] OnlyAfter

theorem onlyAfter_sendBN {W : List Byte → Prop} (a rd) : OnlyAfter W rd (sendBN a) :=
  onlyAfter_bind (onlyAfter_sendData _ _ _) fun _ _ => onlyAfter_sendData _ _ _

theorem onlyAfter_recvBN {W : List Byte → Prop} (rd) : OnlyAfter W rd recvBN :=
  onlyAfter_bind (onlyAfter_recvData _ _) fun _ _ => by
    split
    · first | exact onlyAfter_ret | exact onlyAfter_fail
    · exact onlyAfter_bind (onlyAfter_recvData _ _) fun _ _ => onlyAfter_ret

theorem onlyAfter_otSendBN {W : List Byte → Prop} (m mLen co rd) : OnlyAfter W rd (otSendBN m mLen co) :=
  onlyAfter_bind (onlyAfter_sendData _ _ _) fun _ _ => onlyAfter_bind (onlyAfter_sendBN _ _) fun _ _ =>
  onlyAfter_bind (onlyAfter_sendBN _ _) fun _ _ =>
  onlyAfter_bind (onlyAfter_forP (fun _ _ _ => onlyAfter_bind (onlyAfter_sendBN _ _) fun _ _ => onlyAfter_sendBN _ _) _ _ _) fun _ _ =>
  onlyAfter_forP (fun _ _ _ => onlyAfter_bind (onlyAfter_recvBN _) fun _ _ =>
    onlyAfter_bind (onlyAfter_sendBN _ _) fun _ _ => onlyAfter_sendBN _ _) _ _ _

theorem onlyAfter_otRecvBN {W : List Byte → Prop} (sel mLen rk m0 rd) : OnlyAfter W rd (otRecvBN sel mLen rk m0) :=
  onlyAfter_bind (onlyAfter_recvData _ _) fun _ _ => by
    split
    · first | exact onlyAfter_ret | exact onlyAfter_fail
    · refine onlyAfter_bind (onlyAfter_recvBN _) fun _ _ => onlyAfter_bind (onlyAfter_recvBN _) fun _ _ =>
        onlyAfter_bind (onlyAfter_forP (fun _ _ _ => onlyAfter_bind (onlyAfter_recvBN _) fun _ _ =>
          onlyAfter_bind (onlyAfter_recvBN _) fun _ _ => onlyAfter_ret) _ _ _) fun _ _ => ?_
      split
      · first | exact onlyAfter_ret | exact onlyAfter_fail
      · exact onlyAfter_bind (onlyAfter_forP (fun _ _ _ => onlyAfter_sendBN _ _) _ _ _) fun _ _ =>
          onlyAfter_forP (fun _ _ _ => onlyAfter_bind (onlyAfter_recvBN _) fun _ _ =>
            onlyAfter_bind (onlyAfter_recvBN _) fun _ _ => onlyAfter_ret) _ _ _

theorem onlyAfter_garbleOT {W : List Byte → Prop} (cr m) {len} (hlen : len < 2 ^ 32) (co ce rd) :
    OnlyAfter W rd (garbleOT cr m len co ce) := by
  unfold garbleOT
  rw [if_neg (Nat.not_le.mpr hlen)]
  split
  · refine onlyAfter_bind (onlyAfter_otRecvBN _ _ _ _ _) fun Q rd => ?_
    cases switchRowColumn (fun i => (Q i).natAbs) secKBit len with
    | none => exact onlyAfter_fail
    | some Qr =>
      exact onlyAfter_bind (onlyAfter_forP (fun _ _ _ => onlyAfter_bind (onlyAfter_sendBN _ _) fun _ _ =>
        onlyAfter_bind (onlyAfter_sendBN _ _) fun _ _ => onlyAfter_ret) _ _ _) fun _ _ => onlyAfter_ret
  · exact onlyAfter_otSendBN _ _ _ _

theorem onlyAfter_evalOT {W : List Byte → Prop} (cr sel) {len} (hlen : len < 2 ^ 32) (rk ce rd) :
    OnlyAfter W rd (evalOT cr sel len rk ce) := by
  unfold evalOT
  rw [if_neg (Nat.not_le.mpr hlen)]
  split
  · unfold otExtRecv
    refine onlyAfter_bind ?_ fun _ _ => onlyAfter_ret
    unfold otExtRecvBN
    cases switchRowColumnPair (extT (selBN sel len) ce.T) len secKBit with
    | none => exact onlyAfter_fail
    | some Tr =>
      exact onlyAfter_bind (onlyAfter_otSendBN _ _ _ _) fun _ _ => onlyAfter_forP (fun _ _ _ =>
        onlyAfter_bind (onlyAfter_recvBN _) fun _ _ => onlyAfter_bind (onlyAfter_recvBN _) fun _ _ => onlyAfter_ret) _ _ _
  · exact onlyAfter_bind (onlyAfter_otRecvBN _ _ _ _ _) fun _ _ => onlyAfter_ret

theorem onlyAfter_sendLabels {W : List Byte → Prop} (lab base n off size rd) : OnlyAfter W rd (sendLabels lab base n off size) :=
  onlyAfter_forP (fun _ _ _ => onlyAfter_sendData _ _ _) _ _ _

theorem onlyAfter_recvLabels {W : List Byte → Prop} (base size mem rd) : OnlyAfter W rd (recvLabels base size mem) :=
  onlyAfter_forP (fun _ _ _ => onlyAfter_bind (onlyAfter_recvData _ _) fun _ _ => onlyAfter_ret) _ _ _

theorem onlyAfter_garbleTransferLow {W : List Byte → Prop} (cr gSize) {eSize} (h : eSize < 2 ^ 32) (cid gNum lab dis co ce rd) :
    OnlyAfter W rd (garbleTransferLow cr gSize eSize cid gNum lab dis co ce) :=
  onlyAfter_bind (onlyAfter_sendLabels _ _ _ _ _ _) fun _ _ => by
    split
    · exact onlyAfter_bind (onlyAfter_recvBN _) fun _ _ => onlyAfter_sendLabels _ _ _ _ _ _
    · split
      · first | exact onlyAfter_ret | exact onlyAfter_fail
      · exact onlyAfter_garbleOT _ _ h _ _ _

theorem onlyAfter_evalTransferLow {W : List Byte → Prop} (cr gSize) {eSize} (h : eSize < 2 ^ 32) (cid eNum mem dis rk ce rd) :
    OnlyAfter W rd (evalTransferLow cr gSize eSize cid eNum mem dis rk ce) :=
  onlyAfter_bind (onlyAfter_recvLabels _ _ _ _) fun _ _ => by
    split
    · exact onlyAfter_bind (onlyAfter_sendBN _ _) fun _ _ => onlyAfter_recvLabels _ _ _ _
    · split
      · first | exact onlyAfter_ret | exact onlyAfter_fail
      · exact onlyAfter_bind (onlyAfter_evalOT _ _ h _ _ _) fun _ _ => onlyAfter_ret

theorem onlyAfter_garbleTransferHigh {W : List Byte → Prop} (cr c A) (h : c.eInit + A.cycles * c.eInput < 2 ^ 32) (initLab inputLab co ce rd) :
    OnlyAfter W rd (garbleTransferHigh cr c A initLab inputLab co ce) :=
  onlyAfter_bind (onlyAfter_sendLabels _ _ _ _ _ _) fun _ _ =>
  onlyAfter_bind (onlyAfter_forP (fun _ _ _ => onlyAfter_sendLabels _ _ _ _ _ _) _ _ _) fun _ _ => by
    split
    · exact onlyAfter_bind (onlyAfter_recvBN _) fun _ _ => onlyAfter_bind (onlyAfter_sendLabels _ _ _ _ _ _) fun _ _ =>
        onlyAfter_bind (onlyAfter_recvBN _) fun _ _ => onlyAfter_forP (fun _ _ _ => onlyAfter_sendLabels _ _ _ _ _ _) _ _ _
    · exact onlyAfter_garbleOT _ _ h _ _ _

theorem onlyAfter_evalTransferHigh {W : List Byte → Prop} (cr c A) (h : c.eInit + A.cycles * c.eInput < 2 ^ 32) (init0 input0 rk ce rd) :
    OnlyAfter W rd (evalTransferHigh cr c A init0 input0 rk ce) :=
  onlyAfter_bind (onlyAfter_recvLabels _ _ _ _) fun _ _ =>
  onlyAfter_bind (onlyAfter_forP (fun _ _ _ => onlyAfter_recvLabels _ _ _ _) _ _ _) fun _ _ => by
    split
    · exact onlyAfter_bind (onlyAfter_sendBN _ _) fun _ _ => onlyAfter_bind (onlyAfter_recvLabels _ _ _ _) fun _ _ =>
        onlyAfter_bind (onlyAfter_sendBN _ _) fun _ _ =>
        onlyAfter_bind (onlyAfter_forP (fun _ _ _ => onlyAfter_recvLabels _ _ _ _) _ _ _) fun _ _ => onlyAfter_ret
    · exact onlyAfter_bind (onlyAfter_evalOT _ _ h _ _ _) fun _ _ => onlyAfter_ret

theorem onlyAfter_garbleOutputs {W : List Byte → Prop} (mask lab val off n out rd) : OnlyAfter W rd (garbleOutputs mask lab val off n out) :=
  onlyAfter_forP (fun i s rd => by
    unfold garbleOutputStep
    split
    · first | exact onlyAfter_ret | exact onlyAfter_fail
    · split <;> exact onlyAfter_ret
    · split
      · exact onlyAfter_bind (onlyAfter_sendData _ _ _) fun _ _ => onlyAfter_ret
      · exact onlyAfter_bind (onlyAfter_recvData _ _) fun _ _ => onlyAfter_ret) _ _ _

theorem onlyAfter_evalOutputs {W : List Byte → Prop} (mask lab val off n out rd) : OnlyAfter W rd (evalOutputs mask lab val off n out) :=
  onlyAfter_forP (fun i s rd => by
    unfold evalOutputStep
    split
    · first | exact onlyAfter_ret | exact onlyAfter_fail
    · split <;> exact onlyAfter_ret
    · split
      · exact onlyAfter_bind (onlyAfter_recvData _ _) fun _ _ => onlyAfter_ret
      · exact onlyAfter_bind (onlyAfter_sendData _ _ _) fun _ _ => onlyAfter_ret) _ _ _

theorem onlyAfter_garbleStop {W : List Byte → Prop} (c period cid st rd) : OnlyAfter W rd (garbleStop c period cid st) := by
  unfold garbleStop; split
  · unfold garbleTerminate; split
    · first | exact onlyAfter_ret | exact onlyAfter_fail
    · exact onlyAfter_bind (onlyAfter_sendData _ _ _) fun _ _ => onlyAfter_bind (onlyAfter_recvData _ _) fun _ _ => onlyAfter_ret
  · first | exact onlyAfter_ret | exact onlyAfter_fail

theorem onlyAfter_evalStop {W : List Byte → Prop} (c period cid st rd) : OnlyAfter W rd (evalStop c period cid st) := by
  unfold evalStop; split
  · unfold evalTerminate; split
    · first | exact onlyAfter_ret | exact onlyAfter_fail
    · exact onlyAfter_bind (onlyAfter_recvData _ _) fun _ _ => onlyAfter_bind (onlyAfter_recvData _ _) fun _ _ => onlyAfter_ret
  · first | exact onlyAfter_ret | exact onlyAfter_fail

theorem onlyAfter_sendTables {W : List Byte → Prop} (tabs pad rd) : OnlyAfter W rd (sendTables tabs pad) :=
  onlyAfter_bind (onlyAfter_sendData _ _ _) fun _ _ => onlyAfter_sendData _ _ _

theorem onlyAfter_garbleLoopLow {W : List Byte → Prop} (cr c A G) (h : c.eInput < 2 ^ 32) :
    ∀ n cid st out rd, OnlyAfter W rd (garbleLoopLow cr c A G n cid st out)
  | 0, _, _, _, _ => onlyAfter_ret
  | n + 1, cid, st, out, rd =>
    onlyAfter_bind (onlyAfter_garbleTransferLow _ _ h _ _ _ _ _ _ _) fun _ _ =>
    onlyAfter_bind (onlyAfter_sendTables _ _ _) fun _ _ => onlyAfter_bind (onlyAfter_garbleOutputs _ _ _ _ _ _ _) fun _ _ =>
    onlyAfter_bind (onlyAfter_garbleStop _ _ _ _ _) fun stop rd => by
      split
      · first | exact onlyAfter_ret | exact onlyAfter_fail
      · exact onlyAfter_garbleLoopLow cr c A G h n _ _ _ _

theorem onlyAfter_garbleLoopHigh {W : List Byte → Prop} (cr c A G) :
    ∀ n cid st saved rd, OnlyAfter W rd (garbleLoopHigh cr c A G n cid st saved)
  | 0, _, _, _, _ => onlyAfter_ret
  | n + 1, cid, st, saved, rd =>
    onlyAfter_bind (onlyAfter_sendTables _ _ _) fun _ _ =>
    onlyAfter_bind (onlyAfter_garbleStop _ _ _ _ _) fun stop rd => by
      split
      · first | exact onlyAfter_ret | exact onlyAfter_fail
      · exact onlyAfter_garbleLoopHigh cr c A G n _ _ _ _

theorem onlyAfter_garbleBN {W : List Byte → Prop} (cr c A G) (hr : refsInRange c = true)
    (h : c.eInit + A.cycles * c.eInput < 2 ^ 32) (rd) : OnlyAfter W rd (garbleBN cr c A G) := by
  unfold garbleBN
  split
  · first | exact onlyAfter_ret | exact onlyAfter_fail
  · rename_i h0
    have h1 : c.eInit < 2 ^ 32 := by omega
    have h2 : c.eInput < 2 ^ 32 := Nat.lt_of_le_of_lt
      (Nat.le_trans (Nat.le_mul_of_pos_left _ (Nat.pos_of_ne_zero h0)) (Nat.le_add_left _ _)) h
    split
    · first | exact onlyAfter_ret | exact onlyAfter_fail
    · refine onlyAfter_bind (onlyAfter_sendData _ _ _) fun _ _ => ?_
      split
      · refine onlyAfter_bind (onlyAfter_garbleTransferLow _ _ h1 _ _ _ _ _ _ _) fun _ _ => ?_
        rw [hr]
        exact onlyAfter_garbleLoopLow _ _ _ _ h2 _ _ _ _ _
      · refine onlyAfter_bind (onlyAfter_garbleTransferHigh _ _ _ h _ _ _ _ _) fun _ _ => ?_
        rw [hr]
        exact onlyAfter_bind (onlyAfter_garbleLoopHigh _ _ _ _ _ _ _ _ _) fun _ _ =>
          onlyAfter_bind (onlyAfter_forP (fun _ _ _ => onlyAfter_garbleOutputs _ _ _ _ _ _ _) _ _ _) fun _ _ => onlyAfter_ret

/-- The bytes read so far (last one first) end with a number of tables that does not fit into the buffer. -/
def Excess (c : Circuit) (rd : List Byte) : Prop :=
  8 ≤ rd.length ∧ ((numOfNonXor c * tableBytes : Nat) : Int) < toInt32 (leValue (rd.take 8).reverse * tableBytes)

theorem onlyAfter_recvTables (c rd) : OnlyAfter (Excess c) rd (recvTables c) := by
  unfold recvTables
  rw [show recvData 8 = Proc.recvBytes 8 from rfl]
  refine onlyAfter_recvBytes_bind 8 rd fun l hl => ?_
  split
  · rename_i hh
    refine onlyAfter_undef ⟨by simp [hl], ?_⟩
    rw [List.take_left' (by simp [hl]), List.reverse_reverse]
    exact hh
  · exact onlyAfter_bind (onlyAfter_recvData _ _) fun _ _ => onlyAfter_ret

theorem onlyAfter_evalLoopLow (cr c A E key init) (h : c.eInput < 2 ^ 32) :
    ∀ n cid st input out rd, OnlyAfter (Excess c) rd (evalLoopLow cr c A E key init n cid st input out)
  | 0, _, _, _, _, _ => onlyAfter_ret
  | n + 1, cid, st, input, out, rd =>
    onlyAfter_bind (onlyAfter_evalTransferLow _ _ h _ _ _ _ _ _ _) fun _ _ =>
    onlyAfter_bind (onlyAfter_recvTables _ _) fun _ _ => by
      dsimp only
      split
      · first | exact onlyAfter_ret | exact onlyAfter_fail
      · exact onlyAfter_bind (onlyAfter_evalOutputs _ _ _ _ _ _ _) fun _ _ =>
          onlyAfter_bind (onlyAfter_evalStop _ _ _ _ _) fun stop rd => by
            split
            · first | exact onlyAfter_ret | exact onlyAfter_fail
            · exact onlyAfter_evalLoopLow cr c A E key init h n _ _ _ _ _

theorem onlyAfter_evalLoopHigh (cr c A E key init input) :
    ∀ n cid st saved rd, OnlyAfter (Excess c) rd (evalLoopHigh cr c A E key init input n cid st saved)
  | 0, _, _, _, _ => onlyAfter_ret
  | n + 1, cid, st, saved, rd =>
    onlyAfter_bind (onlyAfter_recvTables _ _) fun _ _ => by
      dsimp only
      split
      · first | exact onlyAfter_ret | exact onlyAfter_fail
      · exact onlyAfter_bind (onlyAfter_evalStop _ _ _ _ _) fun stop rd => by
            split
            · first | exact onlyAfter_ret | exact onlyAfter_fail
            · exact onlyAfter_evalLoopHigh cr c A E key init input n _ _ _ _

theorem onlyAfter_evaluateBN (cr c A E) (hr : refsInRange c = true)
    (h : c.eInit + A.cycles * c.eInput < 2 ^ 32) (rd) : OnlyAfter (Excess c) rd (evaluateBN cr c A E) := by
  unfold evaluateBN
  split
  · first | exact onlyAfter_ret | exact onlyAfter_fail
  · rename_i h0
    have h1 : c.eInit < 2 ^ 32 := by omega
    have h2 : c.eInput < 2 ^ 32 := Nat.lt_of_le_of_lt
      (Nat.le_trans (Nat.le_mul_of_pos_left _ (Nat.pos_of_ne_zero h0)) (Nat.le_add_left _ _)) h
    split
    · first | exact onlyAfter_ret | exact onlyAfter_fail
    · refine onlyAfter_bind (onlyAfter_recvData _ _) fun _ _ => ?_
      split
      · refine onlyAfter_bind (onlyAfter_evalTransferLow _ _ h1 _ _ _ _ _ _ _) fun _ _ => ?_
        rw [hr]
        exact onlyAfter_evalLoopLow _ _ _ _ _ _ h2 _ _ _ _ _ _
      · refine onlyAfter_bind (onlyAfter_evalTransferHigh _ _ _ h _ _ _ _ _) fun _ _ => ?_
        rw [hr]
        exact onlyAfter_bind (onlyAfter_evalLoopHigh _ _ _ _ _ _ _ _ _ _ _ _) fun _ _ =>
          onlyAfter_bind (onlyAfter_forP (fun _ _ _ => onlyAfter_evalOutputs _ _ _ _ _ _ _) _ _ _) fun _ _ => onlyAfter_ret

attribute [local semireducible] OnlyAfter

/-- What `OnlyAfter` says about runs. -/
theorem feed_undefined {W : List Byte → Prop} {P : Proc α} :
    ∀ {rd inc}, OnlyAfter W rd P → (feed P inc).1 = .undefined → W ((inc.take (feed P inc).2).reverse ++ rd) := by
  induction P with
  | ret => intro _ _ _ h; simp [feed] at h
  | fail => intro _ _ _ h; simp [feed] at h
  | undef => intro rd inc h _; exact h
  | send b k ih => intro rd inc h hu; exact ih h hu
  | recv k ih =>
    intro rd inc h hu
    cases inc with
    | nil => simp [feed] at hu
    | cons b inc =>
      have := ih b (h b) hu
      simpa [feed] using this

/-! ### Programs that can be led to an end -/

/-- Some bytes make the program return. -/
def CanRet (P : Proc α) : Prop := ∃ inc r, talk P inc = some r

/-- Some bytes lead to undefined behaviour. -/
def CanUndef (P : Proc α) : Prop := ∃ inc, (feed P inc).1 = .undefined

theorem canRet_ret {a : α} : CanRet (.ret a) := ⟨[], _, rfl⟩

theorem talk_bind_to {P : Proc α} {f : α → Proc β} :
    ∀ {inc inc' s a r}, talk P inc = some (s, a) → talk (f a) inc' = some r → ∃ r', talk (P.bind f) (inc ++ inc') = some r' := by
  induction P with
  | ret a =>
    intro inc inc' s a' r h h'
    cases inc with
    | nil => simp only [talk, Option.some.injEq, Prod.mk.injEq] at h; rw [← h.2] at h'; exact ⟨r, h'⟩
    | cons => simp [talk] at h
  | fail => intro _ _ _ _ _ h; simp [talk] at h
  | undef => intro _ _ _ _ _ h; simp [talk] at h
  | send b k ih =>
    intro inc inc' s a r h h'
    simp only [talk, Option.map_eq_some_iff, Prod.mk.injEq] at h
    obtain ⟨x, hx, -, rfl⟩ := h
    obtain ⟨r', hr'⟩ := ih (s := x.1) (a := x.2) hx h'
    exact ⟨_, by show Option.map _ _ = _; rw [hr']; rfl⟩
  | recv k ih =>
    intro inc inc' s a r h h'
    cases inc with
    | nil => simp [talk] at h
    | cons b inc => exact ih b h h'

theorem feed_bind_to {P : Proc α} {f : α → Proc β} :
    ∀ {inc inc' s a}, talk P inc = some (s, a) → (feed (P.bind f) (inc ++ inc')).1 = (feed (f a) inc').1 := by
  induction P with
  | ret a =>
    intro inc inc' s a' h
    cases inc with
    | nil => simp only [talk, Option.some.injEq, Prod.mk.injEq] at h; rw [← h.2]; rfl
    | cons => simp [talk] at h
  | fail => intro _ _ _ _ h; simp [talk] at h
  | undef => intro _ _ _ _ h; simp [talk] at h
  | send b k ih =>
    intro inc inc' s a h
    simp only [talk, Option.map_eq_some_iff, Prod.mk.injEq] at h
    obtain ⟨x, hx, -, rfl⟩ := h
    exact ih (s := x.1) (a := x.2) hx
  | recv k ih =>
    intro inc inc' s a h
    cases inc with
    | nil => simp [talk] at h
    | cons b inc => exact ih b h

theorem canRet_bind {P : Proc α} {f : α → Proc β} (h : CanRet P) (hf : ∀ a, CanRet (f a)) : CanRet (P.bind f) := by
  obtain ⟨inc, ⟨s, a⟩, h⟩ := h
  obtain ⟨inc', r, h'⟩ := hf a
  obtain ⟨r', hr⟩ := talk_bind_to h h'
  exact ⟨_, r', hr⟩

theorem canUndef_bind {P : Proc α} {f : α → Proc β} (h : CanRet P) (hf : ∀ a, CanUndef (f a)) : CanUndef (P.bind f) := by
  obtain ⟨inc, ⟨s, a⟩, h⟩ := h
  obtain ⟨inc', h'⟩ := hf a
  exact ⟨inc ++ inc', by rw [feed_bind_to h]; exact h'⟩

theorem canUndef_bind_left {P : Proc α} {f : α → Proc β} (h : CanUndef P) : CanUndef (P.bind f) := by
  obtain ⟨inc, h⟩ := h
  refine ⟨inc, ?_⟩
  induction P generalizing inc with
  | ret a => simp [feed] at h
  | fail => simp [feed] at h
  | undef => rfl
  | send b k ih => exact ih inc h
  | recv k ih =>
    cases inc with
    | nil => simp [feed] at h
    | cons b inc => exact ih b inc h

theorem canRet_forP {f : Nat → σ → Proc σ} (h : ∀ i s, CanRet (f i s)) : ∀ n s, CanRet (Proc.forP f n s)
  | 0, _ => canRet_ret
  | n + 1, s => canRet_bind (canRet_forP h n s) (h n)

theorem canRet_sendBytes : ∀ l, CanRet (Proc.sendBytes l)
  | [] => canRet_ret
  | b :: l => by
    obtain ⟨inc, r, h⟩ := canRet_sendBytes l
    exact ⟨inc, (b :: r.1, r.2), by show Option.map _ _ = _; rw [h]; rfl⟩

theorem talk_recvBytes : ∀ l : List Byte, talk (Proc.recvBytes l.length) l = some ([], l)
  | [] => rfl
  | b :: l => by
    have h := talk_recvBytes l
    show talk ((Proc.recvBytes l.length).bind fun m => Proc.ret (b :: m)) l = _
    generalize Proc.recvBytes l.length = P at h
    generalize ([] : List Byte) = s at h ⊢
    suffices H : ∀ (P : Proc (List Byte)) inc s a, talk P inc = some (s, a) →
        talk (P.bind fun m => Proc.ret (b :: m)) inc = some (s, b :: a) from H P l s l h
    intro P
    induction P with
    | ret a =>
      intro inc s a' h
      cases inc with
      | nil => simp only [talk, Option.some.injEq, Prod.mk.injEq] at h; rw [← h.1, h.2]; rfl
      | cons => simp [talk] at h
    | fail => intro _ _ _ h; simp [talk] at h
    | undef => intro _ _ _ h; simp [talk] at h
    | send c k ih =>
      intro inc s a h
      simp only [talk, Option.map_eq_some_iff, Prod.mk.injEq] at h
      obtain ⟨x, hx, rfl, rfl⟩ := h
      show Option.map _ _ = _
      rw [ih inc x.1 x.2 hx]; rfl
    | recv k ih =>
      intro inc s a h
      cases inc with
      | nil => simp [talk] at h
      | cons c inc => exact ih c inc s a h

theorem canRet_sendData (l n) : CanRet (sendData l n) := by
  unfold sendData; split
  · exact canRet_ret
  · exact canRet_sendBytes _

theorem canRet_recvData (n) : CanRet (recvData n) := by
  unfold recvData; split
  · exact canRet_ret
  · refine ⟨List.replicate (toInt32 n).toNat 0, ([], List.replicate (toInt32 n).toNat 0), ?_⟩
    have := talk_recvBytes (List.replicate (toInt32 n).toNat 0)
    rw [List.length_replicate] at this
    exact this

theorem canRet_recvData_bind {n : Nat} (hn : toInt32 n = n) {f : List Byte → Proc β} (l : List Byte) (hl : l.length = n) (h : CanRet (f l)) :
    CanRet ((recvData n).bind f) := by
  unfold recvData; rw [hn]
  split
  · have : l = [] := List.length_eq_zero_iff.mp (by omega)
    rw [this] at h; exact h
  · obtain ⟨inc, r, h⟩ := h
    obtain ⟨r', h'⟩ := talk_bind_to (f := f) (talk_recvBytes l) h
    rw [show ((n : Int)).toNat = l.length from by omega]
    exact ⟨_, r', h'⟩

theorem canUndef_recvData_bind {n : Nat} (hn : toInt32 n = n) {f : List Byte → Proc β} (l : List Byte) (hl : l.length = n) (h : CanUndef (f l)) :
    CanUndef ((recvData n).bind f) := by
  unfold recvData; rw [hn]
  split
  · have : l = [] := List.length_eq_zero_iff.mp (by omega)
    rw [this] at h; exact h
  · obtain ⟨inc, h⟩ := h
    rw [show ((n : Int)).toNat = l.length from by omega]
    exact ⟨l ++ inc, by rw [feed_bind_to (talk_recvBytes l)]; exact h⟩

theorem canRet_sendBN (a) : CanRet (sendBN a) := canRet_bind (canRet_sendData _ _) fun _ => canRet_sendData _ _

/-- The number 1 can be received. -/
theorem canRet_recvBN_bind {f : Int → Proc β} (h : CanRet (f 1)) : CanRet (recvBN.bind f) := by
  unfold recvBN
  rw [Proof.bind_assoc]
  refine canRet_recvData_bind (by decide) [1, 0, 0, 0] rfl ?_
  rw [if_neg (by decide), Proof.bind_assoc]
  exact canRet_recvData_bind (by decide) [1] rfl h

theorem canRet_recvBN : CanRet recvBN := by
  rw [← Proof.bind_ret recvBN]; exact canRet_recvBN_bind canRet_ret

theorem canRet_otSendBN (m mLen co) : CanRet (otSendBN m mLen co) :=
  canRet_bind (canRet_sendData _ _) fun _ => canRet_bind (canRet_sendBN _) fun _ =>
  canRet_bind (canRet_sendBN _) fun _ =>
  canRet_bind (canRet_forP (fun _ _ => canRet_bind (canRet_sendBN _) fun _ => canRet_sendBN _) _ _) fun _ =>
  canRet_forP (fun _ _ => canRet_bind canRet_recvBN fun _ => canRet_bind (canRet_sendBN _) fun _ => canRet_sendBN _) _ _

theorem leValue_leBytes4 {n : Nat} (h : n < 2 ^ 32) : leValue (leBytes 4 n) = n := by
  have := Proof.leValue_leBytes 4 n
  omega

theorem canRet_otRecvBN (sel) {mLen} (h : mLen < 2 ^ 32) (rk m0) : CanRet (otRecvBN sel mLen rk m0) := by
  unfold otRecvBN
  refine canRet_recvData_bind (by decide) (leBytes 4 mLen) (by simp [leBytes]) ?_
  rw [leValue_leBytes4 h, if_neg (fun hh => hh rfl)]
  refine canRet_recvBN_bind (canRet_bind canRet_recvBN fun _ => canRet_bind (canRet_forP (fun _ _ =>
    canRet_bind canRet_recvBN fun _ => canRet_bind canRet_recvBN fun _ => canRet_ret) _ _) fun _ => ?_)
  rw [if_neg (by simp)]
  exact canRet_bind (canRet_forP (fun _ _ => canRet_sendBN _) _ _) fun _ =>
    canRet_forP (fun _ _ => canRet_bind canRet_recvBN fun _ => canRet_bind canRet_recvBN fun _ => canRet_ret) _ _

theorem canRet_evalOT (cr sel) {len} (h : len < 2 ^ 32) (rk ce) : CanRet (evalOT cr sel len rk ce) := by
  unfold evalOT
  rw [if_neg (Nat.not_le.mpr h)]
  split
  · unfold otExtRecv otExtRecvBN
    refine canRet_bind ?_ fun _ => canRet_ret
    obtain ⟨w, hw, -⟩ := Proof.switchRowColumnPair_eq (extT (selBN sel len) ce.T) len secKBit
    rw [hw]
    exact canRet_bind (canRet_otSendBN _ _ _) fun _ => canRet_forP (fun _ _ =>
      canRet_bind canRet_recvBN fun _ => canRet_bind canRet_recvBN fun _ => canRet_ret) _ _
  · exact canRet_bind (canRet_otRecvBN _ h _ _) fun _ => canRet_ret

theorem canRet_recvLabels (base size mem) : CanRet (recvLabels base size mem) :=
  canRet_forP (fun _ _ => canRet_bind (canRet_recvData _) fun _ => canRet_ret) _ _

theorem canRet_evalTransferLow (cr gSize) {eSize} (h : eSize < 2 ^ 32) (cid eNum mem dis rk ce) :
    CanRet (evalTransferLow cr gSize eSize cid eNum mem dis rk ce) :=
  canRet_bind (canRet_recvLabels _ _ _) fun _ => by
    split
    · exact canRet_bind (canRet_sendBN _) fun _ => canRet_recvLabels _ _ _
    · split
      · exact canRet_ret
      · exact canRet_bind (canRet_evalOT _ _ h _ _) fun _ => canRet_ret

theorem canRet_evalTransferHigh (cr c A) (h : c.eInit + A.cycles * c.eInput < 2 ^ 32) (init0 input0 rk ce) :
    CanRet (evalTransferHigh cr c A init0 input0 rk ce) :=
  canRet_bind (canRet_recvLabels _ _ _) fun _ =>
  canRet_bind (canRet_forP (fun _ _ => canRet_recvLabels _ _ _) _ _) fun _ => by
    split
    · exact canRet_bind (canRet_sendBN _) fun _ => canRet_bind (canRet_recvLabels _ _ _) fun _ =>
        canRet_bind (canRet_sendBN _) fun _ =>
        canRet_bind (canRet_forP (fun _ _ => canRet_recvLabels _ _ _) _ _) fun _ => canRet_ret
    · exact canRet_bind (canRet_evalOT _ _ h _ _) fun _ => canRet_ret

theorem leValue_leBytes8 {n : Nat} (h : n < 2 ^ 64) : leValue (leBytes 8 n) = n := by
  have := Proof.leValue_leBytes 8 n
  omega

/-- One table more than the buffer holds. -/
theorem canUndef_recvTables (c : Circuit) (h : (numOfNonXor c + 1) * tableBytes < 2 ^ 31) : CanUndef (recvTables c) := by
  unfold recvTables
  have ht : tableBytes = 48 := rfl
  rw [ht] at h
  refine canUndef_recvData_bind (by decide) (leBytes 8 (numOfNonXor c + 1)) (by simp [leBytes]) ?_
  rw [leValue_leBytes8 (by omega), if_pos (by
    rw [ht, show toInt32 ((numOfNonXor c + 1) * 48) = ((numOfNonXor c + 1) * 48 : Nat) from Proof.toInt32_of_lt h]
    omega)]
  exact ⟨[], rfl⟩

theorem canUndef_evaluateBN (cr c A E) (h0 : A.cycles ≠ 0) (hp : ¬ (A.period ≠ 0 ∧ c.terminateId = 0))
    (h : c.eInit + A.cycles * c.eInput < 2 ^ 32) (ht : (numOfNonXor c + 1) * tableBytes < 2 ^ 31) : CanUndef (evaluateBN cr c A E) := by
  have h1 : c.eInit < 2 ^ 32 := by omega
  have h2 : c.eInput < 2 ^ 32 := Nat.lt_of_le_of_lt
    (Nat.le_trans (Nat.le_mul_of_pos_left _ (Nat.pos_of_ne_zero h0)) (Nat.le_add_left _ _)) h
  obtain ⟨n, hn⟩ := Nat.exists_eq_succ_of_ne_zero h0
  unfold evaluateBN
  rw [if_neg h0, if_neg hp]
  refine canUndef_bind (canRet_recvData _) fun l => ?_
  split
  · unfold evalLow
    refine canUndef_bind (canRet_evalTransferLow _ _ h1 _ _ _ _ _ _) fun _ => ?_
    split
    · exact ⟨[], rfl⟩
    · rw [hn]
      unfold evalLoopLow
      exact canUndef_bind (canRet_evalTransferLow _ _ h2 _ _ _ _ _ _) fun _ => canUndef_bind_left (canUndef_recvTables c ht)
  · unfold evalHigh
    refine canUndef_bind (canRet_evalTransferHigh _ _ _ h _ _ _ _) fun _ => ?_
    split
    · exact ⟨[], rfl⟩
    · rw [hn]
      unfold evalLoopHigh
      exact canUndef_bind_left (canUndef_bind_left (canUndef_recvTables c ht))

end TinyGarble
