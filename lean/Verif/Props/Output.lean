import Verif.Spec.Talk
import Verif.Spec.Protocol
import Verif.Props.ExampleProtocol
import Verif.Proof.Transfer

/-!
# Flow of output decoding information (C11)
-/

namespace TinyGarble.Props
open TinyGarble Proof Spec

theorem talk_bind {P : Proc α} {f : α → Proc β} {inc out : List Byte} {b : β} (h : talk (P.bind f) inc = some (out, b)) :
    ∃ inc1 inc2 out1 out2 a, inc = inc1 ++ inc2 ∧ out = out1 ++ out2 ∧ talk P inc1 = some (out1, a)
      ∧ talk (f a) inc2 = some (out2, b) := by
  induction P generalizing inc out with
  | ret a => exact ⟨[], inc, [], out, a, rfl, rfl, rfl, h⟩
  | fail => cases h
  | undef => cases h
  | send c k ih =>
    simp only [Proc.bind, talk, Option.map_eq_some_iff, Prod.mk.injEq] at h
    obtain ⟨⟨o, b'⟩, h1, rfl, rfl⟩ := h
    obtain ⟨i1, i2, o1, o2, a, rfl, rfl, h2, h3⟩ := ih h1
    exact ⟨i1, i2, c :: o1, o2, a, rfl, rfl, by simp only [talk, h2, Option.map_some], h3⟩
  | recv k ih =>
    cases inc with
    | nil => cases h
    | cons c inc =>
      obtain ⟨i1, i2, o1, o2, a, rfl, rfl, h2, h3⟩ := ih c h
      exact ⟨c :: i1, i2, o1, o2, a, rfl, rfl, h2, h3⟩

theorem talk_forP {f : Nat → σ → Proc σ} {q : Nat → List Byte} (n : Nat)
    (hf : ∀ i < n, ∀ s inc out s', talk (f i s) inc = some (out, s') → out = q i) {s s' : σ} {inc out : List Byte}
    (h : talk (Proc.forP f n s) inc = some (out, s')) : out = (List.range n).flatMap q := by
  induction n generalizing inc out s' with
  | zero => cases inc <;> cases h; rfl
  | succ n ih =>
    obtain ⟨i1, i2, o1, o2, a, rfl, rfl, h1, h2⟩ := talk_bind h
    rw [ih (fun i hi => hf i (by omega)) h1, hf n (by omega) _ _ _ _ h2, List.range_succ, List.flatMap_append,
      List.flatMap_singleton]

theorem talk_sendBytes {l inc out : List Byte} {u : Unit} (h : talk (Proc.sendBytes l) inc = some (out, u)) : out = l := by
  induction l generalizing out with
  | nil => cases inc <;> cases h; rfl
  | cons b l ih =>
    simp only [Proc.sendBytes, talk, Option.map_eq_some_iff, Prod.mk.injEq] at h
    obtain ⟨⟨o, _⟩, h1, rfl, _⟩ := h
    rw [ih h1]

theorem talk_recvBytes {n : Nat} {inc out l : List Byte} (h : talk (Proc.recvBytes n) inc = some (out, l)) : out = [] := by
  induction n generalizing inc out l with
  | zero => cases inc <;> cases h; rfl
  | succ n ih =>
    cases inc with
    | nil => cases h
    | cons b inc =>
      obtain ⟨i1, i2, o1, o2, a, rfl, rfl, h1, h2⟩ := talk_bind h
      rw [ih h1]
      cases i2 <;> cases h2; rfl

theorem talk_ret {a b : α} {inc out : List Byte} (h : talk (Proc.ret a) inc = some (out, b)) : out = [] := by
  cases inc <;> cases h; rfl

theorem sendShort (b : Bool) : sendData (shortBytes b) 2 = Proc.sendBytes (shortBytes b) := by
  cases b <;> rfl

theorem recvShort : recvData 2 = Proc.recvBytes 2 := rfl

/-- Bytes about output `i` if its value is secret. -/
def about (v : WVal) (b : Bool) : List Byte :=
  match v with
  | .pub _ => []
  | .sec _ => shortBytes b

theorem garbleOutputStep_sends {mask : Nat} {lab : Nat → BlockPair} {val : Nat → WVal} {off i out r : Nat}
    {inc o : List Byte} (h : talk (garbleOutputStep mask lab val off i out) inc = some (o, r)) :
    o = if mask.testBit i then [] else about (val i) (getLSB (lab i).label0) := by
  unfold garbleOutputStep at h
  have hm : (numBits mask ≤ i ∨ mask.testBit i = false) ↔ mask.testBit i = false :=
    ⟨fun h => h.elim numBits_testBit id, Or.inr⟩
  rcases hv : val i with b | b
  · rw [hv] at h
    have : o = [] := by
      cases b
      · exact talk_ret h
      · simp only at h
        split at h <;> exact talk_ret h
    rw [this]
    split <;> rfl
  · rw [hv] at h
    simp only [hm] at h
    by_cases hb : mask.testBit i = false
    · rw [if_pos hb] at h
      rw [hb]
      obtain ⟨i1, i2, o1, o2, a, rfl, rfl, h1, h2⟩ := talk_bind h
      rw [sendShort] at h1
      rw [talk_sendBytes h1, talk_ret h2, List.append_nil]
      rfl
    · rw [if_neg hb] at h
      simp only [Bool.not_eq_false] at hb
      rw [hb]
      obtain ⟨i1, i2, o1, o2, a, rfl, rfl, h1, h2⟩ := talk_bind h
      rw [recvShort] at h1
      rw [talk_recvBytes h1, talk_ret h2]
      rfl

theorem evalOutputStep_sends {mask : Nat} {lab : Nat → Block} {val : Nat → WVal} {off i out r : Nat}
    {inc o : List Byte} (h : talk (evalOutputStep mask lab val off i out) inc = some (o, r)) :
    o = if mask.testBit i then about (val i) (getLSB (lab i)) else [] := by
  unfold evalOutputStep at h
  have hm : (numBits mask ≤ i ∨ mask.testBit i = false) ↔ mask.testBit i = false :=
    ⟨fun h => h.elim numBits_testBit id, Or.inr⟩
  rcases hv : val i with b | b
  · rw [hv] at h
    have : o = [] := by
      cases b
      · exact talk_ret h
      · simp only at h
        split at h <;> exact talk_ret h
    rw [this]
    split <;> rfl
  · rw [hv] at h
    simp only [hm] at h
    by_cases hb : mask.testBit i = false
    · rw [if_pos hb] at h
      rw [hb]
      obtain ⟨i1, i2, o1, o2, a, rfl, rfl, h1, h2⟩ := talk_bind h
      rw [recvShort] at h1
      rw [talk_recvBytes h1, talk_ret h2]
      rfl
    · rw [if_neg hb] at h
      simp only [Bool.not_eq_false] at hb
      rw [hb]
      obtain ⟨i1, i2, o1, o2, a, rfl, rfl, h1, h2⟩ := talk_bind h
      rw [sendShort] at h1
      rw [talk_sendBytes h1, talk_ret h2, List.append_nil]
      rfl

theorem flatMap_congr_range {n : Nat} {f g : Nat → List Byte} (h : ∀ i < n, f i = g i) :
    (List.range n).flatMap f = (List.range n).flatMap g :=
  List.flatMap_congr fun i hi => h i (by simpa using hi)

/-- C11, Alice: two complete runs of the garbler's output loop (of any cycle, with any numbers read from the
other side, any earlier results) in which the wires Bob owns (mask bit 0) have the same labels and the same
public or secret status send the same bytes, whatever the wires Alice owns. -/
theorem C11_garbler_sends {mask : Nat} {lab lab' : Nat → BlockPair} {val val' : Nat → WVal} {n : Nat}
    (hl : ∀ i < n, mask.testBit i = false → lab i = lab' i ∧ val i = val' i)
    {off off' acc acc' r r' : Nat} {inc inc' sent sent' : List Byte}
    (h : talk (garbleOutputs mask lab val off n acc) inc = some (sent, r))
    (h' : talk (garbleOutputs mask lab' val' off' n acc') inc' = some (sent', r')) : sent = sent' := by
  rw [talk_forP n (fun _ _ _ _ _ _ h => garbleOutputStep_sends h) h,
    talk_forP n (fun _ _ _ _ _ _ h => garbleOutputStep_sends h) h']
  apply flatMap_congr_range
  intro i hi
  cases hm : mask.testBit i
  · rw [(hl i hi hm).1, (hl i hi hm).2]
  · rfl

/-- C11, Bob: the bytes the evaluator sends depend only on the wires Alice owns (mask bit 1). -/
theorem C11_evaluator_sends {mask : Nat} {lab lab' : Nat → Block} {val val' : Nat → WVal} {n : Nat}
    (hl : ∀ i < n, mask.testBit i = true → lab i = lab' i ∧ val i = val' i)
    {off off' acc acc' r r' : Nat} {inc inc' sent sent' : List Byte}
    (h : talk (evalOutputs mask lab val off n acc) inc = some (sent, r))
    (h' : talk (evalOutputs mask lab' val' off' n acc') inc' = some (sent', r')) : sent = sent' := by
  rw [talk_forP n (fun _ _ _ _ _ _ h => evalOutputStep_sends h) h,
    talk_forP n (fun _ _ _ _ _ _ h => evalOutputStep_sends h) h']
  apply flatMap_congr_range
  intro i hi
  cases hm : mask.testBit i
  · rfl
  · rw [(hl i hi hm).1, (hl i hi hm).2]

/-- The loop over all cycles at the end of the garbler's high-memory mode, as written in `garbleHigh`. -/
def garbleOutputsHigh (c : Circuit) (mask : Nat) (saved : Nat → BlockPair × WVal) (cycles : Nat) : Proc Nat :=
  Proc.forP (fun cid out => garbleOutputs mask (fun i => (saved (cid * c.outputSize + i)).1)
    (fun i => (saved (cid * c.outputSize + i)).2) (cid * c.outputSize) c.outputSize out) cycles 0

/-- Likewise the evaluator's, in `evalHigh`. -/
def evalOutputsHigh (c : Circuit) (mask : Nat) (saved : Nat → Block × WVal) (cycles : Nat) : Proc Nat :=
  Proc.forP (fun cid out => evalOutputs mask (fun i => (saved (cid * c.outputSize + i)).1)
    (fun i => (saved (cid * c.outputSize + i)).2) (cid * c.outputSize) c.outputSize out) cycles 0

/-- C11, Alice, all cycles of the high-memory mode. -/
theorem C11_garbler_sends_high {c : Circuit} {mask cycles : Nat} {saved saved' : Nat → BlockPair × WVal}
    (hl : ∀ t < cycles, ∀ i < c.outputSize, mask.testBit i = false →
      saved (t * c.outputSize + i) = saved' (t * c.outputSize + i))
    {r r' : Nat} {inc inc' sent sent' : List Byte}
    (h : talk (garbleOutputsHigh c mask saved cycles) inc = some (sent, r))
    (h' : talk (garbleOutputsHigh c mask saved' cycles) inc' = some (sent', r')) : sent = sent' := by
  rw [talk_forP cycles (fun _ _ _ _ _ _ h => talk_forP _ (fun _ _ _ _ _ _ h => garbleOutputStep_sends h) h) h,
    talk_forP cycles (fun _ _ _ _ _ _ h => talk_forP _ (fun _ _ _ _ _ _ h => garbleOutputStep_sends h) h) h']
  apply flatMap_congr_range
  intro t ht
  apply flatMap_congr_range
  intro i hi
  cases hm : mask.testBit i
  · rw [hl t ht i hi hm]
  · rfl

/-- C11, Bob, all cycles of the high-memory mode. -/
theorem C11_evaluator_sends_high {c : Circuit} {mask cycles : Nat} {saved saved' : Nat → Block × WVal}
    (hl : ∀ t < cycles, ∀ i < c.outputSize, mask.testBit i = true →
      saved (t * c.outputSize + i) = saved' (t * c.outputSize + i))
    {r r' : Nat} {inc inc' sent sent' : List Byte}
    (h : talk (evalOutputsHigh c mask saved cycles) inc = some (sent, r))
    (h' : talk (evalOutputsHigh c mask saved' cycles) inc' = some (sent', r')) : sent = sent' := by
  rw [talk_forP cycles (fun _ _ _ _ _ _ h => talk_forP _ (fun _ _ _ _ _ _ h => evalOutputStep_sends h) h) h,
    talk_forP cycles (fun _ _ _ _ _ _ h => talk_forP _ (fun _ _ _ _ _ _ h => evalOutputStep_sends h) h) h']
  apply flatMap_congr_range
  intro t ht
  apply flatMap_congr_range
  intro i hi
  cases hm : mask.testBit i
  · rfl
  · rw [hl t ht i hi hm]

/-- Two secret outputs, the second owned by Alice: she sends the low bit of the first one's label. -/
example : talk (garbleOutputs 2 (fun i => ⟨BitVec.ofNat 128 (i + 1), 0⟩) (fun _ => .sec false) 0 2 0) [0, 0]
    = some ([1, 0], 0) ∧
    talk (evalOutputs 2 (fun i => BitVec.ofNat 128 (i + 2)) (fun _ => .sec false) 0 2 0) [1, 0] = some ([1, 0], 1) := by
  decide +kernel

/-- These loops are the ones the parties run. -/
example (cr : Crypto) (c : Circuit) (A : Args) (G : GEnv) (h : refsInRange c = true) : garbleHigh cr c A G =
    (garbleTransferHigh cr c A (initLabelsHigh G.rnd) (inputLabelsHigh c G.rnd) (G.ot 0) (G.ext 0)).bind fun _ =>
    (garbleLoopHigh cr c A G A.cycles 0 G.st0 (fun _ => (zeroPair, .sec false))).bind fun r =>
    (garbleOutputsHigh c A.mask r.1 r.2).bind fun out => .ret (out, r.2) := by
  unfold garbleHigh
  rw [h]
  rfl

end TinyGarble.Props
