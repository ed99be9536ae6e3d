import Verif.Model.Hdl.Machines
import Verif.Spec.Hdl.Machines
import Verif.Proof.Hdl.Lib

/-!
# The stack machine (C76), the memory and public inputs (C77)
-/

namespace TinyGarble.Props.Hdl

open TinyGarble.Hdl TinyGarble.Spec.Hdl

/-- The registers hold the stack. -/
def Stacked {N : Nat} (stack : Nat → BitVec N) (s : List (BitVec N)) : Prop := ∀ j (h : j < s.length), stack j = s[j]

theorem stacked_cons {N : Nat} {stack : Nat → BitVec N} {a : BitVec N} {s : List (BitVec N)} (h : Stacked stack (a :: s)) :
    stack 0 = a ∧ ∀ j (h : j < s.length), stack (j + 1) = s[j] :=
  ⟨h 0 (by simp), fun j hj => h (j + 1) (by simpa using hj)⟩

theorem stacked_binary {N S : Nat} {stack next : Nat → BitVec N} {a b c : BitVec N} {s : List (BitVec N)} (h : Stacked stack (a :: b :: s))
    (hl : (a :: b :: s).length ≤ S) (hn : ∀ j, next j = if j = 0 then c else if j < S - 1 then stack (j + 1) else stack j) :
    Stacked next (c :: s) := by
  intro j hj
  simp only [List.length_cons] at hl hj
  cases j with
  | zero => rw [hn]; rfl
  | succ j =>
    rw [hn, if_neg (by omega), if_pos (by omega)]
    exact h (j + 2) (by simp; omega)

theorem stack_step {N S : Nat} (stack : Nat → BitVec N) (s s' : List (BitVec N)) (op : BitVec 3) (x a : BitVec N) (h : Stacked stack s)
    (hl : s.length ≤ S) (he : execute s op.toNat x = some s') (hl' : s'.length ≤ S) (ha : s'.head? = some a) :
    (stackStep S stack (x, op)).2 = a ∧ Stacked (stackStep S stack (x, op)).1 s' := by
  have hop := op.isLt
  have hcases : op.toNat = 0 ∨ op.toNat = 1 ∨ op.toNat = 2 ∨ op.toNat = 3 ∨ op.toNat = 4 ∨ op.toNat = 5 ∨ op.toNat = 6 ∨ op.toNat = 7 := by omega
  rcases hcases with e | e | e | e | e | e | e | e
  · rw [e] at he
    cases s with
    | nil => simp [execute] at he
    | cons u s =>
      simp only [execute, Option.some.injEq] at he
      subst he
      have ha : u = a := by simpa using ha
      simp only [stackStep, stackDecode, e]
      exact ⟨ha ▸ (stacked_cons h).1, h⟩
  · rw [e] at he
    rcases s with _ | ⟨u, _ | ⟨v, s⟩⟩
    · simp [execute] at he
    · simp [execute] at he
    · simp only [execute, Option.some.injEq] at he
      subst he
      have ha : u + v = a := by simpa using ha
      have h0 := h 0 (by simp); have h1 := h 1 (by simp)
      simp only [List.getElem_cons_zero, List.getElem_cons_succ] at h0 h1
      simp only [stackStep, stackDecode, e, h0, h1]
      exact ⟨ha, stacked_binary h hl fun j => by simp⟩
  · rw [e] at he
    rcases s with _ | ⟨u, _ | ⟨v, s⟩⟩
    · simp [execute] at he
    · simp [execute] at he
    · simp only [execute, Option.some.injEq] at he
      subst he
      have ha : u - v = a := by simpa using ha
      have h0 := h 0 (by simp); have h1 := h 1 (by simp)
      simp only [List.getElem_cons_zero, List.getElem_cons_succ] at h0 h1
      simp only [stackStep, stackDecode, e, h0, h1]
      exact ⟨ha, stacked_binary h hl fun j => by simp⟩
  · rw [e] at he
    rcases s with _ | ⟨u, _ | ⟨v, s⟩⟩
    · simp [execute] at he
    · simp [execute] at he
    · simp only [execute, Option.some.injEq] at he
      subst he
      have ha : u * v = a := by simpa using ha
      have h0 := h 0 (by simp); have h1 := h 1 (by simp)
      simp only [List.getElem_cons_zero, List.getElem_cons_succ] at h0 h1
      simp only [stackStep, stackDecode, e, h0, h1]
      exact ⟨ha, stacked_binary h hl fun j => by simp⟩
  · rw [e] at he
    have he : x :: s = s' := by
      rcases s with _ | ⟨u, _ | ⟨v, s⟩⟩ <;> simpa [execute] using he
    subst he
    have ha : x = a := by simpa using ha
    simp only [stackStep, stackDecode, e]
    refine ⟨ha, ?_⟩
    intro j hj
    simp only [List.length_cons] at hl' hj
    cases j with
    | zero => rfl
    | succ j =>
      have h' := h j (by omega)
      simp only [if_true, Nat.add_sub_cancel, List.getElem_cons_succ]
      rw [if_neg (by omega), if_pos (by omega)]
      exact h'
  · rw [e] at he
    cases s with
    | nil => simp [execute] at he
    | cons u s =>
      have he : (-u) :: s = s' := by
        rcases s with _ | ⟨v, s⟩ <;> simpa [execute] using he
      subst he
      have ha : -u = a := by simpa using ha
      have h0 := (stacked_cons h).1
      have hneg : (-1 : BitVec N) * u = -u := by
        rw [BitVec.neg_mul]
        exact congrArg Neg.neg (BitVec.one_mul u)
      simp only [stackStep, stackDecode, e, h0, hneg]
      refine ⟨ha, ?_⟩
      intro j hj
      cases j with
      | zero => rfl
      | succ j => simpa using (stacked_cons h).2 j (by simpa using hj)
  · rw [e] at he
    rcases s with _ | ⟨u, _ | ⟨v, s⟩⟩
    · simp [execute] at he
    · simp [execute] at he
    · simp only [execute, Option.some.injEq] at he
      subst he
      have ha : u &&& v = a := by simpa using ha
      have h0 := h 0 (by simp); have h1 := h 1 (by simp)
      simp only [List.getElem_cons_zero, List.getElem_cons_succ] at h0 h1
      simp only [stackStep, stackDecode, e, h0, h1]
      exact ⟨ha, stacked_binary h hl fun j => by simp⟩
  · rw [e] at he
    rcases s with _ | ⟨u, _ | ⟨v, s⟩⟩
    · simp [execute] at he
    · simp [execute] at he
    · simp only [execute, Option.some.injEq] at he
      subst he
      have ha : u ||| v = a := by simpa using ha
      have h0 := h 0 (by simp); have h1 := h 1 (by simp)
      simp only [List.getElem_cons_zero, List.getElem_cons_succ] at h0 h1
      simp only [stackStep, stackDecode, e, h0, h1]
      exact ⟨ha, stacked_binary h hl fun j => by simp⟩

theorem stack_run {N S : Nat} (i : List (BitVec N × BitVec 3)) (stack : Nat → BitVec N) (s : List (BitVec N)) (h : Stacked stack s)
    (hl : s.length ≤ S) (o : List (BitVec N)) (ho : tops S s (i.map fun p => (p.2.toNat, p.1)) = some o) :
    runSeq (stackStep S) stack i = o := by
  induction i generalizing stack s o with
  | nil => simpa [tops, runSeq] using ho
  | cons p i ih =>
    obtain ⟨x, op⟩ := p
    rw [List.map_cons, tops, Option.bind_eq_bind, Option.bind_eq_some_iff] at ho
    obtain ⟨s', h1, h2⟩ := ho
    split at h2
    · rename_i hl'
      rw [Option.bind_eq_bind, Option.bind_eq_some_iff] at h2
      obtain ⟨a, h3, h4⟩ := h2
      rw [Option.bind_eq_some_iff] at h4
      obtain ⟨r, h5, h6⟩ := h4
      obtain ⟨h7, h8⟩ := stack_step stack s s' op x a h hl h1 hl' h3
      rw [runSeq, h7, ih _ s' h8 hl' r h5]
      exact Option.some.inj h6
    · simp at h2

/-- **C76**: for every program that never has too few operands nor more than `S` entries on the stack, the output of each cycle is the top
of the stack after its instruction. -/
theorem C76_stack_machine {N : Nat} (S : Nat) (i : List (BitVec N × BitVec 3)) (o : List (BitVec N))
    (ho : tops S [] (i.map fun p => (p.2.toNat, p.1)) = some o) : stackMachine S i = o :=
  stack_run i _ [] (fun j hj => by simp at hj) (Nat.zero_le _) o ho

/-- **C76**: no instruction computes the bitwise exclusive or, although the text has a branch for it. -/
theorem C76_no_xor (op : BitVec 3) : ∃ (stack : Nat → BitVec 8) (x : BitVec 8), (stackStep 8 stack (x, op)).2 ≠ stack 0 ^^^ stack 1 := by
  refine ⟨fun j => if j = 0 then 1 else 3, 0, ?_⟩
  revert op
  decide +kernel

/-! ## The memory -/

/-- The write of a cycle: the first enabled port. -/
def writeOf {M W : Nat} (i : SelectIn M W) : List (Nat × BitVec W) :=
  if i.w1.en then [(i.w1.adr.toNat, i.w1.data)] else if i.w2.en then [(i.w2.adr.toNat, i.w2.data)]
  else if i.w3.en then [(i.w3.adr.toNat, i.w3.data)] else []

theorem mem_step {M W : Nat} (mem : Nat → BitVec W) (l : List (Nat × BitVec W)) (h : ∀ a < M, mem a = content a l) (i : SelectIn M W) :
    ∀ a < M, (selectStep M W mem i).1 a = content a (writeOf i ++ l) := by
  intro a ha
  have key : ∀ b (d : BitVec W), memWrite M mem b d a = content a ((b, d) :: l) := by
    intro b d
    rw [memWrite, content]
    by_cases e : b = a
    · rw [if_pos ⟨e.symm, by omega⟩, if_pos e]
    · rw [if_neg (by rintro ⟨e', -⟩; exact e e'.symm), if_neg e, h a ha]
  simp only [selectStep, writeOf]
  split
  · exact key _ _
  · split
    · exact key _ _
    · split
      · exact key _ _
      · exact h a ha

theorem mem_run {M W : Nat} (i : List (SelectIn M W)) (mem : Nat → BitVec W) (l : List (Nat × BitVec W)) (h : ∀ a < M, mem a = content a l)
    (t : Nat) (ht : t < i.length) (ha : i[t].readAdr.toNat < M) :
    (runSeq (selectStep M W) mem i)[t]? = some (some (content i[t].readAdr.toNat ((i.take t).reverse.flatMap writeOf ++ l))) := by
  induction i generalizing mem l t with
  | nil => simp at ht
  | cons p i ih =>
    rw [runSeq]
    cases t with
    | zero =>
      rw [List.getElem_cons_zero] at ha
      simp [selectStep, ha, h]
    | succ t =>
      rw [List.getElem?_cons_succ, List.getElem_cons_succ] at *
      rw [ih _ (writeOf p ++ l) (mem_step mem l h p) t (by simpa using ht) ha]
      simp [List.flatMap_append]

/-- **C77**, select.v: what is read is the last data written to the address in an earlier cycle; of several enabled ports the first one
writes. -/
theorem C77_memory {M W : Nat} (i : List (SelectIn M W)) (t : Nat) (ht : t < i.length) (ha : i[t].readAdr.toNat < M) :
    (select M W i)[t]? = some (some (content i[t].readAdr.toNat ((i.take t).reverse.flatMap writeOf))) := by
  have := mem_run i (fun _ => 0) [] (fun a _ => rfl) t ht ha
  rwa [List.append_nil] at this

/-! ## Public inputs -/

/-- The exclusive or of the words in a list. -/
def xorAll {n : Nat} (l : List (BitVec n)) : BitVec n := l.foldr (· ^^^ ·) 0

theorem append_zero (m : Nat) {n : Nat} (x : BitVec n) : 0#m ++ x = x.setWidth (m + n) := by
  apply BitVec.eq_of_getLsbD_eq
  intro i hi
  rw [BitVec.getLsbD_append, BitVec.getLsbD_setWidth]
  by_cases h : i < n
  · simp [h, hi]
  · simp [h, BitVec.getLsbD_of_ge x i (by omega)]

theorem public_run (i : List PublicIn) (a : BitVec 8) (b : BitVec 16) (c : BitVec 32) (t : Nat) (ht : t < i.length) :
    (publicTest a b c i)[t]? = some ((a ^^^ xorAll ((i.take (t + 1)).map (·.e))).setWidth 32 ^^^
      (b ^^^ xorAll ((i.take (t + 1)).map (·.g))).setWidth 32 ^^^ (c ^^^ xorAll ((i.take (t + 1)).map (·.p)))) := by
  rw [publicTest]
  induction i generalizing a b c t with
  | nil => simp at ht
  | cons p i ih =>
    rw [runSeq]
    cases t with
    | zero =>
      simp only [List.getElem?_cons_zero, List.take_succ_cons, List.take_zero, List.map_cons, List.map_nil, xorAll, List.foldr_cons,
        List.foldr_nil, publicStep, Option.some.injEq]
      rw [show p.e ^^^ 0 = p.e by simp, show p.g ^^^ 0 = p.g by simp, show p.p ^^^ 0 = p.p by simp,
        BitVec.xor_comm a, BitVec.xor_comm b, BitVec.xor_comm c]
      congr 2
      · exact append_zero 24 _
      · exact append_zero 16 _
    | succ t =>
      rw [List.getElem?_cons_succ]
      have := ih (p.e ^^^ a) (p.g ^^^ b) (p.p ^^^ c) t (by simpa using ht)
      refine Eq.trans this ?_
      simp only [List.take_succ_cons, List.map_cons, xorAll, List.foldr_cons]
      rw [BitVec.xor_comm p.e a, BitVec.xor_comm p.g b, BitVec.xor_comm p.p c, BitVec.xor_assoc a, BitVec.xor_assoc b, BitVec.xor_assoc c]

/-- **C77**, public_test.v: the output is the exclusive or of the initial values and of all inputs so far, public ones, the garbler's
and the evaluator's. -/
theorem C77_public (pInit : BitVec 8) (gInit : BitVec 16) (eInit : BitVec 32) (i : List PublicIn) (t : Nat) (ht : t < i.length) :
    (publicTest pInit gInit eInit i)[t]? = some ((pInit ^^^ xorAll ((i.take (t + 1)).map (·.e))).setWidth 32 ^^^
      (gInit ^^^ xorAll ((i.take (t + 1)).map (·.g))).setWidth 32 ^^^ (eInit ^^^ xorAll ((i.take (t + 1)).map (·.p)))) :=
  public_run i pInit gInit eInit t ht

/-! ## Examples -/

example : tops (N := 8) 8 [] ([(3, 4), (5, 4), (0, 1), (2, 4), (0, 3), (0, 5)].map fun p : BitVec 8 × BitVec 3 => (p.2.toNat, p.1)) =
    some [3, 5, 8, 2, 16, -16] := by decide +kernel

example : stackMachine (N := 8) 8 [(3, 4), (5, 4), (0, 1), (2, 4), (0, 3), (0, 5)] = [3, 5, 8, 2, 16, -16] := by decide +kernel

example : content 3 [(2, 7#8), (3, 9#8), (3, 1#8)] = 9 := by decide

example : publicTest 1 2 3 [⟨4, 5, 6⟩, ⟨7, 8, 9⟩] = [(1 ^^^ 6) ^^^ (2 ^^^ 5) ^^^ (3 ^^^ 4), (1 ^^^ 6 ^^^ 9) ^^^ (2 ^^^ 5 ^^^ 8) ^^^ (3 ^^^ 4 ^^^ 7)] := by decide +kernel

end TinyGarble.Props.Hdl
