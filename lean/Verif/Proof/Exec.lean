import Verif.Proof.Proc

/-!
# Executing a pair of processes

A scheduler that prefers the first process; used to exhibit deadlocks.
-/

namespace TinyGarble.Proof
open TinyGarble Spec

variable {α β : Type}

def stepB (cap : Nat) (x : Config α β) : Option (Config α β) :=
  match x.B with
  | .send b k => if x.ba.length < cap then some ⟨x.A, x.ab, x.ba ++ [b], k⟩ else none
  | .recv k => match x.ab with
    | b :: q => some ⟨x.A, q, x.ba, k b⟩
    | [] => none
  | _ => none

def stepFn (cap : Nat) (x : Config α β) : Option (Config α β) :=
  match x.A with
  | .send b k => if x.ab.length < cap then some ⟨k, x.ab ++ [b], x.ba, x.B⟩ else stepB cap x
  | .recv k => match x.ba with
    | b :: q => some ⟨k b, x.ab, q, x.B⟩
    | [] => stepB cap x
  | _ => stepB cap x

def returned (x : Config α β) : Bool :=
  match x.A, x.B with
  | .ret _, .ret _ => true
  | _, _ => false

/-- Does the execution get stuck within `n` steps? -/
def deadlocks (cap : Nat) : Nat → Config α β → Bool
  | 0, _ => false
  | n + 1, x => match stepFn cap x with
    | some y => deadlocks cap n y
    | none => !returned x

theorem stepB_some {cap : Nat} {x y : Config α β} (h : stepB cap x = some y) : Step cap x y := by
  obtain ⟨A, ab, ba, B⟩ := x
  cases B with
  | ret b => simp [stepB] at h
  | fail => simp [stepB] at h
  | undef => simp [stepB] at h
  | send b k =>
    simp only [stepB] at h
    split at h
    · cases h; exact .sendB (by assumption)
    · cases h
  | recv k =>
    cases ab with
    | nil => simp [stepB] at h
    | cons b q => simp only [stepB] at h; cases h; exact .recvB

theorem stepFn_some {cap : Nat} {x y : Config α β} (h : stepFn cap x = some y) : Step cap x y := by
  obtain ⟨A, ab, ba, B⟩ := x
  cases A with
  | ret b => exact stepB_some h
  | fail => exact stepB_some h
  | undef => exact stepB_some h
  | send b k =>
    simp only [stepFn] at h
    split at h
    · cases h; exact .sendA (by assumption)
    · exact stepB_some h
  | recv k =>
    cases ba with
    | nil => exact stepB_some h
    | cons b q => simp only [stepFn] at h; cases h; exact .recvA

theorem stepB_none {cap : Nat} {x : Config α β} (h : stepFn cap x = none) : stepB cap x = none := by
  obtain ⟨A, ab, ba, B⟩ := x
  cases A with
  | ret b => exact h
  | fail => exact h
  | undef => exact h
  | send b k =>
    simp only [stepFn] at h
    split at h
    · cases h
    · exact h
  | recv k =>
    cases ba with
    | nil => exact h
    | cons b q => simp [stepFn] at h

theorem stepFn_none {cap : Nat} {x y : Config α β} (h : stepFn cap x = none) : ¬ Step cap x y := by
  intro s
  have hB := stepB_none h
  cases s with
  | sendA hq => simp [stepFn, hq] at h
  | recvA => simp [stepFn] at h
  | sendB hq => simp [stepB, hq] at hB
  | recvB => simp [stepB] at hB

theorem deadlocks_reach {cap n : Nat} {x : Config α β} (h : deadlocks cap n x = true) {z : Config α β} {l : Nat}
    (hz : Steps cap l z x) :
    ∃ m y, Steps cap m z y ∧ (∀ w, ¬ Step cap y w) ∧ ∀ a b, y.A ≠ .ret a ∨ y.B ≠ .ret b := by
  induction n generalizing x l with
  | zero => simp [deadlocks] at h
  | succ n ih =>
    simp only [deadlocks] at h
    split at h
    · rename_i y hy
      exact ih h (hz.tail (stepFn_some hy))
    · rename_i hn
      refine ⟨l, x, hz, fun w => stepFn_none hn, ?_⟩
      intro a b
      by_cases h1 : x.A = .ret a
      · right
        intro h2
        simp [returned, h1, h2] at h
      · exact Or.inl h1

theorem canDeadlock_of {cap n : Nat} {A : Proc α} {B : Proc β} (h : deadlocks cap n (start A B) = true) :
    CanDeadlock cap A B := deadlocks_reach h .refl

end TinyGarble.Proof
