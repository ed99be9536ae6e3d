import Verif.Spec.Schedule

/-!
# Matching pairs of processes

`Dual A B a b s r`: run against each other, `A` and `B` match send by receive, `A` returns `a`, `B`
returns `b`; `s` are the bytes sent by `A`, `r` those sent by `B`.
-/

namespace TinyGarble.Proof
open TinyGarble Spec

variable {α β γ δ σ τ : Type}

inductive Dual : Proc α → Proc β → α → β → List Byte → List Byte → Prop where
  | done {a : α} {b : β} : Dual (.ret a) (.ret b) a b [] []
  | ab {c k k' a b s r} : Dual k (k' c) a b s r → Dual (.send c k) (.recv k') a b (c :: s) r
  | ba {c k k' a b s r} : Dual (k c) k' a b s r → Dual (.recv k) (.send c k') a b s (c :: r)

theorem Dual.bind {A : Proc α} {B : Proc β} {a b s r} (h : Dual A B a b s r)
    {f : α → Proc γ} {g : β → Proc δ} {c d s' r'} (h' : Dual (f a) (g b) c d s' r') :
    Dual (A.bind f) (B.bind g) c d (s ++ s') (r ++ r') := by
  induction h with
  | done => exact h'
  | ab _ ih => exact .ab (ih h')
  | ba _ ih => exact .ba (ih h')

/-- Left side does something locally. -/
theorem Dual.symm {A : Proc α} {B : Proc β} {a b s r} (h : Dual A B a b s r) : Dual B A b a r s := by
  induction h with
  | done => exact .done
  | ab _ ih => exact .ba ih
  | ba _ ih => exact .ab ih

theorem bind_ret (A : Proc α) : A.bind .ret = A := by
  induction A with
  | ret a => rfl
  | fail => rfl
  | undef => rfl
  | send b k ih => simp only [Proc.bind, ih]
  | recv k ih => simp only [Proc.bind]; congr; funext b; exact ih b

theorem bind_assoc (A : Proc α) (f : α → Proc β) (g : β → Proc γ) :
    (A.bind f).bind g = A.bind fun a => (f a).bind g := by
  induction A with
  | ret a => rfl
  | fail => rfl
  | undef => rfl
  | send b k ih => simp only [Proc.bind, ih]
  | recv k ih => simp only [Proc.bind]; congr; funext b; exact ih b

theorem dual_bytes (l : List Byte) : Dual (.sendBytes l) (.recvBytes l.length) () l l [] := by
  induction l with
  | nil => exact .done
  | cons b l ih =>
    refine .ab ?_
    have := ih.bind (f := fun _ => .ret ()) (g := fun l => .ret (b :: l)) .done
    rw [bind_ret] at this
    simpa using this

/-- Loops of the same length that match in each iteration. -/
theorem dual_for {f : Nat → σ → Proc σ} {g : Nat → τ → Proc τ} {S : Nat → σ} {T : Nat → τ} {s r : Nat → List Byte}
    (n : Nat) (h : ∀ i < n, Dual (f i (S i)) (g i (T i)) (S (i + 1)) (T (i + 1)) (s i) (r i)) :
    Dual (.forP f n (S 0)) (.forP g n (T 0)) (S n) (T n)
      ((List.range n).flatMap s) ((List.range n).flatMap r) := by
  induction n with
  | zero => exact .done
  | succ n ih =>
    have := (ih fun i hi => h i (by omega)).bind (h n (by omega))
    rw [List.range_succ, List.flatMap_append, List.flatMap_append, List.flatMap_singleton, List.flatMap_singleton]
    exact this

/-! ## Schedules -/

theorem finished_stuck {a : α} {b : β} {cap : Nat} {y : Config α β} : ¬ Step cap (finished a b) y := by
  intro h; cases h

/-- Steps of different processes commute; each process has at most one step. -/
theorem Step.diamond {cap : Nat} {x y z : Config α β} (h1 : Step cap x y) (h2 : Step cap x z) :
    y = z ∨ ∃ w, Step cap y w ∧ Step cap z w := by
  cases h1 with
  | sendA hq =>
    cases h2 with
    | sendA _ => exact Or.inl rfl
    | sendB hr => exact Or.inr ⟨_, .sendB hr, .sendA hq⟩
    | recvB =>
      refine Or.inr ⟨_, .recvB, .sendA ?_⟩
      simp at hq; omega
  | recvA =>
    cases h2 with
    | recvA => exact Or.inl rfl
    | sendB hr =>
      refine Or.inr ⟨_, .sendB ?_, .recvA⟩
      simp at hr; omega
    | recvB => exact Or.inr ⟨_, .recvB, .recvA⟩
  | sendB hr =>
    cases h2 with
    | sendA hq => exact Or.inr ⟨_, .sendA hq, .sendB hr⟩
    | recvA =>
      refine Or.inr ⟨_, .recvA, .sendB ?_⟩
      simp at hr; omega
    | sendB _ => exact Or.inl rfl
  | recvB =>
    cases h2 with
    | sendA hq =>
      refine Or.inr ⟨_, .sendA ?_, .recvB⟩
      simp at hq; omega
    | recvA => exact Or.inr ⟨_, .recvA, .recvB⟩
    | recvB => exact Or.inl rfl

/-- Steps, counted from the start. -/
inductive Path (cap : Nat) : Nat → Config α β → Config α β → Prop where
  | refl {x} : Path cap 0 x x
  | head {n x y z} : Step cap x y → Path cap n y z → Path cap (n + 1) x z

theorem Path.trans {cap n m : Nat} {x y z : Config α β} (h : Path cap n x y) (h' : Path cap m y z) :
    Path cap (n + m) x z := by
  induction h with
  | refl => rwa [Nat.zero_add]
  | head s _ ih => rw [Nat.add_right_comm]; exact .head s (ih h')

theorem Steps.path {cap n : Nat} {x y : Config α β} (h : Steps cap n x y) : Path cap n x y := by
  induction h with
  | refl => exact .refl
  | tail _ s ih => exact ih.trans (.head s .refl)

/-- A first step in any direction keeps the end within reach. -/
theorem Path.after {cap n : Nat} {x y z : Config α β} (hz : ∀ w, ¬ Step cap z w) (h : Path cap n x z)
    (s : Step cap x y) : ∃ m, n = m + 1 ∧ Path cap m y z := by
  induction n generalizing x y with
  | zero => cases h; exact absurd s (hz _)
  | succ n ih =>
    cases h with
    | head s' h' =>
      rcases Step.diamond s s' with rfl | ⟨w, hw1, hw2⟩
      · exact ⟨n, rfl, h'⟩
      · obtain ⟨m, hm, hp⟩ := ih h' hw2
        exact ⟨n, rfl, by rw [hm]; exact .head hw1 hp⟩

/-- If one execution ends somewhere, then all do. -/
theorem Path.allEnd {cap n : Nat} {x0 z : Config α β} (hz : ∀ w, ¬ Step cap z w) (h : Path cap n x0 z) {m : Nat}
    {x : Config α β} (hx : Steps cap m x0 x) : m ≤ n ∧ (x = z ∧ m = n ∨ ∃ y, Step cap x y) := by
  have key : ∃ l, m + l = n ∧ Path cap l x z := by
    induction hx with
    | refl => exact ⟨n, Nat.zero_add _, h⟩
    | tail _ hs ih =>
      obtain ⟨l, h1, h2⟩ := ih h
      obtain ⟨l', h3, h4⟩ := h2.after hz hs
      exact ⟨l', by omega, h4⟩
  obtain ⟨l, h1, h2⟩ := key
  refine ⟨by omega, ?_⟩
  cases h2 with
  | refl => exact Or.inl ⟨rfl, h1⟩
  | head s _ => exact Or.inr ⟨_, s⟩

/-- If one execution finishes, then all do, with the same results. -/
theorem Path.always {cap n : Nat} {A : Proc α} {B : Proc β} {a b} (h : Path cap n (start A B) (finished a b)) :
    AlwaysFinishes cap A B a b := ⟨n, fun _ _ hx => h.allEnd (fun _ => finished_stuck) hx⟩

/-- Some execution leads to the processes `P` and `Q` with nothing in transit. -/
def RunsInto (cap : Nat) (A : Proc α) (B : Proc β) (P : Proc α) (Q : Proc β) : Prop :=
  ∃ n, Path cap n (start A B) (start P Q)

theorem RunsInto.refl {cap : Nat} {A : Proc α} {B : Proc β} : RunsInto cap A B A B := ⟨0, .refl⟩

theorem RunsInto.trans {cap : Nat} {A P P' : Proc α} {B Q Q' : Proc β} (h : RunsInto cap A B P Q)
    (h' : RunsInto cap P Q P' Q') : RunsInto cap A B P' Q' := by
  obtain ⟨n, h⟩ := h
  obtain ⟨m, h'⟩ := h'
  exact ⟨n + m, h.trans h'⟩

theorem RunsInto.deadlocks {cap : Nat} {A : Proc α} {B : Proc β} {f g} (h : RunsInto cap A B (.recv f) (.recv g)) :
    AlwaysDeadlocks cap A B := by
  obtain ⟨n, h⟩ := h
  refine ⟨n, fun m x hx => ?_⟩
  have := h.allEnd (by intro w hw; cases hw) hx
  refine ⟨this.1, ?_⟩
  rcases this.2 with ⟨h1, h2⟩ | h
  · exact .inl ⟨⟨f, g, h1⟩, h2⟩
  · exact .inr h

/-- Some execution with buffers of `cap` bytes finishes. -/
def Runs (cap : Nat) (A : Proc α) (B : Proc β) (a : α) (b : β) : Prop :=
  ∃ n, Path cap n (start A B) (finished a b)

theorem Runs.always {cap : Nat} {A : Proc α} {B : Proc β} {a b} (h : Runs cap A B a b) :
    AlwaysFinishes cap A B a b := h.elim fun _ h => h.always

theorem Runs.ret {cap : Nat} {a : α} {b : β} : Runs cap (.ret a) (.ret b) a b := ⟨0, .refl⟩

theorem Step.bind {cap : Nat} {x y : Config α β} (s : Step cap x y) (f : α → Proc γ) (g : β → Proc δ) :
    Step cap ⟨x.A.bind f, x.ab, x.ba, x.B.bind g⟩ ⟨y.A.bind f, y.ab, y.ba, y.B.bind g⟩ := by
  cases s with
  | sendA h => exact .sendA h
  | recvA => exact .recvA
  | sendB h => exact .sendB h
  | recvB => exact .recvB

theorem Path.bind {cap n : Nat} {x y : Config α β} (s : Path cap n x y) (f : α → Proc γ) (g : β → Proc δ) :
    Path cap n ⟨x.A.bind f, x.ab, x.ba, x.B.bind g⟩ ⟨y.A.bind f, y.ab, y.ba, y.B.bind g⟩ := by
  induction s with
  | refl => exact .refl
  | head s _ ih => exact .head (Step.bind s f g) ih

theorem Runs.bind {cap : Nat} {A : Proc α} {B : Proc β} {a b} (h : Runs cap A B a b)
    {f : α → Proc γ} {g : β → Proc δ} {c d} (h' : Runs cap (f a) (g b) c d) :
    Runs cap (A.bind f) (B.bind g) c d := by
  obtain ⟨n, h⟩ := h
  obtain ⟨m, h'⟩ := h'
  exact ⟨n + m, (h.bind f g).trans h'⟩

theorem Runs.into {cap : Nat} {A : Proc α} {B : Proc β} {a b} (h : Runs cap A B a b)
    {f : α → Proc γ} {g : β → Proc δ} {P Q} (h' : RunsInto cap (f a) (g b) P Q) :
    RunsInto cap (A.bind f) (B.bind g) P Q := by
  obtain ⟨n, h⟩ := h
  obtain ⟨m, h'⟩ := h'
  exact ⟨n + m, (h.bind f g).trans h'⟩

theorem RunsInto.runs {cap : Nat} {A P : Proc α} {B Q : Proc β} {a b} (h : RunsInto cap A B P Q) (h' : Runs cap P Q a b) :
    Runs cap A B a b := by
  obtain ⟨n, h⟩ := h
  obtain ⟨m, h'⟩ := h'
  exact ⟨n + m, h.trans h'⟩

theorem RunsInto.bind {cap : Nat} {A P : Proc α} {B Q : Proc β} (h : RunsInto cap A B P Q) (f : α → Proc γ) (g : β → Proc δ) :
    RunsInto cap (A.bind f) (B.bind g) (P.bind f) (Q.bind g) := by
  obtain ⟨n, h⟩ := h
  exact ⟨n, h.bind f g⟩

theorem runs_for {cap : Nat} {f : Nat → σ → Proc σ} {g : Nat → τ → Proc τ} {S : Nat → σ} {T : Nat → τ}
    (n : Nat) (h : ∀ i < n, Runs cap (f i (S i)) (g i (T i)) (S (i + 1)) (T (i + 1))) :
    Runs cap (.forP f n (S 0)) (.forP g n (T 0)) (S n) (T n) := by
  induction n with
  | zero => exact .ret
  | succ n ih => exact (ih fun i hi => h i (by omega)).bind (h n (by omega))

def Config.flip (x : Config α β) : Config β α := ⟨x.B, x.ba, x.ab, x.A⟩

theorem Path.flip {cap n : Nat} {x y : Config α β} (s : Path cap n x y) : Path cap n (Config.flip x) (Config.flip y) := by
  induction s with
  | refl => exact .refl
  | head s _ ih =>
    refine .head ?_ ih
    cases s with
    | sendA h => exact .sendB h
    | recvA => exact .recvB
    | sendB h => exact .sendA h
    | recvB => exact .recvA

theorem Runs.symm {cap : Nat} {A : Proc α} {B : Proc β} {a b} (h : Runs cap A B a b) : Runs cap B A b a :=
  h.elim fun n h => ⟨n, h.flip⟩

theorem Dual.runs {A : Proc α} {B : Proc β} {a b s r} (h : Dual A B a b s r) {cap : Nat} (hc : 0 < cap) :
    Runs cap A B a b := by
  induction h with
  | done => exact .ret
  | ab _ ih =>
    obtain ⟨n, h⟩ := ih
    exact ⟨n + 1 + 1, .head (.sendA hc) (.head .recvB h)⟩
  | ba _ ih =>
    obtain ⟨n, h⟩ := ih
    exact ⟨n + 1 + 1, .head (.sendB hc) (.head .recvA h)⟩

/-- Matching processes finish under every schedule, however small the buffers are. -/
theorem Dual.alwaysFinishes {A : Proc α} {B : Proc β} {a b s r} (h : Dual A B a b s r) {cap : Nat} (hc : 0 < cap) :
    AlwaysFinishes cap A B a b := (h.runs hc).always

/-- `P` preceded by sending `q`. -/
def pre : List Byte → Proc α → Proc α
  | [], P => P
  | b :: q, P => .send b (pre q P)

theorem pre_eq (q : List Byte) (P : Proc α) : pre q P = (Proc.sendBytes q).bind fun _ => P := by
  induction q with
  | nil => rfl
  | cons b q ih => simp only [pre, Proc.sendBytes, Proc.bind, ih]

/-- `A` runs with `r` waiting to be read by it, `B` only reads in the meantime. -/
inductive Dual1 : Proc α → List Byte → Proc β → α → β → Prop where
  | done {a : α} {b : β} : Dual1 (.ret a) [] (.ret b) a b
  | take {c k q B a b} : Dual1 (k c) q B a b → Dual1 (.recv k) (c :: q) B a b
  | ab {c k q k' a b} : Dual1 k q (k' c) a b → Dual1 (.send c k) q (.recv k') a b

theorem Dual1.path {A : Proc α} {B : Proc β} {q a b} (h : Dual1 A q B a b) {cap : Nat} (hc : 0 < cap) :
    ∃ n, Path cap n ⟨A, [], q, B⟩ (finished a b) := by
  induction h with
  | done => exact ⟨0, .refl⟩
  | take _ ih => obtain ⟨n, h⟩ := ih; exact ⟨n + 1, .head .recvA h⟩
  | ab _ ih =>
    obtain ⟨n, h⟩ := ih
    exact ⟨n + 1 + 1, .head (.sendA hc) (.head .recvB h)⟩

theorem pre_path {cap : Nat} (q : List Byte) {A : Proc α} {p r : List Byte} {B : Proc β} (h : r.length + q.length ≤ cap) :
    Path cap q.length ⟨A, p, r, pre q B⟩ ⟨A, p, r ++ q, B⟩ := by
  induction q generalizing r with
  | nil => rw [List.append_nil]; exact .refl
  | cons c q ih =>
    refine .head (.sendB (by simp at h; omega)) ?_
    have := ih (r := r ++ [c]) (by simp at h ⊢; omega)
    rwa [List.append_assoc] at this

/-- `B` may send `q` at once when the buffer has room for it. -/
theorem Dual1.runs {A : Proc α} {B : Proc β} {q a b} (h : Dual1 A q B a b) {cap : Nat} (hc : 0 < cap) (hq : q.length ≤ cap) :
    Runs cap A (pre q B) a b := by
  obtain ⟨n, h⟩ := h.path hc
  exact ⟨_, (pre_path q (r := []) (by simpa using hq)).trans h⟩

theorem Dual1.bind {A : Proc α} {B : Proc β} {q a b} (h : Dual1 A q B a b) {f : α → Proc γ} {g : β → Proc δ}
    {q' c d} (h' : Dual1 (f a) q' (g b) c d) : Dual1 (A.bind f) (q ++ q') (B.bind g) c d := by
  induction h with
  | done => exact h'
  | take _ ih => exact .take (ih h')
  | ab _ ih => exact .ab (ih h')

theorem Dual1.ofTake {A : Proc α} {q : List Byte} {a : α} {b : β} (h : Dual (.sendBytes q) A () a q []) :
    Dual1 A q (.ret b) a b := by
  induction q generalizing A with
  | nil => cases h; exact .done
  | cons x q ih => cases h with | ab h => exact .take (ih h)

theorem Dual1.ofDual' {A : Proc α} {B : Proc β} {a b s r} (h : Dual A B a b s r) (hr : r = []) :
    Dual1 A [] B a b := by
  induction h with
  | done => exact .done
  | ab _ ih => exact .ab (ih hr)
  | ba _ _ => cases hr

theorem Dual1.ofDual {A : Proc α} {B : Proc β} {a b s} (h : Dual A B a b s []) : Dual1 A [] B a b :=
  Dual1.ofDual' h rfl

theorem dual1_for {f : Nat → σ → Proc σ} {g : Nat → τ → Proc τ} {S : Nat → σ} {T : Nat → τ} {q : Nat → List Byte}
    (n : Nat) (h : ∀ i < n, Dual1 (f i (S i)) (q i) (g i (T i)) (S (i + 1)) (T (i + 1))) :
    Dual1 (.forP f n (S 0)) ((List.range n).flatMap q) (.forP g n (T 0)) (S n) (T n) := by
  induction n with
  | zero => exact .done
  | succ n ih =>
    rw [List.range_succ, List.flatMap_append, List.flatMap_singleton]
    exact (ih fun i hi => h i (by omega)).bind (h n (by omega))

theorem sendBytes_append (l l' : List Byte) :
    Proc.sendBytes (l ++ l') = (Proc.sendBytes l).bind fun _ => Proc.sendBytes l' := by
  induction l with
  | nil => rfl
  | cons b l ih => simp only [List.cons_append, Proc.sendBytes, Proc.bind, ih]

theorem forP_sendBytes {f : Nat → Unit → Proc Unit} {q : Nat → List Byte} (n : Nat)
    (h : ∀ i < n, f i () = Proc.sendBytes (q i)) :
    Proc.forP f n () = Proc.sendBytes ((List.range n).flatMap q) := by
  induction n with
  | zero => rfl
  | succ n ih =>
    rw [List.range_succ, List.flatMap_append, List.flatMap_singleton, sendBytes_append, Proc.forP,
      ih fun i hi => h i (by omega)]
    congr; funext u; exact h n (by omega)

end TinyGarble.Proof
