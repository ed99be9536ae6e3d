import Verif.Model.TestRun
import Verif.Props.StrApi
import Verif.Props.OT
import Verif.Proof.Main

/-!
# C98: what a passed test of a garbled execution means

`TestReturns cap w A B r`: the test program can return `r` when server and client are the programs `A` and `B`.
-/

namespace TinyGarble.Props
open TinyGarble Proof Spec

/-- How a program has ended: `none` not yet (or never), `some none` with FAILURE, `some (some a)` with SUCCESS. -/
def endedAs {α : Type} : Proc α → Option (Option α)
  | .ret a => some (some a)
  | .fail => some none
  | _ => none

/-- In some execution of server and client both end, and `TcpipTestRun` then returns `r`. -/
def TestReturns (cap : Nat) (w : TestWorld) (A B : Proc Unit) (r : Int) : Prop :=
  ∃ m x s c, Steps cap m (start A B) x ∧ endedAs x.A = some s ∧ endedAs x.B = some c ∧ r = tcpipTestRun w s c

/-! ## TcpipTestRun -/

theorem openTrials_iff (opens : Nat → Bool) : ∀ n i, n + i = 20 → 0 < n →
    (openTrials opens n i = true ↔ ∃ j, i ≤ j ∧ j < 20 ∧ opens j = true) := by
  intro n
  induction n with
  | zero => intro i _ h; omega
  | succ n ih =>
    intro i hi _
    unfold openTrials
    by_cases h : opens i = false
    · rw [if_pos h]
      by_cases hl : i = 20 - 1
      · rw [if_pos hl]
        refine ⟨fun e => (by cases e), ?_⟩
        rintro ⟨j, h1, h2, h3⟩
        have : j = i := by omega
        subst this; rw [h] at h3; cases h3
      · rw [if_neg hl, ih (i + 1) (by omega) (by omega)]
        constructor
        · rintro ⟨j, h1, h2, h3⟩; exact ⟨j, by omega, h2, h3⟩
        · rintro ⟨j, h1, h2, h3⟩
          refine ⟨j, ?_, h2, h3⟩
          have : j ≠ i := by intro e; subst e; rw [h] at h3; cases h3
          omega
    · rw [if_neg h]
      exact ⟨fun _ => ⟨i, by omega, by omega, by simpa using h⟩, fun _ => rfl⟩

/-- C98, `TcpipTestRun` returns SUCCESS exactly if one of the twenty ports could be opened, the processes
could be started and connected, both functions succeeded, and the client was not killed; otherwise it
returns FAILURE. -/
theorem C98_run (w : TestWorld) (server client : Option Unit) :
    (tcpipTestRun w server client = testSuccess ↔ (∃ i < 20, w.opens i = true) ∧ w.fork = true ∧ w.accept = true
      ∧ w.connect = true ∧ server = some () ∧ client = some () ∧ w.killed = none)
    ∧ (tcpipTestRun w server client = testSuccess ∨ tcpipTestRun w server client = testFailure) := by
  have ho := openTrials_iff w.opens 20 0 rfl (by decide)
  have ho' : openTrials w.opens 20 0 = true ↔ ∃ i < 20, w.opens i = true :=
    ho.trans ⟨fun ⟨j, _, h2, h3⟩ => ⟨j, h2, h3⟩, fun ⟨j, h2, h3⟩ => ⟨j, Nat.zero_le _, h2, h3⟩⟩
  rw [← ho']
  obtain ⟨opens, fork, accept, connect, killed⟩ := w
  have hk : ∀ (s : Fin 127) (code : Int), clientFailed (waitStatus (some s) code) = true := by
    intro s code
    have : (s.val + 1) % 128 ≠ 0 := by have := s.isLt; omega
    simp [clientFailed, waitStatus, this]
  unfold tcpipTestRun
  simp only
  cases openTrials opens 20 0 <;> cases fork <;> cases accept <;> cases connect <;> cases killed <;>
    rcases server with _ | ⟨⟨⟩⟩ <;> rcases client with _ | ⟨⟨⟩⟩ <;>
    simp [hk, testSuccess, testFailure, clientExit] <;> decide

example : tcpipTestRun ⟨fun i => decide (i = 3), true, true, true, none⟩ (some ()) (some ()) = 0
    ∧ tcpipTestRun ⟨fun i => decide (i = 3), true, true, true, some 8⟩ (some ()) (some ()) = -1 := by decide

/-! ## Programs whose results are compared -/

/-- Executions of the checked programs are executions of the programs. -/
theorem checked_steps {cap : Nat} {α β : Type} {A : Proc α} {B : Proc β} {oa : α → Bool} {ob : β → Bool} {m : Nat} {x : Config Unit Unit}
    (h : Steps cap m (start (checkedBy A oa) (checkedBy B ob)) x) :
    ∃ A' B', Steps cap m (start A B) ⟨A', x.ab, x.ba, B'⟩ ∧ x.A = checkedBy A' oa ∧ x.B = checkedBy B' ob := by
  generalize hs : start (checkedBy A oa) (checkedBy B ob) = s at h
  induction h with
  | refl => subst hs; exact ⟨A, B, .refl, rfl, rfl⟩
  | @tail n x y z h1 h2 ih =>
    obtain ⟨A', B', hst, hA, hB⟩ := ih hs
    have hret : ∀ c : Bool, (∃ b, (if c = false then Proc.fail else Proc.ret ()) = b ∧ (b = .fail ∨ b = .ret ())) := by
      intro c; cases c <;> simp
    cases h2 with
    | @sendA b k q r B'' hq =>
      cases A' with
      | send b' k' =>
        simp only [checkedBy, Proc.bind, Proc.send.injEq] at hA
        obtain ⟨rfl, rfl⟩ := hA
        exact ⟨k', B', .tail hst (.sendA hq), rfl, hB⟩
      | ret a => obtain ⟨b, e, h⟩ := hret (oa a); simp only [checkedBy, Proc.bind] at hA; rw [e] at hA; rcases h with rfl | rfl <;> cases hA
      | fail => cases hA
      | undef => cases hA
      | recv k' => cases hA
    | @recvA k q b r B'' =>
      cases A' with
      | recv k' =>
        simp only [checkedBy, Proc.bind, Proc.recv.injEq] at hA
        subst hA
        exact ⟨k' b, B', .tail hst .recvA, rfl, hB⟩
      | ret a => obtain ⟨b, e, h⟩ := hret (oa a); simp only [checkedBy, Proc.bind] at hA; rw [e] at hA; rcases h with rfl | rfl <;> cases hA
      | fail => cases hA
      | undef => cases hA
      | send b' k' => cases hA
    | @sendB A'' q r b k hq =>
      cases B' with
      | send b' k' =>
        simp only [checkedBy, Proc.bind, Proc.send.injEq] at hB
        obtain ⟨rfl, rfl⟩ := hB
        exact ⟨A', k', .tail hst (.sendB hq), hA, rfl⟩
      | ret a => obtain ⟨b, e, h⟩ := hret (ob a); simp only [checkedBy, Proc.bind] at hB; rw [e] at hB; rcases h with rfl | rfl <;> cases hB
      | fail => cases hB
      | undef => cases hB
      | recv k' => cases hB
    | @recvB A'' b q r k =>
      cases B' with
      | recv k' =>
        simp only [checkedBy, Proc.bind, Proc.recv.injEq] at hB
        subst hB
        exact ⟨A', k' b, .tail hst .recvB, hA, rfl⟩
      | ret a => obtain ⟨b, e, h⟩ := hret (ob a); simp only [checkedBy, Proc.bind] at hB; rw [e] at hB; rcases h with rfl | rfl <;> cases hB
      | fail => cases hB
      | undef => cases hB
      | send b' k' => cases hB

theorem checked_success {α : Type} {A : Proc α} {ok : α → Bool} (h : endedAs (checkedBy A ok) = some (some ())) :
    ∃ a, A = .ret a ∧ ok a = true := by
  cases A with
  | ret a =>
    cases hn : ok a with
    | false => simp [checkedBy, Proc.bind, hn, endedAs] at h
    | true => exact ⟨a, rfl, hn⟩
  | fail => cases h
  | undef => cases h
  | send b k => cases h
  | recv k => cases h

/-- A step of the programs is a step of the checked programs. -/
theorem checked_step {cap : Nat} {α β : Type} {A : Proc α} {B : Proc β} {ab ba : List Byte} {y : Config α β} (oa : α → Bool) (ob : β → Bool)
    (h : Step cap ⟨A, ab, ba, B⟩ y) : ∃ z, Step cap ⟨checkedBy A oa, ab, ba, checkedBy B ob⟩ z := by
  cases h with
  | sendA hq => exact ⟨_, .sendA hq⟩
  | recvA => exact ⟨_, .recvA⟩
  | sendB hq => exact ⟨_, .sendB hq⟩
  | recvB => exact ⟨_, .recvB⟩

/-- A test whose two programs check their results: if it returns SUCCESS, the two programs have, in an execution, returned SUCCESS
with results that pass the checks. -/
theorem passed_results {cap : Nat} {w : TestWorld} {α β : Type} {A : Proc α} {B : Proc β} {oa : α → Bool} {ob : β → Bool}
    (h : TestReturns cap w (checkedBy A oa) (checkedBy B ob) testSuccess) :
    ∃ m a ab ba b, Steps cap m (start A B) ⟨.ret a, ab, ba, .ret b⟩ ∧ oa a = true ∧ ob b = true := by
  obtain ⟨m, x, s, c, hs, h1, h2, hr⟩ := h
  obtain ⟨-, -, -, -, rfl, rfl, -⟩ := (C98_run w s c).1.1 hr.symm
  obtain ⟨A', B', ht, hA, hB⟩ := checked_steps hs
  rw [hA] at h1
  rw [hB] at h2
  obtain ⟨a, rfl, ha⟩ := checked_success h1
  obtain ⟨b, rfl, hb⟩ := checked_success h2
  exact ⟨m, a, _, _, b, ht, ha, hb⟩

theorem against_iff {e a : List Char} : (!decide (a ≠ e)) = true ↔ a = e := by simp

/-- C98, a passed test: if the test returns SUCCESS, the two parties have, in an execution of `GarbleStr` and
`EvaluateStr` on the same connection, returned SUCCESS with the expected strings. -/
theorem C98_passed {cap : Nat} {w : TestWorld} {A B : Proc (List Char)} {ea eb : List Char}
    (h : TestReturns cap w (checkedAgainst A ea) (checkedAgainst B eb) testSuccess) :
    ∃ m ab ba, Steps cap m (start A B) ⟨.ret ea, ab, ba, .ret eb⟩ := by
  obtain ⟨m, a, ab, ba, b, ht, ha, hb⟩ := passed_results h
  rw [against_iff.1 ha, against_iff.1 hb] at ht
  exact ⟨m, _, _, ht⟩

/-- The checked programs always finish, if the programs do so with results that pass the checks. -/
theorem checked_finishes {cap : Nat} {α β : Type} {A : Proc α} {B : Proc β} {a : α} {b : β} (h : AlwaysFinishes cap A B a b)
    {oa : α → Bool} {ob : β → Bool} (ha : oa a = true) (hb : ob b = true) :
    AlwaysFinishes cap (checkedBy A oa) (checkedBy B ob) () () := by
  obtain ⟨n, h⟩ := h
  refine ⟨n, fun m x hx => ?_⟩
  obtain ⟨A', B', ht, hA, hB⟩ := checked_steps hx
  obtain ⟨h1, h2⟩ := h m _ ht
  refine ⟨h1, ?_⟩
  obtain ⟨XA, ab, ba, XB⟩ := x
  simp only at hA hB ht h2
  rcases h2 with ⟨h2, h3⟩ | ⟨y, hy⟩
  · left
    simp only [finished, Config.mk.injEq] at h2
    obtain ⟨rfl, rfl, rfl, rfl⟩ := h2
    exact ⟨by rw [hA, hB]; simp [finished, checkedBy, Proc.bind, ha, hb], h3⟩
  · right
    rw [hA, hB]
    exact checked_step oa ob hy

theorem stuck_of_ended {cap : Nat} {α β : Type} {x y : Config α β} {s c} (h1 : endedAs x.A = some s) (h2 : endedAs x.B = some c) :
    ¬ Step cap x y := by
  intro h
  cases h with
  | sendA => cases h1
  | recvA => cases h1
  | sendB => cases h2
  | recvB => cases h2

/-- A world in which no call of the system fails. -/
structure GoodWorld (w : TestWorld) : Prop where
  opens : ∃ i < 20, w.opens i = true
  fork : w.fork = true
  accept : w.accept = true
  connect : w.connect = true
  killed : w.killed = none

theorem finishes_reach {cap : Nat} {α β : Type} {A : Proc α} {B : Proc β} {a : α} {b : β} (h : AlwaysFinishes cap A B a b) :
    ∃ n, Steps cap n (start A B) (finished a b) := by
  obtain ⟨n, h⟩ := h
  have key : ∀ k, k ≤ n → ∃ x, Steps cap k (start A B) x := by
    intro k
    induction k with
    | zero => exact fun _ => ⟨_, .refl⟩
    | succ k ih =>
      intro hk
      obtain ⟨x, hx⟩ := ih (by omega)
      rcases (h k x hx).2 with ⟨-, he⟩ | ⟨y, hy⟩
      · omega
      · exact ⟨y, hx.tail hy⟩
  obtain ⟨x, hx⟩ := key n (Nat.le_refl _)
  rcases (h n x hx).2 with ⟨he, -⟩ | ⟨y, hy⟩
  · exact ⟨n, he ▸ hx⟩
  · have := (h _ y (hx.tail hy)).1
    omega

/-- If server and client always finish with SUCCESS, the test returns SUCCESS and nothing else (in a world without failures of
the system). -/
theorem returns_success {cap : Nat} {A B : Proc Unit} (h : AlwaysFinishes cap A B () ()) {w : TestWorld} (hw : GoodWorld w) (r : Int) :
    TestReturns cap w A B r ↔ r = testSuccess := by
  have hs := ((C98_run w (some ()) (some ())).1).2 ⟨hw.1, hw.2, hw.3, hw.4, rfl, rfl, hw.5⟩
  constructor
  · rintro ⟨m, x, s, c, hx, h1, h2, hr⟩
    obtain ⟨n, h⟩ := h
    rcases (h m _ hx).2 with ⟨he, -⟩ | ⟨y, hy⟩
    · subst he
      cases h1
      cases h2
      rw [hr, hs]
    · exact absurd hy (stuck_of_ended h1 h2)
  · rintro rfl
    obtain ⟨n, hx⟩ := finishes_reach h
    exact ⟨n, _, _, _, hx, rfl, rfl, hs.symm⟩

/-- If the programs always finish, the test returns SUCCESS exactly if the results pass the checks (in a world without failures
of the system). -/
theorem checked_result {cap : Nat} {α β : Type} {A : Proc α} {B : Proc β} {a : α} {b : β} (h : AlwaysFinishes cap A B a b)
    {oa : α → Bool} {ob : β → Bool} {w : TestWorld} (hw : GoodWorld w) {r : Int}
    (hr : TestReturns cap w (checkedBy A oa) (checkedBy B ob) r) : r = testSuccess ↔ oa a = true ∧ ob b = true := by
  constructor
  · rintro rfl
    obtain ⟨m, a', ab, ba, b', hs, ha, hb⟩ := passed_results hr
    obtain ⟨n, h⟩ := h
    rcases (h m _ hs).2 with ⟨he, -⟩ | ⟨y, hy⟩
    · simp only [finished, Config.mk.injEq, Proc.ret.injEq] at he
      exact ⟨he.1 ▸ ha, he.2.2.2 ▸ hb⟩
    · exact absurd hy (stuck_of_ended rfl rfl)
  · rintro ⟨ha, hb⟩
    exact (returns_success (checked_finishes h ha hb) hw r).1 hr

/-! ## The tests of netlists -/

/-- C98, a passed test of a netlist: in an execution of the two parties Bob has returned the string of the plaintext evaluator, and
Alice "0" (in the test with a mask, the other way round). -/
theorem C98_netlist_passed {cap : Nat} {w : TestWorld} {t : NetlistTest} {cr : Crypto} {file : Option Circuit} {G : GEnv} {E : EEnv}
    {p : List Char} (h : TestReturns cap w (t.server cr file p G) (t.client cr file p E) testSuccess) :
    ∃ m ab ba, Steps cap m (start (garbleStr cr file t.alice G) (evaluateStr cr file t.bob E))
      ⟨.ret (if t.toAlice then p else "0".toList), ab, ba, .ret (if t.toAlice then "0".toList else p)⟩ :=
  C98_passed h

theorem shows_zero {mode : OutputMode} (hm : mode ≠ .separatedClock) {os m : Nat} {g : List Char} {bit : Nat → Nat → Bool}
    (h : ShowsRun mode os m bit g) (hz : ∀ t i, bit t i = false) (hpos : 0 < m) : g = "0".toList := by
  have h0 : Shows ("0".toList) 0 := ⟨by decide, by decide, .inl rfl⟩
  refine showsRun_unique (t := "0".toList) hpos h (g := fun _ _ => false) ?_ (fun t _ i _ => hz t i)
  cases mode with
  | consecutive => exact ⟨0, h0, fun _ _ _ _ => Nat.zero_testBit _, fun _ _ => Nat.zero_testBit _⟩
  | separatedClock => exact absurd rfl hm
  | lastClock => exact ⟨0, h0, fun i => by simp⟩

/-- C98, the test of a netlist in which nothing goes wrong passes: with the circuit file and both auxiliary files, arguments as the
protocol needs them, a mask that gives all outputs to the one who expects them, and no lost output (C10), both processes always end
with SUCCESS, and the test returns SUCCESS. Missing: lost outputs; and the mode `separated_clock`, which no test uses (the expected
"0" is wrong there). -/
theorem C98_netlist_passes_partial {cap : Nat} {t : NetlistTest} {cr : Crypto} {c : Circuit} {G : GEnv} {E : EEnv}
    {v : Nat → Nat → Bool} (h : Proper cap cr c t.alice.parse t.bob.parse G E v) (hmode : t.mode ≠ .separatedClock)
    (hmask : ∀ i < c.outputSize, (hex2bn t.mask).testBit i = t.toAlice)
    (hn : ∀ k < t.cycles, ∀ i < c.outputSize, ¬ (sessionOf cr c t.alice.parse t.bob.parse G E).LostAt (hex2bn t.mask) v k i)
    (w0 : Nat → Bool) :
    ∃ p, t.expected (some c) true true w0 = some p
      ∧ AlwaysFinishes cap (garbleStr cr (some c) t.alice G) (evaluateStr cr (some c) t.bob E) (t.aliceOutput p) (t.bobOutput p)
      ∧ AlwaysFinishes cap (t.server cr (some c) p G) (t.client cr (some c) p E) () ()
      ∧ ∀ w : TestWorld, GoodWorld w → ∀ r, TestReturns cap w (t.server cr (some c) p G) (t.client cr (some c) p E) r ↔ r = testSuccess := by
  obtain ⟨g, e, m, h1, h2, h3, h4, h5⟩ := strings_protocol h
  obtain ⟨p, m', p1, p2, p3⟩ := C40_evaluates_partial h.setup.wf (strInputs t.alice t.bob) w0 (n := t.cycles) (T := t.period)
    h.setup.cycles h.setup.term t.mode (v := v) h.values
  have hm : m' = m := executed_unique p2 h3
  subst hm
  have k5 : ShowsRun t.mode c.outputSize m' (fun k i => !t.toAlice && v k (c.outputs i).toNat) e := by
    refine showsRun_congr h2 h5 (fun k hk i hi => ?_)
    have hk' : k < t.cycles := Nat.lt_of_lt_of_le hk h3.le
    rw [← hmask i hi]
    by_cases hl : t.alice.parse.useLow = true ∧ t.alice.mode = .lastClock
    · rw [if_pos hl]
      exact storedLast_of_not_lost (n := t.cycles) hk' (fun k hk => hn k hk i hi)
    · rw [if_neg hl]
      show (sessionOf cr c t.alice.parse t.bob.parse G E).stored (hex2bn t.mask) v k i = _
      unfold Session.stored
      rw [if_neg (hn k hk' i hi)]
      rfl
  have k4 : ShowsRun t.mode c.outputSize m' (fun k i => t.toAlice && v k (c.outputs i).toNat) g := by
    refine showsRun_congr h2 h4 (fun k _ i hi => ?_)
    rw [← hmask i hi]
    rfl
  have hg : g = t.aliceOutput p := by
    unfold NetlistTest.aliceOutput
    cases hA : t.toAlice with
    | false => exact shows_zero hmode k4 (fun k i => by rw [hA]; rfl) h2
    | true => exact showsRun_unique h2 k4 p3 (fun k _ i _ => by rw [hA]; rfl)
  have he : e = t.bobOutput p := by
    unfold NetlistTest.bobOutput
    cases hA : t.toAlice with
    | false => exact showsRun_unique h2 k5 p3 (fun k _ i _ => by rw [hA]; rfl)
    | true => exact shows_zero hmode k5 (fun k i => by rw [hA]; rfl) h2
  subst hg he
  have hf : AlwaysFinishes cap (t.server cr (some c) p G) (t.client cr (some c) p E) () () :=
    checked_finishes h1 (against_iff.2 rfl) (against_iff.2 rfl)
  exact ⟨p, p1, h1, hf, fun w hw r => returns_success hf hw r⟩

/-- A test of the four cycles of the example circuit, with OT, in low-memory mode. -/
def prTest (mode : OutputMode) : NetlistTest :=
  ⟨⟨"0".toList, "0".toList, "0".toList, "4".toList, "5".toList, "7".toList⟩, 4, "0".toList, false, 1, mode, false, true⟩

def goodWorld : TestWorld := ⟨fun _ => true, true, true, true, none⟩

example : GoodWorld goodWorld := ⟨⟨0, by decide, rfl⟩, rfl, rfl, rfl, rfl⟩

example : Proper 16896 prCrypto prCircuit (prTest .lastClock).alice.parse (prTest .lastClock).bob.parse prG prE prV
    ∧ (prTest .lastClock).mode ≠ .separatedClock
    ∧ (∀ i < prCircuit.outputSize, (hex2bn (prTest .lastClock).mask).testBit i = (prTest .lastClock).toAlice)
    ∧ (∀ k < (prTest .lastClock).cycles, ∀ i < prCircuit.outputSize, ¬ (sessionOf prCrypto prCircuit (prTest .lastClock).alice.parse
      (prTest .lastClock).bob.parse prG prE).LostAt (hex2bn (prTest .lastClock).mask) prV k i)
    ∧ (prTest .lastClock).expected (some prCircuit) true true (fun _ => false) = some "03".toList :=
  ⟨prProper_ot .., by decide, by decide, fun t _ i _ => not_lost_of_segment (by decide) t i, by decide +kernel⟩

/-- C98, the test of the processor (a23_test_main.cpp) passes whenever nothing goes wrong: all outputs go to Bob, so that none is
lost. -/
theorem C98_a23_passes {cap : Nat} {cr : Crypto} {c : Circuit} {G : GEnv} {E : EEnv} {v : Nat → Nat → Bool}
    {fs : List Char → Option (List Char)} {p_init g_init e_init : List Char} {cycles period : Nat}
    (h : Proper cap cr c (a23Test fs p_init g_init e_init cycles period).alice.parse
      (a23Test fs p_init g_init e_init cycles period).bob.parse G E v) (w0 : Nat → Bool) :
    ∃ p, (a23Test fs p_init g_init e_init cycles period).expected (some c) true true w0 = some p
      ∧ AlwaysFinishes cap (garbleStr cr (some c) (a23Test fs p_init g_init e_init cycles period).alice G)
        (evaluateStr cr (some c) (a23Test fs p_init g_init e_init cycles period).bob E) "0".toList p
      ∧ ∀ w : TestWorld, GoodWorld w → ∀ r, TestReturns cap w
        ((a23Test fs p_init g_init e_init cycles period).server cr (some c) p G)
        ((a23Test fs p_init g_init e_init cycles period).client cr (some c) p E) r ↔ r = testSuccess := by
  have hz : hex2bn (a23Test fs p_init g_init e_init cycles period).mask = 0 := by
    show hex2bn "0".toList = 0
    decide
  obtain ⟨p, h1, h2, -, h4⟩ := C98_netlist_passes_partial h (by show OutputMode.lastClock ≠ _; decide)
    (fun i _ => by rw [hz]; exact Nat.zero_testBit i)
    (fun t _ i _ => not_lost_of_segment (by rw [hz]; decide) t i) w0
  exact ⟨p, h1, h2, h4⟩

/-- The test on the example circuit, with the value of Bob in a file. -/
def prA23 : NetlistTest :=
  a23Test (fun f => if f = "e.txt".toList then some "0".toList else none) "0".toList "0".toList "e.txt".toList 4 1

theorem prA23_noAccident : (sessionOf prCrypto prCircuit prA23.alice.parse prA23.bob.parse prG prE).NoAccident 3 := by
  intro k hk
  have : k = 0 ∨ k = 1 ∨ k = 2 ∨ k = 3 := by omega
  rcases this with rfl | rfl | rfl | rfl <;>
    exact ⟨checkG_sound (by decide +kernel), checkE_sound (by decide +kernel)⟩

example : Proper 16896 prCrypto prCircuit prA23.alice.parse prA23.bob.parse prG prE
    (plainWires prCircuit ⟨0, 0, 0, 0, 0, 0⟩ fun _ => false) where
  setup :=
    { prSetup_ot 0 .lastClock true with
      paired := ⟨rfl, rfl, rfl, rfl, rfl, rfl, rfl, rfl⟩
      sizes := ⟨by decide, by decide, by decide, by show 0 + 4 * 1 < 2 ^ 30; decide, by show numBytes 0 < 2 ^ 31; decide,
        by show numBytes 0 < 2 ^ 31; decide⟩ }
  values := plainWires_solves prCircuit_wf _ _
  lucky := by
    intro k (hk : k < 4) _ j hj
    exact prA23_noAccident j (by omega)
  publicStop := by
    intro _ k (hk : k < 4) _ _
    have : k = 0 ∨ k = 1 ∨ k = 2 ∨ k = 3 := by omega
    rcases this with rfl | rfl | rfl | rfl <;> decide +kernel

/-- The files, where every missing one is replaced by one that contains 0. -/
def zeroFiles (fs : List Char → Option (List Char)) (f : List Char) : Option (List Char) := some ((fs f).getD "0".toList)

theorem readFile_zero (fs : List Char → Option (List Char)) (path : List Char) :
    hex2bn (readFileOrPassHex fs ('/' :: path)) = hex2bn (readFileOrPassHex (zeroFiles fs) ('/' :: path)) := by
  unfold readFileOrPassHex zeroFiles
  cases fs ('/' :: path) with
  | none => rfl
  | some t => rfl

/-- C98 fails for the test of the processor when a file with the program or with an input is missing: its (absolute) path is then read
as a hexadecimal number, and the test does, in the plaintext evaluator and in both parties, exactly what it does for a file that
contains 0; it is not noticed that the program is not executed. -/
theorem C98_false_a23_missing (fs : List Char → Option (List Char)) (p g e : List Char) (cycles period : Nat) (cr : Crypto)
    (file : Option Circuit) (mapFile csvFile : Bool) (w0 : Nat → Bool) (G : GEnv) (E : EEnv) (r : List Char) :
    let t := a23Test fs ('/' :: p) ('/' :: g) ('/' :: e) cycles period
    let t0 := a23Test (zeroFiles fs) ('/' :: p) ('/' :: g) ('/' :: e) cycles period
    t.expected file mapFile csvFile w0 = t0.expected file mapFile csvFile w0
      ∧ t.server cr file r G = t0.server cr file r G ∧ t.client cr file r E = t0.client cr file r E := by
  have hp := readFile_zero fs p
  have hg := readFile_zero fs g
  have he := readFile_zero fs e
  have hi : (a23Test fs ('/' :: p) ('/' :: g) ('/' :: e) cycles period).inputs.parse
      = (a23Test (zeroFiles fs) ('/' :: p) ('/' :: g) ('/' :: e) cycles period).inputs.parse := by
    simp only [a23Test, StrInputs.parse, hp, hg, he]
  have ha : (a23Test fs ('/' :: p) ('/' :: g) ('/' :: e) cycles period).alice.parse
      = (a23Test (zeroFiles fs) ('/' :: p) ('/' :: g) ('/' :: e) cycles period).alice.parse := by
    simp only [a23Test, NetlistTest.alice, StrArgs.parse, hp, hg]
  have hb : (a23Test fs ('/' :: p) ('/' :: g) ('/' :: e) cycles period).bob.parse
      = (a23Test (zeroFiles fs) ('/' :: p) ('/' :: g) ('/' :: e) cycles period).bob.parse := by
    simp only [a23Test, NetlistTest.bob, StrArgs.parse, hp, he]
  refine ⟨?_, ?_, ?_⟩
  · unfold NetlistTest.expected evaluatePlaintextStr
    rw [hi]
    rfl
  · unfold NetlistTest.server garbleStr
    rw [ha]
    rfl
  · unfold NetlistTest.client evaluateStr
    rw [hb]
    rfl

/-- A path that contains hexadecimal digits, with and without the file. -/
example : hex2bn (readFileOrPassHex (fun _ => none) "/a23/add/p.txt".toList) = 0
    ∧ hex2bn (readFileOrPassHex (fun _ => some "E1\n2F\n".toList) "/a23/add/p.txt".toList) = 0x2FE1 := by decide

/-- C98 fails when an auxiliary file of the netlist cannot be opened: the expected string is then "0" whatever the circuit and the
inputs, so that the test passes exactly if Bob's string is "0": a correct garbled execution whose outputs are not all 0 makes it
fail, and one that is wrongly all 0 makes it pass. -/
theorem C98_false_missing_files {cap : Nat} {t : NetlistTest} {cr : Crypto} {c : Circuit} {G : GEnv} {E : EEnv}
    {v : Nat → Nat → Bool} (h : Proper cap cr c t.alice.parse t.bob.parse G E v) (hmode : t.mode ≠ .separatedClock)
    (hmask : ∀ i < c.outputSize, (hex2bn t.mask).testBit i = false)
    {mapFile csvFile : Bool} (hf : (mapFile && csvFile) = false) (w0 : Nat → Bool) :
    t.expected (some c) mapFile csvFile w0 = some "0".toList
      ∧ ∃ e, AlwaysFinishes cap (garbleStr cr (some c) t.alice G) (evaluateStr cr (some c) t.bob E) "0".toList e
        ∧ ∀ w : TestWorld, GoodWorld w → ∀ r, TestReturns cap w (t.server cr (some c) "0".toList G) (t.client cr (some c) "0".toList E) r →
          (r = testSuccess ↔ e = "0".toList) := by
  obtain ⟨g, e, m, h1, h2, h3, h4, h5⟩ := strings_protocol h
  obtain ⟨p, p1, p2⟩ := C40_success_without_evaluation c hf w0 (n := t.cycles) (T := t.period) h.setup.cycles h.setup.term t.mode
  have hp := shows_zero hmode p2 (fun _ _ => rfl) h.setup.cycles
  subst hp
  have k4 : ShowsRun t.mode c.outputSize m (fun _ _ => false) g := by
    refine showsRun_congr h2 h4 (fun k _ i hi => ?_)
    show ((hex2bn t.mask).testBit i && _) = _
    rw [hmask i hi]
    rfl
  have hg := shows_zero hmode k4 (fun _ _ => rfl) h2
  subst hg
  refine ⟨p1 t.inputs, e, h1, fun w hw r hr => ?_⟩
  have ea : t.aliceOutput "0".toList = "0".toList := by unfold NetlistTest.aliceOutput; split <;> rfl
  have eb : t.bobOutput "0".toList = "0".toList := by unfold NetlistTest.bobOutput; split <;> rfl
  rw [checked_result h1 hw hr, against_iff, against_iff, ea, eb]
  exact ⟨fun hh => hh.2, fun hh => ⟨rfl, hh⟩⟩

/-- The test above fails if the `.map` file is missing, although Bob's result "03" is right. -/
example {w : TestWorld} (hw : GoodWorld w) {r : Int}
    (hr : TestReturns 16896 w ((prTest .lastClock).server prCrypto (some prCircuit) "0".toList prG)
      ((prTest .lastClock).client prCrypto (some prCircuit) "0".toList prE) r) :
    (prTest .lastClock).expected (some prCircuit) false true (fun _ => false) = some "0".toList ∧ r ≠ testSuccess := by
  refine ⟨by decide +kernel, fun h => ?_⟩
  obtain ⟨p, h1, h2, -⟩ := C98_netlist_passes_partial (t := prTest .lastClock) (prProper_ot 0 .lastClock true) (by decide) (by decide)
    (fun t _ i _ => not_lost_of_segment (by decide) t i) (fun _ => false)
  have hp : (prTest .lastClock).expected (some prCircuit) true true (fun _ => false) = some "03".toList := by decide +kernel
  rw [hp] at h1
  cases h1
  exact absurd (against_iff.1 ((checked_result h2 hw hr).1 h).2) (by decide)

/-! ## The tests of oblivious transfer and of the connection -/

theorem otChecked_iff (m : Nat → Nat → Block) (sel : Nat → Bool) (len : Nat) (r : Nat → Block) :
    otChecked m sel len r = true ↔ ∀ i < len, r i = m i (if sel i then 1 else 0) := by
  unfold otChecked
  induction len with
  | zero => simp
  | succ n ih =>
    rw [List.range_succ, List.foldl_append]
    simp only [List.foldl_cons, List.foldl_nil]
    constructor
    · intro h i hi
      by_cases hc : m n (if sel n then 1 else 0) = r n
      · rw [if_neg (by simp [hc])] at h
        rcases Nat.lt_succ_iff_lt_or_eq.mp hi with hi | rfl
        · exact ih.1 h i hi
        · exact hc.symm
      · rw [if_pos (by simp [hc])] at h
        cases h
    · intro h
      rw [if_neg (by simp [h n (Nat.lt_succ_self n)])]
      exact ih.2 fun i hi => h i (by omega)

/-- A program whose result is not checked. -/
theorem unchecked (p : Proc Unit) : checkedBy p (fun _ => true) = p := by
  unfold checkedBy
  induction p with
  | ret a => rfl
  | fail => rfl
  | undef => rfl
  | send b k ih => simp only [Proc.bind]; rw [ih]
  | recv k ih => simp only [Proc.bind]; congr 1; funext b; exact ih b

/-- C98, the test of oblivious transfer: if it passes, Bob has in an execution received exactly the selected messages. -/
theorem C98_ot_passed {cap : Nat} {w : TestWorld} {m : Nat → Nat → Block} {sel : Nat → Bool} {len : Nat} {co : OTSendCoins} {rk : Nat → Nat}
    (h : TestReturns cap w (otSend m len co) (otTestBob m sel len rk) testSuccess) :
    ∃ n ab ba r, Steps cap n (start (otSend m len co) (otRecv sel len rk)) ⟨.ret (), ab, ba, .ret r⟩
      ∧ ∀ i < len, r i = m i (if sel i then 1 else 0) := by
  rw [← unchecked (otSend m len co)] at h
  obtain ⟨n, _, ab, ba, r, hs, -, hr⟩ := passed_results h
  exact ⟨n, ab, ba, r, hs, (otChecked_iff m sel len r).1 hr⟩

/-- C98, the test of oblivious transfer passes, whatever the messages, the selections and the randomness, when the socket buffer has
room for the first round. -/
theorem C98_ot_passes {cap : Nat} {w : TestWorld} (hw : GoodWorld w) {m : Nat → Nat → Block} {sel : Nat → Bool} {len : Nat}
    {co : OTSendCoins} {rk : Nat → Nat} (hv : ValidKey co.key) (hl : len < 2 ^ 32) (hN : co.key.N < 2 ^ 1024) (he : co.key.e < 2 ^ 1024)
    (hx : ∀ i j, co.x i j < 2 ^ 1024) (hc : 0 < cap) (hcap : len * 132 ≤ cap) (r : Int) :
    TestReturns cap w (otSend m len co) (otTestBob m sel len rk) r ↔ r = testSuccess := by
  obtain ⟨a, h1, h2⟩ := C20_ot_delivers hv hl hN he hx sel rk hc hcap (m := m)
  rw [← unchecked (otSend m len co)]
  exact returns_success (checked_finishes h1 rfl ((otChecked_iff m sel len a).2 h2)) hw r

example : ValidKey coins15.key ∧ 25 < 2 ^ 32 ∧ 25 * 132 ≤ 20000 := ⟨key15_valid, by decide, by decide⟩

/-- C98, the test of the extension of oblivious transfer: if it passes, Bob has received exactly the selected messages. -/
theorem C98_ext_passed {cap : Nat} {w : TestWorld} {H : List Byte → List Byte} {m : Nat → Nat → Block} {sel : Nat → Bool} {len : Nat}
    {gs : ExtSendCoins} {er : ExtRecvCoins}
    (h : TestReturns cap w (otExtSend H m len gs) (otExtTestBob H m sel len er) testSuccess) :
    ∃ n ab ba r, Steps cap n (start (otExtSend H m len gs) (otExtRecv H sel len er)) ⟨.ret (), ab, ba, .ret r⟩
      ∧ ∀ i < len, r i = m i (if sel i then 1 else 0) := by
  rw [← unchecked (otExtSend H m len gs)] at h
  obtain ⟨n, _, ab, ba, r, hs, -, hr⟩ := passed_results h
  exact ⟨n, ab, ba, r, hs, (otChecked_iff m sel len r).1 hr⟩

/-- C98, the test of the extension passes. -/
theorem C98_ext_passes {cap : Nat} {w : TestWorld} (hw : GoodWorld w) {H : List Byte → List Byte} {m : Nat → Nat → Block} {sel : Nat → Bool}
    {len : Nat} {gs : ExtSendCoins} {er : ExtRecvCoins} (hv : ValidKey er.base.key) (hN : er.base.key.N < 2 ^ 1024)
    (he : er.base.key.e < 2 ^ 1024) (hx : ∀ i j, er.base.x i j < 2 ^ 1024) (hl : len < 2 ^ 30) (hT : ∀ i < len, er.T i < 2 ^ 128)
    (hcap : 128 * 132 ≤ cap) (r : Int) :
    TestReturns cap w (otExtSend H m len gs) (otExtTestBob H m sel len er) r ↔ r = testSuccess := by
  obtain ⟨a, h1, h2⟩ := C22_ext_delivers (H := H) (m := m) (sel := sel) (gs := gs) hv hN he hx hl hT hcap
  rw [← unchecked (otExtSend H m len gs)]
  exact returns_success (checked_finishes h1 rfl ((otChecked_iff m sel len a).2 h2)) hw r

example : ValidKey key15 ∧ (1499 : Nat) < 2 ^ 30 ∧ (∀ i < 1499, i * 77 + 2 ^ 100 < 2 ^ 128) ∧ 128 * 132 ≤ 16896 :=
  ⟨key15_valid, by decide, fun i hi => by omega, by decide⟩

theorem strEq_iff {data : List Byte} (hd : ∀ b ∈ data, b ≠ 0) (r : List Byte) :
    strEq (data ++ [0]) r = true ↔ ∃ rest, r = data ++ 0 :: rest := by
  induction data generalizing r with
  | nil =>
    cases r with
    | nil => simp [strEq]
    | cons b bs =>
      by_cases hb : b = 0
      · subst hb; simp [strEq]
      · simp [strEq]
        exact eq_comm
  | cons a as ih =>
    have ha := hd a (by simp)
    cases r with
    | nil => simp [strEq]
    | cons b bs =>
      by_cases hb : a = b
      · subst hb
        have := ih (fun b hb => hd b (by simp [hb])) bs
        simp only [List.cons_append, strEq, ne_eq, not_true_eq_false, if_false, if_neg ha, this, List.cons.injEq, true_and]
      · have : ¬ b = a := fun h => hb h.symm
        simp [strEq, hb, this]

/-- What server and client of the test of the connection do before they compare. -/
theorem echo_finishes {data : List Byte} (hl : data.length + 1 < 2 ^ 31) {cap : Nat} (hc : 0 < cap) :
    AlwaysFinishes cap ((recvData (data.length + 1)).bind fun data_recv =>
        (sendData (data ++ [0]) (data.length + 1)).bind fun _ => Proc.ret data_recv)
      ((sendData (data ++ [0]) (data.length + 1)).bind fun _ => recvData (data.length + 1)) (data ++ [0]) (data ++ [0]) := by
  have hd := dual_transfer (l := data ++ [0]) (n := data.length + 1) (by simp) hl
  refine (Runs.bind (hd.runs hc).symm ?_).always
  have h2 := (hd.runs hc).bind (f := fun _ => Proc.ret (data ++ [0])) (g := fun r => Proc.ret r) Runs.ret
  rwa [show (recvData (data.length + 1)).bind (fun r => Proc.ret r) = recvData (data.length + 1) from bind_ret _] at h2

/-- C98, the test of the connection: if it passes, in an execution both sides have received the string. -/
theorem C98_echo_passed {cap : Nat} {w : TestWorld} {data : List Byte} (hd : ∀ b ∈ data, b ≠ 0)
    (h : TestReturns cap w (echoServer data) (echoClient data) testSuccess) :
    ∃ n ab ba r r', Steps cap n (start ((recvData (data.length + 1)).bind fun data_recv =>
        (sendData (data ++ [0]) (data.length + 1)).bind fun _ => Proc.ret data_recv)
      ((sendData (data ++ [0]) (data.length + 1)).bind fun _ => recvData (data.length + 1)))
      ⟨.ret (data ++ 0 :: r), ab, ba, .ret (data ++ 0 :: r')⟩ := by
  obtain ⟨n, a, ab, ba, b, hs, ha, hb⟩ := passed_results h
  obtain ⟨r, rfl⟩ := (strEq_iff hd a).1 ha
  obtain ⟨r', rfl⟩ := (strEq_iff hd b).1 hb
  exact ⟨n, ab, ba, r, r', hs⟩

/-- C98, the test of the connection passes, whatever the string (without zero bytes) and however small the buffers. -/
theorem C98_echo_passes {cap : Nat} (hc : 0 < cap) {w : TestWorld} (hw : GoodWorld w) {data : List Byte} (hd : ∀ b ∈ data, b ≠ 0)
    (hl : data.length + 1 < 2 ^ 31) (r : Int) : TestReturns cap w (echoServer data) (echoClient data) r ↔ r = testSuccess :=
  have ok := (strEq_iff hd (data ++ [0])).2 ⟨[], rfl⟩
  returns_success (checked_finishes (echo_finishes hl hc) ok ok) hw r

/-- The test as it is run: "Hello World!". -/
example : (∀ b ∈ ("Hello World!".toList.map fun c => BitVec.ofNat 8 c.toNat), b ≠ 0)
    ∧ ("Hello World!".toList.map fun c => BitVec.ofNat 8 c.toNat).length + 1 < 2 ^ 31 := by decide

/-! ## minunit -/

/-- A test fails if one of its assertions does. -/
def testFails (test : List Bool) : Bool := test.any (!·)

/-- The assertions that are evaluated: up to the first that fails. -/
def evaluated (test : List Bool) : Nat := min test.length ((test.takeWhile id).length + 1)

theorem muBody_eq (test : List Bool) (u : MinUnit) : muBody test u =
    ⟨u.run, u.assert + evaluated test, u.fail, u.status || testFails test⟩ := by
  induction test generalizing u with
  | nil => simp [muBody, evaluated, testFails]
  | cons c cs ih =>
    cases c with
    | false => simp [muBody, evaluated, testFails]
    | true =>
      simp only [muBody]
      rw [if_neg (by simp), ih]
      simp [evaluated, testFails]
      omega

theorem muSuite_eq (tests : List (List Bool)) (u : MinUnit) : muReport (tests.foldl (fun u t => muRunTest t u) u) =
    (u.run + tests.length, u.assert + (tests.map evaluated).sum, u.fail + (tests.filter testFails).length) := by
  induction tests generalizing u with
  | nil => rfl
  | cons t ts ih =>
    rw [List.foldl_cons, ih]
    have h : muRunTest t u = ⟨u.run + 1, u.assert + evaluated t, if testFails t then u.fail + 1 else u.fail, testFails t⟩ := by
      unfold muRunTest
      simp only [muBody_eq, Bool.false_or]
      cases testFails t <;> rfl
    rw [h, List.filter_cons]
    cases testFails t <;> simp <;> omega

/-- C98, the printed numbers are right: of tests, of assertions evaluated, and of tests of which an assertion failed. -/
theorem C98_report (tests : List (List Bool)) :
    (muMain tests).1 = (tests.length, (tests.map evaluated).sum, (tests.filter testFails).length) := by
  have := muSuite_eq tests {}
  simp only [Nat.zero_add] at this
  exact this

/-- C98 fails for the exit status, by which ctest decides: every suite exits with SUCCESS, also one in which every test fails (the
example below). -/
theorem C98_false_exit : ∀ tests : List (List Bool), (muMain tests).2 = testSuccess := fun _ => rfl

example : muMain [[true, true], [true, false, true], [false]] = ((3, 5, 2), 0) := by decide

end TinyGarble.Props
