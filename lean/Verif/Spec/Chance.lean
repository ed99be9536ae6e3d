import Verif.Spec.Privacy
import Verif.Spec.Protocol

/-!
# How many random choices are bad

The garbler's random choices (`Coins`) of an execution, and the bound on the fraction of random
choices for which something goes wrong.
-/

namespace TinyGarble.Spec

/-- The bound, in units of 2^-127, for `q` = number of cycles times number of gates: the `4 q` uses of
the cipher are pairwise different, and the lower 64 bits of the labels at `q` gates do not agree. -/
def badBound (q : Nat) : Nat := 16 * q ^ 2 + 2 ^ 64 * q

/-- The random choices of the garbler in an execution of the protocol, for cycles `0 … n`. -/
def coinsOf (cr : Crypto) (c : Circuit) (A : Args) (G : GEnv) (n : Nat) : Coins c n where
  R := offsetOf G.rnd
  init := fun k => (initPairs c A G k).label0
  input := fun cid k => (inputPairs c A G cid k).label0
  cipher := cr.enc (keyOf G.rnd)

/-- The setting of an execution of the protocol. -/
abbrev settingOf (c : Circuit) (A : Args) (G : GEnv) : Setting :=
  ⟨c, A.pInit, A.pInput, G.fan0, G.st0, A.useLow⟩

/-- In none of the cycles `0 … n` a secret gate turns out to be superfluous. -/
def Setting.Needed (P : Setting) (n : Nat) : Prop :=
  ∀ k ≤ n, AllNeeded P.c (symRun P.c P.sfan P.pInit P.pInput k)

/-- The labels the garbler makes from `ω` agree by accident in one of the cycles `0 … n`. -/
def Setting.Accident (P : Setting) {n : Nat} (ω : Coins P.c n) : Prop :=
  ¬ ∀ k ≤ n, NoCollisionG P.c (symRun P.c P.sfan P.pInit P.pInput k).sw (P.run ω k).1.wires

/-- Both parties always finish with SUCCESS; each output bit, read from the party that owns it, is the
bit the plaintext evaluator computes; a bit of the other party reads 0; both report the number of
cycles of the plaintext evaluator. -/
def Correct (cap : Nat) (cr : Crypto) (c : Circuit) (A B : Args) (G : GEnv) (E : EEnv) : Prop :=
  ∀ w0, let r := evaluatePlaintext c (inputsOf A B) w0 A.cycles A.period
    ∃ go eo, AlwaysFinishes cap (garbleBN cr c A G) (evaluateBN cr c B E) (go, r.2) (eo, r.2)
      ∧ Reports c A r.2 go (fun t i => A.mask.testBit i && r.1.testBit (t * c.outputSize + i))
      ∧ Reports c A r.2 eo (fun t i => !A.mask.testBit i && r.1.testBit (t * c.outputSize + i))

/-- The random choices `ω` of the garbler, for `n + 1` cycles of `P.c`, lead to a wrong result: there is
an execution in which the garbler makes these choices, with the public inputs and the memory of `P`,
that is properly set up, does not look at a secret terminate signal, loses no output bit
(`C10_evaluator_loses_output`) and has no superfluous secret gate, but is not correct. The secret
inputs of both parties, the mask and mode, the schedule and the random choices of the evaluator are
arbitrary. -/
def Setting.Wrong (P : Setting) {n : Nat} (ω : Coins P.c n) : Prop :=
  ∃ (cap : Nat) (cr : Crypto) (A B : Args) (G : GEnv) (E : EEnv) (v : Nat → Nat → Bool),
    A.pInit = P.pInit ∧ A.pInput = P.pInput ∧ G.fan0 = P.fan0 ∧ G.st0 = P.gst0 ∧ A.useLow = P.lowMem
    ∧ A.cycles = n + 1 ∧ coinsOf cr P.c A G n = ω
    ∧ Setup cap cr P.c A B G E ∧ Solves P.c (inputsOf A B) v
    ∧ (sessionOf cr P.c A B G E).PublicStop A.period A.cycles v
    ∧ (∀ t < A.cycles, ∀ i < P.c.outputSize, ¬ (sessionOf cr P.c A B G E).LostAt A.mask v t i)
    ∧ P.Needed n
    ∧ ¬ Correct cap cr P.c A B G E

/-- The random choices `ω` of the garbler lead to a wrong result for the inputs `x` of both parties and the
random numbers `rnd p₀, rnd (p₀ + 1), …` the evaluator's generator gives instead of tables that were not sent:
as `Wrong`, but these are fixed before `ω`, and secret gates may be superfluous. -/
def Setting.WrongFor (P : Setting) (x : Inputs) (rnd : Nat → Block) (p₀ : Nat) {n : Nat} (ω : Coins P.c n) : Prop :=
  ∃ (cap : Nat) (cr : Crypto) (A B : Args) (G : GEnv) (E : EEnv) (v : Nat → Nat → Bool),
    A.pInit = P.pInit ∧ A.pInput = P.pInput ∧ G.fan0 = P.fan0 ∧ G.st0 = P.gst0 ∧ A.useLow = P.lowMem
    ∧ A.cycles = n + 1 ∧ coinsOf cr P.c A G n = ω
    ∧ inputsOf A B = x ∧ E.st0.ts.rnd = rnd ∧ E.st0.ts.rndPos = p₀
    ∧ Setup cap cr P.c A B G E ∧ Solves P.c x v
    ∧ (sessionOf cr P.c A B G E).PublicStop A.period A.cycles v
    ∧ (∀ t < A.cycles, ∀ i < P.c.outputSize, ¬ (sessionOf cr P.c A B G E).LostAt A.mask v t i)
    ∧ ¬ Correct cap cr P.c A B G E

end TinyGarble.Spec
