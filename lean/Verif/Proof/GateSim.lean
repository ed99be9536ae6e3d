import Verif.Proof.Sym
import Verif.Proof.Gate

/-! Simulation of the gate functions by the symbolic gate. -/

namespace TinyGarble
open Spec

set_option linter.unusedSimpArgs false

/-! ### Additive maps from sets of atoms -/

/-- A map from sets of atoms to blocks that sends XOR to XOR. -/
def Additive (gl : Nat → Block) : Prop := ∀ x y, gl (x ^^^ y) = gl x ^^^ gl y

theorem Additive.zero : Additive (fun _ => 0#128) := fun _ _ => by simp

/-- Assign the value `v` to the fresh atom `a`. -/
def extend (gl : Nat → Block) (a : Nat) (v : Block) : Nat → Block :=
  fun s => gl s ^^^ scale (s.testBit a) (gl (2 ^ a) ^^^ v)

theorem Additive.extend {gl : Nat → Block} (h : Additive gl) (a : Nat) (v : Block) :
    Additive (TinyGarble.extend gl a v) := by
  intro x y
  unfold TinyGarble.extend
  rw [h, Nat.testBit_xor]
  cases x.testBit a <;> cases y.testBit a <;> simp <;> bxor

theorem extend_old (gl : Nat → Block) {a s : Nat} (v : Block) (h : s < 2 ^ a) : extend gl a v s = gl s := by
  unfold extend
  rw [Nat.testBit_lt_two_pow h]; simp

theorem extend_new (gl : Nat → Block) (a : Nat) (v : Block) : extend gl a v (2 ^ a) = v := by
  unfold extend
  rw [Nat.testBit_two_pow_self]; simp; bxor

/-- The same for Boolean values. -/
def AdditiveB (pv : Nat → Bool) : Prop := ∀ x y, pv (x ^^^ y) = (pv x ^^ pv y)

theorem AdditiveB.zero : AdditiveB (fun _ => false) := fun _ _ => by simp

def extendB (pv : Nat → Bool) (a : Nat) (v : Bool) : Nat → Bool :=
  fun s => pv s ^^ (s.testBit a && (pv (2 ^ a) ^^ v))

theorem AdditiveB.extend {pv : Nat → Bool} (h : AdditiveB pv) (a : Nat) (v : Bool) :
    AdditiveB (extendB pv a v) := by
  intro x y
  unfold extendB
  rw [h, Nat.testBit_xor]
  cases x.testBit a <;> cases y.testBit a <;> cases pv x <;> cases pv y <;> cases pv (2 ^ a) <;> cases v <;> rfl

theorem extendB_old (pv : Nat → Bool) {a s : Nat} (v : Bool) (h : s < 2 ^ a) : extendB pv a v s = pv s := by
  unfold extendB
  rw [Nat.testBit_lt_two_pow h]; simp

theorem extendB_new (pv : Nat → Bool) (a : Nat) (v : Bool) : extendB pv a v (2 ^ a) = v := by
  unfold extendB
  rw [Nat.testBit_two_pow_self]; simp

/-- The garbler's label pair for form `s` and inversion `i`. -/
def gPair (gl : Nat → Block) (R : Block) (s : Nat) (i : Bool) : BlockPair :=
  ⟨gl s ^^^ scale i R, gl s ^^^ scale i R ^^^ R⟩

theorem gPair_not (gl : Nat → Block) (R : Block) (s : Nat) (i : Bool) :
    gPair gl R s (!i) = ⟨(gPair gl R s i).label1, (gPair gl R s i).label0⟩ := by
  unfold gPair
  cases i <;> simp [BitVec.xor_assoc]

theorem halfValues_truth {t : Int} (ht : t ∈ gateTypes) (v : Bool) :
    halfValues t 0 v = (truth t v false, truth t v true) ∧
    halfValues t 1 v = (truth t false v, truth t true v) := by
  unfold halfValues
  simp [gateOperator_truth ht]

theorem knownValue_sym {t : Int} (ht : t ∈ gateTypes) (a b : SWire) (wa wb : WVal)
    (ha : wa = a.toW ∨ wa = a.toE) (hb : wb = b.toW ∨ wb = b.toE) :
    knownValue wa wb t = (symKnown t a b).toW ∧ knownValue wa wb t = (symKnown t a b).toE := by
  have h0 := fun v => (halfValues_truth ht v).1
  have h1 := fun v => (halfValues_truth ht v).2
  have key : ∀ f0 f1 : Bool, (if f0 = f1 then (if f0 = false then WVal.pub false else .pub true) else .sec false)
      = (symUnary f0 f1 .hid).toW ∧
      (if f0 = f1 then (if f0 = false then WVal.pub false else .pub true) else .sec false)
      = (symUnary f0 f1 .hid).toE := by
    intro f0 f1; cases f0 <;> cases f1 <;> exact ⟨rfl, rfl⟩
  rcases ha with ha | ha <;> rcases hb with hb | hb <;> subst ha <;> subst hb <;>
    cases a <;> cases b <;> simp only [SWire.toW, SWire.toE]
  all_goals simp only [knownValue, symKnown, halfKnownValue, h0, h1, gateOperator_truth ht]
  all_goals first
    | exact key _ _
    | exact ⟨rfl, rfl⟩
    | exact ⟨trivial, trivial⟩

theorem truth_not (a b : Bool) : truth 12 a b = !a := by cases a <;> cases b <;> decide

/-- `P` holds of the form and inversion, if the wire is secret. -/
def OnSec (o : SWire) (P : Nat → Bool → Prop) : Prop :=
  match o with
  | .sec s i => P s i
  | _ => True

/-- `P` holds of the value, if the wire is public. -/
def OnPub (o : SWire) (P : Bool → Prop) : Prop :=
  match o with
  | .pub b => P b
  | _ => True

@[simp] theorem onPub_pub {b : Bool} {P : Bool → Prop} : OnPub (.pub b) P ↔ P b := Iff.rfl
@[simp] theorem onPub_hid {P : Bool → Prop} : OnPub .hid P ↔ True := Iff.rfl
@[simp] theorem onPub_sec {s : Nat} {i : Bool} {P : Bool → Prop} : OnPub (.sec s i) P ↔ True := Iff.rfl

@[simp] theorem onSec_pub {b : Bool} {P : Nat → Bool → Prop} : OnSec (.pub b) P ↔ True := Iff.rfl
@[simp] theorem onSec_hid {P : Nat → Bool → Prop} : OnSec .hid P ↔ True := Iff.rfl
@[simp] theorem onSec_sec {s : Nat} {i : Bool} {P : Nat → Bool → Prop} : OnSec (.sec s i) P ↔ P s i := Iff.rfl

/-- Simulation of `GarbleGate`. -/
theorem garbleGate_sym {enc : Block → Block} {R : Block} (hR : getLSB R = true) {cid gid atom : Nat} {t : Int}
    (ht : t ∈ gateTypes) {gl : Nat → Block} (hgl : Additive gl) {a b : SWire} {l0 l1 : BlockPair}
    (ha : a ≠ .hid) (hb : b = .hid → t = 12)
    (e0 : ∀ s i, a = .sec s i → l0 = gPair gl R s i) (e1 : ∀ s i, b = .sec s i → l1 = gPair gl R s i)
    (nc : ∀ s i s' i', a = .sec s i → b = .sec s' i' → s ≠ s' →
      cmpBlock l0.label0 l1.label0 = false ∧ cmpBlock l0.label0 l1.label1 = false) :
    let r := garbleGate enc R cid gid t l0 a.toW l1 b.toW
    let o := symGate atom t a b
    r.2.1 = o.toW
    ∧ r.2.2 = (if symTable t a b then
        some ⟨(garbleHalfGates enc R cid gid t l0 l1).2.1, (garbleHalfGates enc R cid gid t l0 l1).2.2,
          BitVec.ofNat 32 gid⟩ else none)
    ∧ (symTable t a b = false → OnSec o fun s i => r.1 = gPair gl R s i)
    ∧ (symTable t a b = true → o = .sec (2 ^ atom) false ∧ r.1 = (garbleHalfGates enc R cid gid t l0 l1).1
        ∧ r.1.label1 = r.1.label0 ^^^ R) := by
  have h0 := fun v => (halfValues_truth ht v).1
  have h1 := fun v => (halfValues_truth ht v).2
  have half : ∀ (f0 f1 : Bool) (l : BlockPair) (s : Nat) (i : Bool), l = gPair gl R s i →
      let r := (if f0 = f1 then
        ((⟨zeroBlock, zeroBlock⟩ : BlockPair), if f0 = false then WVal.pub false else .pub true)
        else if f0 = false ∧ f1 = true then (⟨l.label0, l.label1⟩, .sec false)
        else (⟨l.label1, l.label0⟩, .sec false))
      r.2 = (symUnary f0 f1 (.sec s i)).toW ∧ OnSec (symUnary f0 f1 (.sec s i)) fun s' i' => r.1 = gPair gl R s' i' := by
    intro f0 f1 l s i hl
    subst hl
    cases f0 <;> cases f1 <;> simp [symUnary, SWire.toW]
    exact (gPair_not gl R s i).symm
  cases a with
  | hid => exact absurd rfl ha
  | pub x =>
    cases b with
    | pub y => simp [garbleGate, SWire.toW, symGate, symTable, gateOperator_truth ht]
    | sec s i =>
      simp only [garbleGate, SWire.toW, symGate, symTable, halfGarbleGate, h0]
      have := half (truth t x false) (truth t x true) l1 s i (e1 s i rfl)
      simp only at this
      exact ⟨this.1, by simp, fun _ => this.2, by simp⟩
    | hid =>
      have := hb rfl; subst this
      simp only [garbleGate, SWire.toW, symGate, symTable, halfGarbleGate, h0, truth_not, symUnary]
      cases x <;> simp
  | sec s i =>
    have e0 := e0 s i rfl
    cases b with
    | pub y =>
      simp only [garbleGate, SWire.toW, symGate, symTable, halfGarbleGate, h1]
      have := half (truth t false y) (truth t true y) l0 s i e0
      simp only at this
      exact ⟨this.1, by simp, fun _ => this.2, by simp⟩
    | hid =>
      have := hb rfl; subst this
      subst e0
      have := gPair_not gl R s i
      simp [garbleGate, SWire.toW, symGate, symTable, NOTGATE, XORGATE, XNORGATE]
      exact this.symm
    | sec s' i' =>
      have e1 := e1 s' i' rfl
      by_cases hn : t = 12
      · subst hn; subst e0
        have := gPair_not gl R s i
        simp [garbleGate, SWire.toW, symGate, symTable, tableTypes, NOTGATE, XORGATE, XNORGATE]
        exact this.symm
      by_cases hs : s = s'
      · subst hs
        have c0 : cmpBlock l0.label0 l1.label0 = decide (i = i') := by
          subst e0; subst e1
          unfold gPair
          by_cases hii : i = i'
          · subst hii; simp [cmpBlock_self]
          · rw [show (decide (i = i')) = false from by simp [hii]]
            cases i <;> cases i' <;> simp at hii ⊢
            · exact cmpBlock_odd hR
            · rw [cmpBlock_comm]; exact cmpBlock_odd hR
        have c1 : i ≠ i' → cmpBlock l0.label0 l1.label1 = true := by
          intro hii; subst e0; subst e1
          unfold gPair
          cases i <;> cases i' <;> simp at hii ⊢
          · simp [BitVec.xor_assoc, cmpBlock_self]
          · exact cmpBlock_self _
        simp only [garbleGate, SWire.toW, symGate, symTable, c0, if_neg hn, if_true, NOTGATE, ne_eq,
          not_true_eq_false, decide_false, Bool.false_and, Bool.false_eq_true, if_false, false_implies,
          and_true, hn, not_false_eq_true, true_and, true_implies]
        subst e0
        have gn := gPair_not gl R s i
        have gs : (⟨(gPair gl R s i).label0, (gPair gl R s i).label1⟩ : BlockPair) = gPair gl R s i := rfl
        by_cases hii : i = i'
        · subst hii
          simp only [decide_true, if_true, Bool.xor_self, Bool.not_false]
          simp only [gateTypes, List.mem_cons, List.not_mem_nil, or_false] at ht
          rcases ht with h | h | h | h | h | h | h | h | h | h | h <;> subst h <;>
            simp [XORGATE, ANDNGATE, NORNGATE, XNORGATE, ORNGATE, NANDNGATE, ANDGATE, ORGATE, NANDGATE,
              NORGATE, symUnary, truth, Nat.testBit, SWire.toW, gn] at hn ⊢
        · have c1 := c1 hii
          have hx : (i ^^ i') = true := by
            cases i <;> cases i' <;> first | rfl | exact absurd rfl hii
          simp only [hii, decide_false, c1, if_true, hx, Bool.not_true]
          simp only [gateTypes, List.mem_cons, List.not_mem_nil, or_false] at ht
          rcases ht with h | h | h | h | h | h | h | h | h | h | h <;> subst h <;>
            simp [XORGATE, ANDNGATE, NORNGATE, XNORGATE, ORNGATE, NANDNGATE, ANDGATE, ORGATE, NANDGATE,
              NORGATE, symUnary, truth, Nat.testBit, SWire.toW, gn] at hn ⊢
      · obtain ⟨n1, n2⟩ := nc s i s' i' rfl rfl hs
        simp only [garbleGate, SWire.toW, symGate, symTable, n1, n2, if_neg hn, if_neg hs, NOTGATE, ne_eq,
          hs, hn, not_false_eq_true, true_and, Bool.false_eq_true, if_false, decide_true, Bool.true_and]
        by_cases hx : t = 6
        · subst hx; subst e0; subst e1
          simp [XORGATE, tableTypes]
          unfold gPair
          simp only [xorBlock, hgl s s', scale_xor, BlockPair.mk.injEq]
          constructor <;> bxor
        by_cases hx' : t = 9
        · subst hx'; subst e0; subst e1
          simp [XORGATE, XNORGATE, tableTypes]
          rw [gPair_not]
          unfold gPair
          simp only [xorBlock, hgl s s', scale_xor, BlockPair.mk.injEq]
          constructor <;> bxor
        have htt : t ∈ tableTypes := by
          simp only [gateTypes, tableTypes, List.mem_cons, List.not_mem_nil, or_false] at ht ⊢
          omega
        simp only [XORGATE, XNORGATE, hx, hx', htt, if_false, decide_true, if_true]
        refine ⟨trivial, trivial, by simp, fun _ => ⟨trivial, trivial, ?_⟩⟩
        rw [e0, e1]
        exact (evalHalfGates_correct enc R hR cid gid htt (gl s ^^^ scale i R) (gl s' ^^^ scale i' R) false false).2

/-- Simulation of `EvalGate`. -/
theorem evalGate_sym {enc : Block → Block} {cid gid atom : Nat} {t : Int}
    (ht : t ∈ gateTypes) {el : Nat → Block} (hel : Additive el) {a b : SWire} {l0 l1 : Block}
    (ha : a ≠ .hid) (hb : b = .hid → t = 12) {ts : TabState}
    (e0 : ∀ s i, a = .sec s i → l0 = el s) (e1 : ∀ s i, b = .sec s i → l1 = el s)
    (nc : ∀ s i s' i', a = .sec s i → b = .sec s' i' → s ≠ s' → cmpBlock l0 l1 = false) :
    let r := evalGate enc cid gid t l0 a.toE l1 b.toE ts
    let o := symGate atom t a b
    r.2.1 = o.toE
    ∧ (symTable t a b = false → r.2.2 = ts ∧ OnSec o fun s _ => r.1 = el s)
    ∧ (symTable t a b = true → o = .sec (2 ^ atom) false ∧
        r.2.2.tables = ts.tables ∧
        ((ts.tables ts.ind).gid.toNat = gid → r.2.2.ind = ts.ind + 1 ∧
          r.1 = evalHalfGates enc cid gid l0 l1 (ts.tables ts.ind).row0 (ts.tables ts.ind).row1) ∧
        ((ts.tables ts.ind).gid.toNat ≠ gid → r.2.2.ind = ts.ind)) := by
  have h0 := fun v => (halfValues_truth ht v).1
  have h1 := fun v => (halfValues_truth ht v).2
  have half : ∀ (f0 f1 : Bool) (l : Block) (s : Nat) (i : Bool), l = el s →
      let r := (if f0 = f1 then
        (zeroBlock, if f0 = false then WVal.pub false else .pub true)
        else if f0 = false ∧ f1 = true then (l, .sec i)
        else (l, invertSecretValue (.sec i)))
      r.2 = (symUnary f0 f1 (.sec s i)).toE ∧ OnSec (symUnary f0 f1 (.sec s i)) fun s' _ => r.1 = el s' := by
    intro f0 f1 l s i hl
    subst hl
    cases f0 <;> cases f1 <;> cases i <;> simp [symUnary, SWire.toE, invertSecretValue]
  cases a with
  | hid => exact absurd rfl ha
  | pub x =>
    cases b with
    | pub y => simp [evalGate, SWire.toE, symGate, symTable, gateOperator_truth ht]
    | sec s i =>
      simp only [evalGate, SWire.toE, symGate, symTable, halfEvalGate, h0]
      have := half (truth t x false) (truth t x true) l1 s i (e1 s i rfl)
      simp only at this
      exact ⟨this.1, fun _ => ⟨trivial, this.2⟩, by simp⟩
    | hid =>
      have := hb rfl; subst this
      simp only [evalGate, SWire.toE, symGate, symTable, halfEvalGate, h0, truth_not, symUnary]
      cases x <;> simp
  | sec s i =>
    have e0 := e0 s i rfl
    cases b with
    | pub y =>
      simp only [evalGate, SWire.toE, symGate, symTable, halfEvalGate, h1]
      have := half (truth t false y) (truth t true y) l0 s i e0
      simp only at this
      exact ⟨this.1, fun _ => ⟨trivial, this.2⟩, by simp⟩
    | hid =>
      have := hb rfl; subst this
      subst e0
      cases i <;>
      simp [evalGate, SWire.toE, symGate, symTable, NOTGATE, XORGATE, XNORGATE, invertSecretValue]
    | sec s' i' =>
      have e1 := e1 s' i' rfl
      by_cases hn : t = 12
      · subst hn; subst e0
        cases i <;>
        simp [evalGate, SWire.toE, symGate, symTable, tableTypes, NOTGATE, XORGATE, XNORGATE, invertSecretValue]
      by_cases hs : s = s'
      · subst hs
        have c0 : cmpBlock l0 l1 = true := by
          subst e0; subst e1; exact cmpBlock_self _
        simp only [evalGate, SWire.toE, symGate, symTable, c0, if_neg hn, if_true, NOTGATE, ne_eq,
          not_true_eq_false, decide_false, Bool.false_and, Bool.false_eq_true, if_false, false_implies,
          and_true, hn, not_false_eq_true, true_and, true_implies]
        subst e0
        by_cases hii : i = i'
        · subst hii
          simp only [if_true, Bool.xor_self, Bool.not_false]
          simp only [gateTypes, List.mem_cons, List.not_mem_nil, or_false] at ht
          rcases ht with h | h | h | h | h | h | h | h | h | h | h <;> subst h <;> cases i <;>
            simp [XORGATE, ANDNGATE, NORNGATE, XNORGATE, ORNGATE, NANDNGATE, ANDGATE, ORGATE, NANDGATE,
              NORGATE, symUnary, truth, Nat.testBit, SWire.toE, invertSecretValue] at hn ⊢
        · have hx : (i ^^ i') = true := by
            cases i <;> cases i' <;> first | rfl | exact absurd rfl hii
          have hv : ¬ (WVal.sec i = WVal.sec i') := by simpa using hii
          simp only [hv, if_false, not_false_eq_true, if_true, hx, Bool.not_true]
          simp only [gateTypes, List.mem_cons, List.not_mem_nil, or_false] at ht
          rcases ht with h | h | h | h | h | h | h | h | h | h | h <;> subst h <;> cases i <;>
            simp [XORGATE, ANDNGATE, NORNGATE, XNORGATE, ORNGATE, NANDNGATE, ANDGATE, ORGATE, NANDGATE,
              NORGATE, symUnary, truth, Nat.testBit, SWire.toE, invertSecretValue] at hn ⊢
      · have n1 := nc s i s' i' rfl rfl hs
        simp only [evalGate, SWire.toE, symGate, symTable, n1, if_neg hn, if_neg hs, NOTGATE, ne_eq,
          hs, hn, not_false_eq_true, true_and, Bool.false_eq_true, if_false, decide_true, Bool.true_and,
          false_and]
        by_cases hx : t = 6
        · subst hx; subst e0; subst e1
          simp [XORGATE, tableTypes, xorBlock, xorSecret]
          cases i <;> cases i' <;> simp [hel s s']
        by_cases hx' : t = 9
        · subst hx'; subst e0; subst e1
          simp [XORGATE, XNORGATE, tableTypes, xorBlock, xorSecret, invertSecretValue]
          cases i <;> cases i' <;> simp [hel s s']
        have htt : t ∈ tableTypes := by
          simp only [gateTypes, tableTypes, List.mem_cons, List.not_mem_nil, or_false] at ht ⊢
          omega
        simp only [XORGATE, XNORGATE, hx, hx', htt, if_false, decide_true]
        by_cases hg : (ts.tables ts.ind).gid.toNat = gid
        · simp [hg]
        · simp [hg]

/-- Simulation of the plaintext gate: the symbolic gate computes the truth table. -/
theorem symGate_plain {atom : Nat} {t : Int} (ht : t ∈ gateTypes) {pv : Nat → Bool} (hpv : AdditiveB pv)
    {a b : SWire} {x y : Bool} (hb : b = .hid → t = 12)
    (p0 : ∀ v, a = .pub v → x = v) (p1 : ∀ v, b = .pub v → y = v)
    (e0 : ∀ s i, a = .sec s i → x = (pv s ^^ i)) (e1 : ∀ s i, b = .sec s i → y = (pv s ^^ i)) :
    OnPub (symGate atom t a b) (fun v => truth t x y = v)
    ∧ (symTable t a b = false → OnSec (symGate atom t a b) fun s i => truth t x y = (pv s ^^ i)) := by
  have un : ∀ (f0 f1 z : Bool) (w : SWire), (∀ s i, w = .sec s i → z = (pv s ^^ i)) →
      OnPub (symUnary f0 f1 w) (fun v => (if z then f1 else f0) = v) ∧
      OnSec (symUnary f0 f1 w) (fun s i => (if z then f1 else f0) = (pv s ^^ i)) := by
    intro f0 f1 z w hw
    cases w with
    | pub b => cases f0 <;> cases f1 <;> cases z <;> simp [symUnary]
    | hid => cases f0 <;> cases f1 <;> cases z <;> simp [symUnary]
    | sec s i =>
      have := hw s i rfl
      subst this
      cases f0 <;> cases f1 <;> simp [symUnary] <;> cases pv s <;> cases i <;> rfl
  have tx : ∀ v z, (if z then truth t v true else truth t v false) = truth t v z := by
    intro v z; cases z <;> rfl
  have ty : ∀ v z, (if z then truth t true v else truth t false v) = truth t z v := by
    intro v z; cases z <;> rfl
  cases a with
  | hid =>
    cases b with
    | pub v =>
      have := p1 v rfl; subst this
      simp only [symGate, symTable]
      have := un (truth t false y) (truth t true y) x .hid (by simp)
      rw [ty] at this
      exact ⟨this.1, fun _ => this.2⟩
    | _ => simp [symGate]
  | pub v =>
    have := p0 v rfl; subst this
    cases b with
    | pub v => have := p1 v rfl; subst this; simp [symGate]
    | sec s i =>
      simp only [symGate, symTable]
      have := un (truth t x false) (truth t x true) y (.sec s i) e1
      rw [tx] at this
      exact ⟨this.1, fun _ => this.2⟩
    | hid =>
      simp only [symGate, symTable]
      have := un (truth t x false) (truth t x true) y .hid (by simp)
      rw [tx] at this
      exact ⟨this.1, fun _ => this.2⟩
  | sec s i =>
    have e0' := e0 s i rfl
    cases b with
    | pub v =>
      have := p1 v rfl; subst this
      simp only [symGate, symTable]
      have := un (truth t false y) (truth t true y) x (.sec s i) e0
      rw [ty] at this
      exact ⟨this.1, fun _ => this.2⟩
    | hid =>
      have := hb rfl; subst this
      subst e0'
      simp [symGate, truth_not]
    | sec s' i' =>
      have e1' := e1 s' i' rfl
      by_cases hn : t = 12
      · subst hn; subst e0'
        simp [symGate, truth_not]
      simp only [symGate, symTable, if_neg hn]
      by_cases hs : s = s'
      · subst hs
        simp only [if_true]
        have := un (truth t false (i ^^ i')) (truth t true (!(i ^^ i'))) x (.sec s i) e0
        have e : (if x then truth t true (!(i ^^ i')) else truth t false (i ^^ i')) = truth t x y := by
          subst e0'; subst e1'
          cases pv s <;> cases i <;> cases i' <;> rfl
        rw [e] at this
        exact ⟨this.1, fun _ => this.2⟩
      · simp only [if_neg hs]
        by_cases hx : t = 6
        · subst hx; subst e0'; subst e1'
          simp only [if_true]
          refine ⟨by simp, fun _ => ?_⟩
          simp only [onSec_sec]
          rw [hpv]
          cases pv s <;> cases pv s' <;> cases i <;> cases i' <;> decide
        by_cases hx' : t = 9
        · subst hx'; subst e0'; subst e1'
          simp only [if_neg hx, if_true]
          refine ⟨by simp, fun _ => ?_⟩
          simp only [onSec_sec]
          rw [hpv]
          cases pv s <;> cases pv s' <;> cases i <;> cases i' <;> decide
        have htt : t ∈ tableTypes := by
          simp only [gateTypes, tableTypes, List.mem_cons, List.not_mem_nil, or_false] at ht ⊢
          omega
        simp [hx, hx', hs, htt]

end TinyGarble
