import Verif.Spec.A23
import Verif.Proof.A23Sort

/-! Addition and comparison of long numbers. -/

namespace TinyGarble.A23
open Spec

theorem number_append (a b : List Word) : number (a ++ b) = number a + 2 ^ (32 * a.length) * number b := by
  induction a with
  | nil => simp [number]
  | cons x a ih =>
    rw [List.cons_append, number, number, ih, List.length_cons, Nat.mul_add 32, Nat.pow_add, Nat.mul_add]
    rw [show 32 * 1 = 32 by rfl, Nat.mul_comm (2 ^ (32 * a.length)) (2 ^ 32), Nat.mul_assoc, Nat.add_assoc]

theorem number_lt (a : List Word) : number a < 2 ^ (32 * a.length) := by
  induction a with
  | nil => simp [number]
  | cons x a ih =>
    rw [number, List.length_cons, Nat.mul_add 32, Nat.pow_add, show 32 * 1 = 32 by rfl, Nat.mul_comm (2 ^ (32 * a.length))]
    have := x.isLt
    generalize 2 ^ (32 * a.length) = B at *
    omega

theorem number_take {a : List Word} {i : Nat} (h : i < a.length) :
    number (a.take (i + 1)) = number (a.take i) + 2 ^ (32 * i) * (a[i]).toNat := by
  rw [List.take_succ_eq_append_getElem h, number_append]
  simp [number, Nat.min_eq_left (Nat.le_of_lt h)]

/-- A step of an addition: the digit and the new carry. -/
def AddsWith (x y c z c' : Word) : Prop := c'.toNat ≤ 1 ∧ z.toNat + 2 ^ 32 * c'.toNat = x.toNat + y.toNat + c.toNat

/-- A loop that adds digit by digit. -/
theorem adder_loop {body : Nat → List Word × Word → Option (List Word × Word)} {g e o0 : List Word} {n : Nat}
    (hg : n ≤ g.length) (he : n ≤ e.length) (ho : n ≤ o0.length)
    (hb : ∀ (i : Nat) (hi : i < n) (o : List Word) (c : Word), c.toNat ≤ 1 → ∃ z c', AddsWith (g[i]'(by omega)) (e[i]'(by omega)) c z c'
      ∧ (i < o.length → body i (o, c) = some (o.set i z, c'))) :
    ∃ o c, loop body n (o0, 0) = some (o, c) ∧ o.length = o0.length ∧ c.toNat ≤ 1 ∧ o.drop n = o0.drop n
      ∧ number (o.take n) + 2 ^ (32 * n) * c.toNat = number (g.take n) + number (e.take n) := by
  obtain ⟨⟨o, c⟩, h1, h2, h3, h4, h5⟩ := loop_inv (body := body) (fun i (s : List Word × Word) => s.1.length = o0.length
      ∧ s.2.toNat ≤ 1 ∧ s.1.drop i = o0.drop i
      ∧ number (s.1.take i) + 2 ^ (32 * i) * s.2.toNat = number (g.take i) + number (e.take i)) (n := n) (s := (o0, 0))
    ⟨rfl, by simp, rfl, by simp [number]⟩ (by
      rintro i hi ⟨o, c⟩ ⟨h1, h2, h3, h4⟩
      obtain ⟨z, c', ⟨a1, a2⟩, hz⟩ := hb i hi o c h2
      simp only at h1 h2 h3 h4
      refine ⟨_, hz (by omega), by simpa using h1, a1, ?_, ?_⟩
      · show (o.set i z).drop (i + 1) = _
        rw [List.drop_set_of_lt (by omega), ← List.drop_drop, h3, List.drop_drop]
      · show number ((o.set i z).take (i + 1)) + 2 ^ (32 * (i + 1)) * c'.toNat = _
        rw [number_take (by rw [List.length_set]; omega), number_take (by omega), number_take (by omega),
          List.take_set_of_le (Nat.le_refl _), List.getElem_set_self, Nat.mul_add 32, Nat.pow_add, show 32 * 1 = 32 by rfl]
        generalize 2 ^ (32 * i) = B at *
        have : B * (z.toNat + 2 ^ 32 * c'.toNat) = B * ((g[i]'(by omega)).toNat + (e[i]'(by omega)).toNat + c.toNat) := by rw [a2]
        rw [Nat.mul_add, Nat.mul_add, Nat.mul_add, ← Nat.mul_assoc] at this
        omega)
  exact ⟨o, c, h1, h2, h3, h4, h5⟩

theorem cmp1_eq {c : Word} (h : c.toNat ≤ 1) : (cmp1 c).toNat = c.toNat := by
  unfold cmp1
  rcases (show c.toNat = 0 ∨ c.toNat = 1 by omega) with h | h <;> simp [h]

theorem adcs_adds {a b c : Word} (h : c.toNat ≤ 1) : AddsWith a b c (adcs a b (cmp1 c)).1 (movhs (adcs a b (cmp1 c)).2) := by
  have h1 := cmp1_eq h
  have ha := a.isLt
  have hb := b.isLt
  unfold adcs movhs AddsWith
  dsimp only
  rw [← h1]
  have hs : (a + b + (if cmp1 c then 1 else 0 : Word)).toNat = (a.toNat + b.toNat + (cmp1 c).toNat) % 2 ^ 32 := by
    cases cmp1 c <;> simp [BitVec.toNat_add]
  rw [hs]
  have : (cmp1 c).toNat ≤ 1 := by cases cmp1 c <;> decide
  by_cases hc : 2 ^ 32 ≤ a.toNat + b.toNat + (cmp1 c).toNat
  · rw [decide_eq_true hc]
    exact ⟨by simp, by simp only [if_true, show (1 : Word).toNat = 1 by rfl]; omega⟩
  · rw [decide_eq_false hc]
    exact ⟨by simp, by simp only [Bool.false_eq_true, if_false, show (0 : Word).toNat = 0 by rfl]; omega⟩

theorem topBit_eq (x : Word) : topBit x = x >>> 31 := by
  unfold topBit
  apply BitVec.eq_of_getLsbD_eq
  intro i hi
  rw [BitVec.getLsbD_ushiftRight, BitVec.getLsbD_ushiftRight, BitVec.getLsbD_and]
  by_cases h : i = 0
  · subst h; simp
  · rw [BitVec.getLsbD_of_ge x _ (by omega), Bool.false_and]

theorem top_cases (x : Word) : x >>> 31 = 0 ∧ x.toNat < 2 ^ 31 ∨ x >>> 31 = 1 ∧ 2 ^ 31 ≤ x.toNat := by
  have hx := x.isLt
  by_cases h : x.toNat < 2 ^ 31
  · refine Or.inl ⟨?_, h⟩
    apply BitVec.eq_of_toNat_eq
    rw [BitVec.toNat_ushiftRight, Nat.shiftRight_eq_div_pow, Nat.div_eq_of_lt h]; rfl
  · refine Or.inr ⟨?_, by omega⟩
    apply BitVec.eq_of_toNat_eq
    rw [BitVec.toNat_ushiftRight, Nat.shiftRight_eq_div_pow]
    show _ = 1
    omega

theorem sum_toNat (x y c : Word) : (x + y + c).toNat = (x.toNat + y.toNat + c.toNat) % 2 ^ 32 := by
  simp [BitVec.toNat_add]

theorem portable_adds {x y c : Word} (h : c.toNat ≤ 1) :
    AddsWith x y c (x + y + c) (((topBit x ^^^ topBit (x + y + c)) ||| (topBit y ^^^ topBit (x + y + c))) ^^^ topBit (x + y + c)) := by
  have hs := sum_toNat x y c
  have hx := x.isLt
  have hy := y.isLt
  simp only [topBit_eq]
  unfold AddsWith
  rw [hs]
  rcases top_cases x with ⟨e1, h1⟩ | ⟨e1, h1⟩ <;> rcases top_cases y with ⟨e2, h2⟩ | ⟨e2, h2⟩ <;>
    rcases top_cases (x + y + c) with ⟨e3, h3⟩ | ⟨e3, h3⟩ <;> rw [hs] at h3 <;> rw [e1, e2, e3] <;>
    refine ⟨by decide, ?_⟩ <;> simp only [BitVec.toNat_xor, BitVec.toNat_or, show (1 : Word).toNat = 1 by rfl,
      show (0 : Word).toNat = 0 by rfl, show 1 ^^^ 1 = 0 by rfl, show 1 ^^^ 0 = 1 by rfl, show 0 ^^^ 1 = 1 by rfl,
      show 0 ^^^ 0 = 0 by rfl, show 1 ||| 1 = 1 by rfl, show 1 ||| 0 = 1 by rfl, show 0 ||| 1 = 1 by rfl,
      show 0 ||| 0 = 0 by rfl] <;> omega

theorem hasCarry_adds {x y c : Word} (h : c.toNat ≤ 1) : AddsWith x y c (x + y + c) (hasCarry x y (x + y + c)) := by
  have hs := sum_toNat x y c
  have hx := x.isLt
  have hy := y.isLt
  unfold hasCarry AddsWith
  rw [hs]
  rcases top_cases x with ⟨e1, h1⟩ | ⟨e1, h1⟩ <;> rcases top_cases y with ⟨e2, h2⟩ | ⟨e2, h2⟩ <;>
    rcases top_cases (x + y + c) with ⟨e3, h3⟩ | ⟨e3, h3⟩ <;> rw [hs] at h3 <;> rw [e1, e2, e3] <;>
    refine ⟨by decide, ?_⟩ <;> simp only [BitVec.toNat_xor, BitVec.toNat_and, show (1 : Word).toNat = 1 by rfl,
      show (0 : Word).toNat = 0 by rfl, show 1 ^^^ 1 = 0 by rfl, show 1 ^^^ 0 = 1 by rfl, show 0 ^^^ 1 = 1 by rfl,
      show 0 ^^^ 0 = 0 by rfl, show 1 &&& 1 = 1 by rfl, show 1 &&& 0 = 0 by rfl, show 0 &&& 1 = 0 by rfl,
      show 0 &&& 0 = 0 by rfl] <;> omega

/-- From the equation with the carry to the sum modulo. -/
theorem mod_of_carry {a b s n c : Nat} (h : a + 2 ^ n * c = s) (ha : a < 2 ^ n) (hb : b = a) : b = s % 2 ^ n := by
  subst hb; rw [← h, Nat.add_mul_mod_self_left, Nat.mod_eq_of_lt ha]

theorem tempMain_eq {n : Nat} {g e o0 : List Word} (hg : g.length = n) (he : e.length = n) (ho : n ≤ o0.length) :
    ∃ o, tempMain n g e o0 = some (o ++ o0.drop n) ∧ o.length = n ∧ number o = (number g + number e) % 2 ^ (32 * n) := by
  obtain ⟨o, c, h1, h2, h3, h4, h5⟩ := adder_loop (body := fun i (s : List Word × Word) => do
    let x ← g[i]?
    let y ← e[i]?
    let o ← store s.1 i (x + y + s.2)
    some (o, hasCarry x y (x + y + s.2))) (g := g) (e := e) (o0 := o0) (n := n) (by omega) (by omega) ho (by
      intro i hi o c hc
      refine ⟨_, _, hasCarry_adds hc, fun ho => ?_⟩
      simp only [List.getElem?_eq_getElem (show i < g.length by omega), List.getElem?_eq_getElem (show i < e.length by omega),
        Option.bind_eq_bind, Option.bind_some, store_lt ho])
  have hl : (o.take n).length = n := by simp; omega
  refine ⟨o.take n, ?_, hl, ?_⟩
  · unfold tempMain
    rw [h1, ← h4, List.take_append_drop]; rfl
  · rw [List.take_of_length_le (l := g) (by omega), List.take_of_length_le (l := e) (by omega)] at h5
    have := number_lt (o.take n)
    rw [hl] at this
    exact mod_of_carry h5 this rfl

theorem sumArm_eq {n : Nat} {g e o0 : List Word} (hn : 0 < n) (hg : g.length = n) (he : e.length = n) (ho : o0.length = n) :
    ∃ o, sumArm n g e o0 = some o ∧ o.length = n ∧ number o = (number g + number e) % 2 ^ (32 * n) := by
  obtain ⟨o, c, h1, h2, h3, h4, h5⟩ := adder_loop (body := fun i (s : List Word × Word) => do
    let a ← g[i]?
    let b ← e[i]?
    let (c, f) := adcs a b (cmp1 s.2)
    let o ← store s.1 i c
    some (o, movhs f)) (g := g) (e := e) (o0 := o0) (n := n - 1) (by omega) (by omega) (by omega) (by
      intro i hi o c hc
      refine ⟨_, _, adcs_adds hc, fun ho => ?_⟩
      simp only [List.getElem?_eq_getElem (show i < g.length by omega), List.getElem?_eq_getElem (show i < e.length by omega),
        Option.bind_eq_bind, Option.bind_some, store_lt ho])
  obtain ⟨m, rfl⟩ : ∃ m, n = m + 1 := ⟨n - 1, by omega⟩
  simp only [Nat.add_sub_cancel] at h1 h4 h5
  have hadd := adcs_adds (a := g[m]'(by omega)) (b := e[m]'(by omega)) h3
  refine ⟨o.set m (adcs (g[m]'(by omega)) (e[m]'(by omega)) (cmp1 c)).1, ?_, by simp; omega, ?_⟩
  · unfold sumArm
    simp only [Nat.add_sub_cancel]
    rw [h1]
    simp only [List.getElem?_eq_getElem (show m < g.length by omega), List.getElem?_eq_getElem (show m < e.length by omega),
        Option.bind_eq_bind, Option.bind_some, store_lt (show m < o.length by omega)]
  · generalize hz : (adcs (g[m]'(by omega)) (e[m]'(by omega)) (cmp1 c)).1 = z at *
    generalize movhs (adcs (g[m]'(by omega)) (e[m]'(by omega)) (cmp1 c)).2 = c' at *
    have hl : (o.set m z).length = m + 1 := by simp; omega
    have e1 : number (o.set m z) = number (o.take m) + 2 ^ (32 * m) * z.toNat := by
      conv => lhs; rw [← List.take_of_length_le (l := o.set m z) (i := m + 1) (by omega)]
      rw [number_take (by omega), List.take_set_of_le (Nat.le_refl _), List.getElem_set_self]
    have e2 : number g = number (g.take m) + 2 ^ (32 * m) * (g[m]'(by omega)).toNat := by
      conv => lhs; rw [← List.take_of_length_le (l := g) (i := m + 1) (by omega)]
      rw [number_take (by omega)]
    have e3 : number e = number (e.take m) + 2 ^ (32 * m) * (e[m]'(by omega)).toNat := by
      conv => lhs; rw [← List.take_of_length_le (l := e) (i := m + 1) (by omega)]
      rw [number_take (by omega)]
    have hlt := number_lt (o.set m z)
    rw [hl] at hlt
    refine mod_of_carry (c := c'.toNat) ?_ hlt rfl
    rw [e1, e2, e3, Nat.mul_add 32, Nat.pow_add, show 32 * 1 = 32 by rfl]
    have : 2 ^ (32 * m) * (z.toNat + 2 ^ 32 * c'.toNat) = 2 ^ (32 * m) * ((g[m]'(by omega)).toNat + (e[m]'(by omega)).toNat + c.toNat) := by
      rw [hadd.2]
    rw [Nat.mul_add, Nat.mul_add, Nat.mul_add, ← Nat.mul_assoc] at this
    omega

theorem sumPortable_eq {n : Nat} {g e o0 : List Word} (hg : g.length = n) (he : e.length = n) (ho : o0.length = n)
    (hs : ∀ i, i < n → FitsInt ((g.getD i 0).toInt + (e.getD i 0).toInt)) :
    ∃ o, sumPortable n g e o0 = some o ∧ o.length = n ∧ number o = (number g + number e) % 2 ^ (32 * n) := by
  obtain ⟨o, c, h1, h2, h3, h4, h5⟩ := adder_loop (body := fun i (s : List Word × Word) => do
    let x ← g[i]?
    let y ← e[i]?
    let z ← addS x y
    let o ← store s.1 i (z + s.2)
    let om := topBit (z + s.2)
    let carry := ((topBit x ^^^ om) ||| (topBit y ^^^ om)) ^^^ om
    some (o, carry)) (g := g) (e := e) (o0 := o0) (n := n) (by omega) (by omega) (by omega) (by
      intro i hi o c hc
      refine ⟨_, _, portable_adds hc, fun ho => ?_⟩
      have := hs i hi
      simp only [List.getD_eq_getElem?_getD, List.getElem?_eq_getElem (show i < g.length by omega),
        List.getElem?_eq_getElem (show i < e.length by omega), Option.getD_some] at this
      have hov : addS (g[i]'(by omega)) (e[i]'(by omega)) = some (g[i]'(by omega) + e[i]'(by omega)) := by
        unfold addS
        rw [if_neg]
        unfold BitVec.saddOverflow
        unfold FitsInt at this
        simp only [Bool.or_eq_true, decide_eq_true_eq, not_or]
        omega
      simp only [List.getElem?_eq_getElem (show i < g.length by omega), List.getElem?_eq_getElem (show i < e.length by omega),
        Option.bind_eq_bind, Option.bind_some, hov, store_lt ho])
  refine ⟨o, ?_, by omega, ?_⟩
  · unfold sumPortable
    rw [h1]; rfl
  · rw [List.take_of_length_le (by omega), List.take_of_length_le (by omega), List.take_of_length_le (by omega)] at h5
    have := number_lt o
    rw [h2, ho] at this
    exact mod_of_carry h5 this rfl

theorem digits_lt {N M B x y : Nat} (hN : N < B) (hM : M < B) : N + B * x < M + B * y ↔ x < y ∨ x = y ∧ N < M := by
  rcases Nat.lt_trichotomy x y with h | h | h
  · have : B * (x + 1) ≤ B * y := Nat.mul_le_mul_left _ h
    rw [Nat.mul_add, Nat.mul_one] at this
    omega
  · subst h; omega
  · have : B * (y + 1) ≤ B * x := Nat.mul_le_mul_left _ h
    rw [Nat.mul_add, Nat.mul_one] at this
    omega

theorem take_lt {g e : List Word} {i : Nat} (hg : i < g.length) (he : i < e.length) :
    number (g.take (i + 1)) < number (e.take (i + 1)) ↔
      (g[i]).toNat < (e[i]).toNat ∨ (g[i]).toNat = (e[i]).toNat ∧ number (g.take i) < number (e.take i) := by
  rw [number_take hg, number_take he]
  refine digits_lt ?_ ?_
  · have := number_lt (g.take i); rwa [List.length_take, Nat.min_eq_left (by omega)] at this
  · have := number_lt (e.take i); rwa [List.length_take, Nat.min_eq_left (by omega)] at this

theorem compareArm_eq {n : Nat} {g e : List Word} (hg : g.length = n) (he : e.length = n) :
    compareArm n g e = some (if number g < number e then 1 else 0) := by
  obtain ⟨c, h1, h2⟩ := loop_inv (body := fun i (carry : Word) => do
    let a ← g[i]?
    let b ← e[i]?
    let nei := ~~~ b
    let (_, f) := adcs a nei (cmp1 carry)
    some (movhs f)) (fun i c => c = if number (g.take i) < number (e.take i) then 0 else 1) (n := n) (s := 1) (by simp [number]) (by
      intro i hi c hc
      simp only [List.getElem?_eq_getElem (show i < g.length by omega), List.getElem?_eq_getElem (show i < e.length by omega),
        Option.bind_eq_bind, Option.bind_some]
      refine ⟨_, rfl, ?_⟩
      have hlt := take_lt (g := g) (e := e) (i := i) (by omega) (by omega)
      generalize number (g.take i) = N at *
      generalize number (e.take i) = M at *
      generalize number (g.take (i + 1)) = N' at *
      generalize number (e.take (i + 1)) = M' at *
      generalize g[i]'(by omega) = x at *
      generalize e[i]'(by omega) = y at *
      have hx := x.isLt
      have hy := y.isLt
      have hn : (~~~y).toNat = 2 ^ 32 - 1 - y.toNat := BitVec.toNat_not
      have hc1 : (cmp1 c).toNat = if N < M then 0 else 1 := by
        rw [hc]; by_cases hP : N < M <;> simp [hP, cmp1]
      have hf : (adcs x (~~~y) (cmp1 c)).2 = decide ¬ (N' < M') := by
        unfold adcs
        dsimp only
        rw [hn, decide_eq_decide, hlt]
        by_cases hP : N < M
        · rw [if_pos hP] at hc1; omega
        · rw [if_neg hP] at hc1; omega
      rw [hf]
      unfold movhs
      by_cases hP : N' < M' <;> simp [hP])
  unfold compareArm
  rw [h1]
  rw [List.take_of_length_le (by omega), List.take_of_length_le (by omega)] at h2
  simp only [Option.bind_eq_bind, Option.bind_some, h2]
  by_cases hP : number g < number e <;> simp [hP]

theorem comparePortable_eq {n : Nat} {g e : List Word} (hg : g.length = n) (he : e.length = n)
    (gp : ∀ w ∈ g, 0 ≤ w.toInt) (ep : ∀ w ∈ e, 0 ≤ w.toInt) :
    comparePortable n g e = some (if number g < number e then 1 else 0) := by
  obtain ⟨c, h1, h2⟩ := loop_inv (body := fun i (greater : Word) => do
    let x ← g[i]?
    let y ← e[i]?
    some (if x = y then greater else if x.slt y then 1 else 0)) (fun i c => c = if number (g.take i) < number (e.take i) then 1 else 0)
    (n := n) (s := 0) (by simp [number]) (by
      intro i hi c hc
      simp only [List.getElem?_eq_getElem (show i < g.length by omega), List.getElem?_eq_getElem (show i < e.length by omega),
        Option.bind_eq_bind, Option.bind_some]
      refine ⟨_, rfl, ?_⟩
      have hlt := take_lt (g := g) (e := e) (i := i) (by omega) (by omega)
      have hx : 0 ≤ (g[i]'(by omega)).toInt := gp _ (List.getElem_mem _)
      have hy : 0 ≤ (e[i]'(by omega)).toInt := ep _ (List.getElem_mem _)
      generalize number (g.take i) = N at *
      generalize number (e.take i) = M at *
      generalize number (g.take (i + 1)) = N' at *
      generalize number (e.take (i + 1)) = M' at *
      generalize g[i]'(by omega) = x at *
      generalize e[i]'(by omega) = y at *
      have hx' : x.toInt = x.toNat := by
        rw [BitVec.toInt_eq_toNat_cond] at hx ⊢
        split at hx <;> rename_i h <;> simp only [h, if_true, if_false] <;> omega
      have hy' : y.toInt = y.toNat := by
        rw [BitVec.toInt_eq_toNat_cond] at hy ⊢
        split at hy <;> rename_i h <;> simp only [h, if_true, if_false] <;> omega
      by_cases hxy : x = y
      · rw [if_pos hxy, hc]
        subst hxy
        have : N < M ↔ N' < M' := by rw [hlt]; simp
        simp only [this]
      · rw [if_neg hxy]
        have hne : x.toNat ≠ y.toNat := fun h => hxy (BitVec.eq_of_toNat_eq h)
        have : x.slt y = true ↔ N' < M' := by rw [BitVec.slt_iff_toInt_lt, hx', hy', hlt]; omega
        simp only [this])
  unfold comparePortable
  rw [h1]
  rw [List.take_of_length_le (by omega), List.take_of_length_le (by omega)] at h2
  rw [h2]

/-- A loop in which one iteration is undefined. -/
theorem loop_none {σ : Type} {body : Nat → σ → Option σ} {n i : Nat} (hi : i < n) (h : ∀ s, body i s = none) (s : σ) :
    loop body n s = none := by
  induction n with
  | zero => omega
  | succ n ih =>
    rw [loop]
    rcases Nat.eq_or_lt_of_le (Nat.le_of_lt_succ hi) with rfl | h1
    · cases loop body i s with
      | none => rfl
      | some s' => exact h s'
    · rw [ih h1]; rfl

theorem addS_none {x y : Word} (h : ¬ FitsInt (x.toInt + y.toInt)) : addS x y = none := by
  unfold addS
  rw [if_pos]
  unfold BitVec.saddOverflow
  unfold FitsInt at h
  simp only [Bool.or_eq_true, decide_eq_true_eq]
  omega

theorem sumPortable_none {n i : Nat} {g e o0 : List Word} (hg : g.length = n) (he : e.length = n) (hi : i < n)
    (h : ¬ FitsInt ((g.getD i 0).toInt + (e.getD i 0).toInt)) : sumPortable n g e o0 = none := by
  unfold sumPortable
  rw [loop_none hi]
  · rfl
  · intro s
    simp only [List.getD_eq_getElem?_getD, List.getElem?_eq_getElem (show i < g.length by omega),
        List.getElem?_eq_getElem (show i < e.length by omega), Option.getD_some] at h
    simp only [List.getElem?_eq_getElem (show i < g.length by omega), List.getElem?_eq_getElem (show i < e.length by omega),
        Option.bind_eq_bind, Option.bind_some, addS_none h, Option.bind_none]

/-- The length of the array does not change, and the array is long enough for what is stored. -/
theorem tempLoop_length {g e o0 : List Word} : ∀ {n : Nat} {s}, loop (fun i (s : List Word × Word) => do
    let x ← g[i]?
    let y ← e[i]?
    let o ← store s.1 i (x + y + s.2)
    some (o, hasCarry x y (x + y + s.2))) n (o0, 0) = some s → s.1.length = o0.length ∧ n ≤ o0.length := by
  intro n
  induction n with
  | zero => rintro s ⟨⟩; exact ⟨rfl, Nat.zero_le _⟩
  | succ n ih =>
    intro s h
    rw [loop] at h
    obtain ⟨s1, h1, h⟩ := Option.bind_eq_some_iff.mp h
    obtain ⟨l1, l2⟩ := ih h1
    obtain ⟨x, hx, h⟩ := Option.bind_eq_some_iff.mp h
    obtain ⟨y, hy, h⟩ := Option.bind_eq_some_iff.mp h
    obtain ⟨o, ho, h⟩ := Option.bind_eq_some_iff.mp h
    unfold store at ho
    split at ho
    · rename_i hlt
      simp only [Option.some.injEq] at ho h
      subst h ho
      simp; omega
    · exact absurd ho (by simp)

theorem tempMain_none {n : Nat} {g e o0 : List Word} (h : o0.length < n) : tempMain n g e o0 = none := by
  unfold tempMain
  cases hl : loop (fun i (s : List Word × Word) => do
    let x ← g[i]?
    let y ← e[i]?
    let o ← store s.1 i (x + y + s.2)
    some (o, hasCarry x y (x + y + s.2))) n (o0, 0) with
  | none => rfl
  | some s => have := tempLoop_length hl; omega

end TinyGarble.A23
