import Verif.Props.Str
import Verif.Props.Protocol
import Verif.Model.StrApi

/-!
# Result strings of executions: lemmas
-/

namespace TinyGarble.Proof
open TinyGarble Spec Props

theorem alpha_lt : ∀ c ∈ hexAlphabet, hexAlphabet.idxOf c.toUpper < 16 := by decide
theorem alpha_inj : ∀ a ∈ hexAlphabet, ∀ b ∈ hexAlphabet, hexAlphabet.idxOf a.toUpper = hexAlphabet.idxOf b.toUpper → a = b := by
  decide

theorem hexValue_snoc (s : List Char) (c : Char) : hexValue (s ++ [c]) = 16 * hexValue s + hexAlphabet.idxOf c.toUpper := by
  unfold hexValue
  rw [List.foldl_append]
  rfl

theorem hexValue_inj {s t : List Char} (hs : ∀ c ∈ s, c ∈ hexAlphabet) (ht : ∀ c ∈ t, c ∈ hexAlphabet)
    (hl : s.length = t.length) (hv : hexValue s = hexValue t) : s = t := by
  induction s using List.reverseRecOn generalizing t with
  | nil => exact (List.length_eq_zero_iff.mp hl.symm).symm
  | append_singleton s a ih =>
    rcases List.eq_nil_or_concat t with rfl | ⟨t, b, rfl⟩
    · simp at hl
    · rw [List.concat_eq_append] at ht hl hv ⊢
      rw [hexValue_snoc, hexValue_snoc] at hv
      have ha := hs a (by simp)
      have hb := ht b (by simp)
      have h1 := alpha_lt a ha
      have h2 := alpha_lt b hb
      have e1 : hexAlphabet.idxOf a.toUpper = hexAlphabet.idxOf b.toUpper := by omega
      have e2 : hexValue s = hexValue t := by omega
      rw [alpha_inj a ha b hb e1, ih (fun c hc => hs c (by simp [hc])) (fun c hc => ht c (by simp [hc]))
        (by simpa using hl) e2]

theorem hexValue_lt' {s : List Char} (hs : ∀ c ∈ s, c ∈ hexAlphabet) : hexValue s < 16 ^ s.length := by
  induction s using List.reverseRecOn with
  | nil => decide
  | append_singleton s a ih =>
    have := ih (fun c hc => hs c (by simp [hc]))
    have h1 := alpha_lt a (hs a (by simp))
    rw [hexValue_snoc, List.length_append, List.length_singleton, Nat.pow_succ]
    omega

theorem numBytes_unique {n k : Nat} (h1 : 256 ^ k ≤ n) (h2 : n < 256 ^ (k + 1)) : numBytes n = k + 1 := by
  have h0 : n ≠ 0 := by have : 0 < 256 ^ k := Nat.pow_pos (by decide); omega
  have a := le_numBytes h0
  have b := lt_numBytes n
  have hp := numBytes_pos h0
  have c1 : numBytes n - 1 < k + 1 := (Nat.pow_lt_pow_iff_right (by decide)).mp (Nat.lt_of_le_of_lt a h2)
  have c2 : k < numBytes n := (Nat.pow_lt_pow_iff_right (by decide)).mp (Nat.lt_of_le_of_lt h1 b)
  omega

/-- The string that shows a number is determined. -/
theorem Shows_eq {s : List Char} {n : Nat} (h : Shows s n) : s = bn2hex n := by
  rcases h.short with rfl | ⟨h1, h2, h3⟩
  · have : n = 0 := by rw [← h.value]; decide
    subst this; rfl
  · match s, h with
    | [], _ => exact absurd rfl h2
    | [_], _ => simp at h1
    | a :: b :: r, h =>
      have ha := h.digits a (by simp)
      have hb := h.digits b (by simp)
      have hv : hexValue (a :: b :: r)
          = (16 * hexAlphabet.idxOf a.toUpper + hexAlphabet.idxOf b.toUpper) * 16 ^ r.length + hexValue r := by
        rw [show a :: b :: r = [a, b] ++ r from rfl, hexValue_append]
        congr 2
        simp [hexValue]
      have hpos : 1 ≤ 16 * hexAlphabet.idxOf a.toUpper + hexAlphabet.idxOf b.toUpper := by
        apply Nat.one_le_iff_ne_zero.mpr
        intro e
        apply h3
        have z : hexAlphabet.idxOf '0'.toUpper = 0 := by decide
        rw [alpha_inj a ha '0' (by decide) (by omega), alpha_inj b hb '0' (by decide) (by omega)]
        rfl
      obtain ⟨k, hk⟩ : ∃ k, r.length = 2 * k := ⟨r.length / 2, by simp at h1; omega⟩
      have hlow : 256 ^ k ≤ n := by
        rw [← h.value, hv, hk, Nat.pow_mul]
        exact Nat.le_trans (Nat.le_mul_of_pos_left _ hpos) (Nat.le_add_right _ _)
      have hlen : (a :: b :: r).length = 2 * (k + 1) := by simp; omega
      have hhi : n < 256 ^ (k + 1) := by
        have := hexValue_lt' h.digits
        rw [h.value, hlen, Nat.pow_mul] at this
        exact this
      have h0 : n ≠ 0 := by have : 0 < 256 ^ k := Nat.pow_pos (by decide); omega
      refine hexValue_inj h.digits (bn2hex_shows n).digits ?_ (by rw [h.value, bn2hex_value])
      rw [hlen]
      unfold bn2hex
      rw [if_neg h0, hexDigits_length, numBytes_unique hlow hhi]

theorem showsCycle_unique {os : Nat} {f g : Nat → Bool} {s t : List Char} (hs : ShowsCycle os f s) (ht : ShowsCycle os g t)
    (h : ∀ i < os, f i = g i) : s = t := by
  obtain ⟨v, a1, a2⟩ := hs
  obtain ⟨w, b1, b2⟩ := ht
  have : v = w := by
    apply Nat.eq_of_testBit_eq
    intro i
    rw [a2, b2]
    by_cases hi : i < os
    · rw [h i hi]
    · simp [hi]
  rw [Shows_eq a1, Shows_eq b1, this]

/-- The result string is determined by the outputs. -/
theorem showsRun_unique {mode : OutputMode} {os m : Nat} {f g : Nat → Nat → Bool} {s t : List Char} (hm : 0 < m)
    (hs : ShowsRun mode os m f s) (ht : ShowsRun mode os m g t) (h : ∀ t < m, ∀ i < os, f t i = g t i) : s = t := by
  cases mode with
  | consecutive =>
    obtain ⟨v, a1, a2, a3⟩ := hs
    obtain ⟨w, b1, b2, b3⟩ := ht
    have : v = w := by
      apply Nat.eq_of_testBit_eq
      intro j
      by_cases hj : m * os ≤ j
      · rw [a3 j hj, b3 j hj]
      · have ho : 0 < os := by
          rcases Nat.eq_zero_or_pos os with e | e
          · subst e; omega
          · exact e
        have hd : j / os < m := (Nat.div_lt_iff_lt_mul ho).mpr (by omega)
        have hr := Nat.mod_lt j ho
        have e : j = j / os * os + j % os := by rw [Nat.mul_comm]; exact (Nat.div_add_mod j os).symm
        rw [e, a2 _ hd _ hr, b2 _ hd _ hr, h _ hd _ hr]
    rw [Shows_eq a1, Shows_eq b1, this]
  | separatedClock =>
    obtain ⟨l, a1, rfl, a3⟩ := hs
    obtain ⟨l', b1, rfl, b3⟩ := ht
    congr 1
    apply List.ext_getElem (by omega)
    intro t h1 h2
    exact showsCycle_unique (a3 t h1) (b3 t h2) (h t (by omega))
  | lastClock => exact showsCycle_unique hs ht (h _ (by omega))

theorem showsCycle_congr {os : Nat} {f g : Nat → Bool} {s : List Char} (hs : ShowsCycle os f s) (h : ∀ i < os, f i = g i) :
    ShowsCycle os g s := by
  obtain ⟨v, a1, a2⟩ := hs
  refine ⟨v, a1, fun i => ?_⟩
  rw [a2]
  by_cases hi : i < os
  · rw [h i hi]
  · simp [hi]

theorem showsRun_congr {mode : OutputMode} {os m : Nat} {f g : Nat → Nat → Bool} {s : List Char} (hm : 0 < m)
    (hs : ShowsRun mode os m f s) (h : ∀ t < m, ∀ i < os, f t i = g t i) : ShowsRun mode os m g s := by
  cases mode with
  | consecutive =>
    obtain ⟨v, a1, a2, a3⟩ := hs
    exact ⟨v, a1, fun t ht i hi => (a2 t ht i hi).trans (h t ht i hi), a3⟩
  | separatedClock =>
    obtain ⟨l, a1, a2, a3⟩ := hs
    exact ⟨l, a1, a2, fun t ht => showsCycle_congr (a3 t ht) (h t (by omega))⟩
  | lastClock => exact showsCycle_congr hs (h _ (by omega))

theorem isCycle_shows {os outputs t v : Nat} {f : Nat → Bool} {s : List Char} (hs : Shows s v) (hc : IsCycle os outputs t v)
    (h : ∀ i < os, outputs.testBit (t * os + i) = f i) : ShowsCycle os f s := by
  refine ⟨v, hs, fun i => ?_⟩
  by_cases hi : i < os
  · rw [hc.bits i hi, h i hi]; simp [hi]
  · rw [Nat.testBit_lt_two_pow (Nat.lt_of_lt_of_le hc.small (Nat.pow_le_pow_right (by decide) (by omega)))]
    simp [hi]

/-- The string made from a number that holds the outputs of all cycles. -/
theorem showsRun_high {os m out : Nat} {bit : Nat → Nat → Bool} (hm : 0 < m) (mode : OutputMode)
    (h1 : ∀ t < m, ∀ i < os, out.testBit (t * os + i) = bit t i) (h2 : ∀ j, m * os ≤ j → out.testBit j = false) :
    ShowsRun mode os m bit (outputStrHigh os out m mode) := by
  cases mode with
  | consecutive => exact ⟨out, (C34_consecutive os out m).1, h1, h2⟩
  | separatedClock =>
    obtain ⟨l, a, b, -, d⟩ := C34_separated os out m
    refine ⟨l, a, b, fun t ht => ?_⟩
    obtain ⟨v, s1, s2⟩ := d t ht
    exact isCycle_shows s1 s2 (h1 t (by omega))
  | lastClock =>
    obtain ⟨v, s1, s2⟩ := C34_last_high os out m
    exact isCycle_shows s1 s2 (h1 _ (by omega))

theorem Reports.shows {c : Circuit} {A : Args} {m out : Nat} {bit : Nat → Nat → Bool} (hm : 0 < m)
    (h : Reports c A m out bit) : ShowsRun A.mode c.outputSize m bit (A.outputStr c (out, m)) := by
  unfold Reports at h
  unfold Args.outputStr
  by_cases hl : A.useLow = true ∧ A.mode = .lastClock
  · rw [if_pos hl] at h
    rw [if_pos hl.1, hl.2]
    refine ⟨out, bn2hex_shows _, fun i => ?_⟩
    by_cases hi : i < c.outputSize
    · rw [h.1 i hi]; simp [hi]
    · rw [h.2 i (by omega)]; simp [hi]
  · rw [if_neg hl] at h
    have key := showsRun_high hm A.mode h.1 h.2
    by_cases hu : A.useLow = true
    · rw [if_pos hu]
      have : outputStrLow c.outputSize out m A.mode = outputStrHigh c.outputSize out m A.mode := by
        generalize A.mode = mode at hl
        cases mode with
        | consecutive => rfl
        | separatedClock => rfl
        | lastClock => exact absurd ⟨hu, rfl⟩ hl
      rw [this]
      exact key
    · rw [if_neg hu]
      exact key

/-- Both parties' strings. -/
theorem strings_protocol {cap : Nat} {cr : Crypto} {c : Circuit} {a b : StrArgs} {G : GEnv} {E : EEnv} {v : Nat → Nat → Bool}
    (h : Proper cap cr c a.parse b.parse G E v) :
    ∃ g e m, AlwaysFinishes cap (garbleStr cr (some c) a G) (evaluateStr cr (some c) b E) g e
      ∧ 0 < m ∧ Executed c a.period v a.cycles m
      ∧ ShowsRun a.mode c.outputSize m (fun t i => a.parse.mask.testBit i && v t (c.outputs i).toNat) g
      ∧ ShowsRun a.mode c.outputSize m (if a.parse.useLow = true ∧ a.mode = .lastClock
          then fun t i => (sessionOf cr c a.parse b.parse G E).storedLast a.parse.mask v i (t + 1)
          else fun t i => (sessionOf cr c a.parse b.parse G E).stored a.parse.mask v t i) e := by
  have hx := executed_count c a.parse.period v a.parse.cycles
  have hm := loopCount_pos (stopB c a.parse.period v) a.parse.cycles 0 h.setup.cycles
  have hr := runs_protocol h.setup h.values h.lucky h.publicStop
  have r1 := reports_garbler (S := sessionOf cr c a.parse b.parse G E) (A := a.parse) (v := v) hm
  have r2 := reports_evaluator (S := sessionOf cr c a.parse b.parse G E) (A := a.parse) (v := v) hm
  have n1 : ¬ a.cycles = 0 := by have := h.setup.cycles; show ¬ a.parse.cycles = 0; omega
  have n2 : ¬ b.cycles = 0 := by
    show ¬ b.parse.cycles = 0
    rw [← h.setup.paired.cycles]; exact n1
  have he : ∀ r, b.parse.outputStr c r = a.parse.outputStr c r := by
    intro r
    unfold Args.outputStr Args.useLow
    rw [h.setup.paired.lowMem, h.setup.paired.cycles, h.setup.paired.mode]
  have runs := hr.bind (f := fun r => .ret (a.parse.outputStr c r)) (g := fun r => .ret (b.parse.outputStr c r)) Runs.ret
  rw [he] at runs
  have hg : garbleStr cr (some c) a G = (garbleBN cr c a.parse G).bind fun r => .ret (a.parse.outputStr c r) := by
    unfold garbleStr
    rw [if_neg n1]
  have hev : evaluateStr cr (some c) b E = (evaluateBN cr c b.parse E).bind fun r => .ret (b.parse.outputStr c r) := by
    unfold evaluateStr
    rw [if_neg n2]
  rw [← hg, ← hev] at runs
  exact ⟨_, _, _, runs.always, hm, hx, Reports.shows hm r1, Reports.shows hm r2⟩

end TinyGarble.Proof
