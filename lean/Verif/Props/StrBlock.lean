import Verif.Props.Str
import Mathlib.Tactic.IntervalCases

/-!
# C45: exactly which strings `Str2Block` accepts
-/

namespace TinyGarble.Spec

/-- White space (blanks and tabs included), perhaps a sign, a hexadecimal digit, and anything else. -/
def BeginsNumber (h : List Char) : Prop :=
  ∃ white sign d rest, h = white ++ (sign ++ d :: rest) ∧ (∀ c ∈ white, c ∈ [' ', '\t', '\n', Char.ofNat 11, Char.ofNat 12, '\r'])
    ∧ sign ∈ [[], ['-'], ['+']] ∧ d ∈ "0123456789ABCDEFabcdef".toList

/-- The string filled up with zeros on the left to `n` characters. -/
def zeroFilled (n : Nat) (s : List Char) : List Char := List.replicate (n - s.length) '0' ++ s

end TinyGarble.Spec

namespace TinyGarble.Proof
open TinyGarble Spec

theorem hexDigit_some {c : Char} {d : Nat} (h : hexDigit? c = some d) : c ∈ "0123456789ABCDEFabcdef".toList ∧ d < 16 := by
  have hn : c = Char.ofNat c.toNat := (Char.ofNat_toNat c).symm
  have key : ∀ n < 128, ((48 ≤ n ∧ n ≤ 57) ∨ (97 ≤ n ∧ n ≤ 102) ∨ (65 ≤ n ∧ n ≤ 70)) →
    Char.ofNat n ∈ "0123456789ABCDEFabcdef".toList := by decide
  unfold hexDigit? at h
  split at h
  · rename_i hh
    have h1 : 48 ≤ c.toNat := hh.1
    have h2 : c.toNat ≤ 57 := hh.2
    have : d = c.toNat - 48 := (Option.some.inj h).symm
    exact ⟨hn ▸ key _ (by omega) (by omega), by omega⟩
  split at h
  · rename_i hh
    have h1 : 97 ≤ c.toNat := hh.1
    have h2 : c.toNat ≤ 102 := hh.2
    have : d = c.toNat - 97 + 10 := (Option.some.inj h).symm
    exact ⟨hn ▸ key _ (by omega) (by omega), by omega⟩
  split at h
  · rename_i hh
    have h1 : 65 ≤ c.toNat := hh.1
    have h2 : c.toNat ≤ 70 := hh.2
    have : d = c.toNat - 65 + 10 := (Option.some.inj h).symm
    exact ⟨hn ▸ key _ (by omega) (by omega), by omega⟩
  · cases h

theorem leadingHex_bound (s : List Char) : (leadingHex s).length ≤ s.length ∧ ∀ d ∈ leadingHex s, d < 16 := by
  induction s with
  | nil => exact ⟨Nat.le_refl _, fun d hd => nomatch hd⟩
  | cons c s ih =>
    unfold leadingHex
    cases e : hexDigit? c with
    | none => exact ⟨Nat.zero_le _, fun d hd => nomatch hd⟩
    | some d =>
      refine ⟨Nat.succ_le_succ ih.1, fun x hx => ?_⟩
      rcases List.mem_cons.1 hx with rfl | hx
      · exact (hexDigit_some e).2
      · exact ih.2 x hx

theorem ofDigits_lt {l : List Nat} (h : ∀ d ∈ l, d < 16) : ofDigits 16 l < 16 ^ l.length := by
  have key : ∀ l : List Nat, (∀ d ∈ l, d < 16) → ∀ a, l.foldl (fun a d => 16 * a + d) a < (a + 1) * 16 ^ l.length := by
    intro l
    induction l with
    | nil => intro _ a; simp
    | cons d l ih =>
      intro h a
      have h1 := ih (fun x hx => h x (List.mem_cons_of_mem _ hx)) (16 * a + d)
      have h2 := h d List.mem_cons_self
      rw [List.foldl_cons, List.length_cons, Nat.pow_succ]
      refine Nat.lt_of_lt_of_le h1 ?_
      calc (16 * a + d + 1) * 16 ^ l.length ≤ ((a + 1) * 16) * 16 ^ l.length := Nat.mul_le_mul_right _ (by omega)
        _ = (a + 1) * (16 ^ l.length * 16) := by rw [Nat.mul_assoc, Nat.mul_comm 16]
  simpa [ofDigits] using key l h 0

theorem leadingHex_ne {s : List Char} : leadingHex s ≠ [] ↔ ∃ d rest, s = d :: rest ∧ d ∈ "0123456789ABCDEFabcdef".toList := by
  cases s with
  | nil => exact ⟨fun h => absurd rfl h, fun ⟨_, _, h, _⟩ => nomatch h⟩
  | cons c s =>
    rw [leadingHex]
    constructor
    · intro h
      cases e : hexDigit? c with
      | none => rw [e] at h; exact absurd rfl h
      | some d => exact ⟨c, s, rfl, (hexDigit_some e).1⟩
    · rintro ⟨d, rest, e, hd⟩
      obtain ⟨rfl, rfl⟩ := List.cons.inj e
      rw [hexDigit_eq c hd]
      exact fun h => nomatch h

theorem digits_bound (s : List Char) : (strtoullDigits s).length ≤ s.length ∧ ∀ d ∈ strtoullDigits s, d < 16 := by
  unfold strtoullDigits
  split
  · rename_i x rest
    split
    · have := leadingHex_bound rest
      exact ⟨Nat.le_trans this.1 (by simp only [List.length_cons]; omega), this.2⟩
    · exact leadingHex_bound _
  · exact leadingHex_bound _

theorem digits_ne {s : List Char} : strtoullDigits s ≠ [] ↔ leadingHex s ≠ [] := by
  unfold strtoullDigits
  split
  · rename_i x rest
    have : leadingHex ('0' :: x :: rest) ≠ [] := leadingHex_ne.2 ⟨_, _, rfl, by decide⟩
    split
    · rename_i h; exact ⟨fun _ => this, fun _ => h.2⟩
    · exact Iff.rfl
  · exact Iff.rfl

/-- The digits after the sign. -/
def afterSign (s : List Char) : List Char := match s with
  | '-' :: s => s
  | '+' :: s => s
  | s => s

theorem afterSign_length (s : List Char) : (afterSign s).length ≤ s.length := by
  unfold afterSign
  split <;> simp

theorem conv_ok {ds : List Nat} {v : BitVec 64} (hb : ¬ 2 ^ 64 ≤ ofDigits 16 ds) :
    (∃ v', (if ds = [] then Outcome.throws else if 2 ^ 64 ≤ ofDigits 16 ds then .throws else .ok v) = .ok v') ↔ ds ≠ [] := by
  constructor
  · rintro ⟨v', hv⟩ e
    rw [if_pos e] at hv
    cases hv
  · intro h
    rw [if_neg h, if_neg hb]
    exact ⟨_, rfl⟩

theorem stoull16_ok {s : List Char} (hl : s.length ≤ 16) :
    (∃ v, stoull16 s = .ok v) ↔ leadingHex (afterSign (s.dropWhile isSpace)) ≠ [] := by
  have hd : (s.dropWhile isSpace).length ≤ 16 := Nat.le_trans (List.dropWhile_sublist _).length_le hl
  unfold stoull16
  dsimp only
  generalize s.dropWhile isSpace = t at *
  have hb : ¬ 2 ^ 64 ≤ ofDigits 16 (strtoullDigits (afterSign t)) := by
    have h1 := digits_bound (afterSign t)
    have h2 := ofDigits_lt h1.2
    have h3 : (16 : Nat) ^ (strtoullDigits (afterSign t)).length ≤ 16 ^ 16 :=
      Nat.pow_le_pow_right (by decide) (Nat.le_trans h1.1 (Nat.le_trans (afterSign_length t) hd))
    have : (16 : Nat) ^ 16 = 2 ^ 64 := by decide
    omega
  rw [← digits_ne]
  split
  · exact conv_ok hb
  · exact conv_ok hb
  · rename_i h1 h2
    have e : afterSign t = t := by
      unfold afterSign
      split
      · exact absurd rfl (h1 _)
      · exact absurd rfl (h2 _)
      · rfl
    rw [e] at hb ⊢
    exact conv_ok hb

theorem isSpace_iff {c : Char} : isSpace c = true ↔ c ∈ [' ', '\t', '\n', Char.ofNat 11, Char.ofNat 12, '\r'] := by
  constructor
  · intro h
    unfold isSpace at h
    simp only [Bool.or_eq_true, decide_eq_true_eq, Bool.and_eq_true] at h
    rcases h with rfl | ⟨h1, h2⟩
    · decide
    · have key : ∀ n < 14, 9 ≤ n → Char.ofNat n ∈ [' ', '\t', '\n', Char.ofNat 11, Char.ofNat 12, '\r'] := by decide
      have := key c.toNat (by omega) h1
      rwa [Char.ofNat_toNat] at this
  · revert c
    decide

theorem dropWhile_white (white t : List Char) (hw : ∀ c ∈ white, isSpace c = true) (ht : ∀ c, t.head? = some c → isSpace c = false) :
    (white ++ t).dropWhile isSpace = t := by
  induction white with
  | nil =>
    cases t with
    | nil => rfl
    | cons c t => rw [List.nil_append, List.dropWhile_cons, if_neg (by rw [ht c rfl]; simp)]
  | cons w white ih =>
    rw [List.cons_append, List.dropWhile_cons, if_pos (hw w List.mem_cons_self)]
    exact ih fun c hc => hw c (List.mem_cons_of_mem _ hc)

theorem readable_iff {s : List Char} : leadingHex (afterSign (s.dropWhile isSpace)) ≠ [] ↔ BeginsNumber s := by
  have nosp : ∀ c ∈ "0123456789ABCDEFabcdef".toList, isSpace c = false ∧ c ≠ '-' ∧ c ≠ '+' := by decide
  rw [leadingHex_ne]
  constructor
  · rintro ⟨d, rest, e, hd⟩
    have hs := (List.takeWhile_append_dropWhile (p := isSpace) (l := s)).symm
    have hw : ∀ c ∈ s.takeWhile isSpace, c ∈ [' ', '\t', '\n', Char.ofNat 11, Char.ofNat 12, '\r'] :=
      fun c hc => isSpace_iff.1 (List.all_eq_true.1 List.all_takeWhile c hc)
    revert hs e
    generalize s.dropWhile isSpace = t
    intro e hs
    unfold afterSign at e
    split at e
    · exact ⟨_, ['-'], d, rest, by rw [e] at hs; exact hs, hw, by decide, hd⟩
    · exact ⟨_, ['+'], d, rest, by rw [e] at hs; exact hs, hw, by decide, hd⟩
    · exact ⟨_, [], d, rest, by rw [e] at hs; exact hs, hw, by decide, hd⟩
  · rintro ⟨white, sign, d, rest, rfl, hw, hs, hd⟩
    obtain ⟨n1, n2, n3⟩ := nosp d hd
    have h1 : ∀ c ∈ white, isSpace c = true := fun c hc => isSpace_iff.2 (hw c hc)
    simp only [List.mem_cons, List.not_mem_nil, or_false] at hs
    rcases hs with rfl | rfl | rfl
    · rw [dropWhile_white white _ h1 (fun c hc => by cases hc; exact n1)]
      refine ⟨d, rest, ?_, hd⟩
      unfold afterSign
      split
      · rename_i h; exact absurd (List.cons.inj h).1 n2
      · rename_i h; exact absurd (List.cons.inj h).1 n3
      · rfl
    · rw [dropWhile_white white _ h1 (fun c hc => by cases hc; decide)]
      exact ⟨d, rest, rfl, hd⟩
    · rw [dropWhile_white white _ h1 (fun c hc => by cases hc; decide)]
      exact ⟨d, rest, rfl, hd⟩

end TinyGarble.Proof

namespace TinyGarble.Props
open TinyGarble Proof Spec

/-- C45, exactly which strings are accepted: blanks, tabs and `_` aside at most 32 characters, and in each half of the string filled up with zeros a
number begins; what follows the number is ignored. Missing: that the strings are numerals, which is false (`C45_garbage_accepted`). -/
theorem C45_accepted_iff_partial (s : List Char) : (∃ b, str2Block s = some b) ↔
    (significant s).length ≤ 32 ∧ BeginsNumber ((zeroFilled 32 (significant s)).take 16) ∧ BeginsNumber ((zeroFilled 32 (significant s)).drop 16) := by
  unfold str2Block
  dsimp only
  change (∃ b, (if 32 < (significant s).length then none else match stoull16 ((zeroFilled 32 (significant s)).drop 16),
    stoull16 ((zeroFilled 32 (significant s)).take 16) with
    | .ok lo, .ok hi => some (makeBlock hi.toNat lo.toNat)
    | _, _ => none) = some b) ↔ _
  by_cases hl : 32 < (significant s).length
  · rw [if_pos hl]
    constructor
    · rintro ⟨_, h⟩; cases h
    · intro h; exact absurd h.1 (by omega)
  rw [if_neg hl]
  have hz : (zeroFilled 32 (significant s)).length = 32 := by
    unfold zeroFilled; rw [List.length_append, List.length_replicate]; omega
  generalize zeroFilled 32 (significant s) = z at *
  have h1 : (z.take 16).length ≤ 16 := by rw [List.length_take]; omega
  have h2 : (z.drop 16).length ≤ 16 := by rw [List.length_drop]; omega
  rw [← readable_iff, ← readable_iff, ← stoull16_ok h1, ← stoull16_ok h2]
  constructor
  · rintro ⟨b, hb⟩
    split at hb
    · rename_i lo hi e1 e2
      exact ⟨by omega, ⟨_, e2⟩, ⟨_, e1⟩⟩
    · cases hb
  · rintro ⟨_, ⟨hi, e2⟩, ⟨lo, e1⟩⟩
    rw [e1, e2]
    exact ⟨_, rfl⟩

example : BeginsNumber "\n-1fxyz".toList ∧ ¬ BeginsNumber "g1".toList :=
  ⟨⟨['\n'], ['-'], '1', "fxyz".toList, rfl, by decide, by decide, by decide⟩,
    fun h => absurd (readable_iff.2 h) (by decide +kernel)⟩

/-- C45 fails, for all short strings: whatever has at most 15 characters, blanks, tabs and `_` aside, is accepted. -/
theorem C45_false_short {s : List Char} (h : (significant s).length ≤ 15) : ∃ b, str2Block s = some b := by
  rw [C45_accepted_iff_partial]
  have e : zeroFilled 32 (significant s)
      = List.replicate 16 '0' ++ ('0' :: (List.replicate (15 - (significant s).length) '0' ++ significant s)) := by
    have : 32 - (significant s).length = 16 + ((15 - (significant s).length) + 1) := by omega
    unfold zeroFilled
    rw [this, List.replicate_add, List.replicate_succ (n := 15 - (significant s).length), List.append_assoc, List.cons_append]
  refine ⟨by omega, ?_, ?_⟩
  · rw [e, List.take_append_of_le_length (by simp), List.take_of_length_le (by simp)]
    exact ⟨[], [], '0', List.replicate 15 '0', rfl, fun c hc => (List.not_mem_nil hc).elim, by decide, by decide⟩
  · rw [e, List.drop_append_of_le_length (by simp), List.drop_eq_nil_of_le (by simp), List.nil_append]
    exact ⟨[], [], '0', _, rfl, fun c hc => (List.not_mem_nil hc).elim, by decide, by decide⟩

example : (significant "no number".toList).length ≤ 15 := by decide +kernel

/-- What is read up to a character that is no digit. -/
theorem stoull16_prefix {s : List Char} (h : IsHex s) (hn : s ≠ []) {x : Char} {t : List Char} (hx : hexDigit? x = none)
    (h0 : s ≠ ['0']) (hl : s.length ≤ 16) : stoull16 (s ++ x :: t) = .ok (BitVec.ofNat 64 (hexValue s)) := by
  have hlead : leadingHex (s ++ x :: t) = s.map fun c => hexAlphabet.idxOf c.toUpper :=
    leadingHex_isHex h (x :: t) (fun c hc => by cases hc; exact hx)
  have hdig : strtoullDigits (s ++ x :: t) = leadingHex (s ++ x :: t) := by
    match s, hn, h0, h with
    | [c], _, h0, _ =>
      have : c ≠ '0' := fun e => h0 (by rw [e])
      unfold strtoullDigits
      split
      · rename_i e; exact absurd (List.cons.inj e).1 this
      · rfl
    | c :: c2 :: s, _, _, h =>
      have hc2 := h c2 (by simp)
      have key : ∀ c ∈ "0123456789ABCDEFabcdef".toList, ¬ (c = 'x' ∨ c = 'X') := by decide
      unfold strtoullDigits
      split
      · rename_i y rest e
        have e1 := (List.cons.inj e).2
        obtain ⟨rfl, rfl⟩ := List.cons.inj e1
        rw [if_neg fun hh => key _ hc2 hh.1]
        exact congrArg leadingHex e.symm
      · rfl
  have hlt : ¬ 2 ^ 64 ≤ hexValue s := by
    have h1 := hexValue_lt h
    have h2 : (16 : Nat) ^ s.length ≤ 16 ^ 16 := Nat.pow_le_pow_right (by decide) hl
    have : (16 : Nat) ^ 16 = 2 ^ 64 := by decide
    omega
  have nosp : ∀ c ∈ "0123456789ABCDEFabcdef".toList, isSpace c = false ∧ c ≠ '-' ∧ c ≠ '+' := by decide
  cases s with
  | nil => exact absurd rfl hn
  | cons c s =>
    obtain ⟨n1, n2, n3⟩ := nosp c (h c (by simp))
    have hdw : (c :: s ++ x :: t).dropWhile isSpace = c :: s ++ x :: t := by
      rw [List.cons_append, List.dropWhile_cons, if_neg (by rw [n1]; simp)]
    unfold stoull16
    dsimp only
    rw [hdw]
    split
    · rename_i e; exact absurd (List.cons.inj e).1 n2
    · rename_i e; exact absurd (List.cons.inj e).1 n3
    · rw [hdig, hlead, ofDigits_hex, if_neg (by simp), if_neg hlt]
      simp

theorem hexValue_zeros (n : Nat) : hexValue (List.replicate n '0') = 0 := by
  induction n with
  | zero => rfl
  | succ n ih => rw [List.replicate_succ', hexValue_append, ih]; rfl

theorem isHex_zeros (n : Nat) : IsHex (List.replicate n '0') := fun c hc => by
  rw [(List.mem_replicate.1 hc).2]; decide

theorem significant_prefixed {d : List Char} (h : IsHex d) : significant ('0' :: 'x' :: d) = '0' :: 'x' :: d := by
  unfold significant
  rw [List.filter_cons, if_pos (by decide), List.filter_cons, if_pos (by decide), filter_hex h]

/-- C45 fails, for all short numbers: a number of up to 13 digits after the usual prefix `0x` is accepted and read as 0. -/
theorem C45_false_prefix {d : List Char} (h : IsHex d) (hl : d.length ≤ 13) : str2Block ('0' :: 'x' :: d) = some 0#128 := by
  unfold str2Block
  dsimp only
  change (if 32 < (significant ('0' :: 'x' :: d)).length then none else
    match stoull16 ((List.replicate (32 - (significant ('0' :: 'x' :: d)).length) '0' ++ significant ('0' :: 'x' :: d)).drop 16),
      stoull16 ((List.replicate (32 - (significant ('0' :: 'x' :: d)).length) '0' ++ significant ('0' :: 'x' :: d)).take 16) with
    | .ok lo, .ok hi => some (makeBlock hi.toNat lo.toNat)
    | _, _ => none) = _
  rw [significant_prefixed h, if_neg (by simp only [List.length_cons]; omega)]
  have e : List.replicate (32 - ('0' :: 'x' :: d).length) '0' ++ '0' :: 'x' :: d
      = List.replicate 16 '0' ++ (List.replicate (15 - d.length) '0' ++ 'x' :: d) := by
    have : 32 - ('0' :: 'x' :: d).length = 16 + (14 - d.length) := by simp only [List.length_cons]; omega
    rw [this, List.replicate_add, List.append_assoc]
    have : 15 - d.length = (14 - d.length) + 1 := by omega
    rw [this]
    generalize 14 - d.length = k
    rw [List.replicate_succ' (n := k), List.append_assoc (List.replicate k '0')]
    rfl
  rw [e, List.drop_left' (by simp), List.take_left' (by simp)]
  rw [stoull16_prefix (isHex_zeros _) (by intro e; have := congrArg List.length e; simp at this; omega) (by decide)
    (by intro e; have := congrArg List.length e; simp at this; omega) (by simp; omega),
    stoull16_hex (isHex_zeros 16) (by decide) (by decide), hexValue_zeros, hexValue_zeros]
  decide

example : IsHex "12aB".toList ∧ "12aB".toList.length ≤ 13 ∧ str2Block "0x12aB".toList = some 0#128 :=
  ⟨by unfold IsHex; decide, by decide, C45_false_prefix (d := "12aB".toList) (by unfold IsHex; decide) (by decide)⟩

/-- C45 fails: of a number of 16 to 29 digits after `0x` only the last 16 digits are read. -/
theorem C45_false_prefix_long {d : List Char} (h : IsHex d) (h1 : 16 ≤ d.length) (h2 : d.length ≤ 29) :
    str2Block ('0' :: 'x' :: d) = some (BitVec.ofNat 128 (hexValue d % 2 ^ 64)) := by
  unfold str2Block
  dsimp only
  change (if 32 < (significant ('0' :: 'x' :: d)).length then none else
    match stoull16 ((List.replicate (32 - (significant ('0' :: 'x' :: d)).length) '0' ++ significant ('0' :: 'x' :: d)).drop 16),
      stoull16 ((List.replicate (32 - (significant ('0' :: 'x' :: d)).length) '0' ++ significant ('0' :: 'x' :: d)).take 16) with
    | .ok lo, .ok hi => some (makeBlock hi.toNat lo.toNat)
    | _, _ => none) = _
  rw [significant_prefixed h, if_neg (by simp only [List.length_cons]; omega)]
  obtain ⟨a, b, rfl, hb⟩ : ∃ a b, d = a ++ b ∧ b.length = 16 :=
    ⟨d.take (d.length - 16), d.drop (d.length - 16), (List.take_append_drop _ _).symm, by rw [List.length_drop]; omega⟩
  rw [List.length_append, hb] at h1 h2
  have e : List.replicate (32 - ('0' :: 'x' :: (a ++ b)).length) '0' ++ '0' :: 'x' :: (a ++ b)
      = (List.replicate (15 - a.length) '0' ++ 'x' :: a) ++ b := by
    have : 32 - ('0' :: 'x' :: (a ++ b)).length = 14 - a.length := by simp only [List.length_cons, List.length_append]; omega
    rw [this]
    have : 15 - a.length = (14 - a.length) + 1 := by omega
    rw [this, List.replicate_succ', List.append_assoc, List.append_assoc]
    rfl
  have hlen : (List.replicate (15 - a.length) '0' ++ 'x' :: a).length = 16 := by
    simp only [List.length_append, List.length_replicate, List.length_cons]; omega
  have hbx : IsHex b := fun c hc => h c (List.mem_append_right _ hc)
  rw [e, List.drop_left' hlen, List.take_left' hlen]
  rw [stoull16_prefix (isHex_zeros _) (by intro e; have := congrArg List.length e; simp at this; omega) (by decide)
    (by intro e; have := congrArg List.length e; simp at this; omega) (by simp; omega),
    stoull16_hex hbx (by intro e; rw [e] at hb; cases hb) (by omega), hexValue_zeros]
  have hbv := hexValue_lt hbx
  rw [hb] at hbv
  have e16 : (16 : Nat) ^ 16 = 2 ^ 64 := by decide
  rw [e16] at hbv
  have hm : hexValue (a ++ b) % 2 ^ 64 = hexValue b := by
    rw [hexValue_append, hb, e16, Nat.mul_add_mod_self_right, Nat.mod_eq_of_lt hbv]
  rw [hm]
  refine congrArg some (BitVec.eq_of_toNat_eq ?_)
  unfold makeBlock
  rw [BitVec.toNat_append, BitVec.ofNat_toNat, BitVec.ofNat_toNat, BitVec.setWidth_eq, BitVec.setWidth_eq,
    BitVec.toNat_ofNat, BitVec.toNat_ofNat, BitVec.toNat_ofNat, Nat.mod_eq_of_lt hbv, Nat.mod_eq_of_lt (a := hexValue b) (by omega)]
  simp

example : IsHex "00112233445566778899aAbB".toList ∧ 16 ≤ "00112233445566778899aAbB".toList.length
    ∧ "00112233445566778899aAbB".toList.length ≤ 29 := ⟨by unfold IsHex; decide, by decide, by decide⟩

end TinyGarble.Props
