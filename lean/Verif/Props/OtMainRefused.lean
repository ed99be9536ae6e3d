import Verif.Props.OtMain
import Verif.Props.StrBlock

/-!
# C91: which options the program for a single transfer refuses, and which selections are 1
-/

namespace TinyGarble.Spec

/-- White space, perhaps a plus sign, zeros, a one, and then anything that does not begin with a decimal digit. -/
def BeginsOne (s : List Char) : Prop :=
  ∃ white sign n rest, s = white ++ (sign ++ (List.replicate n '0' ++ '1' :: rest))
    ∧ (∀ c ∈ white, c ∈ [' ', '\t', '\n', Char.ofNat 11, Char.ofNat 12, '\r'])
    ∧ sign ∈ [[], ['+']] ∧ ∀ c, rest.head? = some c → c ∉ "0123456789".toList

/-- The strings that `Str2Block` accepts, see C45. -/
def BlockAccepted (s : List Char) : Prop :=
  (Props.significant s).length ≤ 32 ∧ BeginsNumber ((zeroFilled 32 (Props.significant s)).take 16) ∧ BeginsNumber ((zeroFilled 32 (Props.significant s)).drop 16)

end TinyGarble.Spec

namespace TinyGarble.Proof
open TinyGarble Spec

theorem otSend_ne_fail (m : Nat → Nat → Block) (mLen : Nat) (co : OTSendCoins) : otSend m mLen co ≠ .fail := by
  have e : toInt32 4 = 4 := by decide
  unfold otSend otSendBN sendData
  rw [e, if_neg (by decide)]
  intro h
  cases h

theorem isDec_mem {c : Char} : isDec c = true ↔ c ∈ "0123456789".toList := by
  constructor
  · intro h
    unfold isDec at h
    have h := of_decide_eq_true h
    have key : ∀ n < 58, 48 ≤ n → Char.ofNat n ∈ "0123456789".toList := by decide
    have := key c.toNat (by omega) h.1
    rwa [Char.ofNat_toNat] at this
  · revert c; decide

theorem isWhite_mem {c : Char} : isWhite c = true ↔ c ∈ [' ', '\t', '\n', Char.ofNat 11, Char.ofNat 12, '\r'] := by
  have e1 : '\x0b' = Char.ofNat 11 := by decide
  have e2 : '\x0c' = Char.ofNat 12 := by decide
  unfold isWhite
  rw [e1, e2]
  simp [or_assoc]

theorem digit_val {c : Char} (h : isDec c = true) {n : Nat} (hn : c.toNat - 48 = n) : c = Char.ofNat (48 + n) := by
  have h := of_decide_eq_true h
  have : 48 + n = c.toNat := by omega
  rw [this, Char.ofNat_toNat]

theorem decValue_snoc (l : List Char) (c : Char) : decValue (l ++ [c]) = 10 * decValue l + (c.toNat - 48) := by
  unfold decValue; rw [List.foldl_append]; rfl

theorem decValue_zero {l : List Char} (h : ∀ c ∈ l, isDec c = true) (h0 : decValue l = 0) : l = List.replicate l.length '0' := by
  induction l using List.reverseRecOn with
  | nil => rfl
  | append_singleton l c ih =>
    rw [decValue_snoc] at h0
    have hc := digit_val (h c (by simp)) (n := 0) (by omega)
    rw [List.length_append, List.length_singleton, List.replicate_succ', ← ih (fun c hc => h c (by simp [hc])) (by omega), hc]

theorem decValue_zeros (n : Nat) : decValue (List.replicate n '0') = 0 := by
  induction n with
  | zero => rfl
  | succ n ih => rw [List.replicate_succ', decValue_snoc, ih]; rfl

theorem decValue_one {l : List Char} (h : ∀ c ∈ l, isDec c = true) : decValue l = 1 ↔ ∃ n, l = List.replicate n '0' ++ ['1'] := by
  constructor
  · intro h1
    rcases List.eq_nil_or_concat l with rfl | ⟨l', c, rfl⟩
    · cases h1
    · rw [List.concat_eq_append] at h h1 ⊢
      rw [decValue_snoc] at h1
      have hc := digit_val (h c (by simp)) (n := 1) (by omega)
      exact ⟨l'.length, by rw [← decValue_zero (fun c hc => h c (by simp [hc])) (by omega), hc]⟩
  · rintro ⟨n, rfl⟩
    rw [decValue_snoc, decValue_zeros]; rfl

theorem dropWhile_isWhite (white t : List Char) (hw : ∀ c ∈ white, isWhite c = true) (ht : ∀ c, t.head? = some c → isWhite c = false) :
    (white ++ t).dropWhile isWhite = t := by
  induction white with
  | nil =>
    cases t with
    | nil => rfl
    | cons c t => rw [List.nil_append, List.dropWhile_cons, if_neg (by rw [ht c rfl]; simp)]
  | cons w white ih =>
    rw [List.cons_append, List.dropWhile_cons, if_pos (hw w List.mem_cons_self)]
    exact ih fun c hc => hw c (List.mem_cons_of_mem _ hc)

theorem takeWhile_one (n : Nat) {rest : List Char} (h : ∀ c, rest.head? = some c → c ∉ "0123456789".toList) :
    (List.replicate n '0' ++ '1' :: rest).takeWhile isDec = List.replicate n '0' ++ ['1'] := by
  induction n with
  | zero =>
    rw [List.replicate_zero, List.nil_append, List.takeWhile_cons, if_pos (by decide)]
    cases rest with
    | nil => rfl
    | cons c rest => rw [List.takeWhile_cons, if_neg (fun hc => h c rfl (isDec_mem.1 hc))]; rfl
  | succ n ih => rw [List.replicate_succ, List.cons_append, List.takeWhile_cons, if_pos (by decide), ih]; rfl

/-- The value that is read after white space. -/
def atoiVal (t : List Char) : Int :=
  if t.head? = some '-' then -(decValue (t.tail.takeWhile isDec) : Int)
  else if t.head? = some '+' then decValue (t.tail.takeWhile isDec) else decValue (t.takeWhile isDec)

theorem atoi_val (s : List Char) : atoi s = if -2 ^ 31 ≤ atoiVal (s.dropWhile isWhite) ∧ atoiVal (s.dropWhile isWhite) < 2 ^ 31
    then some (atoiVal (s.dropWhile isWhite)) else none := by
  unfold atoi atoiVal
  dsimp only
  generalize s.dropWhile isWhite = t
  by_cases h1 : t.head? = some '-'
  · simp only [h1, true_or, if_true, decide_true]
  · by_cases h2 : t.head? = some '+'
    · simp [h2]
    · simp [h1, h2]

theorem atoi_one_val (s : List Char) : atoi s = some 1 ↔ atoiVal (s.dropWhile isWhite) = 1 := by
  rw [atoi_val]
  generalize atoiVal (s.dropWhile isWhite) = v
  constructor
  · intro h
    split at h
    · exact Option.some.inj h
    · cases h
  · rintro rfl
    decide

theorem atoi_one {s : List Char} : atoi s = some 1 ↔ BeginsOne s := by
  constructor
  · intro h
    have hs := (List.takeWhile_append_dropWhile (p := isWhite) (l := s)).symm
    have hw : ∀ c ∈ s.takeWhile isWhite, c ∈ [' ', '\t', '\n', Char.ofNat 11, Char.ofNat 12, '\r'] :=
      fun c hc => isWhite_mem.1 (List.all_eq_true.1 List.all_takeWhile c hc)
    rw [atoi_one_val] at h
    revert hs h
    generalize s.dropWhile isWhite = t
    intro h hs
    unfold atoiVal at h
    have hneg : t.head? ≠ some '-' := by
      intro e
      rw [if_pos e] at h
      omega
    rw [if_neg hneg] at h
    -- the digits
    have fin : ∀ u : List Char, decValue (u.takeWhile isDec) = 1 →
        ∃ n rest, u = List.replicate n '0' ++ '1' :: rest ∧ ∀ c, rest.head? = some c → c ∉ "0123456789".toList := by
      intro u hu
      obtain ⟨n, hn⟩ := (decValue_one fun c hc => List.all_eq_true.1 List.all_takeWhile c hc).1 hu
      have e := (List.takeWhile_append_dropWhile (p := isDec) (l := u)).symm
      rw [hn, List.append_assoc] at e
      refine ⟨n, u.dropWhile isDec, e, fun c hc hd => ?_⟩
      have := List.head?_dropWhile_not isDec u
      rw [hc] at this
      have this : isDec c = false := this
      rw [isDec_mem.2 hd] at this
      cases this
    by_cases hp : t.head? = some '+'
    · rw [if_pos hp] at h
      obtain ⟨n, rest, e, hr⟩ := fin _ (by exact_mod_cast h)
      cases t with
      | nil => cases hp
      | cons c t =>
        cases hp
        exact ⟨_, ['+'], n, rest, by rw [← e]; exact hs, hw, by decide, hr⟩
    · rw [if_neg hp] at h
      obtain ⟨n, rest, e, hr⟩ := fin _ (by exact_mod_cast h)
      exact ⟨_, [], n, rest, by rw [List.nil_append, ← e]; exact hs, hw, by decide, hr⟩
  · rintro ⟨white, sign, n, rest, rfl, hw, hs, hr⟩
    have hw' : ∀ c ∈ white, isWhite c = true := fun c hc => isWhite_mem.2 (hw c hc)
    have hh : ∀ c, (List.replicate n '0' ++ '1' :: rest).head? = some c → c = '0' ∨ c = '1' := by
      intro c hc
      cases n with
      | zero => cases hc; exact Or.inr rfl
      | succ n => cases hc; exact Or.inl rfl
    have hv : decValue (List.replicate n '0' ++ ['1']) = 1 := by rw [decValue_snoc, decValue_zeros]; rfl
    simp only [List.mem_cons, List.not_mem_nil, or_false] at hs
    rw [atoi_one_val]
    rcases hs with rfl | rfl
    · rw [List.nil_append, dropWhile_isWhite white _ hw' (fun c hc => by rcases hh c hc with rfl | rfl <;> decide)]
      have n1 : (List.replicate n '0' ++ '1' :: rest).head? ≠ some '-' := fun e => by
        rcases hh _ e with h | h <;> exact absurd h (by decide)
      have n2 : (List.replicate n '0' ++ '1' :: rest).head? ≠ some '+' := fun e => by
        rcases hh _ e with h | h <;> exact absurd h (by decide)
      rw [atoiVal, if_neg n1, if_neg n2, takeWhile_one n hr, hv]
      rfl
    · rw [dropWhile_isWhite white _ hw' (fun c hc => by cases hc; decide)]
      rw [List.singleton_append, atoiVal, List.head?_cons, if_neg (by decide), if_pos rfl, List.tail_cons, takeWhile_one n hr, hv]
      rfl

end TinyGarble.Proof

namespace TinyGarble.Props
open TinyGarble Proof Spec

/-- C91, exactly which messages are refused. Missing: that what is not a numeral is refused, which is false (`C91_not_refused`, `C91_false_prefix`). -/
theorem C91_refused_iff_partial (o : OtOptions) (co : OTSendCoins) :
    otMainAlice o co = .fail ↔ ¬ (BlockAccepted o.message0 ∧ BlockAccepted o.message1) := by
  unfold BlockAccepted
  rw [← C45_accepted_iff_partial, ← C45_accepted_iff_partial]
  unfold otMainAlice
  cases e0 : str2Block o.message0 with
  | none => simp
  | some m0 =>
    cases e1 : str2Block o.message1 with
    | none => simp
    | some m1 => simp [otSend_ne_fail]

example : ¬ BlockAccepted "g234567890123456".toList ∧ BlockAccepted "1f".toList := by
  unfold BlockAccepted
  rw [← C45_accepted_iff_partial, ← C45_accepted_iff_partial]
  have h1 : str2Block "g234567890123456".toList = none := by decide +kernel
  have h2 : str2Block "1f".toList = some 31#128 := by decide +kernel
  rw [h1, h2]
  exact ⟨(fun ⟨_, h⟩ => by cases h), _, rfl⟩

/-- C91 fails: a message of up to 13 digits after the usual prefix `0x` is not refused, and 0 is sent in its place. -/
theorem C91_false_prefix {d : List Char} (h : IsHex d) (hl : d.length ≤ 13) (m sel : List Char) (co : OTSendCoins) :
    otMainAlice ⟨'0' :: 'x' :: d, m, sel⟩ co = otMainAlice ⟨['0'], m, sel⟩ co
      ∧ otMainAlice ⟨m, '0' :: 'x' :: d, sel⟩ co = otMainAlice ⟨m, ['0'], sel⟩ co := by
  have e : str2Block ['0'] = some 0#128 := by decide +kernel
  unfold otMainAlice
  dsimp only
  rw [C45_false_prefix h hl, e]
  exact ⟨rfl, rfl⟩

example : IsHex "1f".toList ∧ "1f".toList.length ≤ 13 := ⟨by unfold IsHex; decide, by decide⟩

/-- C91, exactly which selections are 1: those that begin with the number one. All others for which `atoi` is defined are 0. -/
theorem C91_select (m0 m1 sel : List Char) (rk : Nat → Nat) :
    (BeginsOne sel → otMainBob ⟨m0, m1, sel⟩ rk = otMainBob ⟨m0, m1, ['1']⟩ rk)
      ∧ (¬ BeginsOne sel → otMainBob ⟨m0, m1, sel⟩ rk = otMainBob ⟨m0, m1, ['0']⟩ rk ∨ otMainBob ⟨m0, m1, sel⟩ rk = none) := by
  have a0 : atoi ['0'] = some 0 := by decide +kernel
  have a1 : atoi ['1'] = some 1 := by decide +kernel
  unfold otMainBob
  dsimp only
  constructor
  · intro h
    rw [atoi_one.2 h, a1]
  · intro h
    cases e : atoi sel with
    | none => exact Or.inr rfl
    | some v =>
      have hv : (v == 1) = false := by
        rw [beq_eq_false_iff_ne]
        rintro rfl
        exact h (atoi_one.1 e)
      refine Or.inl ?_
      rw [a0, Option.map_some, Option.map_some, hv]
      rfl

example : BeginsOne " +01x".toList ∧ ¬ BeginsOne "10".toList :=
  ⟨⟨[' '], ['+'], 1, ['x'], rfl, by decide, by decide, fun c hc => by cases hc; decide⟩,
    fun h => absurd (atoi_one.2 h) (by decide +kernel)⟩

end TinyGarble.Props
