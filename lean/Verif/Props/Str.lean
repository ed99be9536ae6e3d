import Verif.Proof.Str

/-!
# Properties of the string functions (C34-C37, C45)
-/

namespace TinyGarble.Props
open TinyGarble Proof Spec

/-! ## C34 -/

theorem outputField_isCycle (os outputs t : Nat) : IsCycle os outputs t (outputField os outputs t) where
  small := Nat.mod_lt _ (Nat.pow_pos (by decide))
  bits := by
    intro k hk
    unfold outputField
    rw [Nat.testBit_mod_two_pow, Nat.testBit_div_two_pow]
    simp [hk, Nat.add_comm]

theorem separatedStr_eq (os outputs cycles : Nat) :
    separatedStr os outputs cycles
      = List.intercalate ['\n'] ((List.range cycles).map fun t => bn2hex (outputField os outputs t)) := by
  have key : ∀ n m, n ≤ m → forLoop (fun i s => s ++ bn2hex (outputField os outputs i)
        ++ (if i < m - 1 then ['\n'] else [])) n []
      = List.intercalate ['\n'] ((List.range n).map fun t => bn2hex (outputField os outputs t))
        ++ (if 0 < n ∧ n < m then ['\n'] else []) := by
    intro n m
    induction n with
    | zero => intro _; rfl
    | succ n ih =>
      intro h
      rw [forLoop, ih (by omega)]
      have hm : (if n < m - 1 then ['\n'] else ([] : List Char)) = if 0 < n + 1 ∧ n + 1 < m then ['\n'] else [] := by
        congr 1
        simp only [eq_iff_iff]
        omega
      rw [hm]
      congr 1
      rw [List.range_succ, List.map_append, List.map_singleton]
      cases n with
      | zero => simp [List.intercalate]
      | succ n =>
        rw [if_pos (by omega)]
        have hne : (List.range (n + 1)).map (fun t => bn2hex (outputField os outputs t)) ≠ [] := by simp
        generalize (List.range (n + 1)).map (fun t => bn2hex (outputField os outputs t)) = l at hne
        generalize bn2hex (outputField os outputs (n + 1)) = x
        clear ih hm h
        induction l with
        | nil => exact absurd rfl hne
        | cons a l ih =>
          cases l with
          | nil => simp [List.intercalate]
          | cons b l =>
            have := ih (by simp)
            simp only [List.intercalate, List.cons_append, List.intersperse_cons₂, List.flatten_cons, List.append_assoc] at this ⊢
            rw [this]
  have := key cycles cycles (Nat.le_refl _)
  rw [if_neg (by omega), List.append_nil] at this
  exact this

/-- C34, consecutive: in both modes the string shows the number formed by all outputs. -/
theorem C34_consecutive (os outputs cycles : Nat) :
    Shows (outputStrHigh os outputs cycles .consecutive) outputs
    ∧ Shows (outputStrLow os outputs cycles .consecutive) outputs :=
  ⟨bn2hex_shows _, bn2hex_shows _⟩

/-- C34, separated: the string consists of one line for each cycle, in order, showing the outputs of that
cycle. -/
theorem C34_separated (os outputs cycles : Nat) :
    ∃ lines : List (List Char), lines.length = cycles
      ∧ outputStrHigh os outputs cycles .separatedClock = List.intercalate ['\n'] lines
      ∧ outputStrLow os outputs cycles .separatedClock = List.intercalate ['\n'] lines
      ∧ ∀ t (h : t < lines.length), ∃ v, Shows lines[t] v ∧ IsCycle os outputs t v := by
  refine ⟨(List.range cycles).map fun t => bn2hex (outputField os outputs t), by simp, separatedStr_eq _ _ _,
    separatedStr_eq _ _ _, ?_⟩
  intro t h
  refine ⟨outputField os outputs t, ?_, outputField_isCycle _ _ _⟩
  simp only [List.getElem_map, List.getElem_range]
  exact bn2hex_shows _

/-- C34, last clock, high-memory mode: the string shows the outputs of the last cycle. -/
theorem C34_last_high (os outputs cycles : Nat) :
    ∃ v, Shows (outputStrHigh os outputs cycles .lastClock) v ∧ IsCycle os outputs (cycles - 1) v :=
  ⟨_, bn2hex_shows _, outputField_isCycle _ _ _⟩

/-- C34, last clock, low-memory mode: the number holds only one cycle, and the string shows it. -/
theorem C34_last_low (os outputs cycles : Nat) (h : outputs < 2 ^ os) :
    ∃ v, Shows (outputStrLow os outputs cycles .lastClock) v ∧ IsCycle os outputs 0 v :=
  ⟨outputs, bn2hex_shows _, h, fun k _ => by simp⟩

/-- Two cycles of 12 outputs. -/
example : outputStrHigh 12 0xABC00F 2 .separatedClock = "0F\n0ABC".toList
    ∧ outputStrHigh 12 0xABC00F 2 .consecutive = "ABC00F".toList
    ∧ outputStrHigh 12 0xABC00F 2 .lastClock = "0ABC".toList
    ∧ outputStrLow 12 0xABC 2 .lastClock = "0ABC".toList ∧ 0xABC < 2 ^ 12 := by decide +kernel

/-! ## C35 -/

theorem signed_ofInt {w : Nat} (hw : 0 < w) (hw' : w ≤ 64) {v : Int} (h1 : -2 ^ (w - 1) ≤ v) (h2 : v < 2 ^ (w - 1)) :
    signed w ((BitVec.ofInt 64 v).toNat % 2 ^ w) = v := by
  obtain ⟨k, rfl⟩ : ∃ k, w = k + 1 := ⟨w - 1, by omega⟩
  rw [Nat.add_sub_cancel] at h1 h2
  have hmod : (((BitVec.ofInt 64 v).toNat % 2 ^ (k + 1) : Nat) : Int) = v % 2 ^ (k + 1) := by
    rw [BitVec.toNat_ofInt]
    push_cast
    rw [Int.toNat_of_nonneg (Int.emod_nonneg _ (by decide))]
    exact Int.emod_emod_of_dvd _ (by
      have : ((2 : Int) ^ (k + 1)) ∣ 2 ^ 64 := pow_dvd_pow 2 hw'
      exact this)
  unfold signed
  rw [Nat.mod_mod, Nat.add_sub_cancel]
  have hp : (2 : Int) ^ (k + 1) = 2 * 2 ^ k := by rw [pow_succ]; ring
  have hpos : (0 : Int) < 2 ^ k := Int.pow_pos (by decide)
  generalize hm : (BitVec.ofInt 64 v).toNat % 2 ^ (k + 1) = m at *
  have hlt : m < 2 ^ (k + 1) := by rw [← hm]; exact Nat.mod_lt _ (Nat.pow_pos (by decide))
  have hlt' : m < 2 * 2 ^ k := by rwa [Nat.pow_succ'] at hlt
  have hbit : m.testBit k = decide (2 ^ k ≤ m) := by
    rw [Nat.testBit_eq_decide_div_mod_eq]
    congr 1
    simp only [eq_iff_iff]
    have hkp : 0 < 2 ^ k := Nat.pow_pos (by decide)
    by_cases h : 2 ^ k ≤ m
    · have : m / 2 ^ k = 1 := Nat.div_eq_of_lt_le (by omega) (by omega)
      simp [this, h]
    · rw [Nat.div_eq_of_lt (by omega)]; simp; omega
  rw [hbit]
  by_cases hv : 0 ≤ v
  · rw [Int.emod_eq_of_lt hv (by omega)] at hmod
    have : ¬ 2 ^ k ≤ m := by
      intro h
      have : ((2 ^ k : Nat) : Int) ≤ m := by exact_mod_cast h
      push_cast at this
      omega
    simp only [this, decide_false]
    rw [if_neg (by simp)]
    exact hmod
  · have e : v % 2 ^ (k + 1) = v + 2 ^ (k + 1) := by
      rw [← Int.add_emod_right, Int.emod_eq_of_lt (by omega) (by omega)]
    rw [e] at hmod
    have : 2 ^ k ≤ m := by
      have : ((2 ^ k : Nat) : Int) ≤ m := by push_cast; omega
      exact_mod_cast this
    simp only [this, decide_true]
    rw [if_pos (by simp), hmod]
    omega

/-- C35, signed, partial: for every width up to 64, converting a signed number that fits to binary and back gives
the number. Missing: -2^63 at width 64, where the property fails (`C35_min_undefined`). -/
theorem C35_signed_partial (w : BitVec 16) (hw : 0 < w.toNat) (hw' : w.toNat ≤ 64) (v : Int)
    (h1 : -2 ^ (w.toNat - 1) ≤ v) (h2 : v < 2 ^ (w.toNat - 1)) (hm : v ≠ -2 ^ 63) :
    ∃ s, dec2bin (BitVec.ofInt 64 v) w = .ok s ∧ s.length = w.toNat ∧ bin2dec s true = .ok v := by
  refine ⟨_, dec2bin_eq _ w hw', binDigits_length _ _, ?_⟩
  have hs := signed_ofInt hw hw' h1 h2
  rw [bin2dec_signed (binDigits_isBin _ _) (by rw [binDigits_length]; exact hw'), binDigits_length, binDigits_value, hs]
  rw [binDigits_length, binDigits_value]
  rintro ⟨e1, e2⟩
  apply hm
  rw [e2, e1] at hs
  rw [← hs]
  decide

example : dec2bin (BitVec.ofInt 64 (-3)) 4#16 = .ok "1101".toList ∧ bin2dec "1101".toList true = .ok (-3) := by
  decide +kernel

/-- C35 fails for the smallest 64-bit number: converting it back negates the smallest `int64_t`. -/
theorem C35_min_undefined : ∃ s, dec2bin (BitVec.ofInt 64 (-2 ^ 63)) 64#16 = .ok s ∧ bin2dec s true = .undef := by
  refine ⟨_, rfl, ?_⟩
  decide +kernel

/-- C35, unsigned: for every width up to 63, converting an unsigned number that fits to binary and back gives the
number; for width 64 the result is the `int64_t` with the same bits. -/
theorem C35_unsigned (w : BitVec 16) (hw : w.toNat ≤ 64) (v : BitVec 64) (hv : v.toNat < 2 ^ w.toNat) :
    ∃ s, dec2bin v w = .ok s ∧ s.length = w.toNat ∧ bin2dec s false = .ok v.toInt
      ∧ (w.toNat ≤ 63 → v.toInt = v.toNat) := by
  refine ⟨_, dec2bin_eq _ w hw, binDigits_length _ _, ?_, ?_⟩
  · rw [bin2dec_unsigned, bitset64_ok (binDigits_isBin _ _) (by rw [binDigits_length]; exact hw), binDigits_value,
      Nat.mod_eq_of_lt hv]
    simp only [Outcome.bind, BitVec.ofNat_toNat, BitVec.setWidth_eq]
  · intro h
    rw [BitVec.toInt_eq_toNat_of_lt]
    have : 2 ^ w.toNat ≤ 2 ^ 63 := Nat.pow_le_pow_right (by decide) h
    omega

example : dec2bin 13#64 4#16 = .ok "1101".toList ∧ bin2dec "1101".toList false = .ok 13 := by decide +kernel

/-- C35, hexadecimal to binary: for a numeral of less than 2^16 digits the binary numeral has the same value and
four digits for each. -/
theorem C35_hex2bin {s : List Char} (h : IsHex s) (hl : s.length < 2 ^ 16) :
    IsBin (hex2bin s) ∧ binValue (hex2bin s) = hexValue s ∧ (hex2bin s).length = 4 * s.length :=
  ⟨(hex2bin_spec h hl).2.1, (hex2bin_spec h hl).2.2, (hex2bin_spec h hl).1⟩

/-- C35, binary to hexadecimal: for a numeral of less than 2^16 - 4 digits the hexadecimal numeral has the same
value. -/
theorem C35_bin2hex {s : List Char} (h : IsBin s) (hl : s.length + 4 < 2 ^ 16) :
    IsHex (bin2hex s) ∧ hexValue (bin2hex s) = binValue s :=
  ⟨isHex_of_upper (bin2hex_spec h hl).2.1, (bin2hex_spec h hl).2.2⟩

example : hex2bin "1aF".toList = "000110101111".toList ∧ bin2hex "110101111".toList = "1AF".toList
    ∧ bin2hex "10101111".toList = "0AF".toList := by decide +kernel

/-- C35 fails for long numerals: lengths are kept in 16 bits, so 2^16 digits are dropped. -/
theorem C35_long_lost : hex2bin (List.replicate (2 ^ 16) '1') = [] ∧ bin2hex (List.replicate (2 ^ 16) '1') = ['0'] := by
  constructor
  · unfold hex2bin
    rw [List.length_replicate]
    rfl
  · unfold bin2hex
    simp only [List.length_append, List.length_replicate, Nat.mod_self]
    rfl

/-! ## C36, C45 -/

theorem dropWhile_hex {s : List Char} (h : IsHex s) : s.dropWhile isSpace = s := by
  have key : ∀ c ∈ "0123456789ABCDEFabcdef".toList, isSpace c = false := by decide
  cases s with
  | nil => rfl
  | cons c s => rw [List.dropWhile_cons, key c (h c (by simp))]; rfl

theorem strtoullDigits_hex {s : List Char} (h : IsHex s) : strtoullDigits s = leadingHex s := by
  have key : ∀ c ∈ "0123456789ABCDEFabcdef".toList, c ≠ 'x' ∧ c ≠ 'X' := by decide
  unfold strtoullDigits
  split
  · next x rest =>
    have := key x (h x (by simp))
    rw [if_neg (by simp [this.1, this.2])]
  · rfl

theorem stoull16_hex {s : List Char} (h : IsHex s) (hn : s ≠ []) (hl : s.length ≤ 16) :
    stoull16 s = .ok (BitVec.ofNat 64 (hexValue s)) := by
  have hv : ofDigits 16 (strtoullDigits s) = hexValue s := by
    rw [strtoullDigits_hex h, leadingHex_all h, ofDigits_hex]
  have hne : strtoullDigits s ≠ [] := by
    rw [strtoullDigits_hex h, leadingHex_all h]; simpa using hn
  have hlt : ¬ 2 ^ 64 ≤ hexValue s := by
    have h1 := hexValue_lt h
    have h2 : 16 ^ s.length ≤ 16 ^ 16 := Nat.pow_le_pow_right (by decide) hl
    have h3 : (16 : Nat) ^ 16 = 2 ^ 64 := by decide
    omega
  unfold stoull16
  rw [dropWhile_hex h]
  simp only
  split
  · exact absurd (h '-' (by simp)) (by decide)
  · exact absurd (h '+' (by simp)) (by decide)
  · rw [if_neg hne, hv, if_neg hlt]
    rfl

/-- The characters that count. -/
def significant (s : List Char) : List Char := s.filter fun c => c != ' ' && c != '\t' && c != '_'

/-- C36, parsing: a string of at most 32 hexadecimal digits, with blanks, tabs and underscores anywhere, gives the
block with that value. -/
theorem C36_parse {s : List Char} (h : IsHex (significant s)) (hl : (significant s).length ≤ 32) :
    str2Block s = some (BitVec.ofNat 128 (hexValue (significant s))) := by
  unfold str2Block
  simp only
  change (if 32 < (significant s).length then none else _) = _
  rw [if_neg (by omega)]
  change (match stoull16 ((List.replicate (32 - (significant s).length) '0' ++ significant s).drop 16),
    stoull16 ((List.replicate (32 - (significant s).length) '0' ++ significant s).take 16) with
    | .ok lo, .ok hi => some (makeBlock hi.toNat lo.toNat)
    | _, _ => none) = _
  generalize hv : List.replicate (32 - (significant s).length) '0' ++ significant s = v
  have hlen : v.length = 32 := by rw [← hv]; simp; omega
  have hhex : IsHex v := by
    rw [← hv]
    intro c hc
    rcases List.mem_append.mp hc with hc | hc
    · rw [List.eq_of_mem_replicate hc]; decide
    · exact h c hc
  have hval : hexValue v = hexValue (significant s) := by
    rw [← hv, hexValue_append]
    have : ∀ n, hexValue (List.replicate n '0') = 0 := by
      intro n
      induction n with
      | zero => rfl
      | succ n ih => rw [List.replicate_succ', hexValue_append, ih]; rfl
    rw [this, Nat.zero_mul, Nat.zero_add]
  have l1 : (v.take 16).length = 16 := by simp; omega
  have l2 : (v.drop 16).length = 16 := by simp; omega
  have h1 : IsHex (v.take 16) := fun c hc => hhex c (List.mem_of_mem_take hc)
  have h2 : IsHex (v.drop 16) := fun c hc => hhex c (List.mem_of_mem_drop hc)
  rw [stoull16_hex h2 (by intro e; rw [e] at l2; cases l2) (by omega),
    stoull16_hex h1 (by intro e; rw [e] at l1; cases l1) (by omega)]
  simp only
  congr 1
  have hs : hexValue v = hexValue (v.take 16) * 16 ^ 16 + hexValue (v.drop 16) := by
    conv => lhs; rw [← List.take_append_drop 16 v]
    rw [hexValue_append, l2]
  have b1 := hexValue_lt h1
  have b2 := hexValue_lt h2
  rw [l1] at b1
  rw [l2] at b2
  rw [← hval, hs]
  apply BitVec.eq_of_toNat_eq
  unfold makeBlock
  rw [BitVec.toNat_append, BitVec.ofNat_toNat, BitVec.ofNat_toNat, BitVec.setWidth_eq, BitVec.setWidth_eq,
    BitVec.toNat_ofNat, BitVec.toNat_ofNat, BitVec.toNat_ofNat]
  have e16 : (16 : Nat) ^ 16 = 2 ^ 64 := by decide
  rw [e16] at b1 b2 ⊢
  rw [Nat.mod_eq_of_lt b1, Nat.mod_eq_of_lt b2, Nat.mod_eq_of_lt (by omega), Nat.shiftLeft_eq, ← Nat.shiftLeft_eq,
    ← Nat.shiftLeft_add_eq_or_of_lt b2, Nat.shiftLeft_eq]

example : IsHex (significant "00_0a 1F".toList) ∧ (significant "00_0a 1F".toList).length ≤ 32 := by
  constructor
  · unfold IsHex; decide +kernel
  · decide +kernel

theorem toStringHex_word {x : Nat} (h : x < 2 ^ 32) : toStringHex x 8 = hexDigits lowerDigit 8 x := by
  unfold toStringHex
  have := numBits_le h
  rw [Nat.max_eq_left (by omega)]

theorem filter_hex {s : List Char} (h : IsHex s) : s.filter (fun c => c != ' ' && c != '\t' && c != '_') = s := by
  have key : ∀ c ∈ "0123456789ABCDEFabcdef".toList, (c != ' ' && c != '\t' && c != '_') = true := by decide
  rw [List.filter_eq_self]
  exact fun c hc => key c (h c hc)

/-- The printed form of a block is a hexadecimal numeral of 32 digits with the value of the block. -/
theorem showBlock_value (b : Block) : IsHex (significant (showBlock b)) ∧ (significant (showBlock b)).length = 32
    ∧ hexValue (significant (showBlock b)) = b.toNat := by
  have hb := b.isLt
  have w3 : b.toNat / 2 ^ 96 < 2 ^ 32 := by omega
  have w2 : b.toNat / 2 ^ 64 % 2 ^ 32 < 2 ^ 32 := Nat.mod_lt _ (by decide)
  have w1 : b.toNat / 2 ^ 32 % 2 ^ 32 < 2 ^ 32 := Nat.mod_lt _ (by decide)
  have w0 : b.toNat % 2 ^ 32 < 2 ^ 32 := Nat.mod_lt _ (by decide)
  have hh := fun x => hexDigits_isHex lower_isHex 8 x
  have hsig : significant (showBlock b) = hexDigits lowerDigit 8 (b.toNat / 2 ^ 96)
      ++ (hexDigits lowerDigit 8 (b.toNat / 2 ^ 64 % 2 ^ 32)
      ++ (hexDigits lowerDigit 8 (b.toNat / 2 ^ 32 % 2 ^ 32) ++ hexDigits lowerDigit 8 (b.toNat % 2 ^ 32))) := by
    unfold significant showBlock
    rw [toStringHex_word w3, toStringHex_word w2, toStringHex_word w1, toStringHex_word w0]
    simp only [List.filter_append, List.filter_cons, filter_hex (hh _)]
    simp
  have hIs : IsHex (significant (showBlock b)) := by
    rw [hsig]
    intro c hc
    simp only [List.mem_append] at hc
    rcases hc with hc | hc | hc | hc <;> exact hh _ c hc
  refine ⟨hIs, by rw [hsig]; simp [hexDigits_length], ?_⟩
  rw [hsig, hexValue_append, hexValue_append, hexValue_append]
  simp only [List.length_append, hexDigits_length, hexDigits_value lower_value]
  omega

/-- C36: parsing the printed form of a block gives SUCCESS and the block. -/
theorem C36_roundtrip (b : Block) : str2Block (showBlock b) = some b := by
  obtain ⟨h1, h2, h3⟩ := showBlock_value b
  rw [C36_parse h1 (by omega), h3, BitVec.ofNat_toNat, BitVec.setWidth_eq]

/-- C45 fails: strings that are not hexadecimal numerals can be accepted. An invalid character and what follows
it in that half are dropped, and each half may have a sign. -/
theorem C45_garbage_accepted : str2Block "1g".toList = some 1#128
    ∧ str2Block ("-000000000000001" ++ "0000000000000000").toList = some (0xFFFFFFFFFFFFFFFF0000000000000000#128) := by
  decide +kernel

/-- C45, partial: more than 32 significant characters are rejected. Missing: other malformed strings; see `C45_accepted_iff_partial`. -/
theorem C45_long_rejected_partial (s : List Char) (h : 32 < (significant s).length) : str2Block s = none := by
  unfold str2Block
  simp only
  change (if 32 < (significant s).length then none else _) = _
  rw [if_pos h]

/-- A half without digits is rejected, unless it was padded with zeros. -/
example : str2Block ("g" ++ "0000000000000000").toList = some 0#128
    ∧ str2Block ("g000000000000000" ++ "0000000000000000").toList = none := by decide +kernel

end TinyGarble.Props
