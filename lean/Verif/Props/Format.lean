import Verif.Props.Str

/-!
# Word-level inputs and outputs (C37)
-/

namespace TinyGarble.Props
open TinyGarble Proof Spec

theorem binValue_mid (a b c : List Char) : binValue (a ++ (b ++ c)) / 2 ^ c.length % 2 ^ b.length = binValue b := by
  have h := binValue_field (b := a ++ (b ++ c)) a.length b.length (by simp)
  rw [List.drop_left, List.take_left] at h
  rw [h]
  congr 3
  simp

/-- The binary string for a list of widths and values. -/
def fieldsStr (L : List (BitVec 16 × BitVec 64)) : List Char := L.flatMap fun p => binDigits p.1.toNat p.2.toNat

theorem fieldsStr_length (L : List (BitVec 16 × BitVec 64)) :
    (fieldsStr L).length = (L.map fun p => p.1.toNat).sum := by
  induction L with
  | nil => rfl
  | cons p L ih =>
    unfold fieldsStr at ih ⊢
    rw [List.flatMap_cons, List.length_append, ih, binDigits_length, List.map_cons, List.sum_cons]

theorem fieldsStr_isBin (L : List (BitVec 16 × BitVec 64)) : IsBin (fieldsStr L) := by
  intro c hc
  obtain ⟨p, -, hp⟩ := List.mem_flatMap.mp hc
  exact binDigits_isBin _ _ c hp

theorem fieldsStr_field (L : List (BitVec 16 × BitVec 64)) (i : Nat) (h : i < L.length) :
    binValue (fieldsStr L) / 2 ^ ((L.drop (i + 1)).map fun p => p.1.toNat).sum % 2 ^ L[i].1.toNat
      = L[i].2.toNat % 2 ^ L[i].1.toNat := by
  have e : fieldsStr L = fieldsStr (L.take i) ++ (binDigits L[i].1.toNat L[i].2.toNat ++ fieldsStr (L.drop (i + 1))) := by
    conv => lhs; rw [← List.take_append_drop i L, List.drop_eq_getElem_cons h]
    unfold fieldsStr
    rw [List.flatMap_append, List.flatMap_cons]
  have := binValue_mid (fieldsStr (L.take i)) (binDigits L[i].1.toNat L[i].2.toNat) (fieldsStr (L.drop (i + 1)))
  rw [← e, fieldsStr_length, binDigits_length, binDigits_value] at this
  exact this

theorem format_eq {input : List (BitVec 64)} {lens : List (BitVec 16)} (hn : lens.length = input.length)
    (hw : ∀ l ∈ lens, l.toNat ≤ 64) :
    formatGCInputString input lens = .ok (bin2hex (fieldsStr (lens.zip input))) := by
  have key : ∀ n ≤ input.length, Outcome.forO (fun i s =>
      match lens[i]? with
      | none => .undef
      | some l => (dec2bin (input.getD i 0) l).bind fun d => .ok (s ++ d)) n []
      = .ok (fieldsStr ((lens.zip input).take n)) := by
    intro n
    induction n with
    | zero => intro _; rfl
    | succ n ih =>
      intro h
      have hi : n < lens.length := by omega
      have hi' : n < input.length := by omega
      rw [Outcome.forO, ih (by omega)]
      simp only [Outcome.bind]
      rw [List.getElem?_eq_getElem hi]
      simp only
      rw [dec2bin_eq _ _ (hw _ (List.getElem_mem hi))]
      simp only [Outcome.bind]
      rw [List.take_succ, List.getElem?_eq_getElem (by simp; omega)]
      unfold fieldsStr
      rw [List.flatMap_append]
      simp [List.getD_eq_getElem?_getD, hi', List.getElem_zip]
  unfold formatGCInputString
  refine (congrArg (fun o => Outcome.bind o fun s => Outcome.ok (bin2hex s)) (key _ (Nat.le_refl _))).trans ?_
  rw [List.take_of_length_le (by simp)]
  rfl

theorem zip_widths {input : List (BitVec 64)} {lens : List (BitVec 16)} (hn : lens.length = input.length) :
    (lens.zip input).map (fun p => p.1.toNat) = lens.map BitVec.toNat := by
  rw [show (fun p : BitVec 16 × BitVec 64 => p.1.toNat) = BitVec.toNat ∘ Prod.fst from rfl, ← List.map_map,
    List.map_fst_zip (by omega)]

/-- C37, input: each element is in its own bit field, the first one highest. For lists of equal lengths, widths up
to 64 and less than 2^16 - 4 bits in total. -/
theorem C37_input_fields {input : List (BitVec 64)} {lens : List (BitVec 16)} (hn : lens.length = input.length)
    (hw : ∀ l ∈ lens, l.toNat ≤ 64) (hs : (lens.map BitVec.toNat).sum + 4 < 2 ^ 16) :
    ∃ s, formatGCInputString input lens = .ok s ∧ IsHex s ∧ hexValue s < 2 ^ (lens.map BitVec.toNat).sum
      ∧ ∀ (i : Nat) (h : i < lens.length) (h' : i < input.length),
        hexValue s / 2 ^ fieldLow (lens.map BitVec.toNat) i % 2 ^ lens[i].toNat = input[i].toNat % 2 ^ lens[i].toNat := by
  have hl := fieldsStr_length (lens.zip input)
  rw [zip_widths hn] at hl
  obtain ⟨-, h2, h3⟩ := bin2hex_spec (fieldsStr_isBin (lens.zip input)) (by rw [hl]; exact hs)
  refine ⟨_, format_eq hn hw, isHex_of_upper h2, ?_, ?_⟩
  · rw [h3, ← hl]
    exact binValue_lt _
  · intro i h h'
    have hz : i < (lens.zip input).length := by simp; omega
    have := fieldsStr_field (lens.zip input) i hz
    rw [List.map_drop, zip_widths hn] at this
    rw [h3]
    unfold fieldLow
    simpa [List.getElem_zip] using this

example : formatGCInputString [5#64, 3#64, 0x3F#64] [4#16, 2#16, 6#16] = .ok "05FF".toList := by decide +kernel

theorem signed_mod (w n : Nat) : signed w (n % 2 ^ w) = signed w n := by
  unfold signed
  rw [Nat.mod_mod]
  by_cases h : w = 0
  · simp [h]
  · rw [Nat.testBit_mod_two_pow]
    simp [show w - 1 < w by omega]

/-- Sum of the first `n` widths. -/
def widthSum (lens : List (BitVec 16)) (n : Nat) : Nat := ((lens.take n).map BitVec.toNat).sum

theorem widthSum_succ {lens : List (BitVec 16)} {n : Nat} (h : n < lens.length) :
    widthSum lens (n + 1) = widthSum lens n + lens[n].toNat := by
  unfold widthSum
  rw [List.take_succ, List.getElem?_eq_getElem h, List.map_append, List.sum_append]
  simp

theorem widthSum_le (lens : List (BitVec 16)) (n : Nat) : widthSum lens n ≤ (lens.map BitVec.toNat).sum := by
  conv => rhs; rw [← List.take_append_drop n lens, List.map_append, List.sum_append]
  exact Nat.le_add_right _ _

theorem widthSum_low {lens : List (BitVec 16)} (i : Nat) :
    widthSum lens (i + 1) + fieldLow (lens.map BitVec.toNat) i = (lens.map BitVec.toNat).sum := by
  unfold widthSum fieldLow
  conv => rhs; rw [← List.take_append_drop (i + 1) lens, List.map_append, List.sum_append]
  rw [List.map_drop]

theorem parseLen_eq {lens : List (BitVec 16)} {offset : BitVec 16}
    (hs : offset.toNat + (lens.map BitVec.toNat).sum < 2 ^ 16) (n : Nat) (hn : n ≤ lens.length) :
    parseLen lens offset n = .ok (BitVec.ofNat 16 (offset.toNat + widthSum lens n)) := by
  induction n with
  | zero => simp [parseLen, Outcome.forO, widthSum]
  | succ n ih =>
    have ih := ih (by omega)
    unfold parseLen at ih ⊢
    rw [Outcome.forO, ih]
    simp only [Outcome.bind]
    rw [List.getElem?_eq_getElem (by omega)]
    simp only
    congr 1
    apply BitVec.eq_of_toNat_eq
    rw [widthSum_succ (by omega)]
    simp only [BitVec.toNat_add, BitVec.toNat_ofNat]
    omega

/-- C37, output, partial: the values are the signed numbers in the bit fields of the result, the first field highest
and `offset` bits below the last one. For less than 256 outputs, widths up to 64, less than 2^16 bits in total.
Missing: 256 outputs or more (`C37_outputs_lost`), a 64-bit field holding the smallest number (C35). -/
theorem C37_output_fields_partial {str : List Char} (h : IsHex str) (hl : str.length < 2 ^ 16) {lens : List (BitVec 16)}
    {output : List Int} (hn : output.length = lens.length) (h8 : lens.length < 2 ^ 8) {offset : BitVec 16}
    (hw : ∀ l ∈ lens, l.toNat ≤ 64) (hs : offset.toNat + (lens.map BitVec.toNat).sum < 2 ^ 16)
    (hu : ∀ (i : Nat) (hi : i < lens.length), lens[i].toNat = 64 →
      hexValue str / 2 ^ (offset.toNat + fieldLow (lens.map BitVec.toNat) i) % 2 ^ 64 ≠ 2 ^ 63) :
    ∃ vals, parseGCOutputString output str lens offset = .ok vals ∧ vals.length = lens.length
      ∧ ∀ (i : Nat) (hi : i < lens.length) (hi' : i < vals.length),
        vals[i] = signed lens[i].toNat (hexValue str / 2 ^ (offset.toNat + fieldLow (lens.map BitVec.toNat) i)) := by
  obtain ⟨b1, b2, b3⟩ := hex2bin_spec h hl
  have hall : widthSum lens lens.length = (lens.map BitVec.toNat).sum := by
    unfold widthSum; rw [List.take_length]
  obtain ⟨f1, f2, f3⟩ := fitLeft_spec b2 (offset.toNat + (lens.map BitVec.toNat).sum)
  have step : ∀ (i : Nat) (hi : i < lens.length), ∃ s,
      substr (fitLeft (hex2bin str) (offset.toNat + (lens.map BitVec.toNat).sum)) (widthSum lens i) lens[i].toNat = .ok s
      ∧ bin2dec s true = .ok (signed lens[i].toNat
          (hexValue str / 2 ^ (offset.toNat + fieldLow (lens.map BitVec.toNat) i))) := by
    intro i hi
    have hle := widthSum_low (lens := lens) i
    rw [widthSum_succ hi] at hle
    refine ⟨_, if_neg (by rw [f1]; omega), ?_⟩
    have hlen : ((List.drop (widthSum lens i) (fitLeft (hex2bin str) (offset.toNat + (lens.map BitVec.toNat).sum))).take
        lens[i].toNat).length = lens[i].toNat := by simp [f1]; omega
    have hval := binValue_field (b := fitLeft (hex2bin str) (offset.toNat + (lens.map BitVec.toNat).sum))
      (widthSum lens i) lens[i].toNat (by rw [f1]; omega)
    rw [f1, f3, b3, show offset.toNat + (lens.map BitVec.toNat).sum - widthSum lens i - lens[i].toNat
      = offset.toNat + fieldLow (lens.map BitVec.toNat) i by omega] at hval
    have hmod : hexValue str % 2 ^ (offset.toNat + (lens.map BitVec.toNat).sum)
          / 2 ^ (offset.toNat + fieldLow (lens.map BitVec.toNat) i) % 2 ^ lens[i].toNat
        = hexValue str / 2 ^ (offset.toNat + fieldLow (lens.map BitVec.toNat) i) % 2 ^ lens[i].toNat := by
      apply Nat.eq_of_testBit_eq
      intro k
      simp only [Nat.testBit_mod_two_pow, Nat.testBit_div_two_pow]
      by_cases hk : k < lens[i].toNat
      · simp only [hk, decide_true, Bool.true_and]
        rw [show decide (k + (offset.toNat + fieldLow (lens.map BitVec.toNat) i)
          < offset.toNat + (lens.map BitVec.toNat).sum) = true by simp; omega, Bool.true_and]
      · simp [hk]
    rw [hmod] at hval
    have hw' := hw _ (List.getElem_mem hi)
    rw [bin2dec_signed (fun c hc => f2 c (List.mem_of_mem_drop (List.mem_of_mem_take hc))) (by rw [hlen]; exact hw'),
      hlen, hval, signed_mod]
    rw [hlen, hval]
    rintro ⟨e1, e2⟩
    apply hu i hi e1
    rw [e1] at e2
    exact e2
  let val : Nat → Int := fun i => signed (lens.getD i 0).toNat
    (hexValue str / 2 ^ (offset.toNat + fieldLow (lens.map BitVec.toNat) i))
  have loop : ∀ n ≤ lens.length, Outcome.forO (fun i (r : List Int × BitVec 16) => match lens[i]? with
      | none => .undef
      | some l => (substr (fitLeft (hex2bin str) (offset.toNat + (lens.map BitVec.toNat).sum)) r.2.toNat l.toNat).bind
          fun s => (bin2dec s true).bind fun v => .ok (r.1.set i v, r.2 + l)) n (output, 0#16)
      = .ok ((List.range n).map val ++ output.drop n, BitVec.ofNat 16 (widthSum lens n)) := by
    intro n
    induction n with
    | zero => intro _; simp [Outcome.forO, widthSum]
    | succ n ih =>
      intro hle
      have hi : n < lens.length := by omega
      rw [Outcome.forO, ih (by omega)]
      simp only [Outcome.bind]
      rw [List.getElem?_eq_getElem hi]
      simp only
      have hsum := widthSum_le lens (n + 1)
      have hss := widthSum_succ hi
      obtain ⟨s, e1, e2⟩ := step n hi
      rw [BitVec.toNat_ofNat, Nat.mod_eq_of_lt (by omega), e1]
      simp only [Outcome.bind]
      rw [e2]
      simp only [Outcome.bind, Outcome.ok.injEq, Prod.mk.injEq]
      constructor
      · have hvn : val n = signed lens[n].toNat
            (hexValue str / 2 ^ (offset.toNat + fieldLow (lens.map BitVec.toNat) n)) := by
          simp only [val, List.getD_eq_getElem?_getD, List.getElem?_eq_getElem hi, Option.getD_some]
        rw [← hvn, List.range_succ, List.map_append, List.map_singleton, List.set_append_right _ _ (by simp)]
        rw [List.drop_eq_getElem_cons (show n < output.length by omega)]
        simp only [List.length_map, List.length_range, Nat.sub_self, List.set_cons_zero, List.append_assoc,
          List.singleton_append]
      · apply BitVec.eq_of_toNat_eq
        rw [hss]
        simp only [BitVec.toNat_add, BitVec.toNat_ofNat]
        omega
  refine ⟨(List.range lens.length).map val, ?_, by simp, ?_⟩
  · unfold parseGCOutputString
    simp only
    rw [hn, Nat.mod_eq_of_lt h8, parseLen_eq hs _ (Nat.le_refl _), hall]
    rw [Outcome.bind, BitVec.toNat_ofNat, Nat.mod_eq_of_lt hs]
    refine (congrArg (fun o => Outcome.bind o fun r => Outcome.ok r.1) (loop _ (Nat.le_refl _))).trans ?_
    simp only [Outcome.bind]
    rw [List.drop_of_length_le (by omega), List.append_nil]
  · intro i hi hi'
    simp only [List.getElem_map, List.getElem_range, val, List.getD_eq_getElem?_getD, List.getElem?_eq_getElem hi,
      Option.getD_some]

example : parseGCOutputString [0, 0, 0] "005FF8".toList [4#16, 2#16, 6#16] 4#16 = .ok [5, -1, -1] := by decide +kernel

/-- C37, round trip: what `formatGCInputString` wrote is read back by `parseGCOutputString`, each element as the
signed number its low bits stand for; in particular a number that fits its width comes back unchanged. -/
theorem C37_roundtrip {input : List (BitVec 64)} {lens : List (BitVec 16)} {output : List Int}
    (hn : lens.length = input.length) (hn' : output.length = lens.length) (h8 : lens.length < 2 ^ 8)
    (hw : ∀ l ∈ lens, l.toNat ≤ 64) (hs : (lens.map BitVec.toNat).sum + 4 < 2 ^ 16)
    (hu : ∀ (i : Nat) (hi : i < lens.length) (hi' : i < input.length), lens[i].toNat = 64 → input[i] ≠ BitVec.intMin 64) :
    ∃ s vals, formatGCInputString input lens = .ok s ∧ parseGCOutputString output s lens 0#16 = .ok vals
      ∧ vals.length = lens.length
      ∧ ∀ (i : Nat) (hi : i < lens.length) (hi1 : i < input.length) (hi2 : i < vals.length),
        vals[i] = signed lens[i].toNat input[i].toNat
        ∧ (0 < lens[i].toNat → -2 ^ (lens[i].toNat - 1) ≤ input[i].toInt → input[i].toInt < 2 ^ (lens[i].toNat - 1) →
          vals[i] = input[i].toInt) := by
  have hl := fieldsStr_length (lens.zip input)
  rw [zip_widths hn] at hl
  obtain ⟨c1, c2, c3⟩ := bin2hex_spec (fieldsStr_isBin (lens.zip input)) (by rw [hl]; exact hs)
  obtain ⟨s, hf, hx, -, hv⟩ := C37_input_fields hn hw hs
  have hse : s = bin2hex (fieldsStr (lens.zip input)) := by
    rw [format_eq hn hw] at hf
    injection hf with hf
    exact hf.symm
  have hsl : s.length < 2 ^ 16 := by rw [hse, c1, hl]; omega
  have hu' : ∀ (i : Nat) (hi : i < lens.length), lens[i].toNat = 64 →
      hexValue s / 2 ^ ((0#16).toNat + fieldLow (lens.map BitVec.toNat) i) % 2 ^ 64 ≠ 2 ^ 63 := by
    intro i hi e
    have := hv i hi (by omega)
    rw [e] at this
    rw [show (0#16).toNat = 0 from rfl, Nat.zero_add, this]
    intro e2
    apply hu i hi (by omega) e
    apply BitVec.eq_of_toNat_eq
    have hlt := (input[i]'(by omega)).isLt
    rw [Nat.mod_eq_of_lt hlt] at e2
    rw [e2]
    decide
  obtain ⟨vals, hp, hvl, hvals⟩ := C37_output_fields_partial hx hsl hn' h8 (offset := 0#16) hw
    (by rw [show (0#16).toNat = 0 from rfl]; omega) hu'
  refine ⟨s, vals, hf, hp, hvl, ?_⟩
  intro i hi hi1 hi2
  have e : vals[i] = signed lens[i].toNat input[i].toNat := by
    rw [hvals i hi hi2, ← signed_mod, show (0#16).toNat = 0 from rfl, Nat.zero_add, hv i hi hi1, signed_mod]
  refine ⟨e, fun hp0 h1 h2 => ?_⟩
  have := signed_ofInt hp0 (hw _ (List.getElem_mem hi)) h1 h2
  rw [BitVec.ofInt_toInt, signed_mod] at this
  rw [e, this]

example : ∃ s, formatGCInputString [5#64, BitVec.ofInt 64 (-3)] [8#16, 64#16] = .ok s
    ∧ parseGCOutputString [0, 0] s [8#16, 64#16] 0#16 = .ok [5, -3] := ⟨_, rfl, by decide +kernel⟩

/-- C37 fails for 256 outputs: their number is kept in 8 bits, so none is parsed. -/
theorem C37_outputs_lost (output : List Int) (str : List Char) (lens : List (BitVec 16)) (offset : BitVec 16)
    (h : output.length = 256) : parseGCOutputString output str lens offset = .ok output := by
  unfold parseGCOutputString
  rw [h]
  rfl

/-- C37, mask: the mask has a 1 for every output of the garbler and a 0 for every output of the evaluator; the
garbler's are on the left (high) or on the right (low) as asked. For less than 2^16 - 4 outputs. -/
theorem C37_mask (g e : BitVec 16) (left : Bool) (h : g.toNat + e.toNat + 4 < 2 ^ 16) :
    IsHex (formatGCOutputMask g e left)
    ∧ hexValue (formatGCOutputMask g e left) = (2 ^ g.toNat - 1) * (if left then 2 ^ e.toNat else 1) := by
  have ones : ∀ n, binValue (List.replicate n '1') = 2 ^ n - 1 := by
    intro n
    induction n with
    | zero => rfl
    | succ n ih =>
      rw [List.replicate_succ', binValue_append, ih, Nat.pow_succ]
      have : 0 < 2 ^ n := Nat.pow_pos (by decide)
      simp [binValue]
      omega
  have ob : ∀ n, IsBin (List.replicate n '1') := fun n c hc => Or.inr (List.eq_of_mem_replicate hc)
  unfold formatGCOutputMask
  cases left
  · obtain ⟨-, a, b⟩ := bin2hex_spec (isBin_append (isBin_zeros e.toNat) (ob g.toNat)) (by simp; omega)
    refine ⟨isHex_of_upper a, ?_⟩
    simp only [Bool.false_eq_true, if_false] at b ⊢
    rw [b, binValue_append, binValue_zeros, ones]
    simp
  · obtain ⟨-, a, b⟩ := bin2hex_spec (isBin_append (ob g.toNat) (isBin_zeros e.toNat)) (by simp; omega)
    refine ⟨isHex_of_upper a, ?_⟩
    simp only [if_true] at b ⊢
    rw [b, binValue_append, binValue_zeros, ones]
    simp

example : formatGCOutputMask 6#16 4#16 true = "3F0".toList ∧ formatGCOutputMask 6#16 4#16 false = "03F".toList := by
  decide +kernel

end TinyGarble.Props
