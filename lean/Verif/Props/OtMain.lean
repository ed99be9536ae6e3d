import Verif.Model.OtMain
import Verif.Props.OT
import Verif.Props.Str

/-!
# C91: the program for a single transfer
-/

set_option exponentiation.threshold 1025

namespace TinyGarble.Props
open TinyGarble Spec Proof

/-- C91, for options as the help text asks for them: two messages of up to 32 hexadecimal digits, and `0` or `1`. However the two programs are
scheduled, both return SUCCESS, and Bob logs the selection and a numeral of 32 digits with the value of the message that was selected. -/
theorem C91_transfer_partial {oA oB : OtOptions} (h0 : IsHex (significant oA.message0)) (l0 : (significant oA.message0).length ≤ 32)
    (h1 : IsHex (significant oA.message1)) (l1 : (significant oA.message1).length ≤ 32) {b : Bool} (hb : oB.select = if b then ['1'] else ['0'])
    {co : OTSendCoins} (hv : ValidKey co.key) (hN : co.key.N < 2 ^ 1024) (he : co.key.e < 2 ^ 1024) (hx : ∀ i j, co.x i j < 2 ^ 1024)
    (rk : Nat → Nat) {cap : Nat} (hcap : 132 ≤ cap) :
    ∃ B line, otMainBob oB rk = some B ∧ AlwaysFinishes cap (otMainAlice oA co) B () (b, line)
      ∧ IsHex (significant line) ∧ (significant line).length = 32
      ∧ hexValue (significant line) = hexValue (significant (if b then oA.message1 else oA.message0)) := by
  have hA : otMainAlice oA co = otSend (fun _ j => if j = 0 then BitVec.ofNat 128 (hexValue (significant oA.message0))
      else BitVec.ofNat 128 (hexValue (significant oA.message1))) 1 co := by
    unfold otMainAlice
    rw [C36_parse h0 l0, C36_parse h1 l1]
  have hs : ∃ v : Int, atoi oB.select = some v ∧ (v == 1) = b := by
    rw [hb]
    cases b
    · exact ⟨0, by decide +kernel, rfl⟩
    · exact ⟨1, by decide +kernel, rfl⟩
  obtain ⟨v, hv1, hv2⟩ := hs
  have hB : otMainBob oB rk = some ((otRecv (fun _ => b) 1 rk).bind fun m => .ret (b, showBlock (m 0))) := by
    unfold otMainBob
    rw [hv1, ← hv2]
    rfl
  obtain ⟨r, hr1, hr2⟩ := runs_otBlock hv (by decide : 1 < 2 ^ 32) hN he hx (fun _ => b) rk (by omega : 0 < cap) (by omega)
    (m := fun _ j => if j = 0 then BitVec.ofNat 128 (hexValue (significant oA.message0)) else BitVec.ofNat 128 (hexValue (significant oA.message1)))
  obtain ⟨s1, s2, s3⟩ := showBlock_value (r 0)
  refine ⟨_, showBlock (r 0), hB, ?_, s1, s2, ?_⟩
  · rw [hA]
    have := hr1.bind (f := fun u => .ret u) (g := fun m => .ret (b, showBlock (m 0))) Runs.ret
    rw [bind_ret] at this
    exact this.always
  · rw [s3, hr2 0 (by decide)]
    have hlt : ∀ {s : List Char}, IsHex s → s.length ≤ 32 → hexValue s < 2 ^ 128 := fun {s} hs hl =>
      Nat.lt_of_lt_of_le (hexValue_lt hs) (by
        have : (2 : Nat) ^ 128 = 16 ^ 32 := by decide
        rw [this]
        exact Nat.pow_le_pow_right (by decide) hl)
    cases b
    · exact (BitVec.toNat_ofNat _ _).trans (Nat.mod_eq_of_lt (hlt h0 l0))
    · exact (BitVec.toNat_ofNat _ _).trans (Nat.mod_eq_of_lt (hlt h1 l1))

/-- The default messages. -/
example : IsHex (significant "15141312_11100908_07060504_03020100".toList) ∧ (significant "15141312_11100908_07060504_03020100".toList).length ≤ 32
    ∧ IsHex (significant "00010203_04050607_08091011_12131415".toList) ∧ (significant "00010203_04050607_08091011_12131415".toList).length ≤ 32
    ∧ ValidKey coins15.key ∧ coins15.key.N < 2 ^ 1024 ∧ coins15.key.e < 2 ^ 1024 := by
  refine ⟨?_, ?_, ?_, ?_, key15_valid, by decide, by decide⟩
  · unfold IsHex; decide +kernel
  · decide +kernel
  · unfold IsHex; decide +kernel
  · decide +kernel

/-- C91: a message with more than 32 digits is refused. -/
theorem C91_long_refused {o : OtOptions} (h : 32 < (significant o.message0).length ∨ 32 < (significant o.message1).length) (co : OTSendCoins) :
    otMainAlice o co = .fail := by
  unfold otMainAlice
  rcases h with h | h
  · rw [C45_long_rejected_partial _ h]
  · rw [C45_long_rejected_partial _ h]
    cases str2Block o.message0 <;> rfl

example : 32 < (significant "000102030405060708091011121314151".toList).length := by decide +kernel

/-- C91 is false otherwise: a selection that is not a bit is not refused, Bob gets the first message; and a message that is not a hexadecimal numeral
is not refused, what follows the first other character of a half is dropped. -/
theorem C91_not_refused : (∀ m0 m1 rk, otMainBob ⟨m0, m1, "2".toList⟩ rk = otMainBob ⟨m0, m1, "0".toList⟩ rk
      ∧ otMainBob ⟨m0, m1, "true".toList⟩ rk = otMainBob ⟨m0, m1, "0".toList⟩ rk)
    ∧ ∀ m1 sel co, otMainAlice ⟨"1g".toList, m1, sel⟩ co = otMainAlice ⟨"1".toList, m1, sel⟩ co := by
  have a0 : atoi "0".toList = some 0 := by decide +kernel
  have a2 : atoi "2".toList = some 2 := by decide +kernel
  have at' : atoi "true".toList = some 0 := by decide +kernel
  refine ⟨fun m0 m1 rk => ?_, fun m1 sel co => ?_⟩
  · unfold otMainBob
    rw [a0, a2, at']
    exact ⟨rfl, rfl⟩
  · unfold otMainAlice
    rw [C45_garbage_accepted.1, show str2Block "1".toList = some 1#128 by decide +kernel]

end TinyGarble.Props
