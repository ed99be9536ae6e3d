import Verif.Model.OTExt
import Verif.Proof.OT

/-!
# Extended oblivious transfer: lemmas
-/

namespace TinyGarble.Proof
open TinyGarble Spec

theorem extT_testBit {sel : Nat} {T : Nat → Nat} {i j k : Nat} (hk : k < 128) :
    (extT sel T i j).testBit k = ((T i).testBit k ^^ (decide (j ≠ 0) && sel.testBit i)) := by
  unfold extT
  by_cases hj : j = 0
  · simp [hj]
  · rw [if_neg hj]
    by_cases hs : sel.testBit i = true
    · rw [if_pos hs, bnInvert_testBit, if_pos (show k < secKBit from hk)]
      simp [hj, hs]
    · simp [hs]

theorem eq_of_testBit_lt {a b k : Nat} (ha : a < 2 ^ k) (hb : b < 2 ^ k) (h : ∀ i < k, a.testBit i = b.testBit i) : a = b := by
  apply Nat.eq_of_testBit_eq
  intro i
  by_cases hi : i < k
  · exact h i hi
  · have hp : 2 ^ k ≤ 2 ^ i := Nat.pow_le_pow_right (by omega) (by omega)
    rw [Nat.testBit_lt_two_pow (by omega), Nat.testBit_lt_two_pow (by omega)]

theorem bnXor_lt {r bits v w : Nat} (hr : r < 2 ^ bits) : bnXor r bits v w < 2 ^ bits := by
  apply Nat.lt_pow_two_of_testBit
  intro i hi
  rw [bnXor_testBit, if_neg (by omega)]
  exact Nat.testBit_lt_two_pow (Nat.lt_of_lt_of_le hr (Nat.pow_le_pow_right (by omega) hi))

theorem bnXor_cancel {r bits h m : Nat} (hm : m < 2 ^ bits) : bnXor 0 bits (bnXor r bits h m) h = m := by
  apply eq_of_testBit_lt (bnXor_lt (Nat.two_pow_pos _)) hm
  intro i hi
  rw [bnXor_testBit, if_pos hi, bnXor_testBit, if_pos hi]
  cases h.testBit i <;> cases m.testBit i <;> rfl

/-- The row `Q_i` of the sender, or its xor with `S`, is the receiver's `T_i`. -/
theorem ext_rows {S sel : Nat} {T : Nat → Nat} {Qr : Nat → Nat} {i : Nat} (hT : T i < 2 ^ 128)
    (hQ : ∀ k < 128, (Qr i).testBit k = (extT sel T i (if S.testBit k then 1 else 0)).testBit k)
    (hQlt : Qr i < 2 ^ 128) (QS0 : Nat) (h0 : QS0 < 2 ^ 128) :
    (if sel.testBit i then bnXor QS0 128 (Qr i) S else Qr i) = T i := by
  by_cases hs : sel.testBit i = true
  · rw [if_pos hs]
    apply eq_of_testBit_lt (bnXor_lt h0) hT
    intro k hk
    rw [bnXor_testBit, if_pos hk, hQ k hk, extT_testBit hk, hs]
    cases S.testBit k <;> simp
  · rw [if_neg hs]
    apply eq_of_testBit_lt hQlt hT
    intro k hk
    rw [hQ k hk, extT_testBit hk]
    simp [hs]

/-- The receiver's result. -/
def extResult (m : Nat → Nat → Nat) (sel n : Nat) : Nat → Nat :=
  fun i => if i < n then m i (if sel.testBit i then 1 else 0) else 0

theorem runs_ext {H : List Byte → List Byte} {m : Nat → Nat → Nat} {bits mLen sel : Nat} {gs : ExtSendCoins} {er : ExtRecvCoins}
    (hv : ValidKey er.base.key) (hN : er.base.key.N < 2 ^ 1024) (he : er.base.key.e < 2 ^ 1024)
    (hx : ∀ i j, er.base.x i j < 2 ^ 1024) (hl : mLen < 2 ^ 30) (hT : ∀ i < mLen, er.T i < 2 ^ 128)
    (hb : bits < 2 ^ 30) (hm : ∀ i < mLen, ∀ j < 2, m i j < 2 ^ bits)
    {cap : Nat} (hcap : 128 * 132 ≤ cap) :
    Runs cap (otExtSendBN H m bits mLen gs) (otExtRecvBN H sel bits mLen er) () (extResult m sel mLen) := by
  have hc : 0 < cap := by omega
  unfold otExtSendBN otExtRecvBN
  obtain ⟨Tr, hTr, hTr'⟩ := switchRowColumnPair_eq (extT sel er.T) mLen secKBit
  rw [hTr]
  simp only
  have hTrlt : ∀ i < secKBit, ∀ j < 2, Tr i j < 2 ^ mLen := by
    intro i hi j hj
    apply Nat.lt_pow_two_of_testBit
    intro k hk
    rw [hTr' i hi j hj, if_neg (by omega)]
  have hf : OTFits Tr secKBit er.base := fits_1024 (by decide) hN he hx hl hTrlt
  have hot := (runs_ot hv hf gs.S gs.rk (fun _ => 0) hc
    (Nat.le_trans (Nat.mul_le_mul_left _ (by have := numBytes_of_lt (k := 128) hN; omega)) hcap)).symm
  refine hot.bind ?_
  obtain ⟨Qr, hQr, hQr'⟩ := switchRowColumn_eq (fun i => (otResult Tr gs.S (fun _ => 0) secKBit i).natAbs) secKBit mLen
  rw [hQr]
  simp only
  have hQ : ∀ i < mLen, ∀ k < 128, (Qr i).testBit k = (extT sel er.T i (if gs.S.testBit k then 1 else 0)).testBit k := by
    intro i hi k hk
    rw [hQr' i hi, if_pos (show k < secKBit from hk)]
    unfold otResult
    rw [if_pos (show k < secKBit from hk), Int.natAbs_natCast, hTr' k hk _ (by split <;> omega), if_pos hi]
  have hQlt : ∀ i < mLen, Qr i < 2 ^ 128 := by
    intro i hi
    apply Nat.lt_pow_two_of_testBit
    intro k hk
    rw [hQr' i hi, if_neg (by unfold secKBit; omega)]
  -- the state of the sender's loop
  let S : Nat → Nat × Nat × Nat := fun n => Nat.rec (0, 0, 0) (fun i st =>
    (bnXor st.1 secKBit (Qr i) gs.S, bnXor st.2.1 bits (hashBN H bits i (Qr i)) (m i 0),
      bnXor st.2.2 bits (hashBN H bits i (bnXor st.1 secKBit (Qr i) gs.S)) (m i 1))) n
  have hS : ∀ n, (S n).1 < 2 ^ 128 ∧ (S n).2.1 < 2 ^ bits ∧ (S n).2.2 < 2 ^ bits := by
    intro n
    induction n with
    | zero => exact ⟨Nat.two_pow_pos _, Nat.two_pow_pos _, Nat.two_pow_pos _⟩
    | succ n ih => exact ⟨bnXor_lt (bits := 128) ih.1, bnXor_lt ih.2.1, bnXor_lt ih.2.2⟩
  have hfit : ∀ y, y < 2 ^ bits → numBytes y < 2 ^ 31 := by
    intro y hy
    have := numBits_le hy
    unfold numBytes; omega
  have key := runs_for (cap := cap) (f := otExtSendStep H m bits gs.S Qr) (g := otExtRecvStep H sel bits er.T)
    (S := S) (T := fun n => extResult m sel n) mLen (by
      intro i hi
      have hy := hS (i + 1)
      unfold otExtSendStep otExtRecvStep
      refine ((dual_bn' (hfit _ hy.2.1)).runs hc).bind ?_
      refine ((dual_bn' (hfit _ hy.2.2)).runs hc).bind ?_
      have e : extResult m sel (i + 1) = upd (extResult m sel i) i
          (if sel.testBit i = false then bnXor 0 bits (S (i + 1)).2.1 (hashBN H bits i (er.T i))
           else bnXor 0 bits (S (i + 1)).2.2 (hashBN H bits i (er.T i))) := by
        have hrow := ext_rows (hT i hi) (hQ i hi) (hQlt i hi) (S i).1 (hS i).1
        funext j
        unfold extResult upd
        by_cases hj : j = i
        · subst hj
          simp only [Nat.lt_succ_self, if_true]
          cases hb' : sel.testBit j with
          | false =>
            rw [hb'] at hrow
            simp only [Bool.false_eq_true, if_false] at hrow ⊢
            simp only [if_true]
            rw [← hrow]
            exact (bnXor_cancel (hm j hi 0 (by omega))).symm
          | true =>
            rw [hb'] at hrow
            simp only [if_true] at hrow ⊢
            simp only [Bool.true_eq_false, if_false]
            rw [← hrow]
            exact (bnXor_cancel (hm j hi 1 (by omega))).symm
        · have e : (j < i + 1) = (j < i) := propext (by omega)
          simp [hj, e]
      rw [e]
      exact .ret)
  have h0 : extResult m sel 0 = fun _ => 0 := by funext i; simp [extResult]
  rw [show extResult m sel 0 = fun _ => 0 from h0] at key
  have := key.bind (f := fun _ => .ret ()) (g := .ret) .ret
  rw [bind_ret (Proc.forP (otExtRecvStep H sel bits er.T) mLen fun _ => 0)] at this
  exact this

theorem runs_extBlock {H : List Byte → List Byte} {m : Nat → Nat → Block} {mLen : Nat} {sel : Nat → Bool}
    {gs : ExtSendCoins} {er : ExtRecvCoins}
    (hv : ValidKey er.base.key) (hN : er.base.key.N < 2 ^ 1024) (he : er.base.key.e < 2 ^ 1024)
    (hx : ∀ i j, er.base.x i j < 2 ^ 1024) (hl : mLen < 2 ^ 30) (hT : ∀ i < mLen, er.T i < 2 ^ 128)
    {cap : Nat} (hcap : 128 * 132 ≤ cap) :
    ∃ r, Runs cap (otExtSend H m mLen gs) (otExtRecv H sel mLen er) () r
      ∧ ∀ i < mLen, r i = m i (if sel i then 1 else 0) := by
  have h1 := runs_ext (H := H) (m := fun i j => blockToBN (m i j)) (bits := 128) (sel := selBN sel mLen) (gs := gs)
    hv hN he hx hl hT (by omega) (fun i _ j _ => by rw [blockToBN_eq]; exact (m i j).isLt) hcap
  have h2 := h1.bind (f := fun _ => .ret ()) (g := fun m => .ret fun i => bnToBlock (m i)) .ret
  rw [bind_ret] at h2
  refine ⟨_, h2, ?_⟩
  intro i hi
  unfold extResult
  rw [if_pos hi, selBN_testBit]
  simp only [blockToBN_eq, bnToBlock_eq]
  simp [hi]

end TinyGarble.Proof
