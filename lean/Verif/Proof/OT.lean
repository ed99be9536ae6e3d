import Verif.Spec.OT
import Verif.Proof.BN
import Mathlib.FieldTheory.Finite.Basic

/-!
# Base oblivious transfer: lemmas
-/

namespace TinyGarble.Proof
open TinyGarble Spec

/-! ## RSA -/

theorem pow_mod_prime {p n k : Nat} (hp : p.Prime) (h : n ≡ 1 [MOD p - 1]) (hn : 0 < n) : k ^ n ≡ k [MOD p] := by
  by_cases hk : p ∣ k
  · have h1 : k ≡ 0 [MOD p] := (Nat.modEq_zero_iff_dvd).2 hk
    have h2 : k ^ n ≡ 0 [MOD p] := (Nat.modEq_zero_iff_dvd).2 (Dvd.dvd.trans hk (dvd_pow_self k (by omega)))
    exact h2.trans h1.symm
  · have hc : Nat.Coprime k p := ((Nat.Prime.coprime_iff_not_dvd hp).2 hk).symm
    have ht := Nat.ModEq.pow_totient hc
    rw [Nat.totient_prime hp] at ht
    obtain ⟨t, ht'⟩ := (Nat.modEq_iff_dvd' hn).1 h.symm
    have e : n = 1 + (p - 1) * t := by omega
    rw [e, pow_add, pow_one, pow_mul]
    have := (ht.pow t).mul_left k
    simpa using this

theorem rsa_inverse {key : RsaKey} (hv : ValidKey key) (k : Nat) : k ^ (key.e * key.d) ≡ k [MOD key.N] := by
  obtain ⟨p, q, hp, hq, hpq, hN, he⟩ := hv
  have hpos : 0 < key.e * key.d := by
    rcases Nat.eq_zero_or_pos (key.e * key.d) with h0 | h0
    · exfalso
      rw [h0] at he
      have h1 := (Nat.modEq_iff_dvd' (Nat.zero_le 1)).1 he
      have h3 : p - 1 ∣ 1 := (Nat.dvd_lcm_left (p - 1) (q - 1)).trans h1
      have h4 : q - 1 ∣ 1 := (Nat.dvd_lcm_right (p - 1) (q - 1)).trans h1
      have h5 := Nat.dvd_one.1 h3
      have h6 := Nat.dvd_one.1 h4
      omega
    · exact h0
  rw [hN, ← Nat.modEq_and_modEq_iff_modEq_mul ((Nat.coprime_primes hp hq).2 hpq)]
  exact ⟨pow_mod_prime hp (he.of_dvd (Nat.dvd_lcm_left _ _)) hpos,
    pow_mod_prime hq (he.of_dvd (Nat.dvd_lcm_right _ _)) hpos⟩

theorem key_pos {key : RsaKey} (hv : ValidKey key) : 1 < key.N := by
  obtain ⟨p, q, hp, hq, _, hN, _⟩ := hv
  rw [hN]
  have := hp.two_le
  have := hq.two_le
  have := Nat.mul_le_mul hp.two_le hq.two_le
  omega

/-- Decryption of the value the receiver sends. -/
theorem modExp_otV {key : RsaKey} (hv : ValidKey key) (x : Nat → Int) (b : Bool) {k : Nat} (hk : k < key.N) :
    modExp ((otV x key.N key.e b k : Int) - x (if b then 1 else 0)) key.d key.N = k := by
  have hN := key_pos hv
  unfold otV
  generalize x (if b then 1 else 0) = y
  have hme : modExp (k : Int) key.e key.N = k ^ key.e % key.N := by
    unfold modExp
    rw [← Int.natCast_mod, Int.toNat_natCast, Nat.mod_eq_of_lt hk]
  rw [hme]
  have h1 : (0 : Int) ≤ (y + ((k ^ key.e % key.N : Nat) : Int)) % (key.N : Int) := Int.emod_nonneg _ (by omega)
  rw [Int.toNat_of_nonneg h1]
  unfold modExp
  have h2 : ((y + ((k ^ key.e % key.N : Nat) : Int)) % (key.N : Int) - y) % (key.N : Int)
      = ((k ^ key.e % key.N : Nat) : Int) := by
    rw [Int.emod_sub_emod, add_sub_cancel_left, ← Int.natCast_mod, Nat.mod_mod]
  rw [h2, Int.toNat_natCast]
  have := rsa_inverse hv k
  rw [← Nat.pow_mod, ← pow_mul]
  rw [this, Nat.mod_eq_of_lt hk]

theorem otV_lt (x : Nat → Int) {N : Nat} (hN : 0 < N) (e : Nat) (b : Bool) (k : Nat) : otV x N e b k < N := by
  unfold otV
  have h1 := Int.emod_nonneg (x (if b then 1 else 0) + modExp k e N) (b := (N : Int)) (by omega)
  have h2 := Int.emod_lt_of_pos (x (if b then 1 else 0) + modExp k e N) (b := (N : Int)) (by omega)
  omega

theorem modExp_lt (a : Int) (e : Nat) {N : Nat} (hN : 0 < N) : modExp a e N < N := Nat.mod_lt _ hN

/-! ## The protocol -/

theorem sendBN_eq {a : Nat} (h : numBytes a < 2 ^ 31) : sendBN (a : Int) = Proc.sendBytes (bnWire a) := by
  have h4 : toInt32 4 = 4 := by decide
  unfold sendBN sendData bnWire
  rw [sendBytes_append, Int.natAbs_natCast, h4]
  simp only [toInt32_of_lt h]
  simp only [show ¬ ((4 : Int) ≤ 0) by decide, if_false]
  rw [show (4 : Int).toNat = 4 from rfl, List.take_of_length_le (by rw [leBytes_length])]
  congr
  funext _
  by_cases h0 : ((numBytes a : Nat) : Int) ≤ 0
  · rw [if_pos h0]
    have : bnBytes a = [] := List.length_eq_zero_iff.1 (by rw [bnBytes_length]; omega)
    rw [this]; rfl
  · rw [if_neg h0, Int.toNat_natCast, List.take_of_length_le (by rw [bnBytes_length])]

theorem dual_bn' {a : Nat} (h : numBytes a < 2 ^ 31) : Dual (sendBN (a : Int)) recvBN () (a : Int) (bnWire a) [] := by
  have := dual_bn (a := (a : Int)) (by rwa [Int.natAbs_natCast])
  rwa [Int.natAbs_natCast] at this

theorem bnWire_length (a : Nat) : (bnWire a).length = 4 + numBytes a := by
  unfold bnWire
  rw [List.length_append, leBytes_length, bnBytes_length]

theorem numBytes_mono {a b : Nat} (h : a ≤ b) : numBytes a ≤ numBytes b := by
  have := numBits_le (Nat.lt_of_le_of_lt h (lt_numBits b))
  unfold numBytes; omega

/-- All numbers that are transmitted are small enough for OpenSSL and for the `int` length. -/
structure OTFits (m : Nat → Nat → Nat) (mLen : Nat) (co : OTSendCoins) : Prop where
  len : mLen < 2 ^ 32
  N : numBytes co.key.N < 2 ^ 31
  e : numBytes co.key.e < 2 ^ 31
  x : ∀ i < mLen, ∀ j < 2, numBytes (co.x i j) < 2 ^ 31
  m : ∀ i < mLen, ∀ j < 2, numBytes (co.key.N + m i j) < 2 ^ 31

theorem length_flatMap_le {f : Nat → List Byte} {n c : Nat} (h : ∀ i < n, (f i).length ≤ c) :
    ((List.range n).flatMap f).length ≤ n * c := by
  induction n with
  | zero => simp
  | succ n ih =>
    rw [List.range_succ, List.flatMap_append, List.flatMap_singleton, List.length_append, Nat.succ_mul]
    have := ih fun i hi => h i (by omega)
    have := h n (by omega)
    omega

/-- The receiver's result after `i` transfers. -/
def otResult (m : Nat → Nat → Nat) (sel : Nat) (m0 : Nat → Int) (n : Nat) : Nat → Int :=
  fun i => if i < n then (m i (if sel.testBit i then 1 else 0) : Int) else m0 i

/-- The base transfer: with room for all of the receiver's first messages, some schedule finishes
with the right result. -/
theorem runs_ot {m : Nat → Nat → Nat} {mLen : Nat} {co : OTSendCoins} (hv : ValidKey co.key) (hf : OTFits m mLen co)
    (sel : Nat) (rk : Nat → Nat) (m0 : Nat → Int) {cap : Nat} (hc : 0 < cap)
    (hcap : mLen * (4 + numBytes co.key.N) ≤ cap) :
    Runs cap (otSendBN m mLen co) (otRecvBN sel mLen rk m0) () (otResult m sel m0 mLen) := by
  have hN := key_pos hv
  unfold otSendBN otRecvBN
  refine ((dual_data (leBytes_length 4 _) (by decide)).runs hc).bind ?_
  have hl : leValue (leBytes 4 mLen) = mLen := by
    rw [leValue_leBytes, Nat.mod_eq_of_lt (by have := hf.len; omega)]
  rw [if_neg (by rw [hl]; simp)]
  refine ((dual_bn' hf.N).runs hc).bind ?_
  refine ((dual_bn' hf.e).runs hc).bind ?_
  refine Runs.bind (a := ()) (b := fun i j => if i < mLen then (co.x i (if j = 0 then 0 else 1) : Int) else 0) ?_ ?_
  · have := runs_for (cap := cap) (f := fun i (_ : Unit) => (sendBN (co.x i 0)).bind fun _ => sendBN (co.x i 1))
      (g := fun i (x : Nat → Nat → Int) => recvBN.bind fun x0 => recvBN.bind fun x1 =>
        .ret (upd x i (fun j => if j = 0 then x0 else x1))) (S := fun _ => ())
      (T := fun n i j => if i < n then (co.x i (if j = 0 then 0 else 1) : Int) else 0) mLen (by
        intro i hi
        refine ((dual_bn' (hf.x i hi 0 (by omega))).runs hc).bind ?_
        have := ((dual_bn' (hf.x i hi 1 (by omega))).runs hc).bind (f := fun _ => .ret ())
          (g := fun x1 => .ret (upd (fun i' j => if i' < i then (co.x i' (if j = 0 then 0 else 1) : Int) else 0) i
            (fun j => if j = 0 then (co.x i 0 : Int) else x1))) .ret
        rw [bind_ret] at this
        convert this using 1
        funext i' j
        unfold upd
        by_cases h1 : i' = i
        · subst h1; simp; split <;> rfl
        · have e : (i' < i + 1) = (i' < i) := propext (by omega)
          simp [h1, e])
    simpa using this
  · have e0 : ¬ (((co.key.N : Nat) : Int) = 0 ∧ mLen ≠ 0) := by omega
    rw [if_neg e0]
    simp only [Int.toNat_natCast]
    have hv' : ∀ i < mLen, sendBN ((otV (fun j => if i < mLen then (co.x i (if j = 0 then 0 else 1) : Int) else 0)
        co.key.N co.key.e (sel.testBit i) (rk i % co.key.N) : Nat) : Int)
        = Proc.sendBytes (bnWire (otV (fun j => (co.x i (if j = 0 then 0 else 1) : Int))
            co.key.N co.key.e (sel.testBit i) (rk i % co.key.N))) := by
      intro i hi
      rw [sendBN_eq]
      · simp only [hi, if_true]
      · refine Nat.lt_of_le_of_lt (numBytes_mono (Nat.le_of_lt (otV_lt _ (by omega) _ _ _))) hf.N
    rw [forP_sendBytes (f := fun i (_ : Unit) => sendBN ((otV (fun j => if i < mLen then (co.x i (if j = 0 then 0 else 1) : Int) else 0)
        co.key.N co.key.e (sel.testBit i) (rk i % co.key.N) : Nat) : Int)) (q := fun i => bnWire (otV (fun j => (co.x i (if j = 0 then 0 else 1) : Int))
            co.key.N co.key.e (sel.testBit i) (rk i % co.key.N))) mLen (fun i hi => hv' i hi), ← pre_eq]
    refine Dual1.runs ?_ hc (Nat.le_trans (length_flatMap_le (c := 4 + numBytes co.key.N) ?_) hcap)
    · have := dual1_for (f := otSendStep m co) (g := otRecvStep sel (fun i => rk i % co.key.N)) (S := fun _ => ())
        (T := fun n => otResult m sel m0 n) (q := fun i => bnWire (otV (fun j => (co.x i (if j = 0 then 0 else 1) : Int))
            co.key.N co.key.e (sel.testBit i) (rk i % co.key.N))) mLen (by
          intro i hi
          have hVlt := otV_lt (fun j => (co.x i (if j = 0 then 0 else 1) : Int)) (N := co.key.N) (by omega) co.key.e
            (sel.testBit i) (rk i % co.key.N)
          have hk := modExp_otV hv (fun j => (co.x i (if j = 0 then 0 else 1) : Int)) (sel.testBit i)
            (Nat.mod_lt (rk i) (y := co.key.N) (by omega))
          generalize otV (fun j => (co.x i (if j = 0 then 0 else 1) : Int))
            co.key.N co.key.e (sel.testBit i) (rk i % co.key.N) = V at *
          have hVf : numBytes V < 2 ^ 31 := Nat.lt_of_le_of_lt (numBytes_mono (Nat.le_of_lt hVlt)) hf.N
          unfold otSendStep otRecvStep
          have h1 : Dual (.sendBytes (bnWire V)) recvBN () (V : Int) (bnWire V) [] := by
            rw [← sendBN_eq hVf]; exact dual_bn' hVf
          have hm0 : numBytes (modExp (↑V - ↑(co.x i 0)) co.key.d co.key.N + m i 0) < 2 ^ 31 :=
            Nat.lt_of_le_of_lt (numBytes_mono (by
              have := modExp_lt (↑V - ↑(co.x i 0)) co.key.d (N := co.key.N) (by omega); omega)) (hf.m i hi 0 (by omega))
          have hm1 : numBytes (modExp (↑V - ↑(co.x i 1)) co.key.d co.key.N + m i 1) < 2 ^ 31 :=
            Nat.lt_of_le_of_lt (numBytes_mono (by
              have := modExp_lt (↑V - ↑(co.x i 1)) co.key.d (N := co.key.N) (by omega); omega)) (hf.m i hi 1 (by omega))
          have h2 := (dual_bn' hm1).bind (f := fun _ => .ret ()) (g := fun m1p => .ret (upd (otResult m sel m0 i) i
              (if sel.testBit i = false then ((modExp (↑V - ↑(co.x i 0)) co.key.d co.key.N + m i 0 : Nat) : Int)
                - ((rk i % co.key.N : Nat) : Int) else m1p - ((rk i % co.key.N : Nat) : Int)))) .done
          rw [bind_ret] at h2
          have h3 := (dual_bn' hm0).bind (f := fun _ => sendBN ((modExp (↑V - ↑(co.x i 1)) co.key.d co.key.N + m i 1 : Nat) : Int))
            (g := fun m0p => recvBN.bind fun m1p => .ret (upd (otResult m sel m0 i) i
              (if sel.testBit i = false then m0p - ((rk i % co.key.N : Nat) : Int) else m1p - ((rk i % co.key.N : Nat) : Int)))) h2
          have h4 := (Dual1.ofTake (b := ()) h1).bind (g := fun _ => recvBN.bind fun m0p => recvBN.bind fun m1p =>
            .ret (upd (otResult m sel m0 i) i
              (if sel.testBit i = false then m0p - ((rk i % co.key.N : Nat) : Int) else m1p - ((rk i % co.key.N : Nat) : Int))))
            (f := fun v =>
              (sendBN ((modExp (v - co.x i 0) co.key.d co.key.N + m i 0 : Nat) : Int)).bind fun _ =>
              sendBN ((modExp (v - co.x i 1) co.key.d co.key.N + m i 1 : Nat) : Int)) (Dual1.ofDual h3)
          rw [List.append_nil] at h4
          have e : otResult m sel m0 (i + 1) = upd (otResult m sel m0 i) i
              (if sel.testBit i = false then ((modExp (↑V - ↑(co.x i 0)) co.key.d co.key.N + m i 0 : Nat) : Int)
                - ((rk i % co.key.N : Nat) : Int)
              else ((modExp (↑V - ↑(co.x i 1)) co.key.d co.key.N + m i 1 : Nat) : Int) - ((rk i % co.key.N : Nat) : Int)) := by
            funext j
            unfold otResult upd
            by_cases hj : j = i
            · subst hj
              simp only [Nat.lt_succ_self, if_true]
              cases hb : sel.testBit j <;> rw [hb] at hk <;> simp at hk ⊢ <;> rw [hk] <;> omega
            · have e : (j < i + 1) = (j < i) := propext (by omega)
              simp [hj, e]
          rw [e]
          exact h4)
      have e0 : otResult m sel m0 0 = m0 := by funext i; simp [otResult]
      simpa only [e0] using this
    · intro i hi
      rw [bnWire_length]
      have := numBytes_mono (Nat.le_of_lt (otV_lt (fun j => (co.x i (if j = 0 then 0 else 1) : Int)) (N := co.key.N) (by omega) co.key.e
            (sel.testBit i) (rk i % co.key.N)))
      omega

/-! ## Labels -/

theorem selBN_testBit (sel : Nat → Bool) (n i : Nat) : (selBN sel n).testBit i = (decide (i < n) && sel i) := by
  unfold selBN
  induction n with
  | zero => simp [forLoop]
  | succ n ih =>
    simp only [forLoop]
    by_cases hs : sel n = true
    · rw [if_pos hs, bnSetBit_testBit, ih]
      by_cases h : i = n
      · subst h; simp [hs]
      · have e : (i < n + 1) = (i < n) := propext (by omega)
        simp [h, e]
    · rw [if_neg hs, ih]
      by_cases h : i = n
      · subst h; simp [hs]
      · have e : (i < n + 1) = (i < n) := propext (by omega)
        simp [e]

theorem numBytes_of_lt {a k : Nat} (h : a < 2 ^ (8 * k)) : numBytes a ≤ k := by
  have := numBits_le h
  unfold numBytes; omega

theorem fits_1024 {m : Nat → Nat → Nat} {mLen : Nat} {co : OTSendCoins} (hl : mLen < 2 ^ 32)
    (hN : co.key.N < 2 ^ 1024) (he : co.key.e < 2 ^ 1024) (hx : ∀ i j, co.x i j < 2 ^ 1024) {k : Nat}
    (hk : k < 2 ^ 30) (hm : ∀ i < mLen, ∀ j < 2, m i j < 2 ^ k) : OTFits m mLen co where
  len := hl
  N := Nat.lt_of_le_of_lt (numBytes_of_lt (k := 128) hN) (by omega)
  e := Nat.lt_of_le_of_lt (numBytes_of_lt (k := 128) he) (by omega)
  x := fun i _ j _ => Nat.lt_of_le_of_lt (numBytes_of_lt (k := 128) (hx i j)) (by omega)
  m := fun i hi j hj => by
    have h1 : numBits (co.key.N + m i j) ≤ 1024 + k := by
      apply numBits_le
      have h1 : co.key.N + 1 ≤ 2 ^ 1024 := hN
      have h2 : m i j + 1 ≤ 2 ^ k := hm i hi j hj
      have h3 := Nat.mul_le_mul h1 h2
      rw [← Nat.pow_add] at h3
      generalize 2 ^ (1024 + k) = W at *
      nlinarith
    unfold numBytes; omega

theorem runs_otBlock {m : Nat → Nat → Block} {mLen : Nat} {co : OTSendCoins} (hv : ValidKey co.key) (hl : mLen < 2 ^ 32)
    (hN : co.key.N < 2 ^ 1024) (he : co.key.e < 2 ^ 1024) (hx : ∀ i j, co.x i j < 2 ^ 1024)
    (sel : Nat → Bool) (rk : Nat → Nat) {cap : Nat} (hc : 0 < cap) (hcap : mLen * 132 ≤ cap) :
    ∃ r, Runs cap (otSend m mLen co) (otRecv sel mLen rk) () r ∧ ∀ i < mLen, r i = m i (if sel i then 1 else 0) := by
  have hf : OTFits (fun i j => blockToBN (m i j)) mLen co := fits_1024 hl hN he hx (k := 128) (by omega)
    (fun i _ j _ => by rw [blockToBN_eq]; exact (m i j).isLt)
  have h1 := runs_ot hv hf (selBN sel mLen) rk (fun _ => 0) hc
    (Nat.le_trans (Nat.mul_le_mul_left _ (by have := numBytes_of_lt (k := 128) hN; omega)) hcap)
  have h2 := h1.bind (f := fun _ => .ret ()) (g := fun m => .ret fun i => bnToBlock (m i).natAbs) .ret
  rw [bind_ret] at h2
  refine ⟨_, h2, ?_⟩
  intro i hi
  unfold otResult
  rw [if_pos hi, Int.natAbs_natCast, selBN_testBit]
  simp only [blockToBN_eq, bnToBlock_eq]
  simp [hi]

end TinyGarble.Proof
