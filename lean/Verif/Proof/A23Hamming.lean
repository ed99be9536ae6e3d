import Verif.Spec.A23
import Verif.Proof.A23Sort

/-! The Hamming distance. -/

namespace TinyGarble.A23
open Spec

/-- `Σ_{k < m} f (a + k)`. -/
def cnt (f : Nat → Bool) (a : Nat) : Nat → Nat
  | 0 => 0
  | m + 1 => cnt f a m + (f (a + m)).toNat

theorem cnt_add (f : Nat → Bool) (a m k : Nat) : cnt f a (m + k) = cnt f a m + cnt f (a + m) k := by
  induction k with
  | zero => rfl
  | succ k ih => rw [← Nat.add_assoc, cnt, cnt, ih, Nat.add_assoc a m k]; omega

theorem cnt_congr {f g : Nat → Bool} {a b m : Nat} (h : ∀ k < m, f (a + k) = g (b + k)) : cnt f a m = cnt g b m := by
  induction m with
  | zero => rfl
  | succ m ih => rw [cnt, cnt, ih fun k hk => h k (by omega), h m (by omega)]

theorem cnt_le (f : Nat → Bool) (a m : Nat) : cnt f a m ≤ m := by
  induction m with
  | zero => exact Nat.le_refl _
  | succ m ih =>
    rw [cnt]
    have : (f (a + m)).toNat ≤ 1 := by cases f (a + m) <;> simp
    omega

theorem ones_eq {n : Nat} (w : BitVec n) : ones w = cnt w.getLsbD 0 n := by
  unfold ones
  generalize w.getLsbD = f
  induction n with
  | zero => rfl
  | succ n ih =>
    rw [List.range_succ, List.filter_append, List.length_append, cnt, ← ih (0#n), Nat.zero_add]
    cases h : f n <;> simp [h]

theorem log2Loop_pow (l l0 : Nat) : log2Loop (2 ^ l) l0 = l0 + l := by
  induction l generalizing l0 with
  | zero => rw [log2Loop]; rfl
  | succ l ih =>
    have h : 2 ^ (l + 1) / 2 = 2 ^ l := by rw [Nat.pow_succ]; omega
    rw [log2Loop, h, if_neg (by have := Nat.two_pow_pos l; omega), ih]; omega

/-- Bit `k` of the exclusive or of two arrays. -/
def xbit (g e : List Word) (k : Nat) : Bool := ((unshare g e).getD (k / 32) 0).getLsbD (k % 32)

theorem mask_shift (v : BitVec 8) {j : Nat} (hj : j < 8) : (v &&& (1#8 <<< j)) >>> j = BitVec.ofNat 8 (v.getLsbD j).toNat := by
  apply BitVec.eq_of_getLsbD_eq
  intro m hm
  rw [BitVec.getLsbD_ushiftRight, BitVec.getLsbD_and, BitVec.getLsbD_shiftLeft]
  by_cases h : m = 0
  · subst h
    simp [hj]
    cases v[j] <;> rfl
  · have h1 : (1#8).getLsbD (j + m - j) = false := by
      rw [show j + m - j = m by omega, BitVec.getLsbD_one]; simp; omega
    rw [h1]
    cases v.getLsbD j
    · simp
    · have : (BitVec.ofNat 8 1).getLsbD m = false := by
        rw [BitVec.getLsbD_one]; simp; omega
      simpa using this.symm

theorem byteAt_eq {a : List Word} {i : Nat} (h : i < 4 * a.length) :
    ∃ x, byteAt a i = some x ∧ ∀ j < 8, x.getLsbD j = (a.getD (i / 4) 0).getLsbD (8 * (i % 4) + j) := by
  have ex : a[i / 4]? = some (a[i / 4]'(by omega)) := List.getElem?_eq_getElem _
  unfold byteAt
  rw [ex]
  refine ⟨_, rfl, fun j hj => ?_⟩
  rw [BitVec.getLsbD_setWidth, BitVec.getLsbD_ushiftRight, List.getD_eq_getElem?_getD, ex]
  simp [hj]

theorem spread {n : Nat} {g e : List Word} (hg : g.length = n) (he : e.length = n) :
    ∃ d, loop (fun i dist => loop (fun j dist => do
      let x ← byteAt g i
      let y ← byteAt e i
      store dist (i * 8 + j) (((x ^^^ y) &&& (1#8 <<< j)) >>> j)) 8 dist) (n * 4) (List.replicate (8 * n * 4) (0 : BitVec 8)) = some d
      ∧ d.length = 32 * n ∧ ∀ k < 32 * n, d[k]? = some (BitVec.ofNat 8 (xbit g e k).toNat) := by
  obtain ⟨d, h1, h2, h3⟩ := loop_inv (body := fun i dist => loop (fun j dist => do
      let x ← byteAt g i
      let y ← byteAt e i
      store dist (i * 8 + j) (((x ^^^ y) &&& (1#8 <<< j)) >>> j)) 8 dist) (fun i (d : List (BitVec 8)) => d.length = 32 * n
        ∧ ∀ k < i * 8, d[k]? = some (BitVec.ofNat 8 (xbit g e k).toNat)) (n := n * 4) (s := List.replicate (8 * n * 4) (0 : BitVec 8))
    ⟨by simp; omega, fun k h => by omega⟩ (by
      intro i hi d ⟨hd, hk⟩
      obtain ⟨x, hx, hx'⟩ := byteAt_eq (a := g) (i := i) (by omega)
      obtain ⟨y, hy, hy'⟩ := byteAt_eq (a := e) (i := i) (by omega)
      simp only [hx, hy, Option.bind_eq_bind, Option.bind_some]
      obtain ⟨d', e1, e2, e3⟩ := loop_inv (body := fun j dist => store dist (i * 8 + j) (((x ^^^ y) &&& (1#8 <<< j)) >>> j))
        (fun j (d : List (BitVec 8)) => d.length = 32 * n
        ∧ ∀ k < i * 8 + j, d[k]? = some (BitVec.ofNat 8 (xbit g e k).toNat)) (n := 8) (s := d) ⟨hd, hk⟩ (by
          intro j hj d ⟨hd, hk⟩
          refine ⟨_, store_lt (by omega), by simpa using hd, fun k hk' => ?_⟩
          rw [List.getElem?_set]
          by_cases h : i * 8 + j = k
          · subst h
            rw [if_pos rfl, if_pos (by omega), mask_shift _ hj, BitVec.getLsbD_xor, hx' j hj, hy' j hj]
            congr 3
            unfold xbit unshare
            rw [show (i * 8 + j) / 32 = i / 4 by omega, show (i * 8 + j) % 32 = 8 * (i % 4) + j by omega]
            have h1 : g[i / 4]? = some (g[i / 4]'(by omega)) := List.getElem?_eq_getElem _
            have h2 : e[i / 4]? = some (e[i / 4]'(by omega)) := List.getElem?_eq_getElem _
            simp only [List.getD_eq_getElem?_getD, List.getElem?_zipWith, h1, h2, Option.getD_some]
            rw [BitVec.getLsbD_xor]
          · rw [if_neg h]; exact hk k (by omega))
      exact ⟨d', e1, e2, fun k hk => e3 k (by omega)⟩)
  exact ⟨d, h1, h2, fun k hk => h3 k (by omega)⟩

theorem fold_level {f : Nat → Bool} {N s p : Nat} {d : List (BitVec 8)} (hN : 2 * p ≤ N) (hd : d.length = N)
    (h : ∀ k < 2 * p, d[k]? = some (BitVec.ofNat 8 (cnt f (k * s) s))) :
    ∃ d', loop (fun i dist => do
      let x ← dist[2 * i]?
      let y ← dist[2 * i + 1]?
      store dist i (x + y)) p d = some d' ∧ d'.length = N ∧ ∀ k < p, d'[k]? = some (BitVec.ofNat 8 (cnt f (k * (2 * s)) (2 * s))) := by
  obtain ⟨d', h1, h2, h3, -⟩ := loop_inv (body := fun i (dist : List (BitVec 8)) => do
      let x ← dist[2 * i]?
      let y ← dist[2 * i + 1]?
      store dist i (x + y)) (fun i (d : List (BitVec 8)) => d.length = N
        ∧ (∀ k < i, d[k]? = some (BitVec.ofNat 8 (cnt f (k * (2 * s)) (2 * s))))
        ∧ ∀ k, i ≤ k → k < 2 * p → d[k]? = some (BitVec.ofNat 8 (cnt f (k * s) s))) (n := p) (s := d)
      ⟨hd, fun _ h => by omega, fun k _ hk => h k hk⟩ (by
        intro i hi d ⟨a1, a2, a3⟩
        have hx := a3 (2 * i) (by omega) (by omega)
        have hy := a3 (2 * i + 1) (by omega) (by omega)
        simp only [hx, hy, Option.bind_eq_bind, Option.bind_some]
        refine ⟨_, store_lt (by omega), by simpa using a1, fun k hk => ?_, fun k hk hk' => ?_⟩
        · rw [List.getElem?_set]
          by_cases h : i = k
          · subst h
            rw [if_pos rfl, if_pos (by omega), ← BitVec.ofNat_add, Nat.two_mul s, cnt_add]
            rw [show i * (s + s) = 2 * i * s by rw [← Nat.two_mul, ← Nat.mul_assoc, Nat.mul_comm i 2],
              show (2 * i + 1) * s = 2 * i * s + s by rw [Nat.add_mul, Nat.one_mul]]
          · rw [if_neg h]; exact a2 k (by omega)
        · rw [List.getElem?_set, if_neg (by omega)]; exact a3 k (by omega) hk')
  exact ⟨d', h1, h2, h3⟩

theorem words_cnt {g e : List Word} (h : e.length = g.length) : distance g e = cnt (xbit g e) 0 (32 * g.length) := by
  have hu : (unshare g e).length = g.length := by simp [unshare, h]
  unfold distance xbit
  rw [← hu]
  generalize unshare g e = ws
  have : ∀ m ≤ ws.length, ((ws.take m).map ones).sum = cnt (fun k => (ws.getD (k / 32) 0).getLsbD (k % 32)) 0 (32 * m) := by
    intro m
    induction m with
    | zero => intro _; simp [cnt]
    | succ m ih =>
      intro hm
      rw [List.take_succ_eq_append_getElem (by omega), List.map_append, List.sum_append, ih (by omega), Nat.mul_add, cnt_add]
      congr 1
      rw [List.map_singleton, List.sum_singleton, ones_eq]
      refine cnt_congr fun k hk => ?_
      rw [show (0 + 32 * m + k) / 32 = m by omega, show (0 + 32 * m + k) % 32 = k by omega, Nat.zero_add]
      rw [List.getD_eq_getElem?_getD, List.getElem?_eq_getElem (show m < ws.length by omega), Option.getD_some]
  have := this ws.length (Nat.le_refl _)
  rwa [List.take_length] at this

theorem hammingMain_eq {n l : Nat} {g e o0 : List Word} (hn : 32 * n = 2 ^ l) (hg : g.length = n) (he : e.length = n)
    (ho : 0 < o0.length) : hammingMain n g e o0 = some (o0.set 0 (BitVec.ofNat 32 (distance g e % 256))) := by
  obtain ⟨d0, a1, a2, a3⟩ := spread hg he
  have hl : log2Loop (8 * n * 4) 0 = l := by
    rw [show 8 * n * 4 = 2 ^ l by omega, log2Loop_pow]; omega
  obtain ⟨d, b1, b2, b3⟩ := loop_inv (body := fun t dist => loop (fun i dist => do
      let x ← dist[2 * i]?
      let y ← dist[2 * i + 1]?
      store dist i (x + y)) (2 ^ (l - 1 - t)) dist) (fun t (d : List (BitVec 8)) => d.length = 32 * n
      ∧ ∀ k < 2 ^ (l - t), d[k]? = some (BitVec.ofNat 8 (cnt (xbit g e) (k * 2 ^ t) (2 ^ t)))) (n := l) (s := d0)
    ⟨a2, fun k hk => by rw [a3 k (by rw [hn]; exact hk)]; simp [cnt]⟩ (by
      intro t ht d ⟨c1, c2⟩
      have e1 : 2 ^ (l - t) = 2 * 2 ^ (l - 1 - t) := by rw [show l - t = l - 1 - t + 1 by omega, Nat.pow_succ]; omega
      obtain ⟨d', f1, f2, f3⟩ := fold_level (f := xbit g e) (N := 32 * n) (s := 2 ^ t) (p := 2 ^ (l - 1 - t)) (d := d)
        (by rw [← e1, hn]; exact Nat.pow_le_pow_right (by omega) (by omega)) c1 (by rw [← e1]; exact c2)
      refine ⟨d', f1, f2, fun k hk => ?_⟩
      rw [show 2 ^ (t + 1) = 2 * 2 ^ t by rw [Nat.pow_succ]; omega]
      exact f3 k (by rwa [show l - 1 - t = l - (t + 1) by omega]))
  have hd := b3 0 (by simp)
  rw [Nat.zero_mul, ← hn, ← hg, ← words_cnt (by omega)] at hd
  unfold hammingMain
  rw [a1, Option.bind_eq_bind, Option.bind_some, hl]
  dsimp only
  rw [b1, Option.bind_eq_bind, Option.bind_some, hd, Option.bind_some, store_lt ho]
  congr 2
  apply BitVec.eq_of_toNat_eq
  rw [BitVec.toNat_setWidth, BitVec.toNat_ofNat, BitVec.toNat_ofNat]

end TinyGarble.A23
