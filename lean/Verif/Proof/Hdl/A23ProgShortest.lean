import Verif.Proof.Hdl.A23ProgRounds

/-! # The rounds of the program dijkstra are those of the C program -/

namespace TinyGarble.Proof.Hdl.A23.Sym.Dijkstra

open TinyGarble.Spec.Arm
open TinyGarble.A23
open TinyGarble.Spec (entry Shortest FitsInt)

theorem minDistance_nearest (d p : Nat → BitVec 32) (u : Nat) (h : minDistance 8 (tab 8 d) (tab 8 p) = some u) : nearest d p = u := by
  obtain ⟨⟨mn, idx⟩, h1, h2⟩ := loop_inv (body := fun v (s : Word × Option Nat) => do
    let d ← (tab 8 d)[v]?
    let p ← (tab 8 p)[v]?
    if p = 0 ∧ d.sle s.1 then some (d, some v) else some s)
    (fun k s => (pick d p 0 k).1 = s.1 ∧ ∀ u, s.2 = some u → u < k ∧ (pick d p 0 k).2 = at' u) (n := 8) (s := (INT_MAX, none))
    ⟨rfl, fun u hu => by cases hu⟩ (by
      rintro k hk ⟨mn, idx⟩ ⟨hP, hQ⟩
      simp only [tab_get _ hk, Option.bind_eq_bind, Option.bind_some]
      simp only at hP hQ
      simp only [pick, hP]
      by_cases hc : p k = 0 ∧ (d k).sle mn
      · rw [if_pos hc, if_pos ⟨hc.1, BitVec.sle_iff_toInt_le.1 hc.2⟩]
        exact ⟨_, rfl, rfl, fun u hu => by cases hu; exact ⟨by omega, rfl⟩⟩
      · rw [if_neg hc, if_neg (fun h => hc ⟨h.1, BitVec.sle_iff_toInt_le.2 h.2⟩)]
        exact ⟨_, rfl, hP, fun u hu => ⟨by have := (hQ u hu).1; omega, (hQ u hu).2⟩⟩)
  unfold minDistance at h
  rw [h1] at h
  have := h2.2 u h
  unfold nearest
  rw [this.2]
  show u % 2 ^ 32 = u
  omega

theorem relax_tab (G p d d' : Nat → BitVec 32) (u v : Nat) (hu : u < 8) (hv : v < 8) (l : List (BitVec 32)) (h : relax 8 (tab 64 G) (tab 8 p) u v (tab 8 d) = some l) :
    l = tab 8 (relax1 G p u v d) := by
  unfold relax at h
  rw [tab_get d hu, tab_get d hv, tab_get p hv, tab_get G (show u * 8 + v < 64 by omega), Nat.mul_comm u 8] at h
  simp only [Option.bind_eq_bind, Option.bind_some, Option.bind_eq_some_iff] at h
  obtain ⟨a, ha, h⟩ := h
  have ha' : a = d u + G (8 * u + v) := by
    unfold addS at ha
    split at ha
    · cases ha
    · exact (Option.some.inj ha).symm
  have hmax : INT_MAX = 0x7fff := rfl
  rw [hmax] at h
  subst ha'
  have hget : ∀ i < 8, (tab 8 (relax1 G p u v d))[i]? = some (relax1 G p u v d i) := fun i hi => tab_get _ hi
  by_cases hc : (d u + G (8 * u + v)).slt (d v) ∧ p v = 0 ∧ G (8 * u + v) ≠ 0 ∧ d u ≠ 0x7fff
  · rw [if_pos hc, store_lt (by rw [tab_length]; exact hv)] at h
    cases h
    apply List.ext_getElem?
    intro i
    rw [List.getElem?_set, tab_length]
    by_cases hi : i < 8
    · rw [hget i hi, tab_get d hi, relax1]
      by_cases hiv : i = v
      · rw [if_pos hiv.symm, if_pos (by omega), if_pos ⟨hiv, hc.2.1, hc.2.2.2, hc.2.2.1, BitVec.slt_iff_toInt_lt.1 hc.1⟩]
      · rw [if_neg (fun e => hiv e.symm), if_neg (fun e => hiv e.1)]
    · rw [if_neg (by omega), List.getElem?_eq_none (by rw [tab_length]; omega), List.getElem?_eq_none (by rw [tab_length]; omega)]
  · rw [if_neg hc] at h
    cases h
    apply congrArg
    funext i
    rw [relax1, if_neg]
    exact fun e => hc ⟨BitVec.slt_iff_toInt_lt.2 e.2.2.2.2, e.2.1, e.2.2.2.1, e.2.2.1⟩

theorem relaxAll_tab (G p d : Nat → BitVec 32) (u : Nat) (hu : u < 8) (n : Nat) (hn : n ≤ 8) (l : List (BitVec 32))
    (h : loop (fun v dist => relax 8 (tab 64 G) (tab 8 p) u v dist) n (tab 8 d) = some l) : l = tab 8 (relaxAll G p u d n) := by
  induction n generalizing l with
  | zero => exact (Option.some.inj h).symm
  | succ n ih =>
    rw [loop, Option.bind_eq_bind, Option.bind_eq_some_iff] at h
    obtain ⟨l1, h1, h2⟩ := h
    rw [ih (by omega) l1 h1] at h2
    exact relax_tab G p _ d u n hu (by omega) l h2

theorem round_inv (G d p : Nat → BitVec 32) (t : Nat) (ht : t < 7)
    (hw : ∀ u < 8, ∀ v < 8, 0 ≤ entry 8 (tab 64 G) u v ∧ entry 8 (tab 64 G) u v ≤ 2 ^ 31 - 1 - 32767)
    (I : DInv 8 (tab 64 G) t (tab 8 d) (tab 8 p)) : DInv 8 (tab 64 G) (t + 1) (tab 8 (round G (d, p)).1) (tab 8 (round G (d, p)).2) := by
  obtain ⟨u, d', h1, h2, h3, h4⟩ := I.step (by omega) (by rw [tab_length]) hw
  rw [tab_length] at h2
  rw [← tab_setMark] at h3 h4
  rw [relaxAll_tab G _ d u h2 8 (Nat.le_refl _) d' h3] at h4
  unfold round
  rw [minDistance_nearest d p u h1]
  exact h4

theorem rounds_shortest (G : Nat → BitVec 32)
    (hw : ∀ u < 8, ∀ v < 8, 0 ≤ entry 8 (tab 64 G) u v ∧ entry 8 (tab 64 G) u v ≤ 2 ^ 31 - 1 - 32767) (v : Nat) (hv : v < 8) :
    Shortest 8 (entry 8 (tab 64 G)) 32767 0 v ((rounds G 7).1 v).toInt := by
  have I : ∀ t ≤ 7, DInv 8 (tab 64 G) t (tab 8 (rounds G t).1) (tab 8 (rounds G t).2) := by
    intro t
    induction t with
    | zero =>
      intro _
      have e1 : tab 8 (rounds G 0).1 = (List.replicate 8 INT_MAX).set 0 0 := by show tab 8 dist0 = _; decide
      have e2 : tab 8 (rounds G 0).2 = List.replicate 8 0 := by show tab 8 mark0 = _; decide
      rw [e1, e2]
      exact DInv.init 8 (tab 64 G) (by omega)
    | succ t ih => intro ht; exact round_inv G _ _ t (by omega) hw (ih (by omega))
  have := (I 7 (Nat.le_refl _)).shortest (by omega) hw hv
  rwa [val, List.getD_eq_getElem?_getD, tab_get _ hv, Option.getD_some] at this

end TinyGarble.Proof.Hdl.A23.Sym.Dijkstra
