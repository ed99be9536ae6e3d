import Verif.Proof.A23Matrix

/-! Shortest paths. -/

namespace TinyGarble.A23
open Spec

/-- `v` is not yet in the tree. -/
def Open (spt : List Word) (v : Nat) : Prop := spt[v]? = some 0

theorem val_some {a : List Word} {i : Nat} (h : i < a.length) : ∃ x, a[i]? = some x ∧ x.toInt = val a i :=
  ⟨_, List.getElem?_eq_getElem h, val_getElem h⟩

theorem minDistance_spec {n : Nat} {dist spt : List Word} (hd : dist.length = n) (hs : spt.length = n)
    (hm : ∀ v < n, val dist v ≤ 32767) (hex : ∃ v < n, Open spt v) :
    ∃ u, minDistance n dist spt = some u ∧ u < n ∧ Open spt u ∧ ∀ v < n, Open spt v → val dist u ≤ val dist v := by
  obtain ⟨⟨mn, idx⟩, h1, h2⟩ := loop_inv (body := fun v (s : Word × Option Nat) => do
    let d ← dist[v]?
    let p ← spt[v]?
    if p = 0 ∧ d.sle s.1 then some (d, some v) else some s)
    (fun k s => match s.2 with
      | none => s.1 = INT_MAX ∧ ∀ v < k, ¬ Open spt v
      | some u => u < k ∧ Open spt u ∧ s.1.toInt = val dist u ∧ ∀ v < k, Open spt v → val dist u ≤ val dist v)
    (n := n) (s := (INT_MAX, none)) ⟨rfl, fun v h => by omega⟩ (by
      rintro k hk ⟨mn, idx⟩ hP
      obtain ⟨d, e1, d1⟩ := val_some (a := dist) (i := k) (by omega)
      obtain ⟨p, e2, -⟩ := val_some (a := spt) (i := k) (by omega)
      have hmk := hm k hk
      simp only [e1, e2, Option.bind_eq_bind, Option.bind_some]
      by_cases hp : p = 0
      · subst hp
        have hok : Open spt k := e2
        by_cases hle : d.sle mn
        · rw [if_pos ⟨rfl, hle⟩]
          refine ⟨_, rfl, ?_⟩
          show k < k + 1 ∧ Open spt k ∧ d.toInt = val dist k ∧ ∀ v < k + 1, Open spt v → val dist k ≤ val dist v
          refine ⟨by omega, hok, d1, fun v hv ho => ?_⟩
          rcases Nat.eq_or_lt_of_le (Nat.le_of_lt_succ hv) with rfl | hv
          · exact Int.le_refl _
          · rw [BitVec.sle_iff_toInt_le] at hle
            cases idx with
            | none => exact absurd ho (hP.2 v hv)
            | some u =>
              obtain ⟨-, -, p3, p4⟩ := hP
              have := p4 v hv ho
              simp only at p3
              omega
        · rw [if_neg (fun h => hle h.2)]
          refine ⟨_, rfl, ?_⟩
          rw [BitVec.sle_iff_toInt_le] at hle
          cases idx with
          | none =>
            obtain ⟨p1, -⟩ := hP
            simp only at p1
            subst p1
            exfalso
            have : INT_MAX.toInt = 32767 := by decide
            omega
          | some u =>
            obtain ⟨p1, p2, p3, p4⟩ := hP
            refine ⟨by omega, p2, p3, fun v hv ho => ?_⟩
            rcases Nat.eq_or_lt_of_le (Nat.le_of_lt_succ hv) with rfl | hv
            · simp only at p3
              omega
            · exact p4 v hv ho
      · rw [if_neg (fun h => hp h.1)]
        have hno : ¬ Open spt k := fun h => by
          unfold Open at h
          rw [e2] at h
          exact hp (Option.some.inj h)
        refine ⟨_, rfl, ?_⟩
        cases idx with
        | none =>
          refine ⟨hP.1, fun v hv => ?_⟩
          rcases Nat.eq_or_lt_of_le (Nat.le_of_lt_succ hv) with rfl | hv
          · exact hno
          · exact hP.2 v hv
        | some u =>
          obtain ⟨p1, p2, p3, p4⟩ := hP
          refine ⟨by omega, p2, p3, fun v hv ho => ?_⟩
          rcases Nat.eq_or_lt_of_le (Nat.le_of_lt_succ hv) with rfl | hv
          · exact absurd ho hno
          · exact p4 v hv ho)
  unfold minDistance
  rw [h1]
  cases idx with
  | none => obtain ⟨v, hv, ho⟩ := hex; exact absurd ho (h2.2 v hv)
  | some u =>
    obtain ⟨p1, p2, p3, p4⟩ := h2
    exact ⟨u, rfl, p1, p2, p4⟩

theorem relax_spec {n : Nat} {graph dist spt : List Word} {u v : Nat} (hg : graph.length = n * n) (hd : dist.length = n)
    (hs : spt.length = n) (hu : u < n) (hv : v < n) (hm : 0 ≤ val dist u ∧ val dist u ≤ 32767)
    (hw : 0 ≤ entry n graph u v ∧ entry n graph u v ≤ 2 ^ 31 - 1 - 32767) :
    ∃ d', relax n graph spt u v dist = some d' ∧ d'.length = n ∧ (∀ x, x ≠ v → val d' x = val dist x)
      ∧ ((val dist u + entry n graph u v < val dist v ∧ Open spt v ∧ entry n graph u v ≠ 0 ∧ val dist u ≠ 32767)
            ∧ val d' v = val dist u + entry n graph u v
          ∨ ¬ (val dist u + entry n graph u v < val dist v ∧ Open spt v ∧ entry n graph u v ≠ 0 ∧ val dist u ≠ 32767)
            ∧ val d' v = val dist v) := by
  classical
  obtain ⟨du, e1, d1⟩ := val_some (a := dist) (i := u) (by omega)
  obtain ⟨dv, e2, d2⟩ := val_some (a := dist) (i := v) (by omega)
  obtain ⟨p, e3, -⟩ := val_some (a := spt) (i := v) (by omega)
  have huv := index_lt hu hv
  obtain ⟨w, e4, -⟩ := val_some (a := graph) (i := u * n + v) (by omega)
  have d4 : w.toInt = entry n graph u v := by
    unfold entry; rw [List.getD_eq_getElem?_getD, e4]; rfl
  have hfit : FitsInt (du.toInt + w.toInt) := by unfold FitsInt; omega
  have hsum : (BitVec.ofInt 32 (du.toInt + w.toInt)).toInt = du.toInt + w.toInt := ofInt_fits hfit
  have hopen : Open spt v ↔ p = 0 := by
    unfold Open; rw [e3]; exact ⟨Option.some.inj, fun h => by rw [h]⟩
  have hw0 : w ≠ 0 ↔ entry n graph u v ≠ 0 := by
    rw [← d4]
    exact not_congr ⟨fun h => by rw [h]; rfl, fun h => BitVec.eq_of_toInt_eq (by rw [h]; rfl)⟩
  have hmax : du ≠ INT_MAX ↔ val dist u ≠ 32767 := by
    rw [← d1]
    exact not_congr ⟨fun h => by rw [h]; rfl, fun h => BitVec.eq_of_toInt_eq (by rw [h]; rfl)⟩
  unfold relax
  simp only [e1, e2, e3, e4, addS_eq, if_pos hfit, Option.bind_eq_bind, Option.bind_some]
  have hcond : ((BitVec.ofInt 32 (du.toInt + w.toInt)).slt dv = true ∧ p = 0 ∧ w ≠ 0 ∧ du ≠ INT_MAX) ↔
      (val dist u + entry n graph u v < val dist v ∧ Open spt v ∧ entry n graph u v ≠ 0 ∧ val dist u ≠ 32767) := by
    rw [BitVec.slt_iff_toInt_lt, hsum, hw0, hmax, ← hopen, d1, d2, d4]
  by_cases hc : val dist u + entry n graph u v < val dist v ∧ Open spt v ∧ entry n graph u v ≠ 0 ∧ val dist u ≠ 32767
  · rw [if_pos (hcond.mpr hc), d1, d4]
    have hset := fun x => val_set (a := dist) (i := v) (j := x) (x := BitVec.ofInt 32 (val dist u + entry n graph u v)) (by omega)
    refine ⟨_, store_lt (by omega), by simpa using hd, fun x hx => ?_, Or.inl ⟨hc, ?_⟩⟩
    · rw [hset, if_neg (fun h => hx h.symm)]
    · rw [hset, if_pos rfl, ← d1, ← d4, hsum]
  · rw [if_neg (fun h => hc (hcond.mp h))]
    exact ⟨_, rfl, hd, fun _ _ => rfl, Or.inr ⟨hc, rfl⟩⟩

theorem relaxLoop_spec {n : Nat} {graph dist spt : List Word} {u : Nat} (hg : graph.length = n * n) (hd : dist.length = n)
    (hs : spt.length = n) (hu : u < n) (hcl : ¬ Open spt u) (hm : 0 ≤ val dist u ∧ val dist u ≤ 32767)
    (hw : ∀ v < n, 0 ≤ entry n graph u v ∧ entry n graph u v ≤ 2 ^ 31 - 1 - 32767) :
    ∃ d', loop (fun v dist => relax n graph spt u v dist) n dist = some d' ∧ d'.length = n
      ∧ ∀ v < n, ((val dist u + entry n graph u v < val dist v ∧ Open spt v ∧ entry n graph u v ≠ 0 ∧ val dist u ≠ 32767)
            ∧ val d' v = val dist u + entry n graph u v
          ∨ ¬ (val dist u + entry n graph u v < val dist v ∧ Open spt v ∧ entry n graph u v ≠ 0 ∧ val dist u ≠ 32767)
            ∧ val d' v = val dist v) := by
  obtain ⟨d', h1, h2, h3, -, -⟩ := loop_inv (body := fun v dist => relax n graph spt u v dist)
    (fun k (d' : List Word) => d'.length = n
      ∧ (∀ v < k, ((val dist u + entry n graph u v < val dist v ∧ Open spt v ∧ entry n graph u v ≠ 0 ∧ val dist u ≠ 32767)
            ∧ val d' v = val dist u + entry n graph u v
          ∨ ¬ (val dist u + entry n graph u v < val dist v ∧ Open spt v ∧ entry n graph u v ≠ 0 ∧ val dist u ≠ 32767)
            ∧ val d' v = val dist v))
      ∧ (∀ v, k ≤ v → val d' v = val dist v) ∧ val d' u = val dist u) (n := n) (s := dist)
    ⟨hd, fun _ h => by omega, fun _ _ => rfl, rfl⟩ (by
      intro k hk d1 ⟨l1, p1, q1, r1⟩
      obtain ⟨d2, e2, l2, s2, c2⟩ := relax_spec (v := k) hg l1 hs hu hk (by rw [r1]; exact hm) (hw k hk)
      rw [r1, q1 k (Nat.le_refl _)] at c2
      refine ⟨d2, e2, l2, ?_, ?_, ?_⟩
      · intro v hv
        rcases Nat.eq_or_lt_of_le (Nat.le_of_lt_succ hv) with rfl | hv
        · exact c2
        · rw [s2 v (by omega)]; exact p1 v hv
      · intro v hv
        rw [s2 v (by omega)]; exact q1 v (by omega)
      · by_cases h : u = k
        · subst h
          rcases c2 with ⟨c, -⟩ | ⟨-, c⟩
          · exact absurd c.2.1 hcl
          · exact c
        · rw [s2 u h]; exact r1)
  exact ⟨d', h1, h2, h3⟩

/-- The invariant of the main loop. -/
structure DInv (n : Nat) (graph : List Word) (c : Nat) (dist spt : List Word) : Prop where
  dlen : dist.length = n
  slen : spt.length = n
  count : spt.count 0 + c = n
  range : ∀ v < n, 0 ≤ val dist v ∧ val dist v ≤ 32767
  walk : ∀ v < n, val dist v = 32767 ∨ Walk n (entry n graph) 0 v (val dist v)
  src : val dist 0 = 0
  edge : ∀ u < n, ∀ v < n, ¬ Open spt u → entry n graph u v ≠ 0 → val dist u ≠ 32767 → val dist v ≤ val dist u + entry n graph u v
  closed : ∀ u < n, ∀ v < n, ¬ Open spt u → Open spt v → val dist u ≤ val dist v

theorem open_of_count {spt : List Word} (h : 0 < spt.count 0) : ∃ v < spt.length, Open spt v := by
  have := List.count_pos_iff.mp h
  obtain ⟨i, hi, he⟩ := List.getElem_of_mem this
  exact ⟨i, hi, by unfold Open; rw [List.getElem?_eq_getElem hi, he]⟩

theorem open_set {spt : List Word} {u v : Nat} (hu : u < spt.length) : Open (spt.set u 1) v ↔ u ≠ v ∧ Open spt v := by
  unfold Open
  rw [List.getElem?_set]
  by_cases h : u = v
  · subst h
    rw [if_pos rfl, if_pos hu]
    simp
  · rw [if_neg h]; simp [h]

theorem count_close {spt : List Word} {u : Nat} (hu : u < spt.length) (ho : Open spt u) :
    (spt.set u 1).count 0 + 1 = spt.count 0 := by
  have he : spt[u] = 0 := by
    unfold Open at ho
    rw [List.getElem?_eq_getElem hu] at ho
    exact Option.some.inj ho
  have hpos : 0 < spt.count 0 := List.count_pos_iff.mpr (he ▸ List.getElem_mem hu)
  rw [List.count_set hu, he]
  rw [if_pos (by decide), if_neg (by decide)]
  omega

theorem DInv.step {n : Nat} {graph : List Word} {c : Nat} {dist spt : List Word} (I : DInv n graph c dist spt) (hc : c < n)
    (hg : graph.length = n * n)
    (hw : ∀ u < n, ∀ v < n, 0 ≤ entry n graph u v ∧ entry n graph u v ≤ 2 ^ 31 - 1 - 32767) :
    ∃ u dist', minDistance n dist spt = some u ∧ u < spt.length
      ∧ loop (fun v dist => relax n graph (spt.set u 1) u v dist) n dist = some dist' ∧ DInv n graph (c + 1) dist' (spt.set u 1) := by
  have hcnt := I.count
  obtain ⟨v0, hv0, ho0⟩ := open_of_count (spt := spt) (by omega)
  obtain ⟨u, hmin, hu, hou, hle⟩ := minDistance_spec I.dlen I.slen (fun v hv => (I.range v hv).2) ⟨v0, by rw [← I.slen]; exact hv0, ho0⟩
  have hus : u < spt.length := by rw [I.slen]; exact hu
  have hos := fun v => open_set (v := v) hus
  obtain ⟨d', hd', hl, hn⟩ := relaxLoop_spec (graph := graph) (dist := dist) (spt := spt.set u 1) (u := u) hg I.dlen
    (by simpa using I.slen) hu (fun h => ((hos u).mp h).1 rfl) (I.range u hu) (hw u hu)
  have hru := I.range u hu
  -- distances only decrease, and closed vertices keep theirs
  have hdec : ∀ v < n, val d' v ≤ val dist v := by
    intro v hv
    rcases hn v hv with ⟨c, e⟩ | ⟨-, e⟩ <;> omega
  have hkeep : ∀ v < n, ¬ Open (spt.set u 1) v → val d' v = val dist v := by
    intro v hv ho
    rcases hn v hv with ⟨c, -⟩ | ⟨-, e⟩
    · exact absurd c.2.1 ho
    · exact e
  have hlow : ∀ v < n, Open spt v → val dist u ≤ val d' v := by
    intro v hv ho
    have := hle v hv ho
    have := hw u hu v hv
    rcases hn v hv with ⟨c, e⟩ | ⟨-, e⟩ <;> omega
  refine ⟨u, d', hmin, hus, hd', hl, by simpa using I.slen, by have := count_close hus hou; omega, ?_, ?_, ?_, ?_, ?_⟩
  · intro v hv
    have h1 := I.range v hv
    have h2 := hw u hu v hv
    rcases hn v hv with ⟨c, e⟩ | ⟨-, e⟩ <;> omega
  · intro v hv
    rcases hn v hv with ⟨⟨-, -, c3, c4⟩, e⟩ | ⟨-, e⟩
    · right
      rw [e]
      rcases I.walk u hu with h | h
      · exact absurd h c4
      · exact Walk.snoc h hv c3
    · rw [e]; exact I.walk v hv
  · have h0 : 0 < n := by omega
    have h1 := I.src
    have h2 := hdec 0 h0
    have h3 := hw u hu 0 h0
    rcases hn 0 h0 with ⟨c, e⟩ | ⟨-, e⟩ <;> omega
  · intro x hx v hv hox hne hmx
    have hxk := hkeep x hx hox
    have hdv := hdec v hv
    rw [hxk] at hmx ⊢
    by_cases hxu : x = u
    · subst hxu
      rcases hn v hv with ⟨c, e⟩ | ⟨c, e⟩
      · omega
      · by_cases hov : Open (spt.set x 1) v
        · have : ¬ (val dist x + entry n graph x v < val dist v) := fun h => c ⟨h, hov, hne, hmx⟩
          omega
        · have h2 := hw x hu v hv
          by_cases hxv : x = v
          · subst hxv; omega
          · have : ¬ Open spt v := fun h => hov ((hos v).mpr ⟨hxv, h⟩)
            have := I.closed v hv x hu this hou
            omega
    · have hox' : ¬ Open spt x := fun h => hox ((hos x).mpr ⟨fun h => hxu h.symm, h⟩)
      have := I.edge x hx v hv hox' hne hmx
      omega
  · intro x hx v hv hox hov
    rw [hkeep x hx hox]
    obtain ⟨huv, hov'⟩ := (hos v).mp hov
    have h1 := hlow v hv hov'
    by_cases hxu : x = u
    · subst hxu; exact h1
    · have hox' : ¬ Open spt x := fun h => hox ((hos x).mpr ⟨fun h => hxu h.symm, h⟩)
      have := I.closed x hx u hu hox' hou
      omega

theorem walk_bounds {n : Nat} {w : Nat → Nat → Int} {u v : Nat} {d : Int} (h : Walk n w u v d) : u < n ∧ v < n := by
  induction h with
  | nil h => exact ⟨h, h⟩
  | snoc h hx _ ih => exact ⟨ih.1, hx⟩

theorem DInv.shortest {n : Nat} {graph : List Word} {dist spt : List Word} (I : DInv n graph (n - 1) dist spt) (hn : 0 < n)
    (hw : ∀ u < n, ∀ v < n, 0 ≤ entry n graph u v ∧ entry n graph u v ≤ 2 ^ 31 - 1 - 32767) {v : Nat} (hv : v < n) :
    Shortest n (entry n graph) 32767 0 v (val dist v) := by
  have hcnt := I.count
  have huniq : ∀ a < n, ∀ b < n, Open spt a → Open spt b → a = b := by
    intro a ha b hb oa ob
    rcases Nat.decEq a b with hne | he
    · exfalso
      have hal : a < spt.length := by rw [I.slen]; exact ha
      have h1 := count_close hal oa
      have h2 : Open (spt.set a 1) b := (open_set hal).mpr ⟨hne, ob⟩
      have h3 : 0 < (spt.set a 1).count 0 := List.count_pos_iff.mpr (List.mem_of_getElem? h2)
      omega
    · exact he
  have hlow : ∀ {s x : Nat} {d : Int}, Walk n (entry n graph) s x d → s = 0 → val dist x ≤ d := by
    intro s x d h
    induction h with
    | nil h => intro hs; subst hs; rw [I.src]; exact Int.le_refl _
    | snoc h hx hne ih =>
      rename_i v x d
      intro hs
      have h1 := ih hs
      have hv := (walk_bounds h).2
      have h2 := hw v hv x hx
      have h3 := I.range x hx
      by_cases hov : Open spt v
      · by_cases hox : Open spt x
        · have := huniq v hv x hx hov hox
          subst this
          omega
        · have := I.closed x hx v hv hox hov
          omega
      · by_cases hmx : val dist v = 32767
        · omega
        · have := I.edge v hv x hx hov hne hmx
          omega
  have hr := I.range v hv
  refine ⟨fun d' h => hlow h rfl, ?_⟩
  rcases I.walk v hv with h | h
  · exact Or.inl h
  · by_cases he : val dist v = 32767
    · exact Or.inl he
    · exact Or.inr ⟨by omega, h⟩

theorem init_spec {n : Nat} {o0 : List Word} (ho : o0.length = n) :
    loop (fun i (s : List Word × List Word) => do
      let d ← store s.1 i INT_MAX
      let p ← store s.2 i 0
      some (d, p)) n (o0, List.replicate n 0) = some (List.replicate n INT_MAX, List.replicate n 0) := by
  obtain ⟨⟨d, p⟩, h1, h2, h3, h4⟩ := loop_inv (body := fun i (s : List Word × List Word) => do
      let d ← store s.1 i INT_MAX
      let p ← store s.2 i 0
      some (d, p)) (fun k s => s.1.length = n ∧ (∀ i < k, s.1[i]? = some INT_MAX) ∧ s.2 = List.replicate n 0) (n := n)
    (s := (o0, List.replicate n 0)) ⟨ho, fun _ h => by omega, rfl⟩ (by
      rintro k hk ⟨d, p⟩ ⟨h1, h2, h3⟩
      simp only at h1 h2 h3
      subst h3
      simp only [store_lt (show k < d.length by omega), store_lt (show k < (List.replicate n (0 : Word)).length by simpa using hk),
        Option.bind_eq_bind, Option.bind_some]
      refine ⟨_, rfl, by simpa using h1, fun i hi => ?_, ?_⟩
      · simp only [List.getElem?_set]
        by_cases h : k = i
        · rw [if_pos h, if_pos (by omega)]
        · rw [if_neg h]; exact h2 i (by omega)
      · simp)
  rw [h1]
  simp only at h2 h3 h4
  subst h4
  congr 2
  apply List.ext_getElem?
  intro i
  by_cases hi : i < n
  · rw [h3 i hi]; simp [hi]
  · rw [List.getElem?_eq_none (by omega), List.getElem?_eq_none (by simp; omega)]

theorem val_replicate {n : Nat} {x : Word} {i : Nat} (h : i < n) : val (List.replicate n x) i = x.toInt := by
  unfold val; rw [List.getD_eq_getElem?_getD]; simp [h]

theorem DInv.init (n : Nat) (graph : List Word) (hn : 0 < n) : DInv n graph 0 ((List.replicate n INT_MAX).set 0 0) (List.replicate n 0) := by
  have hset := fun j => val_set (a := List.replicate n INT_MAX) (i := 0) (j := j) (x := 0) (by simpa using hn)
  have hv0 : ∀ v < n, val ((List.replicate n INT_MAX).set 0 0) v = if 0 = v then 0 else 32767 := by
    intro v hv
    rw [hset, val_replicate hv]; rfl
  have hopen : ∀ v < n, Open (List.replicate n 0) v := fun v hv => by unfold Open; simp [hv]
  refine ⟨by simp, by simp, by simp, ?_, ?_, ?_, ?_, ?_⟩
  · intro v hv; rw [hv0 v hv]; split <;> omega
  · intro v hv
    rw [hv0 v hv]
    by_cases h : 0 = v
    · subst h; right; exact Walk.nil hv
    · rw [if_neg h]; exact Or.inl rfl
  · rw [hv0 0 hn]; rfl
  · intro u hu v hv h; exact absurd (hopen u hu) h
  · intro u hu v hv h; exact absurd (hopen u hu) h

theorem dijkstra_spec {n : Nat} {graph o0 : List Word} (hn : 0 < n) (hg : graph.length = n * n) (ho : o0.length = n)
    (hw : ∀ u < n, ∀ v < n, 0 ≤ entry n graph u v ∧ entry n graph u v ≤ 2 ^ 31 - 1 - 32767) :
    ∃ dist, dijkstra n graph 0 o0 = some dist ∧ dist.length = n
      ∧ ∀ v < n, Shortest n (entry n graph) 32767 0 v (val dist v) := by
  obtain ⟨⟨dist, spt⟩, h1, h2⟩ := loop_inv (body := fun _ (s : List Word × List Word) => do
    let u ← minDistance n s.1 s.2
    let sptSet ← store s.2 u 1
    let dist ← loop (fun v dist => relax n graph sptSet u v dist) n s.1
    some (dist, sptSet)) (fun c s => DInv n graph c s.1 s.2) (n := n - 1)
    (s := ((List.replicate n INT_MAX).set 0 0, List.replicate n 0)) (DInv.init n graph hn) (by
      rintro c hc ⟨d, p⟩ I
      obtain ⟨u, d', e1, e2, e3, I'⟩ := DInv.step I (by omega) hg hw
      simp only [e1, store_lt e2, e3, Option.bind_eq_bind, Option.bind_some]
      exact ⟨_, rfl, I'⟩)
  refine ⟨dist, ?_, h2.dlen, fun v hv => h2.shortest hn hw hv⟩
  unfold dijkstra
  rw [init_spec ho]
  simp only [Option.bind_eq_bind, Option.bind_some]
  rw [store_lt (by simpa using hn)]
  simp only [Option.bind_some]
  simp only [Option.bind_eq_bind] at h1
  rw [h1]; rfl

end TinyGarble.A23
