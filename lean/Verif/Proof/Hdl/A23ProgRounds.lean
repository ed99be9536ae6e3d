import Verif.Proof.Hdl.A23ProgPaths

/-! # The rounds of the program dijkstra -/

namespace TinyGarble.Proof.Hdl.A23.Sym.Dijkstra

open TinyGarble.Spec.Arm
open TinyGarble.Hdl.A23.Programs (dijkstraCode)
open TinyGarble.A23 (Open open_set count_close open_of_count)

/-- The inputs, and the first `n` entries of the graph. -/
def Read (g e : Nat → BitVec 32) (n : Nat) (s : State) : Prop :=
  (∀ j < 64, s.word (at' (0x01000000 + 4 * j)) = g j) ∧ (∀ j < 64, s.word (at' (0x02000000 + 4 * j)) = e j) ∧ ∀ j < n, s.word (graphAt j) = g j ^^^ e j

theorem xbody_read (g e : Nat → BitVec 32) (i j : Nat) (hi : i < 8) (hj : j < 8) (s : State) (h : Read g e (8 * i + j) s) :
    Read g e (8 * i + (j + 1)) (applyAll s (xbody i j)) := by
  obtain ⟨a, b, c⟩ := h
  refine ⟨fun k hk => ?_, fun k hk => ?_, fun k hk => ?_⟩
  · rw [xbody_word, if_neg (align_ne _ _ (by omega) (by omega) (by omega)), a k hk]
  · rw [xbody_word, if_neg (align_ne _ _ (by omega) (by omega) (by omega)), b k hk]
  · rw [xbody_word, a _ (by omega), b _ (by omega)]
    by_cases h : k = 8 * i + j
    · rw [h, if_pos rfl]
    · rw [if_neg (align_ne _ _ (by omega) (by omega) (by omega)), c k (by omega)]

theorem Read.congr {g e : Nat → BitVec 32} {n : Nat} {s s' : State} (h : Read g e n s) (hw : ∀ b, s'.word b = s.word b) : Read g e n s' :=
  ⟨fun j hj => (hw _).trans (h.1 j hj), fun j hj => (hw _).trans (h.2.1 j hj), fun j hj => (hw _).trans (h.2.2 j hj)⟩

theorem leads_read (g e : Nat → BitVec 32) : Leads dijkstraCode lay .init (Read g e 0) (31 + 8 * (4 + 8 * 15 + 5)) (rhead 8) (Read g e 64) := by
  refine Leads.trans (Q := Read g e (8 * 0)) (Leads.of_runs (.of_check run_first) fun s s' hw hg h => ?_) (Leads.loop rhead (fun i => Read g e (8 * i)) _ 8 fun i hi => ?_)
  · exact ⟨fun j hj => (hw _).trans <| (first_word s _ (by omega)).trans (h.1 j hj), fun j hj => (hw _).trans <| (first_word s _ (by omega)).trans (h.2.1 j hj), fun j hj => absurd hj (by omega)⟩
  · refine Leads.trans (Leads.trans (Q := Read g e (8 * i + 0)) (Leads.of_runs (.of_check (run_rstart i hi)) fun s s' hw hg h => ?_)
      (Leads.loop (xhead i) (fun j => Read g e (8 * i + j)) 15 8 fun j hj => Leads.of_runs (.of_check (run_xbody i hi j hj)) fun s s' hw hg h => (xbody_read g e i j hi hj s h).congr hw))
      (Leads.of_runs (.of_check (run_rend i hi)) fun s s' hw hg h => ?_)
    · exact ⟨fun j hj => (hw _).trans <| (rstart_word ..).trans (h.1 j hj), fun j hj => (hw _).trans <| (rstart_word ..).trans (h.2.1 j hj), fun j hj => (hw _).trans <| (rstart_word ..).trans (h.2.2 j hj)⟩
    · exact ⟨fun j hj => (hw _).trans <| (rend_word ..).trans (h.1 j hj), fun j hj => (hw _).trans <| (rend_word ..).trans (h.2.1 j hj), fun j hj => (hw _).trans <| (rend_word ..).trans (h.2.2 j (by omega))⟩

/-- The distances and the marks before the first round. -/
def dist0 (v : Nat) : BitVec 32 := if v = 0 then 0 else 0x7fff
def mark0 (_ : Nat) : BitVec 32 := 0

/-- The graph, and the first `n` distances and marks. -/
def Init (G : Nat → BitVec 32) (n : Nat) (s : State) : Prop :=
  (∀ i < 64, s.word (graphAt i) = G i) ∧ (∀ v < n, s.word (distAt v) = 0x7fff) ∧ ∀ v < n, s.word (markAt v) = 0

theorem leads_init (G : Nat → BitVec 32) :
    Leads dijkstraCode lay (rhead 8) (fun s => ∀ i < 64, s.word (graphAt i) = G i) (5 + 8 * 11 + 8) (ohead 0) (Holds G dist0 mark0) := by
  refine Leads.trans (Leads.trans (Q := Init G 0) (Leads.of_runs (.of_check run_mid) fun s s' hw hg h => ?_) (Leads.loop dhead (Init G) 11 8 fun v hv =>
    Leads.of_runs (.of_check (run_dbody v hv)) fun s s' hw hg ⟨h1, h2, h3⟩ => ⟨fun i hi => ?_, fun x hx => ?_, fun x hx => ?_⟩))
    (Leads.of_runs (.of_check run_mid2) fun s s' hw hg ⟨h1, h2, h3⟩ => ⟨fun i hi => ?_, fun v hv => ?_, fun v hv => ?_⟩)
  · exact ⟨fun i hi => (hw _).trans <| (mid_word ..).trans (h i hi), fun v hv => absurd hv (by omega), fun v hv => absurd hv (by omega)⟩
  · refine (hw _).trans ((dbody_word ..).trans ?_)
    rw [if_neg (align_ne _ _ (by omega) (by omega) (by omega)), if_neg (align_ne _ _ (by omega) (by omega) (by omega)), h1 i hi]
  · refine (hw _).trans ((dbody_word ..).trans ?_)
    rw [if_neg (align_ne _ _ (by omega) (by omega) (by omega))]
    by_cases h : x = v
    · rw [h, if_pos rfl]
    · rw [if_neg (align_ne _ _ (by omega) (by omega) (by omega)), h2 x (by omega)]
  · refine (hw _).trans ((dbody_word ..).trans ?_)
    by_cases h : x = v
    · rw [h, if_pos rfl]
    · rw [if_neg (align_ne _ _ (by omega) (by omega) (by omega)), if_neg (align_ne _ _ (by omega) (by omega) (by omega)), h3 x (by omega)]
  · refine (hw _).trans ((mid2_word ..).trans ?_)
    rw [if_neg (align_ne _ _ (by omega) (by omega) (by omega)), h1 i hi]
  · refine (hw _).trans ((mid2_word ..).trans ?_)
    unfold dist0
    by_cases h : v = 0
    · rw [h, if_pos rfl, if_pos rfl]
    · rw [if_neg (align_ne _ _ (by omega) (by omega) (by omega)), if_neg h, h2 v hv]
  · refine (hw _).trans ((mid2_word ..).trans ?_)
    rw [if_neg (align_ne _ _ (by omega) (by omega) (by omega)), h3 v hv]
    rfl

/-! ## The search -/

theorem pick_cases (d p : Nat → BitVec 32) (hd : ∀ v < 8, (d v).toInt ≤ 32767) (n : Nat) (hn : n ≤ 8) :
    ((∀ v < n, p v ≠ 0) ∧ ∀ u0, pick d p u0 n = (0x7fff, u0)) ∨ ∃ u < n, p u = 0 ∧ ∀ u0, pick d p u0 n = (d u, at' u) := by
  induction n with
  | zero => exact Or.inl ⟨fun v hv => absurd hv (by omega), fun _ => rfl⟩
  | succ n ih =>
    have hmax : (0x7fff : BitVec 32).toInt = 32767 := by decide
    have := hd n (by omega)
    simp only [pick]
    rcases ih (by omega) with ⟨h1, h2⟩ | ⟨u, hu, h1, h2⟩
    · by_cases h : p n = 0
      · exact Or.inr ⟨n, by omega, h, fun u0 => by rw [h2, if_pos ⟨h, by show _ ≤ BitVec.toInt 0x7fff; omega⟩]⟩
      · refine Or.inl ⟨fun v hv => ?_, fun u0 => by rw [if_neg (fun hh => h hh.1), h2]⟩
        by_cases hvn : v = n
        · rw [hvn]; exact h
        · exact h1 v (by omega)
    · by_cases h : p n = 0 ∧ (d n).toInt ≤ (d u).toInt
      · exact Or.inr ⟨n, by omega, h.1, fun u0 => by rw [h2, if_pos h]⟩
      · exact Or.inr ⟨u, by omega, h1, fun u0 => by rw [h2, if_neg h]⟩

/-- The nearest vertex. -/
def nearest (d p : Nat → BitVec 32) : Nat := (pick d p 0 8).2.toNat

theorem nearest_spec (d p : Nat → BitVec 32) (hd : ∀ v < 8, (d v).toInt ≤ 32767) (hp : ∃ v < 8, p v = 0) :
    nearest d p < 8 ∧ p (nearest d p) = 0 ∧ ∀ u0, (pick d p u0 8).2 = at' (nearest d p) := by
  rcases pick_cases d p hd 8 (Nat.le_refl _) with ⟨h, -⟩ | ⟨u, hu, h1, h2⟩
  · obtain ⟨v, hv, h0⟩ := hp
    exact absurd h0 (h v hv)
  · have : nearest d p = u := by
      unfold nearest
      rw [h2]
      show u % 2 ^ 32 = u
      omega
    rw [this]
    exact ⟨hu, h1, fun u0 => by rw [h2]⟩

def setMark (p : Nat → BitVec 32) (u : Nat) : Nat → BitVec 32 := fun v => if v = u then 1 else p v

/-- One round. -/
def round (G : Nat → BitVec 32) (x : (Nat → BitVec 32) × (Nat → BitVec 32)) : (Nat → BitVec 32) × (Nat → BitVec 32) :=
  (relaxAll G (setMark x.2 (nearest x.1 x.2)) (nearest x.1 x.2) x.1 8, setMark x.2 (nearest x.1 x.2))

def rounds (G : Nat → BitVec 32) : Nat → (Nat → BitVec 32) × (Nat → BitVec 32)
  | 0 => (dist0, mark0)
  | t + 1 => round G (rounds G t)

theorem relaxAll_le (G p : Nat → BitVec 32) (u : Nat) (d : Nat → BitVec 32) (hd : ∀ v < 8, (d v).toInt ≤ 32767) (n : Nat) :
    ∀ v < 8, (relaxAll G p u d n v).toInt ≤ 32767 := by
  induction n with
  | zero => exact hd
  | succ n ih =>
    intro v hv
    simp only [relaxAll, relax1]
    split
    · rename_i h
      obtain ⟨rfl, -, -, -, h⟩ := h
      have := ih v hv
      omega
    · exact ih v hv

/-- The first entries as a list. -/
def tab (n : Nat) (f : Nat → BitVec 32) : List (BitVec 32) := (List.range n).map f

theorem tab_length (n : Nat) (f : Nat → BitVec 32) : (tab n f).length = n := by simp [tab]

theorem tab_get {n : Nat} (f : Nat → BitVec 32) {v : Nat} (hv : v < n) : (tab n f)[v]? = some (f v) := by simp [tab, hv]

theorem tab_open {n : Nat} (f : Nat → BitVec 32) {v : Nat} (hv : v < n) : Open (tab n f) v ↔ f v = 0 := by
  unfold Open
  rw [tab_get f hv]
  exact ⟨Option.some.inj, fun h => by rw [h]⟩

theorem tab_setMark (n : Nat) (p : Nat → BitVec 32) (u : Nat) : tab n (setMark p u) = (tab n p).set u 1 := by
  apply List.ext_getElem?
  intro i
  rw [List.getElem?_set, tab_length]
  by_cases hi : i < n
  · rw [tab_get _ hi, tab_get _ hi]
    unfold setMark
    by_cases h : i = u
    · rw [if_pos h, if_pos h.symm, if_pos (by omega)]
    · rw [if_neg h, if_neg (fun e => h e.symm)]
  · rw [List.getElem?_eq_none (by rw [tab_length]; omega), List.getElem?_eq_none (by rw [tab_length]; omega)]
    split
    · split
      · omega
      · rfl
    · rfl

theorem rounds_inv (G : Nat → BitVec 32) (t : Nat) (ht : t ≤ 7) :
    (∀ v < 8, ((rounds G t).1 v).toInt ≤ 32767) ∧ (tab 8 (rounds G t).2).count 0 + t = 8 := by
  induction t with
  | zero =>
    refine ⟨fun v hv => ?_, by show (tab 8 mark0).count 0 + 0 = 8; decide⟩
    show (dist0 v).toInt ≤ _
    unfold dist0
    split <;> decide
  | succ t ih =>
    obtain ⟨h1, h2⟩ := ih (by omega)
    obtain ⟨v, hv, ho⟩ := open_of_count (spt := tab 8 (rounds G t).2) (by omega)
    rw [tab_length] at hv
    obtain ⟨a, b, -⟩ := nearest_spec _ _ h1 ⟨v, hv, (tab_open _ hv).1 ho⟩
    refine ⟨relaxAll_le _ _ _ _ h1 8, ?_⟩
    show (tab 8 (setMark _ _)).count 0 + (t + 1) = 8
    rw [tab_setMark]
    have := count_close (spt := tab 8 (rounds G t).2) (by rw [tab_length]; exact a) ((tab_open _ a).2 b)
    omega

theorem rounds_open (G : Nat → BitVec 32) (t : Nat) (ht : t ≤ 7) : ∃ v < 8, (rounds G t).2 v = 0 := by
  have := (rounds_inv G t ht).2
  obtain ⟨v, hv, ho⟩ := open_of_count (spt := tab 8 (rounds G t).2) (by omega)
  rw [tab_length] at hv
  exact ⟨v, hv, (tab_open _ hv).1 ho⟩

theorem ibody_holds (G p d : Nat → BitVec 32) (u v : Nat) (hu : u < 8) (hv : v < 8) (s : State) (h : Holds G (relaxAll G p u d v) p s) :
    Holds G (relaxAll G p u d (v + 1)) p (applyAll s (ibody u v)) := by
  obtain ⟨h1, h2, h3⟩ := h
  refine ⟨fun i hi => ?_, fun x hx => ?_, fun x hx => ?_⟩
  · rw [ibody_word, if_neg (fun h => align_ne _ _ (by omega) (by omega) (by omega) h.1), h1 i hi]
  · rw [ibody_word, h3 v hv, h2 u hu, h1 _ (by omega), h2 v hv, h2 x hx]
    simp only [relaxAll, relax1]
    by_cases h : x = v
    · subst h
      simp only [true_and]
    · rw [if_neg (fun e => align_ne _ _ (by omega) (by omega) (by omega) e.1), if_neg (fun e => h e.1)]
  · rw [ibody_word, if_neg (fun h => align_ne _ _ (by omega) (by omega) (by omega) h.1), h3 x hx]

theorem leads_round (G : Nat → BitVec 32) (t : Nat) (ht : t < 7) : Leads dijkstraCode lay (ohead t) (fun s => Holds G (rounds G t).1 (rounds G t).2 s)
    (4 + 8 * 18 + 9 + 8 * 32 + 4) (ohead (t + 1)) (fun s => Holds G (rounds G (t + 1)).1 (rounds G (t + 1)).2 s) := by
  have hn := nearest_spec _ _ (rounds_inv G t (by omega)).1 (rounds_open G t (by omega))
  show Leads _ _ _ _ _ _ fun s => Holds G (round G (rounds G t)).1 (round G (rounds G t)).2 s
  unfold round
  generalize (rounds G t).1 = d at *
  generalize (rounds G t).2 = p at *
  generalize nearest d p = u at *
  obtain ⟨hu, -, hn⟩ := hn
  have h12 : ∀ l s, Within lay l → Desc dijkstraCode (ohead t) s → s.reg 12 = at' (7 - t) := fun l s _ h => h.reg 12 _ (by decide) rfl
  refine Leads.trans (Q := fun s => Holds G (relaxAll G (setMark p u) u d 8) (setMark p u) s ∧ s.reg 12 = at' (7 - t))
    (Leads.trans (Q := fun s => Holds G (relaxAll G (setMark p u) u d 0) (setMark p u) s ∧ s.reg 12 = at' (7 - t))
    (Leads.trans (Q := fun s => (Holds G d p s ∧ s.reg 12 = at' (7 - t)) ∧ s.reg 14 = at' u) (Leads.trans (Q := fun s => (Holds G d p s ∧ s.reg 12 = at' (7 - t)) ∧ ∃ u0, (s.reg 1, s.reg 14) = pick d p u0 0) ?_
      (Leads.mono (Leads.loop mhead (fun v s => (Holds G d p s ∧ s.reg 12 = at' (7 - t)) ∧ ∃ u0, (s.reg 1, s.reg 14) = pick d p u0 v) 18 8 fun v hv =>
        Leads.of_runs (.of_check (run_mbody v hv)) fun s s' hw hg ⟨⟨h, hr⟩, u0, hp⟩ => ⟨⟨⟨fun i hi => ?_, fun x hx => ?_, fun x hx => ?_⟩, ?_⟩, u0, ?_⟩) (fun s h => h) ?_))
      (Leads.learn (Leads.of_runs (.of_check (run_ustart u hu)) fun s s' hw hg ⟨⟨h, hr⟩, _⟩ => ⟨⟨fun i hi => ?_, fun x hx => ?_, fun x hx => ?_⟩, ?_⟩) fun s h => h.2))
    (Leads.loop (ihead u) (fun v s => Holds G (relaxAll G (setMark p u) u d v) (setMark p u) s ∧ s.reg 12 = at' (7 - t)) 32 8 fun v hv =>
      Leads.of_runs (.of_check (run_ibody u hu v hv)) fun s s' hw hg ⟨h, hr⟩ => ⟨?_, ?_⟩))
    (Leads.learn (Leads.of_runs (.of_check (run_iend t ht u hu)) fun s s' hw hg ⟨h, _⟩ => ⟨fun i hi => ?_, fun x hx => ?_, fun x hx => ?_⟩) fun s h => h.2)
  · intro l s hl hD hP
    have hr := h12 l s hl hD
    exact Leads.of_runs (P := fun s => Holds G d p s ∧ s.reg 12 = at' (7 - t)) (.of_check (run_ostart t ht)) (fun s s' hw hg ⟨h, hr⟩ => ⟨⟨⟨
      fun i hi => (hw _).trans <| (ostart_word ..).trans (h.graph i hi), fun x hx => (hw _).trans <| (ostart_word ..).trans (h.dist x hx),
      fun x hx => (hw _).trans <| (ostart_word ..).trans (h.mark x hx)⟩, (hg _).trans <| (ostart_regs s).1.trans hr⟩, s.reg 14, Prod.ext ((hg _).trans (ostart_regs s).2.1)
        ((hg _).trans (ostart_regs s).2.2)⟩) l s hl hD ⟨hP, hr⟩
  · exact (hw _).trans <| (mbody_word ..).trans (h.graph i hi)
  · exact (hw _).trans <| (mbody_word ..).trans (h.dist x hx)
  · exact (hw _).trans <| (mbody_word ..).trans (h.mark x hx)
  · exact (hg _).trans <| (mbody_reg12 ..).trans hr
  · rw [hg, hg, mbody_regs s v, h.mark v hv, h.dist v hv, pick, hp, ← hp]
  · rintro s ⟨h, u0, hp⟩
    exact ⟨h, by rw [← hn u0, ← hp]⟩
  · refine (hw _).trans ((ustart_word ..).trans ?_)
    rw [if_neg (align_ne _ _ (by omega) (by omega) (by omega)), h.graph i hi]
  · refine (hw _).trans ((ustart_word ..).trans ?_)
    rw [if_neg (align_ne _ _ (by omega) (by omega) (by omega)), h.dist x hx]
    rfl
  · refine (hw _).trans ((ustart_word ..).trans ?_)
    unfold setMark
    by_cases hxu : x = u
    · rw [hxu, if_pos rfl, if_pos rfl]
    · rw [if_neg (align_ne _ _ (by omega) (by omega) (by omega)), if_neg hxu, h.mark x hx]
  · exact (hg _).trans <| (ustart_reg12 ..).trans hr
  · have := ibody_holds G (setMark p u) d u v hu hv s h
    exact ⟨fun i hi => (hw _).trans (this.graph i hi), fun x hx => (hw _).trans (this.dist x hx), fun x hx => (hw _).trans (this.mark x hx)⟩
  · exact (hg _).trans <| (ibody_reg12 ..).trans hr
  · exact (hw _).trans <| (iend_word ..).trans (h.graph i hi)
  · exact (hw _).trans <| (iend_word ..).trans (h.dist x hx)
  · exact (hw _).trans <| (iend_word ..).trans (h.mark x hx)

/-- The whole program: the output is the distances after seven rounds. -/
theorem leads_all (G g e : Nat → BitVec 32) (hG : ∀ i < 64, G i = g i ^^^ e i) : Leads dijkstraCode lay .init (Read g e 0) 4096 stopped
    (fun s => ∀ v < 8, s.word (distAt v) = (rounds G 7).1 v) := by
  have h1 := (leads_read g e).mono (Q' := fun s => ∀ i < 64, s.word (graphAt i) = G i) (fun s h => h) (fun s h i hi => (h.2.2 i hi).trans (hG i hi).symm)
  have h2 := h1.trans (leads_init G)
  have h3 := Leads.loop ohead (fun t s => Holds G (rounds G t).1 (rounds G t).2 s) _ 7 fun t ht => leads_round _ t ht
  have h4 := (h2.trans h3).trans (Leads.of_runs (Q := fun s => ∀ v < 8, s.word (distAt v) = (rounds G 7).1 v) (.of_check run_last)
    fun s s' hw hg h v hv => (hw _).trans <| (last_word ..).trans (h.dist v hv))
  exact h4

end TinyGarble.Proof.Hdl.A23.Sym.Dijkstra
