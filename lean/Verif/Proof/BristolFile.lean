import Verif.Spec.BristolFile
import Verif.Proof.Bristol

/-! # Which files are read as Bristol circuits -/

namespace TinyGarble.Proof
open TinyGarble TinyGarble.Spec

theorem bf_drop {p : Char → Bool} (a b : List Char) (ha : ∀ c ∈ a, p c = true) (hb : ∀ c, b.head? = some c → p c = false) :
    (a ++ b).dropWhile p = b := by
  induction a with
  | nil =>
    cases b with
    | nil => rfl
    | cons c b => rw [List.nil_append, List.dropWhile_cons, if_neg (by rw [hb c rfl]; simp)]
  | cons w a ih =>
    rw [List.cons_append, List.dropWhile_cons, if_pos (ha w List.mem_cons_self)]
    exact ih fun c hc => ha c (List.mem_cons_of_mem _ hc)

theorem bf_take {p : Char → Bool} (a b : List Char) (ha : ∀ c ∈ a, p c = true) (hb : ∀ c, b.head? = some c → p c = false) :
    (a ++ b).takeWhile p = a := by
  induction a with
  | nil =>
    cases b with
    | nil => rfl
    | cons c b => rw [List.nil_append, List.takeWhile_cons, if_neg (by rw [hb c rfl]; simp)]
  | cons w a ih =>
    rw [List.cons_append, List.takeWhile_cons, if_pos (ha w List.mem_cons_self), ih fun c hc => ha c (List.mem_cons_of_mem _ hc)]

theorem bf_dec {c : Char} (h : isDec c = true) : isWhite c = false ∧ c ≠ '-' ∧ c ≠ '+' := by
  have h := of_decide_eq_true h
  have key : ∀ n < 58, 48 ≤ n → isWhite (Char.ofNat n) = false ∧ Char.ofNat n ≠ '-' ∧ Char.ofNat n ≠ '+' := by decide
  have := key c.toNat (by omega) h.1
  rwa [Char.ofNat_toNat] at this

/-- The sign and what follows. -/
def bfSign : List Char → List Char × List Char
  | '-' :: t => (['-'], t)
  | '+' :: t => (['+'], t)
  | t => ([], t)

theorem bfSign_mem (t : List Char) : (bfSign t).1 ∈ [[], ['-'], ['+']] ∧ (bfSign t).1 ++ (bfSign t).2 = t := by
  unfold bfSign
  split <;> simp

/-- `stream >> x` in terms of the sign. -/
theorem readNumber_bf (old : Int) {s : InStream} (hg : s.good = true) (hne : s.rest.dropWhile isWhite ≠ []) :
    readNumber 0 (2 ^ 64 - 1) true old s = storeNumber 0 (2 ^ 64 - 1) true (decide ((bfSign (s.rest.dropWhile isWhite)).1 = ['-']))
      ((bfSign (s.rest.dropWhile isWhite)).2.takeWhile isDec) ((bfSign (s.rest.dropWhile isWhite)).2.dropWhile isDec) := by
  unfold readNumber
  rw [if_neg (by rw [hg]; decide)]
  revert hne
  generalize s.rest.dropWhile isWhite = t
  intro hne
  unfold bfSign
  split
  · exact absurd rfl hne
  · rfl
  · rfl
  · rename_i h1 h2
    split
    · exact absurd rfl (h1 _)
    · exact absurd rfl (h2 _)
    · rfl

theorem readU64_good {old : Nat} {s s' : InStream} {v : Nat} (h : readU64 old s = (v, s')) (hg : s'.good = true) :
    s.good = true ∧ NumberAt s.rest v s'.rest := by
  unfold readU64 at h
  by_cases g : s.good = true
  swap
  · have g : s.good = false := by simpa using g
    unfold readNumber at h
    rw [if_pos g] at h
    cases h
    rw [g] at hg; cases hg
  refine ⟨g, ?_⟩
  by_cases hne : s.rest.dropWhile isWhite = []
  · unfold readNumber at h
    rw [if_neg (by rw [g]; decide), hne] at h
    cases h; cases hg
  rw [readNumber_bf old g hne] at h
  have hs := (List.takeWhile_append_dropWhile (p := isWhite) (l := s.rest)).symm
  have hw : ∀ c ∈ s.rest.takeWhile isWhite, isWhite c = true := fun c hc => List.all_eq_true.1 List.all_takeWhile c hc
  obtain ⟨m1, m2⟩ := bfSign_mem (s.rest.dropWhile isWhite)
  rw [← m2] at hs
  revert h m1 hs
  generalize (bfSign (s.rest.dropWhile isWhite)).1 = sign
  generalize (bfSign (s.rest.dropWhile isWhite)).2 = t
  intro h hs m1
  have ht := (List.takeWhile_append_dropWhile (p := isDec) (l := t)).symm
  have hd : ∀ c ∈ t.takeWhile isDec, isDec c = true := fun c hc => List.all_eq_true.1 List.all_takeWhile c hc
  have hr := List.head?_dropWhile_not isDec t
  rw [ht] at hs
  revert h hd hs hr
  generalize t.takeWhile isDec = ds
  generalize t.dropWhile isDec = r
  intro h hs hd hr
  unfold storeNumber at h
  dsimp only at h
  by_cases h0 : ds = []
  · rw [if_pos h0] at h; cases h; cases hg
  rw [if_neg h0, if_pos rfl] at h
  by_cases hb : (2 ^ 64 - 1 : Int) < decValue ds
  · rw [if_pos hb] at h; cases h; cases hg
  rw [if_neg hb] at h
  have hlt : decValue ds < 2 ^ 64 := by omega
  obtain ⟨h1, h2⟩ := Prod.mk.inj h
  subst h2
  cases r with
  | nil => cases hg
  | cons c r =>
    refine ⟨_, sign, ds, hs, hw, m1, h0, hd, ⟨c, r, rfl, hr⟩, hlt, ?_⟩
    rw [← h1]
    by_cases hm : sign = ['-']
    · rw [if_pos hm]; simp only [hm, decide_true, if_true]
      omega
    · rw [if_neg hm]; simp only [hm, decide_false]
      simp

theorem readU64_numberAt (old : Nat) {l r : List Char} {v : Nat} (h : NumberAt l v r) : readU64 old ⟨l, true⟩ = (v, ⟨r, true⟩) := by
  obtain ⟨white, sign, ds, rfl, hw, hs, h0, hd, ⟨c, t, rfl, hc⟩, hlt, rfl⟩ := h
  obtain ⟨d, ds', rfl⟩ := List.exists_cons_of_ne_nil h0
  obtain ⟨d1, d2, d3⟩ := bf_dec (hd d List.mem_cons_self)
  have hdw : (white ++ (sign ++ (d :: ds' ++ c :: t))).dropWhile isWhite = sign ++ (d :: ds' ++ c :: t) := by
    refine bf_drop white _ hw fun x hx => ?_
    simp only [List.mem_cons, List.not_mem_nil, or_false] at hs
    rcases hs with rfl | rfl | rfl
    · cases hx; exact d1
    · cases hx; decide
    · cases hx; decide
  have hsg : bfSign (sign ++ (d :: ds' ++ c :: t)) = (sign, d :: ds' ++ c :: t) := by
    simp only [List.mem_cons, List.not_mem_nil, or_false] at hs
    rcases hs with rfl | rfl | rfl
    · rw [List.nil_append, List.cons_append]
      unfold bfSign
      split
      · rename_i e; exact absurd (List.cons.inj e).1 d2
      · rename_i e; exact absurd (List.cons.inj e).1 d3
      · rfl
    · rfl
    · rfl
  unfold readU64
  rw [readNumber_bf old rfl (by rw [hdw]; simp)]
  dsimp only
  rw [hdw, hsg, bf_take _ _ hd (fun x hx => by cases hx; exact hc), bf_drop _ _ hd (fun x hx => by cases hx; exact hc)]
  unfold storeNumber
  dsimp only
  rw [if_neg (by simp), if_pos rfl, if_neg (by omega)]
  by_cases hm : sign = ['-']
  · rw [if_pos hm]
    simp only [hm, decide_true, if_true, List.isEmpty_cons, Bool.not_false]
    refine Prod.ext ?_ rfl
    dsimp only
    omega
  · rw [if_neg hm]
    simp only [hm, decide_false, List.isEmpty_cons, Bool.not_false]
    simp

/-- The number of a kind. -/
def kindType (k : Name) : Int := if k = "INV".toList then NOTGATE else if k = "XOR".toList then XORGATE else ANDGATE

theorem bristType_some {k : Name} {t : Int} : bristType k = some t ↔ k ∈ ["AND".toList, "XOR".toList, "INV".toList] ∧ t = kindType k := by
  unfold bristType kindType
  by_cases h1 : k = "INV".toList
  · subst h1
    rw [if_pos rfl, if_pos rfl]
    exact ⟨fun h => ⟨by decide, (Option.some.inj h).symm⟩, fun h => by rw [h.2]⟩
  rw [if_neg h1, if_neg h1]
  by_cases h2 : k = "XOR".toList
  · subst h2
    rw [if_pos rfl, if_pos rfl]
    exact ⟨fun h => ⟨by decide, (Option.some.inj h).symm⟩, fun h => by rw [h.2]⟩
  rw [if_neg h2, if_neg h2]
  by_cases h3 : k = "AND".toList
  · subst h3
    rw [if_pos rfl]
    exact ⟨fun h => ⟨by decide, (Option.some.inj h).symm⟩, fun h => by rw [h.2]⟩
  rw [if_neg h3]
  constructor
  · intro h; cases h
  · rintro ⟨h, -⟩
    simp only [List.mem_cons, List.not_mem_nil, or_false] at h
    rcases h with h | h | h
    · exact absurd h h3
    · exact absurd h h2
    · exact absurd h h1

theorem readWord_kind {s : InStream} (h : (readWord s).1 ∈ ["AND".toList, "XOR".toList, "INV".toList]) :
    s.good = true ∧ ∃ r, KindAt s.rest (readWord s).1 r ∧ (readWord s).2 = ⟨r, !r.isEmpty⟩ := by
  have ne : ([] : Name) ∉ ["AND".toList, "XOR".toList, "INV".toList] := by decide
  revert h
  unfold readWord
  by_cases g : s.good = false
  · rw [if_pos g]; exact fun h => absurd h ne
  rw [if_neg g]
  dsimp only
  by_cases h0 : s.rest.dropWhile isWhite = []
  · rw [if_pos h0]; exact fun h => absurd h ne
  rw [if_neg h0]
  intro h
  refine ⟨by simpa using g, _, ⟨s.rest.takeWhile isWhite, ?_, fun c hc => List.all_eq_true.1 List.all_takeWhile c hc, h, ?_⟩, rfl⟩
  · rw [List.takeWhile_append_dropWhile, List.takeWhile_append_dropWhile]
  · have hr := List.head?_dropWhile_not (fun ch => !isWhite ch) (s.rest.dropWhile isWhite)
    revert hr
    generalize (s.rest.dropWhile isWhite).dropWhile (fun ch => !isWhite ch) = r
    intro hr
    cases r with
    | nil => exact Or.inl rfl
    | cons c t => exact Or.inr ⟨c, t, rfl, by simpa using hr⟩

theorem readWord_kindAt {l r : List Char} {k : Name} (h : KindAt l k r) : readWord ⟨l, true⟩ = (k, ⟨r, !r.isEmpty⟩) := by
  obtain ⟨white, rfl, hw, hk, hr⟩ := h
  have hk1 : k ≠ [] ∧ ∀ c ∈ k, isWhite c = false := by
    revert k
    decide
  obtain ⟨c, k', rfl⟩ := List.exists_cons_of_ne_nil hk1.1
  have hdw : (white ++ (c :: k' ++ r)).dropWhile isWhite = c :: k' ++ r :=
    bf_drop white _ hw fun x hx => by cases hx; exact hk1.2 c List.mem_cons_self
  have hr' : ∀ x, r.head? = some x → (!isWhite x) = false := by
    intro x hx
    rcases hr with rfl | ⟨y, t, rfl, hy⟩
    · cases hx
    · cases hx; rw [hy]; rfl
  have hk' : ∀ x ∈ c :: k', (!isWhite x) = true := fun x hx => by rw [hk1.2 x hx]; rfl
  unfold readWord
  rw [if_neg (fun h => Bool.noConfusion h)]
  dsimp only
  rw [hdw, if_neg (by simp), bf_take _ _ hk' hr', bf_drop _ _ hk' hr']

/-- The named gate of a gate that was read. -/
def fileGate (s : CircuitStr) (wires : Nat) (g : FileGate) : GateStr :=
  ⟨bristWire g.first wires s, (match g.second with
    | none => []
    | some b => bristWire b wires s), bristWire g.output wires s, kindType g.kind⟩

theorem parseBristGate_iff (s : CircuitStr) (wires : Nat) (junk : Nat → Nat) (st st' : InStream) (x : GateStr) :
    parseBristGate s wires junk st = some (x, st') ↔
      st.good = true ∧ ∃ g r, GateAt st.rest g r ∧ x = fileGate s wires g ∧ st' = ⟨r, !r.isEmpty⟩ := by
  constructor
  · intro h
    unfold parseBristGate at h
    dsimp only at h
    cases e1 : readU64 (junk 0) st with | mk n s1 =>
    cases e2 : readU64 (junk 1) s1 with | mk m s2 =>
    cases e3 : readU64 (junk 2) s2 with | mk a s3 =>
    simp only [e1, e2, e3] at h
    by_cases h1 : n = 1
    · simp only [h1, if_true, true_or] at h
      cases e5 : readU64 (junk 4) s3 with | mk o s5 =>
      simp only [e5] at h
      cases ht : bristType (readWord s5).1 with
      | none => rw [ht] at h; cases h
      | some t =>
        rw [ht] at h
        obtain ⟨hx, hs⟩ := Prod.mk.inj (Option.some.inj h)
        obtain ⟨t1, rfl⟩ := bristType_some.1 ht
        obtain ⟨g5, r, k1, k2⟩ := readWord_kind t1
        obtain ⟨g3, n5⟩ := readU64_good e5 g5
        obtain ⟨g2, n3⟩ := readU64_good e3 g3
        obtain ⟨g1, n2⟩ := readU64_good e2 g2
        obtain ⟨g0, n1⟩ := readU64_good e1 g1
        subst h1
        exact ⟨g0, ⟨a, none, o, _⟩, r, ⟨1, m, _, _, _, _, _, n1, n2, n3, Or.inl ⟨rfl, rfl, rfl⟩, n5, k1⟩, hx.symm, by rw [← hs, k2]⟩
    · by_cases h2 : n = 2
      · simp only [h2, if_true, or_true, show ¬ (2 : Nat) = 1 by decide, if_false] at h
        cases e4 : readU64 (junk 3) s3 with | mk b s4 =>
        cases e5 : readU64 (junk 4) s4 with | mk o s5 =>
        simp only [e4, e5] at h
        cases ht : bristType (readWord s5).1 with
        | none => rw [ht] at h; cases h
        | some t =>
          rw [ht] at h
          obtain ⟨hx, hs⟩ := Prod.mk.inj (Option.some.inj h)
          obtain ⟨t1, rfl⟩ := bristType_some.1 ht
          obtain ⟨g5, r, k1, k2⟩ := readWord_kind t1
          obtain ⟨g4, n5⟩ := readU64_good e5 g5
          obtain ⟨g3, n4⟩ := readU64_good e4 g4
          obtain ⟨g2, n3⟩ := readU64_good e3 g3
          obtain ⟨g1, n2⟩ := readU64_good e2 g2
          obtain ⟨g0, n1⟩ := readU64_good e1 g1
          subst h2
          exact ⟨g0, ⟨a, some b, o, _⟩, r, ⟨2, m, _, _, _, _, _, n1, n2, n3, Or.inr ⟨rfl, b, rfl, n4⟩, n5, k1⟩, hx.symm,
            by rw [← hs, k2]⟩
      · simp only [h1, h2, if_false, or_self, show bristType [] = none by decide] at h
        cases h
  · rintro ⟨g0, ⟨a, sec, o, k⟩, r, ⟨n, m, r1, r2, r3, r4, r5, n1, n2, n3, hn, n5, k1⟩, rfl, rfl⟩
    cases st with | mk l gd =>
    dsimp only at g0 n1 n2 n3 hn n5 k1
    subst g0
    have hk := k1
    obtain ⟨_, _, _, hk, _⟩ := hk
    unfold parseBristGate
    dsimp only
    rw [readU64_numberAt _ n1]
    dsimp only
    rw [readU64_numberAt _ n2]
    dsimp only
    rw [readU64_numberAt _ n3]
    dsimp only
    rcases hn with ⟨rfl, rfl, rfl⟩ | ⟨rfl, b, rfl, n4⟩
    · simp only [if_true, true_or, readU64_numberAt _ n5, readWord_kindAt k1, bristType_some.2 ⟨hk, rfl⟩]
      rfl
    · simp only [if_true, or_true, show ¬ (2 : Nat) = 1 by decide, if_false, readU64_numberAt _ n4, readU64_numberAt _ n5,
        readWord_kindAt k1, bristType_some.2 ⟨hk, rfl⟩]
      rfl

theorem gateAt_ne_nil {l r : List Char} {g : FileGate} (h : GateAt l g r) : l ≠ [] := by
  obtain ⟨_, _, _, _, _, _, _, ⟨white, sign, ds, e, _, _, h0, _⟩, _⟩ := h
  rintro rfl
  simp at e
  exact h0 e.2.2.1

theorem parseBristGates_iff (s : CircuitStr) (wires : Nat) (junk : Nat → Nat → Nat) : ∀ (n gid : Nat) (st : InStream) (xs : List GateStr),
    parseBristGates s wires junk n gid st = some xs ↔
      (n ≠ 0 → st.good = true) ∧ ∃ gs r, GatesAt st.rest gs r ∧ gs.length = n ∧ xs = gs.map (fileGate s wires)
  | 0, gid, st, xs => by
    rw [parseBristGates]
    constructor
    · intro h
      exact ⟨fun h => absurd rfl h, [], _, rfl, rfl, (Option.some.inj h).symm⟩
    · rintro ⟨_, gs, r, _, hl, rfl⟩
      rw [List.length_eq_zero_iff.1 hl]; rfl
  | n + 1, gid, st, xs => by
    rw [parseBristGates]
    constructor
    · intro h
      cases e : parseBristGate s wires (junk gid) st with
      | none => rw [e] at h; cases h
      | some p =>
        obtain ⟨x, st'⟩ := p
        rw [e] at h
        change (parseBristGates s wires junk n (gid + 1) st').bind _ = _ at h
        cases e' : parseBristGates s wires junk n (gid + 1) st' with
        | none => rw [e'] at h; cases h
        | some ys =>
          rw [e'] at h
          have h := Option.some.inj h
          obtain ⟨g0, g, r, a1, rfl, rfl⟩ := (parseBristGate_iff ..).1 e
          obtain ⟨_, gs, r', b1, b2, rfl⟩ := (parseBristGates_iff s wires junk n ..).1 e'
          exact ⟨fun _ => g0, g :: gs, r', ⟨r, a1, b1⟩, by rw [List.length_cons, b2], h.symm⟩
    · rintro ⟨g0, gs, r, hg, hl, rfl⟩
      cases gs with
      | nil => cases hl
      | cons g gs =>
        obtain ⟨m, a1, b1⟩ := hg
        have hl : gs.length = n := Nat.succ.inj hl
        rw [(parseBristGate_iff s wires (junk gid) st ⟨m, !m.isEmpty⟩ _).2 ⟨g0 (by simp), g, m, a1, rfl, rfl⟩]
        have := (parseBristGates_iff s wires junk n (gid + 1) ⟨m, !m.isEmpty⟩ _).2 ⟨fun hn => ?_, gs, r, b1, hl, rfl⟩
        · change (parseBristGates s wires junk n (gid + 1) ⟨m, !m.isEmpty⟩).bind _ = _
          rw [this]
          rfl
        · cases gs with
          | nil => exact absurd hl.symm hn
          | cons g' gs =>
            obtain ⟨_, c1, _⟩ := b1
            have := gateAt_ne_nil c1
            cases m with
            | nil => exact absurd rfl this
            | cons _ _ => rfl

end TinyGarble.Proof
