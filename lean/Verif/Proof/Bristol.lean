import Verif.Spec.Bristol
import Verif.Proof.NamedMeaning

/-! # Reading Bristol files -/

namespace TinyGarble.Proof
open TinyGarble.Spec TinyGarble.Props

theorem wordsFrom_word : ∀ (l : List Char) (w x : Name) (xs : List Name), w ≠ [] → wordsFrom w l = x :: xs →
    ∃ u rest, l = u ++ rest ∧ x = w ++ u ∧ (∀ ch ∈ u, isWhite ch = false) ∧ (rest = [] ∨ ∃ c r, rest = c :: r ∧ isWhite c = true)
      ∧ words rest = xs
  | [], w, x, xs, hw, h => by
    rw [wordsFrom, if_neg hw] at h
    simp only [List.cons.injEq] at h
    obtain ⟨rfl, rfl⟩ := h
    exact ⟨[], [], rfl, by simp, by simp, Or.inl rfl, rfl⟩
  | ch :: l, w, x, xs, hw, h => by
    rw [wordsFrom] at h
    split at h
    · rename_i hc
      simp only [List.singleton_append, List.cons.injEq] at h
      obtain ⟨rfl, rfl⟩ := h
      refine ⟨[], ch :: l, rfl, by simp, by simp, Or.inr ⟨_, _, rfl, hc⟩, ?_⟩
      unfold words
      rw [wordsFrom, if_pos hc]
      simp
    · rename_i hc
      obtain ⟨u, rest, e1, e2, e3, e4, e5⟩ := wordsFrom_word l (w ++ [ch]) x xs (by simp) h
      refine ⟨ch :: u, rest, by simp [e1], by simp [e2], ?_, e4, e5⟩
      intro c hm
      rcases List.mem_cons.1 hm with rfl | hm
      · simpa using hc
      · exact e3 c hm

theorem words_cons : ∀ (l : List Char) (x : Name) (xs : List Name), words l = x :: xs →
    ∃ pre rest, l = pre ++ x ++ rest ∧ (∀ ch ∈ pre, isWhite ch = true) ∧ x ≠ [] ∧ (∀ ch ∈ x, isWhite ch = false)
      ∧ (rest = [] ∨ ∃ c r, rest = c :: r ∧ isWhite c = true) ∧ words rest = xs
  | [], x, xs, h => by simp [words, wordsFrom] at h
  | ch :: l, x, xs, h => by
    unfold words at h
    rw [wordsFrom] at h
    split at h
    · rename_i hc
      simp only [if_true, List.nil_append] at h
      obtain ⟨pre, rest, e1, e2, e3⟩ := words_cons l x xs h
      refine ⟨ch :: pre, rest, by simp [e1], ?_, e3⟩
      intro c hm
      rcases List.mem_cons.1 hm with rfl | hm
      · exact hc
      · exact e2 c hm
    · rename_i hc
      rw [List.nil_append] at h
      obtain ⟨u, rest, e1, e2, e3, e4, e5⟩ := wordsFrom_word l [ch] x xs (by simp) h
      refine ⟨[], rest, by simp [e1, e2], by simp, by simp [e2], ?_, e4, e5⟩
      intro c hm
      rw [e2, List.singleton_append] at hm
      rcases List.mem_cons.1 hm with rfl | hm
      · simpa using hc
      · exact e3 c hm

/-- A number followed by another word. -/
theorem readU64_words (old n : Nat) (st : InStream) (x : Name) (xs : List Name) (hg : st.good = true)
    (h : words st.rest = printNat n :: x :: xs) (hn : n < 2 ^ 64) :
    ∃ st', readU64 old st = (n, st') ∧ st'.good = true ∧ words st'.rest = x :: xs := by
  obtain ⟨pre, rest, e1, e2, _, _, e5, e6⟩ := words_cons _ _ _ h
  rcases e5 with rfl | ⟨c, r, rfl, hc⟩
  · simp [words, wordsFrom] at e6
  · refine ⟨⟨c :: r, true⟩, ?_, rfl, e6⟩
    rw [← readU64_print old n pre r c e2 hc hn, ← e1]
    cases st with | mk a b => simp only at hg; rw [hg]

theorem readWord_words (st : InStream) (x : Name) (xs : List Name) (hg : st.good = true) (h : words st.rest = x :: xs) :
    ∃ st', readWord st = (x, st') ∧ (xs ≠ [] → st'.good = true) ∧ words st'.rest = xs := by
  obtain ⟨pre, rest, e1, e2, e3, e4, e5, e6⟩ := words_cons _ _ _ h
  have hd : st.rest.dropWhile isWhite = x ++ rest := by
    rw [e1, List.append_assoc, skip _ _ e2]
    cases x with
    | nil => exact absurd rfl e3
    | cons a x => rw [List.cons_append, List.dropWhile_cons, if_neg (by rw [e4 a (by simp)]; decide)]
  have ht : (x ++ rest).takeWhile (fun ch => !isWhite ch) = x ∧ (x ++ rest).dropWhile (fun ch => !isWhite ch) = rest := by
    clear * - e4 e5
    induction x with
    | nil =>
      rcases e5 with rfl | ⟨c, r, rfl, hc⟩
      · simp
      · simp [hc]
    | cons a x ih =>
      have ha := e4 a (by simp)
      obtain ⟨i1, i2⟩ := ih (fun ch hm => e4 ch (by simp [hm]))
      simp [ha, i1, i2]
  refine ⟨⟨rest, !rest.isEmpty⟩, ?_, fun hxs => ?_, e6⟩
  · unfold readWord
    rw [if_neg (by rw [hg]; decide)]
    simp only [hd, ht.1, ht.2]
    rw [if_neg (by simp [e3])]
  · cases rest with
    | nil => simp [words, wordsFrom] at e6; exact absurd (by simpa using e6) hxs
    | cons c r => rfl

/-- The named netlist of a Bristol circuit, without its gates. -/
def bristPorts (B : Bristol) : CircuitStr := { CircuitStr.empty with gInput := B.g, eInput := B.e, outputSize := B.out }

/-- The name of a wire. -/
def bname (B : Bristol) (w : Nat) : Name := bristWire w B.wires (bristPorts B)

/-- The named gate of a Bristol gate. -/
def bgate (B : Bristol) : BGate → GateStr
  | .and a b o => ⟨bname B a, bname B b, bname B o, ANDGATE⟩
  | .xor a b o => ⟨bname B a, bname B b, bname B o, XORGATE⟩
  | .inv a o => ⟨bname B a, [], bname B o, NOTGATE⟩

/-- The named netlist. -/
def bcircuit (B : Bristol) : CircuitStr := { bristPorts B with gates := B.gates.map (bgate B) }

/-- The numbers fit. -/
def small (g : BGate) : Prop := g.out < 2 ^ 64 ∧ ∀ a ∈ g.ins, a < 2 ^ 64

theorem parseBristGate_words (B : Bristol) (junk : Nat → Nat) (g : BGate) (hs : small g) (st : InStream) (xs : List Name)
    (hg : st.good = true) (h : words st.rest = g.text ++ xs) :
    ∃ st', parseBristGate (bristPorts B) B.wires junk st = some (bgate B g, st') ∧ (xs ≠ [] → st'.good = true)
      ∧ words st'.rest = xs := by
  have p1 : ['1'] = printNat 1 := by decide +kernel
  have p2 : ['2'] = printNat 2 := by decide +kernel
  have tA : bristType "AND".toList = some ANDGATE := by decide
  have tX : bristType "XOR".toList = some XORGATE := by decide
  have tI : bristType "INV".toList = some NOTGATE := by decide
  unfold parseBristGate
  cases g with
  | and a b o =>
    obtain ⟨ho, hi⟩ := hs
    have ha := hi a (by simp [BGate.ins])
    have hb := hi b (by simp [BGate.ins])
    simp only [BGate.text, List.cons_append, List.nil_append, p1, p2] at h
    obtain ⟨s1, e1, g1, w1⟩ := readU64_words (junk 0) 2 st _ _ hg h (by decide)
    obtain ⟨s2, e2, g2, w2⟩ := readU64_words (junk 1) 1 s1 _ _ g1 w1 (by decide)
    obtain ⟨s3, e3, g3, w3⟩ := readU64_words (junk 2) a s2 _ _ g2 w2 ha
    obtain ⟨s4, e4, g4, w4⟩ := readU64_words (junk 3) b s3 _ _ g3 w3 hb
    obtain ⟨s5, e5, g5, w5⟩ := readU64_words (junk 4) o s4 _ _ g4 w4 ho
    obtain ⟨s6, e6, g6, w6⟩ := readWord_words s5 _ _ g5 w5
    refine ⟨s6, ?_, g6, w6⟩
    simp only [e1, e2, e3, e4, e5, e6, tA, bgate, bname, Nat.reduceEqDiff, or_true, true_or, if_true, if_false, reduceIte, Nat.reduceLT]
    rfl
  | xor a b o =>
    obtain ⟨ho, hi⟩ := hs
    have ha := hi a (by simp [BGate.ins])
    have hb := hi b (by simp [BGate.ins])
    simp only [BGate.text, List.cons_append, List.nil_append, p1, p2] at h
    obtain ⟨s1, e1, g1, w1⟩ := readU64_words (junk 0) 2 st _ _ hg h (by decide)
    obtain ⟨s2, e2, g2, w2⟩ := readU64_words (junk 1) 1 s1 _ _ g1 w1 (by decide)
    obtain ⟨s3, e3, g3, w3⟩ := readU64_words (junk 2) a s2 _ _ g2 w2 ha
    obtain ⟨s4, e4, g4, w4⟩ := readU64_words (junk 3) b s3 _ _ g3 w3 hb
    obtain ⟨s5, e5, g5, w5⟩ := readU64_words (junk 4) o s4 _ _ g4 w4 ho
    obtain ⟨s6, e6, g6, w6⟩ := readWord_words s5 _ _ g5 w5
    refine ⟨s6, ?_, g6, w6⟩
    simp only [e1, e2, e3, e4, e5, e6, tX, bgate, bname, Nat.reduceEqDiff, or_true, true_or, if_true, if_false, reduceIte, Nat.reduceLT]
    rfl
  | inv a o =>
    obtain ⟨ho, hi⟩ := hs
    have ha := hi a (by simp [BGate.ins])
    simp only [BGate.text, List.cons_append, List.nil_append, p1] at h
    obtain ⟨s1, e1, g1, w1⟩ := readU64_words (junk 0) 1 st _ _ hg h (by decide)
    obtain ⟨s2, e2, g2, w2⟩ := readU64_words (junk 1) 1 s1 _ _ g1 w1 (by decide)
    obtain ⟨s3, e3, g3, w3⟩ := readU64_words (junk 2) a s2 _ _ g2 w2 ha
    obtain ⟨s5, e5, g5, w5⟩ := readU64_words (junk 4) o s3 _ _ g3 w3 ho
    obtain ⟨s6, e6, g6, w6⟩ := readWord_words s5 _ _ g5 w5
    refine ⟨s6, ?_, g6, w6⟩
    simp only [e1, e2, e3, e5, e6, tI, bgate, bname, Nat.reduceEqDiff, or_true, true_or, if_true, if_false, reduceIte, Nat.reduceLT]
    rfl

theorem parseBristGates_words (B : Bristol) (junk : Nat → Nat → Nat) : ∀ (gs : List BGate) (gid : Nat) (st : InStream),
    (∀ g ∈ gs, small g) → (gs ≠ [] → st.good = true) → words st.rest = gs.flatMap BGate.text →
    parseBristGates (bristPorts B) B.wires junk gs.length gid st = some (gs.map (bgate B))
  | [], _, _, _, _, _ => rfl
  | g :: gs, gid, st, hs, hg, h => by
    rw [List.flatMap_cons] at h
    obtain ⟨st', e, g', w⟩ := parseBristGate_words B (junk gid) g (hs g (by simp)) st _ (hg (by simp)) h
    have ih := parseBristGates_words B junk gs (gid + 1) st' (fun g hm => hs g (by simp [hm])) (fun hne => g' ?_) w
    · simp only [List.length_cons, parseBristGates]
      simp [e, ih]
    · intro hh
      cases gs with
      | nil => exact hne rfl
      | cons a gs => rw [List.flatMap_cons] at hh; cases a <;> simp [BGate.text] at hh

theorem _root_.TinyGarble.Spec.Bristol.Proper.smalls {B : Bristol} (P : B.Proper) : ∀ g ∈ B.gates, small g := by
  intro g hg
  have h2 := P.small
  have h3 := P.sizes
  refine ⟨by have := (P.drives g hg).2; omega, fun a ha => ?_⟩
  obtain ⟨i, hi, rfl⟩ := List.getElem_of_mem hg
  rcases P.reads i hi a ha with h | ⟨j, hj, rfl⟩
  · omega
  · have := (P.drives _ (List.getElem_mem (Nat.lt_trans hj hi))).2
    omega

/-- The numbers of the file fit. -/
structure BFits (B : Bristol) : Prop where
  some : 0 < B.gates.length
  few : B.gates.length < 2 ^ 64
  pos : 0 < B.wires
  wires : B.wires < 2 ^ 64
  g : B.g < 2 ^ 64
  e : B.e < 2 ^ 64
  out : B.out < 2 ^ 64
  gates : ∀ g ∈ B.gates, small g

theorem _root_.TinyGarble.Spec.Bristol.Proper.bfits {B : Bristol} (P : B.Proper) : BFits B := by
  have hsm := P.small
  have hfew := P.few
  have hsz := P.sizes
  have hdr := P.some
  have hin := P.inputs
  exact ⟨hdr, by omega, by omega, by omega, by omega, by omega, by omega, P.smalls⟩

theorem parseBrist_words {B : Bristol} (P : BFits B) (log : Bool) (file : List Char) (h : words file = B.text) (junk0 junk) :
    parseBrist log file junk0 junk = some (bcircuit B) := by
  obtain ⟨hdr, hfew, hpos, hw, hgi, hei, hout, hsm⟩ := P
  unfold Bristol.text at h
  simp only [List.cons_append, List.nil_append] at h
  obtain ⟨x, xs, hx⟩ : ∃ x xs, B.gates.flatMap BGate.text = x :: xs := by
    cases hgs : B.gates with
    | nil => rw [hgs] at hdr; simp at hdr
    | cons a gs => rw [List.flatMap_cons]; cases a <;> exact ⟨_, _, rfl⟩
  obtain ⟨s1, e1, g1, w1⟩ := readU64_words (junk0 0) _ ⟨file, true⟩ _ _ rfl h (by omega)
  obtain ⟨s2, e2, g2, w2⟩ := readU64_words (junk0 1) _ s1 _ _ g1 w1 (by omega)
  obtain ⟨s3, e3, g3, w3⟩ := readU64_words 0 _ s2 _ _ g2 w2 (by omega)
  obtain ⟨s4, e4, g4, w4⟩ := readU64_words 0 _ s3 _ _ g3 w3 (by omega)
  rw [hx] at w4
  obtain ⟨s5, e5, g5, w5⟩ := readU64_words 0 _ s4 _ _ g4 w4 (by omega)
  rw [← hx] at w5
  have hg := parseBristGates_words B junk B.gates 0 s5 hsm (fun _ => g5) w5
  unfold parseBrist
  simp only [e1, e2, e3, e4, e5]
  rw [if_neg (by omega)]
  unfold bristPorts at hg
  simp only [hg]
  rfl

end TinyGarble.Proof
