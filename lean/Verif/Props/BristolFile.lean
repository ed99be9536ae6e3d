import Verif.Proof.BristolFile
import Verif.Props.Bristol

/-! # C101: which files are read as Bristol circuits -/

namespace TinyGarble.Spec

/-- The number by which the code denotes a kind of gate. -/
def kindNumber (k : Name) : Int := if k = "AND".toList then ANDGATE else if k = "XOR".toList then XORGATE else NOTGATE

end TinyGarble.Spec

namespace TinyGarble.Proof
open TinyGarble TinyGarble.Spec

theorem words_white : ∀ {l : List Char}, words l = [] → ∀ c ∈ l, isWhite c = true
  | [], _, c, hc => nomatch hc
  | x :: l, h, c, hc => by
    cases hx : isWhite x with
    | true =>
      rw [words, wordsFrom, if_pos hx, if_pos rfl, List.nil_append] at h
      rcases List.mem_cons.1 hc with rfl | hc
      · exact hx
      · exact words_white h c hc
    | false =>
      exfalso
      rw [words, wordsFrom, if_neg (by rw [hx]; decide), List.nil_append] at h
      have : ∀ (l : List Char) (w : Name), w ≠ [] → wordsFrom w l ≠ [] := by
        intro l
        induction l with
        | nil => intro w hw; rw [wordsFrom, if_neg hw]; simp
        | cons y l ih =>
          intro w hw
          rw [wordsFrom]
          by_cases hy : isWhite y = true
          · rw [if_pos hy, if_neg hw]; simp
          · rw [if_neg hy]; exact ih _ (by simp)
      exact this l [x] (by simp) h

theorem gateAt_words {l r : List Char} {g : FileGate} (h : GateAt l g r) : words l ≠ [] := by
  intro hw
  obtain ⟨_, _, _, _, _, _, _, ⟨white, sign, ds, rfl, _, _, h0, hd, _⟩, _⟩ := h
  obtain ⟨d, ds', rfl⟩ := List.exists_cons_of_ne_nil h0
  have h1 := words_white hw d (by simp)
  have h2 := (bf_dec (hd d List.mem_cons_self)).1
  rw [h1] at h2
  cases h2

/-- More gates are to be read than are there. -/
theorem parseBristGates_short (B : Bristol) (junk : Nat → Nat → Nat) (k : Nat) : ∀ (gs : List BGate) (gid : Nat) (st : InStream),
    (∀ g ∈ gs, small g) → (gs ≠ [] → st.good = true) → words st.rest = gs.flatMap BGate.text →
    parseBristGates (bristPorts B) B.wires junk (gs.length + (k + 1)) gid st = none
  | [], gid, st, _, _, h => by
    cases e : parseBristGates (bristPorts B) B.wires junk (([] : List BGate).length + (k + 1)) gid st with
    | none => rfl
    | some xs =>
      obtain ⟨_, gs, r, h1, h2, _⟩ := (parseBristGates_iff ..).1 e
      cases gs with
      | nil => simp at h2
      | cons g gs =>
        obtain ⟨_, h1, _⟩ := h1
        exact absurd h (gateAt_words h1)
  | g :: gs, gid, st, hs, hg, h => by
    rw [List.flatMap_cons] at h
    obtain ⟨st', e, g', w⟩ := parseBristGate_words B (junk gid) g (hs g (by simp)) st _ (hg (by simp)) h
    have ih := parseBristGates_short B junk k gs (gid + 1) st' (fun g hm => hs g (by simp [hm])) (fun hne => g' ?_) w
    · rw [List.length_cons, Nat.add_right_comm, parseBristGates, e]
      change (parseBristGates (bristPorts B) B.wires junk (gs.length + (k + 1)) (gid + 1) st').bind _ = none
      rw [ih]
      rfl
    · intro hh
      cases gs with
      | nil => exact hne rfl
      | cons a gs => rw [List.flatMap_cons] at hh; cases a <;> simp [BGate.text] at hh

theorem numberAt_append {l r : List Char} {v : Nat} (h : NumberAt l v r) (x : List Char) : NumberAt (l ++ x) v (r ++ x) := by
  obtain ⟨white, sign, ds, rfl, hw, hs, h0, hd, ⟨c, t, rfl, hc⟩, hlt, hv⟩ := h
  exact ⟨white, sign, ds, by simp, hw, hs, h0, hd, ⟨c, t ++ x, rfl, hc⟩, hlt, hv⟩

theorem gateAt_append {l r : List Char} {g : FileGate} (h : GateAt l g r) (x : List Char) : GateAt (l ++ '\n' :: x) g (r ++ '\n' :: x) := by
  obtain ⟨n, m, r1, r2, r3, r4, r5, n1, n2, n3, hn, n5, white, e, hw, hk, hr⟩ := h
  refine ⟨n, m, _, _, _, _, _, numberAt_append n1 ('\n' :: x), numberAt_append n2 ('\n' :: x), numberAt_append n3 ('\n' :: x), ?_,
    numberAt_append n5 ('\n' :: x), white, by rw [e]; simp, hw, hk, Or.inr ?_⟩
  · rcases hn with ⟨h1, h2, h3⟩ | ⟨h1, b, h2, h3⟩
    · exact Or.inl ⟨h1, h2, by rw [h3]⟩
    · exact Or.inr ⟨h1, b, h2, numberAt_append h3 _⟩
  · rcases hr with rfl | ⟨c, t, rfl, hc⟩
    · exact ⟨'\n', x, rfl, by decide⟩
    · exact ⟨c, _, rfl, hc⟩

theorem gatesAt_append {r : List Char} (x : List Char) : ∀ {l : List Char} {gs : List FileGate}, GatesAt l gs r → GatesAt (l ++ '\n' :: x) gs (r ++ '\n' :: x)
  | _, [], h => congrArg (· ++ '\n' :: x) h
  | _, _ :: _, ⟨m, h1, h2⟩ => ⟨m ++ '\n' :: x, gateAt_append h1 x, gatesAt_append x h2⟩

theorem kindType_eq {k : Name} (h : k ∈ ["AND".toList, "XOR".toList, "INV".toList]) : kindType k = kindNumber k := by
  revert k
  decide

theorem gatesAt_kinds {r : List Char} : ∀ {l : List Char} {gs : List FileGate}, GatesAt l gs r →
    ∀ g ∈ gs, g.kind ∈ ["AND".toList, "XOR".toList, "INV".toList]
  | _, [], _, g, hg => nomatch hg
  | _, _ :: _, ⟨_, h1, h2⟩, g, hg => by
    rcases List.mem_cons.1 hg with rfl | hg
    · obtain ⟨_, _, _, _, _, _, _, _, _, _, _, _, _, _, _, hk, _⟩ := h1
      exact hk
    · exact gatesAt_kinds h2 g hg

end TinyGarble.Proof

namespace TinyGarble.Props
open TinyGarble TinyGarble.Spec TinyGarble.Proof

/-- C101, exactly which files are read, and as what: those that begin with five sizes and as many gates as announced. The wires of the gates are
named as in C32. Missing: that the number of inputs fits the kind of the gate and that nothing follows the last gate, which is false (`C101_false_arity`,
`C101_false_superfluous`). -/
theorem C101_read_iff_partial (file : List Char) (junk0 : Nat → Nat) (junk : Nat → Nat → Nat) (s : CircuitStr) :
    parseBrist true file junk0 junk = some s ↔ ∃ B, BristolAt file B ∧ s = { bristSizes B.g B.e B.out with
      gates := B.gates.map fun g => ⟨bristWire g.first B.wires (bristSizes B.g B.e B.out),
        (match g.second with
          | none => []
          | some b => bristWire b B.wires (bristSizes B.g B.e B.out)),
        bristWire g.output B.wires (bristSizes B.g B.e B.out), kindNumber g.kind⟩ } := by
  constructor
  · intro h
    unfold parseBrist at h
    dsimp only at h
    cases e1 : readU64 (junk0 0) ⟨file, true⟩ with | mk n s1 =>
    cases e2 : readU64 (junk0 1) s1 with | mk w s2 =>
    cases e3 : readU64 0 s2 with | mk g s3 =>
    cases e4 : readU64 0 s3 with | mk e s4 =>
    cases e5 : readU64 0 s4 with | mk o s5 =>
    simp only [e1, e2, e3, e4, e5] at h
    by_cases h0 : n = 0 ∨ w = 0
    · rw [if_pos ⟨trivial, h0⟩] at h; cases h
    rw [if_neg (fun hh => h0 hh.2)] at h
    have hn : n ≠ 0 := fun hh => h0 (Or.inl hh)
    change (parseBristGates (bristSizes g e o) w junk n 0 s5).bind _ = _ at h
    cases e6 : parseBristGates (bristSizes g e o) w junk n 0 s5 with
    | none => rw [e6] at h; cases h
    | some xs =>
      rw [e6] at h
      have h := Option.some.inj h
      obtain ⟨g5, gs, r, b1, b2, b3⟩ := (parseBristGates_iff ..).1 e6
      obtain ⟨g4, n5⟩ := readU64_good e5 (g5 hn)
      obtain ⟨g3, n4⟩ := readU64_good e4 g4
      obtain ⟨g2, n3⟩ := readU64_good e3 g3
      obtain ⟨g1, n2⟩ := readU64_good e2 g2
      obtain ⟨-, n1⟩ := readU64_good e1 g1
      refine ⟨⟨w, g, e, o, gs⟩, ⟨_, _, _, _, _, r, by rw [b2]; exact n1, n2, n3, n4, n5, b1, ?_, fun hh => h0 (Or.inr hh)⟩, ?_⟩
      · rintro rfl; exact hn b2.symm
      · rw [← h, b3]
        dsimp only
        congr 1
        refine List.map_congr_left fun x hx => ?_
        rw [fileGate, kindType_eq (gatesAt_kinds b1 x hx)]
        cases x.second <;> rfl
  · rintro ⟨⟨w, g, e, o, gs⟩, ⟨r1, r2, r3, r4, r5, r, n1, n2, n3, n4, n5, hg, h0, hw⟩, rfl⟩
    dsimp only at n1 n2 n3 n4 n5 hg h0 hw ⊢
    unfold parseBrist
    dsimp only
    rw [readU64_numberAt _ n1]
    dsimp only
    rw [readU64_numberAt _ n2]
    dsimp only
    have hl : gs.length ≠ 0 := fun hh => h0 (List.length_eq_zero_iff.1 hh)
    rw [if_neg (fun hh => hh.2.elim hl hw), readU64_numberAt _ n3]
    dsimp only
    rw [readU64_numberAt _ n4]
    dsimp only
    rw [readU64_numberAt _ n5]
    change (parseBristGates (bristSizes g e o) w junk gs.length 0 ⟨r5, true⟩).bind _ = _
    rw [(parseBristGates_iff (bristSizes g e o) w junk gs.length 0 ⟨r5, true⟩ _).2 ⟨fun _ => rfl, gs, r, hg, rfl, rfl⟩]
    change some _ = some _
    dsimp only
    congr 2
    refine List.map_congr_left fun x hx => ?_
    rw [fileGate, kindType_eq (gatesAt_kinds hg x hx)]
    cases x.second <;> rfl

/-- C101: what is read does not depend on the variables that `ParseBrisNetlist` does not initialise, even when reading them fails. -/
theorem C101_no_junk (file : List Char) (junk0 junk0' : Nat → Nat) (junk junk' : Nat → Nat → Nat) :
    parseBrist true file junk0 junk = parseBrist true file junk0' junk' := by
  refine Option.ext fun s => ?_
  rw [C101_read_iff_partial, C101_read_iff_partial]

/-- C101: any other file is refused, no circuit file is written. -/
theorem C101_refused {file : List Char} (h : ¬ ∃ B, BristolAt file B) (junk0 junk) : brist2Scd file junk0 junk = some none := by
  unfold brist2Scd
  cases e : parseBrist true file junk0 junk with
  | none => rfl
  | some s =>
    obtain ⟨B, hB, _⟩ := (C101_read_iff_partial ..).1 e
    exact absurd ⟨B, hB⟩ h

/-- C101: when there are fewer gates than announced the file is refused. -/
theorem C101_missing {B : Bristol} (F : BFits B) {n : Nat} (hn : B.gates.length < n) (hb : n < 2 ^ 64) (file : List Char)
    (h : words file = [printNat n, printNat B.wires, printNat B.g, printNat B.e, printNat B.out] ++ B.gates.flatMap BGate.text) (junk0 junk) :
    brist2Scd file junk0 junk = some none := by
  have hne : B.gates.flatMap BGate.text ≠ [] := by
    cases hg : B.gates with
    | nil => have := F.some; rw [hg] at this; cases this
    | cons a gs => rw [List.flatMap_cons]; cases a <;> simp [BGate.text]
  obtain ⟨x, xs, hx⟩ := List.exists_cons_of_ne_nil hne
  have hp : parseBrist true file junk0 junk = none := by
    rw [hx] at h
    simp only [List.cons_append, List.nil_append] at h
    obtain ⟨s1, e1, g1, w1⟩ := readU64_words (junk0 0) n ⟨file, true⟩ _ _ rfl h hb
    obtain ⟨s2, e2, g2, w2⟩ := readU64_words (junk0 1) B.wires s1 _ _ g1 w1 F.wires
    obtain ⟨s3, e3, g3, w3⟩ := readU64_words 0 B.g s2 _ _ g2 w2 F.g
    obtain ⟨s4, e4, g4, w4⟩ := readU64_words 0 B.e s3 _ _ g3 w3 F.e
    obtain ⟨s5, e5, g5, w5⟩ := readU64_words 0 B.out s4 _ _ g4 w4 F.out
    unfold parseBrist
    dsimp only
    simp only [e1, e2, e3, e4, e5]
    split
    · rfl
    · change (parseBristGates (bristPorts B) B.wires junk n 0 s5).bind _ = none
      have := parseBristGates_short B junk (n - B.gates.length - 1) B.gates 0 s5 F.gates (fun _ => g5) (by rw [w5, hx])
      rw [show B.gates.length + (n - B.gates.length - 1 + 1) = n by omega] at this
      rw [this]
      rfl
  unfold brist2Scd
  rw [hp]

/-- C101 fails: after an accepted file and a line break anything may follow, more gates for example; it is ignored. -/
theorem C101_false_superfluous {file : List Char} {s : CircuitStr} (junk0 junk) (h : parseBrist true file junk0 junk = some s) (more : List Char) :
    parseBrist true (file ++ '\n' :: more) junk0 junk = some s := by
  rw [C101_read_iff_partial] at h ⊢
  obtain ⟨B, ⟨r1, r2, r3, r4, r5, r, n1, n2, n3, n4, n5, hg, h0, hw⟩, hs⟩ := h
  exact ⟨B, ⟨_, _, _, _, _, _, numberAt_append n1 _, numberAt_append n2 _, numberAt_append n3 _, numberAt_append n4 _, numberAt_append n5 _,
    gatesAt_append more hg, h0, hw⟩, hs⟩

example : (parseBrist true "1 3\n1 1 1\n2 1 0 1 2 AND".toList (fun _ => 0) (fun _ _ => 0)).isSome = true := by decide +kernel

/-- C101 fails: an AND gate with a single input is accepted, and the number of its second input, to be written to the circuit file, is -1; an INV gate
with two inputs is accepted as well. -/
theorem C101_false_arity (junk0 junk) :
    (∃ s, parseBrist true "1 3\n1 1 1\n1 1 0 2 AND\n".toList junk0 junk = some s ∧ (idAssignment true s).map (·.gates) = some [⟨0, -1, 2, ANDGATE⟩])
    ∧ ∃ s, parseBrist true "1 3\n1 1 1\n2 1 0 1 2 INV\n".toList junk0 junk = some s
      ∧ (idAssignment true s).map (·.gates) = some [⟨0, 1, 2, NOTGATE⟩] := by
  rw [C101_no_junk _ junk0 (fun _ => 0) junk (fun _ _ => 0), C101_no_junk _ junk0 (fun _ => 0) junk (fun _ _ => 0)]
  refine ⟨⟨{ bristSizes 1 1 1 with gates := [⟨"g_input[0]".toList, [], "o[0]".toList, ANDGATE⟩] }, ?_, ?_⟩,
    ⟨{ bristSizes 1 1 1 with gates := [⟨"g_input[0]".toList, "e_input[0]".toList, "o[0]".toList, NOTGATE⟩] }, ?_, ?_⟩⟩ <;> decide +kernel

/-- A file with a gate of another kind. -/
theorem bristolWithOr : ¬ ∃ B, BristolAt "1 3\n1 1 1\n2 1 0 1 2 OR\n".toList B := by
  rintro ⟨B, hB⟩
  have h := (C101_read_iff_partial _ (fun _ => 0) (fun _ _ => 0) _).2 ⟨B, hB, rfl⟩
  have e : parseBrist true "1 3\n1 1 1\n2 1 0 1 2 OR\n".toList (fun _ => 0) (fun _ _ => 0) = none := by decide +kernel
  rw [e] at h
  cases h

example (junk0 junk) : brist2Scd "1 3\n1 1 1\n2 1 0 1 2 OR\n".toList junk0 junk = some none := C101_refused bristolWithOr junk0 junk

example : words "2 3\n1 1 1\n2 1 0 1 2 AND\n".toList
    = [printNat 2, printNat 3, printNat 1, printNat 1, printNat 1] ++ [BGate.and 0 1 2].flatMap BGate.text := by decide +kernel

end TinyGarble.Props
