import Verif.Model.Csv
import Verif.Spec.Csv
import Verif.Props.Mapping
import Verif.Props.InputFile
import Verif.Props.EndToEnd
import Mathlib.Data.List.TakeWhile
import Mathlib.Data.List.Basic

/-! # Lemmas about the file with the values of the wires -/

namespace TinyGarble.Proof
open TinyGarble Spec Props

theorem blankPieces_end {w l : List Char} (hw : w ++ l ≠ []) (h : ∀ ch ∈ l, ch ≠ ' ' ∧ ch ≠ '\t') : blankPieces w l = [w ++ l] := by
  induction l generalizing w with
  | nil =>
    rw [List.append_nil] at hw
    rw [blankPieces, if_neg hw, List.append_nil]
  | cons ch l ih =>
    have hc := h ch List.mem_cons_self
    rw [blankPieces, if_neg (by rintro (e | e); exacts [hc.1 e, hc.2 e]), ih (by simp) (fun c hl => h c (List.mem_cons_of_mem _ hl))]
    simp

theorem blankPieces_word {w l r : List Char} (hw : w ++ l ≠ []) (h : ∀ ch ∈ l, ch ≠ ' ' ∧ ch ≠ '\t') :
    blankPieces w (l ++ ' ' :: r) = (w ++ l) :: blankPieces [] r := by
  induction l generalizing w with
  | nil =>
    rw [List.append_nil] at hw
    rw [List.nil_append, blankPieces, if_pos (.inl rfl), if_neg hw, List.append_nil]
    rfl
  | cons ch l ih =>
    have hc := h ch List.mem_cons_self
    rw [List.cons_append, blankPieces, if_neg (by rintro (e | e); exacts [hc.1 e, hc.2 e]), ih (by simp) (fun c hl => h c (List.mem_cons_of_mem _ hl))]
    simp

theorem dec_plain {ch : Char} (h : isDec ch = true) : ch ≠ ' ' ∧ ch ≠ '\t' ∧ ch ≠ '\n' := by
  refine ⟨?_, ?_, ?_⟩ <;> rintro rfl <;> revert h <;> decide

theorem atoi_printNat {n : Nat} (h : n < 2 ^ 31) : atoi (printNat n) = some (n : Int) := by
  have hd := printNat_isDec n
  have hne := printNat_ne n
  have hdw : (printNat n).dropWhile isWhite = printNat n := by
    cases e : printNat n with
    | nil => rfl
    | cons ch l =>
      rw [e] at hd
      have h1 : isWhite ch = false := by
        by_contra hw
        have := space_not_dec (w := ch) (by simpa using hw)
        rw [hd ch List.mem_cons_self] at this
        cases this
      simp [h1]
  have hhd : ∀ ch, isDec ch = false → (printNat n).head? ≠ some ch := by
    intro ch hf e
    have := hd ch (List.mem_of_mem_head? e)
    rw [hf] at this
    cases this
  have htw : (printNat n).takeWhile isDec = printNat n := by
    have := List.takeWhile_append_of_pos (l₂ := []) hd
    simpa using this
  unfold atoi
  simp only [hdw]
  have e1 := hhd '-' (by decide)
  have e2 := hhd '+' (by decide)
  simp only [e1, e2, or_self, if_false, decide_false, htw, decValue_printNat]
  rw [show (if false = true then -(n : Int) else (n : Int)) = n from rfl, if_pos (by omega)]

/-- The line of the mapping file for a wire. -/
def mapEntry (e : Name × Nat) : List Char := e.1 ++ ' ' :: printNat e.2

def Clean (n : Name) : Prop := n ≠ [] ∧ ∀ ch ∈ n, ch ≠ ' ' ∧ ch ≠ '\t' ∧ ch ≠ '\n'

theorem clean_terminate : Clean "terminate".toList := ⟨by decide, by decide⟩

theorem mapEntry_pieces {e : Name × Nat} (h : Clean e.1) : blankPieces [] (mapEntry e) = [e.1, printNat e.2] := by
  unfold mapEntry
  rw [blankPieces_word (by simpa using h.1) (fun ch hc => ⟨(h.2 ch hc).1, (h.2 ch hc).2.1⟩),
    blankPieces_end (by simpa using printNat_ne e.2) (fun ch hc => ⟨(dec_plain (printNat_isDec _ ch hc)).1, (dec_plain (printNat_isDec _ ch hc)).2.1⟩)]
  simp

theorem mapping_lines {entries : List (Name × Nat)} (h : ∀ e ∈ entries, Clean e.1) (term : Nat) :
    getLines (mappingText entries term) = (entries ++ [("terminate".toList, term)]).map mapEntry := by
  refine getLines_text ?_ (.inl ?_)
  · intro l hl
    obtain ⟨e, he, rfl⟩ := List.mem_map.1 hl
    have hc : Clean e.1 := by
      rcases List.mem_append.1 he with he | he
      · exact h e he
      · rw [List.mem_singleton.1 he]
        exact clean_terminate
    unfold mapEntry
    intro hn
    rcases List.mem_append.1 hn with hn | hn
    · exact (hc.2 _ hn).2.2 rfl
    · rcases List.mem_cons.1 hn with hn | hn
      · cases hn
      · exact (dec_plain (printNat_isDec _ _ hn)).2.2 rfl
  · unfold mappingText
    rw [List.flatMap_map, List.flatMap_append]
    simp [List.flatMap_def, mapEntry]

theorem names_entries {entries : List (Name × Nat)} (h : ∀ e ∈ entries, Clean e.1) (term : Nat) :
    csvNames ((entries ++ [("terminate".toList, term)]).map mapEntry) =
      some (((entries.map (·.1)).takeWhile (· ≠ "terminate".toList)).flatMap (· ++ ['\t'])) := by
  induction entries with
  | nil =>
    show csvNames [mapEntry ("terminate".toList, term)] = _
    rw [csvNames, mapEntry_pieces clean_terminate]
    rfl
  | cons e entries ih =>
    rw [List.cons_append, List.map_cons, csvNames, mapEntry_pieces (h e List.mem_cons_self), List.map_cons]
    simp only
    by_cases he : e.1 = "terminate".toList
    · rw [if_pos he, List.takeWhile_cons_of_neg (by rw [decide_eq_true_iff]; exact fun hn => hn he)]
      rfl
    · rw [if_neg he, ih (fun e he => h e (List.mem_cons_of_mem _ he)), List.takeWhile_cons_of_pos (by rw [decide_eq_true_iff]; exact he)]
      rw [List.flatMap_cons]
      rfl

theorem values_entries {entries : List (Name × Nat)} (h : ∀ e ∈ entries, Clean e.1) {ws : Nat} (hw : ∀ e ∈ entries, e.2 < ws) (hs : ws ≤ 2 ^ 31)
    (term : Nat) (wires : Nat → Bool) (u : Name → Bool) (hu : ∀ e ∈ entries, wires e.2 = u e.1) :
    csvValues ws wires ((entries ++ [("terminate".toList, term)]).map mapEntry) =
      some ((((entries.map (·.1)).takeWhile (· ≠ "terminate".toList)).map u).flatMap (fun b => if b then "1, ".toList else "0, ".toList)) := by
  induction entries with
  | nil =>
    show csvValues ws wires [mapEntry ("terminate".toList, term)] = _
    rw [csvValues, mapEntry_pieces clean_terminate]
    rfl
  | cons e entries ih =>
    rw [List.cons_append, List.map_cons, csvValues, mapEntry_pieces (h e List.mem_cons_self), List.map_cons]
    simp only
    have hlt := hw e List.mem_cons_self
    by_cases he : e.1 = "terminate".toList
    · rw [if_pos he, List.takeWhile_cons_of_neg (by rw [decide_eq_true_iff]; exact fun hn => hn he)]
      rfl
    · rw [if_neg he, atoi_printNat (by omega), ih (fun e he => h e (List.mem_cons_of_mem _ he)) (fun e he => hw e (List.mem_cons_of_mem _ he))
        (fun e he => hu e (List.mem_cons_of_mem _ he)), List.takeWhile_cons_of_pos (by rw [decide_eq_true_iff]; exact he)]
      simp only
      rw [if_pos (by omega), Int.toNat_natCast, hu e List.mem_cons_self, List.map_cons, List.flatMap_cons]
      rfl

/-- What is in the array before a cycle. -/
def wiresBefore (c : Circuit) (x : Inputs) (w0 : Nat → Bool) : Nat → Nat → Bool
  | 0 => w0
  | k + 1 => plainWires c x w0 k

theorem plainWires_before (c : Circuit) (x : Inputs) (w0 : Nat → Bool) (k : Nat) : plainCycle c x k (wiresBefore c x w0 k) = plainWires c x w0 k := by
  cases k <;> rfl

theorem plainLoop_ge (c : Circuit) (x : Inputs) (T n : Nat) : ∀ cid w out, cid ≤ (plainLoop c x T n cid w out).2 := by
  induction n with
  | zero => intro cid w out; exact Nat.le_refl _
  | succ n ih =>
    intro cid w out
    rw [plainLoop]
    split
    · exact Nat.le_succ _
    · exact Nat.le_trans (Nat.le_succ _) (ih ..)

theorem plainLoop_gt (c : Circuit) (x : Inputs) (T n cid : Nat) (w out) : cid < (plainLoop c x T (n + 1) cid w out).2 := by
  rw [plainLoop]
  split
  · exact Nat.lt_succ_self _
  · exact plainLoop_ge ..

theorem csvLoop_eq {c : Circuit} {x : Inputs} {T : Nat} {lines : List (List Char)} {names : List Char} (hn : csvNames lines = some names)
    {w0 : Nat → Bool} {vals : Nat → List Char} (hv : ∀ t, csvValues c.wireSize (plainWires c x w0 t) lines = some (vals t)) (n : Nat) :
    ∀ cid out, csvLoop c x T lines n cid (wiresBefore c x w0 cid) =
      some ((List.range' cid ((plainLoop c x T (n + 1) cid (wiresBefore c x w0 cid) out).2 - 1 - cid)).flatMap fun t =>
        (if t = 0 then "cid, ".toList ++ names ++ ['\n'] else []) ++ (printNat t ++ ", ".toList ++ vals t ++ ['\n'])) := by
  induction n with
  | zero =>
    intro cid out
    rw [csvLoop, plainLoop]
    split
    · simp
    · simp [plainLoop]
  | succ n ih =>
    intro cid out
    rw [csvLoop, plainLoop]
    simp only
    rw [plainWires_before]
    split
    · simp
    · have hw : plainWires c x w0 cid = wiresBefore c x w0 (cid + 1) := rfl
      rw [hv]
      conv_lhs => rw [hw]
      have hgt := plainLoop_gt c x T n (cid + 1) (plainWires c x w0 cid) (plainOutputs c cid (plainWires c x w0 cid) out)
      rw [ih (cid + 1) (plainOutputs c cid (plainWires c x w0 cid) out), ← hw]
      generalize (plainLoop c x T (n + 1) (cid + 1) (plainWires c x w0 cid) (plainOutputs c cid (plainWires c x w0 cid) out)).2 = m at hgt
      obtain ⟨d, hd⟩ : ∃ d, m = cid + 2 + d := ⟨m - (cid + 2), by omega⟩
      subst hd
      rw [show cid + 2 + d - 1 - cid = d + 1 from by omega, show cid + 2 + d - 1 - (cid + 1) = d from by omega, List.range'_succ, List.flatMap_cons]
      by_cases h0 : cid = 0
      · rw [if_pos h0, if_pos h0, hn]
        rfl
      · rw [if_neg h0, if_neg h0]
        rfl

theorem compiled_wireSize {s : CircuitStr} {file : List Char} (L : Legal s) (h : compile s = some (some file))
    (h0 : 0 < drivers s - s.gates.length) (hw : drivers s < 2 ^ 31) (ho : s.outputSize < 2 ^ 64) (mem : Circuit) :
    (readScd file mem).wireSize = drivers s := by
  obtain ⟨c, c', hc, hs, hf⟩ := compile_some h
  have A := idAssignment_assigned hc
  have hd := drivers_eq s
  have hg := A.gates
  have wf : NetlistWF c := A.netlistWF L (by rw [A.iid]; omega) (by omega) hs
  obtain ⟨order, inv, π, σ, hord, R, e⟩ := sortNetlist_eq wf
  obtain ⟨file', ef, hsame⟩ := C27_roundtrip_partial (R.writable hord wf (A.fits hw ho))
  rw [hs] at e
  obtain rfl : c' = renumbered c order π := by simpa using e
  rw [hf] at ef
  obtain rfl : file = file' := by simpa using ef
  have hcb : cellBase s = s.pInit + s.gInit + s.eInit + s.pInput + s.gInput + s.eInput := rfl
  have hh := hsame mem
  have i1 : (readScd file mem).initSize = inBase s := by
    unfold Circuit.initSize
    rw [hh.pInit, hh.gInit, hh.eInit]
    exact A.initSize
  unfold Circuit.wireSize Circuit.inputSize
  rw [i1, hh.pInput, hh.gInput, hh.eInput, hh.dffSize, hh.gateSize]
  simp only [scheduled, asCircuit, renumbered, List.length_map, List.length_range]
  rw [A.pInput, A.gInput, A.eInput, A.dffs, A.gates, hd, hcb]
  unfold inBase
  omega

theorem lexeme_chars (l : List Char) : ∀ w, (∀ ch ∈ w, separates ch = false) → ∀ x ∈ lexemesFrom w l, ∀ ch ∈ x, separates ch = false := by
  induction l with
  | nil =>
    intro w hw x hx
    rw [lexemesFrom, flush] at hx
    split at hx
    · cases hx
    · rw [List.mem_singleton.1 hx]; exact hw
  | cons a l ih =>
    intro w hw x hx
    have hf : x ∈ flush w → ∀ ch ∈ x, separates ch = false := by
      intro hx
      unfold flush at hx
      split at hx
      · cases hx
      · rw [List.mem_singleton.1 hx]; exact hw
    rw [lexemesFrom] at hx
    split at hx
    · rcases List.mem_append.1 hx with hx | hx
      · exact hf hx
      · exact ih [] (fun _ h => by cases h) x hx
    · rename_i hs
      split at hx
      · rcases List.mem_append.1 hx with hx | hx
        · rcases List.mem_append.1 hx with hx | hx
          · exact hf hx
          · rw [List.mem_singleton.1 hx]
            decide
        · exact ih [] (fun _ h => by cases h) x hx
      · refine ih _ (fun ch hc => ?_) x hx
        rcases List.mem_append.1 hc with hc | hc
        · exact hw ch hc
        · rw [List.mem_singleton.1 hc]
          simpa using hs

theorem not_separates {ch : Char} (h : separates ch = false) : ch ≠ ' ' ∧ ch ≠ '\t' ∧ ch ≠ '\n' := by
  refine ⟨?_, ?_, ?_⟩ <;> rintro rfl <;> revert h <;> decide

theorem midPrefix_clean : ∀ j : Fin 5, ∀ ch ∈ midPrefix j, ch ≠ ' ' ∧ ch ≠ '\t' ∧ ch ≠ '\n' := by decide +kernel

/-- The names of the cells of a Verilog module are words or made up. -/
theorem verilog_clean {items : List Item} (P : ProperModule items) {file : List Char} (hf : WrittenIn items file) : CleanNames (moduleNet items) := by
  have words : ∀ c ∈ cells items, ∀ p n, c.net p = some n → n ≠ [] ∧ ∀ ch ∈ n, ch ≠ ' ' ∧ ch ≠ '\t' ∧ ch ≠ '\n' := by
    intro c hc p n hn
    refine ⟨net_ne (cell_proper P hc) hn, fun ch hch => not_separates ?_⟩
    unfold Cell.net at hn
    obtain ⟨k, hk, hn⟩ := Option.bind_eq_some_iff.1 hn
    have hk := List.mem_of_find?_eq_some hk
    unfold Conn.net at hn
    split at hn
    · cases hn
    · cases hn
      obtain ⟨piece, hp, hch⟩ := List.mem_flatten.1 hch
      obtain ⟨rest, hr⟩ := hf
      unfold cells at hc
      obtain ⟨i, hi, hic⟩ := List.mem_filterMap.1 hc
      have hcell : i = .cell c := by
        cases i <;> simp [Item.cell?] at hic
        rw [hic]
      subst hcell
      have hm : piece ∈ lexemes file := by
        rw [hr]
        refine List.mem_append_left _ (List.mem_flatMap.2 ⟨_, hi, List.mem_append_left _ ?_⟩)
        refine List.mem_cons_of_mem _ (List.mem_cons_of_mem _ (List.mem_flatMap.2 ⟨k, hk, List.mem_cons_of_mem _ hp⟩))
      exact lexeme_chars file [] (fun _ h => by cases h) piece hm ch hch
  intro n hn
  rcases hn with ⟨g, hg, rfl⟩ | ⟨g, hg, rfl⟩
  · obtain ⟨c, hc, hk, rfl⟩ := dff_cell hg
    exact words c hc "Q" _ (net_netAt (net_out (cell_proper P hc) hk))
  · obtain ⟨e, he, hg⟩ := List.mem_flatMap.1 hg
    have hc := (locate_mem he).2
    rcases (cell_facts (cell_proper P hc) hg).drives with ⟨j, e'⟩ | ⟨p, hp, e'⟩
    · rw [e']
      refine ⟨fun h => printNat_ne _ (List.append_eq_nil_iff.1 h).2, fun ch hch => ?_⟩
      rcases List.mem_append.1 hch with hch | hch
      · exact midPrefix_clean j ch hch
      · exact dec_plain (printNat_isDec _ ch hch)
    · exact words e.2 hc p _ e'

/-- Every net that a cell drives is the output of a gate or flip-flop. -/
theorem cell_output {items : List Item} {n : Name} (h : VOutput items n) : CellOutput (moduleNet items) n := by
  obtain ⟨c, hc, p, hp, hn⟩ := h
  have hat : netAt c p = n := by unfold netAt; rw [hn]; rfl
  obtain ⟨i, hi⟩ := locate_of_mem hc 0
  have gate : (∃ g ∈ cellGates i c, n = g.output) → CellOutput (moduleNet items) n := fun ⟨g, hg, e⟩ =>
    .inr ⟨g, List.mem_flatMap.2 ⟨_, hi, hg⟩, e⟩
  cases hk : c.kind
  case dff =>
    rw [hk] at hp
    obtain rfl := List.mem_singleton.1 hp
    refine .inl ⟨⟨netAt c "D", netAt c "I", netAt c "Q", DFFGATE⟩, List.mem_flatMap.2 ⟨c, hc, ?_⟩, hat.symm⟩
    unfold cellDffs
    rw [if_pos hk]
    exact List.mem_singleton.2 rfl
  case mux =>
    rw [hk] at hp
    obtain rfl := List.mem_singleton.1 hp
    refine gate ?_
    unfold cellGates
    rw [hk]
    simp only [muxGates]
    exact ⟨_, List.mem_cons_of_mem _ (List.mem_cons_of_mem _ (List.mem_singleton.2 rfl)), by first | exact hat.symm | rfl⟩
  case hadder =>
    rw [hk] at hp
    have hp : p = "SUM" ∨ p = "COUT" := by simpa [CellKind.outputs] using hp
    rcases hp with rfl | rfl
    · refine gate ?_
      unfold cellGates
      rw [hk]
      simp only [hadderGates, hn]
      exact ⟨_, List.mem_append_left _ (List.mem_singleton.2 rfl), by first | exact hat.symm | rfl⟩
    · refine gate ?_
      unfold cellGates
      rw [hk]
      simp only [hadderGates, hn]
      exact ⟨_, List.mem_append_right _ (List.mem_singleton.2 rfl), by first | exact hat.symm | rfl⟩
  case fadder =>
    rw [hk] at hp
    have hp : p = "SUM" ∨ p = "COUT" := by simpa [CellKind.outputs] using hp
    rcases hp with rfl | rfl
    · refine gate ?_
      unfold cellGates
      rw [hk]
      simp only [fadderGates, hn]
      exact ⟨_, List.mem_append_left _ (List.mem_append_right _ (List.mem_singleton.2 rfl)), by first | exact hat.symm | rfl⟩
    · refine gate ?_
      unfold cellGates
      rw [hk]
      simp only [fadderGates, hn]
      exact ⟨_, List.mem_append_right _ (List.mem_cons_of_mem _ (List.mem_cons_of_mem _ (List.mem_singleton.2 rfl))), by first | exact hat.symm | rfl⟩
  all_goals
    rw [hk] at hp
    obtain rfl := List.mem_singleton.1 hp
    refine gate ?_
    unfold cellGates
    rw [hk]
    exact ⟨_, List.mem_singleton.2 rfl, by exact hat.symm⟩

end TinyGarble.Proof
