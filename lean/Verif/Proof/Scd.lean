import Verif.Model.Scd
import Verif.Spec.Netlist
import Verif.Proof.SortNet

/-! # Circuit files: lemmas -/

namespace TinyGarble.Proof
open TinyGarble.Spec

theorem decDigit_toNat : ∀ d < 10, (decDigit d).toNat = 48 + d := by decide

theorem isDec_decDigit {d : Nat} (h : d < 10) : isDec (decDigit d) = true := by
  unfold isDec; rw [decDigit_toNat d h]; simp; omega

theorem printNat_isDec (n : Nat) : ∀ ch ∈ printNat n, isDec ch = true := by
  induction n using Nat.strongRecOn with
  | _ n ih =>
    rw [printNat]
    split
    · intro ch h
      rw [List.mem_singleton.mp h]
      exact isDec_decDigit (by omega)
    · intro ch h
      rcases List.mem_append.mp h with h | h
      · exact ih (n / 10) (by omega) ch h
      · rw [List.mem_singleton.mp h]
        exact isDec_decDigit (by omega)

theorem printNat_ne (n : Nat) : printNat n ≠ [] := by
  rw [printNat]; split <;> simp

theorem decValue_printNat (n : Nat) : decValue (printNat n) = n := by
  induction n using Nat.strongRecOn with
  | _ n ih =>
    rw [printNat]
    split
    · unfold decValue
      simp only [List.foldl_cons, List.foldl_nil]
      rw [decDigit_toNat n (by omega)]
      omega
    · unfold decValue
      rw [List.foldl_append]
      simp only [List.foldl_cons, List.foldl_nil]
      have := ih (n / 10) (by omega)
      unfold decValue at this
      rw [this, decDigit_toNat _ (by omega)]
      omega

theorem takeDrop (ds : List Char) (w : Char) (rest : List Char) (h : ∀ ch ∈ ds, isDec ch = true) (hw : isDec w = false) :
    (ds ++ w :: rest).takeWhile isDec = ds ∧ (ds ++ w :: rest).dropWhile isDec = w :: rest := by
  rw [List.takeWhile_append_of_pos h, List.dropWhile_append_of_pos h]
  simp [List.takeWhile_cons, List.dropWhile_cons, hw]

theorem skip (pre t : List Char) (h : ∀ ch ∈ pre, isWhite ch = true) : (pre ++ t).dropWhile isWhite = t.dropWhile isWhite :=
  List.dropWhile_append_of_pos h

theorem space_not_dec {w : Char} (h : isWhite w = true) : isDec w = false := by
  unfold isWhite at h
  simp only [Bool.or_eq_true, decide_eq_true_eq] at h
  rcases h with ((((h | h) | h) | h) | h) | h <;> subst h <;> decide

theorem dec_not_space {w : Char} (h : isDec w = true) : isWhite w = false := by
  cases e : isWhite w with
  | false => rfl
  | true => rw [space_not_dec e] at h; cases h

/-- A number printed at the start of the stream. -/
theorem readNumber_nat (lo hi : Int) (u : Bool) (old : Int) (n : Nat) (pre rest : List Char) (w : Char)
    (hpre : ∀ ch ∈ pre, isWhite ch = true) (hw : isWhite w = true) (h1 : lo ≤ (n : Int)) (h2 : (n : Int) ≤ hi) :
    readNumber lo hi u old ⟨pre ++ printNat n ++ w :: rest, true⟩ = ((n : Int), ⟨w :: rest, true⟩) := by
  obtain ⟨t1, t2⟩ := takeDrop (printNat n) w rest (printNat_isDec n) (space_not_dec hw)
  have hne := printNat_ne n
  have hv := decValue_printNat n
  have hd := printNat_isDec n
  unfold readNumber
  rw [if_neg (by simp)]
  simp only [List.append_assoc]
  rw [skip _ _ hpre]
  have fin : storeNumber lo hi u false (printNat n) (w :: rest) = ((n : Int), ⟨w :: rest, true⟩) := by
    unfold storeNumber
    simp only [hv, if_neg hne]
    cases u
    · simp only [Bool.false_eq_true, if_false]
      rw [if_neg (by omega), if_neg (by omega)]
      rfl
    · simp only [if_true, Bool.false_eq_true, if_false]
      rw [if_neg (by omega)]
      rfl
  rw [← fin]
  generalize he : printNat n = l at *
  cases l with
  | nil => exact absurd rfl hne
  | cons a l =>
    have ha : isDec a = true := hd a (List.mem_cons_self ..)
    have hs := dec_not_space ha
    simp only [List.cons_append] at t1 t2 ⊢
    rw [List.dropWhile_cons, if_neg (by rw [hs]; decide)]
    have m1 : a ≠ '-' := by rintro rfl; revert ha; decide
    have m2 : a ≠ '+' := by rintro rfl; revert ha; decide
    split
    · rename_i h; cases h
    · rename_i h; cases h; exact absurd rfl m1
    · rename_i h; cases h; exact absurd rfl m2
    · rw [t1, t2]

theorem readNumber_int (lo hi : Int) (old v : Int) (pre rest : List Char) (w : Char)
    (hpre : ∀ ch ∈ pre, isWhite ch = true) (hw : isWhite w = true) (h1 : lo ≤ v) (h2 : v ≤ hi) :
    readNumber lo hi false old ⟨pre ++ printInt v ++ w :: rest, true⟩ = (v, ⟨w :: rest, true⟩) := by
  unfold printInt
  by_cases h : v < 0
  · rw [if_pos h]
    obtain ⟨t1, t2⟩ := takeDrop (printNat v.natAbs) w rest (printNat_isDec _) (space_not_dec hw)
    unfold readNumber
    rw [if_neg (by simp)]
    simp only [List.append_assoc]
    rw [skip _ _ hpre]
    simp only [List.cons_append]
    rw [List.dropWhile_cons, if_neg (by decide)]
    simp only [t1, t2]
    unfold storeNumber
    simp only [decValue_printNat, if_neg (printNat_ne _), Bool.false_eq_true, if_false, if_true]
    rw [if_neg (by omega), if_neg (by omega)]
    refine Prod.ext ?_ rfl
    show -(v.natAbs : Int) = v
    omega
  · rw [if_neg h]
    have := readNumber_nat lo hi false old v.natAbs pre rest w hpre hw (by omega) (by omega)
    rw [this, show (v.natAbs : Int) = v by omega]

theorem readU64_print (old n : Nat) (pre rest : List Char) (w : Char)
    (hpre : ∀ ch ∈ pre, isWhite ch = true) (hw : isWhite w = true) (h : n < 2 ^ 64) :
    readU64 old ⟨pre ++ printNat n ++ w :: rest, true⟩ = (n, ⟨w :: rest, true⟩) := by
  unfold readU64
  rw [readNumber_nat 0 (2 ^ 64 - 1) true old n pre rest w hpre hw (by omega) (by omega)]
  simp

/-- An array printed at the start of the stream. -/
theorem readArray_print (rd : Int → InStream → Int × InStream) (pr : Int → List Char) (vs : List Int)
    (hrd : ∀ v ∈ vs, ∀ (old : Int) (pre rest : List Char), (∀ ch ∈ pre, isWhite ch = true) →
      rd old ⟨pre ++ pr v ++ ' ' :: rest, true⟩ = (v, ⟨' ' :: rest, true⟩))
    (a : Nat → Int) (pre tail : List Char) (hpre : ∀ ch ∈ pre, isWhite ch = true) :
    ∀ (n : Nat) (tl : List Char), n ≤ vs.length →
      ∃ a' pre', (∀ ch ∈ pre', isWhite ch = true) ∧ (∀ i < n, a' i = vs[i]?.getD 0) ∧
        readArray rd n a ⟨pre ++ (vs.take n).flatMap (fun v => pr v ++ [' ']) ++ tl, true⟩ = (a', ⟨pre' ++ tl, true⟩) := by
  intro n
  induction n with
  | zero =>
    intro tl _
    refine ⟨a, pre, hpre, fun i hi => by omega, ?_⟩
    simp [readArray, forLoop]
  | succ n ih =>
    intro tl hn
    have hlt : n < vs.length := by omega
    obtain ⟨a', pre', hp', ha', e⟩ := ih (pr vs[n] ++ ' ' :: tl) (by omega)
    have es : pre ++ (vs.take (n + 1)).flatMap (fun v => pr v ++ [' ']) ++ tl
        = pre ++ (vs.take n).flatMap (fun v => pr v ++ [' ']) ++ (pr vs[n] ++ ' ' :: tl) := by
      rw [List.take_succ_eq_append_getElem hlt, List.flatMap_append]
      simp [List.append_assoc]
    refine ⟨upd a' n vs[n], [' '], by simp; decide, ?_, ?_⟩
    · intro i hi
      unfold upd
      by_cases h : i = n
      · subst h; rw [if_pos rfl, List.getElem?_eq_getElem hlt]; rfl
      · rw [if_neg h]; exact ha' i (by omega)
    · rw [es]
      unfold readArray at e ⊢
      rw [forLoop, e]
      simp only
      have := hrd vs[n] (List.getElem_mem hlt) (a' n) pre' tl hp'
      rw [List.append_assoc] at this
      rw [this]
      rfl

/-- A whole line. -/
theorem readArray_line (rd : Int → InStream → Int × InStream) (pr : Int → List Char) (vs : List Int)
    (hrd : ∀ v ∈ vs, ∀ (old : Int) (pre rest : List Char), (∀ ch ∈ pre, isWhite ch = true) →
      rd old ⟨pre ++ pr v ++ ' ' :: rest, true⟩ = (v, ⟨' ' :: rest, true⟩))
    (a : Nat → Int) (pre tail : List Char) (hpre : ∀ ch ∈ pre, isWhite ch = true) (n : Nat) (hn : n = vs.length) :
    ∃ a' pre', (∀ ch ∈ pre', isWhite ch = true) ∧ (∀ i < n, a' i = vs[i]?.getD 0) ∧
      readArray rd n a ⟨pre ++ (scdLine (vs.map pr) ++ tail), true⟩ = (a', ⟨pre' ++ tail, true⟩) := by
  subst hn
  obtain ⟨a', pre', h1, h2, e⟩ := readArray_print rd pr vs hrd a pre tail hpre vs.length ('\n' :: tail) (Nat.le_refl _)
  refine ⟨a', pre' ++ ['\n'], ?_, h2, ?_⟩
  · intro ch h
    rcases List.mem_append.mp h with h | h
    · exact h1 ch h
    · rw [List.mem_singleton.mp h]; decide
  · rw [List.take_length] at e
    unfold scdLine
    rw [List.flatMap_map]
    simp only [List.append_assoc, List.cons_append, List.nil_append] at e ⊢
    exact e

theorem toInt32_small {n : Nat} (h : n < 2 ^ 31) : toInt32 n = n := by
  unfold toInt32
  rw [BitVec.toInt_eq_toNat_of_lt]
  · rw [BitVec.toNat_ofNat, Nat.mod_eq_of_lt (by omega)]
  · rw [BitVec.toNat_ofNat, Nat.mod_eq_of_lt (by omega)]; omega

theorem Renum.writable {c : ReadCircuit} {order inv : List Int} {π σ : Nat → Nat} (R : Renum c order inv π σ)
    (ho : Ordered c order) (wf : NetlistWF c) (ft : Fits c) : Writable (renumbered c order π) := by
  have hw := ft.wires
  have hio : c.iid + c.gates.length = wireCount c := rfl
  have hid : c.iid = c.pInit + c.gInit + c.eInit + c.pInput + c.gInput + c.eInput + c.dffs.length := rfl
  have href : ∀ w : Int, -2 ^ 63 ≤ w → w < (wireCount c : Int) → -2 ^ 63 ≤ newRef π w ∧ newRef π w < 2 ^ 63 := by
    intro w h1 h2
    unfold newRef
    split
    · omega
    · have := R.πlt w.toNat (by omega); omega
  have htype : ∀ t ∈ gateTypes, -2 ^ 15 ≤ t ∧ t < 2 ^ 15 := by decide
  have hlen : order.length = wireCount c := by rw [ho.all.length_eq]; simp
  refine ⟨?_, ?_, ?_, ?_, ?_, ?_, ?_, ?_, ?_, ?_, ?_, ?_, ?_, ?_, ?_⟩
  · show c.pInit < _; omega
  · show c.gInit < _; omega
  · show c.eInit < _; omega
  · show c.pInput < _; omega
  · show c.gInput < _; omega
  · show c.eInput < _; omega
  · show (c.dffs.map _).length < _; rw [List.length_map]; omega
  · show (c.outputs.map _).length < _; rw [List.length_map]; exact ft.outputs
  · show ((List.range c.gates.length).map _).length ≤ _; rw [List.length_map, List.length_range]; omega
  · show 0 ≤ newRef π c.terminateId ∧ newRef π c.terminateId < _
    unfold newRef
    have ht : 0 ≤ c.terminateId ∧ c.terminateId.toNat < wireCount c := by
      have := wf.some
      have := wf.term
      omega
    rw [if_neg (by omega)]
    have := R.πlt _ ht.2
    omega
  · intro g hg
    obtain ⟨i, hi, rfl⟩ := List.mem_map.mp hg
    have hi := List.mem_range.mp hi
    rw [List.getElem?_eq_getElem hi]
    obtain ⟨h0, h1, h2⟩ := wf.gates _ (List.getElem_mem hi)
    obtain ⟨f0, f1⟩ := ft.gates _ (List.getElem_mem hi)
    unfold Readable at h0 h1
    have a := href _ f0 (by omega)
    have b := href _ f1 (by omega)
    exact ⟨a.1, a.2, b.1, b.2, htype _ h2⟩
  · intro g hg
    obtain ⟨d, hd, rfl⟩ := List.mem_map.mp hg
    obtain ⟨h0, h1, _⟩ := wf.dffs d hd
    obtain ⟨f0, f1⟩ := ft.dffs d hd
    unfold Readable at h0
    have a := href _ f0 (by omega)
    have b := href _ f1 h1
    exact ⟨a.1, a.2, b.1, b.2⟩
  · intro w hw
    obtain ⟨o, ho, rfl⟩ := List.mem_map.mp hw
    obtain ⟨h0, h1⟩ := wf.outputs o ho
    have a := href o (by omega) h1
    refine ⟨?_, a.2⟩
    unfold newRef
    rw [if_neg (by omega)]; omega
  · simp [renumbered, hlen]; omega
  · intro s hs
    obtain ⟨w, hw, rfl⟩ := List.mem_map.mp hs
    obtain ⟨k, hk, rfl⟩ := List.mem_iff_getElem.mp hw
    rw [List.length_drop] at hk
    have e : (order.drop c.iid)[k]? = some (σ (c.iid + k) : Int) := by
      rw [List.getElem?_drop, R.order _ (by omega)]
    rw [List.getElem?_eq_getElem (by rw [List.length_drop]; exact hk)] at e
    have e := Option.some.inj e
    rw [e]
    have h1 := R.σge (w := c.iid + k) (by omega) (by omega)
    have h2 := R.σlt (c.iid + k) (by omega)
    have h3 : (renumbered c order π).gates.length = c.gates.length := by simp [renumbered]
    rw [h3]
    omega

end TinyGarble.Proof
