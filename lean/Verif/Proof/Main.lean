import Verif.Model.Main
import Verif.Spec.Options
import Verif.Proof.Exec
import Verif.Proof.Proc
import Verif.Proof.BN
import Verif.Proof.Scd
import Mathlib.Tactic.Tauto

/-!
# Lemmas about the programs
-/

namespace TinyGarble.Proof
open TinyGarble Spec

variable {α β : Type}

/-! ## Transfers -/

theorem sendData_eq {l : List Byte} (h : l.length < 2 ^ 31) : sendData l l.length = .sendBytes l := by
  unfold sendData
  rw [toInt32_small h]
  split
  · have : l = [] := List.eq_nil_of_length_eq_zero (by omega)
    subst this
    rfl
  · simp

theorem recvData_eq {n : Nat} (h : n < 2 ^ 31) : recvData n = .recvBytes n := by
  unfold recvData
  rw [toInt32_small h]
  split
  · have : n = 0 := by omega
    subst this
    rfl
  · simp

theorem dual_transfer {l : List Byte} {n : Nat} (hn : l.length = n) (h : n < 2 ^ 31) : Dual (sendData l n) (recvData n) () l l [] := by
  subst hn
  rw [sendData_eq h, recvData_eq h]
  exact dual_bytes l

theorem dual_bool (b : Bool) : Dual (sendBool b) recvBool () b [if b then 1 else 0] [] := by
  have := (dual_transfer (l := [if b then (1 : Byte) else 0]) (n := 1) rfl (by decide)).bind
    (f := fun _ => .ret ()) (g := fun l => if leValue l = 0 then .ret false else if leValue l = 1 then .ret true else .undef)
    (c := ()) (d := b) (s' := []) (r' := []) (by cases b <;> exact .done)
  rw [bind_ret] at this
  exact this

theorem dual_noString : Dual (sendString []) recvString () [] (leBytes 4 0) [] := by
  exact (dual_transfer (l := leBytes 4 0) (n := 4) rfl (by decide)).bind
    (f := fun _ => if 0 < toInt32 0 then sendData [] 0 else .ret ())
    (g := fun l => if toInt32 (leValue l) ≤ 0 then .ret [] else (recvData (leValue l)).bind fun buff =>
      match cString buff with
      | some s => .ret s
      | none => .undef) (c := ()) (d := []) (s' := []) (r' := []) .done

/-- The comparison of options without strings on Alice's side. -/
theorem dual_options {oA oB : SharedOptions} (hs : oA.scdFile = []) (hm : oA.mask = []) (hc : oA.cycles < 2 ^ 64) :
    ∃ s r, Dual (checkOptionsAlice oA) (checkOptionsBob oB) (if oA = oB then (0 : Int) else -1) (if oA = oB then (0 : Int) else -1) s r := by
  have hiff : ([] ≠ oB.scdFile ∨ oA.cycles ≠ oB.cycles ∨ [] ≠ oB.mask ∨ oA.disableOT ≠ oB.disableOT ∨ oA.lowMem ≠ oB.lowMem) ↔ oA ≠ oB := by
    obtain ⟨a1, a2, a3, a4, a5⟩ := oA
    obtain ⟨b1, b2, b3, b4, b5⟩ := oB
    simp only at hs hm
    subst hs hm
    simp only [ne_eq, SharedOptions.mk.injEq]
    tauto
  have hl : leValue (leBytes 8 oA.cycles) = oA.cycles := by rw [leValue_leBytes, Nat.mod_eq_of_lt (show oA.cycles < 256 ^ 8 by omega)]
  have tail : ∃ r, Dual ((recvData 4).bind fun l => Proc.ret (toInt32 (leValue l)))
      (if [] ≠ oB.scdFile ∨ leValue (leBytes 8 oA.cycles) ≠ oB.cycles ∨ [] ≠ oB.mask ∨ oA.disableOT ≠ oB.disableOT ∨ oA.lowMem ≠ oB.lowMem then
        (sendData (leBytes 4 (2 ^ 32 - 1)) 4).bind fun _ => Proc.ret (-1 : Int)
      else (sendData (leBytes 4 0) 4).bind fun _ => Proc.ret 0)
      (if oA = oB then (0 : Int) else -1) (if oA = oB then (0 : Int) else -1) [] r := by
    rw [hl]
    by_cases h : oA = oB
    · rw [if_pos h, if_neg (fun hx => (hiff.1 hx) h)]
      exact ⟨_, (dual_transfer (l := leBytes 4 0) (n := 4) rfl (by decide)).symm.bind (f := fun l => .ret (toInt32 (leValue l)))
        (g := fun _ => .ret (0 : Int)) .done⟩
    · rw [if_neg h, if_pos (hiff.2 h)]
      exact ⟨_, (dual_transfer (l := leBytes 4 (2 ^ 32 - 1)) (n := 4) rfl (by decide)).symm.bind (f := fun l => .ret (toInt32 (leValue l)))
        (g := fun _ => .ret (-1 : Int)) .done⟩
  obtain ⟨r, ht⟩ := tail
  unfold checkOptionsAlice checkOptionsBob
  rw [hs, hm]
  exact ⟨_, _, dual_noString.bind <| (dual_transfer (l := leBytes 8 oA.cycles) (leBytes_length _ _) (by decide)).bind <| dual_noString.bind <|
    (dual_bool oA.disableOT).bind <| (dual_bool oA.lowMem).bind ht⟩

/-- The transfer of a string that contains no zero byte leads to undefined behaviour. -/
theorem string_undefined {s : List Byte} (hs : s ≠ []) (h0 : 0 ∉ s) (hl : s.length < 2 ^ 31) {cap : Nat} (hc : 0 < cap) :
    RunsInto cap (sendString s) recvString (.ret ()) .undef := by
  unfold sendString recvString
  have hpos : 0 < s.length := List.length_pos_iff.2 hs
  have hv : leValue (leBytes 4 s.length) = s.length := by rw [leValue_leBytes, Nat.mod_eq_of_lt (show s.length < 256 ^ 4 by omega)]
  refine Runs.into ((dual_transfer (l := leBytes 4 s.length) (n := 4) (leBytes_length _ _) (by decide)).runs hc) ?_
  rw [hv, toInt32_small hl, if_pos (by omega), if_neg (by omega), ← bind_ret (sendData s s.length)]
  refine Runs.into ((dual_transfer (l := s) rfl hl).runs hc) ?_
  have : cString s = none := by
    unfold cString
    rw [if_neg h0]
  rw [this]
  exact .refl

theorem Path.toSteps {cap n : Nat} {x y : Config α β} (h : Path cap n x y) : Steps cap n x y := by
  have key : ∀ {m : Nat} {w : Config α β}, Steps cap m w x → Steps cap (m + n) w y := by
    induction h with
    | refl => exact fun hw => hw
    | head s _ ih =>
      intro m w hw
      have := ih (hw.tail s)
      rwa [Nat.add_right_comm, Nat.add_assoc] at this
  have := key (m := 0) .refl
  rwa [Nat.zero_add] at this

theorem RunsInto.undefined {cap : Nat} {A P : Proc α} {B : Proc β} (h : RunsInto cap A B P .undef) : CanBeUndefined cap A B := by
  obtain ⟨n, h⟩ := h
  exact ⟨n, _, h.toSteps, rfl⟩

theorem options_undefined {oA oB : SharedOptions} (hne : oA.scdFile ≠ [] ∨ oA.mask ≠ []) (h1 : 0 ∉ oA.scdFile) (h2 : 0 ∉ oA.mask)
    (l1 : oA.scdFile.length < 2 ^ 31) (l2 : oA.mask.length < 2 ^ 31) {cap : Nat} (hc : 0 < cap) :
    CanBeUndefined cap (checkOptionsAlice oA) (checkOptionsBob oB) := by
  unfold checkOptionsAlice checkOptionsBob
  by_cases hs : oA.scdFile = []
  · have hm : oA.mask ≠ [] := hne.resolve_left (fun h => h hs)
    rw [hs]
    exact RunsInto.undefined <| (dual_noString.runs hc).into <|
      ((dual_transfer (l := leBytes 8 oA.cycles) (leBytes_length _ _) (by decide)).runs hc).into <| (string_undefined hm h2 l2 hc).bind _ _
  · exact RunsInto.undefined ((string_undefined hs h1 l1 hc).bind _ _)

/-! ## Executions that end -/

/-- The results of the execution that `stepFn` makes, if both processes return within `n` steps. -/
def ending (cap : Nat) : Nat → Config α β → Option (α × β)
  | 0, _ => none
  | n + 1, x => match stepFn cap x with
    | some y => ending cap n y
    | none => match x.A, x.B with
      | .ret a, .ret b => some (a, b)
      | _, _ => none

theorem ending_path {cap n : Nat} {x : Config α β} {a : α} {b : β} (h : ending cap n x = some (a, b)) :
    ∃ m z, Path cap m x z ∧ z.A = .ret a ∧ z.B = .ret b ∧ ∀ w, ¬ Step cap z w := by
  induction n generalizing x with
  | zero => cases h
  | succ n ih =>
    simp only [ending] at h
    split at h
    · rename_i y hy
      obtain ⟨m, z, hp, hz⟩ := ih h
      exact ⟨m + 1, z, .head (stepFn_some hy) hp, hz⟩
    · rename_i hn
      split at h
      · rename_i a' b' ha hb
        cases h
        exact ⟨0, x, .refl, ha, hb, fun w => stepFn_none hn⟩
      · cases h

theorem alwaysReturns_of {cap n : Nat} {A : Proc α} {B : Proc β} {a : α} {b : β} (h : ending cap n (start A B) = some (a, b)) :
    AlwaysReturns cap A B a b := by
  obtain ⟨m, z, hp, ha, hb, hz⟩ := ending_path h
  refine ⟨m, fun k x hx => ?_⟩
  have := hp.allEnd hz hx
  refine ⟨this.1, ?_⟩
  rcases this.2 with ⟨h1, h2⟩ | h
  · subst h1
    exact .inl ⟨⟨ha, hb⟩, h2⟩
  · exact .inr h

theorem parseMode_iff (o : Option (List Char)) (m : OutputMode) : parseMode o = some m ↔ Selects o m := by
  cases o with
  | none => simp only [parseMode, Selects, Option.some.injEq]; exact eq_comm
  | some s =>
    have h : ∀ m, Selects (some s) m ↔ s ∈ (modeWords m).map String.toList := by
      intro m
      simp only [Selects, List.mem_map]
      exact ⟨fun ⟨w, a, b⟩ => ⟨w, a, b.symm⟩, fun ⟨w, a, b⟩ => ⟨w, a, b.symm⟩⟩
    rw [h]
    simp only [parseMode]
    split
    · rename_i h
      rcases h with rfl | rfl <;> cases m <;> decide
    · rename_i h1
      split
      · rename_i h
        rcases h with rfl | rfl <;> cases m <;> decide
      · rename_i h2
        split
        · rename_i h
          rcases h with rfl | rfl <;> cases m <;> decide
        · rename_i h3
          refine ⟨fun h => (by cases h), fun h => ?_⟩
          exfalso
          cases m <;> simp only [modeWords, List.map_cons, List.map_nil, List.mem_cons, List.not_mem_nil, or_false] at h
          · exact h1 h
          · exact h2 h
          · exact h3 h

end TinyGarble.Proof
