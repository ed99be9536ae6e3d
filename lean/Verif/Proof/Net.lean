import Verif.Model.Net

/-! Lemmas on the socket loops. -/

namespace TinyGarble.Proof
open TinyGarble

theorem slice_length (mem : Nat → Byte) (s n : Nat) : (slice mem s n).length = n := by simp [slice]

theorem slice_append (mem : Nat → Byte) (a b : Nat) : slice mem 0 a ++ slice mem a b = slice mem 0 (a + b) := by
  simp only [slice, List.range_add, List.map_append, List.map_map, Nat.zero_add]
  rfl

/-- Calls of a finished transfer: all positive on success, exactly the last one not positive on failure. -/
def CallsOK (ok : Bool) (calls : List Int) : Prop :=
  if ok then ∀ x ∈ calls, 0 < x
  else ∃ l e, calls = l ++ [e] ∧ e ≤ 0 ∧ ∀ x ∈ l, 0 < x

theorem callsOK_snoc {l : List Int} (h : ∀ x ∈ l, 0 < x) {r : Nat} (hr : ¬ r = 0) :
    ∀ x ∈ l ++ [(r : Int)], 0 < x := by
  intro x hx
  rcases List.mem_append.1 hx with hx | hx
  · exact h x hx
  · rw [List.mem_singleton] at hx; omega

theorem sendLoop_spec (o : Oracle) (mem : Nat → Byte) (len : Nat) (s0 : List Byte) (m : Nat) :
    ∀ (k done : Nat) (calls : List Int), len - done = m → done < len → (∀ x ∈ calls, 0 < x) →
    let r := sendLoop o mem len k done (s0 ++ slice mem 0 done) calls
    r.mem = mem ∧ CallsOK r.ok r.calls
    ∧ (∃ n ≤ len, r.stream = s0 ++ slice mem 0 n ∧ (r.ok = true ↔ n = len)) := by
  induction m using Nat.strongRecOn with
  | _ m ih =>
    intro k done calls hm hd hc
    unfold sendLoop
    cases ho : o k with
    | none => exact ⟨rfl, ⟨calls, -1, rfl, by omega, hc⟩, done, by omega, rfl, by
        constructor
        · intro h; exact absurd h Bool.false_ne_true
        · intro h; omega⟩
    | some r =>
      simp only
      split
      · exact ⟨rfl, ⟨calls, 0, rfl, by omega, hc⟩, done, by omega, rfl, by
          constructor
          · intro h; exact absurd h Bool.false_ne_true
          · intro h; omega⟩
      · rename_i hr
        rw [List.append_assoc, slice_append]
        split
        · rename_i hlt
          exact ih (len - (done + min r (len - done))) (by omega) _ _ _ rfl hlt (callsOK_snoc hc hr)
        · rename_i hlt
          exact ⟨rfl, callsOK_snoc hc hr, len, Nat.le_refl _, by
            rw [show done + min r (len - done) = len by omega], by simp⟩

theorem sendLoop_congr (o : Oracle) {mem mem' : Nat → Byte} (len : Nat) (h : ∀ i < len, mem i = mem' i) (m : Nat) :
    ∀ (k done : Nat) (s : List Byte) (calls : List Int), len - done = m → done < len →
    (sendLoop o mem len k done s calls).ok = (sendLoop o mem' len k done s calls).ok
    ∧ (sendLoop o mem len k done s calls).stream = (sendLoop o mem' len k done s calls).stream
    ∧ (sendLoop o mem len k done s calls).calls = (sendLoop o mem' len k done s calls).calls := by
  induction m using Nat.strongRecOn with
  | _ m ih =>
    intro k done s calls hm hd
    unfold sendLoop
    cases o k with
    | none => exact ⟨rfl, rfl, rfl⟩
    | some r =>
      simp only
      have e : slice mem done (min r (len - done)) = slice mem' done (min r (len - done)) := by
        apply List.map_congr_left
        intro i hi
        rw [List.mem_range] at hi
        exact h _ (by omega)
      split
      · exact ⟨rfl, rfl, rfl⟩
      · split
        · rename_i hlt
          rw [e]
          exact ih (len - (done + min r (len - done))) (by omega) _ _ _ _ rfl hlt
        · rw [e]; exact ⟨rfl, rfl, rfl⟩

theorem sendLoop_live (o : Oracle) (ho : ∀ k, ∃ r, o k = some r ∧ 0 < r) (mem : Nat → Byte) (len : Nat) (m : Nat) :
    ∀ (k done : Nat) (s : List Byte) (calls : List Int), len - done = m → done < len →
    (sendLoop o mem len k done s calls).ok = true := by
  induction m using Nat.strongRecOn with
  | _ m ih =>
    intro k done s calls hm hd
    unfold sendLoop
    obtain ⟨r, hr, hp⟩ := ho k
    rw [hr]
    simp only
    split
    · omega
    · split
      · rename_i hlt
        exact ih (len - (done + min r (len - done))) (by omega) _ _ _ _ rfl hlt
      · rfl

theorem store_get (mem : Nat → Byte) (s0 : List Byte) (d r : Nat) (h : d + r ≤ s0.length) (i : Nat) :
    store (fun j => if h : j < d ∧ j < s0.length then s0[j] else mem j) d ((s0.drop d).take r) i
      = if h : i < d + r ∧ i < s0.length then s0[i] else mem i := by
  unfold store
  have hl : ((s0.drop d).take r).length = r := by simp; omega
  by_cases h1 : d ≤ i ∧ i - d < ((s0.drop d).take r).length
  · rw [dif_pos h1]
    rw [hl] at h1
    rw [dif_pos (show i < d + r ∧ i < s0.length by omega)]
    simp only [List.getElem_take, List.getElem_drop]
    congr 1
    omega
  · rw [dif_neg h1]
    rw [hl] at h1
    by_cases h2 : i < d
    · rw [dif_pos (show i < d + r ∧ i < s0.length by omega)]
      exact dif_pos (show i < d ∧ i < s0.length by omega)
    · rw [dif_neg (show ¬ (i < d + r ∧ i < s0.length) by omega)]
      exact dif_neg (show ¬ (i < d ∧ i < s0.length) by omega)

theorem recvLoop_spec (o : Oracle) (mem : Nat → Byte) (len : Nat) (s0 : List Byte) (m : Nat) :
    ∀ (k done : Nat) (calls : List Int), len - done = m → done < len → done ≤ s0.length → (∀ x ∈ calls, 0 < x) →
    let r := recvLoop o len k done (fun j => if h : j < done ∧ j < s0.length then s0[j] else mem j) (s0.drop done) calls
    CallsOK r.ok r.calls
    ∧ (∃ n ≤ len, n ≤ s0.length ∧ r.stream = s0.drop n
        ∧ (∀ i, r.mem i = if h : i < n ∧ i < s0.length then s0[i] else mem i) ∧ (r.ok = true ↔ n = len)) := by
  induction m using Nat.strongRecOn with
  | _ m ih =>
    intro k done calls hm hd hs hc
    unfold recvLoop
    cases ho : o k with
    | none => exact ⟨⟨calls, -1, rfl, by omega, hc⟩, done, by omega, hs, rfl, fun _ => rfl, by
        constructor
        · intro h; exact absurd h Bool.false_ne_true
        · intro h; omega⟩
    | some r =>
      simp only
      split
      · exact ⟨⟨calls, 0, rfl, by omega, hc⟩, done, by omega, hs, rfl, fun _ => rfl, by
          constructor
          · intro h; exact absurd h Bool.false_ne_true
          · intro h; omega⟩
      · rename_i hr
        have hle : min (min r (len - done)) (s0.drop done).length ≤ s0.length - done := by
          rw [List.length_drop]; omega
        have hle2 : min (min r (len - done)) (s0.drop done).length ≤ len - done := by omega
        generalize min (min r (len - done)) (s0.drop done).length = q at *
        have e := store_get mem s0 done q (by omega)
        rw [List.drop_drop, funext e]
        split
        · rename_i hlt
          exact ih (len - (done + q)) (by omega) _ _ _ rfl hlt (by omega) (callsOK_snoc hc hr)
        · rename_i hlt
          exact ⟨callsOK_snoc hc hr, done + q, by omega, by omega, rfl, fun _ => rfl, by simp; omega⟩

theorem recvLoop_live (o : Oracle) (ho : ∀ k, ∃ r, o k = some r ∧ 0 < r) (len : Nat) (m : Nat) :
    ∀ (k done : Nat) (mem : Nat → Byte) (s : List Byte) (calls : List Int), len - done = m → done < len →
    len - done ≤ s.length → (recvLoop o len k done mem s calls).ok = true := by
  induction m using Nat.strongRecOn with
  | _ m ih =>
    intro k done mem s calls hm hd hs
    unfold recvLoop
    obtain ⟨r, hr, hp⟩ := ho k
    rw [hr]
    simp only
    split
    · omega
    · split
      · rename_i hlt
        exact ih (len - (done + min (min r (len - done)) s.length)) (by omega) _ _ _ _ _ rfl hlt
          (by rw [List.length_drop]; omega)
      · rfl

end TinyGarble.Proof
