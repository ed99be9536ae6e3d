import Verif.Proof.Net

/-!
# Properties of the transport: C15, C16

`o` decides what the operating system does with each system call.
-/

namespace TinyGarble.Props
open TinyGarble Proof

/-- C15, sender: whatever the sizes returned by `write`, `SendData` puts a prefix of the `len` bytes
on the stream and changes no memory; SUCCESS is returned iff all `len` bytes were put there. -/
theorem C15_send (o : Oracle) (mem : Nat → Byte) (len : Nat) (s : List Byte) :
    let r := netSend o mem len s
    r.mem = mem ∧ ∃ n ≤ len, r.stream = s ++ slice mem 0 n ∧ (r.ok = true ↔ n = len) := by
  unfold netSend
  by_cases h : (len : Int) ≤ 0
  · rw [if_pos h]
    exact ⟨rfl, 0, by omega, by simp [slice], by simp; omega⟩
  · rw [if_neg h]
    have := sendLoop_spec o mem len s _ 0 0 [] rfl (by omega) (by simp)
    simp only [slice, List.range_zero, List.map_nil, List.append_nil] at this
    exact ⟨this.1, this.2.2⟩

/-- C15, sender: `SendData` never reads memory beyond `len`: nothing it does depends on it. -/
theorem C15_send_reads (o : Oracle) (mem mem' : Nat → Byte) (len : Nat) (s : List Byte)
    (h : ∀ i < len, mem i = mem' i) :
    (netSend o mem len s).ok = (netSend o mem' len s).ok
    ∧ (netSend o mem len s).stream = (netSend o mem' len s).stream
    ∧ (netSend o mem len s).calls = (netSend o mem' len s).calls := by
  unfold netSend
  by_cases hl : (len : Int) ≤ 0
  · rw [if_pos hl, if_pos hl]; exact ⟨rfl, rfl, rfl⟩
  · rw [if_neg hl, if_neg hl]
    exact sendLoop_congr o len h _ 0 0 s [] rfl (by omega)

example : ∀ i < 3, (fun j => if j < 3 then 1 else 2 : Nat → Byte) i = (fun _ => 1 : Nat → Byte) i := by
  intro i hi; simp [hi]

/-- C15, receiver: whatever the sizes returned by `read`, `RecvData` takes the first `n ≤ len` bytes
off the stream and stores them in order at the start of the buffer; all other memory is unchanged;
SUCCESS is returned iff `n = len`. -/
theorem C15_recv (o : Oracle) (mem : Nat → Byte) (len : Nat) (s : List Byte) :
    let r := netRecv o mem len s
    ∃ n ≤ len, n ≤ s.length ∧ r.stream = s.drop n ∧ slice r.mem 0 n = s.take n
      ∧ (∀ i, n ≤ i → r.mem i = mem i) ∧ (r.ok = true ↔ n = len) := by
  unfold netRecv
  by_cases h : (len : Int) ≤ 0
  · rw [if_pos h]
    exact ⟨0, by omega, by omega, by simp, by simp [slice], fun _ _ => rfl, by simp; omega⟩
  · rw [if_neg h]
    have := recvLoop_spec o mem len s _ 0 0 [] rfl (by omega) (by omega) (by simp)
    simp only [Nat.not_lt_zero, false_and, dite_false, List.drop_zero] at this
    obtain ⟨_, n, h1, h2, h3, h4, h5⟩ := this
    refine ⟨n, h1, h2, h3, ?_, ?_, h5⟩
    · apply List.ext_getElem
      · simp [slice]; omega
      · intro i hi hi'
        simp only [slice, List.getElem_map, List.getElem_range, Nat.zero_add, List.getElem_take]
        rw [slice_length] at hi
        show (recvLoop o len 0 0 mem s []).mem i = _
        rw [h4, dif_pos ⟨hi, by omega⟩]
    · intro i hi
      show (recvLoop o len 0 0 mem s []).mem i = _
      rw [h4, dif_neg (by omega)]

/-- C15, both: if both calls succeed, the receiver's buffer holds exactly the sender's bytes. -/
theorem C15_transfer (o o' : Oracle) (mem mem' : Nat → Byte) (len : Nat)
    (hs : (netSend o mem len []).ok = true) (hr : (netRecv o' mem' len (netSend o mem len []).stream).ok = true) :
    let r := netRecv o' mem' len (netSend o mem len []).stream
    (∀ i < len, r.mem i = mem i) ∧ (∀ i, len ≤ i → r.mem i = mem' i) ∧ r.stream = [] := by
  obtain ⟨_, n, _, h1, h2⟩ := C15_send o mem len []
  obtain rfl := h2.1 hs
  rw [List.nil_append] at h1
  rw [h1] at hr ⊢
  obtain ⟨m, _, _, h3, h4, h5, h6⟩ := C15_recv o' mem' n (slice mem 0 n)
  obtain rfl := h6.1 hr
  refine ⟨?_, h5, ?_⟩
  · intro i hi
    rw [List.take_of_length_le (by rw [slice_length]; exact Nat.le_refl _)] at h4
    have := congrArg (fun l : List Byte => l[i]?) h4
    simpa [slice, hi] using this
  · rw [h3]; apply List.drop_of_length_le; rw [slice_length]; exact Nat.le_refl _

/-- The operating system hands over one byte, then two, then as many as wanted. -/
example :
    let o : Oracle := fun k => if k < 2 then some (k + 1) else some 1000
    let mem : Nat → Byte := fun i => BitVec.ofNat 8 (10 * i)
    (netSend o mem 5 []).ok = true ∧ (netSend o mem 5 []).calls = [1, 2, 2]
    ∧ (netRecv (fun _ => some 3) (fun _ => 0) 5 (netSend o mem 5 []).stream).ok = true := by
  decide +kernel

/-- C15, failures: FAILURE is returned iff some call reported an error or the end of the stream
(a value ≤ 0), and that call is the last one made. -/
theorem C15_fails_at_first_error (o : Oracle) (mem : Nat → Byte) (len : Nat) (s : List Byte) :
    (∀ r, r = netSend o mem len s ∨ r = netRecv o mem len s →
      (r.ok = false ↔ ∃ x ∈ r.calls, x ≤ 0) ∧ ∀ l e, r.calls = l ++ [e] → ∀ x ∈ l, 0 < x) := by
  have key : ∀ r : NetResult, CallsOK r.ok r.calls →
      (r.ok = false ↔ ∃ x ∈ r.calls, x ≤ 0) ∧ ∀ l e, r.calls = l ++ [e] → ∀ x ∈ l, 0 < x := by
    intro r h
    unfold CallsOK at h
    cases hr : r.ok with
    | true =>
      rw [hr] at h
      simp only [if_true] at h
      refine ⟨?_, fun l e hl x hx => h x (by rw [hl]; simp [hx])⟩
      constructor
      · intro h'; cases h'
      · rintro ⟨x, hx, h'⟩
        have := h x hx; omega
    | false =>
      rw [hr] at h
      obtain ⟨l, e, h1, h2, h3⟩ := h
      refine ⟨⟨fun _ => ⟨e, by rw [h1]; simp, h2⟩, fun _ => rfl⟩, ?_⟩
      intro l' e' h' x hx
      have := List.append_inj' (h1.symm.trans h') rfl
      exact h3 x (by rw [this.1]; exact hx)
  rintro r (rfl | rfl)
  · apply key
    unfold netSend
    by_cases h : (len : Int) ≤ 0
    · rw [if_pos h]; simp [CallsOK]
    · rw [if_neg h]
      have := sendLoop_spec o mem len s _ 0 0 [] rfl (by omega) (by simp)
      simp only [slice, List.range_zero, List.map_nil, List.append_nil] at this
      exact this.2.1
  · apply key
    unfold netRecv
    by_cases h : (len : Int) ≤ 0
    · rw [if_pos h]; simp [CallsOK]
    · rw [if_neg h]
      have := recvLoop_spec o mem len s _ 0 0 [] rfl (by omega) (by omega) (by simp)
      simp only [Nat.not_lt_zero, false_and, dite_false, List.drop_zero] at this
      exact this.1

example : (netSend (fun k => if k = 1 then none else some 2) (fun _ => 7) 5 []).ok = false
    ∧ (netSend (fun k => if k = 1 then none else some 2) (fun _ => 7) 5 []).calls = [2, -1] := by
  decide +kernel

/-- C15, progress: if no call reports an error or the end of the stream, the transfer succeeds. -/
theorem C15_succeeds (o : Oracle) (ho : ∀ k, ∃ r, o k = some r ∧ 0 < r) (mem : Nat → Byte) (len : Nat) (s : List Byte) :
    (netSend o mem len s).ok = true ∧ (len ≤ s.length → (netRecv o mem len s).ok = true) := by
  unfold netSend netRecv
  by_cases h : (len : Int) ≤ 0
  · rw [if_pos h]; exact ⟨rfl, fun _ => by rw [if_pos h]⟩
  · rw [if_neg h, if_neg h]
    exact ⟨sendLoop_live o ho mem len _ 0 0 s [] rfl (by omega),
      fun hl => recvLoop_live o ho len _ 0 0 mem s [] rfl (by omega) (by omega)⟩

example : ∀ k, ∃ r, (fun k => some (k + 1) : Oracle) k = some r ∧ 0 < r := fun k => ⟨k + 1, rfl, by omega⟩

/-! ## C16 -/

theorem toInt32_small {n : Nat} (h : n < 2 ^ 31) : toInt32 n = n := by
  unfold toInt32
  rw [BitVec.toInt_eq_toNat_of_lt]
  · rw [BitVec.toNat_ofNat, Nat.mod_eq_of_lt (by omega)]
  · rw [BitVec.toNat_ofNat, Nat.mod_eq_of_lt (by omega)]; omega

/-- C16 is false: with 44 739 243 tables (a circuit of that many AND gates), nothing is sent at all
and SUCCESS is returned, whatever the operating system does. -/
theorem C16_large_transfers_dropped :
    ∃ count : Nat, count < 2 ^ 32 - 1 ∧ ∀ (o : Oracle) (mem : Nat → Byte) (s : List Byte),
      (netSendTables o mem count s).ok = true ∧ (netSendTables o mem count s).stream = s := by
  refine ⟨44739243, by decide, ?_⟩
  intro o mem s
  have : toInt32 (44739243 * tableBytes) ≤ 0 := by decide +kernel
  unfold netSendTables netSend
  rw [if_pos this]
  exact ⟨rfl, rfl⟩

/-- C16, partial: holds for fewer than 2^31 bytes of tables (44 739 242 tables). Missing: larger
circuits, for which it is false. -/
theorem C16_tables_sent_partial (o : Oracle) (mem : Nat → Byte) {count : Nat} (h : count ≤ 44739242) (s : List Byte)
    (hok : (netSendTables o mem count s).ok = true) :
    (netSendTables o mem count s).stream = s ++ slice mem 0 (count * 48) := by
  have e : toInt32 (count * tableBytes) = ((count * 48 : Nat) : Int) := toInt32_small (by unfold tableBytes; omega)
  unfold netSendTables at hok ⊢
  rw [e] at hok ⊢
  obtain ⟨_, n, _, h1, h2⟩ := C15_send o mem (count * 48) s
  rw [h1, h2.1 hok]

example : (netSendTables (fun _ => some 7) (fun _ => 1) 2 []).ok = true := by decide +kernel

end TinyGarble.Props
