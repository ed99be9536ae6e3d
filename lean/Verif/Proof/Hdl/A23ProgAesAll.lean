import Verif.Proof.Hdl.A23ProgAes
import Verif.Proof.Hdl.A23ProgHamming
import Verif.Proof.A23Aes

/-! # The program aes: the cipher -/

namespace TinyGarble.Proof.Hdl.A23.Sym.AesCode

open TinyGarble.Spec.Arm
open TinyGarble.Hdl.A23.Programs (aesCode)
open TinyGarble.A23 (stateOf state_shiftRows state_mixColumns mixed xtime fin4_cases)
open Flow (E T)

/-- Addresses in other parts of the memory. -/
macro "apart" : tactic => `(tactic| first
  | omega
  | (simp only [keyBytes, List.forall_mem_cons, List.not_mem_nil, false_imp_iff, implies_true, and_true] <;> omega))

/-- The lowest byte. -/
def low (x : BitVec 32) : BitVec 8 := BitVec.ofNat 8 x.toNat

theorem low_setWidth (x : BitVec 32) : low x = x.setWidth 8 := BitVec.ofNat_toNat ..

theorem low_xor (x y : BitVec 32) : low (x ^^^ y) = low x ^^^ low y := by
  rw [low_setWidth, low_setWidth, low_setWidth, BitVec.setWidth_xor]

theorem low_byte (x : BitVec 8) : low (x.zeroExtend 32) = x := by
  have := x.isLt
  apply BitVec.eq_of_toNat_eq
  rw [low, BitVec.toNat_ofNat, BitVec.zeroExtend_eq_setWidth, BitVec.toNat_setWidth]
  omega

theorem low_lo (s : State) (x : E) : low ((E.lo x).val s) = low (x.val s) := low_byte _

theorem low_eor (s : State) (x y : E) : low ((E.op .eor x y).val s) = low (x.val s) ^^^ low (y.val s) := low_xor _ _

theorem low_mem (s : State) (n : Nat) : low ((mem8 n).val s) = M s n := low_byte _

theorem at_low {s s' : State} {t : T} (h : Flow.Agree s t s') {n : Nat} {x : E} (hb : t.byteIs n x = true) : M s' n = low (x.val s) := h.at hb

section
variable (K B : Nat → BitVec 8)

/-- The key, the block, and the first `n` bytes of the state. -/
def Input (n : Nat) (s : State) : Prop :=
  (∀ p < 16, M s (0x01000000 + p) = K p) ∧ (∀ p < 16, M s (0x02000000 + p) = B p) ∧ ∀ p < n, M s (0x03000000 + p) = B p

theorem leads_block : Leads aesCode lay .init (Input K B 0) (31 + 16 * 10) (hA 16) (Input K B 16) := by
  refine Leads.trans (Q := Input K B 0) (Leads.of_shows show_first fun s s' t _ ha hF ⟨h1, h2, h3⟩ => ?_)
    (Leads.loop hA (Input K B) _ 16 fun n hn => Leads.of_shows (show_A n hn) fun s s' t _ ha hF ⟨h1, h2, h3⟩ => ?_)
  · exact ⟨fun p hp => (ha.outside hF (by omega) (by apart) (by apart)).trans (h1 p hp), fun p hp => (ha.outside hF (by omega) (by apart) (by apart)).trans (h2 p hp),
      fun p hp => absurd hp (by omega)⟩
  · rw [Bool.and_eq_true] at hF
    refine ⟨fun p hp => (ha.outside hF.1 (by omega) (by apart) (by apart)).trans (h1 p hp), fun p hp => (ha.outside hF.1 (by omega) (by apart) (by apart)).trans (h2 p hp), fun p hp => ?_⟩
    by_cases h : p = n
    · rw [h, at_low ha hF.2, low_mem, h2 n hn]
    · exact (ha.outside hF.1 (by omega) (by apart) (by apart)).trans (h3 p (by omega))

/-- The key, the state, and the first `n` words of the key schedule. -/
def Copied (n : Nat) (s : State) : Prop :=
  (∀ p < 16, M s (0x01000000 + p) = K p) ∧ (∀ p < 16, M s (0x03000000 + p) = B p) ∧ ∀ p < 4 * n, M s (0x6b0 + p) = K p

theorem leads_key : Leads aesCode lay (hA 16) (Input K B 16) (11 + 4 * 30 + 8) (hC 0) (Copied K B 4) := by
  refine Leads.trans (Q := Copied K B 4) (Leads.trans (Q := Copied K B 0) (Leads.of_shows show_mid fun s s' t _ ha hF ⟨h1, h2, h3⟩ => ?_)
    (Leads.loop hB (Copied K B) _ 4 fun n hn => Leads.of_shows (show_B n hn) fun s s' t _ ha hF ⟨h1, h2, h3⟩ => ?_))
    (Leads.of_shows show_key fun s s' t _ ha hF ⟨h1, h2, h3⟩ => ?_)
  · exact ⟨fun p hp => (ha.outside hF (by omega) (by apart) (by apart)).trans (h1 p hp), fun p hp => (ha.outside hF (by omega) (by apart) (by apart)).trans (h3 p hp),
      fun p hp => absurd hp (by omega)⟩
  · rw [Bool.and_eq_true] at hF
    refine ⟨fun p hp => (ha.outside hF.1 (by omega) (by apart) (by apart)).trans (h1 p hp), fun p hp => (ha.outside hF.1 (by omega) (by apart) (by apart)).trans (h2 p hp), fun p hp => ?_⟩
    by_cases h : 4 * n ≤ p
    · obtain ⟨r, rfl⟩ : ∃ r, p = 4 * n + r := ⟨p - 4 * n, by omega⟩
      have := List.all_eq_true.1 hF.2 r (List.mem_range.2 (by omega))
      rw [show 0x6b0 + (4 * n + r) = 0x6b0 + 4 * n + r by omega, at_low ha this, low_mem, show 0x01000000 + 4 * n + r = 0x01000000 + (4 * n + r) by omega, h1 _ (by omega)]
    · exact (ha.outside hF.1 (by omega) (by apart) (by apart)).trans (h3 p (by omega))
  · exact ⟨fun p hp => (ha.outside hF (by omega) (by apart) (by apart)).trans (h1 p hp), fun p hp => (ha.outside hF (by omega) (by apart) (by apart)).trans (h2 p hp),
      fun p hp => (ha.outside hF (by omega) (by apart) (by apart)).trans (h3 p hp)⟩

/-- A word of the key schedule. -/
def word (s : State) (j : Nat) : Spec.Aes.Word := fun r => M s (0x6b0 + 4 * j + r.val)

/-- The next word of the key schedule, from the words before it. -/
def next (w : Nat → Spec.Aes.Word) (j : Nat) : Spec.Aes.Word :=
  Spec.Aes.addWord (w (j - 4))
    (if j % 4 = 0 then Spec.Aes.addWord (Spec.Aes.subWord (Spec.Aes.rotWord (w (j - 1)))) (Spec.Aes.rcon (j / 4)) else w (j - 1))

/-- The state, and the first `4 + n` words of the key schedule. -/
structure Expanded (n : Nat) (s : State) : Prop where
  state : ∀ p < 16, M s (0x03000000 + p) = B p
  start : ∀ j < 4, word s j = Spec.Aes.wordsOfBytes K j
  step : ∀ j, 4 ≤ j → j < 4 + n → word s j = next (word s) j

theorem expanded_next {K B : Nat → BitVec 8} {n : Nat} (hn : n < 40) {s s' : State} (h : Expanded K B n s)
    (hm : ∀ a < 0x04000000, a < 0x6c0 + 4 * n ∨ 0x6c0 + 4 * n + 4 ≤ a → M s' a = M s a) (hw : word s' (4 + n) = next (word s) (4 + n)) :
    Expanded K B (n + 1) s' := by
  have hold : ∀ j < 4 + n, word s' j = word s j := fun j hj => funext fun r => hm _ (by omega) (by omega)
  refine ⟨fun p hp => (hm _ (by omega) (by omega)).trans (h.state p hp), fun j hj => (hold j (by omega)).trans (h.start j hj), fun j h4 hj => ?_⟩
  have hnext : next (word s') j = next (word s) j := by
    unfold next
    rw [hold (j - 4) (by omega), hold (j - 1) (by omega)]
  rw [hnext]
  by_cases he : j = 4 + n
  · rw [he, hw]
  · rw [hold j (by omega), h.step j h4 (by omega)]

theorem leads_plain {n : Nat} (hn : n < 40) (h4 : n % 4 ≠ 0) : Leads aesCode lay (hC n) (Expanded K B n) 95 (hC (n + 1)) (Expanded K B (n + 1)) := by
  refine Leads.of_shows (show_plain n hn h4) fun s s' t _ ha hF h => ?_
  rw [Bool.and_eq_true] at hF
  refine expanded_next hn h (fun a hlt hout => ha.outside hF.1 (by omega) (by apart) (by apart)) (funext fun r => ?_)
  have hb := List.all_eq_true.1 hF.2 r.val (List.mem_range.2 r.isLt)
  unfold next
  rw [if_neg (by omega)]
  show M s' (0x6b0 + 4 * (4 + n) + r.val) = M s (0x6b0 + 4 * (4 + n - 4) + r.val) ^^^ M s (0x6b0 + 4 * (4 + n - 1) + r.val)
  rw [show 0x6b0 + 4 * (4 + n) + r.val = 0x6c0 + 4 * n + r.val by omega, at_low ha hb, low_lo, low_eor, low_mem, low_mem,
    show 0x6b0 + 4 * (4 + n - 4) + r.val = 0x6b0 + 4 * n + r.val by omega, show 0x6b0 + 4 * (4 + n - 1) + r.val = 0x6bc + 4 * n + r.val by omega, BitVec.xor_comm]

/-- A byte as a word. -/
abbrev wide (x : BitVec 8) : BitVec 32 := x.setWidth 32

theorem wide_ofNat (x : BitVec 8) : BitVec.ofNat 32 x.toNat = wide x := BitVec.ofNat_toNat ..

theorem low_wide (x : BitVec 8) : low (wide x) = x := low_byte x

theorem called_word {S n : Nat} {s s' : State} (h : Called S s s') (hS : S % 4 = 0) (hn : S ≤ n) (hlt : n < 2 ^ 32) (h4 : n % 4 = 0) :
    s'.word (BitVec.ofNat 32 n) = s.word (BitVec.ofNat 32 n) := by
  refine Flow.word_of_parts fun b hb => ?_
  have h1 := congrArg BitVec.toNat hb
  rw [align_toNat, align_toNat, BitVec.toNat_ofNat] at h1
  have := h.mem b.toNat b.isLt (by omega)
  unfold M at this
  rwa [BitVec.ofNat_toNat, BitVec.setWidth_eq] at this

/-- Returning from the substitution box. -/
def returns (S : Nat) (L : BitVec 32) (q : BitVec 24) (f : Flags) : Bool :=
  shows aesCode lay (leaveTo S L f) 1 13 ⟨q, [], some f, []⟩ (fun t => t.within [] [] && t.reg 0 == .r 0 && t.reg 13 == .c (BitVec.ofNat 32 S)
      && (List.range 8).all fun j => t.reg (BitVec.ofNat 4 (4 + j)) == .w (BitVec.ofNat 32 (S - 36 + 4 * j)))

theorem returns_key : ∀ x ∈ [(0x6c000528#32, 330#24), (0x6c000538#32, 334#24), (0x6c000544#32, 337#24), (0x6c000550#32, 340#24)], returns 0x040000c8 x.1 x.2 same = true := by
  decide +kernel

theorem returns_sub : ∀ x ∈ [(0x6c000450#32, same), (0x8c000450#32, less), (0x2c000450#32, more)], returns 0x040000b8 x.1 276 x.2 = true := by decide +kernel

/-- During a step with the substitution box: the memory below the stack is as before. -/
def During (m : Nat) (F : State → State → Prop) (s : State) : Prop :=
  ∃ s0, Expanded K B (4 * m) s0 ∧ (∀ a < 0x04000000, M s a = M s0 a) ∧ F s0 s

theorem call_key {m : Nat} {L : BitVec 32} {q : BitVec 24} (hx : returns 0x040000c8 L q same = true) {F G : State → State → Prop}
    (hF : ∀ s0 s, F s0 s → ∃ x, s.reg 0 = wide x ∧ ∀ s', s'.reg 0 = wide (Spec.Aes.sbox x) → Called 0x040000c8 s s' → G s0 s') :
    Leads aesCode lay (hK 59 (4 * m) (some L) (some same)) (During K B m F) 354 (hK q (4 * m) none (some same)) (During K B m G) := by
  refine call (S := 0x040000c8) body_key (by omega) (by omega) (by omega) hx (by decide +kernel) fun s ⟨s0, h1, h2, h3⟩ => ?_
  obtain ⟨x, hx, h⟩ := hF s0 s h3
  refine ⟨x, hx.trans (wide_ofNat x).symm, fun s' hs hc => ⟨s0, h1, fun a ha => ?_, h s' hs hc⟩⟩
  by_cases hlt : a < 0x04000060
  · exact (hc.mem a (by omega) (by omega)).trans (h2 a ha)
  · omega

theorem rcon_byte {τ : Abs} {s : State} (hm : τ.mem = base) (hD : Desc aesCode τ s) : ∀ i < 10, M s (0x69d + i) = Spec.Aes.rcon (i + 1) 0 := by
  have hw : ∀ j < 3, s.word (BitVec.ofNat 32 (4 * (423 + j))) = aesCode.getD (423 + j) 0 := by
    intro j hj
    refine hD.word _ _ (by rw [BitVec.toNat_ofNat]; omega) ?_
    unfold Abs.word
    rw [hm]
    rcases (show j = 0 ∨ j = 1 ∨ j = 2 by omega) with rfl | rfl | rfl <;> decide +kernel
  intro i hi
  have := Hamming.mem_of_word s (423 + (i + 1) / 4) ((i + 1) % 4) (by omega) (by omega)
  rw [show 4 * (423 + (i + 1) / 4) + (i + 1) % 4 = 0x69d + i by omega, hw _ (by omega)] at this
  refine this.trans ?_
  have hall : ∀ i < 10, BitVec.ofNat 8 ((aesCode.getD (423 + (i + 1) / 4) 0).toNat / 2 ^ (8 * ((i + 1) % 4))) = Spec.Aes.rcon (i + 1) 0 := by decide +kernel
  exact hall i hi

theorem leads_box {m : Nat} (hm : m < 10) : Leads aesCode lay (hC (4 * m)) (Expanded K B (4 * m)) (67 + 354 + 8 + 354 + 7 + 354 + 7 + 354 + 56) (hC (4 * m + 1))
    (Expanded K B (4 * m + 1)) := by
  let x (r : Nat) (s0 : State) : BitVec 8 := M s0 (0x6bc + 16 * m + r)
  let y (r : Nat) (s0 : State) : BitVec 8 := Spec.Aes.sbox (x r s0)
  have s1 : Leads aesCode lay (hC (4 * m)) (Expanded K B (4 * m)) 67 (hK 59 (4 * m) (some 0x6c000528) (some same)) (During K B m fun s0 s =>
      s.reg 0 = wide (x 1 s0) ∧ s.reg 10 = wide (x 0 s0) ∧ s.reg 11 = wide (x 3 s0) ∧ s.word (BitVec.ofNat 32 0x040000cc) = wide (x 2 s0)) := by
    refine Leads.of_shows (show_sub1 m hm) fun s s' t _ ha hF h => ⟨s, h, ?_⟩
    simp only [Bool.and_eq_true, beq_iff_eq] at hF
    obtain ⟨⟨⟨⟨f1, f2⟩, f3⟩, f4⟩, f5⟩ := hF
    exact ⟨fun a h => ha.outside f1 (by omega) (by apart) (by apart), by rw [ha.reg, f2]; rfl, by rw [ha.reg, f3]; rfl, by rw [ha.reg, f4]; rfl, ha.word _ _ f5⟩
  have s2 : Leads aesCode lay (hK 59 (4 * m) (some 0x6c000528) (some same)) (During K B m fun s0 s =>
      s.reg 0 = wide (x 1 s0) ∧ s.reg 10 = wide (x 0 s0) ∧ s.reg 11 = wide (x 3 s0) ∧ s.word (BitVec.ofNat 32 0x040000cc) = wide (x 2 s0)) 354 (hK 330 (4 * m) none (some same))
      (During K B m fun s0 s => s.reg 0 = wide (y 1 s0) ∧ s.reg 10 = wide (x 0 s0) ∧ s.reg 11 = wide (x 3 s0) ∧ s.word (BitVec.ofNat 32 0x040000cc) = wide (x 2 s0)) :=
    call_key K B (returns_key (0x6c000528#32, 330#24) (by decide)) fun s0 s ⟨h0, h1, h2, h3⟩ => ⟨_, h0, fun s' hs hc => ⟨hs, (hc.reg 6 (by omega)).trans h1, (hc.reg 7 (by omega)).trans h2,
      (called_word hc (by omega) (by omega) (by omega) (by omega)).trans h3⟩⟩
  have s3 : Leads aesCode lay (hK 330 (4 * m) none (some same)) (During K B m fun s0 s => s.reg 0 = wide (y 1 s0) ∧ s.reg 10 = wide (x 0 s0) ∧ s.reg 11 = wide (x 3 s0)
      ∧ s.word (BitVec.ofNat 32 0x040000cc) = wide (x 2 s0)) 8 (hK 59 (4 * m) (some 0x6c000538) (some same))
      (During K B m fun s0 s => s.reg 0 = wide (x 2 s0) ∧ s.reg 9 = wide (y 1 s0) ∧ s.reg 10 = wide (x 0 s0) ∧ s.reg 11 = wide (x 3 s0)) := by
    refine Leads.of_shows (show_sub2 m hm) fun s s' t _ ha hF ⟨s0, h, hl, h0, h1, h2, h3⟩ => ⟨s0, h, ?_⟩
    simp only [Bool.and_eq_true, beq_iff_eq] at hF
    obtain ⟨⟨⟨⟨f1, f2⟩, f3⟩, f4⟩, f5⟩ := hF
    exact ⟨fun a h => (ha.outside f1 (by omega) (by apart) (by apart)).trans (hl a h), by rw [ha.reg, f2]; exact h3, by rw [ha.reg, f3]; exact h0,
      by rw [ha.reg, f4]; exact h1, by rw [ha.reg, f5]; exact h2⟩
  have s4 : Leads aesCode lay (hK 59 (4 * m) (some 0x6c000538) (some same)) (During K B m fun s0 s => s.reg 0 = wide (x 2 s0) ∧ s.reg 9 = wide (y 1 s0)
      ∧ s.reg 10 = wide (x 0 s0) ∧ s.reg 11 = wide (x 3 s0)) 354 (hK 334 (4 * m) none (some same))
      (During K B m fun s0 s => s.reg 0 = wide (y 2 s0) ∧ s.reg 9 = wide (y 1 s0) ∧ s.reg 10 = wide (x 0 s0) ∧ s.reg 11 = wide (x 3 s0)) :=
    call_key K B (returns_key (0x6c000538#32, 334#24) (by decide)) fun s0 s ⟨h0, h1, h2, h3⟩ => ⟨_, h0, fun s' hs hc => ⟨hs, (hc.reg 5 (by omega)).trans h1, (hc.reg 6 (by omega)).trans h2,
      (hc.reg 7 (by omega)).trans h3⟩⟩
  have s5 : Leads aesCode lay (hK 334 (4 * m) none (some same)) (During K B m fun s0 s => s.reg 0 = wide (y 2 s0) ∧ s.reg 9 = wide (y 1 s0)
      ∧ s.reg 10 = wide (x 0 s0) ∧ s.reg 11 = wide (x 3 s0)) 7 (hK 59 (4 * m) (some 0x6c000544) (some same))
      (During K B m fun s0 s => s.reg 0 = wide (x 3 s0) ∧ s.reg 9 = wide (y 1 s0) ∧ s.reg 10 = wide (x 0 s0) ∧ M s 0x040000d5 = y 2 s0) := by
    refine Leads.of_shows (show_sub3 m hm) fun s s' t _ ha hF ⟨s0, h, hl, h0, h1, h2, h3⟩ => ⟨s0, h, ?_⟩
    simp only [Bool.and_eq_true, beq_iff_eq] at hF
    obtain ⟨⟨⟨⟨f1, f2⟩, f3⟩, f4⟩, f5⟩ := hF
    exact ⟨fun a h => (ha.outside f1 (by omega) (by apart) (by apart)).trans (hl a h), by rw [ha.reg, f2]; exact h3, by rw [ha.reg, f3]; exact h1,
      by rw [ha.reg, f4]; exact h2, by rw [at_low ha f5, low_lo]; exact (congrArg low h0).trans (low_wide _)⟩
  have s6 : Leads aesCode lay (hK 59 (4 * m) (some 0x6c000544) (some same)) (During K B m fun s0 s => s.reg 0 = wide (x 3 s0) ∧ s.reg 9 = wide (y 1 s0)
      ∧ s.reg 10 = wide (x 0 s0) ∧ M s 0x040000d5 = y 2 s0) 354 (hK 337 (4 * m) none (some same))
      (During K B m fun s0 s => s.reg 0 = wide (y 3 s0) ∧ s.reg 9 = wide (y 1 s0) ∧ s.reg 10 = wide (x 0 s0) ∧ M s 0x040000d5 = y 2 s0) :=
    call_key K B (returns_key (0x6c000544#32, 337#24) (by decide)) fun s0 s ⟨h0, h1, h2, h3⟩ => ⟨_, h0, fun s' hs hc => ⟨hs, (hc.reg 5 (by omega)).trans h1, (hc.reg 6 (by omega)).trans h2,
      (hc.mem _ (by omega) (by omega)).trans h3⟩⟩
  have s7 : Leads aesCode lay (hK 337 (4 * m) none (some same)) (During K B m fun s0 s => s.reg 0 = wide (y 3 s0) ∧ s.reg 9 = wide (y 1 s0)
      ∧ s.reg 10 = wide (x 0 s0) ∧ M s 0x040000d5 = y 2 s0) 7 (hK 59 (4 * m) (some 0x6c000550) (some same))
      (During K B m fun s0 s => s.reg 0 = wide (x 0 s0) ∧ s.reg 9 = wide (y 1 s0) ∧ M s 0x040000d5 = y 2 s0 ∧ M s 0x040000d6 = y 3 s0) := by
    refine Leads.of_shows (show_sub4 m hm) fun s s' t _ ha hF ⟨s0, h, hl, h0, h1, h2, h3⟩ => ⟨s0, h, ?_⟩
    simp only [Bool.and_eq_true, beq_iff_eq] at hF
    obtain ⟨⟨⟨f1, f2⟩, f3⟩, f4⟩ := hF
    exact ⟨fun a h => (ha.outside f1 (by omega) (by apart) (by apart)).trans (hl a h), by rw [ha.reg, f2]; exact h2, by rw [ha.reg, f3]; exact h1,
      (ha.outside f1 (by omega) (by apart) (by apart)).trans h3, by rw [at_low ha f4, low_lo]; exact (congrArg low h0).trans (low_wide _)⟩
  have s8 : Leads aesCode lay (hK 59 (4 * m) (some 0x6c000550) (some same)) (During K B m fun s0 s => s.reg 0 = wide (x 0 s0) ∧ s.reg 9 = wide (y 1 s0)
      ∧ M s 0x040000d5 = y 2 s0 ∧ M s 0x040000d6 = y 3 s0) 354 (hK 340 (4 * m) none (some same))
      (During K B m fun s0 s => s.reg 0 = wide (y 0 s0) ∧ s.reg 9 = wide (y 1 s0) ∧ M s 0x040000d5 = y 2 s0 ∧ M s 0x040000d6 = y 3 s0) :=
    call_key K B (returns_key (0x6c000550#32, 340#24) (by decide)) fun s0 s ⟨h0, h1, h2, h3⟩ => ⟨_, h0, fun s' hs hc => ⟨hs, (hc.reg 5 (by omega)).trans h1,
      (hc.mem _ (by omega) (by omega)).trans h2, (hc.mem _ (by omega) (by omega)).trans h3⟩⟩
  have s9 : Leads aesCode lay (hK 340 (4 * m) none (some same)) (During K B m fun s0 s => s.reg 0 = wide (y 0 s0) ∧ s.reg 9 = wide (y 1 s0)
      ∧ M s 0x040000d5 = y 2 s0 ∧ M s 0x040000d6 = y 3 s0) 56 (hC (4 * m + 1)) (Expanded K B (4 * m + 1)) := by
    refine Leads.of_shows (show_sub5 m hm) fun s s' t hD ha hF ⟨s0, h, hl, h0, h1, h2, h3⟩ => ?_
    simp only [Bool.and_eq_true] at hF
    obtain ⟨⟨⟨⟨f1, f2⟩, f3⟩, f4⟩, f5⟩ := hF
    have hr := rcon_byte (τ := hK 340 (4 * m) none (some same)) rfl hD m hm
    refine expanded_next (by omega) h (fun a hlt hout => (ha.outside f1 (by omega) (by apart) (by apart)).trans (hl a hlt)) (funext fun r => ?_)
    have e4 : 4 + 4 * m - 4 = 4 * m := by omega
    have e1 : 4 + 4 * m - 1 = 4 * m + 3 := by omega
    have ed : (4 + 4 * m) / 4 = m + 1 := by omega
    unfold next
    rw [if_pos (by omega), e4, e1, ed]
    have hold : ∀ r < 4, M s (0x6b0 + 16 * m + r) = M s0 (0x6b0 + 4 * (4 * m) + r) := fun r hr => by
      rw [show 0x6b0 + 4 * (4 * m) + r = 0x6b0 + 16 * m + r by omega]
      exact hl _ (by omega)
    have hx : ∀ r, Spec.Aes.sbox (M s0 (0x6b0 + 4 * (4 * m + 3) + r)) = y r s0 := fun r => by
      rw [show 0x6b0 + 4 * (4 * m + 3) + r = 0x6bc + 16 * m + r by omega]
    have hnew : ∀ r, 0x6b0 + 4 * (4 + 4 * m) + r = 0x6c0 + 16 * m + r := fun r => by omega
    rcases fin4_cases r with rfl | rfl | rfl | rfl
    · show M s' (0x6b0 + 4 * (4 + 4 * m) + 0) = M s0 (0x6b0 + 4 * (4 * m) + 0) ^^^ (Spec.Aes.sbox (M s0 (0x6b0 + 4 * (4 * m + 3) + 1)) ^^^ Spec.Aes.rcon (m + 1) 0)
      rw [hnew, hx, ← hold 0 (by omega), ← hr, Nat.add_zero, Nat.add_zero, at_low ha f2, low_lo, low_eor, low_lo, low_eor, low_mem, low_mem]
      show (_ ^^^ low (s.reg 9)) ^^^ _ = _
      rw [h1, low_wide, BitVec.xor_comm, BitVec.xor_comm (M s (0x69d + m))]
    · show M s' (0x6b0 + 4 * (4 + 4 * m) + 1) = M s0 (0x6b0 + 4 * (4 * m) + 1) ^^^ (Spec.Aes.sbox (M s0 (0x6b0 + 4 * (4 * m + 3) + 2)) ^^^ 0#8)
      rw [hnew, hx, ← hold 1 (by omega), at_low ha f3, low_lo, low_eor, low_mem, low_mem, h2, BitVec.xor_zero, BitVec.xor_comm]
    · show M s' (0x6b0 + 4 * (4 + 4 * m) + 2) = M s0 (0x6b0 + 4 * (4 * m) + 2) ^^^ (Spec.Aes.sbox (M s0 (0x6b0 + 4 * (4 * m + 3) + 3)) ^^^ 0#8)
      rw [hnew, hx, ← hold 2 (by omega), at_low ha f4, low_lo, low_eor, low_mem, low_mem, h3, BitVec.xor_zero, BitVec.xor_comm]
    · show M s' (0x6b0 + 4 * (4 + 4 * m) + 3) = M s0 (0x6b0 + 4 * (4 * m) + 3) ^^^ (Spec.Aes.sbox (M s0 (0x6b0 + 4 * (4 * m + 3) + 0)) ^^^ 0#8)
      rw [hnew, hx, ← hold 3 (by omega), at_low ha f5, low_lo, low_eor, low_lo, low_mem, BitVec.xor_zero]
      show low (s.reg 0) ^^^ _ = _
      rw [h0, low_wide, BitVec.xor_comm]
  exact s1.trans s2 |>.trans s3 |>.trans s4 |>.trans s5 |>.trans s6 |>.trans s7 |>.trans s8 |>.trans s9

/-- The cycles of a step of the key schedule. -/
def keyCycles (n : Nat) : Nat := if n % 4 = 0 then 67 + 354 + 8 + 354 + 7 + 354 + 7 + 354 + 56 else 95

theorem leads_expand : Leads aesCode lay (hC 0) (Copied K B 4) ((List.range 40).map keyCycles).sum (hC 40) (Expanded K B 40) := by
  refine Leads.mono (Leads.sum hC (Expanded K B) keyCycles 40 fun n hn => ?_) (fun s ⟨h1, h2, h3⟩ => ?_) (fun _ h => h)
  · unfold keyCycles
    by_cases h : n % 4 = 0
    · obtain ⟨m, rfl⟩ : ∃ m, n = 4 * m := ⟨n / 4, by omega⟩
      rw [if_pos h]
      exact leads_box K B (by omega)
    · rw [if_neg h]
      exact leads_plain K B hn h
  · refine ⟨h2, fun j hj => funext fun r => ?_, fun j h4 hj => absurd hj (by omega)⟩
    show M s (0x6b0 + 4 * j + r.val) = K (4 * j + r.val)
    rw [Nat.add_assoc]
    exact h3 _ (by omega)

end

/-! ## Rounds -/

section
variable (W : Nat → Spec.Aes.Word)

/-- The state. -/
def st (s : State) (p : Nat) : BitVec 8 := M s (0x03000000 + p)

/-- The key schedule, the number of the round, and the state. -/
structure Round (n : Nat) (X : Spec.Aes.State) (s : State) : Prop where
  key : ∀ j < 44, word s j = W j
  round : s.reg 4 = BitVec.ofNat 32 n
  state : stateOf (st s) = X

theorem word_eq {s s' : State} (h : ∀ a < 0x03000000, M s' a = M s a) {j : Nat} (hj : j < 44) : word s' j = word s j :=
  funext fun r => h _ (by omega)

theorem stateOf_congr {f g : Nat → BitVec 8} (h : ∀ p < 16, f p = g p) : stateOf f = stateOf g := by
  funext r c
  exact h _ (by omega)

theorem adds_state {n : Nat} (hn : n < 11) {s s' : State} {t : T} (ha : Flow.Agree s t s') (hF : addsKey n t = true) (hk : ∀ j < 44, word s j = W j) :
    stateOf (st s') = Spec.Aes.addRoundKey W n (stateOf (st s)) := by
  funext r c
  show M s' (0x03000000 + (4 * c.val + r.val)) = M s (0x03000000 + (4 * c.val + r.val)) ^^^ W (4 * n + c.val) r
  have := List.all_eq_true.1 hF (4 * c.val + r.val) (List.mem_range.2 (by omega))
  rw [at_low ha this, low_lo, low_eor, low_mem, low_mem, ← hk _ (by omega), BitVec.xor_comm]
  show _ = _ ^^^ M s (0x6b0 + 4 * (4 * n + c.val) + r.val)
  rw [show 0x6b0 + 4 * (4 * n + c.val) + r.val = 0x6b0 + 16 * n + (4 * c.val + r.val) by omega]

theorem leads_round0 (X : Spec.Aes.State) : Leads aesCode lay (hC 40) (fun s => (∀ j < 44, word s j = W j) ∧ stateOf (st s) = X) 305 (hR 0)
    (Round W 1 (Spec.Aes.addRoundKey W 0 X)) := by
  refine Leads.of_shows show_round0 fun s s' t _ ha hF ⟨h1, h2⟩ => ?_
  simp only [Bool.and_eq_true, beq_iff_eq] at hF
  refine ⟨fun j hj => (word_eq (fun a h => ha.outside hF.1.1 (by omega) (by apart) (by apart)) hj).trans (h1 j hj), by rw [ha.reg, hF.2]; rfl, ?_⟩
  rw [adds_state W (by omega) ha hF.1.2 h1, h2]

/-- In `SubBytes`: the first `t` bytes are substituted, and the number of the round is on the stack. -/
structure Sub (m : Nat) (X : Spec.Aes.State) (t : Nat) (s : State) : Prop where
  key : ∀ j < 44, word s j = W j
  round : s.word (BitVec.ofNat 32 0x040000b8) = BitVec.ofNat 32 m
  state : ∀ r c : Fin 4, stateOf (st s) r c = if 4 * r.val + c.val < t then Spec.Aes.sbox (X r c) else X r c

/-- The rounds that the program executes alike. -/
def kind (n : Nat) : Nat := if n = 0 then 0 else if n = 9 then 9 else 1

theorem kind_mem (n : Nat) : kind n ∈ [0, 1, 9] := by unfold kind; split <;> [simp; (split <;> simp)]

theorem hSub_kind (n t : Nat) : hSub n t = hSub (kind n) t := by
  unfold hSub subFlags back kind
  by_cases h0 : n = 0
  · simp [h0]
  · by_cases h9 : n = 9
    · simp [h9]
    · simp [h0, h9]

/-- The address to which the substitution box returns. -/
def lr (n t : Nat) : BitVec 32 := if subFlags n t = same then 0x6c000450 else if subFlags n t = less then 0x8c000450 else 0x2c000450

theorem returns_lr : ∀ n ∈ [0, 1, 9], ∀ t < 16, returns 0x040000b8 (lr n t) 276 (subFlags n t) = true := by decide +kernel

theorem clear_sub : ∀ n ∈ [0, 1, 9], clear 0x040000b8 (hS 59 (back n) none none none same).mem = true := by decide +kernel

/-- The row and the column of a byte in `SubBytes`. -/
def row (t : Nat) : Fin 4 := ⟨t / 4 % 4, by omega⟩
def col (t : Nat) : Fin 4 := ⟨t % 4, by omega⟩

theorem sub_word {m : Nat} {X : Spec.Aes.State} {t : Nat} {s s' : State} (h : Sub W m X t s) (hm : ∀ a < 2 ^ 32, a < 0x04000050 ∨ 0x040000b8 ≤ a → M s' a = M s a) :
    Sub W m X t s' := by
  refine ⟨fun j hj => (word_eq (fun a h => hm a (by omega) (by omega)) hj).trans (h.key j hj), ?_, fun r c => ?_⟩
  · refine (Flow.word_of_parts fun b hb => ?_).trans h.round
    have h1 := congrArg BitVec.toNat hb
    rw [align_toNat, align_toNat, BitVec.toNat_ofNat] at h1
    have := hm b.toNat b.isLt (by omega)
    unfold M at this
    rwa [BitVec.ofNat_toNat, BitVec.setWidth_eq] at this
  · exact (hm _ (by omega) (by omega)).trans (h.state r c)

theorem word_outside {s s' : State} {t : T} (ha : Flow.Agree s t s') {a b : Nat} (hw : t.within [(a, b)] [] = true) (hb : b ≤ 0x040000b8) :
    s'.word (BitVec.ofNat 32 0x040000b8) = s.word (BitVec.ofNat 32 0x040000b8) := by
  refine Flow.word_of_parts fun x hx => ?_
  have h1 := congrArg BitVec.toNat hx
  rw [align_toNat, align_toNat, BitVec.toNat_ofNat] at h1
  have := ha.outside hw (n := x.toNat) x.isLt (by apart) (by apart)
  rwa [BitVec.ofNat_toNat, BitVec.setWidth_eq] at this

/-- The cycles for a byte in `SubBytes`. -/
def subCycles (t : Nat) : Nat := 6 + 354 + (subSteps t).2

theorem leads_sub {n m : Nat} (hn : n < 10) (X : Spec.Aes.State) :
    Leads aesCode lay (hR n) (Round W m X) (17 + ((List.range 16).map subCycles).sum + 8) (hT (if n = 9 then 415 else 370) same) (Round W m (Spec.Aes.subBytes X)) := by
  have hk := kind_mem n
  have s1 : Leads aesCode lay (hR n) (Round W m X) 17 (hSub n 0) (Sub W m X 0) := by
    refine Leads.of_shows (show_subIn n hn) fun s s' t _ ha hF h => ?_
    simp only [Bool.and_eq_true, beq_iff_eq] at hF
    refine ⟨fun j hj => (word_eq (fun a h => ha.outside hF.1 (by omega) (by apart) (by apart)) hj).trans (h.key j hj), ?_, fun r c => ?_⟩
    · exact (ha.word _ _ hF.2).trans h.round
    · rw [if_neg (by omega), ← h.state]
      exact ha.outside hF.1 (by omega) (by apart) (by apart)
  have s2 : Leads aesCode lay (hSub n 0) (Sub W m X 0) ((List.range 16).map subCycles).sum (hSub n 16) (Sub W m X 16) := by
    refine Leads.sum (hSub n) (Sub W m X) subCycles 16 fun t ht => ?_
    rw [hSub_kind n, hSub_kind n]
    have hrow : (row t).val = t / 4 := by show t / 4 % 4 = t / 4; omega
    have hcol : (col t).val = t % 4 := rfl
    have t1 : Leads aesCode lay (hSub (kind n) t) (Sub W m X t) 6
        (hS 59 (back (kind n)) (nat (0x03000000 + t / 4)) (nat (t % 4)) (some (lr (kind n) t)) (subFlags (kind n) t))
        (fun s => Sub W m X t s ∧ s.reg 0 = wide (X (row t) (col t))) := by
      refine Leads.of_shows (show_subCall (kind n) hk t ht) fun s s' u _ ha hF h => ?_
      simp only [Bool.and_eq_true, beq_iff_eq] at hF
      refine ⟨sub_word W h fun a hlt _ => ha.outside hF.1 hlt (by apart) (by apart), ?_⟩
      have := h.state (row t) (col t)
      rw [hrow, hcol, if_neg (by omega)] at this
      rw [ha.reg, hF.2, ← this]
      show (M s _).zeroExtend 32 = wide (M s (0x03000000 + (4 * (col t).val + (row t).val)))
      rw [hrow, hcol, Nat.add_assoc]
    have t2 : Leads aesCode lay (hS 59 (back (kind n)) (nat (0x03000000 + t / 4)) (nat (t % 4)) (some (lr (kind n) t)) (subFlags (kind n) t))
        (fun s => Sub W m X t s ∧ s.reg 0 = wide (X (row t) (col t))) 354
        (hS 276 (back (kind n)) (nat (0x03000000 + t / 4)) (nat (t % 4)) none (subFlags (kind n) t))
        (fun s => Sub W m X t s ∧ s.reg 0 = wide (Spec.Aes.sbox (X (row t) (col t)))) :=
      call (S := 0x040000b8) body_sub (by omega) (by omega) (by omega) (returns_lr _ hk t ht) (clear_sub _ hk) fun s ⟨h, h0⟩ =>
        ⟨_, h0.trans (wide_ofNat _).symm, fun s' hs hc => ⟨sub_word W h fun a hlt ho => hc.mem a hlt (by omega), hs⟩⟩
    have t3 : Leads aesCode lay (hS 276 (back (kind n)) (nat (0x03000000 + t / 4)) (nat (t % 4)) none (subFlags (kind n) t))
        (fun s => Sub W m X t s ∧ s.reg 0 = wide (Spec.Aes.sbox (X (row t) (col t)))) (subSteps t).2 (hSub (kind n) (t + 1)) (Sub W m X (t + 1)) := by
      refine Leads.of_shows (show_subStore (kind n) hk t ht) fun s s' u _ ha hF ⟨h, h0⟩ => ?_
      rw [Bool.and_eq_true] at hF
      refine ⟨fun j hj => (word_eq (fun a h => ha.outside hF.1 (by omega) (by apart) (by apart)) hj).trans (h.key j hj), (word_outside ha hF.1 (by omega)).trans h.round, fun r c => ?_⟩
      by_cases he : 4 * r.val + c.val = t
      · have e1 : r = row t := Fin.ext (by rw [hrow]; omega)
        have e2 : c = col t := Fin.ext (by rw [hcol]; omega)
        rw [if_pos (by omega), e1, e2]
        show M s' (0x03000000 + (4 * (col t).val + (row t).val)) = _
        rw [hrow, hcol, ← Nat.add_assoc, at_low ha hF.2, low_lo]
        exact (congrArg low h0).trans (low_wide _)
      · have := h.state r c
        rw [if_congr (show 4 * r.val + c.val < t + 1 ↔ 4 * r.val + c.val < t by omega) rfl rfl, ← this]
        exact ha.outside hF.1 (by omega) (by apart) (by apart)
    exact t1.trans t2 |>.trans t3
  have s3 : Leads aesCode lay (hSub n 16) (Sub W m X 16) 8 (hT (if n = 9 then 415 else 370) same) (Round W m (Spec.Aes.subBytes X)) := by
    rw [hSub_kind n, show (if n = 9 then (415 : BitVec 24) else 370) = if kind n = 9 then 415 else 370 by
      unfold kind
      by_cases h0 : n = 0
      · simp [h0]
      · by_cases h9 : n = 9 <;> simp [h0, h9]]
    refine Leads.of_shows (show_subOut (kind n) hk) fun s s' u _ ha hF h => ?_
    simp only [Bool.and_eq_true, beq_iff_eq] at hF
    refine ⟨fun j hj => (word_eq (fun a h => ha.outside hF.1 (by omega) (by apart) (by apart)) hj).trans (h.key j hj), by rw [ha.reg, hF.2]; exact h.round, ?_⟩
    funext r c
    have := h.state r c
    rw [if_pos (by omega)] at this
    exact (ha.outside hF.1 (by omega) (by apart) (by apart)).trans this
  exact s1.trans s2 |>.trans s3

theorem leads_shift {q : BitVec 24 × BitVec 24} (hq : q ∈ [(370, 371), (415, 416)]) (m : Nat) (X : Spec.Aes.State) :
    Leads aesCode lay (hT q.1 same) (Round W m X) 84 (hT q.2 same) (Round W m (Spec.Aes.shiftRows X)) := by
  refine Leads.of_shows (show_shift q hq) fun s s' t _ ha hF h => ?_
  simp only [Bool.and_eq_true, beq_iff_eq] at hF
  refine ⟨fun j hj => (word_eq (fun a h => ha.outside hF.1.1 (by omega) (by apart) (by apart)) hj).trans (h.key j hj), by rw [ha.reg, hF.2]; exact h.round, ?_⟩
  rw [← h.state, ← state_shiftRows]
  exact stateOf_congr fun p hp => (at_low ha (List.all_eq_true.1 hF.1.2 p (List.mem_range.2 hp))).trans (low_mem s _)

theorem low_twice (s : State) (a b : Nat) : low ((twice (mem8 a) (mem8 b)).val s) = xtime (M s a ^^^ M s b) := by
  have all : ∀ z : Fin 256, low (27#32 * ((BitVec.ofFin z : BitVec 8).zeroExtend 32 >>> 7) ^^^ (BitVec.ofFin z : BitVec 8).zeroExtend 32 <<< 1) = xtime (BitVec.ofFin z) := by
    decide +kernel
  have := all (M s a ^^^ M s b).toFin
  rw [← this]
  show low (27#32 * (((M s a).zeroExtend 32 ^^^ (M s b).zeroExtend 32) >>> 7) ^^^ ((M s a).zeroExtend 32 ^^^ (M s b).zeroExtend 32) <<< 1) = _
  have e : (M s a).zeroExtend 32 ^^^ (M s b).zeroExtend 32 = (M s a ^^^ M s b).zeroExtend 32 := (BitVec.setWidth_xor ..).symm
  rw [e]

theorem low_total (s : State) (k : Nat) : low ((total k).val s) = (st s (4 * k) ^^^ st s (4 * k + 1)) ^^^ (st s (4 * k + 2) ^^^ st s (4 * k + 3)) := by
  unfold total
  rw [low_eor, low_eor, low_eor, low_mem, low_mem, low_mem, low_mem]
  rfl

/-- In `MixColumns`: the first `k` columns are done. -/
structure Mix (m : Nat) (X : Spec.Aes.State) (k : Nat) (s : State) : Prop where
  key : ∀ j < 44, word s j = W j
  round : s.reg 4 = BitVec.ofNat 32 m
  state : ∃ f : Nat → BitVec 8, stateOf f = X ∧ ∀ p < 16, st s p = if p < 4 * k then mixed f p else f p

theorem leads_mix (m : Nat) (X : Spec.Aes.State) :
    Leads aesCode lay (hT 371 same) (Round W m X) (1 + 4 * 66) (hM 4) (Round W m (Spec.Aes.mixColumns X)) := by
  have s1 : Leads aesCode lay (hT 371 same) (Round W m X) 1 (hM 0) (Mix W m X 0) := by
    refine Leads.of_shows show_mixIn fun s s' t _ ha hF h => ?_
    simp only [Bool.and_eq_true, beq_iff_eq] at hF
    refine ⟨fun j hj => (word_eq (fun a h => ha.outside hF.1 (by omega) (by apart) (by apart)) hj).trans (h.key j hj), by rw [ha.reg, hF.2]; exact h.round, st s, h.state,
      fun p hp => ?_⟩
    rw [if_neg (by omega)]
    exact ha.outside hF.1 (by omega) (by apart) (by apart)
  have s2 : Leads aesCode lay (hM 0) (Mix W m X 0) (4 * 66) (hM 4) (Mix W m X 4) := by
    refine Leads.loop hM (Mix W m X) _ 4 fun k hk => ?_
    refine Leads.of_shows (show_mix k hk) fun s s' t _ ha hF ⟨h1, h2, f, h3, h4⟩ => ?_
    simp only [Bool.and_eq_true, beq_iff_eq] at hF
    obtain ⟨⟨⟨⟨⟨f1, f2⟩, f3⟩, f4⟩, f5⟩, f6⟩ := hF
    refine ⟨fun j hj => (word_eq (fun a h => ha.outside f1 (by omega) (by apart) (by apart)) hj).trans (h1 j hj), by rw [ha.reg, f2]; exact h2, f, h3, fun p hp => ?_⟩
    have hf : ∀ r < 4, M s (0x03000000 + 4 * k + r) = f (4 * k + r) := fun r hr => by
      have := h4 (4 * k + r) (by omega)
      rw [if_neg (by omega)] at this
      rw [Nat.add_assoc]
      exact this
    have hst : ∀ r < 4, st s (4 * k + r) = f (4 * k + r) := fun r hr => by
      have := hf r hr
      rwa [Nat.add_assoc] at this
    by_cases hin : 4 * k ≤ p ∧ p < 4 * k + 4
    · obtain ⟨r, rfl⟩ : ∃ r, p = 4 * k + r := ⟨p - 4 * k, by omega⟩
      have hr : r < 4 := by omega
      rw [if_pos (by omega)]
      unfold mixed
      rw [show (4 * k + r) / 4 = k by omega, show (4 * k + r) % 4 = r by omega]
      show M s' (0x03000000 + (4 * k + r)) = _
      have hf0 := hf 0 (by omega)
      have hs0 := hst 0 (by omega)
      rw [Nat.add_zero] at hf0 hs0
      rcases (show r = 0 ∨ r = 1 ∨ r = 2 ∨ r = 3 by omega) with rfl | rfl | rfl | rfl
      · rw [Nat.add_zero, at_low ha f3, low_lo, low_eor, low_eor, low_mem, low_total, low_twice, hf0, hf 1 (by omega), hs0, hst 1 (by omega), hst 2 (by omega), hst 3 (by omega)]
        ac_rfl
      · rw [← Nat.add_assoc, at_low ha f4, low_lo, low_eor, low_eor, low_mem, low_total, low_twice, hf 1 (by omega), hf 2 (by omega), hs0, hst 1 (by omega), hst 2 (by omega), hst 3 (by omega)]
        ac_rfl
      · rw [← Nat.add_assoc, at_low ha f5, low_lo, low_eor, low_eor, low_mem, low_total, low_twice, hf 2 (by omega), hf 3 (by omega), hs0, hst 1 (by omega), hst 2 (by omega), hst 3 (by omega)]
        ac_rfl
      · rw [← Nat.add_assoc, at_low ha f6, low_lo, low_eor, low_eor, low_mem, low_total, low_twice, hf 3 (by omega), hf0, hs0, hst 1 (by omega), hst 2 (by omega), hst 3 (by omega)]
        rw [show (3 + 1) % 4 = 0 from rfl]
        simp only [Nat.add_zero]
        rw [BitVec.xor_comm (f (4 * k + 3)) (f (4 * k))]
        generalize xtime _ = z
        ac_rfl
    · rw [if_congr (show p < 4 * (k + 1) ↔ p < 4 * k by omega) rfl rfl, ← h4 p hp]
      exact ha.outside f1 (by omega) (by apart) (by apart)
  refine (s1.trans s2).mono (fun _ h => h) fun s ⟨h1, h2, f, h3, h4⟩ => ⟨h1, h2, ?_⟩
  rw [← h3, ← state_mixColumns]
  refine stateOf_congr fun p hp => ?_
  rw [h4 p hp, if_pos (by omega)]

theorem leads_add {n : Nat} (hn : n < 9) (X : Spec.Aes.State) :
    Leads aesCode lay (hM 4) (Round W (n + 1) X) 308 (hR (n + 1)) (Round W (n + 2) (Spec.Aes.addRoundKey W (n + 1) X)) := by
  refine Leads.learn (r := 4) (v := BitVec.ofNat 32 (n + 1)) (Leads.of_shows (show_add n hn) fun s s' t _ ha hF h => ?_) fun s h => h.round
  simp only [Bool.and_eq_true, beq_iff_eq] at hF
  refine ⟨fun j hj => (word_eq (fun a h => ha.outside hF.1.1 (by omega) (by apart) (by apart)) hj).trans (h.key j hj), by rw [ha.reg, hF.2]; rfl, ?_⟩
  rw [adds_state W (by omega) ha hF.1.2 h.key, h.state]

theorem leads_last (X : Spec.Aes.State) :
    Leads aesCode lay (hT 416 same) (Round W 10 X) 314 stopped (fun s => stateOf (st s) = Spec.Aes.addRoundKey W 10 X) := by
  refine Leads.learn (r := 4) (v := BitVec.ofNat 32 10) (Leads.of_shows show_last fun s s' t _ ha hF h => ?_) fun s h => h.round
  simp only [Bool.and_eq_true] at hF
  rw [adds_state W (by omega) ha hF.2 h.key, h.state]

theorem leads_cipher (X : Spec.Aes.State) : Leads aesCode lay (hC 40) (fun s => (∀ j < 44, word s j = W j) ∧ stateOf (st s) = X) 65976 stopped
    (fun s => stateOf (st s) = Spec.Aes.cipher 10 W X) := by
  have s1 := leads_round0 W X
  have s2 : Leads aesCode lay (hR 0) (Round W 1 (Spec.Aes.rounds W X 0)) (9 * 6593) (hR 9) (Round W 10 (Spec.Aes.rounds W X 9)) := by
    refine Leads.loop hR (fun n => Round W (n + 1) (Spec.Aes.rounds W X n)) _ 9 fun n hn => ?_
    have t1 := leads_sub W (n := n) (m := n + 1) (by omega) (Spec.Aes.rounds W X n)
    rw [if_neg (by omega)] at t1
    exact t1.trans (leads_shift W (q := (370, 371)) (by simp) _ _) |>.trans (leads_mix W _ _) |>.trans (leads_add W hn _)
  have s3 := leads_sub W (n := 9) (m := 10) (by omega) (Spec.Aes.rounds W X 9)
  rw [if_pos rfl] at s3
  exact s1.trans s2 |>.trans s3 |>.trans (leads_shift W (q := (415, 416)) (by simp) _ _) |>.trans (leads_last W _)

end

/-- The program encrypts the block with the key. -/
theorem leads_aes (K B : Nat → BitVec 8) : Leads aesCode lay .init (Input K B 0) 84766 stopped fun s => ∃ w, Spec.Aes.KeySchedule 4 (Spec.Aes.wordsOfBytes K) w
    ∧ Spec.Aes.stateOfBytes (st s) = Spec.Aes.cipher 10 w (Spec.Aes.stateOfBytes B) := by
  have s1 := (leads_block K B).trans (leads_key K B) |>.trans (leads_expand K B)
  intro l s hl hD hP
  refine Leads.trans (k := 65976) s1 ?_ l s hl hD hP
  intro l s hl hD h
  have hs : stateOf (st s) = stateOf B := stateOf_congr h.state
  refine Leads.mono (leads_cipher (word s) (stateOf B)) (fun s' (e : s' = s) => ?_) (fun s' h' => ?_) l s hl hD rfl
  · rw [e]
    exact ⟨fun _ _ => rfl, hs⟩
  · refine ⟨word s, ⟨h.start, fun i h4 hi => ?_⟩, h'⟩
    refine (h.step i h4 (by omega)).trans ?_
    unfold next
    rw [if_neg (show ¬ (6 < 4 ∧ i % 4 = 4) by omega)]

end TinyGarble.Proof.Hdl.A23.Sym.AesCode
