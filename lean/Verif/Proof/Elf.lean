import Verif.Model.Elf
import Verif.Spec.Elf
import Verif.Props.InputFile

/-!
# The program that converts executables
-/

namespace TinyGarble.Proof.Elf

open TinyGarble TinyGarble.Elf TinyGarble.Spec

variable {f : List Byte}

theorem get_byte {o : Nat} (h : o < f.length) : f[o]? = some (Spec.Elf.byte f o) := by
  rw [Spec.Elf.byte, List.getD_eq_getElem?_getD, List.getElem?_eq_getElem h]; rfl

theorem u16_eq {o : Nat} (h : o + 1 < f.length) : u16 f o = some (Spec.Elf.half f o) := by
  simp only [u16, get_byte h, get_byte (show o < f.length by omega), Option.bind_eq_bind, Option.bind_some]
  rfl

theorem u32_eq {o : Nat} (h : o + 3 < f.length) : u32 f o = some (Spec.Elf.word f o) := by
  simp only [u32, u16_eq (show o + 1 < f.length by omega), u16_eq (show o + 2 + 1 < f.length by omega), Option.bind_eq_bind,
    Option.bind_some]
  rfl

theorem word_lt (o : Nat) : Spec.Elf.word f o < 2 ^ 32 := by
  have h1 := (Spec.Elf.byte f o).isLt
  have h2 := (Spec.Elf.byte f (o + 1)).isLt
  have h3 := (Spec.Elf.byte f (o + 2)).isLt
  have h4 := (Spec.Elf.byte f (o + 2 + 1)).isLt
  unfold Spec.Elf.word Spec.Elf.half
  omega

theorem foldlM_range_succ {σ : Type} (g : σ → Nat → Option σ) (n : Nat) (s : σ) :
    (List.range (n + 1)).foldlM g s = ((List.range n).foldlM g s).bind (g · n) := by
  rw [List.range_succ, List.foldlM_append]
  cases (List.range n).foldlM g s with
  | none => rfl
  | some x => show [n].foldlM g x = _; simp

/-! ## Headers -/

section
variable (wf : Spec.Elf.WellFormed f)
include wf

theorem header_bound {i : Nat} (hi : i < Spec.Elf.shnum f) : Spec.Elf.header f i + 40 ≤ f.length := by
  obtain ⟨_, _, h3, h4⟩ := wf.sections
  have : (i + 1) * Spec.Elf.shentsize f ≤ Spec.Elf.shnum f * Spec.Elf.shentsize f := Nat.mul_le_mul_right _ hi
  rw [Nat.add_mul] at this
  unfold Spec.Elf.header
  omega

theorem sectionAt_eq (i : Nat) : sectionAt (Spec.Elf.shoff f) (Spec.Elf.shentsize f) i = some (Spec.Elf.header f i) := by
  obtain ⟨h1, h2, _, _⟩ := wf.sections
  have : (Spec.Elf.shoff f + Spec.Elf.shentsize f * i) % 4 = 0 := by
    rw [Nat.add_mod, Nat.mul_mod, h1, h2]; simp
  simp only [sectionAt, this, if_true, Spec.Elf.header, Nat.mul_comm i]

theorem programs_ok : (List.range (Spec.Elf.phnum f)).foldlM (readProgram f (Spec.Elf.phoff f) (Spec.Elf.phentsize f)) () = some () := by
  rcases wf.programs with h | ⟨h1, h2, h3, h4⟩
  · rw [h]; rfl
  · have : ∀ n ≤ Spec.Elf.phnum f, (List.range n).foldlM (readProgram f (Spec.Elf.phoff f) (Spec.Elf.phentsize f)) () = some () := by
      intro n hn
      induction n with
      | zero => rfl
      | succ n ih =>
        rw [foldlM_range_succ, ih (by omega)]
        have hb : (n + 1) * Spec.Elf.phentsize f ≤ Spec.Elf.phnum f * Spec.Elf.phentsize f := Nat.mul_le_mul_right _ hn
        rw [Nat.add_mul, Nat.mul_comm n] at hb
        have e : (Spec.Elf.phoff f + Spec.Elf.phentsize f * n) % 4 = 0 := by rw [Nat.add_mod, Nat.mul_mod, h1, h2]; simp
        have hs : sectionAt (Spec.Elf.phoff f) (Spec.Elf.phentsize f) n = some (Spec.Elf.phoff f + Spec.Elf.phentsize f * n) := by
          simp only [sectionAt, e, if_true]
        simp only [Option.bind_some, readProgram, hs, Option.bind_eq_bind]
        rw [u32_eq (by omega), u32_eq (by omega)]
        rfl
    exact this _ (Nat.le_refl _)

/-- What the first loop over the sections finds. -/
def Found (f : List Byte) (n : Nat) (r : Option Nat) : Prop :=
  (r = none ∧ ∀ k < n, Spec.Elf.type f k ≠ Spec.Elf.STRTAB) ∨
  ∃ i < n, Spec.Elf.FirstStrings f i ∧ r = some (Spec.Elf.offset f i)

theorem strings_found : ∀ n ≤ Spec.Elf.shnum f, ∃ r,
    (List.range n).foldlM (findStrings f (Spec.Elf.shoff f) (Spec.Elf.shentsize f)) none = some r ∧ Found f n r := by
  intro n hn
  induction n with
  | zero => exact ⟨none, rfl, .inl ⟨rfl, fun k hk => absurd hk (by omega)⟩⟩
  | succ n ih =>
    obtain ⟨r, e, hr⟩ := ih (by omega)
    have hb := header_bound wf (show n < Spec.Elf.shnum f by omega)
    rw [foldlM_range_succ, e, Option.bind_some]
    simp only [findStrings, sectionAt_eq wf, Option.bind_eq_bind, Option.bind_some]
    rw [u32_eq (by omega), u32_eq (by omega), Option.bind_some, Option.bind_some]
    change ∃ r', (if Spec.Elf.type f n = 3 ∧ r = none then some (some (Spec.Elf.offset f n)) else some r) = some r' ∧ _
    rcases hr with ⟨rfl, hr⟩ | ⟨i, hi, h1, rfl⟩
    · by_cases ht : Spec.Elf.type f n = 3
      · refine ⟨_, if_pos ⟨ht, rfl⟩, .inr ⟨n, by omega, ⟨by omega, ht, hr⟩, rfl⟩⟩
      · refine ⟨_, if_neg (fun h => ht h.1), .inl ⟨rfl, fun k hk => ?_⟩⟩
        by_cases hk' : k = n
        · rw [hk']; exact ht
        · exact hr k (by omega)
    · exact ⟨_, if_neg (fun h => absurd h.2 (by simp)), .inr ⟨i, by omega, h1, rfl⟩⟩

theorem found_first {i : Nat} (hi : Spec.Elf.FirstStrings f i) {r : Option Nat} (h : Found f (Spec.Elf.shnum f) r) :
    r = some (Spec.Elf.offset f i) := by
  rcases h with ⟨_, h⟩ | ⟨k, _, h, rfl⟩
  · exact absurd hi.2.1 (h i hi.1)
  · have : k = i := by
      rcases Nat.lt_trichotomy k i with hlt | rfl | hlt
      · exact absurd h.2.1 (hi.2.2 k hlt)
      · rfl
      · exact absurd hi.2.1 (h.2.2 i hlt)
    rw [this]
end

/-! ## Comments -/

/-- Whole lines without the character `@`. -/
def Comments (t : List Char) : Prop := ∃ ls : List (List Char), t = ls.flatMap (· ++ ['\n']) ∧ ∀ l ∈ ls, '\n' ∉ l ∧ '@' ∉ l

theorem Comments.nil : Comments [] := ⟨[], rfl, by simp⟩

theorem Comments.append {a b : List Char} (ha : Comments a) (hb : Comments b) : Comments (a ++ b) := by
  obtain ⟨la, rfl, ha⟩ := ha
  obtain ⟨lb, rfl, hb⟩ := hb
  refine ⟨la ++ lb, by rw [List.flatMap_append], fun l hl => ?_⟩
  rcases List.mem_append.mp hl with h | h
  · exact ha l h
  · exact hb l h

/-- Neither newline nor `@`. -/
def Calm (t : List Char) : Prop := '\n' ∉ t ∧ '@' ∉ t

instance (t : List Char) : Decidable (Calm t) := inferInstanceAs (Decidable (_ ∧ _))

theorem Calm.append {a b : List Char} (ha : Calm a) (hb : Calm b) : Calm (a ++ b) := by
  constructor <;> rw [List.mem_append, not_or]
  · exact ⟨ha.1, hb.1⟩
  · exact ⟨ha.2, hb.2⟩

theorem Calm.line {a : List Char} (ha : Calm a) : Comments (a ++ ['\n']) := ⟨[a], by simp, by simpa [Calm] using ha⟩

theorem calm_digits (k n : Nat) : Calm (hexDigits lowerDigit k n) := by
  have key : ∀ d < 16, lowerDigit d ≠ '\n' ∧ lowerDigit d ≠ '@' := by decide
  constructor <;> intro h <;> obtain ⟨d, hd, e⟩ := hexDigits_mem h
  · exact (key d hd).1 e.symm
  · exact (key d hd).2 e.symm

theorem calm_pSHT (t : Nat) : Calm (pSHT t) := by
  by_cases h : t < 20
  · have : ∀ t < 20, Calm (pSHT t) := by decide
    exact this t h
  · unfold pSHT
    rw [List.getD_eq_getElem?_getD, List.getElem?_eq_none (by simp; omega)]
    decide

theorem cString_calm {o : Nat} (h : Spec.Elf.Quiet f o) : ∃ s, cString f o (f.length - o) = some s ∧ Calm s := by
  obtain ⟨n, hn, h0, hk⟩ := h
  obtain ⟨m, hm⟩ : ∃ m, f.length - o = n + 1 + m := ⟨f.length - o - (n + 1), by omega⟩
  rw [hm]
  clear hm
  induction n generalizing o m with
  | zero =>
    refine ⟨[], ?_, by constructor <;> simp⟩
    rw [show 0 + 1 + m = m + 1 by omega, cString, get_byte (by omega)]
    simp only [Option.bind_eq_bind, Option.bind_some]
    rw [if_pos (by simpa using h0)]
  | succ n ih =>
    obtain ⟨s, hs, hc⟩ := ih (o := o + 1) (by omega) (by rwa [show o + 1 + n = o + (n + 1) by omega])
      (fun k hk' => by rw [show o + 1 + k = o + (k + 1) by omega]; exact hk (k + 1) (by omega)) m
    have hb := hk 0 (by omega)
    rw [Nat.add_zero] at hb
    refine ⟨Char.ofNat (Spec.Elf.byte f o).toNat :: s, ?_, ?_⟩
    · rw [show n + 1 + 1 + m = (n + 1 + m) + 1 by omega, cString, get_byte (by omega)]
      simp only [Option.bind_eq_bind, Option.bind_some]
      rw [if_neg hb.1, hs]
      rfl
    · have key : ∀ b : BitVec 8, b ≠ 0x40 → b ≠ 0x0a → Char.ofNat b.toNat ≠ '\n' ∧ Char.ofNat b.toNat ≠ '@' := by decide
      have := key _ hb.2.1 hb.2.2
      constructor <;> rw [List.mem_cons, not_or]
      · exact ⟨this.1.symm, hc.1⟩
      · exact ⟨this.2.symm, hc.2⟩

theorem describe_comments (wf : Spec.Elf.WellFormed f) {i base : Nat} (hi : i < Spec.Elf.shnum f)
    (hq : Spec.Elf.type f i ≠ 0 → Spec.Elf.Quiet f (base + Spec.Elf.name f i)) :
    ∃ t, describe f (some base) (Spec.Elf.header f i) = some t ∧ Comments t := by
  have hb := header_bound wf hi
  unfold describe
  rw [u32_eq (by omega), u32_eq (by omega), u32_eq (by omega), u32_eq (by omega), u32_eq (by omega)]
  simp only [Option.bind_eq_bind, Option.bind_some]
  change ∃ t, (if Spec.Elf.type f i ≠ 0 then _ else _) = some t ∧ _
  by_cases h : Spec.Elf.type f i = 0
  · exact ⟨[], if_neg (fun hn => hn h), Comments.nil⟩
  · obtain ⟨s, hs, hc⟩ := cString_calm (hq h)
    rw [if_pos h]
    change ∃ t, (cString f (base + Spec.Elf.name f i) (f.length - (base + Spec.Elf.name f i))).bind _ = some t ∧ _
    rw [hs]
    refine ⟨_, rfl, ?_⟩
    have e : ("\n//  Type ".toList) = ['\n'] ++ "//  Type ".toList := by decide
    rw [e]
    have c1 : Comments ("// Section name ".toList ++ s ++ ['\n']) := Calm.line (Calm.append (by decide) hc)
    simp only [← List.append_assoc]
    simp only [List.append_assoc (("// Section name ".toList ++ s) ++ ['\n'])]
    refine Comments.append c1 (Calm.line ?_)
    have d := fun w n => calm_digits (max w (max 1 ((List.range 8).findSome? (fun i => if n / 16 ^ (7 - i) ≠ 0 then some (8 - i) else none) |>.getD 1))) n
    repeat' refine Calm.append ?_ ?_
    all_goals first | exact calm_pSHT _ | exact d _ _ | decide

/-! ## Bytes -/

theorem copy_bytes {a o m : Nat} (s : Out) (ha : a + m ≤ 2 ^ 32) (hc : a + m ≤ 2 * f.length) (ho : o + m ≤ f.length)
    (hl : f.length < 2 ^ 30) :
    ∃ s', (List.range m).foldlM (copyByte f a o) s = some s' ∧
      (∀ x, s'.buf x = if a ≤ x ∧ x < a + m then Spec.Elf.byte f (o + (x - a)) else s.buf x) ∧
      s'.max = if m = 0 then s.max else max s.max (a + m - 1) := by
  induction m with
  | zero => exact ⟨s, rfl, fun x => by rw [if_neg (by omega)], rfl⟩
  | succ m ih =>
    obtain ⟨s', e, hb, hm⟩ := ih (by omega) (by omega) (by omega)
    rw [foldlM_range_succ, e, Option.bind_some]
    have e1 : (m + o) % 2 ^ 32 = o + m := by omega
    have e2 : (a + m) % 2 ^ 32 = a + m := by omega
    simp only [copyByte, e1, e2, get_byte (show o + m < f.length by omega), Option.bind_eq_bind, Option.bind_some, Out.put,
      if_pos (show a + m < 2 * f.length by omega)]
    refine ⟨_, rfl, fun x => ?_, ?_⟩
    · simp only
      by_cases hx : x = a + m
      · rw [if_pos hx, if_pos (by omega), hx, show a + m - a = m by omega]
      · rw [if_neg hx, hb]
        by_cases h : a ≤ x ∧ x < a + m
        · rw [if_pos h, if_pos (by omega)]
        · rw [if_neg h, if_neg (by omega)]
    · show (if s'.max < a + m then a + m else s'.max) = if m + 1 = 0 then s.max else max s.max (a + m)
      rw [if_neg (show ¬ m + 1 = 0 by omega)]
      split at hm <;> split <;> omega

theorem zero_bytes {a m : Nat} (s : Out) (ha : a + m ≤ 2 ^ 32) (hc : a + m ≤ 2 * f.length) :
    ∃ s', (List.range m).foldlM (zeroByte f a) s = some s' ∧
      (∀ x, s'.buf x = if a ≤ x ∧ x < a + m then 0 else s.buf x) ∧
      s'.max = if m = 0 then s.max else max s.max (a + m - 1) := by
  induction m with
  | zero => exact ⟨s, rfl, fun x => by rw [if_neg (by omega)], rfl⟩
  | succ m ih =>
    obtain ⟨s', e, hb, hm⟩ := ih (by omega) (by omega)
    rw [foldlM_range_succ, e, Option.bind_some]
    have e2 : (m + a) % 2 ^ 32 = a + m := by omega
    simp only [zeroByte, e2, Out.put, if_pos (show a + m < 2 * f.length by omega)]
    refine ⟨_, rfl, fun x => ?_, ?_⟩
    · simp only
      by_cases hx : x = a + m
      · rw [if_pos hx, if_pos (by omega)]
      · rw [if_neg hx, hb]
        by_cases h : a ≤ x ∧ x < a + m
        · rw [if_pos h, if_pos (by omega)]
        · rw [if_neg h, if_neg (by omega)]
    · show (if s'.max < a + m then a + m else s'.max) = if m + 1 = 0 then s.max else max s.max (a + m)
      rw [if_neg (show ¬ m + 1 = 0 by omega)]
      split at hm <;> split <;> omega

/-! ## Sections -/

/-- Section `i` is copied to address `x`. -/
def Writes (f : List Byte) (i x : Nat) : Prop :=
  Spec.Elf.Copied f i ∧ Spec.Elf.Within f i x

/-- The conditions under which the program is defined (besides a well-formed file). -/
structure Fits (f : List Byte) (base : Nat) : Prop where
  short : f.length < 2 ^ 30
  quiet : ∀ i < Spec.Elf.shnum f, Spec.Elf.type f i ≠ 0 → Spec.Elf.Quiet f (base + Spec.Elf.name f i)
  room : ∀ i < Spec.Elf.shnum f, Spec.Elf.Copied f i → Spec.Elf.size f i ≠ 0 →
    Spec.Elf.addr f i + Spec.Elf.size f i + 5 ≤ 2 * f.length

theorem section_done (wf : Spec.Elf.WellFormed f) {i base : Nat} (h : Fits f base) (hi : i < Spec.Elf.shnum f)
    (s : List Char × Out) (hs : Comments s.1) :
    ∃ s', doSection f (Spec.Elf.shoff f) (Spec.Elf.shentsize f) (some base) s i = some s' ∧ Comments s'.1 ∧
      (∀ x, Writes f i x → s'.2.buf x = Spec.Elf.content f i x) ∧ (∀ x, ¬ Writes f i x → s'.2.buf x = s.2.buf x) ∧
      s'.2.max = if Spec.Elf.Copied f i ∧ Spec.Elf.size f i ≠ 0
        then max s.2.max (Spec.Elf.addr f i + Spec.Elf.size f i - 1) else s.2.max := by
  have hb := header_bound wf hi
  have hl := h.short
  have hr := h.room i hi
  obtain ⟨t, ht, hc⟩ := describe_comments wf hi (h.quiet i hi)
  unfold doSection
  rw [sectionAt_eq wf]
  simp only [Option.bind_eq_bind, Option.bind_some]
  rw [ht, u32_eq (by omega), u32_eq (by omega), u32_eq (by omega), u32_eq (by omega)]
  simp only [Option.bind_some]
  change ∃ s', (if Spec.Elf.type f i = 1 then ((List.range (Spec.Elf.size f i)).foldlM (copyByte f (Spec.Elf.addr f i) (Spec.Elf.offset f i)) s.2).bind _
    else if Spec.Elf.type f i = 8 then ((List.range (Spec.Elf.size f i)).foldlM (zeroByte f (Spec.Elf.addr f i)) s.2).bind
      (fun o => some (s.1 ++ t ++ (if Spec.Elf.size f i ≠ 0 then "// .bss Dump Zeros\n".toList else []), o)) else _) = some s' ∧ _
  have occ : ∀ x, Writes f i x → Spec.Elf.size f i ≠ 0 := fun x h => by have := h.2; unfold Spec.Elf.Within at this; omega
  by_cases hz : Spec.Elf.size f i = 0
  · have no : ∀ x, ¬ Writes f i x := fun x h => occ x h hz
    rw [if_neg (show ¬ (_ ∧ Spec.Elf.size f i ≠ 0) from fun h => h.2 hz)]
    by_cases h1 : Spec.Elf.type f i = 1
    · rw [if_pos h1, hz]
      exact ⟨_, rfl, hs.append hc, fun x h => absurd h (no x), fun _ _ => rfl, rfl⟩
    · rw [if_neg h1]
      by_cases h8 : Spec.Elf.type f i = 8
      · rw [if_pos h8, hz]
        refine ⟨(s.1 ++ t, s.2), ?_, hs.append hc, fun x h => absurd h (no x), fun _ _ => rfl, rfl⟩
        show some (s.1 ++ t ++ (if ¬ (0 : Nat) = 0 then _ else []), s.2) = _
        rw [if_neg (by decide), List.append_nil]
      · rw [if_neg h8]
        exact ⟨_, rfl, hs.append hc, fun x h => absurd h (no x), fun _ _ => rfl, rfl⟩
  · by_cases h1 : Spec.Elf.type f i = 1
    · have al : Spec.Elf.Copied f i := .inl h1
      have hr := hr al hz
      obtain ⟨s', e, h2, h3⟩ := copy_bytes (f := f) (a := Spec.Elf.addr f i) (m := Spec.Elf.size f i) s.2 (by omega) (by omega)
        (wf.contents i hi (by rw [h1]; decide) (by rw [h1]; decide)) hl
      rw [if_pos h1, e, if_pos ⟨al, hz⟩]
      refine ⟨_, rfl, hs.append hc, fun x h => ?_, fun x h => ?_, ?_⟩
      · show s'.buf x = _
        rw [h2, if_pos (show _ ∧ _ from h.2), Spec.Elf.content, if_neg (by rw [h1]; decide)]
      · show s'.buf x = _
        rw [h2, if_neg (show ¬ (_ ∧ _) from fun h' => h ⟨al, h'⟩)]
      · show s'.max = _
        rw [h3, if_neg hz]
    · rw [if_neg h1]
      by_cases h8 : Spec.Elf.type f i = 8
      · have al : Spec.Elf.Copied f i := .inr h8
        have hr := hr al hz
        obtain ⟨s', e, h2, h3⟩ := zero_bytes (f := f) (a := Spec.Elf.addr f i) (m := Spec.Elf.size f i) s.2 (by omega) (by omega)
        rw [if_pos h8, e, Option.bind_some, if_pos hz, if_pos ⟨al, hz⟩]
        refine ⟨_, rfl, ?_, fun x h => ?_, fun x h => ?_, ?_⟩
        · exact (hs.append hc).append (Calm.line (a := "// .bss Dump Zeros".toList) (by decide))
        · show s'.buf x = _
          rw [h2, if_pos (show _ ∧ _ from h.2), Spec.Elf.content, if_pos (show Spec.Elf.type f i = Spec.Elf.NOBITS from h8)]
        · show s'.buf x = _
          rw [h2, if_neg (show ¬ (_ ∧ _) from fun h' => h ⟨al, h'⟩)]
        · show s'.max = _
          rw [h3, if_neg hz]
      · have al : ¬ Spec.Elf.Copied f i := fun h => h.elim h1 h8
        rw [if_neg h8, if_neg (fun h => al h.1)]
        exact ⟨_, rfl, hs.append hc, fun x h => absurd h.1 al, fun _ _ => rfl, rfl⟩

/-- The state after `n` sections. -/
structure Filled (f : List Byte) (junk : Nat → Byte) (n : Nat) (s : List Char × Out) : Prop where
  text : Comments s.1
  some : ∀ i < n, ∀ x, Writes f i x → (∀ k < n, i < k → ¬ Writes f k x) → s.2.buf x = Spec.Elf.content f i x
  none : ∀ x, (∀ i < n, ¬ Writes f i x) → s.2.buf x = junk x
  below : ∀ i < n, ∀ x, Writes f i x → x ≤ s.2.max
  top : s.2.max = 0 ∨ ∃ i < n, Writes f i s.2.max
  room : s.2.max + 6 ≤ 2 * f.length

theorem sections_done (wf : Spec.Elf.WellFormed f) {base : Nat} (h : Fits f base) (junk : Nat → Byte) : ∀ n ≤ Spec.Elf.shnum f, ∃ s,
    (List.range n).foldlM (doSection f (Spec.Elf.shoff f) (Spec.Elf.shentsize f) (some base)) ([], ⟨junk, 0⟩) = some s ∧ Filled f junk n s := by
  intro n hn
  induction n with
  | zero => exact ⟨_, rfl, Comments.nil, fun i hi => absurd hi (by omega), fun _ _ => rfl, fun i hi => absurd hi (by omega), .inl rfl,
      by have := wf.length; show 0 + 6 ≤ _; omega⟩
  | succ n ih =>
    obtain ⟨s, e, hs⟩ := ih (by omega)
    have hn' : n < Spec.Elf.shnum f := by omega
    obtain ⟨s', e', h1, h2, h3, h4⟩ := section_done wf h hn' s hs.text
    refine ⟨s', by rw [foldlM_range_succ, e, Option.bind_some, e'], h1, fun i hi x ho hlast => ?_, fun x hx => ?_, fun i hi x ho => ?_, ?_, ?_⟩
    · by_cases hin : i = n
      · subst hin
        exact h2 x ho
      · rw [h3 x (hlast n (by omega) (by omega)), hs.some i (by omega) x ho (fun k hk => hlast k (by omega))]
    · rw [h3 x (hx n (by omega)), hs.none x (fun i hi => hx i (by omega))]
    · rw [h4]
      by_cases hin : i = n
      · subst hin
        have := ho.2
        unfold Spec.Elf.Within at this
        rw [if_pos ⟨ho.1, by omega⟩]
        omega
      · have := hs.below i (by omega) x ho
        split <;> omega
    · rw [h4]
      split
      · next hal =>
        right
        rcases Nat.le_total s.2.max (Spec.Elf.addr f n + Spec.Elf.size f n - 1) with hle | hle
        · rw [Nat.max_eq_right hle]
          exact ⟨n, by omega, hal.1, by omega, by omega⟩
        · rw [Nat.max_eq_left hle]
          rcases hs.top with h0 | ⟨i, hi, ho⟩
          · exact ⟨n, by omega, hal.1, by omega, by omega⟩
          · exact ⟨i, by omega, ho⟩
      · rcases hs.top with h0 | ⟨i, hi, ho⟩
        · exact .inl h0
        · exact .inr ⟨i, by omega, ho⟩
    · rw [h4]
      have := hs.room
      split
      · next hal => have := h.room n hn' hal.1 hal.2; omega
      · exact this

/-! ## The text -/

theorem dump_eq {cap : Nat} {s : Out} (h : s.max + 6 ≤ cap) :
    dump cap s = some ((List.range ((s.max + 6) / 4)).flatMap fun i => memLine s.buf (4 * i) ++ ['\n']) := by
  unfold dump
  have : ∀ n ≤ (s.max + 6) / 4, (List.range n).foldlM (fun t i => if 4 * i + 3 < cap then some (t ++ memLine s.buf (4 * i) ++ ['\n']) else none) []
      = some ((List.range n).flatMap fun i => memLine s.buf (4 * i) ++ ['\n']) := by
    intro n hn
    induction n with
    | zero => rfl
    | succ n ih =>
      rw [foldlM_range_succ, ih (by omega), Option.bind_some, if_pos (by omega), List.range_succ, List.flatMap_append]
      simp
  exact this _ (Nat.le_refl _)

theorem magic_ok (wf : Spec.Elf.WellFormed f) : startsWith f 1 "ELF".toList = some true := by
  have hl := wf.length
  obtain ⟨_, m1, m2, m3⟩ := wf.magic
  show startsWith f 1 ['E', 'L', 'F'] = some true
  simp only [startsWith, get_byte (show 1 < f.length by omega), get_byte (show 1 + 1 < f.length by omega),
    get_byte (show 1 + 1 + 1 < f.length by omega), Option.bind_eq_bind, Option.bind_some, m1, m2, m3]
  decide

theorem splitter_done (wf : Spec.Elf.WellFormed f) {k : Nat} (hk : Spec.Elf.FirstStrings f k) (h : Fits f (Spec.Elf.offset f k))
    (junk : Nat → Byte) : ∃ s, Filled f junk (Spec.Elf.shnum f) s ∧
    splitter junk f = .done (s.1 ++ (List.range ((s.2.max + 6) / 4)).flatMap fun i => memLine s.2.buf (4 * i) ++ ['\n']) := by
  obtain ⟨r, er, hr⟩ := strings_found wf (Spec.Elf.shnum f) (Nat.le_refl _)
  rw [found_first wf hk hr] at er
  obtain ⟨s, es, hs⟩ := sections_done wf h junk (Spec.Elf.shnum f) (Nat.le_refl _)
  refine ⟨s, hs, ?_⟩
  have hl := wf.length
  have hc : convert junk f = some (s.1 ++ (List.range ((s.2.max + 6) / 4)).flatMap fun i => memLine s.2.buf (4 * i) ++ ['\n']) := by
    unfold convert
    rw [u16_eq (by omega), u32_eq (by omega), u16_eq (by omega), u16_eq (by omega), u32_eq (by omega), u16_eq (by omega)]
    simp only [Option.bind_eq_bind, Option.bind_some]
    change ((List.range (Spec.Elf.phnum f)).foldlM (readProgram f (Spec.Elf.phoff f) (Spec.Elf.phentsize f)) ()).bind (fun _ =>
      ((List.range (Spec.Elf.shnum f)).foldlM (findStrings f (Spec.Elf.shoff f) (Spec.Elf.shentsize f)) none).bind fun strings =>
      ((List.range (Spec.Elf.shnum f)).foldlM (doSection f (Spec.Elf.shoff f) (Spec.Elf.shentsize f) strings) ([], ⟨junk, 0⟩)).bind fun s =>
      (dump (2 * f.length) s.2).bind fun d => some (s.1 ++ d)) = _
    rw [programs_ok wf, Option.bind_some, er, Option.bind_some, es, Option.bind_some, dump_eq hs.room]
    rfl
  have ha : u16 f 18 = some 40 := by
    rw [u16_eq (by omega)]
    exact congrArg some wf.arm
  unfold splitter
  rw [if_neg (by have := h.short; omega), magic_ok wf, ha, hc]
  rfl

/-- The digits of a word. -/
def wordDigits (buf : Nat → Byte) (j : Nat) : List Char :=
  hexDigits lowerDigit 2 (buf (j + 3)).toNat ++ hexDigits lowerDigit 2 (buf (j + 2)).toNat
    ++ hexDigits lowerDigit 2 (buf (j + 1)).toNat ++ hexDigits lowerDigit 2 (buf j).toNat

theorem lower_isHex : ∀ d < 16, lowerDigit d ∈ "0123456789ABCDEFabcdef".toList := by decide
theorem lower_value : ∀ d < 16, hexAlphabet.idxOf (lowerDigit d).toUpper = d := by decide

theorem digits_isHex (k n : Nat) : IsHex (hexDigits lowerDigit k n) := by
  intro c hc
  obtain ⟨d, hd, rfl⟩ := hexDigits_mem hc
  exact lower_isHex d hd

theorem word_isHex (buf : Nat → Byte) (j : Nat) : IsHex (wordDigits buf j) ∧ (wordDigits buf j).length = 8 := by
  constructor
  · intro c hc
    simp only [wordDigits, List.mem_append] at hc
    rcases hc with ((h | h) | h) | h <;> exact digits_isHex _ _ c h
  · simp [wordDigits, hexDigits_length]

theorem word_value (buf : Nat → Byte) (j : Nat) : hexValue (wordDigits buf j)
    = (buf j).toNat + 2 ^ 8 * (buf (j + 1)).toNat + 2 ^ 16 * (buf (j + 2)).toNat + 2 ^ 24 * (buf (j + 3)).toNat := by
  simp only [wordDigits, hexValue_append, hexDigits_value lower_value, hexDigits_length]
  have h1 := (buf j).isLt
  have h2 := (buf (j + 1)).isLt
  have h3 := (buf (j + 2)).isLt
  have h4 := (buf (j + 3)).isLt
  omega

theorem word_bit (buf : Nat → Byte) (j q k : Nat) (hq : q < 4) (hk : k < 8) :
    (hexValue (wordDigits buf j)).testBit (8 * q + k) = (buf (j + q)).getLsbD k := by
  have h1 := (buf j).isLt
  have h2 := (buf (j + 1)).isLt
  have h3 := (buf (j + 2)).isLt
  have h4 := (buf (j + 3)).isLt
  have e : hexValue (wordDigits buf j) / 2 ^ (8 * q) % 2 ^ 8 = (buf (j + q)).toNat := by
    rw [word_value]
    have : q = 0 ∨ q = 1 ∨ q = 2 ∨ q = 3 := by omega
    rcases this with rfl | rfl | rfl | rfl
    · simp only [Nat.add_zero]; omega
    · omega
    · omega
    · omega
  rw [show (buf (j + q)).getLsbD k = (buf (j + q)).toNat.testBit k from rfl, ← e, Nat.testBit_mod_two_pow, Nat.testBit_div_two_pow]
  simp [hk, Nat.add_comm]

theorem secondField_line (buf : Nat → Byte) (j : Nat) : secondField (memLine buf j) = wordDigits buf j := by
  have hd : ∀ d < 16, isBlank (lowerDigit d) = false := by decide
  have nb : ∀ k n, ∀ c ∈ hexDigits lowerDigit k n, isBlank c = false := by
    intro k n c hc
    obtain ⟨d, h, rfl⟩ := hexDigits_mem hc
    exact hd d h
  have nw : ∀ c ∈ wordDigits buf j, isBlank c = false := by
    intro c hc
    simp only [wordDigits, List.mem_append] at hc
    rcases hc with ((h | h) | h) | h <;> exact nb _ _ c h
  obtain ⟨k, ek⟩ : ∃ k, printX 8 j = hexDigits lowerDigit k j := ⟨_, rfl⟩
  have e : memLine buf j = '@' :: hexDigits lowerDigit k j ++ ' ' :: wordDigits buf j := by rw [memLine, ek]; rfl
  have d1 : ∀ l : List Char, (∀ c ∈ l, isBlank c = false) → ∀ r, (l ++ ' ' :: r).dropWhile (fun c => !isBlank c) = ' ' :: r := by
    intro l hl r
    induction l with
    | nil => rfl
    | cons c l ih => rw [List.cons_append, List.dropWhile_cons, hl c (by simp)]; exact ih (fun x hx => hl x (by simp [hx]))
  have d2 : ∀ l : List Char, (∀ c ∈ l, isBlank c = false) → l.dropWhile isBlank = l := by
    intro l hl
    cases l with
    | nil => rfl
    | cons c l => rw [List.dropWhile_cons, hl c (by simp)]; rfl
  have d3 : ∀ l : List Char, (∀ c ∈ l, isBlank c = false) → l.takeWhile (fun c => !isBlank c) = l := by
    intro l hl
    induction l with
    | nil => rfl
    | cons c l ih => rw [List.takeWhile_cons, hl c (by simp), ih (fun x hx => hl x (by simp [hx]))]; rfl
  unfold secondField
  rw [e, List.cons_append, List.dropWhile_cons, show isBlank '@' = false by decide]
  simp only [Bool.false_eq_true, if_false]
  rw [← List.cons_append, d1 _ (fun c hc => by
    rcases List.mem_cons.mp hc with rfl | hc
    · decide
    · exact nb _ _ c hc), List.dropWhile_cons, show isBlank ' ' = true by decide]
  simp only [if_true]
  rw [d2 _ nw, d3 _ nw]

theorem code32_eq {t : List Char} (ht : Comments t) (buf : Nat → Byte) (n : Nat) :
    code32 (t ++ (List.range n).flatMap fun i => memLine buf (4 * i) ++ ['\n'])
      = ((List.range n).map fun i => wordDigits buf (4 * i)).flatMap (· ++ ['\n']) := by
  obtain ⟨ls, rfl, hls⟩ := ht
  have hm : ∀ j, '\n' ∉ memLine buf j := by
    intro j h
    simp only [memLine, printX, List.cons_append, List.mem_cons, List.mem_append] at h
    have c := fun k n => (calm_digits k n).1
    rcases h with h | h | h | ((h | h) | h) | h
    · exact absurd h (by decide)
    · exact c _ _ h
    · exact absurd h (by decide)
    all_goals exact c _ _ h
  have e : (ls.flatMap (· ++ ['\n']) ++ (List.range n).flatMap fun i => memLine buf (4 * i) ++ ['\n'])
      = (ls ++ (List.range n).map fun i => memLine buf (4 * i)).flatMap (· ++ ['\n']) := by
    rw [List.flatMap_append, List.flatMap_map]
  have g : getLines (ls.flatMap (· ++ ['\n']) ++ (List.range n).flatMap fun i => memLine buf (4 * i) ++ ['\n'])
      = ls ++ (List.range n).map fun i => memLine buf (4 * i) := by
    refine Props.getLines_text (fun l hl => ?_) (.inl e)
    rcases List.mem_append.mp hl with h | h
    · exact (hls l h).1
    · obtain ⟨i, _, rfl⟩ := List.mem_map.mp h
      exact hm _
  have f1 : ls.filter (fun l => decide ('@' ∈ l)) = [] := by
    rw [List.filter_eq_nil_iff]
    intro l hl
    simpa using (hls l hl).2
  have f2 : ((List.range n).map fun i => memLine buf (4 * i)).filter (fun l => decide ('@' ∈ l)) = (List.range n).map fun i => memLine buf (4 * i) := by
    rw [List.filter_eq_self]
    intro l hl
    obtain ⟨i, _, rfl⟩ := List.mem_map.mp hl
    simp [memLine]
  unfold code32
  rw [g, List.filter_append, f1, f2, List.nil_append, List.flatMap_map, List.flatMap_map]
  congr 1
  funext i
  rw [secondField_line]

/-- Byte `x` of the number that is read from the file, all in one. -/
theorem number_bit (buf : Nat → Byte) (n : Nat) {file : List Char → Option (List Char)} {name : List Char}
    (hf : file name = some (((List.range n).map fun i => wordDigits buf (4 * i)).flatMap (· ++ ['\n']))) (x k : Nat) (hk : k < 8) :
    (hex2bn (readFileOrPassHex file name)).testBit (8 * x + k) = if x / 4 < n then (buf x).getLsbD k else false := by
  have h := Props.C67_lines_partial (w := 8) hf (.inl rfl) (fun l hl => by
    obtain ⟨i, _, rfl⟩ := List.mem_map.mp hl
    exact word_isHex _ _) (x / 4) (8 * (x % 4) + k) (by omega)
  rw [show x / 4 * (4 * 8) + (8 * (x % 4) + k) = 8 * x + k by omega] at h
  rw [h]
  by_cases hx : x / 4 < n
  · rw [if_pos hx, List.getD_eq_getElem?_getD, List.getElem?_eq_getElem (by simpa using hx)]
    simp only [Option.getD_some, List.getElem_map, List.getElem_range]
    rw [word_bit _ _ _ _ (by omega) hk, show 4 * (x / 4) + x % 4 = x by omega]
  · rw [if_neg hx, List.getD_eq_getElem?_getD, List.getElem?_eq_none (by simpa using hx)]
    simp [hexValue]

/-! ## Outside of the buffer -/

theorem foldlM_none {σ : Type} {g : σ → Nat → Option σ} {i : Nat} (h : ∀ s, g s i = none) : ∀ n, i < n → ∀ s, (List.range n).foldlM g s = none := by
  intro n hn s
  induction n with
  | zero => omega
  | succ n ih =>
    rw [foldlM_range_succ]
    by_cases e : i = n
    · subst e
      cases (List.range i).foldlM g s with
      | none => rfl
      | some x => exact h x
    · rw [ih (by omega)]; rfl

theorem doSection_none (wf : Spec.Elf.WellFormed f) {i x : Nat} (hi : i < Spec.Elf.shnum f) (hw : Writes f i x) (hx : 2 * f.length ≤ x)
    (hx' : x < 2 ^ 32) (strings : Option Nat) (s : List Char × Out) :
    doSection f (Spec.Elf.shoff f) (Spec.Elf.shentsize f) strings s i = none := by
  have hb := header_bound wf hi
  unfold doSection
  rw [sectionAt_eq wf]
  simp only [Option.bind_eq_bind, Option.bind_some]
  cases describe f strings (Spec.Elf.header f i) with
  | none => rfl
  | some t =>
    rw [u32_eq (by omega), u32_eq (by omega), u32_eq (by omega), u32_eq (by omega)]
    simp only [Option.bind_some]
    change (if Spec.Elf.type f i = 1 then ((List.range (Spec.Elf.size f i)).foldlM (copyByte f (Spec.Elf.addr f i) (Spec.Elf.offset f i)) s.2).bind _
      else if Spec.Elf.type f i = 8 then ((List.range (Spec.Elf.size f i)).foldlM (zeroByte f (Spec.Elf.addr f i)) s.2).bind _ else _) = none
    have e : (Spec.Elf.addr f i + (x - Spec.Elf.addr f i)) % 2 ^ 32 = x := by have := hw.2; unfold Spec.Elf.Within at this; omega
    have hj : x - Spec.Elf.addr f i < Spec.Elf.size f i := by have := hw.2; unfold Spec.Elf.Within at this; omega
    by_cases h1 : Spec.Elf.type f i = 1
    · rw [if_pos h1, foldlM_none (i := x - Spec.Elf.addr f i) (fun s => ?_) _ hj]
      · rfl
      · rw [copyByte, e]
        cases f[(x - Spec.Elf.addr f i + Spec.Elf.offset f i) % 2 ^ 32]? with
        | none => rfl
        | some b => exact if_neg (by omega)
    · rw [if_neg h1, if_pos (show Spec.Elf.type f i = 8 from hw.1.resolve_left h1), foldlM_none (i := x - Spec.Elf.addr f i) (fun s => ?_) _ hj]
      · rfl
      · rw [zeroByte, Nat.add_comm (x - Spec.Elf.addr f i), e]
        exact if_neg (by omega)

theorem splitter_undef (wf : Spec.Elf.WellFormed f) (junk : Nat → Byte) {i x : Nat} (hi : i < Spec.Elf.shnum f) (hw : Writes f i x)
    (hx : 2 * f.length ≤ x) (hx' : x < 2 ^ 32) : splitter junk f = .undef := by
  obtain ⟨r, er, _⟩ := strings_found wf (Spec.Elf.shnum f) (Nat.le_refl _)
  have hl := wf.length
  have hc : convert junk f = none := by
    unfold convert
    rw [u16_eq (by omega), u32_eq (by omega), u16_eq (by omega), u16_eq (by omega), u32_eq (by omega), u16_eq (by omega)]
    simp only [Option.bind_eq_bind, Option.bind_some]
    change ((List.range (Spec.Elf.phnum f)).foldlM (readProgram f (Spec.Elf.phoff f) (Spec.Elf.phentsize f)) ()).bind (fun _ =>
      ((List.range (Spec.Elf.shnum f)).foldlM (findStrings f (Spec.Elf.shoff f) (Spec.Elf.shentsize f)) none).bind fun strings =>
      ((List.range (Spec.Elf.shnum f)).foldlM (doSection f (Spec.Elf.shoff f) (Spec.Elf.shentsize f) strings) ([], ⟨junk, 0⟩)).bind fun s =>
      (dump (2 * f.length) s.2).bind fun d => some (s.1 ++ d)) = _
    rw [programs_ok wf, Option.bind_some, er, Option.bind_some, foldlM_none (doSection_none wf hi hw hx hx' r) _ hi]
    rfl
  have ha : u16 f 18 = some 40 := by
    rw [u16_eq (by omega)]
    exact congrArg some wf.arm
  unfold splitter
  split
  · rfl
  · rw [magic_ok wf, ha, hc]
    rfl

end TinyGarble.Proof.Elf
