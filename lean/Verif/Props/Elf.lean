import Verif.Proof.Elf
import Verif.Props.Hdl.A23

/-!
# The program in the memory of the ARM processor is that of the executable (C85)
-/

namespace TinyGarble.Props

open TinyGarble.Elf (splitter code32 Result Byte)
open TinyGarble.Spec.Elf

section
variable {f : List (BitVec 8)} (wf : WellFormed f) (ha : Acceptable f)
include wf ha

/-- What the tools do with a file: byte `x` of the number that TinyGarble reads from `p.txt` is that of the last copied section with this
address, else the uninitialised byte of the buffer, up to the word after the last address (zero beyond). -/
theorem elf_bytes (junk : Nat → Byte) : ∃ text, splitter junk f = .done text ∧
    ∀ (file : List Char → Option (List Char)) (name : List Char), file name = some (code32 text) →
      (∀ i < shnum f, ∀ x, Copied f i → Within f i x → (∀ k < shnum f, i < k → Copied f k → ¬ Within f k x) →
        ∀ k < 8, (hex2bn (readFileOrPassHex file name)).testBit (8 * x + k) = (content f i x).getLsbD k) ∧
      ∀ m, (∃ i < shnum f, Copied f i ∧ Within f i m) → (∀ i < shnum f, ∀ x, Copied f i → Within f i x → x ≤ m) →
        ∀ x, (∀ i < shnum f, Copied f i → ¬ Within f i x) → ∀ k < 8,
          (hex2bn (readFileOrPassHex file name)).testBit (8 * x + k) = if 4 * (x / 4) ≤ m + 2 then (junk x).getLsbD k else false := by
  obtain ⟨k₀, hk, hq⟩ := ha.strings
  obtain ⟨s, hs, e⟩ := Proof.Elf.splitter_done wf hk ⟨ha.short, hq, ha.room⟩ junk
  refine ⟨_, e, fun file name hf => ?_⟩
  rw [Proof.Elf.code32_eq hs.text] at hf
  have nb := fun x k hk => Proof.Elf.number_bit s.2.buf _ hf x k hk
  refine ⟨fun i hi x hc hw hl k hk => ?_, fun m hm hmax x hno k hk => ?_⟩
  · have hb := hs.below i hi x ⟨hc, hw⟩
    rw [nb x k hk, if_pos (by omega), hs.some i hi x ⟨hc, hw⟩ (fun k hk hik h => hl k hk hik h.1 h.2)]
  · have e : s.2.max = m := by
      obtain ⟨i, hi, hc, hw⟩ := hm
      have h1 := hs.below i hi m ⟨hc, hw⟩
      rcases hs.top with h | ⟨j, hj, h⟩
      · omega
      · have := hmax j hj _ h.1 h.2
        omega
    rw [nb x k hk, e, hs.none x (fun i hi h => hno i hi h.1 h.2)]
    by_cases h : 4 * (x / 4) ≤ m + 2
    · rw [if_pos h, if_pos (by omega)]
    · rw [if_neg h, if_neg (by omega)]

/-- **C85**: if the sections that are copied are those that occupy memory, the number that TinyGarble reads from `p.txt` has the byte of the
program at each address. Missing: files that are not `Acceptable` or not `Plain`, see below. -/
theorem C85_image_partial (hp : Plain f) (junk : Nat → Byte) : ∃ text, splitter junk f = .done text ∧
    ∀ (file : List Char → Option (List Char)) (name : List Char), file name = some (code32 text) →
      ∀ a b, ImageByte f a b → ∀ k < 8, (hex2bn (readFileOrPassHex file name)).testBit (8 * a + k) = b.getLsbD k := by
  obtain ⟨text, e, h⟩ := elf_bytes wf ha junk
  refine ⟨text, e, fun file name hf a b hb => ?_⟩
  obtain ⟨i, hi, ⟨al, hw⟩, rfl⟩ := hb
  have nz : ∀ j, Within f j a → size f j ≠ 0 := fun j h => by unfold Within at h; omega
  refine (h file name hf).1 i hi a ((hp i hi (nz i hw)).mp al) hw fun k hk hik hc hwk => ?_
  have := wf.once i hi k hk a ⟨al, hw⟩ ⟨(hp k hk (nz k hwk)).mpr hc, hwk⟩
  omega

/-- **C85**, for the processor: its memory at the start holds the program. -/
theorem C85_start_partial (hp : Plain f) (junk : Nat → Byte) (z : Hdl.A23.Sizes) (g : BitVec (z.g * 32)) (e : BitVec (z.e * 32)) :
    ∃ text, splitter junk f = .done text ∧
    ∀ (file : List Char → Option (List Char)) (name : List Char), file name = some (code32 text) →
      ∀ a b, a < 4 * z.code → a < 2 ^ 24 → ImageByte f a b →
        (Hdl.armStart z (BitVec.ofNat _ (hex2bn (readFileOrPassHex file name))) g e).mem (BitVec.ofNat 32 a) = b := by
  obtain ⟨text, et, h⟩ := C85_image_partial wf ha hp junk
  refine ⟨text, et, fun file name hf a b hz ha' hb => ?_⟩
  have hbits := h file name hf a b hb
  rw [Hdl.armStart]
  show (match (BitVec.ofNat 32 a).toNat / 2 ^ 24 with
    | 0 => Spec.Hdl.part 8 _ ((BitVec.ofNat 32 a).toNat % 2 ^ 24)
    | 1 => _ | 2 => _ | _ => _) = b
  rw [BitVec.toNat_ofNat, show a % 2 ^ 32 / 2 ^ 24 = 0 by omega, show a % 2 ^ 32 % 2 ^ 24 = a by omega]
  apply BitVec.eq_of_getLsbD_eq
  intro k hk
  rw [← hbits k hk]
  simp only [Spec.Hdl.part, BitVec.getLsbD_ofNat, hk, decide_true, Bool.true_and, BitVec.toNat_ofNat, Nat.testBit_div_two_pow,
    Nat.testBit_mod_two_pow]
  rw [show decide (k + 8 * a < z.code * 32) = true from decide_eq_true (by omega), Bool.true_and, Nat.add_comm]

/-- **C85** does not hold for a file with a copied section that occupies no memory, such as the compiler's comment: if it comes last, its
content is at its address (which is 0), in place of the program. -/
theorem C85_not_allocated (junk : Nat → Byte) {i : Nat} (hi : i < shnum f) (hc : Copied f i)
    (hl : ∀ k < shnum f, i < k → Copied f k → size f k = 0) : ∃ text, splitter junk f = .done text ∧
    ∀ (file : List Char → Option (List Char)) (name : List Char), file name = some (code32 text) →
      ∀ x, Within f i x → ∀ k < 8, (hex2bn (readFileOrPassHex file name)).testBit (8 * x + k) = (content f i x).getLsbD k := by
  obtain ⟨text, e, h⟩ := elf_bytes wf ha junk
  refine ⟨text, e, fun file name hf x hw => (h file name hf).1 i hi x hc hw fun k hk hik hck hwk => ?_⟩
  have := hl k hk hik hck
  unfold Within at hwk
  omega

/-- **C85**: memory without a section, up to the second byte after the program, comes from uninitialised memory of the tool. When the program
is a whole number of words, there is always such a word after it: two runs of the tools (by the two parties) give different numbers if they
find different bytes there. -/
theorem C85_uninitialised {m : Nat} (hm : ∃ i < shnum f, Copied f i ∧ Within f i m)
    (hmax : ∀ i < shnum f, ∀ x, Copied f i → Within f i x → x ≤ m) (junk junk' : Nat → Byte) {x : Nat} (hx : 4 * (x / 4) ≤ m + 2)
    (hno : ∀ i < shnum f, Copied f i → ¬ Within f i x) (hne : junk x ≠ junk' x) :
    ∃ text text', splitter junk f = .done text ∧ splitter junk' f = .done text' ∧
    ∀ (file file' : List Char → Option (List Char)) (name : List Char), file name = some (code32 text) → file' name = some (code32 text') →
      hex2bn (readFileOrPassHex file name) ≠ hex2bn (readFileOrPassHex file' name) := by
  obtain ⟨text, e, h⟩ := elf_bytes wf ha junk
  obtain ⟨text', e', h'⟩ := elf_bytes wf ha junk'
  refine ⟨text, text', e, e', fun file file' name hf hf' heq => hne ?_⟩
  apply BitVec.eq_of_getLsbD_eq
  intro k hk
  have q := (h file name hf).2 m hm hmax x hno k hk
  have q' := (h' file' name hf').2 m hm hmax x hno k hk
  rw [if_pos hx] at q q'
  rw [← q, ← q', heq]

omit ha in
/-- **C85**: if a copied section reaches an address from twice the length of the file on (a large array without contents), the tool writes
outside of its buffer. -/
theorem C85_outside (junk : Nat → Byte) {i x : Nat} (hi : i < shnum f) (hc : Copied f i) (hw : Within f i x) (hx : 2 * f.length ≤ x)
    (hx' : x < 2 ^ 32) : splitter junk f = .undef :=
  Proof.Elf.splitter_undef wf junk hi ⟨hc, hw⟩ hx hx'

end

/-! ## Examples -/

/-- `k` bytes of `n`, lowest first. -/
def leBytes (k n : Nat) : List (BitVec 8) := (List.range k).map fun i => BitVec.ofNat 8 (n / 256 ^ i)

def shdrBytes (name type flags addr offset size : Nat) : List (BitVec 8) := ([name, type, flags, addr, offset, size, 0, 0, 4, 0].map (leBytes 4)).flatten

/-- A file with two instructions, `bss` bytes without contents, the names of the sections and a comment, which is in memory if `flags` says so. -/
def exElf (bss flags : Nat) : List (BitVec 8) :=
  [0x7f, 0x45, 0x4c, 0x46, 1, 1, 1, 0, 0, 0, 0, 0, 0, 0, 0, 0]
    ++ leBytes 2 2 ++ leBytes 2 40 ++ leBytes 4 1 ++ leBytes 4 0 ++ leBytes 4 0 ++ leBytes 4 100 ++ leBytes 4 0x05000000 ++ leBytes 2 52
    ++ leBytes 2 32 ++ leBytes 2 0 ++ leBytes 2 40 ++ leBytes 2 5 ++ leBytes 2 3
    ++ leBytes 4 0xe3a00001 ++ leBytes 4 0xeafffffe
    ++ "\x00.text\x00.bss\x00.shstrtab\x00.comment\x00".toList.map (fun c => BitVec.ofNat 8 c.toNat) ++ [0]
    ++ leBytes 4 0x3a434347 ++ leBytes 4 0
    ++ shdrBytes 0 0 0 0 0 0 ++ shdrBytes 1 1 6 0 52 8 ++ shdrBytes 7 8 3 8 60 bss ++ shdrBytes 12 3 0 0 60 31
    ++ shdrBytes 22 1 flags (if flags = 0 then 0 else 8 + bss) 92 4

theorem quiet_of {f : List (BitVec 8)} {o : Nat} (n : Nat) (h : (decide (o + n < f.length ∧ byte f (o + n) = 0) &&
    (List.range n).all fun k => byte f (o + k) ≠ 0 && byte f (o + k) ≠ 0x40 && byte f (o + k) ≠ 0x0a) = true) : Quiet f o := by
  simp only [Bool.and_eq_true, decide_eq_true_eq, List.all_eq_true, List.mem_range] at h
  refine ⟨n, h.1.1, h.1.2, fun k hk => ?_⟩
  have := h.2 k hk
  simp only [ne_eq, decide_not, Bool.and_eq_true, Bool.not_eq_eq_eq_not, Bool.not_true, decide_eq_false_iff_not] at this
  exact ⟨this.1.1, this.1.2, this.2⟩

theorem exElf_wf (bss flags : Nat) (h : (bss, flags) = (4, 2) ∨ (bss, flags) = (4, 0) ∨ (bss, flags) = (1000, 0)) : WellFormed (exElf bss flags) := by
  have tab : ∀ i < 5, ((exElf bss flags).length = 300 ∧ shnum (exElf bss flags) = 5) ∧
      (type (exElf bss flags) i ≠ 0 → type (exElf bss flags) i ≠ NOBITS → offset (exElf bss flags) i + size (exElf bss flags) i ≤ 300) ∧
      (Alloc (exElf bss flags) i → i = 1 ∧ addr (exElf bss flags) i = 0 ∧ size (exElf bss flags) i = 8 ∨
        i = 2 ∧ addr (exElf bss flags) i = 8 ∧ size (exElf bss flags) i = bss ∨
        i = 4 ∧ addr (exElf bss flags) i = 8 + bss ∧ size (exElf bss flags) i = 4) := by
    rcases h with h | h | h <;> cases h <;> decide +kernel
  obtain ⟨hl, hn⟩ := (tab 0 (by decide)).1
  refine ⟨by omega, ?_, ?_, ?_, ?_, fun i hi => ?_, fun i hi k hk a ha hk' => ?_⟩
  · rcases h with h | h | h <;> cases h <;> decide +kernel
  · rcases h with h | h | h <;> cases h <;> decide +kernel
  · rcases h with h | h | h <;> cases h <;> decide +kernel
  · rcases h with h | h | h <;> cases h <;> decide +kernel
  · rw [hl]; exact (tab i (by omega)).2.1
  · have h1 := (tab i (by omega)).2.2 ha.1
    have h2 := (tab k (by omega)).2.2 hk'.1
    have h3 := ha.2
    have h4 := hk'.2
    unfold Within at h3 h4
    omega

theorem exElf_acceptable (flags : Nat) (h : flags = 2 ∨ flags = 0) : Acceptable (exElf 4 flags) := by
  have tab : (exElf 4 flags).length = 300 ∧ shnum (exElf 4 flags) = 5 := by rcases h with rfl | rfl <;> decide +kernel
  refine ⟨by rw [tab.1]; decide, ⟨3, ⟨by rw [tab.2]; decide, ?_, ?_⟩, ?_⟩, ?_⟩
  · rcases h with rfl | rfl <;> decide +kernel
  · rcases h with rfl | rfl <;> decide +kernel
  · intro i hi ht
    have : i = 0 ∨ i = 1 ∨ i = 2 ∨ i = 3 ∨ i = 4 := by omega
    rcases this with rfl | rfl | rfl | rfl | rfl
    · exfalso; revert ht; rcases h with rfl | rfl <;> decide +kernel
    · refine quiet_of 5 ?_; rcases h with rfl | rfl <;> decide +kernel
    · refine quiet_of 4 ?_; rcases h with rfl | rfl <;> decide +kernel
    · refine quiet_of 9 ?_; rcases h with rfl | rfl <;> decide +kernel
    · refine quiet_of 8 ?_; rcases h with rfl | rfl <;> decide +kernel
  · rw [tab.1, tab.2]
    rcases h with rfl | rfl <;> decide +kernel

/-- The file with the comment in memory meets the hypotheses of C85; the second instruction begins with the byte `fe`. -/
example : WellFormed (exElf 4 2) ∧ Acceptable (exElf 4 2) ∧ Plain (exElf 4 2) ∧ ImageByte (exElf 4 2) 4 0xfe := by
  refine ⟨exElf_wf 4 2 (by decide), exElf_acceptable 2 (by decide), ?_, 1, ?_, ⟨?_, ?_⟩, ?_⟩
  · unfold Plain
    rw [show shnum (exElf 4 2) = 5 by decide +kernel]
    decide +kernel
  all_goals decide +kernel

/-- With a comment that is not in memory, the first byte of the program is `01` and that of the comment, which comes last, `47`. -/
example : WellFormed (exElf 4 0) ∧ Acceptable (exElf 4 0) ∧ ImageByte (exElf 4 0) 0 0x01 ∧
    4 < shnum (exElf 4 0) ∧ Copied (exElf 4 0) 4 ∧ (∀ k < shnum (exElf 4 0), 4 < k → Copied (exElf 4 0) k → size (exElf 4 0) k = 0) ∧
    Within (exElf 4 0) 4 0 ∧ content (exElf 4 0) 4 0 = 0x47 := by
  refine ⟨exElf_wf 4 0 (by decide), exElf_acceptable 0 (by decide), ⟨1, ?_, ⟨?_, ?_⟩, ?_⟩, ?_, ?_, ?_, ?_, ?_⟩
  all_goals decide +kernel

/-- The word after the first file, from address 16 on, is not initialised. -/
example : (∃ i < shnum (exElf 4 2), Copied (exElf 4 2) i ∧ Within (exElf 4 2) i 15) ∧
    (∀ i < shnum (exElf 4 2), ∀ x, Copied (exElf 4 2) i → Within (exElf 4 2) i x → x ≤ 15) ∧ 4 * (16 / 4) ≤ 15 + 2 ∧
    ∀ i < shnum (exElf 4 2), Copied (exElf 4 2) i → ¬ Within (exElf 4 2) i 16 := by
  have tab : shnum (exElf 4 2) = 5 ∧ ∀ i < 5, Copied (exElf 4 2) i → addr (exElf 4 2) i + size (exElf 4 2) i ≤ 16 := by decide +kernel
  refine ⟨⟨4, by rw [tab.1]; decide, by decide +kernel, by decide +kernel⟩, fun i hi x hc hw => ?_, by decide, fun i hi hc hw => ?_⟩ <;>
  · have := tab.2 i (by omega) hc
    unfold Within at hw
    omega

/-- An array of 1000 bytes without contents: the file has 300. -/
example : WellFormed (exElf 1000 0) ∧ 2 < shnum (exElf 1000 0) ∧ Copied (exElf 1000 0) 2 ∧ Within (exElf 1000 0) 2 700 ∧
    2 * (exElf 1000 0).length ≤ 700 :=
  ⟨exElf_wf 1000 0 (by decide), by decide +kernel, by decide +kernel, by decide +kernel, by decide +kernel⟩

end TinyGarble.Props
