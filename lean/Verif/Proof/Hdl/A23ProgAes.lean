import Verif.Proof.Hdl.A23ProgAesBox

/-! # The program aes: execution -/

namespace TinyGarble.Proof.Hdl.A23.Sym.AesCode

open TinyGarble.Spec.Arm
open TinyGarble.Hdl.A23.Programs (aesCode)
open Flow (E T)

/-- Known words: the pointer to the state, and the address to which the main function returns. -/
def base : List (BitVec 32 × Option (BitVec 32)) := [(0x6ac, some 0x03000000), (0x040000fc, some 0x0c000014)]

/-- Flags after comparing equal, smaller and greater numbers. -/
def same : Flags := ⟨false, true, true, false⟩
def less : Flags := ⟨true, false, false, false⟩
def more : Flags := ⟨false, false, true, false⟩

/-- The loop that copies the block. -/
def hA (i : Nat) : Abs :=
  ⟨if i = 16 then 295 else 291, [some 0x01000000, some 0x0200000f, nat (0x02ffffff + i), nat (0x01ffffff + i), none, some 0x03000000, none, none, none, none,
    none, none, none, some 0x040000c8, none], none, [(0x040000fc, some 0x0c000014)]⟩

/-- The loop that copies the key. -/
def hB (i : Nat) : Abs :=
  ⟨if i = 4 then 312 else 300, [nat (0x01000000 + 4 * i), none, some 0x01000010, nat (0x6b0 + 4 * i), none, some 0x03000000, none, none, none, none, none, none,
    none, some 0x040000c8, none], none, base⟩

/-- In the loop for the key schedule. -/
def hK (q : BitVec 24) (n : Nat) (L : Option (BitVec 32)) (f : Option Flags) : Abs :=
  ⟨q, [none, none, none, none, nat (0x6bc + 4 * n), some 0x03000000, nat (4 + n), some 0x040000d4, some 0x69c, none, none, none, none, nat 0x040000c8, L],
    f, base⟩

/-- The loop for the key schedule. -/
def hC (n : Nat) : Abs := if n = 40 then hK 364 n none (some same) else hK 316 n none none

/-- In the loop for the rounds. -/
def hT (q : BitVec 24) (f : Flags) : Abs :=
  ⟨q, [none, none, none, none, none, some 0x03000000, some 0x03000010, some 27, none, none, none, none, none, some 0x040000c8, none], some f, base⟩

/-- The loop for the rounds. -/
def hR (n : Nat) : Abs := hT (if n = 9 then 414 else 369) (if n = 0 ∨ n = 9 then same else less)

/-- Where `SubBytes` returns to. -/
def back (n : Nat) : BitVec 32 := if n = 0 then 0x6c0005c8 else if n = 9 then 0x6c00067c else 0x8c0005c8

/-- In `SubBytes`. -/
def hS (q : BitVec 24) (L : BitVec 32) (a b : Option (BitVec 32)) (l : Option (BitVec 32)) (f : Flags) : Abs :=
  ⟨q, [none, none, none, none, a, b, some 0x03000004, some 27, none, none, none, none, none, nat 0x040000b8, l], some f,
    base ++ [(0x040000bc, some 0x03000000), (0x040000c0, some 0x03000010), (0x040000c4, some L)]⟩

/-- The flags in the loop of `SubBytes`. -/
def subFlags (n t : Nat) : Flags := if t = 0 then (if n = 0 ∨ n = 9 then same else less) else if t % 4 = 0 then more else less

/-- The loop of `SubBytes`. -/
def hSub (n t : Nat) : Abs :=
  if t = 16 then hS 283 (back n) none none none same else hS 274 (back n) (nat (0x03000000 + t / 4)) (nat (t % 4)) none (subFlags n t)

/-- The loop of `MixColumns`. -/
def hM (k : Nat) : Abs :=
  ⟨if k = 4 then 408 else 372, [none, none, none, nat (0x03000000 + 4 * k), none, some 0x03000000, some 0x03000010, some 27, none, none, none, none, none,
    some 0x040000c8, none], if k = 4 then some same else none, base⟩

abbrev mem8 (n : Nat) : E := .b (BitVec.ofNat 32 n)

theorem show_first : shows aesCode lay .init 11 31 (hA 0) (fun t => t.within [] [(0x040000dc, 0x04000100)]) = true := by decide +kernel

theorem show_A : ∀ i < 16, shows aesCode lay (hA i) 4 10 (hA (i + 1)) (fun t => t.within [(0x03000000 + i, 0x03000000 + i + 1)] []
    && t.byteIs (0x03000000 + i) (mem8 (0x02000000 + i))) = true := by decide +kernel

theorem show_mid : shows aesCode lay (hA 16) 5 11 (hB 0) (fun t => t.within [] [(0x6ac, 0x6b0), (0x760, 0x764)]) = true := by decide +kernel

theorem show_B : ∀ i < 4, shows aesCode lay (hB i) 12 30 (hB (i + 1)) (fun t => t.within [(0x6b0 + 4 * i, 0x6b0 + 4 * i + 4)] []
    && (List.range 4).all fun r => t.byteIs (0x6b0 + 4 * i + r) (mem8 (0x01000000 + 4 * i + r))) = true := by decide +kernel

theorem show_key : shows aesCode lay (hB 4) 4 8 (hC 0) (fun t => t.within [] []) = true := by decide +kernel

/-- The parts of the memory that a step of the key schedule changes. -/
def keyBytes (n : Nat) : List (Nat × Nat) := [(0x6c0 + 4 * n, 0x6c0 + 4 * n + 4), (0x040000d4, 0x040000d8)]

theorem show_plain : ∀ n < 40, n % 4 ≠ 0 → shows aesCode lay (hC n) 43 95 (hC (n + 1)) (fun t => t.within (keyBytes n) []
    && (List.range 4).all fun r => t.byteIs (0x6c0 + 4 * n + r) (.lo (.op .eor (mem8 (0x6bc + 4 * n + r)) (mem8 (0x6b0 + 4 * n + r))))) = true := by decide +kernel

theorem show_sub1 : ∀ m < 10, shows aesCode lay (hC (4 * m)) 29 67 (hK 59 (4 * m) (some 0x6c000528) (some same)) (fun t =>
    t.within [(0x040000d4, 0x040000d8)] [(0x040000cc, 0x040000d0)] && t.reg 0 == mem8 (0x6bc + 16 * m + 1) && t.reg 10 == mem8 (0x6bc + 16 * m)
    && t.reg 11 == mem8 (0x6bc + 16 * m + 3) && Flow.look 0x040000cc t.words == some (mem8 (0x6bc + 16 * m + 2))) = true := by decide +kernel

theorem show_sub2 : ∀ m < 10, shows aesCode lay (hK 330 (4 * m) none (some same)) 4 8 (hK 59 (4 * m) (some 0x6c000538) (some same)) (fun t =>
    t.within [] [] && t.reg 0 == .op .mov (.c 0) (.w 0x040000cc) && t.reg 9 == .op .mov (.c 0) (.r 0) && t.reg 10 == .r 10 && t.reg 11 == .r 11) = true := by decide +kernel

theorem show_sub3 : ∀ m < 10, shows aesCode lay (hK 334 (4 * m) none (some same)) 3 7 (hK 59 (4 * m) (some 0x6c000544) (some same)) (fun t =>
    t.within [(0x040000d5, 0x040000d6)] [] && t.reg 0 == .op .mov (.c 0) (.r 11) && t.reg 9 == .r 9 && t.reg 10 == .r 10
    && t.byteIs 0x040000d5 (.lo (.r 0))) = true := by decide +kernel

theorem show_sub4 : ∀ m < 10, shows aesCode lay (hK 337 (4 * m) none (some same)) 3 7 (hK 59 (4 * m) (some 0x6c000550) (some same)) (fun t =>
    t.within [(0x040000d6, 0x040000d7)] [] && t.reg 0 == .op .mov (.c 0) (.r 10) && t.reg 9 == .r 9 && t.byteIs 0x040000d6 (.lo (.r 0))) = true := by decide +kernel

theorem show_sub5 : ∀ m < 10, shows aesCode lay (hK 340 (4 * m) none (some same)) 24 56 (hC (4 * m + 1)) (fun t => t.within (keyBytes (4 * m)) []
    && t.byteIs (0x6c0 + 16 * m) (.lo (.op .eor (.lo (.op .eor (mem8 (0x69d + m)) (.r 9))) (mem8 (0x6b0 + 16 * m))))
    && t.byteIs (0x6c0 + 16 * m + 1) (.lo (.op .eor (mem8 0x040000d5) (mem8 (0x6b0 + 16 * m + 1))))
    && t.byteIs (0x6c0 + 16 * m + 2) (.lo (.op .eor (mem8 0x040000d6) (mem8 (0x6b0 + 16 * m + 2))))
    && t.byteIs (0x6c0 + 16 * m + 3) (.lo (.op .eor (.lo (.r 0)) (mem8 (0x6b0 + 16 * m + 3))))) = true := by decide +kernel

/-- The effect of `AddRoundKey`. -/
def addsKey (n : Nat) (t : T) : Bool :=
  (List.range 16).all fun p => t.byteIs (0x03000000 + p) (.lo (.op .eor (mem8 (0x6b0 + 16 * n + p)) (mem8 (0x03000000 + p))))

theorem show_round0 : shows aesCode lay (hC 40) 151 305 (hR 0) (fun t => t.within [(0x03000000, 0x03000010)] [(0x040000b8, 0x040000c8)] && addsKey 0 t
    && t.reg 4 == .c 1) = true := by decide +kernel

theorem show_subIn : ∀ n < 10, shows aesCode lay (hR n) 6 17 (hSub n 0) (fun t => t.within [] [(0x040000b8, 0x040000c8)]
    && Flow.look 0x040000b8 t.words == some (.r 4)) = true := by decide +kernel

theorem show_subCall : ∀ n ∈ [0, 1, 9], ∀ t < 16, shows aesCode lay (hSub n t) 2 6
    (hS 59 (back n) (nat (0x03000000 + t / 4)) (nat (t % 4)) (some (if subFlags n t = same then 0x6c000450 else if subFlags n t = less then 0x8c000450 else 0x2c000450))
      (subFlags n t)) (fun u => u.within [] [] && u.reg 0 == mem8 (0x03000000 + 4 * (t % 4) + t / 4)) = true := by decide +kernel

/-- Instructions and cycles. -/
def subSteps (t : Nat) : Nat × Nat := if t = 15 then (7, 13) else if t % 4 = 3 then (8, 14) else (4, 8)

theorem show_subStore : ∀ n ∈ [0, 1, 9], ∀ t < 16, shows aesCode lay (hS 276 (back n) (nat (0x03000000 + t / 4)) (nat (t % 4)) none (subFlags n t)) (subSteps t).1 (subSteps t).2
    (hSub n (t + 1)) (fun u => u.within [(0x03000000 + 4 * (t % 4) + t / 4, 0x03000000 + 4 * (t % 4) + t / 4 + 1)] []
      && u.byteIs (0x03000000 + 4 * (t % 4) + t / 4) (.lo (.r 0))) = true := by decide +kernel

theorem show_subOut : ∀ n ∈ [0, 1, 9], shows aesCode lay (hSub n 16) 1 8 (hT (if n = 9 then 415 else 370) same) (fun t => t.within [] []
    && t.reg 4 == .w 0x040000b8) = true := by decide +kernel

/-- The effect of `ShiftRows`. -/
def shifts (t : T) : Bool := (List.range 16).all fun p => t.byteIs (0x03000000 + p) (mem8 (0x03000000 + (4 * ((p / 4 + p % 4) % 4) + p % 4)))

theorem show_shift : ∀ q ∈ [(370, 371), (415, 416)], shows aesCode lay (hT q.1 same) 28 84 (hT q.2 same) (fun t => t.within [(0x03000000, 0x03000010)] []
    && shifts t && t.reg 4 == .r 4) = true := by decide +kernel

theorem show_mixIn : shows aesCode lay (hT 371 same) 1 1 (hM 0) (fun t => t.within [] [] && t.reg 4 == .r 4) = true := by decide +kernel

/-- The product by the polynomial `x`, of the sum of two bytes. -/
def twice (a b : E) : E := .op .eor (.mul (.c 27) (.op .mov (.c 0) (.sh .lsr 7 (.op .eor a b)))) (.sh .lsl 1 (.op .eor a b))

/-- The sum of the bytes of a column. -/
def total (k : Nat) : E :=
  .op .eor (.op .eor (mem8 (0x03000000 + 4 * k)) (mem8 (0x03000000 + 4 * k + 1))) (.op .eor (mem8 (0x03000000 + 4 * k + 2)) (mem8 (0x03000000 + 4 * k + 3)))

theorem show_mix : ∀ k < 4, shows aesCode lay (hM k) 36 66 (hM (k + 1)) (fun t => t.within [(0x03000000 + 4 * k, 0x03000000 + 4 * k + 4)] [] && t.reg 4 == .r 4
    && t.byteIs (0x03000000 + 4 * k) (.lo (.op .eor (twice (mem8 (0x03000000 + 4 * k)) (mem8 (0x03000000 + 4 * k + 1)))
      (.op .eor (mem8 (0x03000000 + 4 * k)) (total k))))
    && t.byteIs (0x03000000 + 4 * k + 1) (.lo (.op .eor (.op .eor (mem8 (0x03000000 + 4 * k + 1)) (total k))
      (twice (mem8 (0x03000000 + 4 * k + 1)) (mem8 (0x03000000 + 4 * k + 2)))))
    && t.byteIs (0x03000000 + 4 * k + 2) (.lo (.op .eor (.op .eor (mem8 (0x03000000 + 4 * k + 2)) (total k))
      (twice (mem8 (0x03000000 + 4 * k + 2)) (mem8 (0x03000000 + 4 * k + 3)))))
    && t.byteIs (0x03000000 + 4 * k + 3) (.lo (.op .eor (.op .eor (total k) (mem8 (0x03000000 + 4 * k + 3)))
      (twice (mem8 (0x03000000 + 4 * k)) (mem8 (0x03000000 + 4 * k + 3)))))) = true := by decide +kernel

theorem show_add : ∀ n < 9, shows aesCode lay ((hM 4).setReg 4 (nat (n + 1))) 152 308 (hR (n + 1)) (fun t => t.within [(0x03000000, 0x03000010)] [(0x040000b8, 0x040000c8)]
    && addsKey (n + 1) t && t.reg 4 == .c (BitVec.ofNat 32 (n + 2))) = true := by decide +kernel

theorem show_last : shows aesCode lay ((hT 416 same).setReg 4 (nat 10)) 150 314 stopped (fun t => t.within [(0x03000000, 0x03000010)] [(0x040000b8, 0x04000100)]
    && addsKey 10 t) = true := by decide +kernel

end TinyGarble.Proof.Hdl.A23.Sym.AesCode
