import Verif.Proof.AesCipher

/-!
# The key expansions compute the key schedule of FIPS-197
-/

namespace TinyGarble
open Spec Proof

/-- The word held in a lane. -/
def wordOfLane (l : Lane) : Aes.Word := fun r => l.extractLsb' (8 * r.val) 8

theorem wordsOf_eq (k : Nat → Block) (i : Nat) : wordsOf k i = wordOfLane (lane (k (i / 4)) (i % 4)) := by
  funext r
  unfold wordsOf wordOfLane byteAt lane
  apply BitVec.eq_of_getLsbD_eq
  intro j hj
  have : 8 * r.val + j < 32 := by omega
  simp only [BitVec.getLsbD_extractLsb', hj, this, decide_true, Bool.true_and]
  congr 1; omega

theorem word_xor (a b : Lane) : wordOfLane (a ^^^ b) = Aes.addWord (wordOfLane a) (wordOfLane b) := by
  funext r
  unfold wordOfLane Aes.addWord
  ext j hj; simp

theorem fin4 (r : Fin 4) : r = 0 ∨ r = 1 ∨ r = 2 ∨ r = 3 := by omega

theorem word_sub (a : Lane) : wordOfLane (subLane a) = Aes.subWord (wordOfLane a) := by
  funext r
  unfold wordOfLane Aes.subWord subLane
  simp only [← subByte_eq]
  have e0 : ((0 : Fin 4) : Nat) = 0 := rfl
  have e1 : ((1 : Fin 4) : Nat) = 1 := rfl
  have e2 : ((2 : Fin 4) : Nat) = 2 := rfl
  have e3 : ((3 : Fin 4) : Nat) = 3 := rfl
  rcases fin4 r with rfl | rfl | rfl | rfl <;> simp only [e0, e1, e2, e3, Nat.reduceMul] <;>
    generalize subByte _ = b0 <;> generalize subByte _ = b1 <;> generalize subByte _ = b2 <;>
    (try generalize subByte _ = b3) <;>
    (apply BitVec.eq_of_getLsbD_eq
     intro j hj
     simp only [BitVec.getLsbD_extractLsb', BitVec.getLsbD_append, hj, decide_true, Bool.true_and]
     repeat (first
       | rw [if_pos (by omega)]
       | rw [if_neg (by omega)])
     exact congrArg _ (by omega))

theorem word_rot (a : Lane) : wordOfLane (rotLane a) = Aes.rotWord (wordOfLane a) := by
  funext r
  unfold wordOfLane Aes.rotWord rotLane
  have e0 : ((0 : Fin 4) : Nat) = 0 := rfl
  have e1 : ((1 : Fin 4) : Nat) = 1 := rfl
  have e2 : ((2 : Fin 4) : Nat) = 2 := rfl
  have e3 : ((3 : Fin 4) : Nat) = 3 := rfl
  apply BitVec.eq_of_getLsbD_eq
  intro j hj
  simp only [BitVec.getLsbD_extractLsb', BitVec.getLsbD_rotateRight, hj, decide_true, Bool.true_and]
  rcases fin4 r with rfl | rfl | rfl | rfl
  · have : j < 24 := by omega
    simp [this]
  · have : 8 + j < 24 := by omega
    simp [this]; try (congr 1; omega)
  · have : 16 + j < 24 := by omega
    simp [this, e3]; try (congr 1; omega)
  · have h1 : ¬ 8 * 3 + j < 24 := by omega
    have h2 : 8 * 3 + j < 32 := by omega
    simp [h1, h2, e3]

theorem word_rcon (b : Byte) : wordOfLane (b.zeroExtend 32) = fun r => if r = 0 then b else 0#8 := by
  funext r
  unfold wordOfLane
  apply BitVec.eq_of_getLsbD_eq
  intro j hj
  rcases fin4 r with rfl | rfl | rfl | rfl
  · simp [hj]; omega
  all_goals
    simp [hj]
    try exact fun _ => BitVec.getLsbD_of_ge _ _ (by omega)

theorem lane_xor (a b : Block) (i : Nat) : lane (a ^^^ b) i = lane a i ^^^ lane b i := by
  unfold lane; ext j hj; simp

/-- The last four steps of the key schedule in one macro call. -/
theorem expandAssist_lanes (v1 v3 v4 : Block) (shuff : Nat) (rc : Byte) (h0 : lane v3 0 = 0#32) :
    let t := fun i => lane (aeskeygenassist v4 rc) (shuff / 4 ^ i % 4)
    let r := expandAssist v1 v3 v4 shuff rc
    lane r.1 0 = lane v1 0 ^^^ t 0 ∧ lane r.1 1 = lane v1 0 ^^^ lane v1 1 ^^^ t 1
      ∧ lane r.1 2 = lane v1 0 ^^^ lane v1 1 ^^^ lane v1 2 ^^^ t 2
      ∧ lane r.1 3 = lane v1 0 ^^^ lane v1 1 ^^^ lane v1 2 ^^^ lane v1 3 ^^^ t 3
      ∧ lane r.2 0 = 0#32 := by
  simp only [expandAssist, shuffleEpi32, shufflePs, lane_xor, (lane_lanes _ _ _ _).1, (lane_lanes _ _ _ _).2.1,
    (lane_lanes _ _ _ _).2.2.1, (lane_lanes _ _ _ _).2.2.2, Nat.reduceMod, Nat.reduceDiv, h0, Nat.reducePow,
    BitVec.xor_zero, Nat.div_one]
  refine ⟨trivial, by ac_rfl, by ac_rfl, by ac_rfl, trivial⟩

/-- What a macro call adds to the first word. -/
def assist (b : Bool) (rc : Byte) (l : Lane) : Lane :=
  if b then rotLane (subLane l) ^^^ rc.zeroExtend 32 else subLane l

theorem word_assist_true (rc : Byte) (l : Lane) : wordOfLane (assist true rc l)
    = Aes.addWord (Aes.subWord (Aes.rotWord (wordOfLane l))) fun r => if r = 0 then rc else 0#8 := by
  rw [assist, if_pos rfl, word_xor, word_rot, word_sub, word_rcon]; rfl

/-- Four words of the key schedule, from the word before and the words `nk` before. -/
structure Four (v t v' : Block) : Prop where
  l0 : lane v' 0 = lane v 0 ^^^ lane t 0
  l1 : lane v' 1 = lane v 1 ^^^ lane v' 0
  l2 : lane v' 2 = lane v 2 ^^^ lane v' 1
  l3 : lane v' 3 = lane v 3 ^^^ lane v' 2

theorem expandAssist_four {v1 v3 v4 : Block} {shuff : Nat} {rc : Byte} (h0 : lane v3 0 = 0#32) {l : Nat}
    (hs : ∀ i < 4, shuff / 4 ^ i % 4 = l) :
    Four v1 (lanes (lane (aeskeygenassist v4 rc) l) 0 0 0) (expandAssist v1 v3 v4 shuff rc).1
      ∧ lane (expandAssist v1 v3 v4 shuff rc).2 0 = 0#32 := by
  have h := expandAssist_lanes v1 v3 v4 shuff rc h0
  dsimp only at h
  rw [hs 0 (by omega), hs 1 (by omega), hs 2 (by omega), hs 3 (by omega)] at h
  obtain ⟨a, b, c, d, e⟩ := h
  refine ⟨⟨?_, ?_, ?_, ?_⟩, e⟩
  · rw [a, (lane_lanes _ _ _ _).1]
  · rw [b, a]; ac_rfl
  · rw [c, b]; ac_rfl
  · rw [d, c]; ac_rfl

theorem lane_assist (v : Block) (rc : Byte) :
    lane (aeskeygenassist v rc) 1 = assist true rc (lane v 1) ∧ lane (aeskeygenassist v rc) 2 = assist false rc (lane v 3)
      ∧ lane (aeskeygenassist v rc) 3 = assist true rc (lane v 3) := by
  unfold aeskeygenassist assist
  simp only [(lane_lanes _ _ _ _).2.1, (lane_lanes _ _ _ _).2.2.1, (lane_lanes _ _ _ _).2.2.2]
  simp

def rcb (n : Nat) : Byte := Aes.xtimes 1#8 n

/-! ### 128 bits -/

def st128 (key : Block) : Nat → Block × Block
  | 0 => (key, 0)
  | n + 1 => expandAssist (st128 key n).1 (st128 key n).2 (st128 key n).1 255 (rcb n)

theorem shuff255 : ∀ i < 4, 255 / 4 ^ i % 4 = 3 := by decide
theorem shuff170 : ∀ i < 4, 170 / 4 ^ i % 4 = 2 := by decide
theorem shuff85 : ∀ i < 4, 85 / 4 ^ i % 4 = 1 := by decide

theorem st128_zero (key : Block) (n : Nat) : lane (st128 key n).2 0 = 0#32 := by
  induction n with
  | zero => show lane 0 0 = 0#32; decide
  | succ n ih => exact (expandAssist_four ih shuff255).2

theorem st128_step (key : Block) (n : Nat) :
    Four (st128 key n).1 (lanes (assist true (rcb n) (lane (st128 key n).1 3)) 0 0 0) (st128 key (n + 1)).1 := by
  have := (expandAssist_four (v1 := (st128 key n).1) (v4 := (st128 key n).1) (rc := rcb n) (st128_zero key n) shuff255).1
  rwa [(lane_assist _ _).2.2] at this

theorem keys128 (key : Block) (old : Nat → Block) : ∀ i < 11, aes128KeyExpansion key old i = (st128 key i).1 := by
  intro i hi
  have : i = 0 ∨ i = 1 ∨ i = 2 ∨ i = 3 ∨ i = 4 ∨ i = 5 ∨ i = 6 ∨ i = 7 ∨ i = 8 ∨ i = 9 ∨ i = 10 := by omega
  rcases this with rfl | rfl | rfl | rfl | rfl | rfl | rfl | rfl | rfl | rfl | rfl <;> rfl

theorem mod_four (i : Nat) : i % 4 = 0 ∨ i % 4 = 1 ∨ i % 4 = 2 ∨ i % 4 = 3 := by omega

/-- The words of the key in memory. -/
def keyWords (key key16 : Block) : Nat → Aes.Word := fun i r =>
  byteAt (if i < 4 then key else key16) (4 * (i % 4) + r.val)

theorem keyWords_eq (key key16 : Block) (i : Nat) :
    keyWords key key16 i = wordOfLane (lane (if i < 4 then key else key16) (i % 4)) := by
  have := wordsOf_eq (fun _ => if i < 4 then key else key16) i
  rw [← this]; rfl

theorem rcon_eq (n : Nat) : Aes.rcon (n + 1) = fun r => if r = 0 then rcb n else 0#8 := rfl

/-- The key schedule in terms of lanes. -/
theorem schedule_of_lanes {nk : Nat} {key : Nat → Aes.Word} {k : Nat → Block} {W : Nat → Lane} (hnk : 0 < nk)
    (hW : ∀ i < 4 * (nk + 7), lane (k (i / 4)) (i % 4) = W i) (h0 : ∀ i < nk, wordOfLane (W i) = key i)
    (h : ∀ n c, c < nk → nk * (n + 1) + c < 4 * (nk + 7) → W (nk * (n + 1) + c) = W (nk * n + c) ^^^
      (if c = 0 then assist true (rcb n) (W (nk * (n + 1) + c - 1))
       else if 6 < nk ∧ c = 4 then assist false 0 (W (nk * (n + 1) + c - 1)) else W (nk * (n + 1) + c - 1))) :
    Aes.KeySchedule nk key (wordsOf k) where
  start := by
    intro i hi
    rw [wordsOf_eq, hW i (by omega), h0 i hi]
  step := by
    intro i h1 h2
    have hd := Nat.div_add_mod i nk
    have hm := Nat.mod_lt i hnk
    have hq : 0 < i / nk := Nat.div_pos h1 hnk
    obtain ⟨n, hn⟩ : ∃ n, i / nk = n + 1 := ⟨i / nk - 1, by omega⟩
    rw [hn] at hd
    have hmul : nk * (n + 1) = nk * n + nk := Nat.mul_succ _ _
    have e := h n (i % nk) hm (by omega)
    rw [hd] at e
    have e1 : i - nk = nk * n + i % nk := by omega
    rw [wordsOf_eq, wordsOf_eq, wordsOf_eq, hW i h2, hW (i - nk) (by omega), hW (i - 1) (by omega), e1, e, word_xor, hn]
    congr 1
    split
    · rw [word_assist_true, rcon_eq]
    · split
      · simp [assist, word_sub]
      · rfl

theorem schedule128 (key key16 : Block) (old : Nat → Block) :
    Aes.KeySchedule 4 (keyWords key key16) (wordsOf (aes128KeyExpansion key old)) := by
  refine schedule_of_lanes (W := fun i => lane (st128 key (i / 4)).1 (i % 4)) (by omega) ?_ ?_ ?_
  · intro i hi
    rw [keys128 _ _ _ (by omega)]
  · intro i hi
    rw [keyWords_eq, if_pos hi, show i / 4 = 0 from by omega]; rfl
  · intro n c hc _
    have F := st128_step key n
    have e1 : (4 * (n + 1) + c) / 4 = n + 1 := by omega
    have e2 : (4 * (n + 1) + c) % 4 = c := by omega
    have e3 : (4 * n + c) / 4 = n := by omega
    have e4 : (4 * n + c) % 4 = c := by omega
    rw [e1, e2, e3, e4]
    have hc' : c = 0 ∨ c = 1 ∨ c = 2 ∨ c = 3 := by omega
    rcases hc' with rfl | rfl | rfl | rfl
    · rw [if_pos rfl, show (4 * (n + 1) + 0 - 1) / 4 = n from by omega, show (4 * (n + 1) + 0 - 1) % 4 = 3 from by omega,
        F.l0, (lane_lanes _ _ _ _).1]
    · rw [if_neg (by omega), if_neg (by omega), show (4 * (n + 1) + 1 - 1) / 4 = n + 1 from by omega,
        show (4 * (n + 1) + 1 - 1) % 4 = 0 from by omega, F.l1]
    · rw [if_neg (by omega), if_neg (by omega), show (4 * (n + 1) + 2 - 1) / 4 = n + 1 from by omega,
        show (4 * (n + 1) + 2 - 1) % 4 = 1 from by omega, F.l2]
    · rw [if_neg (by omega), if_neg (by omega), show (4 * (n + 1) + 3 - 1) / 4 = n + 1 from by omega,
        show (4 * (n + 1) + 3 - 1) % 4 = 2 from by omega, F.l3]

/-! ### 192 bits -/

/-- The registers `x0`, `x2`, `x3` after `n` calls of the macro. -/
def st192 (key key16 : Block) : Nat → Block × Block × Block
  | 0 => (key, 0, key16)
  | n + 1 =>
    let s := st192 key key16 n
    let r := expandAssist s.1 s.2.1 s.2.2 85 (rcb n)
    (r.1, r.2, s.2.2 ^^^ (s.2.2 <<< 32) ^^^ shuffleEpi32 r.1 255)

theorem st192_zero (key key16 : Block) (n : Nat) : lane (st192 key key16 n).2.1 0 = 0#32 := by
  induction n with
  | zero => show lane 0 0 = 0#32; decide
  | succ n ih =>
    exact (expandAssist_four (v1 := (st192 key key16 n).1) (v4 := (st192 key key16 n).2.2) (rc := rcb n) ih shuff85).2

theorem st192_step (key key16 : Block) (n : Nat) :
    Four (st192 key key16 n).1 (lanes (assist true (rcb n) (lane (st192 key key16 n).2.2 1)) 0 0 0)
      (st192 key key16 (n + 1)).1 := by
  have := (expandAssist_four (v1 := (st192 key key16 n).1) (v4 := (st192 key key16 n).2.2) (rc := rcb n)
    (st192_zero key key16 n) shuff85).1
  rwa [(lane_assist _ _).1] at this

theorem lane_shl (x : Block) : lane (x <<< 32) 0 = 0#32 ∧ lane (x <<< 32) 1 = lane x 0 := by
  unfold lane
  constructor
  · ext j hj; simp; omega
  · ext j hj; simp; omega

theorem st192_rest (key key16 : Block) (n : Nat) :
    lane (st192 key key16 (n + 1)).2.2 0 = lane (st192 key key16 n).2.2 0 ^^^ lane (st192 key key16 (n + 1)).1 3
    ∧ lane (st192 key key16 (n + 1)).2.2 1 = lane (st192 key key16 n).2.2 1 ^^^ lane (st192 key key16 (n + 1)).2.2 0 := by
  have h : ∀ i, lane (st192 key key16 (n + 1)).2.2 i = lane (st192 key key16 n).2.2 i
      ^^^ lane ((st192 key key16 n).2.2 <<< 32) i ^^^ lane (shuffleEpi32 (st192 key key16 (n + 1)).1 255) i := by
    intro i; rw [← lane_xor, ← lane_xor]; rfl
  have h3 : lane (shuffleEpi32 (st192 key key16 (n + 1)).1 255) 0 = lane (st192 key key16 (n + 1)).1 3 :=
    (lane_lanes _ _ _ _).1
  have h3' : lane (shuffleEpi32 (st192 key key16 (n + 1)).1 255) 1 = lane (st192 key key16 (n + 1)).1 3 :=
    (lane_lanes _ _ _ _).2.1
  have e0 : lane (st192 key key16 (n + 1)).2.2 0
      = lane (st192 key key16 n).2.2 0 ^^^ lane (st192 key key16 (n + 1)).1 3 := by
    rw [h 0, h3, (lane_shl _).1, BitVec.xor_zero]
  refine ⟨e0, ?_⟩
  rw [h 1, h3', (lane_shl _).2, e0]; ac_rfl

def w192 (key key16 : Block) (i : Nat) : Lane :=
  if i % 6 < 4 then lane (st192 key key16 (i / 6)).1 (i % 6) else lane (st192 key key16 (i / 6)).2.2 (i % 6 - 4)

theorem keys192 (key key16 : Block) (old : Nat → Block) : ∀ i < 4 * (6 + 7),
    lane (aes192KeyExpansion key key16 old (i / 4)) (i % 4) = w192 key key16 i := by
  intro i hi
  have L : aes192KeyExpansion key key16 old = fun i => [(st192 key key16 0).1,
      shufflePs (st192 key key16 0).2.2 (st192 key key16 1).1 68, shufflePs (st192 key key16 1).1 (st192 key key16 1).2.2 78,
      (st192 key key16 2).1,
      shufflePs (st192 key key16 2).2.2 (st192 key key16 3).1 68, shufflePs (st192 key key16 3).1 (st192 key key16 3).2.2 78,
      (st192 key key16 4).1,
      shufflePs (st192 key key16 4).2.2 (st192 key key16 5).1 68, shufflePs (st192 key key16 5).1 (st192 key key16 5).2.2 78,
      (st192 key key16 6).1,
      shufflePs (st192 key key16 6).2.2 (st192 key key16 7).1 68, shufflePs (st192 key key16 7).1 (st192 key key16 7).2.2 78,
      (st192 key key16 8).1].getD i (old i) := rfl
  rw [L]
  unfold w192
  generalize st192 key key16 = s
  clear L
  simp only [shufflePs]
  interval_cases i <;>
    simp [(lane_lanes _ _ _ _).1, (lane_lanes _ _ _ _).2.1, (lane_lanes _ _ _ _).2.2.1, (lane_lanes _ _ _ _).2.2.2]

theorem schedule192 (key key16 : Block) (old : Nat → Block) :
    Aes.KeySchedule 6 (keyWords key key16) (wordsOf (aes192KeyExpansion key key16 old)) := by
  refine schedule_of_lanes (W := w192 key key16) (by omega) (keys192 key key16 old) ?_ ?_
  · intro i hi
    rw [keyWords_eq]
    unfold w192
    rw [show i / 6 = 0 from by omega, show i % 6 = i from by omega]
    split
    · rw [show i % 4 = i from by omega]; rfl
    · rw [show i % 4 = i - 4 from by omega]; rfl
  · intro n c hc _
    have F := st192_step key key16 n
    have R := st192_rest key key16 n
    have lo : ∀ m c, c < 4 → w192 key key16 (6 * m + c) = lane (st192 key key16 m).1 c := by
      intro m c hc
      unfold w192
      rw [show (6 * m + c) / 6 = m from by omega, show (6 * m + c) % 6 = c from by omega, if_pos hc]
    have hi : ∀ m c, c < 2 → w192 key key16 (6 * m + (4 + c)) = lane (st192 key key16 m).2.2 c := by
      intro m c hc
      unfold w192
      rw [show (6 * m + (4 + c)) / 6 = m from by omega, show (6 * m + (4 + c)) % 6 = 4 + c from by omega,
        if_neg (by omega), show 4 + c - 4 = c from by omega]
    have hc' : c = 0 ∨ c = 1 ∨ c = 2 ∨ c = 3 ∨ c = 4 + 0 ∨ c = 4 + 1 := by omega
    rcases hc' with rfl | rfl | rfl | rfl | rfl | rfl
    · rw [if_pos rfl, show 6 * (n + 1) + 0 - 1 = 6 * n + (4 + 1) from by omega, lo _ _ (by omega), lo _ _ (by omega),
        hi _ _ (by omega), F.l0, (lane_lanes _ _ _ _).1]
    · rw [if_neg (by omega), if_neg (by omega), show 6 * (n + 1) + 1 - 1 = 6 * (n + 1) + 0 from by omega,
        lo _ _ (by omega), lo _ _ (by omega), lo _ _ (by omega), F.l1]
    · rw [if_neg (by omega), if_neg (by omega), show 6 * (n + 1) + 2 - 1 = 6 * (n + 1) + 1 from by omega,
        lo _ _ (by omega), lo _ _ (by omega), lo _ _ (by omega), F.l2]
    · rw [if_neg (by omega), if_neg (by omega), show 6 * (n + 1) + 3 - 1 = 6 * (n + 1) + 2 from by omega,
        lo _ _ (by omega), lo _ _ (by omega), lo _ _ (by omega), F.l3]
    · rw [if_neg (by omega), if_neg (by omega), show 6 * (n + 1) + (4 + 0) - 1 = 6 * (n + 1) + 3 from by omega,
        hi _ _ (by omega), hi _ _ (by omega), lo _ _ (by omega), R.1]
    · rw [if_neg (by omega), if_neg (by omega), show 6 * (n + 1) + (4 + 1) - 1 = 6 * (n + 1) + (4 + 0) from by omega,
        hi _ _ (by omega), hi _ _ (by omega), hi _ _ (by omega), R.2]

/-! ### 256 bits -/

def st256 (key key16 : Block) : Nat → Block × Block × Block
  | 0 => (key, 0, key16)
  | n + 1 =>
    let s := st256 key key16 n
    let r := expandAssist s.1 s.2.1 s.2.2 255 (rcb n)
    let r' := expandAssist s.2.2 r.2 r.1 170 (rcb n)
    (r.1, r'.2, r'.1)

theorem st256_zero (key key16 : Block) (n : Nat) : lane (st256 key key16 n).2.1 0 = 0#32 := by
  induction n with
  | zero => show lane 0 0 = 0#32; decide
  | succ n ih =>
    exact (expandAssist_four (v1 := (st256 key key16 n).2.2) (v4 := (st256 key key16 (n + 1)).1) (rc := rcb n)
      (expandAssist_four (v1 := (st256 key key16 n).1) (v4 := (st256 key key16 n).2.2) (rc := rcb n) ih shuff255).2
      shuff170).2

theorem st256_step (key key16 : Block) (n : Nat) :
    Four (st256 key key16 n).1 (lanes (assist true (rcb n) (lane (st256 key key16 n).2.2 3)) 0 0 0)
      (st256 key key16 (n + 1)).1
    ∧ Four (st256 key key16 n).2.2 (lanes (assist false (rcb n) (lane (st256 key key16 (n + 1)).1 3)) 0 0 0)
      (st256 key key16 (n + 1)).2.2 := by
  have a := expandAssist_four (v1 := (st256 key key16 n).1) (v4 := (st256 key key16 n).2.2) (rc := rcb n)
    (st256_zero key key16 n) shuff255
  have b := (expandAssist_four (v1 := (st256 key key16 n).2.2) (v4 := (st256 key key16 (n + 1)).1) (rc := rcb n) a.2
    shuff170).1
  rw [(lane_assist _ _).2.2] at a
  rw [(lane_assist _ _).2.1] at b
  exact ⟨a.1, b⟩

def w256 (key key16 : Block) (i : Nat) : Lane :=
  if i % 8 < 4 then lane (st256 key key16 (i / 8)).1 (i % 8) else lane (st256 key key16 (i / 8)).2.2 (i % 8 - 4)

theorem keys256 (key key16 : Block) (old : Nat → Block) : ∀ i < 4 * (8 + 7),
    lane (aes256KeyExpansion key key16 old (i / 4)) (i % 4) = w256 key key16 i := by
  intro i hi
  have L : aes256KeyExpansion key key16 old = fun i => [(st256 key key16 0).1, (st256 key key16 0).2.2,
      (st256 key key16 1).1, (st256 key key16 1).2.2, (st256 key key16 2).1, (st256 key key16 2).2.2,
      (st256 key key16 3).1, (st256 key key16 3).2.2, (st256 key key16 4).1, (st256 key key16 4).2.2,
      (st256 key key16 5).1, (st256 key key16 5).2.2, (st256 key key16 6).1, (st256 key key16 6).2.2,
      (st256 key key16 7).1].getD i (old i) := rfl
  rw [L]
  unfold w256
  generalize st256 key key16 = s
  clear L
  interval_cases i <;> simp

theorem schedule256 (key key16 : Block) (old : Nat → Block) :
    Aes.KeySchedule 8 (keyWords key key16) (wordsOf (aes256KeyExpansion key key16 old)) := by
  refine schedule_of_lanes (W := w256 key key16) (by omega) (keys256 key key16 old) ?_ ?_
  · intro i hi
    rw [keyWords_eq]
    unfold w256
    rw [show i / 8 = 0 from by omega, show i % 8 = i from by omega]
    split
    · rw [show i % 4 = i from by omega]; rfl
    · rw [show i % 4 = i - 4 from by omega]; rfl
  · intro n c hc _
    obtain ⟨F, G⟩ := st256_step key key16 n
    have lo : ∀ m c, c < 4 → w256 key key16 (8 * m + c) = lane (st256 key key16 m).1 c := by
      intro m c hc
      unfold w256
      rw [show (8 * m + c) / 8 = m from by omega, show (8 * m + c) % 8 = c from by omega, if_pos hc]
    have hi : ∀ m c, c < 4 → w256 key key16 (8 * m + (4 + c)) = lane (st256 key key16 m).2.2 c := by
      intro m c hc
      unfold w256
      rw [show (8 * m + (4 + c)) / 8 = m from by omega, show (8 * m + (4 + c)) % 8 = 4 + c from by omega,
        if_neg (by omega), show 4 + c - 4 = c from by omega]
    have hc' : c = 0 ∨ c = 1 ∨ c = 2 ∨ c = 3 ∨ c = 4 + 0 ∨ c = 4 + 1 ∨ c = 4 + 2 ∨ c = 4 + 3 := by omega
    rcases hc' with rfl | rfl | rfl | rfl | rfl | rfl | rfl | rfl
    · rw [if_pos rfl, show 8 * (n + 1) + 0 - 1 = 8 * n + (4 + 3) from by omega, lo _ _ (by omega), lo _ _ (by omega),
        hi _ _ (by omega), F.l0, (lane_lanes _ _ _ _).1]
    · rw [if_neg (by omega), if_neg (by omega), show 8 * (n + 1) + 1 - 1 = 8 * (n + 1) + 0 from by omega,
        lo _ _ (by omega), lo _ _ (by omega), lo _ _ (by omega), F.l1]
    · rw [if_neg (by omega), if_neg (by omega), show 8 * (n + 1) + 2 - 1 = 8 * (n + 1) + 1 from by omega,
        lo _ _ (by omega), lo _ _ (by omega), lo _ _ (by omega), F.l2]
    · rw [if_neg (by omega), if_neg (by omega), show 8 * (n + 1) + 3 - 1 = 8 * (n + 1) + 2 from by omega,
        lo _ _ (by omega), lo _ _ (by omega), lo _ _ (by omega), F.l3]
    · rw [if_neg (by omega), if_pos (by omega), show 8 * (n + 1) + (4 + 0) - 1 = 8 * (n + 1) + 3 from by omega,
        hi _ _ (by omega), hi _ _ (by omega), lo _ _ (by omega), G.l0, (lane_lanes _ _ _ _).1]
      rfl
    · rw [if_neg (by omega), if_neg (by omega), show 8 * (n + 1) + (4 + 1) - 1 = 8 * (n + 1) + (4 + 0) from by omega,
        hi _ _ (by omega), hi _ _ (by omega), hi _ _ (by omega), G.l1]
    · rw [if_neg (by omega), if_neg (by omega), show 8 * (n + 1) + (4 + 2) - 1 = 8 * (n + 1) + (4 + 1) from by omega,
        hi _ _ (by omega), hi _ _ (by omega), hi _ _ (by omega), G.l2]
    · rw [if_neg (by omega), if_neg (by omega), show 8 * (n + 1) + (4 + 3) - 1 = 8 * (n + 1) + (4 + 2) from by omega,
        hi _ _ (by omega), hi _ _ (by omega), hi _ _ (by omega), G.l3]

end TinyGarble
