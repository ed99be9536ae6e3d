import Verif.Proof.Hdl.A23SymExec
import Verif.Proof.Hdl.A23Stop

/-! # Symbolic execution: programs -/

namespace TinyGarble.Proof.Hdl.A23.Sym

open TinyGarble.Spec.Arm
open TinyGarble.Spec.Mips (bits put)

/-- Loading several registers; the program counter can be the last one. -/
def Abs.loads (prog : List (BitVec 32)) (τ : Abs) (a : BitVec 32) : List (BitVec 4) → Option (List Micro × Option (BitVec 24))
  | [] => some ([], none)
  | r :: rs =>
    if r = 15 then
      match rs, τ.word prog a with
      | [], some v => some ([], some (bits v 2 24))
      | _, _ => none
    else
      match τ.loads prog (a + 4) rs with
      | none => none
      | some (ms, q) => some ((match τ.word prog a with | some w => .const r w | none => .load 14 false r a) :: ms, q)

/-- Storing several registers. -/
def Abs.stores (τ : Abs) (a : BitVec 32) : List (BitVec 4) → List Micro
  | [] => []
  | r :: rs => .store 14 false a (τ.src r) :: τ.stores (a + 4) rs

def Abs.multi (prog : List (BitVec 32)) (m : Layout) (τ : Abs) (load up pre wb : Bool) (rn : BitVec 4) (list : BitVec 16) : Option (List Micro × BitVec 24) :=
  match τ.reg rn with
  | none => none
  | some b =>
    let rs := registers list
    let n := rs.length
    let a := start up pre b n
    if rn = 15 ∨ list = 0 ∨ (wb = true ∧ list.getLsbD rn.toNat = true) ∨ a.toNat % 4 ≠ 0 then none
    else
      let ws := if wb then [Micro.const rn (move up b (BitVec.ofNat 32 (4 * n)))] else []
      if load then
        if words m.readable a n then
          match τ.loads prog a rs with
          | none => none
          | some (ms, q) => some (ws ++ ms, q.getD (τ.pc + 1))
        else none
      else if words m.writable a n && words (fun a => align a ≠ addr (τ.pc + 1)) a n && !list.getLsbD 15 then
        some (ws ++ τ.stores a rs, τ.pc + 1)
      else none

section
variable {prog : List (BitVec 32)} {τ : Abs} {s : State} (h : Desc prog τ s)
include h

omit h in
theorem add4_mod {a : BitVec 32} (ha : a.toNat % 4 = 0) : (a + 4).toNat % 4 = 0 := by
  rw [BitVec.toNat_add, show (4 : BitVec 32).toNat = 4 from rfl]
  omega

theorem loads_sound (rs : List (BitVec 4)) (a : BitVec 32) (ha : a.toNat % 4 = 0) {ms : List Micro} {q : Option (BitVec 24)}
    (hd : τ.loads prog a rs = some (ms, q)) (s' : State) (hm : s'.mem = s.mem) :
    s'.loadAll a rs = { applyAll s' ms with pc := q.getD s'.pc } := by
  induction rs generalizing a ms q s' with
  | nil => cases hd; rfl
  | cons r rs ih =>
    unfold Abs.loads at hd
    by_cases hr : r = 15
    · rw [if_pos hr] at hd
      split at hd
      swap
      · cases hd
      rename_i v hv
      cases hd
      rw [State.loadAll, State.loadAll, hr, State.write, if_pos rfl, word_congr hm, h.word a v ha hv]
      rfl
    · rw [if_neg hr] at hd
      split at hd
      · cases hd
      rename_i ms' q' hd'
      cases hd
      rw [State.loadAll]
      have hx : s'.write r (s'.word a) = (match τ.word prog a with | some w => Micro.const r w | none => .load 14 false r a).apply s' := by
        rw [State.write, if_neg hr]
        split
        · rename_i w hw
          rw [word_congr hm, h.word a w ha hw]
          rfl
        · rfl
      have hpc : (s'.write r (s'.word a)).pc = s'.pc := by rw [State.write, if_neg hr]
      rw [ih (a + 4) (add4_mod ha) hd' _ (by rw [State.write, if_neg hr]; exact hm), hpc, hx]
      rfl

theorem stores_sound (rs : List (BitVec 4)) (a : BitVec 32) (h15 : ∀ r ∈ rs, r ≠ 15) (s' : State) (hr : ∀ r ∈ rs, s'.reg r = s.reg r) :
    s'.storeAll a (rs.map s.stored) = applyAll s' (τ.stores a rs) := by
  induction rs generalizing a s' with
  | nil => rfl
  | cons r rs ih =>
    show (s'.putWord a (s.stored r)).storeAll (a + 4) (rs.map s.stored) = applyAll ((Micro.store 14 false a (τ.src r)).apply s') (τ.stores (a + 4) rs)
    have h15' := h15 r (List.mem_cons_self ..)
    have hx : (Micro.store 14 false a (τ.src r)).apply s' = s'.putWord a (s.stored r) := by
      show (if holds 14 s'.flags then (if false = true then { s' with mem := put s'.mem a ((τ.src r).val s').toNat 1 } else s'.putWord a ((τ.src r).val s')) else s') = _
      rw [if_pos (show holds 14 s'.flags = true from rfl), if_neg (by decide)]
      congr 1
      rw [State.stored, if_neg h15']
      have hv := src_val h r h15'
      cases hsr : τ.src r with
      | c v => rw [hsr] at hv; exact hv
      | r k =>
        have : k = r := by
          unfold Abs.src at hsr
          split at hsr
          · cases hsr
          · cases hsr; rfl
        rw [this]; exact hr r (List.mem_cons_self ..)
    rw [hx]
    exact ih (a + 4) (fun k hk => h15 k (List.mem_cons_of_mem _ hk)) _ fun k hk => hr k (List.mem_cons_of_mem _ hk)

omit h in
theorem words_mono {p p' : BitVec 32 → Bool} (hp : ∀ a, p a = true → p' a = true) (a : BitVec 32) (n : Nat) (hw : words p a n = true) : words p' a n = true := by
  induction n generalizing a with
  | zero => rfl
  | succ n ih =>
    rw [words, Bool.and_eq_true] at *
    exact ⟨hp _ hw.1, ih _ hw.2⟩

omit h in
theorem mem_registers {list : BitVec 16} {r : BitVec 4} (hr : r ∈ registers list) : list.getLsbD r.toNat = true := by
  obtain ⟨k, hk, rfl⟩ := List.mem_map.1 hr
  rw [List.mem_filter, List.mem_range] at hk
  rw [BitVec.toNat_ofNat, Nat.mod_eq_of_lt hk.1]
  exact hk.2

theorem multi_does {m l : Layout} (hl : Within m l) {load up pre wb : Bool} {rn : BitVec 4} {list : BitVec 16} {ms : List Micro} {q : BitVec 24}
    (hd : τ.multi prog m load up pre wb rn list = some (ms, q)) : Does l s 14 (.multi load up pre wb rn list) ms q := by
  unfold Abs.multi at hd
  split at hd
  · cases hd
  rename_i b hb
  dsimp only at hd
  split at hd
  · cases hd
  rename_i hn
  have hrn : rn ≠ 15 := fun h => hn (Or.inl h)
  have hli : list ≠ 0 := fun h => hn (Or.inr (Or.inl h))
  have hwb : ¬ (wb = true ∧ list.getLsbD rn.toNat = true) := fun h => hn (Or.inr (Or.inr (Or.inl h)))
  have hreg : s.reg rn = b := h.reg rn b hrn hb
  obtain ⟨a, ha⟩ : ∃ a, a = start up pre b (registers list).length := ⟨_, rfl⟩
  have hmod : a.toNat % 4 = 0 := by
    by_contra hm
    rw [ha] at hm
    exact hn (Or.inr (Or.inr (Or.inr hm)))
  rw [← ha] at hd
  obtain ⟨ws, hws⟩ : ∃ ws, ws = if wb = true then [Micro.const rn (move up b (BitVec.ofNat 32 (4 * (registers list).length)))] else [] := ⟨_, rfl⟩
  rw [← hws] at hd
  obtain ⟨s1, hs1⟩ : ∃ s1, s1 = applyAll s ws := ⟨_, rfl⟩
  have hs' : (if wb = true then s.next.write rn (move up b (BitVec.ofNat 32 (4 * (registers list).length))) else s.next) = { s1 with pc := s.pc + 1 } := by
    rw [hs1, hws]
    split
    · rw [State.write, if_neg hrn]; rfl
    · rfl
  have hmem : s1.mem = s.mem := by rw [hs1, hws]; split <;> rfl
  have hregs : ∀ r ∈ registers list, s1.reg r = s.reg r := by
    intro r hr
    rw [hs1, hws]
    split
    · rename_i hw
      show (if r = rn then _ else s.reg r) = _
      rw [if_neg]
      rintro rfl
      exact hwb ⟨hw, mem_registers hr⟩
    · rfl
  have hall : ∀ x, applyAll s (ws ++ x) = applyAll s1 x := by
    intro x
    rw [hs1]
    exact List.foldl_append ..
  have hex : Circuit.exec l s (.multi load up pre wb rn list) =
      if load then (if words l.readable a (registers list).length then some (({ s1 with pc := s.pc + 1 } : State).loadAll a (registers list)) else none)
      else (if words l.writable a (registers list).length then some (({ s1 with pc := s.pc + 1 } : State).storeAll a ((registers list).map s.stored)) else none) := by
    show (if rn = 15 ∨ list = 0 ∨ (wb = true ∧ list.getLsbD rn.toNat = true) then none else _) = _
    rw [if_neg (fun h => h.elim hrn fun h => h.elim hli hwb)]
    rw [hreg, ← ha, hs']
  by_cases hload : load = true
  · rw [if_pos hload] at hd
    split at hd
    swap
    · cases hd
    rename_i hw
    split at hd
    · cases hd
    rename_i ms' q' hms
    cases hd
    rw [if_pos hload, if_pos (words_mono (fun a => readable_mono hl) _ _ hw)] at hex
    refine ⟨fun _ => ⟨?_, ?_⟩, fun hh => (by cases hh), hli⟩
    · intro hl'; rw [hload] at hl'; cases hl'
    · rw [hex, loads_sound h _ a hmod hms { s1 with pc := s.pc + 1 } hmem, hall]
      rw [applyAll_pc]
      dsimp only
      rw [h.pc]
  · rw [if_neg hload] at hd
    split at hd
    swap
    · cases hd
    rename_i hw
    rw [Bool.and_eq_true, Bool.and_eq_true] at hw
    obtain ⟨⟨hw1, hw2⟩, hw3⟩ := hw
    have h15 : ∀ r ∈ registers list, r ≠ 15 := by
      rintro r hr rfl
      have := mem_registers hr
      rw [show (15 : BitVec 4).toNat = 15 from rfl] at this
      rw [this] at hw3
      cases hw3
    cases hd
    rw [if_neg hload, if_pos (words_mono (fun a => writable_mono hl) _ _ hw1)] at hex
    refine ⟨fun _ => ⟨fun _ => ?_, ?_⟩, fun hh => (by cases hh), hli⟩
    · rw [hreg, ← ha, h.pc]
      exact hw2
    · rw [hex, stores_sound h _ a h15 { s1 with pc := s.pc + 1 } hregs, hall, applyAll_pc, h.pc]

def Abs.branch (τ : Abs) (link : Bool) (off : BitVec 24) : Option (List Micro × BitVec 24) :=
  if link then
    match τ.flags with
    | some f => some ([.const 14 (f.word + 0x0c000000#32 + addr (τ.pc + 1))], τ.pc + 2 + off)
    | none => none
  else some ([], τ.pc + 2 + off)

theorem branch_does {l : Layout} {link : Bool} {off : BitVec 24} {ms : List Micro} {q : BitVec 24} (hd : τ.branch link off = some (ms, q)) :
    Does l s 14 (.branch link off) ms q := by
  unfold Abs.branch at hd
  refine ⟨fun _ => ⟨trivial, ?_⟩, fun hh => (by cases hh), trivial⟩
  show some ({ (if link then s.write 14 (s.r15 (s.pc + 1)) else s : State) with pc := s.pc + 2 + off }) = _
  split at hd
  · rename_i hlk
    split at hd
    swap
    · cases hd
    rename_i f hf
    cases hd
    rw [if_pos hlk, State.write, if_neg (by decide), State.r15, h.pc]
    rw [← h.flags f hf]
    rfl
  · rename_i hlk
    cases hd
    rw [if_neg hlk, h.pc]
    rfl

/-- An instruction with condition `g`. -/
def Abs.exec (prog : List (BitVec 32)) (m : Layout) (τ : Abs) (g : BitVec 4) : Instr → Option (List Micro × BitVec 24)
  | .dp op set rd rn o => τ.dp g op set rd rn o
  | .mul _ set rd _ rs rm => τ.mul prog g set rd rs rm
  | .transfer load byte up pre wb rd rn o => τ.transfer prog m g load byte up pre wb rd rn o
  | .multi load up pre wb rn list => if g = 14 then τ.multi prog m load up pre wb rn list else none
  | .branch link off => if g = 14 then τ.branch link off else none

theorem exec_does {m l : Layout} (hl : Within m l) {g : BitVec 4} {i : Instr} {ms : List Micro} {q : BitVec 24}
    (hd : τ.exec prog m g i = some (ms, q)) : Does l s g i ms q := by
  cases i with
  | dp op set rd rn o => exact dp_does h hd
  | mul acc set rd rn rs rm => exact mul_does h hd
  | transfer load byte up pre wb rd rn o => exact transfer_does h hl hd
  | multi load up pre wb rn list =>
    unfold Abs.exec at hd
    dsimp only at hd
    split at hd
    · rename_i hg; rw [hg]; exact multi_does h hl hd
    · cases hd
  | branch link off =>
    unfold Abs.exec at hd
    dsimp only at hd
    split at hd
    · rename_i hg; rw [hg]; exact branch_does h hd
    · cases hd

/-- An instruction whose condition does not hold. -/
def Abs.skip (prog : List (BitVec 32)) (τ : Abs) (i : Instr) : Option (List Micro × BitVec 24) :=
  match i with
  | .dp op set rd rn o => if i.jumps then τ.dp 15 op set rd rn o else some ([], τ.pc + 1)
  | .mul .. => if τ.single prog then some ([], τ.pc + 1) else none
  | .multi _ _ _ _ _ list => if i.jumps ∨ list = 0 then none else some ([], τ.pc + 1)
  | _ => if i.jumps then none else some ([], τ.pc + 1)

theorem skip_does {l : Layout} {i : Instr} {ms : List Micro} {q : BitVec 24} (hd : τ.skip prog i = some (ms, q)) :
    Circuit.skipped i s ∧ Circuit.pass s i = some { applyAll s ms with pc := q } ∧ i.passable l s := by
  have hnext : some s.next = some { applyAll s [] with pc := τ.pc + 1 } := by rw [← h.pc]; rfl
  unfold Abs.skip at hd
  cases i with
  | dp op set rd rn o =>
    dsimp only at hd
    split at hd
    · obtain ⟨-, h2, h3⟩ := dp_does h (l := l) hd
      obtain ⟨h4, h5⟩ := h2 rfl
      exact ⟨h4, h5, h3⟩
    · rename_i hj
      cases hd
      refine ⟨fun h => absurd h hj, ?_, trivial⟩
      show (if _ then _ else _) = _
      rw [if_neg hj, hnext]
  | mul acc set rd rn rs rm =>
    dsimp only at hd
    split at hd
    · rename_i hs
      cases hd
      exact ⟨rfl, hnext, fun _ => single_sound h hs⟩
    · cases hd
  | transfer load byte up pre wb rd rn o =>
    dsimp only at hd
    split at hd
    · cases hd
    · rename_i hj
      cases hd
      exact ⟨Bool.eq_false_iff.2 hj, hnext, trivial⟩
  | multi load up pre wb rn list =>
    dsimp only at hd
    split at hd
    · cases hd
    · rename_i hj
      rw [not_or] at hj
      cases hd
      exact ⟨Bool.eq_false_iff.2 hj.1, hnext, hj.2⟩
  | branch link off =>
    dsimp only at hd
    split at hd
    · cases hd
    · cases hd
      exact ⟨rfl, hnext, trivial⟩

/-- The instruction is not part of the end. -/
def Abs.ordinary (τ : Abs) (i : Instr) : Bool :=
  decide (τ.pc ≠ 5 ∧ τ.pc ≠ 6 ∧ τ.pc ≠ 7) && (τ.pc != 4 || i.isBranch) &&
  match i with
  | .multi _ up pre _ rn list =>
    match τ.reg rn with
    | some b => rn != 15 && words (fun a => align a ≠ 0x18) (start up pre b (registers list).length) ((registers list).length - 1)
    | none => false
  | _ => true

theorem ordinary_sound {i : Instr} (ho : τ.ordinary i = true) : Ordinary s i := by
  unfold Abs.ordinary at ho
  rw [Bool.and_eq_true, Bool.and_eq_true] at ho
  obtain ⟨⟨h1, h2⟩, h3⟩ := ho
  refine ⟨by rw [h.pc]; exact of_decide_eq_true h1, fun h4 => ?_, ?_⟩
  · rw [h.pc] at h4
    rw [h4] at h2
    simpa using h2
  · cases i with
    | multi load up pre wb rn list =>
      dsimp only at h3
      split at h3
      · rename_i b hb
        rw [Bool.and_eq_true] at h3
        have hr : rn ≠ 15 := by simpa using h3.1
        show words _ (start up pre (s.base rn) _) _ = true
        rw [State.base, if_neg hr, h.reg rn b hr hb]
        exact h3.2
      · cases h3
    | _ => trivial

/-- One instruction: the micro-operations, the next address and the number of cycles. -/
def Abs.step (prog : List (BitVec 32)) (m : Layout) (τ : Abs) : Option (Abs × List Micro × Nat) :=
  if τ.pc.toNat < m.code then
    match τ.word prog (addr τ.pc) with
    | none => none
    | some w =>
      match decode w with
      | none => none
      | some i =>
        if τ.ordinary i then
          match (match τ.flags with
            | some f => if holds (bits w 28 4) f then τ.exec prog m 14 i else τ.skip prog i
            | none => τ.exec prog m (bits w 28 4) i) with
          | none => none
          | some (ms, q) => some ({ τ.applyAll prog ms with pc := q }, ms, i.cycles)
        else none
  else none

end

/-- The machine gets from a state to another one, in a number of cycles of the circuit; all instructions are such that the circuit does the same. -/
inductive Reach (l : Layout) : State → Nat → State → Prop
  | refl (s : State) : Reach l s 0 s
  | step {s s1 s2 : State} {c : BitVec 4} {i : Instr} {k : Nat} (hf : s.fetch l = some (c, i)) (hs : Circuit.step l s = some s1)
      (hsup : Circuit.Supported l s c i) (ho : Ordinary s i) (hr : Reach l s1 k s2) : Reach l s (i.cycles + k) s2

theorem Reach.trans {l : Layout} {s s1 s2 : State} {a b : Nat} (h1 : Reach l s a s1) (h2 : Reach l s1 b s2) : Reach l s (a + b) s2 := by
  induction h1 with
  | refl s => rw [Nat.zero_add]; exact h2
  | step hf hs hsup ho hr ih => rw [Nat.add_assoc]; exact .step hf hs hsup ho (ih h2)

theorem step_sound {prog : List (BitVec 32)} {τ τ' : Abs} {s : State} {m l : Layout} (hl : Within m l) (h : Desc prog τ s) {ms : List Micro} {k : Nat}
    (hd : τ.step prog m = some (τ', ms, k)) :
    Reach l s k { applyAll s ms with pc := τ'.pc } ∧ Desc prog τ' { applyAll s ms with pc := τ'.pc } := by
  unfold Abs.step at hd
  split at hd
  swap
  · cases hd
  rename_i hpc
  split at hd
  · cases hd
  rename_i w hw
  split at hd
  · cases hd
  rename_i i hi
  split at hd
  swap
  · cases hd
  rename_i ho
  split at hd
  · cases hd
  rename_i ms' q hgo
  cases hd
  have hword : s.word (addr s.pc) = w := by rw [h.pc]; exact h.word _ w (addr_mod _) hw
  have hf : s.fetch l = some (bits w 28 4, i) := by
    unfold State.fetch
    dsimp only
    rw [hword, hi, if_pos (by rw [h.pc]; exact lt_of_lt_of_le hpc hl.1)]
    rfl
  have hD : Circuit.Supported l s (bits w 28 4) i ∧ Circuit.step l s = some { applyAll s ms with pc := q } := by
    have hst : Circuit.step l s = if holds (bits w 28 4) s.flags then Circuit.exec l s i else Circuit.pass s i := by
      unfold Circuit.step
      rw [hf]; rfl
    rw [hst]
    cases hfl : τ.flags with
    | some f =>
      rw [hfl] at hgo
      have hff := h.flags f hfl
      rw [← hff] at hgo
      dsimp only at hgo
      split at hgo
      · rename_i hh
        obtain ⟨d1, d2, d3⟩ := exec_does h hl hgo
        obtain ⟨d1, d4⟩ := d1 rfl
        rw [if_pos hh]
        exact ⟨⟨fun _ => d1, fun hn => (by rw [hh] at hn; cases hn), d3⟩, d4⟩
      · rename_i hh
        obtain ⟨d1, d2, d3⟩ := skip_does (l := l) h hgo
        rw [if_neg hh]
        exact ⟨⟨fun hn => absurd hn hh, fun _ => d1, d3⟩, d2⟩
    | none =>
      rw [hfl] at hgo
      dsimp only at hgo
      obtain ⟨d1, d2, d3⟩ := exec_does h hl hgo
      refine ⟨⟨fun hh => (d1 hh).1, fun hh => (d2 hh).1, d3⟩, ?_⟩
      by_cases hh : holds (bits w 28 4) s.flags = true
      · rw [if_pos hh]; exact (d1 hh).2
      · rw [if_neg hh]; exact (d2 (by simpa using hh)).2
  refine ⟨?_, (h.applyAll ms).at⟩
  exact Reach.step hf hD.2 hD.1 (ordinary_sound h ho) (.refl _)

/-- Several instructions. -/
def Abs.run (prog : List (BitVec 32)) (m : Layout) : Abs → Nat → Option (Abs × List Micro × Nat)
  | τ, 0 => some (τ, [], 0)
  | τ, n + 1 =>
    match τ.step prog m with
    | none => none
    | some (τ1, ms, k) =>
      match τ1.run prog m n with
      | none => none
      | some (τ2, ms2, k2) => some (τ2, ms ++ ms2, k + k2)

theorem run_sound {prog : List (BitVec 32)} {m l : Layout} (hl : Within m l) (n : Nat) {τ τ' : Abs} {s : State} (h : Desc prog τ s) {ms : List Micro} {k : Nat}
    (hd : τ.run prog m n = some (τ', ms, k)) :
    Reach l s k { applyAll s ms with pc := τ'.pc } ∧ Desc prog τ' { applyAll s ms with pc := τ'.pc } := by
  induction n generalizing τ s ms k with
  | zero =>
    cases hd
    have : ({ applyAll s [] with pc := τ'.pc } : State) = s := by rw [← h.pc]; rfl
    rw [this]
    exact ⟨.refl _, h⟩
  | succ n ih =>
    unfold Abs.run at hd
    split at hd
    · cases hd
    rename_i τ1 ms1 k1 h1
    split at hd
    · cases hd
    rename_i τ2 ms2 k2 h2
    cases hd
    obtain ⟨r1, d1⟩ := step_sound hl h h1
    obtain ⟨r2, d2⟩ := ih d1 h2
    have : ({ applyAll s (ms1 ++ ms2) with pc := τ'.pc } : State) = { applyAll { applyAll s ms1 with pc := τ1.pc } ms2 with pc := τ'.pc } := by
      rw [applyAll_pc (applyAll s ms1) τ1.pc, applyAll, List.foldl_append]; rfl
    rw [this]
    exact ⟨r1.trans r2, d2⟩

end TinyGarble.Proof.Hdl.A23.Sym
