import Verif.Model.A23Aes
import Verif.Spec.Aes

/-! The circuit for the substitution box. It is run once on vectors of 256 bits, one for each byte. -/

namespace TinyGarble.A23
open Spec

/-! ### Maps of memories -/

/-- Replace every bit. -/
def Mem.map {α β : Type} (f : α → β) (m : Mem α) : Mem β :=
  let g := List.map (List.map (Option.map f))
  ⟨g m.x, g m.y, g m.t, g m.z, g m.s⟩

/-- `f` commutes with the operators. -/
structure Commutes {α β : Type} (F : Ops α) (G : Ops β) (f : α → β) : Prop where
  xor : ∀ a b, f (F.xor a b) = G.xor (f a) (f b)
  and : ∀ a b, f (F.and a b) = G.and (f a) (f b)
  not : ∀ a, f (F.not a) = G.not (f a)

theorem get_map {α β : Type} (f : α → β) (m : Mem α) (v : Var) : (m.map f).get v = (m.get v).map (List.map (Option.map f)) := by
  cases v <;> rfl

theorem put_map {α β : Type} (f : α → β) (m : Mem α) (v : Var) (a : List (List (Option α))) :
    (m.map f).put v (a.map (List.map (Option.map f))) = (m.put v a).map f := by
  cases v <;> rfl

theorem read_map {α β : Type} (f : α → β) (m : Mem α) (r : Ref) : (m.map f).read r = (m.read r).map f := by
  unfold Mem.read
  rw [get_map, List.getElem?_map]
  cases (m.get r.var)[r.index]? with
  | none => rfl
  | some e =>
    simp only [Option.map_some, Option.bind_eq_bind, Option.bind_some, List.getElem?_map]
    cases e[r.bit]? <;> rfl

theorem store_map {α β : Type} (f : α → β) (l : List α) (i : Nat) (v : α) : store (l.map f) i (f v) = (store l i v).map (List.map f) := by
  unfold store
  rw [List.length_map]
  split
  · rw [Option.map_some, List.map_set]
  · rfl

theorem write_map {α β : Type} (f : α → β) (m : Mem α) (r : Ref) (v : α) : (m.map f).write r (f v) = (m.write r v).map (Mem.map f) := by
  unfold Mem.write
  rw [get_map, List.getElem?_map]
  cases (m.get r.var)[r.index]? with
  | none => rfl
  | some e =>
    simp only [Option.map_some, Option.bind_eq_bind, Option.bind_some]
    have h := store_map (Option.map f) e r.bit (some v)
    rw [Option.map_some] at h
    rw [h]
    cases store e r.bit (some v) with
    | none => rfl
    | some e' =>
      simp only [Option.map_some, Option.bind_some]
      rw [store_map]
      cases store (m.get r.var) r.index e' with
      | none => rfl
      | some a => simp only [Option.map_some, Option.bind_some, put_map]

theorem exec_map {α β : Type} {F : Ops α} {G : Ops β} {f : α → β} (h : Commutes F G f) (i : Ins) (m : Mem α) :
    i.exec G (m.map f) = (i.exec F m).map (Mem.map f) := by
  unfold Ins.exec
  rw [read_map, read_map]
  cases m.read i.a with
  | none => rfl
  | some a =>
    cases m.read i.b with
    | none => rfl
    | some b =>
      simp only [Option.map_some, Option.bind_eq_bind, Option.bind_some]
      rw [← write_map]
      congr 1
      have e : (if i.neg = true then G.not (f a) else f a) = f (if i.neg = true then F.not a else a) := by
        split
        · rw [h.not]
        · rfl
      rw [e]
      cases i.op
      · exact (h.xor _ _).symm
      · exact (h.and _ _).symm

theorem execAll_map {α β : Type} {F : Ops α} {G : Ops β} {f : α → β} (h : Commutes F G f) (is : List Ins) (m : Mem α) :
    execAll G is (m.map f) = (execAll F is m).map (Mem.map f) := by
  induction is generalizing m with
  | nil => rfl
  | cons i is ih =>
    rw [execAll, execAll, exec_map h]
    cases i.exec F m with
    | none => rfl
    | some m' => exact ih m'

theorem startMem_map {α β : Type} (f : α → β) (ny nt nz : Nat) (x : List (Option α)) :
    (startMem ny nt nz x).map f = startMem ny nt nz (x.map (Option.map f)) := by
  simp [startMem, Mem.map, List.map_replicate]

theorem mapM_map {α β : Type} (f : α → β) (l : List (Option α)) : (l.map (Option.map f)).mapM id = (l.mapM id).map (List.map f) := by
  induction l with
  | nil => rfl
  | cons a l ih =>
    rw [List.map_cons, List.mapM_cons, List.mapM_cons, ih]
    cases a with
    | none => rfl
    | some a => cases h : l.mapM id <;> simp

theorem resultBits_map {α β : Type} (f : α → β) (m : Mem α) : resultBits (m.map f) = (resultBits m).map (List.map f) := by
  unfold resultBits
  show ((m.s.map (List.map (Option.map f)))[0]?).bind _ = _
  rw [List.getElem?_map]
  cases m.s[0]? with
  | none => rfl
  | some e => exact mapM_map f e

/-! ### All bytes at once -/

/-- The operators on vectors of 256 bits. -/
def sliceOps : Ops Nat := ⟨Nat.xor, Nat.land, fun a => Nat.xor a (2 ^ 256 - 1)⟩

theorem slice_commutes {b : Nat} (h : b < 256) : Commutes sliceOps boolOps (·.testBit b) :=
  ⟨fun x y => Nat.testBit_xor x y b, fun x y => Nat.testBit_and x y b, fun x => by
    show (x ^^^ (2 ^ 256 - 1)).testBit b = !(x.testBit b)
    rw [Nat.testBit_xor, Nat.testBit_two_pow_sub_one, decide_eq_true h]
    cases x.testBit b <;> rfl⟩

/-- Bit `k` of every byte. -/
def inputSlices : List Nat := [
  0xaaaaaaaaaaaaaaaaaaaaaaaaaaaaaaaaaaaaaaaaaaaaaaaaaaaaaaaaaaaaaaaa,
  0xcccccccccccccccccccccccccccccccccccccccccccccccccccccccccccccccc,
  0xf0f0f0f0f0f0f0f0f0f0f0f0f0f0f0f0f0f0f0f0f0f0f0f0f0f0f0f0f0f0f0f0,
  0xff00ff00ff00ff00ff00ff00ff00ff00ff00ff00ff00ff00ff00ff00ff00ff00,
  0xffff0000ffff0000ffff0000ffff0000ffff0000ffff0000ffff0000ffff0000,
  0xffffffff00000000ffffffff00000000ffffffff00000000ffffffff00000000,
  0xffffffffffffffff0000000000000000ffffffffffffffff0000000000000000,
  0xffffffffffffffffffffffffffffffff00000000000000000000000000000000]

/-- Bit `k` of the value of the substitution box at every byte. -/
def outputSlices : List Nat := [
  0x4f1ead396f247a0410bdb210c006eab568ab4bfa8acb7a13b14ede67096c6eed,
  0xc870974094ead8a96a450b2ef33486b4e61a4c5e97816f7a7bae007d4c53fc7d,
  0xac39b6c0d6ce2efc577d64e03b0c3ffb23a869a2a428c424a16387fb3b48b4c6,
  0x4e9ddb76c892fb1be9da849cf6ac6c1b2568ea2effa8527d109020a2193d586a,
  0xf210a3aece472e532624b286bc48ecb4f7f17a494ce30f58c2b0f97752b8b11e,
  0x54b248130b4f256f7d8dcc4706319e086bc2aa4e0d787aa4f8045f7b6d98dd7f,
  0x21e0b833255917823f6bcb91b30db559e4851b3bf3ab2560980a3cc2c2fdb4ff,
  0x52379de7b844e3e14cb3770196ca0329e7bac28f866aac825caa2ec7bf977090]

theorem slices_run : (execAll sliceOps sboxProgram (startMem 3 9 3 (inputSlices.map some))).bind resultBits = some outputSlices := by
  decide +kernel

theorem input_slices : ∀ b : Fin 256, (inputSlices.map some).map (Option.map (·.testBit b.val)) = bitsOf (BitVec.ofFin b) := by
  decide +kernel

theorem output_slices : ∀ b : Fin 256, ofBits (outputSlices.map (·.testBit b.val)) = Aes.sbox (BitVec.ofFin b) := by
  decide +kernel

/-- With one more element in `t` and in `z`, `getSBoxValue` is the substitution box. -/
theorem getSBoxValue_large (b : Byte) : getSBoxValue 3 9 3 b = some (Aes.sbox b) := by
  have hc := slice_commutes b.toFin.isLt
  have h1 := execAll_map hc sboxProgram (startMem 3 9 3 (inputSlices.map some))
  rw [startMem_map, input_slices] at h1
  obtain ⟨m, hm, hr⟩ := Option.bind_eq_some_iff.mp slices_run
  rw [hm, Option.map_some] at h1
  have h2 := resultBits_map (·.testBit b.toFin.val) m
  rw [hr, Option.map_some] at h2
  unfold getSBoxValue
  simp only [Option.bind_eq_bind]
  have h1' : execAll boolOps sboxProgram (startMem 3 9 3 (bitsOf b)) = some (Mem.map (·.testBit b.toFin.val) m) := h1
  rw [h1', Option.bind_some, h2, Option.bind_some, output_slices]

/-- With the declared sizes every call goes outside of the arrays. -/
theorem getSBoxValue_declared (b : Byte) : getSBoxValue 3 8 2 b = none := by
  have hc : Commutes boolOps (⟨fun _ _ => (), fun _ _ => (), fun _ => ()⟩ : Ops Unit) (fun _ => ()) := ⟨fun _ _ => rfl, fun _ _ => rfl, fun _ => rfl⟩
  have h1 := execAll_map hc sboxProgram (startMem 3 8 2 (bitsOf b))
  rw [startMem_map] at h1
  have h2 : (execAll (⟨fun _ _ => (), fun _ _ => (), fun _ => ()⟩ : Ops Unit) sboxProgram
      (startMem 3 8 2 (List.replicate 8 (some ())))).isNone = true := by decide +kernel
  have h3 : (bitsOf b).map (Option.map fun _ => ()) = List.replicate 8 (some ()) := rfl
  rw [h3] at h1
  rw [Option.isNone_iff_eq_none] at h2
  rw [h2] at h1
  unfold getSBoxValue
  rw [Option.map_eq_none_iff.mp h1.symm]; rfl

theorem tableSBoxValue_eq (b : Byte) : tableSBoxValue b = some (Aes.sbox b) := by
  have : ∀ b : Fin 256, tableSBoxValue (BitVec.ofFin b) = some (Aes.sbox (BitVec.ofFin b)) := by decide +kernel
  exact this b.toFin

end TinyGarble.A23
