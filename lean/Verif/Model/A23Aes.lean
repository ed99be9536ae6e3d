import Verif.Model.A23

/-!
# AES on the ARM core

Models a23/aes/aes.c and a23/sbox/sbox.c. The arrays of `int` are only accessed as bytes; they are lists of bytes here.
-/

namespace TinyGarble.A23

abbrev Byte := BitVec 8

/-! ## The substitution box as a circuit -/

/-- The variables of `getSBoxValue` (aes.c:99-102, sbox.c:26-29): `x` and `s` are single, the others are arrays. -/
inductive Var
  | x | y | t | z | s
deriving DecidableEq

/-- A bit of one of the variables. -/
structure Ref where
  var : Var
  index : Nat
  bit : Nat
deriving DecidableEq

inductive BitOp
  | xor | and
deriving DecidableEq

/-- An assignment `dst = a op b`, or `dst = ~a op b`. -/
structure Ins where
  dst : Ref
  neg : Bool
  a : Ref
  op : BitOp
  b : Ref

/-- The memory: for each variable the elements, each with 8 bits (the union of aes.c:80-92 and sbox.c:7-19). An uninitialised bit is
`none`. The type of the bits is a parameter (`Bool` for the code) so that the same program can be run on vectors of bits. -/
structure Mem (α : Type) where
  x : List (List (Option α))
  y : List (List (Option α))
  t : List (List (Option α))
  z : List (List (Option α))
  s : List (List (Option α))

def Mem.get {α : Type} (m : Mem α) : Var → List (List (Option α))
  | .x => m.x
  | .y => m.y
  | .t => m.t
  | .z => m.z
  | .s => m.s

def Mem.put {α : Type} (m : Mem α) (v : Var) (a : List (List (Option α))) : Mem α :=
  match v with
  | .x => { m with x := a }
  | .y => { m with y := a }
  | .t => { m with t := a }
  | .z => { m with z := a }
  | .s => { m with s := a }

/-- Reading a bit: undefined outside of the array and for an uninitialised bit. -/
def Mem.read {α : Type} (m : Mem α) (r : Ref) : Option α := do
  let e ← (m.get r.var)[r.index]?
  let b ← e[r.bit]?
  b

/-- Writing a bit: undefined outside of the array. -/
def Mem.write {α : Type} (m : Mem α) (r : Ref) (v : α) : Option (Mem α) := do
  let e ← (m.get r.var)[r.index]?
  let e ← store e r.bit (some v)
  let a ← store (m.get r.var) r.index e
  some (m.put r.var a)

/-- The operators `^`, `&`, `~` on bits. -/
structure Ops (α : Type) where
  xor : α → α → α
  and : α → α → α
  not : α → α

/-- The operands are promoted to `int`; only the lowest bit of the result is kept. -/
def boolOps : Ops Bool := ⟨Bool.xor, Bool.and, Bool.not⟩

/-- One assignment. -/
def Ins.exec {α : Type} (F : Ops α) (i : Ins) (m : Mem α) : Option (Mem α) := do
  let a ← m.read i.a
  let b ← m.read i.b
  let a := if i.neg then F.not a else a
  m.write i.dst (match i.op with | .xor => F.xor a b | .and => F.and a b)

def execAll {α : Type} (F : Ops α) : List Ins → Mem α → Option (Mem α)
  | [], m => some m
  | i :: is, m => do
    let m ← i.exec F m
    execAll F is m

section
open Var
local notation "x " b:max => Ref.mk Var.x 0 b
local notation "s " b:max => Ref.mk Var.s 0 b
local notation "y " i:max b:max => Ref.mk Var.y i b
local notation "t " i:max b:max => Ref.mk Var.t i b
local notation "z " i:max b:max => Ref.mk Var.z i b

/-- The assignments of `getSBoxValue` (aes.c:104-222, sbox.c:31-149). -/
def sboxProgram : List Ins := [
  ⟨y 1 6, false, x 4, .xor, x 2⟩, ⟨y 1 5, false, x 7, .xor, x 1⟩, ⟨y 1 1, false, x 7, .xor, x 4⟩,
  ⟨y 1 0, false, x 7, .xor, x 2⟩, ⟨t 0 0, false, x 6, .xor, x 5⟩, ⟨y 0 1, false, t 0 0, .xor, x 0⟩,
  ⟨y 0 4, false, y 0 1, .xor, x 4⟩, ⟨y 1 4, false, y 1 5, .xor, y 1 6⟩, ⟨y 0 2, false, y 0 1, .xor, x 7⟩,
  ⟨y 0 5, false, y 0 1, .xor, x 1⟩, ⟨y 0 3, false, y 0 5, .xor, y 1 0⟩, ⟨t 0 1, false, x 3, .xor, y 1 4⟩,
  ⟨y 1 7, false, t 0 1, .xor, x 2⟩, ⟨y 2 4, false, t 0 1, .xor, x 6⟩, ⟨y 0 6, false, y 1 7, .xor, x 0⟩,
  ⟨y 1 2, false, y 1 7, .xor, t 0 0⟩, ⟨y 1 3, false, y 2 4, .xor, y 1 1⟩, ⟨y 0 7, false, x 0, .xor, y 1 3⟩,
  ⟨y 2 1, false, y 1 2, .xor, y 1 3⟩, ⟨y 2 3, false, y 1 2, .xor, y 1 0⟩, ⟨y 2 0, false, t 0 0, .xor, y 1 3⟩,
  ⟨y 2 5, false, y 1 5, .xor, y 2 0⟩, ⟨y 2 2, false, x 7, .xor, y 2 0⟩, ⟨t 0 2, false, y 1 4, .and, y 1 7⟩,
  ⟨t 0 3, false, y 0 3, .and, y 0 6⟩, ⟨t 0 4, false, t 0 3, .xor, t 0 2⟩, ⟨t 0 5, false, y 0 4, .and, x 0⟩,
  ⟨t 0 6, false, t 0 5, .xor, t 0 2⟩, ⟨t 0 7, false, y 1 5, .and, y 2 0⟩, ⟨t 1 0, false, y 0 5, .and, y 0 1⟩,
  ⟨t 1 1, false, t 1 0, .xor, t 0 7⟩, ⟨t 1 2, false, y 0 2, .and, y 0 7⟩, ⟨t 1 3, false, t 1 2, .xor, t 0 7⟩,
  ⟨t 1 4, false, y 1 1, .and, y 1 3⟩, ⟨t 1 5, false, y 1 6, .and, y 2 1⟩, ⟨t 1 6, false, t 1 5, .xor, t 1 4⟩,
  ⟨t 1 7, false, y 1 0, .and, y 1 2⟩, ⟨t 2 0, false, t 1 7, .xor, t 1 4⟩, ⟨t 2 1, false, t 0 4, .xor, t 1 6⟩,
  ⟨t 2 2, false, t 0 6, .xor, t 2 0⟩, ⟨t 2 3, false, t 1 1, .xor, t 1 6⟩, ⟨t 2 4, false, t 1 3, .xor, t 2 0⟩,
  ⟨t 2 5, false, t 2 1, .xor, y 2 4⟩, ⟨t 2 6, false, t 2 2, .xor, y 2 3⟩, ⟨t 2 7, false, t 2 3, .xor, y 2 5⟩,
  ⟨t 3 0, false, t 2 4, .xor, y 2 2⟩, ⟨t 3 1, false, t 2 5, .xor, t 2 6⟩, ⟨t 3 2, false, t 2 5, .and, t 2 7⟩,
  ⟨t 3 3, false, t 3 0, .xor, t 3 2⟩, ⟨t 3 4, false, t 3 1, .and, t 3 3⟩, ⟨t 3 5, false, t 3 4, .xor, t 2 6⟩,
  ⟨t 3 6, false, t 2 7, .xor, t 3 0⟩, ⟨t 3 7, false, t 2 6, .xor, t 3 2⟩, ⟨t 4 0, false, t 3 7, .and, t 3 6⟩,
  ⟨t 4 1, false, t 4 0, .xor, t 3 0⟩, ⟨t 4 2, false, t 2 7, .xor, t 4 1⟩, ⟨t 4 3, false, t 3 3, .xor, t 4 1⟩,
  ⟨t 4 4, false, t 3 0, .and, t 4 3⟩, ⟨t 4 5, false, t 4 4, .xor, t 4 2⟩, ⟨t 4 6, false, t 3 3, .xor, t 4 4⟩,
  ⟨t 4 7, false, t 3 5, .and, t 4 6⟩, ⟨t 5 0, false, t 3 1, .xor, t 4 7⟩, ⟨t 5 1, false, t 5 0, .xor, t 4 5⟩,
  ⟨t 5 2, false, t 3 5, .xor, t 4 1⟩, ⟨t 5 3, false, t 3 5, .xor, t 5 0⟩, ⟨t 5 4, false, t 4 1, .xor, t 4 5⟩,
  ⟨t 5 5, false, t 5 2, .xor, t 5 1⟩, ⟨z 0 0, false, t 5 4, .and, y 1 7⟩, ⟨z 0 1, false, t 4 5, .and, y 0 6⟩,
  ⟨z 0 2, false, t 4 1, .and, x 0⟩, ⟨z 0 3, false, t 5 3, .and, y 2 0⟩, ⟨z 0 4, false, t 5 0, .and, y 0 1⟩,
  ⟨z 0 5, false, t 3 5, .and, y 0 7⟩, ⟨z 0 6, false, t 5 2, .and, y 1 3⟩, ⟨z 0 7, false, t 5 5, .and, y 2 1⟩,
  ⟨z 1 0, false, t 5 1, .and, y 1 2⟩, ⟨z 1 1, false, t 5 4, .and, y 1 4⟩, ⟨z 1 2, false, t 4 5, .and, y 0 3⟩,
  ⟨z 1 3, false, t 4 1, .and, y 0 4⟩, ⟨z 1 4, false, t 5 3, .and, y 1 5⟩, ⟨z 1 5, false, t 5 0, .and, y 0 5⟩,
  ⟨z 1 6, false, t 3 5, .and, y 0 2⟩, ⟨z 1 7, false, t 5 2, .and, y 1 1⟩, ⟨z 2 0, false, t 5 5, .and, y 1 6⟩,
  ⟨z 2 1, false, t 5 1, .and, y 1 0⟩, ⟨t 5 6, false, z 1 7, .xor, z 2 0⟩, ⟨t 5 7, false, z 1 2, .xor, z 1 3⟩,
  ⟨t 6 0, false, z 0 5, .xor, z 1 5⟩, ⟨t 6 1, false, z 1 1, .xor, z 1 2⟩, ⟨t 6 2, false, z 0 2, .xor, z 1 4⟩,
  ⟨t 6 3, false, z 0 2, .xor, z 0 5⟩, ⟨t 6 4, false, z 0 7, .xor, z 1 0⟩, ⟨t 6 5, false, z 0 0, .xor, z 0 3⟩,
  ⟨t 6 6, false, z 0 6, .xor, z 0 7⟩, ⟨t 6 7, false, z 2 0, .xor, z 2 1⟩, ⟨t 7 0, false, z 1 4, .xor, t 6 0⟩,
  ⟨t 7 1, false, t 6 2, .xor, t 6 5⟩, ⟨t 7 2, false, z 0 4, .xor, t 5 6⟩, ⟨t 7 3, false, z 0 3, .xor, t 6 6⟩,
  ⟨t 7 4, false, t 5 6, .xor, t 7 1⟩, ⟨t 7 5, false, z 1 6, .xor, t 7 1⟩, ⟨t 7 6, false, t 6 4, .xor, t 7 2⟩,
  ⟨t 7 7, false, t 6 1, .xor, t 7 2⟩, ⟨t 8 0, false, z 0 4, .xor, t 7 3⟩, ⟨t 8 1, false, t 7 5, .xor, t 7 6⟩,
  ⟨t 8 2, false, z 0 1, .xor, t 7 7⟩, ⟨s 7, false, t 7 3, .xor, t 7 7⟩, ⟨s 1, true, t 7 0, .xor, t 7 6⟩,
  ⟨s 0, true, t 6 0, .xor, t 7 4⟩, ⟨t 8 3, false, t 8 0, .xor, t 8 1⟩, ⟨s 4, false, t 6 5, .xor, t 8 2⟩,
  ⟨s 3, false, t 6 3, .xor, t 8 2⟩, ⟨s 2, false, t 5 7, .xor, t 8 1⟩, ⟨s 6, true, t 8 0, .xor, s 4⟩,
  ⟨s 5, true, t 6 7, .xor, t 8 3⟩]

end

/-- A byte as 8 bits, bit 0 first (the bit-fields of the union, allocated from the least significant bit). -/
def bitsOf (b : Byte) : List (Option Bool) := (List.range 8).map fun i => some (b.getLsbD i)

/-- The byte with given bits. -/
def ofBits (l : List Bool) : Byte := BitVec.ofNat 8 (l.foldr (fun b n => b.toNat + 2 * n) 0)

/-- The memory at the start: `x` is given, the other variables are not initialised. -/
def startMem {α : Type} (ny nt nz : Nat) (x : List (Option α)) : Mem α :=
  let blank := List.replicate 8 none
  ⟨[x], List.replicate ny blank, List.replicate nt blank, List.replicate nz blank, [blank]⟩

/-- The bits of `s` at the end. -/
def resultBits {α : Type} (m : Mem α) : Option (List α) := do
  let e ← m.s[0]?
  e.mapM id

/-- `getSBoxValue` (aes.c:97-227, sbox.c:24-154) with arrays `y[ny]`, `t[nt]`, `z[nz]`. The sizes in the code are 3, 8 and 2. -/
def getSBoxValue (ny nt nz : Nat) (num : Byte) : Option Byte := do
  let m ← execAll boolOps sboxProgram (startMem ny nt nz (bitsOf num))
  let bits ← resultBits m
  some (ofBits bits)

/-- `gc_main` (sbox.c:157-169) for a given `getSBoxValue`. -/
def sboxMain (sub : Byte → Option Byte) (g e o0 : List Word) : Option (List Word) := do
  let x ← g[0]?
  let y ← e[0]?
  let v ← sub (x.setWidth 8 ^^^ y.setWidth 8)
  store o0 0 (v.setWidth 32)

/-! ## The cipher -/

/-- `sbox` (aes.c:48-65). -/
def sboxTable : List Byte := [
  0x63, 0x7c, 0x77, 0x7b, 0xf2, 0x6b, 0x6f, 0xc5, 0x30, 0x01, 0x67, 0x2b, 0xfe, 0xd7, 0xab, 0x76,
  0xca, 0x82, 0xc9, 0x7d, 0xfa, 0x59, 0x47, 0xf0, 0xad, 0xd4, 0xa2, 0xaf, 0x9c, 0xa4, 0x72, 0xc0,
  0xb7, 0xfd, 0x93, 0x26, 0x36, 0x3f, 0xf7, 0xcc, 0x34, 0xa5, 0xe5, 0xf1, 0x71, 0xd8, 0x31, 0x15,
  0x04, 0xc7, 0x23, 0xc3, 0x18, 0x96, 0x05, 0x9a, 0x07, 0x12, 0x80, 0xe2, 0xeb, 0x27, 0xb2, 0x75,
  0x09, 0x83, 0x2c, 0x1a, 0x1b, 0x6e, 0x5a, 0xa0, 0x52, 0x3b, 0xd6, 0xb3, 0x29, 0xe3, 0x2f, 0x84,
  0x53, 0xd1, 0x00, 0xed, 0x20, 0xfc, 0xb1, 0x5b, 0x6a, 0xcb, 0xbe, 0x39, 0x4a, 0x4c, 0x58, 0xcf,
  0xd0, 0xef, 0xaa, 0xfb, 0x43, 0x4d, 0x33, 0x85, 0x45, 0xf9, 0x02, 0x7f, 0x50, 0x3c, 0x9f, 0xa8,
  0x51, 0xa3, 0x40, 0x8f, 0x92, 0x9d, 0x38, 0xf5, 0xbc, 0xb6, 0xda, 0x21, 0x10, 0xff, 0xf3, 0xd2,
  0xcd, 0x0c, 0x13, 0xec, 0x5f, 0x97, 0x44, 0x17, 0xc4, 0xa7, 0x7e, 0x3d, 0x64, 0x5d, 0x19, 0x73,
  0x60, 0x81, 0x4f, 0xdc, 0x22, 0x2a, 0x90, 0x88, 0x46, 0xee, 0xb8, 0x14, 0xde, 0x5e, 0x0b, 0xdb,
  0xe0, 0x32, 0x3a, 0x0a, 0x49, 0x06, 0x24, 0x5c, 0xc2, 0xd3, 0xac, 0x62, 0x91, 0x95, 0xe4, 0x79,
  0xe7, 0xc8, 0x37, 0x6d, 0x8d, 0xd5, 0x4e, 0xa9, 0x6c, 0x56, 0xf4, 0xea, 0x65, 0x7a, 0xae, 0x08,
  0xba, 0x78, 0x25, 0x2e, 0x1c, 0xa6, 0xb4, 0xc6, 0xe8, 0xdd, 0x74, 0x1f, 0x4b, 0xbd, 0x8b, 0x8a,
  0x70, 0x3e, 0xb5, 0x66, 0x48, 0x03, 0xf6, 0x0e, 0x61, 0x35, 0x57, 0xb9, 0x86, 0xc1, 0x1d, 0x9e,
  0xe1, 0xf8, 0x98, 0x11, 0x69, 0xd9, 0x8e, 0x94, 0x9b, 0x1e, 0x87, 0xe9, 0xce, 0x55, 0x28, 0xdf,
  0x8c, 0xa1, 0x89, 0x0d, 0xbf, 0xe6, 0x42, 0x68, 0x41, 0x99, 0x2d, 0x0f, 0xb0, 0x54, 0xbb, 0x16]

/-- `getSBoxValue` if `COMPUTESBOX` is 0 (aes.c:229-232). -/
def tableSBoxValue (num : Byte) : Option Byte := sboxTable[num.toNat]?

/-- `Rcon` (aes.c:70-71). -/
def Rcon : List Byte := [0x8d, 0x01, 0x02, 0x04, 0x08, 0x10, 0x20, 0x40, 0x80, 0x1b, 0x36]

/-- Body of the second loop of `KeyExpansion` (aes.c:253-297); `tempa` is given by its four bytes. The branch for `Nk > 6` is not
compiled. -/
def keyStep (sub : Byte → Option Byte) (i : Nat) (rk : List Byte) : Option (List Byte) := do
  let t0 ← rk[(i - 1) * 4 + 0]?
  let t1 ← rk[(i - 1) * 4 + 1]?
  let t2 ← rk[(i - 1) * 4 + 2]?
  let t3 ← rk[(i - 1) * 4 + 3]?
  let (t0, t1, t2, t3) ← (if i % 4 = 0 then do
      let (t0, t1, t2, t3) := (t1, t2, t3, t0)
      let t0 ← sub t0
      let t1 ← sub t1
      let t2 ← sub t2
      let t3 ← sub t3
      let c ← Rcon[i / 4]?
      some (t0 ^^^ c, t1, t2, t3)
    else some (t0, t1, t2, t3))
  let k ← rk[(i - 4) * 4 + 0]?
  let rk ← store rk (i * 4 + 0) (k ^^^ t0)
  let k ← rk[(i - 4) * 4 + 1]?
  let rk ← store rk (i * 4 + 1) (k ^^^ t1)
  let k ← rk[(i - 4) * 4 + 2]?
  let rk ← store rk (i * 4 + 2) (k ^^^ t2)
  let k ← rk[(i - 4) * 4 + 3]?
  store rk (i * 4 + 3) (k ^^^ t3)

/-- `KeyExpansion` (aes.c:236-299). `RoundKey` is a global array, zero at the start. -/
def keyExpansion (sub : Byte → Option Byte) (key : List Byte) : Option (List Byte) := do
  let rk ← loop (fun i rk => do
    let k ← key[i * 4 + 0]?
    let rk ← store rk (i * 4 + 0) k
    let k ← key[i * 4 + 1]?
    let rk ← store rk (i * 4 + 1) k
    let k ← key[i * 4 + 2]?
    let rk ← store rk (i * 4 + 2) k
    let k ← key[i * 4 + 3]?
    store rk (i * 4 + 3) k) 4 (List.replicate 176 0)
  loop (fun t rk => keyStep sub (4 + t) rk) 40 rk

/-- `AddRoundKey` (aes.c:303-313). `(*state)[i][j]` is byte `4 i + j`. -/
def addRoundKey (rk : List Byte) (round : Nat) (st : List Byte) : Option (List Byte) :=
  loop (fun i st => loop (fun j st => do
    let x ← st[i * 4 + j]?
    let k ← rk[round * 4 * 4 + i * 4 + j]?
    store st (i * 4 + j) (x ^^^ k)) 4 st) 4 st

/-- `SubBytes` (aes.c:317-327). -/
def subBytes (sub : Byte → Option Byte) (st : List Byte) : Option (List Byte) :=
  loop (fun i st => loop (fun j st => do
    let x ← st[j * 4 + i]?
    let v ← sub x
    store st (j * 4 + i) v) 4 st) 4 st

/-- `a[d] = a[s]`. -/
def move (st : List Byte) (d s : Nat) : Option (List Byte) := do
  let v ← st[s]?
  store st d v

/-- `ShiftRows` (aes.c:332-358). -/
def shiftRows (st : List Byte) : Option (List Byte) := do
  let temp ← st[0 * 4 + 1]?
  let st ← move st (0 * 4 + 1) (1 * 4 + 1)
  let st ← move st (1 * 4 + 1) (2 * 4 + 1)
  let st ← move st (2 * 4 + 1) (3 * 4 + 1)
  let st ← store st (3 * 4 + 1) temp
  let temp ← st[0 * 4 + 2]?
  let st ← move st (0 * 4 + 2) (2 * 4 + 2)
  let st ← store st (2 * 4 + 2) temp
  let temp ← st[1 * 4 + 2]?
  let st ← move st (1 * 4 + 2) (3 * 4 + 2)
  let st ← store st (3 * 4 + 2) temp
  let temp ← st[0 * 4 + 3]?
  let st ← move st (0 * 4 + 3) (3 * 4 + 3)
  let st ← move st (3 * 4 + 3) (2 * 4 + 3)
  let st ← move st (2 * 4 + 3) (1 * 4 + 3)
  store st (1 * 4 + 3) temp

/-- `xtime` (aes.c:360-363). -/
def xtime (x : Byte) : Byte := (x <<< 1) ^^^ (((x >>> 7) &&& 1) * 0x1b)

/-- `Tm = a ^ b; Tm = xtime(Tm); (*state)[i][j] ^= Tm ^ Tmp` (aes.c:374-377). -/
def mixStep (st : List Byte) (p : Nat) (a b tmp : Byte) : Option (List Byte) := do
  let x ← st[p]?
  store st p (x ^^^ (xtime (a ^^^ b) ^^^ tmp))

/-- `MixColumns` (aes.c:366-379). -/
def mixColumns (st : List Byte) : Option (List Byte) :=
  loop (fun i st => do
    let t ← st[i * 4 + 0]?
    let a1 ← st[i * 4 + 1]?
    let a2 ← st[i * 4 + 2]?
    let a3 ← st[i * 4 + 3]?
    let tmp := t ^^^ a1 ^^^ a2 ^^^ a3
    let st ← mixStep st (i * 4 + 0) t a1 tmp
    let a1 ← st[i * 4 + 1]?
    let a2 ← st[i * 4 + 2]?
    let st ← mixStep st (i * 4 + 1) a1 a2 tmp
    let a2 ← st[i * 4 + 2]?
    let a3 ← st[i * 4 + 3]?
    let st ← mixStep st (i * 4 + 2) a2 a3 tmp
    let a3 ← st[i * 4 + 3]?
    mixStep st (i * 4 + 3) a3 t tmp) 4 st

/-- `Cipher` (aes.c:382-405). -/
def cipher (sub : Byte → Option Byte) (rk st : List Byte) : Option (List Byte) := do
  let st ← addRoundKey rk 0 st
  let st ← loop (fun r st => do
    let st ← subBytes sub st
    let st ← shiftRows st
    let st ← mixColumns st
    addRoundKey rk (1 + r) st) 9 st
  let st ← subBytes sub st
  let st ← shiftRows st
  addRoundKey rk 10 st

/-- `BlockCopy` (aes.c:407-414). -/
def blockCopy (output input : List Byte) : Option (List Byte) :=
  loop (fun i o => do
    let x ← input[i]?
    store o i x) 16 output

/-- `AES128_ECB_encrypt` and `gc_main` (aes.c:416-435) for a given `getSBoxValue`: `g` is the key, `e` the message. -/
def aesMain (sub : Byte → Option Byte) (g e o0 : List Byte) : Option (List Byte) := do
  let st ← blockCopy o0 e
  let rk ← keyExpansion sub g
  cipher sub rk st

end TinyGarble.A23
