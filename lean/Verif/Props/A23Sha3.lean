import Verif.Proof.A23Sponge

/-!
# C63: sha3.c for the ARM core
-/

namespace TinyGarble.Props
open TinyGarble Spec A23

/-- C63. sha3.c computes SHA3-256 of the garbler's bytes followed by the evaluator's bytes, for all inputs of less than 136 bytes in total
(the code has 8 and 8). Longer messages are not meant to be hashed: `C63_block_undefined`, `C63_garbler_ignored`. -/
theorem C63_sha3_sizes {g e o0 : List Byte} (h : g.length + e.length < 136) (ho : o0.length = 32) :
    ∃ o, sha3Main g.length e.length g e o0 = some o ∧ o.length = 32
      ∧ Sha3.bits o = (List.range 256).map (Sha3.sha3_256 (Sha3.bits (g ++ e))) :=
  sha3Main_eq h ho

/-- C63. For the sizes of the code (two words for each party). -/
theorem C63_sha3 {g e o0 : List Byte} (hg : g.length = 8) (he : e.length = 8) (ho : o0.length = 32) :
    ∃ o, sha3Main 8 8 g e o0 = some o ∧ o.length = 32 ∧ Sha3.bits o = (List.range 256).map (Sha3.sha3_256 (Sha3.bits (g ++ e))) := by
  have h := C63_sha3_sizes (g := g) (e := e) (o0 := o0) (by omega) ho
  rwa [hg, he] at h

/-- C63. With exactly 136 bytes the padding is written outside of the buffer. -/
theorem C63_block_undefined {gs es : Nat} (h : gs + es = 136) (g e o0 : List Byte) : sha3Main gs es g e o0 = none := sha3Main_block h g e o0

/-- C63. With 1 and 136 bytes the garbler's byte has no influence on the result. -/
theorem C63_garbler_ignored (x y : Byte) {e o0 : List Byte} (he : e.length = 136) : sha3Main 1 136 [x] e o0 = sha3Main 1 136 [y] e o0 :=
  sha3Main_overwritten x y he

/-- SHA3-256 of "abc". -/
example : sha3Main 1 2 [0x61] [0x62, 0x63] (List.replicate 32 9) = some [
    0x3a, 0x98, 0x5d, 0xa7, 0x4f, 0xe2, 0x25, 0xb2, 0x04, 0x5c, 0x17, 0x2d, 0x6b, 0xd3, 0x90, 0xbd,
    0x85, 0x5f, 0x08, 0x6e, 0x3e, 0x9d, 0x52, 0x5b, 0x46, 0xbf, 0xe2, 0x45, 0x11, 0x43, 0x15, 0x32] := by decide +kernel

end TinyGarble.Props
