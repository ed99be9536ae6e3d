import Verif.Model.Hdl.Seq

/-!
# Modular multiplication and exponentiation

Models circuit_synthesis/rsa: modmult.v and modexp_2N_NN.v. modexp_1_N.v is not modelled: its output `o` has no driver (line 42 assigns
to `c`, which is not declared).
-/

namespace TinyGarble.Hdl.Rsa

/-- `modmult_step` (modmult.v:119-296). -/
def modmultStep {N : Nat} (x : Bool) (y n : BitVec N) (zin : BitVec (N + 2)) : BitVec (N + 2) :=
  let yExt : BitVec (N + 2) := y.setWidth (N + 2)
  let nExt : BitVec (N + 2) := n.setWidth (N + 2)
  let z1 : BitVec (N + 2) := (zin.extractLsb' 0 (N + 1) ++ 0#1).setWidth (N + 2)
  let w1 := MUX yExt 0 x
  let z2 := (ADD z1 w1 false).1
  let c1 := COMP z2 nExt
  let w2 := MUX nExt 0 c1
  let z3 := (SUB z2 w2).1
  let c2 := COMP nExt z3
  let c2p := !c2
  let w3 := MUX nExt 0 c2p
  (SUB z3 w3).1

/-- `zout[N/CC-1]` (modmult.v:60-93). -/
def modmultSteps {N : Nat} (CC : Nat) (xin : BitVec N) (zin : BitVec (N + 2)) (y n : BitVec N) : BitVec (N + 2) :=
  (List.range (N / CC)).foldl (fun z g => modmultStep (xin.getLsbD (N - 1 - g)) y n z) zin

/-- The registers of modmult.v for `CC > 1`. -/
structure MulRegs (N : Nat) where
  zreg : BitVec (N + 2)
  xreg : BitVec N

/-- modmult.v:1-117, one cycle: new registers and `o`. For `CC = 1` the registers are wires (modmult.v:111-115). -/
def modmult {N : Nat} (CC : Nat) (s : MulRegs N) (start : Bool) (x y n : BitVec N) : MulRegs N × BitVec N :=
  if CC > 1 then
    let zout := modmultSteps CC s.xreg s.zreg y n
    let next : MulRegs N := if start then ⟨0, x⟩ else
      ⟨zout, (s.xreg.extractLsb' 0 (N - N / CC) ++ 0#(N / CC)).setWidth N⟩
    (next, zout.setWidth N)
  else (s, (modmultSteps CC x 0 y n).setWidth N)

/-- The registers of modexp_2N_NN.v; `R = CC / (2 N)`. -/
structure ExpRegs (N R : Nat) where
  firstOne : Bool
  mulPow : Bool
  startReg : BitVec R
  ereg : BitVec N
  creg : BitVec N
  mreg : BitVec N
  nreg : BitVec N
  mul : MulRegs N

/-- modexp_2N_NN.v:46-151, one cycle. -/
def modexpStep {N R : Nat} (s : ExpRegs N R) (_ : Unit) : ExpRegs N R × BitVec N :=
  let y := MUX s.mreg s.creg s.mulPow
  let mm := modmult R s.mul (s.startReg.getLsbD 0) s.creg y s.nreg
  let top := s.startReg.getLsbD (R - 1)
  let shift : BitVec R := if R > 1 then (s.startReg.extractLsb' 0 (R - 1) ++ BitVec.ofBool top).setWidth R else (BitVec.ofBool top).setWidth R
  let ebit := s.ereg.getLsbD (N - 1)
  let cregNext := MUX mm.2 s.creg ((s.firstOne && ebit && s.mulPow) || (s.firstOne && !s.mulPow))
  let eregNext := MUX ((s.ereg.extractLsb' 0 (N - 1) ++ 0#1).setWidth N) s.ereg s.mulPow
  ({ firstOne := s.firstOne || (top && ebit && s.mulPow)
     mulPow := if top then !s.mulPow else s.mulPow
     startReg := shift
     ereg := eregNext
     creg := cregNext
     mreg := s.mreg
     nreg := s.nreg
     mul := mm.1 }, cregNext)

/-- modexp_2N_NN.v:1-153: the outputs of the `CC` cycles. -/
def modexp (N CC : Nat) (m e n : BitVec N) : List (BitVec N) :=
  runSeq modexpStep (⟨false, false, (1#1).setWidth (CC / (2 * N)), e, m, m, n, ⟨0, 0⟩⟩ : ExpRegs N (CC / (2 * N))) (List.replicate CC ())

end TinyGarble.Hdl.Rsa
