import Verif.Model.Hdl.Seq

/-!
# Stable matching

Models circuit_synthesis/stable_match/stable_match_seq.v, encoder.v and stable_match.v. In stable_match_seq.v the registers `s`, `matchListMatrix` and `pc` hold numbers that fit
into their widths (`s < S`, `pc ≤ Ks`), so they are natural numbers here. `sInMatch` and `sIndex` are never read and left out.
-/

namespace TinyGarble.Hdl

/-- An assignment to one element of an array. -/
def upd {α : Type} (f : Nat → α) (k : Nat) (v : α) : Nat → α := fun i => if i = k then v else f i

/-- `wireOR1` (stable_match_seq.v:124-130) and `encoderOR1` (stable_match_seq.v:155-161): whether one of the first bits is set. -/
def anyUpTo (x : Nat → Bool) : Nat → Bool
  | 0 => x 0
  | i + 1 => x (i + 1) || anyUpTo x i

/-- `wireAND1` (stable_match_seq.v:124-130) and `encoderInput` (stable_match_seq.v:155-161): the first bit that is set. -/
def firstOne (x : Nat → Bool) : Nat → Bool
  | 0 => anyUpTo x 0
  | i + 1 => !anyUpTo x i && x (i + 1)

/-- `better` (stable_match_seq.v:118-137); `pref` is the row `rPrefMatrix [r]`. -/
def smBetter (Kr : Nat) (pref : Nat → Nat) (s1 s2 : Nat) : Bool :=
  let s1Compare i := s1 == pref i
  let s2Compare i := s2 == pref i
  (List.range Kr).any fun i => firstOne (fun i => s1Compare i ^^ s2Compare i) i && s2Compare i

/-- `encoderOutput` (stable_match_seq.v:165-169, stable_match/encoder.v, which is the same as `encoder_` for `logS > 0`). -/
def smEncode (S : Nat) (x : Nat → Bool) : Nat := (ofBits (clog2 S) (encoder_ (clog2 S - 1) x)).toNat

/-- The registers (stable_match_seq.v:83-90). -/
structure SmRegs where
  pc : Nat → Nat
  sIsMatch : Nat → Bool
  sIsRunning : Nat → Bool
  rIsMatch : Nat → Bool
  s : Nat
  matchList : Nat → Nat

/-- stable_match_seq.v:176-187. `sIsRunning<=1` sets bit 0. -/
def smReset (Ks : Nat) : SmRegs :=
  ⟨fun _ => Ks, fun _ => false, fun k => k = 0, fun _ => false, 0, fun _ => 0⟩

/-- stable_match_seq.v:137-169 and 188-213, one cycle; `P` and `Q` are the matrices of the preferences of the reviewers and suitors.
`none`: an entry of a suitor's list is not the number of a reviewer, so that `rIsMatch[r]` is undefined. -/
def smNext (S R Ks Kr : Nat) (P Q : Nat → Nat → Nat) (st : SmRegs) : Option SmRegs :=
  let pcS := st.pc st.s
  let propose := pcS != 0 && !st.sIsMatch st.s
  let r := Q st.s (Ks - pcS)
  let s1 := st.matchList r
  let better := smBetter Kr (P r) s1 st.s
  let canPropose i := decide (i < S) && st.pc i != 0 && !st.sIsMatch i && !st.sIsRunning i
  let encoderInput := firstOne canPropose
  let encoderOutput := smEncode S encoderInput
  let running := upd st.sIsRunning st.s false
  let next := encoderInput encoderOutput
  if propose && decide (R ≤ r) then none
  else some {
    pc := if propose then upd st.pc st.s (pcS - 1) else st.pc
    sIsMatch :=
      if propose then
        if st.rIsMatch r = false then upd st.sIsMatch st.s true
        else if better then upd (upd st.sIsMatch st.s true) s1 false
        else st.sIsMatch
      else st.sIsMatch
    rIsMatch := if propose then (if st.rIsMatch r = false then upd st.rIsMatch r true else st.rIsMatch) else st.rIsMatch
    matchList :=
      if propose then
        if st.rIsMatch r = false then upd st.matchList r st.s
        else if better then upd st.matchList r st.s
        else st.matchList
      else st.matchList
    sIsRunning := if next then upd running encoderOutput true else running
    s := if next then encoderOutput else st.s }

/-- The registers after `t` cycles. -/
def smRun (S R Ks Kr : Nat) (P Q : Nat → Nat → Nat) : Nat → Option SmRegs
  | 0 => some (smReset Ks)
  | t + 1 => (smRun S R Ks Kr P Q t).bind (smNext S R Ks Kr P Q)

/-- The outputs (stable_match_seq.v:63-65). -/
structure SmOut (S R : Nat) where
  matchList : BitVec (R * clog2 S)
  finish : Bool
  sIsMatch : BitVec S

/-- `rPrefMatrix`, `sPrefMatrix` (stable_match_seq.v:96-110): entry `j` of row `i`, with `K` entries of `w` bits in a row. -/
def smMatrix {n : Nat} (K w : Nat) (x : BitVec n) (i j : Nat) : Nat := (x.extractLsb' (w * K * i + w * j) w).toNat

/-- stable_match_seq.v:22-225: the outputs in cycle `t` (the first one is 0). `finish` is computed in 217-222; `matchList` in 112-116. -/
def stableMatchSeq (S R Ks Kr : Nat) (rPref : BitVec (R * Kr * clog2 S)) (sPref : BitVec (S * Ks * clog2 R)) (t : Nat) : Option (SmOut S R) :=
  (smRun S R Ks Kr (smMatrix Kr (clog2 S) rPref) (smMatrix Ks (clog2 R) sPref) t).map fun st =>
    { matchList := ofEntries R (clog2 S) fun r => BitVec.ofNat _ (st.matchList r)
      finish := (List.range S).foldl (fun finishAND k => finishAND && st.pc k == 0) false
      sIsMatch := ofBits S st.sIsMatch }

/-! ## stable_match.v

For `M = 2 ^ a` men and `W = 2 ^ b` women, so that every address is that of an element. -/

/-- The registers of stable_match.v: `mIndex`, `wIndex`, `state`, `m`, `w` (303-307), and those of the modules `PC` (560), `MIsMatch` (625),
`WIsMatch` (681) and `MatchListMatrix` (738). -/
structure MwRegs (a b Km : Nat) where
  mIndex : BitVec a
  wIndex : BitVec b
  state : Nat
  m : BitVec a
  w : BitVec b
  pc : Nat → BitVec (clog2 Km + 1)
  mIsMatch : Nat → Bool
  wIsMatch : Nat → Bool
  matchList : Nat → BitVec a

/-- The reset (stable_match.v:405-411, 564-568, 629-633, 685-689, 742-746). -/
def mwReset (a b Km : Nat) : MwRegs a b Km :=
  ⟨0, 0, 0, 0, 0, fun _ => BitVec.ofNat _ Km, fun _ => false, fun _ => false, fun _ => BitVec.ofNat _ Km⟩

/-- One cycle of stable_match.v. The inputs are `mPref` (the row of man `mIndex`) and `wPref_rev` (the row of woman `wIndex`), which are the
exclusive or of the inputs of the parties (83-86). The states are 0 select a man, 3 wait for the woman, 4 propose (296-299). The
output is `matchList` (87, 754-759). In `wIndex + 1 == w` the number 1 has 32 bits, so the sum does not wrap. -/
def mwStep (a b Km Kw : Nat) (st : MwRegs a b Km) (i : BitVec (Km * b) × BitVec (2 ^ a * clog2 Kw)) :
    MwRegs a b Km × BitVec (2 ^ b * a) :=
  -- MPrefMatrix (426-470), WPref_rev_Matrix (473-521)
  let mPrefMatrix j : BitVec b := entry b i.1 j
  let wPrefRev (j : BitVec a) : BitVec (clog2 Kw) := (entry a i.2 j.toNat).setWidth _
  -- 339-375
  let mAssigned := st.matchList st.w.toNat
  let better := decide ((wPrefRev st.m).toNat < (wPrefRev mAssigned).toNat)
  let pcM := st.pc st.mIndex.toNat
  let canPropose := pcM != 0 && !st.mIsMatch st.mIndex.toNat
  let raddr := (BitVec.ofNat (clog2 Km) (Km + 2 ^ (clog2 Km + 1) - pcM.toNat))
  let wIsMatch := st.wIsMatch st.w.toNat
  let proposal := st.state == 4
  let accept := proposal && (wIsMatch == false || (wIsMatch != false && better))
  let wen2 := proposal && (wIsMatch != false && better)
  -- 378-422
  let nState := match st.state with
    | 0 => if canPropose then 3 else 0
    | 3 => if st.wIndex.toNat + 1 == st.w.toNat then 4 else 3
    | 4 => 0
    | _ => 0
  ({ mIndex := st.mIndex + 1
     wIndex := st.wIndex + 1
     state := nState
     m := if st.state == 0 then st.mIndex else st.m
     w := if st.state == 0 then mPrefMatrix raddr.toNat else st.w
     pc := if st.state == 0 && canPropose then upd st.pc st.mIndex.toNat (pcM - 1) else st.pc
     mIsMatch := if accept then upd st.mIsMatch st.m.toNat true else if wen2 then upd st.mIsMatch mAssigned.toNat false else st.mIsMatch
     wIsMatch := if proposal && wIsMatch then upd st.wIsMatch st.w.toNat true else st.wIsMatch
     matchList := if accept then upd st.matchList st.w.toNat st.m else st.matchList },
   ofEntries (2 ^ b) a st.matchList)

/-- stable_match.v:3-236. -/
def stableMatch (a b Km Kw : Nat) (i : List (BitVec (Km * b) × BitVec (2 ^ a * clog2 Kw))) : List (BitVec (2 ^ b * a)) :=
  runSeq (mwStep a b Km Kw) (mwReset a b Km) i

end TinyGarble.Hdl
