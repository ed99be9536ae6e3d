import Verif.Model.OT

/-!
# Extended oblivious transfer

Models crypto/OT_extension.cpp:50-285. The digest `EVP_*` is a parameter `H`, random choices are
parameters.
-/

namespace TinyGarble

/-- `SEC_K_BIT` (OT_extension.cpp:32). -/
def secKBit : Nat := 128

/-- The bytes `HashBN` feeds to the digest (OT_extension.cpp:63-79): the tweak, then the magnitude of
`v` highest byte first followed by zero bytes up to 16, or its last 16 bytes when it is longer. -/
def hashInput (tweak v : Nat) : List Byte :=
  let vArr := bnBytes v
  let vWords := numBytes v
  leBytes 4 tweak ++
    (if (vWords : Int) - (secKBit / 8 : Nat) ≤ 0 then vArr ++ List.replicate (secKBit / 8 - vWords) 0
     else (vArr.drop (vWords - secKBit / 8)).take (secKBit / 8))

/-- `HashBN` (OT_extension.cpp:50-88) for `bits ≤ 256`: the first `bits / 8` bytes of the digest as a
number, highest byte first. -/
def hashBN (H : List Byte → List Byte) (bits tweak v : Nat) : Nat :=
  beValue ((H (hashInput tweak v)).take (bits / 8))

/-- The sender's random choices: `S` and those of its part in the base transfer. -/
structure ExtSendCoins where
  S : Nat
  rk : Nat → Nat

/-- The receiver's random choices: `T[i][0]` and those of its part in the base transfer. -/
structure ExtRecvCoins where
  T : Nat → Nat
  base : OTSendCoins

/-- Iteration `i` of the loop of `OTExtSendBN` (OT_extension.cpp:154-163); the state holds the big
numbers `QS`, `y0`, `y1`, which are reused. -/
def otExtSendStep (H : List Byte → List Byte) (m : Nat → Nat → Nat) (bits S : Nat) (Q : Nat → Nat) (i : Nat)
    (st : Nat × Nat × Nat) : Proc (Nat × Nat × Nat) :=
  let h0 := hashBN H bits i (Q i)
  let QS := bnXor st.1 secKBit (Q i) S
  let h1 := hashBN H bits i QS
  let y0 := bnXor st.2.1 bits h0 (m i 0)
  let y1 := bnXor st.2.2 bits h1 (m i 1)
  (sendBN y0).bind fun _ => (sendBN y1).bind fun _ => .ret (QS, y0, y1)

/-- `OTExtSendBN` (OT_extension.cpp:131-180). -/
def otExtSendBN (H : List Byte → List Byte) (m : Nat → Nat → Nat) (bits mLen : Nat) (co : ExtSendCoins) : Proc Unit :=
  (otRecvBN co.S secKBit co.rk (fun _ => 0)).bind fun Q =>
    match switchRowColumn (fun i => (Q i).natAbs) secKBit mLen with
    | none => .fail
    | some Qr => (Proc.forP (otExtSendStep H m bits co.S Qr) mLen (0, 0, 0)).bind fun _ => .ret ()

/-- `T[i][j]` (OT_extension.cpp:185-199). -/
def extT (sel : Nat) (T : Nat → Nat) (i j : Nat) : Nat :=
  if j = 0 then T i else if sel.testBit i then bnInvert (T i) secKBit else T i

/-- Iteration `i` of the loop of `OTExtRecvBN` (OT_extension.cpp:209-221). -/
def otExtRecvStep (H : List Byte → List Byte) (sel bits : Nat) (T : Nat → Nat) (i : Nat) (m : Nat → Nat) :
    Proc (Nat → Nat) :=
  recvBN.bind fun y0 => recvBN.bind fun y1 =>
    let h := hashBN H bits i (T i)
    .ret (upd m i (if sel.testBit i = false then bnXor 0 bits y0.natAbs h else bnXor 0 bits y1.natAbs h))

/-- `OTExtRecvBN` (OT_extension.cpp:181-243). -/
def otExtRecvBN (H : List Byte → List Byte) (sel bits mLen : Nat) (co : ExtRecvCoins) : Proc (Nat → Nat) :=
  match switchRowColumnPair (extT sel co.T) mLen secKBit with
  | none => .fail
  | some Tr => (otSendBN Tr secKBit co.base).bind fun _ =>
      Proc.forP (otExtRecvStep H sel bits co.T) mLen (fun _ => 0)

/-- `OTExtSend` (OT_extension.cpp:245-263). -/
def otExtSend (H : List Byte → List Byte) (m : Nat → Nat → Block) (mLen : Nat) (co : ExtSendCoins) : Proc Unit :=
  otExtSendBN H (fun i j => blockToBN (m i j)) 128 mLen co

/-- `OTExtRecv` (OT_extension.cpp:265-287). -/
def otExtRecv (H : List Byte → List Byte) (sel : Nat → Bool) (mLen : Nat) (co : ExtRecvCoins) : Proc (Nat → Block) :=
  (otExtRecvBN H (selBN sel mLen) 128 mLen co).bind fun m => .ret fun i => bnToBlock (m i)

end TinyGarble
