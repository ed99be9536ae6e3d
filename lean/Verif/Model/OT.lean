import Verif.Model.BN

/-!
# Base oblivious transfer

Models crypto/OT.cpp. Random choices (RSA key, the values drawn by `BN_rand`) are parameters. The
`BN_*` calls other than divisions by zero do not fail (no allocation failures). `m_len` is a
`uint32_t`; the callers' lengths are below 2^32 in all theorems.
-/

namespace TinyGarble

/-- The part of an RSA key that is used: modulus, public and private exponent. -/
structure RsaKey where
  N : Nat
  e : Nat
  d : Nat

/-- The sender's random choices: its key and the pairs `x[i][0]`, `x[i][1]` (OT.cpp:44, 62). -/
structure OTSendCoins where
  key : RsaKey
  x : Nat → Nat → Nat

/-- `BN_mod_exp` for a non-zero modulus; a negative base is first reduced to a non-negative one. -/
def modExp (base : Int) (e N : Nat) : Nat := (base % N).toNat ^ e % N

/-- The value sent for message `j` of transfer `i` after receiving `v` (OT.cpp:77-87). -/
def otMasked (m : Nat → Nat → Nat) (co : OTSendCoins) (i : Nat) (v : Int) (j : Nat) : Nat :=
  modExp (v - co.x i j) co.key.d co.key.N + m i j

/-- Iteration `i` of the last loop of `OTSendBN` (OT.cpp:74-87): receive `v`, send
`m[i][0] + (v - x0)^d mod N` and `m[i][1] + (v - x1)^d mod N`. -/
def otSendStep (m : Nat → Nat → Nat) (co : OTSendCoins) (i : Nat) (_ : Unit) : Proc Unit :=
  recvBN.bind fun v =>
    (sendBN (otMasked m co i v 0)).bind fun _ => sendBN (otMasked m co i v 1)

/-- `OTSendBN` (OT.cpp:29-104). -/
def otSendBN (m : Nat → Nat → Nat) (mLen : Nat) (co : OTSendCoins) : Proc Unit :=
  (sendData (leBytes 4 mLen) 4).bind fun _ =>
  (sendBN co.key.N).bind fun _ =>
  (sendBN co.key.e).bind fun _ =>
  (Proc.forP (fun i _ => (sendBN (co.x i 0)).bind fun _ => sendBN (co.x i 1)) mLen ()).bind fun _ =>
  Proc.forP (otSendStep m co) mLen ()

/-- The value `v` sent for selection bit `b` (OT.cpp:152-154), given `k` (already reduced). -/
def otV (x : Nat → Int) (n e : Nat) (b : Bool) (k : Nat) : Nat :=
  ((x (if b then 1 else 0) + modExp k e n) % n).toNat

/-- Iteration `i` of the last loop of `OTRecvBN` (OT.cpp:167-177). -/
def otRecvStep (sel : Nat) (k : Nat → Nat) (i : Nat) (m : Nat → Int) : Proc (Nat → Int) :=
  recvBN.bind fun m0p => recvBN.bind fun m1p =>
    .ret (upd m i (if sel.testBit i = false then m0p - k i else m1p - k i))

/-- `OTRecvBN` (OT.cpp:105-191); `rk` are the values `_k` drawn by `BN_rand`. A zero modulus makes
`BN_nnmod` fail. -/
def otRecvBN (sel mLen : Nat) (rk : Nat → Nat) (m0 : Nat → Int) : Proc (Nat → Int) :=
  (recvData 4).bind fun l =>
  if leValue l ≠ mLen then .fail
  else
    recvBN.bind fun n => recvBN.bind fun e =>
    (Proc.forP (fun i (x : Nat → Nat → Int) =>
      recvBN.bind fun x0 => recvBN.bind fun x1 =>
        .ret (upd x i (fun j => if j = 0 then x0 else x1))) mLen (fun _ _ => 0)).bind fun x =>
    if n = 0 ∧ mLen ≠ 0 then .fail
    else
      let k := fun i => rk i % n.toNat
      (Proc.forP (fun i (_ : Unit) => sendBN (otV (x i) n.toNat e.toNat (sel.testBit i) (k i))) mLen ()).bind
        fun _ => Proc.forP (otRecvStep sel k) mLen m0

/-- `OTSend` (OT.cpp:193-211). -/
def otSend (m : Nat → Nat → Block) (mLen : Nat) (co : OTSendCoins) : Proc Unit :=
  otSendBN (fun i j => blockToBN (m i j)) mLen co

/-- The selection bits as a big number (OT.cpp:217-222). -/
def selBN (sel : Nat → Bool) (mLen : Nat) : Nat :=
  forLoop (fun i s => if sel i then bnSetBit s i true else s) mLen 0

/-- `OTRecv` (OT.cpp:213-234). -/
def otRecv (sel : Nat → Bool) (mLen : Nat) (rk : Nat → Nat) : Proc (Nat → Block) :=
  (otRecvBN (selBN sel mLen) mLen rk (fun _ => 0)).bind fun m => .ret fun i => bnToBlock (m i).natAbs

end TinyGarble
