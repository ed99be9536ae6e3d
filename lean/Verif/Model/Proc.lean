import Verif.Model.Circuit

/-!
# Communicating processes

Each party is a sequential program connected to the other by one TCP stream in each direction.
`Proc α` is such a program: it sends bytes, receives bytes, and finally returns a value or fails
(a `CHECK` macro returned `FAILURE`). `SendData`/`RecvData` are modelled on sockets in
`Verif.Model.Net`; here a transfer of `n` bytes is `n` transfers of one byte, so that every
fragmentation and every interleaving with the other party is an execution (`Verif.Spec.Schedule`).
-/

namespace TinyGarble

abbrev Byte := BitVec 8

/-- A program that communicates over one socket. -/
inductive Proc (α : Type) where
  /-- returns SUCCESS with a result -/
  | ret (a : α)
  /-- returns FAILURE -/
  | fail
  /-- undefined behaviour: memory outside of an array is read or written -/
  | undef
  /-- writes one byte -/
  | send (b : Byte) (k : Proc α)
  /-- reads one byte -/
  | recv (k : Byte → Proc α)

namespace Proc
variable {α β σ : Type}

/-- Sequential composition; a failure ends the whole program (`CHECK`, util/log.h:72). -/
def bind : Proc α → (α → Proc β) → Proc β
  | ret a, f => f a
  | fail, _ => fail
  | undef, _ => undef
  | send b k, f => send b (k.bind f)
  | recv k, f => recv fun b => (k b).bind f

instance : Monad Proc where
  pure := ret
  bind := bind

/-- `for (i = 0; i < n; i++)` with a communicating body and a state. -/
def forP (f : Nat → σ → Proc σ) : Nat → σ → Proc σ
  | 0, s => ret s
  | n + 1, s => (forP f n s).bind (f n)

/-- Write the bytes in order. -/
def sendBytes : List Byte → Proc Unit
  | [] => ret ()
  | b :: l => send b (sendBytes l)

/-- Read `n` bytes. -/
def recvBytes : Nat → Proc (List Byte)
  | 0 => ret []
  | n + 1 => recv fun b => (recvBytes n).bind fun l => ret (b :: l)

end Proc

/-- Conversion of an integer argument to the `int len` parameter of `SendData`/`RecvData`
(tcpip/tcpip.cpp:139, 160): modulo 2^32, two's complement. -/
def toInt32 (n : Nat) : Int := (BitVec.ofNat 32 n).toInt

/-- `SendData(sock, var, len)` (tcpip/tcpip.cpp:139-157) for `bytes` = the memory at `var`: nothing
is sent when `len <= 0` as an `int`. -/
def sendData (bytes : List Byte) (len : Nat) : Proc Unit :=
  if toInt32 len ≤ 0 then .ret () else .sendBytes (bytes.take (toInt32 len).toNat)

/-- `RecvData(sock, var, len)` (tcpip/tcpip.cpp:159-179): the received bytes. -/
def recvData (len : Nat) : Proc (List Byte) :=
  if toInt32 len ≤ 0 then .ret [] else .recvBytes (toInt32 len).toNat

/-- The `k` low-order bytes of `n`, lowest first: memory of an unsigned integer on x86. -/
def leBytes (k n : Nat) : List Byte :=
  (List.range k).map fun i => BitVec.ofNat 8 (n / 256 ^ i)

/-- The number whose bytes are given, lowest first. -/
def leValue : List Byte → Nat
  | [] => 0
  | b :: l => b.toNat + 256 * leValue l

/-- The number whose bytes are given, highest first. -/
def beValue (l : List Byte) : Nat := leValue l.reverse

end TinyGarble
