import Verif.Model.Proc

/-!
# SendData and RecvData on sockets

Models tcpip/tcpip.cpp:139-179. A stream is the list of bytes in transit. `write` and `read` are the
POSIX calls on a blocking stream socket: an error (`-1`), or a count between 0 and the requested
length, which is decided by an oracle (one entry per call: `none` is an error, `some r` asks for at
most `r` bytes). `read` also never returns more than the stream holds; on a stream that is exhausted
it returns 0 (end of file). Waiting for more bytes is not visible to the caller.
-/

namespace TinyGarble

/-- What the operating system does with a call: an error, or at most so many bytes. -/
abbrev Oracle := Nat → Option Nat

/-- Outcome of `SendData`/`RecvData`: whether SUCCESS, the memory of the caller, the stream, and the
values returned by the system calls, in order. -/
structure NetResult where
  ok : Bool
  mem : Nat → Byte
  stream : List Byte
  calls : List Int

/-- The bytes `mem[from] .. mem[from + n - 1]`. -/
def slice (mem : Nat → Byte) (start n : Nat) : List Byte := (List.range n).map fun i => mem (start + i)

/-- The loop of `SendData` (tcpip.cpp:143-155) with `done = remain_len` bytes written so far; `k` is
the number of the next call. -/
def sendLoop (o : Oracle) (mem : Nat → Byte) (len : Nat) (k done : Nat) (stream : List Byte) (calls : List Int) :
    NetResult :=
  match o k with
  | none => ⟨false, mem, stream, calls ++ [-1]⟩
  | some r =>
    let r := min r (len - done)
    if h : r = 0 then ⟨false, mem, stream, calls ++ [0]⟩
    else
      let stream := stream ++ slice mem done r
      let calls := calls ++ [(r : Int)]
      if _h : done + r < len then sendLoop o mem len (k + 1) (done + r) stream calls
      else ⟨true, mem, stream, calls⟩
termination_by len - done
decreasing_by omega

/-- `SendData(sock, var, len)` (tcpip.cpp:139-157); `len` is the `int`. -/
def netSend (o : Oracle) (mem : Nat → Byte) (len : Int) (stream : List Byte) : NetResult :=
  if len ≤ 0 then ⟨true, mem, stream, []⟩ else sendLoop o mem len.toNat 0 0 stream []

/-- Memory after `read` has stored the given bytes at `start`. -/
def store (mem : Nat → Byte) (start : Nat) (bytes : List Byte) : Nat → Byte :=
  fun i => if h : start ≤ i ∧ i - start < bytes.length then bytes[i - start] else mem i

/-- The loop of `RecvData` (tcpip.cpp:164-176). -/
def recvLoop (o : Oracle) (len : Nat) (k done : Nat) (mem : Nat → Byte) (stream : List Byte) (calls : List Int) :
    NetResult :=
  match o k with
  | none => ⟨false, mem, stream, calls ++ [-1]⟩
  | some r =>
    let r := min (min r (len - done)) stream.length
    if h : r = 0 then ⟨false, mem, stream, calls ++ [0]⟩
    else
      let mem := store mem done (stream.take r)
      let stream := stream.drop r
      let calls := calls ++ [(r : Int)]
      if _h : done + r < len then recvLoop o len (k + 1) (done + r) mem stream calls
      else ⟨true, mem, stream, calls⟩
termination_by len - done
decreasing_by omega

/-- `RecvData(sock, var, len)` (tcpip.cpp:159-179). -/
def netRecv (o : Oracle) (mem : Nat → Byte) (len : Int) (stream : List Byte) : NetResult :=
  if len ≤ 0 then ⟨true, mem, stream, []⟩ else recvLoop o len.toNat 0 0 mem stream []

/-- `sizeof(GarbledTable)` (garbled_circuit_util.h:65-68): two 16-byte blocks and a `uint32_t`,
padded to a multiple of 16. -/
def tableBytes : Nat := 48

/-- The call that sends the garbled tables of a cycle (garbled_circuit_low_mem.cpp:136-139,
garbled_circuit_high_mem.cpp:392-394): the `uint64_t` product is passed as an `int`. -/
def netSendTables (o : Oracle) (mem : Nat → Byte) (count : Nat) (stream : List Byte) : NetResult :=
  netSend o mem (toInt32 (count * tableBytes)) stream

end TinyGarble
