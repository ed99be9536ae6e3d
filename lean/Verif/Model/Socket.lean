import Verif.Model.Net

/-!
# Opening and closing sockets (tcpip/tcpip.cpp:36-137)

The system calls are modelled with as much of the operating system as the functions depend on: the open descriptors of the process, the ports to
which its sockets are bound, and the other ends of its connections. Any call may fail; which ones do is an arbitrary parameter.
-/

namespace TinyGarble

/-- What the operating system and the program know about sockets. -/
structure Sockets where
  /-- open descriptors -/
  fds : List Nat
  /-- sockets with their local ports (`bind`) -/
  bound : List (Nat × Nat) := []
  /-- sockets on which `listen` has succeeded -/
  listening : List Nat := []
  /-- connections with the listening socket from which they have been accepted -/
  accepted : List (Nat × Nat) := []
  /-- connections with the address and the port to which they lead (`connect`) -/
  connected : List (Nat × List Byte × Nat) := []
  /-- sockets with the option TCP_NODELAY -/
  noDelay : List Nat := []
  /-- the global variable `listenfd` (tcpip.cpp:36) -/
  listenfd : Int := 0
deriving DecidableEq

/-- The system calls that succeed, as far as they depend on the world outside. -/
structure SysOk where
  socket : Bool
  reuseAddr : Bool
  bind : Bool
  listen : Bool
  accept : Bool
  noDelay : Bool
  /-- `gethostbyname`: the address -/
  host : List Byte → Option (List Byte)
  connect : Bool

/-- The descriptor that `socket` and `accept` return (POSIX): the lowest one that is not open. -/
def lowestFd (fds : List Nat) : Nat := ((List.range (fds.length + 1)).find? fun n => !fds.contains n).getD 0

/-- `FAILURE` (util/common.h:33). -/
def sysFailure : Int := -1

/-- `htons` (tcpip.cpp:58, 118): the argument is converted to 16 bits, whatever its value. -/
def htonsPort (port : Int) : Nat := (port % 65536).toNat

/-- `close`: nothing happens when the descriptor is not open. -/
def Sockets.close (k : Sockets) (fd : Int) : Sockets :=
  if fd < 0 then k
  else { k with
    fds := k.fds.filter (· ≠ fd.toNat), bound := k.bound.filter (·.1 ≠ fd.toNat), listening := k.listening.filter (· ≠ fd.toNat),
    accepted := k.accepted.filter (·.1 ≠ fd.toNat), connected := k.connected.filter (·.1 ≠ fd.toNat), noDelay := k.noDelay.filter (· ≠ fd.toNat) }

/-- `ServerOpenSocket` (tcpip.cpp:40-65). The result of `listen` is ignored. -/
def serverOpenSocket (o : SysOk) (port : Int) (k : Sockets) : Int × Sockets :=
  if o.socket = false then (sysFailure, { k with listenfd := -1 })
  else
    let fd := lowestFd k.fds
    let k := { k with fds := fd :: k.fds, listenfd := fd }
    if o.reuseAddr = false then (sysFailure, k)
    else if o.bind = false then (sysFailure, k)
    else
      let k := { k with bound := (fd, htonsPort port) :: k.bound }
      (0, if o.listen then { k with listening := fd :: k.listening } else k)

/-- `ServerWaitForClient` (tcpip.cpp:67-83). `accept` fails on a socket that does not listen. -/
def serverWaitForClient (o : SysOk) (k : Sockets) : Int × Sockets :=
  if o.accept = false ∨ k.listenfd < 0 ∨ k.listenfd.toNat ∉ k.listening then (sysFailure, k)
  else
    let fd := lowestFd k.fds
    let k := { k with fds := fd :: k.fds, accepted := (fd, k.listenfd.toNat) :: k.accepted }
    if o.noDelay = false then (sysFailure, k) else (fd, { k with noDelay := fd :: k.noDelay })

/-- `ServerInit` (tcpip.cpp:85-92). -/
def serverInit (o : SysOk) (port : Int) (k : Sockets) : Int × Sockets :=
  let r := serverOpenSocket o port k
  if r.1 = sysFailure then (sysFailure, r.2)
  else
    let r := serverWaitForClient o r.2
    if r.1 = sysFailure then (sysFailure, r.2) else r

/-- `ServerClose` (tcpip.cpp:94-98). -/
def serverClose (sock : Int) (k : Sockets) : Sockets := (k.close sock).close k.listenfd

/-- `ClientInit` (tcpip.cpp:100-132). -/
def clientInit (o : SysOk) (ip : List Byte) (port : Int) (k : Sockets) : Int × Sockets :=
  if o.socket = false then (sysFailure, k)
  else
    let fd := lowestFd k.fds
    let k := { k with fds := fd :: k.fds }
    match o.host ip with
    | none => (sysFailure, k)
    | some addr =>
      if o.connect = false then (sysFailure, k)
      else
        let k := { k with connected := (fd, addr, htonsPort port) :: k.connected }
        if o.noDelay = false then (sysFailure, k) else (fd, { k with noDelay := fd :: k.noDelay })

/-- `ClientClose` (tcpip.cpp:134-137). -/
def clientClose (sock : Int) (k : Sockets) : Sockets := k.close sock

end TinyGarble
