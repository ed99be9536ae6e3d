import Verif.Model.Socket
import Mathlib.Data.List.Perm.Subperm

/-!
# C94: opening and closing connections
-/

namespace TinyGarble.Props
open TinyGarble

theorem lowestFd_not_mem (fds : List Nat) : lowestFd fds ∉ fds := by
  unfold lowestFd
  cases h : (List.range (fds.length + 1)).find? (fun n => !fds.contains n) with
  | some n =>
    have := List.find?_some h
    simpa using this
  | none =>
    exfalso
    rw [List.find?_eq_none] at h
    have hs : List.range (fds.length + 1) ⊆ fds := fun n hn => by simpa using h n hn
    have := (List.subperm_of_subset List.nodup_range hs).length_le
    simp at this
    omega

theorem filter_fresh {fds : List Nat} {n : Nat} (h : n ∉ fds) : fds.filter (· ≠ n) = fds := by
  rw [List.filter_eq_self]
  intro a ha
  simp only [ne_eq, decide_eq_true_eq]
  exact fun hh => h (hh ▸ ha)

variable (o : SysOk) (port : Int) (ip : List Byte) (k : Sockets)

/-- C94, garbler, for ports between 0 and 65535: whichever system calls fail, when `ServerInit` returns a descriptor and not FAILURE, it is a
connection accepted from a socket that listens on the port, with TCP_NODELAY on; both descriptors were not open before; no other one has been opened;
and `ServerClose` closes both. Missing: other ports (`C94_false_port`), and that nothing remains open after a FAILURE (`C94_false_server`). -/
theorem C94_server_partial (hk : ∀ l ∈ k.listening, l ∈ k.fds) (hp : 0 ≤ port ∧ port < 65536) (h : (serverInit o port k).1 ≠ -1) :
    ∃ fd l : Nat, (serverInit o port k).1 = fd ∧ fd ∉ k.fds ∧ l ∉ k.fds ∧ fd ≠ l ∧ (serverInit o port k).2.fds = fd :: l :: k.fds ∧
      (fd, l) ∈ (serverInit o port k).2.accepted ∧ l ∈ (serverInit o port k).2.listening ∧ (l, port.toNat) ∈ (serverInit o port k).2.bound ∧
      fd ∈ (serverInit o port k).2.noDelay ∧ (serverClose (serverInit o port k).1 (serverInit o port k).2).fds = k.fds := by
  have hl := lowestFd_not_mem k.fds
  have hf := lowestFd_not_mem (lowestFd k.fds :: k.fds)
  rw [List.mem_cons, not_or] at hf
  generalize hx : lowestFd k.fds = l at hl hf
  generalize hy : lowestFd (l :: k.fds) = fd at hf
  have hport : htonsPort port = port.toNat := by unfold htonsPort; rw [Int.emod_eq_of_lt hp.1 hp.2]
  have key : serverInit o port k = ((fd : Int), { k with
      fds := fd :: l :: k.fds, bound := (l, port.toNat) :: k.bound, listening := l :: k.listening, accepted := (fd, l) :: k.accepted,
      noDelay := fd :: k.noDelay, listenfd := l }) := by
    have hll : l ∉ k.listening := fun hh => hl (hk l hh)
    have h1 : ¬ (fd : Int) = -1 := by omega
    have h2 : ¬ (l : Int) < 0 := by omega
    revert h
    unfold serverInit serverOpenSocket
    rcases o with ⟨_ | _, _ | _, _ | _, _ | _, _ | _, _ | _, host, con⟩ <;>
      simp [sysFailure, serverWaitForClient, hx, hy, hport, hll, h1, h2]
  rw [key]
  refine ⟨fd, l, rfl, hf.2, hl, hf.1, rfl, by simp, by simp, by simp, by simp, ?_⟩
  have h1 : ¬ (fd : Int) < 0 := by omega
  have h2 : ¬ (l : Int) < 0 := by omega
  simp only [serverClose, Sockets.close, if_neg h1, if_neg h2, Int.toNat_natCast]
  rw [List.filter_cons, if_neg (by simp), List.filter_cons, if_pos (by simpa using Ne.symm hf.1), filter_fresh hf.2, List.filter_cons,
    if_neg (by simp), filter_fresh hl]

/-- C94, evaluator, for ports between 0 and 65535: likewise, the connection leads to the address of `ip` and the port, and `ClientClose` closes it. -/
theorem C94_client_partial (hp : 0 ≤ port ∧ port < 65536) (h : (clientInit o ip port k).1 ≠ -1) :
    ∃ fd : Nat, ∃ addr, (clientInit o ip port k).1 = fd ∧ fd ∉ k.fds ∧ (clientInit o ip port k).2.fds = fd :: k.fds ∧ o.host ip = some addr ∧
      (fd, addr, port.toNat) ∈ (clientInit o ip port k).2.connected ∧ fd ∈ (clientInit o ip port k).2.noDelay ∧
      (clientClose (clientInit o ip port k).1 (clientInit o ip port k).2).fds = k.fds := by
  have hl := lowestFd_not_mem k.fds
  generalize hx : lowestFd k.fds = l at hl
  have hport : htonsPort port = port.toNat := by unfold htonsPort; rw [Int.emod_eq_of_lt hp.1 hp.2]
  cases ha : o.host ip with
  | none =>
    exfalso
    apply h
    unfold clientInit
    rw [ha]
    split <;> rfl
  | some addr =>
    have key : clientInit o ip port k = ((l : Int), { k with
        fds := l :: k.fds, connected := (l, addr, port.toNat) :: k.connected, noDelay := l :: k.noDelay }) := by
      revert h
      unfold clientInit
      rw [ha]
      rcases o with ⟨_ | _, a, b, c, d, _ | _, host, _ | _⟩ <;> simp [sysFailure, hx, hport]
    rw [key]
    refine ⟨l, addr, rfl, hl, rfl, rfl, by simp, by simp, ?_⟩
    have h1 : ¬ (l : Int) < 0 := by omega
    simp only [clientClose, Sockets.close, if_neg h1, Int.toNat_natCast]
    rw [List.filter_cons, if_neg (by simp), filter_fresh hl]

/-- All system calls succeed; the host is 127.0.0.1. -/
def sysFine : SysOk := ⟨true, true, true, true, true, true, fun _ => some [127, 0, 0, 1], true⟩

example : serverInit sysFine 1234 { fds := [0, 1, 2] } =
      (4, ⟨[4, 3, 0, 1, 2], [(3, 1234)], [3], [(4, 3)], [], [4], 3⟩) ∧
    (clientInit sysFine [] 1234 { fds := [0, 1, 2] }).1 = 3 := by decide +kernel

/-- C94, negation: whenever `ServerInit` returns FAILURE after `socket` has succeeded, the listening socket remains open. -/
theorem C94_false_server (hs : o.socket = true) (_h : (serverInit o port k).1 = -1) :
    ∃ l, l ∉ k.fds ∧ l ∈ (serverInit o port k).2.fds := by
  refine ⟨lowestFd k.fds, lowestFd_not_mem _, ?_⟩
  unfold serverInit serverOpenSocket serverWaitForClient
  rcases o with ⟨_ | _, _ | _, _ | _, _ | _, _ | _, _ | _, host, con⟩ <;> simp_all [sysFailure]
  all_goals split <;> simp

/-- C94, negation: likewise the socket of the evaluator, for example when it is started before the garbler. -/
theorem C94_false_client (hs : o.socket = true) (_h : (clientInit o ip port k).1 = -1) :
    ∃ fd, fd ∉ k.fds ∧ (clientInit o ip port k).2.fds = fd :: k.fds := by
  refine ⟨lowestFd k.fds, lowestFd_not_mem _, ?_⟩
  unfold clientInit
  rw [if_neg (by rw [hs]; decide)]
  cases o.host ip with
  | none => rfl
  | some addr =>
    dsimp only
    split
    · rfl
    · split <;> rfl

example : (serverInit { sysFine with bind := false } 1234 { fds := [0, 1, 2] }).1 = -1 ∧
    (clientInit { sysFine with connect := false } [] 1234 { fds := [0, 1, 2] }).1 = -1 := by decide +kernel

/-- C94, negation: a port that does not fit into 16 bits is not rejected, another one is used. -/
theorem C94_false_port : serverInit o (port + 65536) k = serverInit o port k ∧ clientInit o ip (port + 65536) k = clientInit o ip port k := by
  have : htonsPort (port + 65536) = htonsPort port := by simp [htonsPort]
  refine ⟨?_, ?_⟩
  · simp only [serverInit, serverOpenSocket, this]
  · simp only [clientInit, this]

/-- C94, negation: `listenfd` is a global variable. When two connections are opened and then closed, the socket that listened for the first remains
open. -/
theorem C94_false_two :
    let a := serverInit sysFine 1234 { fds := [0, 1, 2] }
    let b := serverInit sysFine 1235 a.2
    a.1 = 4 ∧ b.1 = 6 ∧ (serverClose a.1 (serverClose b.1 b.2)).fds = [3, 0, 1, 2] := by
  decide +kernel

end TinyGarble.Props
