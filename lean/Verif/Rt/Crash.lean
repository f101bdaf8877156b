import Verif.Rt.Net

/-!
# Programs that crash and are started again

The programs of `Verif.Rt.Net`, each of which may be killed at any point and started again at the same
address. Nothing of a program outlives it: the crate keeps no state outside of the process
(`/repo/rsomeip/src/endpoint/v1.rs:112-126` and `/repo/rsomeip/src/socket/udp.rs:105-131` build all of
it anew). What was handed to the operating system before is on the network and may still arrive, at the
program that now has the address.

Simplified: a program is killed between two steps of the model, and the next one has bound its socket and
spawned its endpoint at once; the time between them is a time at which nothing is delivered.
-/

namespace Rsomeip.Rt.Crash

/-- A step of one of the programs (`Verif.Rt.Net`), or the program at an address is killed and started
again, with `UdpSocket::bind` (`/repo/rsomeip/src/socket/udp.rs:105-131`) and `Endpoint::spawn`
(`/repo/rsomeip/src/endpoint/v1.rs:112-126`). -/
inductive Action where
  | net (x : Net.Action)
  | crash (n : Addr)
deriving DecidableEq

/-- One step. A program that is started again has what a new one has (`UdpSocket::bind`,
`/repo/rsomeip/src/socket/udp.rs:105-131`, and `Endpoint::spawn`,
`/repo/rsomeip/src/endpoint/v1.rs:112-126`); the network keeps what was sent. `none` if it cannot happen
now. -/
def step (own : Addr → Bool) (s : Net.State) : Action → Option (Net.State × Node.Obs)
  | .net x => Net.step own s x
  | .crash n =>
    if own n then some ({ s with nodes := upd s.nodes n Node.init }, ⟨none, [], []⟩) else none

end Rsomeip.Rt.Crash
