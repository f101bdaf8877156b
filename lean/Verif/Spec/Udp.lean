import Verif.Rt.Exec
import Verif.Rt.Udp

/-! # What a history of a UDP socket shows

Everything here is read off the trace: the datagrams handed over by the operating system, what
became of them, and what the user's calls returned. -/

namespace Rsomeip.Spec.Udp

open Rt Rt.Udp

abbrev Trace := List (Action × Obs)

/-- The trace's datagrams, each cut to 1400 bytes. -/
def arrived (tr : Trace) : List (Addr × Bytes) :=
  tr.filterMap fun
    | (.datagram a p, _) => some (a, p.take 1400)
    | _ => none

/-- The datagrams from address `a`. -/
def arrivedFrom (a : Addr) (tr : Trace) : List Bytes :=
  (arrived tr).filterMap fun e => if e.1 = a then some e.2 else none

/-- What became of the datagrams dealt with, in order: the channel they were put in, if any. -/
def fates (tr : Trace) : List (Addr × Bytes × Option Nat) :=
  tr.filterMap fun
    | (_, .routed a p c) => some (a, p, some c)
    | (_, .lost a p _) => some (a, p, none)
    | _ => none

/-- The packets put into channel `c`. -/
def into (c : Nat) (tr : Trace) : List Bytes :=
  (fates tr).filterMap fun e => if e.2.2 = some c then some e.2.1 else none

/-- What `recv` on channel `c` returned: packets, with `none` for every packet a `Lagged` report
counted. -/
def seen (c : Nat) (tr : Trace) : List (Option Bytes) :=
  tr.flatMap fun
    | (.recv c', .packet p) => if c' = c then [some p] else []
    | (.recv c', .lagged n) => if c' = c then List.replicate n none else []
    | _ => []

/-- The packets `recv` on channel `c` returned. -/
def got (c : Nat) (tr : Trace) : List Bytes := (seen c tr).filterMap id

/-- The first list is the beginning of the second, with some entries blanked out. -/
def Shows : List (Option Bytes) → List Bytes → Prop
  | [], _ => True
  | none :: os, _ :: ps => Shows os ps
  | some o :: os, p :: ps => o = p ∧ Shows os ps
  | _ :: _, [] => False

/-- The channels handed to the user by `connect` or `accept`, in order. -/
def connections (tr : Trace) : List (Nat × Addr) :=
  tr.filterMap fun
    | (_, .connection c a) => some (c, a)
    | _ => none

/-- The listeners handed to the user with the backlog asked for, latest first. -/
def listeners (tr : Trace) : List (Nat × Nat) :=
  (tr.filterMap fun
    | (.listen n, .listening l) => some (l, n)
    | _ => none).reverse

end Rsomeip.Spec.Udp
