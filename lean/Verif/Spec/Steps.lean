import Verif.Spec.Endpoint

/-! # Counting the steps tasks make -/

namespace Rsomeip.Spec.Ep

open Rsomeip.Rt Rsomeip.Rt.Ep

/-- How many steps the call of `send_to` of stub `k` makes in a history. -/
def callSteps (k : Nat) (t : Trace) : Nat := t.countP fun e => e.1 == .stubStep k

/-- How many steps connection `c` makes in a history to deal with packets. -/
def routeSteps (c : Nat) (t : Trace) : Nat := t.countP fun e => e.1 == .route c

/-- How many steps connection `c` makes in a history to deal with its queue and the socket. -/
def sendSteps (c : Nat) (t : Trace) : Nat :=
  t.countP fun e => e.1 == .connCmd c || e.1 == .sent c true || e.1 == .sent c false

/-- How many messages proxy `p` took from its channel in a history: those `recv` returned and those it
skipped because another peer sent them. -/
def proxyReads (p : Nat) (t : Trace) : Nat :=
  t.countP fun e => match e with
    | (.proxyRecv j, .reply _) => j = p
    | (.proxyRecv j, .skipped ..) => j = p
    | _ => false

end Rsomeip.Spec.Ep
