import Verif.Lemmas.Map
import Verif.Lemmas.Udp
import Verif.Rt.Endpoint

/-! # Lemmas about the endpoint -/

namespace Rsomeip.Rt.Ep

open Someip (InterfaceId)

/-- All ways a step can go. -/
inductive Move (dg : Bool) (s : State) : Action → Obs → State → Prop where
  | serve (id) (hh : s.handles = true) (hq : s.cmds.length < epCap) :
      Move dg s (.serve id) .none { s with cmds := s.cmds ++ [.serve id] }
  | proxy (id a) (hh : s.handles = true) (hq : s.cmds.length < epCap) :
      Move dg s (.proxy id a) .none { s with cmds := s.cmds ++ [.proxy id a] }
  | close (hh : s.handles = true) : Move dg s .close .none { s with handles := false }
  | upgrade (hs : s.epStrong = true) : Move dg s .upgrade (.upgraded true) { s with handles := true }
  | upgradeNone (hs : s.epStrong = false) : Move dg s .upgrade (.upgraded false) s
  | epServe (ok id q) (hpc : s.pc = .idle) (hq : s.cmds = .serve id :: q) :
      Move dg s (.ep ok) .none { s with cmds := q, pc := .serveCheck id }
  | epProxy (ok id a q) (hpc : s.pc = .idle) (hq : s.cmds = .proxy id a :: q) :
      Move dg s (.ep ok) .none { s with cmds := q, pc := .proxyCheck id a }
  | epConnect (ok k a t q) (hpc : s.pc = .idle) (hq : s.cmds = .connect k a t :: q) :
      Move dg s (.ep ok) .none { s with cmds := q, pc := .connect k a t }
  | epStop (ok) (hpc : s.pc = .idle) (hq : s.cmds = []) (hs : s.epStrong = false) :
      Move dg s (.ep ok) .ended { s with pc := .stopped }
  | serveExists (ok id) (hpc : s.pc = .serveCheck id) (hl : s.ifLocked id = false)
      (hk : s.known id = true) :
      Move dg s (.ep ok) (.serveFailed id .exists) { s with pc := .idle }
  | serveGo (ok id) (hpc : s.pc = .serveCheck id) (hl : s.ifLocked id = false)
      (hk : s.known id = false) :
      Move dg s (.ep ok) .none { s with pc := .serveListen id }
  | serveOld (ok id l) (hpc : s.pc = .serveListen id) (hl : s.listener = some l)
      (hs : s.lisStrong l = true) :
      Move dg s (.ep ok) .none { s with pc := .serveShare id l }
  | serveNew (id) (hpc : s.pc = .serveListen id)
      (hl : ∀ l, s.listener = some l → s.lisStrong l = false) :
      Move dg s (.ep true) .none
        { s with
          liss := upd s.liss s.lisCount newLis
          lisCount := s.lisCount + 1
          listener := some s.lisCount
          pc := .serveShare id s.lisCount }
  | serveNoListen (id) (hpc : s.pc = .serveListen id)
      (hl : ∀ l, s.listener = some l → s.lisStrong l = false) :
      Move dg s (.ep false) (.serveFailed id .io) { s with pc := .idle }
  | serveShare (ok id l) (hpc : s.pc = .serveShare id l) (hl : s.ifLocked id = false) :
      Move dg s (.ep ok) .none
        { s with
          ifaces := upd s.ifaces s.ifCount ⟨id, [], true⟩
          ifCount := s.ifCount + 1
          shared := (s.shared.insert id s.ifCount).2
          pc := .serveTake id l s.ifCount }
  | serveTake (ok id l i) (hpc : s.pc = .serveTake id l i) (ha : (s.liss l).alive = true)
      (hq : (s.liss l).cmds.length < lisCap) :
      Move dg s (.ep ok) (.serving s.stubCount i id)
        { s with
          liss := upd s.liss l { s.liss l with cmds := (s.liss l).cmds ++ [(id, i)] }
          stubs := upd s.stubs s.stubCount ⟨i, l, true, .empty, .idle⟩
          stubCount := s.stubCount + 1
          pc := .idle }
  | serveClosed (ok id l i) (hpc : s.pc = .serveTake id l i) (ha : (s.liss l).alive = false) :
      Move dg s (.ep ok) (.serveFailed id .io)
        { s with ifaces := upd s.ifaces i (s.ifaces i).drop, pc := .idle }
  | proxyExists (ok id a) (hpc : s.pc = .proxyCheck id a) (hl : s.ifLocked id = false)
      (hk : s.known id = true) :
      Move dg s (.ep ok) (.proxyFailed id a .exists) { s with pc := .idle }
  | proxyGo (ok id a) (hpc : s.pc = .proxyCheck id a) (hl : s.ifLocked id = false)
      (hk : s.known id = false) :
      Move dg s (.ep ok) .none { s with pc := .proxyGet id a }
  | proxyFound (ok id a c) (hpc : s.pc = .proxyGet id a) (hl : s.peerLocked a = false)
      (hc : s.peers.get a = some c) (hs : s.connStrong c = true) :
      Move dg s (.ep ok) .none { s with pc := .proxyShare id a c }
  | proxyMissing (ok id a) (hpc : s.pc = .proxyGet id a) (hl : s.peerLocked a = false)
      (hc : ∀ c, s.peers.get a = some c → s.connStrong c = false) :
      Move dg s (.ep ok) .none { s with pc := .proxyConnect id a }
  | proxyConnect (id a) (hpc : s.pc = .proxyConnect id a) :
      Move dg s (.ep true) (.opened s.connCount a)
        { s with
          conns := upd s.conns s.connCount (newConn a)
          connCount := s.connCount + 1
          pc := .proxyShare id a s.connCount }
  | proxyNoConnect (id a) (hpc : s.pc = .proxyConnect id a) :
      Move dg s (.ep false) (.proxyFailed id a .io) { s with pc := .idle }
  | proxyShare (ok id a c) (hpc : s.pc = .proxyShare id a c) (hl : s.ifLocked id = false) :
      Move dg s (.ep ok) .none
        { s with
          ifaces := upd s.ifaces s.ifCount ⟨id, [], true⟩
          ifCount := s.ifCount + 1
          shared := (s.shared.insert id s.ifCount).2
          pc := .proxyTake id a c s.ifCount }
  | proxyTake (ok id a c i) (hpc : s.pc = .proxyTake id a c i) (ha : (s.conns c).alive = true)
      (hq : (s.conns c).cmds.length < connCap) :
      Move dg s (.ep ok) (.proxying s.proxyCount i id a)
        { s with
          conns := upd s.conns c { s.conns c with cmds := (s.conns c).cmds ++ [.take id i] }
          proxies := upd s.proxies s.proxyCount ⟨i, c, a, true⟩
          proxyCount := s.proxyCount + 1
          pc := .idle }
  | proxyClosed (ok id a c i) (hpc : s.pc = .proxyTake id a c i)
      (ha : (s.conns c).alive = false) :
      Move dg s (.ep ok) (.proxyFailed id a .notConnected)
        { s with ifaces := upd s.ifaces i (s.ifaces i).drop, pc := .idle }
  | connectOk (k a t) (hpc : s.pc = .connect k a t) (hd : dg = true) :
      Move dg s (.ep true) (.opened s.connCount a)
        { s with
          conns := upd s.conns s.connCount (newConn a)
          connCount := s.connCount + 1
          stubs := answer s k t s.connCount
          pc := .idle }
  | connectFail (k a t) (hpc : s.pc = .connect k a t) (hd : dg = true)
      (hk : ∃ b m, (s.stubs k).pc = .asked b m t) :
      Move dg s (.ep false) (.connectFailed k .io)
        { s with stubs := refuse s k t, pc := .idle }
  | connectRefused (ok k a t) (hpc : s.pc = .connect k a t) (hd : dg = false)
      (hk : ∃ b m, (s.stubs k).pc = .asked b m t) :
      Move dg s (.ep ok) (.connectFailed k .notAllowed)
        { s with stubs := refuse s k t, pc := .idle }
  | connectStale (ok k a t) (hpc : s.pc = .connect k a t) (hd : dg = true → ok = false)
      (hk : ¬ ∃ b m, (s.stubs k).pc = .asked b m t) :
      Move dg s (.ep ok) .none { s with pc := .idle }
  | accept (l a) (ha : (s.liss l).alive = true) (hw : (s.liss l).pc = .wait) :
      Move dg s (.accept l a) (.opened s.connCount a)
        { s with
          conns := upd s.conns s.connCount (newConn a)
          connCount := s.connCount + 1
          liss := upd s.liss l { s.liss l with pc := .share s.connCount } }
  | acceptNone (l) (ha : (s.liss l).alive = true) (hw : (s.liss l).pc = .wait) :
      Move dg s (.acceptNone l) .ended { s with liss := upd s.liss l deadLis }
  | lisShare (l c) (hw : (s.liss l).pc = .share c) (hl : s.peerLocked (s.conns c).addr = false) :
      Move dg s (.lisShare l) .none
        { s with
          peers := (s.peers.insert (s.conns c).addr c).2
          liss := upd s.liss l
            { s.liss l with conns := ((s.liss l).conns.insert (s.conns c).addr c).2, pc := .wait } }
  | lisTake (l id i q) (ha : (s.liss l).alive = true) (hq : (s.liss l).cmds = (id, i) :: q) :
      Move dg s (.lisCmd l) .none
        { s with
          liss := upd s.liss l
            { s.liss l with cmds := q, owned := ((s.liss l).owned.insert id i).2 } }
  | lisEnd (l) (ha : (s.liss l).alive = true) (hq : (s.liss l).cmds = [])
      (hs : s.lisStrong l = false) :
      Move dg s (.lisCmd l) .ended { s with liss := upd s.liss l deadLis }
  | packetRoute (c r ms) (ha : (s.conns c).alive = true) (hw : (s.conns c).pc = .wait)
      (hr : receive r = .route ms) :
      Move dg s (.packet c r) .none
        { s with conns := upd s.conns c { s.conns c with pc := .route ms } }
  | packetSkip (c r) (ha : (s.conns c).alive = true) (hw : (s.conns c).pc = .wait)
      (hr : (∃ e, receive r = .drop e) ∨ receive r = .skip) :
      Move dg s (.packet c r) .none s
  | packetEnd (c r) (ha : (s.conns c).alive = true) (hw : (s.conns c).pc = .wait)
      (hr : receive r = .stop ∨ receive r = .panic) :
      Move dg s (.packet c r) .ended { s with conns := upd s.conns c (s.conns c).ended }
  | routeDone (c) (hw : (s.conns c).pc = .route []) :
      Move dg s (.route c) .none { s with conns := upd s.conns c { s.conns c with pc := .wait } }
  | routeUnknown (c m ms) (hw : (s.conns c).pc = .route (m :: ms))
      (hl : s.ifLocked (InterfaceId.of m) = false) (hg : s.shared.get (InterfaceId.of m) = none) :
      Move dg s (.route c) (.dropped m .unknown)
        { s with conns := upd s.conns c { s.conns c with pc := .route ms } }
  | routeTo (c m ms i) (hw : (s.conns c).pc = .route (m :: ms))
      (hl : s.ifLocked (InterfaceId.of m) = false) (hg : s.shared.get (InterfaceId.of m) = some i)
      (hs : s.ifStrong i = true) :
      Move dg s (.route c) .none
        { s with conns := upd s.conns c { s.conns c with pc := .sending i m ms } }
  | routeDead (c m ms i) (hw : (s.conns c).pc = .route (m :: ms))
      (hl : s.ifLocked (InterfaceId.of m) = false) (hg : s.shared.get (InterfaceId.of m) = some i)
      (hs : s.ifStrong i = false) :
      Move dg s (.route c) (.dropped m .dead)
        { s with
          shared := (s.shared.remove (InterfaceId.of m)).2
          conns := upd s.conns c { s.conns c with pc := .route ms } }
  | put (c i m ms) (hw : (s.conns c).pc = .sending i m ms) (hrx : (s.ifaces i).rx = true)
      (hq : (s.ifaces i).queue.length < ifCap) :
      Move dg s (.route c) (.routed i m (s.conns c).addr)
        { s with
          ifaces := upd s.ifaces i
            { s.ifaces i with queue := (s.ifaces i).queue ++ [(m, (s.conns c).addr)] }
          conns := upd s.conns c { s.conns c with pc := .route ms } }
  | putClosed (c i m ms) (hw : (s.conns c).pc = .sending i m ms) (hrx : (s.ifaces i).rx = false) :
      Move dg s (.route c) (.dropped m .closed)
        { s with
          shared := (s.shared.remove (InterfaceId.of m)).2
          conns := upd s.conns c { s.conns c with pc := .route ms } }
  | cmdMessage (c m q b) (ha : (s.conns c).alive = true) (ho : (s.conns c).out = none)
      (hq : (s.conns c).cmds = .message m :: q) (hb : outgoing m = some b) :
      Move dg s (.connCmd c) .none
        { s with conns := upd s.conns c { s.conns c with cmds := q, out := some b } }
  | cmdPanic (c m q) (ha : (s.conns c).alive = true) (ho : (s.conns c).out = none)
      (hq : (s.conns c).cmds = .message m :: q) (hb : outgoing m = none) :
      Move dg s (.connCmd c) .ended { s with conns := upd s.conns c (s.conns c).ended }
  | cmdTake (c id i q) (ha : (s.conns c).alive = true) (ho : (s.conns c).out = none)
      (hq : (s.conns c).cmds = .take id i :: q) :
      Move dg s (.connCmd c) .none
        { s with
          conns := upd s.conns c
            { s.conns c with cmds := q, owned := ((s.conns c).owned.insert id i).2 } }
  | cmdEnd (c) (ha : (s.conns c).alive = true) (ho : (s.conns c).out = none)
      (hq : (s.conns c).cmds = []) (hs : s.connStrong c = false) :
      Move dg s (.connCmd c) .ended { s with conns := upd s.conns c (s.conns c).ended }
  | sentOk (c b) (ho : (s.conns c).out = some b) :
      Move dg s (.sent c true) (.wire b true)
        { s with conns := upd s.conns c { s.conns c with out := none } }
  | sentFail (c b) (ho : (s.conns c).out = some b) :
      Move dg s (.sent c false) (.wire b false)
        { s with conns := upd s.conns c (s.conns c).ended }
  | stubSend (k a m) (ha : (s.stubs k).alive = true) (hw : (s.stubs k).pc = .idle) :
      Move dg s (.stubSend k a m) .none { s with stubs := s.stubAt k (.check a m) }
  | checkOk (k a m c) (hw : (s.stubs k).pc = .check a m) (hl : s.peerLocked a = false)
      (hc : s.peers.get a = some c) (hs : s.connStrong c = true) :
      Move dg s (.stubStep k) .none { s with stubs := s.stubAt k (.enter a m) }
  | checkAsk (k a m) (hw : (s.stubs k).pc = .check a m) (hl : s.peerLocked a = false)
      (hc : ∀ c, s.peers.get a = some c → s.connStrong c = false) (he : s.epStrong = true) :
      Move dg s (.stubStep k) .none { s with stubs := s.stubAt k (.asking a m) }
  | checkFail (k a m) (hw : (s.stubs k).pc = .check a m) (hl : s.peerLocked a = false)
      (hc : ∀ c, s.peers.get a = some c → s.connStrong c = false) (he : s.epStrong = false) :
      Move dg s (.stubStep k) (.sendFailed .notConnected) { s with stubs := s.stubAt k .idle }
  | ask (k a m) (hw : (s.stubs k).pc = .asking a m) (hq : s.cmds.length < epCap) :
      Move dg s (.stubStep k) .none
        { s with
          cmds := s.cmds ++ [.connect k a s.asks]
          asks := s.asks + 1
          stubs := s.stubAt k (.asked a m s.asks) }
  | stubShare (k a m c) (hw : (s.stubs k).pc = .share a m c) (hl : s.peerLocked a = false) :
      Move dg s (.stubStep k) .none
        { s with
          peers := (s.peers.insert a c).2
          stubs := upd s.stubs k
            { s.stubs k with conns := ((s.stubs k).conns.insert a c).2, pc := .enter a m } }
  | enterOk (k a m c) (hw : (s.stubs k).pc = .enter a m) (hl : s.peerLocked a = false)
      (hc : s.peers.get a = some c) (hs : s.connStrong c = true) :
      Move dg s (.stubStep k) .none { s with stubs := s.stubAt k (.sending a m c) }
  | enterDead (k a m c) (hw : (s.stubs k).pc = .enter a m) (hl : s.peerLocked a = false)
      (hc : s.peers.get a = some c) (hs : s.connStrong c = false) :
      Move dg s (.stubStep k) (.sendFailed .notConnected)
        { s with peers := (s.peers.remove a).2, stubs := s.stubAt k .idle }
  | enterNone (k a m) (hw : (s.stubs k).pc = .enter a m) (hl : s.peerLocked a = false)
      (hc : s.peers.get a = none) :
      Move dg s (.stubStep k) (.sendFailed .notConnected) { s with stubs := s.stubAt k .idle }
  | sendOk (k a m c) (hw : (s.stubs k).pc = .sending a m c) (ha : (s.conns c).alive = true)
      (hq : (s.conns c).cmds.length < connCap) :
      Move dg s (.stubStep k) (.accepted c m)
        { s with
          conns := upd s.conns c { s.conns c with cmds := (s.conns c).cmds ++ [.message m] }
          stubs := s.stubAt k .idle }
  | sendDead (k a m c) (hw : (s.stubs k).pc = .sending a m c) (ha : (s.conns c).alive = false) :
      Move dg s (.stubStep k) (.sendFailed .notConnected)
        { s with peers := (s.peers.remove a).2, stubs := s.stubAt k .idle }
  | stubCancel (k) (ha : (s.stubs k).alive = true) :
      Move dg s (.stubCancel k) .none { s with stubs := s.stubAt k .idle }
  | stubRecv (k m a q) (ha : (s.stubs k).alive = true) (hw : (s.stubs k).pc = .idle)
      (hq : (s.ifaces (s.stubs k).iface).queue = (m, a) :: q) :
      Move dg s (.stubRecv k) (.message m a)
        { s with
          ifaces := upd s.ifaces (s.stubs k).iface { s.ifaces (s.stubs k).iface with queue := q } }
  | stubClosed (k) (ha : (s.stubs k).alive = true) (hw : (s.stubs k).pc = .idle)
      (hq : (s.ifaces (s.stubs k).iface).queue = []) (hs : s.ifStrong (s.stubs k).iface = false) :
      Move dg s (.stubRecv k) .closed s
  | dropStub (k) (ha : (s.stubs k).alive = true) :
      Move dg s (.dropStub k) .none
        { s with
          ifaces := upd s.ifaces (s.stubs k).iface (s.ifaces (s.stubs k).iface).drop
          stubs := upd s.stubs k { s.stubs k with alive := false, conns := .empty, pc := .idle } }
  | proxySend (p m) (ha : (s.proxies p).alive = true)
      (hc : (s.conns (s.proxies p).conn).alive = true)
      (hq : (s.conns (s.proxies p).conn).cmds.length < connCap) :
      Move dg s (.proxySend p m) (.accepted (s.proxies p).conn m)
        { s with
          conns := upd s.conns (s.proxies p).conn
            { s.conns (s.proxies p).conn with
              cmds := (s.conns (s.proxies p).conn).cmds ++ [.message m] } }
  | proxySendFail (p m) (ha : (s.proxies p).alive = true)
      (hc : (s.conns (s.proxies p).conn).alive = false) :
      Move dg s (.proxySend p m) (.sendFailed .notConnected) s
  | proxyRecv (p m a q) (ha : (s.proxies p).alive = true)
      (hq : (s.ifaces (s.proxies p).iface).queue = (m, a) :: q) :
      Move dg s (.proxyRecv p) (if (s.proxies p).remote = a then .reply m else .skipped m a)
        { s with
          ifaces := upd s.ifaces (s.proxies p).iface
            { s.ifaces (s.proxies p).iface with queue := q } }
  | proxyRecvClosed (p) (ha : (s.proxies p).alive = true)
      (hq : (s.ifaces (s.proxies p).iface).queue = [])
      (hs : s.ifStrong (s.proxies p).iface = false) :
      Move dg s (.proxyRecv p) .closed s
  | dropProxy (p) (ha : (s.proxies p).alive = true) :
      Move dg s (.dropProxy p) .none
        { s with
          ifaces := upd s.ifaces (s.proxies p).iface (s.ifaces (s.proxies p).iface).drop
          proxies := upd s.proxies p { s.proxies p with alive := false } }
  | hashId (id id') : Move dg s (.hashId id id') .none { s with ifBucket := rehash s.ifBucket id id' }
  | hashAddr (a b) : Move dg s (.hashAddr a b) .none { s with peerBucket := rehash s.peerBucket a b }

theorem refusal_asked {s : State} {k t : Nat} {w : Why} (h : ∃ b m, (s.stubs k).pc = .asked b m t) :
    refusalShown s k t w = .connectFailed k w := by
  obtain ⟨b, m, h⟩ := h
  rw [refusalShown, h]
  exact if_pos rfl

theorem refusal_stale {s : State} {k t : Nat} (h : ¬ ∃ b m, (s.stubs k).pc = .asked b m t) (w : Why) :
    refuse s k t = s.stubs ∧ refusalShown s k t w = .none := by
  cases hp : (s.stubs k).pc with
  | asked b m u =>
    have : u ≠ t := fun hu => h ⟨b, m, hu ▸ hp⟩
    simp only [refuse, refusalShown, hp, if_neg this, and_self]
  | _ => simp only [refuse, refusalShown, hp, and_self]


theorem move_of_step {dg : Bool} {s s' : State} {a : Action} {o : Obs}
    (h : step dg s a = some (s', o)) : Move dg s a o s' := by
  cases a with
  | serve id =>
    simp only [step] at h
    split at h
    · cases h; exact .serve id (by simp_all) (by simp_all)
    · cases h
  | proxy id a =>
    simp only [step] at h
    split at h
    · cases h; exact .proxy id a (by simp_all) (by simp_all)
    · cases h
  | close =>
    simp only [step] at h
    split at h
    · cases h; exact .close ‹_›
    · cases h
  | upgrade =>
    simp only [step] at h
    split at h
    · cases h; exact .upgrade ‹_›
    · cases h; exact .upgradeNone (by simp_all)
  | ep ok =>
    simp only [step, ep] at h
    split at h
    · simp only [epCmd] at h
      split at h
      · cases h; exact .epServe _ _ _ ‹_› ‹_›
      · cases h; exact .epProxy _ _ _ _ ‹_› ‹_›
      · cases h; exact .epConnect _ _ _ _ _ ‹_› ‹_›
      · split at h
        · cases h
        · cases h; exact .epStop _ ‹_› ‹_› (by simp_all)
    · cases h
    · split at h
      · cases h
      · split at h
        · cases h; exact .serveExists _ _ ‹_› (by simp_all) ‹_›
        · cases h; exact .serveGo _ _ ‹_› (by simp_all) (by simp_all)
    · split at h
      · split at h
        · cases h; exact .serveOld _ _ _ ‹_› ‹_› ‹_›
        · split at h
          · cases h; subst ok; exact .serveNew _ ‹_› (by simp_all)
          · cases h; cases ok
            · exact .serveNoListen _ ‹_› (by simp_all)
            · simp_all
      · split at h
        · cases h; subst ok; exact .serveNew _ ‹_› (by simp_all)
        · cases h; cases ok
          · exact .serveNoListen _ ‹_› (by simp_all)
          · simp_all
    · simp only [create] at h
      split at h
      · cases h
      · cases h; exact .serveShare _ _ _ ‹_› (by simp_all)
    · split at h
      · split at h
        · cases h; exact .serveTake _ _ _ _ ‹_› ‹_› ‹_›
        · cases h
      · cases h; exact .serveClosed _ _ _ _ ‹_› (by simp_all)
    · split at h
      · cases h
      · split at h
        · cases h; exact .proxyExists _ _ _ ‹_› (by simp_all) ‹_›
        · cases h; exact .proxyGo _ _ _ ‹_› (by simp_all) (by simp_all)
    · split at h
      · cases h
      · split at h
        · split at h
          · cases h; exact .proxyFound _ _ _ _ ‹_› (by simp_all) ‹_› ‹_›
          · cases h; exact .proxyMissing _ _ _ ‹_› (by simp_all) (by simp_all)
        · cases h; exact .proxyMissing _ _ _ ‹_› (by simp_all) (by simp_all)
    · split at h
      · cases h; subst ok; exact .proxyConnect _ _ ‹_›
      · cases h; cases ok
        · exact .proxyNoConnect _ _ ‹_›
        · simp_all
    · simp only [create] at h
      split at h
      · cases h
      · cases h; exact .proxyShare _ _ _ _ ‹_› (by simp_all)
    · split at h
      · split at h
        · cases h; exact .proxyTake _ _ _ _ _ ‹_› ‹_› ‹_›
        · cases h
      · cases h; exact .proxyClosed _ _ _ _ _ ‹_› (by simp_all)
    · split at h
      · split at h
        · cases h; subst ok; exact .connectOk _ _ _ ‹_› ‹_›
        · cases ok
          · rename_i k a t hpc hd _
            by_cases hk : ∃ b m, (s.stubs k).pc = .asked b m t
            · rw [refusal_asked hk] at h; cases h; exact .connectFail _ _ _ hpc hd hk
            · rw [(refusal_stale hk .io).1, (refusal_stale hk .io).2] at h; cases h
              exact .connectStale _ _ _ _ hpc (fun _ => rfl) hk
          · simp_all
      · rename_i k a t hpc hd
        by_cases hk : ∃ b m, (s.stubs k).pc = .asked b m t
        · rw [refusal_asked hk] at h; cases h; exact .connectRefused _ _ _ _ hpc (by simp_all) hk
        · rw [(refusal_stale hk .io).1, (refusal_stale hk .notAllowed).2] at h; cases h
          exact .connectStale _ _ _ _ hpc (by simp_all) hk
  | accept l a =>
    simp only [step] at h
    split at h
    · cases h; exact .accept l a (by simp_all) (by simp_all)
    · cases h
  | acceptNone l =>
    simp only [step] at h
    split at h
    · cases h; exact .acceptNone l (by simp_all) (by simp_all)
    · cases h
  | lisShare l =>
    simp only [step, Ep.lisShare] at h
    split at h
    · split at h
      · cases h
      · cases h; exact .lisShare l _ ‹_› (by simp_all)
    · cases h
  | lisCmd l =>
    simp only [step, lisCmd] at h
    split at h
    · split at h
      · cases h; exact .lisTake l _ _ _ ‹_› ‹_›
      · split at h
        · cases h
        · cases h; exact .lisEnd l ‹_› ‹_› (by simp_all)
    · cases h
  | packet c r =>
    simp only [step, packet] at h
    split at h
    · rename_i hc
      split at h
      · cases h; exact .packetRoute c r _ hc.1 hc.2 ‹_›
      · cases h; exact .packetSkip c r hc.1 hc.2 (.inl ⟨_, ‹_›⟩)
      · cases h; exact .packetSkip c r hc.1 hc.2 (.inr ‹_›)
      · cases h; exact .packetEnd c r hc.1 hc.2 (.inl ‹_›)
      · cases h; exact .packetEnd c r hc.1 hc.2 (.inr ‹_›)
      · cases h
    · cases h
  | route c =>
    simp only [step, route] at h
    split at h
    · cases h
    · cases h; exact .routeDone c ‹_›
    · split at h
      · cases h
      · split at h
        · cases h; exact .routeUnknown c _ _ ‹_› (by simp_all) ‹_›
        · split at h
          · cases h; exact .routeTo c _ _ _ ‹_› (by simp_all) ‹_› ‹_›
          · cases h; exact .routeDead c _ _ _ ‹_› (by simp_all) ‹_› (by simp_all)
    · split at h
      · split at h
        · cases h; exact .put c _ _ _ ‹_› ‹_› ‹_›
        · cases h
      · cases h; exact .putClosed c _ _ _ ‹_› (by simp_all)
  | connCmd c =>
    simp only [step, connCmd] at h
    split at h
    · rename_i hc
      split at h
      · split at h
        · cases h; exact .cmdMessage c _ _ _ hc.1 hc.2 ‹_› ‹_›
        · cases h; exact .cmdPanic c _ _ hc.1 hc.2 ‹_› ‹_›
      · cases h; exact .cmdTake c _ _ _ hc.1 hc.2 ‹_›
      · split at h
        · cases h
        · cases h; exact .cmdEnd c hc.1 hc.2 ‹_› (by simp_all)
    · cases h
  | sent c ok =>
    simp only [step, sent] at h
    split at h
    · split at h
      · cases h; subst ok; exact .sentOk c _ ‹_›
      · cases h; cases ok
        · exact .sentFail c _ ‹_›
        · simp_all
    · cases h
  | stubSend k a m =>
    simp only [step] at h
    split at h
    · cases h; exact .stubSend k a m (by simp_all) (by simp_all)
    · cases h
  | stubStep k =>
    simp only [step, stubStep] at h
    split at h
    · cases h
    · split at h
      · cases h
      · split at h
        · split at h
          · cases h; exact .checkOk k _ _ _ ‹_› (by simp_all) ‹_› ‹_›
          · split at h
            · cases h; exact .checkAsk k _ _ ‹_› (by simp_all) (by simp_all) ‹_›
            · cases h; exact .checkFail k _ _ ‹_› (by simp_all) (by simp_all) (by simp_all)
        · split at h
          · cases h; exact .checkAsk k _ _ ‹_› (by simp_all) (by simp_all) ‹_›
          · cases h; exact .checkFail k _ _ ‹_› (by simp_all) (by simp_all) (by simp_all)
    · split at h
      · cases h; exact .ask k _ _ ‹_› ‹_›
      · cases h
    · cases h
    · split at h
      · cases h
      · cases h; exact .stubShare k _ _ _ ‹_› (by simp_all)
    · split at h
      · cases h
      · split at h
        · split at h
          · cases h; exact .enterOk k _ _ _ ‹_› (by simp_all) ‹_› ‹_›
          · cases h; exact .enterDead k _ _ _ ‹_› (by simp_all) ‹_› (by simp_all)
        · cases h; exact .enterNone k _ _ ‹_› (by simp_all) ‹_›
    · split at h
      · split at h
        · cases h; exact .sendOk k _ _ _ ‹_› ‹_› ‹_›
        · cases h
      · cases h; exact .sendDead k _ _ _ ‹_› (by simp_all)
  | stubCancel k =>
    simp only [step] at h
    split at h
    · cases h; exact .stubCancel k ‹_›
    · cases h
  | stubRecv k =>
    simp only [step, stubRecv] at h
    split at h
    · rename_i hc
      split at h
      · cases h; exact .stubRecv k _ _ _ hc.1 hc.2 ‹_›
      · split at h
        · cases h
        · cases h; exact .stubClosed k hc.1 hc.2 ‹_› (by simp_all)
    · cases h
  | dropStub k =>
    simp only [step] at h
    split at h
    · cases h; exact .dropStub k ‹_›
    · cases h
  | proxySend p m =>
    simp only [step, proxySend] at h
    split at h
    · split at h
      · split at h
        · cases h; exact .proxySend p m ‹_› ‹_› ‹_›
        · cases h
      · cases h; exact .proxySendFail p m ‹_› (by simp_all)
    · cases h
  | proxyRecv p =>
    simp only [step, proxyRecv] at h
    split at h
    · split at h
      · cases h; exact .proxyRecv p _ _ _ ‹_› ‹_›
      · split at h
        · cases h
        · cases h; exact .proxyRecvClosed p ‹_› ‹_› (by simp_all)
    · cases h
  | dropProxy p =>
    simp only [step] at h
    split at h
    · cases h; exact .dropProxy p ‹_›
    · cases h
  | hashId id id' => cases h; exact .hashId id id'
  | hashAddr a b => cases h; exact .hashAddr a b

end Rsomeip.Rt.Ep
