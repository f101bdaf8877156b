import Verif.Lemmas.EpConn
import Verif.Lemmas.EpSeq

/-! # How much there is left to do -/

namespace Rsomeip.Rt.Ep

open Someip (InterfaceId)
open Spec Spec.Ep

/-- `f 0 + ... + f (n - 1)`. -/
def total (f : Nat → Nat) : Nat → Nat
  | 0 => 0
  | n + 1 => total f n + f n

theorem total_le {f g : Nat → Nat} {n : Nat} (h : ∀ i, f i ≤ g i) : total f n ≤ total g n := by
  induction n with
  | zero => exact Nat.le_refl _
  | succ n ih => exact Nat.add_le_add ih (h n)

theorem total_congr {f g : Nat → Nat} {n : Nat} (h : ∀ i, i < n → f i = g i) :
    total f n = total g n := by
  induction n with
  | zero => rfl
  | succ n ih => rw [total, total, ih fun i hi => h i (by omega), h n (by omega)]

theorem total_upd {α : Type} (w : α → Nat) (f : Nat → α) (k : Nat) (v : α) {n : Nat} (hk : k < n) :
    total (fun i => w (upd f k v i)) n + w (f k) = total (fun i => w (f i)) n + w v := by
  induction n with
  | zero => exact absurd hk (Nat.not_lt_zero _)
  | succ n ih =>
    rw [total, total]
    by_cases h : k = n
    · subst h
      rw [upd_same, total_congr (g := fun i => w (f i)) fun i hi => by rw [upd_ne _ _ (by omega)]]
      omega
    · have := ih (by omega)
      rw [upd_ne f v (show n ≠ k by omega)]
      omega

theorem total_new {α : Type} (w : α → Nat) (f : Nat → α) (v : α) (n : Nat) :
    total (fun i => w (upd f n v i)) (n + 1) = total (fun i => w (f i)) n + w v := by
  rw [total, upd_same, total_congr (g := fun i => w (f i)) fun i hi => by rw [upd_ne _ _ (by omega)]]

/-- Steps of a connection. -/
def Conn.work (c : Conn) : Nat :=
  if c.alive then
    1 + 2 * c.cmds.length + c.out.toList.length +
      match c.pc with
      | .wait => 0
      | .route ms => 1 + 2 * ms.length
      | .sending _ _ ms => 2 + 2 * ms.length
  else 0

/-- Steps of a listener. -/
def Lis.work (l : Lis) : Nat :=
  if l.alive then
    1 + l.cmds.length +
      match l.pc with
      | .wait => 0
      | .share _ => 1
  else 0

/-- Steps of a stub, and of others for it. -/
def Stub.work (k : Stub) : Nat :=
  match k.pc with
  | .idle => 0
  | .sending .. => 3
  | .enter .. => 4
  | .share .. => 5
  | .asked .. => 6
  | .asking .. => 10
  | .check .. => 11

/-- Steps for a command. -/
def EpCmd.work : EpCmd → Nat
  | .serve _ => 7
  | .proxy .. => 9
  | .connect .. => 3

/-- Steps of the endpoint task. -/
def EpPc.work : EpPc → Nat
  | .stopped => 0
  | .idle => 1
  | .serveTake .. => 3
  | .serveShare .. => 4
  | .serveListen .. => 6
  | .serveCheck .. => 7
  | .proxyTake .. => 4
  | .proxyShare .. => 5
  | .proxyConnect .. => 7
  | .proxyGet .. => 8
  | .proxyCheck .. => 9
  | .connect .. => 3

/-- All steps that can be done without calls and without input from the network. -/
def State.work (s : State) : Nat :=
  s.pc.work + (s.cmds.map EpCmd.work).sum + total (fun l => (s.liss l).work) s.lisCount +
    total (fun c => (s.conns c).work) s.connCount + total (fun k => (s.stubs k).work) s.stubCount

/-- An action of a task, or of a call in progress. -/
def Action.internal : Action → Bool
  | .ep _ => true
  | .lisShare _ => true
  | .lisCmd _ => true
  | .route _ => true
  | .connCmd _ => true
  | .sent .. => true
  | .stubStep _ => true
  | _ => false

section
variable {dg : Bool} {s s' : State} {a : Action} {o : Obs}

theorem answer_work (s : State) (k t c j : Nat) : (answer s k t c j).work ≤ (s.stubs j).work := by
  rcases answer_cases s k t c j with ⟨b, m, rfl, h1, h2⟩ | h
  · rw [h2]; simp [Stub.work, h1]
  · rw [h]

theorem refuse_work (s : State) (k t j : Nat) : (refuse s k t j).work ≤ (s.stubs j).work := by
  rcases refuse_cases s k t j with ⟨b, m, rfl, h1, h2⟩ | h
  · rw [h2]; simp [Stub.work]
  · rw [h]

theorem lis_lt (hf : Fresh s) {l : Nat} (h : (s.liss l).alive = true) : l < s.lisCount := by
  apply Decidable.byContradiction
  intro hn
  rw [hf.liss l (Nat.not_lt.mp hn)] at h
  cases h

theorem stubpc_lt (hf : Fresh s) {k : Nat} (h : (s.stubs k).pc ≠ .idle) : k < s.stubCount := by
  apply Decidable.byContradiction
  intro hn
  rw [hf.stubs k (Nat.not_lt.mp hn)] at h
  exact h rfl

theorem work_pc (h1 : s'.conns = s.conns) (h2 : s'.connCount = s.connCount)
    (h3 : s'.liss = s.liss) (h4 : s'.lisCount = s.lisCount) (h5 : s'.stubs = s.stubs)
    (h6 : s'.stubCount = s.stubCount)
    (h : s'.pc.work + (s'.cmds.map EpCmd.work).sum < s.pc.work + (s.cmds.map EpCmd.work).sum) :
    s'.work < s.work := by
  rw [State.work, State.work, h1, h2, h3, h4, h5, h6]
  omega

theorem work_conn {c : Nat} {v : Conn} (h1 : s'.conns = upd s.conns c v)
    (h2 : s'.connCount = s.connCount)
    (h3 : s'.liss = s.liss) (h4 : s'.lisCount = s.lisCount) (h5 : s'.stubs = s.stubs)
    (h6 : s'.stubCount = s.stubCount) (h7 : s'.pc = s.pc) (h8 : s'.cmds = s.cmds)
    (hc : c < s.connCount) (h : v.work < (s.conns c).work) : s'.work < s.work := by
  have := total_upd Conn.work s.conns c v hc
  rw [State.work, State.work, h1, h2, h3, h4, h5, h6, h7, h8]
  omega

theorem work_lis {l : Nat} {v : Lis} (h1 : s'.conns = s.conns)
    (h2 : s'.connCount = s.connCount)
    (h3 : s'.liss = upd s.liss l v) (h4 : s'.lisCount = s.lisCount) (h5 : s'.stubs = s.stubs)
    (h6 : s'.stubCount = s.stubCount) (h7 : s'.pc = s.pc) (h8 : s'.cmds = s.cmds)
    (hc : l < s.lisCount) (h : v.work < (s.liss l).work) : s'.work < s.work := by
  have := total_upd Lis.work s.liss l v hc
  rw [State.work, State.work, h1, h2, h3, h4, h5, h6, h7, h8]
  omega

theorem work_stub {k : Nat} {v : Stub} (h1 : s'.conns = s.conns)
    (h2 : s'.connCount = s.connCount)
    (h3 : s'.liss = s.liss) (h4 : s'.lisCount = s.lisCount) (h5 : s'.stubs = upd s.stubs k v)
    (h6 : s'.stubCount = s.stubCount) (h7 : s'.pc = s.pc)
    (hc : k < s.stubCount)
    (h : v.work + (s'.cmds.map EpCmd.work).sum < (s.stubs k).work + (s.cmds.map EpCmd.work).sum) :
    s'.work < s.work := by
  have := total_upd Stub.work s.stubs k v hc
  rw [State.work, State.work, h1, h2, h3, h4, h5, h6, h7]
  omega

theorem Move.work (hf : Fresh s) (he : Ended s) (m : Move dg s a o s') (hi : a.internal = true) :
    s'.work < s.work := by
  cases m
  case serve | proxy | close | upgrade | upgradeNone | accept | acceptNone | packetRoute | packetSkip | packetEnd | stubSend
    | stubCancel | stubRecv | stubClosed | dropStub | proxySend | proxySendFail | proxyRecv
    | proxyRecvClosed | dropProxy | hashId | hashAddr => cases hi
  case epServe | epProxy | epConnect | epStop | serveExists | serveGo | serveOld | serveNoListen
    | serveShare | serveClosed | proxyExists | proxyGo | proxyFound | proxyMissing | proxyNoConnect
    | proxyShare | proxyClosed =>
    refine work_pc rfl rfl rfl rfl rfl rfl ?_
    simp_all [EpPc.work, EpCmd.work]
    try omega
  case routeDone c hw | routeUnknown c _ _ hw _ _ | routeTo c _ _ _ hw _ _ _
    | routeDead c _ _ _ hw _ _ _ | put c _ _ _ hw _ _ | putClosed c _ _ _ hw _ =>
    have ha := alive_of_pc he (c := c) (by rw [hw]; nofun)
    refine work_conn rfl rfl rfl rfl rfl rfl rfl rfl (alive_lt hf ha) ?_
    simp [Conn.work, ha, hw]
    try omega
  case cmdMessage c _ _ _ ha ho hq _ | cmdPanic c _ _ ha ho hq _ | cmdTake c _ _ _ ha ho hq
    | cmdEnd c ha ho hq _ =>
    refine work_conn rfl rfl rfl rfl rfl rfl rfl rfl (alive_lt hf ha) ?_
    simp [Conn.work, Conn.ended, ha, ho, hq]
    try omega
  case sentOk c b ho | sentFail c b ho =>
    have ha : (s.conns c).alive = true := by
      cases h : (s.conns c).alive with
      | true => rfl
      | false => rw [(he.conns c h).2.1] at ho; cases ho
    refine work_conn rfl rfl rfl rfl rfl rfl rfl rfl (alive_lt hf ha) ?_
    simp [Conn.work, Conn.ended, ha, ho]
    try omega
  case lisShare l c hw hl =>
    have ha : (s.liss l).alive = true := by
      cases h : (s.liss l).alive with
      | true => rfl
      | false => rw [(he.liss l h).2.2.2] at hw; cases hw
    refine work_lis rfl rfl rfl rfl rfl rfl rfl rfl (lis_lt hf ha) ?_
    simp [Lis.work, ha, hw]
  case lisTake l _ _ _ ha hq | lisEnd l ha hq _ =>
    refine work_lis rfl rfl rfl rfl rfl rfl rfl rfl (lis_lt hf ha) ?_
    simp [Lis.work, deadLis, ha, hq]
    try omega
  case checkOk k _ _ _ hw _ _ _ | checkAsk k _ _ hw _ _ _ | checkFail k _ _ hw _ _ _ | ask k _ _ hw _
    | stubShare k _ _ _ hw _ | enterOk k _ _ _ hw _ _ _ | enterDead k _ _ _ hw _ _ _
    | enterNone k _ _ hw _ _ | sendDead k _ _ _ hw _ =>
    refine work_stub rfl rfl rfl rfl rfl rfl rfl (stubpc_lt hf (by rw [hw]; nofun)) ?_
    simp [Stub.work, EpCmd.work, hw]
    try omega
  case serveNew id hpc _ =>
    have := total_new Lis.work s.liss newLis s.lisCount
    simp only [State.work, hpc, EpPc.work] at *
    simp only [newLis, Lis.work] at this ⊢
    simp at this ⊢
    omega
  case serveTake ok id l i hpc ha hq =>
    have h1 := total_upd Lis.work s.liss l
      { s.liss l with cmds := (s.liss l).cmds ++ [(id, i)] } (lis_lt hf ha)
    have h2 := total_new Stub.work s.stubs ⟨i, l, true, .empty, .idle⟩ s.stubCount
    simp only [State.work, hpc, EpPc.work]
    rw [h2]
    simp [Lis.work, ha, Stub.work] at h1 ⊢
    omega
  case proxyConnect id b hpc =>
    have := total_new Conn.work s.conns (newConn b) s.connCount
    simp only [State.work, hpc, EpPc.work]
    rw [this]
    simp [newConn, Conn.work]
    omega
  case proxyTake ok id b c i hpc ha hq =>
    have h1 := total_upd Conn.work s.conns c
      { s.conns c with cmds := (s.conns c).cmds ++ [.take id i] } (alive_lt hf ha)
    simp only [State.work, hpc, EpPc.work]
    simp [Conn.work, ha] at h1 ⊢
    omega
  case connectOk k b t hpc hd =>
    have h1 := total_new Conn.work s.conns (newConn b) s.connCount
    have h2 := total_le (n := s.stubCount) (answer_work s k t s.connCount)
    simp only [State.work, hpc, EpPc.work]
    rw [h1]
    simp [newConn, Conn.work] at *
    omega
  case connectStale k b t hpc hd hk =>
    simp only [State.work, hpc, EpPc.work]
    omega
  case connectFail k b t hpc hd hk | connectRefused k b t hpc hd hk =>
    have h2 := total_le (n := s.stubCount) (refuse_work s k t)
    simp only [State.work, hpc, EpPc.work]
    omega
  case sendOk k b x c hw ha hq =>
    have h1 := total_upd Conn.work s.conns c
      { s.conns c with cmds := (s.conns c).cmds ++ [.message x] } (alive_lt hf ha)
    have h2 := total_upd Stub.work s.stubs k { s.stubs k with pc := .idle }
      (stubpc_lt hf (by rw [hw]; nofun))
    simp only [State.work, State.stubAt]
    simp [Conn.work, ha, Stub.work, hw] at h1 h2 ⊢
    omega

/-- Without calls and without input from the network, only finitely many steps are possible. -/
theorem work_bound {t : List (Action × Obs)} (hg : Good s) (e : Exec (Ep.step dg) s t s')
    (h : ∀ x ∈ t, x.1.internal = true) : t.length + s'.work ≤ s.work := by
  induction e with
  | nil => simp
  | @snoc t s₁ s₂ a o e hs ih =>
    have h1 := ih fun x hx => h x (List.mem_append_left _ hx)
    have hg' := hg.exec e
    have h2 := (move_of_step hs).work hg'.fresh hg'.ended
      (h (a, o) (List.mem_append_right _ (List.mem_singleton_self _)))
    rw [List.length_append, List.length_singleton]
    omega

end

end Rsomeip.Rt.Ep
