import Verif.Lemmas.EpShut
import Verif.Props.Rt.Endpoint
import Verif.Props.Rt.Lifetime

/-! # C86: the end is final -/

namespace Rsomeip

open Rt Rt.Ep Spec Spec.Ep Someip

theorem mem_exec {dg : Bool} {tr : Trace} {s s' : State} {x : Action} {o : Obs}
    (e : Exec (step dg) s tr s') (h : (x, o) ∈ tr) :
    ∃ t u s₁ s₂, tr = t ++ (x, o) :: u ∧ Exec (step dg) s t s₁ ∧ step dg s₁ x = some (s₂, o) := by
  obtain ⟨t, u, rfl⟩ := List.append_of_mem h
  obtain ⟨s₃, e₃, _⟩ := Exec.split (t := t ++ [(x, o)]) (u := u)
    (by rw [List.append_assoc]; exact e)
  obtain ⟨s₁, e₁, h₁⟩ := e₃.last
  exact ⟨t, u, s₁, s₃, rfl, e₁, h₁⟩

theorem trace_exec {dg : Bool} {tr : Trace} (h : (perform (step dg) init (tr.map Prod.fst)).map
    (fun x => x.1.map Prod.snd) = some (tr.map Prod.snd)) : ∃ s, Exec (step dg) init tr s := by
  obtain ⟨s, e⟩ := exec_of_shown h
  have h2 : ∀ l : Trace, (l.map Prod.fst).zip (l.map Prod.snd) = l := by
    intro l
    induction l with
    | nil => rfl
    | cons x l ih => simp [ih]
  exact ⟨s, h2 tr ▸ e⟩

/-- **C86.** Once `Stub::recv_from` has reported the end, for every continuation: it reports nothing
else, it never waits, and no message is put into its channel. -/
theorem C86_stub {dg : Bool} {tr tr' : Trace} {s : State} {k i : Nat} {id : InterfaceId}
    (e : Exec (step dg) init (tr ++ (.stubRecv k, .closed) :: tr') s)
    (hk : Shown tr (.serving k i id)) :
    (∀ o, (.stubRecv k, o) ∈ tr' → o = .closed) ∧ (∀ x m a, (x, .routed i m a) ∉ tr') ∧
      ((.dropStub k, .none) ∉ tr ++ tr' → inCall k (tr ++ (.stubRecv k, .closed) :: tr') = false →
        step dg s (.stubRecv k) = some (s, .closed)) := by
  obtain ⟨s₂, e₂, e'⟩ := Exec.split (t := tr ++ [(.stubRecv k, .closed)]) (u := tr')
    (by rw [List.append_assoc]; exact e)
  obtain ⟨s₁, e₁, h₁⟩ := e₂.last
  obtain ⟨hlt, hi, hic, _⟩ := (made e₁).stub k i id hk
  have hg := (good_hist e₁).1
  have hsh : s₂ = s₁ ∧ Shut i s₁ := by
    generalize hx : Action.stubRecv k = x at h₁
    generalize hy : Obs.closed = y at h₁
    cases move_of_step h₁ with
    | stubClosed j ha hw hq hs =>
      cases hx
      rw [hi] at hq hs
      exact ⟨rfl, hic, hq, ifStrong_false hg.fresh hs⟩
    | stubRecv => cases hy
    | _ => cases hx
  obtain ⟨rfl, hsh⟩ := hsh
  refine ⟨fun o ho => ?_, fun x m a hx => ?_, fun hd hw => ?_⟩
  · obtain ⟨t, u, s₃, s₄, rfl, e₃, h₃⟩ := mem_exec e' ho
    have h4 := hsh.exec hg e₃
    have h5 := (stubs_exec hlt e₃).2.trans hi
    generalize hx : Action.stubRecv k = x at h₃
    cases move_of_step h₃ with
    | stubRecv j m a q ha hw hq =>
      cases hx
      rw [h5, h4.queue] at hq
      cases hq
    | stubClosed => rfl
    | _ => cases hx
  · obtain ⟨t, u, s₃, s₄, rfl, e₃, h₃⟩ := mem_exec e' hx
    exact (hsh.exec hg e₃).quiet (move_of_step h₃) m a rfl
  · have hpc := (idle_iff e k).mpr hw
    have h4 := hsh.exec hg e'
    obtain ⟨h5, h6⟩ := stubs_exec hlt e'
    have h7 := (stub_open e h5).resolve_right fun h => hd (by
      simp only [List.mem_append, List.mem_cons] at h ⊢
      rcases h with h | h | h
      · exact .inl h
      · cases h
      · exact .inr h)
    have h8 : s.ifStrong i = false := by
      rw [Bool.eq_false_iff]
      exact fun h => h4.held ((ifStrong_iff (hg.exec e').fresh i).mp h)
    simp [step, stubRecv, h7, hpc, h6.trans hi, h4.queue, h8]

/-- The socket closes the listener; the stub reports the end again and again. -/
example : ∃ s, Exec (step true) init (sampleTrace.take 6 ++ [(.acceptNone 0, .ended)] ++
    (.stubRecv 0, .closed) :: [(.stubRecv 0, .closed), (.stubRecv 0, .closed)]) s :=
  trace_exec (by decide +kernel)

example : Shown (sampleTrace.take 6 ++ [(.acceptNone 0, .ended)]) (.serving 0 0 ⟨1, 1⟩) :=
  ⟨.ep true, by decide⟩

/-- **C86.** Once `Proxy::recv` has reported the end, for every continuation: it reports nothing else,
it never waits, and no message is put into its channel. -/
theorem C86_proxy {dg : Bool} {tr tr' : Trace} {s : State} {p i : Nat} {id : InterfaceId} {r : Addr}
    (e : Exec (step dg) init (tr ++ (.proxyRecv p, .closed) :: tr') s)
    (hp : Shown tr (.proxying p i id r)) :
    (∀ o, (.proxyRecv p, o) ∈ tr' → o = .closed) ∧ (∀ x m a, (x, .routed i m a) ∉ tr') ∧
      ((.dropProxy p, .none) ∉ tr ++ tr' → step dg s (.proxyRecv p) = some (s, .closed)) := by
  obtain ⟨s₂, e₂, e'⟩ := Exec.split (t := tr ++ [(.proxyRecv p, .closed)]) (u := tr')
    (by rw [List.append_assoc]; exact e)
  obtain ⟨s₁, e₁, h₁⟩ := e₂.last
  obtain ⟨hlt, hi, _, hic, _⟩ := (made e₁).proxy p i id r hp
  have hg := (good_hist e₁).1
  have hsh : s₂ = s₁ ∧ Shut i s₁ := by
    generalize hx : Action.proxyRecv p = x at h₁
    generalize hy : Obs.closed = y at h₁
    cases move_of_step h₁ with
    | proxyRecvClosed j ha hq hs =>
      cases hx
      rw [hi] at hq hs
      exact ⟨rfl, hic, hq, ifStrong_false hg.fresh hs⟩
    | proxyRecv => split at hy <;> cases hy
    | _ => cases hx
  obtain ⟨rfl, hsh⟩ := hsh
  refine ⟨fun o ho => ?_, fun x m a hx => ?_, fun hd => ?_⟩
  · obtain ⟨t, u, s₃, s₄, rfl, e₃, h₃⟩ := mem_exec e' ho
    have h4 := hsh.exec hg e₃
    have h5 := (proxies_exec hlt e₃).2.1.trans hi
    generalize hx : Action.proxyRecv p = x at h₃
    cases move_of_step h₃ with
    | proxyRecv j m a q ha hq =>
      cases hx
      rw [h5, h4.queue] at hq
      cases hq
    | proxyRecvClosed => rfl
    | _ => cases hx
  · obtain ⟨t, u, s₃, s₄, rfl, e₃, h₃⟩ := mem_exec e' hx
    exact (hsh.exec hg e₃).quiet (move_of_step h₃) m a rfl
  · have h4 := hsh.exec hg e'
    obtain ⟨h5, h6, _⟩ := proxies_exec hlt e'
    have h7 := (proxy_open e h5).resolve_right fun h => hd (by
      simp only [List.mem_append, List.mem_cons] at h ⊢
      rcases h with h | h | h
      · exact .inl h
      · cases h
      · exact .inr h)
    have h8 : s.ifStrong i = false := by
      rw [Bool.eq_false_iff]
      exact fun h => h4.held ((ifStrong_iff (hg.exec e').fresh i).mp h)
    simp [step, proxyRecv, h7, h6.trans hi, h4.queue, h8]

/-- The socket closes the connection. The proxy returns what was left, and then reports the end again
and again. -/
def Spec.Ep.goneTrace : Trace :=
  sampleTrace ++ [(.route 1, .none), (.packet 1 .closed, .ended)]

example : ∃ s, Exec (step true) init (goneTrace ++
    (.proxyRecv 0, .closed) :: [(.proxyRecv 0, .closed), (.proxyRecv 0, .closed)]) s :=
  trace_exec (by decide +kernel)

example : Shown goneTrace (.proxying 0 1 ⟨2, 1⟩ 7) := ⟨.ep true, by decide⟩

/-- **C86.** Once `Proxy::send` has failed, it fails for every message in every continuation. -/
theorem C86_send {dg : Bool} {tr tr' : Trace} {s : State} {p : Nat} {m : Msg} {w : Why}
    (e : Exec (step dg) init (tr ++ (.proxySend p m, .sendFailed w) :: tr') s) :
    ∀ m' o, (.proxySend p m', o) ∈ tr' → o = .sendFailed .notConnected := by
  obtain ⟨s₂, e₂, e'⟩ := Exec.split (t := tr ++ [(.proxySend p m, .sendFailed w)]) (u := tr')
    (by rw [List.append_assoc]; exact e)
  obtain ⟨s₁, e₁, h₁⟩ := e₂.last
  have hg := (good_hist e₁).1
  have hd : s₂ = s₁ ∧ p < s₁.proxyCount ∧ (s₁.proxies p).conn < s₁.connCount ∧
      (s₁.conns (s₁.proxies p).conn).alive = false := by
    generalize hx : Action.proxySend p m = x at h₁
    generalize hy : Obs.sendFailed w = y at h₁
    cases move_of_step h₁ with
    | proxySendFail j n ha hc =>
      cases hx
      exact ⟨rfl, proxy_lt hg.fresh ha, ((fed e₁).proxies p ha).1, hc⟩
    | proxySend => cases hy
    | _ => cases hx
  obtain ⟨rfl, h1, h2, h3⟩ := hd
  intro m' o ho
  obtain ⟨t, u, s₃, s₄, rfl, e₃, h₃⟩ := mem_exec e' ho
  have h4 := dead_exec h2 h3 e₃
  obtain ⟨_, _, h5⟩ := proxies_exec h1 e₃
  generalize hx : Action.proxySend p m' = x at h₃
  cases move_of_step h₃ with
  | proxySend j n ha hc =>
    cases hx
    rw [h5, h4] at hc
    cases hc
  | proxySendFail => rfl
  | _ => cases hx

/-- A proxy whose connection was closed fails to send, twice. -/
example : ∃ s, Exec (step true) init (goneTrace ++ (.proxySend 0 msgB, .sendFailed .notConnected) ::
    [(.proxyRecv 0, .closed), (.proxySend 0 msgB', .sendFailed .notConnected)]) s :=
  trace_exec (by decide +kernel)

end Rsomeip
