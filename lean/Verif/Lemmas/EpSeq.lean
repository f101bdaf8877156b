import Verif.Lemmas.EpHist

/-! # Sequences of messages -/

namespace Rsomeip.Rt.Ep

open Someip (InterfaceId)
open Spec Spec.Ep

theorem _root_.Rsomeip.Spec.Frames.unique {b : Bytes} {ms ms' : List Msg} (h : Frames b ms)
    (h' : Frames b ms') : ms = ms' := by
  have h1 := (receive_route b ms).mpr h
  rw [(receive_route b ms').mpr h'] at h1
  cases h1
  rfl

theorem contents_eq {b : Bytes} {ms : List Msg} (h : Frames b ms) : contents b = ms := by
  have he : ∃ ms, Frames b ms := ⟨ms, h⟩
  rw [contents, dif_pos he]
  exact (Classical.choose_spec he).unique h

theorem contents_route {b : Bytes} {ms : List Msg} (h : receive (.packet b) = .route ms) :
    contents b = ms := contents_eq ((receive_route b ms).mp h)

theorem contents_drop {b : Bytes} (h : ∀ ms, receive (.packet b) ≠ .route ms) :
    contents b = [] := by
  rw [contents, dif_neg]
  rintro ⟨ms, hm⟩
  exact h ms ((receive_route b ms).mpr hm)

/-- What connection `c` hears in one action. -/
noncomputable def hearing (c : Nat) (a : Action) : List Msg :=
  match a with
  | .packet d (.packet b) => if d = c then contents b else []
  | _ => []

theorem heard_snoc (c : Nat) (tr : Trace) (a : Action) (o : Obs) :
    heard c (tr ++ [(a, o)]) = heard c tr ++ hearing c a := by
  rw [heard, List.flatMap_append]
  simp only [List.flatMap_cons, List.flatMap_nil, List.append_nil]
  rfl

theorem hearing_other {c : Nat} {a : Action} (h : ∀ r, a ≠ .packet c r) : hearing c a = [] := by
  unfold hearing
  split
  · rename_i d b
    rw [if_neg]
    intro hd
    exact h _ (by rw [hd])
  · rfl

theorem hearing_packet {c : Nat} {r : Recv} {ms : List Msg} (h : receive r = .route ms) :
    hearing c (.packet c r) = ms := by
  cases r with
  | packet b => simp only [hearing, if_pos]; exact contents_route h
  | _ => simp [receive] at h

theorem hearing_nothing {c : Nat} {r : Recv} (h : ∀ ms, receive r ≠ .route ms) :
    hearing c (.packet c r) = [] := by
  cases r with
  | packet b => simp only [hearing, if_pos]; exact contents_drop h
  | _ => rfl

theorem settled_snoc (c : Nat) (tr : Trace) (a : Action) (o : Obs) :
    settled c (tr ++ [(a, o)]) = settled c tr ++
      (match a, o with
      | .route d, .routed _ m _ => if d = c then [m] else []
      | .route d, .dropped m _ => if d = c then [m] else []
      | _, _ => []) := by
  rw [settled, List.filterMap_append]
  congr 1
  simp only [List.filterMap_cons, List.filterMap_nil]
  cases a <;> cases o <;> first | rfl | (dsimp only; split <;> simp_all)

theorem settled_other {c : Nat} {tr : Trace} {a : Action} {o : Obs} (h : a ≠ .route c) :
    settled c (tr ++ [(a, o)]) = settled c tr := by
  rw [settled_snoc]
  split <;> simp_all

theorem settled_none {c : Nat} {tr : Trace} {a : Action} :
    settled c (tr ++ [(a, .none)]) = settled c tr := by
  rw [settled_snoc]
  split <;> simp_all

theorem settled_routed {c i : Nat} {tr : Trace} {m : Msg} {b : Addr} :
    settled c (tr ++ [(.route c, .routed i m b)]) = settled c tr ++ [m] := by
  rw [settled_snoc]
  simp

theorem settled_dropped {c : Nat} {tr : Trace} {m : Msg} {w : Drop} :
    settled c (tr ++ [(.route c, .dropped m w)]) = settled c tr ++ [m] := by
  rw [settled_snoc]
  simp

/-- Every message received is dealt with in its turn. -/
structure Line (tr : Trace) (s : State) : Prop where
  fresh : ∀ c, s.connCount ≤ c → heard c tr = [] ∧ settled c tr = []
  alive : ∀ c, (s.conns c).alive = true →
    settled c tr ++ (s.conns c).pc.pending = heard c tr
  ended : ∀ c, (s.conns c).alive = false → settled c tr <+: heard c tr

theorem Line.init : Line [] init := by
  constructor <;> simp [Ep.init, heard, settled]

section
variable {dg : Bool} {s s' : State} {a : Action} {o : Obs} {tr : Trace}

theorem Line.prefix (h : Line tr s) (c : Nat) : settled c tr <+: heard c tr := by
  cases hc : (s.conns c).alive with
  | true => exact ⟨_, h.alive c hc⟩
  | false => exact h.ended c hc

/-- What a step means for a connection. -/
inductive Turn (s s' : State) (c : Nat) (a : Action) (o : Obs) : Prop where
  | keep (hs : s'.conns c = s.conns c) (hr : a ≠ .route c) (hp : ∀ r, a ≠ .packet c r)
  | same (hs : (s'.conns c).alive = (s.conns c).alive)
      (hp' : (s'.conns c).pc.pending = (s.conns c).pc.pending) (ho : o = .none ∨ a ≠ .route c)
      (hp : ∀ r, a ≠ .packet c r)
  | made (hc : c = s.connCount) (hs : s'.conns c = newConn (s'.conns c).addr) (hr : a ≠ .route c)
      (hp : ∀ r, a ≠ .packet c r)
  | stop (hd : (s'.conns c).alive = false) (hr : a ≠ .route c)
      (hp : ∀ r, a = .packet c r → ∀ ms, receive r ≠ .route ms)
  | hear (r : Recv) (ha : a = .packet c r) (hl : (s.conns c).alive = true)
      (hw : (s.conns c).pc.pending = []) (hl' : (s'.conns c).alive = true)
      (hp : receive r = .route (s'.conns c).pc.pending)
  | skip (r : Recv) (ha : a = .packet c r) (hs : s'.conns c = s.conns c)
      (hp : ∀ ms, receive r ≠ .route ms)
  | put (x : Msg) (ha : a = .route c) (hl : (s.conns c).alive = true)
      (hl' : (s'.conns c).alive = true)
      (hw : (s.conns c).pc.pending = x :: (s'.conns c).pc.pending)
      (ho : (∃ i b, o = .routed i x b) ∨ ∃ w, o = .dropped x w)

theorem Turn.other {c d : Nat} {x : Conn} {s₁ : State} (hd : c ≠ d) (h : s₁.conns = upd s.conns d x)
    (hr : a ≠ .route c) (hp : ∀ r, a ≠ .packet c r) : Turn s s₁ c a o :=
  .keep (by rw [h, upd_ne _ _ hd]) hr hp

theorem alive_of_pc (he : Ended s) {c : Nat} (h : (s.conns c).pc ≠ .wait) :
    (s.conns c).alive = true := by
  cases hc : (s.conns c).alive with
  | true => rfl
  | false => exact absurd (he.conns c hc).2.2.2 h

theorem turn (he : Ended s) (m : Move dg s a o s') (c : Nat) : Turn s s' c a o := by
  have hal := @alive_of_pc s he c
  cases m
  case proxyConnect | connectOk | accept =>
    by_cases hd : c = s.connCount
    · exact .made hd (by subst hd; simp [upd_same, newConn]) nofun nofun
    · exact .other hd rfl nofun nofun
  case proxyTake d _ _ _ _ =>
    by_cases hd : c = d
    · subst hd
      exact .same (by simp [upd_same]) (by simp [upd_same]) (.inr nofun) nofun
    · exact .other hd rfl nofun nofun
  case packetRoute d r ms ha hw hr =>
    by_cases hd : c = d
    · subst hd
      exact .hear r rfl ha (by rw [hw]; rfl) (by simp [upd_same, ha])
        (by simp [upd_same, RecvPc.pending, hr])
    · refine .other hd rfl nofun ?_
      intro r h; cases h; exact hd rfl
  case packetSkip d r ha hw hr =>
    by_cases hd : c = d
    · subst hd
      exact .skip r rfl rfl (by rcases hr with ⟨e, hr⟩ | hr <;> simp [hr])
    · refine .keep rfl nofun ?_
      intro r h; cases h; exact hd rfl
  case packetEnd d r ha hw hr =>
    by_cases hd : c = d
    · subst hd
      refine .stop (by simp [upd_same, Conn.ended]) nofun ?_
      intro r h; cases h
      rcases hr with hr | hr <;> simp [hr]
    · refine .other hd rfl nofun ?_
      intro r h; cases h; exact hd rfl
  case routeDone d hw =>
    by_cases hd : c = d
    · subst hd
      exact .same (by simp [upd_same]) (by simp [upd_same, hw, RecvPc.pending]) (.inl rfl) nofun
    · refine .other hd rfl ?_ nofun
      intro h; cases h; exact hd rfl
  case routeTo d x ms i hw hl hg hs =>
    by_cases hd : c = d
    · subst hd
      exact .same (by simp [upd_same]) (by simp [upd_same, hw, RecvPc.pending]) (.inl rfl) nofun
    · refine .other hd rfl ?_ nofun
      intro h; cases h; exact hd rfl
  case routeUnknown d x ms hw hl hg =>
    by_cases hd : c = d
    · subst hd
      have := hal (by rw [hw]; nofun)
      exact .put x rfl this (by simp [upd_same, this]) (by simp [upd_same, hw, RecvPc.pending])
        (.inr ⟨_, rfl⟩)
    · refine .other hd rfl ?_ nofun
      intro h; cases h; exact hd rfl
  case routeDead d x ms i hw hl hg hs =>
    by_cases hd : c = d
    · subst hd
      have := hal (by rw [hw]; nofun)
      exact .put x rfl this (by simp [upd_same, this]) (by simp [upd_same, hw, RecvPc.pending])
        (.inr ⟨_, rfl⟩)
    · refine .other hd rfl ?_ nofun
      intro h; cases h; exact hd rfl
  case putClosed d i x ms hw hrx =>
    by_cases hd : c = d
    · subst hd
      have := hal (by rw [hw]; nofun)
      exact .put x rfl this (by simp [upd_same, this]) (by simp [upd_same, hw, RecvPc.pending])
        (.inr ⟨_, rfl⟩)
    · refine .other hd rfl ?_ nofun
      intro h; cases h; exact hd rfl
  case put d i x ms hw hrx hq =>
    by_cases hd : c = d
    · subst hd
      have := hal (by rw [hw]; nofun)
      exact .put x rfl this (by simp [upd_same, this]) (by simp [upd_same, hw, RecvPc.pending])
        (.inl ⟨_, _, rfl⟩)
    · refine .other hd rfl ?_ nofun
      intro h; cases h; exact hd rfl
  case cmdMessage d _ _ _ _ _ _ _ | cmdTake d _ _ _ _ _ _ | sentOk d _ _ =>
    by_cases hd : c = d
    · subst hd
      exact .same (by simp [upd_same]) (by simp [upd_same]) (.inr nofun) nofun
    · exact .other hd rfl nofun nofun
  case cmdPanic d _ _ _ _ _ _ | cmdEnd d _ _ _ _ | sentFail d _ _ =>
    by_cases hd : c = d
    · subst hd
      exact .stop (by simp [upd_same, Conn.ended]) nofun nofun
    · exact .other hd rfl nofun nofun
  case sendOk d _ _ _ =>
    by_cases hd : c = d
    · subst hd
      exact .same (by simp [upd_same]) (by simp [upd_same]) (.inr nofun) nofun
    · exact .other hd rfl nofun nofun
  case proxySend p _ _ _ _ =>
    by_cases hd : c = (s.proxies p).conn
    · subst hd
      exact .same (by simp [upd_same]) (by simp [upd_same]) (.inr nofun) nofun
    · exact .other hd rfl nofun nofun
  all_goals exact .keep rfl nofun nofun

theorem act_lt (hf : Fresh s) (m : Move dg s a o s') {c : Nat}
    (h : a = .route c ∨ ∃ r, a = .packet c r) : c < s.connCount := by
  have h1 := @alive_lt s hf c
  have h2 := @pc_lt s hf c
  cases m <;> simp only [reduceCtorEq, exists_false, or_false, false_or, Action.route.injEq,
    Action.packet.injEq, exists_eq_right_right, exists_and_left] at h <;> grind

theorem Line.step (h : Line tr s) (hf : Fresh s) (he : Ended s) (m : Move dg s a o s') :
    Line (tr ++ [(a, o)]) s' := by
  have hcnt : s.connCount ≤ s'.connCount := by cases m <;> simp
  have key : ∀ c, ((s'.conns c).alive = true →
        settled c (tr ++ [(a, o)]) ++ (s'.conns c).pc.pending = heard c (tr ++ [(a, o)])) ∧
      ((s'.conns c).alive = false → settled c (tr ++ [(a, o)]) <+: heard c (tr ++ [(a, o)])) := by
    intro c
    have h1 := h.alive c
    have h2 := h.prefix c
    have h3 := h.fresh c
    cases turn he m c with
    | keep hs hr hp =>
      rw [settled_other hr, heard_snoc, hearing_other hp, hs, List.append_nil]
      exact ⟨h1, fun _ => h2⟩
    | same hs hp' ho hp =>
      have : settled c (tr ++ [(a, o)]) = settled c tr := by
        rcases ho with rfl | ho
        · exact settled_none
        · exact settled_other ho
      rw [this, heard_snoc, hearing_other hp, hs, hp', List.append_nil]
      exact ⟨h1, fun _ => h2⟩
    | made hc hs hr hp =>
      obtain ⟨h4, h5⟩ := h3 (hc ▸ Nat.le_refl _)
      rw [settled_other hr, heard_snoc, hearing_other hp, hs, List.append_nil, h4, h5]
      exact ⟨fun _ => rfl, fun _ => List.nil_prefix⟩
    | stop hd hr hp =>
      refine ⟨fun h => (by rw [hd] at h; cases h), fun _ => ?_⟩
      rw [settled_other hr, heard_snoc]
      exact h2.trans (List.prefix_append ..)
    | hear r ha hl hw hl' hp =>
      subst ha
      rw [settled_other (c := c) (a := .packet c r) nofun, heard_snoc, hearing_packet hp, hl', ← h1 hl, hw, List.append_nil]
      exact ⟨fun _ => rfl, fun h => by cases h⟩
    | skip r ha hs hp =>
      subst ha
      rw [settled_other (c := c) (a := .packet c r) nofun, heard_snoc, hearing_nothing hp, hs, List.append_nil]
      exact ⟨h1, fun _ => h2⟩
    | put x ha hl hl' hw ho =>
      subst ha
      have : settled c (tr ++ [(.route c, o)]) = settled c tr ++ [x] := by
        rcases ho with ⟨i, b, rfl⟩ | ⟨w, rfl⟩
        · exact settled_routed
        · exact settled_dropped
      rw [this, heard_snoc, hearing_other (a := .route c) nofun, hl', ← h1 hl, hw, List.append_nil]
      exact ⟨fun _ => by simp, fun h => by cases h⟩
  refine ⟨fun c hc => ?_, fun c => (key c).1, fun c => (key c).2⟩
  have h3 := h.fresh c (Nat.le_trans hcnt hc)
  have h4 := @act_lt dg s s' a o hf m c
  have h5 : a ≠ .route c := fun h => absurd (h4 (.inl h)) (by omega)
  have h6 : ∀ r, a ≠ .packet c r := fun r h => absurd (h4 (.inr ⟨r, h⟩)) (by omega)
  rw [settled_other h5, heard_snoc, hearing_other h6, List.append_nil]
  exact h3

end

end Rsomeip.Rt.Ep
