import Verif.Lemmas.EpWire
import Verif.Lemmas.EpShut
import Verif.Lemmas.NodeOnce
import Verif.Spec.TcpNode
import Verif.Props.Rt.Tcp

/-! # Steps of an endpoint on a TCP socket -/

namespace Rsomeip.Rt.TcpNode

open Spec.TcpNode
open Spec.Ep (accepted onWire wireForm)
open Spec.Node (reads)

/-- All steps. -/
inductive Move (s : State) : Action → State → Obs → Prop where
  | app (x e o) (h1 : ∀ c r, x ≠ .packet c r) (h2 : ∀ c ok, x ≠ .sent c ok)
      (he : Ep.step false s.ep x = some (e, o)) :
      Move s (.app x) { s with ep := e } ⟨some (x, o), none⟩
  | arrive (c b) (hc : c < s.ep.connCount) (h : s.eof c = false) :
      Move s (.arrive c b) { s with inb := upd s.inb c (s.inb c ++ b) } ⟨none, none⟩
  | shut (c) (hc : c < s.ep.connCount) :
      Move s (.shut c) { s with eof := upd s.eof c true } ⟨none, none⟩
  | wait (c) : Move s (.read c .wouldBlock) s ⟨none, none⟩
  | broken (c a e o) (ha : a = .broken ∨ a = .failed)
      (he : Ep.step false s.ep (.packet c .closed) = some (e, o)) :
      Move s (.read c a) { s with ep := e, inb := upd s.inb c (s.inb c) }
        ⟨some (.packet c .closed, o), none⟩
  | read (c n e o) (hp : if s.inb c = [] then s.eof c = true else 0 < n)
      (he : Ep.step false s.ep (.packet c (.packet ((s.inb c).take (min n 1400)))) = some (e, o)) :
      Move s (.read c (.read n))
        { s with ep := e, inb := upd s.inb c ((s.inb c).drop (min n 1400)) }
        ⟨some (.packet c (.packet ((s.inb c).take (min n 1400))), o), none⟩
  | taken (c a b w) (hb : (s.ep.conns c).out = some b)
      (hw : Tcp.send b (s.sent c) [] [a] = (.pending, w)) :
      Move s (.write c a) { s with sent := upd s.sent c (s.sent c + w.length) } ⟨none, some (c, w)⟩
  | done (c a b w e o) (hb : (s.ep.conns c).out = some b)
      (hw : Tcp.send b (s.sent c) [] [a] = (.ok, w))
      (he : Ep.step false s.ep (.sent c true) = some (e, o)) :
      Move s (.write c a) { s with ep := e, sent := upd s.sent c 0 }
        ⟨some (.sent c true, o), some (c, w)⟩
  | failed (c a b b' w e o) (hb : (s.ep.conns c).out = some b)
      (hw : Tcp.send b (s.sent c) [] [a] = (.error b', w))
      (he : Ep.step false s.ep (.sent c false) = some (e, o)) :
      Move s (.write c a) { s with ep := e, sent := upd s.sent c 0 }
        ⟨some (.sent c false, o), some (c, w)⟩

theorem drop_took (b : Bytes) (n : Nat) : b.drop (b.take n).length = b.drop n := by
  rw [List.length_take]
  by_cases h : n ≤ b.length
  · rw [Nat.min_eq_left h]
  · rw [List.drop_of_length_le (by omega), List.drop_of_length_le (by omega)]

theorem does_inv {s s' : State} {x : Ep.Action} {out : Option (Nat × Bytes)} {w : Obs}
    (h : does s x out = some (s', w)) :
    ∃ e o, Ep.step false s.ep x = some (e, o) ∧ s' = { s with ep := e } ∧ w = ⟨some (x, o), out⟩ := by
  simp only [does] at h
  split at h
  · cases h; exact ⟨_, _, ‹_›, rfl, rfl⟩
  · cases h

theorem move_of_step {s s' : State} {a : Action} {w : Obs} (h : step s a = some (s', w)) :
    Move s a s' w := by
  cases a with
  | app x =>
    cases x
    case hashId id id' =>
      have h : does s (.hashId id id') none = some (s', w) := h
      obtain ⟨e, o, he, rfl, rfl⟩ := does_inv h; exact .app _ _ _ nofun nofun he
    case hashAddr a b =>
      have h : does s (.hashAddr a b) none = some (s', w) := h
      obtain ⟨e, o, he, rfl, rfl⟩ := does_inv h; exact .app _ _ _ nofun nofun he
    all_goals first
      | (obtain ⟨e, o, he, rfl, rfl⟩ := does_inv h; exact .app _ _ _ nofun nofun he)
      | cases h
  | arrive c b =>
    simp only [step] at h
    split at h
    · cases h; exact .arrive _ _ (by tauto) (by tauto)
    · cases h
  | shut c =>
    simp only [step] at h
    split at h
    · cases h; exact .shut _ ‹_›
    · cases h
  | read c a =>
    simp only [step, read] at h
    split at h
    · rename_i hp
      cases a with
      | wouldBlock => cases h; exact .wait _
      | broken => obtain ⟨e, o, he, rfl, rfl⟩ := does_inv h; exact .broken _ _ _ _ (.inl rfl) he
      | failed => obtain ⟨e, o, he, rfl, rfl⟩ := does_inv h; exact .broken _ _ _ _ (.inr rfl) he
      | read n =>
        obtain ⟨e, o, he, rfl, rfl⟩ := does_inv h
        simp only [Tcp.readSize, drop_took] at he ⊢
        refine .read _ _ _ _ ?_ he
        have := hp.2.2
        simp only [possible] at this
        split <;> simp_all
    · cases h
  | write c a =>
    simp only [step, write] at h
    split at h
    · split at h
      · cases h; exact .taken _ _ _ _ ‹_› ‹_›
      · obtain ⟨e, o, he, rfl, rfl⟩ := does_inv h; exact .done _ _ _ _ _ _ ‹_› ‹_› he
      · obtain ⟨e, o, he, rfl, rfl⟩ := does_inv h; exact .failed _ _ _ _ _ _ _ ‹_› ‹_› he
      · cases h
    · cases h

section
variable {tr : Trace} {s : State} {a : Action} {w : Obs}

theorem app_snoc : Spec.TcpNode.app (tr ++ [(a, w)]) = Spec.TcpNode.app tr ++ w.ep.toList := by
  rw [Spec.TcpNode.app, List.filterMap_append]
  congr 1

theorem written_snoc (c : Nat) : written c (tr ++ [(a, w)]) = written c tr ++
    (match w.out with
    | some (d, b) => if d = c then b else []
    | none => []) := by
  rw [written, List.flatMap_append, List.flatMap_singleton]
  rfl

theorem arrived_snoc (c : Nat) : arrived c (tr ++ [(a, w)]) = arrived c tr ++
    (match a with
    | .arrive d b => if d = c then b else []
    | _ => []) := by
  rw [arrived, List.flatMap_append, List.flatMap_singleton]
  rfl

end

/-- The endpoint's part of a history is a history of the endpoint. -/
theorem part {tr : Trace} {s : State} (e : Exec step init tr s) :
    Exec (Ep.step false) Ep.init (Spec.TcpNode.app tr) s.ep := by
  induction e with
  | nil => exact .nil
  | @snoc tr1 s1 s2 act ob _ hs ih =>
    rw [app_snoc]
    cases move_of_step hs <;> first
      | (simp only [Option.toList_none, List.append_nil]; exact ih)
      | exact .snoc ih ‹_›

/-! ### Reading -/

theorem in_hist {tr : Trace} {s : State} (e : Exec step init tr s) (c : Nat) :
    (reads c (Spec.TcpNode.app tr)).flatten ++ s.inb c = arrived c tr := by
  induction e with
  | nil => rfl
  | @snoc tr1 s1 s2 act ob _ hs ih =>
    rw [app_snoc, arrived_snoc, ← ih]
    cases move_of_step hs with
    | app x e o h1 h2 =>
      have : reads c [(x, o)] = [] := by
        cases x <;> first | rfl | skip
        exact absurd rfl (h1 _ _)
      simp [Node.reads_snoc, this]
    | arrive d b =>
      by_cases h : d = c
      · subst h; simp [upd_same]
      · simp [h, upd, Ne.symm h]
    | broken d =>
      by_cases h : d = c
      · subst h; simp [upd_same, Node.reads_snoc, reads]
      · simp [upd, Ne.symm h, Node.reads_snoc, reads]
    | read d n =>
      by_cases h : d = c
      · subst h; simp [upd_same, Node.reads_snoc, reads]
      · simp [h, upd, Ne.symm h, Node.reads_snoc, reads]
    | done | failed => simp [Node.reads_snoc, reads]
    | _ => simp

/-! ### Writing -/

/-- How far `TcpSender::send` has got. -/
def Progress (out : Option Bytes) (sent : Nat) : Prop :=
  match out with
  | some b => sent < b.length ∨ (sent = 0 ∧ b = [])
  | none => sent = 0

/-- What has been written of the buffer that is being sent. -/
def part_ (out : Option Bytes) (sent : Nat) : Bytes :=
  match out with
  | some b => b.take sent
  | none => []

structure Streams (tr : Trace) (s : State) : Prop where
  prog : ∀ c, ((s.ep.conns c).alive = true ∨ s.ep.connCount ≤ c) →
    Progress (s.ep.conns c).out (s.sent c)
  outs : ∀ c, (s.ep.conns c).alive = true → written c tr =
    (onWire c (Spec.TcpNode.app tr)).flatten ++ part_ (s.ep.conns c).out (s.sent c)
  pre : ∀ c, written c tr <+: ((accepted c (Spec.TcpNode.app tr)).map wireForm).flatten
  new : ∀ c, s.ep.connCount ≤ c → written c tr = []

/-- What the endpoint's own steps do to the buffers being sent. -/
theorem out_cases {s s' : Ep.State} {x : Ep.Action} {o : Ep.Obs} (m : Ep.Move false s x o s')
    (h2 : ∀ c ok, x ≠ .sent c ok) (c : Nat)
    (ha : (s'.conns c).alive = true) :
    ((s.conns c).alive = true ∧ ((s'.conns c).out = (s.conns c).out ∨
      (s.conns c).out = none)) ∨ (c = s.connCount ∧ (s'.conns c).out = none) := by
  cases m <;> first
    | exact .inl ⟨ha, .inl rfl⟩
    | grind [upd, Ep.Conn.ended, Ep.newConn]

theorem round {b : Bytes} {n : Nat} (a : Tcp.WriteAnswer) (hp : Progress (some b) n) :
    match Tcp.send b n [] [a] with
    | (.ok, w) => b.take n ++ w = b
    | (.error b', w) => b' = b ∧ w = []
    | (.pending, w) => b.take n ++ w = b.take (n + w.length) ∧ Progress (some b) (n + w.length)
    | (.panic, _) => False := by
  have hle : ¬ b.length < n := by
    rcases hp with h | ⟨rfl, rfl⟩
    · omega
    · simp
  cases a with
  | wouldBlock => exact ⟨by simp, hp⟩
  | broken => exact ⟨rfl, rfl⟩
  | failed => rw [Tcp.send, if_neg hle]; exact ⟨rfl, rfl⟩
  | wrote k =>
    simp only [Tcp.send, if_neg hle, List.nil_append]
    have key : b.take n ++ (b.drop n).take k = b.take (n + k) := by
      rw [List.take_add]
    have hl : ((b.drop n).take k).length = min k (b.length - n) := by simp
    by_cases h : n + min k (b.length - n) < b.length
    · rw [if_pos (by rwa [hl])]
      refine ⟨?_, .inl (by rwa [hl])⟩
      rw [key, hl, Nat.min_eq_left (by omega)]
    · rw [if_neg (by rwa [hl])]
      exact key.trans (List.take_of_length_le (by omega))

theorem flatten_prefix {x y : List Bytes} (h : x <+: y) : x.flatten <+: y.flatten := by
  obtain ⟨z, rfl⟩ := h
  exact ⟨z.flatten, by rw [List.flatten_append]⟩

/-- What is on the wire so far is the beginning of what was accepted. -/
theorem outs_pre {dg : Bool} {t : Spec.Ep.Trace} {e : Ep.State} {c n : Nat}
    (h : Exec (Ep.step dg) Ep.init t e) (ha : (e.conns c).alive = true) :
    (onWire c t).flatten ++ part_ (e.conns c).out n <+: ((accepted c t).map wireForm).flatten := by
  rw [← (Ep.wire h).alive c ha, List.flatten_append, List.prefix_append_right_inj]
  rw [Ep.Conn.todo]
  cases (e.conns c).out with
  | none => exact List.nil_prefix
  | some b =>
    simp only [part_, Option.toList_some, List.singleton_append, List.flatten_cons]
    exact (List.take_prefix n b).trans (List.prefix_append ..)

theorem accepted_grows (c : Nat) (t u : Spec.Ep.Trace) :
    ((accepted c t).map wireForm).flatten <+: ((accepted c (t ++ u)).map wireForm).flatten := by
  refine flatten_prefix ?_
  rw [accepted, accepted, List.filterMap_append, List.map_append]
  exact List.prefix_append ..

theorem Streams.init : Streams [] init := by
  constructor <;> simp [TcpNode.init, Ep.init, Progress, written, part_, onWire]

theorem out_alive {e : Ep.State} (hg : Ep.Good e) {c : Nat} {b : Bytes}
    (hb : (e.conns c).out = some b) : (e.conns c).alive = true ∧ c < e.connCount := by
  have ha : (e.conns c).alive = true := by
    cases ha : (e.conns c).alive with
    | true => rfl
    | false => have := (hg.ended.conns c ha).2.1; rw [hb] at this; cases this
  refine ⟨ha, Nat.lt_of_not_le fun h => ?_⟩
  have := hg.fresh.conns c h
  grind

theorem progress_zero (out : Option Bytes) : Progress out 0 := by
  cases out with
  | none => rfl
  | some b =>
    cases b with
    | nil => exact .inr ⟨rfl, rfl⟩
    | cons => exact .inl (Nat.succ_pos _)

theorem part_zero (out : Option Bytes) : part_ out 0 = [] := by cases out <;> rfl

/-- Steps of the endpoint that send nothing. -/
theorem Streams.quiet {tr : Trace} {s : State} {x : Ep.Action} {o : Ep.Obs} {e : Ep.State}
    (h : Streams tr s) (e1 : Exec (Ep.step false) Ep.init (Spec.TcpNode.app tr) s.ep)
    (he : Ep.step false s.ep x = some (e, o)) (hx : ∀ c ok, x ≠ .sent c ok) :
    (∀ c, ((e.conns c).alive = true ∨ e.connCount ≤ c) → Progress (e.conns c).out (s.sent c)) ∧
    (∀ c, (e.conns c).alive = true → written c tr =
      (onWire c (Spec.TcpNode.app tr ++ [(x, o)])).flatten ++ part_ (e.conns c).out (s.sent c)) ∧
    (∀ c, e.connCount ≤ c → written c tr = []) := by
  have m := Ep.move_of_step he
  have hg := (Ep.good_hist e1).1
  have hg' := (Ep.good_hist (e1.snoc he)).1
  have hle := m.connCount
  have hnew : ∀ c, s.ep.connCount ≤ c → s.sent c = 0 := by
    intro c hc
    have := h.prog c (.inr hc)
    rwa [hg.fresh.conns c hc] at this
  have hw : ∀ c, onWire c (Spec.TcpNode.app tr ++ [(x, o)]) = onWire c (Spec.TcpNode.app tr) := by
    intro c
    rw [Ep.onWire_snoc]
    cases x <;> first | exact List.append_nil _ | exact absurd rfl (hx _ _)
  refine ⟨fun c hc => ?_, fun c hc => ?_, fun c hc => h.new c (Nat.le_trans hle hc)⟩
  · rcases hc with hc | hc
    · rcases out_cases m hx c hc with ⟨ha, ho | ho⟩ | ⟨rfl, _⟩
      · rw [ho]; exact h.prog c (.inl ha)
      · have := h.prog c (.inl ha)
        rw [ho] at this
        rw [show s.sent c = 0 from this]
        exact progress_zero _
      · rw [hnew _ (Nat.le_refl _)]
        exact progress_zero _
    · rw [hnew c (Nat.le_trans hle hc)]
      exact progress_zero _
  · rw [hw]
    rcases out_cases m hx c hc with ⟨ha, ho | ho⟩ | ⟨rfl, _⟩
    · rw [ho]; exact h.outs c ha
    · have h1 := h.prog c (.inl ha)
      have h2 := h.outs c ha
      rw [ho] at h1
      rw [h2, show s.sent c = 0 from h1, part_zero, part_zero]
    · rw [hnew _ (Nat.le_refl _), part_zero, h.new _ (Nat.le_refl _),
        ((Ep.wire e1).new _ (Nat.le_refl _)).1]
      rfl

theorem sent_true {s e : Ep.State} {c : Nat} {b : Bytes} {o : Ep.Obs}
    (hb : (s.conns c).out = some b) (h : Ep.step false s (.sent c true) = some (e, o)) :
    e = { s with conns := upd s.conns c { s.conns c with out := none } } ∧ o = .wire b true := by
  simp only [Ep.step, Ep.sent, hb, if_true] at h
  cases h
  exact ⟨rfl, rfl⟩

theorem sent_false {s e : Ep.State} {c : Nat} {b : Bytes} {o : Ep.Obs}
    (hb : (s.conns c).out = some b) (h : Ep.step false s (.sent c false) = some (e, o)) :
    e = { s with conns := upd s.conns c (s.conns c).ended } ∧ o = .wire b false := by
  simp only [Ep.step, Ep.sent, hb] at h
  cases h
  exact ⟨rfl, rfl⟩

theorem streams {tr : Trace} {s : State} (e : Exec step init tr s) : Streams tr s := by
  induction e with
  | nil => exact .init
  | @snoc tr1 s1 s2 act ob e hs ih =>
    have e1 := part e
    have e2 := part (e.snoc hs)
    have hg := Ep.good_hist e1 |>.1
    have m := move_of_step hs
    suffices h : (∀ c, ((s2.ep.conns c).alive = true ∨ s2.ep.connCount ≤ c) →
        Progress (s2.ep.conns c).out (s2.sent c)) ∧
        (∀ c, (s2.ep.conns c).alive = true → written c (tr1 ++ [(act, ob)]) =
          (onWire c (Spec.TcpNode.app (tr1 ++ [(act, ob)]))).flatten ++
            part_ (s2.ep.conns c).out (s2.sent c)) ∧
        (∀ c, (s2.ep.conns c).alive = false →
          written c (tr1 ++ [(act, ob)]) = written c tr1) ∧
        (∀ c, s2.ep.connCount ≤ c → written c (tr1 ++ [(act, ob)]) = []) by
      obtain ⟨h1, h2, h3, h4⟩ := h
      refine ⟨h1, h2, fun c => ?_, h4⟩
      cases ha : (s2.ep.conns c).alive with
      | true => rw [h2 c ha]; exact outs_pre e2 ha
      | false =>
        rw [h3 c ha, app_snoc]
        exact (ih.pre c).trans (accepted_grows ..)
    have same : ob.out = none → ∀ c, written c (tr1 ++ [(act, ob)]) = written c tr1 := by
      intro h c
      rw [written_snoc, h, List.append_nil]
    cases m with
    | app x e' o h1 h2 he =>
      have h := ih.quiet e1 he h2
      simp only [app_snoc, same rfl]
      exact ⟨h.1, h.2.1, fun _ _ => trivial, h.2.2⟩
    | arrive | shut | wait =>
      simp only [app_snoc, same rfl, Option.toList_none, List.append_nil]
      exact ⟨ih.prog, ih.outs, fun _ _ => trivial, ih.new⟩
    | broken c a e' o ha he =>
      have h := ih.quiet e1 he nofun
      simp only [app_snoc, same rfl]
      exact ⟨h.1, h.2.1, fun _ _ => trivial, h.2.2⟩
    | read c n e' o hp he =>
      have h := ih.quiet e1 he nofun
      simp only [app_snoc, same rfl]
      exact ⟨h.1, h.2.1, fun _ _ => trivial, h.2.2⟩
    | taken c a b w hb hw =>
      have ha := out_alive hg hb
      have hr := ih.prog c (.inl ha.1)
      rw [hb] at hr
      have h := round a hr
      rw [hw] at h
      simp only [app_snoc, written_snoc, Option.toList_none, List.append_nil]
      refine ⟨fun d hd => ?_, fun d hd => ?_, fun d hd => ?_, fun d hd => ?_⟩ <;>
        by_cases hc : c = d
      · subst hc; rw [hb, upd_same]; exact h.2
      · rw [upd_ne _ _ (Ne.symm hc)]; exact ih.prog d hd
      · subst hc
        rw [if_pos rfl, hb, upd_same, ih.outs c hd, hb, List.append_assoc]
        congr 1
        exact h.1
      · rw [if_neg hc, upd_ne _ _ (Ne.symm hc), List.append_nil]; exact ih.outs d hd
      · subst hc; rw [ha.1] at hd; cases hd
      · rw [if_neg hc, List.append_nil]
      · subst hc; exact absurd ha.2 (Nat.not_lt.mpr hd)
      · rw [if_neg hc, List.append_nil]; exact ih.new d hd
    | done c a b w e' o hb hw he =>
      obtain ⟨rfl, rfl⟩ := sent_true hb he
      have ha := out_alive hg hb
      have hr := ih.prog c (.inl ha.1)
      rw [hb] at hr
      have h := round a hr
      rw [hw] at h
      simp only [app_snoc, written_snoc, Option.toList_some, Ep.onWire_snoc]
      refine ⟨fun d hd => ?_, fun d hd => ?_, fun d hd => ?_, fun d hd => ?_⟩ <;>
        by_cases hc : c = d
      · subst hc; rw [upd_same, upd_same]; exact progress_zero _
      · rw [upd_ne _ _ (Ne.symm hc)] at hd ⊢
        rw [upd_ne _ _ (Ne.symm hc)]; exact ih.prog d hd
      · subst hc
        rw [if_pos rfl, if_pos rfl, upd_same, upd_same, part_zero, ih.outs c ha.1, hb,
          List.append_assoc, show part_ (some b) (s1.sent c) ++ w = b from h]
        simp
      · rw [upd_ne _ _ (Ne.symm hc)] at hd ⊢
        rw [if_neg hc, if_neg hc, upd_ne _ _ (Ne.symm hc), List.append_nil, List.append_nil]
        exact ih.outs d hd
      · subst hc; rw [upd_same] at hd; rw [show (s1.ep.conns c).alive = false from hd] at ha; cases ha.1
      · rw [if_neg hc, List.append_nil]
      · subst hc; exact absurd ha.2 (Nat.not_lt.mpr hd)
      · rw [if_neg hc, List.append_nil]; exact ih.new d hd
    | failed c a b b' w e' o hb hw he =>
      obtain ⟨rfl, rfl⟩ := sent_false hb he
      have ha := out_alive hg hb
      have hr := ih.prog c (.inl ha.1)
      rw [hb] at hr
      have h := round a hr
      rw [hw] at h
      obtain ⟨rfl, rfl⟩ := h
      simp only [app_snoc, written_snoc, Option.toList_some, Ep.onWire_snoc, ite_self,
        List.append_nil]
      refine ⟨fun d hd => ?_, fun d hd => ?_, fun d hd => trivial, ih.new⟩ <;>
        by_cases hc : c = d
      · subst hc; rw [upd_same, upd_same]; exact progress_zero _
      · rw [upd_ne _ _ (Ne.symm hc)] at hd ⊢
        rw [upd_ne _ _ (Ne.symm hc)]; exact ih.prog d hd
      · subst hc; rw [upd_same] at hd; cases hd
      · rw [upd_ne _ _ (Ne.symm hc)] at hd ⊢
        rw [if_neg hc, upd_ne _ _ (Ne.symm hc), List.append_nil]
        exact ih.outs d hd

end Rsomeip.Rt.TcpNode
