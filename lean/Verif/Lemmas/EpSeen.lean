import Verif.Lemmas.EpCount
import Verif.Spec.Tables

/-! # What is in the tables of an endpoint -/

namespace Rsomeip

namespace Map
variable {κ ν : Type} [DecidableEq κ]

/-- No key has two entries. -/
def Tidy (m : Map κ ν) : Prop := (m.entries.map Prod.fst).Nodup

theorem Tidy.empty : Tidy (Map.empty : Map κ ν) := List.nodup_nil

theorem Tidy.remove {m : Map κ ν} (h : Tidy m) (k : κ) : Tidy (m.remove k).2 :=
  List.Nodup.sublist (List.Sublist.map _ List.filter_sublist) h

theorem Tidy.insert {m : Map κ ν} (h : Tidy m) (k : κ) (v : ν) : Tidy (m.insert k v).2 := by
  refine List.nodup_cons.mpr ⟨fun hk => ?_, h.remove k⟩
  obtain ⟨e, he, hk⟩ := List.mem_map.mp hk
  have := (List.mem_filter.mp he).2
  simp only [ne_eq, decide_not, Bool.not_eq_eq_eq_not, Bool.not_true, decide_eq_false_iff_not] at this
  exact this hk

theorem key_insert {m : Map κ ν} {k j : κ} {v : ν} (h : (m.insert k v).2.get j ≠ none) :
    j = k ∨ m.get j ≠ none := by
  rw [get_insert] at h
  split at h
  · left; simp_all
  · exact .inr h

theorem key_remove {m : Map κ ν} {k j : κ} (h : (m.remove k).2.get j ≠ none) : m.get j ≠ none := by
  rw [get_remove] at h
  split at h
  · exact absurd rfl h
  · exact h

theorem key_empty {j : κ} : (Map.empty : Map κ ν).get j = none := rfl

end Map

namespace Rt.Ep

open Someip (InterfaceId)
open Spec.Ep (Trace Came Went Wanted)
open Map (Tidy)

/-- No table has two entries for a key. -/
structure Neat (s : State) : Prop where
  lisConns : ∀ l, Tidy (s.liss l).conns
  lisOwned : ∀ l, Tidy (s.liss l).owned
  stubs : ∀ k, Tidy (s.stubs k).conns
  conns : ∀ c, Tidy (s.conns c).owned
  peers : Tidy s.peers
  shared : Tidy s.shared

section
variable {dg : Bool} {s s' : State} {a : Action} {o : Obs}

theorem Neat.step_lisConns (h : Neat s) (m : Move dg s a o s') (l : Nat) : Tidy (s'.liss l).conns := by
  have h := h.lisConns
  cases m <;> first | exact h l | grind [upd, newLis, deadLis, Tidy.empty, Tidy.insert]

theorem Neat.step_lisOwned (h : Neat s) (m : Move dg s a o s') (l : Nat) : Tidy (s'.liss l).owned := by
  have h := h.lisOwned
  cases m <;> first | exact h l | grind [upd, newLis, deadLis, Tidy.empty, Tidy.insert]

theorem Neat.step_stubs (h : Neat s) (m : Move dg s a o s') (k : Nat) : Tidy (s'.stubs k).conns := by
  have h := h.stubs
  have h5 := answer_cases s
  have h6 := refuse_cases s
  cases m <;> first | exact h k | grind [upd, stubAt_apply, Tidy.empty, Tidy.insert]

theorem Neat.step_conns (h : Neat s) (m : Move dg s a o s') (c : Nat) : Tidy (s'.conns c).owned := by
  have h := h.conns
  cases m <;> first | exact h c | grind [upd, newConn, Conn.ended, Tidy.empty, Tidy.insert]

theorem Neat.step_peers (h : Neat s) (m : Move dg s a o s') : Tidy s'.peers := by
  have h := h.peers
  cases m <;> first | exact h | exact h.insert _ _ | exact h.remove _

theorem Neat.step_shared (h : Neat s) (m : Move dg s a o s') : Tidy s'.shared := by
  have h := h.shared
  cases m <;> first | exact h | exact h.insert _ _ | exact h.remove _

theorem neat {tr : Trace} (e : Exec (step dg) init tr s) : Neat s := by
  induction e with
  | nil => exact ⟨fun _ => .empty, fun _ => .empty, fun _ => .empty, fun _ => .empty, .empty, .empty⟩
  | snoc e hs ih =>
    have m := move_of_step hs
    exact ⟨ih.step_lisConns m, ih.step_lisOwned m, ih.step_stubs m, ih.step_conns m, ih.step_peers m,
      ih.step_shared m⟩

end

/-- Where the running call of a stub sends. -/
def StubPc.to : StubPc → Option Addr
  | .idle => none
  | .check a _ | .asking a _ | .asked a _ _ | .share a _ _ | .enter a _ | .sending a _ _ => some a

/-- What the endpoint task makes. -/
def EpPc.makes : EpPc → Option InterfaceId
  | .serveCheck id | .serveListen id | .serveShare id _ | .serveTake id _ _ | .proxyCheck id _
  | .proxyGet id _ | .proxyConnect id _ | .proxyShare id _ _ | .proxyTake id _ _ _ => some id
  | _ => none

/-- Every key was seen before. -/
structure Seen (tr : Trace) (s : State) : Prop where
  lisPc : ∀ l c, (s.liss l).pc = .share c → c < s.connCount ∧ Came tr l (s.conns c).addr
  lis : ∀ l a, (s.liss l).conns.get a ≠ none → Came tr l a
  stubPc : ∀ k a, (s.stubs k).pc.to = some a → Went tr k a
  stub : ∀ k a, (s.stubs k).conns.get a ≠ none → Went tr k a
  peers : ∀ a, s.peers.get a ≠ none → (∃ l, Came tr l a) ∨ ∃ k, Went tr k a
  serveCmd : ∀ id, EpCmd.serve id ∈ s.cmds → Wanted tr id
  proxyCmd : ∀ id a, EpCmd.proxy id a ∈ s.cmds → Wanted tr id
  pc : ∀ id, s.pc.makes = some id → Wanted tr id
  shared : ∀ id, s.shared.get id ≠ none → Wanted tr id
  lisCmds : ∀ l id i, (id, i) ∈ (s.liss l).cmds → Wanted tr id
  lisOwned : ∀ l id, (s.liss l).owned.get id ≠ none → Wanted tr id
  connCmds : ∀ c id i, ConnCmd.take id i ∈ (s.conns c).cmds → Wanted tr id
  connOwned : ∀ c id, (s.conns c).owned.get id ≠ none → Wanted tr id

section
variable {dg : Bool} {s s' : State} {x : Action} {o : Obs} {tr : Trace}

theorem _root_.Rsomeip.Spec.Ep.Came.grow {l : Nat} {a : Addr} (h : Came tr l a) (y : Action × Obs) : Came (tr ++ [y]) l a :=
  h.imp fun _ h => List.mem_append_left _ h

theorem _root_.Rsomeip.Spec.Ep.Went.grow {k : Nat} {a : Addr} (h : Went tr k a) (y : Action × Obs) : Went (tr ++ [y]) k a :=
  h.imp fun _ h => List.mem_append_left _ h

theorem _root_.Rsomeip.Spec.Ep.Wanted.grow {id : InterfaceId} (h : Wanted tr id) (y : Action × Obs) : Wanted (tr ++ [y]) id :=
  h.imp (List.mem_append_left _) (Exists.imp fun _ h => List.mem_append_left _ h)

theorem came_last (l c : Nat) (a : Addr) : Came (tr ++ [(.accept l a, .opened c a)]) l a :=
  ⟨c, by simp⟩

theorem went_last (k : Nat) (a : Addr) (m : Msg) : Went (tr ++ [(.stubSend k a m, .none)]) k a :=
  ⟨m, by simp⟩

theorem wanted_serve (id : InterfaceId) : Wanted (tr ++ [(.serve id, .none)]) id := .inl (by simp)

theorem wanted_proxy (id : InterfaceId) (a : Addr) : Wanted (tr ++ [(.proxy id a, .none)]) id :=
  .inr ⟨a, by simp⟩

theorem Seen.step_lisPc (h : Seen tr s) (m : Move dg s x o s') (l c : Nat) :
    (s'.liss l).pc = .share c → c < s'.connCount ∧ Came (tr ++ [(x, o)]) l (s'.conns c).addr := by
  have h1 := h.lisPc
  have h2 := fun l c hc => (h1 l c hc).2.grow (x, o)
  have h3 := @came_last tr
  cases m <;> first | exact fun hc => ⟨(h1 l c hc).1, h2 l c hc⟩ |
    grind [upd, newLis, deadLis, newConn, Conn.ended]

theorem Seen.step_lis (h : Seen tr s) (m : Move dg s x o s') (l : Nat) (a : Addr) :
    (s'.liss l).conns.get a ≠ none → Came (tr ++ [(x, o)]) l a := by
  have h1 := fun l c hc => (h.lisPc l c hc).2.grow (x, o)
  have h2 := fun l a hc => (h.lis l a hc).grow (x, o)
  have h3 := @Map.key_insert Addr Nat _
  cases m <;> first | exact h2 l a |
    grind [upd, newLis, deadLis, Map.key_empty]

theorem Seen.step_stubPc (h : Seen tr s) (m : Move dg s x o s') (k : Nat) (a : Addr) :
    (s'.stubs k).pc.to = some a → Went (tr ++ [(x, o)]) k a := by
  have h2 := fun l a hc => (h.stubPc l a hc).grow (x, o)
  have h3 := @went_last tr
  have h5 := answer_cases s
  have h6 := refuse_cases s
  cases m <;> first | exact h2 k a |
    grind [upd, stubAt_apply, StubPc.to]

theorem Seen.step_stub (h : Seen tr s) (m : Move dg s x o s') (k : Nat) (a : Addr) :
    (s'.stubs k).conns.get a ≠ none → Went (tr ++ [(x, o)]) k a := by
  have h1 := fun l a hc => (h.stubPc l a hc).grow (x, o)
  have h2 := fun l a hc => (h.stub l a hc).grow (x, o)
  have h3 := @Map.key_insert Addr Nat _
  have h5 := answer_cases s
  have h6 := refuse_cases s
  cases m <;> first | exact h2 k a |
    grind [upd, stubAt_apply, StubPc.to, Map.key_empty]

theorem Seen.step_peers (h : Seen tr s) (m : Move dg s x o s') (a : Addr) (ha : s'.peers.get a ≠ none) :
    (∃ l, Came (tr ++ [(x, o)]) l a) ∨ ∃ k, Went (tr ++ [(x, o)]) k a := by
  have h2 : s.peers.get a ≠ none →
      (∃ l, Came (tr ++ [(x, o)]) l a) ∨ ∃ k, Went (tr ++ [(x, o)]) k a :=
    fun hc => (h.peers a hc).imp (Exists.imp fun _ h => h.grow _) (Exists.imp fun _ h => h.grow _)
  cases m
  case lisShare l c hw hl =>
    rcases Map.key_insert ha with rfl | ha
    · exact .inl ⟨l, (h.lisPc l c hw).2.grow _⟩
    · exact h2 ha
  case stubShare k b m c hw hl =>
    rcases Map.key_insert ha with rfl | ha
    · exact .inr ⟨k, (h.stubPc k a (by rw [hw]; rfl)).grow _⟩
    · exact h2 ha
  all_goals first | exact h2 ha | exact h2 (Map.key_remove ha)

theorem Seen.step_serveCmd (h : Seen tr s) (m : Move dg s x o s') (id : InterfaceId) :
    EpCmd.serve id ∈ s'.cmds → Wanted (tr ++ [(x, o)]) id := by
  have h2 := fun id hc => (h.serveCmd id hc).grow (x, o)
  have h3 := @wanted_serve tr
  cases m <;> first | exact h2 id | grind

theorem Seen.step_proxyCmd (h : Seen tr s) (m : Move dg s x o s') (id : InterfaceId) (a : Addr) :
    EpCmd.proxy id a ∈ s'.cmds → Wanted (tr ++ [(x, o)]) id := by
  have h2 := fun id a hc => (h.proxyCmd id a hc).grow (x, o)
  have h3 := @wanted_proxy tr
  cases m <;> first | exact h2 id a | grind

theorem Seen.step_pc (h : Seen tr s) (m : Move dg s x o s') (id : InterfaceId) :
    s'.pc.makes = some id → Wanted (tr ++ [(x, o)]) id := by
  have h1 := fun id hc => (h.serveCmd id hc).grow (x, o)
  have h2 := fun id a hc => (h.proxyCmd id a hc).grow (x, o)
  have h3 := fun id hc => (h.pc id hc).grow (x, o)
  cases m <;> first | exact h3 id | grind [EpPc.makes]

theorem Seen.step_shared (h : Seen tr s) (m : Move dg s x o s') (id : InterfaceId) :
    s'.shared.get id ≠ none → Wanted (tr ++ [(x, o)]) id := by
  have h1 := fun id hc => (h.shared id hc).grow (x, o)
  have h2 := fun id hc => (h.pc id hc).grow (x, o)
  have h3 := @Map.key_insert InterfaceId Nat _
  have h4 := @Map.key_remove InterfaceId Nat _
  cases m <;> first | exact h1 id | exact fun hg => h1 id (h4 hg) | grind [EpPc.makes]

theorem Seen.step_lisCmds (h : Seen tr s) (m : Move dg s x o s') (l : Nat) (id : InterfaceId) (i : Nat) :
    (id, i) ∈ (s'.liss l).cmds → Wanted (tr ++ [(x, o)]) id := by
  have h1 := fun l id i hc => (h.lisCmds l id i hc).grow (x, o)
  have h2 := fun id hc => (h.pc id hc).grow (x, o)
  cases m <;> first | exact h1 l id i | grind [EpPc.makes, upd, newLis, deadLis]

theorem Seen.step_lisOwned (h : Seen tr s) (m : Move dg s x o s') (l : Nat) (id : InterfaceId) :
    (s'.liss l).owned.get id ≠ none → Wanted (tr ++ [(x, o)]) id := by
  have h1 := fun l id i hc => (h.lisCmds l id i hc).grow (x, o)
  have h2 := fun l id hc => (h.lisOwned l id hc).grow (x, o)
  cases m
  case lisTake j id' i q ha hq =>
    intro hg
    dsimp only [upd] at hg
    split at hg
    · rcases Map.key_insert hg with rfl | hg
      · exact h1 j id i (by rw [hq]; exact List.mem_cons_self)
      · exact h2 j id hg
    · exact h2 l id hg
  all_goals first | exact h2 l id | grind [upd, newLis, deadLis, Map.key_empty]

theorem Seen.step_connCmds (h : Seen tr s) (m : Move dg s x o s') (c : Nat) (id : InterfaceId) (i : Nat) :
    ConnCmd.take id i ∈ (s'.conns c).cmds → Wanted (tr ++ [(x, o)]) id := by
  have h1 := fun l id i hc => (h.connCmds l id i hc).grow (x, o)
  have h2 := fun id hc => (h.pc id hc).grow (x, o)
  cases m <;> first | exact h1 c id i | grind [EpPc.makes, upd, newConn, Conn.ended]

theorem Seen.step_connOwned (h : Seen tr s) (m : Move dg s x o s') (c : Nat) (id : InterfaceId) :
    (s'.conns c).owned.get id ≠ none → Wanted (tr ++ [(x, o)]) id := by
  have h1 := fun l id i hc => (h.connCmds l id i hc).grow (x, o)
  have h2 := fun l id hc => (h.connOwned l id hc).grow (x, o)
  cases m
  case cmdTake j id' i q ha ho hq =>
    intro hg
    dsimp only [upd] at hg
    split at hg
    · rcases Map.key_insert hg with rfl | hg
      · exact h1 j id i (by rw [hq]; exact List.mem_cons_self)
      · exact h2 j id hg
    · exact h2 c id hg
  all_goals first | exact h2 c id | grind [upd, newConn, Conn.ended, Map.key_empty]

theorem seen (e : Exec (step dg) init tr s) : Seen tr s := by
  induction e with
  | nil =>
    constructor <;> first
      | exact fun _ _ h => absurd rfl h
      | exact fun _ h => absurd rfl h
      | simp [Ep.init, StubPc.to, EpPc.makes]
  | snoc e hs ih =>
    have m := move_of_step hs
    exact ⟨ih.step_lisPc m, ih.step_lis m, ih.step_stubPc m, ih.step_stub m, ih.step_peers m,
      ih.step_serveCmd m, ih.step_proxyCmd m, ih.step_pc m, ih.step_shared m, ih.step_lisCmds m,
      ih.step_lisOwned m, ih.step_connCmds m, ih.step_connOwned m⟩

end
end Rt.Ep
end Rsomeip
