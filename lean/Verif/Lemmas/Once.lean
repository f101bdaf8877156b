import Mathlib.Data.List.Perm.Subperm
import Verif.Spec.Once
import Verif.Props.Rt.Carry

/-! # What is sent to an address, counted -/

namespace Rsomeip

open Rt Spec Spec.Ep Spec.Node Spec.Net

/-- What connections gave to the socket. -/
def wires (tr : Spec.Ep.Trace) : List (Nat × Bytes) :=
  tr.filterMap fun e => match e with
    | (.sent d _, .wire b _) => some (d, b)
    | _ => none

/-- What was accepted for connections. -/
def takes (tr : Spec.Ep.Trace) : List (Nat × Msg) :=
  tr.filterMap fun e => match e.2 with
    | .accepted d m => some (d, m)
    | _ => none

/-- The second components of the pairs that begin with `c`. -/
def only {β : Type} (c : Nat) (l : List (Nat × β)) : List β :=
  l.filterMap fun x => if x.1 = c then some x.2 else none

theorem count_only {β : Type} [BEq β] [LawfulBEq β] (c : Nat) (p : β) (l : List (Nat × β)) :
    l.count (c, p) = (only c l).count p := by
  induction l with
  | nil => rfl
  | cons x l ih =>
    obtain ⟨d, q⟩ := x
    rw [only, List.filterMap_cons, List.count_cons, ih]
    by_cases h : d = c
    · subst h
      rw [if_pos rfl, List.count_cons, only]
      congr 1
      by_cases hq : q = p
      · subst hq; rw [if_pos (by simp), if_pos (by simp)]
      · rw [if_neg (by simp [hq]), if_neg (by simp [hq])]
    · simp [only, h]

theorem only_wires (c : Nat) (tr : Spec.Ep.Trace) : only c (wires tr) = onWire c tr := by
  rw [only, wires, List.filterMap_filterMap, onWire]
  congr 1
  funext ⟨x, o⟩
  cases x <;> cases o <;> rfl

theorem only_takes (c : Nat) (tr : Spec.Ep.Trace) : only c (takes tr) = accepted c tr := by
  rw [only, takes, List.filterMap_filterMap, accepted]
  congr 1
  funext ⟨x, o⟩
  cases o <;> rfl

theorem only_map {β γ : Type} (f : β → γ) (c : Nat) (l : List (Nat × β)) :
    only c (l.map fun x => (x.1, f x.2)) = (only c l).map f := by
  rw [only, List.filterMap_map, only, List.map_filterMap]
  congr 1
  funext x
  by_cases h : x.1 = c <;> simp [h]

/-- Connections give to the socket what was accepted for them, at most once. -/
theorem wires_le {dg : Bool} {tr : Spec.Ep.Trace} {s : Ep.State} (e : Exec (Ep.step dg) Ep.init tr s) :
    (wires tr).Subperm ((takes tr).map fun x => (x.1, wireForm x.2)) := by
  rw [List.subperm_ext_iff]
  rintro ⟨c, p⟩ -
  rw [count_only, count_only, only_wires, only_map, only_takes]
  exact (C74_order e c).sublist.count_le p

/-- The datagrams to `b` were given to the socket by connections to `b`. -/
theorem outTo_le {tr : Spec.Node.Trace} {s : Node.State} (e : Exec Node.step Node.init tr s) {b : Addr}
    {Q : Nat → Bool} (hQ : ∀ c, Shown (app tr) (.opened c b) → Q c = true) :
    (outTo b tr).Sublist (((wires (app tr)).filter fun x => Q x.1).map Prod.snd) := by
  induction e with
  | nil => exact List.Sublist.refl _
  | @snoc tr1 s1 s2 act ob e1 hs ih =>
    obtain ⟨e2, -⟩ := Node.parts e1
    obtain ⟨hg, hh⟩ := Ep.good_hist e2
    rw [Node.app_snoc] at hQ ⊢
    replace ih := ih (fun d h => hQ d (Node.shown_append.mpr (.inl h)))
    rw [outTo, Node.out_snoc, List.filterMap_append, ← outTo, wires, List.filterMap_append, ← wires,
      List.filter_append, List.map_append]
    refine ih.append ?_
    cases Node.move_of_step hs with
    | app x e o _ us out' he hc =>
      have m := Ep.move_of_step he
      rw [Node.app_app]
      rcases hc.sends m with ⟨d, ok, p, rfl, rfl, -, rfl⟩ | ⟨hx, rfl⟩
      · have hd : d < s1.ep.connCount := Node.conn_lt hg m rfl
        have hd' := hh.conns d hd
        by_cases hb : (s1.ep.conns d).addr = b
        · have := hQ d (Node.shown_append.mpr (.inl (hb ▸ hd')))
          by_cases hp : p.length ≤ 1400 <;> simp [hp, hb, this]
        · by_cases hp : p.length ≤ 1400 <;> simp [hp, hb]
      · exact List.nil_sublist _
    | net _ u v w ha hn hd hu => exact List.nil_sublist _

/-- What a message looks like on the wire contains nothing but it. -/
theorem contents_wireForm {m : Msg} (hm : Normal m) : (contents (wireForm m)).Sublist [m] := by
  by_cases h : 8 + m.payload.length < 2 ^ 32
  · rw [wireForm, if_pos h]
    have := Spec.Frames.cons m hm h .nil
    rw [List.append_nil] at this
    rw [Ep.contents_eq this]
  · have : contents (wireForm m) = [] := by
      rw [contents, dif_neg]
      rintro ⟨ms, hf⟩
      rw [wireForm, if_neg h] at hf
      have h4 : (be 2 m.service.toNat ++ be 2 m.method.toNat).length = 4 := by simp [be]
      generalize be 2 m.service.toNat ++ be 2 m.method.toNat = b at hf h4
      cases hf with
      | nil => simp at h4
      | cut m n => simp [frameWith, be] at h4; omega
      | cons m => simp [frame, frameWith, be] at h4; omega
    rw [this]
    exact List.nil_sublist _

end Rsomeip
