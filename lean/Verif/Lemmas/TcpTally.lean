import Mathlib.Algebra.Order.BigOperators.Group.Finset
import Mathlib.Algebra.BigOperators.Group.Finset.Piecewise
import Verif.Lemmas.NodeOnce
import Verif.Lemmas.TcpNet
import Verif.Spec.Once

/-! # Counting messages over TCP -/

namespace Rsomeip.Rt.TcpTally

open Finset Spec
open Spec.TcpNode (written arrived app)
open Spec.Ep (Shown accepted heard)
open Spec.Node (returned)
open Spec.Net (acceptedFor)

/-- A sum over connections is no greater than one over those that belong to them. -/
theorem sum_inj {k l : Nat} {f g : Nat → Nat} (p : Nat → Nat)
    (hp : ∀ x, x < k → f x ≠ 0 → p x < l ∧ f x ≤ g (p x))
    (hi : ∀ x y, x < k → y < k → f x ≠ 0 → f y ≠ 0 → p x = p y → x = y) :
    ∑ x ∈ range k, f x ≤ ∑ x ∈ range l, g x := by
  have h1 : ∑ x ∈ range k, f x = ∑ x ∈ (range k).filter (f · ≠ 0), f x := (sum_filter_ne_zero _).symm
  rw [h1]
  have h2 : ∑ x ∈ (range k).filter (f · ≠ 0), f x ≤ ∑ x ∈ (range k).filter (f · ≠ 0), g (p x) := by
    refine sum_le_sum fun x hx => ?_
    obtain ⟨h3, h4⟩ := mem_filter.mp hx
    exact (hp x (mem_range.mp h3) h4).2
  refine Nat.le_trans h2 ?_
  rw [← sum_image (f := g) (g := p)]
  · refine sum_le_sum_of_subset fun x hx => ?_
    obtain ⟨y, hy, rfl⟩ := mem_image.mp hx
    obtain ⟨h3, h4⟩ := mem_filter.mp hy
    exact mem_range.mpr (hp y (mem_range.mp h3) h4).1
  · intro x hx y hy h
    obtain ⟨h3, h4⟩ := mem_filter.mp hx
    obtain ⟨h5, h6⟩ := mem_filter.mp hy
    exact hi x y (mem_range.mp h3) (mem_range.mp h5) h4 h6 h

/-- What is returned as coming from `a` was heard on connections to `a`. -/
theorem returned_heard {dg : Bool} {tr : Spec.Ep.Trace} {s : Ep.State} (e : Exec (Ep.step dg) Ep.init tr s)
    (m : Msg) (a : Addr) : (returned tr).count (m, a) ≤
      ∑ c ∈ range s.connCount, if (s.conns c).addr = a then (heard c tr).count m else 0 := by
  have h0 := Nat.le_trans (Node.returned_le e (m, a) _ fun _ h => h)
    (Node.routedTo_le _ _ (Node.channels_nodup e) _)
  refine Nat.le_trans h0 ?_
  let l := (List.range s.connCount).filter fun c => (s.conns c).addr = a
  have hn : l.Nodup := List.nodup_range.filter _
  have h1 := Node.routed_le tr l hn m a (by
    intro x i m' hx
    obtain ⟨c, rfl, ho⟩ := Node.routed_by e hx
    obtain ⟨hc, hm⟩ := Ep.opened_addr e ho
    exact ⟨c, List.mem_filter.mpr ⟨List.mem_range.mpr hc, decide_eq_true hm⟩, rfl⟩)
  refine Nat.le_trans h1 ?_
  have h2 : (l.map fun c => (Node.put c tr).count m).sum ≤ (l.map fun c => (heard c tr).count m).sum :=
    Node.sum_le l fun c _ => Nat.le_trans ((Node.put_sublist c _).count_le _)
      ((C56_in_turn e c).sublist.count_le _)
  refine Nat.le_trans h2 ?_
  rw [← List.sum_toFinset _ hn, ← sum_filter]
  refine sum_le_sum_of_subset fun c hc => ?_
  rw [List.mem_toFinset] at hc
  obtain ⟨h3, h4⟩ := List.mem_filter.mp hc
  exact mem_filter.mpr ⟨mem_range.mpr (List.mem_range.mp h3), of_decide_eq_true h4⟩

/-- What was accepted on connections to `b` was accepted for `b`. -/
theorem accepted_for {tr : Spec.Ep.Trace} {k : Nat} {ad : Nat → Addr} {b : Addr}
    (h : ∀ d, d < k → ad d = b → Shown tr (.opened d b)) (m : Msg) :
    (∑ d ∈ range k, if ad d = b then (accepted d tr).count m else 0) ≤ (acceptedFor b tr).count m := by
  let Q : Nat → Bool := fun c => tr.any fun x => decide (x.2 = .opened c b)
  have hQ : ∀ d, d < k → ad d = b → Q d = true := by
    intro d hd ha
    obtain ⟨z, hz⟩ := h d hd ha
    exact List.any_eq_true.mpr ⟨_, hz, decide_eq_true rfl⟩
  have key : ∀ t : Spec.Ep.Trace, (∑ d ∈ range k, if ad d = b then (accepted d t).count m else 0) ≤
      (t.filterMap fun e => match e.2 with
        | .accepted c m => if Q c then some m else none
        | _ => none).count m := by
    intro t
    induction t with
    | nil => simp [accepted]
    | cons x t ih =>
      obtain ⟨z, o⟩ := x
      by_cases ho : ∃ c m', o = .accepted c m'
      · obtain ⟨c, m', rfl⟩ := ho
        have h1 : ∀ d, (if ad d = b then (accepted d ((z, .accepted c m') :: t)).count m else 0) =
            (if d = c then if ad c = b then [m'].count m else 0 else 0) +
              if ad d = b then (accepted d t).count m else 0 := by
          intro d
          by_cases hd : d = c
          · subst hd
            by_cases hb : ad d = b
            · simp [accepted, hb, List.count_cons, Nat.add_comm]
            · simp [hb]
          · simp [accepted, hd, Ne.symm hd]
        rw [sum_congr rfl fun d _ => h1 d, sum_add_distrib, sum_ite_eq']
        by_cases hc : c ∈ range k ∧ ad c = b
        · rw [if_pos hc.1, if_pos hc.2]
          simp only [List.filterMap_cons, hQ c (mem_range.mp hc.1) hc.2, if_true, List.count_cons,
            List.count_nil]
          omega
        · have h2 : (if c ∈ range k then if ad c = b then [m'].count m else 0 else 0) = 0 := by
            by_cases h3 : c ∈ range k
            · rw [if_pos h3, if_neg fun h4 => hc ⟨h3, h4⟩]
            · rw [if_neg h3]
          rw [h2, Nat.zero_add]
          refine Nat.le_trans ih ?_
          rw [List.filterMap_cons]
          split
          · exact Nat.le_refl _
          · exact List.count_le_count_cons
      · have h1 : ∀ d, accepted d ((z, o) :: t) = accepted d t := by
          intro d
          cases o <;> first | rfl | exact (ho ⟨_, _, rfl⟩).elim
        have h2 : ((z, o) :: t).filterMap (fun e : Ep.Action × Ep.Obs => match e.2 with
            | .accepted c m => if Q c then some m else none
            | _ => none) = t.filterMap fun e => match e.2 with
            | .accepted c m => if Q c then some m else none
            | _ => none := by
          cases o <;> first | rfl | exact (ho ⟨_, _, rfl⟩).elim
        rw [h2, sum_congr rfl fun d _ => by rw [h1 d]]
        exact ih
  exact key tr

/-- The connections with numbers below `k` are those of the lives `ls`, with addresses, what was written to
them and what has arrived on them; what was returned in all the lives was heard on them, and what was accepted
on them was accepted in the lives. -/
def Tally (ls : List Spec.TcpNode.Trace) (k : Nat) (ad : Nat → Addr) (W A : Nat → Bytes) : Prop :=
  ∃ R T : Nat → List Msg,
    (∀ g, g < k → ∃ L ∈ ls, ∃ d, Shown (app L) (.opened d (ad g)) ∧ W g = written d L ∧ A g = arrived d L ∧
      R g = heard d (app L) ∧ T g = accepted d (app L)) ∧
    (∀ m a, (ls.flatMap fun L => returned (app L)).count (m, a) ≤
      ∑ g ∈ range k, if ad g = a then (R g).count m else 0) ∧
    ∀ m b, (∑ g ∈ range k, if ad g = b then (T g).count m else 0) ≤
      (ls.flatMap fun L => acceptedFor b (app L)).count m

theorem Tally.nil (ad : Nat → Addr) (W A : Nat → Bytes) : Tally [] 0 ad W A :=
  ⟨fun _ => [], fun _ => [], nofun, fun _ _ => Nat.le_refl _, fun _ _ => Nat.le_refl _⟩

theorem Tally.congr {ls : List Spec.TcpNode.Trace} {k : Nat} {ad ad' : Nat → Addr} {W W' A A' : Nat → Bytes}
    (h : Tally ls k ad W A) (h1 : ∀ g, g < k → ad' g = ad g) (h2 : ∀ g, g < k → W' g = W g)
    (h3 : ∀ g, g < k → A' g = A g) : Tally ls k ad' W' A' := by
  obtain ⟨R, T, h4, h5, h6⟩ := h
  refine ⟨R, T, ?_, ?_, ?_⟩
  · intro g hg
    rw [h1 g hg, h2 g hg, h3 g hg]
    exact h4 g hg
  · intro m a
    rw [sum_congr rfl fun g hg => by rw [h1 g (mem_range.mp hg)]]
    exact h5 m a
  · intro m b
    rw [sum_congr rfl fun g hg => by rw [h1 g (mem_range.mp hg)]]
    exact h6 m b

/-- One life more. -/
theorem Tally.snoc {ls : List Spec.TcpNode.Trace} {k : Nat} {ad : Nat → Addr} {W A : Nat → Bytes}
    (h : Tally ls k ad W A) {L : Spec.TcpNode.Trace} {s : TcpNode.State}
    (e : Exec TcpNode.step TcpNode.init L s)
    (h1 : ∀ c, c < s.ep.connCount → ad (k + c) = (s.ep.conns c).addr)
    (h2 : ∀ c, W (k + c) = written c L) (h3 : ∀ c, A (k + c) = arrived c L) :
    Tally (ls ++ [L]) (k + s.ep.connCount) ad W A := by
  obtain ⟨R, T, h4, h5, h6⟩ := h
  have e1 := TcpNode.part e
  have hop : ∀ c, c < s.ep.connCount → Shown (app L) (.opened c (s.ep.conns c).addr) :=
    (Ep.good_hist e1).2.conns
  refine ⟨fun g => if g < k then R g else heard (g - k) (app L),
    fun g => if g < k then T g else accepted (g - k) (app L), ?_, ?_, ?_⟩
  · intro g hg
    by_cases hk : g < k
    · obtain ⟨L', hL, d, h7, h8, h9, h10, h11⟩ := h4 g hk
      exact ⟨L', List.mem_append_left _ hL, d, h7, h8, h9, by simp only [if_pos hk]; exact h10,
        by simp only [if_pos hk]; exact h11⟩
    · have hc : g - k < s.ep.connCount := by omega
      have he : k + (g - k) = g := by omega
      refine ⟨L, List.mem_append_right _ (List.mem_singleton.mpr rfl), g - k, ?_, ?_, ?_, ?_, ?_⟩
      · rw [← he, Nat.add_sub_cancel_left, h1 _ hc]; exact hop _ hc
      · rw [← h2, he]
      · rw [← h3, he]
      · simp only [if_neg hk]
      · simp only [if_neg hk]
  · intro m a
    rw [List.flatMap_append, List.count_append, sum_range_add]
    refine Nat.add_le_add ?_ ?_
    · refine Nat.le_trans (h5 m a) (sum_le_sum fun g hg => ?_)
      simp only [if_pos (mem_range.mp hg)]
      exact Nat.le_refl _
    · rw [List.flatMap_singleton]
      refine Nat.le_trans (returned_heard e1 m a) (sum_le_sum fun c hc => ?_)
      have hc := mem_range.mp hc
      simp only [if_neg (Nat.not_lt.mpr (Nat.le_add_right k c)), Nat.add_sub_cancel_left, h1 c hc]
      exact Nat.le_refl _
  · intro m b
    rw [List.flatMap_append, List.count_append, sum_range_add]
    refine Nat.add_le_add ?_ ?_
    · refine Nat.le_trans (sum_le_sum fun g hg => ?_) (h6 m b)
      simp only [if_pos (mem_range.mp hg)]
      exact Nat.le_refl _
    · rw [List.flatMap_singleton]
      refine Nat.le_trans (sum_le_sum fun c hc => ?_)
        (accepted_for (k := s.ep.connCount) (ad := fun c => (s.ep.conns c).addr) ?_ m)
      · have hc := mem_range.mp hc
        simp only [if_neg (Nat.not_lt.mpr (Nat.le_add_right k c)), Nat.add_sub_cancel_left, h1 c hc]
        exact Nat.le_refl _
      · intro d hd hb
        have := hop d hd
        rwa [hb] at this

end Rsomeip.Rt.TcpTally
