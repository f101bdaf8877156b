import Verif.Lemmas.EpMade
import Verif.Lemmas.EpPipe
import Verif.Lemmas.EpFed

/-! # What is put into a channel while it is open -/

namespace Rsomeip.Rt.Ep

open Someip (InterfaceId)
open Spec Spec.Ep

theorem given_snoc (c i : Nat) (tr : Trace) (a : Action) (o : Obs) :
    given c i (tr ++ [(a, o)]) = given c i tr ++
      (match a, o with
      | .route d, .routed j m _ => if d = c ∧ j = i then [m] else []
      | _, _ => []) := by
  rw [given, List.filterMap_append]
  congr 1
  simp only [List.filterMap_cons, List.filterMap_nil]
  cases a <;> cases o <;> first | rfl | (dsimp only; split <;> simp_all)

theorem given_append (c i : Nat) (t u : Trace) : given c i (t ++ u) = given c i t ++ given c i u := by
  simp only [given, List.filterMap_append]

theorem settled_append (c : Nat) (t u : Trace) : settled c (t ++ u) = settled c t ++ settled c u := by
  simp only [settled, List.filterMap_append]

/-- What a connection puts into a channel is for the channel's interface. -/
theorem Move.routed_id {dg : Bool} {s s' : State} {a : Action} {j : Nat} {m : Msg} {b : Addr}
    (hg : Good s) (h : Move dg s a (.routed j m b) s') : (s.ifaces j).id = InterfaceId.of m := by
  have h1 := hg.ids.sending
  have h2 := hg.ids.shared
  generalize hx : Obs.routed j m b = x at h
  cases h with
  | put c i m' ms hw => cases hx; exact (h2 _ _ (h1 _ _ _ _ hw)).2
  | proxyRecv => split at hx <;> cases hx
  | _ => cases hx

/-- While a channel is open, all messages for its interface are put into it. -/
theorem settled_for {dg : Bool} {s₁ s : State} {u : Trace} {i : Nat} {id : InterfaceId} (hg : Good s₁)
    (e : Exec (step dg) s₁ u s) (hi : i < s₁.ifCount) (hid : (s₁.ifaces i).id = id) (ho : Open s i)
    (c : Nat) : (settled c u).filter (fun m => decide (InterfaceId.of m = id)) = given c i u := by
  induction e with
  | nil => rfl
  | @snoc u s₂ s₃ a o e hs ih =>
    have e' := e.snoc hs
    have hm := move_of_step hs
    have hg2 := hg.exec e
    have h1 := (Open.back hg e' hi ho).1
    have hlt : i < s₂.ifCount ∧ (s₂.ifaces i).id = (s₁.ifaces i).id := by
      clear ih ho hm hs e' h1 hg2
      induction e with
      | nil => exact ⟨hi, rfl⟩
      | snoc e hs ih =>
        have := (move_of_step hs).id ih.1
        exact ⟨this.1, this.2.trans ih.2⟩
    have ho2 : Open s₂ i := (Open.back hg2 (Exec.nil.snoc hs) hlt.1 ho).1
    rw [settled_snoc, given_snoc, List.filter_append, ih ho2]
    congr 1
    have hid2 := hlt.2.trans hid
    cases a <;> try rfl
    rename_i d
    cases o <;> try rfl
    case routed j m b =>
      dsimp only
      by_cases hd : d = c
      · have h3 := hm.routed_id hg2
        by_cases hj : j = i
        · subst hj
          simp [hd, ← h3, hid2]
        · have : InterfaceId.of m ≠ id := by
            intro h
            exact hj (hg2.opens.unique (routed_open hm) ho2 (h3.trans (h.trans hid2.symm)))
          simp [hd, hj, this]
      · simp [hd]
    case dropped m w =>
      dsimp only
      by_cases hd : d = c
      · have : InterfaceId.of m ≠ id := fun h => hm.not_open hg2 i (hid2.trans h.symm) ho2
        simp [hd, this]
      · simp [hd]

/-- If only connection `c` gets something from `a`, what is put into a channel with this address is put
there by `c`. -/
theorem routedTo_from {tr : Trace} {a : Addr} {c i : Nat}
    (h1 : ∀ x j m, (x, .routed j m a) ∈ tr → x = .route c)
    (h2 : ∀ j m b, (.route c, .routed j m b) ∈ tr → b = a) :
    ((routedTo i tr).filter fun x => decide (x.2 = a)).map Prod.fst = given c i tr := by
  induction tr with
  | nil => rfl
  | cons x tr ih =>
    have ih := ih (fun x j m h => h1 x j m (List.mem_cons_of_mem _ h))
      (fun j m b h => h2 j m b (List.mem_cons_of_mem _ h))
    obtain ⟨y, o⟩ := x
    simp only [routedTo, given, List.filterMap_cons] at ih ⊢
    cases o <;> try (cases y <;> exact ih)
    rename_i j m b
    by_cases hb : b = a
    · subst hb
      cases h1 y j m List.mem_cons_self
      by_cases hj : j = i <;> simp [hj, ih]
    · have hy : y ≠ .route c := by
        rintro rfl
        exact hb (h2 j m b List.mem_cons_self)
      have hr : given c i ((y, .routed j m b) :: tr) = given c i tr := by
        rw [given, List.filterMap_cons, given]
        cases y <;> try rfl
        rename_i d
        have : d ≠ c := fun h => hy (by rw [h])
        simp [this]
      simp only [given, List.filterMap_cons] at hr
      rw [hr]
      by_cases hj : j = i <;> simp [hj, hb, ih]

end Rsomeip.Rt.Ep
