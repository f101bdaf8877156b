import Verif.Lemmas.Termination

/-! # C14: termination of `Vec` decoding -/

namespace Rsomeip

open Spec

namespace Dec

/-- Put already decoded elements in front of a successful outcome. -/
def withAcc {α : Type} (acc : List α) : Out (List α) → Out (List α)
  | .ok vs => .ok (acc ++ vs)
  | .err e => .err e
  | .panic => .panic
  | .diverge => .diverge

theorem vecFuel_of_vec {α : Type} {d : Dec α} (b : Bytes) (o : Out (List α))
    (r : Bytes) (ho : o ≠ .diverge) (h : vec d b = (o, r)) :
    ∃ n, ∀ acc, vecFuel d n acc b = some (withAcc acc o, r) := by
  induction hn : b.length using Nat.strongRecOn generalizing b o r with
  | _ n ih =>
    by_cases h0 : b = []
    · subst h0
      rw [vec_nil] at h
      cases h
      exact ⟨1, fun acc => by simp [vecFuel, withAcc]⟩
    · rw [vec_ne d b h0] at h
      split at h
      · rename_i a r1 heq
        split at h
        · rename_i hlt
          match hv : vec d r1 with
          | (o1, r2) =>
            have ho1 : o1 ≠ .diverge := by
              rintro rfl
              rw [hv] at h
              cases h
              exact ho rfl
            obtain ⟨m, hm⟩ := ih r1.length (by omega) r1 o1 r2 ho1 hv rfl
            refine ⟨m + 1, fun acc => ?_⟩
            rw [vecFuel, if_neg h0, heq]
            simp only
            rw [hm]
            rw [hv] at h
            match o1 with
            | .ok vs => cases h; simp [withAcc]
            | .err e => cases h; rfl
            | .panic => cases h; rfl
            | .diverge => exact absurd rfl ho1
        · cases h; exact absurd rfl ho
      · rename_i heq
        cases h
        exact ⟨1, fun acc => by simp [vecFuel, h0, heq, withAcc]⟩
      · rename_i heq
        cases h
        exact ⟨1, fun acc => by simp [vecFuel, h0, heq, withAcc]⟩
      · cases h; exact absurd rfl ho

theorem vecFuel_stuck {α : Type} {d : Dec α} {b : Bytes} {a : α} (h0 : b ≠ [])
    (h : d b = (.ok a, b)) (n : Nat) (acc : List α) : vecFuel d n acc b = none := by
  induction n generalizing acc with
  | zero => rfl
  | succ n ih => rw [vecFuel, if_neg h0, h]; exact ih _

theorem vecFuel_of_diverge {α : Type} {d : Dec α} (hs : d.Safe) (ht : d.TotalD) (b : Bytes)
    (h : (vec d b).1 = .diverge) (n : Nat) (acc : List α) : vecFuel d n acc b = none := by
  induction n generalizing b acc with
  | zero => rfl
  | succ n ih =>
    by_cases h0 : b = []
    · subst h0; rw [vec_nil] at h; cases h
    · rw [vec_ne d b h0] at h
      rw [vecFuel, if_neg h0]
      split at h
      · rename_i a r1 heq
        rw [heq]
        simp only
        split at h
        · refine ih r1 ?_ _
          split at h
          · cases h
          · exact h
        · rename_i hlt
          have hsuf := hs.suffix b
          rw [heq] at hsuf
          have : r1 = b := hsuf.eq_of_length
            (Nat.le_antisymm hsuf.length_le (Nat.not_lt.mp hlt))
          subst this
          exact vecFuel_stuck h0 heq _ _
      · cases h
      · cases h
      · rename_i r heq
        exact absurd (by rw [heq]) (ht b)

end Dec

/-- **C14.** The total function `Dec.vec` used throughout the model agrees with the literal loop:
it returns `(o, r)` exactly when some number of loop iterations does, and it reports `diverge`
exactly when no number of iterations is enough. (For element types that terminate themselves.) -/
theorem C14_model_is_loop (host : Endian) (t : Ty) (ht : Terminating t = true) (b : Bytes) :
    (∀ o r, o ≠ .diverge → (Dec.vec (t.de host) b = (o, r) ↔
      ∃ n, Dec.vecFuel (t.de host) n [] b = some (o, r))) ∧
    ((Dec.vec (t.de host) b).1 = .diverge ↔ ∀ n, Dec.vecFuel (t.de host) n [] b = none) := by
  have hs := t.de_safe host
  have htot := Ty.totalMut host t ht
  generalize t.de host = d at hs htot
  have mono : ∀ n m acc b x, Dec.vecFuel d n acc b = some x → n ≤ m →
      Dec.vecFuel d m acc b = some x := by
    intro n
    induction n with
    | zero => intro m acc b x h; simp [Dec.vecFuel] at h
    | succ n ih =>
      intro m acc b x h hm
      obtain ⟨m, rfl⟩ : ∃ m', m = m' + 1 := ⟨m - 1, by omega⟩
      rw [Dec.vecFuel] at h ⊢
      by_cases h0 : b = []
      · simpa [h0] using h
      · rw [if_neg h0] at h ⊢
        split at h
        · exact ih m _ _ _ h (by omega)
        all_goals exact h
  have fwd : ∀ o r, o ≠ .diverge → Dec.vec d b = (o, r) →
      ∃ n, Dec.vecFuel d n [] b = some (o, r) := by
    intro o r ho h
    obtain ⟨n, hn⟩ := Dec.vecFuel_of_vec b o r ho h
    refine ⟨n, ?_⟩
    rw [hn []]
    cases o <;> simp [Dec.withAcc]
  have div : (Dec.vec d b).1 = .diverge → ∀ n, Dec.vecFuel d n [] b = none :=
    fun h n => Dec.vecFuel_of_diverge hs htot b h n []
  constructor
  · intro o r ho
    refine ⟨fwd o r ho, ?_⟩
    rintro ⟨n, hn⟩
    match hv : Dec.vec d b with
    | (o', r') =>
      by_cases ho' : o' = .diverge
      · have := div (by rw [hv, ho']) n
        rw [this] at hn
        cases hn
      · obtain ⟨m, hm⟩ := fwd o' r' ho' hv
        have h1 := mono n (max n m) _ _ _ hn (by omega)
        have h2 := mono m (max n m) _ _ _ hm (by omega)
        rw [h1] at h2
        cases h2
        rfl
  · refine ⟨div, fun h => ?_⟩
    match hv : Dec.vec d b with
    | (.diverge, r) => rfl
    | (.ok vs, r) => obtain ⟨n, hn⟩ := fwd _ _ (by simp) hv; rw [h n] at hn; cases hn
    | (.err e, r) => obtain ⟨n, hn⟩ := fwd _ _ (by simp) hv; rw [h n] at hn; cases hn
    | (.panic, r) => obtain ⟨n, hn⟩ := fwd _ _ (by simp) hv; rw [h n] at hn; cases hn

example : Dec.vecFuel (Ty.u16.de .big) 3 [] [0, 1, 0, 2] =
    some (.ok ([1, 2] : List UInt16), []) := by decide

/-- **C14 fails as stated.** Decoding `Vec<[u16; 1]>` from a single byte never ends: no number of
loop iterations is enough. -/
theorem C14_does_not_terminate (host : Endian) (x : UInt8) (n : Nat) :
    Dec.vecFuel ((Ty.array 1 .u16).de host) n [] [x] = none :=
  Dec.vecFuel_stuck (d := (Ty.array 1 .u16).de host) (a := (⟨[0], rfl⟩ : Arr UInt16 1))
    (by simp) rfl n []

/-- **C14, partial.** Decoding a `Vec` terminates on every input, with a value or an error, within
one iteration more than there are bytes — provided every element type of a `Vec` inside the type
consumes something whenever it succeeds (`Terminating`). Missing: other element types, for which
the claim is false, see `C14_terminates_iff`. -/
theorem C14_terminates_partial (host : Endian) (t : Ty) (ht : Terminating t = true) (b : Bytes) :
    (t.de host b).1 ≠ .diverge ∧
    ∀ e, t = .vec e → ∃ o r, o ≠ .diverge ∧
      Dec.vecFuel (e.de host) (b.length + 1) [] b = some (o, r) := by
  refine ⟨Ty.totalMut host t ht b, ?_⟩
  rintro e rfl
  simp only [Terminating, Bool.and_eq_true] at ht
  have hp := Ty.progressD host e ht.1 ht.2
  have htot := Ty.totalMut host e ht.2
  generalize e.de host = d at hp htot
  have key : ∀ n acc b, b.length < n → ∃ o r, o ≠ .diverge ∧
      Dec.vecFuel d n acc b = some (o, r) := by
    intro n
    induction n with
    | zero => intro acc b h; omega
    | succ n ih =>
      intro acc b h
      rw [Dec.vecFuel]
      by_cases h0 : b = []
      · rw [if_pos h0]; exact ⟨_, _, by simp, rfl⟩
      · rw [if_neg h0]
        have := htot b
        split
        · rename_i a r heq
          have := hp b a r h0 heq
          exact ih _ r (by omega)
        · exact ⟨_, _, by simp, rfl⟩
        · exact ⟨_, _, by simp, rfl⟩
        · rename_i r heq; rw [heq] at this; exact absurd rfl this
  exact key _ [] b (by omega)

example : Terminating (.vec (.pair (.array 2 .u8) (.len .u16 (.vec .utf8)))) = true := by decide

open Dec in
/-- Types that do not always consume: on a single zero byte nothing is consumed, and types without
progress even succeed. -/
theorem stuck_on_zero (host : Endian) : (t : Ty) → Terminating t = true →
    (Eats t = false → (t.de host [0]).2 = [0]) ∧
    (Progress t = false → ∃ v, t.de host [0] = (.ok v, [0]))
  | .u8, _ | .i8, _ | .bool, _ | .bytes, _ =>
    ⟨fun h => by simp [Eats] at h, fun h => by simp [Progress] at h⟩
  | .u16, _ | .u32, _ | .u64, _ | .i16, _ | .i32, _ | .i64, _ | .f32, _ | .f64, _ | .utf8, _
  | .utf16 _, _ => ⟨fun _ => rfl, fun h => by simp [Progress] at h⟩
  | .vec t, ht => by
    simp only [Terminating, Bool.and_eq_true] at ht
    refine ⟨fun h => ?_, fun h => by simp [Progress] at h⟩
    have h1 := (stuck_on_zero host t ht.2).1 (by simpa [Eats] using h)
    have hp := Ty.progressD host t ht.1 ht.2
    show (Dec.vec (t.de host) [0]).2 = [0]
    rw [vec_ne _ _ (by simp)]
    split
    · rename_i v r heq
      have := hp [0] v r (by simp) heq
      rw [heq] at h1
      simp only at h1
      rw [h1] at this
      exact absurd this (Nat.lt_irrefl _)
    all_goals (rename_i heq; rw [heq] at h1; exact h1)
  | .array n t, ht => by
    have ht' : Terminating t = true := by simpa [Terminating] using ht
    have hst := array_stuck (t.de_safe host) (Ty.totalMut host t ht') t.dflt n [0]
    have key : (n = 0 ∨ Eats t = false) → ∃ v, (Ty.array n t).de host [0] = (.ok v, [0]) := by
      intro h
      refine hst ?_
      rcases h with h | h
      · exact Or.inl h
      · exact Or.inr ((stuck_on_zero host t ht').1 h)
    refine ⟨fun h => ?_, fun h => ?_⟩
    · obtain ⟨v, hv⟩ := key (by
        simp only [Eats, Bool.and_eq_false_iff, decide_eq_false_iff_not] at h
        rcases h with h | h
        · exact Or.inl (by omega)
        · exact Or.inr h)
      rw [hv]
    · exact key (by
        simp only [Progress, Bool.and_eq_false_iff, decide_eq_false_iff_not] at h
        rcases h with h | h
        · exact Or.inl (by omega)
        · exact Or.inr h)
  | .unit, _ => ⟨fun _ => rfl, fun _ => ⟨(), rfl⟩⟩
  | .pair a b, ht => by
    simp only [Terminating, Bool.and_eq_true] at ht
    have ha := stuck_on_zero host a ht.1
    have hb := stuck_on_zero host b ht.2
    have e : (Ty.pair a b).de host = (a.de host >>= fun p => b.de host >>= fun q =>
      (Pure.pure (p, q) : Dec (a.Val × b.Val))) := rfl
    rw [e]
    refine ⟨fun h => ?_, fun h => ?_⟩
    · simp only [Eats, Bool.or_eq_false_iff, Bool.and_eq_false_iff, Bool.not_eq_false'] at h
      have ha1 := ha.1 h.1
      rw [bind_apply]
      split
      · rename_i p r heq
        rw [heq] at ha1
        simp only at ha1
        subst ha1
        rcases h.2 with hp | hq
        · have := Ty.progressD host a hp ht.1 [0] p [0] (by simp) heq
          exact absurd this (Nat.lt_irrefl _)
        · have hb1 := hb.1 hq
          rw [bind_apply]
          split
          all_goals (rename_i heq'; rw [heq'] at hb1; exact hb1)
      all_goals (rename_i heq; rw [heq] at ha1; exact ha1)
    · simp only [Progress, Bool.or_eq_false_iff] at h
      obtain ⟨p, hp⟩ := ha.2 h.1
      obtain ⟨q, hq⟩ := hb.2 h.2
      exact ⟨(p, q), by rw [bind_ok hp, bind_ok hq]; rfl⟩
  | .len .u8 t, _ => ⟨fun h => by simp [Eats] at h, fun h => by simp [Progress] at h⟩
  | .len .u16 t, _ | .len .u32 t, _ => ⟨fun _ => rfl, fun h => by simp [Progress] at h⟩

/-- **C14.** The exact condition: for an element type that itself terminates, decoding a `Vec` of it
terminates on every input if and only if the element type makes progress (`Progress`, a decidable
condition on the type). -/
theorem C14_terminates_iff (host : Endian) (t : Ty) (ht : Terminating t = true) :
    (∀ b, ∃ n x, Dec.vecFuel (t.de host) n [] b = some x) ↔ Progress t = true := by
  constructor
  · intro h
    by_cases hp : Progress t = true
    · exact hp
    · obtain ⟨v, hv⟩ := (stuck_on_zero host t ht).2 (by simpa using hp)
      obtain ⟨n, x, hx⟩ := h [0]
      rw [Dec.vecFuel_stuck (by simp) hv n []] at hx
      cases hx
  · intro hp b
    obtain ⟨_, h⟩ := C14_terminates_partial host (.vec t) (by simp [Terminating, hp, ht]) b
    obtain ⟨o, r, _, h⟩ := h t rfl
    exact ⟨_, _, h⟩

example : Terminating (.array 1 .u16) = true ∧ Progress (.array 1 .u16) = false ∧
    Progress (.array 1 .u8) = true ∧ Progress (.pair (.array 1 .u16) .u8) = true := by decide

end Rsomeip
