import Verif.Spec.AnyBuf

/-! # Reading from any buffer is reading from its bytes -/

namespace Rsomeip.Any

open Spec

/-- The contract, with something that reading does not change. -/
structure Lawful {B τ : Type} [Buf B] (view : B → Bytes) (tag : B → τ) : Prop where
  remaining : ∀ b, Buf.remaining b = (view b).length
  chunk : ∀ b, Buf.chunk b <+: view b
  more : ∀ b, view b ≠ [] → Buf.chunk b ≠ []
  advance : ∀ b k, k ≤ (view b).length →
    ∃ b', Buf.advance k b = (.ok (), b') ∧ view b' = (view b).drop k ∧ tag b' = tag b

theorem Lawful.of {B : Type} [Buf B] {view : B → Bytes} (h : Contract view) :
    Lawful view (fun _ => ()) :=
  ⟨h.remaining, h.chunk, h.more, fun b k hk => by
    obtain ⟨b', h₁, h₂⟩ := h.advance b k hk
    exact ⟨b', h₁, h₂, rfl⟩⟩

theorem Lawful.contract {B τ : Type} [Buf B] {view : B → Bytes} {tag : B → τ} (h : Lawful view tag) :
    Contract view :=
  ⟨h.remaining, h.chunk, h.more, fun b k hk => by
    obtain ⟨b', h₁, h₂, _⟩ := h.advance b k hk
    exact ⟨b', h₁, h₂⟩⟩

/-- What is beyond the limit is not touched. -/
theorem Lawful.take {B τ : Type} [Buf B] {view : B → Bytes} {tag : B → τ} (h : Lawful view tag) :
    Lawful (B := Take B) (fun t => (view t.inner).take t.limit)
      (fun t => ((view t.inner).drop t.limit, tag t.inner)) where
  remaining t := by simp [Buf.remaining, h.remaining, Nat.min_comm]
  chunk t := by
    obtain ⟨w, hw⟩ := h.chunk t.inner
    exact ⟨w.take (t.limit - (Buf.chunk t.inner).length), by rw [← hw, List.take_append]; rfl⟩
  more t ht := by
    have h₁ : view t.inner ≠ [] := fun e => ht (by simp [e])
    have h₂ : t.limit ≠ 0 := fun e => ht (by simp [e])
    have := h.more _ h₁
    simp [Buf.chunk, this, h₂]
  advance t k hk := by
    rw [List.length_take] at hk
    obtain ⟨b', h₁, h₂, h₃⟩ := h.advance t.inner k (by omega)
    refine ⟨⟨b', t.limit - k⟩, ?_, ?_, ?_⟩
    · simp only [Buf.advance, h₁]
      rw [if_neg (by omega)]
    · simp [h₂, List.drop_take]
    · simp only [h₂, h₃, List.drop_drop]
      rw [show k + (t.limit - k) = t.limit from by omega]

section
variable {B τ : Type} [Buf B] {view : B → Bytes} {tag : B → τ}

/-- The same outcome, the same bytes left, and nothing else changed. -/
def Agree {α : Type} (view : B → Bytes) (tag : B → τ) (g : D B α) (d : Dec α) : Prop :=
  ∀ b, (g b).1 = (d (view b)).1 ∧ view (g b).2 = (d (view b)).2 ∧ tag (g b).2 = tag b

omit [Buf B] in
theorem Agree.pure {α : Type} (a : α) : Agree view tag (Pure.pure a : D B α) (Pure.pure a : Dec α) :=
  fun _ => ⟨rfl, rfl, rfl⟩

omit [Buf B] in
theorem Agree.bind {α β : Type} {g : D B α} {d : Dec α} {g' : α → D B β} {d' : α → Dec β}
    (h : Agree view tag g d) (h' : ∀ a, Agree view tag (g' a) (d' a)) :
    Agree view tag (g >>= g') (d >>= d') := by
  intro b
  obtain ⟨h₁, h₂, h₃⟩ := h b
  show (D.bind g g' b).1 = (Dec.bind d d' (view b)).1 ∧ view (D.bind g g' b).2 = (Dec.bind d d' (view b)).2 ∧
    tag (D.bind g g' b).2 = tag b
  unfold D.bind Dec.bind
  rcases hg : g b with ⟨o, r⟩
  rcases hd : d (view b) with ⟨o', r'⟩
  rw [hg, hd] at h₁ h₂
  rw [hg] at h₃
  dsimp only at h₁ h₂ h₃
  subst h₁
  cases o with
  | ok a =>
    obtain ⟨k₁, k₂, k₃⟩ := h' a r
    rw [h₂] at k₁ k₂
    exact ⟨k₁, k₂, k₃.trans h₃⟩
  | _ => exact ⟨rfl, h₂, h₃⟩

omit [Buf B] in
theorem Agree.fail {α : Type} (e : DeErr) : Agree view tag (D.fail e : D B α) (Dec.fail e : Dec α) :=
  fun _ => ⟨rfl, rfl, rfl⟩

theorem Agree.remaining (h : Lawful view tag) : Agree view tag (D.remaining : D B Nat) Dec.remaining :=
  fun b => ⟨congrArg Out.ok (h.remaining b), rfl, rfl⟩

theorem copyLoop_eq (h : Lawful view tag) (k : Nat) : ∀ b, k ≤ (view b).length →
    (copyLoop k b).1 = .ok ((view b).take k) ∧ view (copyLoop k b).2 = (view b).drop k ∧
      tag (copyLoop k b).2 = tag b := by
  induction k using Nat.strongRecOn with
  | ind k ih =>
    intro b hk
    rw [copyLoop]
    by_cases hz : k = 0
    · subst hz
      simp
    · have hv : view b ≠ [] := by
        intro e
        rw [e] at hk
        exact hz (Nat.le_zero.mp hk)
      have hc := h.more b hv
      have hl : 0 < (Buf.chunk b).length := List.length_pos_iff.mpr hc
      obtain ⟨b', h₁, h₂, h₃⟩ := h.advance b (min (Buf.chunk b).length k) (by omega)
      obtain ⟨i₁, i₂, i₃⟩ := ih (k - min (Buf.chunk b).length k) (by omega) b' (by
        rw [h₂, List.length_drop]; omega)
      rw [if_neg hz]
      dsimp only
      rw [if_neg (by omega), h₁]
      dsimp only
      rcases hl' : copyLoop (k - min (Buf.chunk b).length k) b' with ⟨o, b''⟩
      rw [hl'] at i₁ i₂ i₃
      dsimp only at i₁ i₂ i₃
      subst i₁
      dsimp only
      obtain ⟨w, hw⟩ := h.chunk b
      refine ⟨?_, ?_, i₃.trans h₃⟩
      · congr 1
        have e : (Buf.chunk b).take (min (Buf.chunk b).length k) =
            (view b).take (min (Buf.chunk b).length k) := by
          rw [← hw, List.take_append_of_le_length (by omega)]
        rw [e, h₂, ← List.take_add]
        congr 1
        omega
      · rw [i₂, h₂, List.drop_drop]
        congr 1
        omega

theorem Agree.copy (h : Lawful view tag) (k : Nat) :
    Agree view tag (D.copy k : D B Bytes) (Dec.copyToBytes k) := by
  intro b
  unfold D.copy Dec.copyToBytes
  rw [h.remaining]
  split
  · exact ⟨rfl, rfl, rfl⟩
  · exact copyLoop_eq h k b (by omega)

theorem Agree.getBE (h : Lawful view tag) (k : Nat) :
    Agree view tag (D.getBE k : D B Nat) (Dec.getBE k) := by
  have e : Dec.getBE k = (do let bs ← Dec.copyToBytes k; Pure.pure (beToNat bs)) := by
    funext b
    show _ = Dec.bind _ _ b
    unfold Dec.getBE Dec.bind Dec.copyToBytes
    split <;> rfl
  rw [e]
  exact (Agree.copy h k).bind fun _ => .pure _

theorem Agree.prim {α : Type} (h : Lawful view tag) (k : Nat) (f : Nat → α) :
    Agree view tag (prim k f : D B α) (Dec.prim k f) := by
  refine (Agree.remaining h).bind fun n => ?_
  split
  · exact .fail _
  · exact (Agree.getBE h k).bind fun _ => .pure _

theorem Agree.bool (h : Lawful view tag) : Agree view tag (bool : D B Bool) Dec.bool := by
  refine (Agree.remaining h).bind fun n => ?_
  split
  · exact .fail _
  · exact (Agree.getBE h 1).bind fun _ => .pure _

omit [Buf B] in
theorem Agree.orDefault {α : Type} {g : D B α} {d : Dec α} (h : Agree view tag g d) (x : α) :
    Agree view tag (orDefault g x) (Dec.orDefault d x) := by
  intro b
  obtain ⟨h₁, h₂, h₃⟩ := h b
  unfold Any.orDefault Dec.orDefault
  rcases hg : g b with ⟨o, r⟩
  rcases hd : d (view b) with ⟨o', r'⟩
  rw [hg, hd] at h₁ h₂
  rw [hg] at h₃
  dsimp only at h₁ h₂ h₃
  subst h₁
  cases o <;> exact ⟨rfl, h₂, h₃⟩

omit [Buf B] in
theorem Agree.array {α : Type} {g : D B α} {d : Dec α} (h : Agree view tag g d) (x : α) (n : Nat) :
    Agree view tag (array g x n) (Dec.array d x n) := by
  induction n with
  | zero => exact .pure _
  | succ n ih => exact (h.orDefault x).bind fun _ => ih.bind fun _ => .pure _

theorem Agree.vec {α : Type} (law : Lawful view tag) {g : D B α} {d : Dec α} (h : Agree view tag g d) :
    Agree view tag (vec g) (Dec.vec d) := by
  intro b
  induction hn : (view b).length using Nat.strongRecOn generalizing b with
  | ind n ih =>
    obtain ⟨h₁, h₂, h₃⟩ := h b
    rw [Any.vec, Dec.vec]
    simp only [law.remaining, List.length_eq_zero_iff]
    split
    · exact ⟨rfl, rfl, rfl⟩
    · rcases hg : g b with ⟨o, r⟩
      rcases hd : d (view b) with ⟨o', r'⟩
      rw [hg, hd] at h₁ h₂
      rw [hg] at h₃
      dsimp only at h₁ h₂ h₃
      subst h₁
      subst h₂
      cases o with
      | ok a =>
        dsimp only
        split
        · rename_i hlt
          obtain ⟨i₁, i₂, i₃⟩ := ih _ (hn ▸ hlt) r rfl
          rcases hg' : Any.vec g r with ⟨o, s⟩
          rcases hd' : Dec.vec d (view r) with ⟨o', s'⟩
          rw [hg', hd'] at i₁ i₂
          rw [hg'] at i₃
          dsimp only at i₁ i₂ i₃
          subst i₁
          cases o <;> exact ⟨rfl, i₂, i₃.trans h₃⟩
        · exact ⟨rfl, rfl, h₃⟩
      | _ => exact ⟨rfl, rfl, h₃⟩

theorem Agree.untilZero {α : Type} [DecidableEq α] (law : Lawful view tag) {g : D B α} {d : Dec α}
    (h : Agree view tag g d) (z : α) (acc : List α) :
    Agree view tag (untilZero z g acc) (Dec.untilZero z d acc) := by
  intro b
  induction hn : (view b).length using Nat.strongRecOn generalizing b acc with
  | ind n ih =>
    obtain ⟨h₁, h₂, h₃⟩ := h b
    rw [Any.untilZero, Dec.untilZero]
    simp only [law.remaining]
    rcases hg : g b with ⟨o, r⟩
    rcases hd : d (view b) with ⟨o', r'⟩
    rw [hg, hd] at h₁ h₂
    rw [hg] at h₃
    dsimp only at h₁ h₂ h₃
    subst h₁
    subst h₂
    cases o with
    | ok a =>
      dsimp only
      split
      · exact ⟨rfl, rfl, h₃⟩
      · split
        · rename_i hlt
          obtain ⟨i₁, i₂, i₃⟩ := ih _ (hn ▸ hlt) (acc ++ [a]) r rfl
          exact ⟨i₁, i₂, i₃.trans h₃⟩
        · exact ⟨rfl, rfl, h₃⟩
    | _ => exact ⟨rfl, rfl, h₃⟩

omit [Buf B] in
theorem Agree.tcons {α β : Type} {g : D B α} {d : Dec α} {g' : D B β} {d' : Dec β}
    (h : Agree view tag g d) (h' : Agree view tag g' d') :
    Agree view tag (tcons g g') (Dec.tcons d d') :=
  h.bind fun _ => h'.bind fun _ => .pure _

omit [Buf B] in
theorem Agree.map {α β : Type} {g : D B α} {d : Dec α} (h : Agree view tag g d) (f : α → β) :
    Agree view tag (map g f) (d.map f) :=
  h.bind fun _ => .pure _

theorem Agree.bytes (h : Lawful view tag) : Agree view tag (bytes : D B Bytes) Dec.bytes :=
  (Agree.remaining h).bind fun n => .copy h n

end

/-- A deserializer for every kind of buffer does what the deserializer on bytes does. -/
def Sim {α : Type} (g : Gen α) (d : Dec α) : Prop :=
  ∀ (B : Type) [Buf B] (τ : Type) (view : B → Bytes) (tag : B → τ), Lawful view tag →
    Agree view tag (g B) d

theorem Sim.same {α : Type} {g : Gen α} {d : Dec α} (h : Sim g d) : SameOn g d := by
  intro B _ view hc b
  obtain ⟨h₁, h₂, _⟩ := h B Unit view _ (Lawful.of hc) b
  exact ⟨h₁, h₂⟩

section
variable {B τ : Type} [Buf B] {view : B → Bytes} {tag : B → τ}

theorem Agree.take {α : Type} {g : Gen α} {d : Dec α} (law : Lawful view tag) (h : Sim g d) (n : Nat) :
    Agree view tag (Any.take n g : D B α) (d.take n) := by
  intro b
  obtain ⟨h₁, h₂, h₃⟩ := h (Take B) _ _ _ law.take ⟨b, n⟩
  unfold Any.take Dec.take
  rcases hg : g (Take B) ⟨b, n⟩ with ⟨o, t⟩
  rw [hg] at h₁ h₂ h₃
  dsimp only at h₁ h₂ h₃ ⊢
  rw [Prod.mk.injEq] at h₃
  refine ⟨h₁, ?_, h₃.2⟩
  rw [← h₂, ← h₃.1, List.take_append_drop]

theorem Agree.len {α : Type} {g : Gen α} {d : Dec α} (law : Lawful view tag) (h : Sim g d) (l : LengthField) :
    Agree view tag (len g l : D B α) (d.len l) := by
  cases l <;> exact ((Agree.prim law _ _).bind fun _ => .pure _).bind fun n => .take law h n

theorem Agree.utf8 (law : Lawful view tag) : Agree view tag (utf8 : D B (List Char)) Dec.utf8 := by
  refine (Agree.prim law 1 _).bind fun bom => ?_
  split
  · exact .fail _
  · refine (Agree.untilZero law (Agree.prim law 1 _) _ _).bind fun raw => ?_
    cases utf8Decode raw
    · exact .fail _
    · exact .pure _

theorem Agree.utf16 (law : Lawful view tag) (host : Endian) (be : Bool) :
    Agree view tag (utf16 host be : D B (List Char)) (Dec.utf16 host be) := by
  have hu : Agree view tag (utf16Unit host be : D B UInt16) (Dec.utf16Unit host be) := by
    cases be
    · exact (Agree.prim law 2 _).bind fun _ => .pure _
    · exact Agree.prim law 2 _
  refine (Agree.untilZero law hu _ _).bind fun raw => ?_
  cases utf16Decode raw
  · exact .fail _
  · exact .pure _

theorem Agree.string (law : Lawful view tag) (host : Endian) :
    Agree view tag (string host : D B (List Char)) (Dec.string host) := by
  refine (Agree.prim law 2 _).bind fun v => ?_
  split
  · exact .utf8 law
  · split
    · exact .utf16 law host true
    · split
      · exact .utf16 law host false
      · exact .fail _

end

theorem sim_de (host : Endian) : (t : Ty) → Sim (de host t) (t.de host)
  | .u8 | .u16 | .u32 | .u64 | .i8 | .i16 | .i32 | .i64 | .f32 | .f64 =>
    fun _ _ _ _ _ law => Agree.prim law _ _
  | .bool => fun _ _ _ _ _ law => Agree.bool law
  | .bytes => fun _ _ _ _ _ law => Agree.bytes law
  | .utf8 | .utf16 _ => fun _ _ _ _ _ law => Agree.string law host
  | .vec t => fun B _ τ view tag law => Agree.vec law (sim_de host t B τ view tag law)
  | .array n t => fun B _ τ view tag law => Agree.array (sim_de host t B τ view tag law) _ n
  | .unit => fun _ _ _ _ _ _ => Agree.pure _
  | .pair a b => fun B _ τ view tag law =>
    Agree.tcons (sim_de host a B τ view tag law) (sim_de host b B τ view tag law)
  | .len l t => fun _ _ _ _ _ law => Agree.len law (sim_de host t) l

open Proto

theorem sim_header : Sim header Header.de := fun _ _ _ _ _ law =>
  ((Agree.prim law _ _).map _).bind fun _ => ((Agree.prim law _ _).map _).bind fun _ =>
    ((Agree.prim law _ _).map _).bind fun _ => ((Agree.prim law _ _).map _).bind fun _ =>
      ((Agree.prim law _ _).map _).bind fun _ => ((Agree.prim law _ _).map _).bind fun _ => .pure _

theorem sim_generic {η β : Type} {h : Gen η} {h' : Dec η} {b : Gen β} {b' : Dec β} (hh : Sim h h')
    (hb : Sim b b') : Sim (generic h b) (GenericMessage.de h' b') := fun _ _ _ _ _ law =>
  (Agree.tcons ((Agree.prim law _ _).map _) (Agree.tcons ((Agree.prim law _ _).map _) (.pure _))).bind fun _ =>
    (Agree.len law (fun B _ τ view tag law =>
      Agree.tcons (hh B τ view tag law) (Agree.tcons (hb B τ view tag law) (.pure _))) _).bind fun _ => .pure _

theorem sim_tpHeader : Sim tpHeader TpHeader.de := fun _ _ _ _ _ law =>
  (Agree.prim law _ _).bind fun _ => (Agree.remaining law).bind fun _ => (Agree.copy law _).bind fun _ => .pure _

theorem sim_message {β : Type} {b : Gen β} {b' : Dec β} (hb : Sim b b') :
    Sim (message b) (Someip.Message.de b') := fun _ _ _ _ _ law =>
  (Agree.prim law _ _).bind fun _ =>
    (Agree.len law (fun B _ τ view tag law =>
      Agree.tcons (Agree.prim law _ _) (Agree.tcons (Agree.prim law _ _) (Agree.tcons (Agree.prim law _ _)
        (Agree.tcons ((Agree.prim law _ _).map _) (Agree.tcons ((Agree.prim law _ _).map _)
          (Agree.tcons (hb B τ view tag law) (.pure _))))))) _).bind fun _ => .pure _

/-! ## Buffers that keep the contract -/

theorem contract_bytes : Contract (B := Bytes) (fun b => b) where
  remaining _ := rfl
  chunk b := List.prefix_rfl
  more _ h := h
  advance b k hk := ⟨b.drop k, by simp [Buf.advance, Nat.not_lt.mpr hk], rfl⟩

theorem Pieces.first_prefix : (l : List Bytes) → Pieces.first l <+: l.flatten
  | [] => List.prefix_rfl
  | p :: ps => by
    rw [Pieces.first]
    split
    · rename_i h
      subst h
      exact Pieces.first_prefix ps
    · exact ⟨_, rfl⟩

theorem Pieces.first_more : (l : List Bytes) → l.flatten ≠ [] → Pieces.first l ≠ []
  | [], h => absurd rfl h
  | p :: ps, h => by
    rw [Pieces.first]
    split
    · rename_i e
      subst e
      exact Pieces.first_more ps h
    · assumption

theorem Pieces.skip_flatten : (k : Nat) → (l : List Bytes) → (Pieces.skip k l).flatten = l.flatten.drop k
  | _, [] => by simp [Pieces.skip]
  | k, p :: ps => by
    rw [Pieces.skip, List.flatten_cons, List.drop_append]
    split
    · rename_i h
      rw [List.flatten_cons, Nat.sub_eq_zero_of_le (Nat.le_of_lt h), List.drop_zero]
    · rename_i h
      rw [Pieces.skip_flatten, List.drop_eq_nil_of_le (as := p) (by omega), List.nil_append]

theorem contract_pieces : Contract (B := Pieces) (fun b => b.list.flatten) where
  remaining b := by simp [Buf.remaining, List.length_flatten]
  chunk b := Pieces.first_prefix b.list
  more b := Pieces.first_more b.list
  advance b k hk := by
    refine ⟨⟨Pieces.skip k b.list⟩, ?_, Pieces.skip_flatten k b.list⟩
    simp only [Buf.advance]
    rw [if_neg (by rw [← List.length_flatten]; omega)]

end Rsomeip.Any
