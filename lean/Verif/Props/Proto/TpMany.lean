import Verif.Spec.TpMany
import Verif.Props.Proto.Tp

/-! # C111: segmented messages are not mixed up -/

namespace Rsomeip

open Spec Proto Spec.Many

namespace Many

/-- The messages handed out while segments arrive. -/
def out (o : Open) : List (Message TpHeader) → List (Message Bytes)
  | [] => []
  | a :: as => (onSegment o a).2.toList ++ out (onSegment o a).1 as

theorem splits_cons {limit : Nat} {h : TpHeader} {segs : List TpHeader} (hs : Splits limit h segs) :
    ∃ a as, segs = a :: as := by
  cases hs <;> exact ⟨_, _, rfl⟩

theorem packet_decodes {x : Sent} (hx : x.Proper) {a : Message TpHeader} (ha : a ∈ x.parts)
    {p : Bytes} (hp : GenericMessage.toBytes Header.ser TpHeader.ser a = .ok p) :
    Message.de TpHeader.de p = (.ok a, []) := by
  obtain ⟨hl, hc, hb, hs⟩ := hx
  obtain ⟨s, hs', rfl⟩ := List.mem_map.mp ha
  obtain ⟨f, r, e⟩ := splits_cons hs
  rw [e] at hs hs'
  obtain ⟨p', hp', -, hd⟩ := (C50_end_to_end x.message x.limit hl hc hb f r hs).1 s hs'
  rw [hp] at hp'
  cases hp'
  simpa using (hd []).1

theorem handedOut_out (sent : List Sent) (hs : ∀ x ∈ sent, x.Proper) (as : List (Message TpHeader))
    (ha : ∀ a ∈ as, ∃ x ∈ sent, a ∈ x.parts) (ps : List Bytes) (hp : PacketsOf as ps) (o : Open) :
    handedOut o ps = out o as := by
  induction as generalizing ps o with
  | nil =>
    cases ps with
    | nil => rfl
    | cons p ps => simp [PacketsOf] at hp
  | cons a as ih =>
    cases ps with
    | nil => simp [PacketsOf] at hp
    | cons p ps =>
      simp only [PacketsOf, List.map_cons, List.cons.injEq] at hp
      obtain ⟨x, hx, hax⟩ := ha a List.mem_cons_self
      have : onPacket o p = onSegment o a := by
        simp only [onPacket, packet_decodes (hs x hx) hax hp.1]
      simp only [handedOut, out, this]
      rw [ih (fun b hb => ha b (List.mem_cons_of_mem _ hb)) ps hp.2]

theorem proper_shape {x : Sent} (hx : x.Proper) :
    16 ≤ x.limit ∧ Shape x.limit (.new x.message.body) x.segments :=
  ⟨hx.1, shape_of_splits hx.1 hx.2.2.2⟩

theorem offset_zero {x : Sent} (hx : x.Proper) (i : Nat) (hi : i < x.segments.length) :
    x.segments[i].offset = 0 ↔ i = 0 := by
  obtain ⟨hl, hs⟩ := proper_shape hx
  rw [(hs.each i hi).1]
  simp only [TpHeader.new, Nat.zero_add, Nat.mul_eq_zero]
  have := unit_bounds hl
  omega

theorem first_gathered {x : Sent} (hx : x.Proper) (h0 : 0 < x.segments.length) :
    x.segments[0] = gathered x.segments 1 := by
  obtain ⟨hl, hs⟩ := proper_shape hx
  obtain ⟨f, r, e⟩ := splits_cons hx.2.2.2
  simp only [e] at hs ⊢
  exact (gathered_one hs).symm

/-- The state `o` holds the first `j` segments of `x` (`0`: nothing). -/
def Holds (o : Open) (x : Sent) (j : Nat) : Prop :=
  j < x.segments.length ∧
    o (ident x.message) = if j = 0 then none else some (x.message.withBody (gathered x.segments j))

theorem finish_gathered {x : Sent} (hx : x.Proper) (o : Open) (j : Nat) (hj : j ≤ x.segments.length) :
    finish o (x.message.withBody (gathered x.segments j)) =
      if j < x.segments.length then
        (fun i => if i = ident x.message then some (x.message.withBody (gathered x.segments j)) else o i,
          none)
      else (fun i => if i = ident x.message then none else o i, some x.message) := by
  obtain ⟨hl, hs⟩ := proper_shape hx
  have hm : (GenericMessage.body (x.message.withBody (gathered x.segments j))).moreSegments =
      decide (j < x.segments.length) := rfl
  have hi : ident (x.message.withBody (gathered x.segments j)) = ident x.message := rfl
  simp only [finish, hm, hi, decide_eq_true_eq]
  split
  · rfl
  · have : j = x.segments.length := by omega
    subst this
    rw [gathered_all hs]
    rfl

/-- What the segment at place `i` does if the first `j` are held. -/
theorem onSegment_holds {x : Sent} (hx : x.Proper) {o : Open} {j : Nat} (h : Holds o x j) (i : Nat)
    (hi : i < x.segments.length) :
    ∃ j', (onSegment o (x.message.withBody x.segments[i])).2 =
        (if j' = x.segments.length then some x.message else none) ∧
      Holds (onSegment o (x.message.withBody x.segments[i])).1 x
        (if j' = x.segments.length then 0 else j') ∧
      (∀ k, k ≠ ident x.message → (onSegment o (x.message.withBody x.segments[i])).1 k = o k) ∧
      (i = j → j' = j + 1) := by
  obtain ⟨hl, hs⟩ := proper_shape hx
  obtain ⟨hj, ho⟩ := h
  have close : ∀ j', j' ≤ x.segments.length → 0 < j' → ∀ r,
      r = finish o (x.message.withBody (gathered x.segments j')) →
      r.2 = (if j' = x.segments.length then some x.message else none) ∧
      Holds r.1 x (if j' = x.segments.length then 0 else j') ∧
      (∀ k, k ≠ ident x.message → r.1 k = o k) := by
    rintro j' hj' hpos r rfl
    rw [finish_gathered hx o j' hj']
    by_cases he : j' = x.segments.length
    · rw [if_neg (by omega), if_pos he, if_pos he]
      refine ⟨rfl, ⟨by omega, ?_⟩, fun k hk => if_neg hk⟩
      simp
    · rw [if_pos (by omega), if_neg he, if_neg he]
      refine ⟨rfl, ⟨by omega, ?_⟩, fun k hk => if_neg hk⟩
      simp only [if_true]
      rw [if_neg (by omega)]
  have hid : ident (x.message.withBody x.segments[i]) = ident x.message := rfl
  have hoff : (GenericMessage.body (x.message.withBody x.segments[i])).offset = 0 ↔ i = 0 :=
    offset_zero hx i hi
  by_cases h0 : i = 0
  · subst h0
    have he : onSegment o (x.message.withBody x.segments[0]) =
        finish o (x.message.withBody (gathered x.segments 1)) := by
      rw [onSegment, if_pos (hoff.mpr rfl), first_gathered hx]
    obtain ⟨c1, c2, c3⟩ := close 1 (by omega) (by omega) _ he
    exact ⟨1, c1, c2, c3, fun h => by omega⟩
  · have hne : ¬ (GenericMessage.body (x.message.withBody x.segments[i])).offset = 0 :=
      fun h => h0 (hoff.mp h)
    by_cases hj0 : j = 0
    · have he : onSegment o (x.message.withBody x.segments[i]) = (o, none) := by
        rw [onSegment, if_neg hne, hid, ho, if_pos hj0]
      rw [he]
      refine ⟨0, ?_, ⟨?_, ?_⟩, fun _ _ => rfl, fun h => by omega⟩
      · rw [if_neg (by omega)]
      · split <;> omega
      · show o _ = _
        rw [ho, if_pos hj0]; simp
    · rw [if_neg hj0] at ho
      have hjoin := join_gathered hl hs j i (by omega) hi
      rw [if_neg (by omega)] at hjoin
      by_cases hij : i = j
      · rw [if_pos hij] at hjoin
        have he : onSegment o (x.message.withBody x.segments[i]) =
            finish o (x.message.withBody (gathered x.segments (j + 1))) := by
          have hb : (GenericMessage.body (x.message.withBody (gathered x.segments j))).join
              (GenericMessage.body (x.message.withBody x.segments[i])) = _ := hjoin
          rw [onSegment, if_neg hne, hid, ho]
          simp only [hb]
          rfl
        obtain ⟨c1, c2, c3⟩ := close (j + 1) (by omega) (by omega) _ he
        exact ⟨j + 1, c1, c2, c3, fun _ => rfl⟩
      · rw [if_neg hij] at hjoin
        have he : onSegment o (x.message.withBody x.segments[i]) = (o, none) := by
          have hb : (GenericMessage.body (x.message.withBody (gathered x.segments j))).join
              (GenericMessage.body (x.message.withBody x.segments[i])) = _ := hjoin
          rw [onSegment, if_neg hne, hid, ho]
          simp only [hb]
        rw [he]
        refine ⟨j, ?_, ⟨?_, ?_⟩, fun _ _ => rfl, fun h => absurd h hij⟩
        · rw [if_neg (by omega)]
        · rw [if_neg (by omega)]; exact hj
        · rw [if_neg (show ¬ j = x.segments.length by omega), if_neg hj0]; exact ho

/-- What a segment of some message does to the state. -/
theorem step_sent {sent : List Sent} (hs : ∀ x ∈ sent, x.Proper)
    (hd : ∀ x ∈ sent, ∀ y ∈ sent, ident x.message = ident y.message → x = y) {o : Open}
    (ho : ∀ x ∈ sent, ∃ j, Holds o x j) {a : Message TpHeader} {y : Sent} (hy : y ∈ sent)
    (ha : a ∈ y.parts) :
    ((onSegment o a).2 = none ∨ (onSegment o a).2 = some y.message) ∧
    (∀ x ∈ sent, ∃ j, Holds (onSegment o a).1 x j) ∧
    (∀ x ∈ sent, x ≠ y → (onSegment o a).1 (ident x.message) = o (ident x.message)) := by
  obtain ⟨s, hs', rfl⟩ := List.mem_map.mp ha
  obtain ⟨i, hi, rfl⟩ := List.getElem_of_mem hs'
  obtain ⟨j, hj⟩ := ho y hy
  obtain ⟨j', h1, h2, h3, -⟩ := onSegment_holds (hs y hy) hj i hi
  have hother : ∀ x ∈ sent, x ≠ y → ident x.message ≠ ident y.message :=
    fun x hx hne h => hne (hd x hx y hy h)
  refine ⟨?_, fun x hx => ?_, fun x hx hne => h3 _ (hother x hx hne)⟩
  · rw [h1]
    split
    · exact .inr rfl
    · exact .inl rfl
  · by_cases hxy : x = y
    · subst hxy
      exact ⟨_, h2⟩
    · obtain ⟨k, hk1, hk2⟩ := ho x hx
      exact ⟨k, hk1, by rw [h3 _ (hother x hx hxy)]; exact hk2⟩

theorem holds_nothing {x : Sent} (hx : x.Proper) : Holds nothing x 0 := by
  refine ⟨?_, rfl⟩
  obtain ⟨f, r, e⟩ := splits_cons hx.2.2.2
  rw [e]
  simp

theorem out_sent {sent : List Sent} (hs : ∀ x ∈ sent, x.Proper)
    (hd : ∀ x ∈ sent, ∀ y ∈ sent, ident x.message = ident y.message → x = y)
    (as : List (Message TpHeader)) (ha : ∀ a ∈ as, ∃ x ∈ sent, a ∈ x.parts) (o : Open)
    (ho : ∀ x ∈ sent, ∃ j, Holds o x j) : ∀ m ∈ out o as, ∃ x ∈ sent, m = x.message := by
  induction as generalizing o with
  | nil => nofun
  | cons a as ih =>
    obtain ⟨y, hy, hay⟩ := ha a List.mem_cons_self
    obtain ⟨h1, h2, -⟩ := step_sent hs hd ho hy hay
    intro m hm
    rcases List.mem_append.mp hm with hm | hm
    · rcases h1 with h1 | h1 <;> rw [h1] at hm
      · cases hm
      · exact ⟨y, hy, by simpa using hm⟩
    · exact ih (fun b hb => ha b (List.mem_cons_of_mem _ hb)) _ h2 m hm

/-- What concerns one message: its segments from place `j` on arrive in order. -/
theorem out_one {sent : List Sent} (hs : ∀ x ∈ sent, x.Proper)
    (hd : ∀ x ∈ sent, ∀ y ∈ sent, ident x.message = ident y.message → x = y) {x : Sent}
    (hx : x ∈ sent) (as : List (Message TpHeader)) (ha : ∀ a ∈ as, ∃ x ∈ sent, a ∈ x.parts) (o : Open)
    (ho : ∀ x ∈ sent, ∃ j, Holds o x j) :
    (as.filter (fun a => ident a = ident x.message) = [] →
      (out o as).filter (fun m => ident m = ident x.message) = []) ∧
    ∀ j, Holds o x j → as.filter (fun a => ident a = ident x.message) = x.parts.drop j →
      (out o as).filter (fun m => ident m = ident x.message) = [x.message] := by
  induction as generalizing o with
  | nil =>
    refine ⟨fun _ => rfl, fun j hj hf => ?_⟩
    have := congrArg List.length hf
    simp only [List.filter_nil, List.length_nil, Sent.parts, List.length_drop, List.length_map] at this
    have := hj.1
    omega
  | cons a as ih =>
    obtain ⟨y, hy, hay⟩ := ha a List.mem_cons_self
    obtain ⟨h1, h2, h3⟩ := step_sent hs hd ho hy hay
    obtain ⟨ih1, ih2⟩ := ih (fun b hb => ha b (List.mem_cons_of_mem _ hb)) _ h2
    have hid : ident a = ident y.message := by
      obtain ⟨s, -, rfl⟩ := List.mem_map.mp hay
      rfl
    by_cases hxy : x = y
    · subst hxy
      have hp : decide (ident a = ident x.message) = true := by simpa using hid
      constructor
      · intro hf
        rw [List.filter_cons, if_pos hp] at hf
        cases hf
      · intro j hj hf
        rw [List.filter_cons, if_pos hp] at hf
        have hlt : j < x.parts.length := by simpa [Sent.parts] using hj.1
        rw [List.drop_eq_getElem_cons hlt] at hf
        injection hf with hf1 hf2
        have hpart : x.parts[j] = x.message.withBody (x.segments[j]'hj.1) := by
          simp [Sent.parts]
        obtain ⟨j', g1, g2, -, g4⟩ := onSegment_holds (hs x hx) hj j hj.1
        rw [g4 rfl, ← hpart, ← hf1] at g1 g2
        simp only [out, List.filter_append]
        rw [g1]
        by_cases hlast : j + 1 = x.segments.length
        · rw [if_pos hlast]
          have hnil : as.filter (fun a => ident a = ident x.message) = [] := by
            rw [hf2]
            exact List.drop_of_length_le (by simp [Sent.parts]; omega)
          rw [ih1 hnil]
          simp
        · rw [if_neg hlast] at g2 ⊢
          rw [ih2 (j + 1) g2 hf2]
          rfl
    · have hne : ident y.message ≠ ident x.message := fun h => hxy (hd y hy x hx h).symm
      have hp : ¬ (decide (ident a = ident x.message) = true) := by
        rw [hid]
        simpa using hne
      have hout : ((onSegment o a).2.toList).filter (fun m => ident m = ident x.message) = [] := by
        rcases h1 with h1 | h1 <;> rw [h1]
        · rfl
        · simp [hne]
      constructor
      · intro hf
        rw [List.filter_cons, if_neg hp] at hf
        simp only [out, List.filter_append, hout, ih1 hf, List.append_nil]
      · intro j hj hf
        rw [List.filter_cons, if_neg hp] at hf
        have hj' : Holds (onSegment o a).1 x j := ⟨hj.1, by rw [h3 x hx hxy]; exact hj.2⟩
        simp only [out, List.filter_append, hout, ih2 j hj' hf, List.nil_append]

end Many

open Many

/-- **C111**, nothing is mixed up: a receiver that keeps one open message for each combination of
service, method, client and session hands out only messages that were sent, whatever packets of
their segments arrive, in whatever order and however often, as long as no two of the messages have the
same identity. Missing: receivers that join whatever arrives (`C111_join_mixes`), and messages with the
same identity (`C111_same_identity`). -/
theorem C111_apart_partial (sent : List Sent) (hs : ∀ x ∈ sent, x.Proper)
    (hd : ∀ x ∈ sent, ∀ y ∈ sent, ident x.message = ident y.message → x = y)
    (parts : List (Message TpHeader)) (ha : ∀ a ∈ parts, ∃ x ∈ sent, a ∈ x.parts) (ps : List Bytes)
    (hp : PacketsOf parts ps) : ∀ m ∈ handedOut nothing ps, ∃ x ∈ sent, m = x.message := by
  rw [handedOut_out sent hs parts ha ps hp]
  exact out_sent hs hd parts ha _ fun x hx => ⟨0, holds_nothing (hs x hx)⟩

/-- **C111**, nothing is missing: if moreover the segments of a message arrive completely and in order,
between whatever segments of others, then this message is handed out, exactly once. Missing: as for
`C111_apart_partial`. -/
theorem C111_complete_partial (sent : List Sent) (hs : ∀ x ∈ sent, x.Proper)
    (hd : ∀ x ∈ sent, ∀ y ∈ sent, ident x.message = ident y.message → x = y)
    (parts : List (Message TpHeader)) (ha : ∀ a ∈ parts, ∃ x ∈ sent, a ∈ x.parts) (ps : List Bytes)
    (hp : PacketsOf parts ps) (x : Sent) (hx : x ∈ sent)
    (hf : parts.filter (fun a => ident a = ident x.message) = x.parts) :
    (handedOut nothing ps).filter (fun m => ident m = ident x.message) = [x.message] := by
  rw [handedOut_out sent hs parts ha ps hp]
  exact (out_one hs hd hx parts ha nothing fun y hy => ⟨0, holds_nothing (hs y hy)⟩).2 0
    (holds_nothing (hs x hx)) (by simpa using hf)

/-! ### Three messages under way -/

/-- A message in three segments. -/
def Spec.Many.sentOne : Sent := ⟨sample.withBody sampleBody, 20, sampleSegments⟩

/-- Another one, in two segments, of another session. -/
def Spec.Many.sentTwo : Sent :=
  ⟨{ sample.withBody (List.replicate 20 9) with
     header := { sample.header with session := ⟨sample.header.session.val + 1⟩ } }, 16,
    [⟨0, true, List.replicate 16 9⟩, ⟨1, false, List.replicate 4 9⟩]⟩

/-- A message with the identity of the first one. -/
def Spec.Many.sentAgain : Sent :=
  ⟨sample.withBody (List.replicate 20 9), 16,
    [⟨0, true, List.replicate 16 9⟩, ⟨1, false, List.replicate 4 9⟩]⟩

theorem Many.one_proper : sentOne.Proper := ⟨by decide, by decide +kernel, by decide, sample_splits⟩

theorem Many.nines_split :
    Splits 16 (.new (List.replicate 20 9)) [⟨0, true, List.replicate 16 9⟩, ⟨1, false, List.replicate 4 9⟩] :=
  .more (h' := ⟨1, false, List.replicate 4 9⟩) (by decide) (.last (by decide))

theorem Many.two_proper : sentTwo.Proper := ⟨by decide, by decide +kernel, by decide, nines_split⟩

theorem Many.again_proper : sentAgain.Proper := ⟨by decide, by decide +kernel, by decide, nines_split⟩

theorem Many.mem_two {x a b : Sent} (h : x ∈ [a, b]) : x = a ∨ x = b := by simpa using h

theorem Many.one_two (x : Sent) (hx : x ∈ [sentOne, sentTwo]) (y : Sent) (hy : y ∈ [sentOne, sentTwo])
    (h : ident x.message = ident y.message) : x = y := by
  rcases mem_two hx with rfl | rfl <;> rcases mem_two hy with rfl | rfl
  · rfl
  · exact absurd h (by decide +kernel)
  · exact absurd h (by decide +kernel)
  · rfl

/-- The segments of both messages, one after the other in turn. -/
def Spec.Many.woven : List (Message TpHeader) :=
  (sentOne.parts.take 1 ++ sentTwo.parts.take 1) ++
    (sentOne.parts.drop 1).take 1 ++ sentTwo.parts.drop 1 ++ sentOne.parts.drop 2

/-- The packets of the segments, if they can be written. -/
def Spec.Many.packets (as : List (Message TpHeader)) : List Bytes :=
  as.filterMap fun a =>
    match GenericMessage.toBytes Header.ser TpHeader.ser a with
    | .ok p => some p
    | _ => none

example : handedOut nothing (packets woven) = [sentTwo.message, sentOne.message] := by decide +kernel

example : (handedOut nothing (packets woven)).filter (fun m => ident m = ident sentOne.message) =
    [sentOne.message] :=
  C111_complete_partial [sentOne, sentTwo]
    (by rintro x hx; rcases mem_two hx with rfl | rfl; exacts [one_proper, two_proper])
    one_two woven (by decide +kernel) _ (by unfold PacketsOf; decide +kernel) sentOne (by simp)
    (by decide +kernel)

/-- With segments lost, repeated and out of order, only what is complete is handed out. -/
example : handedOut nothing (packets (sentOne.parts.reverse ++ sentTwo.parts.reverse ++ sentTwo.parts)) =
    [sentTwo.message] := by decide +kernel

/-! ### What is mixed up -/

theorem Many.join_length {h h' s : TpHeader} (hm : h.moreSegments = h'.moreSegments)
    (hb : h.body.length = h'.body.length) {g : TpHeader} (hj : h.join s = (.ok (), g)) :
    h'.join s = (.ok (), ⟨h'.offset, g.moreSegments, h'.body ++ s.body⟩) ∧
    g = ⟨h.offset, g.moreSegments, h.body ++ s.body⟩ := by
  unfold TpHeader.join at hj ⊢
  rw [← hm, ← hb]
  split at hj
  · cases hj
  · rename_i h1
    rw [if_neg h1]
    simp only at hj ⊢
    split at hj
    · cases hj
    · rename_i h2
      cases hj
      rw [if_neg h2]
      exact ⟨rfl, rfl⟩

theorem Many.joinAll_length (rest : List TpHeader) {h h' g : TpHeader}
    (hm : h.moreSegments = h'.moreSegments) (hb : h.body.length = h'.body.length)
    (hj : joinAll h rest = .ok g) :
    ∃ b, g = ⟨h.offset, g.moreSegments, h.body ++ b⟩ ∧
      joinAll h' rest = .ok ⟨h'.offset, g.moreSegments, h'.body ++ b⟩ := by
  induction rest generalizing h h' with
  | nil =>
    cases hj
    exact ⟨[], by simp, by simp [joinAll, hm]⟩
  | cons s rest ih =>
    simp only [joinAll] at hj ⊢
    rcases hjs : h.join s with ⟨_ | _, k⟩
    · rw [hjs] at hj
      cases hj
    · rw [hjs] at hj
      obtain ⟨e1, e2⟩ := join_length hm hb hjs
      rw [e1]
      obtain ⟨b, b1, b2⟩ := ih (h := k) (h' := ⟨h'.offset, k.moreSegments, h'.body ++ s.body⟩) rfl
        (by rw [e2]; simp [hb]) hj
      rw [e2] at b1
      exact ⟨s.body ++ b, by simpa using b1, by simpa using b2⟩

/-- **C111** fails for programs that join whatever arrives: the segments carry nothing that tells
messages apart. For any two bodies longer than the rounded limit, the first segment of one and the
others of the other are joined without complaint, and the result is the beginning of one body and the
end of the other. -/
theorem C111_join_mixes (limit : Nat) (hl : 16 ≤ limit) (body body' : Bytes) (f f' s s' : TpHeader)
    (r r' : List TpHeader) (h : Splits limit (.new body) (f :: s :: r))
    (h' : Splits limit (.new body') (f' :: s' :: r')) :
    joinAll f (s' :: r') =
      .ok ⟨0, false, body.take (limit / 16 * 16) ++ body'.drop (limit / 16 * 16)⟩ := by
  have hj := C44_reassembly limit hl body' f' (s' :: r') h'
  obtain ⟨c, c1, -, -⟩ := C43_partition limit hl body _ h
  obtain ⟨d, d1, -, -⟩ := C43_partition limit hl body' _ h'
  obtain ⟨hfm, hfl⟩ := c1 f (by simp)
  obtain ⟨hfm', hfl'⟩ := d1 f' (by simp)
  obtain ⟨b, b1, b2⟩ := joinAll_length (s' :: r') (h := f') (h' := f) (by rw [hfm, hfm'])
    (by rw [hfl, hfl']) hj
  have ho : f.offset = 0 := by
    have := ((shape_of_splits hl h).each 0 (by simp)).1
    simpa [TpHeader.new] using this
  rw [b2, ho]
  have e1 : body.take (limit / 16 * 16) = f.body := by
    rw [← c, ← hfl]
    simp [contents]
  have e2 : body'.drop (limit / 16 * 16) = b := by
    have : body' = f'.body ++ b := by simpa using congrArg TpHeader.body b1
    rw [this, ← hfl']
    simp
  rw [e1, e2]

example : joinAll ⟨0, true, List.replicate 16 1⟩ [⟨1, false, List.replicate 4 9⟩] =
    .ok ⟨0, false, List.replicate 16 1 ++ List.replicate 4 9⟩ := by decide +kernel

/-- **C111** fails for messages with the same identity: if the last segment of one is lost and the
first segment of the next, a message is handed out that was never sent. -/
theorem C111_same_identity : ∃ (x y : Sent) (parts : List (Message TpHeader)) (ps : List Bytes),
    x.Proper ∧ y.Proper ∧ ident x.message = ident y.message ∧
    (∀ a ∈ parts, a ∈ x.parts ∨ a ∈ y.parts) ∧ parts.Sublist (x.parts ++ y.parts) ∧
    PacketsOf parts ps ∧ ∃ m ∈ handedOut nothing ps, m ≠ x.message ∧ m ≠ y.message :=
  ⟨sentOne, sentAgain, sentOne.parts.take 1 ++ sentAgain.parts.drop 1,
    packets (sentOne.parts.take 1 ++ sentAgain.parts.drop 1), one_proper, again_proper,
    by decide +kernel, by decide +kernel, (List.take_sublist _ _).append (List.drop_sublist _ _),
    by unfold PacketsOf; decide +kernel,
    sample.withBody (List.replicate 16 1 ++ List.replicate 4 9), by decide +kernel,
    by decide +kernel, by decide +kernel⟩

end Rsomeip
