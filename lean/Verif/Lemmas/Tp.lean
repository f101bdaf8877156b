import Verif.Spec.Tp
import Verif.Spec.Message
import Verif.Lemmas.Proto

/-! # Lemmas about segmentation -/

namespace Rsomeip.Proto

open Spec

/-! ### Wire format -/

theorem tp_word (h : TpHeader) :
    h.word.toNat = min h.offset (2 ^ 28 - 1) * 16 + h.moreSegments.toNat := by
  have hm : (if h.moreSegments then (1 : UInt32) else 0).toNat = h.moreSegments.toNat := by
    cases h.moreSegments <;> rfl
  have hb : h.moreSegments.toNat < 2 ^ 4 := by cases h.moreSegments <;> simp
  have key : ∀ n : Nat, (n <<< 4 : Nat) ||| h.moreSegments.toNat =
      n * 16 + h.moreSegments.toNat := by
    intro n
    rw [← Nat.shiftLeft_add_eq_or_of_lt hb, Nat.shiftLeft_eq]
  have hs : h.offset <<< 4 = h.offset * 16 := by rw [Nat.shiftLeft_eq]
  simp only [TpHeader.word, UInt32.toNat_or, hm]
  by_cases hlt : h.offset <<< 4 < 2 ^ 32
  · rw [if_pos hlt, UInt32.toNat_ofNat_of_lt' hlt, key, Nat.min_eq_left (by omega)]
  · rw [if_neg hlt, Nat.min_eq_right (by omega)]
    exact key (2 ^ 28 - 1)

theorem tp_word_offset (w : UInt32) : ((w &&& 0xffff_fff0) >>> 4).toNat = w.toNat / 16 := by
  have hw : w.toNat < 2 ^ 32 := w.toNat_lt
  rw [UInt32.toNat_shiftRight, UInt32.toNat_and]
  show (w.toNat &&& 0xfffffff0) >>> (4 % 32) = _
  rw [Nat.shiftRight_and_distrib, show (0xfffffff0 >>> (4 % 32) : Nat) = 2 ^ 28 - 1 by decide,
    Nat.and_two_pow_sub_one_eq_mod, Nat.shiftRight_eq_div_pow]
  rw [show 2 ^ (4 % 32) = 16 by decide]
  omega

theorem tp_word_more (w : UInt32) : (w &&& 1 == 1) = decide (w.toNat % 2 = 1) := by
  have h : (w &&& 1).toNat = w.toNat % 2 := by
    rw [UInt32.toNat_and]
    exact Nat.and_two_pow_sub_one_eq_mod w.toNat 1
  rw [Bool.eq_iff_iff]
  simp only [beq_iff_eq, decide_eq_true_eq]
  constructor
  · intro e; rw [e] at h; exact h.symm
  · intro e
    apply UInt32.toNat_inj.mp
    rw [h, e]
    rfl

theorem good_tp (h : TpHeader) (ho : h.offset ≤ 0xffff_fff0) :
    Payload TpHeader.ser h
      (tpBytes (min h.offset (2 ^ 28 - 1)) h.moreSegments h.body) := by
  have hg := Ser.good_tcons (v := (h.word, h.body, ())) (Ser.good_u32 h.word)
    (Ser.good_tcons (v := (h.body, ())) (Ser.good_bytes h.body) (Ser.good_tnil ()))
  rw [tp_word] at hg
  simp only [List.append_nil] at hg
  refine ⟨?_, ?_⟩
  · simp only [Ser.Good, TpHeader.ser, tpBytes]
    rw [if_neg (by simp only [TpHeader.maxOffset]; omega)]
    exact hg
  · simp only [TpHeader.ser, tpBytes, List.length_append, be_length]
    rfl

theorem tp_fail (h : TpHeader) (ho : 0xffff_fff0 < h.offset) :
    (TpHeader.ser.serialize h).Writes [] (.err (.other (.tpOffset h.offset))) := by
  simp only [TpHeader.ser]
  rw [if_pos (by simp only [TpHeader.maxOffset]; omega)]
  exact W.writes_fail _

/-- Decoding a segment: any 32-bit word, any body. -/
theorem tp_de (w : Nat) (hw : w < 2 ^ 32) (body : Bytes) :
    TpHeader.de (be 4 w ++ body) =
      (.ok ⟨w / 16, decide (w % 2 = 1), body⟩, []) := by
  have hr := Dec.reads_u32 (UInt32.ofNat w) body
  rw [UInt32.toNat_ofNat_of_lt' hw] at hr
  simp only [TpHeader.de]
  rw [Dec.bind_ok hr]
  have hb := Dec.bytes_apply body
  simp only [Dec.bytes] at hb
  simp only [tp_word_offset, tp_word_more, UInt32.toNat_ofNat_of_lt' hw]
  have h1 : Dec.remaining body = (.ok body.length, body) := rfl
  rw [Dec.bind_ok h1] at hb ⊢
  rw [Dec.bind_ok hb]
  rfl

/-! ### Splitting -/

theorem unit_bounds {limit : Nat} (hl : 16 ≤ limit) :
    0 < limit / 16 ∧ limit / 16 * 16 ≤ limit ∧ limit / 16 * 16 / 16 = limit / 16 := by omega

theorem split_eq (h : TpHeader) (limit : Nat) (hl : 16 ≤ limit) : h.split limit =
    if h.body.length ≤ limit / 16 * 16 then (none, { h with moreSegments := false })
    else (some ⟨h.offset, true, h.body.take (limit / 16 * 16)⟩,
      ⟨h.offset + limit / 16 * 16 / 16, h.moreSegments, h.body.drop (limit / 16 * 16)⟩) := by
  rw [TpHeader.split, if_neg (show ¬ limit < TpHeader.offsetUnit by
    simp only [TpHeader.offsetUnit]; omega)]
  rfl

/-- Shape of the segments. -/
structure Shape (limit : Nat) (h : TpHeader) (segs : List TpHeader) : Prop where
  pos : segs ≠ []
  contents : contents segs = h.body
  each : ∀ i (hi : i < segs.length),
    segs[i].offset = h.offset + i * (limit / 16) ∧
    segs[i].moreSegments = decide (i + 1 < segs.length) ∧
    (i + 1 < segs.length → segs[i].body.length = limit / 16 * 16) ∧
    segs[i].body.length ≤ limit / 16 * 16 ∧
    (h.body ≠ [] → segs[i].body ≠ [])

theorem shape_of_splits {limit : Nat} (hl : 16 ≤ limit) {h : TpHeader} {segs : List TpHeader}
    (hs : Splits limit h segs) : Shape limit h segs := by
  induction hs with
  | @last h h' hn =>
    rw [split_eq _ _ hl] at hn
    split at hn
    · rename_i hle
      cases hn
      refine ⟨by simp, by simp [Spec.contents], ?_⟩
      intro i hi
      have : i = 0 := by simpa using hi
      subst this
      simp [hle]
    · cases hn
  | @more h s h' rest hn _ ih =>
    rw [split_eq _ _ hl] at hn
    split at hn
    · cases hn
    · rename_i hgt
      cases hn
      have hpos := List.length_pos_iff.mpr ih.pos
      have hne : h.body ≠ [] := by
        intro e; rw [e] at hgt; simp at hgt
      have hdne : h.body.drop (limit / 16 * 16) ≠ [] := by
        intro e
        have := congrArg List.length e
        simp at this
        omega
      refine ⟨by simp, ?_, ?_⟩
      · have := ih.contents
        simp only [Spec.contents, List.flatMap_cons] at this ⊢
        rw [this, List.take_append_drop]
      · intro i hi
        cases i with
        | zero =>
          simp only [List.getElem_cons_zero, List.length_cons, Nat.zero_mul, Nat.add_zero,
            List.length_take]
          refine ⟨trivial, by simp; omega, fun _ => by omega, by omega, fun _ => ?_⟩
          intro e
          have := congrArg List.length e
          rw [List.length_take, List.length_nil] at this
          have := (unit_bounds hl).1
          omega
        | succ i =>
          have hi' : i < rest.length := by simpa using hi
          obtain ⟨h1, h2, h3, h4, h5⟩ := ih.each i hi'
          simp only [List.getElem_cons_succ, List.length_cons]
          refine ⟨?_, ?_, fun hlt => h3 (by omega), h4, fun _ => h5 hdne⟩
          · rw [h1]
            simp only [(unit_bounds hl).2.2]
            rw [Nat.succ_mul]
            omega
          · rw [h2]
            congr 1
            simp

theorem splits_exists {limit : Nat} (hl : 16 ≤ limit) (h : TpHeader) :
    ∃ segs, Splits limit h segs := by
  induction hn : h.body.length using Nat.strongRecOn generalizing h with
  | _ n ih =>
    by_cases hle : h.body.length ≤ limit / 16 * 16
    · exact ⟨_, .last (h' := { h with moreSegments := false }) (by
        rw [split_eq _ _ hl, if_pos hle])⟩
    · have hb := unit_bounds hl
      obtain ⟨segs, hs⟩ := ih (h.body.drop (limit / 16 * 16)).length
        (by simp; omega)
        ⟨h.offset + limit / 16 * 16 / 16, h.moreSegments, h.body.drop (limit / 16 * 16)⟩ rfl
      exact ⟨_, .more (by
        rw [split_eq _ _ hl, if_neg hle]) hs⟩

theorem splits_unique {limit : Nat} {h : TpHeader} {s1 s2 : List TpHeader} (h1 : Splits limit h s1)
    (h2 : Splits limit h s2) : s1 = s2 := by
  induction h1 generalizing s2 with
  | last a =>
    cases h2 with
    | last b => rw [a] at b; cases b; rfl
    | more b _ => rw [a] at b; cases b
  | more a _ ih =>
    cases h2 with
    | last b => rw [a] at b; cases b
    | more b hb => rw [a] at b; cases b; rw [ih hb]

/-! ### Joining -/

/-- The header after joining the first `j` segments. -/
def gathered (segs : List TpHeader) (j : Nat) : TpHeader :=
  ⟨0, decide (j < segs.length), contents (segs.take j)⟩

theorem contents_take_length {limit : Nat} {h : TpHeader} {segs : List TpHeader}
    (hs : Shape limit h segs) (j : Nat) (hj : j < segs.length) :
    (contents (segs.take j)).length = j * (limit / 16 * 16) := by
  induction j with
  | zero => simp [contents]
  | succ j ih =>
    have := ih (by omega)
    rw [List.take_add_one, List.getElem?_eq_getElem (by omega)]
    simp only [contents, List.flatMap_append, List.length_append, Option.toList_some,
      List.flatMap_cons, List.flatMap_nil, List.append_nil] at this ⊢
    rw [this, (hs.each j (by omega)).2.2.1 hj, Nat.succ_mul]

theorem gathered_one {limit : Nat} {body : Bytes} {first : TpHeader} {rest : List TpHeader}
    (hs : Shape limit (.new body) (first :: rest)) : gathered (first :: rest) 1 = first := by
  obtain ⟨h1, h2, _⟩ := hs.each 0 (by simp)
  simp only [List.getElem_cons_zero, TpHeader.new] at h1 h2
  rw [gathered]
  have : first = ⟨first.offset, first.moreSegments, first.body⟩ := rfl
  rw [this, h1, h2]
  simp [contents]

theorem gathered_all {limit : Nat} {body : Bytes} {segs : List TpHeader}
    (hs : Shape limit (.new body) segs) : gathered segs segs.length = ⟨0, false, body⟩ := by
  have := hs.contents
  simp only [TpHeader.new] at this
  simp [gathered, this]

/-- What one call of `join` does during reassembly. -/
theorem join_gathered {limit : Nat} (hl : 16 ≤ limit) {body : Bytes} {segs : List TpHeader}
    (hs : Shape limit (.new body) segs) (j i : Nat) (hj : j ≤ segs.length)
    (hi : i < segs.length) :
    (gathered segs j).join segs[i] =
      if j = segs.length then (.error (.unexpectedSegment segs[i]), gathered segs j)
      else if i = j then (.ok (), gathered segs (j + 1))
      else (.error (.wrongOffset (j * (limit / 16)) segs[i]), gathered segs j) := by
  have hb := unit_bounds hl
  by_cases he : j = segs.length
  · subst he
    rw [if_pos rfl]
    simp [TpHeader.join, gathered]
  · rw [if_neg he]
    have hlen := contents_take_length hs j (by omega)
    have hoff : (contents (segs.take j)).length / 16 = j * (limit / 16) := by
      rw [hlen, ← Nat.mul_assoc, Nat.mul_div_cancel _ (by omega)]
    obtain ⟨h1, h2, _⟩ := hs.each i hi
    have hmore : (gathered segs j).moreSegments = true := by simp [gathered]; omega
    have hoff' : (gathered segs j).body.length / TpHeader.offsetUnit = j * (limit / 16) := hoff
    simp only [TpHeader.join, hmore, Bool.true_eq_false, if_false, hoff']
    by_cases hij : i = j
    · subst hij
      rw [if_pos rfl, if_neg (by rw [h1]; simp [TpHeader.new]), h2]
      simp only [gathered]
      congr 2
      rw [List.take_add_one, List.getElem?_eq_getElem hi]
      simp only [contents, List.flatMap_append, Option.toList_some, List.flatMap_cons,
        List.flatMap_nil, List.append_nil]
    · rw [if_neg hij, if_pos]
      rw [h1]
      simp only [TpHeader.new, Nat.zero_add]
      intro e
      exact hij (Nat.eq_of_mul_eq_mul_right hb.1 e).symm

theorem joinAll_gathered {limit : Nat} (hl : 16 ≤ limit) {body : Bytes} {segs : List TpHeader}
    (hs : Shape limit (.new body) segs) (pre : List TpHeader) (j : Nat) (hj : j ≤ segs.length)
    (post : List TpHeader) (he : segs.drop j = pre ++ post) :
    joinAll (gathered segs j) pre = .ok (gathered segs (j + pre.length)) := by
  induction pre generalizing j with
  | nil => rfl
  | cons s pre ih =>
    have hlt : j < segs.length := by
      have := congrArg List.length he
      simp at this
      omega
    rw [List.drop_eq_getElem_cons hlt] at he
    simp only [List.cons_append, List.cons.injEq] at he
    obtain ⟨rfl, he⟩ := he
    rw [joinAll, join_gathered hl hs j j hj hlt, if_neg (by omega), if_pos rfl]
    simp only
    rw [ih (j + 1) (by omega) he]
    congr 2
    simp only [List.length_cons]
    omega

end Rsomeip.Proto
