import Verif.Lemmas.Tp
import Verif.Props.Proto.Message

/-! # C43–C50: the transport protocol -/

namespace Rsomeip

open Spec Proto

/-! ### Segmentation -/

/-- **C43.** Splitting terminates, with one outcome, for every header and every limit of at least
16. -/
theorem C43_terminates (limit : Nat) (hl : 16 ≤ limit) (h : TpHeader) :
    ∃ segs, Splits limit h segs ∧ ∀ segs', Splits limit h segs' → segs' = segs := by
  obtain ⟨segs, hs⟩ := splits_exists hl h
  exact ⟨segs, hs, fun _ h' => splits_unique h' hs⟩

/-- **C43.** The segments partition the body: their bodies concatenate to it; all but the last have
the same size, the limit rounded down to a multiple of 16, and announce more; the last one fits the
limit, announces no more, and is not empty unless the body was; offsets are the number of bytes
before, in units of 16. -/
theorem C43_partition (limit : Nat) (hl : 16 ≤ limit) (body : Bytes) (segs : List TpHeader)
    (h : Splits limit (.new body) segs) :
    contents segs = body ∧
    (∀ s ∈ segs.dropLast, s.moreSegments = true ∧ s.body.length = limit / 16 * 16) ∧
    (∃ l, segs.getLast? = some l ∧ l.moreSegments = false ∧ l.body.length ≤ limit / 16 * 16 ∧
      (body ≠ [] → l.body ≠ [])) ∧
    (∀ pre s post, segs = pre ++ s :: post → s.offset * 16 = (contents pre).length) := by
  have hs := shape_of_splits hl h
  have hpos := List.length_pos_iff.mpr hs.pos
  refine ⟨hs.contents, ?_, ?_, ?_⟩
  · intro s hmem
    obtain ⟨i, hi, rfl⟩ := List.getElem_of_mem hmem
    rw [List.getElem_dropLast]
    rw [List.length_dropLast] at hi
    obtain ⟨_, h2, h3, _⟩ := hs.each i (by omega)
    exact ⟨by rw [h2]; simp; omega, h3 (by omega)⟩
  · obtain ⟨_, h2, _, h4, h5⟩ := hs.each (segs.length - 1) (by omega)
    refine ⟨segs[segs.length - 1], ?_, ?_, h4, h5⟩
    · rw [List.getLast?_eq_getElem?, List.getElem?_eq_getElem]
    · rw [h2]; simp; omega
  · rintro pre s post rfl
    have hlen := contents_take_length hs pre.length (by simp)
    obtain ⟨h1, _⟩ := hs.each pre.length (by simp)
    rw [List.take_left] at hlen
    rw [List.getElem_append_right (by omega)] at h1
    simp only [Nat.sub_self, List.getElem_cons_zero, TpHeader.new, Nat.zero_add] at h1
    rw [h1, hlen, Nat.mul_assoc]

/-- **C43.** The number of segments is the body size divided by the rounded limit, rounded up, and
one for an empty body. -/
theorem C43_count (limit : Nat) (hl : 16 ≤ limit) (body : Bytes) (segs : List TpHeader)
    (h : Splits limit (.new body) segs) :
    (segs.length - 1) * (limit / 16 * 16) ≤ body.length ∧
    body.length ≤ segs.length * (limit / 16 * 16) ∧
    (body ≠ [] → (segs.length - 1) * (limit / 16 * 16) < body.length) ∧
    (body = [] → segs.length = 1) := by
  have hs := shape_of_splits hl h
  have hpos := List.length_pos_iff.mpr hs.pos
  have hlen := contents_take_length hs (segs.length - 1) (by omega)
  obtain ⟨_, _, _, h4, h5⟩ := hs.each (segs.length - 1) (by omega)
  have hall : (contents segs).length =
      (contents (segs.take (segs.length - 1))).length + segs[segs.length - 1].body.length := by
    have : segs = segs.take (segs.length - 1) ++ [segs[segs.length - 1]] := by
      conv => lhs; rw [← List.take_append_drop (segs.length - 1) segs]
      rw [List.drop_eq_getElem_cons (by omega)]
      congr 2
      rw [List.drop_eq_nil_iff]
      omega
    have h' := congrArg (fun l => (contents l).length) this
    simp only [contents, List.flatMap_append, List.length_append, List.flatMap_cons,
      List.flatMap_nil, List.append_nil] at h' ⊢
    exact h'
  rw [hs.contents, hlen] at hall
  simp only [TpHeader.new] at hall h5
  have hsucc : segs.length * (limit / 16 * 16) =
      (segs.length - 1) * (limit / 16 * 16) + limit / 16 * 16 := by
    rw [← Nat.succ_mul]
    congr 1
    omega
  refine ⟨by omega, by omega, ?_, ?_⟩
  · intro hne
    have := List.length_pos_iff.mpr (h5 hne)
    omega
  · intro he
    subst he
    have h0 : (segs.length - 1) * (limit / 16 * 16) = 0 := by
      simp only [List.length_nil] at hall; omega
    have := (unit_bounds hl).1
    rcases Nat.mul_eq_zero.mp h0 with h | h <;> omega

/-- **C43.** Limits below 16 leave the header alone. -/
theorem C43_small_limit (limit : Nat) (hl : limit < 16) (h : TpHeader) :
    h.split limit = (none, h) := by
  rw [TpHeader.split, if_pos (show limit < TpHeader.offsetUnit by simpa [TpHeader.offsetUnit])]

/-- A body of 40 bytes split at limit 20. -/
def Spec.sampleSegments : List TpHeader :=
  [⟨0, true, List.replicate 16 1⟩, ⟨1, true, List.replicate 16 2⟩, ⟨2, false, List.replicate 8 3⟩]

/-- The body. -/
def Spec.sampleBody : Bytes := List.replicate 16 1 ++ List.replicate 16 2 ++ List.replicate 8 3

theorem sample_splits : Splits 20 (.new sampleBody) sampleSegments :=
  .more (h' := ⟨1, false, List.replicate 16 2 ++ List.replicate 8 3⟩) (by decide)
    (.more (h' := ⟨2, false, List.replicate 8 3⟩) (by decide) (.last (by decide)))

example : contents sampleSegments = sampleBody :=
  (C43_partition 20 (by decide) _ _ sample_splits).1

/-! ### Reassembly -/

/-- **C44.** Joining the segments in order never fails and gives the body back. -/
theorem C44_reassembly (limit : Nat) (hl : 16 ≤ limit) (body : Bytes) (first : TpHeader)
    (rest : List TpHeader) (h : Splits limit (.new body) (first :: rest)) :
    joinAll first rest = .ok ⟨0, false, body⟩ := by
  have hs := shape_of_splits hl h
  have := joinAll_gathered hl hs rest 1 (by simp) [] (by simp)
  rw [gathered_one hs] at this
  rw [this, ← gathered_all hs, List.length_cons, Nat.add_comm]

/-- **C45.** After some of the segments have been joined: the next one is accepted; any other one
(lost, duplicated or reordered) is refused with the offset expected; after the last, everything is
refused as unexpected. A refused segment is given back and the header is unchanged. -/
theorem C45_rejects (limit : Nat) (hl : 16 ≤ limit) (body : Bytes) (first : TpHeader)
    (pre post : List TpHeader) (h : Splits limit (.new body) (first :: (pre ++ post)))
    (acc : TpHeader) (ha : joinAll first pre = .ok acc) :
    acc.body = contents (first :: pre) ∧ acc.moreSegments = !post.isEmpty ∧
    (∀ s, post = [] → acc.join s = (.error (.unexpectedSegment s), acc)) ∧
    (∀ nxt post', post = nxt :: post' →
      acc.join nxt = (.ok (), { acc with
        body := acc.body ++ nxt.body, moreSegments := nxt.moreSegments }) ∧
      ∀ s ∈ first :: (pre ++ post), s ≠ nxt →
        acc.join s = (.error (.wrongOffset nxt.offset s), acc) ∧ s.offset ≠ nxt.offset) := by
  have hs := shape_of_splits hl h
  have hj := joinAll_gathered hl hs pre 1 (by simp) post (by simp)
  rw [gathered_one hs, ha] at hj
  cases hj
  have hlen : (first :: (pre ++ post)).length = 1 + pre.length + post.length := by
    simp; omega
  have htake : (first :: (pre ++ post)).take (1 + pre.length) = first :: pre := by
    rw [Nat.add_comm, List.take_succ_cons, List.take_left]
  refine ⟨by simp only [gathered, htake], ?_, ?_, ?_⟩
  · simp only [gathered, hlen]
    cases post <;> simp
  · rintro s rfl
    simp only [List.length_nil, Nat.add_zero] at hlen
    have hm : (gathered (first :: (pre ++ [])) (1 + pre.length)).moreSegments = false := by
      simp only [gathered, hlen, Nat.lt_irrefl, decide_false]
    rw [TpHeader.join, if_pos hm]
  · rintro nxt post' rfl
    have hi : 1 + pre.length < (first :: (pre ++ nxt :: post')).length := by
      rw [hlen, List.length_cons]; omega
    have hget : (first :: (pre ++ nxt :: post'))[1 + pre.length] = nxt := by
      simp only [Nat.add_comm 1, List.getElem_cons_succ]
      rw [List.getElem_append_right (by omega)]
      simp
    have hoff := (hs.each _ hi).1
    rw [hget] at hoff
    simp only [TpHeader.new, Nat.zero_add] at hoff
    constructor
    · have := join_gathered hl hs (1 + pre.length) _ (by omega) hi
      rw [hget, if_neg (by omega), if_pos rfl] at this
      rw [this]
      have hmore := (hs.each _ hi).2.1
      rw [hget] at hmore
      simp only [gathered, hmore]
      congr 2
      rw [List.take_add_one, List.getElem?_eq_getElem hi, hget]
      simp [contents]
    · intro s hmem hne
      obtain ⟨i, hi', rfl⟩ := List.getElem_of_mem hmem
      have hij : i ≠ 1 + pre.length := by
        rintro rfl
        exact hne hget
      have := join_gathered hl hs (1 + pre.length) i (by omega) hi'
      rw [if_neg (by omega), if_neg hij] at this
      refine ⟨by rw [this, hoff], ?_⟩
      rw [(hs.each i hi').1, hoff]
      simp only [TpHeader.new, Nat.zero_add]
      intro e
      exact hij (Nat.eq_of_mul_eq_mul_right (unit_bounds hl).1 e)

/-- The receiver joins whatever arrives and goes on after errors. -/
def Spec.receive (first : TpHeader) (arrivals : List TpHeader) : TpHeader :=
  arrivals.foldl (fun h s => (h.join s).2) first

/-- Every state of the receiver is a gathered prefix of the segments. -/
theorem receive_gathered {limit : Nat} (hl : 16 ≤ limit) {body : Bytes} {segs : List TpHeader}
    (hs : Shape limit (.new body) segs) (arrivals : List TpHeader) (ha : ∀ s ∈ arrivals, s ∈ segs)
    (j : Nat) (hj : j ≤ segs.length) :
    ∃ j', j ≤ j' ∧ j' ≤ segs.length ∧ receive (gathered segs j) arrivals = gathered segs j' ∧
      ((segs.drop j).Sublist arrivals → j' = segs.length) := by
  induction arrivals generalizing j with
  | nil =>
    refine ⟨j, Nat.le_refl _, hj, rfl, fun hsub => ?_⟩
    have := List.sublist_nil.mp hsub
    rw [List.drop_eq_nil_iff] at this
    omega
  | cons s arrivals ih =>
    obtain ⟨i, hi, rfl⟩ := List.getElem_of_mem (ha s List.mem_cons_self)
    have ha' : ∀ s ∈ arrivals, s ∈ segs := fun s h => ha s (List.mem_cons_of_mem _ h)
    have hstep := join_gathered hl hs j i hj hi
    have hrec : ∀ j1, ((gathered segs j).join segs[i]).2 = gathered segs j1 →
        receive (gathered segs j) (segs[i] :: arrivals) = receive (gathered segs j1) arrivals := by
      intro j1 h
      simp only [receive, List.foldl_cons, h]
    by_cases he : j = segs.length
    · rw [if_pos he] at hstep
      obtain ⟨j', h1, h2, h3, _⟩ := ih ha' j hj
      exact ⟨j', h1, h2, by rw [hrec j (by rw [hstep]), h3], fun _ => by omega⟩
    · rw [if_neg he] at hstep
      by_cases hij : i = j
      · rw [if_pos hij] at hstep
        obtain ⟨j', h1, h2, h3, h4⟩ := ih ha' (j + 1) (by omega)
        refine ⟨j', by omega, h2, by rw [hrec (j + 1) (by rw [hstep]), h3], fun hsub => h4 ?_⟩
        rw [List.drop_eq_getElem_cons (by omega : j < segs.length)] at hsub
        generalize segs[i] = x at hsub
        generalize segs[j] = y at hsub
        cases hsub with
        | cons _ h => exact List.Sublist.trans (List.sublist_cons_self _ _) h
        | cons_cons _ h => exact h
      · rw [if_neg hij] at hstep
        obtain ⟨j', h1, h2, h3, h4⟩ := ih ha' j hj
        refine ⟨j', h1, h2, by rw [hrec j (by rw [hstep]), h3], fun hsub => h4 ?_⟩
        have hlt : j < segs.length := by omega
        rw [List.drop_eq_getElem_cons hlt] at hsub ⊢
        generalize hx : segs[i] = x at hsub
        generalize hy : segs[j] = y at hsub ⊢
        cases hsub with
        | cons _ h => exact h
        | cons_cons _ h =>
          exfalso
          have e : segs[i].offset = segs[j].offset := by rw [hx, hy]
          rw [(hs.each i hi).1, (hs.each j hlt).1] at e
          simp only [TpHeader.new, Nat.zero_add] at e
          exact hij (Nat.eq_of_mul_eq_mul_right (unit_bounds hl).1 e)

/-- **C46.** Whatever subset of the segments arrives, in whatever order and however often, a header
that expects no more segments holds exactly the original body; before that it holds a prefix. -/
theorem C46_completed_is_original (limit : Nat) (hl : 16 ≤ limit) (body : Bytes) (first : TpHeader)
    (rest : List TpHeader) (h : Splits limit (.new body) (first :: rest))
    (arrivals : List TpHeader) (ha : ∀ s ∈ arrivals, s ∈ first :: rest) :
    ((receive first arrivals).moreSegments = false → (receive first arrivals).body = body) ∧
    (receive first arrivals).body <+: body := by
  have hs := shape_of_splits hl h
  obtain ⟨j', _, h2, h3, _⟩ := receive_gathered hl hs arrivals ha 1 (by simp)
  rw [gathered_one hs] at h3
  rw [h3]
  constructor
  · intro hm
    have : j' = (first :: rest).length := by
      simp only [gathered, decide_eq_false_iff_not] at hm
      omega
    rw [this, gathered_all hs]
  · refine ⟨contents ((first :: rest).drop j'), ?_⟩
    have := hs.contents
    simp only [TpHeader.new] at this
    rw [← this]
    simp only [gathered, contents]
    rw [← List.flatMap_append, List.take_append_drop]

/-- **C46.** If the remaining segments do arrive in order, among whatever else, reassembly
completes. -/
theorem C46_completes (limit : Nat) (hl : 16 ≤ limit) (body : Bytes) (first : TpHeader)
    (rest : List TpHeader) (h : Splits limit (.new body) (first :: rest))
    (arrivals : List TpHeader) (ha : ∀ s ∈ arrivals, s ∈ first :: rest) (hsub : rest.Sublist arrivals) :
    receive first arrivals = ⟨0, false, body⟩ := by
  have hs := shape_of_splits hl h
  obtain ⟨j', _, _, h3, h4⟩ := receive_gathered hl hs arrivals ha 1 (by simp)
  rw [gathered_one hs] at h3
  rw [h3, h4 (by simpa using hsub), gathered_all hs]

example : receive ⟨0, true, List.replicate 16 1⟩
    [⟨2, false, List.replicate 8 3⟩, ⟨1, true, List.replicate 16 2⟩, ⟨0, true, List.replicate 16 1⟩,
      ⟨1, true, List.replicate 16 2⟩, ⟨2, false, List.replicate 8 3⟩] = ⟨0, false, sampleBody⟩ := by
  decide

/-! ### Wire format -/

/-- **C47**, what is written and read back, for every header: the offset is cut off at 2^28-1
units. -/
theorem C47_written (h : TpHeader) (ho : h.offset ≤ 0xffff_fff0) (d : Bytes) :
    TpHeader.ser.serialize h ⟨d, none⟩ = (.ok (4 + h.body.length),
      ⟨d ++ tpBytes (min h.offset (2 ^ 28 - 1)) h.moreSegments h.body, none⟩) ∧
    TpHeader.de (tpBytes (min h.offset (2 ^ 28 - 1)) h.moreSegments h.body) =
      (.ok { h with offset := min h.offset (2 ^ 28 - 1) }, []) ∧
    TpHeader.ser.sizeHint h = 4 + h.body.length := by
  have hg := good_tp h ho
  have hlen : (tpBytes (min h.offset (2 ^ 28 - 1)) h.moreSegments h.body).length =
      4 + h.body.length := by simp [tpBytes]
  have hb : h.moreSegments.toNat ≤ 1 := by cases h.moreSegments <;> simp
  refine ⟨by rw [hg.1.grow d, hlen], ?_, by rw [hg.2, hlen]⟩
  rw [tpBytes, tp_de _ (by omega)]
  congr 2
  rw [TpHeader.mk.injEq]
  refine ⟨by omega, ?_, rfl⟩
  cases h.moreSegments <;> simp <;> omega

/-- **C47**, the part that holds: headers with offsets below 2^28 units come back unchanged. Missing:
larger offsets up to `MAX_OFFSET`, which come back as 2^28-1 (`C47_offset_saturates`). -/
theorem C47_round_trip_partial (h : TpHeader) (ho : h.offset < 2 ^ 28) (d : Bytes) :
    ∃ out, TpHeader.ser.serialize h ⟨d, none⟩ = (.ok out.length, ⟨d ++ out, none⟩) ∧
      out = be 4 (h.offset * 16 + h.moreSegments.toNat) ++ h.body ∧
      TpHeader.de out = (.ok h, []) := by
  obtain ⟨h1, h2, _⟩ := C47_written h (by omega) d
  rw [Nat.min_eq_left (by omega)] at h1 h2
  exact ⟨tpBytes h.offset h.moreSegments h.body, by rw [h1]; simp [tpBytes], rfl, h2⟩

/-- **C47** fails for larger offsets: they are accepted but written as a different offset. -/
theorem C47_offset_saturates :
    ¬ ∀ (h : TpHeader) (n : Nat) (buf : BufMut),
      TpHeader.ser.serialize h ⟨[], none⟩ = (.ok n, buf) → TpHeader.de buf.data = (.ok h, []) := by
  intro hall
  obtain ⟨h1, h2, _⟩ := C47_written ⟨2 ^ 28, false, []⟩ (by decide) []
  have := hall _ _ _ h1
  rw [List.nil_append, h2] at this
  simp at this

/-- **C47.** Offsets above `MAX_OFFSET` are refused and nothing is written. -/
theorem C47_refused (h : TpHeader) (ho : 0xffff_fff0 < h.offset) (buf : BufMut) :
    TpHeader.ser.serialize h buf = (.err (.other (.tpOffset h.offset)), buf) := by
  simp only [TpHeader.ser]
  rw [if_pos (by simp only [TpHeader.maxOffset]; omega)]
  rfl

/-- **C47.** Every input of at least four bytes decodes; the three reserved bits are ignored; shorter
input is refused for lack of data. -/
theorem C47_decode_total (b : Bytes) :
    (b.length < 4 → TpHeader.de b = (.err (.insufficientData 4 b.length), b)) ∧
    (4 ≤ b.length → ∃ w < 2 ^ 32, b.take 4 = be 4 w ∧
      TpHeader.de b = (.ok ⟨w / 16, decide (w % 2 = 1), b.drop 4⟩, [])) := by
  constructor
  · intro h
    exact Dec.bind_err (Dec.prim_short _ h)
  · intro h
    obtain ⟨w, hw, e⟩ := be4_of_bytes (b.take 4) (by simp; omega)
    refine ⟨w, hw, e.symm, ?_⟩
    have := tp_de w hw (b.drop 4)
    rwa [e, List.take_append_drop] at this

example : TpHeader.de [0x00, 0x00, 0x00, 0x2f, 7] = (.ok ⟨2, true, [7]⟩, []) := by decide +kernel

/-! ### Splitting and joining other headers -/

/-- **C48**, the part that holds: splitting keeps the flag of headers that are not followed by
others. Missing: headers that are (`C48_flag_lost`). -/
theorem C48_flag_partial (limit : Nat) (hl : 16 ≤ limit) (h : TpHeader) (segs : List TpHeader)
    (hf : h.moreSegments = false) (hs : Splits limit h segs) :
    ∃ l, segs.getLast? = some l ∧ l.moreSegments = h.moreSegments := by
  have := shape_of_splits hl hs
  have hpos := List.length_pos_iff.mpr this.pos
  refine ⟨segs[segs.length - 1], ?_, ?_⟩
  · rw [List.getLast?_eq_getElem?, List.getElem?_eq_getElem]
  · rw [(this.each (segs.length - 1) (by omega)).2.1, hf]
    simp; omega

/-- **C48** fails: the last piece of a segment that is followed by others claims to be the last of
all. This happens for every such header. -/
theorem C48_flag_lost (limit : Nat) (hl : 16 ≤ limit) (h : TpHeader) (segs : List TpHeader)
    (hs : Splits limit h segs) : ∃ l, segs.getLast? = some l ∧ l.moreSegments = false := by
  have := shape_of_splits hl hs
  have hpos := List.length_pos_iff.mpr this.pos
  refine ⟨segs[segs.length - 1], ?_, ?_⟩
  · rw [List.getLast?_eq_getElem?, List.getElem?_eq_getElem]
  · rw [(this.each (segs.length - 1) (by omega)).2.1]
    simp; omega

theorem C48_not_kept : ¬ ∀ (limit : Nat) (h : TpHeader) (segs : List TpHeader), 16 ≤ limit →
    Splits limit h segs → ∃ l, segs.getLast? = some l ∧ l.moreSegments = h.moreSegments := by
  intro hall
  obtain ⟨l, h1, h2⟩ := hall 16 ⟨0, true, [1]⟩ [⟨0, false, [1]⟩] (by decide) (.last (by decide))
  simp at h1
  subst h1
  simp at h2

/-- What joining a header does, exactly. -/
theorem join_iff (h s h' : TpHeader) : h.join s = (.ok (), h') ↔
    h.moreSegments = true ∧ s.offset = h.body.length / 16 ∧
      h' = ⟨h.offset, s.moreSegments, h.body ++ s.body⟩ := by
  simp only [TpHeader.join, TpHeader.offsetUnit]
  cases hm : h.moreSegments with
  | false => simp
  | true =>
    simp only [Bool.true_eq_false, if_false, true_and]
    by_cases ho : h.body.length / 16 = s.offset
    · simp [ho, eq_comm]
    · simp only [ne_eq, ho, not_false_eq_true, if_true, Prod.mk.injEq, reduceCtorEq, false_and,
        false_iff]
      rintro ⟨e, _⟩
      exact ho e.symm

/-- **C49**, the part that holds: for headers at offset zero whose body fills whole units, `join`
accepts exactly the segments that continue the body. Missing: other headers
(`C49_accepts_overlap`, `C49_ignores_base`). -/
theorem C49_continuation_partial (h s : TpHeader) (h0 : h.offset = 0) (hu : 16 ∣ h.body.length)
    (hm : h.moreSegments = true) :
    (∃ h', h.join s = (.ok (), h')) ↔ s.offset * 16 = h.offset * 16 + h.body.length := by
  constructor
  · rintro ⟨h', hj⟩
    have := (join_iff h s h').mp hj
    omega
  · intro e
    exact ⟨_, (join_iff h s _).mpr ⟨hm, by omega, rfl⟩⟩

/-- **C49** fails for bodies that do not fill whole units: a segment that overlaps the body is
accepted. -/
theorem C49_accepts_overlap : ¬ ∀ (h s h' : TpHeader), h.offset = 0 → h.join s = (.ok (), h') →
    s.offset * 16 = h.body.length := by
  intro hall
  have := hall ⟨0, true, List.replicate 17 0⟩ ⟨1, false, [1]⟩ _ rfl
    ((join_iff _ _ _).mpr ⟨rfl, by decide, rfl⟩)
  revert this
  decide

/-- **C49** fails for headers that do not start at zero: the true continuation is refused. -/
theorem C49_ignores_base : ¬ ∀ (h s : TpHeader), h.moreSegments = true → 16 ∣ h.body.length →
    s.offset * 16 = h.offset * 16 + h.body.length → ∃ h', h.join s = (.ok (), h') := by
  intro hall
  obtain ⟨h', hj⟩ := hall ⟨1, true, List.replicate 16 0⟩ ⟨2, false, [1]⟩ rfl (by decide) (by decide)
  have := ((join_iff _ _ _).mp hj).2.1
  revert this
  decide

example : (⟨0, true, List.replicate 16 0⟩ : TpHeader).join ⟨1, false, [1]⟩ =
    (.ok (), ⟨0, false, List.replicate 16 0 ++ [1]⟩) := by decide

/-! ### Segmented messages -/

/-- **C50.** The body of a message is split and every segment is sent as a message of its own. Every
packet is at most 20 bytes longer than the limit, the packet decodes to the message with the segment
as its body, either directly or through `into_segment`, and what follows it is untouched. Joining
the segments and unwrapping gives the original message. -/
theorem C50_end_to_end (m : Message Bytes) (limit : Nat) (hl : 16 ≤ limit)
    (hc : CodeOk m.returnCode) (hb : 12 + m.body.length < 2 ^ 32) (first : TpHeader)
    (rest : List TpHeader) (h : Splits limit m.wrapSegment.body (first :: rest)) :
    (∀ s ∈ first :: rest, ∃ p,
      GenericMessage.toBytes Header.ser TpHeader.ser (m.withBody s) = .ok p ∧
      p.length ≤ 20 + limit ∧
      ∀ later, Message.de TpHeader.de (p ++ later) = (.ok (m.withBody s), later) ∧
        ∃ m', Message.de Dec.bytes (p ++ later) = (.ok m', later) ∧
          m'.intoSegment = .ok (m.withBody s)) ∧
    ∃ whole, joinAll first rest = .ok whole ∧ Message.unwrapSegment (m.withBody whole) = m := by
  have hw : m.wrapSegment.body = .new m.body := rfl
  rw [hw] at h
  have hs := shape_of_splits hl h
  refine ⟨?_, ⟨0, false, m.body⟩, C44_reassembly limit hl m.body first rest h, rfl⟩
  intro s hmem
  obtain ⟨h1, h2, _, h4⟩ := C43_partition limit hl m.body _ h
  obtain ⟨pre, post, e⟩ := List.append_of_mem hmem
  have hoff := h4 pre s post e
  have hpart : (contents pre).length + s.body.length ≤ m.body.length := by
    rw [← h1, e]
    simp [contents]
  have hsl : s.body.length ≤ limit := by
    obtain ⟨i, hi, rfl⟩ := List.getElem_of_mem hmem
    have := (hs.each i hi).2.2.2.1
    have := unit_bounds hl
    omega
  obtain ⟨_, hde, _⟩ := C47_written s (by omega) []
  have hp := good_tp s (by omega)
  rw [Nat.min_eq_left (by omega)] at hde hp
  have hlen : (tpBytes s.offset s.moreSegments s.body).length = 4 + s.body.length := by
    simp [tpBytes]
  have hfit : 8 + (tpBytes s.offset s.moreSegments s.body).length < 2 ^ 32 := by omega
  refine ⟨messageBytes (m.withBody s) (tpBytes s.offset s.moreSegments s.body),
    (C29_wire_layout TpHeader.ser (m.withBody s) _ hp hfit).2.2.2,
    by rw [messageBytes_length, hlen]; omega, fun later => ?_⟩
  constructor
  · have := (C30_round_trip TpHeader.ser TpHeader.de (m.withBody s) _ hp hde hfit _ _
      ((good_message hp hfit).grow []) later).2 hc
    simpa using this
  · refine ⟨m.withBody (tpBytes s.offset s.moreSegments s.body), ?_, ?_⟩
    · have := (C30_round_trip Ser.bytes Dec.bytes
        (m.withBody (tpBytes s.offset s.moreSegments s.body)) _ (payload_bytes _)
        (Dec.bytes_apply _) hfit _ _ ((good_message (payload_bytes _) hfit).grow []) later).2 hc
      rw [List.nil_append] at this
      exact this
    · show Message.intoSegment _ = _
      simp only [Message.intoSegment]
      rw [show (m.withBody (tpBytes s.offset s.moreSegments s.body)).body =
        tpBytes s.offset s.moreSegments s.body from rfl, hde]
      rfl

example : Splits 20 (Message.wrapSegment (sample.withBody sampleBody)).body sampleSegments ∧
    CodeOk (Message.returnCode (sample.withBody sampleBody)) :=
  ⟨sample_splits, by decide +kernel⟩

end Rsomeip
