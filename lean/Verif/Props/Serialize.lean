import Verif.Lemmas.RoundTrip
import Verif.Spec.Shape

/-! # C04–C06, C21: serialization -/

namespace Rsomeip

open Spec

/-- **C04.** Whenever `serialize` returns `Ok(n)`, whatever the buffer, `n = size_hint()` and
exactly `n` bytes were appended. -/
theorem C04_size_agrees (t : Ty) (v : t.Val) (buf buf' : BufMut) (n : Nat)
    (h : t.ser.serialize v buf = (.ok n, buf')) :
    n = t.ser.sizeHint v ∧ buf'.data.length = buf.data.length + n := by
  rw [hint_eq]
  obtain ⟨d, room⟩ := buf
  by_cases hf : Fits t v
  · have hg := good_fits t v hf
    cases room with
    | none =>
      rw [hg.grow d] at h
      cases h
      simp
    | some r =>
      by_cases hr : (wire t v).length ≤ r
      · rw [hg.room d r hr] at h
        cases h
        simp
      · obtain ⟨p, _, _, he⟩ := hg.full r (by omega)
        rw [he] at h
        cases h
  · obtain ⟨bs, req, max, _, _, hw⟩ := unfit t v hf
    cases room with
    | none => rw [hw.grow d] at h; cases h
    | some r =>
      by_cases hr : bs.length ≤ r
      · rw [hw.room d r hr] at h; cases h
      · obtain ⟨p, _, _, he⟩ := hw.full r (by omega)
        rw [he] at h; cases h

/-- **C04.** The same for `serialize_len`: the length field is counted too. -/
theorem C04_size_agrees_len (l : LengthField) (t : Ty) (v : t.Val) (buf buf' : BufMut) (n : Nat)
    (h : t.ser.serializeLen l v buf = (.ok n, buf')) :
    n = lenWidth l + t.ser.sizeHint v ∧ buf'.data.length = buf.data.length + n := by
  have := C04_size_agrees (.len l t) v buf buf' n h
  have h1 := hint_eq (.len l t) v
  rw [hint_eq]
  refine ⟨?_, this.2⟩
  rw [this.1, h1]
  simp [wire]

example : (Ty.len .u16 (.pair .u8 (.vec .u32))).ser.serialize ((7 : UInt8), ([1, 2] : List UInt32))
    ⟨[9], none⟩ = (.ok 11, ⟨[9, 0, 9, 7, 0, 0, 0, 1, 0, 0, 0, 2], none⟩) := by decide

/-- **C05.** `serialize` only appends, on any kind of buffer and with any outcome. -/
theorem C05_only_appends (t : Ty) (v : t.Val) (buf : BufMut) :
    ∃ added, (t.ser.serialize v buf).2.data = buf.data ++ added := by
  obtain ⟨bs, r, _, hw⟩ := writes_exists t v
  obtain ⟨d, room⟩ := buf
  cases room with
  | none => exact ⟨bs, by rw [hw.grow]⟩
  | some n =>
    by_cases h : bs.length ≤ n
    · exact ⟨bs, by rw [hw.room d n h]⟩
    · obtain ⟨p, _, _, he⟩ := hw.full n (by omega)
      exact ⟨p, by rw [he]⟩

/-- **C05.** Outcome and appended bytes do not depend on what the buffer holds already, and the
appended bytes are always part of the value's encoding. -/
theorem C05_independent_of_content (t : Ty) (v : t.Val) (room : Option Nat) :
    ∃ out added room', added <+: wire t v ∧
      ∀ d, t.ser.serialize v ⟨d, room⟩ = (out, ⟨d ++ added, room'⟩) := by
  obtain ⟨bs, r, hp, hw⟩ := writes_exists t v
  cases room with
  | none => exact ⟨r, bs, none, hp, hw.grow⟩
  | some n =>
    by_cases h : bs.length ≤ n
    · exact ⟨r, bs, _, hp, fun d => hw.room d n h⟩
    · obtain ⟨p, hpp, _, he⟩ := hw.full n (by omega)
      exact ⟨_, p, _, hpp.trans hp, he⟩

example : (Ty.len .u8 (.vec .u16)).ser.serialize (List.replicate 200 (1 : UInt16)) ⟨[1], none⟩ =
    (.err (.invalidLength 400 255), ⟨[1] ++ [], none⟩) := by decide +kernel

/-- **C06.** A payload that fits is written as its big-endian length followed by itself. -/
theorem C06_len_exact (l : LengthField) (t : Ty) (v : t.Val) (d : Bytes)
    (hl : t.ser.sizeHint v ≤ maxLen l) (hf : Fits t v) :
    t.ser.serializeLen l v ⟨d, none⟩ =
      (.ok (lenWidth l + (wire t v).length),
        ⟨d ++ (be (lenWidth l) (wire t v).length ++ wire t v), none⟩) := by
  have := (Ser.serializeLen_ok l hl (good_fits t v hf)).grow d
  rwa [hint_eq] at this

example : (Ty.pair .u8 .bytes).ser.sizeHint ((1 : UInt8), ([2, 3] : Bytes)) ≤ maxLen .u8 ∧
    Fits (.pair .u8 .bytes) ((1 : UInt8), ([2, 3] : Bytes)) := ⟨by decide, trivial, trivial⟩

/-- **C06.** For any implementation of `Serialize`, also those outside the crate: if `size_hint()`
exceeds the field the exact `InvalidLength` is returned and nothing is written, on any buffer. -/
theorem C06_len_too_long {α : Type} (s : Ser α) (l : LengthField) (v : α) (buf : BufMut)
    (h : maxLen l < s.sizeHint v) :
    s.serializeLen l v buf = (.err (.invalidLength (s.sizeHint v) (maxLen l)), buf) := by
  have hw := Ser.serializeLen_err l h
  obtain ⟨d, room⟩ := buf
  cases room with
  | none => simpa using hw.grow d
  | some n => simpa using hw.room d n (Nat.zero_le _)

example : maxLen .u8 < (Ty.bytes).ser.sizeHint (List.replicate 256 (0 : UInt8)) := by decide +kernel

/-- **C06.** `serialize` fails exactly when some length-prefixed part is too long for its field,
and the error is always a truthful `InvalidLength`. -/
theorem C06_fails_iff (t : Ty) (v : t.Val) (d : Bytes) :
    (Fits t v ↔ ∃ n buf, t.ser.serialize v ⟨d, none⟩ = (.ok n, buf)) ∧
    (¬ Fits t v ↔ ∃ req max buf, max < req ∧
      t.ser.serialize v ⟨d, none⟩ = (.err (.invalidLength req max), buf)) := by
  by_cases h : Fits t v
  · have := (good_fits t v h).grow d
    rw [this]
    simp [h]
  · obtain ⟨bs, req, max, _, hlt, hw⟩ := unfit t v h
    have := hw.grow d
    rw [this]
    simp only [h, false_iff, not_false_eq_true, true_iff]
    exact ⟨by simp, req, max, _, hlt, rfl⟩

example : ¬ Fits (.len .u8 .bytes) (List.replicate 256 (0 : UInt8)) := by
  rintro ⟨h, _⟩
  revert h
  show ¬ (List.replicate 256 (0 : UInt8)).length ≤ 255
  rw [List.length_replicate]
  omega

/-- **C21.** A buffer with at least `size_hint()` free bytes never makes a serializable value
fail; a smaller one makes it panic: the documented error is never returned. -/
theorem C21_room (t : Ty) (v : t.Val) (hf : Fits t v) (d : Bytes) (n : Nat) :
    (t.ser.sizeHint v ≤ n → t.ser.serialize v ⟨d, some n⟩ =
      (.ok (t.ser.sizeHint v), ⟨d ++ wire t v, some (n - t.ser.sizeHint v)⟩)) ∧
    (n < t.ser.sizeHint v → (t.ser.serialize v ⟨d, some n⟩).1 = .panic) := by
  rw [hint_eq]
  have hg := good_fits t v hf
  refine ⟨hg.room d n, fun h => ?_⟩
  obtain ⟨p, _, _, he⟩ := hg.full n h
  rw [he]

example : ((Ty.pair .u16 .u32).ser.serialize ((1 : UInt16), (2 : UInt32)) ⟨[], some 5⟩).1 = .panic :=
  (C21_room (.pair .u16 .u32) ((1 : UInt16), (2 : UInt32)) ⟨trivial, trivial⟩ [] 5).2 (by decide)

/-- **C21.** The only error `serialize` ever returns is `InvalidLength`, and only for values that
do not fit their length fields: lack of room is never reported as an error. -/
theorem C21_no_room_error (t : Ty) (v : t.Val) (buf buf' : BufMut) (e : SerErr)
    (h : t.ser.serialize v buf = (.err e, buf')) :
    ¬ Fits t v ∧ ∃ req max, e = .invalidLength req max ∧ max < req := by
  obtain ⟨d, room⟩ := buf
  by_cases hf : Fits t v
  · have hg := good_fits t v hf
    cases room with
    | none => rw [hg.grow d] at h; cases h
    | some n =>
      by_cases hr : (wire t v).length ≤ n
      · rw [hg.room d n hr] at h; cases h
      · obtain ⟨p, _, _, he⟩ := hg.full n (by omega)
        rw [he] at h; cases h
  · refine ⟨hf, ?_⟩
    obtain ⟨bs, req, max, _, hlt, hw⟩ := unfit t v hf
    cases room with
    | none => rw [hw.grow d] at h; cases h; exact ⟨_, _, rfl, hlt⟩
    | some n =>
      by_cases hr : bs.length ≤ n
      · rw [hw.room d n hr] at h; cases h; exact ⟨_, _, rfl, hlt⟩
      · obtain ⟨p, _, _, he⟩ := hw.full n (by omega)
        rw [he] at h; cases h

example : (Ty.len .u8 .bytes).ser.serialize (List.replicate 256 (0 : UInt8)) ⟨[], some 300⟩ =
    (.err (.invalidLength 256 255), ⟨[], some 300⟩) := by decide +kernel

end Rsomeip
