import Verif.Lemmas.Termination
import Verif.Props.Numbers

/-! # C09–C13, C15, C16, C22: deserialization -/

namespace Rsomeip

open Spec

/-- **C09.** No deserializer panics, whatever the input. -/
theorem C09_no_panic (host : Endian) (t : Ty) (b : Bytes) : (t.de host b).1 ≠ .panic :=
  (t.de_safe host).noPanic b

/-- **C09.** With `Terminating` types (see C14) the outcome is a value or an error. -/
theorem C09_value_or_error (host : Endian) (t : Ty) (h : Terminating t = true) (b : Bytes) :
    (∃ v, (t.de host b).1 = .ok v) ∨ (∃ e, (t.de host b).1 = .err e) := by
  have h1 := (t.de_safe host).noPanic b
  have h2 := Ty.totalMut host t h b
  match ho : (t.de host b).1 with
  | .ok v => exact Or.inl ⟨v, rfl⟩
  | .err e => exact Or.inr ⟨e, rfl⟩
  | .panic => exact absurd ho h1
  | .diverge => exact absurd ho h2

example : Terminating (.pair .u8 (.len .u32 (.vec (.pair .utf8 (.vec .i16))))) = true := by decide

/-- **C10.** Whatever the outcome, what is left in the buffer is a suffix of what was there. -/
theorem C10_consumes_prefix (host : Endian) (t : Ty) (b : Bytes) :
    ∃ consumed, b = consumed ++ (t.de host b).2 := by
  obtain ⟨c, hc⟩ := (t.de_safe host).suffix b
  exact ⟨c, hc.symm⟩

example : (Ty.pair .u16 .u32).de .little [1, 2, 3] = (.err (.insufficientData 4 1), [3]) := by
  decide

/-- `deserialize_len` on a length field holding `n` followed by `body`. -/
theorem len_field {α : Type} (d : Dec α) (l : LengthField) (n : Nat) (hn : n ≤ maxLen l)
    (body : Bytes) :
    d.len l (be (lenWidth l) n ++ body) = ((d (body.take n)).1, (d (body.take n)).2 ++ body.drop n) := by
  have hlt : n < 256 ^ lenWidth l := Nat.lt_of_le_of_lt hn (Ser.maxLen_lt l)
  rw [Dec.len_apply, Dec.width_eq, if_neg (by simp)]
  rw [List.take_append_of_le_length (by simp), List.drop_append_of_le_length (by simp)]
  rw [List.take_of_length_le (by simp), List.drop_of_length_le (by simp), be_eq_natToBE,
    beToNat_natToBE, Nat.mod_eq_of_lt hlt, List.nil_append, Dec.take_apply]

/-- **C11.** A length field confines the inner deserializer, whatever it is: with the declared
region present, what comes after the region influences neither the outcome nor what is consumed of
the region, and is itself left alone. -/
theorem C11_confined {α : Type} (d : Dec α) (l : LengthField) (n : Nat) (hn : n ≤ maxLen l)
    (region : Bytes) (hr : region.length = n) :
    ∃ out left, ∀ after, d.len l (be (lenWidth l) n ++ (region ++ after)) = (out, left ++ after) := by
  refine ⟨(d region).1, (d region).2, fun after => ?_⟩
  rw [len_field d l n hn, List.take_append_of_le_length (by omega),
    List.take_of_length_le (by omega), List.drop_append_of_le_length (by omega),
    List.drop_of_length_le (by omega), List.nil_append]

/-- **C11.** The outcome is that of the inner deserializer run on the declared region alone, also
when less than the declared length is present. -/
theorem C11_region_only {α : Type} (d : Dec α) (l : LengthField) (n : Nat) (hn : n ≤ maxLen l)
    (body : Bytes) : (d.len l (be (lenWidth l) n ++ body)).1 = (d (body.take n)).1 := by
  rw [len_field d l n hn]

example : (Dec.bytes.len .u16 ([0, 2] ++ ([7, 8] ++ [9]))) = (.ok [7, 8], [9]) := by decide

/-- **C12 fails as stated.** After a successful `deserialize_len` the buffer need not have advanced
past the declared region: a `u8` in a region of two bytes leaves one byte of the region behind. -/
theorem C12_region_not_skipped :
    ∃ (t : Ty) (l : LengthField) (n : Nat) (region after : Bytes) (v : t.Val) (rest : Bytes),
      region.length = n ∧ n ≤ maxLen l ∧
      (t.de .little).len l (be (lenWidth l) n ++ (region ++ after)) = (.ok v, rest) ∧
      rest ≠ after :=
  ⟨.u8, .u8, 2, [5, 6], [9], (5 : UInt8), [6, 9], rfl, by decide, by decide, by decide⟩

/-- Greedy types leave nothing on success. -/
theorem greedy_rest (host : Endian) : (t : Ty) → Greedy t = true → ∀ b v r,
    t.de host b = (.ok v, r) → r = []
  | .bytes, _, b, v, r, h => by
    have h : Dec.bytes b = _ := h
    rw [Dec.bytes_apply] at h
    injection h with _ h
    exact h.symm
  | .vec t, _, b, v, r, h => Dec.vec_ok_rest b v r h
  | .pair x y, hg, b, v, r, h => by
    have h : (x.de host >>= fun p => y.de host >>= fun q =>
      (Pure.pure (p, q) : Dec (x.Val × y.Val))) b = (.ok v, r) := h
    rw [Dec.bind_apply] at h
    split at h
    · rw [Dec.bind_apply] at h
      split at h
      · rename_i q r2 heq
        simp only [Dec.pure_apply] at h
        injection h with _ h
        subst h
        exact greedy_rest host y (by simpa [Greedy] using hg) _ q _ heq
      all_goals cases h
    all_goals cases h
  | .u8, hg, _, _, _, _ | .u16, hg, _, _, _, _ | .u32, hg, _, _, _, _ | .u64, hg, _, _, _, _
  | .i8, hg, _, _, _, _ | .i16, hg, _, _, _, _ | .i32, hg, _, _, _, _ | .i64, hg, _, _, _, _
  | .f32, hg, _, _, _, _ | .f64, hg, _, _, _, _ | .bool, hg, _, _, _, _ | .utf8, hg, _, _, _, _
  | .utf16 _, hg, _, _, _, _ | .array _ _, hg, _, _, _, _ | .unit, hg, _, _, _, _
  | .len _ _, hg, _, _, _, _ => by simp [Greedy] at hg

/-- **C12, partial.** The claim holds for inner types that end in a `Vec` or `Bytes`: after a
success the buffer has advanced past exactly the field and the declared region (what is there of
it). Missing: other inner types, for which the claim is false, see `C12_region_not_skipped`. -/
theorem C12_region_consumed_partial (host : Endian) (t : Ty) (ht : Greedy t = true)
    (l : LengthField) (n : Nat) (hn : n ≤ maxLen l) (body : Bytes) (v : t.Val) (rest : Bytes)
    (h : (t.de host).len l (be (lenWidth l) n ++ body) = (.ok v, rest)) : rest = body.drop n := by
  rw [len_field _ l n hn] at h
  injection h with h1 h2
  have := greedy_rest host t ht (body.take n) v (t.de host (body.take n)).2 (by rw [← h1])
  rw [← h2, this, List.nil_append]

example : (Ty.len .u8 (.pair .u8 (.vec .u16))).de .big [3, 1, 0, 2, 99] =
    (.ok ((1 : UInt8), ([2] : List UInt16)), [99]) := by decide +kernel

/-- Types of fixed size read exactly their size, or fail with `InsufficientData`. -/
theorem fixed_read (host : Endian) : (t : Ty) → (k : Nat) → fixedSize t = some k → ∀ b,
    (b.length < k → ∃ e a r, t.de host b = (.err (.insufficientData e a), r)) ∧
    (k ≤ b.length → ∃ v, t.de host b = (.ok v, b.drop k))
  | .bool, k, hk, b => by
    cases hk
    have : Ty.bool.de host = Dec.bool := rfl
    rw [this, Dec.bool_apply]
    constructor
    · intro h; rw [if_pos h]; exact ⟨_, _, _, rfl⟩
    · intro h; rw [if_neg (by omega)]; exact ⟨_, rfl⟩
  | .unit, k, hk, b => by
    cases hk
    exact ⟨fun h => by omega, fun _ => ⟨(), rfl⟩⟩
  | .pair x y, k, hk, b => by
    simp only [fixedSize, Option.bind_eq_bind, Option.bind_eq_some_iff, Option.pure_def,
      Option.some.injEq] at hk
    obtain ⟨n, hn, m, hm, rfl⟩ := hk
    have hx := fixed_read host x n hn b
    have e : (Ty.pair x y).de host = (x.de host >>= fun p => y.de host >>= fun q =>
      (Pure.pure (p, q) : Dec (x.Val × y.Val))) := rfl
    rw [e]
    constructor
    · intro h
      by_cases hb : b.length < n
      · obtain ⟨e, a, r, he⟩ := hx.1 hb
        exact ⟨e, a, r, Dec.bind_err he⟩
      · obtain ⟨v, hv⟩ := hx.2 (by omega)
        obtain ⟨e, a, r, he⟩ := (fixed_read host y m hm (b.drop n)).1 (by
          rw [List.length_drop]; omega)
        exact ⟨e, a, r, (Dec.bind_ok hv).trans (Dec.bind_err he)⟩
    · intro h
      obtain ⟨v, hv⟩ := hx.2 (by omega)
      obtain ⟨w, hw⟩ := (fixed_read host y m hm (b.drop n)).2 (by rw [List.length_drop]; omega)
      refine ⟨(v, w), ?_⟩
      rw [Dec.bind_ok hv, Dec.bind_ok hw, List.drop_drop]
      rfl
  | .u8, k, hk, b | .u16, k, hk, b | .u32, k, hk, b | .u64, k, hk, b | .i8, k, hk, b
  | .i16, k, hk, b | .i32, k, hk, b | .i64, k, hk, b | .f32, k, hk, b | .f64, k, hk, b =>
    ⟨fun h => ⟨_, _, _, (C02_short_read host _ k hk b).1 h⟩, (C02_short_read host _ k hk b).2⟩
  | .bytes, k, hk, b | .utf8, k, hk, b | .utf16 _, k, hk, b | .vec _, k, hk, b
  | .array _ _, k, hk, b | .len _ _, k, hk, b => by simp [fixedSize, numWidth] at hk

/-- **C12, partial.** The claim also holds for fixed-size types when the declared length is their
size. -/
theorem C12_region_consumed_fixed_partial (host : Endian) (t : Ty) (n : Nat)
    (ht : fixedSize t = some n) (l : LengthField) (hn : n ≤ maxLen l) (body : Bytes) (v : t.Val)
    (rest : Bytes) (h : (t.de host).len l (be (lenWidth l) n ++ body) = (.ok v, rest)) :
    rest = body.drop n := by
  rw [len_field _ l n hn] at h
  by_cases hb : n ≤ body.length
  · obtain ⟨w, hw⟩ := (fixed_read host t n ht (body.take n)).2 (by simp; omega)
    rw [hw] at h
    injection h with _ h2
    rw [← h2, List.drop_of_length_le (by simp), List.nil_append]
  · obtain ⟨e, a, r, he⟩ := (fixed_read host t n ht (body.take n)).1 (by simp; omega)
    rw [he] at h
    injection h with h1
    cases h1

/-- **C12**, exactly when it holds: for every inner type, a successful `deserialize_len` has consumed the
region as a whole iff the inner type, given the region alone, leaves nothing of it. What it leaves stays
in the buffer, in front of what follows the region. Missing: the types that leave something. -/
theorem C12_region_consumed_iff_partial (host : Endian) (t : Ty) (l : LengthField) (n : Nat)
    (hn : n ≤ maxLen l) (body : Bytes) (v : t.Val) (rest : Bytes)
    (h : (t.de host).len l (be (lenWidth l) n ++ body) = (.ok v, rest)) :
    (rest = body.drop n ↔ t.de host (body.take n) = (.ok v, [])) ∧
    ∃ read left, body = read ++ rest ∧ body.take n = read ++ left ∧ rest = left ++ body.drop n := by
  rw [len_field _ l n hn] at h
  injection h with h1 h2
  obtain ⟨c, hc⟩ := C10_consumes_prefix host t (body.take n)
  refine ⟨⟨fun hr => ?_, fun hr => ?_⟩, c, (t.de host (body.take n)).2, ?_, hc, h2.symm⟩
  · rw [hr] at h2
    exact Prod.ext h1 (List.append_left_eq_self.mp h2)
  · rw [← h2, hr, List.nil_append]
  · rw [← h2, ← List.append_assoc, ← hc, List.take_append_drop]

/-- One byte of three is read: the other two are still in front of what follows. -/
example : (Ty.u8.de .little).len .u8 (be (lenWidth .u8) 3 ++ [5, 6, 7, 9]) = (.ok (5 : UInt8), [6, 7, 9]) ∧
    Ty.u8.de .little ([5, 6, 7, 9].take 3) = (.ok (5 : UInt8), [6, 7]) := by decide

/-- **C13 fails as stated.** A region shorter than declared is accepted by `Vec` and `Bytes`. -/
theorem C13_truncated_accepted :
    ∃ (t : Ty) (l : LengthField) (n : Nat) (body : Bytes) (v : t.Val) (rest : Bytes),
      n ≤ maxLen l ∧ body.length < n ∧
      (t.de .little).len l (be (lenWidth l) n ++ body) = (.ok v, rest) :=
  ⟨.bytes, .u16, 5, [1, 2], ([1, 2] : Bytes), [], by decide, by decide, by decide⟩

/-- **C13, partial.** For inner types of fixed size `k` every input that does not provide `k` bytes
within the declared region is rejected with `InsufficientData`; in particular a region declared
with length `k` that is not completely present. Missing: variable-size inner types, for which the
claim is false, see `C13_truncated_accepted`. -/
theorem C13_truncated_rejected_partial (host : Endian) (t : Ty) (k : Nat)
    (ht : fixedSize t = some k) (l : LengthField) (n : Nat) (hn : n ≤ maxLen l) (body : Bytes)
    (h : min n body.length < k) :
    ∃ e a, ((t.de host).len l (be (lenWidth l) n ++ body)).1 = .err (.insufficientData e a) := by
  rw [len_field _ l n hn]
  obtain ⟨e, a, r, he⟩ := (fixed_read host t k ht (body.take n)).1 (by simpa using h)
  exact ⟨e, a, by rw [he]⟩

example : fixedSize (.pair .u16 (.pair .bool .u32)) = some 7 := rfl

/-- **C13**, exactly when it holds: whether a region shorter than declared is rejected is up to the inner
type alone, which sees what is there and nothing of the declared length; the error is its own. Missing:
the inner types that accept what is there. -/
theorem C13_truncated_iff_partial (host : Endian) (t : Ty) (l : LengthField) (n : Nat) (hn : n ≤ maxLen l)
    (body : Bytes) (hb : body.length < n) (e : DeErr) :
    ((t.de host).len l (be (lenWidth l) n ++ body)).1 = .err e ↔ (t.de host body).1 = .err e := by
  rw [C11_region_only _ l n hn, List.take_of_length_le (by omega)]

example : ((Ty.pair .u8 .u16).de .little [1, 2]).1 = .err (.insufficientData 2 1) ∧
    ((Ty.pair .u8 (.vec .u8)).de .little [1, 2]).1 = .ok ((1 : UInt8), ([2] : List UInt8)) := by
  decide +kernel

/-- **C15.** `Vec` of a numeric type of width `k`: success exactly on multiples of `k`, with all
elements in order and an empty buffer; otherwise `InsufficientData` for the incomplete element. -/
theorem C15_vec_fixed (host : Endian) (t : Ty) (k : Nat) (hk : numWidth t = some k) (b : Bytes) :
    (b.length % k = 0 → ∃ vs : List t.Val, (Ty.vec t).de host b = (.ok vs, []) ∧
      vs.length = b.length / k ∧ vs.flatMap (wire t) = b) ∧
    (b.length % k ≠ 0 → ((Ty.vec t).de host b) =
      (.err (.insufficientData k (b.length % k)), b.drop (b.length / k * k))) := by
  have hk0 : 0 < k := by
    revert hk; cases t <;> simp [numWidth] <;> omega
  have e : (Ty.vec t).de host = Dec.vec (t.de host) := rfl
  rw [e]
  induction hn : b.length using Nat.strongRecOn generalizing b with
  | _ n ih =>
    subst hn
    by_cases hb : b.length < k
    · rw [Nat.mod_eq_of_lt hb]
      constructor
      · intro h
        have : b = [] := List.length_eq_zero_iff.mp h
        subst this
        exact ⟨[], Dec.vec_nil _, by simp, rfl⟩
      · intro h
        have hne : b ≠ [] := fun hc => h (by simp [hc])
        rw [Dec.vec_ne _ b hne, (C02_short_read host t k hk b).1 hb]
        simp only [Nat.div_eq_of_lt hb, Nat.zero_mul, List.drop_zero]
        rfl
    · have hle : k ≤ b.length := by omega
      have hne : b ≠ [] := fun hc => by simp [hc] at hle; omega
      obtain ⟨v, hv, hwv⟩ := C01_numbers_cover host t k hk (b.take k) (by simp; omega) (b.drop k)
      rw [List.take_append_drop] at hv
      have hdl : (b.drop k).length = b.length - k := List.length_drop
      have hih := ih (b.drop k).length (by omega) (b.drop k) rfl
      have hmod : b.length % k = (b.drop k).length % k := by
        rw [hdl, Nat.mod_eq_sub_mod hle]
      have hdiv : b.length / k = (b.drop k).length / k + 1 := by
        rw [hdl, Nat.div_eq_sub_div hk0 hle]
      rw [Dec.vec_ne _ b hne, hv]
      simp only
      rw [if_pos (by rw [hdl]; exact Nat.sub_lt (Nat.lt_of_lt_of_le hk0 hle) hk0), hmod, hdiv]
      constructor
      · intro h
        obtain ⟨vs, h1, h2, h3⟩ := hih.1 h
        refine ⟨v :: vs, by rw [h1]; rfl, by simp [h2], ?_⟩
        rw [List.flatMap_cons, h3, hwv, List.take_append_drop]
      · intro h
        rw [hih.2 h, List.drop_drop]
        rw [Nat.add_mul, Nat.one_mul, Nat.add_comm]
        rfl

example : (Ty.vec .u16).de .little [0, 1, 0, 2, 3] = (.err (.insufficientData 2 1), [3]) := by
  have := (C15_vec_fixed .little .u16 2 rfl [0, 1, 0, 2, 3]).2 (by decide)
  simpa using this

/-- **C16 fails as stated.** Decoding an array never fails, whatever is missing. -/
theorem C16_never_fails (host : Endian) (n : Nat) (t : Ty) (ht : Terminating t = true)
    (b : Bytes) : ∃ v r, (Ty.array n t).de host b = (.ok v, r) :=
  Dec.array_ok (t.de_safe host) (Ty.totalMut host t ht) t.dflt n b

/-- **C16 fails as stated**, concretely: one byte decodes as four `u32`s. -/
theorem C16_missing_data_accepted : ∃ vs : Arr UInt32 4,
    (Ty.array 4 .u32).de .little [7] = (.ok vs, [7]) ∧ vs.1 = [0, 0, 0, 0] :=
  ⟨⟨[0, 0, 0, 0], rfl⟩, by decide, rfl⟩

/-- Array decoding for elements of `k` bytes that decode any `k` bytes. -/
theorem array_fixed {α : Type} (d : Dec α) (x : α) (f : α → Bytes) (k : Nat) (hk0 : 0 < k)
    (hshort : ∀ b : Bytes, b.length < k → ∃ e, d b = (.err e, b))
    (hcover : ∀ bs rest : Bytes, bs.length = k → ∃ v, d (bs ++ rest) = (.ok v, rest) ∧ f v = bs)
    (n : Nat) (b : Bytes) :
    ∃ (vs : Arr α n) (q : Nat), q = min n (b.length / k) ∧
      Dec.array d x n b = (.ok vs, b.drop (q * k)) ∧
      (vs.1.take q).flatMap f = b.take (q * k) ∧
      vs.1.drop q = List.replicate (n - q) x := by
  induction n generalizing b with
  | zero => exact ⟨⟨[], rfl⟩, 0, by simp, by simp [Dec.array_zero], by simp, by simp⟩
  | succ n ih =>
    by_cases hb : b.length < k
    · obtain ⟨vs, q, hq, h1, h2, h3⟩ := ih b
      have hq0 : b.length / k = 0 := Nat.div_eq_of_lt hb
      rw [hq0, Nat.min_zero] at hq
      subst hq
      refine ⟨⟨x :: vs.1, by simp [vs.2]⟩, 0, by omega, ?_, by simp, ?_⟩
      · obtain ⟨e, he⟩ := hshort b hb
        have ho : Dec.orDefault d x b = (.ok x, b) := by simp [Dec.orDefault, he]
        show (Dec.orDefault d x >>= _) b = _
        rw [Dec.bind_ok ho, Dec.bind_ok h1]
        rfl
      · simpa [List.replicate_succ] using h3
    · have hle : k ≤ b.length := by omega
      obtain ⟨v, hv, hwv⟩ := hcover (b.take k) (b.drop k) (by simp; omega)
      rw [List.take_append_drop] at hv
      obtain ⟨vs, q, hq, h1, h2, h3⟩ := ih (b.drop k)
      have hdl : (b.drop k).length = b.length - k := List.length_drop
      have hdiv : b.length / k = (b.drop k).length / k + 1 := by
        rw [hdl, Nat.div_eq_sub_div hk0 hle]
      have hqk : (q + 1) * k = k + q * k := by rw [Nat.add_mul, Nat.one_mul, Nat.add_comm]
      refine ⟨⟨v :: vs.1, by simp [vs.2]⟩, q + 1, by omega, ?_, ?_, ?_⟩
      · have ho : Dec.orDefault d x b = (.ok v, b.drop k) := by
          simp [Dec.orDefault, hv]
        show (Dec.orDefault d x >>= _) b = _
        rw [Dec.bind_ok ho, Dec.bind_ok h1, List.drop_drop, hqk]
        rfl
      · rw [List.take_succ_cons, List.flatMap_cons, h2, hwv, hqk, List.take_add]
      · simp [h3]

/-- **C16, partial.** Arrays of numbers of width `k`: the `q` elements that are completely present
decode correctly, all the others are silently the default, and the bytes of an incomplete element
stay in the buffer. With enough data (`n * k` bytes, so `q = n`) nothing is defaulted. Missing: the
error that the documentation promises for missing data. -/
theorem C16_array_partial (host : Endian) (n : Nat) (t : Ty) (k : Nat)
    (hk : numWidth t = some k) (b : Bytes) :
    ∃ (vs : Arr t.Val n) (q : Nat), q = min n (b.length / k) ∧
      (Ty.array n t).de host b = (.ok vs, b.drop (q * k)) ∧
      (vs.1.take q).flatMap (wire t) = b.take (q * k) ∧
      vs.1.drop q = List.replicate (n - q) t.dflt :=
  array_fixed (t.de host) t.dflt (wire t) k
    (by revert hk; cases t <;> simp [numWidth] <;> omega)
    (fun b h => ⟨_, (C02_short_read host t k hk b).1 h⟩)
    (fun bs rest h => C01_numbers_cover host t k hk bs h rest) n b

example : (Ty.array 3 .u16).de .big [0, 1, 0, 2, 9] =
    (.ok (⟨[1, 2, 0], rfl⟩ : Arr UInt16 3), [9]) := by decide

/-- **C16, partial.** What is returned instead, for every element type: each element is read from where
the one before it has left the buffer, whether that was read or not, and those that cannot be read are the
default. Missing: the error that the documentation promises. -/
theorem C16_each_partial (host : Endian) (n : Nat) (t : Ty) (ht : Terminating t = true) (b : Bytes) :
    ∃ (vs : Arr t.Val n) (left : Nat → Bytes), left 0 = b ∧
      (Ty.array n t).de host b = (.ok vs, left n) ∧ ∀ j (hj : j < n),
        (t.de host (left j)).2 = left (j + 1) ∧
        ((t.de host (left j)).1 = .ok (vs.1[j]'(by rw [vs.2]; exact hj)) ∨
          (∃ e, (t.de host (left j)).1 = .err e) ∧ vs.1[j]'(by rw [vs.2]; exact hj) = t.dflt) := by
  show ∃ (vs : Arr t.Val n) (left : Nat → Bytes), left 0 = b ∧
    Dec.array (t.de host) t.dflt n b = (.ok vs, left n) ∧ _
  induction n generalizing b with
  | zero => exact ⟨⟨[], rfl⟩, fun _ => b, rfl, rfl, fun j hj => absurd hj (Nat.not_lt_zero j)⟩
  | succ n ih =>
    obtain ⟨vs, left, h1, h2, h3⟩ := ih (t.de host b).2
    obtain ⟨v, hv, hw⟩ : ∃ v, Dec.orDefault (t.de host) t.dflt b = (.ok v, (t.de host b).2) ∧
        ((t.de host b).1 = .ok v ∨ (∃ e, (t.de host b).1 = .err e) ∧ v = t.dflt) := by
      rcases C09_value_or_error host t ht b with ⟨v, h⟩ | ⟨e, h⟩
      · have hb : t.de host b = (.ok v, (t.de host b).2) := Prod.ext h rfl
        exact ⟨v, by rw [Dec.orDefault, hb], .inl h⟩
      · have hb : t.de host b = (.err e, (t.de host b).2) := Prod.ext h rfl
        exact ⟨t.dflt, by rw [Dec.orDefault, hb], .inr ⟨⟨e, h⟩, rfl⟩⟩
    refine ⟨⟨v :: vs.1, by simp [vs.2]⟩, fun j => match j with | 0 => b | j + 1 => left j, rfl, ?_, ?_⟩
    · show (Dec.orDefault (t.de host) t.dflt >>= _) b = _
      rw [Dec.bind_ok hv, Dec.bind_ok h2]
      rfl
    · intro j hj
      cases j with
      | zero => exact ⟨h1.symm, hw⟩
      | succ j => exact h3 j (by omega)

example : Terminating (.len .u16 (.pair .u8 (.vec .bool))) = true := by decide

/-- **C16 fails as stated**, and not only for data that ends early: if one element is malformed, those
after it are read from the middle of it. Here the second element is there, with its length, and is 5; it
is read as 512, and the byte 5 is taken for what follows the array. -/
theorem C16_shifts : ∃ vs : Arr UInt16 2,
    (Ty.len .u8 .u16).de .little [2, 0, 5] = (.ok (5 : UInt16), []) ∧
      (Ty.array 2 (.len .u8 .u16)).de .little ([1, 9] ++ [2, 0, 5]) = (.ok vs, [5]) ∧
      vs.1 = ([0, 512] : List UInt16) :=
  ⟨⟨[0, 512], rfl⟩, by decide, by decide, rfl⟩

/-- **C22.** An `InsufficientData` error is truthful: fewer bytes were available than needed, and
not more than the buffer held. -/
theorem C22_insufficient_truthful (host : Endian) (t : Ty) (b r : Bytes) (expected available : Nat)
    (h : t.de host b = (.err (.insufficientData expected available), r)) :
    available < expected ∧ available ≤ b.length :=
  (t.de_safe host).honest b expected available (by rw [h])

example : (Ty.len .u8 (.pair .u16 .u32)).de .big [3, 0, 1, 7, 8, 8, 8] =
    (.err (.insufficientData 4 1), [7, 8, 8, 8]) := by decide

end Rsomeip
