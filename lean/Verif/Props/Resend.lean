import Verif.Props.RoundTrip
import Verif.Props.Strings
import Verif.Props.Decode
import Verif.Spec.Resend

/-! # C106: what was decoded can be encoded again -/

namespace Rsomeip

open Spec

theorem Dec.bind_inv {α β : Type} {d : Dec α} {f : α → Dec β} {b r : Bytes} {v : β}
    (h : (d >>= f) b = (.ok v, r)) : ∃ a r₁, d b = (.ok a, r₁) ∧ f a r₁ = (.ok v, r) := by
  rw [Dec.bind_apply] at h
  split at h
  · exact ⟨_, _, by assumption, h⟩
  all_goals cases h

theorem Dec.vec_inv {α : Type} {d : Dec α} {b r : Bytes} {vs : List α}
    (h : Dec.vec d b = (.ok vs, r)) : (b = [] ∧ vs = [] ∧ r = []) ∨
      ∃ a r₁ as, d b = (.ok a, r₁) ∧ r₁.length < b.length ∧ Dec.vec d r₁ = (.ok as, r) ∧
        vs = a :: as := by
  by_cases hb : b = []
  · subst hb
    rw [Dec.vec_nil] at h
    cases h
    exact .inl ⟨rfl, rfl, rfl⟩
  · rw [Dec.vec_ne _ _ hb] at h
    split at h
    · next a r₁ ha =>
      split at h
      · next hlt =>
        split at h
        · next as r' hv => cases h; exact .inr ⟨a, r₁, as, ha, hlt, hv, rfl⟩
        · next o hne =>
          exact absurd h (hne vs r)
      · cases h
    all_goals cases h

/-- Reading a number takes exactly its bytes. -/
theorem num_read {host : Endian} {t : Ty} {k : Nat} (hk : numWidth t = some k) {b r : Bytes}
    {v : t.Val} (h : t.de host b = (.ok v, r)) : b = wire t v ++ r := by
  by_cases hb : b.length < k
  · rw [(C02_short_read host t k hk b).1 hb] at h
    cases h
  · obtain ⟨w, hw, hwv⟩ := C01_numbers_cover host t k hk (b.take k) (by simp; omega) (b.drop k)
    rw [List.take_append_drop, h] at hw
    cases hw
    rw [hwv, List.take_append_drop]

theorem exact_read (host : Endian) : (t : Ty) → Exact t = true → ∀ (b r : Bytes) (v : t.Val),
    t.de host b = (.ok v, r) → b = wire t v ++ r
  | .u8, _, _, _, _, h | .u16, _, _, _, _, h | .u32, _, _, _, _, h | .u64, _, _, _, _, h
  | .i8, _, _, _, _, h | .i16, _, _, _, _, h | .i32, _, _, _, _, h | .i64, _, _, _, _, h
  | .f32, _, _, _, _, h | .f64, _, _, _, _, h => num_read rfl h
  | .bytes, _, b, r, v, h => by
    have h : Dec.bytes b = (.ok v, r) := h
    rw [Dec.bytes_apply] at h
    cases h
    simp [wire]
  | .unit, _, b, r, v, h => by
    have h : (.ok (), b) = (Out.ok v, r) := h
    cases h
    rfl
  | .pair x y, he, b, r, v, h => by
    rw [Exact, Bool.and_eq_true] at he
    obtain ⟨p, r₁, h1, h2⟩ := Dec.bind_inv (d := x.de host) h
    obtain ⟨q, r₂, h3, h4⟩ := Dec.bind_inv (d := y.de host) h2
    cases h4
    rw [exact_read host x he.1 _ _ _ h1, exact_read host y he.2 _ _ _ h3]
    simp [wire]
  | .vec t, he, b, r, vs, h => by
    have h : Dec.vec (t.de host) b = (.ok vs, r) := h
    have key : ∀ n (b : Bytes) (vs : List t.Val), b.length ≤ n → Dec.vec (t.de host) b = (.ok vs, r) →
        b = vs.flatMap (wire t) ++ r := by
      intro n
      induction n with
      | zero =>
        intro b vs hn h
        rcases Dec.vec_inv h with ⟨rfl, rfl, rfl⟩ | ⟨a, r₁, as, -, h2, -, -⟩
        · rfl
        · omega
      | succ n ih =>
        intro b vs hn h
        rcases Dec.vec_inv h with ⟨rfl, rfl, rfl⟩ | ⟨a, r₁, as, h1, h2, h3, rfl⟩
        · rfl
        · rw [exact_read host t he _ _ _ h1, ih r₁ as (by omega) h3]
          simp
    exact key _ b vs (Nat.le_refl _) h
  | .bool, he, _, _, _, _ | .utf8, he, _, _, _, _ | .utf16 _, he, _, _, _, _
  | .array _ _, he, _, _, _, _ | .len _ _, he, _, _, _, _ => by simp [Exact] at he

/-- Reading a length-prefixed member: the field, and what is inside of what it announces. -/
theorem len_inv {α : Type} {d : Dec α} {l : LengthField} {b r : Bytes} {v : α}
    (h : d.len l b = (.ok v, r)) : ∃ field body n r', b = field ++ body ∧ field.length = lenWidth l ∧
      n ≤ maxLen l ∧ d (body.take n) = (.ok v, r') ∧ r = r' ++ body.drop n := by
  rw [Dec.len_apply, Dec.width_eq] at h
  split at h
  · cases h
  · next hlt =>
    rw [Dec.take_apply] at h
    injection h with h1 h2
    refine ⟨b.take (lenWidth l), b.drop (lenWidth l), _, _, (List.take_append_drop _ _).symm,
      by simp; omega, ?_, Prod.ext h1 rfl, h2.symm⟩
    have := beToNat_lt (b.take (lenWidth l))
    rw [List.length_take, Nat.min_eq_left (by omega)] at this
    cases l <;> simp [lenWidth, maxLen] at this ⊢ <;> omega

theorem tight_read (host : Endian) : (t : Ty) → Tight t = true → ∀ (b r : Bytes) (v : t.Val),
    t.de host b = (.ok v, r) → (wire t v).length + r.length ≤ b.length ∧ Fits t v
  | .u8, _, _, _, _, h | .u16, _, _, _, _, h | .u32, _, _, _, _, h | .u64, _, _, _, _, h
  | .i8, _, _, _, _, h | .i16, _, _, _, _, h | .i32, _, _, _, _, h | .i64, _, _, _, _, h
  | .f32, _, _, _, _, h | .f64, _, _, _, _, h =>
    ⟨by rw [num_read rfl h, List.length_append], trivial⟩
  | .bool, _, b, r, v, h => by
    have h : Dec.bool b = (.ok v, r) := h
    rw [Dec.bool_apply] at h
    split at h
    · cases h
    · injection h with h1 h2
      subst h2
      refine ⟨?_, trivial⟩
      simp only [wire, List.length_singleton, List.length_drop]
      omega
  | .bytes, _, b, r, v, h => by
    have h : Dec.bytes b = (.ok v, r) := h
    rw [Dec.bytes_apply] at h
    cases h
    exact ⟨Nat.le_refl _, trivial⟩
  | .unit, _, b, r, v, h => by
    have h : (.ok (), b) = (Out.ok v, r) := h
    cases h
    exact ⟨by simp [wire], trivial⟩
  | .pair x y, he, b, r, v, h => by
    rw [Tight, Bool.and_eq_true] at he
    obtain ⟨p, r₁, h1, h2⟩ := Dec.bind_inv (d := x.de host) h
    obtain ⟨q, r₂, h3, h4⟩ := Dec.bind_inv (d := y.de host) h2
    cases h4
    have hx := tight_read host x he.1 _ _ _ h1
    have hy := tight_read host y he.2 _ _ _ h3
    refine ⟨?_, hx.2, hy.2⟩
    simp only [wire, List.length_append]
    omega
  | .vec t, he, b, r, vs, h => by
    have h : Dec.vec (t.de host) b = (.ok vs, r) := h
    have key : ∀ n (b : Bytes) (vs : List t.Val), b.length ≤ n → Dec.vec (t.de host) b = (.ok vs, r) →
        (vs.flatMap (wire t)).length + r.length ≤ b.length ∧ ∀ v ∈ vs, Fits t v := by
      intro n
      induction n with
      | zero =>
        intro b vs hn h
        rcases Dec.vec_inv h with ⟨rfl, rfl, rfl⟩ | ⟨a, r₁, as, -, h2, -, -⟩
        · exact ⟨Nat.le_refl _, by simp⟩
        · omega
      | succ n ih =>
        intro b vs hn h
        rcases Dec.vec_inv h with ⟨rfl, rfl, rfl⟩ | ⟨a, r₁, as, h1, h2, h3, rfl⟩
        · exact ⟨Nat.le_refl _, by simp⟩
        · have ha := tight_read host t he _ _ _ h1
          have hi := ih r₁ as (by omega) h3
          refine ⟨?_, ?_⟩
          · simp only [List.flatMap_cons, List.length_append]
            omega
          · intro v hv
            rcases List.mem_cons.mp hv with rfl | hv
            · exact ha.2
            · exact hi.2 v hv
    exact key _ b vs (Nat.le_refl _) h
  | .len l t, he, b, r, v, h => by
    obtain ⟨field, body, n, r', rfl, h1, h2, h3, rfl⟩ := len_inv (d := t.de host) h
    have ht := tight_read host t he _ _ _ h3
    have h4 : (wire t v).length ≤ n := by
      have := ht.1
      rw [List.length_take] at this
      omega
    refine ⟨?_, Nat.le_trans h4 h2, ht.2⟩
    have := ht.1
    simp only [wire, List.length_append, List.length_drop, be_length, h1] at this ⊢
    rw [List.length_take] at this
    omega
  | .utf8, he, _, _, _, _ | .utf16 _, he, _, _, _, _ | .array _ _, he, _, _, _, _ => by
    simp [Tight] at he

theorem noLen_fits : (t : Ty) → NoLen t = true → ∀ v : t.Val, Fits t v
  | .u8, _, _ | .u16, _, _ | .u32, _, _ | .u64, _, _ | .i8, _, _ | .i16, _, _ | .i32, _, _
  | .i64, _, _ | .f32, _, _ | .f64, _, _ | .bool, _, _ | .bytes, _, _ | .utf8, _, _
  | .utf16 _, _, _ | .unit, _, _ => trivial
  | .vec t, h, vs => fun v _ => noLen_fits t h v
  | .array _ t, h, vs => fun v _ => noLen_fits t h v
  | .pair a b, h, v => by
    rw [NoLen, Bool.and_eq_true] at h
    exact ⟨noLen_fits a h.1 v.1, noLen_fits b h.2 v.2⟩
  | .len _ _, h, _ => by simp [NoLen] at h

theorem resendable_fits (host : Endian) : (t : Ty) → Resendable t = true → ∀ (b r : Bytes)
    (v : t.Val), t.de host b = (.ok v, r) → Fits t v
  | .u8, _, _, _, _, _ | .u16, _, _, _, _, _ | .u32, _, _, _, _, _ | .u64, _, _, _, _, _
  | .i8, _, _, _, _, _ | .i16, _, _, _, _, _ | .i32, _, _, _, _, _ | .i64, _, _, _, _, _
  | .f32, _, _, _, _, _ | .f64, _, _, _, _, _ | .bool, _, _, _, _, _ | .bytes, _, _, _, _, _
  | .utf8, _, _, _, _, _ | .utf16 _, _, _, _, _, _ | .unit, _, _, _, _, _ => trivial
  | .pair x y, he, b, r, v, h => by
    rw [Resendable, Bool.and_eq_true] at he
    obtain ⟨p, r₁, h1, h2⟩ := Dec.bind_inv (d := x.de host) h
    obtain ⟨q, r₂, h3, h4⟩ := Dec.bind_inv (d := y.de host) h2
    cases h4
    exact ⟨resendable_fits host x he.1 _ _ _ h1, resendable_fits host y he.2 _ _ _ h3⟩
  | .vec t, he, b, r, vs, h => by
    have h : Dec.vec (t.de host) b = (.ok vs, r) := h
    have key : ∀ n (b : Bytes) (vs : List t.Val), b.length ≤ n → Dec.vec (t.de host) b = (.ok vs, r) →
        ∀ v ∈ vs, Fits t v := by
      intro n
      induction n with
      | zero =>
        intro b vs hn h
        rcases Dec.vec_inv h with ⟨rfl, rfl, rfl⟩ | ⟨a, r₁, as, -, h2, -, -⟩
        · simp
        · omega
      | succ n ih =>
        intro b vs hn h
        rcases Dec.vec_inv h with ⟨rfl, rfl, rfl⟩ | ⟨a, r₁, as, h1, h2, h3, rfl⟩
        · simp
        · intro v hv
          rcases List.mem_cons.mp hv with rfl | hv
          · exact resendable_fits host t he _ _ _ h1
          · exact ih r₁ as (by omega) h3 v hv
    exact key _ b vs (Nat.le_refl _) h
  | .array n t, he, b, r, vs, h => fun v _ => noLen_fits t he v
  | .len l t, he, b, r, v, h => (tight_read host (.len l t) he b r v h).2

theorem noNul_dflt : (t : Ty) → NoNul t t.dflt
  | .u8 | .u16 | .u32 | .u64 | .i8 | .i16 | .i32 | .i64 | .f32 | .f64 | .bool | .bytes | .unit =>
    trivial
  | .utf8 => by simp [NoNul, Ty.dflt]
  | .utf16 _ => by simp [NoNul, Ty.dflt]
  | .vec t => by simp [NoNul, Ty.dflt]
  | .array n t => by
    intro v hv
    rw [(List.mem_replicate.mp hv).2]
    exact noNul_dflt t
  | .pair a b => ⟨noNul_dflt a, noNul_dflt b⟩
  | .len _ t => noNul_dflt t

/-- Strings that were read contain no NUL. -/
theorem noNul_string {host : Endian} {b r : Bytes} {s : List Char}
    (h : Dec.string host b = (.ok s, r)) : '\x00' ∉ s := by
  cases host
  · exact ((C19_strict_little_host b s r).mp h).1
  · exact (C19_strict_big_host b s r h).1

theorem noNul_read (host : Endian) : (t : Ty) → ∀ (b r : Bytes) (v : t.Val),
    t.de host b = (.ok v, r) → NoNul t v
  | .u8, _, _, _, _ | .u16, _, _, _, _ | .u32, _, _, _, _ | .u64, _, _, _, _
  | .i8, _, _, _, _ | .i16, _, _, _, _ | .i32, _, _, _, _ | .i64, _, _, _, _
  | .f32, _, _, _, _ | .f64, _, _, _, _ | .bool, _, _, _, _ | .bytes, _, _, _, _
  | .unit, _, _, _, _ => trivial
  | .utf8, b, r, v, h => noNul_string h
  | .utf16 _, b, r, v, h => noNul_string h
  | .pair x y, b, r, v, h => by
    obtain ⟨p, r₁, h1, h2⟩ := Dec.bind_inv (d := x.de host) h
    obtain ⟨q, r₂, h3, h4⟩ := Dec.bind_inv (d := y.de host) h2
    cases h4
    exact ⟨noNul_read host x _ _ _ h1, noNul_read host y _ _ _ h3⟩
  | .vec t, b, r, vs, h => by
    have h : Dec.vec (t.de host) b = (.ok vs, r) := h
    have key : ∀ n (b : Bytes) (vs : List t.Val), b.length ≤ n → Dec.vec (t.de host) b = (.ok vs, r) →
        ∀ v ∈ vs, NoNul t v := by
      intro n
      induction n with
      | zero =>
        intro b vs hn h
        rcases Dec.vec_inv h with ⟨rfl, rfl, rfl⟩ | ⟨a, r₁, as, -, h2, -, -⟩
        · simp
        · omega
      | succ n ih =>
        intro b vs hn h
        rcases Dec.vec_inv h with ⟨rfl, rfl, rfl⟩ | ⟨a, r₁, as, h1, h2, h3, rfl⟩
        · simp
        · intro v hv
          rcases List.mem_cons.mp hv with rfl | hv
          · exact noNul_read host t _ _ _ h1
          · exact ih r₁ as (by omega) h3 v hv
    exact key _ b vs (Nat.le_refl _) h
  | .array n t, b, r, vs, h => by
    have key : ∀ n (b : Bytes) (vs : Arr t.Val n), Dec.array (t.de host) t.dflt n b = (.ok vs, r) →
        ∀ v ∈ vs.1, NoNul t v := by
      intro n
      induction n with
      | zero =>
        intro b vs h
        cases h
        simp
      | succ n ih =>
        intro b vs h
        obtain ⟨a, r₁, h1, h2⟩ := Dec.bind_inv (d := Dec.orDefault (t.de host) t.dflt) h
        obtain ⟨as, r₂, h3, h4⟩ := Dec.bind_inv (d := Dec.array (t.de host) t.dflt n) h2
        cases h4
        intro v hv
        rcases List.mem_cons.mp hv with rfl | hv
        · simp only [Dec.orDefault] at h1
          split at h1
          · cases h1; exact noNul_dflt t
          · exact noNul_read host t _ _ _ h1
        · exact ih r₁ as h3 v hv
    exact key n b vs h
  | .len l t, b, r, v, h => by
    obtain ⟨field, body, n, r', -, -, -, h3, -⟩ := len_inv (d := t.de host) h
    exact noNul_read host t _ _ _ h3

/-- **C106.** Numbers, byte strings, and tuples and `Vec`s of these have one encoding only: what was
read are the bytes that are written for the value. -/
theorem C106_exact (host : Endian) (t : Ty) (ht : Exact t = true) (b r : Bytes) (v : t.Val)
    (h : t.de host b = (.ok v, r)) :
    ∃ buf, t.ser.serialize v ⟨[], none⟩ = (.ok (b.length - r.length), buf) ∧ b = buf.data ++ r := by
  have hb := exact_read host t ht b r v h
  have hf : Fits t v := noLen_fits t (by
    clear h hb v
    induction t with
    | vec t ih => exact ih ht
    | pair a b iha ihb =>
      rw [Exact, Bool.and_eq_true] at ht
      rw [NoLen, iha ht.1, ihb ht.2]
      rfl
    | array n t _ => simp [Exact] at ht
    | len l t _ => simp [Exact] at ht
    | _ => rfl) v
  refine ⟨⟨wire t v, none⟩, ((good_fits t v hf).grow []).trans ?_, hb⟩
  have : b.length - r.length = (wire t v).length := by rw [hb, List.length_append]; omega
  rw [this, List.nil_append]

example : Exact (.pair .u16 (.vec (.pair .i8 .f32))) = true ∧
    (Ty.pair .u16 (.vec (.pair .u8 .i16))).de .little [1, 2, 3, 255, 255, 4, 0, 1] =
      (.ok ((258 : UInt16), ([((3 : UInt8), (-1 : Int16)), (4, 1)] : List (UInt8 × Int16))), []) := by
  decide +kernel

/-- **C106 fails as stated**: other types have several encodings. A boolean is read from every byte and
written as 0 or 1; a byte announced and not used is not written again. -/
theorem C106_other_bytes :
    (∃ b : Bytes, Ty.bool.de .little b = (.ok false, []) ∧
      (Ty.bool.ser.serialize false ⟨[], none⟩).2.data ≠ b) ∧
    ∃ (b : Bytes), (Ty.len .u8 .u8).de .little b = (.ok (7 : UInt8), [9]) ∧
      ((Ty.len .u8 .u8).ser.serialize (7 : UInt8) ⟨[], none⟩).2.data ++ [9] ≠ b :=
  ⟨⟨[2], by decide⟩, ⟨[2, 7, 9], by decide⟩⟩

/-- **C106 fails as stated**: a value that was read can be one that cannot be written. An array in a
length-prefixed member is read from no bytes at all, but is too long for its length field. -/
theorem C106_array_false : ∃ (t : Ty) (b : Bytes) (v : t.Val), t.de .little b = (.ok v, []) ∧
    (t.ser.serialize v ⟨[], none⟩).1 = .err (.invalidLength 400 255) :=
  ⟨.len .u8 (.array 100 .u32), [0], (⟨List.replicate 100 0, rfl⟩ : Arr UInt32 100),
    by decide +kernel, by decide +kernel⟩

/-- **C106 fails as stated**: a string of 120 characters that was received as UTF-16 and fits its
length field does not fit it when written as UTF-8. -/
theorem C106_string_false : ∃ (b : Bytes) (s : List Char),
    (Ty.len .u8 .utf8).de .little b = (.ok s, []) ∧
    ((Ty.len .u8 .utf8).ser.serialize s ⟨[], none⟩).1 = .err (.invalidLength 364 255) := by
  refine ⟨be (lenWidth .u8) (wire (.utf16 .big) (List.replicate 120 '中')).length ++
    wire (.utf16 .big) (List.replicate 120 '中'), List.replicate 120 '中', ?_, ?_⟩
  · have h1 := Dec.reads_utf16 .little .big (List.replicate 120 '中') (by decide +kernel) (by decide)
    have h2 := Dec.len_reads .u8 (h1 []) (by decide +kernel) []
    rw [List.append_nil, List.append_nil] at h2
    exact h2
  · decide +kernel

/-- **C106, the part that holds.** If length-prefixed members contain no arrays and no strings, and
arrays no length-prefixed members, then a value that was read can be written, and reading it again gives
the same value. Missing: all other types, for which it is false. -/
theorem C106_again_partial (host : Endian) (t : Ty) (ht : WellFormed t = true)
    (hh : HostOk host t = true) (hr : Resendable t = true) (b r : Bytes) (v : t.Val)
    (h : t.de host b = (.ok v, r)) :
    ∃ n buf, t.ser.serialize v ⟨[], none⟩ = (.ok n, buf) ∧ t.de host buf.data = (.ok v, []) := by
  have hs := (good_fits t v (resendable_fits host t hr b r v h)).grow []
  exact ⟨_, _, hs, C07_round_trip host t v _ _ ht hh (noNul_read host t b r v h) hs⟩

example : let t : Ty := .pair .utf8 (.pair (.array 2 .bool) (.len .u16 (.vec (.len .u8 (.pair .u8 .bytes)))))
    WellFormed t = true ∧ HostOk .little t = true ∧ Resendable t = true := by decide

/-- **C106, the part that holds.** Without arrays and strings a value that was read can be written, and
takes no more bytes than were read. -/
theorem C106_no_longer_partial (host : Endian) (t : Ty) (ht : Tight t = true) (b r : Bytes)
    (v : t.Val) (h : t.de host b = (.ok v, r)) :
    ∃ n buf, t.ser.serialize v ⟨[], none⟩ = (.ok n, buf) ∧ buf.data.length ≤ b.length - r.length := by
  obtain ⟨h1, h2⟩ := tight_read host t ht b r v h
  refine ⟨_, _, (good_fits t v h2).grow [], ?_⟩
  rw [List.nil_append]
  exact Nat.le_sub_of_add_le h1

example : (Ty.len .u8 (.pair .bool .u16)).de .big [9, 5, 1, 2, 3] =
    (.ok (true, (258 : UInt16)), [3]) := by decide

end Rsomeip
