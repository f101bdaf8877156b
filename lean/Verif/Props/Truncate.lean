import Verif.Props.Resend

/-! # C107: truncated data is not taken for complete -/

namespace Rsomeip

open Spec

namespace Dec

/-- What is read does not depend on what follows. -/
def Ext {α : Type} (d : Dec α) : Prop :=
  ∀ b v r, d b = (.ok v, r) → ∀ x, d (b ++ x) = (.ok v, r ++ x)

theorem ext_pure {α : Type} (a : α) : (Pure.pure a : Dec α).Ext := by
  intro b v r h x
  cases h
  rfl

theorem ext_fail {α : Type} (e : DeErr) : (Dec.fail e : Dec α).Ext := by
  intro b v r h x
  cases h

theorem Ext.bind {α β : Type} {d : Dec α} {f : α → Dec β} (hd : d.Ext) (hf : ∀ a, (f a).Ext) :
    (d >>= f).Ext := by
  intro b v r h x
  obtain ⟨a, r₁, h1, h2⟩ := bind_inv h
  rw [bind_ok (hd _ _ _ h1 x)]
  exact hf a _ _ _ h2 x

theorem ext_prim {α : Type} (k : Nat) (f : Nat → α) : (prim k f).Ext := by
  intro b v r h x
  obtain ⟨bs, h1, rfl, rfl⟩ := prim_inv h
  rw [List.append_assoc]
  exact prim_append k f bs _ h1

theorem ext_bool : bool.Ext := by
  intro b v r h x
  rw [bool_apply] at h ⊢
  split at h
  · cases h
  · next hb =>
    cases h
    rw [if_neg (by rw [List.length_append]; omega), List.take_append_of_le_length (by omega),
      List.drop_append_of_le_length (by omega)]

theorem Ext.untilZero {α : Type} [DecidableEq α] {rd : Dec α} (hd : rd.Ext) (zero : α) (acc : List α) :
    (untilZero zero rd acc).Ext := by
  intro b
  induction hn : b.length using Nat.strongRecOn generalizing b acc with
  | _ n ih =>
    intro v r h x
    rw [untilZero_eq] at h ⊢
    split at h
    · next a r₁ ha =>
      rw [hd _ _ _ ha x]
      simp only
      split at h
      · next hz =>
        rw [if_pos hz]
        cases h
        rfl
      · next hz =>
        rw [if_neg hz]
        split at h
        · next hlt =>
          rw [if_pos (by simp only [List.length_append]; omega)]
          exact ih r₁.length (by omega) (acc ++ [a]) r₁ rfl v r h x
        · cases h
    all_goals cases h

theorem ext_utf8 : utf8.Ext := by
  unfold utf8
  refine Ext.bind (ext_prim _ _) fun bom => ?_
  split
  · exact ext_fail _
  · refine Ext.bind (Ext.untilZero (ext_prim _ _) _ _) fun raw => ?_
    split
    · exact ext_pure _
    · exact ext_fail _

theorem ext_utf16 (host : Endian) (isBe : Bool) : (utf16 host isBe).Ext := by
  unfold utf16
  refine Ext.bind (Ext.untilZero ?_ _ _) fun raw => ?_
  · unfold utf16Unit
    split
    · exact ext_prim _ _
    · exact Ext.bind (ext_prim _ _) fun _ => ext_pure _
  · split
    · exact ext_pure _
    · exact ext_fail _

theorem ext_string (host : Endian) : (string host).Ext := by
  unfold string
  refine Ext.bind (ext_prim _ _) fun m => ?_
  split
  · exact ext_utf8
  · split
    · exact ext_utf16 _ _
    · split
      · exact ext_utf16 _ _
      · exact ext_fail _

theorem Ext.take {α : Type} {d : Dec α} (hd : d.Ext) (n : Nat) : (Dec.take n d).Ext := by
  intro b v r h x
  rw [take_apply] at h ⊢
  injection h with h1 h2
  have h3 := hd (b.take n) v (d (b.take n)).2 (Prod.ext h1 rfl) (x.take (n - b.length))
  rw [List.take_append, List.drop_append, h3, ← h2]
  refine Prod.ext rfl ?_
  simp only [List.append_assoc]
  congr 1
  by_cases hn : n ≤ b.length
  · rw [Nat.sub_eq_zero_of_le hn]
    simp
  · rw [List.drop_of_length_le (by omega)]
    simp

theorem Ext.len {α : Type} {d : Dec α} (hd : d.Ext) (l : LengthField) : (Dec.len d l).Ext := by
  unfold Dec.len
  cases l
  all_goals exact Ext.bind (Ext.bind (ext_prim _ _) fun _ => ext_pure _) fun n => hd.take n

end Dec

theorem strict_ext (host : Endian) : (t : Ty) → Strict t = true → (t.de host).Ext
  | .u8, _ | .u16, _ | .u32, _ | .u64, _ | .i8, _ | .i16, _ | .i32, _ | .i64, _ | .f32, _
  | .f64, _ => Dec.ext_prim _ _
  | .bool, _ => Dec.ext_bool
  | .utf8, _ => Dec.ext_string host
  | .utf16 _, _ => Dec.ext_string host
  | .unit, _ => Dec.ext_pure _
  | .pair a b, h => by
    rw [Strict, Bool.and_eq_true] at h
    exact Dec.Ext.bind (strict_ext host a h.1) fun _ =>
      Dec.Ext.bind (strict_ext host b h.2) fun _ => Dec.ext_pure _
  | .len l t, h => Dec.Ext.len (strict_ext host t h) l
  | .bytes, h | .vec _, h | .array _ _, h => by simp [Strict] at h

theorem strict_terminating : (t : Ty) → Strict t = true → Terminating t = true
  | .u8, _ | .u16, _ | .u32, _ | .u64, _ | .i8, _ | .i16, _ | .i32, _ | .i64, _ | .f32, _
  | .f64, _ | .bool, _ | .utf8, _ | .utf16 _, _ | .unit, _ => rfl
  | .pair a b, h => by
    rw [Strict, Bool.and_eq_true] at h
    rw [Terminating, strict_terminating a h.1, strict_terminating b h.2]
    rfl
  | .len l t, h => strict_terminating t h
  | .bytes, h | .vec _, h | .array _ _, h => by simp [Strict] at h

theorem strict_delimited : (t : Ty) → Strict t = true → Delimited t = true ∧ WellFormed t = true
  | .u8, _ | .u16, _ | .u32, _ | .u64, _ | .i8, _ | .i16, _ | .i32, _ | .i64, _ | .f32, _
  | .f64, _ | .bool, _ | .utf8, _ | .utf16 _, _ | .unit, _ => ⟨rfl, rfl⟩
  | .pair a b, h => by
    rw [Strict, Bool.and_eq_true] at h
    have ha := strict_delimited a h.1
    have hb := strict_delimited b h.2
    exact ⟨by rw [Delimited, ha.1, hb.1]; rfl, by rw [WellFormed, ha.1, hb.2]; rfl⟩
  | .len l t, h => ⟨(strict_delimited t h).2, (strict_delimited t h).2⟩
  | .bytes, h | .vec _, h | .array _ _, h => by simp [Strict] at h

/-- **C107, the part that holds.** Reading a type without arrays, `Vec`s and byte strings does not
depend on what follows what is read. -/
theorem C107_more_partial (host : Endian) (t : Ty) (ht : Strict t = true) (b r : Bytes) (v : t.Val)
    (h : t.de host b = (.ok v, r)) (more : Bytes) : t.de host (b ++ more) = (.ok v, r ++ more) :=
  strict_ext host t ht b v r h more

/-- **C107, the part that holds.** If reading took some bytes, then reading fewer of them fails. -/
theorem C107_fewer_partial (host : Endian) (t : Ty) (ht : Strict t = true) (c r : Bytes) (v : t.Val)
    (h : t.de host (c ++ r) = (.ok v, r)) (p q : Bytes) (hc : c = p ++ q) (hq : q ≠ []) :
    ∃ e, (t.de host p).1 = .err e := by
  rcases C09_value_or_error host t (strict_terminating t ht) p with ⟨w, hw⟩ | he
  · have h1 := strict_ext host t ht p w (t.de host p).2 (Prod.ext hw rfl) (q ++ r)
    rw [← List.append_assoc, ← hc, h] at h1
    have h2 := congrArg List.length (Prod.ext_iff.mp h1).2
    simp only [List.length_append] at h2
    have := List.length_pos_iff.mpr hq
    omega
  · exact he

/-- **C107, the part that holds.** No proper beginning of what was written for a value is read as a
value. -/
theorem C107_truncated_partial (host : Endian) (t : Ty) (ht : Strict t = true)
    (hh : HostOk host t = true) (v : t.Val) (hn : NoNul t v) (n : Nat) (buf : BufMut)
    (h : t.ser.serialize v ⟨[], none⟩ = (.ok n, buf)) (p q : Bytes) (hp : buf.data = p ++ q)
    (hq : q ≠ []) : ∃ e, (t.de host p).1 = .err e :=
  C107_fewer_partial host t ht buf.data [] v
    (C07_round_trip_delimited host t v n buf [] (strict_delimited t ht).1 hh hn h) p q hp hq

example : Strict (.pair .u16 (.pair (.len .u32 (.pair .utf8 .bool)) .f64)) = true ∧
    HostOk .big (.pair .u16 (.pair (.len .u32 (.pair .utf8 .bool)) .f64)) = true := by decide

example : (Ty.pair .u16 (.len .u8 .u32)).de .little ([1, 2, 4, 0, 0, 0, 5] ++ [6]) =
    (.ok ((258 : UInt16), (5 : UInt32)), [6]) ∧
    ((Ty.pair .u16 (.len .u8 .u32)).de .little [1, 2, 4, 0, 0]).1 =
      .err (.insufficientData 4 2) := by decide

/-- **C107 fails as stated**: beginnings of what was written for an array, or for a length-prefixed
`Vec`, are read as other values of the same type, though both mark their end. -/
theorem C107_false :
    (∃ (v w : Arr UInt16 2) (p q : Bytes), v ≠ w ∧ q ≠ [] ∧ Delimited (.array 2 .u16) = true ∧
      ((Ty.array 2 .u16).ser.serialize v ⟨[], none⟩).2.data = p ++ q ∧
      (Ty.array 2 .u16).de .little p = (.ok w, [])) ∧
    ∃ (v w : List UInt16) (p q : Bytes), v ≠ w ∧ q ≠ [] ∧ Delimited (.len .u8 (.vec .u16)) = true ∧
      ((Ty.len .u8 (.vec .u16)).ser.serialize v ⟨[], none⟩).2.data = p ++ q ∧
      (Ty.len .u8 (.vec .u16)).de .little p = (.ok w, []) :=
  ⟨⟨⟨[1, 2], rfl⟩, ⟨[1, 0], rfl⟩, [0, 1], [0, 2], by decide, by decide, by decide, by decide,
      by decide⟩,
    [1, 2], [1], [4, 0, 1], [0, 2], by decide, by decide, by decide, by decide, by decide +kernel⟩

end Rsomeip
