import Verif.Lemmas.Be
import Verif.Bytes.Universe

/-! Lemmas about readers. -/

namespace Rsomeip

namespace Dec

theorem bind_apply {α β : Type} (d : Dec α) (f : α → Dec β) (b : Bytes) :
    (d >>= f) b =
      match d b with
      | (.ok a, r) => f a r
      | (.err e, r) => (.err e, r)
      | (.panic, r) => (.panic, r)
      | (.diverge, r) => (.diverge, r) := rfl

@[simp] theorem pure_apply {α : Type} (a : α) (b : Bytes) :
    (Pure.pure a : Dec α) b = (.ok a, b) := rfl

theorem bind_ok {α β : Type} {d : Dec α} {f : α → Dec β} {b r : Bytes} {a : α}
    (h : d b = (.ok a, r)) : (d >>= f) b = f a r := by rw [bind_apply, h]

theorem bind_err {α β : Type} {d : Dec α} {f : α → Dec β} {b r : Bytes} {e : DeErr}
    (h : d b = (.err e, r)) : (d >>= f) b = (.err e, r) := by rw [bind_apply, h]

theorem prim_apply {α : Type} (k : Nat) (f : Nat → α) (b : Bytes) :
    prim k f b =
      if b.length < k then (.err (.insufficientData k b.length), b)
      else (.ok (f (beToNat (b.take k))), b.drop k) := by
  by_cases h : b.length < k
  · simp [prim, bind_apply, remaining, fail, h]
  · simp [prim, bind_apply, remaining, getBE, h]

theorem prim_short {α : Type} {k : Nat} (f : Nat → α) {b : Bytes} (h : b.length < k) :
    prim k f b = (.err (.insufficientData k b.length), b) := by rw [prim_apply, if_pos h]

theorem prim_append {α : Type} (k : Nat) (f : Nat → α) (xs rest : Bytes) (h : xs.length = k) :
    prim k f (xs ++ rest) = (.ok (f (beToNat xs)), rest) := by
  subst h
  rw [prim_apply, if_neg (by simp)]
  simp

theorem prim_natToBE {α : Type} (k : Nat) (f : Nat → α) (n : Nat) (rest : Bytes) :
    prim k f (natToBE k n ++ rest) = (.ok (f (n % 256 ^ k)), rest) := by
  rw [prim_append k f _ rest (natToBE_length k n), beToNat_natToBE]

theorem bool_apply (b : Bytes) :
    bool b =
      if b.length < 1 then (.err (.insufficientData 1 b.length), b)
      else (.ok (UInt8.ofNat (beToNat (b.take 1)) &&& 0x01 == 0x01), b.drop 1) := by
  by_cases h : b.length < 1
  · simp only [bool, bind_apply, remaining, fail, h, if_true]
  · simp only [bool, bind_apply, remaining, getBE, h, if_false, pure_apply]

theorem bytes_apply (b : Bytes) : bytes b = (.ok b, []) := by
  simp [bytes, bind_apply, remaining, copyToBytes]

/-- Reader of a length field. -/
def lenField : LengthField → Dec Nat
  | .u8 => prim 1 id
  | .u16 => prim 2 id
  | .u32 => prim 4 id

theorem len_apply {α : Type} (d : Dec α) (l : LengthField) (b : Bytes) :
    len d l b =
      if b.length < l.width then (.err (.insufficientData l.width b.length), b)
      else take (beToNat (b.take l.width)) d (b.drop l.width) := by
  have hlt : ∀ k, ¬ b.length < k → beToNat (b.take k) < 256 ^ k := by
    intro k hk
    have := beToNat_lt (b.take k)
    rwa [List.length_take, Nat.min_eq_left (by omega)] at this
  cases l with
  | u8 =>
    by_cases h : b.length < 1
    · simp [len, bind_apply, u8, prim_apply, LengthField.width, h]
    · have := hlt 1 h
      simp only [len, bind_apply, u8, prim_apply, LengthField.width, h, if_false, pure_apply]
      rw [UInt8.toNat_ofNat', Nat.mod_eq_of_lt (by simpa using this)]
  | u16 =>
    by_cases h : b.length < 2
    · simp [len, bind_apply, u16, prim_apply, LengthField.width, h]
    · have := hlt 2 h
      simp only [len, bind_apply, u16, prim_apply, LengthField.width, h, if_false, pure_apply]
      rw [UInt16.toNat_ofNat', Nat.mod_eq_of_lt (by simpa using this)]
  | u32 =>
    by_cases h : b.length < 4
    · simp [len, bind_apply, u32, prim_apply, LengthField.width, h]
    · have := hlt 4 h
      simp only [len, bind_apply, u32, prim_apply, LengthField.width, h, if_false, pure_apply]
      rw [UInt32.toNat_ofNat', Nat.mod_eq_of_lt (by simpa using this)]

theorem take_apply {α : Type} (n : Nat) (d : Dec α) (b : Bytes) :
    take n d b = ((d (b.take n)).1, (d (b.take n)).2 ++ b.drop n) := rfl

theorem array_zero {α : Type} (d : Dec α) (dflt : α) (b : Bytes) :
    array d dflt 0 b = (.ok ⟨[], rfl⟩, b) := rfl

/-! ### Safety: no panic, a suffix is left, errors are truthful -/

/-- The reader never panics, leaves a suffix of its input, and reports truthful sizes. -/
structure Safe {α : Type} (d : Dec α) : Prop where
  noPanic : ∀ b, (d b).1 ≠ .panic
  suffix : ∀ b, (d b).2 <:+ b
  honest : ∀ b e a, (d b).1 = .err (.insufficientData e a) → a < e ∧ a ≤ b.length

theorem Safe.bind {α β : Type} {d : Dec α} {f : α → Dec β} (hd : d.Safe) (hf : ∀ a, (f a).Safe) :
    (d >>= f).Safe where
  noPanic b := by
    rw [bind_apply]
    have h := hd.noPanic b
    split
    · exact (hf _).noPanic _
    · simp
    · rename_i r heq; simp [heq] at h
    · simp
  suffix b := by
    rw [bind_apply]
    have h := hd.suffix b
    split
    · rename_i a r heq
      rw [heq] at h
      exact ((hf a).suffix r).trans h
    all_goals (rename_i heq; rw [heq] at h; exact h)
  honest b e a h := by
    rw [bind_apply] at h
    have hs := hd.suffix b
    split at h
    · rename_i v r heq
      rw [heq] at hs
      have := (hf v).honest r e a h
      exact ⟨this.1, this.2.trans hs.length_le⟩
    · rename_i e' r heq
      simp only [Out.err.injEq] at h
      exact hd.honest b e a (by rw [heq, h])
    · simp at h
    · simp at h

theorem safe_pure {α : Type} (a : α) : (Pure.pure a : Dec α).Safe where
  noPanic b := by simp
  suffix b := by simp
  honest b e a h := by simp at h

theorem safe_fail_other {α : Type} (w : DeOther) : (Dec.fail (.other w) : Dec α).Safe where
  noPanic b := by simp [fail]
  suffix b := by simp [fail]
  honest b e a h := by simp [fail] at h

theorem safe_prim {α : Type} (k : Nat) (f : Nat → α) : (prim k f).Safe where
  noPanic b := by rw [prim_apply]; split <;> simp
  suffix b := by
    rw [prim_apply]
    split
    · exact List.suffix_rfl
    · exact List.drop_suffix k b
  honest b e a h := by
    rw [prim_apply] at h
    split at h
    · simp only [Out.err.injEq, DeErr.insufficientData.injEq] at h
      omega
    · simp at h

theorem safe_bool : bool.Safe where
  noPanic b := by rw [bool_apply]; split <;> simp
  suffix b := by
    rw [bool_apply]
    split
    · exact List.suffix_rfl
    · exact List.drop_suffix 1 b
  honest b e a h := by
    rw [bool_apply] at h
    split at h
    · simp only [Out.err.injEq, DeErr.insufficientData.injEq] at h
      omega
    · simp at h

theorem safe_bytes : bytes.Safe where
  noPanic b := by simp [bytes_apply]
  suffix b := by simp [bytes_apply]
  honest b e a h := by simp [bytes_apply] at h

theorem Safe.orDefault {α : Type} {d : Dec α} (hd : d.Safe) (dflt : α) :
    (orDefault d dflt).Safe where
  noPanic b := by
    have h := hd.noPanic b
    simp only [Dec.orDefault]
    split
    · simp
    · exact h
  suffix b := by
    have h := hd.suffix b
    simp only [Dec.orDefault]
    split
    · rename_i heq; rw [heq] at h; exact h
    · exact h
  honest b e a h := by
    simp only [Dec.orDefault] at h
    split at h
    · simp at h
    · exact hd.honest b e a h

theorem Safe.array {α : Type} {d : Dec α} (hd : d.Safe) (dflt : α) (n : Nat) :
    (array d dflt n).Safe := by
  induction n with
  | zero => exact safe_pure _
  | succ n ih =>
    exact (hd.orDefault dflt).bind fun v => ih.bind fun vs => safe_pure _

theorem Safe.tcons {α β : Type} {a : Dec α} {b : Dec β} (ha : a.Safe) (hb : b.Safe) :
    (tcons a b).Safe := ha.bind fun _ => hb.bind fun _ => safe_pure _

theorem Safe.take {α : Type} {d : Dec α} (hd : d.Safe) (n : Nat) : (take n d).Safe where
  noPanic b := hd.noPanic (b.take n)
  suffix b := by
    rw [take_apply]
    have h := hd.suffix (b.take n)
    obtain ⟨p, hp⟩ := h
    refine ⟨p, ?_⟩
    rw [← List.append_assoc, hp, List.take_append_drop]
  honest b e a h := by
    have := hd.honest (b.take n) e a h
    rw [List.length_take] at this
    omega

theorem Safe.len {α : Type} {d : Dec α} (hd : d.Safe) (l : LengthField) : (len d l).Safe where
  noPanic b := by
    rw [len_apply]
    split
    · simp
    · exact (hd.take _).noPanic _
  suffix b := by
    rw [len_apply]
    split
    · exact List.suffix_rfl
    · exact ((hd.take _).suffix _).trans (List.drop_suffix _ _)
  honest b e a h := by
    rw [len_apply] at h
    split at h
    · simp only [Out.err.injEq, DeErr.insufficientData.injEq] at h
      omega
    · have := (hd.take _).honest _ e a h
      rw [List.length_drop] at this
      omega

theorem vec_nil {α : Type} (d : Dec α) : vec d [] = (.ok [], []) := by
  rw [vec, if_pos rfl]

theorem vec_ne {α : Type} (d : Dec α) (b : Bytes) (h : b ≠ []) :
    vec d b =
      match d b with
      | (.ok a, r) =>
        if r.length < b.length then
          match vec d r with
          | (.ok as, r') => (.ok (a :: as), r')
          | other => other
        else (.diverge, r)
      | (.err e, r) => (.err e, r)
      | (.panic, r) => (.panic, r)
      | (.diverge, r) => (.diverge, r) := by
  rw [vec, if_neg h]
  rfl

theorem Safe.vec {α : Type} {d : Dec α} (hd : d.Safe) : (vec d).Safe := by
  have key : ∀ n, ∀ b : Bytes, b.length = n →
      (Dec.vec d b).1 ≠ .panic ∧ (Dec.vec d b).2 <:+ b ∧
      ∀ e a, (Dec.vec d b).1 = .err (.insufficientData e a) → a < e ∧ a ≤ b.length := by
    intro n
    induction n using Nat.strongRecOn with
    | _ n ih =>
      intro b hb
      by_cases h0 : b = []
      · subst h0; simp [vec_nil]
      · have hp := hd.noPanic b
        have hs := hd.suffix b
        have hh := hd.honest b
        rw [vec_ne d b h0]
        split
        · rename_i v r heq
          rw [heq] at hs
          split
          · rename_i hlt
            obtain ⟨i1, i2, i3⟩ := ih r.length (by omega) r rfl
            split
            · rename_i vs r' heq'
              rw [heq'] at i2
              exact ⟨by simp, i2.trans hs, by simp⟩
            · exact ⟨i1, i2.trans hs, fun e a h => ⟨(i3 e a h).1, (i3 e a h).2.trans hlt.le⟩⟩
          · exact ⟨by simp, hs, by simp⟩
        · rename_i e r heq
          rw [heq] at hs hh
          exact ⟨by simp, hs, by simpa using hh⟩
        · rename_i r heq
          rw [heq] at hp
          exact absurd rfl hp
        · rename_i r heq
          rw [heq] at hs
          exact ⟨by simp, hs, by simp⟩
  exact ⟨fun b => (key _ b rfl).1, fun b => (key _ b rfl).2.1, fun b => (key _ b rfl).2.2⟩

theorem untilZero_eq {α : Type} [DecidableEq α] (zero : α) (rd : Dec α) (acc : List α) (b : Bytes) :
    untilZero zero rd acc b =
      match rd b with
      | (.ok v, r) =>
        if v = zero then (.ok acc, r)
        else if r.length < b.length then untilZero zero rd (acc ++ [v]) r
        else (.diverge, r)
      | (.err e, r) => (.err e, r)
      | (.panic, r) => (.panic, r)
      | (.diverge, r) => (.diverge, r) := by
  rw [untilZero]
  rfl

theorem Safe.untilZero {α : Type} [DecidableEq α] {rd : Dec α} (hd : rd.Safe) (zero : α)
    (acc : List α) : (untilZero zero rd acc).Safe := by
  have key : ∀ n, ∀ (acc : List α) (b : Bytes), b.length = n →
      (Dec.untilZero zero rd acc b).1 ≠ .panic ∧ (Dec.untilZero zero rd acc b).2 <:+ b ∧
      ∀ e a, (Dec.untilZero zero rd acc b).1 = .err (.insufficientData e a) →
        a < e ∧ a ≤ b.length := by
    intro n
    induction n using Nat.strongRecOn with
    | _ n ih =>
      intro acc b hb
      have hp := hd.noPanic b
      have hs := hd.suffix b
      have hh := hd.honest b
      rw [untilZero_eq]
      split
      · rename_i v r heq
        rw [heq] at hs
        split
        · exact ⟨by simp, hs, by simp⟩
        · split
          · rename_i hlt
            obtain ⟨i1, i2, i3⟩ := ih r.length (by omega) (acc ++ [v]) r rfl
            exact ⟨i1, i2.trans hs, fun e a h => ⟨(i3 e a h).1, (i3 e a h).2.trans hlt.le⟩⟩
          · exact ⟨by simp, hs, by simp⟩
      · rename_i e r heq
        rw [heq] at hs hh
        exact ⟨by simp, hs, by simpa using hh⟩
      · rename_i r heq
        rw [heq] at hp
        exact absurd rfl hp
      · rename_i r heq
        rw [heq] at hs
        exact ⟨by simp, hs, by simp⟩
  exact ⟨fun b => (key _ acc b rfl).1, fun b => (key _ acc b rfl).2.1,
    fun b => (key _ acc b rfl).2.2⟩

theorem safe_utf8 : utf8.Safe := by
  refine (safe_prim _ _).bind fun bom => ?_
  split
  · exact safe_fail_other _
  · refine ((safe_prim 1 UInt8.ofNat).untilZero 0 []).bind fun raw => ?_
    split
    · exact safe_pure _
    · exact safe_fail_other _

theorem safe_utf16Unit (host : Endian) (isBe : Bool) : (utf16Unit host isBe).Safe := by
  unfold utf16Unit
  split
  · exact safe_prim _ _
  · exact (safe_prim _ _).bind fun v => safe_pure _

theorem safe_utf16 (host : Endian) (isBe : Bool) : (utf16 host isBe).Safe := by
  refine ((safe_utf16Unit host isBe).untilZero 0 []).bind fun raw => ?_
  split
  · exact safe_pure _
  · exact safe_fail_other _

theorem safe_string (host : Endian) : (string host).Safe := by
  refine (safe_prim _ _).bind fun v => ?_
  split
  · exact safe_utf8
  · split
    · exact safe_utf16 _ _
    · split
      · exact safe_utf16 _ _
      · exact safe_fail_other _

end Dec

theorem Ty.de_safe (host : Endian) : (t : Ty) → (t.de host).Safe
  | .u8 => Dec.safe_prim _ _
  | .u16 => Dec.safe_prim _ _
  | .u32 => Dec.safe_prim _ _
  | .u64 => Dec.safe_prim _ _
  | .i8 => Dec.safe_prim _ _
  | .i16 => Dec.safe_prim _ _
  | .i32 => Dec.safe_prim _ _
  | .i64 => Dec.safe_prim _ _
  | .f32 => Dec.safe_prim _ _
  | .f64 => Dec.safe_prim _ _
  | .bool => Dec.safe_bool
  | .bytes => Dec.safe_bytes
  | .utf8 => Dec.safe_string host
  | .utf16 _ => Dec.safe_string host
  | .vec t => (de_safe host t).vec
  | .array n t => (de_safe host t).array t.dflt n
  | .unit => Dec.safe_pure _
  | .pair a b => (de_safe host a).tcons (de_safe host b)
  | .len l t => (de_safe host t).len l

end Rsomeip
