import Verif.Lemmas.Be
import Verif.Spec.Wire

/-! Lemmas about writers. -/

namespace Rsomeip

namespace W

/-- The writer appends `bs` and finishes with `r`, on every buffer that has room; on a buffer
without room it panics after appending some part of `bs`. -/
structure Writes {α : Type} (w : W α) (bs : Bytes) (r : SOut α) : Prop where
  grow : ∀ d, w ⟨d, none⟩ = (r, ⟨d ++ bs, none⟩)
  room : ∀ d n, bs.length ≤ n → w ⟨d, some n⟩ = (r, ⟨d ++ bs, some (n - bs.length)⟩)
  full : ∀ n, n < bs.length → ∃ p, p <+: bs ∧ p.length ≤ n ∧
    ∀ d, w ⟨d, some n⟩ = (.panic, ⟨d ++ p, some (n - p.length)⟩)
  noPanic : r ≠ .panic

theorem bind_apply {α β : Type} (w : W α) (f : α → W β) (b : BufMut) :
    (w >>= f) b =
      match w b with
      | (.ok a, b') => f a b'
      | (.err e, b') => (.err e, b')
      | (.panic, b') => (.panic, b') := rfl

@[simp] theorem pure_apply {α : Type} (a : α) (b : BufMut) : (Pure.pure a : W α) b = (.ok a, b) :=
  rfl

theorem writes_pure {α : Type} (a : α) : (Pure.pure a : W α).Writes [] (.ok a) where
  grow d := by simp
  room d n _ := by simp
  full n h := by simp at h
  noPanic := by simp

theorem writes_fail {α : Type} (e : SerErr) : (W.fail e : W α).Writes [] (.err e) where
  grow d := by simp [W.fail]
  room d n _ := by simp [W.fail]
  full n h := by simp at h
  noPanic := by simp

theorem writes_putSlice (xs : Bytes) : (W.putSlice xs).Writes xs (.ok ()) where
  grow d := by simp [W.putSlice]
  room d n h := by simp [W.putSlice, Nat.not_lt.mpr h]
  full n h := ⟨[], by simp, by simp, fun d => by simp [W.putSlice, h]⟩
  noPanic := by simp

theorem Writes.bind {α β : Type} {w : W α} {f : α → W β} {a : α} {xs ys : Bytes} {r : SOut β}
    (h : w.Writes xs (.ok a)) (hf : (f a).Writes ys r) : (w >>= f).Writes (xs ++ ys) r where
  grow d := by rw [bind_apply, h.grow]; simp [hf.grow]
  room d n hn := by
    simp only [List.length_append] at hn
    rw [bind_apply, h.room d n (by omega)]
    simp only
    rw [hf.room _ _ (by omega)]
    simp [Nat.sub_sub]
  full n hn := by
    simp only [List.length_append] at hn
    by_cases hx : n < xs.length
    · obtain ⟨p, hp, hl, he⟩ := h.full n hx
      exact ⟨p, hp.trans (List.prefix_append _ _), hl, fun d => by rw [bind_apply, he]⟩
    · obtain ⟨p, hp, hl, he⟩ := hf.full (n - xs.length) (by omega)
      refine ⟨xs ++ p, ?_, ?_, fun d => ?_⟩
      · exact (List.prefix_append_right_inj xs).mpr hp
      · simp only [List.length_append]; omega
      · rw [bind_apply, h.room d n (by omega)]
        simp only [he, List.append_assoc, List.length_append, Nat.sub_sub]
  noPanic := hf.noPanic

theorem Writes.bind_err {α β : Type} {w : W α} {f : α → W β} {xs : Bytes} {e : SerErr}
    (h : w.Writes xs (.err e)) : (w >>= f).Writes xs (.err e) where
  grow d := by rw [bind_apply, h.grow]
  room d n hn := by rw [bind_apply, h.room d n hn]
  full n hn := by
    obtain ⟨p, hp, hl, he⟩ := h.full n hn
    exact ⟨p, hp, hl, fun d => by rw [bind_apply, he]⟩
  noPanic := by simp

theorem Writes.unique {α : Type} {w : W α} {xs ys : Bytes} {r r' : SOut α}
    (h : w.Writes xs r) (h' : w.Writes ys r') : xs = ys ∧ r = r' := by
  have := (h.grow []).symm.trans (h'.grow [])
  simp only [List.nil_append, Prod.mk.injEq, BufMut.mk.injEq, and_true] at this
  exact ⟨this.2, this.1⟩

end W

theorem be_eq_natToBE (k n : Nat) : Spec.be k n = natToBE k n := by
  induction k generalizing n with
  | zero => rfl
  | succ k ih =>
    rw [Spec.be, List.range_succ_eq_map, List.map_cons, List.map_map, natToBE]
    congr 1
    · apply UInt8.toNat_inj.mp; simp
    · rw [← ih, Spec.be]
      apply List.map_congr_left
      intro i hi
      simp only [List.mem_range] at hi
      simp only [Function.comp]
      congr 4
      omega

@[simp] theorem be_length (k n : Nat) : (Spec.be k n).length = k := by
  simp [be_eq_natToBE]

namespace Ser

/-- A serializer that, on value `v`, writes `bs` and reports exactly their number. -/
def Good {α : Type} (s : Ser α) (v : α) (bs : Bytes) : Prop :=
  (s.serialize v).Writes bs (.ok bs.length)

theorem good_prim {α : Type} (k : Nat) (bits : α → Nat) (v : α) :
    (prim k bits).Good v (natToBE k (bits v)) := by
  have := (W.writes_putSlice (natToBE k (bits v))).bind (f := fun _ => (pure k : W Nat))
    (W.writes_pure k)
  simpa [Good, prim] using this

theorem good_sliceLoop {α : Type} (s : Ser α) (f : α → Bytes) (vs : List α)
    (h : ∀ v ∈ vs, s.Good v (f v)) (total : Nat) :
    (sliceLoop s total vs).Writes (vs.flatMap f) (.ok (total + (vs.flatMap f).length)) := by
  induction vs generalizing total with
  | nil => simpa [sliceLoop] using W.writes_pure total
  | cons v vs ih =>
    have hv : s.Good v (f v) := h v (by simp)
    have := W.Writes.bind (f := fun n => sliceLoop s (total + n) vs) hv
      (ih (fun w hw => h w (by simp [hw])) (total + (f v).length))
    simpa [sliceLoop, Nat.add_assoc] using this

theorem good_vec {α : Type} (s : Ser α) (f : α → Bytes) (vs : List α)
    (h : ∀ v ∈ vs, s.Good v (f v)) : (vec s).Good vs (vs.flatMap f) := by
  simpa [Good, vec] using good_sliceLoop s f vs h 0

theorem sliceHint_eq {α : Type} (s : Ser α) (f : α → Bytes) (vs : List α)
    (h : ∀ v ∈ vs, s.sizeHint v = (f v).length) (total : Nat) :
    sliceHint s total vs = total + (vs.flatMap f).length := by
  induction vs generalizing total with
  | nil => simp [sliceHint]
  | cons v vs ih =>
    rw [sliceHint, ih (fun w hw => h w (by simp [hw])), h v (by simp)]
    simp [Nat.add_assoc]

theorem good_tcons {α β : Type} {a : Ser α} {b : Ser β} {v : α × β} {xs ys : Bytes}
    (ha : a.Good v.1 xs) (hb : b.Good v.2 ys) : (tcons a b).Good v (xs ++ ys) := by
  have := W.Writes.bind (f := fun n => do let m ← b.serialize v.2; pure (n + m)) ha
    (W.Writes.bind (f := fun m => (pure (xs.length + m) : W Nat)) hb (W.writes_pure _))
  simpa [Good, tcons] using this

theorem good_tnil (v : Unit) : tnil.Good v [] := W.writes_pure 0

theorem good_bytes (v : Bytes) : bytes.Good v v := by
  have := (W.writes_putSlice v).bind (f := fun _ => (pure v.length : W Nat)) (W.writes_pure _)
  simpa [Good, bytes] using this

theorem good_bool (v : Bool) : bool.Good v [if v then 1 else 0] := by
  cases v
  · exact good_prim 1 UInt8.toNat 0
  · exact good_prim 1 UInt8.toNat 1

theorem maxLen_lt (l : LengthField) : Spec.maxLen l < 256 ^ Spec.lenWidth l := by
  cases l <;> decide

/-- Add the width of the length field to a successful result. -/
def addLen (k : Nat) : SOut Nat → SOut Nat
  | .ok n => .ok (k + n)
  | .err e => .err e
  | .panic => .panic

theorem serializeLen_ok {α : Type} {s : Ser α} {v : α} {bs : Bytes} {r : SOut Nat}
    (l : LengthField)
    (hh : s.sizeHint v ≤ Spec.maxLen l) (h : (s.serialize v).Writes bs r) :
    (s.serializeLen l v).Writes (Spec.be (Spec.lenWidth l) (s.sizeHint v) ++ bs)
      (addLen (Spec.lenWidth l) r) := by
  have key : ∀ (k : Nat) (α' : Type) (bits : α' → Nat) (x : α'),
      bits x = s.sizeHint v →
      ((prim k bits).serialize x >>= fun size => do
        let n ← s.serialize v
        (pure (size + n) : W Nat)).Writes (Spec.be k (s.sizeHint v) ++ bs)
        (addLen k r) := by
    intro k α' bits x hx
    have hp := good_prim k bits x
    rw [hx, ← be_eq_natToBE] at hp
    rw [Good, be_length] at hp
    refine W.Writes.bind hp ?_
    match r, h with
    | .ok n, h =>
      have := W.Writes.bind (f := fun m => (pure (k + m) : W Nat)) h (W.writes_pure _)
      simpa [addLen] using this
    | .err e, h => exact h.bind_err
    | .panic, h => exact absurd rfl h.noPanic
  cases l with
  | u8 =>
    have hh' : s.sizeHint v ≤ 255 := hh
    have := key 1 UInt8 UInt8.toNat (UInt8.ofNat (s.sizeHint v)) (by
      rw [UInt8.toNat_ofNat']; exact Nat.mod_eq_of_lt (by omega))
    simpa [serializeLen, hh', u8, Spec.lenWidth] using this
  | u16 =>
    have hh' : s.sizeHint v ≤ 65535 := hh
    have := key 2 UInt16 UInt16.toNat (UInt16.ofNat (s.sizeHint v)) (by
      rw [UInt16.toNat_ofNat']; exact Nat.mod_eq_of_lt (by omega))
    simpa [serializeLen, hh', u16, Spec.lenWidth] using this
  | u32 =>
    have hh' : s.sizeHint v ≤ 4294967295 := hh
    have := key 4 UInt32 UInt32.toNat (UInt32.ofNat (s.sizeHint v)) (by
      rw [UInt32.toNat_ofNat']; exact Nat.mod_eq_of_lt (by omega))
    simpa [serializeLen, hh', u32, Spec.lenWidth] using this

theorem serializeLen_err {α : Type} {s : Ser α} {v : α} (l : LengthField)
    (hh : Spec.maxLen l < s.sizeHint v) :
    (s.serializeLen l v).Writes [] (.err (.invalidLength (s.sizeHint v) (Spec.maxLen l))) := by
  cases l with
  | u8 =>
    have hh' : ¬ s.sizeHint v ≤ 255 := Nat.not_le.mpr hh
    simp only [serializeLen, hh', if_false]
    exact W.Writes.bind_err (W.writes_fail _)
  | u16 =>
    have hh' : ¬ s.sizeHint v ≤ 65535 := Nat.not_le.mpr hh
    simp only [serializeLen, hh', if_false]
    exact W.Writes.bind_err (W.writes_fail _)
  | u32 =>
    have hh' : ¬ s.sizeHint v ≤ 4294967295 := Nat.not_le.mpr hh
    simp only [serializeLen, hh', if_false]
    exact W.Writes.bind_err (W.writes_fail _)

end Ser

end Rsomeip
