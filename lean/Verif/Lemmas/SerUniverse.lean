import Verif.Lemmas.Writer

/-! Serialization over the whole family of types. -/

namespace Rsomeip

open Spec

theorem utf8EncodeChar_eq (c : Char) : utf8EncodeChar c = String.utf8EncodeChar c := by
  have hv : c.toNat < 0x110000 := by
    have := c.valid
    rcases this with h | ⟨_, h⟩
    · have : c.toNat < 0xd800 := h
      omega
    · exact h
  have hc : c.val.toNat = c.toNat := rfl
  unfold utf8EncodeChar String.utf8EncodeChar
  simp only [hc]
  by_cases h1 : c.toNat < 0x80
  · have : c.toNat ≤ 127 := by omega
    simp [h1, this]
  · have h1' : ¬ c.toNat ≤ 127 := by omega
    by_cases h2 : c.toNat < 0x800
    · have : c.toNat ≤ 2047 := by omega
      simp only [h1, h2, h1', this, if_false, if_true]
      have e1 : 0xc0 + c.toNat / 64 = c.toNat / 64 % 32 + 192 := by omega
      have e2 : 0x80 + c.toNat % 64 = c.toNat % 64 + 128 := by omega
      rw [e1, e2]
    · have h2' : ¬ c.toNat ≤ 2047 := by omega
      by_cases h3 : c.toNat < 0x10000
      · have : c.toNat ≤ 65535 := by omega
        simp only [h1, h2, h3, h1', h2', this, if_false, if_true]
        have e1 : 0xe0 + c.toNat / 4096 = c.toNat / 4096 % 16 + 224 := by omega
        rw [e1, Nat.add_comm 0x80, Nat.add_comm 0x80]
      · have h3' : ¬ c.toNat ≤ 65535 := by omega
        simp only [h1, h2, h3, h1', h2', h3', if_false]
        have e1 : 0xf0 + c.toNat / 262144 = c.toNat / 262144 % 8 + 240 := by omega
        rw [e1, Nat.add_comm 0x80, Nat.add_comm 0x80, Nat.add_comm 0x80]

theorem utf8Encode_eq (s : List Char) : utf8Encode s = s.flatMap String.utf8EncodeChar := by
  simp only [utf8Encode, funext utf8EncodeChar_eq]

theorem natToBE_one_toNat (v : UInt8) : natToBE 1 v.toNat = [v] := by
  simp [natToBE]

theorem good_u8 (v : UInt8) : Ser.u8.Good v [v] := by
  have := Ser.good_prim 1 UInt8.toNat v
  rwa [natToBE_one_toNat] at this

theorem flatMap_singleton (l : Bytes) : l.flatMap (fun b => [b]) = l := by
  induction l with
  | nil => rfl
  | cons a l ih => simp

theorem good_utf8 (s : List Char) : Ser.utf8.Good s (wire .utf8 s) := by
  have h1 := Ser.good_vec Ser.u8 (fun b => [b]) [0xef, 0xbb, 0xbf] (fun v _ => good_u8 v)
  have h2 := Ser.good_vec Ser.u8 (fun b => [b]) (utf8Encode s) (fun v _ => good_u8 v)
  have := Ser.good_tcons (a := Ser.array Ser.u8 3)
    (b := Ser.tcons (Ser.vec Ser.u8) (Ser.tcons Ser.u8 Ser.tnil))
    (v := (⟨[0xef, 0xbb, 0xbf], rfl⟩, utf8Encode s, 0x00, ())) h1
    (Ser.good_tcons h2 (Ser.good_tcons (good_u8 0) (Ser.good_tnil ())))
  rw [flatMap_singleton, flatMap_singleton, utf8Encode_eq] at this
  simpa [Ser.Good, Ser.utf8, Ser.utf8Tuple, wire, utf8Encode_eq] using this

theorem hint_utf8 (s : List Char) : Ser.utf8.sizeHint s = (wire .utf8 s).length := by
  have e1 := Ser.sliceHint_eq Ser.u8 (fun b => [b]) [0xef, 0xbb, 0xbf] (fun v _ => rfl) 0
  have e2 := Ser.sliceHint_eq Ser.u8 (fun b => [b]) (utf8Encode s) (fun v _ => rfl) 0
  simp only [Ser.utf8, Ser.utf8Tuple, Ser.tcons, Ser.array, Ser.vec, Ser.tnil, e1, e2,
    flatMap_singleton]
  rw [utf8Encode_eq]
  simp [wire, Ser.u8, Ser.prim]
  omega

theorem unitBytes_eq (e : Endian) (u : UInt16) : (Ser.unitBytes e u).1 = unit16 e u.toNat := by
  cases e <;> simp [Ser.unitBytes, unit16, be_eq_natToBE, natToBE]

theorem good_unitBytes (e : Endian) (u : UInt16) :
    (Ser.array Ser.u8 2).Good (Ser.unitBytes e u) (unit16 e u.toNat) := by
  have := Ser.good_vec Ser.u8 (fun b => [b]) (Ser.unitBytes e u).1 (fun v _ => good_u8 v)
  rw [flatMap_singleton, unitBytes_eq] at this
  have e1 : (Ser.array Ser.u8 2).serialize (Ser.unitBytes e u)
      = (Ser.vec Ser.u8).serialize (unit16 e u.toNat) := by
    rw [← unitBytes_eq]; rfl
  rw [Ser.Good, e1]
  exact this

theorem unit16_length (e : Endian) (u : Nat) : (unit16 e u).length = 2 := by
  cases e <;> simp [unit16]

theorem writes_utf16Loop (e : Endian) (us : List UInt16) (size : Nat) :
    (Ser.utf16Loop e size us).Writes (us.flatMap fun u => unit16 e u.toNat)
      (.ok (size + (us.flatMap fun u => unit16 e u.toNat).length)) := by
  induction us generalizing size with
  | nil => simpa [Ser.utf16Loop] using W.writes_pure size
  | cons u us ih =>
    have := W.Writes.bind (f := fun n => Ser.utf16Loop e (size + n) us) (good_unitBytes e u)
      (ih (size + (unit16 e u.toNat).length))
    simpa [Ser.utf16Loop, Nat.add_assoc] using this

theorem utf16EncodeChar_toNat (c : Char) :
    (utf16EncodeChar c).map UInt16.toNat = utf16Units c := by
  have hv : c.toNat < 0x110000 := by
    rcases c.valid with h | ⟨_, h⟩
    · have : c.toNat < 0xd800 := h
      omega
    · exact h
  unfold utf16EncodeChar utf16Units
  by_cases h : c.toNat < 0x10000
  · have h' : c.toNat ≤ 0xffff := by omega
    simp only [h, h', if_true, List.map_cons, List.map_nil, UInt16.toNat_ofNat']
    rw [Nat.mod_eq_of_lt (by omega)]
  · have h' : ¬ c.toNat ≤ 0xffff := by omega
    simp only [h, h', if_false, List.map_cons, List.map_nil, UInt16.toNat_ofNat']
    rw [Nat.mod_eq_of_lt (by omega), Nat.mod_eq_of_lt (by omega)]

theorem utf16Encode_flatMap (f : Nat → Bytes) (s : List Char) :
    (utf16Encode s).flatMap (fun u => f u.toNat) = (s.flatMap utf16Units).flatMap f := by
  induction s with
  | nil => rfl
  | cons c s ih =>
    simp only [utf16Encode, List.flatMap_cons, List.flatMap_append] at ih ⊢
    rw [ih, ← utf16EncodeChar_toNat]
    congr 1
    simp [List.flatMap_map]

theorem good_utf16 (e : Endian) (s : List Char) : (Ser.utf16 e).Good s (wire (.utf16 e) s) := by
  have h0 : Ser.u16.Good (Ser.mark e) (unit16 e 0xfeff) := by
    cases e
    · exact Ser.good_prim 2 UInt16.toNat 0xfffe
    · exact Ser.good_prim 2 UInt16.toNat 0xfeff
  have h2 := Ser.good_prim 2 UInt16.toNat 0x0000
  have := W.Writes.bind
    (f := fun n => do
      let m ← Ser.utf16Loop e n (utf16Encode s)
      let k ← Ser.u16.serialize 0x0000
      pure (m + k)) h0
    (W.Writes.bind (writes_utf16Loop e (utf16Encode s) _)
      (W.Writes.bind h2 (W.writes_pure _)))
  rw [utf16Encode_flatMap (unit16 e)] at this
  have e2 : natToBE 2 (UInt16.toNat 0) = [0, 0] := by decide
  simp only [e2, List.append_nil] at this
  simpa [Ser.Good, Ser.utf16, wire, List.append_assoc, Nat.add_assoc] using this

theorem hint_utf16 (e : Endian) (s : List Char) :
    (Ser.utf16 e).sizeHint s = (wire (.utf16 e) s).length := by
  have hf : ∀ (us : List UInt16) (n : Nat),
      us.foldl (fun size _ => size + 2) n = n + (us.flatMap fun u => unit16 e u.toNat).length := by
    intro us
    induction us with
    | nil => intro n; simp
    | cons u us ih =>
      intro n
      rw [List.foldl_cons, ih]
      simp [unit16_length]
      omega
  simp only [Ser.utf16, hf, utf16Encode_flatMap (unit16 e), wire, List.length_append,
    unit16_length, List.length_cons, List.length_nil]
  omega

theorem toInt_emod_toNat {n : Nat} (v : BitVec n) : (v.toInt % 2 ^ n).toNat = v.toNat := by
  have h := BitVec.toInt_eq_toNat_bmod v
  rw [h]
  have : ((v.toNat : Int).bmod (2 ^ n)) % ((2 ^ n : Nat) : Int) = (v.toNat : Int) % ((2 ^ n : Nat) : Int) := by
    rw [Int.bmod_emod]
  have e : (2 ^ n : Int) = ((2 ^ n : Nat) : Int) := by norm_cast
  rw [e]
  rw [this, Int.emod_eq_of_lt (by omega) (by exact_mod_cast v.isLt)]
  simp

/-- Number of bytes promised by `size_hint` = number of bytes of the specified encoding. -/
theorem hint_eq : (t : Ty) → (v : t.Val) → t.ser.sizeHint v = (wire t v).length
  | .u8, v => rfl
  | .u16, v => by simp [Ty.ser, Ser.u16, Ser.prim, wire]
  | .u32, v => by simp [Ty.ser, Ser.u32, Ser.prim, wire]
  | .u64, v => by simp [Ty.ser, Ser.u64, Ser.prim, wire]
  | .i8, v => by simp [Ty.ser, Ser.i8, Ser.prim, wire]
  | .i16, v => by simp [Ty.ser, Ser.i16, Ser.prim, wire]
  | .i32, v => by simp [Ty.ser, Ser.i32, Ser.prim, wire]
  | .i64, v => by simp [Ty.ser, Ser.i64, Ser.prim, wire]
  | .f32, v => by simp [Ty.ser, Ser.f32, Ser.prim, wire]
  | .f64, v => by simp [Ty.ser, Ser.f64, Ser.prim, wire]
  | .bool, v => rfl
  | .bytes, v => rfl
  | .utf8, v => hint_utf8 v
  | .utf16 e, v => hint_utf16 e v
  | .vec t, vs => by
    have := Ser.sliceHint_eq t.ser (wire t) vs (fun v _ => hint_eq t v) 0
    rw [Nat.zero_add] at this
    exact this
  | .array n t, vs => by
    have := Ser.sliceHint_eq t.ser (wire t) vs.1 (fun v _ => hint_eq t v) 0
    rw [Nat.zero_add] at this
    exact this
  | .unit, _ => rfl
  | .pair a b, v => by
    simp [Ty.ser, Ser.tcons, wire, hint_eq a v.1, hint_eq b v.2]
  | .len l t, v => by
    simp only [Ty.ser, Ser.len, wire, List.length_append, be_length, hint_eq t v]
    cases l <;> rfl

/-- What fits is written as specified. -/
theorem good_fits : (t : Ty) → (v : t.Val) → Fits t v → t.ser.Good v (wire t v)
  | .u8, v, _ => good_u8 v
  | .u16, (v : UInt16), _ => by
    have := Ser.good_prim 2 UInt16.toNat v; rwa [← be_eq_natToBE] at this
  | .u32, (v : UInt32), _ => by
    have := Ser.good_prim 4 UInt32.toNat v; rwa [← be_eq_natToBE] at this
  | .u64, (v : UInt64), _ => by
    have := Ser.good_prim 8 UInt64.toNat v; rwa [← be_eq_natToBE] at this
  | .i8, (v : Int8), _ => by
    have := Ser.good_prim 1 (fun v : Int8 => v.toBitVec.toNat) v
    rwa [← be_eq_natToBE, ← toInt_emod_toNat v.toBitVec] at this
  | .i16, (v : Int16), _ => by
    have := Ser.good_prim 2 (fun v : Int16 => v.toBitVec.toNat) v
    rwa [← be_eq_natToBE, ← toInt_emod_toNat v.toBitVec] at this
  | .i32, (v : Int32), _ => by
    have := Ser.good_prim 4 (fun v : Int32 => v.toBitVec.toNat) v
    rwa [← be_eq_natToBE, ← toInt_emod_toNat v.toBitVec] at this
  | .i64, (v : Int64), _ => by
    have := Ser.good_prim 8 (fun v : Int64 => v.toBitVec.toNat) v
    rwa [← be_eq_natToBE, ← toInt_emod_toNat v.toBitVec] at this
  | .f32, (v : BitVec 32), _ => by
    have := Ser.good_prim 4 (BitVec.toNat (w := 32)) v; rwa [← be_eq_natToBE] at this
  | .f64, (v : BitVec 64), _ => by
    have := Ser.good_prim 8 (BitVec.toNat (w := 64)) v; rwa [← be_eq_natToBE] at this
  | .bool, v, _ => Ser.good_bool v
  | .bytes, v, _ => Ser.good_bytes v
  | .utf8, v, _ => good_utf8 v
  | .utf16 e, v, _ => good_utf16 e v
  | .vec t, vs, h => Ser.good_vec t.ser (wire t) vs fun v hv => good_fits t v (h v hv)
  | .array n t, vs, h => Ser.good_vec t.ser (wire t) vs.1 fun v hv => good_fits t v (h v hv)
  | .unit, v, _ => Ser.good_tnil v
  | .pair a b, v, h => Ser.good_tcons (good_fits a v.1 h.1) (good_fits b v.2 h.2)
  | .len l t, (v : t.Val), h => by
    have hl : t.ser.sizeHint v ≤ maxLen l := by rw [hint_eq]; exact h.1
    have := Ser.serializeLen_ok l hl (good_fits t v h.2)
    rw [hint_eq] at this
    simp only [Ser.addLen] at this
    simp only [Ser.Good, Ty.ser, Ser.len, wire, List.length_append, be_length]
    exact this

theorem unfit_vec (t : Ty) (vs : List t.Val)
    (ih : ∀ v, ¬ Fits t v → ∃ bs req max, bs <+: wire t v ∧ max < req ∧
      (t.ser.serialize v).Writes bs (.err (.invalidLength req max)))
    (h : ¬ ∀ v ∈ vs, Fits t v) (total : Nat) :
    ∃ bs req max, bs <+: vs.flatMap (wire t) ∧ max < req ∧
      (Ser.sliceLoop t.ser total vs).Writes bs (.err (.invalidLength req max)) := by
  induction vs generalizing total with
  | nil => simp at h
  | cons v vs ihl =>
    by_cases hv : Fits t v
    · have hg := good_fits t v hv
      have hrest : ¬ ∀ w ∈ vs, Fits t w := by
        intro hall
        apply h
        intro w hw
        rcases List.mem_cons.mp hw with rfl | hw
        · exact hv
        · exact hall w hw
      obtain ⟨bs, req, max, hp, hlt, hw⟩ := ihl hrest (total + (wire t v).length)
      refine ⟨wire t v ++ bs, req, max, ?_, hlt, ?_⟩
      · rw [List.flatMap_cons]
        exact (List.prefix_append_right_inj _).mpr hp
      · exact W.Writes.bind (f := fun n => Ser.sliceLoop t.ser (total + n) vs) hg hw
    · obtain ⟨bs, req, max, hp, hlt, hw⟩ := ih v hv
      refine ⟨bs, req, max, ?_, hlt, ?_⟩
      · rw [List.flatMap_cons]
        exact hp.trans (List.prefix_append _ _)
      · exact W.Writes.bind_err hw

/-- What does not fit fails with `InvalidLength`, after writing some prefix. -/
theorem unfit : (t : Ty) → (v : t.Val) → ¬ Fits t v →
    ∃ bs req max, bs <+: wire t v ∧ max < req ∧
      (t.ser.serialize v).Writes bs (.err (.invalidLength req max))
  | .u8, v, h | .u16, v, h | .u32, v, h | .u64, v, h | .i8, v, h | .i16, v, h | .i32, v, h
  | .i64, v, h | .f32, v, h | .f64, v, h | .bool, v, h | .bytes, v, h | .utf8, v, h
  | .utf16 e, v, h | .unit, v, h => (h trivial).elim
  | .vec t, vs, h => unfit_vec t vs (unfit t) h 0
  | .array n t, vs, h => unfit_vec t vs.1 (unfit t) h 0
  | .pair a b, v, h => by
    by_cases ha : Fits a v.1
    · have hb : ¬ Fits b v.2 := fun hb => h ⟨ha, hb⟩
      obtain ⟨bs, req, max, hp, hlt, hw⟩ := unfit b v.2 hb
      refine ⟨wire a v.1 ++ bs, req, max, (List.prefix_append_right_inj _).mpr hp, hlt, ?_⟩
      exact W.Writes.bind (good_fits a v.1 ha) (W.Writes.bind_err hw)
    · obtain ⟨bs, req, max, hp, hlt, hw⟩ := unfit a v.1 ha
      exact ⟨bs, req, max, hp.trans (List.prefix_append _ _), hlt, W.Writes.bind_err hw⟩
  | .len l t, (v : t.Val), h => by
    by_cases hl : t.ser.sizeHint v ≤ maxLen l
    · have hl' : (wire t v).length ≤ maxLen l := by rw [← hint_eq]; exact hl
      have ht : ¬ Fits t v := fun ht => h ⟨hl', ht⟩
      obtain ⟨bs, req, max, hp, hlt, hw⟩ := unfit t v ht
      have := Ser.serializeLen_ok l hl hw
      rw [hint_eq] at this
      exact ⟨_, req, max, (List.prefix_append_right_inj _).mpr hp, hlt, this⟩
    · have hl' : maxLen l < t.ser.sizeHint v := by omega
      exact ⟨[], _, _, List.nil_prefix, hl', Ser.serializeLen_err l hl'⟩

/-- Every serializer of the family writes fixed bytes with a fixed outcome. -/
theorem writes_exists (t : Ty) (v : t.Val) :
    ∃ bs r, bs <+: wire t v ∧ (t.ser.serialize v).Writes bs r := by
  by_cases h : Fits t v
  · exact ⟨_, _, List.prefix_rfl, good_fits t v h⟩
  · obtain ⟨bs, req, max, hp, _, hw⟩ := unfit t v h
    exact ⟨bs, _, hp, hw⟩

end Rsomeip
