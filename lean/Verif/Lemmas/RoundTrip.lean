import Verif.Lemmas.Reader
import Verif.Lemmas.SerUniverse
import Verif.Lemmas.Utf

/-! Reading back what was written. -/

namespace Rsomeip

open Spec

namespace Dec

/-- The reader turns `bs` into `v` and leaves whatever follows. -/
def Reads {α : Type} (d : Dec α) (bs : Bytes) (v : α) : Prop :=
  ∀ rest, d (bs ++ rest) = (.ok v, rest)

theorem Reads.all {α : Type} {d : Dec α} {bs : Bytes} {v : α} (h : d.Reads bs v) :
    d bs = (.ok v, []) := by simpa using h []

theorem reads_pure {α : Type} (a : α) : (Pure.pure a : Dec α).Reads [] a := fun _ => rfl

theorem Reads.bind {α β : Type} {d : Dec α} {f : α → Dec β} {xs ys : Bytes} {a : α} {v : β}
    (h : d.Reads xs a) (hf : (f a).Reads ys v) : (d >>= f).Reads (xs ++ ys) v := by
  intro rest
  rw [List.append_assoc, bind_ok (h _), hf]

theorem Reads.bind_tail {α β : Type} {d : Dec α} {f : α → Dec β} {xs ys : Bytes} {a : α} {v : β}
    (h : d.Reads xs a) (hf : f a ys = (.ok v, [])) : (d >>= f) (xs ++ ys) = (.ok v, []) := by
  rw [bind_ok (h _), hf]

theorem reads_prim {α : Type} {k : Nat} {f : Nat → α} {n : Nat} {v : α} (hn : n < 256 ^ k)
    (hv : f n = v) : (prim k f).Reads (Spec.be k n) v := by
  intro rest
  rw [be_eq_natToBE, prim_natToBE, Nat.mod_eq_of_lt hn, hv]

theorem reads_bool (v : Bool) : bool.Reads [if v then 1 else 0] v := by
  intro rest
  rw [bool_apply, if_neg (by simp)]
  cases v <;> simp [beToNat]

theorem Reads.tcons {α β : Type} {a : Dec α} {b : Dec β} {xs ys : Bytes} {v : α × β}
    (ha : a.Reads xs v.1) (hb : b.Reads ys v.2) : (tcons a b).Reads (xs ++ ys) v := by
  have := Reads.bind (f := fun x => do let y ← b; Pure.pure (x, y)) ha
    (Reads.bind (f := fun y => (Pure.pure (v.1, y) : Dec (α × β))) hb (reads_pure _))
  rw [List.append_nil] at this
  exact this

theorem Reads.tcons_tail {α β : Type} {a : Dec α} {b : Dec β} {xs ys : Bytes} {v : α × β}
    (ha : a.Reads xs v.1) (hb : b ys = (.ok v.2, [])) : (Dec.tcons a b) (xs ++ ys) = (.ok v, []) := by
  refine ha.bind_tail ?_
  rw [bind_ok hb]
  rfl

theorem vec_reads {α : Type} {d : Dec α} (f : α → Bytes) (vs : List α)
    (h : ∀ v ∈ vs, d.Reads (f v) v) (hne : ∀ v ∈ vs, f v ≠ []) :
    vec d (vs.flatMap f) = (.ok vs, []) := by
  induction vs with
  | nil => simp [vec_nil]
  | cons v vs ih =>
    have hv := h v (by simp)
    have hn := hne v (by simp)
    have hpos : 0 < (f v).length := List.length_pos_iff.mpr hn
    rw [List.flatMap_cons, vec_ne _ _ (by simp [hn]), hv]
    simp only
    rw [if_pos (by rw [List.length_append]; omega),
      ih (fun w hw => h w (by simp [hw])) (fun w hw => hne w (by simp [hw]))]

theorem orDefault_reads {α : Type} {d : Dec α} {bs : Bytes} {v : α} (h : d.Reads bs v) (x : α) :
    (orDefault d x).Reads bs v := by
  intro rest
  simp only [orDefault, h rest]

theorem array_reads {α : Type} {d : Dec α} (x : α) (f : α → Bytes) (n : Nat) (vs : Arr α n)
    (h : ∀ v ∈ vs.1, d.Reads (f v) v) : (array d x n).Reads (vs.1.flatMap f) vs := by
  induction n with
  | zero =>
    intro rest
    obtain ⟨l, hl⟩ := vs
    have : l = [] := List.length_eq_zero_iff.mp hl
    subst this
    rfl
  | succ n ih =>
    obtain ⟨l, hl⟩ := vs
    match l, hl with
    | v :: l, hl =>
      have hl' : l.length = n := by simpa using hl
      have h1 := orDefault_reads (h v (by simp)) x
      have h2 := ih ⟨l, hl'⟩ (fun w hw => h w (by simp at hw ⊢; exact Or.inr hw))
      rw [List.flatMap_cons]
      have := Reads.bind (f := fun v => do
        let vs ← array d x n
        (Pure.pure ⟨v :: vs.1, by simp [vs.2]⟩ : Dec (Arr α (n + 1)))) h1
        (Reads.bind h2 (reads_pure _))
      simpa [array] using this

theorem width_eq (l : LengthField) : l.width = Spec.lenWidth l := by cases l <;> rfl

theorem len_reads {α : Type} {d : Dec α} {bs : Bytes} {v : α} (l : LengthField)
    (h : d bs = (.ok v, [])) (hl : bs.length ≤ Spec.maxLen l) :
    (len d l).Reads (Spec.be (Spec.lenWidth l) bs.length ++ bs) v := by
  intro rest
  have hlt := Nat.lt_of_le_of_lt hl (Ser.maxLen_lt l)
  rw [len_apply, width_eq, if_neg (by simp)]
  rw [List.append_assoc, List.take_left' (be_length _ _), List.drop_left' (be_length _ _),
    be_eq_natToBE, beToNat_natToBE, Nat.mod_eq_of_lt hlt, take_apply, List.take_left,
    List.drop_left, h]
  rfl

theorem untilZero_reads {α : Type} [DecidableEq α] {zero : α} {rd : Dec α} (f : α → Bytes)
    (xs acc : List α) (hz : zero ∉ xs) (hne : ∀ x ∈ xs, f x ≠ [])
    (h : ∀ x ∈ xs, rd.Reads (f x) x) (h0 : rd.Reads (f zero) zero) :
    (untilZero zero rd acc).Reads (xs.flatMap f ++ f zero) (acc ++ xs) := by
  induction xs generalizing acc with
  | nil =>
    intro rest
    rw [List.flatMap_nil, List.nil_append, untilZero_eq, h0]
    simp
  | cons x xs ih =>
    intro rest
    simp only [List.mem_cons, not_or] at hz
    have hpos : 0 < (f x).length := List.length_pos_iff.mpr (hne x (by simp))
    rw [List.flatMap_cons, List.append_assoc, List.append_assoc, untilZero_eq, h x (by simp)]
    simp only
    rw [if_neg (fun e => hz.1 e.symm), if_pos (by simp only [List.length_append]; omega),
      ← List.append_assoc,
      ih (acc ++ [x]) hz.2 (fun y hy => hne y (by simp [hy])) (fun y hy => h y (by simp [hy])) rest]
    simp

theorem reads_u8 (v : UInt8) : u8.Reads [v] v := by
  have := reads_prim (k := 1) (f := UInt8.ofNat) (n := v.toNat) (v := v)
    (by simpa using v.toNat_lt) (by simp)
  rwa [be_eq_natToBE, natToBE_one_toNat] at this

theorem reads_u16 (v : UInt16) : u16.Reads (Spec.be 2 v.toNat) v :=
  reads_prim (by simpa using v.toNat_lt) (by simp)

theorem reads_unit (host : Endian) (e : Endian) (u : UInt16) (hh : e = .little → host = .little) :
    (utf16Unit host (e == .big)).Reads (Spec.unit16 e u.toNat) u := by
  cases e with
  | big => exact reads_u16 u
  | little =>
    have hh := hh rfl
    subst hh
    intro rest
    have hlt := u.toNat_lt
    have e1 : Spec.unit16 .little u.toNat = Spec.be 2 (u.toNat % 256 * 256 + u.toNat / 256) := by
      simp only [Spec.unit16, be_eq_natToBE, natToBE]
      simp
      have e2 : (u.toNat % 256 * 256 + u.toNat / 256) / 256 = u.toNat % 256 := by omega
      rw [e2]
      apply UInt8.toNat_inj.mp
      simp
    rw [e1]
    have := (reads_prim (k := 2) (f := UInt16.ofNat)
      (n := u.toNat % 256 * 256 + u.toNat / 256) (by omega) rfl) rest
    show (utf16Unit .little false) _ = _
    simp only [utf16Unit, Bool.false_eq_true, if_false]
    rw [u16, bind_ok this]
    simp only [fromBe, swapBytes, pure_apply]
    rw [ofNat_toNat16 _ (by omega)]
    rw [ofNat_eq_of_toNat16 u _ (by omega)]

theorem reads_utf8 (host : Endian) (s : List Char) (h : '\x00' ∉ s) :
    (string host).Reads (Spec.wire .utf8 s) s := by
  have h1 := reads_u16 0xefbb
  have h2 := reads_u8 0xbf
  have h3 := untilZero_reads (rd := u8) (zero := (0 : UInt8)) (fun b => [b]) (utf8Encode s) []
    (utf8Encode_noNul s h) (by simp) (fun x _ => reads_u8 x) (reads_u8 0)
  rw [flatMap_singleton, utf8Encode_eq] at h3
  have e0 : Spec.wire .utf8 s = Spec.be 2 0xefbb ++
      ([0xbf] ++ (List.flatMap String.utf8EncodeChar s ++ [0] ++ [])) := by
    simp [Spec.wire, be_eq_natToBE, natToBE]
  rw [e0]
  refine Reads.bind h1 ?_
  simp only [if_true]
  refine Reads.bind h2 ?_
  simp only [ne_eq, not_true, if_false]
  refine Reads.bind h3 ?_
  rw [List.nil_append, ← utf8Encode_eq, utf8Decode_encode]
  exact reads_pure _

theorem reads_utf16 (host e : Endian) (s : List Char) (h : '\x00' ∉ s)
    (hh : e = .little → host = .little) :
    (string host).Reads (Spec.wire (.utf16 e) s) s := by
  have h3 := untilZero_reads (rd := utf16Unit host (e == .big)) (zero := (0 : UInt16))
    (fun u => Spec.unit16 e u.toNat) (utf16Encode s) []
    (utf16Encode_noNul s h)
    (fun x _ hx => by have := congrArg List.length hx; rw [unit16_length] at this; simp at this)
    (fun x _ => reads_unit host e x hh) (reads_unit host e 0 hh)
  rw [utf16Encode_flatMap (Spec.unit16 e)] at h3
  have e0 : Spec.unit16 e (UInt16.toNat 0) = [0, 0] := by cases e <;> rfl
  rw [e0] at h3
  have fin : (utf16 host (e == .big)).Reads
      (List.flatMap (Spec.unit16 e) (List.flatMap Spec.utf16Units s) ++ [0, 0] ++ []) s := by
    refine Reads.bind h3 ?_
    rw [List.nil_append, utf16Decode_encode]
    exact reads_pure _
  rw [List.append_nil] at fin
  simp only [Spec.wire, List.append_assoc]
  cases e with
  | big =>
    refine Reads.bind (reads_u16 0xfeff) ?_
    simp only [show ¬ ((0xfeff : UInt16) = 0xefbb) by decide, if_false, if_true]
    exact fin
  | little =>
    have : Spec.unit16 .little 0xfeff = Spec.be 2 (0xfffe : UInt16).toNat := by decide
    rw [this]
    refine Reads.bind (reads_u16 0xfffe) ?_
    simp only [show ¬ ((0xfffe : UInt16) = 0xefbb) by decide,
      show ¬ ((0xfffe : UInt16) = 0xfeff) by decide, if_false, if_true]
    exact fin

end Dec

theorem wire_nonEmpty : (t : Ty) → (v : t.Val) → NonEmpty t = true → wire t v ≠ []
  | .u8, v, _ => by simp [wire]
  | .u16, v, _ => by simp [wire, be]
  | .u32, v, _ => by simp [wire, be]
  | .u64, v, _ => by simp [wire, be]
  | .i8, v, _ => by simp [wire, be]
  | .i16, v, _ => by simp [wire, be]
  | .i32, v, _ => by simp [wire, be]
  | .i64, v, _ => by simp [wire, be]
  | .f32, v, _ => by simp [wire, be]
  | .f64, v, _ => by simp [wire, be]
  | .bool, v, _ => by simp [wire]
  | .utf8, v, _ => by simp [wire]
  | .utf16 e, v, _ => by simp [wire]
  | .array n t, (vs : Arr t.Val n), h => by
    simp only [NonEmpty, Bool.and_eq_true, decide_eq_true_eq] at h
    obtain ⟨l, hl⟩ := vs
    match l, hl with
    | [], hl => simp at hl; omega
    | v :: l, hl =>
      simp [wire, wire_nonEmpty t v h.2]
  | .pair a b, v, h => by
    simp only [NonEmpty, Bool.or_eq_true] at h
    simp only [wire, ne_eq, List.append_eq_nil_iff, not_and_or]
    rcases h with h | h
    · exact Or.inl (wire_nonEmpty a v.1 h)
    · exact Or.inr (wire_nonEmpty b v.2 h)
  | .len l t, v, _ => by
    cases l <;> simp [wire, be, lenWidth]

mutual
theorem reads_delimited (host : Endian) : (t : Ty) → (v : t.Val) → Delimited t = true →
    HostOk host t = true → NoNul t v → Fits t v → (t.de host).Reads (wire t v) v
  | .u8, v, _, _, _, _ => Dec.reads_u8 v
  | .u16, (v : UInt16), _, _, _, _ => Dec.reads_prim (by simpa using v.toNat_lt) (by simp; rfl)
  | .u32, (v : UInt32), _, _, _, _ => Dec.reads_prim (by simpa using v.toNat_lt) (by simp; rfl)
  | .u64, (v : UInt64), _, _, _, _ => Dec.reads_prim (by simpa using v.toNat_lt) (by simp; rfl)
  | .i8, (v : Int8), _, _, _, _ => by
    refine Dec.reads_prim ?_ ?_
    · show (v.toBitVec.toInt % 2 ^ 8).toNat < _
      rw [toInt_emod_toNat]; exact v.toBitVec.isLt
    · show Int8.ofBitVec (BitVec.ofNat 8 (v.toBitVec.toInt % 2 ^ 8).toNat) = v
      rw [toInt_emod_toNat]; simp
  | .i16, (v : Int16), _, _, _, _ => by
    refine Dec.reads_prim ?_ ?_
    · show (v.toBitVec.toInt % 2 ^ 16).toNat < _
      rw [toInt_emod_toNat]; exact v.toBitVec.isLt
    · show Int16.ofBitVec (BitVec.ofNat 16 (v.toBitVec.toInt % 2 ^ 16).toNat) = v
      rw [toInt_emod_toNat]; simp
  | .i32, (v : Int32), _, _, _, _ => by
    refine Dec.reads_prim ?_ ?_
    · show (v.toBitVec.toInt % 2 ^ 32).toNat < _
      rw [toInt_emod_toNat]; exact v.toBitVec.isLt
    · show Int32.ofBitVec (BitVec.ofNat 32 (v.toBitVec.toInt % 2 ^ 32).toNat) = v
      rw [toInt_emod_toNat]; simp
  | .i64, (v : Int64), _, _, _, _ => by
    refine Dec.reads_prim ?_ ?_
    · show (v.toBitVec.toInt % 2 ^ 64).toNat < _
      rw [toInt_emod_toNat]; exact v.toBitVec.isLt
    · show Int64.ofBitVec (BitVec.ofNat 64 (v.toBitVec.toInt % 2 ^ 64).toNat) = v
      rw [toInt_emod_toNat]; simp
  | .f32, (v : BitVec 32), _, _, _, _ => Dec.reads_prim (by simpa using v.isLt) (by simp; rfl)
  | .f64, (v : BitVec 64), _, _, _, _ => Dec.reads_prim (by simpa using v.isLt) (by simp; rfl)
  | .bool, v, _, _, _, _ => Dec.reads_bool v
  | .utf8, v, _, _, hn, _ => Dec.reads_utf8 host v hn
  | .utf16 e, v, _, hh, hn, _ => Dec.reads_utf16 host e v hn (by
      intro he; subst he; simpa [HostOk] using hh)
  | .array n t, vs, hd, hh, hn, hf => by
    refine Dec.array_reads t.dflt (wire t) n vs fun v hv => ?_
    exact reads_delimited host t v (by simpa [Delimited] using hd) (by simpa [HostOk] using hh)
      (hn v hv) (hf v hv)
  | .unit, v, _, _, _, _ => Dec.reads_pure v
  | .pair a b, v, hd, hh, hn, hf => by
    simp only [Delimited, Bool.and_eq_true] at hd
    simp only [HostOk, Bool.and_eq_true] at hh
    exact Dec.Reads.tcons (reads_delimited host a v.1 hd.1 hh.1 hn.1 hf.1)
      (reads_delimited host b v.2 hd.2 hh.2 hn.2 hf.2)
  | .len l t, v, hd, hh, hn, hf =>
    Dec.len_reads l (reads_wellFormed host t v (by simpa [Delimited] using hd)
      (by simpa [HostOk] using hh) hn hf.2) hf.1

theorem reads_wellFormed (host : Endian) : (t : Ty) → (v : t.Val) → WellFormed t = true →
    HostOk host t = true → NoNul t v → Fits t v → t.de host (wire t v) = (.ok v, [])
  | .u8, v, _, hh, hn, hf => (reads_delimited host .u8 v rfl hh hn hf).all
  | .u16, v, _, hh, hn, hf => (reads_delimited host .u16 v rfl hh hn hf).all
  | .u32, v, _, hh, hn, hf => (reads_delimited host .u32 v rfl hh hn hf).all
  | .u64, v, _, hh, hn, hf => (reads_delimited host .u64 v rfl hh hn hf).all
  | .i8, v, _, hh, hn, hf => (reads_delimited host .i8 v rfl hh hn hf).all
  | .i16, v, _, hh, hn, hf => (reads_delimited host .i16 v rfl hh hn hf).all
  | .i32, v, _, hh, hn, hf => (reads_delimited host .i32 v rfl hh hn hf).all
  | .i64, v, _, hh, hn, hf => (reads_delimited host .i64 v rfl hh hn hf).all
  | .f32, v, _, hh, hn, hf => (reads_delimited host .f32 v rfl hh hn hf).all
  | .f64, v, _, hh, hn, hf => (reads_delimited host .f64 v rfl hh hn hf).all
  | .bool, v, _, hh, hn, hf => (reads_delimited host .bool v rfl hh hn hf).all
  | .utf8, v, _, hh, hn, hf => (reads_delimited host .utf8 v rfl hh hn hf).all
  | .utf16 e, v, _, hh, hn, hf => (reads_delimited host (.utf16 e) v rfl hh hn hf).all
  | .unit, v, _, hh, hn, hf => (reads_delimited host .unit v rfl hh hn hf).all
  | .bytes, v, _, _, _, _ => Dec.bytes_apply v
  | .vec t, vs, hw, hh, hn, hf => by
    simp only [WellFormed, Bool.and_eq_true] at hw
    refine Dec.vec_reads (wire t) vs (fun v hv => ?_) (fun v hv => wire_nonEmpty t v hw.2)
    exact reads_delimited host t v hw.1 (by simpa [HostOk] using hh) (hn v hv) (hf v hv)
  | .array n t, vs, hw, hh, hn, hf => by
    have hd : Delimited t = true := by simpa [WellFormed] using hw
    refine (Dec.array_reads t.dflt (wire t) n vs fun v hv => ?_).all
    exact reads_delimited host t v hd (by simpa [HostOk] using hh) (hn v hv) (hf v hv)
  | .pair a b, v, hw, hh, hn, hf => by
    simp only [WellFormed, Bool.and_eq_true] at hw
    simp only [HostOk, Bool.and_eq_true] at hh
    exact Dec.Reads.tcons_tail (reads_delimited host a v.1 hw.1 hh.1 hn.1 hf.1)
      (reads_wellFormed host b v.2 hw.2 hh.2 hn.2 hf.2)
  | .len l t, v, hw, hh, hn, hf =>
    (Dec.len_reads l (reads_wellFormed host t v (by simpa [WellFormed] using hw)
      (by simpa [HostOk] using hh) hn hf.2) hf.1).all
end

end Rsomeip

namespace Rsomeip

theorem hostOk_little : (t : Ty) → Spec.HostOk .little t = true
  | .u8 | .u16 | .u32 | .u64 | .i8 | .i16 | .i32 | .i64 | .f32 | .f64 | .bool | .bytes | .utf8
  | .unit => rfl
  | .utf16 .little | .utf16 .big => rfl
  | .vec t => hostOk_little t
  | .array _ t => hostOk_little t
  | .pair a b => by simp [Spec.HostOk, hostOk_little a, hostOk_little b]
  | .len _ t => hostOk_little t

end Rsomeip
