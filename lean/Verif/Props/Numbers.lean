import Verif.Lemmas.RoundTrip
import Verif.Spec.Shape

/-! # C01–C03: numbers and booleans -/

namespace Rsomeip

open Spec

/-- Uniform view of the ten numeric types: `k` bytes, bit pattern `f`, value from pattern `g`. -/
theorem num_shape (host : Endian) (t : Ty) (k : Nat) (h : numWidth t = some k) :
    ∃ (f : t.Val → Nat) (g : Nat → t.Val), t.ser = Ser.prim k f ∧ t.de host = Dec.prim k g ∧
      (∀ v, wire t v = natToBE k (f v)) ∧ (∀ v, f v < 256 ^ k) ∧ (∀ v, g (f v) = v) ∧
      (∀ n, n < 256 ^ k → f (g n) = n) := by
  match t, h with
  | .u8, h =>
    cases h
    exact ⟨UInt8.toNat, UInt8.ofNat, rfl, rfl, fun v => (natToBE_one_toNat v).symm,
      fun v => v.toNat_lt, fun v => UInt8.ofNat_toNat, fun n hn => by
        rw [UInt8.toNat_ofNat']; exact Nat.mod_eq_of_lt hn⟩
  | .u16, h =>
    cases h
    exact ⟨UInt16.toNat, UInt16.ofNat, rfl, rfl, fun v => be_eq_natToBE _ _,
      fun v => v.toNat_lt, fun v => UInt16.ofNat_toNat, fun n hn => by
        rw [UInt16.toNat_ofNat']; exact Nat.mod_eq_of_lt hn⟩
  | .u32, h =>
    cases h
    exact ⟨UInt32.toNat, UInt32.ofNat, rfl, rfl, fun v => be_eq_natToBE _ _,
      fun v => v.toNat_lt, fun v => UInt32.ofNat_toNat, fun n hn => by
        rw [UInt32.toNat_ofNat']; exact Nat.mod_eq_of_lt hn⟩
  | .u64, h =>
    cases h
    exact ⟨UInt64.toNat, UInt64.ofNat, rfl, rfl, fun v => be_eq_natToBE _ _,
      fun v => v.toNat_lt, fun v => UInt64.ofNat_toNat, fun n hn => by
        rw [UInt64.toNat_ofNat']; exact Nat.mod_eq_of_lt hn⟩
  | .i8, h =>
    cases h
    refine ⟨fun v : Int8 => v.toBitVec.toNat, _, rfl, rfl, fun v => ?_,
      fun v => v.toBitVec.isLt, fun v => ?_, fun n hn => ?_⟩
    · exact (congrArg (be 1) (toInt_emod_toNat (Int8.toBitVec v))).trans (be_eq_natToBE _ _)
    · show Int8.ofBitVec _ = _
      rw [BitVec.ofNat_toNat, BitVec.setWidth_eq]; rfl
    · show (BitVec.ofNat 8 n).toNat = n
      rw [BitVec.toNat_ofNat]; exact Nat.mod_eq_of_lt hn
  | .i16, h =>
    cases h
    refine ⟨fun v : Int16 => v.toBitVec.toNat, _, rfl, rfl, fun v => ?_,
      fun v => v.toBitVec.isLt, fun v => ?_, fun n hn => ?_⟩
    · exact (congrArg (be 2) (toInt_emod_toNat (Int16.toBitVec v))).trans (be_eq_natToBE _ _)
    · show Int16.ofBitVec _ = _
      rw [BitVec.ofNat_toNat, BitVec.setWidth_eq]; rfl
    · show (BitVec.ofNat 16 n).toNat = n
      rw [BitVec.toNat_ofNat]; exact Nat.mod_eq_of_lt hn
  | .i32, h =>
    cases h
    refine ⟨fun v : Int32 => v.toBitVec.toNat, _, rfl, rfl, fun v => ?_,
      fun v => v.toBitVec.isLt, fun v => ?_, fun n hn => ?_⟩
    · exact (congrArg (be 4) (toInt_emod_toNat (Int32.toBitVec v))).trans (be_eq_natToBE _ _)
    · show Int32.ofBitVec _ = _
      rw [BitVec.ofNat_toNat, BitVec.setWidth_eq]; rfl
    · show (BitVec.ofNat 32 n).toNat = n
      rw [BitVec.toNat_ofNat]; exact Nat.mod_eq_of_lt hn
  | .i64, h =>
    cases h
    refine ⟨fun v : Int64 => v.toBitVec.toNat, _, rfl, rfl, fun v => ?_,
      fun v => v.toBitVec.isLt, fun v => ?_, fun n hn => ?_⟩
    · exact (congrArg (be 8) (toInt_emod_toNat (Int64.toBitVec v))).trans (be_eq_natToBE _ _)
    · show Int64.ofBitVec _ = _
      rw [BitVec.ofNat_toNat, BitVec.setWidth_eq]; rfl
    · show (BitVec.ofNat 64 n).toNat = n
      rw [BitVec.toNat_ofNat]; exact Nat.mod_eq_of_lt hn
  | .f32, h =>
    cases h
    refine ⟨fun v : BitVec 32 => v.toNat, _, rfl, rfl, fun v => be_eq_natToBE _ _,
      fun v => v.isLt, fun v => ?_, fun n hn => ?_⟩
    · exact BitVec.ofNat_toNat 32 (v : BitVec 32) |>.trans (BitVec.setWidth_eq _)
    · show (BitVec.ofNat 32 n).toNat = n
      rw [BitVec.toNat_ofNat]; exact Nat.mod_eq_of_lt hn
  | .f64, h =>
    cases h
    refine ⟨fun v : BitVec 64 => v.toNat, _, rfl, rfl, fun v => be_eq_natToBE _ _,
      fun v => v.isLt, fun v => ?_, fun n hn => ?_⟩
    · exact BitVec.ofNat_toNat 64 (v : BitVec 64) |>.trans (BitVec.setWidth_eq _)
    · show (BitVec.ofNat 64 n).toNat = n
      rw [BitVec.toNat_ofNat]; exact Nat.mod_eq_of_lt hn

/-- **C01.** A number of `k` bytes is written as its `k` big-endian bytes (`wire`), appended to
the buffer, reported as `k`, and read back from in front of any other bytes. -/
theorem C01_numbers_big_endian (host : Endian) (t : Ty) (k : Nat) (hk : numWidth t = some k)
    (v : t.Val) (d rest : Bytes) :
    t.ser.serialize v ⟨d, none⟩ = (.ok k, ⟨d ++ wire t v, none⟩) ∧
    (wire t v).length = k ∧
    t.de host (wire t v ++ rest) = (.ok v, rest) := by
  obtain ⟨f, g, hs, hd, hw, hlt, hgf, _⟩ := num_shape host t k hk
  refine ⟨?_, by simp [hw], ?_⟩
  · have := (Ser.good_prim k f v).grow d
    rw [hs, this, hw]
    simp
  · rw [hw, hd, Dec.prim_natToBE, Nat.mod_eq_of_lt (hlt v), hgf]

example : wire .u32 (0x01020304 : UInt32) = [1, 2, 3, 4] := by decide
example : wire .i16 (-2 : Int16) = [0xff, 0xfe] := by decide
example : numWidth .f64 = some 8 := rfl

/-- **C01.** Conversely every `k` bytes are the encoding of exactly the number they decode to. -/
theorem C01_numbers_cover (host : Endian) (t : Ty) (k : Nat) (hk : numWidth t = some k)
    (bs : Bytes) (hb : bs.length = k) (rest : Bytes) :
    ∃ v, t.de host (bs ++ rest) = (.ok v, rest) ∧ wire t v = bs := by
  obtain ⟨f, g, hs, hd, hw, hlt, hgf, hfg⟩ := num_shape host t k hk
  refine ⟨g (beToNat bs), ?_, ?_⟩
  · rw [hd, Dec.prim_append k g bs rest hb]
  · have := beToNat_lt bs
    rw [hb] at this
    rw [hw, hfg _ this, ← hb, natToBE_beToNat]

example : ∃ v, (Ty.i32).de .big ([0xff, 0xff, 0xff, 0xfe] ++ [7]) = (.ok v, [7]) ∧
    wire .i32 v = [0xff, 0xff, 0xff, 0xfe] :=
  C01_numbers_cover .big .i32 4 rfl _ rfl _

/-- **C02.** Reading a number of `k` bytes: with fewer bytes left, `InsufficientData` with the
exact sizes and an untouched buffer; otherwise success, consuming exactly `k` bytes. -/
theorem C02_short_read (host : Endian) (t : Ty) (k : Nat) (hk : numWidth t = some k) (b : Bytes) :
    (b.length < k → t.de host b = (.err (.insufficientData k b.length), b)) ∧
    (k ≤ b.length → ∃ v, t.de host b = (.ok v, b.drop k)) := by
  obtain ⟨f, g, hs, hd, _⟩ := num_shape host t k hk
  rw [hd]
  constructor
  · exact fun h => Dec.prim_short g h
  · intro h
    rw [Dec.prim_apply, if_neg (by omega)]
    exact ⟨_, rfl⟩

example : (Ty.u32).de .little [1, 2, 3] = (.err (.insufficientData 4 3), [1, 2, 3]) :=
  (C02_short_read .little .u32 4 rfl [1, 2, 3]).1 (by decide)

/-- **C03.** `true` is the byte 1 and `false` the byte 0. -/
theorem C03_bool_encode (v : Bool) (d : Bytes) :
    Ser.bool.serialize v ⟨d, none⟩ = (.ok 1, ⟨d ++ [if v then 1 else 0], none⟩) :=
  (Ser.good_bool v).grow d

/-- **C03.** Every byte decodes to a boolean: its lowest bit. Only an empty buffer fails. -/
theorem C03_bool_decode (x : UInt8) (rest : Bytes) :
    Dec.bool (x :: rest) = (.ok (decide (x.toNat % 2 = 1)), rest) := by
  rw [Dec.bool_apply, if_neg (by simp)]
  simp only [List.take_succ_cons, List.take_zero, List.drop_succ_cons, List.drop_zero]
  have hx : beToNat [x] = x.toNat := by simp [beToNat]
  rw [hx, UInt8.ofNat_toNat]
  congr 2
  have h : (x &&& 1).toNat = x.toNat % 2 := by
    rw [UInt8.toNat_and]; exact Nat.and_one_is_mod _
  by_cases hm : x.toNat % 2 = 1
  · have : x &&& 1 = 1 := UInt8.toNat_inj.mp (by rw [h, hm]; rfl)
    simp [this, hm]
  · have : x &&& 1 ≠ 1 := fun he => hm (by rw [← h, he]; rfl)
    simp [this, hm]

/-- **C03.** Encoding then decoding is the identity and preserves what follows. -/
theorem C03_bool_round_trip (v : Bool) (rest : Bytes) :
    Dec.bool ([if v then 1 else 0] ++ rest) = (.ok v, rest) := Dec.reads_bool v rest

/-- **C03.** The empty buffer is reported exactly. -/
theorem C03_bool_empty : Dec.bool [] = (.err (.insufficientData 1 0), []) := rfl

example : Dec.bool [0xfe, 9] = (.ok false, [9]) := C03_bool_decode 0xfe [9]

end Rsomeip
