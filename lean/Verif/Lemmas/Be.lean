import Verif.Bytes.Codec
import Mathlib.Tactic.Ring

/-! Lemmas about big-endian numbers. -/

namespace Rsomeip

@[simp] theorem natToBE_length (k n : Nat) : (natToBE k n).length = k := by
  induction k with
  | zero => rfl
  | succ k ih => simp [natToBE, ih]

theorem foldl_be (bs : Bytes) (acc : Nat) :
    bs.foldl (fun acc b => acc * 256 + b.toNat) acc = acc * 256 ^ bs.length + beToNat bs := by
  induction bs generalizing acc with
  | nil => simp [beToNat]
  | cons b bs ih =>
    simp only [List.foldl_cons, beToNat, List.length_cons]
    rw [ih, ih (0 * 256 + b.toNat)]
    ring

@[simp] theorem beToNat_nil : beToNat [] = 0 := rfl

theorem beToNat_cons (b : UInt8) (bs : Bytes) :
    beToNat (b :: bs) = b.toNat * 256 ^ bs.length + beToNat bs := by
  conv_lhs => rw [beToNat, List.foldl_cons, foldl_be]
  simp

theorem beToNat_lt (bs : Bytes) : beToNat bs < 256 ^ bs.length := by
  induction bs with
  | nil => simp
  | cons b bs ih =>
    rw [beToNat_cons, List.length_cons, Nat.pow_succ]
    have hb : b.toNat < 256 := b.toNat_lt
    have : b.toNat * 256 ^ bs.length + 256 ^ bs.length ≤ 256 ^ bs.length * 256 := by
      rw [← Nat.succ_mul, Nat.mul_comm]
      exact Nat.mul_le_mul_left _ hb
    omega

theorem beToNat_natToBE (k n : Nat) : beToNat (natToBE k n) = n % 256 ^ k := by
  induction k with
  | zero => simp [natToBE, Nat.mod_one]
  | succ k ih =>
    have h := Nat.mod_mul (x := n) (a := 256 ^ k) (b := 256)
    rw [natToBE, beToNat_cons, natToBE_length, ih, UInt8.toNat_ofNat', pow_succ 256 k, h,
      Nat.mul_comm]
    simp only [Nat.reducePow]
    omega

theorem natToBE_add_mul (k n m : Nat) : natToBE k (n + m * 256 ^ k) = natToBE k n := by
  induction k generalizing m with
  | zero => rfl
  | succ k ih =>
    rw [natToBE, natToBE]
    have h1 : n + m * 256 ^ (k + 1) = n + (m * 256) * 256 ^ k := by ring
    rw [h1, ih]
    congr 1
    rw [Nat.add_mul_div_right _ _ (Nat.pow_pos (by omega))]
    apply UInt8.toNat_inj.mp
    simp

theorem natToBE_beToNat (bs : Bytes) : natToBE bs.length (beToNat bs) = bs := by
  induction bs with
  | nil => rfl
  | cons b bs ih =>
    rw [List.length_cons, natToBE, beToNat_cons]
    congr 1
    · rw [Nat.add_comm, Nat.add_mul_div_right _ _ (Nat.pow_pos (by omega)),
        Nat.div_eq_of_lt (beToNat_lt bs)]
      simp
    · rw [Nat.add_comm, natToBE_add_mul, ih]

theorem natToBE_injective {k n m : Nat} (hn : n < 256 ^ k) (hm : m < 256 ^ k)
    (h : natToBE k n = natToBE k m) : n = m := by
  have := congrArg beToNat h
  rwa [beToNat_natToBE, beToNat_natToBE, Nat.mod_eq_of_lt hn, Nat.mod_eq_of_lt hm] at this

end Rsomeip
