import Verif.Props.Resend
import Verif.Spec.Memory
import Verif.Spec.Shape

namespace Rsomeip

open Spec

namespace Dec

/-- What is decoded takes at most `f` bytes and `g` more for each byte consumed. -/
def Within {α : Type} (d : Dec α) (m : α → Nat) (f g : Nat) : Prop :=
  ∀ b v r, d b = (.ok v, r) → m v + g * r.length ≤ f + g * b.length

theorem rest_le {α : Type} {d : Dec α} (hs : d.Safe) {b : Bytes} {o : Out α} {r : Bytes}
    (h : d b = (o, r)) : r.length ≤ b.length := by
  have := (hs.suffix b).length_le
  rwa [h] at this

theorem Within.mono {α : Type} {d : Dec α} {m : α → Nat} {f g g' : Nat} (h : d.Within m f g)
    (hs : d.Safe) (hg : g ≤ g') : d.Within m f g' := by
  intro b v r hd
  have h1 := h b v r hd
  have h2 := rest_le hs hd
  obtain ⟨k, rfl⟩ := Nat.exists_eq_add_of_le hg
  have h3 : k * r.length ≤ k * b.length := Nat.mul_le_mul_left k h2
  rw [Nat.add_mul, Nat.add_mul]
  omega

theorem within_prim {α : Type} (k : Nat) (p : Nat → α) (f : Nat) : (prim k p).Within (fun _ => f) f 0 := by
  intro b v r _
  simp

theorem Within.tcons {α β : Type} {a : Dec α} {b : Dec β} {m : α → Nat} {n : β → Nat} {f f' g : Nat}
    (ha : a.Within m f g) (hb : b.Within n f' g) :
    (tcons a b).Within (fun v => m v.1 + n v.2) (f + f') g := by
  intro x v r h
  obtain ⟨y, r1, h1, h2⟩ := bind_inv h
  obtain ⟨z, r2, h3, h4⟩ := bind_inv h2
  cases h4
  have := ha _ _ _ h1
  have := hb _ _ _ h3
  simp only
  omega

theorem Within.take {α : Type} {d : Dec α} {m : α → Nat} {f g : Nat} (h : d.Within m f g) (n : Nat) :
    (Dec.take n d).Within m f g := by
  intro b v r hd
  rw [take_apply] at hd
  injection hd with h1 h2
  have h3 := h (b.take n) v (d (b.take n)).2 (Prod.ext h1 rfl)
  have h4 : b.length = (b.take n).length + (b.drop n).length := by
    rw [← List.length_append, List.take_append_drop]
  rw [← h2, List.length_append, h4, Nat.mul_add, Nat.mul_add]
  omega

theorem Within.len {α : Type} {d : Dec α} {m : α → Nat} {f g : Nat} (h : d.Within m f g)
    (l : LengthField) : (Dec.len d l).Within m f g := by
  intro b v r hd
  rw [len_apply] at hd
  split at hd
  · cases hd
  · have h1 := h.take _ _ _ _ hd
    have h2 : g * (b.drop l.width).length ≤ g * b.length :=
      Nat.mul_le_mul_left g (by rw [List.length_drop]; omega)
    omega

theorem Within.orDefault {α : Type} {d : Dec α} {m : α → Nat} {f g : Nat} (h : d.Within m f g)
    (hs : d.Safe) (x : α) (hx : m x ≤ f) : (orDefault d x).Within m f g := by
  intro b v r hd
  unfold Dec.orDefault at hd
  split at hd
  · next e r' he =>
    cases hd
    have := Nat.mul_le_mul_left g (rest_le hs he)
    omega
  · exact h _ _ _ hd

theorem Within.array {α : Type} {d : Dec α} {m : α → Nat} {f g : Nat} (h : d.Within m f g)
    (hs : d.Safe) (x : α) (hx : m x ≤ f) (n : Nat) :
    (array d x n).Within (fun vs => (vs.1.map m).sum) (n * f) g := by
  induction n with
  | zero =>
    intro b v r hd
    cases hd
    simp
  | succ n ih =>
    intro b v r hd
    obtain ⟨y, r1, h1, h2⟩ := bind_inv hd
    obtain ⟨z, r2, h3, h4⟩ := bind_inv h2
    cases h4
    have := h.orDefault hs x hx _ _ _ h1
    have h5 := ih _ _ _ h3
    simp only [List.map_cons, List.sum_cons, Nat.add_mul, Nat.one_mul] at h5 ⊢
    omega

theorem Within.vec {α : Type} {d : Dec α} {m : α → Nat} {f g : Nat} (h : d.Within m f g)
    (hd : Nat) : (vec d).Within (fun vs => hd + (vs.map m).sum) hd (f + g) := by
  intro b
  induction hn : b.length using Nat.strongRecOn generalizing b with
  | _ n ih =>
    intro v r hv
    subst hn
    by_cases hb : b = []
    · subst hb
      rw [vec_nil] at hv
      cases hv
      simp
    · rw [vec_ne d b hb] at hv
      split at hv
      · next a r1 ha =>
        split at hv
        · next hlt =>
          split at hv
          · next as r' has =>
            cases hv
            have h1 := h _ _ _ ha
            have h2 := ih _ hlt r1 rfl _ _ has
            simp only [List.map_cons, List.sum_cons] at h2 ⊢
            obtain ⟨k, hk⟩ := Nat.exists_eq_add_of_lt hlt
            rw [hk, show r1.length + k + 1 = r1.length + (k + 1) by omega, Nat.mul_add] at h1 ⊢
            simp only [Nat.add_mul, Nat.mul_add, Nat.mul_one] at h1 h2 ⊢
            omega
          · next hne => exact absurd hv (hne _ _)
        · cases hv
      all_goals cases hv

theorem text_utf8 (s : List Char) : (s.flatMap String.utf8EncodeChar).length = text s := by
  induction s with
  | nil => rfl
  | cons c s ih =>
    rw [List.flatMap_cons, List.length_append, ih, String.length_utf8EncodeChar]
    rfl

theorem units_length (e : Endian) (us : List Nat) : (us.flatMap (unit16 e)).length = 2 * us.length := by
  induction us with
  | nil => rfl
  | cons u us ih =>
    rw [List.flatMap_cons, List.length_append, ih, List.length_cons]
    cases e <;> (simp [unit16]; try omega)

theorem text_utf16 (s : List Char) : text s ≤ 3 * (s.flatMap utf16Units).length := by
  induction s with
  | nil => simp [text]
  | cons c s ih =>
    have h : c.utf8Size ≤ 3 * (utf16Units c).length := by
      have h4 := c.utf8Size_le_four
      unfold utf16Units
      split
      · next hc =>
        simp only [Char.utf8Size, List.length_singleton]
        split
        · omega
        · split
          · omega
          · split
            · omega
            · next h => exact absurd hc h
      · simp only [List.length_cons, List.length_nil]
        omega
    rw [List.flatMap_cons, List.length_append]
    simp only [text, List.map_cons, List.sum_cons] at ih ⊢
    omega

theorem within_string (host : Endian) (hd : Nat) : (string host).Within (fun s => hd + text s) hd 2 := by
  intro b s r h
  obtain ⟨r1, ⟨rfl, h1⟩ | ⟨rfl, h1⟩ | ⟨rfl, h1⟩⟩ := string_inv h
  · obtain ⟨-, rfl⟩ := utf8_inv h1
    simp only [List.length_append, text_utf8]
    omega
  · obtain ⟨-, rfl⟩ := utf16_inv .big (fun _ _ _ => unit_inv_be) h1
    have := text_utf16 s
    simp only [List.length_append, units_length]
    omega
  · have key : ∃ e, r1 = (s.flatMap utf16Units).flatMap (unit16 e) ++ ([0, 0] ++ r) := by
      cases host with
      | little => exact ⟨_, (utf16_inv .little (fun _ _ _ => unit_inv_le) h1).2⟩
      | big => exact ⟨_, (utf16_inv .big (fun _ _ _ => unit_inv_le_big) h1).2⟩
    obtain ⟨e, rfl⟩ := key
    have := text_utf16 s
    simp only [List.length_append, units_length]
    omega

theorem within_bytes (hd : Nat) : bytes.Within (fun v => hd + List.length v) hd 1 := by
  intro b v r h
  rw [bytes_apply] at h
  cases h
  simp

end Dec

theorem memory_dflt (h : Nat) : (t : Ty) → memory h t t.dflt ≤ fixedPart h t
  | .u8 | .u16 | .u32 | .u64 | .i8 | .i16 | .i32 | .i64 | .f32 | .f64 | .bool | .unit => Nat.le_refl _
  | .bytes | .utf8 | .utf16 _ | .vec _ => Nat.le_refl _
  | .array n t => by
    have := memory_dflt h t
    simp only [memory, fixedPart, Ty.dflt, List.map_replicate, List.sum_replicate_nat]
    exact Nat.mul_le_mul_left n this
  | .pair a b => Nat.add_le_add (memory_dflt h a) (memory_dflt h b)
  | .len _ t => memory_dflt h t

theorem within (host : Endian) (h : Nat) : (t : Ty) →
    (t.de host).Within (memory h t) (fixedPart h t) (growth h t)
  | .u8 | .u16 | .u32 | .u64 | .i8 | .i16 | .i32 | .i64 | .f32 | .f64 => Dec.within_prim _ _ _
  | .bool => fun _ _ _ _ => by simp [memory, fixedPart, growth]
  | .unit => fun _ _ _ _ => by simp [memory, fixedPart, growth]
  | .bytes => Dec.within_bytes h
  | .utf8 => Dec.within_string host h
  | .utf16 _ => Dec.within_string host h
  | .vec t => (within host h t).vec h
  | .array n t => (within host h t).array (t.de_safe host) t.dflt (memory_dflt h t) n
  | .pair a b => Dec.Within.tcons ((within host h a).mono (a.de_safe host) (Nat.le_max_left _ _))
      ((within host h b).mono (b.de_safe host) (Nat.le_max_right _ _))
  | .len l t => (within host h t).len l

/-- **C109.** A value takes no more memory than what every value of its type takes and a constant,
which depends on nothing but the type, for each byte consumed. -/
theorem C109_memory (host : Endian) (h : Nat) (t : Ty) (consumed rest : Bytes) (v : t.Val)
    (hd : t.de host (consumed ++ rest) = (.ok v, rest)) :
    memory h t v ≤ fixedPart h t + growth h t * consumed.length := by
  have := within host h t _ _ _ hd
  rw [List.length_append, Nat.mul_add] at this
  omega

/-- Two strings, the first of three bytes made from two of UTF-16, and a number. -/
example : (Ty.vec (.pair (.utf16 .big) .u16)).de .little
      [0xfe, 0xff, 0x20, 0xac, 0, 0, 0, 1, 0xef, 0xbb, 0xbf, 0x41, 0, 0, 2] =
    (.ok [(['€'], (1 : UInt16)), (['A'], (2 : UInt16))], []) ∧
    memory 24 (.vec (.pair (.utf16 .big) .u16)) [(['€'], (1 : UInt16)), (['A'], (2 : UInt16))] =
      24 + 29 + 27 ∧
    fixedPart 24 (.vec (.pair (.utf16 .big) .u16)) = 24 ∧
    growth 24 (.vec (.pair (.utf16 .big) .u16)) = 28 := by decide +kernel

/-- **C109.** A `Vec` has at most as many elements as it has bytes of data, whatever the element
type. -/
theorem C109_elements (host : Endian) (t : Ty) (consumed rest : Bytes) (vs : List t.Val)
    (hd : (Ty.vec t).de host (consumed ++ rest) = (.ok vs, rest)) : vs.length ≤ consumed.length := by
  have h : (t.de host).Within (fun _ => 1) 1 0 := fun _ _ _ _ => by simp
  have := h.vec 0 _ _ _ hd
  simp only [List.length_append, List.map_const', List.sum_replicate_nat] at this
  omega

/-- Two elements from four bytes. -/
example : (Ty.vec (.array 3 .u8)).de .little [7, 8, 9, 1] =
    (.ok [(⟨[7, 8, 9], rfl⟩ : Arr UInt8 3), (⟨[1, 0, 0], rfl⟩ : Arr UInt8 3)], []) := by decide +kernel

/-- **C109.** The constant has to depend on the type: one byte of data is enough for a value of any
size. -/
theorem C109_one_byte (host : Endian) (h n : Nat) (x : UInt8) :
    ∃ v, (Ty.vec (.array (n + 1) .u8)).de host [x] = (.ok v, []) ∧
      memory h (.vec (.array (n + 1) .u8)) v = h + (n + 1) := by
  obtain ⟨vs, hvs⟩ := Dec.array_stuck (d := Dec.u8) (Dec.safe_prim 1 _) (Dec.total_prim 1 _) 0 n []
    (Or.inr rfl)
  let v : Arr UInt8 (n + 1) := ⟨x :: vs.1, by simp [vs.2]⟩
  have h1 : Dec.array Dec.u8 0 (n + 1) [x] = (.ok v, []) := by
    show (Dec.orDefault Dec.u8 0 >>= _) [x] = _
    have h0 : Dec.u8 [x] = (.ok x, []) := by
      have := Dec.prim_append 1 UInt8.ofNat [x] [] rfl
      rw [List.append_nil] at this
      exact this.trans (by simp [beToNat])
    have h2 : Dec.orDefault Dec.u8 0 [x] = (.ok x, []) := by
      unfold Dec.orDefault
      rw [h0]
    rw [Dec.bind_ok h2, Dec.bind_ok hvs]
    rfl
  refine ⟨[v], ?_, ?_⟩
  · show Dec.vec (Dec.array Dec.u8 0 (n + 1)) [x] = _
    rw [Dec.vec_ne _ _ (by simp), h1]
    simp only [List.length_nil, List.length_singleton, Nat.zero_lt_one, if_true, Dec.vec_nil]
    rfl
  · have h3 : memory h (.array (n + 1) .u8) v = n + 1 := by
      show (List.map (fun _ => 1) (x :: vs.1)).sum = n + 1
      rw [List.map_const', List.sum_replicate_nat, List.length_cons, vs.2, Nat.mul_one]
    show h + (memory h (.array (n + 1) .u8) v + 0) = _
    rw [h3]

end Rsomeip
