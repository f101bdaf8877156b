import Verif.Bytes.Utf
import Mathlib.Tactic.Common

/-! The UTF-8 and UTF-16 decoders accept exactly the encoders' outputs. -/

namespace Rsomeip

theorem char_bounds (c : Char) : c.toNat < 0xd800 ∨ (0xdfff < c.toNat ∧ c.toNat < 0x110000) := by
  rcases c.valid with h | ⟨h1, h2⟩
  · exact Or.inl h
  · exact Or.inr ⟨h1, h2⟩

theorem char_ofNat_toNat {n : Nat} (h : n < 0xd800 ∨ (0xdfff < n ∧ n < 0x110000)) :
    (Char.ofNat n).toNat = n := by
  have hv : n.isValidChar := h
  simp only [Char.ofNat, hv, dif_pos]
  rfl

theorem ofNat_toNat8 (n : Nat) (h : n < 256) : (UInt8.ofNat n).toNat = n := by
  rw [UInt8.toNat_ofNat']; exact Nat.mod_eq_of_lt h

theorem ofNat_toNat16 (n : Nat) (h : n < 65536) : (UInt16.ofNat n).toNat = n := by
  rw [UInt16.toNat_ofNat']; exact Nat.mod_eq_of_lt h

theorem utf8Step_encode (c : Char) (r : Bytes) : utf8Step (utf8EncodeChar c ++ r) = some (c, r) := by
  have hb := char_bounds c
  generalize hv : c.toNat = v at hb
  have hc : Char.ofNat v = c := by rw [← hv]; exact Char.ofNat_toNat c
  unfold utf8EncodeChar
  simp only [hv]
  by_cases h1 : v < 0x80
  · simp [h1, utf8Step, Nat.mod_eq_of_lt (show v < 256 by omega), hc]
  · by_cases h2 : v < 0x800
    · simp only [h1, h2, if_false, if_true, List.cons_append, List.nil_append]
      generalize g0 : UInt8.ofNat (0xc0 + v / 64) = b0
      generalize g1 : UInt8.ofNat (0x80 + v % 64) = b1
      replace g0 := (congrArg UInt8.toNat g0).symm.trans (ofNat_toNat8 _ (by omega))
      replace g1 := (congrArg UInt8.toNat g1).symm.trans (ofNat_toNat8 _ (by omega))
      simp only [utf8Step]
      rw [if_neg (by omega), if_pos]
      · have : (b0.toNat - 0xc0) * 64 + (b1.toNat - 0x80) = v := by omega
        rw [this, hc]
      · simp only [inRange, Bool.and_eq_true, decide_eq_true_eq]
        omega
    · by_cases h3 : v < 0x10000
      · simp only [h1, h2, h3, if_false, if_true, List.cons_append, List.nil_append]
        generalize g0 : UInt8.ofNat (0xe0 + v / 4096) = b0
        generalize g1 : UInt8.ofNat (0x80 + v / 64 % 64) = b1
        generalize g2 : UInt8.ofNat (0x80 + v % 64) = b2
        replace g0 := (congrArg UInt8.toNat g0).symm.trans (ofNat_toNat8 _ (by omega))
        replace g1 := (congrArg UInt8.toNat g1).symm.trans (ofNat_toNat8 _ (by omega))
        replace g2 := (congrArg UInt8.toNat g2).symm.trans (ofNat_toNat8 _ (by omega))
        simp only [utf8Step]
        rw [if_neg (by omega), if_neg, if_pos]
        · have : (b0.toNat - 0xe0) * 4096 + (b1.toNat - 0x80) * 64 + (b2.toNat - 0x80) = v := by
            omega
          rw [this, hc]
        · simp only [inRange, Bool.and_eq_true, Bool.or_eq_true, decide_eq_true_eq, beq_iff_eq]
          omega
        · simp only [inRange, Bool.and_eq_true, decide_eq_true_eq]
          omega
      · simp only [h1, h2, h3, if_false, List.cons_append, List.nil_append]
        generalize g0 : UInt8.ofNat (0xf0 + v / 262144) = b0
        generalize g1 : UInt8.ofNat (0x80 + v / 4096 % 64) = b1
        generalize g2 : UInt8.ofNat (0x80 + v / 64 % 64) = b2
        generalize g3 : UInt8.ofNat (0x80 + v % 64) = b3
        replace g0 := (congrArg UInt8.toNat g0).symm.trans (ofNat_toNat8 _ (by omega))
        replace g1 := (congrArg UInt8.toNat g1).symm.trans (ofNat_toNat8 _ (by omega))
        replace g2 := (congrArg UInt8.toNat g2).symm.trans (ofNat_toNat8 _ (by omega))
        replace g3 := (congrArg UInt8.toNat g3).symm.trans (ofNat_toNat8 _ (by omega))
        simp only [utf8Step]
        rw [if_neg (by omega), if_neg, if_neg, if_pos]
        · have : (b0.toNat - 0xf0) * 262144 + (b1.toNat - 0x80) * 4096 + (b2.toNat - 0x80) * 64
              + (b3.toNat - 0x80) = v := by
            omega
          rw [this, hc]
        · simp only [inRange, Bool.and_eq_true, Bool.or_eq_true, decide_eq_true_eq, beq_iff_eq]
          omega
        · simp only [inRange, Bool.and_eq_true, Bool.or_eq_true, decide_eq_true_eq, beq_iff_eq]
          omega
        · simp only [inRange, Bool.and_eq_true, decide_eq_true_eq]
          omega

theorem ofNat_eq_of_toNat (b : UInt8) (n : Nat) (h : n = b.toNat) : UInt8.ofNat n = b := by
  subst h; exact UInt8.ofNat_toNat

theorem utf8Step_sound (bs : Bytes) (c : Char) (r : Bytes) (h : utf8Step bs = some (c, r)) :
    bs = utf8EncodeChar c ++ r := by
  unfold utf8Step at h
  split at h
  · rename_i b0 r0
    split at h
    · rename_i h0
      simp only [Option.some.injEq, Prod.mk.injEq] at h
      obtain ⟨rfl, rfl⟩ := h
      unfold utf8EncodeChar
      rw [char_ofNat_toNat (by omega), if_pos h0]
      simp
    · rename_i h0
      split at h
      · rename_i b1 r1
        split at h
        · rename_i h1
          simp only [Option.some.injEq, Prod.mk.injEq] at h
          obtain ⟨rfl, rfl⟩ := h
          simp only [inRange, Bool.and_eq_true, decide_eq_true_eq] at h1
          unfold utf8EncodeChar
          rw [char_ofNat_toNat (by omega)]
          simp only
          rw [if_neg (by omega), if_pos (by omega), ofNat_eq_of_toNat b0 _ (by omega),
            ofNat_eq_of_toNat b1 _ (by omega)]
          rfl
        · split at h
          · rename_i b2 r2
            split at h
            · rename_i h2
              simp only [Option.some.injEq, Prod.mk.injEq] at h
              obtain ⟨rfl, rfl⟩ := h
              simp only [inRange, Bool.and_eq_true, Bool.or_eq_true, decide_eq_true_eq,
                beq_iff_eq] at h2
              unfold utf8EncodeChar
              rw [char_ofNat_toNat (by omega)]
              simp only
              rw [if_neg (by omega), if_neg (by omega), if_pos (by omega),
                ofNat_eq_of_toNat b0 _ (by omega),
                ofNat_eq_of_toNat b1 _ (by omega), ofNat_eq_of_toNat b2 _ (by omega)]
              rfl
            · split at h
              · rename_i b3 r3
                split at h
                · rename_i h2
                  simp only [Option.some.injEq, Prod.mk.injEq] at h
                  obtain ⟨rfl, rfl⟩ := h
                  simp only [inRange, Bool.and_eq_true, Bool.or_eq_true, decide_eq_true_eq,
                    beq_iff_eq] at h2
                  unfold utf8EncodeChar
                  rw [char_ofNat_toNat (by omega)]
                  simp only
                  rw [if_neg (by omega), if_neg (by omega), if_neg (by omega),
                    ofNat_eq_of_toNat b0 _ (by omega),
                    ofNat_eq_of_toNat b1 _ (by omega), ofNat_eq_of_toNat b2 _ (by omega),
                    ofNat_eq_of_toNat b3 _ (by omega)]
                  rfl
                · simp at h
              · simp at h
          · simp at h
      · simp at h
  · simp at h

theorem utf8EncodeChar_length_pos (c : Char) : 0 < (utf8EncodeChar c).length := by
  unfold utf8EncodeChar
  simp only
  split_ifs <;> simp

theorem utf8Decode_encode (s : List Char) : utf8Decode (utf8Encode s) = some s := by
  induction s with
  | nil => unfold utf8Decode; simp [utf8Encode]
  | cons c s ih =>
    have hpos := utf8EncodeChar_length_pos c
    have e : utf8Encode (c :: s) = utf8EncodeChar c ++ utf8Encode s := by simp [utf8Encode]
    unfold utf8Decode
    rw [e]
    rw [if_neg, utf8Step_encode]
    · simp [hpos, ih]
    · intro h
      have := congrArg List.length h
      rw [List.length_append, List.length_nil] at this
      omega

theorem utf8Decode_sound (bs : Bytes) (s : List Char) (h : utf8Decode bs = some s) :
    bs = utf8Encode s := by
  induction hn : bs.length using Nat.strongRecOn generalizing bs s with
  | _ n ih =>
    unfold utf8Decode at h
    split at h
    · rename_i h0
      simp only [Option.some.injEq] at h
      subst h; subst h0; rfl
    · split at h
      · rename_i c r hs
        split at h
        · rename_i hlt
          simp only [Option.map_eq_some_iff] at h
          obtain ⟨s', hs', rfl⟩ := h
          have := ih r.length (by omega) r s' hs' rfl
          rw [utf8Step_sound bs c r hs, this]
          simp [utf8Encode]
        · simp at h
      · simp at h

/-- `String::from_utf8` accepts exactly what `str::as_bytes` produces. -/
theorem utf8Decode_iff (bs : Bytes) (s : List Char) :
    utf8Decode bs = some s ↔ bs = utf8Encode s :=
  ⟨utf8Decode_sound bs s, fun h => h ▸ utf8Decode_encode s⟩

theorem utf8EncodeChar_zero (c : Char) (h : (0 : UInt8) ∈ utf8EncodeChar c) : c = '\x00' := by
  have hb := char_bounds c
  have key : ∀ n : Nat, n < 256 → (0 : UInt8) = UInt8.ofNat n → n = 0 := by
    intro n hn h
    have := congrArg UInt8.toNat h
    rw [ofNat_toNat8 n hn] at this
    exact this.symm
  have hz : c.toNat = 0 := by
    unfold utf8EncodeChar at h
    simp only at h
    split_ifs at h <;> simp only [List.mem_cons, List.not_mem_nil, or_false] at h
    · exact key _ (by omega) h
    · rcases h with h | h
      · have := key _ (by omega) h; omega
      · have := key _ (by omega) h; omega
    · rcases h with h | h | h
      · have := key _ (by omega) h; omega
      · have := key _ (by omega) h; omega
      · have := key _ (by omega) h; omega
    · rcases h with h | h | h | h
      · have := key _ (by omega) h; omega
      · have := key _ (by omega) h; omega
      · have := key _ (by omega) h; omega
      · have := key _ (by omega) h; omega
  have : Char.ofNat c.toNat = c := Char.ofNat_toNat c
  rw [hz] at this
  exact this.symm

theorem utf8Encode_noNul (s : List Char) (h : '\x00' ∉ s) : (0 : UInt8) ∉ utf8Encode s := by
  intro h0
  simp only [utf8Encode, List.mem_flatMap] at h0
  obtain ⟨c, hc, h0⟩ := h0
  exact h (utf8EncodeChar_zero c h0 ▸ hc)

theorem utf8Encode_append (s t : List Char) :
    utf8Encode (s ++ t) = utf8Encode s ++ utf8Encode t := by simp [utf8Encode]

theorem utf16Decode_encode_cons (c : Char) (us : List UInt16) :
    utf16Decode (utf16EncodeChar c ++ us) = (utf16Decode us).map (c :: ·) := by
  have hb := char_bounds c
  generalize hv : c.toNat = v at hb
  have hc : Char.ofNat v = c := by rw [← hv]; exact Char.ofNat_toNat c
  unfold utf16EncodeChar
  simp only [hv]
  by_cases h : v < 0x10000
  · simp only [h, if_true, List.cons_append, List.nil_append]
    rw [utf16Decode.eq_def]
    simp only
    rw [ofNat_toNat16 _ h, if_pos (by omega), hc]
  · simp only [h, if_false, List.cons_append, List.nil_append]
    rw [utf16Decode.eq_def]
    simp only
    rw [ofNat_toNat16 _ (by omega), ofNat_toNat16 _ (by omega), if_neg (by omega),
      if_pos (by omega), if_pos (by omega)]
    have e : 0x10000 + (0xd800 + (v - 0x10000) / 1024 - 0xd800) * 1024
      + (0xdc00 + (v - 0x10000) % 1024 - 0xdc00) = v := by omega
    rw [e, hc]

theorem utf16Decode_encode (s : List Char) : utf16Decode (utf16Encode s) = some s := by
  induction s with
  | nil => rfl
  | cons c s ih =>
    have e : utf16Encode (c :: s) = utf16EncodeChar c ++ utf16Encode s := by simp [utf16Encode]
    rw [e, utf16Decode_encode_cons, ih]
    rfl

theorem ofNat_eq_of_toNat16 (b : UInt16) (n : Nat) (h : n = b.toNat) : UInt16.ofNat n = b := by
  subst h; exact UInt16.ofNat_toNat

theorem utf16Decode_sound (us : List UInt16) (s : List Char) (h : utf16Decode us = some s) :
    us = utf16Encode s := by
  induction hn : us.length using Nat.strongRecOn generalizing us s with
  | _ n ih =>
    rw [utf16Decode.eq_def] at h
    split at h
    · simp only [Option.some.injEq] at h
      subst h; rfl
    · rename_i u us'
      simp only [List.length_cons] at hn
      split at h
      · rename_i hu
        have := u.toNat_lt
        simp only [Option.map_eq_some_iff] at h
        obtain ⟨s', hs', rfl⟩ := h
        rw [ih us'.length (by omega) us' s' hs' rfl]
        simp only [utf16Encode, List.flatMap_cons, utf16EncodeChar]
        rw [char_ofNat_toNat (by omega), if_pos (by omega)]
        simp
      · split at h
        · split at h
          · simp at h
          · rename_i v vs
            split at h
            · rename_i hu hu' hv
              simp only [List.length_cons] at hn
              simp only [Option.map_eq_some_iff] at h
              obtain ⟨s', hs', rfl⟩ := h
              rw [ih vs.length (by omega) vs s' hs' rfl]
              simp only [utf16Encode, List.flatMap_cons, utf16EncodeChar]
              rw [char_ofNat_toNat (by omega), if_neg (by omega),
                ofNat_eq_of_toNat16 u _ (by omega), ofNat_eq_of_toNat16 v _ (by omega)]
              rfl
            · simp at h
        · simp at h

/-- `String::from_utf16` accepts exactly what `str::encode_utf16` produces. -/
theorem utf16Decode_iff (us : List UInt16) (s : List Char) :
    utf16Decode us = some s ↔ us = utf16Encode s :=
  ⟨utf16Decode_sound us s, fun h => h ▸ utf16Decode_encode s⟩

theorem utf16EncodeChar_zero (c : Char) (h : (0 : UInt16) ∈ utf16EncodeChar c) : c = '\x00' := by
  have hb := char_bounds c
  have key : ∀ n : Nat, n < 65536 → (0 : UInt16) = UInt16.ofNat n → n = 0 := by
    intro n hn h
    have := congrArg UInt16.toNat h
    rw [ofNat_toNat16 n hn] at this
    exact this.symm
  have hz : c.toNat = 0 := by
    unfold utf16EncodeChar at h
    simp only at h
    split_ifs at h <;> simp only [List.mem_cons, List.not_mem_nil, or_false] at h
    · exact key _ (by omega) h
    · rcases h with h | h
      · have := key _ (by omega) h; omega
      · have := key _ (by omega) h; omega
  have : Char.ofNat c.toNat = c := Char.ofNat_toNat c
  rw [hz] at this
  exact this.symm

theorem utf16Encode_noNul (s : List Char) (h : '\x00' ∉ s) : (0 : UInt16) ∉ utf16Encode s := by
  intro h0
  simp only [utf16Encode, List.mem_flatMap] at h0
  obtain ⟨c, hc, h0⟩ := h0
  exact h (utf16EncodeChar_zero c h0 ▸ hc)

theorem utf16Encode_append (s t : List Char) :
    utf16Encode (s ++ t) = utf16Encode s ++ utf16Encode t := by simp [utf16Encode]

end Rsomeip
