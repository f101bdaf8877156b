import Verif.Lemmas.RoundTrip

/-! Inversion lemmas for string decoding. -/

namespace Rsomeip

open Spec

namespace Dec

theorem prim_inv {α : Type} {k : Nat} {f : Nat → α} {b : Bytes} {v : α} {r : Bytes}
    (h : prim k f b = (.ok v, r)) :
    ∃ bs, bs.length = k ∧ b = bs ++ r ∧ v = f (beToNat bs) := by
  rw [prim_apply] at h
  split at h
  · cases h
  · injection h with h1 h2
    refine ⟨b.take k, by simp; omega, ?_, ?_⟩
    · rw [← h2, List.take_append_drop]
    · injection h1 with h1
      exact h1.symm

theorem u8_inv {b : Bytes} {v : UInt8} {r : Bytes} (h : u8 b = (.ok v, r)) : b = [v] ++ r := by
  obtain ⟨bs, hl, hb, hv⟩ := prim_inv h
  match bs, hl with
  | [x], _ =>
    have : v = x := by rw [hv]; simp [beToNat]
    rw [this]; exact hb

theorem u16_inv {b : Bytes} {v : UInt16} {r : Bytes} (h : u16 b = (.ok v, r)) :
    b = be 2 v.toNat ++ r := by
  obtain ⟨bs, hl, hb, hv⟩ := prim_inv h
  have hlt := beToNat_lt bs
  rw [hl] at hlt
  have : v.toNat = beToNat bs := by
    rw [hv, UInt16.toNat_ofNat']; exact Nat.mod_eq_of_lt (by simpa using hlt)
  rw [hb, this, be_eq_natToBE]
  have := natToBE_beToNat bs
  rw [hl] at this
  rw [this]

theorem swap_unit (v : UInt16) : be 2 v.toNat = unit16 .little (swapBytes v).toNat := by
  have hlt := v.toNat_lt
  simp only [unit16, be_eq_natToBE, natToBE, swapBytes]
  rw [ofNat_toNat16 _ (by omega)]
  simp
  have e2 : (v.toNat % 256 * 256 + v.toNat / 256) / 256 = v.toNat % 256 := by omega
  rw [e2]
  apply UInt8.toNat_inj.mp
  simp

theorem unit_inv_be {host : Endian} {b : Bytes} {v : UInt16} {r : Bytes}
    (h : utf16Unit host true b = (.ok v, r)) : b = unit16 .big v.toNat ++ r := u16_inv h

theorem unit_inv_le {b : Bytes} {v : UInt16} {r : Bytes}
    (h : utf16Unit .little false b = (.ok v, r)) : b = unit16 .little v.toNat ++ r := by
  simp only [utf16Unit, Bool.false_eq_true, if_false] at h
  rw [bind_apply] at h
  split at h
  · rename_i u r' heq
    simp only [pure_apply, Prod.mk.injEq, Out.ok.injEq] at h
    rw [u16_inv heq, swap_unit, ← h.1, ← h.2]
    rfl
  all_goals cases h

theorem unit_inv_le_big {b : Bytes} {v : UInt16} {r : Bytes}
    (h : utf16Unit .big false b = (.ok v, r)) : b = unit16 .big v.toNat ++ r := by
  simp only [utf16Unit, Bool.false_eq_true, if_false] at h
  rw [bind_apply] at h
  split at h
  · rename_i u r' heq
    simp only [pure_apply, Prod.mk.injEq, Out.ok.injEq, fromBe] at h
    rw [u16_inv heq, ← h.1, ← h.2]
    rfl
  all_goals cases h

theorem untilZero_inv {α : Type} [DecidableEq α] {zero : α} {rd : Dec α} (f : α → Bytes)
    (h : ∀ b v r, rd b = (.ok v, r) → b = f v ++ r) (acc : List α) (b : Bytes) (out : List α)
    (r : Bytes) (hz : untilZero zero rd acc b = (.ok out, r)) :
    ∃ xs, out = acc ++ xs ∧ zero ∉ xs ∧ b = xs.flatMap f ++ (f zero ++ r) := by
  induction hn : b.length using Nat.strongRecOn generalizing b acc with
  | _ n ih =>
    rw [untilZero_eq] at hz
    split at hz
    · rename_i v r1 heq
      have hb := h _ _ _ heq
      split at hz
      · rename_i hv
        cases hz
        exact ⟨[], by simp, by simp, by rw [← hv]; simpa using hb⟩
      · rename_i hv
        split at hz
        · rename_i hlt
          obtain ⟨xs, h1, h2, h3⟩ := ih r1.length (by omega) (acc ++ [v]) r1 hz rfl
          refine ⟨v :: xs, by simp [h1], ?_, ?_⟩
          · simp only [List.mem_cons, not_or]
            exact ⟨fun e => hv e.symm, h2⟩
          · rw [List.flatMap_cons, List.append_assoc, ← h3]; exact hb
        · cases hz
    all_goals cases hz

theorem nul_mem_utf8 {s : List Char} (h : '\x00' ∈ s) : (0 : UInt8) ∈ utf8Encode s := by
  simp only [utf8Encode, List.mem_flatMap]
  exact ⟨_, h, by decide⟩

theorem nul_mem_utf16 {s : List Char} (h : '\x00' ∈ s) : (0 : UInt16) ∈ utf16Encode s := by
  simp only [utf16Encode, List.mem_flatMap]
  exact ⟨_, h, by decide⟩

theorem utf8_inv {b : Bytes} {s : List Char} {r : Bytes} (h : utf8 b = (.ok s, r)) :
    '\x00' ∉ s ∧ b = [0xbf] ++ (s.flatMap String.utf8EncodeChar ++ ([0] ++ r)) := by
  unfold utf8 at h
  rw [bind_apply] at h
  split at h
  · rename_i bom r1 heq
    have hb := u8_inv heq
    split at h
    · cases h
    · rename_i hbom
      have hbom : bom = 0xbf := by simpa using hbom
      rw [bind_apply] at h
      split at h
      · rename_i raw r2 heq2
        obtain ⟨xs, h1, h2, h3⟩ := untilZero_inv (fun x => [x]) (fun b v r => u8_inv) [] r1 raw r2 heq2
        rw [List.nil_append] at h1
        subst h1
        cases hs : utf8Decode raw with
        | none => rw [hs] at h; cases h
        | some s' =>
          rw [hs] at h
          simp only [pure_apply, Prod.mk.injEq, Out.ok.injEq] at h
          obtain ⟨rfl, rfl⟩ := h
          have henc := (utf8Decode_iff _ _).mp hs
          subst henc
          refine ⟨fun hm => h2 (nul_mem_utf8 hm), ?_⟩
          rw [hb, hbom, h3, flatMap_singleton, utf8Encode_eq]
      all_goals cases h
  all_goals cases h

theorem utf16_inv {host : Endian} {isBe : Bool} (e : Endian)
    (hu : ∀ b v r, utf16Unit host isBe b = (.ok v, r) → b = unit16 e v.toNat ++ r)
    {b : Bytes} {s : List Char} {r : Bytes} (h : utf16 host isBe b = (.ok s, r)) :
    '\x00' ∉ s ∧ b = (s.flatMap utf16Units).flatMap (unit16 e) ++ ([0, 0] ++ r) := by
  unfold utf16 at h
  rw [bind_apply] at h
  split at h
  · rename_i raw r2 heq2
    obtain ⟨xs, h1, h2, h3⟩ := untilZero_inv (fun u : UInt16 => unit16 e u.toNat) hu [] b raw r2 heq2
    rw [List.nil_append] at h1
    subst h1
    cases hs : utf16Decode raw with
    | none => rw [hs] at h; cases h
    | some s' =>
      rw [hs] at h
      simp only [pure_apply, Prod.mk.injEq, Out.ok.injEq] at h
      obtain ⟨rfl, rfl⟩ := h
      have henc := (utf16Decode_iff _ _).mp hs
      subst henc
      refine ⟨fun hm => h2 (nul_mem_utf16 hm), ?_⟩
      have e0 : unit16 e (UInt16.toNat 0) = [0, 0] := by cases e <;> rfl
      rw [h3, utf16Encode_flatMap (unit16 e), e0]
  all_goals cases h

/-- Which of the three branches a successful decoding of a string took. -/
theorem string_inv {host : Endian} {b : Bytes} {s : List Char} {r : Bytes}
    (h : string host b = (.ok s, r)) :
    ∃ r1, (b = be 2 0xefbb ++ r1 ∧ utf8 r1 = (.ok s, r)) ∨
      (b = be 2 0xfeff ++ r1 ∧ utf16 host true r1 = (.ok s, r)) ∨
      (b = be 2 0xfffe ++ r1 ∧ utf16 host false r1 = (.ok s, r)) := by
  unfold string at h
  rw [bind_apply] at h
  split at h
  · rename_i m r1 heq
    have hb := u16_inv heq
    refine ⟨r1, ?_⟩
    split at h
    · rename_i hm; subst hm; exact Or.inl ⟨hb, h⟩
    · split at h
      · rename_i hm; subst hm; exact Or.inr (Or.inl ⟨hb, h⟩)
      · split at h
        · rename_i hm; subst hm; exact Or.inr (Or.inr ⟨hb, h⟩)
        · cases h
  all_goals cases h

/-- Reading from a stream of units that contains a zero stops at the first zero. -/
theorem untilZero_reads_first {α : Type} [DecidableEq α] {zero : α} {rd : Dec α} (f : α → Bytes)
    (xs : List α) (hz : zero ∉ xs) (hne : ∀ x ∈ xs, f x ≠ [])
    (h : ∀ x, rd.Reads (f x) x) (rest : Bytes) :
    untilZero zero rd [] (xs.flatMap f ++ (f zero ++ rest)) = (.ok xs, rest) := by
  have := untilZero_reads f xs [] hz hne (fun x _ => h x) (h zero) rest
  simpa using this

end Dec

end Rsomeip
