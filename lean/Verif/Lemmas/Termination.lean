import Verif.Lemmas.Reader
import Verif.Spec.Shape

/-! Termination of decoding. -/

namespace Rsomeip

open Spec

namespace Dec

/-- Consumes something whenever the buffer is not empty. -/
def EatsD {α : Type} (d : Dec α) : Prop := ∀ b, b ≠ [] → (d b).2.length < b.length

/-- Consumes something whenever the buffer is not empty and reading succeeds. -/
def ProgressD {α : Type} (d : Dec α) : Prop :=
  ∀ b v r, b ≠ [] → d b = (.ok v, r) → r.length < b.length

/-- Never runs forever. -/
def TotalD {α : Type} (d : Dec α) : Prop := ∀ b, (d b).1 ≠ .diverge

theorem EatsD.progress {α : Type} {d : Dec α} (h : d.EatsD) : d.ProgressD := by
  intro b v r hb he
  have := h b hb
  rwa [he] at this

theorem total_prim {α : Type} (k : Nat) (f : Nat → α) : (prim k f).TotalD := by
  intro b; rw [prim_apply]; split <;> simp

theorem TotalD.bind {α β : Type} {d : Dec α} {f : α → Dec β} (hd : d.TotalD)
    (hf : ∀ a, (f a).TotalD) : (d >>= f).TotalD := by
  intro b
  rw [bind_apply]
  have h := hd b
  split
  · exact hf _ _
  · simp
  · simp
  · rename_i heq; rw [heq] at h; exact absurd rfl h

theorem total_pure {α : Type} (a : α) : (Pure.pure a : Dec α).TotalD := by intro b; simp

theorem TotalD.orDefault {α : Type} {d : Dec α} (hd : d.TotalD) (x : α) :
    (orDefault d x).TotalD := by
  intro b
  have := hd b
  simp only [Dec.orDefault]
  split
  · simp
  · exact this

theorem TotalD.array {α : Type} {d : Dec α} (hd : d.TotalD) (x : α) (n : Nat) :
    (array d x n).TotalD := by
  induction n with
  | zero => exact total_pure _
  | succ n ih => exact (hd.orDefault x).bind fun v => ih.bind fun vs => total_pure _

theorem TotalD.vec {α : Type} {d : Dec α} (hd : d.TotalD) (hp : d.ProgressD) :
    (vec d).TotalD := by
  have key : ∀ n, ∀ b : Bytes, b.length = n → (Dec.vec d b).1 ≠ .diverge := by
    intro n
    induction n using Nat.strongRecOn with
    | _ n ih =>
      intro b hb
      by_cases h0 : b = []
      · subst h0; simp [vec_nil]
      · have ht := hd b
        rw [vec_ne d b h0]
        split
        · rename_i v r heq
          have hlt := hp b v r h0 heq
          rw [if_pos hlt]
          have := ih r.length (by omega) r rfl
          split
          · simp
          · exact this
        · simp
        · simp
        · rename_i r heq; rw [heq] at ht; exact absurd rfl ht
  exact fun b => key _ b rfl

theorem vec_ok_rest {α : Type} {d : Dec α} (b : Bytes) (vs : List α) (r : Bytes)
    (h : vec d b = (.ok vs, r)) : r = [] := by
  induction hn : b.length using Nat.strongRecOn generalizing b vs r with
  | _ n ih =>
    by_cases h0 : b = []
    · subst h0; rw [vec_nil] at h; simp at h; exact h.2
    · rw [vec_ne d b h0] at h
      split at h
      · split at h
        · rename_i v r1 heq hlt
          split at h
          · rename_i vs' r' heq'
            simp only [Prod.mk.injEq] at h
            exact h.2 ▸ ih r1.length (by omega) r1 vs' r' heq' rfl
          · rename_i hno
            rw [h] at hno
            exact absurd rfl (hno vs r)
        · simp at h
      all_goals simp at h

theorem TotalD.untilZero {α : Type} [DecidableEq α] {rd : Dec α} (zero : α) (hd : rd.TotalD)
    (hp : ∀ b v r, rd b = (.ok v, r) → r.length < b.length) (acc : List α) :
    (untilZero zero rd acc).TotalD := by
  have key : ∀ n, ∀ (acc : List α) (b : Bytes), b.length = n →
      (Dec.untilZero zero rd acc b).1 ≠ .diverge := by
    intro n
    induction n using Nat.strongRecOn with
    | _ n ih =>
      intro acc b hb
      have ht := hd b
      rw [untilZero_eq]
      split
      · rename_i v r heq
        split
        · simp
        · rw [if_pos (hp b v r heq)]
          exact ih r.length (hb ▸ hp b v r heq) _ r rfl
      · simp
      · simp
      · rename_i heq; rw [heq] at ht; exact absurd rfl ht
  exact fun b => key _ acc b rfl

theorem prim_lt {α : Type} {k : Nat} {f : Nat → α} (hk : 0 < k) {b : Bytes} {v : α} {r : Bytes}
    (h : prim k f b = (.ok v, r)) : r.length < b.length := by
  rw [prim_apply] at h
  split at h
  · simp at h
  · simp only [Prod.mk.injEq] at h
    rw [← h.2, List.length_drop]
    omega

theorem utf16Unit_lt {host : Endian} {isBe : Bool} {b : Bytes} {v : UInt16} {r : Bytes}
    (h : utf16Unit host isBe b = (.ok v, r)) : r.length < b.length := by
  unfold utf16Unit at h
  split at h
  · exact prim_lt (by omega) h
  · rw [bind_apply] at h
    split at h
    · rename_i a r' heq
      simp only [pure_apply, Prod.mk.injEq] at h
      rw [← h.2]
      exact prim_lt (by omega) heq
    all_goals simp at h

theorem total_fail {α : Type} (e : DeErr) : (Dec.fail e : Dec α).TotalD := by
  intro b; simp [fail]

theorem total_utf8 : utf8.TotalD := by
  refine (total_prim _ _).bind fun bom => ?_
  split
  · exact total_fail _
  · refine (TotalD.untilZero 0 (total_prim 1 UInt8.ofNat)
      (fun b v r h => prim_lt (by omega) h) []).bind fun raw => ?_
    split
    · exact total_pure _
    · exact total_fail _

theorem total_utf16 (host : Endian) (isBe : Bool) : (utf16 host isBe).TotalD := by
  have hu : (utf16Unit host isBe).TotalD := by
    unfold utf16Unit
    split
    · exact total_prim _ _
    · exact (total_prim _ _).bind fun v => total_pure _
  refine (TotalD.untilZero 0 hu (fun b v r h => utf16Unit_lt h) []).bind fun raw => ?_
  split
  · exact total_pure _
  · exact total_fail _

theorem total_string (host : Endian) : (string host).TotalD := by
  refine (total_prim _ _).bind fun v => ?_
  split
  · exact total_utf8
  · split
    · exact total_utf16 _ _
    · split
      · exact total_utf16 _ _
      · exact total_fail _

theorem TotalD.len {α : Type} {d : Dec α} (hd : d.TotalD) (l : LengthField) :
    (len d l).TotalD := by
  intro b
  rw [len_apply]
  split
  · simp
  · exact hd _

theorem bind_rest_le {α β : Type} {d : Dec α} {f : α → Dec β} (hf : ∀ a, (f a).Safe) (b : Bytes) :
    ((d >>= f) b).2.length ≤ (d b).2.length := by
  rw [bind_apply]
  split
  · rename_i a r heq
    rw [heq]
    exact ((hf a).suffix r).length_le
  all_goals (rename_i heq; rw [heq])

theorem progress_bind_left {α β : Type} {d : Dec α} {f : α → Dec β} (hd : d.ProgressD)
    (hf : ∀ a, (f a).Safe) : (d >>= f).ProgressD := by
  intro b v r hb h
  rw [bind_apply] at h
  split at h
  · rename_i a r' heq
    have h1 := hd b a r' hb heq
    have h2 := ((hf a).suffix r').length_le
    rw [h] at h2
    exact Nat.lt_of_le_of_lt h2 h1
  all_goals simp at h

theorem len_ok_lt {α : Type} {d : Dec α} (hs : d.Safe) {l : LengthField} {b : Bytes} {v : α}
    {r : Bytes} (h : len d l b = (.ok v, r)) : r.length < b.length := by
  rw [len_apply] at h
  split at h
  · simp at h
  · rename_i hw
    have := ((hs.take (beToNat (b.take l.width))).suffix (b.drop l.width)).length_le
    rw [h, List.length_drop] at this
    simp only at this
    have hwp : 0 < l.width := by cases l <;> decide
    omega

theorem orDefault_rest {α : Type} (d : Dec α) (x : α) (b : Bytes) :
    (orDefault d x b).2 = (d b).2 := by
  simp only [orDefault]
  split
  · rename_i heq; rw [heq]
  · rfl

theorem orDefault_ok {α : Type} {d : Dec α} (hs : d.Safe) (ht : d.TotalD) (x : α) (b : Bytes) :
    ∃ v, orDefault d x b = (.ok v, (d b).2) := by
  have h1 := hs.noPanic b
  have h2 := ht b
  match hd : d b with
  | (.ok a, r) => exact ⟨a, by simp [orDefault, hd]⟩
  | (.err e, r) => exact ⟨x, by simp [orDefault, hd]⟩
  | (.panic, r) => rw [hd] at h1; exact absurd rfl h1
  | (.diverge, r) => rw [hd] at h2; exact absurd rfl h2

theorem array_ok {α : Type} {d : Dec α} (hs : d.Safe) (ht : d.TotalD) (x : α) (n : Nat)
    (b : Bytes) : ∃ v r, array d x n b = (.ok v, r) := by
  induction n generalizing b with
  | zero => exact ⟨_, _, rfl⟩
  | succ n ih =>
    obtain ⟨v, hv⟩ := orDefault_ok hs ht x b
    obtain ⟨vs, r, hvs⟩ := ih (d b).2
    refine ⟨⟨v :: vs.1, by simp [vs.2]⟩, r, ?_⟩
    show (orDefault d x >>= _) b = _
    rw [bind_ok hv, bind_ok hvs]
    rfl

theorem array_stuck {α : Type} {d : Dec α} (hs : d.Safe) (ht : d.TotalD) (x : α) (n : Nat)
    (b : Bytes) (h : n = 0 ∨ (d b).2 = b) : ∃ v, array d x n b = (.ok v, b) := by
  induction n with
  | zero => exact ⟨_, rfl⟩
  | succ n ih =>
    have hb : (d b).2 = b := by rcases h with h | h; omega; exact h
    obtain ⟨v, hv⟩ := orDefault_ok hs ht x b
    rw [hb] at hv
    obtain ⟨vs, hvs⟩ := ih (Or.inr hb)
    refine ⟨⟨v :: vs.1, by simp [vs.2]⟩, ?_⟩
    show (orDefault d x >>= _) b = _
    rw [bind_ok hv, bind_ok hvs]
    rfl

theorem array_eats {α : Type} {d : Dec α} (hs : d.Safe) (he : d.EatsD) (x : α) (n : Nat) :
    (array d x (n + 1)).EatsD := by
  intro b hb
  have h1 := he b hb
  have h2 := bind_rest_le (d := orDefault d x) (f := fun v => do
    let vs ← array d x n
    (Pure.pure ⟨v :: vs.1, by simp [vs.2]⟩ : Dec (Arr α (n + 1))))
    (fun v => (hs.array x n).bind fun vs => safe_pure _) b
  rw [orDefault_rest] at h2
  exact Nat.lt_of_le_of_lt h2 h1

theorem vec_eats {α : Type} {d : Dec α} (hs : d.Safe) (he : d.EatsD) : (vec d).EatsD := by
  intro b hb
  have h1 := he b hb
  rw [vec_ne d b hb]
  split
  · rename_i v r heq
    rw [heq] at h1
    rw [if_pos h1]
    have := (hs.vec.suffix r).length_le
    split
    · rename_i heq'
      rw [heq'] at this
      exact Nat.lt_of_le_of_lt this h1
    · exact Nat.lt_of_le_of_lt this h1
  all_goals (rename_i heq; rw [heq] at h1; exact h1)

theorem vec_progress {α : Type} {d : Dec α} : (vec d).ProgressD := by
  intro b v r hb h
  have := vec_ok_rest b v r h
  subst this
  exact List.length_pos_iff.mpr hb

end Dec

open Dec in
/-- Types without `Progress` never fail with an error. -/
theorem Ty.notProgress_noErr (host : Endian) : (t : Ty) → Progress t = false →
    ∀ b e, (t.de host b).1 ≠ .err e
  | .u8, h | .u16, h | .u32, h | .u64, h | .i8, h | .i16, h | .i32, h | .i64, h | .f32, h
  | .f64, h | .bool, h | .bytes, h | .utf8, h | .utf16 _, h | .vec _, h | .len _ _, h => by
    simp [Progress] at h
  | .array n t, h => by
    clear h
    intro b e
    show (Dec.array (t.de host) t.dflt n b).1 ≠ _
    generalize t.de host = d
    generalize t.dflt = x
    have hor : ∀ b e, (orDefault d x b).1 ≠ .err e := by
      intro b e
      simp only [orDefault]
      split
      · simp
      · rename_i hno
        intro he
        match hd : d b with
        | (o, r) =>
          rw [hd] at he
          simp only at he
          subst he
          exact hno e r hd
    induction n generalizing b with
    | zero => nofun
    | succ n ih =>
      show ((orDefault d x >>= _) b).1 ≠ _
      rw [bind_apply]
      have h1 := hor b
      split
      · rename_i v r heq
        rw [bind_apply]
        have h2 := ih r
        split
        · nofun
        · rename_i e' r' heq'
          rw [heq'] at h2
          intro hc
          cases hc
          exact h2 rfl
        · nofun
        · nofun
      · rename_i e' r heq
        exact absurd (by rw [heq]) (h1 e')
      · nofun
      · nofun
  | .unit, _ => by intro b e; show (Dec.tnil b).1 ≠ _; nofun
  | .pair a b, h => by
    simp only [Progress, Bool.or_eq_false_iff] at h
    intro buf e
    have h1 := notProgress_noErr host a h.1
    have h2 := notProgress_noErr host b h.2
    show ((a.de host >>= _) buf).1 ≠ _
    rw [bind_apply]
    split
    · rename_i v r heq
      rw [bind_apply]
      split
      · nofun
      · rename_i e' r' heq'
        exact absurd (by rw [heq']) (h2 r e')
      · nofun
      · nofun
    · rename_i e' r' heq'
      exact absurd (by rw [heq']) (h1 buf e')
    · nofun
    · nofun

open Dec in
mutual
theorem Ty.eatsD (host : Endian) : (t : Ty) → Eats t = true → Terminating t = true →
    (t.de host).EatsD
  | .u8, _, _ => by
    intro b hb; show (Dec.prim _ _ b).2.length < _
    have := List.length_pos_iff.mpr hb
    rw [prim_apply, if_neg (by omega)]; simp; omega
  | .i8, _, _ => by
    intro b hb; show (Dec.prim _ _ b).2.length < _
    have := List.length_pos_iff.mpr hb
    rw [prim_apply, if_neg (by omega)]; simp; omega
  | .bool, _, _ => by
    intro b hb; show (Dec.bool b).2.length < _
    have := List.length_pos_iff.mpr hb
    rw [bool_apply, if_neg (by omega)]; simp; omega
  | .bytes, _, _ => by
    intro b hb; show (Dec.bytes b).2.length < _
    have := List.length_pos_iff.mpr hb
    rw [bytes_apply]; simpa using this
  | .vec t, h, ht => by
    simp only [Terminating, Bool.and_eq_true] at ht
    exact vec_eats (t.de_safe host) (eatsD host t (by simpa [Eats] using h) ht.2)
  | .array 0 t, h, _ => by simp [Eats] at h
  | .array (n + 1) t, h, ht => by
    simp only [Eats, Bool.and_eq_true] at h
    exact array_eats (t.de_safe host) (eatsD host t h.2 (by simpa [Terminating] using ht)) t.dflt n
  | .pair a b, h, ht => by
    simp only [Terminating, Bool.and_eq_true] at ht
    simp only [Eats, Bool.or_eq_true, Bool.and_eq_true, Bool.not_eq_true'] at h
    have hle : ∀ buf, (Dec.tcons (a.de host) (b.de host) buf).2.length ≤ (a.de host buf).2.length :=
      fun buf => bind_rest_le (d := a.de host) (f := fun x => do
        let y ← b.de host
        (Pure.pure (x, y) : Dec (a.Val × b.Val)))
        (fun x => (b.de_safe host).bind fun y => safe_pure _) buf
    rcases h with h | ⟨hp, h⟩
    · intro buf hb
      exact Nat.lt_of_le_of_lt (hle buf) (eatsD host a h ht.1 buf hb)
    · intro buf hb
      have hne := a.notProgress_noErr host hp buf
      have hnp := (a.de_safe host).noPanic buf
      have hnd := (Ty.totalMut host a ht.1) buf
      have hsuf := (a.de_safe host).suffix buf
      by_cases hlt : (a.de host buf).2.length < buf.length
      · exact Nat.lt_of_le_of_lt (hle buf) hlt
      · match ha : a.de host buf with
        | (.ok v, r) =>
          rw [ha] at hsuf hlt
          have hr : r = buf := hsuf.eq_of_length 
            (Nat.le_antisymm hsuf.length_le (Nat.not_lt.mp hlt))
          subst hr
          show ((a.de host >>= _) r).2.length < r.length
          rw [bind_ok ha]
          have h2 := eatsD host b h ht.2 r hb
          have h3 := bind_rest_le (d := b.de host) (f := fun y =>
            (Pure.pure (v, y) : Dec (a.Val × b.Val))) (fun x => safe_pure _) r
          exact Nat.lt_of_le_of_lt h3 h2
        | (.err e, r) => rw [ha] at hne; exact absurd rfl (hne e)
        | (.panic, r) => rw [ha] at hnp; exact absurd rfl hnp
        | (.diverge, r) => rw [ha] at hnd; exact absurd rfl hnd
  | .len .u8 t, _, _ => by
    intro b hb
    show (Dec.len (t.de host) .u8 b).2.length < _
    have := List.length_pos_iff.mpr hb
    have hs := ((t.de_safe host).take (beToNat (b.take LengthField.u8.width))).suffix
      (b.drop LengthField.u8.width)
    have := hs.length_le
    rw [List.length_drop] at this
    rw [len_apply, if_neg (by simp only [LengthField.width]; omega)]
    simp only [LengthField.width] at *
    omega
  | .u16, h, _ | .u32, h, _ | .u64, h, _ | .i16, h, _ | .i32, h, _ | .i64, h, _ | .f32, h, _
  | .f64, h, _ | .utf8, h, _ | .utf16 _, h, _ | .unit, h, _ | .len .u16 _, h, _
  | .len .u32 _, h, _ => by simp [Eats] at h

theorem Ty.progressD (host : Endian) : (t : Ty) → Progress t = true → Terminating t = true →
    (t.de host).ProgressD
  | .u8, _, _ | .u16, _, _ | .u32, _, _ | .u64, _, _ | .i8, _, _ | .i16, _, _ | .i32, _, _
  | .i64, _, _ | .f32, _, _ | .f64, _, _ => fun _ _ _ _ h => prim_lt (by omega) h
  | .bool, _, _ => by
    intro b v r hb h
    have h : Dec.bool b = _ := h
    rw [bool_apply] at h
    split at h
    · cases h
    · injection h with _ h
      have := List.length_pos_iff.mpr hb
      rw [← h, List.length_drop]; omega
  | .bytes, _, _ => by
    intro b v r hb h
    have h : Dec.bytes b = _ := h
    rw [bytes_apply] at h
    injection h with _ h
    rw [← h]; exact List.length_pos_iff.mpr hb
  | .utf8, _, _ => by
    refine progress_bind_left (d := Dec.u16) (fun b v r _ h => prim_lt (by omega) h) fun v => ?_
    split
    · exact safe_utf8
    · split
      · exact safe_utf16 _ _
      · split
        · exact safe_utf16 _ _
        · exact safe_fail_other _
  | .utf16 _, _, _ => by
    refine progress_bind_left (d := Dec.u16) (fun b v r _ h => prim_lt (by omega) h) fun v => ?_
    split
    · exact safe_utf8
    · split
      · exact safe_utf16 _ _
      · split
        · exact safe_utf16 _ _
        · exact safe_fail_other _
  | .vec t, _, _ => vec_progress
  | .array 0 t, h, _ => by simp [Progress] at h
  | .array (n + 1) t, h, ht => by
    simp only [Progress, Bool.and_eq_true] at h
    exact (array_eats (t.de_safe host) (eatsD host t h.2 (by simpa [Terminating] using ht))
      t.dflt n).progress
  | .unit, h, _ => by simp [Progress] at h
  | .pair a b, h, ht => by
    simp only [Terminating, Bool.and_eq_true] at ht
    simp only [Progress, Bool.or_eq_true] at h
    rcases h with h | h
    · exact progress_bind_left (progressD host a h ht.1)
        (fun x => (b.de_safe host).bind fun y => safe_pure _)
    · intro buf v r hb he
      have he : (a.de host >>= fun x => do
        let y ← b.de host
        (Pure.pure (x, y) : Dec (a.Val × b.Val))) buf = (.ok v, r) := he
      rw [bind_apply] at he
      have hsuf := (a.de_safe host).suffix buf
      split at he
      · rename_i x r1 heq
        rw [heq] at hsuf
        rw [bind_apply] at he
        split at he
        · rename_i y r2 heq2
          simp only [pure_apply, Prod.mk.injEq] at he
          rw [← he.2]
          by_cases hr : r1 = []
          · subst hr
            have := ((b.de_safe host).suffix []).length_le
            rw [heq2] at this
            simp only [List.length_nil, Nat.le_zero] at this
            rw [this]
            exact List.length_pos_iff.mpr hb
          · have := progressD host b h ht.2 r1 y r2 hr heq2
            exact Nat.lt_of_lt_of_le this hsuf.length_le
        all_goals simp at he
      all_goals simp at he
  | .len l t, _, _ => fun _ _ _ _ h => len_ok_lt (t.de_safe host) h

theorem Ty.totalMut (host : Endian) : (t : Ty) → Terminating t = true → (t.de host).TotalD
  | .u8, _ => total_prim _ _
  | .u16, _ => total_prim _ _
  | .u32, _ => total_prim _ _
  | .u64, _ => total_prim _ _
  | .i8, _ => total_prim _ _
  | .i16, _ => total_prim _ _
  | .i32, _ => total_prim _ _
  | .i64, _ => total_prim _ _
  | .f32, _ => total_prim _ _
  | .f64, _ => total_prim _ _
  | .bool, _ => by
    intro b; show (Dec.bool b).1 ≠ _; rw [bool_apply]; split <;> nofun
  | .bytes, _ => by
    intro b; show (Dec.bytes b).1 ≠ _; rw [bytes_apply]; nofun
  | .utf8, _ => total_string host
  | .utf16 _, _ => total_string host
  | .vec t, h => by
    simp only [Terminating, Bool.and_eq_true] at h
    exact (totalMut host t h.2).vec (progressD host t h.1 h.2)
  | .array n t, h => (totalMut host t (by simpa [Terminating] using h)).array t.dflt n
  | .unit, _ => total_pure _
  | .pair a b, h => by
    simp only [Terminating, Bool.and_eq_true] at h
    exact (totalMut host a h.1).bind fun _ => (totalMut host b h.2).bind fun _ => total_pure _
  | .len l t, h => (totalMut host t (by simpa [Terminating] using h)).len l
end

end Rsomeip
