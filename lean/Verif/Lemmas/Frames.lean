import Verif.Spec.Frames
import Verif.Props.Someip
import Verif.Rt.Tasks

/-! # Lemmas about packets -/

namespace Rsomeip.Rt

open Spec

/-- The message decoder of the receive loop. -/
abbrev de : Dec Msg := Someip.Message.de Dec.bytes

theorem head_eq (m : Msg) : head m = Someip.headBytes m.client m.session m.protocol m.interface
    m.messageType.asU8 m.returnCode.asU8 := rfl

theorem head_length (m : Msg) : (head m).length = 8 := Someip.headBytes_length ..

theorem frameWith_length (m : Msg) (n : Nat) : (frameWith m n).length = 16 + m.payload.length := by
  simp only [frameWith, List.length_append, be_length, head_length]

theorem frame_length (m : Msg) : (frame m).length = 16 + m.payload.length := frameWith_length ..

theorem normal_mk (se me c s : UInt16) (p i t r : UInt8) (v : Bytes) :
    Normal ⟨se, me, c, s, p, i, .fromU8 t, .fromU8 r, v⟩ := by
  constructor
  · show Someip.MessageType.fromU8 (Someip.MessageType.fromU8 t).asU8 = _
    rw [someip_types]
  · show Someip.ReturnCode.fromU8 (Someip.ReturnCode.fromU8 r).asU8 = _
    rw [someip_codes]

theorem de_frame (m : Msg) (hm : Normal m) (hn : 8 + m.payload.length < 2 ^ 32) (rest : Bytes) :
    de (frame m ++ rest) = (.ok m, rest) := by
  have := Someip.de_layout Dec.bytes m.service m.method m.client m.session m.protocol m.interface
    m.messageType.asU8 m.returnCode.asU8 (8 + m.payload.length) (m.payload ++ rest) (by omega) hn
  rw [Nat.add_sub_cancel_left, List.take_left, List.drop_left, Dec.bytes_apply] at this
  rw [show frame m ++ rest = be 2 m.service.toNat ++ be 2 m.method.toNat ++
    be 4 (8 + m.payload.length) ++ Someip.headBytes m.client m.session m.protocol m.interface
    m.messageType.asU8 m.returnCode.asU8 ++ (m.payload ++ rest) by
      simp only [frame, frameWith, head_eq, List.append_assoc]]
  refine this.trans ?_
  simp only [List.nil_append, hm.1, hm.2]

theorem de_cut (m : Msg) (n : Nat) (hm : Normal m) (hn : 8 + n < 2 ^ 32)
    (hp : m.payload.length ≤ n) : de (frameWith m n) = (.ok m, []) := by
  have := Someip.de_layout Dec.bytes m.service m.method m.client m.session m.protocol m.interface
    m.messageType.asU8 m.returnCode.asU8 (8 + n) m.payload (by omega) hn
  rw [Nat.add_sub_cancel_left, List.take_of_length_le hp, List.drop_of_length_le hp,
    Dec.bytes_apply] at this
  rw [show frameWith m n = be 2 m.service.toNat ++ be 2 m.method.toNat ++
    be 4 (8 + n) ++ Someip.headBytes m.client m.session m.protocol m.interface
    m.messageType.asU8 m.returnCode.asU8 ++ m.payload from rfl]
  refine this.trans ?_
  simp only [List.nil_append, hm.1, hm.2]

theorem de_cases (b : Bytes) : (∃ e r, de b = (.err e, r)) ∨
    (∃ m n, Normal m ∧ 8 + n < 2 ^ 32 ∧ m.payload.length < n ∧ b = frameWith m n ∧
      de b = (.ok m, [])) ∨
    (∃ m rest, Normal m ∧ 8 + m.payload.length < 2 ^ 32 ∧ b = frame m ++ rest ∧
      de b = (.ok m, rest)) := by
  by_cases hs : b.length < 16 ∨ beToNat ((b.drop 4).take 4) < 8
  · obtain ⟨e, a, r, h⟩ := Someip.de_refused Dec.bytes b hs
    exact .inl ⟨_, _, h⟩
  · obtain ⟨s, me, L, h, rest, hb, hL, _⟩ := Proto.layout_of_bytes b (by omega)
    have h8 : 8 ≤ L := by
      have hge : ¬ beToNat ((b.drop 4).take 4) < 8 := fun h => hs (.inr h)
      rw [hb, show be 2 s.val.toNat ++ be 2 me.val.toNat ++ be 4 L ++ headerBytes h ++ rest =
          (be 2 s.val.toNat ++ be 2 me.val.toNat) ++ (be 4 L ++ (headerBytes h ++ rest)) by simp,
        List.drop_left' (by simp), List.take_left' (be_length 4 L), be_eq_natToBE,
        beToNat_natToBE] at hge
      omega
    obtain ⟨n, rfl⟩ : ∃ n, L = 8 + n := ⟨L - 8, by omega⟩
    let m : Msg := ⟨s.val, me.val, h.client.val, h.session.val, h.protocol.val, h.interface.val,
      .fromU8 h.messageType.val, .fromU8 (codeNumber h.returnCode), rest.take n⟩
    have hm : Normal m := normal_mk ..
    have hhd : headerBytes h = head m := by
      simp only [headerBytes, head, m, someip_types, someip_codes]
    refine .inr ?_
    by_cases hlt : rest.length < n
    · have hb' : b = frameWith m n := by
        rw [hb, hhd, frameWith]
        simp only [m, List.take_of_length_le (Nat.le_of_lt hlt)]
      have hp : m.payload.length < n := by simp only [m, List.length_take]; omega
      exact .inl ⟨m, n, hm, hL, hp, hb', hb' ▸ de_cut m n hm hL (Nat.le_of_lt hp)⟩
    · have hp : m.payload.length = n := by simp only [m, List.length_take]; omega
      have hb' : b = frame m ++ rest.drop n := by
        rw [hb, hhd, frame, frameWith, hp]
        simp only [m, List.append_assoc, List.take_append_drop]
      exact .inr ⟨m, rest.drop n, hm, hp ▸ hL, hb', hb' ▸ de_frame m hm (hp ▸ hL) _⟩

theorem vec_total (b : Bytes) : (∃ e r, Dec.vec de b = (.err e, r)) ∨
    ∃ ms, Dec.vec de b = (.ok ms, []) ∧ Frames b ms := by
  induction hn : b.length using Nat.strongRecOn generalizing b with
  | _ n ih =>
    by_cases h0 : b = []
    · subst h0
      exact .inr ⟨[], Dec.vec_nil _, .nil⟩
    · rw [Dec.vec_ne _ b h0]
      rcases de_cases b with ⟨e, r, h⟩ | ⟨m, k, h1, h2, h3, rfl, h⟩ | ⟨m, rest, h1, h2, rfl, h⟩
      · rw [h]
        exact .inl ⟨e, r, rfl⟩
      · have hl := frameWith_length m k
        rw [h]
        dsimp only
        rw [if_pos (by rw [hl]; simp), Dec.vec_nil]
        exact .inr ⟨[m], rfl, .cut m k h1 h2 h3⟩
      · have hl := frame_length m
        rw [h]
        dsimp only
        have hlt : rest.length < (frame m ++ rest).length := by rw [List.length_append, hl]; omega
        rw [if_pos hlt]
        rcases ih _ (hn ▸ hlt) rest rfl with ⟨e, r, h'⟩ | ⟨ms, h', hf⟩
        · rw [h']
          exact .inl ⟨e, r, rfl⟩
        · rw [h']
          exact .inr ⟨m :: ms, rfl, .cons m h1 h2 hf⟩

theorem vec_frames {b : Bytes} {ms : List Msg} (h : Frames b ms) : Dec.vec de b = (.ok ms, []) := by
  induction h with
  | nil => exact Dec.vec_nil _
  | cut m n hm hn hp =>
    have hl := frameWith_length m n
    rw [Dec.vec_ne _ _ (by intro h; rw [h] at hl; simp at hl; omega),
      de_cut m n hm hn (Nat.le_of_lt hp)]
    dsimp only
    rw [if_pos (by rw [hl]; simp), Dec.vec_nil]
  | cons m hm hn _ ih =>
    have hl := frame_length m
    rw [Dec.vec_ne _ _ (by intro h; have := congrArg List.length h; rw [List.length_append, hl] at this; simp at this),
      de_frame m hm hn]
    dsimp only
    rw [if_pos (by rw [List.length_append, hl]; omega), ih]

theorem receive_route (b : Bytes) (ms : List Msg) :
    receive (.packet b) = .route ms ↔ Frames b ms := by
  constructor
  · intro h
    rcases vec_total b with ⟨e, r, h'⟩ | ⟨ms', h', hf⟩
    · simp only [receive, h'] at h; cases h
    · simp only [receive, h'] at h; cases h; exact hf
  · intro h
    simp only [receive, vec_frames h]

theorem receive_packet (b : Bytes) : (∃ ms, receive (.packet b) = .route ms ∧ Frames b ms) ∨
    ((∃ e, receive (.packet b) = .drop e) ∧ ∀ ms, ¬ Frames b ms) := by
  rcases vec_total b with ⟨e, r, h'⟩ | ⟨ms', h', hf⟩
  · have : receive (.packet b) = .drop e := by simp only [receive, h']
    refine .inr ⟨⟨e, this⟩, fun ms h => ?_⟩
    rw [(receive_route b ms).mpr h] at this
    cases this
  · exact .inl ⟨ms', by simp only [receive, h'], hf⟩

theorem Frames.flatMap (ms : List Msg) (hm : ∀ m ∈ ms, Normal m ∧ 8 + m.payload.length < 2 ^ 32) :
    Frames (ms.flatMap frame) ms := by
  induction ms with
  | nil => exact .nil
  | cons m ms ih =>
    have := hm m (List.mem_cons_self ..)
    exact .cons m this.1 this.2 (ih fun x hx => hm x (List.mem_cons_of_mem _ hx))

end Rsomeip.Rt
