import Verif.Lemmas.Frames
import Verif.Rt.Udp

/-! # C52, C64 and C71: packets and messages of one connection -/

namespace Rsomeip

open Rt Spec

/-- **C52.** A received packet is either made of messages — then exactly these are handed on, in
order — or it is not, and nothing is handed on. The receive loop goes on in both cases; it neither
panics nor hangs. -/
theorem C52_all_or_nothing (b : Bytes) :
    (∃ ms, Frames b ms ∧ receive (.packet b) = .route ms) ∨
    ((∀ ms, ¬ Frames b ms) ∧ ∃ e, receive (.packet b) = .drop e) := by
  rcases receive_packet b with ⟨ms, h, hf⟩ | ⟨he, hf⟩
  · exact .inl ⟨ms, hf, h⟩
  · exact .inr ⟨hf, he⟩

/-- **C52.** What a packet consists of is determined by the packet. -/
theorem C52_unique {b : Bytes} {ms ms' : List Msg} (h : Frames b ms) (h' : Frames b ms') :
    ms = ms' := by
  have h1 := (receive_route b ms).mpr h
  rw [(receive_route b ms').mpr h'] at h1
  cases h1
  rfl

/-- **C52.** Any number of well-formed messages in one packet are handed on unchanged and in
order. -/
theorem C52_messages (ms : List Msg)
    (hm : ∀ m ∈ ms, Normal m ∧ 8 + m.payload.length < 2 ^ 32) :
    receive (.packet (ms.flatMap frame)) = .route ms :=
  (receive_route _ _).mpr (Frames.flatMap ms hm)

/-- **C52.** Fewer than sixteen stray bytes behind any number of well-formed messages make the whole
packet be dropped, together with the messages in front. -/
theorem C52_trailing_bytes (ms : List Msg)
    (hm : ∀ m ∈ ms, Normal m ∧ 8 + m.payload.length < 2 ^ 32) (x : Bytes) (h0 : x ≠ [])
    (hx : x.length < 16) : ∃ e, receive (.packet (ms.flatMap frame ++ x)) = .drop e := by
  suffices h : ∃ e r, Dec.vec de (ms.flatMap frame ++ x) = (.err e, r) by
    obtain ⟨e, r, h⟩ := h
    exact ⟨e, by simp only [receive, h]⟩
  induction ms with
  | nil =>
    obtain ⟨e, a, r, h⟩ := Someip.de_refused Dec.bytes x (.inl hx)
    rw [List.flatMap_nil, List.nil_append, Dec.vec_ne _ x h0]
    refine ⟨.insufficientData e a, r, ?_⟩
    rw [show de x = _ from h]
  | cons m ms ih =>
    have h1 := hm m (List.mem_cons_self ..)
    obtain ⟨e, r, h⟩ := ih fun y hy => hm y (List.mem_cons_of_mem _ hy)
    have hl := frame_length m
    rw [List.flatMap_cons, List.append_assoc, Dec.vec_ne _ _ (by
      intro h; have := congrArg List.length h; rw [List.length_append, hl] at this; simp at this),
      de_frame m h1.1 h1.2]
    dsimp only
    rw [if_pos (by rw [List.length_append (as := frame m), hl]; omega), h]
    exact ⟨e, r, rfl⟩

example : Normal sampleSomeip ∧ 8 + sampleSomeip.payload.length < 2 ^ 32 ∧
    receive (.packet (frame sampleSomeip ++ frame sampleSomeip)) =
      .route [sampleSomeip, sampleSomeip] := by
  refine ⟨⟨rfl, rfl⟩, by decide, ?_⟩
  have := C52_messages [sampleSomeip, sampleSomeip] (by
    intro m hm
    simp only [List.mem_cons, List.not_mem_nil, or_false, or_self] at hm
    subst hm
    exact ⟨⟨rfl, rfl⟩, by decide⟩)
  simpa using this

example : ∃ b : Bytes, ∀ ms, ¬ Frames b ms := ⟨[1], fun ms h => by
  have := (receive_route [1] ms).mpr h
  revert this
  rw [show receive (.packet [1]) = .drop (.insufficientData 4 1) by decide +kernel]
  nofun⟩

/-- The messages in a sequence of socket results: the messages of the packets that are made of
messages, in order. Any other packet, and a report of lost packets, contributes nothing. -/
inductive Contents : List Recv → List Msg → Prop
  | nil : Contents [] []
  | packet {b ms rs ms'} (h : Frames b ms) (hs : Contents rs ms') :
    Contents (.packet b :: rs) (ms ++ ms')
  | malformed {b rs ms'} (h : ∀ ms, ¬ Frames b ms) (hs : Contents rs ms') :
    Contents (.packet b :: rs) ms'
  | lagged {n rs ms'} (hs : Contents rs ms') : Contents (.lagged n :: rs) ms'

/-- **C52.** Neither a malformed packet nor a report of lost packets disturbs the others: as long as
the socket is not closed the loop keeps running, and it hands on the messages of all well-formed
packets in the order of arrival. -/
theorem C52_loop (rs : List Recv) (h : .closed ∉ rs) :
    ∃ ms, receiveAll rs = (ms, true) ∧ Contents rs ms := by
  induction rs with
  | nil => exact ⟨[], rfl, .nil⟩
  | cons r rs ih =>
    obtain ⟨ms', h1, h2⟩ := ih fun h' => h (List.mem_cons_of_mem _ h')
    cases r with
    | packet b =>
      rcases receive_packet b with ⟨ms, hr, hf⟩ | ⟨⟨e, hr⟩, hf⟩
      · exact ⟨ms ++ ms', by simp only [receiveAll, hr, h1], .packet hf h2⟩
      · exact ⟨ms', by simp only [receiveAll, hr, h1], .malformed hf h2⟩
    | lagged n => exact ⟨ms', h1, .lagged h2⟩
    | closed => exact absurd (List.mem_cons_self ..) h

/-- **C52.** When the socket is closed the loop ends; what arrived before was handed on. -/
theorem C52_loop_ends (rs rest : List Recv) (h : .closed ∉ rs) :
    ∃ ms, receiveAll (rs ++ .closed :: rest) = (ms, false) ∧ Contents rs ms := by
  induction rs with
  | nil => exact ⟨[], rfl, .nil⟩
  | cons r rs ih =>
    obtain ⟨ms', h1, h2⟩ := ih fun h' => h (List.mem_cons_of_mem _ h')
    cases r with
    | packet b =>
      rcases receive_packet b with ⟨ms, hr, hf⟩ | ⟨⟨e, hr⟩, hf⟩
      · exact ⟨ms ++ ms', by simp only [List.cons_append, receiveAll, hr, h1], .packet hf h2⟩
      · exact ⟨ms', by simp only [List.cons_append, receiveAll, hr, h1], .malformed hf h2⟩
    | lagged n => exact ⟨ms', h1, .lagged h2⟩
    | closed => exact absurd (List.mem_cons_self ..) h

example : Recv.closed ∉ [Recv.packet (frame sampleSomeip), .packet [1], .lagged 3,
    .packet (frame sampleSomeip ++ frame sampleSomeip)] ∧
    receiveAll [.packet (frame sampleSomeip), .packet [1], .lagged 3,
      .packet (frame sampleSomeip ++ frame sampleSomeip)] =
    ([sampleSomeip, sampleSomeip, sampleSomeip], true) := by decide +kernel

/-! ### Sending -/

/-- **C64.** A message that fits the length field is handed to the socket whole, in one piece, and
exactly as it is laid out on the wire. -/
theorem C64_whole_partial (m : Msg) (h : 8 + m.payload.length < 2 ^ 32) :
    outgoing m = some (frame m) := by
  have hb : Payload Ser.bytes m.payload m.payload := ⟨Ser.good_bytes _, rfl⟩
  have := (Someip.good_someip hb h).grow []
  rw [outgoing, this]
  rfl

/-- **C64 fails as stated.** A message that is too long for its length field fails to serialize,
and the first four bytes of it are sent nevertheless. -/
theorem C64_partial_buffer_sent (m : Msg) (h : 2 ^ 32 ≤ 8 + m.payload.length) :
    (∃ e b, (Someip.Message.ser Ser.bytes).serialize m ⟨[], none⟩ = (.err e, b)) ∧
    outgoing m = some (be 2 m.service.toNat ++ be 2 m.method.toNat) := by
  have hb : Payload Ser.bytes m.payload m.payload := ⟨Ser.good_bytes _, rfl⟩
  have := (Someip.tooLong hb h).grow []
  rw [List.nil_append] at this
  exact ⟨⟨_, _, this⟩, by rw [outgoing, this]⟩

example : ∃ m : Msg, 2 ^ 32 ≤ 8 + m.payload.length := by
  obtain ⟨l, hl⟩ : ∃ l : Bytes, l.length = 2 ^ 32 := ⟨List.replicate (2 ^ 32) 0, List.length_replicate ..⟩
  exact ⟨{ sampleSomeip with payload := l }, by
    show 2 ^ 32 ≤ 8 + l.length
    rw [hl]; omega⟩

example : 8 + sampleSomeip.payload.length < 2 ^ 32 := by decide

/-- **C64.** What is sent for a message, and what the receiving side makes of it: a sent message
arrives unchanged whatever else is in the packet behind it. -/
theorem C64_arrives (m : Msg) (hm : Normal m) (h : 8 + m.payload.length < 2 ^ 32) {b : Bytes}
    {ms : List Msg} (hb : Frames b ms) :
    ∃ out, outgoing m = some out ∧ receive (.packet (out ++ b)) = .route (m :: ms) :=
  ⟨frame m, C64_whole_partial m h, (receive_route _ _).mpr (.cons m hm h hb)⟩

/-- The sending loop runs as long as the socket accepts what it is given: then every message was
handed over, in order. -/
theorem C71_sends_in_order (socket : Bytes → Bool) (ms : List Msg)
    (hm : ∀ m ∈ ms, 8 + m.payload.length < 2 ^ 32 ∧ socket (frame m) = true) :
    sendAll socket ms = (ms.map frame, true) := by
  induction ms with
  | nil => rfl
  | cons m ms ih =>
    have h := hm m (List.mem_cons_self ..)
    rw [sendAll, C64_whole_partial m h.1]
    dsimp only
    rw [if_pos h.2, ih fun x hx => hm x (List.mem_cons_of_mem _ hx)]
    rfl

/-- **C71 fails as stated.** Over UDP, a message whose payload is longer than 1384 bytes ends the
connection: it is not sent, and neither is anything behind it. -/
theorem C71_oversize_ends_connection (os : Bytes → Bool) (ms ms' : List Msg) (m : Msg)
    (hms : ∀ x ∈ ms, x.payload.length ≤ 1384 ∧ os (frame x) = true)
    (hm : 1384 < m.payload.length) (hl : 8 + m.payload.length < 2 ^ 32) :
    sendAll (fun b => (Udp.send os b).2.toBool) (ms ++ m :: ms') = (ms.map frame ++ [frame m], false) ∧
    Udp.send os (frame m) = (none, .error (frame m)) := by
  have hsend : Udp.send os (frame m) = (none, .error (frame m)) := by
    rw [Udp.send, if_pos (by rw [frame_length, Udp.maxDatagramSize]; omega)]
  refine ⟨?_, hsend⟩
  induction ms with
  | nil =>
    rw [List.nil_append, sendAll, C64_whole_partial m hl]
    dsimp only
    rw [if_neg (by rw [hsend]; simp [Except.toBool])]
    rfl
  | cons x ms ih =>
    have h := hms x (List.mem_cons_self ..)
    rw [List.cons_append, sendAll, C64_whole_partial x (by omega)]
    dsimp only
    rw [if_pos, ih fun y hy => hms y (List.mem_cons_of_mem _ hy)]
    · rfl
    · rw [Udp.send, if_neg (by rw [frame_length, Udp.maxDatagramSize]; omega), if_pos h.2]
      rfl

example : ∃ m : Msg, 1384 < m.payload.length ∧ 8 + m.payload.length < 2 ^ 32 := by
  obtain ⟨l, hl⟩ : ∃ l : Bytes, l.length = 2000 := ⟨List.replicate 2000 0, List.length_replicate ..⟩
  refine ⟨{ sampleSomeip with payload := l }, ?_, ?_⟩
  · show 1384 < l.length
    omega
  · show 8 + l.length < 2 ^ 32
    omega

/-- **C71**, the part that holds: messages of at most 1384 payload bytes never end a UDP connection
while the operating system accepts datagrams; every one of them is sent as one datagram, in
order. -/
theorem C71_small_messages_partial (os : Bytes → Bool) (hos : ∀ b, os b = true) (ms : List Msg)
    (hm : ∀ m ∈ ms, m.payload.length ≤ 1384) :
    sendAll (fun b => (Udp.send os b).2.toBool) ms = (ms.map frame, true) := by
  refine C71_sends_in_order _ ms fun m h => ⟨by have := hm m h; omega, ?_⟩
  have := hm m h
  rw [Udp.send, if_neg (by rw [frame_length, Udp.maxDatagramSize]; omega), if_pos (hos _)]
  rfl

example : sampleSomeip.payload.length ≤ 1384 := by decide

end Rsomeip
