import Verif.Lemmas.Frames
import Verif.Rt.Tcp

/-! # C61–C63 and C70: TCP connections -/

namespace Rsomeip

open Rt Rt.Tcp Spec

/-! ### Sending -/

theorem send_inv (buffer : Bytes) (os : List WriteAnswer) (sent : Nat) (base : Bytes)
    (hs : sent < buffer.length ∨ (sent = 0 ∧ buffer = [])) :
    match send buffer sent (base ++ buffer.take sent) os with
    | (.ok, st) => st = base ++ buffer
    | (.error b, st) => b = buffer ∧ ∃ k, st = base ++ buffer.take k ∧
        (k < buffer.length ∨ buffer = [])
    | (.pending, st) => ∃ k, st = base ++ buffer.take k ∧ (k < buffer.length ∨ buffer = [])
    | (.panic, _) => False := by
  induction os generalizing sent with
  | nil => exact ⟨sent, rfl, hs.imp_right And.right⟩
  | cons a os ih =>
    have hle : ¬ buffer.length < sent := by
      rcases hs with h | ⟨rfl, rfl⟩
      · omega
      · simp
    cases a with
    | wouldBlock => exact ih sent hs
    | broken => exact ⟨rfl, sent, rfl, hs.imp_right And.right⟩
    | failed =>
      simp only [send, if_neg hle]
      exact ⟨trivial, sent, rfl, hs.imp_right And.right⟩
    | wrote n =>
      simp only [send, if_neg hle]
      have htk : base ++ buffer.take sent ++ (buffer.drop sent).take n =
          base ++ buffer.take (sent + ((buffer.drop sent).take n).length) := by
        rw [List.append_assoc, List.take_add]
        congr 2
        rw [List.length_take, List.take_eq_take_iff]
        omega
      by_cases hlt : sent + ((buffer.drop sent).take n).length < buffer.length
      · rw [if_pos hlt, htk]
        exact ih _ (.inl hlt)
      · rw [if_neg hlt, htk]
        show base ++ _ = base ++ _
        rw [List.take_of_length_le (by omega)]

/-- **C61.** For every pattern of partial writes, false alarms and failures: on success the stream
has grown by exactly the buffer; on failure the buffer is given back and the stream has grown by a
proper prefix of it; while waiting likewise. There is no panic. -/
theorem C61_exact (buffer stream : Bytes) (os : List WriteAnswer) :
    match send buffer 0 stream os with
    | (.ok, st) => st = stream ++ buffer
    | (.error b, st) => b = buffer ∧ ∃ p q, buffer = p ++ q ∧ st = stream ++ p ∧
        (q = [] → buffer = [])
    | (.pending, st) => ∃ p q, buffer = p ++ q ∧ st = stream ++ p ∧ (q = [] → buffer = [])
    | (.panic, _) => False := by
  have h := send_inv buffer os 0 stream (by
    cases buffer with
    | nil => exact .inr ⟨rfl, rfl⟩
    | cons => exact .inl (Nat.succ_pos _))
  rw [List.take_zero, List.append_nil] at h
  have key : ∀ k, (k < buffer.length ∨ buffer = []) → (buffer.drop k = [] → buffer = []) := by
    intro k hk h0
    rw [List.drop_eq_nil_iff] at h0
    rcases hk with hk | hk
    · omega
    · exact hk
  revert h
  rcases send buffer 0 stream os with ⟨r, st⟩
  cases r with
  | ok => exact id
  | error b =>
    rintro ⟨h1, k, h2, h3⟩
    exact ⟨h1, _, _, (List.take_append_drop k buffer).symm, h2, key k h3⟩
  | pending =>
    rintro ⟨k, h2, h3⟩
    exact ⟨_, _, (List.take_append_drop k buffer).symm, h2, key k h3⟩
  | panic => exact id

theorem send_done (buffer : Bytes) (os : List WriteAnswer) (sent : Nat) (stream : Bytes)
    (hs : sent ≤ buffer.length)
    (hos : ∀ a ∈ os, a = .wouldBlock ∨ ∃ n, a = .wrote (n + 1))
    (hn : max 1 (buffer.length - sent) ≤ (os.filter (· ≠ .wouldBlock)).length) :
    (send buffer sent stream os).1 = .ok := by
  induction os generalizing sent stream with
  | nil => simp only [List.filter_nil, List.length_nil] at hn; omega
  | cons a os ih =>
    have hos' := fun x hx => hos x (List.mem_cons_of_mem _ hx)
    rcases hos a (List.mem_cons_self ..) with rfl | ⟨n, rfl⟩
    · rw [List.filter_cons_of_neg (by simp)] at hn
      exact ih sent stream hs hos' hn
    · rw [List.filter_cons_of_pos (by simp), List.length_cons] at hn
      simp only [send, if_neg (Nat.not_lt.mpr hs)]
      split
      · rename_i hlt
        simp only [List.length_take, List.length_drop] at hlt
        refine ih _ _ ?_ hos' ?_
        · simp only [List.length_take, List.length_drop]; omega
        · simp only [List.length_take, List.length_drop]; omega
      · rfl

/-- **C61.** Sending succeeds if no answer is a failure and enough writes take at least one byte
each. -/
theorem C61_completes (buffer stream : Bytes) (os : List WriteAnswer)
    (hos : ∀ a ∈ os, a = .wouldBlock ∨ ∃ n, a = .wrote (n + 1))
    (hn : max 1 buffer.length ≤ (os.filter (· ≠ .wouldBlock)).length) :
    send buffer 0 stream os = (.ok, stream ++ buffer) := by
  have h1 := send_done buffer os 0 stream (Nat.zero_le _) hos (by simpa using hn)
  have h2 := C61_exact buffer stream os
  revert h1 h2
  rcases send buffer 0 stream os with ⟨r, st⟩
  rintro rfl h2
  rw [show st = _ from h2]

/-- **C61.** A connection's stream is the concatenation of the buffers sent, in order, followed by a
prefix of the one that failed or is still being sent; nothing is skipped, repeated or mixed. -/
theorem C61_stream (jobs : List (Bytes × List WriteAnswer)) (stream : Bytes) :
    match sendMany stream jobs with
    | (.ok, st) => st = stream ++ (jobs.map Prod.fst).flatten
    | (.panic, _) => False
    | (r, st) => ∃ sent b rest p q, jobs.map Prod.fst = sent ++ b :: rest ∧ b = p ++ q ∧
        st = stream ++ sent.flatten ++ p ∧ (∀ b', r = .error b' → b' = b) := by
  induction jobs generalizing stream with
  | nil => simp [sendMany]
  | cons j jobs ih =>
    obtain ⟨b, os⟩ := j
    have h := C61_exact b stream os
    rw [sendMany]
    revert h
    rcases send b 0 stream os with ⟨r, st⟩
    cases r with
    | ok =>
      rintro h
      have h : st = stream ++ b := h
      subst h
      have ih := ih (stream ++ b)
      revert ih
      dsimp only
      rcases sendMany (stream ++ b) jobs with ⟨r, st⟩
      cases r with
      | ok => rintro rfl; simp
      | panic => exact id
      | error b' =>
        rintro ⟨sent, x, rest, p, q, h1, h2, rfl, h4⟩
        exact ⟨b :: sent, x, rest, p, q, by simp [h1], h2, by simp, h4⟩
      | pending =>
        rintro ⟨sent, x, rest, p, q, h1, h2, rfl, h4⟩
        exact ⟨b :: sent, x, rest, p, q, by simp [h1], h2, by simp, h4⟩
    | error b' =>
      rintro ⟨rfl, p, q, h1, rfl, _⟩
      refine ⟨[], b', jobs.map Prod.fst, p, q, rfl, h1, by simp, ?_⟩
      rintro _ h
      cases h
      rfl
    | pending =>
      rintro ⟨p, q, h1, rfl, _⟩
      exact ⟨[], b, jobs.map Prod.fst, p, q, rfl, h1, by simp, nofun⟩
    | panic => exact id

example : send [1, 2, 3] 0 [9] [.wouldBlock, .wrote 2, .wrote 0, .wrote 5] = (.ok, [9, 1, 2, 3]) := by
  decide

example : sendMany [] [([1, 2], [.wrote 1, .wrote 1]), ([3, 4], [.wrote 1, .failed])] =
    (.error [3, 4], [1, 2, 3]) := by decide

/-! ### Receiving -/

/-- **C62.** Repeated reads are made of single calls of `recv`, each continuing where the one before
ended. -/
theorem C62_reads (stream : Bytes) (os : List ReadAnswer) : results stream os =
    match recv stream os with
    | (none, _, _) => []
    | (some r, stream', os') => r :: results stream' os' := by
  induction os with
  | nil => rfl
  | cons a os ih =>
    cases a with
    | wouldBlock => exact ih
    | broken => rfl
    | failed => rfl
    | read n =>
      simp only [results, recv, List.length_take]
      congr 2
      by_cases h : min n readSize ≤ stream.length
      · rw [Nat.min_eq_left h]
      · rw [List.drop_of_length_le (by omega), List.drop_of_length_le (by omega)]

/-- **C62.** The bytes of the stream reach the decoder without loss, repetition or reordering,
however the stream is cut: the packets joined together are what was taken from the stream, and what
the last read leaves is the rest. -/
theorem C62_bytes (stream : Bytes) (os : List ReadAnswer) :
    ∃ rest, stream = ((results stream os).flatMap fun r =>
      match r with | .packet b => b | _ => []) ++ rest := by
  induction os generalizing stream with
  | nil => exact ⟨stream, rfl⟩
  | cons a os ih =>
    cases a with
    | wouldBlock => exact ih stream
    | broken => exact ih stream
    | failed => exact ih stream
    | read n =>
      obtain ⟨rest, h⟩ := ih (stream.drop (min n readSize))
      refine ⟨rest, ?_⟩
      rw [results, List.flatMap_cons, List.append_assoc, ← h, List.take_append_drop]

example : (results [1, 2, 3, 4] [.read 1, .wouldBlock, .read 2, .failed]) =
    [.packet [1], .packet [2, 3], .closed] := by decide

/-- The payload of a message contained in a packet is shorter than the packet. -/
theorem Spec.Frames.payload_le {b : Bytes} {ms : List Msg} (h : Frames b ms) :
    ∀ m ∈ ms, 16 + m.payload.length ≤ b.length := by
  induction h with
  | nil => nofun
  | cut m n _ _ _ =>
    intro x hx
    rw [List.mem_singleton.mp hx, frameWith_length]
  | cons m _ _ _ ih =>
    intro x hx
    rw [List.length_append, frame_length]
    rcases List.mem_cons.mp hx with rfl | hx
    · omega
    · have := ih x hx; omega

theorem receiveAll_mem (rs : List Recv) (m : Msg) (h : m ∈ (receiveAll rs).1) :
    ∃ b ms, .packet b ∈ rs ∧ Frames b ms ∧ m ∈ ms := by
  induction rs with
  | nil => cases h
  | cons r rs ih =>
    have ih' : m ∈ (receiveAll rs).1 → ∃ b ms, .packet b ∈ r :: rs ∧ Frames b ms ∧ m ∈ ms :=
      fun h =>
        have ⟨b, ms, h1, h2⟩ := ih h
        ⟨b, ms, List.mem_cons_of_mem _ h1, h2⟩
    cases r with
    | packet b =>
      rcases receive_packet b with ⟨ms, hr, hf⟩ | ⟨⟨e, hr⟩, _⟩
      · simp only [receiveAll, hr, List.mem_append] at h
        rcases h with h | h
        · exact ⟨b, ms, List.mem_cons_self .., hf, h⟩
        · exact ih' h
      · simp only [receiveAll, hr] at h
        exact ih' h
    | lagged n => exact ih' h
    | closed => cases h

/-- **C62 fails as stated.** A message whose payload is longer than 1384 bytes is never received
over TCP, whatever was sent and however the stream is cut. -/
theorem C62_large_never_received (stream : Bytes) (os : List ReadAnswer) (m : Msg)
    (h : m ∈ (receiveAll (results stream os)).1) : m.payload.length ≤ 1384 := by
  obtain ⟨b, ms, h1, h2, h3⟩ := receiveAll_mem _ _ h
  have h4 := h2.payload_le m h3
  have h5 : b.length ≤ 1400 := by
    clear h h2 h3 h4
    induction os generalizing stream with
    | nil => cases h1
    | cons a os ih =>
      cases a with
      | wouldBlock => exact ih stream h1
      | broken => exact ih stream ((List.mem_cons.mp h1).resolve_left nofun)
      | failed => exact ih stream ((List.mem_cons.mp h1).resolve_left nofun)
      | read n =>
        rcases List.mem_cons.mp h1 with h1 | h1
        · cases h1
          rw [List.length_take, readSize]
          omega
        · exact ih _ h1
  omega

/-- **C62 fails as stated.** If the stream is cut inside a payload, a message that nobody sent is
received: the same message with the payload cut off. -/
theorem C62_cut_invents (m : Msg) (hm : Normal m) (hn : 8 + m.payload.length < 2 ^ 32) (k : Nat)
    (hk : k < m.payload.length) (rest : Bytes) (hs : 16 + k ≤ 1400) (os : List ReadAnswer) :
    ∃ ms, (receiveAll (results (frame m ++ rest) (.read (16 + k) :: os))).1 =
      { m with payload := m.payload.take k } :: ms := by
  have hcut : (frame m ++ rest).take (min (16 + k) readSize) =
      frameWith { m with payload := m.payload.take k } m.payload.length := by
    rw [Nat.min_eq_left (show 16 + k ≤ readSize from hs), frame, frameWith, frameWith, List.append_assoc,
      List.take_append, List.take_of_length_le (by
        simp only [List.length_append, be_length, head_length]; omega)]
    congr 1
    simp only [List.length_append, be_length, head_length]
    rw [Nat.add_sub_cancel_left, List.take_append, Nat.sub_eq_zero_of_le (Nat.le_of_lt hk),
      List.take_zero, List.append_nil]
  have hr : receive (.packet (frameWith { m with payload := m.payload.take k } m.payload.length)) =
      .route [{ m with payload := m.payload.take k }] :=
    (receive_route _ _).mpr (.cut _ _ hm hn (by simp only [List.length_take]; omega))
  refine ⟨(receiveAll (results ((frame m ++ rest).drop (min (16 + k) readSize)) os)).1, ?_⟩
  rw [results, hcut, receiveAll, hr]
  rfl

/-- **C62 fails as stated.** If the stream is cut inside the header of a message, the front part is
thrown away. -/
theorem C62_cut_loses (m : Msg) (k : Nat) (h0 : 0 < k) (hk : k < 16) (rest : Bytes)
    (os : List ReadAnswer) :
    receiveAll (results (frame m ++ rest) (.read k :: os)) =
      receiveAll (results ((frame m ++ rest).drop k) os) := by
  have hmin : min k readSize = k := Nat.min_eq_left (by rw [readSize]; omega)
  have hl : ((frame m ++ rest).take k).length = k := by
    rw [List.length_take, List.length_append, frame_length]; omega
  rw [results, hmin, receiveAll]
  generalize (frame m ++ rest).take k = b at hl
  rcases receive_packet b with ⟨ms, hr, hf⟩ | ⟨⟨e, hr⟩, _⟩
  · cases hf with
    | nil => simp at hl; omega
    | cut m n => rw [frameWith_length] at hl; omega
    | cons m => rw [List.length_append, frame_length] at hl; omega
  · rw [hr]

/-- **C62 fails as stated.** The same stream gives different messages depending on how it is cut. -/
theorem C62_depends_on_cut : ∃ (stream : Bytes) (os os' : List ReadAnswer),
    (results stream os).all (fun r => r ≠ .closed) ∧ (results stream os').all (fun r => r ≠ .closed) ∧
    (receiveAll (results stream os)).1 = [sampleSomeip] ∧
    (receiveAll (results stream os')).1 = [{ sampleSomeip with payload := [0xaa] }] :=
  ⟨frame sampleSomeip, [.read 1400], [.read 17, .read 1400], by decide +kernel⟩

/-- **C62**, the part that holds: if every read gives whole messages, exactly the messages sent are
received, in order, however they are distributed over reads. What is missing: reads that end inside
a message, see above. -/
theorem C62_whole_reads_partial (groups : List (List Msg))
    (hm : ∀ g ∈ groups, ∀ m ∈ g, Normal m ∧ 8 + m.payload.length < 2 ^ 32)
    (hs : ∀ g ∈ groups, (g.flatMap frame).length ≤ 1400) (rest : Bytes) :
    receiveAll (results ((groups.flatten.flatMap frame) ++ rest)
      (groups.map fun g => .read (g.flatMap frame).length)) = (groups.flatten, true) := by
  induction groups with
  | nil => rfl
  | cons g gs ih =>
    have h1 := hs g (List.mem_cons_self ..)
    rw [List.flatten_cons, List.flatMap_append, List.append_assoc, List.map_cons, results,
      Nat.min_eq_left (by rw [readSize]; exact h1), List.take_left, List.drop_left, receiveAll,
      (receive_route _ _).mpr (Frames.flatMap g (hm g (List.mem_cons_self ..)))]
    dsimp only
    rw [ih (fun x hx => hm x (List.mem_cons_of_mem _ hx))
      (fun x hx => hs x (List.mem_cons_of_mem _ hx))]

example : Normal sampleSomeip ∧ 8 + sampleSomeip.payload.length < 2 ^ 32 ∧
    1 < sampleSomeip.payload.length ∧
    ([sampleSomeip, sampleSomeip].flatMap frame).length ≤ 1400 :=
  ⟨⟨rfl, rfl⟩, by decide +kernel⟩

/-! ### End of the stream -/

/-- **C63 fails as stated.** When the peer has closed the stream and everything was read, every
further read returns an empty packet, the receive loop hands on nothing and never ends. -/
theorem C63_eof_not_reported (ns : List Nat) :
    results [] (ns.map .read) = ns.map (fun _ => .packet []) ∧
    receiveAll (results [] (ns.map .read)) = ([], true) := by
  have h : results [] (ns.map .read) = ns.map (fun _ => .packet []) := by
    induction ns with
    | nil => rfl
    | cons n ns ih => simp only [List.map_cons, results, List.take_nil, List.drop_nil, ih]
  refine ⟨h, ?_⟩
  rw [h]
  have he : receive (.packet []) = .route [] := (receive_route _ _).mpr .nil
  clear h
  induction ns with
  | nil => rfl
  | cons n ns ih => rw [List.map_cons, receiveAll, he]; simp only [ih, List.nil_append]

/-- **C63**, the part that holds: a failing read or a broken connection is reported as closed and ends
the receive loop. What was received before is kept, whatever it was; nothing is received afterwards. -/
theorem C63_failure_closes_partial (stream : Bytes) (pre os : List ReadAnswer) (a : ReadAnswer)
    (ha : a = .broken ∨ a = .failed) :
    receiveAll (results stream (pre ++ a :: os)) = ((receiveAll (results stream pre)).1, false) := by
  induction pre generalizing stream with
  | nil => rcases ha with rfl | rfl <;> rfl
  | cons x pre ih =>
    cases x with
    | wouldBlock => exact ih stream
    | broken => rfl
    | failed => rfl
    | read n =>
      rw [List.cons_append, results, results, receiveAll, receiveAll]
      rcases receive_packet (stream.take (min n readSize)) with ⟨ms, h, -⟩ | ⟨⟨e, h⟩, -⟩
      · rw [h]
        simp only [ih]
      · rw [h]
        exact ih _

/-- One message, then an error, while another message is there. -/
example : receiveAll (results (frame sampleSomeip ++ frame sampleSomeip)
    ([.read (frame sampleSomeip).length] ++ .failed :: [.read 1400])) = ([sampleSomeip], false) := by
  decide +kernel

/-- **C70 fails as stated.** A false alarm — `readable()` returns although nothing can be read, which
its documentation allows — closes a healthy connection, with data still to come. The same false
alarm when writing makes `send` fail. -/
theorem C70_false_alarm_closes (stream buffer : Bytes) (os : List ReadAnswer)
    (ws : List WriteAnswer) :
    recv stream (.failed :: os) = (some .closed, stream, os) ∧
    receiveAll (results stream (.failed :: os)) = ([], false) ∧
    send buffer 0 stream (.failed :: ws) = (.error buffer, stream) := by
  refine ⟨rfl, rfl, ?_⟩
  rw [send, if_neg (Nat.not_lt_zero _)]

/-- **C70**, the part that holds: false alarms reported by `readable()` and `writable()` themselves
change nothing. -/
theorem C70_would_block_ignored_partial (stream buffer : Bytes) (os : List ReadAnswer)
    (ws : List WriteAnswer) :
    results stream os = results stream (os.filter (· ≠ .wouldBlock)) ∧
    send buffer 0 stream ws = send buffer 0 stream (ws.filter (· ≠ .wouldBlock)) := by
  constructor
  · induction os generalizing stream with
    | nil => rfl
    | cons a os ih =>
      cases a with
      | wouldBlock => rw [List.filter_cons_of_neg (by simp)]; exact ih stream
      | broken => rw [List.filter_cons_of_pos (by simp)]; simp only [results]; rw [ih]
      | failed => rw [List.filter_cons_of_pos (by simp)]; simp only [results]; rw [ih]
      | read n => rw [List.filter_cons_of_pos (by simp)]; simp only [results]; rw [ih]
  · generalize 0 = sent
    induction ws generalizing sent stream with
    | nil => rfl
    | cons a ws ih =>
      cases a with
      | wouldBlock => rw [List.filter_cons_of_neg (by simp)]; exact ih stream sent
      | broken => rw [List.filter_cons_of_pos (by simp)]; simp only [send]
      | failed => rw [List.filter_cons_of_pos (by simp)]; simp only [send]
      | wrote n =>
        rw [List.filter_cons_of_pos (by simp)]
        simp only [send]
        split
        · rfl
        · split
          · exact ih _ _
          · rfl

end Rsomeip
