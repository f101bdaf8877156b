import Verif.Lemmas.Sample

/-! # The conversation of the sample programs (C110) -/

namespace Rsomeip

open Spec Spec.Sample Proto Proto.Sample Rt

namespace Proto.Sample

theorem asked_snoc (tr : Trace) (a : Action) (o : Obs) : asked (tr ++ [(a, o)]) =
    asked tr ++ (match o with | .asked m => [m] | _ => []) := by
  simp only [asked, List.filterMap_append]
  cases o <;> rfl

theorem served_snoc (tr : Trace) (a : Action) (o : Obs) : served (tr ++ [(a, o)]) =
    served tr ++ (match o with | .served q r => [(q, r)] | _ => []) := by
  simp only [served, List.filterMap_append]
  cases o <;> rfl

theorem heard_snoc (tr : Trace) (a : Action) (o : Obs) : heard (tr ++ [(a, o)]) =
    heard tr ++ (match o with | .heard m => [m] | _ => []) := by
  simp only [heard, List.filterMap_append]
  cases o <;> rfl

/-- The bytes of a message of the sample programs. -/
abbrev bytesOf (m : Message Bytes) : Bytes := messageBytes m m.body

/-- The steps that are possible, given that the `n`-th request is the next one. -/
inductive Move (s : State) (n : Nat) : Action → State → Obs → Prop where
  | ask : s.asker = .ready → Move s n .ask
      { s with session := after SessionId.enabled (n + 1), asker := .waiting,
               toAnswerer := s.toAnswerer ++ [(.asker, bytesOf (question n))] }
      (.asked (question n))
  | serve {i : Nat} {src : Source} {b : Bytes} {q : Message Bytes} : s.answerer = true →
      s.toAnswerer[i]? = some (src, b) →
      answer b = .done (q, reply q, bytesOf (reply q)) → Move s n (.serve i)
        { s with toAnswerer := s.toAnswerer.eraseIdx i,
                 toAsker := if src = .asker then s.toAsker ++ [bytesOf (reply q)] else s.toAsker }
        (.served q (reply q))
  | serveBad {i : Nat} {src : Source} {b : Bytes} : s.answerer = true →
      s.toAnswerer[i]? = some (src, b) → answer b = .panic → Move s n (.serve i)
        { s with toAnswerer := s.toAnswerer.eraseIdx i, answerer := false } .answererPanics
  | hear {i : Nat} {b : Bytes} {m : Message Bytes} : s.asker = .waiting →
      s.toAsker[i]? = some b → decode proxy (receive b) = .done m → Move s n (.hear i)
        { s with toAsker := s.toAsker.eraseIdx i, asker := .ready } (.heard m)
  | hearBad {i : Nat} {b : Bytes} : s.asker = .waiting →
      s.toAsker[i]? = some b → decode proxy (receive b) = .panic → Move s n (.hear i)
        { s with toAsker := s.toAsker.eraseIdx i, asker := .stopped } .askerPanics
  | loseRequest {i : Nat} : Move s n (.loseRequest i)
      { s with toAnswerer := s.toAnswerer.eraseIdx i } .silent
  | loseResponse {i : Nat} : Move s n (.loseResponse i)
      { s with toAsker := s.toAsker.eraseIdx i } .silent
  | repeatRequest {i : Nat} {d : Source × Bytes} : s.toAnswerer[i]? = some d →
      Move s n (.repeatRequest i) { s with toAnswerer := s.toAnswerer ++ [d] } .silent
  | repeatResponse {i : Nat} {d : Bytes} : s.toAsker[i]? = some d →
      Move s n (.repeatResponse i) { s with toAsker := s.toAsker ++ [d] } .silent
  | toAnswerer {b : Bytes} : Move s n (.toAnswerer b)
      { s with toAnswerer := s.toAnswerer ++ [(.stranger, b)] } .silent
  | toAsker {b : Bytes} : Move s n (.toAsker b) { s with toAsker := s.toAsker ++ [b] } .silent

theorem move_of_step {s s' : State} {n : Nat} {a : Action} {o : Obs}
    (hs : s.session = after SessionId.enabled n) (h : step s a = some (s', o)) : Move s n a s' o := by
  cases a with
  | ask =>
    simp only [step, hs, C26_stays_enabled, question_after, ask_question] at h
    split at h
    · cases h; exact .ask ‹_›
    · cases h
  | serve i =>
    simp only [step] at h
    split at h
    · split at h
      · cases h
      next src b hb =>
        split at h
        next q a r ha =>
          cases h
          obtain ⟨-, -, rfl, rfl⟩ := (answer_iff _ _ _ _).mp ha
          exact .serve ‹_› hb ha
        next ha => cases h; exact .serveBad ‹_› hb ha
        · cases h
    · cases h
  | hear i =>
    simp only [step] at h
    split at h
    · split at h
      · cases h
      next b hb =>
        split at h
        next m ha => cases h; exact .hear ‹_› hb ha
        next ha => cases h; exact .hearBad ‹_› hb ha
        · cases h
    · cases h
  | loseRequest i => simp only [step] at h; split at h <;> cases h; exact .loseRequest
  | loseResponse i => simp only [step] at h; split at h <;> cases h; exact .loseResponse
  | repeatRequest i => simp only [step] at h; split at h <;> cases h; exact .repeatRequest ‹_›
  | repeatResponse i => simp only [step] at h; split at h <;> cases h; exact .repeatResponse ‹_›
  | toAnswerer b => cases h; exact .toAnswerer
  | toAsker b => cases h; exact .toAsker

theorem session_inv {tr : Trace} {s : State} (e : Exec step init tr s) :
    s.session = after SessionId.enabled (asked tr).length ∧
      asked tr = (List.range (asked tr).length).map question := by
  induction e with
  | nil => exact ⟨rfl, rfl⟩
  | snoc e h ih =>
    obtain ⟨h1, h2⟩ := ih
    have mv := move_of_step h1 h
    rw [asked_snoc]
    cases mv with
    | ask _ =>
      refine ⟨by simp, ?_⟩
      simp only [List.length_append, List.length_singleton, List.range_succ, List.map_append,
        List.map_cons, List.map_nil]
      rw [← h2]
    | _ => simp only [List.append_nil]; exact ⟨h1, h2⟩

theorem move {tr : Trace} {s s' : State} {a : Action} {o : Obs} (e : Exec step init tr s)
    (h : step s a = some (s', o)) : Move s (asked tr).length a s' o :=
  move_of_step (session_inv e).1 h

theorem mem_question {tr : Trace} {s : State} (e : Exec step init tr s) {q : Message Bytes} :
    q ∈ asked tr ↔ ∃ k < (asked tr).length, q = question k := by
  constructor
  · intro h
    rw [(session_inv e).2] at h
    obtain ⟨k, hk, rfl⟩ := List.mem_map.mp h
    exact ⟨k, List.mem_range.mp hk, rfl⟩
  · rintro ⟨k, hk, rfl⟩
    rw [(session_inv e).2]
    exact List.mem_map.mpr ⟨k, List.mem_range.mpr hk, rfl⟩

/-- What is under way was sent by the programs, as far as it goes back to the asker. -/
structure Clean (tr : Trace) (s : State) : Prop where
  requests : ∀ d ∈ s.toAnswerer, d.1 = .asker → ∃ q ∈ asked tr, d.2 = bytesOf q
  responses : (∀ x ∈ tr, ∀ b, x.1 ≠ .toAsker b) → ∀ b ∈ s.toAsker, ∃ q ∈ asked tr,
    b = bytesOf (reply q)
  asker : (∀ x ∈ tr, ∀ b, x.1 ≠ .toAsker b) → s.asker ≠ .stopped
  strangers : (∀ x ∈ tr, ∀ b, x.1 ≠ .toAnswerer b) → ∀ d ∈ s.toAnswerer, d.1 = .asker
  answerer : (∀ x ∈ tr, ∀ b, x.1 ≠ .toAnswerer b) → s.answerer = true

theorem answer_asked {tr : Trace} {s : State} (e : Exec step init tr s) {q : Message Bytes}
    (h : q ∈ asked tr) : answer (bytesOf q) = .done (q, reply q, bytesOf (reply q)) := by
  obtain ⟨k, -, rfl⟩ := (mem_question e).mp h
  exact answer_question k

theorem hear_asked {tr : Trace} {s : State} (e : Exec step init tr s) {q : Message Bytes}
    (h : q ∈ asked tr) : decode proxy (receive (bytesOf (reply q))) = .done (reply q) := by
  obtain ⟨k, -, rfl⟩ := (mem_question e).mp h
  exact hear_reply k

theorem clean {tr : Trace} {s : State} (e : Exec step init tr s) : Clean tr s := by
  induction e with
  | nil => exact ⟨nofun, fun _ => nofun, fun _ => nofun, fun _ => nofun, fun _ => rfl⟩
  | @snoc tr s s' a o e h ih =>
    have mv := move e h
    have mono : ∀ q, q ∈ asked tr → q ∈ asked (tr ++ [(a, o)]) := fun q hq => by
      rw [asked_snoc]
      exact List.mem_append_left _ hq
    have old : ∀ P : Action → Prop, (∀ x ∈ tr ++ [(a, o)], P x.1) → (∀ x ∈ tr, P x.1) ∧ P a :=
      fun P hP => ⟨fun x hx => hP x (List.mem_append_left _ hx), hP (a, o) (by simp)⟩
    have oldA := old (fun x => ∀ b, x ≠ .toAsker b)
    have oldB := old (fun x => ∀ b, x ≠ .toAnswerer b)
    have keepQ : ∀ d : Source × Bytes, d ∈ s.toAnswerer → d.1 = .asker →
        ∃ q ∈ asked (tr ++ [(a, o)]), d.2 = bytesOf q := fun d hd h1 =>
      let ⟨q, hq, e⟩ := ih.requests d hd h1
      ⟨q, mono q hq, e⟩
    have keepR : (∀ x ∈ tr ++ [(a, o)], ∀ b, x.1 ≠ .toAsker b) → ∀ b ∈ s.toAsker,
        ∃ q ∈ asked (tr ++ [(a, o)]), b = bytesOf (reply q) := fun hn b hb =>
      let ⟨q, hq, e⟩ := ih.responses (oldA hn).1 b hb
      ⟨q, mono q hq, e⟩
    have keepA := fun hn => ih.asker (oldA hn).1
    have keepS := fun hn => ih.strangers (oldB hn).1
    have keepB := fun hn => ih.answerer (oldB hn).1
    cases mv with
    | ask hr =>
      refine ⟨fun d hd h1 => ?_, keepR, fun _ => nofun, fun hn d hd => ?_, keepB⟩
      · rcases List.mem_append.mp hd with hd | hd
        · exact keepQ d hd h1
        · rw [List.mem_singleton.mp hd]
          exact ⟨_, by rw [asked_snoc]; simp, rfl⟩
      · rcases List.mem_append.mp hd with hd | hd
        · exact keepS hn d hd
        · rw [List.mem_singleton.mp hd]
    | @serve i src b q hup hb ha =>
      refine ⟨fun d hd => keepQ d (List.mem_of_mem_eraseIdx hd), fun hn b' hb' => ?_, keepA,
        fun hn d hd => keepS hn d (List.mem_of_mem_eraseIdx hd), keepB⟩
      dsimp only at hb'
      split at hb'
      next hsrc =>
        rcases List.mem_append.mp hb' with hb' | hb'
        · exact keepR hn b' hb'
        · rw [List.mem_singleton.mp hb']
          obtain ⟨q', hq', e'⟩ := ih.requests _ (List.mem_of_getElem? hb) hsrc
          dsimp only at e'
          rw [e', answer_asked e hq'] at ha
          cases ha
          exact ⟨q, mono q hq', rfl⟩
      · exact keepR hn b' hb'
    | @serveBad i src b hup hb ha =>
      refine ⟨fun d hd => keepQ d (List.mem_of_mem_eraseIdx hd), keepR, keepA,
        fun hn d hd => keepS hn d (List.mem_of_mem_eraseIdx hd), fun hn => ?_⟩
      have hm := List.mem_of_getElem? hb
      obtain ⟨q', hq', e'⟩ := ih.requests _ hm (keepS hn _ hm)
      dsimp only at e'
      rw [e', answer_asked e hq'] at ha
      cases ha
    | @hear i b m hw hb hd =>
      exact ⟨keepQ, fun hn b' hb' => keepR hn b' (List.mem_of_mem_eraseIdx hb'), fun _ => nofun,
        keepS, keepB⟩
    | @hearBad i b hw hb hd =>
      refine ⟨keepQ, fun hn b' hb' => keepR hn b' (List.mem_of_mem_eraseIdx hb'), fun hn => ?_,
        keepS, keepB⟩
      obtain ⟨q, hq, rfl⟩ := ih.responses (oldA hn).1 b (List.mem_of_getElem? hb)
      rw [hear_asked e hq] at hd
      cases hd
    | loseRequest =>
      exact ⟨fun d hd => keepQ d (List.mem_of_mem_eraseIdx hd), keepR, keepA,
        fun hn d hd => keepS hn d (List.mem_of_mem_eraseIdx hd), keepB⟩
    | loseResponse =>
      exact ⟨keepQ, fun hn b' hb' => keepR hn b' (List.mem_of_mem_eraseIdx hb'), keepA, keepS, keepB⟩
    | @repeatRequest i d hi =>
      have key : ∀ d' ∈ s.toAnswerer ++ [d], d' ∈ s.toAnswerer := fun d' hd' => by
        rcases List.mem_append.mp hd' with h | h
        · exact h
        · rw [List.mem_singleton.mp h]; exact List.mem_of_getElem? hi
      exact ⟨fun d' hd' => keepQ d' (key d' hd'), keepR, keepA, fun hn d' hd' => keepS hn d' (key d' hd'),
        keepB⟩
    | @repeatResponse i d hi =>
      have key : ∀ d' ∈ s.toAsker ++ [d], d' ∈ s.toAsker := fun d' hd' => by
        rcases List.mem_append.mp hd' with h | h
        · exact h
        · rw [List.mem_singleton.mp h]; exact List.mem_of_getElem? hi
      exact ⟨keepQ, fun hn b' hb' => keepR hn b' (key b' hb'), keepA, keepS, keepB⟩
    | @toAnswerer b =>
      refine ⟨fun d hd h1 => ?_, keepR, keepA, fun hn => absurd rfl ((oldB hn).2 b), keepB⟩
      rcases List.mem_append.mp hd with hd | hd
      · exact keepQ d hd h1
      · rw [List.mem_singleton.mp hd] at h1
        cases h1
    | @toAsker b =>
      exact ⟨keepQ, fun hn => absurd rfl ((oldA hn).2 b), keepA, keepS, keepB⟩

end Proto.Sample

/-- **C110.** Whatever happens, the requests sent are the expected ones, one after the other. -/
theorem C110_requests {tr : Trace} {s : State} (e : Exec step init tr s) :
    asked tr = (List.range (asked tr).length).map question := (session_inv e).2

/-- **C110.** One turn of the answering program, for every datagram: it panics unless what fits into
its buffer is a request to the sample service; otherwise it sends the same message back as response.
No datagram makes it hang. -/
theorem C110_answer (b : Bytes) :
    (∀ q a r, answer b = .done (q, a, r) ↔
      (∃ rest, Message.de Dec.bytes (b.take 64) = (.ok q, rest)) ∧ IsRequest q ∧ a = reply q ∧
        r = messageBytes a a.body) ∧
    ((¬ ∃ q rest, Message.de Dec.bytes (b.take 64) = (.ok q, rest) ∧ IsRequest q) ↔
      answer b = .panic) := by
  refine ⟨answer_iff b, fun h => ?_, ?_⟩
  · cases ha : answer b with
    | done x =>
      obtain ⟨q, a, r⟩ := x
      obtain ⟨⟨rest, h1⟩, h2, -⟩ := (answer_iff b q a r).mp ha
      exact absurd ⟨q, rest, h1, h2⟩ h
    | panic => rfl
    | hang =>
      exfalso
      simp only [answer] at ha
      split at ha
      · cases ha
      next hd => exact decode_total _ _ hd
      next q hq =>
        obtain ⟨⟨rest, hr⟩, hl⟩ := (decode_iff stub (receive b) q).mp hq
        exact h ⟨q, rest, hr, (legal_stub_in q).mp hl⟩
  · rintro ha ⟨q, rest, h1, h2⟩
    rw [(answer_iff b q _ _).mpr ⟨⟨rest, h1⟩, h2, rfl, rfl⟩] at ha
    cases ha

/-- **C110.** What the waiting asking program does with a datagram: it panics unless what fits into its
buffer is a response, or an error, of the sample service; any of these it takes, whatever the session
and client in it. -/
theorem C110_hear (s : State) (hw : s.asker = .waiting) (i : Nat) (b : Bytes)
    (hb : s.toAsker[i]? = some b) :
    (∀ m s', step s (.hear i) = some (s', .heard m) →
      (∃ rest, Message.de Dec.bytes (b.take 64) = (.ok m, rest)) ∧ IsAnswer m ∧ s'.asker = .ready) ∧
    (∀ m rest, Message.de Dec.bytes (b.take 64) = (.ok m, rest) → IsAnswer m →
      ∃ s', step s (.hear i) = some (s', .heard m)) ∧
    ((¬ ∃ m rest, Message.de Dec.bytes (b.take 64) = (.ok m, rest) ∧ IsAnswer m) →
      ∃ s', step s (.hear i) = some (s', .askerPanics) ∧ s'.asker = .stopped) := by
  have hi := decode_iff proxy (receive b)
  simp only [legal_proxy_in] at hi
  simp only [step, hw, hb, if_true]
  refine ⟨fun m s' h => ?_, fun m rest h1 h2 => ?_, fun hn => ?_⟩
  · split at h
    next m' hd =>
      cases h
      obtain ⟨h1, h2⟩ := (hi m).mp hd
      exact ⟨h1, h2, rfl⟩
    · cases h
    · cases h
  · rw [(hi m).mpr ⟨⟨rest, h1⟩, h2⟩]
    exact ⟨_, rfl⟩
  · cases hd : decode proxy (receive b) with
    | done m =>
      obtain ⟨⟨rest, h1⟩, h2⟩ := (hi m).mp hd
      exact absurd ⟨m, rest, h1, h2⟩ hn
    | panic => exact ⟨_, rfl, rfl⟩
    | hang => exact absurd hd (decode_total _ _)

example : IsAnswer ((reply (question 3)).withMessageType .error) := ⟨rfl, rfl, rfl, rfl, .inr rfl⟩

/-- A request with 49 bytes of body. -/
def Spec.Sample.longQuestion : Message Bytes := (question 0).withBody (List.replicate 49 7)

example : answer (messageBytes (question 70000) (question 70000).body) =
    .done (question 70000, reply (question 70000),
      messageBytes (reply (question 70000)) (question 70000).body) := by decide +kernel
example : answer [0x12, 0x34] = .panic := by decide +kernel

/-- **C110.** What the answering program prints is a request and its response, always. -/
theorem C110_served {tr : Trace} {s : State} (e : Exec step init tr s) :
    ∀ x ∈ served tr, IsRequest x.1 ∧ x.2 = reply x.1 := by
  induction e with
  | nil => nofun
  | @snoc tr s s' a o e h ih =>
    intro x hx
    rw [served_snoc] at hx
    rcases List.mem_append.mp hx with hx | hx
    · exact ih x hx
    · have mv := move e h
      cases mv with
      | serve _ _ ha =>
        rw [List.mem_singleton.mp hx]
        exact ⟨((answer_iff _ _ _ _).mp ha).2.1, rfl⟩
      | _ => simp at hx

/-- **C110**, the asking program: as long as no stranger sends to it, it does not panic, and what it
receives is the response to a request it sent before, whatever the network loses, repeats or reorders,
and whatever is sent to the other program. Missing: strangers (`C110_stranger_stops_asker`). -/
theorem C110_asker_partial {tr : Trace} {s : State} {a : Action} {o : Obs}
    (e : Exec step init (tr ++ [(a, o)]) s)
    (hn : ∀ x ∈ tr ++ [(a, o)], ∀ b, x.1 ≠ .toAsker b) :
    o ≠ .askerPanics ∧ ∀ m, o = .heard m → ∃ q ∈ asked tr, m = reply q := by
  obtain ⟨s', e', h⟩ := e.last
  have hc := clean e'
  have hn' : ∀ x ∈ tr, ∀ b, x.1 ≠ .toAsker b := fun x hx => hn x (List.mem_append_left _ hx)
  have mv := move e' h
  cases mv with
  | hear hw hb hd =>
    refine ⟨nofun, fun m' hm => ?_⟩
    cases hm
    obtain ⟨q, hq, rfl⟩ := hc.responses hn' _ (List.mem_of_getElem? hb)
    rw [hear_asked e' hq] at hd
    cases hd
    exact ⟨q, hq, rfl⟩
  | hearBad hw hb hd =>
    obtain ⟨q, hq, rfl⟩ := hc.responses hn' _ (List.mem_of_getElem? hb)
    rw [hear_asked e' hq] at hd
    cases hd
  | _ => exact ⟨nofun, nofun⟩

/-- **C110**, the answering program: as long as no stranger sends to it, it does not panic, and it
serves requests the other program sent before. Missing: strangers (`C110_stranger_stops_answerer`). -/
theorem C110_answerer_partial {tr : Trace} {s : State} {a : Action} {o : Obs}
    (e : Exec step init (tr ++ [(a, o)]) s)
    (hn : ∀ x ∈ tr ++ [(a, o)], ∀ b, x.1 ≠ .toAnswerer b) :
    o ≠ .answererPanics ∧ ∀ q r, o = .served q r → q ∈ asked tr := by
  obtain ⟨s', e', h⟩ := e.last
  have hc := clean e'
  have hn' : ∀ x ∈ tr, ∀ b, x.1 ≠ .toAnswerer b := fun x hx => hn x (List.mem_append_left _ hx)
  have mv := move e' h
  cases mv with
  | serve hup hb ha =>
    refine ⟨nofun, fun q' r hm => ?_⟩
    cases hm
    have hm := List.mem_of_getElem? hb
    obtain ⟨q, hq, hb'⟩ := hc.requests _ hm (hc.strangers hn' _ hm)
    dsimp only at hb'
    rw [hb', answer_asked e' hq] at ha
    cases ha
    exact hq
  | serveBad hup hb ha =>
    have hm := List.mem_of_getElem? hb
    obtain ⟨q, hq, hb'⟩ := hc.requests _ hm (hc.strangers hn' _ hm)
    dsimp only at hb'
    rw [hb', answer_asked e' hq] at ha
    cases ha
  | _ => exact ⟨nofun, nofun⟩

/-- A run with a lost request, a repeated one and responses out of order. -/
example : ∃ tr s, Exec step init tr s ∧ NoStrangers tr ∧
    heard tr = [reply (question 0), reply (question 0)] ∧ asked tr = [question 0, question 1] := by
  obtain ⟨tr, s, e, h⟩ := exec_by (step := step) (s := init)
    [.ask, .repeatRequest 0, .serve 0, .serve 0, .hear 1, .ask, .loseRequest 0, .hear 0]
    (fun tr _ => decide ((∀ x ∈ tr, ¬ Foreign x.1) ∧
      heard tr = [reply (question 0), reply (question 0)] ∧ asked tr = [question 0, question 1]))
    (by decide +kernel)
  obtain ⟨h1, h2, h3⟩ := of_decide_eq_true h
  exact ⟨tr, s, e, h1, h2, h3⟩

/-! ### A faithful network -/

namespace Proto.Sample

/-- Where the conversation is after `n` answered requests. -/
inductive Phase (tr : Trace) (s : State) (n : Nat) : Prop where
  | ready : s.asker = .ready → s.toAnswerer = [] → s.toAsker = [] → (asked tr).length = n →
      (served tr) = (List.range n).map (fun k => (question k, reply (question k))) → Phase tr s n
  | sent : s.asker = .waiting → s.toAnswerer = [(.asker, bytesOf (question n))] → s.toAsker = [] →
      (asked tr).length = n + 1 →
      (served tr) = (List.range n).map (fun k => (question k, reply (question k))) → Phase tr s n
  | answered : s.asker = .waiting → s.toAnswerer = [] → s.toAsker = [bytesOf (reply (question n))] →
      (asked tr).length = n + 1 →
      (served tr) = (List.range (n + 1)).map (fun k => (question k, reply (question k))) →
      Phase tr s n

theorem faithful_inv {tr : Trace} {s : State} (e : Exec step init tr s) (hf : Faithful tr) :
    ¬ Panicked tr ∧ s.answerer = true ∧
      ∃ n, heard tr = (List.range n).map (fun k => reply (question k)) ∧ Phase tr s n := by
  induction e with
  | nil =>
    refine ⟨?_, rfl, 0, rfl, .ready rfl rfl rfl rfl rfl⟩
    rintro ⟨x, hx, -⟩
    cases hx
  | @snoc tr s s' a o e h ih =>
    obtain ⟨hp, hup, n, hh, ph⟩ := ih fun x hx => hf x (List.mem_append_left _ hx)
    have ho : Own a := hf (a, o) (by simp)
    have mv := move e h
    have panic : o ≠ .askerPanics → o ≠ .answererPanics → ¬ Panicked (tr ++ [(a, o)]) := by
      rintro h1 h2 ⟨x, hx, hb⟩
      rcases List.mem_append.mp hx with hx | hx
      · exact hp ⟨x, hx, hb⟩
      · rw [List.mem_singleton.mp hx] at hb
        exact hb.elim h1 h2
    cases mv with
    | ask hr =>
      refine ⟨panic nofun nofun, hup, n, by simpa [heard_snoc] using hh, ?_⟩
      cases ph with
      | ready _ h2 h3 h4 h5 =>
        refine .sent rfl ?_ h3 (by simp [asked_snoc, h4]) (by simpa [served_snoc] using h5)
        rw [h2, h4]
        rfl
      | sent h1 => rw [h1] at hr; cases hr
      | answered h1 => rw [h1] at hr; cases hr
    | @serve i src b q _ hb ha =>
      refine ⟨panic nofun nofun, hup, n, by simpa [heard_snoc] using hh, ?_⟩
      cases ph with
      | ready _ h2 => rw [h2] at hb; simp at hb
      | sent h1 h2 h3 h4 h5 =>
        rw [h2] at hb
        obtain ⟨rfl, hb⟩ : i = 0 ∧ (Source.asker, bytesOf (question n)) = (src, b) := by
          cases i <;> simp_all
        cases hb
        rw [answer_question n] at ha
        cases ha
        refine .answered h1 (by simp [h2]) ?_ (by simpa [asked_snoc] using h4) ?_
        · simp only [if_true, h3]
          rfl
        · rw [served_snoc, h5, List.range_succ, List.map_append]
          rfl
      | answered _ h2 => rw [h2] at hb; simp at hb
    | @serveBad i src b _ hb ha =>
      exfalso
      cases ph with
      | ready _ h2 => rw [h2] at hb; simp at hb
      | sent h1 h2 h3 h4 h5 =>
        rw [h2] at hb
        obtain ⟨rfl, hb⟩ : i = 0 ∧ (Source.asker, bytesOf (question n)) = (src, b) := by
          cases i <;> simp_all
        cases hb
        rw [answer_question n] at ha
        cases ha
      | answered _ h2 => rw [h2] at hb; simp at hb
    | @hear i b m hw hb hd =>
      cases ph with
      | ready h1 => rw [h1] at hw; cases hw
      | sent _ _ h3 => rw [h3] at hb; simp at hb
      | answered h1 h2 h3 h4 h5 =>
        rw [h3] at hb
        obtain ⟨rfl, hb'⟩ : i = 0 ∧ bytesOf (reply (question n)) = b := by
          cases i <;> simp_all
        subst hb'
        have hr : decode proxy (receive (bytesOf (reply (question n)))) = .done (reply (question n)) :=
          hear_reply n
        rw [hr] at hd
        cases hd
        refine ⟨panic nofun nofun, hup, n + 1, ?_, .ready rfl h2 (by simp [h3])
          (by simpa [asked_snoc] using h4) (by simpa [served_snoc] using h5)⟩
        rw [heard_snoc, hh, List.range_succ, List.map_append]
        rfl
    | @hearBad i b hw hb hd =>
      exfalso
      cases ph with
      | ready h1 => rw [h1] at hw; cases hw
      | sent _ _ h3 => rw [h3] at hb; simp at hb
      | answered h1 h2 h3 h4 h5 =>
        rw [h3] at hb
        obtain ⟨rfl, hb'⟩ : i = 0 ∧ bytesOf (reply (question n)) = b := by
          cases i <;> simp_all
        subst hb'
        have hr : decode proxy (receive (bytesOf (reply (question n)))) = .done (reply (question n)) :=
          hear_reply n
        rw [hr] at hd
        cases hd
    | _ => exact ho.elim

end Proto.Sample

/-- **C110**, over a network that neither loses, repeats nor brings in anything: nobody panics, the
responses are those to the requests, in order and one for one, at most one is outstanding, and there is
always exactly one thing to do next. Missing: other networks (`C110_loss_stalls`,
`C110_out_of_step`). -/
theorem C110_faithful_partial {tr : Trace} {s : State} (e : Exec step init tr s) (hf : Faithful tr) :
    ¬ Panicked tr ∧
    (∃ a b c, c ≤ b ∧ b ≤ a ∧ a ≤ c + 1 ∧ asked tr = (List.range a).map question ∧
      served tr = (List.range b).map (fun k => (question k, reply (question k))) ∧
      heard tr = (List.range c).map (fun k => reply (question k))) ∧
    ∃ act, Own act ∧ ∀ act', Own act' → ((step s act').isSome ↔ act' = act) := by
  obtain ⟨hp, hup, n, hh, ph⟩ := faithful_inv e hf
  have hs := session_inv e
  refine ⟨hp, ?_, ?_⟩
  · cases ph with
    | ready _ _ _ h4 h5 => exact ⟨n, n, n, by omega, by omega, by omega, h4 ▸ hs.2, h5, hh⟩
    | sent _ _ _ h4 h5 => exact ⟨n + 1, n, n, by omega, by omega, by omega, h4 ▸ hs.2, h5, hh⟩
    | answered _ _ _ h4 h5 =>
      exact ⟨n + 1, n + 1, n, by omega, by omega, by omega, h4 ▸ hs.2, h5, hh⟩
  · cases ph with
    | ready h1 h2 h3 h4 h5 =>
      refine ⟨.ask, trivial, fun act ho => ?_⟩
      cases act with
      | ask => simp [step, h1, hs.1, C26_stays_enabled, question_after, ask_question]
      | serve i => simp [step, h2]
      | hear i => simp [step, h1]
      | _ => exact ho.elim
    | sent h1 h2 h3 h4 h5 =>
      refine ⟨.serve 0, trivial, fun act ho => ?_⟩
      cases act with
      | ask => simp [step, h1]
      | serve i =>
        cases i with
        | zero => simp [step, hup, h2, bytesOf, answer_question]
        | succ i => simp [step, h2]
      | hear i => simp [step, h3]
      | _ => exact ho.elim
    | answered h1 h2 h3 h4 h5 =>
      refine ⟨.hear 0, trivial, fun act ho => ?_⟩
      have hr : decode proxy (receive (bytesOf (reply (question n)))) = .done (reply (question n)) :=
        hear_reply n
      cases act with
      | ask => simp [step, h1]
      | serve i => simp [step, h2]
      | hear i =>
        cases i with
        | zero => simp only [step, h1, h3, if_true, List.getElem?_cons_zero, hr]; simp
        | succ i => simp [step, h3]
      | _ => exact ho.elim

/-- **C110.** Over such a network the conversation goes on for as long as one likes, and can be
continued from everywhere. -/
theorem C110_goes_on {tr : Trace} {s : State} (e : Exec step init tr s) (hf : Faithful tr) (n : Nat) :
    ∃ tr' s', Exec step init (tr ++ tr') s' ∧ Faithful (tr ++ tr') ∧
      (heard (tr ++ tr')).length ≥ n := by
  have len : ∀ m, ∃ tr' s', Exec step init (tr ++ tr') s' ∧ Faithful (tr ++ tr') ∧ tr'.length = m := by
    intro m
    induction m with
    | zero => exact ⟨[], s, by simpa using e, by simpa using hf, rfl⟩
    | succ m ih =>
      obtain ⟨tr', s', e', hf', hl⟩ := ih
      obtain ⟨-, -, act, ho, hact⟩ := C110_faithful_partial e' hf'
      obtain ⟨⟨s'', o⟩, hx⟩ := Option.isSome_iff_exists.mp ((hact act ho).mpr rfl)
      refine ⟨tr' ++ [(act, o)], s'', by rw [← List.append_assoc]; exact .snoc e' hx, ?_,
        by simp [hl]⟩
      intro x hx'
      rw [← List.append_assoc] at hx'
      rcases List.mem_append.mp hx' with h | h
      · exact hf' x h
      · rw [List.mem_singleton.mp h]; exact ho
  -- all observations are requests, services or responses, so there are enough responses
  have count : ∀ {tr : Trace} {s : State}, Exec step init tr s → Faithful tr →
      tr.length = (asked tr).length + (served tr).length + (heard tr).length := by
    intro tr s e
    induction e with
    | nil => intro; rfl
    | @snoc tr s s' a o e h ih =>
      intro hf
      have ih := ih fun x hx => hf x (List.mem_append_left _ hx)
      have hp := (C110_faithful_partial (.snoc e h) hf).1
      have ho : Own a := hf (a, o) (by simp)
      have mv := move e h
      rw [asked_snoc, served_snoc, heard_snoc]
      cases mv with
      | ask _ => simp; omega
      | serve _ _ _ => simp; omega
      | hear _ _ _ => simp; omega
      | serveBad _ _ _ => exact absurd ⟨_, List.mem_append_right _ List.mem_cons_self, .inr rfl⟩ hp
      | hearBad _ _ _ => exact absurd ⟨_, List.mem_append_right _ List.mem_cons_self, .inl rfl⟩ hp
      | _ => exact ho.elim
  obtain ⟨tr', s', e', hf', hl⟩ := len (3 * n + 3)
  refine ⟨tr', s', e', hf', ?_⟩
  have h1 := count e' hf'
  obtain ⟨-, ⟨a, b, c, hcb, hba, hac, ha, hb, hc⟩, -⟩ := C110_faithful_partial e' hf'
  have := congrArg List.length ha
  have := congrArg List.length hb
  have := congrArg List.length hc
  simp only [List.length_map, List.length_range, List.length_append] at *
  omega

/-! ### Other networks -/

/-- **C110** fails: a lost datagram stalls the conversation for good. From then on neither program
does anything, whatever the network does with what is under way, unless a stranger sends. -/
theorem C110_loss_stalls :
    ∃ tr s, Exec step init tr s ∧ NoStrangers tr ∧ ¬ Panicked tr ∧ (heard tr).length < (asked tr).length ∧
      ∀ tr' s', Exec step s tr' s' → NoStrangers tr' → tr' = [] := by
  have stuck : ∀ s : State, s.asker = .waiting → s.toAnswerer = [] → s.toAsker = [] →
      ∀ tr' s', Exec step s tr' s' → NoStrangers tr' → tr' = [] ∧ s' = s := by
    intro s h1 h2 h3 tr' s' e
    induction e with
    | nil => intro; exact ⟨rfl, rfl⟩
    | @snoc tr t t' a o e h ih =>
      intro hn
      obtain ⟨-, rfl⟩ := ih fun x hx => hn x (List.mem_append_left _ hx)
      have ha : ¬ Foreign a := hn (a, o) (by simp)
      exfalso
      cases a <;> first | exact ha trivial | simp [step, h1, h2, h3] at h
  refine ⟨[(.ask, .asked (question 0)), (.loseRequest 0, .silent)],
    ⟨⟨2⟩, .waiting, true, [], []⟩, exec_of_perform (as := [.ask, .loseRequest 0]) (by decide +kernel),
    by simp [NoStrangers, Foreign], by simp [Panicked], by decide, ?_⟩
  intro tr' s' e hn
  exact (stuck _ rfl rfl rfl tr' s' e hn).1

/-- **C110** fails: one repeated datagram and the asking program takes the response to the previous
request for that of the current one; it does not look at the session. -/
theorem C110_out_of_step :
    ¬ ∀ (tr : Trace) (s : State) (q m : Message Bytes), Exec step init tr s → NoStrangers tr →
      (asked tr).getLast? = some q → (heard tr).getLast? = some m → s.asker = .ready →
      m.session = q.session := by
  intro h
  obtain ⟨tr, s, e, hx⟩ := exec_by (step := step) (s := init)
    [.ask, .repeatRequest 0, .serve 0, .serve 0, .hear 0, .ask, .hear 0]
    (fun tr s => decide ((∀ x ∈ tr, ¬ Foreign x.1) ∧ (asked tr).getLast? = some (question 1) ∧
      (heard tr).getLast? = some (reply (question 0)) ∧ s.asker = .ready)) (by decide +kernel)
  obtain ⟨h1, h2, h3, h4⟩ := of_decide_eq_true hx
  have := h tr s _ _ e h1 h2 h3 h4
  revert this
  decide +kernel

/-- **C110** fails: any datagram that is no request to the sample service, from anybody, stops the
answering program, and it stays stopped. -/
theorem C110_stranger_stops_answerer (b : Bytes)
    (hb : ¬ ∃ q rest, Message.de Dec.bytes (b.take 64) = (.ok q, rest) ∧ IsRequest q)
    {tr : Trace} {s : State} (_e : Exec step init tr s) (hup : s.answerer = true) :
    ∃ tr₁ s₁, Exec step s tr₁ s₁ ∧ Panicked tr₁ ∧
      ∀ tr₂ s₂, Exec step s₁ tr₂ s₂ → served tr₂ = [] := by
  have hp := (C110_answer b).2.mp hb
  refine ⟨[(.toAnswerer b, .silent), (.serve s.toAnswerer.length, .answererPanics)],
    { s with answerer := false }, ?_, ⟨_, List.mem_cons_of_mem _ List.mem_cons_self, .inr rfl⟩, ?_⟩
  · refine Exec.cons (s' := { s with toAnswerer := s.toAnswerer ++ [(.stranger, b)] }) rfl
      (Exec.cons (s' := { s with answerer := false }) ?_ .nil)
    simp [step, hup, hp, List.eraseIdx_append_of_length_le]
  · intro tr₂ s₂ e₂
    have : s₂.answerer = false ∧ served tr₂ = [] := by
      induction e₂ with
      | nil => exact ⟨rfl, rfl⟩
      | @snoc tr t t' a o e h ih =>
        obtain ⟨h1, h2⟩ := ih
        rw [served_snoc, h2]
        cases a with
        | serve i => simp [step, h1] at h
        | ask =>
          simp only [step] at h
          split at h
          · split at h <;> cases h <;> exact ⟨h1, rfl⟩
          · cases h
        | hear i =>
          simp only [step] at h
          split at h
          · split at h
            · cases h
            · split at h <;> cases h <;> exact ⟨h1, rfl⟩
          · cases h
        | _ =>
          simp only [step] at h
          first
            | (cases h; exact ⟨h1, rfl⟩)
            | (split at h <;> cases h; exact ⟨h1, rfl⟩)
    exact this.2

example : ¬ ∃ q rest, Message.de Dec.bytes (([] : Bytes).take 64) = (.ok q, rest) ∧ IsRequest q := by
  rintro ⟨q, rest, h, -⟩
  cases h

/-- **C110** fails: an empty datagram from anybody stops the waiting asking program. -/
theorem C110_stranger_stops_asker {tr : Trace} {s : State} (_e : Exec step init tr s)
    (hw : s.asker = .waiting) :
    ∃ tr₁ s₁, Exec step s tr₁ s₁ ∧ Panicked tr₁ ∧ s₁.asker = .stopped := by
  refine ⟨[(.toAsker [], .silent), (.hear s.toAsker.length, .askerPanics)],
    { s with asker := .stopped }, ?_, ⟨_, List.mem_cons_of_mem _ List.mem_cons_self, .inl rfl⟩, rfl⟩
  refine Exec.cons (s' := { s with toAsker := s.toAsker ++ [[]] }) rfl
    (Exec.cons (s' := { s with asker := .stopped }) ?_ .nil)
  have : decode proxy (receive []) = .panic := by decide +kernel
  simp [step, hw, this, List.eraseIdx_append_of_length_le]

/-- **C110** fails for other clients: of a request with more than 48 bytes of body, which the library
allows, only the first 48 come back. -/
theorem C110_long_request_cut (q : Message Bytes) (hq : IsRequest q) (hc : CodeOk q.header.returnCode)
    (h48 : 48 < q.body.length) (hl : 8 + q.body.length < 2 ^ 32) :
    ∃ r, answer (messageBytes q q.body) =
      .done (q.withBody (q.body.take 48), reply (q.withBody (q.body.take 48)), r) := by
  refine ⟨_, (answer_iff _ _ _ _).mpr ⟨⟨[], ?_⟩, hq, rfl, rfl⟩⟩
  have h16 : ((messageBytes q q.body).take 64) = be 2 q.service.val.toNat ++ be 2 q.method.val.toNat ++
      be 4 (8 + q.body.length) ++ headerBytes q.header ++ q.body.take 48 := by
    simp only [messageBytes]
    rw [List.take_append, List.take_of_length_le (by simp [headerBytes_length])]
    congr 2
  rw [h16, de_layout _ _ _ _ _ _ (by omega) hl, Dec.bytes_apply]
  have hc : codeOf (codeNumber q.header.returnCode) = q.header.returnCode := hc
  rw [hc, List.take_of_length_le (by simp), List.drop_of_length_le (by simp)]
  rfl

example : IsRequest longQuestion ∧ 48 < longQuestion.body.length := by
  constructor
  · exact ⟨rfl, rfl, rfl, rfl, by decide⟩
  · decide

end Rsomeip
