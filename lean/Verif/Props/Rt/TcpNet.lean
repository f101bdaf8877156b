import Verif.Lemmas.TcpNet
import Verif.Props.Rt.Net

/-! # C121: programs connected by TCP -/

namespace Rsomeip

open Rt Rt.TcpNet Spec Spec.TcpNet
open Spec.TcpNode (written arrived app Plain Whole)
open Spec.Ep (Shown accepted heard)
open Spec.Node (reads)

/-- What has arrived at one end is the beginning of what was written at the other one, also before they were
known to belong together. -/
theorem peer_arrived {own : Addr → Bool} {tr : Trace} {s : State} (e : Exec (step own) init tr s) {n m : Addr}
    {c d : Nat} (h : s.peer n c = some (m, d)) (t u : Trace) (htu : tr = t ++ u) :
    arrived c (at_ n t) <+: written d (at_ m t) := by
  subst htu
  have hl := linked e
  obtain ⟨s₁, e₁, e₂⟩ := e.split
  have hl₁ := linked e₁
  cases hp : s₁.peer n c with
  | some w =>
    obtain ⟨m', d'⟩ := w
    have h0 := peer_stays e₁ e₂ hp
    rw [h] at h0
    cases h0
    have h1 := hl₁.pipe m d
    rw [hl₁.symm n c m d hp] at h1
    exact ⟨_, h1.symm⟩
  | none =>
    have h2 : arrived c (at_ n t) = [] := by
      by_cases hc : c < (s₁.nodes n).ep.connCount
      · refine hl₁.none n c hc hp ?_
        have h3 := (Ep.good_hist (TcpNode.part (each e₁ n))).2.conns c hc
        have h4 : Shown (app (at_ n (t ++ u))) (.opened c ((s₁.nodes n).ep.conns c).addr) := by
          rw [at_append, TcpNode.app_append]; exact h3.mono _
        rw [← (Ep.opened_addr (TcpNode.part (each e n)) h4).2, (hl.addr n c m d h).2]
        exact hl.owned n c m d h
      · exact hl₁.fresh n c (Nat.le_of_not_lt hc)
    rw [h2]
    exact List.nil_prefix

/-- **C121.** Several programs with endpoints on TCP sockets, and strangers: the connections between the
programs come in pairs of ends, known to either program as a connection to the other one. At any time,
what has arrived at one end is the beginning of what was written at the other end up to then, and on a
connection to one of the programs whose other end that program has not accepted nothing arrives. -/
theorem C121_streams {own : Addr → Bool} {tr : Trace} {s : State} (e : Exec (step own) init tr s) :
    ∃ pair, Pairs pair tr ∧
      (∀ n c m d, pair n c = some (m, d) → ∀ t u, tr = t ++ u →
        arrived c (at_ n t) <+: written d (at_ m t)) ∧
      ∀ n c m, own m = true → Shown (app (at_ n tr)) (.opened c m) → pair n c = none →
        arrived c (at_ n tr) = [] := by
  have hl := linked e
  refine ⟨s.peer, ⟨hl.symm, ?_⟩, ?_, ?_⟩
  · intro n c m d h
    obtain ⟨h1, h2⟩ := hl.addr n c m d h
    have h3 := (Ep.good_hist (TcpNode.part (each e n))).2.conns c h1
    rw [h2] at h3
    exact h3
  · exact fun n c m d h => peer_arrived e h
  · intro n c m hm ho hp
    obtain ⟨h1, h2⟩ := Ep.opened_addr (TcpNode.part (each e n)) ho
    exact hl.none n c h1 hp (by rw [h2]; exact hm)

/-- What is returned was received on a connection to where it comes from. -/
theorem tcp_returned {own : Addr → Bool} {tr : Trace} {s : State} {n a : Addr} {x : Ep.Action}
    {y : Ep.Obs} {k : Nat} {w : Option (Nat × Bytes)} {m : Msg}
    (e : Exec (step own) init (tr ++ [((n, .app x, k), ⟨some (x, y), w⟩)]) s)
    (h : Returns (app (at_ n tr)) x y m a) : Spec.Ep.Sent (app (at_ n tr)) a m := by
  obtain ⟨s₁, e₁, _⟩ := e.last
  have en := TcpNode.part (each e n)
  rw [at_same, TcpNode.app_snoc] at en
  cases h with
  | stub k m a => exact (C53_stub en).2
  | proxy p i id m a hp =>
    obtain ⟨i', id', a', h1, _, h2⟩ := C53_proxy en
    have hm := Ep.made (TcpNode.part (each e₁ n))
    have : a' = a := (hm.proxy p i' id' a' h1).2.2.1.symm.trans (hm.proxy p i id a hp).2.2.1
    exact this ▸ h2

/-- **C121.** Whatever the reads are: a message that a stub or proxy of the program at `n` returns as
coming from the program at `a` was found in a piece of what that program has written before on one
connection to `n`, which is the beginning of the messages accepted for it. -/
theorem C121_bytes {own : Addr → Bool} {tr : Trace} {s : State} {n a : Addr} {x : Ep.Action}
    {y : Ep.Obs} {k : Nat} {w : Option (Nat × Bytes)} {m : Msg}
    (e : Exec (step own) init (tr ++ [((n, .app x, k), ⟨some (x, y), w⟩)]) s)
    (h : Returns (app (at_ n tr)) x y m a) (ha : own a = true) :
    ∃ d b ms, Shown (app (at_ a tr)) (.opened d n) ∧ b <:+: written d (at_ a tr) ∧
      written d (at_ a tr) <+: ((accepted d (app (at_ a tr))).map Spec.Ep.wireForm).flatten ∧
      Frames b ms ∧ m ∈ ms := by
  obtain ⟨s₁, e₁, _⟩ := e.last
  have e1 := each e₁ n
  have e2 := TcpNode.part e1
  obtain ⟨c, b, ms, h1, h2, h3, h4⟩ := tcp_returned e h
  obtain ⟨pair, hpair, hst, hno⟩ := C121_streams e₁
  have hb : b ∈ reads c (app (at_ n tr)) := Node.mem_reads h2
  have h6 := C87_reads e1 c
  cases hq : pair n c with
  | none =>
    rw [hno n c a ha h1 hq, List.prefix_nil, List.flatten_eq_nil_iff] at h6
    rw [h6 b hb] at h3
    rw [C52_unique h3 .nil] at h4
    cases h4
  | some w =>
    obtain ⟨a', d⟩ := w
    have h5 := (Ep.opened_addr e2 (hpair.opened n c a' d hq)).2.symm.trans (Ep.opened_addr e2 h1).2
    subst h5
    refine ⟨d, b, ms, hpair.opened a' d n c (hpair.symm _ _ _ _ hq), ?_, C87_written (each e₁ a') d, h3, h4⟩
    obtain ⟨l, r, hlr⟩ := List.append_of_mem hb
    have h7 : b <:+: (reads c (app (at_ n tr))).flatten := by
      rw [hlr, List.flatten_append, List.flatten_cons]
      exact ⟨_, _, List.append_assoc ..⟩
    exact h7.trans (h6.trans (hst n c a' d hq tr [] (List.append_nil _).symm)).isInfix

/-- **C121**, the part that holds: if every read on connections to the program at `a` ends between
messages, and the messages sent there can be expressed in the format, then a message that a stub or proxy
of the program at `n` returns as coming from the program at `a` was sent before by a stub or proxy of that
program to `n`. What is missing: reads that end inside a message, see below. -/
theorem C121_sent_partial {own : Addr → Bool} {tr : Trace} {s : State} {n a : Addr} {x : Ep.Action}
    {y : Ep.Obs} {k : Nat} {w : Option (Nat × Bytes)} {m : Msg}
    (e : Exec (step own) init (tr ++ [((n, .app x, k), ⟨some (x, y), w⟩)]) s)
    (h : Returns (app (at_ n tr)) x y m a) (ha : own a = true)
    (hp : ∀ z c m₀, (z, .accepted c m₀) ∈ app (at_ a tr) → Plain m₀)
    (hw : ∀ c, Shown (app (at_ n tr)) (.opened c a) → ∀ b ∈ reads c (app (at_ n tr)), Whole b) :
    Spec.Net.SentTo (app (at_ a tr)) n m := by
  obtain ⟨s₁, e₁, _⟩ := e.last
  have e1 := each e₁ n
  have e2 := TcpNode.part e1
  have hs := tcp_returned e h
  obtain ⟨c, b, ms, h1, h2, h3, h4⟩ := hs
  obtain ⟨pair, hpair, hst, hno⟩ := C121_streams e₁
  have hb : m ∈ heard c (app (at_ n tr)) := by
    rw [Node.heard_eq, List.mem_flatMap]
    refine ⟨b, Node.mem_reads h2, ?_⟩
    rw [Rt.Ep.contents_eq h3]
    exact h4
  cases hq : pair n c with
  | none =>
    have h5 := hno n c a ha h1 hq
    have h6 := C87_reads e1 c
    rw [h5, List.prefix_nil, List.flatten_eq_nil_iff] at h6
    rw [Node.heard_eq, List.mem_flatMap] at hb
    obtain ⟨b', h7, h8⟩ := hb
    rw [h6 b' h7, Rt.Ep.contents_eq .nil] at h8
    cases h8
  | some w =>
    obtain ⟨a', d⟩ := w
    have h5 := (Ep.opened_addr e2 (hpair.opened n c a' d hq)).2.symm.trans (Ep.opened_addr e2 h1).2
    subst h5
    have h6 := hst n c a' d hq tr [] (List.append_nil _).symm
    have h7 := C87_messages_partial (each e₁ a') e1 h6 (fun m₀ hm₀ => ?_) (hw c h1)
    · exact accepted_sentTo (TcpNode.part (each e₁ a')) (h7.subset hb) (hpair.opened a' d n c (hpair.symm _ _ _ _ hq))
    · simp only [accepted, List.mem_filterMap] at hm₀
      obtain ⟨⟨z, o⟩, hz, ho⟩ := hm₀
      cases o <;> simp only [reduceCtorEq] at ho
      split at ho
      · cases ho; exact hp _ _ _ hz
      · cases ho

/-- **C121**, the part that holds: if every read on a connection between two of the programs ends between
messages, and the messages sent at the other end can be expressed in the format, then what is heard at
one end is what was accepted at the other end, in order, from the first one on, unchanged. What is
missing: reads that end inside a message, see below. -/
theorem C121_order_partial {own : Addr → Bool} {tr : Trace} {s : State}
    (e : Exec (step own) init tr s) :
    ∃ pair, Pairs pair tr ∧
      (∀ n c m d, pair n c = some (m, d) → (∀ m₀ ∈ accepted d (app (at_ m tr)), Plain m₀) →
        (∀ b ∈ reads c (app (at_ n tr)), Whole b) →
        heard c (app (at_ n tr)) <+: accepted d (app (at_ m tr))) ∧
      ∀ n c m, own m = true → Shown (app (at_ n tr)) (.opened c m) → pair n c = none →
        heard c (app (at_ n tr)) = [] := by
  obtain ⟨pair, hp, h1, h2⟩ := C121_streams e
  refine ⟨pair, hp, fun n c m d h h3 h4 => ?_, fun n c m hm h3 h4 => ?_⟩
  · exact C87_messages_partial (each e m) (each e n) (h1 n c m d h tr [] (List.append_nil _).symm) h3 h4
  · have h6 := C87_reads (each e n) c
    rw [h2 n c m hm h3 h4, List.prefix_nil, List.flatten_eq_nil_iff] at h6
    rw [Node.heard_eq, List.flatMap_eq_nil_iff]
    intro b hb
    rw [h6 b hb]
    exact Rt.Ep.contents_eq .nil

/-- Two programs with one connection: if as many bytes have arrived as were written, they are the same. -/
theorem tcp_same {own : Addr → Bool} {tr : Trace} {s : State} {n a : Addr} {c d : Nat}
    (e : Exec (step own) init tr s) (ha : own a = true) (hc : Spec.TcpNode.Sole (at_ n tr) c a)
    (hd : Spec.TcpNode.Sole (at_ a tr) d n)
    (hl : (arrived c (at_ n tr)).length = (written d (at_ a tr)).length) :
    arrived c (at_ n tr) = written d (at_ a tr) := by
  obtain ⟨pair, hp, h1, h2⟩ := C121_streams e
  cases hq : pair n c with
  | none =>
    have h3 := h2 n c a ha hc.opened hq
    rw [h3] at hl ⊢
    exact (List.length_eq_zero_iff.mp hl.symm).symm
  | some w =>
    obtain ⟨a', d'⟩ := w
    have e2 := TcpNode.part (each e n)
    have h5 := (Ep.opened_addr e2 (hp.opened n c a' d' hq)).2.symm.trans (Ep.opened_addr e2 hc.opened).2
    subst h5
    have h6 := hd.sole d' (hp.opened a' d' n c (hp.symm _ _ _ _ hq))
    subst h6
    exact (h1 n c a' d' hq tr [] (List.append_nil _).symm).eq_of_length hl

/-- **C121**, the part that holds: two of the programs have one connection, on which there were no errors;
all bytes written have arrived, both programs cannot get on. The stub was there before something
arrived and was kept, accepting connections has not failed, its `recv_from` waits. Then what it has
returned from the other program are exactly the messages for its interface that `send` and `send_to`
have accepted there, each once, unchanged and in order, provided that every read ended between messages
and the messages can be expressed in the format. -/
theorem C121_all_partial {own : Addr → Bool} {t u : Trace} {s : State} {n a : Addr} {c d k i : Nat}
    {id : Someip.InterfaceId} (e : Exec (step own) init (t ++ u) s) (ha : own a = true)
    (hc : Spec.TcpNode.Sole (at_ n (t ++ u)) c a) (hd : Spec.TcpNode.Sole (at_ a (t ++ u)) d n)
    (hl : (arrived c (at_ n (t ++ u))).length = (written d (at_ a (t ++ u))).length)
    (ha₁ : TcpNode.Resting (s.nodes a)) (ha₂ : TcpNode.Room (s.nodes a))
    (hb : ¬ Spec.TcpNode.Broke d (at_ a (t ++ u)))
    (hn₁ : TcpNode.Resting (s.nodes n)) (hn₂ : TcpNode.Room (s.nodes n))
    (hk : Shown (app (at_ n t)) (.serving k i id)) (h0 : arrived c (at_ n t) = [])
    (hdr : (.dropStub k, .none) ∉ app (at_ n (t ++ u)))
    (hg : (.acceptNone ((s.nodes n).ep.stubs k).lis, .ended) ∉ app (at_ n (t ++ u)))
    (hw : TcpNode.step (s.nodes n) (.app (.stubRecv k)) = none)
    (hp : ∀ m ∈ accepted d (app (at_ a (t ++ u))), Plain m)
    (hx : ∀ b ∈ reads c (app (at_ n (t ++ u))), Whole b) :
    ((Spec.Ep.stubGot k (app (at_ n (t ++ u)))).filter fun x => decide (x.2 = a)).map Prod.fst =
      Spec.Ep.meantFor id (accepted d (app (at_ a (t ++ u)))) := by
  have h1 := tcp_same e ha hc hd hl
  have e1 := each e n
  rw [at_append] at e1 h1 hdr hg hc hx ⊢
  exact C99_to_stub_partial (each e a) ha₁ ha₂ hb hp e1 hn₁ hn₂ h1 hk h0 hdr hg hc hw hx

/-! ### Two programs -/

/-- The program at 6 serves an interface. The one at 5 makes a proxy for it and sends a request; it
arrives in two pieces. The stub returns the request and answers. -/
def Spec.TcpNet.dialogue : List Action :=
  [(6, .app (.serve ⟨1, 1⟩), 0), (6, .app (.ep true), 0), (6, .app (.ep true), 0),
    (6, .app (.ep true), 0), (6, .app (.ep true), 0), (6, .app (.ep true), 0), (6, .app (.lisCmd 0), 0),
    (5, .app (.proxy ⟨1, 1⟩ 6), 0), (5, .app (.ep true), 0), (5, .app (.ep true), 0),
    (5, .app (.ep true), 0), (5, .app (.ep true), 0), (5, .app (.ep true), 0), (5, .app (.ep true), 0),
    (5, .app (.connCmd 0), 0), (5, .app (.proxySend 0 Ep.msgA), 0), (5, .app (.connCmd 0), 0),
    (5, .write 0 (.wrote 10), 0), (6, .app (.accept 0 5), 0), (6, .app (.lisShare 0), 0),
    (6, .arrive 0 ((frame Ep.msgA).take 3), 0), (5, .write 0 (.wrote 100), 0),
    (6, .arrive 0 ((frame Ep.msgA).drop 3), 0), (6, .read 0 (.read 1400), 0), (6, .app (.route 0), 0),
    (6, .app (.route 0), 0), (6, .app (.route 0), 0), (6, .app (.stubRecv 0), 0),
    (6, .app (.stubSend 0 5 Spec.Net.answerA), 0), (6, .app (.stubStep 0), 0),
    (6, .app (.stubStep 0), 0), (6, .app (.stubStep 0), 0), (6, .app (.connCmd 0), 0),
    (6, .write 0 (.wrote 100), 0), (5, .arrive 0 (frame Spec.Net.answerA), 0),
    (5, .read 0 (.read 1400), 0), (5, .app (.route 0), 0), (5, .app (.route 0), 0),
    (5, .app (.route 0), 0)]

/-- Connection 0 at 6 and connection 0 at 5 are the two ends, and what was written at 5 has arrived at 6 in
two pieces and was read. -/
example : ∃ tr s, Exec (step Spec.Net.two) init tr s ∧
    (Shown (app (at_ 6 tr)) (.opened 0 5) ∧ Shown (app (at_ 5 tr)) (.opened 0 6)) ∧
    arrived 0 (at_ 6 tr) = frame Ep.msgA ∧ written 0 (at_ 5 tr) = frame Ep.msgA ∧
    accepted 0 (app (at_ 5 tr)) = [Ep.msgA] ∧ (∀ m₀ ∈ accepted 0 (app (at_ 5 tr)), Plain m₀) ∧
    heard 0 (app (at_ 6 tr)) = [Ep.msgA] ∧ ∀ b ∈ reads 0 (app (at_ 6 tr)), Whole b := by
  obtain ⟨tr, s, e, h⟩ := exec_by (step := step Spec.Net.two) (s := init) dialogue
    (fun tr _ => decide (((.accept 0 5, .opened 0 5) ∈ app (at_ 6 tr) ∧
      (.ep true, .opened 0 6) ∈ app (at_ 5 tr)) ∧ arrived 0 (at_ 6 tr) = frame Ep.msgA ∧
      written 0 (at_ 5 tr) = frame Ep.msgA ∧ accepted 0 (app (at_ 5 tr)) = [Ep.msgA] ∧
      reads 0 (app (at_ 6 tr)) = [frame Ep.msgA])) (by decide +kernel)
  obtain ⟨⟨h1, h2⟩, h3, h4, h5, h6⟩ := of_decide_eq_true h
  have hA : Plain Ep.msgA := ⟨by unfold Normal; decide, by decide⟩
  have hW : Whole (frame Ep.msgA) := ⟨[_], by simpa using hA, by simp⟩
  refine ⟨tr, s, e, ⟨⟨_, h1⟩, ⟨_, h2⟩⟩, h3, h4, h5, ?_, ?_, ?_⟩
  · rw [h5]; simpa using hA
  · rw [Node.heard_eq, h6]
    have := Frames.flatMap [Ep.msgA] (by intro m hm; cases List.mem_singleton.mp hm; exact hA)
    simpa using Rt.Ep.contents_eq this
  · rw [h6]; simpa using hW

/-- Every accepted message can be expressed in the format. -/
def Spec.TcpNet.allPlain (tr : Spec.Ep.Trace) : Bool :=
  tr.all fun e => match e.2 with
    | .accepted _ m => decide (Someip.MessageType.fromU8 m.messageType.asU8 = m.messageType ∧
        Someip.ReturnCode.fromU8 m.returnCode.asU8 = m.returnCode ∧ m.payload.length < 1000)
    | _ => true

theorem plain_of_all {tr : Spec.Ep.Trace} (h : allPlain tr = true) (y : Ep.Action) (c : Nat) (m : Msg)
    (hm : (y, .accepted c m) ∈ tr) : Plain m := by
  have h1 := List.all_eq_true.mp h _ hm
  simp only [decide_eq_true_eq] at h1
  exact ⟨⟨h1.1, h1.2.1⟩, by omega⟩

/-- The request is returned at 6: the hypotheses of `C121_bytes` and `C121_sent_partial`. -/
example : ∃ tr s y w, Exec (step Spec.Net.two) init
      (tr ++ [((6, .app (.stubRecv 0), 0), ⟨some (.stubRecv 0, y), w⟩)]) s ∧
    Returns (app (at_ 6 tr)) (.stubRecv 0) y Ep.msgA 5 ∧ Spec.Net.two 5 = true ∧
    (∀ z c m₀, (z, .accepted c m₀) ∈ app (at_ 5 tr) → Plain m₀) ∧
    ∀ c, Shown (app (at_ 6 tr)) (.opened c 5) → ∀ b ∈ reads c (app (at_ 6 tr)), Whole b := by
  obtain ⟨tr, s, e, h⟩ := exec_by (step := step Spec.Net.two) (s := init) (dialogue.take 27)
    (fun tr s => decide (((step Spec.Net.two s (6, .app (.stubRecv 0), 0)).map fun x => x.2) =
        some ⟨some (.stubRecv 0, .message Ep.msgA 5), none⟩ ∧ allPlain (app (at_ 5 tr)) = true ∧
      (s.nodes 6).ep.connCount = 1 ∧ reads 0 (app (at_ 6 tr)) = [frame Ep.msgA]))
    (by decide +kernel)
  obtain ⟨h1, h2, h3, h4⟩ := of_decide_eq_true h
  obtain ⟨x, hx, hy⟩ := Option.map_eq_some_iff.mp h1
  obtain ⟨s', o⟩ := x
  dsimp only at hy
  subst hy
  have hA : Plain Ep.msgA := ⟨by unfold Normal; decide, by decide⟩
  refine ⟨tr, s', _, _, e.snoc hx, .stub .., rfl, plain_of_all h2, fun c hc => ?_⟩
  have := (Ep.opened_addr (TcpNode.part (each e 6)) hc).1
  obtain rfl : c = 0 := by omega
  rw [h4]
  intro b hb
  cases List.mem_singleton.mp hb
  exact ⟨[_], by simpa using hA, by simp⟩

/-- The answer is returned at 5. -/
example : ∃ tr s y w, Exec (step Spec.Net.two) init
      (tr ++ [((5, .app (.proxyRecv 0), 0), ⟨some (.proxyRecv 0, y), w⟩)]) s ∧
    Returns (app (at_ 5 tr)) (.proxyRecv 0) y Spec.Net.answerA 6 ∧ Spec.Net.two 6 = true := by
  obtain ⟨tr, s, e, h⟩ := exec_by (step := step Spec.Net.two) (s := init) dialogue
    (fun tr s => decide (((step Spec.Net.two s (5, .app (.proxyRecv 0), 0)).map fun x => x.2) =
        some ⟨some (.proxyRecv 0, .reply Spec.Net.answerA), none⟩ ∧
      (.ep true, .proxying 0 0 ⟨1, 1⟩ 6) ∈ app (at_ 5 tr))) (by decide +kernel)
  obtain ⟨h1, h2⟩ := of_decide_eq_true h
  obtain ⟨x, hx, hy⟩ := Option.map_eq_some_iff.mp h1
  obtain ⟨s', o⟩ := x
  dsimp only at hy
  subst hy
  exact ⟨tr, s', _, _, e.snoc hx, .proxy _ _ _ _ _ ⟨_, h2⟩, rfl⟩

/-- The hypotheses of `C121_all_partial`, for the stub at 6 and the program at 5. -/
example : ∃ t u s, Exec (step Spec.Net.two) init (t ++ u) s ∧ Spec.Net.two 5 = true ∧
    Spec.TcpNode.Sole (at_ 6 (t ++ u)) 0 5 ∧ Spec.TcpNode.Sole (at_ 5 (t ++ u)) 0 6 ∧
    (arrived 0 (at_ 6 (t ++ u))).length = (written 0 (at_ 5 (t ++ u))).length ∧
    TcpNode.Resting (s.nodes 5) ∧ TcpNode.Room (s.nodes 5) ∧ ¬ Spec.TcpNode.Broke 0 (at_ 5 (t ++ u)) ∧
    TcpNode.Resting (s.nodes 6) ∧ TcpNode.Room (s.nodes 6) ∧
    Shown (app (at_ 6 t)) (.serving 0 0 ⟨1, 1⟩) ∧ arrived 0 (at_ 6 t) = [] ∧
    (.dropStub 0, .none) ∉ app (at_ 6 (t ++ u)) ∧
    (.acceptNone ((s.nodes 6).ep.stubs 0).lis, .ended) ∉ app (at_ 6 (t ++ u)) ∧
    TcpNode.step (s.nodes 6) (.app (.stubRecv 0)) = none ∧
    (∀ m ∈ accepted 0 (app (at_ 5 (t ++ u))), Plain m) ∧
    (∀ b ∈ reads 0 (app (at_ 6 (t ++ u))), Whole b) ∧
    Spec.Ep.stubGot 0 (app (at_ 6 (t ++ u))) = [(Ep.msgA, 5)] := by
  obtain ⟨tr, s, e, h⟩ := exec_by (step := step Spec.Net.two) (s := init) (dialogue.take 28)
    (fun tr s => Spec.TcpNode.calm (s.nodes 5) && Spec.TcpNode.calm (s.nodes 6) &&
      Spec.TcpNode.errorless (at_ 5 tr) && Spec.TcpNode.sole (at_ 6 tr) (s.nodes 6) 5 &&
      Spec.TcpNode.sole (at_ 5 tr) (s.nodes 5) 6 && decide (
      (arrived 0 (at_ 6 tr)).length = (written 0 (at_ 5 tr)).length ∧
      (∃ x ∈ app (at_ 6 (tr.take 18)), x.2 = .serving 0 0 ⟨1, 1⟩) ∧ arrived 0 (at_ 6 (tr.take 18)) = [] ∧
      (.dropStub 0, .none) ∉ app (at_ 6 tr) ∧
      (.acceptNone ((s.nodes 6).ep.stubs 0).lis, .ended) ∉ app (at_ 6 tr) ∧
      (TcpNode.step (s.nodes 6) (.app (.stubRecv 0))).isNone = true ∧
      accepted 0 (app (at_ 5 tr)) = [Ep.msgA] ∧ reads 0 (app (at_ 6 tr)) = [frame Ep.msgA] ∧
      Spec.Ep.stubGot 0 (app (at_ 6 tr)) = [(Ep.msgA, 5)])) (by decide +kernel)
  simp only [Bool.and_eq_true, decide_eq_true_eq, Option.isNone_iff_eq_none] at h
  obtain ⟨⟨⟨⟨⟨g1, g2⟩, g3⟩, g4⟩, g5⟩, g6, ⟨x, g7, g8⟩, g9, g10, g11, g12, g13, g14, g15⟩ := h
  have hA : Plain Ep.msgA := ⟨by unfold Normal; decide, by decide⟩
  obtain ⟨r1, r2⟩ := tcp_calm (each e 5) g1
  obtain ⟨r3, r4⟩ := tcp_calm (each e 6) g2
  refine ⟨tr.take 18, tr.drop 18, s, ?_⟩
  rw [List.take_append_drop]
  refine ⟨e, rfl, sole_spec (each e 6) g4, sole_spec (each e 5) g5, g6, r1, r2, errorless_spec g3 0, r3, r4,
    ⟨x.1, g8 ▸ g7⟩, g9, g10, g11, g12, ?_, ?_, g15⟩
  · rw [g13]; simpa using hA
  · rw [g14]
    intro b hb
    cases List.mem_singleton.mp hb
    exact ⟨[_], by simpa using hA, by simp⟩

/-- Two programs that connect to each other at the same time get one connection. -/
example : ∃ tr s, Exec (step Spec.Net.two) init tr s ∧
    Shown (app (at_ 5 tr)) (.opened 0 6) ∧ Shown (app (at_ 6 tr)) (.opened 0 5) ∧
    arrived 0 (at_ 6 tr) = frame Ep.msgA ∧ written 0 (at_ 5 tr) = frame Ep.msgA := by
  obtain ⟨tr, s, e, h⟩ := exec_by (step := step Spec.Net.two) (s := init)
    ([(6, .app (.proxy ⟨1, 1⟩ 5), 7), (6, .app (.ep true), 7), (6, .app (.ep true), 7),
      (6, .app (.ep true), 7), (6, .app (.ep true), 7), (6, .app (.ep true), 7), (6, .app (.ep true), 7),
      (6, .app (.connCmd 0), 7)] ++ (dialogue.drop 7).take 11 ++ [(6, .arrive 0 (frame Ep.msgA |>.take 10), 0),
      (5, .write 0 (.wrote 100), 0), (6, .arrive 0 (frame Ep.msgA |>.drop 10), 0)])
    (fun tr _ => decide ((.ep true, .opened 0 6) ∈ app (at_ 5 tr) ∧
      (.ep true, .opened 0 5) ∈ app (at_ 6 tr) ∧ arrived 0 (at_ 6 tr) = frame Ep.msgA ∧
      written 0 (at_ 5 tr) = frame Ep.msgA)) (by decide +kernel)
  obtain ⟨h1, h2, h3⟩ := of_decide_eq_true h
  exact ⟨tr, s, e, ⟨_, h1⟩, ⟨_, h2⟩, h3⟩

/-- **C121 fails as stated.** One program sends a message, TCP carries it, the other program returns a
message that was never sent: the message arrived in two pieces and a read ended between them. -/
theorem C121_false : ∃ tr s y w m, Exec (step Spec.Net.two) init
      (tr ++ [((6, .app (.stubRecv 0), 0), ⟨some (.stubRecv 0, y), w⟩)]) s ∧
    Returns (app (at_ 6 tr)) (.stubRecv 0) y m 5 ∧
    (∀ z c m₀, (z, .accepted c m₀) ∈ app (at_ 5 tr) → Plain m₀) ∧
    ¬ Spec.Net.SentTo (app (at_ 5 tr)) 6 m := by
  obtain ⟨tr, s, e, h⟩ := exec_by (step := step Spec.Net.two) (s := init)
    (dialogue.take 20 ++ [(5, .write 0 (.wrote 100), 0), (6, .arrive 0 ((frame Ep.msgA).take 16), 0),
      (6, .read 0 (.read 1400), 0), (6, .app (.route 0), 0), (6, .app (.route 0), 0),
      (6, .app (.route 0), 0), (6, .arrive 0 ((frame Ep.msgA).drop 16), 0)])
    (fun tr s => decide (((step Spec.Net.two s (6, .app (.stubRecv 0), 0)).map fun x => x.2) =
        some ⟨some (.stubRecv 0, .message { Ep.msgA with payload := [] } 5), none⟩ ∧
      allPlain (app (at_ 5 tr)) = true ∧ ∀ x ∈ app (at_ 5 tr), (match x.2 with
        | .accepted _ m => decide (m = Ep.msgA) | _ => true) = true)) (by decide +kernel)
  obtain ⟨h1, h2, h3⟩ := of_decide_eq_true h
  obtain ⟨x, hx, hy⟩ := Option.map_eq_some_iff.mp h1
  obtain ⟨s', o⟩ := x
  dsimp only at hy
  subst hy
  refine ⟨tr, s', _, _, _, e.snoc hx, .stub .., plain_of_all h2, ?_⟩
  have no : ∀ y c, (y, .accepted c { Ep.msgA with payload := [] }) ∉
      app (at_ 5 tr) := by
    intro y c hm
    have := h3 _ hm
    exact absurd (of_decide_eq_true this) (by decide)
  rintro (⟨t, u, k, c, h, _⟩ | ⟨p, c, i, id, h, _⟩)
  · exact no (.stubStep k) c (by rw [h]; simp)
  · exact no _ c h

end Rsomeip
