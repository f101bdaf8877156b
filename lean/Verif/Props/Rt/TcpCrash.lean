import Verif.Lemmas.TcpCrash
import Verif.Props.Rt.TcpNet
import Verif.Props.Rt.Once

/-! # C143, C144, C145: programs connected by TCP that crash and are started again -/

namespace Rsomeip

open Rt Rt.TcpCrash Spec Spec.TcpCrash
open Spec.TcpNet (Returns allPlain)
open Spec.TcpNode (written arrived app Plain Whole)
open Spec.Ep (Shown accepted heard)
open Spec.Node (reads returned)
open Spec.Net (two answerA SentTo acceptedFor)

variable {own : Addr → Bool}

/-- The history splits at the crash. -/
theorem tcp_reborn {t u : Trace} {s : State} {n : Addr} {o : TcpNode.Obs}
    (e : Exec (step own) init (t ++ (.crash n, o) :: u) s) (hu : ∀ o', (.crash n, o') ∉ u) :
    ∃ cc ad W A, Ghost own cc u (t ++ (.crash n, o) :: u) s ad W A ∧ New cc n s := by
  obtain ⟨s₂, e₂, e₃⟩ := Exec.split (t := t ++ [(.crash n, o)]) (u := u) (by rw [List.append_assoc]; exact e)
  obtain ⟨s₁, e₁, hs⟩ := e₂.last
  obtain ⟨ad, W, A, hg⟩ := ghost e₁
  have h1 := (hg.crash (living e₁ n) hs).reset (living e₂)
  have h2 := new_crash hg hs
  obtain ⟨ad, W, A, h3⟩ := ghost_from e₂ h1 e₃
  rw [List.nil_append, List.append_assoc] at h3
  exact ⟨_, ad, W, A, h3, new_from h2 e₃ hu⟩

/-- **C143.** Programs connected by TCP that may crash at any point and be started again. What has arrived on a
connection of the program at `n` to the program at `a` is the beginning of what was written on one connection
to `n` in one of the lives of the program at `a`; and if the program at `n` was started again, then that
connection was made, and all messages for it were accepted, after the program at `n` was started last. -/
theorem C143_streams {t u : Trace} {s : State} {n a : Addr} {c : Nat} {o : TcpNode.Obs}
    (e : Exec (step own) init (t ++ (.crash n, o) :: u) s) (hu : ∀ o', (.crash n, o') ∉ u) (ha : own a = true)
    (ho : Shown (app (life n (t ++ (.crash n, o) :: u))) (.opened c a)) :
    arrived c (life n (t ++ (.crash n, o) :: u)) = [] ∨
    ∃ L ∈ lives a (t ++ (.crash n, o) :: u), ∃ d, Shown (app L) (.opened d n) ∧
      arrived c (life n (t ++ (.crash n, o) :: u)) <+: written d L ∧ Within a d L u := by
  obtain ⟨cc, ad, W, A, h1, h2⟩ := tcp_reborn e hu
  exact source e h1 h2 ha ho

theorem tcp_old {tr : Trace} {s : State} (e : Exec (step own) init tr s) (n : Addr) :
    ∃ cc ad W A, Ghost own cc tr tr s ad W A ∧ New cc n s := by
  obtain ⟨ad, W, A, h⟩ := ghost e
  exact ⟨_, ad, W, A, h, fun _ _ _ => Nat.zero_le _, fun _ _ _ _ => Nat.zero_le _, fun _ => Nat.zero_le _⟩

theorem tcp_life_returned {tr : Trace} {s : State} {n a : Addr} {x : Ep.Action}
    {y : Ep.Obs} {k : Nat} {w : Option (Nat × Bytes)} {m : Msg}
    (e : Exec (step own) init (tr ++ [(.net n (.app x) k, ⟨some (x, y), w⟩)]) s)
    (h : Returns (app (life n tr)) x y m a) : Spec.Ep.Sent (app (life n tr)) a m := by
  obtain ⟨s₁, e₁, _⟩ := e.last
  have en := TcpNode.part (living e n)
  rw [life, story_here, TcpNode.app_snoc] at en
  cases h with
  | stub k m a => exact (C53_stub en).2
  | proxy p i id m a hp =>
    obtain ⟨i', id', a', h1, _, h2⟩ := C53_proxy en
    have hm := Ep.made (TcpNode.part (living e₁ n))
    have : a' = a := (hm.proxy p i' id' a' h1).2.2.1.symm.trans (hm.proxy p i id a hp).2.2.1
    exact this ▸ h2

theorem tcp_found {cc : Addr → Nat} {u tr : Trace} {s : State} {ad : Addr → Nat → Addr}
    {W A : Addr → Nat → Bytes} (e : Exec (step own) init tr s) (hg : Ghost own cc u tr s ad W A)
    {n a : Addr} (hn : New cc n s) (ha : own a = true) {m : Msg} (h : Spec.Ep.Sent (app (life n tr)) a m) :
    ∃ L ∈ lives a tr, ∃ c d b ms, Shown (app (life n tr)) (.opened c a) ∧ Shown (app L) (.opened d n) ∧
      arrived c (life n tr) <+: written d L ∧ Within a d L u ∧
      b ∈ reads c (app (life n tr)) ∧ Frames b ms ∧ m ∈ ms := by
  obtain ⟨c, b, ms, h1, h2, h3, h4⟩ := h
  have hb : b ∈ reads c (app (life n tr)) := Node.mem_reads h2
  rcases source e hg hn ha h1 with h5 | ⟨L, h5, d, h6, h7, h8⟩
  · have h6 := C87_reads (living e n) c
    rw [h5, List.prefix_nil, List.flatten_eq_nil_iff] at h6
    rw [h6 b hb] at h3
    rw [C52_unique h3 .nil] at h4
    cases h4
  · exact ⟨L, h5, c, d, b, ms, h1, h6, h7, h8, hb, h3, h4⟩

theorem tcp_piece {L : Spec.TcpNode.Trace} {tr : Trace} {s : State} {n : Addr} {c d : Nat} {b : Bytes}
    (e : Exec (step own) init tr s) (h : arrived c (life n tr) <+: written d L)
    (hb : b ∈ reads c (app (life n tr))) : b <:+: written d L := by
  obtain ⟨l, r, hlr⟩ := List.append_of_mem hb
  have h7 : b <:+: (reads c (app (life n tr))).flatten := by
    rw [hlr, List.flatten_append, List.flatten_cons]
    exact ⟨_, _, List.append_assoc ..⟩
  exact h7.trans ((C87_reads (living e n) c).trans h).isInfix

/-- **C143.** Programs connected by TCP that may crash at any point and be started again. Whatever the reads
are: a message that a stub or proxy of the program at `n` returns as coming from the program at `a` was found
in a piece of what that program has written, in this life or in one before it, on one connection to `n`, which
is the beginning of the messages accepted for it. -/
theorem C143_bytes {tr : Trace} {s : State} {n a : Addr} {x : Ep.Action} {y : Ep.Obs} {k : Nat}
    {w : Option (Nat × Bytes)} {m : Msg}
    (e : Exec (step own) init (tr ++ [(.net n (.app x) k, ⟨some (x, y), w⟩)]) s)
    (h : Returns (app (life n tr)) x y m a) (ha : own a = true) :
    ∃ L ∈ lives a tr, ∃ d b ms, Shown (app L) (.opened d n) ∧ b <:+: written d L ∧
      written d L <+: ((accepted d (app L)).map Spec.Ep.wireForm).flatten ∧ Frames b ms ∧ m ∈ ms := by
  obtain ⟨s₁, e₁, _⟩ := e.last
  obtain ⟨cc, ad, W, A, h1, h2⟩ := tcp_old e₁ n
  obtain ⟨L, hL, c, d, b, ms, h3, h4, h5, _, h7, h8, h9⟩ := tcp_found e₁ h1 h2 ha (tcp_life_returned e h)
  obtain ⟨_, e₂⟩ := lived e₁ a L hL
  exact ⟨L, hL, d, b, ms, h4, tcp_piece e₁ h5 h7, C87_written e₂ d, h8, h9⟩

/-- **C143.** If the program at `n` was started again, then the connection that the message was found in was
made, and all the messages for it were accepted, after that: nothing that was meant for the program before it
reaches the new one, and nothing that is still sent on connections to the old one. -/
theorem C143_fresh {t u : Trace} {s : State} {n a : Addr} {x : Ep.Action} {y : Ep.Obs} {k : Nat}
    {o : TcpNode.Obs} {w : Option (Nat × Bytes)} {m : Msg}
    (e : Exec (step own) init (t ++ (.crash n, o) :: u ++ [(.net n (.app x) k, ⟨some (x, y), w⟩)]) s)
    (hu : ∀ o', (.crash n, o') ∉ u)
    (h : Returns (app (life n (t ++ (.crash n, o) :: u))) x y m a) (ha : own a = true) :
    ∃ L ∈ lives a (t ++ (.crash n, o) :: u), ∃ d b ms, Shown (app L) (.opened d n) ∧ b <:+: written d L ∧
      written d L <+: ((accepted d (app L)).map Spec.Ep.wireForm).flatten ∧ Within a d L u ∧
      Frames b ms ∧ m ∈ ms := by
  obtain ⟨s₁, e₁, _⟩ := e.last
  obtain ⟨cc, ad, W, A, h1, h2⟩ := tcp_reborn e₁ hu
  obtain ⟨L, hL, c, d, b, ms, h3, h4, h5, h6, h7, h8, h9⟩ := tcp_found e₁ h1 h2 ha (tcp_life_returned e h)
  obtain ⟨_, e₂⟩ := lived e₁ a L hL
  exact ⟨L, hL, d, b, ms, h4, tcp_piece e₁ h5 h7, C87_written e₂ d, h6, h8, h9⟩

theorem accepted_mem {d : Nat} {m : Msg} {tr : Spec.Ep.Trace} (h : m ∈ accepted d tr) :
    ∃ z, (z, .accepted d m) ∈ tr := by
  simp only [accepted, List.mem_filterMap] at h
  obtain ⟨⟨z, o⟩, hz, ho⟩ := h
  cases o <;> simp only [reduceCtorEq] at ho
  split at ho
  · rename_i h; subst h; cases ho; exact ⟨z, hz⟩
  · cases ho

theorem tcp_whole {cc : Addr → Nat} {u tr : Trace} {s : State} {ad : Addr → Nat → Addr}
    {W A : Addr → Nat → Bytes} (e : Exec (step own) init tr s) (hg : Ghost own cc u tr s ad W A)
    {n a : Addr} (hn : New cc n s) (ha : own a = true) {m : Msg} (h : Spec.Ep.Sent (app (life n tr)) a m)
    (hp : ∀ L ∈ lives a tr, ∀ z c m₀, (z, .accepted c m₀) ∈ app L → Plain m₀)
    (hw : ∀ c, Shown (app (life n tr)) (.opened c a) → ∀ b ∈ reads c (app (life n tr)), Whole b) :
    ∃ L ∈ lives a tr, SentTo (app L) n m ∧ ∃ d, Shown (app L) (.opened d n) ∧
      (∃ z, (z, .accepted d m) ∈ app L) ∧ Within a d L u := by
  obtain ⟨L, hL, c, d, b, ms, h3, h4, h5, h6, h7, h8, h9⟩ := tcp_found e hg hn ha h
  obtain ⟨_, e₂⟩ := lived e a L hL
  have hb : m ∈ heard c (app (life n tr)) := by
    rw [Node.heard_eq, List.mem_flatMap]
    exact ⟨b, h7, by rw [Rt.Ep.contents_eq h8]; exact h9⟩
  have h10 := (C87_messages_partial e₂ (living e n) h5
    (fun m₀ hm₀ => let ⟨z, hz⟩ := accepted_mem hm₀; hp L hL z d m₀ hz) (hw c h3)).subset hb
  exact ⟨L, hL, TcpNet.accepted_sentTo (TcpNode.part e₂) h10 h4, d, h4, accepted_mem h10, h6⟩

/-- **C144**, the part that holds: if every read on connections to the program at `a` ends between messages,
and the messages sent there can be expressed in the format, then a message that a stub or proxy of the program
at `n` returns as coming from the program at `a` was sent to `n` by that program, in this life or in one before
it. What is missing: reads that end inside a message, see below. -/
theorem C144_sent_partial {tr : Trace} {s : State} {n a : Addr} {x : Ep.Action} {y : Ep.Obs} {k : Nat}
    {w : Option (Nat × Bytes)} {m : Msg}
    (e : Exec (step own) init (tr ++ [(.net n (.app x) k, ⟨some (x, y), w⟩)]) s)
    (h : Returns (app (life n tr)) x y m a) (ha : own a = true)
    (hp : ∀ L ∈ lives a tr, ∀ z c m₀, (z, .accepted c m₀) ∈ app L → Plain m₀)
    (hw : ∀ c, Shown (app (life n tr)) (.opened c a) → ∀ b ∈ reads c (app (life n tr)), Whole b) :
    ∃ L ∈ lives a tr, SentTo (app L) n m := by
  obtain ⟨s₁, e₁, _⟩ := e.last
  obtain ⟨cc, ad, W, A, h1, h2⟩ := tcp_old e₁ n
  obtain ⟨L, hL, h3, _⟩ := tcp_whole e₁ h1 h2 ha (tcp_life_returned e h) hp hw
  exact ⟨L, hL, h3⟩

/-- **C144**, the part that holds: under the same conditions, a program that was started again returns only
messages that were accepted after that, for a connection to it that was made after that. What is missing:
reads that end inside a message, see below. -/
theorem C144_fresh_partial {t u : Trace} {s : State} {n a : Addr} {x : Ep.Action} {y : Ep.Obs} {k : Nat}
    {o : TcpNode.Obs} {w : Option (Nat × Bytes)} {m : Msg}
    (e : Exec (step own) init (t ++ (.crash n, o) :: u ++ [(.net n (.app x) k, ⟨some (x, y), w⟩)]) s)
    (hu : ∀ o', (.crash n, o') ∉ u)
    (h : Returns (app (life n (t ++ (.crash n, o) :: u))) x y m a) (ha : own a = true)
    (hp : ∀ L ∈ lives a (t ++ (.crash n, o) :: u), ∀ z c m₀, (z, .accepted c m₀) ∈ app L → Plain m₀)
    (hw : ∀ c, Shown (app (life n (t ++ (.crash n, o) :: u))) (.opened c a) →
      ∀ b ∈ reads c (app (life n (t ++ (.crash n, o) :: u))), Whole b) :
    ∃ L ∈ lives a (t ++ (.crash n, o) :: u), SentTo (app L) n m ∧
      ∃ d z, Within a d L u ∧ Shown (app L) (.opened d n) ∧ (z, .accepted d m) ∈ app L ∧
        ∃ y' k' w', (.net a y' k', w') ∈ u ∧ w'.ep = some (z, .accepted d m) := by
  obtain ⟨s₁, e₁, _⟩ := e.last
  obtain ⟨cc, ad, W, A, h1, h2⟩ := tcp_reborn e₁ hu
  obtain ⟨L, hL, h3, d, h4, ⟨z, h5⟩, h6⟩ := tcp_whole e₁ h1 h2 ha (tcp_life_returned e h) hp hw
  exact ⟨L, hL, h3, d, z, h6, h4, h5, h6 z _ h5 (.inr ⟨m, rfl⟩)⟩

/-- **C145**, the part that holds: if every read on connections to the program at `a` ends between messages, and
the messages sent there can be expressed in the format, then what `send` and `send_to` have accepted `k` times at
`a` for `b`, in all lives of the program there, all stubs and proxies at `b` together return at most `k` times as
coming from `a`, in all lives of the program there. Neither the library nor a crash makes a message come twice.
What is missing: reads that end inside a message, see below. -/
theorem C145_once_partial {tr : Trace} {s : State} (e : Exec (step own) init tr s) {a b : Addr}
    (ha : own a = true) (hp : ∀ L ∈ lives a tr, ∀ z c m₀, (z, .accepted c m₀) ∈ app L → Plain m₀)
    (hw : ∀ L ∈ lives b tr, ∀ c, Shown (app L) (.opened c a) → ∀ r ∈ reads c (app L), Whole r) (m : Msg) :
    (whole (fun L => returned (app L)) b tr).count (m, a) ≤
      (whole (fun L => acceptedFor b (app L)) a tr).count m := by
  obtain ⟨ad, W, A, hg⟩ := ghost e
  obtain ⟨R, _, hb, hr, _⟩ := hg.all e b
  obtain ⟨_, T, hta, _, ht⟩ := hg.all e a
  refine Nat.le_trans (hr m a) (Nat.le_trans ?_ (ht m b))
  have key : ∀ g, g < s.count b → (if ad b g = a then (R g).count m else 0) ≠ 0 →
      ad b g = a ∧ ∃ g', s.peer b g = some (a, g') ∧ s.peer a g' = some (b, g) ∧ g' < s.count a ∧
        ad a g' = b ∧ (R g).count m ≤ (T g').count m := by
    intro g hgb h0
    have had : ad b g = a := by
      apply Decidable.byContradiction
      intro h
      rw [if_neg h] at h0
      exact h0 rfl
    rw [if_pos had] at h0
    obtain ⟨L, hL, c, h1, _, h2, h3, _⟩ := hb g hgb
    obtain ⟨_, eL⟩ := lived e b L hL
    refine ⟨had, ?_⟩
    cases hq : s.peer b g with
    | none =>
      have h4 := hg.links.none b g hgb hq (by rw [had]; exact ha)
      have h5 := C87_reads eL c
      rw [← h2, h4, List.prefix_nil, List.flatten_eq_nil_iff] at h5
      have h6 : R g = [] := by
        rw [h3, Node.heard_eq, List.flatMap_eq_nil_iff]
        intro r hr
        rw [h5 r hr]
        exact Rt.Ep.contents_eq .nil
      rw [h6] at h0
      exact absurd rfl h0
    | some w =>
      obtain ⟨a', g'⟩ := w
      have h4 := (hg.links.addr _ _ _ _ hq).2
      rw [had] at h4
      subst h4
      have h5 := hg.links.symm _ _ _ _ hq
      obtain ⟨h6, h7⟩ := hg.links.addr _ _ _ _ h5
      obtain ⟨L', hL', d, _, h8, _, _, h9⟩ := hta g' h6
      obtain ⟨_, eL'⟩ := lived e a L' hL'
      have h10 : A b g <+: W a g' := by
        rw [hg.links.pipe a g', h5]
        exact List.prefix_append _ _
      rw [h2, h8] at h10
      rw [had] at h1
      have h11 := C87_messages_partial eL' eL h10
        (fun m₀ hm₀ => let ⟨z, hz⟩ := accepted_mem hm₀; hp L' hL' z d m₀ hz) (hw L hL c h1)
      refine ⟨g', rfl, h5, h6, h7, ?_⟩
      rw [h3, h9]
      exact h11.sublist.count_le m
  refine TcpTally.sum_inj (fun g => match s.peer b g with | some (_, g') => g' | none => 0) ?_ ?_
  · intro g hgb h0
    obtain ⟨had, g', h1, _, h3, h4, h5⟩ := key g hgb h0
    simp only [h1, if_pos had, if_pos h4]
    exact ⟨h3, h5⟩
  · intro g k hgb hkb h0 h0' h
    obtain ⟨_, g', h1, h2, _⟩ := key g hgb h0
    obtain ⟨_, k', h3, h4, _⟩ := key k hkb h0'
    simp only [h1, h3] at h
    subst h
    rw [h2] at h4
    cases h4
    rfl

/-! ### A client that crashes after its question was answered, and asks again -/

/-- The two programs of `Spec.TcpNet.dialogue`; the answer has arrived, but the client at 5 is killed before it
has returned it, started again and asks again. The program at 6 has not learned of the crash and still has
both connections. -/
def Spec.TcpCrash.again : List Action :=
  TcpNet.dialogue.map (fun x => .net x.1 x.2.1 x.2.2) ++ [.crash 5] ++
  ((TcpNet.dialogue.drop 7).take 11).map (fun x => .net x.1 x.2.1 x.2.2) ++
  [.net 6 (.app (.accept 0 5)) 1, .net 6 (.app (.lisShare 0)) 0, .net 5 (.write 0 (.wrote 100)) 0,
    .net 6 (.arrive 1 (frame Spec.Ep.msgA)) 0, .net 6 (.read 1 (.read 1400)) 0, .net 6 (.app (.route 1)) 0,
    .net 6 (.app (.route 1)) 0, .net 6 (.app (.route 1)) 0, .net 6 (.app (.stubRecv 0)) 0,
    .net 6 (.app (.stubSend 0 5 answerA)) 0, .net 6 (.app (.stubStep 0)) 0, .net 6 (.app (.stubStep 0)) 0,
    .net 6 (.app (.stubStep 0)) 0, .net 6 (.app (.connCmd 1)) 0, .net 6 (.write 1 (.wrote 100)) 0,
    .net 5 (.arrive 0 (frame answerA)) 0, .net 5 (.read 0 (.read 1400)) 0, .net 5 (.app (.route 0)) 0,
    .net 5 (.app (.route 0)) 0, .net 5 (.app (.route 0)) 0]

theorem tcp_again : ∃ tr s, Exec (step two) init tr s ∧
    (((step two s (.net 5 (.app (.proxyRecv 0)) 0)).map fun x => x.2) =
        some ⟨some (.proxyRecv 0, .reply answerA), none⟩ ∧
      (.ep true, .proxying 0 0 ⟨1, 1⟩ 6) ∈ app (life 5 tr) ∧
      tr[39]? = some (.crash 5, ⟨none, none⟩) ∧ (∀ o, (.crash 5, o) ∉ tr.drop 40)) ∧
    ((lives 6 tr).all fun L => allPlain (app L)) = true ∧
      (s.nodes 5).ep.connCount = 1 ∧ reads 0 (app (life 5 tr)) = [frame answerA] ∧
      arrived 0 (life 5 tr) = frame answerA ∧ (lives 5 tr).length = 2 := by
  obtain ⟨tr, s, e, h⟩ := exec_by (step := step two) (s := init) again
    (fun tr s => decide ((((step two s (.net 5 (.app (.proxyRecv 0)) 0)).map fun x => x.2) =
        some ⟨some (.proxyRecv 0, .reply answerA), none⟩ ∧
      ((.ep true, .proxying 0 0 ⟨1, 1⟩ 6) : Ep.Action × Ep.Obs) ∈ app (life 5 tr) ∧
      tr[39]? = some ((.crash 5, ⟨none, none⟩) : Action × TcpNode.Obs) ∧ (∀ x ∈ tr.drop 40, x.1 ≠ .crash 5)) ∧
      ((lives 6 tr).all fun L => allPlain (app L)) = true ∧
      (s.nodes 5).ep.connCount = 1 ∧ reads 0 (app (life 5 tr)) = [frame answerA] ∧
      arrived 0 (life 5 tr) = frame answerA ∧ (lives 5 tr).length = 2))
    (by decide +kernel)
  obtain ⟨⟨h1, h2, h3, h4⟩, h5⟩ := of_decide_eq_true h
  exact ⟨tr, s, e, ⟨h1, h2, h3, fun o ho => h4 _ ho rfl⟩, h5⟩

/-- The hypotheses of the theorems above: the second life of the client returns the answer. -/
example : ∃ t u s o y w, Exec (step two) init
      (t ++ (.crash 5, o) :: u ++ [(.net 5 (.app (.proxyRecv 0)) 0, ⟨some (.proxyRecv 0, y), w⟩)]) s ∧
    (∀ o', (.crash 5, o') ∉ u) ∧ two 6 = true ∧
    Returns (app (life 5 (t ++ (.crash 5, o) :: u))) (.proxyRecv 0) y answerA 6 ∧
    (∀ L ∈ lives 6 (t ++ (.crash 5, o) :: u), ∀ z c m₀, (z, .accepted c m₀) ∈ app L → Plain m₀) ∧
    ∀ c, Shown (app (life 5 (t ++ (.crash 5, o) :: u))) (.opened c 6) →
      ∀ b ∈ reads c (app (life 5 (t ++ (.crash 5, o) :: u))), Whole b := by
  obtain ⟨tr, s, e, ⟨h1, h2, h3, h4⟩, h5, h6, h7, h8, h9⟩ := tcp_again
  obtain ⟨x, hx, hy⟩ := Option.map_eq_some_iff.mp h1
  obtain ⟨s', ob⟩ := x
  dsimp only at hy
  subst hy
  have hA : Plain answerA := ⟨by unfold Normal; decide, by decide⟩
  have htr : tr = tr.take 39 ++ (.crash 5, ⟨none, none⟩) :: tr.drop 40 := by
    obtain ⟨hl, hv⟩ := List.getElem?_eq_some_iff.mp h3
    rw [← hv, ← List.drop_eq_getElem_cons hl, List.take_append_drop]
  refine ⟨tr.take 39, tr.drop 40, s', ⟨none, none⟩, .reply answerA, none, ?_, h4, rfl, ?_, ?_, ?_⟩
  · rw [← htr]; exact e.snoc hx
  · rw [← htr]; exact .proxy _ _ _ _ _ ⟨_, h2⟩
  · rw [← htr]
    intro L hL
    exact plain_of_all (List.all_eq_true.mp h5 L hL)
  · rw [← htr]
    intro c hc
    have := (Ep.opened_addr (TcpNode.part (living e 5)) hc).1
    obtain rfl : c = 0 := by omega
    rw [h7]
    intro b hb
    cases List.mem_singleton.mp hb
    exact ⟨[_], by simpa using hA, by simp⟩

/-- Something has arrived on the connection of its second life: the hypotheses of `C143_streams`. -/
example : ∃ t u s o, Exec (step two) init (t ++ (.crash 5, o) :: u) s ∧ (∀ o', (.crash 5, o') ∉ u) ∧
    two 6 = true ∧ Shown (app (life 5 (t ++ (.crash 5, o) :: u))) (.opened 0 6) ∧
    arrived 0 (life 5 (t ++ (.crash 5, o) :: u)) = frame answerA := by
  obtain ⟨tr, s, e, h⟩ := exec_by (step := step two) (s := init) again
    (fun tr s => decide (tr[39]? = some ((.crash 5, ⟨none, none⟩) : Action × TcpNode.Obs) ∧
      (∀ x ∈ tr.drop 40, x.1 ≠ .crash 5) ∧
      ((.ep true, .opened 0 6) : Ep.Action × Ep.Obs) ∈ app (life 5 tr) ∧
      arrived 0 (life 5 tr) = frame answerA)) (by decide +kernel)
  obtain ⟨h1, h2, h3, h4⟩ := of_decide_eq_true h
  have htr : tr = tr.take 39 ++ (.crash 5, ⟨none, none⟩) :: tr.drop 40 := by
    obtain ⟨hl, hv⟩ := List.getElem?_eq_some_iff.mp h1
    rw [← hv, ← List.drop_eq_getElem_cons hl, List.take_append_drop]
  refine ⟨tr.take 39, tr.drop 40, s, ⟨none, none⟩, ?_, fun o ho => h2 _ ho rfl, rfl, ?_, ?_⟩
  · rw [← htr]; exact e
  · rw [← htr]; exact ⟨_, h3⟩
  · rw [← htr]; exact h4

/-- **C144 fails as stated.** A server is started again before the client has sent anything; the client sends
one message, which arrives in two pieces, a read ends between them, and the server returns a message that was
never sent, in no life. -/
theorem C144_false : ∃ tr s y w m, Exec (step two) init
      (tr ++ [(.net 6 (.app (.stubRecv 0)) 0, ⟨some (.stubRecv 0, y), w⟩)]) s ∧
    Returns (app (life 6 tr)) (.stubRecv 0) y m 5 ∧ (lives 6 tr).length = 2 ∧
    (∀ L ∈ lives 5 tr, ∀ z c m₀, (z, .accepted c m₀) ∈ app L → Plain m₀) ∧
    ∀ L ∈ lives 5 tr, ¬ SentTo (app L) 6 m := by
  obtain ⟨tr, s, e, h⟩ := exec_by (step := step two) (s := init)
    (.crash 6 :: (TcpNet.dialogue.take 20 ++ ([(5, .write 0 (.wrote 100), 0),
      (6, .arrive 0 ((frame Spec.Ep.msgA).take 16), 0),
      (6, .read 0 (.read 1400), 0), (6, .app (.route 0), 0), (6, .app (.route 0), 0),
      (6, .app (.route 0), 0)] : List TcpNet.Action)).map (fun x => .net x.1 x.2.1 x.2.2))
    (fun tr s => decide (((step two s (.net 6 (.app (.stubRecv 0)) 0)).map fun x => x.2) =
        some ⟨some (.stubRecv 0, .message { Spec.Ep.msgA with payload := [] } 5), none⟩ ∧
      (lives 6 tr).length = 2 ∧ ((lives 5 tr).all fun L => allPlain (app L)) = true ∧
      ((lives 5 tr).all fun L => (app L).all fun x => match x.2 with
        | .accepted _ m => decide (m = Spec.Ep.msgA) | _ => true) = true)) (by decide +kernel)
  obtain ⟨h1, h0, h2, h3⟩ := of_decide_eq_true h
  obtain ⟨x, hx, hy⟩ := Option.map_eq_some_iff.mp h1
  obtain ⟨s', o⟩ := x
  dsimp only at hy
  subst hy
  refine ⟨tr, s', _, _, _, e.snoc hx, .stub .., h0, fun L hL => plain_of_all (List.all_eq_true.mp h2 L hL), ?_⟩
  intro L hL
  have no : ∀ y c, (y, .accepted c { Spec.Ep.msgA with payload := [] }) ∉ app L := by
    intro y c hm
    have := List.all_eq_true.mp (List.all_eq_true.mp h3 L hL) _ hm
    exact absurd (of_decide_eq_true this) (by decide)
  rintro (⟨t, u, k, c, h, _⟩ | ⟨p, c, i, id, h, _⟩)
  · exact no (.stubStep k) c (by rw [h]; simp)
  · exact no _ c h

/-- The client asks in both of its lives; the stub returns the question twice, and the client has returned the
second answer. The hypotheses of `C145_once_partial`, in both directions. -/
example : ∃ tr s, Exec (step two) init tr s ∧ two 5 = true ∧ two 6 = true ∧
    (∀ L ∈ lives 5 tr ++ lives 6 tr, ∀ z c m₀, (z, .accepted c m₀) ∈ app L → Plain m₀) ∧
    (∀ L ∈ lives 5 tr ++ lives 6 tr, ∀ c, ∀ r ∈ reads c (app L), Whole r) ∧
    (whole (fun L => returned (app L)) 6 tr).count (Spec.Ep.msgA, 5) = 2 ∧
    (whole (fun L => acceptedFor 6 (app L)) 5 tr).count Spec.Ep.msgA = 2 ∧
    (whole (fun L => returned (app L)) 5 tr).count (answerA, 6) = 1 ∧
    (whole (fun L => acceptedFor 5 (app L)) 6 tr).count answerA = 2 := by
  obtain ⟨tr, s, e, h⟩ := exec_by (step := step two) (s := init) (again ++ [.net 5 (.app (.proxyRecv 0)) 0])
    (fun tr s => decide (((lives 5 tr ++ lives 6 tr).all fun L => allPlain (app L)) = true ∧
      ((lives 5 tr ++ lives 6 tr).all fun L => (app L).all fun x => match x with
        | (.packet _ (.packet r), _) => decide (r = frame Spec.Ep.msgA ∨ r = frame answerA)
        | _ => true) = true ∧
      (whole (fun L => returned (app L)) 6 tr).count (Spec.Ep.msgA, 5) = 2 ∧
      (whole (fun L => acceptedFor 6 (app L)) 5 tr).count Spec.Ep.msgA = 2 ∧
      (whole (fun L => returned (app L)) 5 tr).count (answerA, 6) = 1 ∧
      (whole (fun L => acceptedFor 5 (app L)) 6 tr).count answerA = 2)) (by decide +kernel)
  obtain ⟨h1, h2, h3⟩ := of_decide_eq_true h
  refine ⟨tr, s, e, rfl, rfl, fun L hL => plain_of_all (List.all_eq_true.mp h1 L hL), ?_, h3⟩
  intro L hL c r hr
  have hA : Plain Spec.Ep.msgA := ⟨by unfold Normal; decide, by decide⟩
  have hB : Plain answerA := ⟨by unfold Normal; decide, by decide⟩
  simp only [reads, List.mem_filterMap] at hr
  obtain ⟨⟨x, o⟩, hx, hr⟩ := hr
  have h4 := List.all_eq_true.mp (List.all_eq_true.mp h2 L hL) _ hx
  split at hr
  · rename_i heq
    obtain ⟨rfl, rfl⟩ := Prod.mk.inj heq
    split at hr
    · cases hr
      rcases of_decide_eq_true h4 with rfl | rfl
      · exact ⟨[_], by simpa using hA, by simp⟩
      · exact ⟨[_], by simpa using hB, by simp⟩
    · cases hr
  · cases hr

/-- **C145 fails as stated.** A message that was never accepted is returned once: the history of `C144_false`. -/
theorem C145_false : ∃ tr s m, Exec (step two) init tr s ∧
    (∀ L ∈ lives 5 tr, ∀ z c m₀, (z, .accepted c m₀) ∈ app L → Plain m₀) ∧
    (whole (fun L => returned (app L)) 6 tr).count (m, 5) = 1 ∧
    (whole (fun L => acceptedFor 6 (app L)) 5 tr).count m = 0 := by
  obtain ⟨tr, s, e, h⟩ := exec_by (step := step two) (s := init)
    (.crash 6 :: (TcpNet.dialogue.take 20 ++ ([(5, .write 0 (.wrote 100), 0),
      (6, .arrive 0 ((frame Spec.Ep.msgA).take 16), 0),
      (6, .read 0 (.read 1400), 0), (6, .app (.route 0), 0), (6, .app (.route 0), 0),
      (6, .app (.route 0), 0), (6, .app (.stubRecv 0), 0)] : List TcpNet.Action)).map
        (fun x => .net x.1 x.2.1 x.2.2))
    (fun tr s => decide (((lives 5 tr).all fun L => allPlain (app L)) = true ∧
      (whole (fun L => returned (app L)) 6 tr).count ({ Spec.Ep.msgA with payload := [] }, 5) = 1 ∧
      (whole (fun L => acceptedFor 6 (app L)) 5 tr).count { Spec.Ep.msgA with payload := [] } = 0))
    (by decide +kernel)
  obtain ⟨h1, h2⟩ := of_decide_eq_true h
  exact ⟨tr, s, _, e, fun L hL => plain_of_all (List.all_eq_true.mp h1 L hL), h2⟩

end Rsomeip
