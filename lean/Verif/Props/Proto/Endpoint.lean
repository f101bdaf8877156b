import Verif.Lemmas.Map
import Verif.Spec.Interface
import Verif.Props.Proto.Message

/-! # C35–C42: interface checks, endpoints and registries -/

namespace Rsomeip

open Spec Proto

variable {β : Type}

/-! ### Registries -/

/-- Calls that change the registry of an endpoint. -/
inductive Spec.EndpointCall where
  | insert (k : ServiceId) (i : Interface)
  | withInterface (k : ServiceId) (i : Interface)
  | remove (k : ServiceId)
  | getMut (k : ServiceId) (f : Interface → Interface)

/-- Perform the call: the value returned and the endpoint afterwards. -/
def Spec.EndpointCall.run (e : Endpoint) : EndpointCall → Option Interface × Endpoint
  | .insert k i => e.insert k i
  | .withInterface k i => (none, e.withInterface k i)
  | .remove k => e.remove k
  | .getMut k f => e.modify k f

/-- What the call does to the value under key `k` in an ideal map. -/
def Spec.EndpointCall.effect (k : ServiceId) (old : Option Interface) :
    EndpointCall → Option Interface
  | .insert k' i => if k' = k then some i else old
  | .withInterface k' i => if k' = k then some i else old
  | .remove k' => if k' = k then none else old
  | .getMut k' f => if k' = k then old.map f else old

/-- **C42.** After any sequence of calls, every key of an endpoint holds what it holds in an ideal
map. -/
theorem C42_endpoint_registry (e : Endpoint) (calls : List EndpointCall) (k : ServiceId) :
    (calls.foldl (fun e c => (c.run e).2) e).get k =
      calls.foldl (EndpointCall.effect k) (e.get k) := by
  induction calls generalizing e with
  | nil => rfl
  | cons c cs ih =>
    rw [List.foldl_cons, List.foldl_cons, ih]
    congr 1
    cases c with
    | insert k' i => exact Map.get_insert _ _ _ _
    | withInterface k' i => exact Map.get_insert _ _ _ _
    | remove k' => exact Map.get_remove _ _ _
    | getMut k' f => exact Map.get_modify _ _ _ _

/-- **C42.** Whatever was done to an endpoint since it was created, `insert`, `remove` and `get_mut` show
the value the key had in an ideal map that was empty at first. -/
theorem C42_endpoint_previous (calls : List EndpointCall) (k : ServiceId) (i : Interface)
    (f : Interface → Interface) :
    let e := calls.foldl (fun e c => (c.run e).2) Endpoint.new
    let v := calls.foldl (EndpointCall.effect k) none
    (e.insert k i).1 = v ∧ (e.remove k).1 = v ∧ (e.modify k f).1 = v := by
  intro e v
  have h : e.get k = v := C42_endpoint_registry Endpoint.new calls k
  exact ⟨h, h, (Map.modify_fst _ _ _).trans h⟩

/-- Calls that change an interface. -/
inductive Spec.InterfaceCall where
  | insert (k : MethodId) (t : MethodType)
  | withMethod (k : MethodId)
  | withProcedure (k : MethodId)
  | withEvent (k : MethodId)
  | remove (k : MethodId)
  | getMut (k : MethodId) (f : MethodType → MethodType)
  | withVersion (v : InterfaceVersion)
  | intoStub
  | intoProxy

/-- Perform the call. -/
def Spec.InterfaceCall.run (i : Interface) : InterfaceCall → Interface
  | .insert k t => (i.insert k t).2
  | .withMethod k => i.withMethod k
  | .withProcedure k => i.withProcedure k
  | .withEvent k => i.withEvent k
  | .remove k => (i.remove k).2
  | .getMut k f => (i.modify k f).2
  | .withVersion v => i.withVersion v
  | .intoStub => i.intoStub
  | .intoProxy => i.intoProxy

/-- What the call does to the value under key `k` in an ideal map. -/
def Spec.InterfaceCall.effect (k : MethodId) (old : Option MethodType) :
    InterfaceCall → Option MethodType
  | .insert k' t => if k' = k then some t else old
  | .withMethod k' => if k' = k then some .method else old
  | .withProcedure k' => if k' = k then some .procedure else old
  | .withEvent k' => if k' = k then some .event else old
  | .remove k' => if k' = k then none else old
  | .getMut k' f => if k' = k then old.map f else old
  | .withVersion _ | .intoStub | .intoProxy => old

/-- **C42.** After any sequence of calls, every key of an interface holds what it holds in an ideal
map, and version and flavor are the ones set last. -/
theorem C42_interface_registry (i : Interface) (calls : List InterfaceCall) (k : MethodId) :
    let r := calls.foldl InterfaceCall.run i
    r.get k = calls.foldl (InterfaceCall.effect k) (i.get k) ∧
    r.version = lastSet (fun | .withVersion v => some v | _ => none) i.version calls ∧
    r.flavor = lastSet (fun | .intoStub => some .stub | .intoProxy => some .proxy | _ => none)
      i.flavor calls := by
  refine ⟨?_, ?_, ?_⟩
  · induction calls generalizing i with
    | nil => rfl
    | cons c cs ih =>
      simp only [List.foldl_cons]
      rw [ih]
      congr 1
      cases c with
      | insert k' t => exact Map.get_insert _ _ _ _
      | withMethod k' => exact Map.get_insert _ _ _ _
      | withProcedure k' => exact Map.get_insert _ _ _ _
      | withEvent k' => exact Map.get_insert _ _ _ _
      | remove k' => exact Map.get_remove _ _ _
      | getMut k' f => exact Map.get_modify _ _ _ _
      | withVersion v => rfl
      | intoStub => rfl
      | intoProxy => rfl
  · exact lastSet_foldl Interface.version _ _ (by intro s c; cases c <;> rfl) _ _
  · exact lastSet_foldl Interface.flavor _ _ (by intro s c; cases c <;> rfl) _ _

/-- **C42.** Whatever was done to an interface since it was created, `insert`, `remove` and `get_mut`
show the value the key had in an ideal map that was empty at first; version and flavor are the ones set
last, or 0 and stub. -/
theorem C42_interface_previous (calls : List InterfaceCall) (k : MethodId) (t : MethodType)
    (f : MethodType → MethodType) :
    let i := calls.foldl InterfaceCall.run Interface.default
    let v := calls.foldl (InterfaceCall.effect k) none
    (i.insert k t).1 = v ∧ (i.remove k).1 = v ∧ (i.modify k f).1 = v ∧
    i.version = lastSet (fun | .withVersion v => some v | _ => none) ⟨0⟩ calls ∧
    i.flavor = lastSet (fun | .intoStub => some .stub | .intoProxy => some .proxy | _ => none)
      .stub calls := by
  intro i v
  obtain ⟨h, h1, h2⟩ := C42_interface_registry Interface.default calls k
  exact ⟨h, h, (Map.modify_fst _ _ _).trans h, h1, h2⟩

/-- An interface used in the examples: version 2 with a method 0x5678, a procedure 2, an event 3. -/
def Spec.sampleInterface : Interface :=
  ((((Interface.default.withVersion ⟨2⟩).withMethod ⟨0x5678⟩).withProcedure ⟨2⟩).withEvent ⟨3⟩)

example : sampleInterface.get ⟨2⟩ = some .procedure ∧ sampleInterface.get ⟨4⟩ = none ∧
    ((sampleInterface.withEvent ⟨2⟩).remove ⟨2⟩).1 = some .event := by decide

/-! ### Interface checks -/

theorem legal_def (i : Interface) (m : Message β) (d : Direction) : Legal i m d ↔
    m.interface = i.version ∧ ∃ k, i.get m.method = some k ∧
      (d, i.flavor, k, m.messageType) ∈ legalTable := .rfl

theorem legalAt_def (e : Endpoint) (m : Message β) (d : Direction) : LegalAt e m d ↔
    m.protocol = ⟨1⟩ ∧ ∃ i, e.get m.service = some i ∧ Legal i m d := .rfl

theorem refusal_def (i : Interface) (m : Message β) : refusal i m =
    if m.interface ≠ i.version then .wrongInterfaceVersion
    else match i.get m.method with
      | none => .unknownMethod
      | some _ => .wrongMessageType := rfl

theorem refusalAt_def (e : Endpoint) (m : Message β) : refusalAt e m =
    if m.protocol ≠ ⟨1⟩ then .wrongProtocolVersion
    else match e.get m.service with
      | none => .unknownService
      | some i => refusal i m := rfl

/-- **C35.** The check passes exactly for legal messages. -/
theorem C35_check_iff (i : Interface) (m : Message β) (d : Direction) :
    i.check m d = .ok () ↔ Legal i m d := by
  simp only [Interface.check, legal_def, Interface.get]
  by_cases hv : m.interface = i.version
  · rw [if_neg (by simp [hv])]
    cases hk : i.methods.get m.method with
    | none => simp
    | some k =>
      simp only [hv, true_and, Option.some.injEq, exists_eq_left', legalTable]
      generalize m.messageType = t
      generalize i.flavor = fl
      cases d <;> cases fl <;> cases k <;> cases t <;> simp
  · rw [if_pos hv]
    simp [hv]

/-- **C35.** A message whose type is none of the standard ones is never accepted, whatever the
interface, the direction and the method. -/
theorem C35_unknown_types_rejected (i : Interface) (m : Message β) (d : Direction) (x : UInt8)
    (h : m.messageType = .unknown x) : i.check m d ≠ .ok () := by
  rw [Ne, C35_check_iff]
  rintro ⟨_, k, _, hk⟩
  rw [h] at hk
  revert hk
  simp [legalTable]

/-- The return code carried by a check failure. -/
def Spec.codeIn : MessageError → ReturnCode
  | .invalid c => c
  | .dropped c => c

/-- **C36.** A failed check reports the first applicable cause. -/
theorem C36_first_cause (i : Interface) (m : Message β) (d : Direction) (x : MessageError)
    (h : i.check m d = .error x) : codeIn x = refusal i m := by
  simp only [Interface.check] at h
  simp only [refusal_def, Interface.get]
  by_cases hv : m.interface = i.version
  · rw [if_neg (by simp [hv])] at h ⊢
    cases hk : i.methods.get m.method with
    | none =>
      rw [hk] at h
      simp only [MessageError.invalidOrDropped] at h
      split at h <;> cases h <;> rfl
    | some k =>
      rw [hk] at h
      simp only at h
      show codeIn x = .wrongMessageType
      generalize m.messageType = t at h
      generalize i.flavor = fl at h
      cases d <;> cases fl <;> cases k <;> cases t <;> simp at h <;> subst h <;> rfl
  · rw [if_pos hv] at h ⊢
    simp only [MessageError.invalidOrDropped] at h
    split at h <;> cases h <;> rfl

/-- Is the failure one that is to be answered with an error message? -/
def Spec.answered : MessageError → Bool
  | .invalid _ => true
  | .dropped _ => false

/-- Exactly which failures of an incoming check are to be answered: requests of the wrong version or
to an unknown method, and every message of the wrong type to a method of a stub. -/
theorem answered_incoming (i : Interface) (m : Message β) (x : MessageError)
    (h : i.check m .incoming = .error x) :
    answered x = true ↔
      (m.messageType = .request ∧ (m.interface ≠ i.version ∨ i.get m.method = none)) ∨
      (m.messageType ≠ .request ∧ m.interface = i.version ∧ i.flavor = .stub ∧
        i.get m.method = some .method) := by
  simp only [Interface.check] at h
  simp only [Interface.get]
  by_cases hv : m.interface = i.version
  · rw [if_neg (by simp [hv])] at h
    cases hk : i.methods.get m.method with
    | none =>
      rw [hk] at h
      simp only [MessageError.invalidOrDropped] at h
      split at h <;> cases h <;> simp [answered, *]
    | some k =>
      rw [hk] at h
      simp only at h
      simp only [hv]
      generalize m.messageType = t at h ⊢
      generalize i.flavor = fl at h ⊢
      cases fl <;> cases k <;> cases t <;> simp at h <;> subst h <;> simp [answered]
  · rw [if_pos hv] at h
    simp only [MessageError.invalidOrDropped] at h
    split at h <;> cases h <;> simp [answered, *]

/-- Outgoing failures of the type check are always reported as invalid. -/
theorem answered_outgoing (i : Interface) (m : Message β) (x : MessageError)
    (h : i.check m .outgoing = .error x) :
    answered x = true ↔ m.messageType = .request ∨
      (m.interface = i.version ∧ i.get m.method ≠ none) := by
  simp only [Interface.check] at h
  simp only [Interface.get]
  by_cases hv : m.interface = i.version
  · rw [if_neg (by simp [hv])] at h
    cases hk : i.methods.get m.method with
    | none =>
      rw [hk] at h
      simp only [MessageError.invalidOrDropped] at h
      split at h <;> cases h <;> simp [answered, *]
    | some k =>
      rw [hk] at h
      simp only at h
      simp only [hv]
      generalize m.messageType = t at h ⊢
      generalize i.flavor = fl at h ⊢
      cases fl <;> cases k <;> cases t <;> simp at h <;> subst h <;> simp [answered]
  · rw [if_pos hv] at h
    simp only [MessageError.invalidOrDropped] at h
    split at h <;> cases h <;> simp [answered, *]

/-- A request to method 0x5678 used in the examples. -/
def Spec.sampleRequest : Message Bytes := (sample.withMessageType .request).withReturnCode .ok

/-- An endpoint used in the examples. -/
def Spec.sampleStub : Endpoint := Endpoint.new.withInterface ⟨0x1234⟩ sampleInterface.intoStub

/-- Its peer. -/
def Spec.sampleProxy : Endpoint := Endpoint.new.withInterface ⟨0x1234⟩ sampleInterface.intoProxy

example : Legal sampleInterface sampleRequest .incoming :=
  ⟨by decide, .method, by decide, by decide⟩
example : sampleInterface.check (sampleRequest.withInterface ⟨9⟩) .incoming =
    .error (.invalid .wrongInterfaceVersion) := by decide
example : sampleInterface.check (sampleRequest.withMethod ⟨9⟩) .incoming =
    .error (.invalid .unknownMethod) := by decide
example : sampleInterface.check (sampleRequest.withMethod ⟨2⟩) .incoming =
    .error (.dropped .wrongMessageType) := by decide

/-! ### Endpoints -/

theorem accept_ok_iff (e : Endpoint) (m m' : Message β) :
    e.accept m = .ok m' ↔ m' = m ∧ LegalAt e m .incoming := by
  simp only [Endpoint.accept, legalAt_def, Endpoint.get]
  by_cases hp : m.protocol = ⟨1⟩
  · rw [if_neg (by simp [hp])]
    cases hi : e.interfaces.get m.service with
    | none => simp
    | some i =>
      simp only [hp, true_and, Option.some.injEq, exists_eq_left', ← C35_check_iff]
      cases hc : i.check m .incoming with
      | ok u => simp [eq_comm]
      | error x => cases x <;> simp
  · rw [if_pos hp]
    simp [hp]

/-- **C38.** `poll` returns a message exactly if the buffer starts with this message and the message
is legal here; the message is passed on unaltered and the rest of the buffer is kept. -/
theorem C38_poll_iff (d : Dec β) (e : Endpoint) (b : Bytes) (m : Message β) (r : Bytes) :
    e.poll d b = (.done (.ok m), r) ↔
      Message.de d b = (.ok m, r) ∧ LegalAt e m .incoming := by
  simp only [Endpoint.poll]
  cases h : Message.de d b with
  | mk o r' =>
    cases o with
    | ok m' =>
      simp only [Prod.mk.injEq, Run.done.injEq, accept_ok_iff, Out.ok.injEq]
      constructor
      · rintro ⟨⟨rfl, hl⟩, rfl⟩; exact ⟨⟨rfl, rfl⟩, hl⟩
      · rintro ⟨⟨rfl, rfl⟩, hl⟩; exact ⟨⟨rfl, hl⟩, rfl⟩
    | err x => simp
    | panic => simp
    | diverge => simp

theorem accept_error (e : Endpoint) (m : Message β) (x : EndpointError β)
    (h : e.accept m = .error x) :
    (x = .invalidMessage m (refusalAt e m) ∨ x = .messageDropped m (refusalAt e m)) ∧
    ¬ LegalAt e m .incoming := by
  have hn : ¬ LegalAt e m .incoming := by
    intro hl
    rw [(accept_ok_iff e m m).mpr ⟨rfl, hl⟩] at h
    cases h
  refine ⟨?_, hn⟩
  simp only [Endpoint.accept] at h
  simp only [refusalAt_def, Endpoint.get]
  by_cases hp : m.protocol = ⟨1⟩
  · rw [if_neg (by simp [hp])] at h ⊢
    cases hi : e.interfaces.get m.service with
    | none =>
      rw [hi] at h
      simp only [EndpointError.invalidOrDropped, Except.error.injEq] at h
      split at h <;> simp [← h]
    | some i =>
      rw [hi] at h
      simp only at h
      cases hc : i.check m .incoming with
      | ok u => rw [hc] at h; cases h
      | error y =>
        rw [hc] at h
        have := C36_first_cause i m _ y hc
        cases y <;> simp only [codeIn] at this <;> subst this <;> cases h <;> simp
  · rw [if_pos hp] at h ⊢
    simp only [EndpointError.invalidOrDropped, Except.error.injEq] at h
    split at h <;> simp [← h]

/-- **C38.** Undecodable data is reported as `InvalidData` with the decoder's error, and nothing
else is; a rejected message is handed back exactly as decoded. No other error occurs. -/
theorem C38_rejections (d : Dec β) (e : Endpoint) (b : Bytes) (x : EndpointError β) (r : Bytes)
    (h : e.poll d b = (.done (.error x), r)) :
    (∃ y, x = .invalidData y ∧ Message.de d b = (.err y, r)) ∨
    (∃ m c, (x = .invalidMessage m c ∨ x = .messageDropped m c) ∧
      Message.de d b = (.ok m, r) ∧ ¬ LegalAt e m .incoming) := by
  simp only [Endpoint.poll] at h
  cases hb : Message.de d b with
  | mk o r' =>
    rw [hb] at h
    cases o with
    | ok m =>
      simp only [Prod.mk.injEq, Run.done.injEq] at h
      obtain ⟨h, rfl⟩ := h
      obtain ⟨h1, h2⟩ := accept_error e m x h
      exact .inr ⟨m, _, h1, rfl, h2⟩
    | err y => cases h; exact .inl ⟨y, rfl, rfl⟩
    | panic => cases h
    | diverge => cases h

/-- **C36.** `poll` reports the first applicable cause: protocol version, then service, then the
interface's causes. -/
theorem C36_poll_first_cause (d : Dec β) (e : Endpoint) (b : Bytes) (m : Message β) (c : ReturnCode)
    (r : Bytes) (h : e.poll d b = (.done (.error (.invalidMessage m c)), r) ∨
      e.poll d b = (.done (.error (.messageDropped m c)), r)) :
    c = refusalAt e m := by
  have key : ∀ x : EndpointError β, (x = .invalidMessage m c ∨ x = .messageDropped m c) →
      e.poll d b = (.done (.error x), r) → c = refusalAt e m := by
    intro x hx h
    simp only [Endpoint.poll] at h
    cases hb : Message.de d b with
    | mk o r' =>
      rw [hb] at h
      cases o with
      | ok m' =>
        simp only [Prod.mk.injEq, Run.done.injEq] at h
        obtain ⟨h1, _⟩ := accept_error e m' x h.1
        rcases hx with rfl | rfl <;> rcases h1 with h1 | h1 <;> cases h1 <;> rfl
      | err y => rcases hx with rfl | rfl <;> cases h
      | panic => cases h
      | diverge => cases h
  rcases h with h | h
  · exact key _ (.inl rfl) h
  · exact key _ (.inr rfl) h

/-- **C38.** Whenever decoding neither panics nor runs forever (C09 and C14 say when), neither does
`poll`; every decoded message is accepted or handed back. -/
theorem C38_total (d : Dec β) (e : Endpoint) (b : Bytes)
    (h : (Message.de d b).1 ≠ .panic ∧ (Message.de d b).1 ≠ .diverge) :
    ∃ x, (e.poll d b).1 = .done x := by
  simp only [Endpoint.poll]
  cases hb : Message.de d b with
  | mk o r =>
    rw [hb] at h
    cases o with
    | ok m => exact ⟨_, rfl⟩
    | err y => exact ⟨_, rfl⟩
    | panic => exact absurd rfl h.1
    | diverge => exact absurd rfl h.2

example : (sampleStub.poll Dec.bytes (messageBytes sampleRequest sampleRequest.body)) =
    (.done (.ok sampleRequest), []) :=
  (C38_poll_iff _ _ _ _ _).mpr ⟨by decide +kernel, by decide, sampleInterface.intoStub, by decide,
    by decide, .method, by decide, by decide⟩

/-- **C37**, the part that holds: a message is handed back to be answered only if it is a request, or
if it is addressed, with the right version, to a method of a stub. Missing: the second case, where
messages that are not requests are handed back too (`C37_non_request_answered`). -/
theorem C37_answered_partial (d : Dec β) (e : Endpoint) (b : Bytes) (m : Message β) (c : ReturnCode)
    (r : Bytes) (h : e.poll d b = (.done (.error (.invalidMessage m c)), r)) :
    m.messageType = .request ∨
      (c = .wrongMessageType ∧ m.protocol = ⟨1⟩ ∧ ∃ i, e.get m.service = some i ∧
        m.interface = i.version ∧ i.flavor = .stub ∧ i.get m.method = some .method) := by
  have hc := C36_poll_first_cause d e b m c r (.inl h)
  by_cases hr : m.messageType = .request
  · exact .inl hr
  · right
    simp only [Endpoint.poll] at h
    cases hb : Message.de d b with
    | mk o r' =>
      rw [hb] at h
      cases o with
      | ok m' =>
        simp only [Prod.mk.injEq, Run.done.injEq] at h
        have hm : m' = m := by
          rcases (accept_error e m' _ h.1).1 with h1 | h1 <;> cases h1; rfl
        subst hm
        obtain ⟨h, _⟩ := h
        simp only [Endpoint.accept, EndpointError.invalidOrDropped, hr, if_false] at h
        by_cases hp : m'.protocol = ⟨1⟩
        · rw [if_neg (by simp [hp])] at h
          cases hi : e.interfaces.get m'.service with
          | none => rw [hi] at h; cases h
          | some i =>
            rw [hi] at h
            simp only at h
            cases hk : i.check m' .incoming with
            | ok u => rw [hk] at h; cases h
            | error y =>
              rw [hk] at h
              cases y with
              | dropped c => cases h
              | invalid c' =>
                have ha := (answered_incoming i m' _ hk).mp rfl
                rcases ha with ha | ha
                · exact absurd ha.1 hr
                · refine ⟨?_, hp, i, hi, ha.2⟩
                  rw [hc]
                  simp [refusalAt_def, refusal_def, Endpoint.get, hp, hi, ha.2.1, ha.2.2.2]
        · rw [if_pos hp] at h
          cases h
      | err y => cases h
      | panic => cases h
      | diverge => cases h

/-- **C37**, when exactly rejected messages are answered: the converse of the theorem above, and of
requests all are answered except those of the wrong type for their method. -/
theorem C37_answered_when (d : Dec β) (e : Endpoint) (b : Bytes) (m : Message β) (r : Bytes)
    (h : Message.de d b = (.ok m, r)) (hl : ¬ LegalAt e m .incoming)
    (ha : (m.messageType = .request ∧ refusalAt e m ≠ .wrongMessageType) ∨
      (m.messageType ≠ .request ∧ m.protocol = ⟨1⟩ ∧ ∃ i, e.get m.service = some i ∧
        m.interface = i.version ∧ i.flavor = .stub ∧ i.get m.method = some .method)) :
    e.poll d b = (.done (.error (.invalidMessage m (refusalAt e m))), r) := by
  have hx : ∃ x, e.accept m = .error x := by
    cases hx : e.accept m with
    | error x => exact ⟨x, rfl⟩
    | ok m' => exact absurd ((accept_ok_iff e m m').mp hx).2 hl
  obtain ⟨x, hx⟩ := hx
  simp only [Endpoint.poll, h, hx]
  congr 3
  rcases (accept_error e m x hx).1 with h1 | h1
  · exact h1
  · exfalso
    rw [h1] at hx
    simp only [Endpoint.accept, EndpointError.invalidOrDropped] at hx
    by_cases hp : m.protocol = ⟨1⟩
    · rw [if_neg (by simp [hp])] at hx
      cases hi : e.interfaces.get m.service with
      | none =>
        rw [hi] at hx
        rcases ha with ⟨ha, _⟩ | ⟨_, _, i, hi', _⟩
        · simp [ha] at hx
        · simp [Endpoint.get, hi] at hi'
      | some i =>
        rw [hi] at hx
        simp only at hx
        cases hk : i.check m .incoming with
        | ok u => rw [hk] at hx; cases hx
        | error y =>
          rw [hk] at hx
          cases y with
          | invalid c => cases hx
          | dropped c =>
            have := (answered_incoming i m _ hk)
            simp only [answered] at this
            rcases ha with ⟨ha, hw⟩ | ⟨ha, _, j, hj, hv, hs, hm⟩
            · apply absurd (this.mpr (.inl ⟨ha, ?_⟩)) (by simp)
              by_cases hv : m.interface = i.version
              · right
                simp only [refusalAt_def, Endpoint.get, hp, hi, refusal_def, hv] at hw
                cases hg : i.get m.method with
                | none => rfl
                | some k => simp [hg] at hw
              · exact .inl hv
            · simp only [Endpoint.get, hi, Option.some.injEq] at hj
              subst hj
              exact absurd (this.mpr (.inr ⟨ha, hv, hs, hm⟩)) (by simp)
    · rw [if_pos hp] at hx
      rcases ha with ⟨ha, _⟩ | ⟨_, hp', _⟩
      · simp [ha] at hx
      · exact hp hp'

/-- **C37** is false in general: a response addressed to a method of a stub is handed back to be
answered with an error. -/
theorem C37_non_request_answered :
    ¬ ∀ (e : Endpoint) (b : Bytes) (m : Message Bytes) (c : ReturnCode) (r : Bytes),
      e.poll Dec.bytes b = (.done (.error (.invalidMessage m c)), r) → m.messageType = .request := by
  intro h
  have := h sampleStub (messageBytes (sampleRequest.intoResponse .ok) sampleRequest.body)
    (sampleRequest.intoResponse .ok) .wrongMessageType []
    (C37_answered_when Dec.bytes sampleStub _ (sampleRequest.intoResponse .ok) []
      (by decide +kernel)
      (by
        intro hl
        have := (accept_ok_iff sampleStub (sampleRequest.intoResponse .ok) _).mpr ⟨rfl, hl⟩
        simp only [Endpoint.accept] at this
        revert this
        rw [if_neg (by decide)]
        rw [show sampleStub.interfaces.get (sampleRequest.intoResponse .ok).service =
          some sampleInterface.intoStub by decide]
        simp only
        rw [show sampleInterface.intoStub.check (sampleRequest.intoResponse .ok) .incoming =
          .error (.invalid .wrongMessageType) by decide]
        nofun)
      (.inr ⟨by decide, by decide, sampleInterface.intoStub, by decide, by decide, by decide,
        by decide⟩))
  revert this
  decide

/-! ### Processing -/

/-- The part of `process` before serialization. -/
theorem process_illegal (s : Ser β) (e : Endpoint) (m : Message β) (buf : BufMut)
    (h : ¬ LegalAt e m .outgoing) :
    e.process s m buf = (.done (.error (.invalidMessage m (refusalAt e m))), buf) ∨
    e.process s m buf = (.done (.error (.messageDropped m (refusalAt e m))), buf) := by
  simp only [Endpoint.process, legalAt_def, Endpoint.get] at h ⊢
  simp only [refusalAt_def, Endpoint.get]
  by_cases hp : m.protocol = ⟨1⟩
  · rw [if_neg (by simp [hp]), if_neg (by simp [hp])]
    cases hi : e.interfaces.get m.service with
    | none => exact .inl rfl
    | some i =>
      simp only
      cases hc : i.check m .outgoing with
      | ok u => exact absurd ⟨hp, i, hi, (C35_check_iff i m _).mp hc⟩ h
      | error y =>
        have := C36_first_cause i m _ y hc
        cases y <;> simp only [codeIn] at this <;> subst this <;> simp
  · rw [if_pos hp, if_pos hp]
    exact .inl rfl

theorem process_legal (s : Ser β) (e : Endpoint) (m : Message β) (buf : BufMut)
    (h : LegalAt e m .outgoing) : e.process s m buf =
      match (Message.ser s).serialize m buf with
        | (.ok n, buf') => (.done (.ok n), buf')
        | (.err x, buf') => (.done (.error (.invalidInput x)), buf')
        | (.panic, buf') => (.panic, buf') := by
  obtain ⟨hp, i, hi, hl⟩ := h
  simp only [Endpoint.process]
  rw [if_neg (by simp [show m.protocol = ⟨1⟩ from hp])]
  simp only [Endpoint.get] at hi
  rw [hi]
  simp only [(C35_check_iff i m _).mpr hl]
  cases (Message.ser s).serialize m buf with
  | mk o b => cases o <;> rfl

/-- **C39.** A legal message that fits is written completely and its size returned. -/
theorem C39_accepted (s : Ser β) (e : Endpoint) (m : Message β) (bs d : Bytes)
    (hb : Payload s m.body bs) (hl : LegalAt e m .outgoing) (hs : 8 + bs.length < 2 ^ 32) :
    e.process s m ⟨d, none⟩ = (.done (.ok (16 + bs.length)), ⟨d ++ messageBytes m bs, none⟩) := by
  rw [process_legal s e m _ hl, (C29_wire_layout s m bs hb hs).1]

/-- **C39.** A message refused by the checks is handed back unaltered with the first applicable
cause (C36) and the buffer is left alone. -/
theorem C39_refused (s : Ser β) (e : Endpoint) (m : Message β) (buf : BufMut)
    (h : ¬ LegalAt e m .outgoing) :
    (e.process s m buf).2 = buf ∧
    ((e.process s m buf).1 = .done (.error (.invalidMessage m (refusalAt e m))) ∨
     (e.process s m buf).1 = .done (.error (.messageDropped m (refusalAt e m)))) := by
  rcases process_illegal s e m buf h with h | h <;> simp [h]

/-- **C36.** `process` reports the first applicable cause, as a dropped message if it is no request and
fails on the interface version or the method, and as an invalid message otherwise. -/
theorem C36_process_first_cause (s : Ser β) (e : Endpoint) (m : Message β) (buf : BufMut)
    (h : ¬ LegalAt e m .outgoing) :
    (e.process s m buf).1 = .done (.error (.messageDropped m (refusalAt e m))) ∧
      m.messageType ≠ .request ∧
      (refusalAt e m = .wrongInterfaceVersion ∨ refusalAt e m = .unknownMethod) ∨
    (e.process s m buf).1 = .done (.error (.invalidMessage m (refusalAt e m))) ∧
      ¬ (m.messageType ≠ .request ∧
        (refusalAt e m = .wrongInterfaceVersion ∨ refusalAt e m = .unknownMethod)) := by
  simp only [Endpoint.process, legalAt_def, Endpoint.get] at h ⊢
  simp only [refusalAt_def, Endpoint.get]
  by_cases hp : m.protocol = ⟨1⟩
  · rw [if_neg (by simp [hp]), if_neg (by simp [hp])]
    cases hi : e.interfaces.get m.service with
    | none => exact .inr ⟨rfl, by simp⟩
    | some i =>
      simp only
      cases hc : i.check m .outgoing with
      | ok u => exact absurd ⟨hp, i, hi, (C35_check_iff i m _).mp hc⟩ h
      | error y =>
        have h1 := C36_first_cause i m _ y hc
        have h2 := answered_outgoing i m y hc
        have h3 : (refusal i m = .wrongInterfaceVersion ∨ refusal i m = .unknownMethod) ↔
            ¬ (m.interface = i.version ∧ i.get m.method ≠ none) := by
          simp only [refusal_def]
          by_cases hv : m.interface = i.version
          · rw [if_neg (by simp [hv])]
            cases i.get m.method <;> simp [hv]
          · rw [if_pos hv]; simp [hv]
        rw [h3]
        cases y with
        | invalid c =>
          simp only [answered, true_iff, codeIn] at h1 h2
          subst h1
          refine .inr ⟨rfl, ?_⟩
          rintro ⟨h4, h5⟩
          exact h2.elim h4 h5
        | dropped c =>
          simp only [answered, Bool.false_eq_true, false_iff, codeIn, not_or] at h1 h2
          subst h1
          exact .inl ⟨rfl, h2⟩
  · rw [if_pos hp, if_pos hp]
    exact .inr ⟨rfl, by simp⟩

/-- Both kinds occur: a stub sending a request, and a response with a wrong interface version. -/
example : ∃ m₁ m₂ : Message Bytes, ¬ LegalAt sampleStub m₁ .outgoing ∧ m₁.messageType = .request ∧
    ¬ LegalAt sampleStub m₂ .outgoing ∧ m₂.messageType ≠ .request ∧
    refusalAt sampleStub m₂ = .wrongInterfaceVersion := by
  refine ⟨sampleRequest, { sampleRequest.intoResponse .ok with
    header := { (sampleRequest.intoResponse .ok).header with interface := ⟨77⟩ } }, ?_, by decide, ?_, by decide, by decide⟩
  · rintro ⟨_, i, hi, _, k, hk, ht⟩
    have : i = sampleInterface.intoStub := by
      have h : sampleStub.get sampleRequest.service = some sampleInterface.intoStub := by decide
      rw [h] at hi
      exact (Option.some.inj hi).symm
    subst this
    have h : sampleInterface.intoStub.get sampleRequest.method = some .method := by decide
    rw [h] at hk
    cases hk
    revert ht
    decide
  · rintro ⟨_, i, hi, hv, _⟩
    have : i = sampleInterface.intoStub := by
      have h : sampleStub.get sampleRequest.service = some sampleInterface.intoStub := by decide
      exact (Option.some.inj (h.symm.trans hi)).symm
    subst this
    revert hv
    decide

/-- **C39.** `process` succeeds exactly for legal messages that fit, and then wrote exactly the
message. -/
theorem C39_process_iff (s : Ser β) (e : Endpoint) (m : Message β) (bs d : Bytes)
    (hb : Payload s m.body bs) (n : Nat) (buf : BufMut) :
    e.process s m ⟨d, none⟩ = (.done (.ok n), buf) ↔
      LegalAt e m .outgoing ∧ 8 + bs.length < 2 ^ 32 ∧ n = 16 + bs.length ∧
        buf = ⟨d ++ messageBytes m bs, none⟩ := by
  constructor
  · intro h
    by_cases hl : LegalAt e m .outgoing
    · refine ⟨hl, ?_⟩
      by_cases hs : 8 + bs.length < 2 ^ 32
      · rw [C39_accepted s e m bs d hb hl hs] at h
        cases h
        exact ⟨hs, rfl, rfl⟩
      · rw [process_legal s e m _ hl, (message_tooLong hb (by omega)).grow d] at h
        cases h
    · rcases process_illegal s e m ⟨d, none⟩ hl with h' | h' <;> rw [h'] at h <;> cases h
  · rintro ⟨hl, hs, rfl, rfl⟩
    exact C39_accepted s e m bs d hb hl hs

/-- **C39** fails when serialization itself fails: a message too long for its length field is
refused, but its four id bytes have been written. -/
theorem C39_failed_serialization_writes (s : Ser β) (e : Endpoint) (m : Message β) (bs d : Bytes)
    (hb : Payload s m.body bs) (hl : LegalAt e m .outgoing) (hs : 2 ^ 32 ≤ 8 + bs.length) :
    e.process s m ⟨d, none⟩ =
      (.done (.error (.invalidInput (.invalidLength (8 + bs.length) (2 ^ 32 - 1)))),
        ⟨d ++ be 2 m.service.val.toNat ++ be 2 m.method.val.toNat, none⟩) := by
  rw [process_legal s e m _ hl, (message_tooLong hb hs).grow d]
  simp

/-- **C39**, all or nothing: the part that holds is for messages short enough. Missing: longer
messages (`C39_not_all_or_nothing`). -/
theorem C39_all_or_nothing_partial (s : Ser β) (e : Endpoint) (m : Message β) (bs d : Bytes)
    (hb : Payload s m.body bs) (hs : 8 + bs.length < 2 ^ 32) :
    (e.process s m ⟨d, none⟩).2 = ⟨d ++ messageBytes m bs, none⟩ ∨
    (e.process s m ⟨d, none⟩).2 = ⟨d, none⟩ := by
  by_cases hl : LegalAt e m .outgoing
  · left; rw [C39_accepted s e m bs d hb hl hs]
  · right; exact (C39_refused s e m _ hl).1

theorem C39_not_all_or_nothing :
    ¬ ∀ (e : Endpoint) (m : Message Bytes) (d : Bytes) (x : EndpointError Bytes) (buf : BufMut),
      e.process Ser.bytes m ⟨d, none⟩ = (.done (.error x), buf) → buf.data = d := by
  intro h
  obtain ⟨big, hlen⟩ : ∃ big : Bytes, big.length = 2 ^ 32 := ⟨_, List.length_replicate (a := 0)⟩
  have := h sampleProxy (sampleRequest.withBody big) [] _ _
    (C39_failed_serialization_writes Ser.bytes sampleProxy _ big []
      (payload_bytes _) ⟨rfl, sampleInterface.intoProxy, rfl, rfl, .method, rfl, by
        show (_, _, _, MessageTypeField.asType ⟨0⟩) ∈ _
        decide⟩ (by rw [hlen]; omega))
  have := congrArg List.length this
  simp at this

example : LegalAt sampleProxy sampleRequest .outgoing :=
  ⟨by decide, sampleInterface.intoProxy, by decide, by decide, .method, by decide, by decide⟩
example : ¬ LegalAt sampleProxy sample .outgoing := by
  rintro ⟨_, i, hi, _, k, hk, ht⟩
  cases hi
  cases hk
  revert ht
  decide

/-! ### Duality -/

/-- **C40.** What one side of a service may send, the other side may receive, and the other way
round. -/
theorem C40_duality (i j : Interface) (h : Dual i j) (m : Message β) (d : Direction) :
    i.check m d = .ok () ↔ j.check m (opposite d) = .ok () := by
  rw [C35_check_iff, C35_check_iff]
  obtain ⟨hv, hf, hm⟩ := h
  simp only [legal_def, hv, hm]
  refine and_congr_right fun _ => exists_congr fun k => and_congr_right fun _ => ?_
  generalize m.messageType = t
  revert hf
  generalize i.flavor = a
  generalize j.flavor = b
  intro hf
  cases a <;> cases b <;> simp at hf <;> cases d <;> cases k <;> cases t <;>
    simp [legalTable, opposite]

/-- **C40.** `into_stub` and `into_proxy` give the two sides of the same service. -/
theorem C40_conversions (i : Interface) : Dual i.intoStub i.intoProxy ∧
    i.intoStub.version = i.version ∧ i.intoProxy.version = i.version ∧
    (∀ k, i.intoStub.get k = i.get k) ∧ (∀ k, i.intoProxy.get k = i.get k) ∧
    i.intoStub.flavor = .stub ∧ i.intoProxy.flavor = .proxy :=
  ⟨⟨rfl, nofun, fun _ => rfl⟩, rfl, rfl, fun _ => rfl, fun _ => rfl, rfl, rfl⟩

/-- **C41.** If an endpoint sends a message and the peer has the other side of the same service,
then polling the bytes sent gives exactly this message at the peer, and what follows in the buffer
stays. -/
theorem C41_end_to_end (s : Ser β) (dec : Dec β) (e f : Endpoint) (m : Message β) (bs d : Bytes)
    (n : Nat) (buf : BufMut) (hb : Payload s m.body bs) (hd : dec bs = (.ok m.body, []))
    (hc : CodeOk m.returnCode)
    (hdual : ∀ i, e.get m.service = some i → ∃ j, f.get m.service = some j ∧ Dual i j)
    (h : e.process s m ⟨d, none⟩ = (.done (.ok n), buf)) (rest : Bytes) :
    ∃ sent, buf.data = d ++ sent ∧ sent.length = n ∧
      f.poll dec (sent ++ rest) = (.done (.ok m), rest) := by
  obtain ⟨⟨hp, i, hi, hl⟩, hs, rfl, rfl⟩ := (C39_process_iff s e m bs d hb n buf).mp h
  obtain ⟨j, hj, hij⟩ := hdual i hi
  refine ⟨messageBytes m bs, rfl, messageBytes_length m bs, (C38_poll_iff _ _ _ _ _).mpr ⟨?_, ?_⟩⟩
  · have := (C30_round_trip s dec m bs hb hd hs _ _ ((good_message hb hs).grow []) rest).2 hc
    simpa using this
  · exact ⟨hp, j, hj, (C35_check_iff _ _ _).mp
      ((C40_duality i j hij m .outgoing).mp ((C35_check_iff _ _ _).mpr hl))⟩

example : ∀ i, sampleProxy.get sampleRequest.service = some i →
    ∃ j, sampleStub.get sampleRequest.service = some j ∧ Dual i j := by
  intro i hi
  cases hi
  exact ⟨_, rfl, rfl, nofun, fun _ => rfl⟩

end Rsomeip
