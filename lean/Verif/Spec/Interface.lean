import Verif.Spec.Message
import Verif.Proto.Endpoint

/-! # Specification of legal messages -/

namespace Rsomeip.Spec

open Proto

/-- Which message types an interface of the given flavor may receive or send for which kind of
method: requests go from proxies to stubs, responses, errors and notifications from stubs to
proxies. -/
def legalTable : List (Direction × InterfaceType × MethodType × MessageType) :=
  [ (.incoming, .stub, .method, .request),
    (.incoming, .stub, .procedure, .requestNoReturn),
    (.incoming, .proxy, .method, .response),
    (.incoming, .proxy, .method, .error),
    (.incoming, .proxy, .event, .notification),
    (.outgoing, .proxy, .method, .request),
    (.outgoing, .proxy, .procedure, .requestNoReturn),
    (.outgoing, .stub, .method, .response),
    (.outgoing, .stub, .method, .error),
    (.outgoing, .stub, .event, .notification) ]

/-- The message may cross the interface in this direction. -/
def Legal {β : Type} (i : Interface) (m : Message β) (d : Direction) : Prop :=
  m.header.interface = i.version ∧ ∃ k, i.get m.method = some k ∧
    (d, i.flavor, k, m.messageType) ∈ legalTable

/-- The endpoint may receive or send the message. -/
def LegalAt {β : Type} (e : Endpoint) (m : Message β) (d : Direction) : Prop :=
  m.header.protocol = ⟨1⟩ ∧ ∃ i, e.get m.service = some i ∧ Legal i m d

/-- The first reason for which an interface refuses a message. -/
def refusal {β : Type} (i : Interface) (m : Message β) : ReturnCode :=
  if m.header.interface ≠ i.version then .wrongInterfaceVersion
  else match i.get m.method with
    | none => .unknownMethod
    | some _ => .wrongMessageType

/-- The first reason for which an endpoint refuses a message. -/
def refusalAt {β : Type} (e : Endpoint) (m : Message β) : ReturnCode :=
  if m.header.protocol ≠ ⟨1⟩ then .wrongProtocolVersion
  else match e.get m.service with
    | none => .unknownService
    | some i => refusal i m

/-- Two interfaces are the two sides of one service. -/
def Dual (i j : Interface) : Prop :=
  i.version = j.version ∧ i.flavor ≠ j.flavor ∧ ∀ k, i.get k = j.get k

/-- The other direction. -/
def opposite : Direction → Direction
  | .incoming => .outgoing
  | .outgoing => .incoming

end Rsomeip.Spec
