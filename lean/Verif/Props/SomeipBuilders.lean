import Verif.Lemmas.Proto
import Verif.Lemmas.Someip
import Verif.Props.Proto.Message

/-! # C23 and C33 for the messages of `rsomeip` -/

namespace Rsomeip

open Spec

variable {β : Type}

/-- **C23.** `id` and `request` of a `rsomeip` message are made of the two halves, the service
(client) in the upper one; `with_id` and `with_request` take them apart again and leave the rest. -/
theorem C23_rsomeip_ids (m : Someip.Message β) (n : UInt32) :
    m.id.toNat = m.service.toNat * 65536 + m.method.toNat ∧
    m.request.toNat = m.client.toNat * 65536 + m.session.toNat ∧
    (m.withId n).id = n ∧ (m.withRequest n).request = n ∧
    m.withId m.id = m ∧ m.withRequest m.request = m ∧
    (m.withId n).request = m.request ∧ (m.withRequest n).id = m.id ∧
    (m.withId n).service.toNat = n.toNat / 65536 ∧ (m.withId n).method.toNat = n.toNat % 65536 ∧
    (m.withRequest n).client.toNat = n.toNat / 65536 ∧
    (m.withRequest n).session.toNat = n.toNat % 65536 := by
  refine ⟨joinHalves_toNat _ _, joinHalves_toNat _ _, joinHalves_split n,
    joinHalves_split n, ?_, ?_, rfl, rfl, upperHalf_toNat n, lowerHalf_toNat n,
    upperHalf_toNat n, lowerHalf_toNat n⟩
  · have h1 := upperHalf_join m.service m.method
    have h2 := lowerHalf_join m.service m.method
    exact congrArg₂ (fun a b => ({ m with service := a, method := b } : Someip.Message β)) h1 h2
  · have h1 := upperHalf_join m.client m.session
    have h2 := lowerHalf_join m.client m.session
    exact congrArg₂ (fun a b => ({ m with client := a, session := b } : Someip.Message β)) h1 h2

example : ((⟨1, 2, 0xabcd, 7, 1, 1, .request, .ok, [3]⟩ : Someip.Message Bytes).withId
    0x12345678).request = 0xabcd0007 := by decide

/-- The calls that build a `rsomeip` message. -/
inductive Spec.SomeipCall (β : Type) where
  | service (x : UInt16) | method (x : UInt16) | id (x : UInt32) | client (x : UInt16)
  | session (x : UInt16) | request (x : UInt32) | protocol (x : UInt8) | interface (x : UInt8)
  | type (x : Someip.MessageType) | code (x : Someip.ReturnCode) | payload (x : β)

/-- What a call does. -/
def Spec.SomeipCall.run (m : Someip.Message β) : SomeipCall β → Someip.Message β
  | .service x => m.withService x
  | .method x => m.withMethod x
  | .id x => m.withId x
  | .client x => m.withClient x
  | .session x => m.withSession x
  | .request x => m.withRequest x
  | .protocol x => m.withProtocol x
  | .interface x => m.withInterface x
  | .type x => m.withType x
  | .code x => m.withCode x
  | .payload x => m.withPayload x

/-- **C33.** The same for `rsomeip` messages: a message built from `Message::new` has in every field
what the last call naming it gave, and zero ids, protocol version 1, interface version 0, type
"request" and code "ok" where nothing was set. -/
theorem C33_rsomeip_builders (p : β) (calls : List (SomeipCall β)) :
    let r := calls.foldl SomeipCall.run (Someip.Message.new p)
    r.service.toNat = lastSet (fun
      | .service x => some x.toNat | .id x => some (x.toNat / 65536) | _ => none) 0 calls ∧
    r.method.toNat = lastSet (fun
      | .method x => some x.toNat | .id x => some (x.toNat % 65536) | _ => none) 0 calls ∧
    r.client.toNat = lastSet (fun
      | .client x => some x.toNat | .request x => some (x.toNat / 65536) | _ => none) 0 calls ∧
    r.session.toNat = lastSet (fun
      | .session x => some x.toNat | .request x => some (x.toNat % 65536) | _ => none) 0 calls ∧
    r.protocol = lastSet (fun | .protocol x => some x | _ => none) 1 calls ∧
    r.interface = lastSet (fun | .interface x => some x | _ => none) 0 calls ∧
    r.messageType = lastSet (fun | .type x => some x | _ => none) .request calls ∧
    r.returnCode = lastSet (fun | .code x => some x | _ => none) .ok calls ∧
    r.payload = lastSet (fun | .payload x => some x | _ => none) p calls := by
  refine ⟨?_, ?_, ?_, ?_, ?_, ?_, ?_, ?_, ?_⟩
  · exact lastSet_foldl (fun m : Someip.Message β => m.service.toNat) _ _
      (by intro s c; cases c <;> first | rfl | exact upperHalf_toNat _) _ _
  · exact lastSet_foldl (fun m : Someip.Message β => m.method.toNat) _ _
      (by intro s c; cases c <;> first | rfl | exact lowerHalf_toNat _) _ _
  · exact lastSet_foldl (fun m : Someip.Message β => m.client.toNat) _ _
      (by intro s c; cases c <;> first | rfl | exact upperHalf_toNat _) _ _
  · exact lastSet_foldl (fun m : Someip.Message β => m.session.toNat) _ _
      (by intro s c; cases c <;> first | rfl | exact lowerHalf_toNat _) _ _
  · exact lastSet_foldl Someip.Message.protocol _ _ (by intro s c; cases c <;> rfl) _ _
  · exact lastSet_foldl Someip.Message.interface _ _ (by intro s c; cases c <;> rfl) _ _
  · exact lastSet_foldl Someip.Message.messageType _ _ (by intro s c; cases c <;> rfl) _ _
  · exact lastSet_foldl Someip.Message.returnCode _ _ (by intro s c; cases c <;> rfl) _ _
  · exact lastSet_foldl Someip.Message.payload _ _ (by intro s c; cases c <;> rfl) _ _

example : [.id 0x12345678, .client 9, .method 4, .code .notOk].foldl SomeipCall.run
    (Someip.Message.new ([] : Bytes)) = ⟨0x1234, 4, 9, 0, 1, 0, .request, .notOk, []⟩ := by decide

end Rsomeip
