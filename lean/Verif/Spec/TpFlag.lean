import Verif.Spec.Tp
import Verif.Spec.Message
import Verif.Spec.Interface

/-! # Specification: telling segments from whole messages -/

namespace Rsomeip.Spec

open Proto

/-- The message says of itself that it is a segment: bit 5 of the message type. -/
def Marked {β : Type} (m : Message β) : Prop := m.header.messageType.isTp = true

/-- What a caller can do before sending segments: set the flag. -/
def mark {β : Type} (m : Message β) : Message β :=
  { m with header := { m.header with messageType := m.header.messageType.withFlags 0x20 true } }

/-- What a caller can do after reassembly: clear the flag. -/
def unmark {β : Type} (m : Message β) : Message β :=
  { m with header := { m.header with messageType := m.header.messageType.withFlags 0x20 false } }

/-- `p` is the packet of a segment of the message `m`, split with some limit. -/
def SegmentPacket (m : Message Bytes) (s : TpHeader) (p : Bytes) : Prop :=
  ∃ limit segs, 16 ≤ limit ∧ Splits limit m.wrapSegment.body segs ∧ s ∈ segs ∧
    GenericMessage.toBytes Header.ser TpHeader.ser (m.withBody s) = .ok p

end Rsomeip.Spec
