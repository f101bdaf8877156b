import Verif.Someip.Message

/-! # Model of `InterfaceId` (`/repo/rsomeip/src/endpoint.rs`) -/

namespace Rsomeip.Someip

/-- `InterfaceId` (`/repo/rsomeip/src/endpoint.rs:112-118`). -/
structure InterfaceId where
  service : UInt16
  version : UInt8
  deriving DecidableEq, Repr

/-- `impl From<&Message<T>> for InterfaceId` (`/repo/rsomeip/src/endpoint.rs:127-150`). -/
def InterfaceId.of {β : Type} (m : Message β) : InterfaceId := ⟨m.service, m.interface⟩

end Rsomeip.Someip
