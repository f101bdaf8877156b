import Verif.Bytes.AnyMut

/-! # What an implementation of `bytes::BufMut` promises -/

namespace Rsomeip.Spec

open Any

/-- The documented contract of `bytes::BufMut` (`/repo/rsomeip-bytes/src/lib.rs:4`), where `view` tells what was
written to a buffer and how much more goes in (`none`: it grows): `room` is the room, the next free piece
is empty only if there is none, asking for it changes nothing, and what goes into it and into the room is
appended. -/
structure SinkContract {S : Type} [Sink S] (view : S → BufMut) : Prop where
  room : ∀ s, Sink.room s = (view s).room
  chunk : ∀ s, view (Sink.chunk s).2 = view s
  more : ∀ s, (view s).room ≠ some 0 → 0 < (Sink.chunk s).1
  write : ∀ s xs, xs.length ≤ (Sink.chunk s).1 → (∀ r, (view s).room = some r → xs.length ≤ r) →
    view (Sink.write xs (Sink.chunk s).2) =
      ⟨(view s).data ++ xs, (view s).room.map (· - xs.length)⟩

/-- `w`, which writes to one kind of buffer, always returns, and does to every buffer what `d` does to what was
written to it (`fn serialize(&self, buffer: &mut impl BufMut)`, `/repo/rsomeip-bytes/src/ser.rs:37`). -/
def SameTo {S α : Type} (view : S → BufMut) (w : Any.W S α) (d : Rsomeip.W α) : Prop :=
  ∀ s, ∃ o s', w s = some (o, s') ∧ (o, view s') = d (view s)

end Rsomeip.Spec
