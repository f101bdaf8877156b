import Verif.Bytes.AnyBuf

/-! # What an implementation of `bytes::Buf` promises -/

namespace Rsomeip.Spec

open Any

/-- The documented contract of `bytes::Buf` (`/repo/rsomeip-bytes/src/lib.rs:4`), where `view` tells the bytes a
buffer still has: `remaining` counts them, `chunk` is the beginning of them and empty only if there are none,
`advance` drops the first ones. Nothing is said about going beyond the end. -/
structure Contract {B : Type} [Buf B] (view : B → Bytes) : Prop where
  remaining : ∀ b, Buf.remaining b = (view b).length
  chunk : ∀ b, Buf.chunk b <+: view b
  more : ∀ b, view b ≠ [] → Buf.chunk b ≠ []
  advance : ∀ b k, k ≤ (view b).length →
    ∃ b', Buf.advance k b = (.ok (), b') ∧ view b' = (view b).drop k

/-- `g`, which reads from any kind of buffer, does to every buffer that keeps the contract what `d` does to the
bytes in it (`fn deserialize(buffer: &mut impl Buf)`, `/repo/rsomeip-bytes/src/de.rs:38`). -/
def SameOn {α : Type} (g : Gen α) (d : Dec α) : Prop :=
  ∀ (B : Type) [Buf B] (view : B → Bytes), Contract view →
    ∀ b, (g B b).1 = (d (view b)).1 ∧ view (g B b).2 = (d (view b)).2

end Rsomeip.Spec
