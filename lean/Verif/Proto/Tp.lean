import Verif.Proto.Message

/-! # Model of `/repo/rsomeip-proto/src/tp.rs`

`usize` is taken to be 64 bits wide: `offset << 4` at line 188 cannot overflow for offsets that pass
the check at line 181. The addition at line 105 is modelled without overflow: it would need an
offset near `usize::MAX`, which neither `TpHeader::new` nor decoding produces. -/

namespace Rsomeip.Proto

/-- `TpHeader` (`/repo/rsomeip-proto/src/tp.rs:15-23`). -/
structure TpHeader where
  offset : Nat
  moreSegments : Bool
  body : Bytes
  deriving Repr, DecidableEq

/-- `TpError` (`/repo/rsomeip-proto/src/tp.rs:217-228`). -/
inductive TpError where
  | invalidData (e : DeErr)
  | unexpectedSegment (other : TpHeader)
  | wrongOffset (expected : Nat) (other : TpHeader)
  deriving DecidableEq

namespace TpHeader

/-- `TpHeader::OFFSET_UNIT` (`/repo/rsomeip-proto/src/tp.rs:30`). -/
def offsetUnit : Nat := 16

/-- `TpHeader::MAX_OFFSET` (`/repo/rsomeip-proto/src/tp.rs:32`). -/
def maxOffset : Nat := 0xffff_fff0

/-- `TpHeader::new` (`/repo/rsomeip-proto/src/tp.rs:35-40`). -/
def new (body : Bytes) : TpHeader := ⟨0, false, body⟩

/-- `TpHeader::split` (`/repo/rsomeip-proto/src/tp.rs:82-109`): the segment split off and the header
afterwards. -/
def split (h : TpHeader) (limit : Nat) : Option TpHeader × TpHeader :=
  if limit < offsetUnit then (none, h)
  else
    let limit := limit / offsetUnit * offsetUnit
    if h.body.length ≤ limit then (none, { h with moreSegments := false })
    else
      (some { offset := h.offset, moreSegments := true, body := h.body.take limit },
        { h with body := h.body.drop limit, offset := h.offset + limit / offsetUnit })

/-- `TpHeader::join` (`/repo/rsomeip-proto/src/tp.rs:149-176`): the result and the header
afterwards. -/
def join (h other : TpHeader) : Except TpError Unit × TpHeader :=
  if h.moreSegments = false then (.error (.unexpectedSegment other), h)
  else
    let currentOffset := h.body.length / offsetUnit
    if currentOffset ≠ other.offset then (.error (.wrongOffset currentOffset other), h)
    else (.ok (), { h with body := h.body ++ other.body, moreSegments := other.moreSegments })

/-- The header word written by `serialize` (`/repo/rsomeip-proto/src/tp.rs:188-189`). -/
def word (h : TpHeader) : UInt32 :=
  (if h.offset <<< 4 < 2 ^ 32 then UInt32.ofNat (h.offset <<< 4) else 0xffff_fff0) |||
    (if h.moreSegments then 1 else 0)

/-- `impl Serialize for TpHeader` (`/repo/rsomeip-proto/src/tp.rs:179-197`). -/
def ser : Ser TpHeader where
  serialize h :=
    if h.offset > maxOffset then W.fail (.other (.tpOffset h.offset))
    else (Ser.tcons Ser.u32 (Ser.tcons Ser.bytes Ser.tnil)).serialize (h.word, h.body, ())
  sizeHint h := (Ser.tcons Ser.u32 (Ser.tcons Ser.bytes Ser.tnil)).sizeHint (0, h.body, ())

/-- `impl Deserialize for TpHeader` (`/repo/rsomeip-proto/src/tp.rs:199-214`). Simplified: the
conversion to `usize` at line 208 cannot fail on a 64-bit host. -/
def de : Dec TpHeader := do
  let header ← Dec.u32
  let n ← Dec.remaining
  let body ← Dec.copyToBytes n
  pure { offset := ((header &&& 0xffff_fff0) >>> 4).toNat
         moreSegments := header &&& 1 == 1
         body := body }

end TpHeader

namespace Message

/-- `Message::into_segment` for `Bytes` payloads (`/repo/rsomeip-proto/src/tp.rs:251-254`). -/
def intoSegment (m : Message Bytes) : Out (Message TpHeader) :=
  match TpHeader.de m.body with
  | (.ok h, _) => .ok (m.mapBody fun _ => h)
  | (.err e, _) => .err e
  | (.panic, _) => .panic
  | (.diverge, _) => .diverge

/-- `Message::wrap_segment` for `Bytes` payloads (`/repo/rsomeip-proto/src/tp.rs:268-270`). -/
def wrapSegment (m : Message Bytes) : Message TpHeader := m.mapBody TpHeader.new

/-- `Message::unwrap_segment` (`/repo/rsomeip-proto/src/tp.rs:290-292`). -/
def unwrapSegment (m : Message TpHeader) : Message Bytes := m.mapBody TpHeader.body

end Message

end Rsomeip.Proto
