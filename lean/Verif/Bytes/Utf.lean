import Verif.Bytes.Buf

/-!
# UTF-8 and UTF-16

Model of the standard library's conversions used by `/repo/rsomeip-bytes/src/ser.rs` and
`/repo/rsomeip-bytes/src/de.rs`. A Rust `str` is a sequence of Unicode scalar values, i.e. a
`List Char`. The decoders are strict, as in the standard library;
`Verif.Props.Strings` proves that they accept exactly the outputs of the encoders.
-/

namespace Rsomeip

/-- UTF-8 encoding of one scalar value (`str::as_bytes`, used at
`/repo/rsomeip-bytes/src/ser.rs:367`). -/
def utf8EncodeChar (c : Char) : Bytes :=
  let v := c.toNat
  if v < 0x80 then
    [UInt8.ofNat v]
  else if v < 0x800 then
    [UInt8.ofNat (0xc0 + v / 64), UInt8.ofNat (0x80 + v % 64)]
  else if v < 0x10000 then
    [UInt8.ofNat (0xe0 + v / 4096), UInt8.ofNat (0x80 + v / 64 % 64),
      UInt8.ofNat (0x80 + v % 64)]
  else
    [UInt8.ofNat (0xf0 + v / 262144), UInt8.ofNat (0x80 + v / 4096 % 64),
      UInt8.ofNat (0x80 + v / 64 % 64), UInt8.ofNat (0x80 + v % 64)]

/-- `str::as_bytes` (`/repo/rsomeip-bytes/src/ser.rs:367`). -/
def utf8Encode (s : List Char) : Bytes := s.flatMap utf8EncodeChar

/-- Is the byte in the given range? Helper of `utf8Step` (`/repo/rsomeip-bytes/src/de.rs:197`). -/
def inRange (b : UInt8) (lo hi : Nat) : Bool := lo ≤ b.toNat && b.toNat ≤ hi

/-- First scalar value of a UTF-8 string, by the standard's table of well-formed byte sequences
(`String::from_utf8`, used at `/repo/rsomeip-bytes/src/de.rs:197`). -/
def utf8Step : Bytes → Option (Char × Bytes)
  | b0 :: r0 =>
    if b0.toNat < 0x80 then some (Char.ofNat b0.toNat, r0)
    else
      match r0 with
      | b1 :: r1 =>
        if inRange b0 0xc2 0xdf && inRange b1 0x80 0xbf then
          some (Char.ofNat ((b0.toNat - 0xc0) * 64 + (b1.toNat - 0x80)), r1)
        else
          match r1 with
          | b2 :: r2 =>
            if ((b0.toNat == 0xe0 && inRange b1 0xa0 0xbf)
                || (inRange b0 0xe1 0xec && inRange b1 0x80 0xbf)
                || (b0.toNat == 0xed && inRange b1 0x80 0x9f)
                || (inRange b0 0xee 0xef && inRange b1 0x80 0xbf))
                && inRange b2 0x80 0xbf then
              some (Char.ofNat ((b0.toNat - 0xe0) * 4096 + (b1.toNat - 0x80) * 64
                + (b2.toNat - 0x80)), r2)
            else
              match r2 with
              | b3 :: r3 =>
                if ((b0.toNat == 0xf0 && inRange b1 0x90 0xbf)
                    || (inRange b0 0xf1 0xf3 && inRange b1 0x80 0xbf)
                    || (b0.toNat == 0xf4 && inRange b1 0x80 0x8f))
                    && inRange b2 0x80 0xbf && inRange b3 0x80 0xbf then
                  some (Char.ofNat ((b0.toNat - 0xf0) * 262144 + (b1.toNat - 0x80) * 4096
                    + (b2.toNat - 0x80) * 64 + (b3.toNat - 0x80)), r3)
                else none
              | [] => none
          | [] => none
      | [] => none
  | [] => none

/-- `String::from_utf8` (`/repo/rsomeip-bytes/src/de.rs:197`): the whole string or nothing. -/
def utf8Decode (bs : Bytes) : Option (List Char) :=
  if bs = [] then some []
  else
    match utf8Step bs with
    | some (c, r) =>
      if r.length < bs.length then (utf8Decode r).map (c :: ·) else none
    | none => none
termination_by bs.length

/-- UTF-16 encoding of one scalar value (`str::encode_utf16`, used at
`/repo/rsomeip-bytes/src/ser.rs:420,426`). -/
def utf16EncodeChar (c : Char) : List UInt16 :=
  let v := c.toNat
  if v < 0x10000 then [UInt16.ofNat v]
  else [UInt16.ofNat (0xd800 + (v - 0x10000) / 1024), UInt16.ofNat (0xdc00 + (v - 0x10000) % 1024)]

/-- `str::encode_utf16` (`/repo/rsomeip-bytes/src/ser.rs:420,426,437`). -/
def utf16Encode (s : List Char) : List UInt16 := s.flatMap utf16EncodeChar

/-- `String::from_utf16` (`/repo/rsomeip-bytes/src/de.rs:217`): unpaired surrogates are errors. -/
def utf16Decode : List UInt16 → Option (List Char)
  | [] => some []
  | u :: us =>
    if u.toNat < 0xd800 ∨ 0xdfff < u.toNat then
      (utf16Decode us).map (Char.ofNat u.toNat :: ·)
    else if u.toNat < 0xdc00 then
      match us with
      | [] => none
      | v :: vs =>
        if 0xdc00 ≤ v.toNat ∧ v.toNat ≤ 0xdfff then
          (utf16Decode vs).map
            (Char.ofNat (0x10000 + (u.toNat - 0xd800) * 1024 + (v.toNat - 0xdc00)) :: ·)
        else none
    else none

end Rsomeip
