import Verif.Lemmas.Strings

/-! # C17–C20: strings -/

namespace Rsomeip

open Spec

/-- **C17.** A string written with `serialize_utf8` is a byte order mark, its UTF-8 encoding (that
of Lean's own `String`) and a terminating zero; it is read back exactly, whatever follows, on every
host. (Strings containing NUL excepted, see C20.) -/
theorem C17_utf8_round_trip (host : Endian) (s : List Char) (d rest : Bytes) (hs : '\x00' ∉ s) :
    Ser.utf8.serialize s ⟨d, none⟩ =
      (.ok (Ser.utf8.sizeHint s),
        ⟨d ++ ([0xef, 0xbb, 0xbf] ++ s.flatMap String.utf8EncodeChar ++ [0]), none⟩) ∧
    Dec.string host ([0xef, 0xbb, 0xbf] ++ s.flatMap String.utf8EncodeChar ++ [0] ++ rest) =
      (.ok s, rest) := by
  rw [hint_utf8]
  exact ⟨(good_utf8 s).grow d, Dec.reads_utf8 host s hs rest⟩

example : '\x00' ∉ ['h', 'é', '€', '😀'] := by decide
example : (['h', 'é', '€', '😀'].flatMap String.utf8EncodeChar) =
    [0x68, 0xc3, 0xa9, 0xe2, 0x82, 0xac, 0xf0, 0x9f, 0x98, 0x80] := by decide

/-- Strings and length fields, for any of the three formats. -/
theorem with_length (host : Endian) (f : Ser (List Char)) (l : LengthField) (s : List Char)
    (w d rest : Bytes) (hg : f.Good s w) (hh : f.sizeHint s = w.length)
    (hr : (Dec.string host).Reads w s) :
    f.withLen (some l) s ⟨d, none⟩ =
      (if w.length ≤ maxLen l then
        (.ok (lenWidth l + w.length), ⟨d ++ (be (lenWidth l) w.length ++ w), none⟩)
      else (.err (.invalidLength w.length (maxLen l)), ⟨d, none⟩)) ∧
    (w.length ≤ maxLen l →
      (Dec.string host).len l (be (lenWidth l) w.length ++ w ++ rest) = (.ok s, rest)) := by
  constructor
  · split
    · rename_i hl
      have := (Ser.serializeLen_ok l (by rw [hh]; exact hl) hg).grow d
      rw [hh] at this
      exact this
    · rename_i hl
      have := (Ser.serializeLen_err l (by rw [hh]; exact Nat.lt_of_not_le hl)).grow d
      rw [hh, List.append_nil] at this
      exact this
  · intro hl
    have := hr []
    rw [List.append_nil] at this
    exact Dec.len_reads l this hl rest

/-- **C17.** With a length field, `serialize_utf8` writes the size of that, big-endian, in front of it, or
nothing at all if the size does not fit; `deserialize_len` reads the string back exactly. Without one
it writes as above. -/
theorem C17_with_length (host : Endian) (l : LengthField) (s : List Char) (d rest : Bytes)
    (hs : '\x00' ∉ s) :
    let w := [0xef, 0xbb, 0xbf] ++ s.flatMap String.utf8EncodeChar ++ [0]
    Ser.utf8.withLen (some l) s ⟨d, none⟩ =
      (if w.length ≤ maxLen l then
        (.ok (lenWidth l + w.length), ⟨d ++ (be (lenWidth l) w.length ++ w), none⟩)
      else (.err (.invalidLength w.length (maxLen l)), ⟨d, none⟩)) ∧
    (w.length ≤ maxLen l →
      (Dec.string host).len l (be (lenWidth l) w.length ++ w ++ rest) = (.ok s, rest)) ∧
    Ser.utf8.withLen none s = Ser.utf8.serialize s :=
  have h := with_length host Ser.utf8 l s _ d rest (good_utf8 s) (hint_utf8 s) (Dec.reads_utf8 host s hs)
  ⟨h.1, h.2, rfl⟩

example : ([0xef, 0xbb, 0xbf] ++ ['h', 'é', '€', '😀'].flatMap String.utf8EncodeChar ++ [0]).length ≤
    maxLen .u8 := by decide
example : maxLen .u8 < ([0xef, 0xbb, 0xbf] ++
    (List.replicate 252 'x').flatMap String.utf8EncodeChar ++ [0]).length := by decide +kernel

/-- **C18.** A string written with `serialize_utf16_be`/`_le` is a byte order mark, its UTF-16 code
units in that byte order, and a terminating zero unit; big-endian strings are read back exactly on
every host, little-endian strings on little-endian hosts. -/
theorem C18_utf16_round_trip_partial (host e : Endian) (he : e = .little → host = .little)
    (s : List Char) (d rest : Bytes) (hs : '\x00' ∉ s) :
    (Ser.utf16 e).serialize s ⟨d, none⟩ =
      (.ok ((Ser.utf16 e).sizeHint s),
        ⟨d ++ (unit16 e 0xfeff ++ (s.flatMap utf16Units).flatMap (unit16 e) ++ [0, 0]), none⟩) ∧
    Dec.string host
      (unit16 e 0xfeff ++ (s.flatMap utf16Units).flatMap (unit16 e) ++ [0, 0] ++ rest) =
      (.ok s, rest) := by
  rw [hint_utf16]
  exact ⟨(good_utf16 e s).grow d, Dec.reads_utf16 host e s hs he rest⟩

example : ([('€'), '😀'].flatMap utf16Units).flatMap (unit16 .little) =
    [0xac, 0x20, 0x3d, 0xd8, 0x00, 0xde] := by decide

/-- **C18.** With a length field, `serialize_utf16_be`/`_le` writes the size of that, big-endian, in front of it, or
nothing at all if the size does not fit; `deserialize_len` reads the string back exactly. Without one
it writes as above. -/
theorem C18_with_length_partial (host e : Endian) (he : e = .little → host = .little) (l : LengthField) (s : List Char) (d rest : Bytes)
    (hs : '\x00' ∉ s) :
    let w := unit16 e 0xfeff ++ (s.flatMap utf16Units).flatMap (unit16 e) ++ [0, 0]
    (Ser.utf16 e).withLen (some l) s ⟨d, none⟩ =
      (if w.length ≤ maxLen l then
        (.ok (lenWidth l + w.length), ⟨d ++ (be (lenWidth l) w.length ++ w), none⟩)
      else (.err (.invalidLength w.length (maxLen l)), ⟨d, none⟩)) ∧
    (w.length ≤ maxLen l →
      (Dec.string host).len l (be (lenWidth l) w.length ++ w ++ rest) = (.ok s, rest)) ∧
    (Ser.utf16 e).withLen none s = (Ser.utf16 e).serialize s :=
  have h := with_length host (Ser.utf16 e) l s _ d rest (good_utf16 e s) (hint_utf16 e s) (Dec.reads_utf16 host e s hs he)
  ⟨h.1, h.2, rfl⟩

example : (unit16 .big 0xfeff ++ (['€', '😀'].flatMap utf16Units).flatMap (unit16 .big) ++ [0, 0]).length ≤
    maxLen .u8 := by decide

/-- **C18 fails on big-endian hosts.** There little-endian strings are decoded with the bytes of
each code unit exchanged: `"a"` comes back as another string. -/
theorem C18_little_endian_on_big_host :
    Dec.string .big (wire (.utf16 .little) ['a'] ++ []) = (.ok ['愀'], []) := by
  have h := Dec.reads_utf16 .big .big ['愀'] (by decide) (by decide) []
  unfold Dec.string at h ⊢
  have h1 : Dec.u16 (wire (.utf16 .little) ['a'] ++ []) = (.ok 0xfffe, [0x61, 0, 0, 0]) := by decide
  have h2 : Dec.u16 (wire (.utf16 .big) ['愀'] ++ []) = (.ok 0xfeff, [0x61, 0, 0, 0]) := by decide
  rw [Dec.bind_ok h1]
  rw [Dec.bind_ok h2] at h
  simp only [show ¬ ((0xfffe : UInt16) = 0xefbb) by decide,
    show ¬ ((0xfffe : UInt16) = 0xfeff) by decide, show ¬ ((0xfeff : UInt16) = 0xefbb) by decide,
    if_false, if_true] at h ⊢
  have e : Dec.utf16Unit .big false = Dec.utf16Unit .big true := by
    funext b
    show (Dec.u16 >>= fun v => pure (Dec.fromBe .big v)) b = Dec.u16 b
    rw [Dec.bind_apply]
    cases Dec.u16 b with
    | mk o r => cases o <;> rfl
  unfold Dec.utf16 at h ⊢
  rw [e]
  exact h

/-- **C19.** On a little-endian host the decoder accepts exactly the well-formed encodings of
strings without NUL: a success means that the input began with one of the three encodings of the
returned string and that exactly these bytes were consumed. -/
theorem C19_strict_little_host (b : Bytes) (s : List Char) (rest : Bytes) :
    Dec.string .little b = (.ok s, rest) ↔
      '\x00' ∉ s ∧ (b = wire .utf8 s ++ rest ∨ b = wire (.utf16 .big) s ++ rest ∨
        b = wire (.utf16 .little) s ++ rest) := by
  constructor
  · intro h
    obtain ⟨r1, ⟨hb, hu⟩ | ⟨hb, hu⟩ | ⟨hb, hu⟩⟩ := Dec.string_inv h
    · obtain ⟨hn, hr⟩ := Dec.utf8_inv hu
      exact ⟨hn, Or.inl (by rw [hb, hr]; simp [wire, be_eq_natToBE, natToBE])⟩
    · obtain ⟨hn, hr⟩ := Dec.utf16_inv .big (fun b v r => Dec.unit_inv_be) hu
      exact ⟨hn, Or.inr (Or.inl (by rw [hb, hr]; simp [wire, unit16]))⟩
    · obtain ⟨hn, hr⟩ := Dec.utf16_inv .little (fun b v r => Dec.unit_inv_le) hu
      exact ⟨hn, Or.inr (Or.inr (by
        rw [hb, hr]
        have : be 2 0xfffe = unit16 .little 0xfeff := by decide
        rw [this]
        simp [wire]))⟩
  · rintro ⟨hn, rfl | rfl | rfl⟩
    · exact Dec.reads_utf8 .little s hn rest
    · exact Dec.reads_utf16 .little .big s hn (by decide) rest
    · exact Dec.reads_utf16 .little .little s hn (by decide) rest

example : Dec.string .little (wire (.utf16 .little) ['a', '😀'] ++ [1, 2]) = (.ok ['a', '😀'], [1, 2]) :=
  (C19_strict_little_host _ _ _).mpr ⟨by decide, Or.inr (Or.inr rfl)⟩

/-- **C19.** The same on a big-endian host: strict as well, but the little-endian mark announces
big-endian units (see `C18_little_endian_on_big_host`). -/
theorem C19_strict_big_host (b : Bytes) (s : List Char) (rest : Bytes)
    (h : Dec.string .big b = (.ok s, rest)) :
    '\x00' ∉ s ∧ (b = wire .utf8 s ++ rest ∨ b = wire (.utf16 .big) s ++ rest ∨
      b = [0xff, 0xfe] ++ (s.flatMap utf16Units).flatMap (unit16 .big) ++ [0, 0] ++ rest) := by
  obtain ⟨r1, ⟨hb, hu⟩ | ⟨hb, hu⟩ | ⟨hb, hu⟩⟩ := Dec.string_inv h
  · obtain ⟨hn, hr⟩ := Dec.utf8_inv hu
    exact ⟨hn, Or.inl (by rw [hb, hr]; simp [wire, be_eq_natToBE, natToBE])⟩
  · obtain ⟨hn, hr⟩ := Dec.utf16_inv .big (fun b v r => Dec.unit_inv_be) hu
    exact ⟨hn, Or.inr (Or.inl (by rw [hb, hr]; simp [wire, unit16]))⟩
  · obtain ⟨hn, hr⟩ := Dec.utf16_inv .big (fun b v r => Dec.unit_inv_le_big) hu
    exact ⟨hn, Or.inr (Or.inr (by
      rw [hb, hr]
      have : be 2 0xfffe = [0xff, 0xfe] := by decide
      rw [this]
      simp))⟩

/-- **C20 (failure of the round trip).** A UTF-8 string with an embedded NUL is written in full but
read back only up to the NUL; the rest of it, including its terminator, stays in the buffer, where
the next field will be read. -/
theorem C20_nul_truncates_utf8 (host : Endian) (p q : List Char) (hp : '\x00' ∉ p) (rest : Bytes) :
    Dec.string host (wire .utf8 (p ++ '\x00' :: q) ++ rest) =
      (.ok p, q.flatMap String.utf8EncodeChar ++ [0] ++ rest) := by
  have := Dec.reads_utf8 host p hp (q.flatMap String.utf8EncodeChar ++ [0] ++ rest)
  have e : String.utf8EncodeChar '\x00' = [0] := by decide
  simpa [wire, e] using this

/-- **C20 (failure of the round trip).** The same for UTF-16. -/
theorem C20_nul_truncates_utf16 (host e : Endian) (he : e = .little → host = .little)
    (p q : List Char) (hp : '\x00' ∉ p) (rest : Bytes) :
    Dec.string host (wire (.utf16 e) (p ++ '\x00' :: q) ++ rest) =
      (.ok p, (q.flatMap utf16Units).flatMap (unit16 e) ++ [0, 0] ++ rest) := by
  have := Dec.reads_utf16 host e p hp he ((q.flatMap utf16Units).flatMap (unit16 e) ++ [0, 0] ++ rest)
  have e1 : utf16Units '\x00' = [0] := by decide
  have e2 : unit16 e 0 = [0, 0] := by cases e <;> decide
  simpa [wire, e1, e2] using this

/-- **C20.** Hence no string with a NUL survives: the decoded string is never the original and
bytes are left over. -/
theorem C20_nul_never_round_trips (host e : Endian) (he : e = .little → host = .little)
    (s : List Char) (hs : '\x00' ∈ s) (rest : Bytes) :
    (∃ p left, Dec.string host (wire .utf8 s ++ rest) = (.ok p, left ++ rest) ∧
      p ≠ s ∧ left ≠ []) ∧
    (∃ p left, Dec.string host (wire (.utf16 e) s ++ rest) = (.ok p, left ++ rest) ∧
      p ≠ s ∧ left ≠ []) := by
  obtain ⟨p, q, rfl, hp⟩ := List.eq_append_cons_of_mem hs
  have hne : p ≠ p ++ '\x00' :: q := fun h => by
    have := congrArg List.length h
    simp at this
  exact ⟨⟨p, _, C20_nul_truncates_utf8 host p q hp rest, hne, by simp⟩,
    ⟨p, _, C20_nul_truncates_utf16 host e he p q hp rest, hne, by simp⟩⟩

example : '\x00' ∈ ['a', '\x00', 'b'] := by decide

/-- **C20.** A string survives exactly if it contains no NUL. (Missing: the others, which never do.) -/
theorem C20_round_trip_partial (host e : Endian) (he : e = .little → host = .little) (s : List Char)
    (rest : Bytes) :
    (Dec.string host (wire .utf8 s ++ rest) = (.ok s, rest) ↔ '\x00' ∉ s) ∧
    (Dec.string host (wire (.utf16 e) s ++ rest) = (.ok s, rest) ↔ '\x00' ∉ s) := by
  refine ⟨⟨fun h hs => ?_, fun hs => Dec.reads_utf8 host s hs rest⟩,
    ⟨fun h hs => ?_, fun hs => Dec.reads_utf16 host e s hs he rest⟩⟩
  · obtain ⟨p, l, h1, h2, _⟩ := (C20_nul_never_round_trips host e he s hs rest).1
    rw [h1] at h
    injection h with h _
    injection h with h
    exact h2 h
  · obtain ⟨p, l, h1, h2, _⟩ := (C20_nul_never_round_trips host e he s hs rest).2
    rw [h1] at h
    injection h with h _
    injection h with h
    exact h2 h

end Rsomeip
