import Verif.Proto.Display
import Verif.Lemmas.Proto

/-! # C67: log formats -/

namespace Rsomeip

open Proto

namespace Display

/-- Value of a hexadecimal digit. -/
def value (c : Char) : Nat := if c.toNat < 58 then c.toNat - 48 else c.toNat - 87

/-- Value of a string of hexadecimal digits. -/
def parse (s : List Char) : Nat := s.foldl (fun acc c => acc * 16 + value c) 0

theorem value_digit (n : Nat) (h : n < 16) : value (digit n) = n := by
  have : ∀ n : Fin 16, value (digit n.1) = n.1 := by decide +kernel
  exact this ⟨n, h⟩

theorem parse_append_digit (s : List Char) (n : Nat) (h : n < 16) :
    parse (s ++ [digit n]) = parse s * 16 + n := by
  simp [parse, value_digit n h]

theorem parse_pad (k : Nat) (s : List Char) : parse (List.replicate k '0' ++ s) = parse s := by
  have h0 : (List.replicate k '0').foldl (fun acc c => acc * 16 + value c) 0 = 0 := by
    induction k with
    | zero => rfl
    | succ k ih =>
      rw [List.replicate_succ, List.foldl_cons]
      exact ih
  simp only [parse, List.foldl_append, h0]

theorem parse_digits (n : Nat) : parse (digits n) = n := by
  induction n using Nat.strongRecOn with
  | _ n ih =>
    rw [digits]
    split
    · rename_i h
      simp [parse, value_digit n h]
    · rw [parse_append_digit _ _ (by omega), ih (n / 16) (by omega)]
      omega

theorem digits_length (n k : Nat) (hk : 0 < k) (h : n < 16 ^ k) : (digits n).length ≤ k := by
  induction k generalizing n with
  | zero => omega
  | succ k ih =>
    rw [digits]
    split
    · simp
    · rename_i hn
      rw [List.length_append, List.length_singleton]
      have hk' : 0 < k := by
        rcases Nat.eq_zero_or_pos k with rfl | h'
        · omega
        · exact h'
      have := ih (n / 16) hk' (by rw [Nat.pow_succ] at h; omega)
      omega

theorem hex_length (k n : Nat) (hk : 0 < k) (h : n < 16 ^ k) : (hex k n).length = k := by
  have := digits_length n k hk h
  simp [hex]
  omega

theorem parse_hex (k n : Nat) : parse (hex k n) = n := by
  rw [hex, parse_pad, parse_digits]

theorem u16_length (x : UInt16) : (u16 x).length = 4 :=
  hex_length 4 _ (by decide) (by have := x.toNat_lt; omega)

theorem u8_length (x : UInt8) : (u8 x).length = 2 :=
  hex_length 2 _ (by decide) (by have := x.toNat_lt; omega)

theorem u16_inj {x y : UInt16} : u16 x = u16 y ↔ x = y := by
  refine ⟨fun h => ?_, fun h => h ▸ rfl⟩
  have := congrArg parse h
  simp only [u16, parse_hex] at this
  exact UInt16.toNat_inj.mp this

theorem u8_inj {x y : UInt8} : u8 x = u8 y ↔ x = y := by
  refine ⟨fun h => ?_, fun h => h ▸ rfl⟩
  have := congrArg parse h
  simp only [u8, parse_hex] at this
  exact UInt8.toNat_inj.mp this

theorem u16_append {x y : UInt16} {s t : List Char} : u16 x ++ s = u16 y ++ t ↔ x = y ∧ s = t := by
  constructor
  · intro h
    have := List.append_inj h (by rw [u16_length, u16_length])
    exact ⟨u16_inj.mp this.1, this.2⟩
  · rintro ⟨rfl, rfl⟩; rfl

theorem u8_append {x y : UInt8} {s t : List Char} : u8 x ++ s = u8 y ++ t ↔ x = y ∧ s = t := by
  constructor
  · intro h
    have := List.append_inj h (by rw [u8_length, u8_length])
    exact ⟨u8_inj.mp this.1, this.2⟩
  · rintro ⟨rfl, rfl⟩; rfl

end Display

open Display

/-- **C67.** Numbers are shown in lower-case hexadecimal with fixed width, and reading the digits
gives the number back. -/
theorem C67_numbers (x : UInt16) (y : UInt8) :
    (u16 x).length = 4 ∧ parse (u16 x) = x.toNat ∧ (u8 y).length = 2 ∧ parse (u8 y) = y.toNat ∧
    (∀ c ∈ u16 x ++ u8 y, c ∈ "0123456789abcdef".toList) := by
  refine ⟨u16_length x, parse_hex _ _, u8_length y, parse_hex _ _, ?_⟩
  have hd : ∀ n : Fin 16, digit n.1 ∈ "0123456789abcdef".toList := by decide +kernel
  have hds : ∀ n : Nat, ∀ c ∈ digits n, c ∈ "0123456789abcdef".toList := by
    intro n
    induction n using Nat.strongRecOn with
    | _ n ih =>
      intro c hc
      rw [digits] at hc
      split at hc
      · rename_i h
        rw [List.mem_singleton.mp hc]
        exact hd ⟨n, h⟩
      · rcases List.mem_append.mp hc with hc | hc
        · exact ih (n / 16) (by omega) c hc
        · rw [List.mem_singleton.mp hc]
          exact hd ⟨n % 16, by omega⟩
  intro c hc
  have : ∀ k n, ∀ c ∈ hex k n, c ∈ "0123456789abcdef".toList := by
    intro k n c hc
    rcases List.mem_append.mp hc with hc | hc
    · rw [(List.mem_replicate.mp hc).2]; decide
    · exact hds n c hc
  rcases List.mem_append.mp hc with hc | hc
  · exact this _ _ _ hc
  · exact this _ _ _ hc

/-- **C67.** Different ids never print alike, and ids print with fixed width. -/
theorem C67_ids (a b : MessageId) (c d : RequestId) (i j : Someip.InterfaceId) :
    (messageId a = messageId b ↔ a = b) ∧ (messageId a).length = 9 ∧
    (requestId c = requestId d ↔ c = d) ∧ (requestId c).length = 9 ∧
    (interfaceId i = interfaceId j ↔ i = j) ∧ (interfaceId i).length = 9 := by
  refine ⟨?_, ?_, ?_, ?_, ?_, ?_⟩
  · simp only [messageId, List.append_assoc, u16_append, List.append_cancel_left_eq, u16_inj]
    obtain ⟨⟨_⟩, ⟨_⟩⟩ := a
    obtain ⟨⟨_⟩, ⟨_⟩⟩ := b
    simp
  · simp [messageId, u16_length]
  · simp only [requestId, List.append_assoc, u16_append, List.append_cancel_left_eq, u16_inj]
    obtain ⟨⟨_⟩, ⟨_⟩⟩ := c
    obtain ⟨⟨_⟩, ⟨_⟩⟩ := d
    simp
  · simp [requestId, u16_length]
  · simp only [interfaceId, List.append_assoc, u16_append, List.append_cancel_left_eq, u8_inj]
    obtain ⟨_, _⟩ := i
    obtain ⟨_, _⟩ := j
    simp
  · simp [interfaceId, u16_length, u8_length]

/-- **C67.** Two headers print alike exactly if they agree in client, session, message type and the
number of the return code; messages also show service and method. Versions and body are not
shown. -/
theorem C67_messages {β : Type} (m n : Proto.Message β) (s t : Someip.Message β) :
    (header m.header = header n.header ↔ m.client = n.client ∧ m.session = n.session ∧
      m.header.messageType = n.header.messageType ∧ m.returnCode.asU8 = n.returnCode.asU8) ∧
    (header m.header).length = 15 ∧
    (generic header m = generic header n ↔ m.service = n.service ∧ m.method = n.method ∧
      header m.header = header n.header) ∧
    (generic header m).length = 25 ∧
    (Display.someip s = Display.someip t ↔ s.service = t.service ∧ s.method = t.method ∧
      s.client = t.client ∧ s.session = t.session ∧ s.messageType.asU8 = t.messageType.asU8 ∧
      s.returnCode.asU8 = t.returnCode.asU8) ∧
    (Display.someip s).length = 27 := by
  refine ⟨?_, ?_, ?_, ?_, ?_, ?_⟩
  · simp only [header, List.append_assoc, u16_append, u8_append, List.append_cancel_left_eq, u8_inj,
      Message.client, Message.session, Message.returnCode]
    obtain ⟨_, _, ⟨⟨_⟩, ⟨_⟩, _, _, ⟨_⟩, _⟩, _⟩ := m
    obtain ⟨_, _, ⟨⟨_⟩, ⟨_⟩, _, _, ⟨_⟩, _⟩, _⟩ := n
    simp
  · simp [header, u16_length, u8_length]
  · simp only [generic, List.append_assoc, u16_append, List.append_cancel_left_eq]
    obtain ⟨⟨_⟩, ⟨_⟩, _, _⟩ := m
    obtain ⟨⟨_⟩, ⟨_⟩, _, _⟩ := n
    simp
  · simp [generic, header, u16_length, u8_length]
  · simp only [Display.someip, List.append_assoc, u16_append, u8_append, List.append_cancel_left_eq,
      u8_inj]
  · simp [Display.someip, u16_length, u8_length]

/-- Value of a string of decimal digits. -/
def Display.parse10 (s : List Char) : Nat := s.foldl (fun acc c => acc * 10 + (c.toNat - 48)) 0

theorem Display.parse_decimal (x : UInt8) : parse10 (decimal x) = x.toNat := by
  have h : ∀ n : Fin 256, parse10 (Nat.repr n.1).toList = n.1 := by decide +kernel
  exact h ⟨x.toNat, x.toNat_lt⟩

theorem Display.decimal_inj {x y : UInt8} : decimal x = decimal y ↔ x = y := by
  refine ⟨fun h => ?_, fun h => h ▸ rfl⟩
  have := congrArg parse10 h
  rw [parse_decimal, parse_decimal] at this
  exact UInt8.toNat_inj.mp this

theorem Display.debug_split (n : String) (x : Option UInt8) (h : '(' ∉ n.toList) :
    (debug n x).takeWhile (· ≠ '(') = n.toList ∧
      (debug n x).dropWhile (· ≠ '(') = x.elim [] fun x => '(' :: (decimal x ++ [')']) := by
  have hp : ∀ c ∈ n.toList, decide (c ≠ '(') = true := fun c hc =>
    decide_eq_true fun he => h (he ▸ hc)
  cases x with
  | none =>
    have h1 := List.takeWhile_append_of_pos (l₂ := []) hp
    have h2 := List.dropWhile_append_of_pos (l₂ := []) hp
    rw [List.append_nil] at h1 h2
    exact ⟨h1.trans (List.append_nil _), h2⟩
  | some x =>
    rw [debug, List.takeWhile_append_of_pos hp, List.dropWhile_append_of_pos hp]
    simp

theorem Display.debug_inj {n m : String} {x y : Option UInt8} (hn : '(' ∉ n.toList)
    (hm : '(' ∉ m.toList) (h : debug n x = debug m y) : n = m ∧ x = y := by
  obtain ⟨h1, h2⟩ := debug_split n x hn
  obtain ⟨h3, h4⟩ := debug_split m y hm
  rw [h] at h1 h2
  refine ⟨String.toList_injective (h1.symm.trans h3), ?_⟩
  have h5 := h2.symm.trans h4
  cases x <;> cases y <;> simp [decimal_inj] at h5 ⊢
  exact h5

/-- **C67.** Different message types and different return codes never print alike; a number without
a name of its own is shown. -/
theorem C67_names (a b : MessageType) (c d : ReturnCode) :
    (Display.messageType a = Display.messageType b ↔ a = b) ∧
    (Display.returnCode c = Display.returnCode d ↔ c = d) ∧
    ∀ x, Display.parse10 (decimal x) = x.toNat := by
  refine ⟨?_, ?_, parse_decimal⟩
  · refine ⟨fun h => ?_, fun h => h ▸ rfl⟩
    cases a <;> cases b <;> first
      | rfl
      | (simp only [Display.messageType] at h
         obtain ⟨h1, h2⟩ := debug_inj (by decide) (by decide) h
         first | (simp at h1; done) | (cases h2; rfl))
  · refine ⟨fun h => ?_, fun h => h ▸ rfl⟩
    cases c <;> cases d <;> first
      | rfl
      | (simp only [Display.returnCode] at h
         obtain ⟨h1, h2⟩ := debug_inj (by decide) (by decide) h
         first | (simp at h1; done) | (cases h2; rfl))

example : String.ofList (Display.messageType (.unknown 130)) = "Unknown(130)" := by decide +kernel
example : String.ofList (Display.returnCode .e2eRepeated) = "E2eRepeated" := by decide +kernel
example : String.ofList (messageId ⟨⟨0x1234⟩, ⟨0xab⟩⟩) = "1234.00ab" := by decide +kernel
example : String.ofList (Display.someip
    (⟨0x1234, 0x5678, 0x9abc, 0xdef0, 1, 0, .response, .notOk, [1]⟩ : Someip.Message Bytes)) =
    "M.1234.5678.9abc.def0.80.01" := by decide +kernel
example : String.ofList (interfaceId ⟨0x1234, 1⟩) = "I.1234.01" := by decide +kernel

end Rsomeip
