import Verif.Spec.AnyMut

/-! # Writing to any buffer is appending to its bytes -/

namespace Rsomeip.Any

open Spec

section
variable {S : Type} {view : S → BufMut}

theorem _root_.Rsomeip.Spec.SameTo.pure {α : Type} (a : α) : SameTo view (Pure.pure a : W S α) (Pure.pure a : Rsomeip.W α) :=
  fun s => ⟨.ok a, s, rfl, rfl⟩

theorem _root_.Rsomeip.Spec.SameTo.fail {α : Type} (e : SerErr) : SameTo view (W.fail e : W S α) (Rsomeip.W.fail e : Rsomeip.W α) :=
  fun s => ⟨.err e, s, rfl, rfl⟩

theorem _root_.Rsomeip.Spec.SameTo.bind {α β : Type} {w : W S α} {d : Rsomeip.W α} {w' : α → W S β} {d' : α → Rsomeip.W β}
    (h : SameTo view w d) (h' : ∀ a, SameTo view (w' a) (d' a)) : SameTo view (w >>= w') (d >>= d') := by
  intro s
  obtain ⟨o, s', h₁, h₂⟩ := h s
  show ∃ o s', W.bind w w' s = some (o, s') ∧ (o, view s') = Rsomeip.W.bind d d' (view s)
  unfold W.bind Rsomeip.W.bind
  rw [h₁, ← h₂]
  cases o with
  | ok a => exact h' a s'
  | err e => exact ⟨_, _, rfl, rfl⟩
  | panic => exact ⟨_, _, rfl, rfl⟩

variable [Sink S]

theorem putLoop_eq (hc : SinkContract view) (n : Nat) : ∀ (xs : Bytes) (s : S), xs.length = n →
    (∀ r, (view s).room = some r → xs.length ≤ r) →
    ∃ s', putLoop xs s = some (.ok (), s') ∧
      view s' = ⟨(view s).data ++ xs, (view s).room.map (· - xs.length)⟩ := by
  induction n using Nat.strongRecOn with
  | ind n ih =>
    intro xs s hn hr
    rw [putLoop]
    split
    · rename_i e
      subst e
      refine ⟨s, rfl, ?_⟩
      rcases view s with ⟨d, _ | r⟩ <;> simp
    · rename_i hx
      have hl : 0 < xs.length := List.length_pos_iff.mpr hx
      have hm : 0 < (Sink.chunk s).1 := hc.more s fun e => by
        have := hr 0 e
        omega
      dsimp only
      rw [if_neg (by omega)]
      have hw := hc.write s (xs.take (min xs.length (Sink.chunk s).1)) (by simp; omega) (fun r e => by
        have := hr r e
        simp only [List.length_take]
        omega)
      obtain ⟨s', h₁, h₂⟩ := ih (xs.length - min xs.length (Sink.chunk s).1) (by omega)
        (xs.drop (min xs.length (Sink.chunk s).1))
        (Sink.write (xs.take (min xs.length (Sink.chunk s).1)) (Sink.chunk s).2) (by simp) (by
          intro r e
          rw [hw] at e
          dsimp only at e
          rcases hv : (view s).room with _ | q
          · rw [hv] at e
            cases e
          · rw [hv] at e
            cases e
            have := hr q hv
            simp only [List.length_drop, List.length_take]
            omega)
      refine ⟨s', h₁, ?_⟩
      rw [h₂, hw]
      dsimp only
      rw [List.append_assoc, List.take_append_drop]
      rcases (view s).room with _ | q
      · rfl
      · simp only [Option.map_some, List.length_drop, List.length_take]
        congr 2
        omega

theorem _root_.Rsomeip.Spec.SameTo.putSlice (hc : SinkContract view) (xs : Bytes) :
    SameTo view (W.putSlice xs : W S Unit) (Rsomeip.W.putSlice xs) := by
  intro s
  unfold W.putSlice Rsomeip.W.putSlice
  rw [hc.room]
  rcases hv : (view s).room with _ | r
  · obtain ⟨s', h₁, h₂⟩ := putLoop_eq hc _ xs s rfl (by rw [hv]; nofun)
    rw [hv] at h₂
    exact ⟨_, s', h₁, by rw [h₂]; rfl⟩
  · dsimp only
    split
    · exact ⟨_, s, rfl, rfl⟩
    · obtain ⟨s', h₁, h₂⟩ := putLoop_eq hc _ xs s rfl (by
        intro q hq
        rw [hv] at hq
        cases hq
        omega)
      rw [hv] at h₂
      exact ⟨_, s', h₁, by rw [h₂]; rfl⟩

theorem _root_.Rsomeip.Spec.SameTo.put {α : Type} (hc : SinkContract view) (k : Nat) (bits : α → Nat) (v : α) :
    SameTo view (put k bits v : W S Nat) ((Ser.prim k bits).serialize v) :=
  (SameTo.putSlice hc _).bind fun _ => .pure _

theorem _root_.Rsomeip.Spec.SameTo.putBool (hc : SinkContract view) (v : Bool) :
    SameTo view (putBool v : W S Nat) (Ser.bool.serialize v) := by
  cases v <;> exact SameTo.put hc 1 _ _

theorem _root_.Rsomeip.Spec.SameTo.putBytes (hc : SinkContract view) (v : Bytes) :
    SameTo view (putBytes v : W S Nat) (Ser.bytes.serialize v) :=
  (SameTo.putSlice hc _).bind fun _ => .pure _

omit [Sink S] in
theorem _root_.Rsomeip.Spec.SameTo.putList {α : Type} {w : α → W S Nat} {d : Ser α}
    (h : ∀ a, SameTo view (w a) (d.serialize a)) (vs : List α) :
    ∀ total, SameTo view (putList w total vs) (Ser.sliceLoop d total vs) := by
  induction vs with
  | nil => exact fun total => .pure total
  | cons v vs ih => exact fun total => (h v).bind fun n => ih (total + n)

omit [Sink S] in
theorem _root_.Rsomeip.Spec.SameTo.putCons {α β : Type} {w w' : W S Nat} {d : Ser α} {d' : Ser β} {v : α × β}
    (h : SameTo view w (d.serialize v.1)) (h' : SameTo view w' (d'.serialize v.2)) :
    SameTo view (putCons w w') ((Ser.tcons d d').serialize v) :=
  h.bind fun _ => h'.bind fun _ => .pure _

theorem _root_.Rsomeip.Spec.SameTo.putLen {α : Type} (hc : SinkContract view) {w : W S Nat} {d : Ser α} {v : α}
    (h : SameTo view w (d.serialize v)) (l : LengthField) :
    SameTo view (putLen (d.sizeHint v) w l) (d.serializeLen l v) := by
  have key : ∀ {x : W S Nat} {y : Rsomeip.W Nat}, SameTo view x y →
      SameTo view (x >>= fun size => w >>= fun n => Pure.pure (size + n))
        (y >>= fun size => d.serialize v >>= fun n => Pure.pure (size + n)) :=
    fun hx => hx.bind fun _ => h.bind fun _ => .pure _
  cases l <;> unfold Any.putLen Ser.serializeLen <;> dsimp only <;> split
  · exact key (SameTo.put hc 1 UInt8.toNat _)
  · exact key (.fail _)
  · exact key (SameTo.put hc 2 UInt16.toNat _)
  · exact key (.fail _)
  · exact key (SameTo.put hc 4 UInt32.toNat _)
  · exact key (.fail _)

theorem _root_.Rsomeip.Spec.SameTo.putUtf8 (hc : SinkContract view) (s : List Char) :
    SameTo view (putUtf8 s : W S Nat) (Ser.utf8.serialize s) :=
  SameTo.putCons (SameTo.putList (fun a => SameTo.put hc 1 _ a) _ 0)
    (SameTo.putCons (SameTo.putList (fun a => SameTo.put hc 1 _ a) _ 0)
      (SameTo.putCons (SameTo.put hc 1 _ _) (.pure 0)))

theorem _root_.Rsomeip.Spec.SameTo.utf16Loop (hc : SinkContract view) (e : Endian) (us : List UInt16) :
    ∀ n, SameTo view (utf16Loop e n us : W S Nat) (Ser.utf16Loop e n us) := by
  induction us with
  | nil => exact fun n => .pure n
  | cons u us ih =>
    exact fun n => SameTo.bind (SameTo.putList (fun a => SameTo.put hc 1 _ a) _ 0) fun m => ih (n + m)

theorem _root_.Rsomeip.Spec.SameTo.putUtf16 (hc : SinkContract view) (e : Endian) (s : List Char) :
    SameTo view (putUtf16 e s : W S Nat) ((Ser.utf16 e).serialize s) :=
  (SameTo.put hc 2 _ _).bind fun _ => (SameTo.utf16Loop hc e _ _).bind fun _ =>
    (SameTo.put hc 2 _ _).bind fun _ => .pure _

theorem same_ser (hc : SinkContract view) : (t : Ty) → (v : t.Val) →
    SameTo view (ser t v : W S Nat) (t.ser.serialize v)
  | .u8, v => SameTo.put hc 1 UInt8.toNat v
  | .u16, v => SameTo.put hc 2 UInt16.toNat v
  | .u32, v => SameTo.put hc 4 UInt32.toNat v
  | .u64, v => SameTo.put hc 8 UInt64.toNat v
  | .i8, v => SameTo.put hc 1 (fun v : Int8 => v.toBitVec.toNat) v
  | .i16, v => SameTo.put hc 2 (fun v : Int16 => v.toBitVec.toNat) v
  | .i32, v => SameTo.put hc 4 (fun v : Int32 => v.toBitVec.toNat) v
  | .i64, v => SameTo.put hc 8 (fun v : Int64 => v.toBitVec.toNat) v
  | .f32, v => SameTo.put hc 4 BitVec.toNat v
  | .f64, v => SameTo.put hc 8 BitVec.toNat v
  | .bool, v => SameTo.putBool hc v
  | .bytes, v => SameTo.putBytes hc v
  | .utf8, v => SameTo.putUtf8 hc v
  | .utf16 e, v => SameTo.putUtf16 hc e v
  | .vec t, v => SameTo.putList (same_ser hc t) v 0
  | .array _ t, v => SameTo.putList (same_ser hc t) v.1 0
  | .unit, _ => .pure 0
  | .pair a b, v => SameTo.putCons (same_ser hc a v.1) (same_ser hc b v.2)
  | .len l t, v => SameTo.putLen hc (same_ser hc t v) l

open Proto

theorem _root_.Rsomeip.Spec.SameTo.header (hc : SinkContract view) (h : Header) :
    SameTo view (putHeader h : W S Nat) (Header.ser.serialize h) :=
  SameTo.putCons (SameTo.put hc 2 _ _) (SameTo.putCons (SameTo.put hc 2 _ _)
    (SameTo.putCons (SameTo.put hc 1 _ _) (SameTo.putCons (SameTo.put hc 1 _ _)
      (SameTo.putCons (SameTo.put hc 1 _ _) (SameTo.putCons (SameTo.put hc 1 _ _) (.pure 0))))))

theorem _root_.Rsomeip.Spec.SameTo.message {β : Type} (hc : SinkContract view) {b : Ser β} {w : β → W S Nat}
    (h : ∀ v, SameTo view (w v) (b.serialize v)) (m : Proto.Message β) :
    SameTo view (putMessage b.sizeHint w m) ((Proto.Message.ser b).serialize m) :=
  (SameTo.putCons (d := ServiceId.ser) (d' := Ser.tcons MethodId.ser Ser.tnil)
    (v := (m.service, m.method, ())) (SameTo.put hc 2 UInt16.toNat _)
    (SameTo.putCons (SameTo.put hc 2 UInt16.toNat _) (.pure 0))).bind fun _ =>
    (SameTo.putLen hc (d := Ser.tcons Header.ser (Ser.tcons b Ser.tnil)) (v := (m.header, m.body, ()))
      (SameTo.putCons (SameTo.header hc m.header) (SameTo.putCons (h m.body) (.pure 0))) .u32).bind fun _ =>
      .pure _

theorem _root_.Rsomeip.Spec.SameTo.tp (hc : SinkContract view) (h : TpHeader) :
    SameTo view (putTp h : W S Nat) (TpHeader.ser.serialize h) := by
  unfold putTp TpHeader.ser
  dsimp only
  split
  · exact .fail _
  · exact SameTo.putCons (SameTo.put hc 4 _ _) (SameTo.putCons (SameTo.putBytes hc _) (.pure 0))

theorem _root_.Rsomeip.Spec.SameTo.someip {β : Type} (hc : SinkContract view) {b : Ser β} {w : β → W S Nat}
    (h : ∀ v, SameTo view (w v) (b.serialize v)) (m : Someip.Message β) :
    SameTo view (putSomeip b.sizeHint w m) ((Someip.Message.ser b).serialize m) :=
  (SameTo.put hc 4 _ _).bind fun _ =>
    (SameTo.putLen hc (d := Ser.tcons Ser.u16 (Ser.tcons Ser.u16 (Ser.tcons Ser.u8 (Ser.tcons Ser.u8
      (Ser.tcons Someip.MessageType.ser (Ser.tcons Someip.ReturnCode.ser (Ser.tcons b Ser.tnil)))))))
      (v := (m.client, m.session, m.protocol, m.interface, m.messageType, m.returnCode, m.payload, ()))
      (SameTo.putCons (SameTo.put hc 2 _ _) (SameTo.putCons (SameTo.put hc 2 _ _)
        (SameTo.putCons (SameTo.put hc 1 _ _) (SameTo.putCons (SameTo.put hc 1 _ _)
          (SameTo.putCons (SameTo.put hc 1 _ _) (SameTo.putCons (SameTo.put hc 1 _ _)
            (SameTo.putCons (h m.payload) (.pure 0)))))))) .u32).bind fun _ => .pure _

end

/-! ## Buffers that keep the contract -/

theorem Slots.first_pos : (l : List Nat) → l.sum ≠ 0 → 0 < Slots.first l
  | [], h => absurd rfl h
  | n :: ns, h => by
    rw [Slots.first]
    split
    · rename_i e
      subst e
      exact Slots.first_pos ns (by simpa using h)
    · omega

theorem Slots.use_sum : (k : Nat) → (l : List Nat) → (Slots.use k l).sum = l.sum - k
  | _, [] => by simp [Slots.use]
  | k, n :: ns => by
    rw [Slots.use]
    split
    · simp only [List.sum_cons]
      omega
    · rw [Slots.use_sum, List.sum_cons]
      omega

theorem contract_slots : SinkContract (S := Slots) (fun s => ⟨s.data, some s.free.sum⟩) where
  room _ := rfl
  chunk _ := rfl
  more s h := Slots.first_pos _ (by simpa using h)
  write s xs _ _ := by simp [Sink.write, Sink.chunk, Slots.use_sum]

theorem contract_growing : SinkContract (S := Growing) (fun s => ⟨s.data, none⟩) where
  room _ := rfl
  chunk s := by
    simp only [Sink.chunk]
    split <;> rfl
  more s _ := by
    simp only [Sink.chunk]
    split <;> dsimp only <;> omega
  write s xs _ _ := by
    simp only [Sink.write, Sink.chunk]
    split <;> rfl

end Rsomeip.Any
