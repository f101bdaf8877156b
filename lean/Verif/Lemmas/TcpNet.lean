import Verif.Spec.TcpNet
import Verif.Props.Rt.TcpCarry

/-! # Histories of several endpoints connected by TCP -/

namespace Rsomeip.Rt.TcpNet

open Spec.TcpNet
open Spec.TcpNode (written arrived)

theorem step_inv {own : Addr → Bool} {s s' : State} {x : Action} {o : TcpNode.Obs}
    (h : step own s x = some (s', o)) : own x.1 = true ∧ possible own s x.1 x.2.2 x.2.1 = true ∧
    ∃ t, TcpNode.step (s.nodes x.1) x.2.1 = some (t, o) ∧
      s' = { carry own s x.1 x.2.2 x.2.1 o with nodes := upd s.nodes x.1 t } := by
  simp only [step] at h
  split at h
  · rename_i hc
    rw [Bool.and_eq_true] at hc
    split at h
    · rename_i t w ht
      cases h
      exact ⟨hc.1, hc.2, t, ht, rfl⟩
    · cases h
  · cases h

theorem at_snoc (n : Addr) (tr : Trace) (x : Action) (o : TcpNode.Obs) :
    at_ n (tr ++ [(x, o)]) = at_ n tr ++ if x.1 = n then [(x.2.1, o)] else [] := by
  rw [at_, List.filterMap_append]
  congr 1
  by_cases h : x.1 = n <;> simp [h]

theorem at_append (n : Addr) (t u : Trace) : at_ n (t ++ u) = at_ n t ++ at_ n u :=
  List.filterMap_append ..

theorem at_same (n : Addr) (tr : Trace) (x : TcpNode.Action) (d : Nat) (o : TcpNode.Obs) :
    at_ n (tr ++ [((n, x, d), o)]) = at_ n tr ++ [(x, o)] := by
  rw [at_snoc, if_pos rfl]

theorem at_other {m n : Addr} (tr : Trace) (x : TcpNode.Action) (d : Nat) (o : TcpNode.Obs) (h : n ≠ m) :
    at_ m (tr ++ [((n, x, d), o)]) = at_ m tr := by
  rw [at_snoc, if_neg h, List.append_nil]

/-- Every program on its own. -/
theorem each {own : Addr → Bool} {tr : Trace} {s : State} (e : Exec (step own) init tr s) (n : Addr) :
    Exec TcpNode.step TcpNode.init (at_ n tr) (s.nodes n) := by
  induction e with
  | nil => exact .nil
  | @snoc tr1 s1 s2 act ob e1 hs ih =>
    obtain ⟨_, _, t, ht, rfl⟩ := step_inv hs
    rw [at_snoc]
    by_cases h : act.1 = n
    · subst h
      dsimp only
      rw [if_pos rfl, upd_same]
      exact .snoc ih ht
    · dsimp only
      rw [if_neg h, List.append_nil, upd_ne _ _ (Ne.symm h)]
      exact ih

/-! ### Connections and what is under way -/

/-- What has arrived at the other end, if there is one. -/
def there (A : Addr → Nat → Bytes) : Option (Addr × Nat) → Bytes
  | some (n, c) => A n c
  | none => []

/-- Connections, their ends and what is under way, with the number of connections of each program, their
addresses, what was written to them and what has arrived on them. -/
structure Links (own : Addr → Bool) (cc : Addr → Nat) (ad : Addr → Nat → Addr)
    (W A : Addr → Nat → Bytes) (peer : Addr → Nat → Option (Addr × Nat))
    (backlog : Addr → List (Addr × Nat)) (pipe : Addr → Nat → Bytes) : Prop where
  symm : ∀ n c m d, peer n c = some (m, d) → peer m d = some (n, c)
  addr : ∀ n c m d, peer n c = some (m, d) → c < cc n ∧ ad n c = m
  wait : ∀ n m d, (m, d) ∈ backlog n → peer m d = none ∧ d < cc m ∧ ad m d = n
  pipe : ∀ n c, W n c = there A (peer n c) ++ pipe n c
  none : ∀ n c, c < cc n → peer n c = none → own (ad n c) = true → A n c = []
  fresh : ∀ n c, cc n ≤ c → A n c = []
  owned : ∀ n c m d, peer n c = some (m, d) → own m = true

section
variable {own : Addr → Bool} {cc : Addr → Nat} {ad : Addr → Nat → Addr}
    {W A : Addr → Nat → Bytes} {peer : Addr → Nat → Option (Addr × Nat)}
    {backlog : Addr → List (Addr × Nat)} {pipe : Addr → Nat → Bytes}

theorem set_apply {α : Type} (f : Addr → Nat → α) (n m : Addr) (c d : Nat) (x : α) :
    set f n c x m d = if m = n ∧ d = c then x else f m d := by
  simp only [set, upd]
  by_cases h : m = n
  · subst h; by_cases h' : d = c <;> simp [upd, h']
  · simp [h]

theorem Links.accepts (h : Links own cc ad W A peer backlog pipe) {n a : Addr} {d : Nat}
    (hn : own n = true) (ha : own a = true) (hd : (a, d) ∈ backlog n) :
    Links own (upd cc n (cc n + 1)) (set ad n (cc n) a) W A
      (set (set peer n (cc n) (some (a, d))) a d (some (n, cc n)))
      (upd backlog n ((backlog n).filter (· ≠ (a, d)))) pipe := by
  obtain ⟨h1, h2, h3, h4, h5, h6, h0⟩ := h
  obtain ⟨p1, p2, p3⟩ := h3 n a d hd
  have q : peer n (cc n) = .none := by
    cases hq : peer n (cc n) with
    | none => rfl
    | some z => exact absurd (h2 n (cc n) z.1 z.2 hq).1 (Nat.lt_irrefl _)
  have r1 := h5 a d p2 p1 (by rw [p3]; exact hn)
  have r2 := h6 n (cc n) (Nat.le_refl _)
  refine ⟨?_, ?_, ?_, ?_, ?_, ?_, ?_⟩
  · intro n' c' m' d'; simp only [set_apply]; grind
  · intro n' c' m' d'; simp only [set_apply, upd]; grind
  · intro n' m' d'; simp only [set_apply, upd]; grind
  · intro n' c'; simp only [set_apply]; have := h4 n' c'; grind [there]
  · intro n' c'; simp only [set_apply, upd]; grind
  · intro n' c'; simp only [upd]; grind
  · intro n' c' m' d'; simp only [set_apply]; grind

theorem Links.itself (h : Links own cc ad W A peer backlog pipe) {n : Addr} (hn : own n = true) :
    Links own (upd cc n (cc n + 1)) (set ad n (cc n) n) W A
      (set (set peer n (cc n) (some (n, cc n))) n (cc n) (some (n, cc n)))
      (upd backlog n ((backlog n).filter (· ≠ (n, cc n)))) pipe := by
  obtain ⟨h1, h2, h3, h4, h5, h6, h0⟩ := h
  have q : peer n (cc n) = .none := by
    cases hq : peer n (cc n) with
    | none => rfl
    | some z => exact absurd (h2 n (cc n) z.1 z.2 hq).1 (Nat.lt_irrefl _)
  have r2 := h6 n (cc n) (Nat.le_refl _)
  refine ⟨?_, ?_, ?_, ?_, ?_, ?_, ?_⟩
  · intro n' c' m' d'; simp only [set_apply]; grind
  · intro n' c' m' d'; simp only [set_apply, upd]; grind
  · intro n' m' d'; simp only [set_apply, upd]; grind
  · intro n' c'; simp only [set_apply]; have := h4 n' c'; grind [there]
  · intro n' c'; simp only [set_apply, upd]; grind
  · intro n' c'; simp only [upd]; grind
  · intro n' c' m' d'; simp only [set_apply]; grind

theorem Links.opens (h : Links own cc ad W A peer backlog pipe) (n a : Addr) :
    Links own (upd cc n (cc n + 1)) (set ad n (cc n) a) W A peer backlog pipe := by
  obtain ⟨h1, h2, h3, h4, h5, h6, h0⟩ := h
  refine ⟨h1, ?_, ?_, h4, ?_, ?_, h0⟩
  · intro n' c' m' d'; simp only [set_apply, upd]; grind
  · intro n' m' d'; simp only [set_apply, upd]; grind
  · intro n' c'; simp only [set_apply, upd]; grind
  · intro n' c'; simp only [upd]; grind

theorem Links.connects (h : Links own cc ad W A peer backlog pipe) (n a : Addr) :
    Links own (upd cc n (cc n + 1)) (set ad n (cc n) a) W A peer
      (upd backlog a (backlog a ++ [(n, cc n)])) pipe := by
  have q : peer n (cc n) = .none := by
    cases hq : peer n (cc n) with
    | none => rfl
    | some z => exact absurd (h.addr n (cc n) z.1 z.2 hq).1 (Nat.lt_irrefl _)
  obtain ⟨h1, h2, h3, h4, h5, h6, h0⟩ := h.opens n a
  refine ⟨h1, h2, ?_, h4, h5, h6, h0⟩
  intro n' m' d'; simp only [set_apply, upd] at h3 ⊢; grind

theorem Links.arrives (h : Links own cc ad W A peer backlog pipe) {n m : Addr} {c e : Nat} {b : Bytes}
    (hp : peer n c = some (m, e)) (hb : b <+: pipe m e) :
    Links own cc ad W (set A n c (A n c ++ b)) peer backlog
      (set pipe m e ((pipe m e).drop b.length)) := by
  obtain ⟨h1, h2, h3, h4, h5, h6, h0⟩ := h
  obtain ⟨z, hz⟩ := hb
  have q := h1 n c m e hp
  refine ⟨h1, h2, h3, ?_, ?_, ?_, h0⟩
  · intro n' c'
    have h7 := h4 n' c'
    simp only [set_apply]
    by_cases hx : n' = m ∧ c' = e
    · obtain ⟨rfl, rfl⟩ := hx
      rw [h7, q]
      simp [there, set_apply, ← hz]
    · rw [if_neg hx, h7]
      congr 1
      cases hq : peer n' c' with
      | none => rfl
      | some w =>
        obtain ⟨w1, w2⟩ := w
        simp only [there, set_apply]
        rw [if_neg]
        rintro ⟨rfl, rfl⟩
        have := h1 _ _ _ _ hq
        rw [hp] at this
        cases this
        exact hx ⟨rfl, rfl⟩
  · intro n' c'; simp only [set_apply]; grind
  · intro n' c'; simp only [set_apply]; grind

theorem Links.strange (h : Links own cc ad W A peer backlog pipe) {n : Addr} {c : Nat} (b : Bytes)
    (hc : c < cc n) (hp : peer n c = Option.none) (ho : own (ad n c) = false) :
    Links own cc ad W (set A n c (A n c ++ b)) peer backlog pipe := by
  obtain ⟨h1, h2, h3, h4, h5, h6, h0⟩ := h
  refine ⟨h1, h2, h3, ?_, ?_, ?_, h0⟩
  · intro n' c'
    rw [h4 n' c']
    congr 1
    cases hq : peer n' c' with
    | none => rfl
    | some w =>
      obtain ⟨w1, w2⟩ := w
      simp only [there, set_apply]
      rw [if_neg]
      rintro ⟨rfl, rfl⟩
      have := h1 _ _ _ _ hq
      rw [hp] at this
      cases this
  · intro n' c'; simp only [set_apply]; grind
  · intro n' c'; simp only [set_apply]; grind

theorem Links.writes (h : Links own cc ad W A peer backlog pipe) (n : Addr) (c : Nat) (b : Bytes) :
    Links own cc ad (set W n c (W n c ++ b)) A peer backlog (set pipe n c (pipe n c ++ b)) := by
  obtain ⟨h1, h2, h3, h4, h5, h6, h0⟩ := h
  refine ⟨h1, h2, h3, ?_, h5, h6, h0⟩
  intro n' c'
  have h7 := h4 n' c'
  simp only [set_apply]
  by_cases hx : n' = n ∧ c' = c
  · obtain ⟨rfl, rfl⟩ := hx
    simp [h7]
  · rw [if_neg hx, if_neg hx, h7]

end

/-- How a step of an endpoint changes its connections. -/
theorem conns_kind {dg : Bool} {s s' : Ep.State} {x : Ep.Action} {o : Ep.Obs} (m : Ep.Move dg s x o s') :
    (∃ a, o = .opened s.connCount a ∧ s'.connCount = s.connCount + 1 ∧
      (∀ l b, x = .accept l b → b = a) ∧
      ∀ c, (s'.conns c).addr = if c = s.connCount then a else (s.conns c).addr) ∨
    ((∀ c a, o ≠ .opened c a) ∧ s'.connCount = s.connCount ∧
      ∀ c, (s'.conns c).addr = (s.conns c).addr) := by
  cases m <;> first
    | (refine .inr ⟨?_, rfl, fun d => ?_⟩ <;> grind [upd, Ep.Conn.ended])
    | (refine .inl ⟨_, rfl, rfl, ?_, fun d => ?_⟩ <;> grind [upd, Ep.newConn])

/-- What a step writes to a connection. -/
def wrote (o : TcpNode.Obs) (c : Nat) : Bytes :=
  match o.out with
  | some (d, b) => if d = c then b else []
  | none => []

/-- What a step lets arrive on a connection. -/
def came (x : TcpNode.Action) (c : Nat) : Bytes :=
  match x with
  | .arrive d b => if d = c then b else []
  | _ => []

def Linked (own : Addr → Bool) (tr : Trace) (s : State) : Prop :=
  Links own (fun n => (s.nodes n).ep.connCount) (fun n c => ((s.nodes n).ep.conns c).addr)
    (fun n c => written c (at_ n tr)) (fun n c => arrived c (at_ n tr)) s.peer s.backlog s.pipe

section
variable {own : Addr → Bool} {tr : Trace} {s : State} {n : Addr} {x : TcpNode.Action} {d : Nat}
  {o : TcpNode.Obs} {t : TcpNode.State} {s' : State}

theorem linked_next {cc : Addr → Nat} {ad : Addr → Nat → Addr} {W A : Addr → Nat → Bytes}
    (hn : s'.nodes = upd s.nodes n t)
    (h : Links own cc ad W A s'.peer s'.backlog s'.pipe)
    (hcc : cc = upd (fun n => (s.nodes n).ep.connCount) n t.ep.connCount)
    (had : ad = upd (fun n c => ((s.nodes n).ep.conns c).addr) n fun c => (t.ep.conns c).addr)
    (hW : W = upd (fun n c => written c (at_ n tr)) n fun c => written c (at_ n tr) ++ wrote o c)
    (hA : A = upd (fun n c => arrived c (at_ n tr)) n fun c => arrived c (at_ n tr) ++ came x c) :
    Linked own (tr ++ [((n, x, d), o)]) s' := by
  rw [Linked]
  have e1 : (fun n => (s'.nodes n).ep.connCount) = cc := by
    funext m; rw [hcc, hn]; by_cases h : m = n <;> simp [upd, h]
  have e2 : (fun n c => ((s'.nodes n).ep.conns c).addr) = ad := by
    funext m; rw [had, hn]; by_cases h : m = n <;> simp [upd, h]
  have e3 : (fun m c => written c (at_ m (tr ++ [((n, x, d), o)]))) = W := by
    funext m c; rw [hW]
    by_cases h : m = n
    · subst h; rw [at_same, upd_same, TcpNode.written_snoc]; rfl
    · rw [at_other _ _ _ _ (Ne.symm h), upd_ne _ _ h]
  have e4 : (fun m c => arrived c (at_ m (tr ++ [((n, x, d), o)]))) = A := by
    funext m c; rw [hA]
    by_cases h : m = n
    · subst h; rw [at_same, upd_same, TcpNode.arrived_snoc]; rfl
    · rw [at_other _ _ _ _ (Ne.symm h), upd_ne _ _ h]
  rw [e1, e2, e3, e4]
  exact h

theorem upd_id {α : Type} (f : Addr → α) (n : Addr) (y : α) (h : y = f n) : f = upd f n y := by
  funext m
  by_cases h' : m = n
  · subst h'; rw [upd_same, h]
  · rw [upd_ne _ _ h']

end

theorem set_eq {α : Type} (f : Addr → Nat → α) (n : Addr) (c : Nat) (y : α) (g : Nat → α)
    (h : ∀ k, g k = if k = c then y else f n k) : set f n c y = upd f n g := by
  rw [set]
  congr 1
  funext k
  rw [h, upd]

theorem carry_connect {own : Addr → Bool} {s : State} {n : Addr} {d : Nat} {x : Ep.Action} {c : Nat}
    {a : Addr} (h : ¬ ∃ l b, x = .accept l b) :
    carry own s n d (.app x) ⟨some (x, .opened c a), none⟩ =
      if own a then
        if (s.backlog n).contains (a, d) || (a, d) == (n, c) then link s n c a d
        else { s with backlog := upd s.backlog a (s.backlog a ++ [(n, c)]) }
      else s := by
  cases x with
  | accept l b => exact absurd ⟨l, b, rfl⟩ h
  | _ => rfl

theorem carry_quiet {own : Addr → Bool} {s : State} {n : Addr} {d : Nat} {x : Ep.Action} {o : Ep.Obs}
    (h : ∀ c a, o ≠ .opened c a) : carry own s n d (.app x) ⟨some (x, o), none⟩ = s := by
  cases o with
  | opened c a => exact absurd rfl (h c a)
  | _ => cases x <;> rfl

theorem linked {own : Addr → Bool} {tr : Trace} {s : State} (e : Exec (step own) init tr s) :
    Linked own tr s := by
  induction e with
  | nil =>
    refine ⟨nofun, nofun, nofun, fun n c => rfl, fun n c h => absurd h (Nat.not_lt_zero c),
      fun n c _ => rfl, nofun⟩
  | @snoc tr s s' act o e hs ih =>
    obtain ⟨n, x, d⟩ := act
    obtain ⟨hn, hp, t, ht, rfl⟩ := step_inv hs
    dsimp only at hn hp ht ⊢
    have m := TcpNode.move_of_step ht
    have quiet : ∀ {y : TcpNode.State} {x : TcpNode.Action} {o : TcpNode.Obs},
        y.ep.connCount = (s.nodes n).ep.connCount →
        (∀ c, (y.ep.conns c).addr = ((s.nodes n).ep.conns c).addr) → (∀ c, came x c = []) →
        o.out = none → Linked own (tr ++ [((n, x, d), o)]) { s with nodes := upd s.nodes n y } := by
      intro y x o h1 h2 h3 h4
      refine linked_next (s := s) (t := y) rfl ih (upd_id _ _ _ h1) (upd_id _ _ _ (funext h2))
        (upd_id _ _ _ (funext fun c => ?_)) (upd_id _ _ _ (funext fun c => ?_))
      · simp [wrote, h4]
      · simp [h3]
    have writes : ∀ {y : TcpNode.State} {a : Tcp.WriteAnswer} {c : Nat} {w : Bytes} (p),
        y.ep.connCount = (s.nodes n).ep.connCount →
        (∀ c, (y.ep.conns c).addr = ((s.nodes n).ep.conns c).addr) →
        Linked own (tr ++ [((n, .write c a, d), ⟨p, some (c, w)⟩)])
          { s with pipe := set s.pipe n c (s.pipe n c ++ w), nodes := upd s.nodes n y } := by
      intro y a c w p h1 h2
      refine linked_next (s := s) (t := y) rfl (ih.writes n c w) (upd_id _ _ _ h1)
        (upd_id _ _ _ (funext h2)) (set_eq _ _ _ _ _ fun k => ?_) (upd_id _ _ _ (funext fun c => ?_))
      · by_cases hk : k = c
        · subst hk; simp [wrote]
        · simp [wrote, hk, Ne.symm hk]
      · simp [came]
    cases m with
    | app x y o h1 h2 he =>
      rcases conns_kind (Ep.move_of_step he) with ⟨a, rfl, hc, hx, hadr⟩ | ⟨ho, hc, hadr⟩
      · have hW : (fun n c => written c (at_ n tr)) = upd (fun n c => written c (at_ n tr)) n
            fun c => written c (at_ n tr) ++
              wrote ⟨some (x, .opened (s.nodes n).ep.connCount a), none⟩ c :=
          upd_id _ _ _ (funext fun c => by simp [wrote])
        have hA : (fun n c => arrived c (at_ n tr)) = upd (fun n c => arrived c (at_ n tr)) n
            fun c => arrived c (at_ n tr) ++ came (.app x) c :=
          upd_id _ _ _ (funext fun c => by simp [came])
        have hcc : upd (fun n => (s.nodes n).ep.connCount) n ((s.nodes n).ep.connCount + 1) =
            upd (fun n => (s.nodes n).ep.connCount) n y.connCount := by rw [hc]
        have had := set_eq (fun n c => ((s.nodes n).ep.conns c).addr) n (s.nodes n).ep.connCount a
          (fun c => (y.conns c).addr) hadr
        by_cases hacc : ∃ l b, x = .accept l b
        · obtain ⟨l, b, rfl⟩ := hacc
          obtain rfl := hx l b rfl
          simp only [carry]
          simp only [possible, Bool.or_eq_true, Bool.not_eq_true', List.contains_iff_mem] at hp
          by_cases ho : own b = true
          · rw [if_pos ho]
            exact linked_next (s := s) rfl (ih.accepts hn ho (hp.resolve_left (by simp [ho]))) hcc had hW hA
          · rw [if_neg ho]
            exact linked_next (s := s) rfl (ih.opens n b) hcc had hW hA
        · rw [carry_connect hacc]
          split
          · split
            · rename_i ho hl
              rw [Bool.or_eq_true, List.contains_iff_mem, beq_iff_eq, Prod.mk.injEq] at hl
              rcases hl with hl | ⟨rfl, rfl⟩
              · exact linked_next (s := s) rfl (ih.accepts hn ho hl) hcc had hW hA
              · exact linked_next (s := s) rfl (ih.itself hn) hcc had hW hA
            · exact linked_next (s := s) rfl (ih.connects n a) hcc had hW hA
          · exact linked_next (s := s) rfl (ih.opens n a) hcc had hW hA
      · rw [carry_quiet ho]
        exact quiet hc hadr (fun _ => rfl) rfl
    | arrive c b hc h =>
      have hA : set (fun n c => arrived c (at_ n tr)) n c (arrived c (at_ n tr) ++ b) =
          upd (fun n c => arrived c (at_ n tr)) n
            fun k => arrived k (at_ n tr) ++ came (.arrive c b) k := by
        refine set_eq _ _ _ _ _ fun k => ?_
        by_cases hk : k = c
        · subst hk; simp [came]
        · simp [came, hk, Ne.symm hk]
      have hW : (fun n c => written c (at_ n tr)) = upd (fun n c => written c (at_ n tr)) n
            fun c => written c (at_ n tr) ++ wrote ⟨none, none⟩ c :=
          upd_id _ _ _ (funext fun c => by simp [wrote])
      simp only [possible] at hp
      simp only [carry]
      cases hq : s.peer n c with
      | none =>
        rw [hq] at hp
        exact linked_next (s := s) rfl (ih.strange b hc hq (by simpa using hp)) (upd_id _ _ _ rfl)
          (upd_id _ _ _ rfl) hW hA
      | some w =>
        obtain ⟨m, k⟩ := w
        rw [hq] at hp
        exact linked_next (s := s) rfl (ih.arrives hq (List.isPrefixOf_iff_prefix.mp hp)) (upd_id _ _ _ rfl)
          (upd_id _ _ _ rfl) hW hA
    | shut c hc => exact quiet rfl (fun _ => rfl) (fun _ => rfl) rfl
    | wait c => exact quiet rfl (fun _ => rfl) (fun _ => rfl) rfl
    | broken c a y o ha he =>
      rcases conns_kind (Ep.move_of_step he) with ⟨a', rfl, hc, hx, hadr⟩ | ⟨ho, hc, hadr⟩
      · cases Ep.move_of_step he
      · exact quiet hc hadr (fun _ => rfl) rfl
    | read c k y o hp he =>
      rcases conns_kind (Ep.move_of_step he) with ⟨a', rfl, hc, hx, hadr⟩ | ⟨ho, hc, hadr⟩
      · cases Ep.move_of_step he
      · exact quiet hc hadr (fun _ => rfl) rfl
    | taken c a b w hb hw => exact writes _ rfl (fun _ => rfl)
    | done c a b w y o hb hw he =>
      rcases conns_kind (Ep.move_of_step he) with ⟨a', rfl, hc, hx, hadr⟩ | ⟨ho, hc, hadr⟩
      · cases Ep.move_of_step he
      · exact writes _ hc hadr
    | failed c a b b' w y o hb hw he =>
      rcases conns_kind (Ep.move_of_step he) with ⟨a', rfl, hc, hx, hadr⟩ | ⟨ho, hc, hadr⟩
      · cases Ep.move_of_step he
      · exact writes _ hc hadr

/-- Connected ends stay connected. -/
theorem peer_kept {own : Addr → Bool} {tr : Trace} {s s' : State} {x : Action} {o : TcpNode.Obs}
    (e : Exec (step own) init tr s) (hs : step own s x = some (s', o)) {n m : Addr} {c d : Nat}
    (h : s.peer n c = some (m, d)) : s'.peer n c = some (m, d) := by
  have hl := linked e
  obtain ⟨n', x, d'⟩ := x
  obtain ⟨-, hp, t, ht, rfl⟩ := step_inv hs
  dsimp only at hp ht ⊢
  cases TcpNode.move_of_step ht with
  | app x y o h1 h2 he =>
    rcases conns_kind (Ep.move_of_step he) with ⟨a, rfl, hc, hx, hadr⟩ | ⟨ho, hc, hadr⟩
    · have links : ∀ b, (b, d') ∈ s.backlog n' ∨ (b, d') = (n', (s.nodes n').ep.connCount) →
          (link s n' (s.nodes n').ep.connCount b d').peer n c = some (m, d) := by
        intro b hb
        have h4 := hl.addr _ _ _ _ h
        simp only [link, set_apply]
        rw [if_neg, if_neg]
        · exact h
        · rintro ⟨rfl, rfl⟩; exact absurd h4.1 (Nat.lt_irrefl _)
        · rintro ⟨rfl, rfl⟩
          rcases hb with hb | hb
          · rw [(hl.wait _ _ _ hb).1] at h; cases h
          · cases hb; exact absurd h4.1 (Nat.lt_irrefl _)
      by_cases hacc : ∃ l b, x = .accept l b
      · obtain ⟨l, b, rfl⟩ := hacc
        simp only [carry]
        simp only [possible, Bool.or_eq_true, Bool.not_eq_true', List.contains_iff_mem] at hp
        by_cases ho : own b = true
        · rw [if_pos ho]
          exact links b (.inl (hp.resolve_left (by simp [ho])))
        · rw [if_neg ho]; exact h
      · rw [carry_connect hacc]
        split
        · split
          · rename_i ho hl
            rw [Bool.or_eq_true, List.contains_iff_mem, beq_iff_eq] at hl
            exact links a hl
          · exact h
        · exact h
    · rw [carry_quiet ho]; exact h
  | arrive c' b hc hf =>
    simp only [carry]
    split <;> exact h
  | _ => exact h

theorem peer_stays {own : Addr → Bool} {t u : Trace} {s s' : State}
    (e : Exec (step own) init t s) (e' : Exec (step own) s u s') {n m : Addr} {c d : Nat}
    (h : s.peer n c = some (m, d)) : s'.peer n c = some (m, d) := by
  induction e' with
  | nil => exact h
  | @snoc u s1 s2 x o e1 hs ih => exact peer_kept (e.append e1) hs ih

/-- A message accepted on a connection to an address was sent to that address. -/
theorem accepted_sentTo {dg : Bool} {tr : Spec.Ep.Trace} {s : Ep.State}
    (e : Exec (Ep.step dg) Ep.init tr s) {c : Nat} {a : Addr} {m : Msg}
    (hm : m ∈ Spec.Ep.accepted c tr) (h : Spec.Ep.Shown tr (.opened c a)) : Spec.Net.SentTo tr a m := by
  simp only [Spec.Ep.accepted, List.mem_filterMap] at hm
  obtain ⟨⟨x, o⟩, hx, ho⟩ := hm
  cases o <;> simp only [reduceCtorEq] at ho
  rename_i d m'
  split at ho
  · rename_i hd
    subst hd
    cases ho
    have uniq : ∀ a', Spec.Ep.Shown tr (.opened d a') → a' = a := fun a' h' =>
      (Ep.opened_addr e h').2.symm.trans (Ep.opened_addr e h).2
    obtain ⟨t, u, htu⟩ := List.append_of_mem hx
    have eE' := e
    rw [htu, List.append_cons] at eE'
    obtain ⟨s1, e1, _⟩ := eE'.split
    rcases C73_asked e1 with ⟨k, rfl⟩ | ⟨p, rfl⟩
    · obtain ⟨a', h4, h5⟩ := C73_stub e1
      obtain rfl := uniq a' (by rw [htu]; exact h5.mono _)
      exact .inl ⟨t, u, k, d, htu, h4⟩
    · obtain ⟨_, i, id, a', h4, h5⟩ := C73_proxy e1
      obtain rfl := uniq a' (by rw [htu]; exact h5.mono _)
      exact .inr ⟨p, d, i, id, hx, by rw [htu]; exact h4.mono _⟩
  · cases ho

end Rsomeip.Rt.TcpNet
