import Verif.Model.Predicates
/-!
# C68: choosing a stubbing asks in order and leaves the call alone
-/
namespace FakeIt.Predicates

variable {V : Type}

/-! ## Specification -/

/-- Predicates that do not assign to the arguments, do not stub the method and do not reset the mock. They may look, call the method, clear its history, throw. -/
inductive Quiet : Code V → Prop where
  | answer (b : Bool) : Quiet (.answer b)
  | throw (e : Nat) : Quiet (.throw e)
  | look {k : List V → Code V} (h : ∀ args, Quiet (k args)) : Quiet (.look k)
  | clear {k : Code V} (h : Quiet k) : Quiet (.clear k)
  | call {args : List V} {k : Out V → Code V} (h : ∀ o, Quiet (k o)) : Quiet (.call args k)

/-- The stubbings of the method, newest first. -/
def newestFirst (s : St V) : List Hd :=
  match s.body with
  | some b => b.handlers.reverse
  | none => []

/-- What was asked on behalf of the call with this number, in order. -/
def asksOf (s : St V) (ord : Nat) : List (Ask V) := s.trace.filter (·.ord == ord)

/-- The recorded calls. -/
def recorded (s : St V) : List (Rec V) :=
  match s.body with
  | some b => b.calls
  | none => []

/-- Numbers in the history are of the past. -/
def Past (s : St V) : Prop := (∀ a ∈ s.trace, a.ord < s.next) ∧ ∀ r ∈ recorded s, r.ord < s.next

/-- What is expected of call number `ord` with arguments `args`: with the stubbings newest first, all that said no, then the one that ended the search, if any, each asked once about the caller's arguments. -/
inductive Expected (args : List V) (ord : Nat) : List Hd → List (Ask V) → Out V → Prop where
  | none : Expected args ord [] [] .unexpected
  | yes (h : Hd) (rest : List Hd) : Expected args ord (h :: rest) [⟨ord, h.id, args, .says true⟩] (.answered h.id args)
  | throws (h : Hd) (rest : List Hd) (e : Nat) : Expected args ord (h :: rest) [⟨ord, h.id, args, .threw e⟩] (.threw e)
  | no (h : Hd) {rest : List Hd} {asks : List (Ask V)} {o : Out V} (hr : Expected args ord rest asks o) : Expected args ord (h :: rest) (⟨ord, h.id, args, .says false⟩ :: asks) o

/-! ## Proof -/

/-- What quiet code leaves alone. -/
private structure Keep (s s' : St V) : Prop where
  gen : s'.gen = s.gen
  body : s'.body.map (fun b => (b.handlers, b.buf, b.cap)) = s.body.map (fun b => (b.handlers, b.buf, b.cap))
  next : s.next ≤ s'.next
  trace : ∃ t, s'.trace = s.trace ++ t ∧ ∀ a ∈ t, s.next ≤ a.ord ∧ a.ord < s'.next
  calls : ∀ r ∈ recorded s', r ∈ recorded s ∨ (s.next ≤ r.ord ∧ r.ord < s'.next)

private theorem Keep.rfl' (s : St V) : Keep s s := ⟨rfl, rfl, Nat.le_refl _, ⟨[], by simp, by simp⟩, fun _ h => .inl h⟩

private theorem Keep.trans {s s' s'' : St V} (h : Keep s s') (h' : Keep s' s'') : Keep s s'' := by
  obtain ⟨t, ht, hto⟩ := h.trace
  obtain ⟨t', ht', hto'⟩ := h'.trace
  refine ⟨h'.gen.trans h.gen, h'.body.trans h.body, Nat.le_trans h.next h'.next, ⟨t ++ t', by rw [ht', ht, List.append_assoc], fun a ha => ?_⟩, fun r hr => ?_⟩
  · have := h.next
    have := h'.next
    rcases List.mem_append.mp ha with ha | ha
    · have := hto a ha; omega
    · have := hto' a ha; omega
  · have := h.next
    have := h'.next
    rcases h'.calls r hr with hr | hr
    · rcases h.calls r hr with hr | hr
      · exact .inl hr
      · right; omega
    · right; omega

private theorem keep_clear (s : St V) : Keep s s.clear := by
  refine ⟨rfl, ?_, Nat.le_refl _, ⟨[], by simp [St.clear], by simp⟩, fun r hr => ?_⟩
  · cases hb : s.body <;> simp [St.clear, hb]
  · cases hb : s.body <;> simp [St.clear, hb, recorded] at hr

/-- Calls that keep. -/
private def CallKeeps (c : List V → St V → R (St V × Out V)) : Prop := ∀ args s, c args s ≠ .ub ∧ ∀ s' o, c args s = .done (s', o) → Keep s s'

private theorem exec_keeps {c : List V → St V → R (St V × Out V)} (hc : CallKeeps c) {k : Code V} (hk : Quiet k) : ∀ (args : List V) (s : St V),
    exec c k args s ≠ .ub ∧ ∀ s' args' r, exec c k args s = .done (s', args', r) → Keep s s' ∧ args' = args := by
  induction hk with
  | answer b => exact fun args s => ⟨by simp [exec], fun s' args' r h => by cases h; exact ⟨.rfl' _, rfl⟩⟩
  | throw e => exact fun args s => ⟨by simp [exec], fun s' args' r h => by cases h; exact ⟨.rfl' _, rfl⟩⟩
  | look h ih => exact fun args s => ih args args s
  | clear h ih =>
    intro args s
    obtain ⟨h1, h2⟩ := ih args s.clear
    exact ⟨h1, fun s' args' r h => ⟨(keep_clear s).trans (h2 s' args' r h).1, (h2 s' args' r h).2⟩⟩
  | call h ih =>
    rename_i as k
    intro args s
    obtain ⟨h1, h2⟩ := hc as s
    simp only [exec]
    cases hr : c as s with
    | ub => exact absurd hr h1
    | oof => simp
    | done x =>
      obtain ⟨s1, o⟩ := x
      obtain ⟨h3, h4⟩ := ih o args s1
      simp only [R.bind_done]
      exact ⟨h3, fun s' args' r hd => ⟨(h2 s1 o hr).trans (h4 s' args' r hd).1, (h4 s' args' r hd).2⟩⟩

private theorem valid_of_keep {s s' : St V} {b : Body V} (hb : s.body = some b) (h : Keep s s') (n : Nat) : valid s.gen b.buf b.handlers.length n s' = true := by
  have hbody := h.body
  rw [hb] at hbody
  cases hb' : s'.body with
  | none => rw [hb'] at hbody; cases hbody
  | some b' =>
    rw [hb'] at hbody
    simp only [Option.map_some, Option.some.injEq, Prod.mk.injEq] at hbody
    simp [valid, hb', h.gen, hbody.1, hbody.2.1]

/-- The result of the search, as the end of a call. -/
private def outOf (args : List V) : Found → Out V
  | .handler h => .answered h.id args
  | .none => .unexpected
  | .threw e => .threw e

private theorem scan_spec {P : Nat → Code V} {c : List V → St V → R (St V × Out V)} (hc : CallKeeps c) (hP : ∀ p, Quiet (P p)) {s0 : St V} {b : Body V} (hb : s0.body = some b) (args : List V) :
    ∀ (n : Nat) (s : St V), n ≤ b.handlers.length → Keep s0 s → s0.next < s.next →
      scan P c s0.gen b.buf b.handlers.length s0.next n args s ≠ .ub ∧ ∀ s' args' f, scan P c s0.gen b.buf b.handlers.length s0.next n args s = .done (s', args', f) →
        args' = args ∧ Keep s0 s' ∧ s0.next < s'.next ∧ (∀ r ∈ recorded s', r ∈ recorded s ∨ s.next ≤ r.ord) ∧
        ∃ t, s'.trace = s.trace ++ t ∧ Expected args s0.next (b.handlers.take n).reverse (t.filter (·.ord == s0.next)) (outOf args f)
  | 0, s, _, hk, hlt => by
    refine ⟨by simp [scan], fun s' args' f h => ?_⟩
    cases h
    exact ⟨rfl, hk, hlt, fun r hr => .inl hr, [], by simp, by simpa [outOf] using Expected.none⟩
  | n + 1, s, hn, hk, hlt => by
    have hbody := hk.body
    rw [hb] at hbody
    cases hb' : s.body with
    | none => rw [hb'] at hbody; cases hbody
    | some b' =>
      rw [hb'] at hbody
      simp only [Option.map_some, Option.some.injEq, Prod.mk.injEq] at hbody
      have hget : b'.handlers[n]? = some b.handlers[n] := by rw [hbody.1]; exact List.getElem?_eq_getElem (by omega)
      have htake : (b.handlers.take (n + 1)).reverse = b.handlers[n] :: (b.handlers.take n).reverse := by
        rw [List.take_succ_eq_append_getElem (by omega), List.reverse_append]; rfl
      simp only [scan, hb', R.ofOption_some, R.bind_done, hget]
      obtain ⟨h1, h2⟩ := exec_keeps hc (hP b.handlers[n].pred) args s
      cases hr : exec c (P b.handlers[n].pred) args s with
      | ub => exact absurd hr h1
      | oof => simp
      | done x =>
        obtain ⟨s1, args1, r⟩ := x
        obtain ⟨hk1, rfl⟩ := h2 s1 args1 r hr
        obtain ⟨t1, ht1, hto1⟩ := hk1.trace
        have hk2 : Keep s0 { s1 with trace := s1.trace ++ [⟨s0.next, b.handlers[n].id, args1, r⟩] } := by
          have hkk := hk.trans hk1
          obtain ⟨t, ht, hto⟩ := hkk.trace
          refine ⟨hkk.gen, hkk.body, hkk.next, ⟨t ++ [⟨s0.next, b.handlers[n].id, args1, r⟩], by simp [ht], fun a ha => ?_⟩, hkk.calls⟩
          rcases List.mem_append.mp ha with ha | ha
          · exact hto a ha
          · rw [List.mem_singleton.mp ha]
            exact ⟨Nat.le_refl _, Nat.lt_of_lt_of_le hlt hk1.next⟩
        have hlt2 : s0.next < s1.next := Nat.lt_of_lt_of_le hlt hk1.next
        have hf1 : t1.filter (·.ord == s0.next) = [] := by
          rw [List.filter_eq_nil_iff]
          intro a ha
          have := hto1 a ha
          simp only [beq_iff_eq]
          omega
        have hcalls : ∀ r ∈ recorded s1, r ∈ recorded s ∨ s.next ≤ r.ord := fun r hr => (hk1.calls r hr).imp id (·.1)
        have hlast : (t1 ++ [(⟨s0.next, b.handlers[n].id, args1, r⟩ : Ask V)]).filter (·.ord == s0.next) = [⟨s0.next, b.handlers[n].id, args1, r⟩] := by
          rw [List.filter_append, hf1]; simp
        simp only [R.bind_done]
        cases r with
        | threw e =>
          refine ⟨by simp, fun s' args' f h => ?_⟩
          cases h
          refine ⟨rfl, hk2, hlt2, hcalls, t1 ++ [⟨s0.next, b.handlers[n].id, args1, .threw e⟩], by simp [ht1], ?_⟩
          rw [hlast, htake]
          exact .throws _ _ _
        | says a =>
          cases a with
          | true =>
            refine ⟨by simp, fun s' args' f h => ?_⟩
            cases h
            refine ⟨rfl, hk2, hlt2, hcalls, t1 ++ [⟨s0.next, b.handlers[n].id, args1, .says true⟩], by simp [ht1], ?_⟩
            rw [hlast, htake]
            exact .yes _ _
          | false =>
            have hv := valid_of_keep hb hk2 (n + 1)
            simp only [hv, if_true]
            obtain ⟨h3, h4⟩ := scan_spec hc hP hb args1 n _ (by omega) hk2 hlt2
            refine ⟨h3, fun s' args' f h => ?_⟩
            obtain ⟨e1, e2, e3, e4, t, e5, e6⟩ := h4 s' args' f h
            refine ⟨e1, e2, e3, fun r hr => ?_, t1 ++ [⟨s0.next, b.handlers[n].id, args1, .says false⟩] ++ t, by rw [e5]; simp [ht1], ?_⟩
            · rcases e4 r hr with hr | hr
              · exact hcalls r hr
              · right; have := hk1.next; simp only at hr; omega
            · rw [List.filter_append, hlast, htake]
              exact .no _ e6

private theorem call_spec {P : Nat → Code V} (hP : ∀ p, Quiet (P p)) : ∀ (fuel : Nat) (args : List V) (s : St V),
    call P fuel args s ≠ .ub ∧ ∀ s' o, call P fuel args s = .done (s', o) → Keep s s' ∧
      (∀ b, s.body = some b → ∃ t, s'.trace = s.trace ++ t ∧ Expected args s.next (newestFirst s) (t.filter (·.ord == s.next)) o ∧
        ((∃ pre h, recorded s' = pre ++ [⟨s.next, args, h⟩] ∧ o = .answered h args ∧ ∀ r ∈ pre, r ∈ recorded s ∨ s.next < r.ord) ∨
          ((∀ h as, o ≠ .answered h as) ∧ ∀ r ∈ recorded s', r ∈ recorded s ∨ s.next < r.ord)))
  | 0, args, s => ⟨by simp [call], fun s' o h => by cases h⟩
  | fuel + 1, args, s => by
    have hc : CallKeeps (call P fuel) := fun args s => ⟨(call_spec hP fuel args s).1, fun s' o h => ((call_spec hP fuel args s).2 s' o h).1⟩
    cases hb : s.body with
    | none =>
      refine ⟨by simp [call, hb], fun s' o h => ?_⟩
      simp only [call, hb] at h
      cases h
      exact ⟨⟨rfl, by rw [hb], Nat.le_succ _, ⟨[], by simp, by simp⟩, fun r hr => by simp [recorded] at hr⟩, fun b h => by cases h⟩
    | some b =>
      have hk0 : Keep s { s with next := s.next + 1 } := ⟨rfl, rfl, Nat.le_succ _, ⟨[], by simp, by simp⟩, fun r hr => .inl hr⟩
      obtain ⟨h1, h2⟩ := scan_spec hc hP hb args b.handlers.length _ (Nat.le_refl _) hk0 (Nat.lt_succ_self _)
      have hrs : recorded { s with next := s.next + 1 } = recorded s := rfl
      simp only [hrs] at h2
      simp only [hb] at h1 h2
      simp only [call, hb]
      cases hr : scan P (call P fuel) s.gen b.buf b.handlers.length s.next b.handlers.length args ⟨some b, s.gen, s.next + 1, s.names, s.trace⟩ with
      | ub => exact absurd hr h1
      | oof => simp
      | done x =>
        obtain ⟨s1, args1, f⟩ := x
        obtain ⟨rfl, hk1, hlt, hcalls, t, ht, hex⟩ := h2 s1 args1 f hr
        rw [List.take_length] at hex
        have hnf : newestFirst s = b.handlers.reverse := by simp [newestFirst, hb]
        simp only [R.bind_done]
        have hcalls' : ∀ r ∈ recorded s1, r ∈ recorded s ∨ s.next < r.ord := fun r hr => (hcalls r hr).imp id (fun h => Nat.lt_of_succ_le h)
        cases f with
        | threw e =>
          refine ⟨by simp, fun s' o h => ?_⟩
          cases h
          exact ⟨hk1, fun b' _ => ⟨t, ht, by rw [hnf]; exact hex, .inr ⟨by simp, hcalls'⟩⟩⟩
        | none =>
          refine ⟨by simp, fun s' o h => ?_⟩
          cases h
          exact ⟨hk1, fun b' _ => ⟨t, ht, by rw [hnf]; exact hex, .inr ⟨by simp, hcalls'⟩⟩⟩
        | handler hd =>
          have hbody := hk1.body
          rw [hb] at hbody
          cases hb1 : s1.body with
          | none => rw [hb1] at hbody; cases hbody
          | some b1 =>
            have hrec : recorded s1 = b1.calls := by simp [recorded, hb1]
            simp only [hk1.gen, if_true, R.ofOption_some, R.bind_done]
            refine ⟨by simp, fun s' o h => ?_⟩
            cases h
            refine ⟨⟨rfl, ?_, hk1.next, hk1.trace, fun r hr => ?_⟩, fun b' _ => ⟨t, ht, by rw [hnf]; exact hex, .inl ⟨b1.calls, hd.id, by simp [recorded], rfl, by rw [← hrec]; exact hcalls'⟩⟩⟩
            · rw [← hk1.body, hb1]; rfl
            · simp only [recorded] at hr
              rcases List.mem_append.mp hr with hr | hr
              · rw [← hrec] at hr; exact hk1.calls r hr
              · rw [List.mem_singleton.mp hr]
                exact .inr ⟨Nat.le_refl _, hlt⟩

/-! ## The property -/

/-- **C68** (partial: for predicates that do not assign, stub or reset; whatever else they do, calls of the same method included). Choosing a stubbing asks the predicates newest first, each once, none after
the first that accepts or throws, all about the arguments the caller passed; the stubbing that accepts answers with these arguments; an exception of a predicate reaches the caller; only answered
calls are recorded, with the caller's arguments; the stubbings are as before. -/
theorem C68_choosing_asks_in_order_and_leaves_the_call_alone_partial {P : Nat → Code V} (hP : ∀ p, Quiet (P p)) (fuel : Nat) (args : List V) {s : St V} (hs : Past s) :
    call P fuel args s ≠ .ub ∧ ∀ s' o, call P fuel args s = .done (s', o) →
      newestFirst s' = newestFirst s ∧ Past s' ∧
      (s.body ≠ none → Expected args s.next (newestFirst s) (asksOf s' s.next) o ∧
        (∀ h as, o = .answered h as → (recorded s').getLast? = some ⟨s.next, args, h⟩) ∧
        (∀ r ∈ recorded s', r.ord = s.next → ∃ h, o = .answered h args ∧ r = ⟨s.next, args, h⟩)) ∧
      (s.body = none → o = .unmocked ∧ s'.trace = s.trace ∧ recorded s' = []) := by
  obtain ⟨h1, h2⟩ := call_spec hP fuel args s
  refine ⟨h1, fun s' o h => ?_⟩
  obtain ⟨hk, h3⟩ := h2 s' o h
  refine ⟨?_, ⟨fun a ha => ?_, fun r hr => ?_⟩, fun hb => ?_, fun hb => ?_⟩
  · have := hk.body
    cases hb : s.body <;> cases hb' : s'.body <;> simp [hb, hb'] at this
    · simp [newestFirst, hb, hb']
    · simp [newestFirst, hb, hb', this.1]
  · obtain ⟨t, ht, hto⟩ := hk.trace
    rw [ht] at ha
    rcases List.mem_append.mp ha with ha | ha
    · exact Nat.lt_of_lt_of_le (hs.1 a ha) hk.next
    · exact (hto a ha).2
  · rcases hk.calls r hr with hr | hr
    · exact Nat.lt_of_lt_of_le (hs.2 r hr) hk.next
    · exact hr.2
  · cases hb' : s.body with
    | none => exact absurd hb' hb
    | some b =>
      obtain ⟨t, ht, hex, hrec⟩ := h3 b hb'
      have hf : asksOf s' s.next = t.filter (·.ord == s.next) := by
        rw [asksOf, ht, List.filter_append]
        have : s.trace.filter (·.ord == s.next) = [] := by
          rw [List.filter_eq_nil_iff]
          intro a ha
          have := hs.1 a ha
          simp only [beq_iff_eq]
          omega
        rw [this, List.nil_append]
      rw [hf]
      refine ⟨hex, ?_, ?_⟩
      · rintro hd as rfl
        rcases hrec with ⟨pre, h', hpre, he, _⟩ | ⟨hne, _⟩
        · cases he; rw [hpre]; simp
        · exact absurd rfl (hne hd as)
      · intro r hr ho
        have past : ∀ r, r ∈ recorded s ∨ s.next < r.ord → r.ord = s.next → False := by
          rintro r (hr | hr) ho
          · have := hs.2 r hr; omega
          · omega
        rcases hrec with ⟨pre, h', hpre, he, hold⟩ | ⟨_, hold⟩
        · rw [hpre] at hr
          rcases List.mem_append.mp hr with hr | hr
          · exact (past r (hold r hr) ho).elim
          · exact ⟨h', he, List.mem_singleton.mp hr⟩
        · exact (past r (hold r hr) ho).elim
  · cases fuel with
    | zero => cases h
    | succ fuel =>
      simp only [call, hb] at h
      cases h
      exact ⟨rfl, rfl, by simp [recorded]⟩

/-- Nothing stubbed, nothing called. -/
private def start : St Nat := ⟨none, 0, 0, 0, []⟩

/-- Predicates of the examples: 0 accepts 5, 1 accepts 6, 2 calls the method with 5 and says no, 3 throws. -/
private def preds : Nat → Code Nat
  | 0 => .look fun as => .answer (as == [5])
  | 1 => .look fun as => .answer (as == [6])
  | 2 => .look fun as => if as == [5] then .answer false else .call [5] fun _ => .answer false
  | _ => .look fun as => if as == [9] then .throw 7 else .answer false

/-- Non-triviality: these predicates are quiet. -/
example : ∀ p, Quiet (preds p)
  | 0 => .look fun _ => .answer _
  | 1 => .look fun _ => .answer _
  | 2 => .look fun as => by
    show Quiet (if _ then _ else _)
    split
    · exact .answer _
    · exact .call fun _ => .answer _
  | p + 3 => .look fun as => by
    show Quiet (if _ then _ else _)
    split
    · exact .throw _
    · exact .answer _

/-- Non-triviality: call 0 with 6 asks stubbings 3, 2 (which makes call 1 with 5), 1 (which accepts), not 0. -/
example : ∃ s', call preds 5 [6] ((((start.stub 0).stub 1).stub 2).stub 3) = .done (s', .answered 1 [6]) ∧
    asksOf s' 0 = [⟨0, 3, [6], .says false⟩, ⟨0, 2, [6], .says false⟩, ⟨0, 1, [6], .says true⟩] ∧
    asksOf s' 1 = [⟨1, 3, [5], .says false⟩, ⟨1, 2, [5], .says false⟩, ⟨1, 1, [5], .says false⟩, ⟨1, 0, [5], .says true⟩] ∧
    recorded s' = [⟨1, [5], 0⟩, ⟨0, [6], 1⟩] ∧ Past ((((start.stub 0).stub 1).stub 2).stub 3) :=
  ⟨_, rfl, rfl, rfl, rfl, by constructor <;> intro _ h <;> cases h⟩

/-- What is missing: a predicate that assigns to the arguments changes what older stubbings are asked about, what the answering one gets and what is recorded, though it says no. -/
theorem C68_predicates_may_change_the_call :
    (∃ s', call (fun | 0 => .look fun as => .answer (as == [5]) | _ => .answer false) 5 [6] ((start.stub 0).stub 1) = .done (s', .unexpected)) ∧
    ∃ s', call (fun | 0 => .look fun as => .answer (as == [5]) | _ => .assign (fun _ => [5]) (.answer false)) 5 [6] ((start.stub 0).stub 1) = .done (s', .answered 0 [5]) ∧ recorded s' = [⟨0, [5], 0⟩] :=
  ⟨⟨_, rfl⟩, ⟨_, rfl, rfl⟩⟩

/-- A predicate that stubs the same method and then says no makes the call undefined: the search goes on with an iterator of the old array. If it says yes, the call is answered. -/
theorem C68_predicates_cannot_stub :
    call (fun | 0 => .answer true | _ => .stub 0 (.answer false)) 5 [6] ((start.stub 0).stub 1) = .ub ∧
    ∃ s', call (fun | 0 => .answer true | _ => .stub 0 (.answer true)) 5 [6] ((start.stub 0).stub 1) = .done (s', .answered 1 [6]) :=
  ⟨rfl, ⟨_, rfl⟩⟩

/-- Whether a predicate other than the first that is asked may stub the method depends on the room left in the array of stubbings: with two stubbings there is none and the call is undefined, with three there is
and the call is answered by an older stubbing (as if nothing had been stubbed). -/
theorem C68_stubbing_during_the_search_depends_on_room :
    call (fun | 0 => .stub 2 (.answer false) | _ => .answer false) 5 [6] ((start.stub 0).stub 1) = .ub ∧
    ∃ s', call (fun | 0 => .answer true | 1 => .stub 2 (.answer false) | _ => .answer false) 5 [6] (((start.stub 0).stub 1).stub 2) = .done (s', .answered 0 [6]) ∧
      (newestFirst s').length = 4 :=
  ⟨rfl, ⟨_, rfl, rfl⟩⟩

theorem exec_stubs {V : Type} (call : List V → St V → R (St V × Out V)) (b : Bool) (args : List V) : ∀ (ps : List Nat) (s : St V),
    ∃ s', exec call (ps.foldr .stub (.answer b)) args s = .done (s', args, .says b) ∧ s'.gen = s.gen
  | [], s => ⟨s, rfl, rfl⟩
  | p :: ps, s => by
    obtain ⟨s', h1, h2⟩ := exec_stubs call b args ps (s.stub p)
    exact ⟨s', h1, h2⟩

/-- If the newest stubbing's predicate resets the mock, the call is undefined whatever the predicate says and whatever it stubs again in between. -/
theorem C68_predicates_cannot_reset {V : Type} {P : Nat → Code V} {s : St V} {body : Body V} {h : Hd} {hs : List Hd} (hb : s.body = some body) (hh : body.handlers = hs ++ [h]) (ps : List Nat) (b : Bool)
    (hP : P h.pred = .reset (ps.foldr .stub (.answer b))) (fuel : Nat) (args : List V) : call P (fuel + 1) args s = .ub := by
  obtain ⟨s', h1, h2⟩ := exec_stubs (call P fuel) b args ps (St.reset { s with next := s.next + 1 })
  have hgen : s'.gen = s.gen + 1 := h2
  have hex : exec (call P fuel) (P h.pred) args { s with next := s.next + 1 } = .done (s', args, .says b) := by
    rw [hP]; exact h1
  have hget : body.handlers[hs.length]? = some h := by simp [hh]
  have hlen : body.handlers.length = hs.length + 1 := by simp [hh]
  have hne : ¬ s.gen + 1 = s.gen := by omega
  simp only [call, hb, hlen, scan, hget, R.ofOption, R.bind_done]
  rw [hb] at hex
  rw [hex]
  simp only [R.bind_done]
  cases b with
  | true => simp only [R.bind_done, hgen, hne, if_false]
  | false =>
    have hv : ∀ t : List (Ask V), valid s.gen body.buf (hs.length + 1) (hs.length + 1) { s' with trace := t } = false := by
      intro t
      unfold valid
      split <;> simp [hgen]
    simp only [hv, Bool.false_eq_true, if_false]
    rfl

example : call (fun _ => .reset (.stub 0 (.stub 1 (.answer true)))) 5 [6] ((start.stub 0).stub 1) = .ub := rfl

/-- Throwing after a reset is fine. -/
theorem C68_predicates_may_reset_and_throw : ∃ s', call (fun _ => .reset (.throw 3)) 5 [6] (start.stub 0) = .done (s', .threw 3) :=
  ⟨_, rfl⟩

end FakeIt.Predicates
