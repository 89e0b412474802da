import Verif.Lemmas.Handlers
import Verif.Props.Events
/-!
# C81: events inside of events
-/
namespace FakeIt.Handlers
open FakeIt.Spec.Handlers
variable {Ev X : Type}

/-- **C81**, for deliveries that are not undefined (see `C81_registering_inside_is_undefined`): whatever the handlers do (cause further events, change the settings, throw), an event is delivered
as specified, and every delivery the specification allows happens. -/
theorem C81_events_are_delivered_partial (react : Nat → Ev → Code Ev X) (d : Nat) (e : Ev) (c : Ctx) (x : Option X) (log : List (Note Ev)) (ls : List Nat) (a f : Option Nat) :
    (∃ fuel c', handle react fuel d e c = .done (x, c', log) ∧ c'.listeners = ls ∧ c'.custom = a ∧ c'.customFormatter = f) ↔
      Delivers react c.builtin c.builtinFormatter d e ⟨c.listeners, c.custom, c.customFormatter⟩ log x ⟨ls, a, f⟩ := by
  constructor
  · rintro ⟨fuel, c', h, rfl, rfl, rfl⟩
    exact (handle_good react fuel d e c x c' log h).2
  · intro h
    obtain ⟨n, c', h1, h2⟩ := delivers_complete h c rfl rfl rfl
    cases c'
    cases h2
    exact ⟨n, _, h1, rfl, rfl, rfl⟩

/-- The bound on the nesting does not matter: any two that suffice give the same. -/
theorem C81_delivery_does_not_depend_on_the_bound (react : Nat → Ev → Code Ev X) (d : Nat) (e : Ev) (c : Ctx) (n m : Nat) (r r' : Option X × Ctx × List (Note Ev))
    (h : handle react n d e c = .done r) (h' : handle react m d e c = .done r') : r = r' := by
  have h1 := handle_mono react (Nat.le_max_left n m) d e c r h
  have h2 := handle_mono react (Nat.le_max_right n m) d e c r' h'
  exact R.done.inj (h1.symm.trans h2)

private theorem lastAdapter_append (a : Option Nat) (l₁ l₂ : List (Note Ev)) : lastAdapter a (l₁ ++ l₂) = lastAdapter (lastAdapter a l₁) l₂ := by
  induction l₁ generalizing a with
  | nil => rfl
  | cons n l ih =>
    cases n with
    | told => exact ih a
    | did o => cases o <;> exact ih _

private theorem lastFormatter_append (a : Option Nat) (l₁ l₂ : List (Note Ev)) : lastFormatter a (l₁ ++ l₂) = lastFormatter (lastFormatter a l₁) l₂ := by
  induction l₁ generalizing a with
  | nil => rfl
  | cons n l ih =>
    cases n with
    | told => exact ih a
    | did o => cases o <;> exact ih _

section
variable {react : Nat → Ev → Code Ev X} {a f : Nat}

/-- What the log says about the settings, and how deep it goes. -/
private structure Told' (d : Nat) (s : Settings) (log : List (Note Ev)) (s' : Settings) : Prop where
  adapter : s'.adapter = lastAdapter s.adapter log
  formatter : s'.formatter = lastFormatter s.formatter log
  deep : ∀ d' w e, .told d' w e ∈ log → d ≤ d'

private theorem Told'.append {d s log s' log' s''} (h : Told' d s log s') (h' : Told' (Ev := Ev) d s' log' s'') : Told' d s (log ++ log') s'' :=
  ⟨by rw [lastAdapter_append, ← h.adapter, h'.adapter], by rw [lastFormatter_append, ← h.formatter, h'.formatter],
    fun d' w e hm => (List.mem_append.1 hm).elim (h.deep d' w e) (h'.deep d' w e)⟩

private theorem Told'.told {d s log s'} (h : Told' (d + 1) s log s') (w : Told) (e : Ev) : Told' d s (.told d w e :: log) s' :=
  ⟨h.adapter, h.formatter, fun d' w' e' hm => by
    rcases List.mem_cons.1 hm with h1 | h1
    · cases h1; exact Nat.le_refl _
    · exact Nat.le_of_succ_le (h.deep d' w' e' h1)⟩

mutual
private theorem runs_told {d k s log x s'} (h : Runs react a f d k s log x s') : Told' d s log s' := by
  match h with
  | .done => exact ⟨rfl, rfl, nofun⟩
  | .throw => exact ⟨rfl, rfl, nofun⟩
  | .op (o := o) h =>
    have h1 := runs_told h
    refine ⟨h1.adapter.trans ?_, h1.formatter.trans ?_, fun d' w e hm => h1.deep d' w e (by simpa using hm)⟩ <;> cases o <;> rfl
  | .format h => exact runs_told h
  | .fire hd h => exact (delivers_told hd).append (runs_told h)

private theorem delivers_told {d e s log x s'} (h : Delivers react a f d e s log x s') : Told' d s log s' := by
  match h with
  | .all ht h => exact (tells_told ht).append ((runs_told h).told ..)
  | .cut _ ht h => exact (tells_told ht).append ((runs_told h).told ..)

private theorem tells_told {d e ls s log s'} (h : Tells react a f d e ls s log s') : Told' d s log s' := by
  match h with
  | .nil => exact ⟨rfl, rfl, nofun⟩
  | .cons hr _ ht => exact ((runs_told hr).told ..).append (tells_told ht)
end

private theorem nested_one {d k s log x s'} (h : Runs react a f (d + 1) k s log x s') (e : Ev) (w : Told) : Nested d e [w] (.told d w e :: log) := by
  have := Nested.cons (d := d) (e := e) (w := w) (fun d' w' e' hm => (runs_told h).deep d' w' e' hm) .nil
  rw [List.append_nil] at this
  exact this

private theorem tells_nested {d e ls s log s'} (h : Tells react a f d e ls s log s') : Nested d e (ls.map Told.listener) log ∧ Unregistered log := by
  induction ls generalizing s log with
  | nil => cases h; exact ⟨.nil, unregistered_nil⟩
  | cons l ls ih =>
    cases h with
    | cons hr hu ht =>
      refine ⟨.cons (fun d' w' e' hm => (runs_told hr).deep d' w' e' hm) (ih ht).1, ?_⟩
      rw [List.cons_append, unregistered_told, unregistered_append]
      exact ⟨hu, (ih ht).2⟩

end

/-- If delivery ends without an exception then everybody who was registered when it began was told, in order, then the adapter last set before that; whatever else was told meanwhile, was told of
events further inside; and nobody registered or cleared listeners before the adapter was told. -/
theorem C81_everybody_is_told (react : Nat → Ev → Code Ev X) (fuel d : Nat) (e : Ev) (c c' : Ctx) (log : List (Note Ev)) (h : handle react fuel d e c = .done (none, c', log)) :
    ∃ before after, log = before ++ after ∧ Nested d e (c.listeners.map Told.listener) before ∧ Unregistered before ∧
      Nested d e [.adapter ((lastAdapter c.custom before).getD c.builtin)] after := by
  have hd := (handle_good react fuel d e c none c' log h).2
  cases hd with
  | all ht hr =>
    refine ⟨_, _, rfl, (tells_nested ht).1, (tells_nested ht).2, ?_⟩
    have ha : lastAdapter c.custom _ = _ := (tells_told ht).adapter.symm
    rw [ha]
    exact nested_one hr ..

/-- If delivery ends with an exception, then some listener or the adapter threw it: everybody registered before was told, nobody after. -/
theorem C81_nobody_is_told_after_an_exception (react : Nat → Ev → Code Ev X) (fuel d : Nat) (e : Ev) (c c' : Ctx) (x : X) (log : List (Note Ev))
    (h : handle react fuel d e c = .done (some x, c', log)) :
    (∃ before after, log = before ++ after ∧ Nested d e (c.listeners.map Told.listener) before ∧ Nested d e [.adapter ((lastAdapter c.custom before).getD c.builtin)] after) ∨
    ∃ pre l post, c.listeners = pre ++ l :: post ∧ Nested d e ((pre ++ [l]).map Told.listener) log := by
  have hd := (handle_good react fuel d e c _ c' log h).2
  cases hd with
  | all ht hr =>
    refine Or.inl ⟨_, _, rfl, (tells_nested ht).1, ?_⟩
    have ha : lastAdapter c.custom _ = _ := (tells_told ht).adapter.symm
    rw [ha]
    exact nested_one hr ..
  | @cut _ _ _ pre l post log₁ _ log₂ _ _ hl ht hr =>
    refine Or.inr ⟨pre, l, post, hl, ?_⟩
    have key : ∀ (ws : List Told) (log : List (Note Ev)), Nested d e ws log → Nested d e (ws ++ [.listener l]) (log ++ .told d (.listener l) e :: log₂) := by
      intro ws log hn
      induction hn with
      | nil => exact nested_one hr ..
      | cons hi _ ih =>
        rw [List.append_assoc]
        exact .cons hi ih
    rw [List.map_append]
    exact key _ _ (tells_nested ht).1

/-- Settings made by handlers last: afterwards they are as the log says. -/
theorem C81_settings_last (react : Nat → Ev → Code Ev X) (fuel d : Nat) (e : Ev) (c c' : Ctx) (x : Option X) (log : List (Note Ev)) (h : handle react fuel d e c = .done (x, c', log)) :
    c'.custom = lastAdapter c.custom log ∧ c'.customFormatter = lastFormatter c.customFormatter log ∧ c'.builtin = c.builtin ∧ c'.builtinFormatter = c.builtinFormatter ∧
      (Unregistered log → c'.listeners = c.listeners) :=
  have hg := handle_good react fuel d e c x c' log h
  have ht := delivers_told hg.2
  ⟨ht.adapter, ht.formatter, hg.1.builtin, hg.1.builtinFormatter, fun hu => hg.1.listeners (hg.1.same.2 hu)⟩

/-- An unexpected call ends with what a handler threw; otherwise with the library's own exception, whose text is by the formatter last set before, even by a handler of this very event. -/
theorem C81_unexpected_calls_throw (react : Nat → Ev → Code Ev X) (fuel : Nat) (e : Ev) (c c' : Ctx) (r : Ending X) (log : List (Note Ev)) :
    unexpectedCall react fuel e c = .done (r, c', log) ↔
      (∃ x, handle react fuel 0 e c = .done (some x, c', log) ∧ r = .thrown x) ∨
      (handle react fuel 0 e c = .done (none, c', log) ∧ r = .unexpected ((lastFormatter c.customFormatter log).getD c.builtinFormatter)) := by
  unfold unexpectedCall
  cases hh : handle react fuel 0 e c with
  | ub => simp
  | oof => simp
  | done r' =>
    obtain ⟨x, c₁, log₁⟩ := r'
    have hs := C81_settings_last react fuel 0 e c c₁ x log₁ hh
    have hf : c₁.formatter = (lastFormatter c.customFormatter log₁).getD c.builtinFormatter := by
      rw [Ctx.formatter_eq, hs.2.2.2.1, ← hs.2.1]; rfl
    cases x with
    | some x =>
      simp only [R.bind_done, R.done.injEq, Prod.mk.injEq, Option.some.injEq]
      constructor
      · rintro ⟨rfl, rfl, rfl⟩; exact Or.inl ⟨x, ⟨rfl, rfl, rfl⟩, rfl⟩
      · rintro (⟨y, ⟨rfl, rfl, rfl⟩, rfl⟩ | ⟨⟨h, _⟩, _⟩)
        · exact ⟨rfl, rfl, rfl⟩
        · cases h
    | none =>
      simp only [R.bind_done, R.done.injEq, Prod.mk.injEq, hf]
      constructor
      · rintro ⟨rfl, rfl, rfl⟩; exact Or.inr ⟨⟨trivial, rfl, rfl⟩, rfl⟩
      · rintro (⟨y, ⟨h, _⟩, _⟩ | ⟨⟨_, rfl, rfl⟩, rfl⟩)
        · cases h
        · exact ⟨rfl, rfl, rfl⟩

/-! ## When delivery is defined, and ends -/

private theorem run_quiet {hd : Ev → Ctx → R (Option X × Ctx × List (Note Ev))} (hub : ∀ e c, hd e c ≠ .ub) (hmv : ∀ e c x c' log, hd e c = .done (x, c', log) → c'.ver = c.ver)
    {k : Code Ev X} (hq : Quiet k) : ∀ c, run hd k c ≠ .ub ∧ ∀ x c' log, run hd k c = .done (x, c', log) → c'.ver = c.ver := by
  induction hq with
  | done => exact fun c => ⟨nofun, fun x c' log h => by cases h; rfl⟩
  | throw => exact fun c => ⟨nofun, fun x c' log h => by cases h; rfl⟩
  | @op o k ho _ ih =>
    intro c
    have hv : (c.apply o).ver = c.ver := by cases o <;> first | rfl | cases ho
    have hi := ih (c.apply o)
    unfold run
    cases hr : run hd k (c.apply o) with
    | ub => exact absurd hr hi.1
    | oof => exact ⟨nofun, nofun⟩
    | done r =>
      obtain ⟨x, c₁, log⟩ := r
      exact ⟨nofun, fun x' c' log' h => by cases h; exact (hi.2 _ _ _ hr).trans hv⟩
  | format _ ih => exact fun c => ih _ c
  | @fire e k _ ih =>
    intro c
    unfold run
    cases hr : hd e c with
    | ub => exact absurd hr (hub e c)
    | oof => exact ⟨nofun, nofun⟩
    | done r =>
      obtain ⟨x, c₁, log⟩ := r
      have hi := ih x c₁
      simp only [R.bind_done]
      cases hr' : run hd (k x) c₁ with
      | ub => exact absurd hr' hi.1
      | oof => exact ⟨nofun, nofun⟩
      | done r =>
        obtain ⟨y, c₂, log'⟩ := r
        exact ⟨nofun, fun x' c' log' h => by cases h; exact (hi.2 _ _ _ hr').trans (hmv _ _ _ _ _ hr)⟩

private theorem loop_quiet {tell : Nat → Ctx → R (Option X × Ctx × List (Note Ev))} (ht : ∀ l c, tell l c ≠ .ub ∧ ∀ x c' log, tell l c = .done (x, c', log) → c'.ver = c.ver)
    (d : Nat) (e : Ev) (ls : List Nat) : ∀ c, loop tell d e c.ver ls c ≠ .ub ∧ ∀ x c' log, loop tell d e c.ver ls c = .done (x, c', log) → c'.ver = c.ver := by
  induction ls with
  | nil => exact fun c => ⟨nofun, fun x c' log h => by cases h; rfl⟩
  | cons l ls ih =>
    intro c
    unfold loop
    cases hr : tell l c with
    | ub => exact absurd hr (ht l c).1
    | oof => exact ⟨nofun, nofun⟩
    | done r =>
      obtain ⟨x, c₁, log⟩ := r
      have hv := (ht l c).2 _ _ _ hr
      cases x with
      | some x => exact ⟨nofun, fun x' c' log' h => by cases h; exact hv⟩
      | none =>
        simp only [R.bind_done, hv, if_true]
        have hi := ih c₁
        rw [hv] at hi
        cases hl : loop tell d e c.ver ls c₁ with
        | ub => exact absurd hl hi.1
        | oof => exact ⟨nofun, nofun⟩
        | done r =>
          obtain ⟨y, c₂, log'⟩ := r
          exact ⟨nofun, fun x' c' log' h => by cases h; exact hi.2 _ _ _ hl⟩

private theorem handle_quiet (react : Nat → Ev → Code Ev X) (hq : ∀ h e, Quiet (react h e)) (fuel : Nat) :
    ∀ d e c, handle react fuel d e c ≠ .ub ∧ ∀ x c' log, handle react fuel d e c = .done (x, c', log) → c'.ver = c.ver := by
  induction fuel with
  | zero => exact fun d e c => ⟨nofun, nofun⟩
  | succ n ih =>
    intro d e c
    have ht : ∀ l c, run (handle react n (d + 1)) (react l e) c ≠ .ub ∧ ∀ x c' log, run (handle react n (d + 1)) (react l e) c = .done (x, c', log) → c'.ver = c.ver :=
      fun l c => run_quiet (fun e c => (ih (d + 1) e c).1) (fun e c => (ih (d + 1) e c).2) (hq l e) c
    have hl := loop_quiet ht d e c.listeners c
    unfold handle
    cases hr : loop (fun h c => run (handle react n (d + 1)) (react h e) c) d e c.ver c.listeners c with
    | ub => exact absurd hr hl.1
    | oof => exact ⟨nofun, nofun⟩
    | done r =>
      obtain ⟨x, c₁, log⟩ := r
      have hv := hl.2 _ _ _ hr
      cases x with
      | some x => exact ⟨nofun, fun x' c' log' h => by cases h; exact hv⟩
      | none =>
        simp only [R.bind_done, tellAdapter]
        have ha := ht c₁.adapter c₁
        cases hr' : run (handle react n (d + 1)) (react c₁.adapter e) c₁ with
        | ub => exact absurd hr' ha.1
        | oof => exact ⟨nofun, nofun⟩
        | done r =>
          obtain ⟨y, c₂, log'⟩ := r
          exact ⟨nofun, fun x' c' log' h => by cases h; exact (ha.2 _ _ _ hr').trans hv⟩

private theorem run_below {hd : Ev → Ctx → R (Option X × Ctx × List (Note Ev))} {rank : Ev → Nat} {n : Nat} (hoof : ∀ e c, rank e < n → hd e c ≠ .oof)
    {k : Code Ev X} (hb : Below rank n k) : ∀ c, run hd k c ≠ .oof := by
  induction hb with
  | done => exact fun c => nofun
  | throw => exact fun c => nofun
  | @op o k _ ih =>
    intro c
    unfold run
    cases hr : run hd k (c.apply o) with
    | oof => exact absurd hr (ih _)
    | ub => exact nofun
    | done r => exact nofun
  | format _ ih => exact fun c => ih _ c
  | @fire e k he _ ih =>
    intro c
    unfold run
    cases hr : hd e c with
    | oof => exact absurd hr (hoof e c he)
    | ub => exact nofun
    | done r =>
      obtain ⟨x, c₁, log⟩ := r
      simp only [R.bind_done]
      cases hr' : run hd (k x) c₁ with
      | oof => exact absurd hr' (ih x c₁)
      | ub => exact nofun
      | done r => exact nofun

private theorem loop_below {tell : Nat → Ctx → R (Option X × Ctx × List (Note Ev))} (ht : ∀ l c, tell l c ≠ .oof)
    (d : Nat) (e : Ev) (v : Nat) (ls : List Nat) : ∀ c, loop tell d e v ls c ≠ .oof := by
  induction ls with
  | nil => exact fun c => nofun
  | cons l ls ih =>
    intro c
    unfold loop
    cases hr : tell l c with
    | oof => exact absurd hr (ht l c)
    | ub => exact nofun
    | done r =>
      obtain ⟨x, c₁, log⟩ := r
      cases x with
      | some x => exact nofun
      | none =>
        simp only [R.bind_done]
        split
        · cases hl : loop tell d e v ls c₁ with
          | oof => exact absurd hl (ih c₁)
          | ub => exact nofun
          | done r => exact nofun
        · exact nofun

/-- Delivery ends if the handlers of an event only cause events of lower rank, for some ranking of events: so many levels suffice. -/
theorem C81_ranked_events_end (react : Nat → Ev → Code Ev X) (rank : Ev → Nat) (hb : ∀ h e, Below rank (rank e) (react h e)) (e : Ev) (d : Nat) (c : Ctx) (n : Nat) (hn : rank e < n) :
    handle react n d e c ≠ .oof := by
  induction n generalizing e d c with
  | zero => omega
  | succ n ih =>
    have ht : ∀ l c, run (handle react n (d + 1)) (react l e) c ≠ .oof := fun l c => run_below (fun e' c h => ih e' (d + 1) c (by omega)) (hb l e) c
    unfold handle
    cases hr : loop (fun h c => run (handle react n (d + 1)) (react h e) c) d e c.ver c.listeners c with
    | oof => exact absurd hr (loop_below ht d e _ _ _)
    | ub => exact nofun
    | done r =>
      obtain ⟨x, c₁, log⟩ := r
      cases x with
      | some x => exact nofun
      | none =>
        simp only [R.bind_done, tellAdapter]
        cases hr' : run (handle react n (d + 1)) (react c₁.adapter e) c₁ with
        | oof => exact absurd hr' (ht _ _)
        | ub => exact nofun
        | done r => exact nofun

/-- Delivery is defined if no handler changes who listens; together with a ranking it is complete: an event is delivered. -/
theorem C81_quiet_handlers_are_defined_partial (react : Nat → Ev → Code Ev X) (hq : ∀ h e, Quiet (react h e)) (rank : Ev → Nat) (hb : ∀ h e, Below rank (rank e) (react h e))
    (e : Ev) (d : Nat) (c : Ctx) : ∃ x c' log, handle react (rank e + 1) d e c = .done (x, c', log) ∧ c'.listeners = c.listeners := by
  cases hr : handle react (rank e + 1) d e c with
  | ub => exact absurd hr (handle_quiet react hq _ d e c).1
  | oof => exact absurd hr (C81_ranked_events_end react rank hb e d c _ (Nat.lt_succ_self _))
  | done r =>
    obtain ⟨x, c', log⟩ := r
    exact ⟨x, c', log, rfl, (handle_good react _ d e c x c' log hr).1.listeners ((handle_quiet react hq _ d e c).2 _ _ _ hr)⟩

/-- A listener that answers an event by causing the same event again (say, an unexpected call of the method whose unexpected call it is told of) never ends, however deep the nesting may be. -/
theorem C81_same_event_again_never_ends (react : Nat → Ev → Code Ev X) (e : Ev) (c : Ctx) (l : Nat) (rest : List Nat) (hl : c.listeners = l :: rest) (k : Option X → Code Ev X)
    (hk : react l e = .fire e k) (fuel d : Nat) : handle react fuel d e c = .oof := by
  induction fuel generalizing d with
  | zero => rfl
  | succ n ih => simp [handle, hl, loop, hk, run, ih]

/-- So does an adapter, if nobody listens. -/
theorem C81_same_event_again_by_the_adapter_never_ends (react : Nat → Ev → Code Ev X) (e : Ev) (c : Ctx) (hl : c.listeners = []) (k : Option X → Code Ev X)
    (hk : react (c.custom.getD c.builtin) e = .fire e k) (fuel d : Nat) : handle react fuel d e c = .oof := by
  have ha : c.adapter = c.custom.getD c.builtin := Ctx.adapter_eq c
  induction fuel generalizing d with
  | zero => rfl
  | succ n ih => simp [handle, hl, loop, tellAdapter, ha, hk, run, ih]

/-- Delivery is undefined if a listener, told of an event, changes who listens while it is told of another event that a listener of the first caused: the outer loop goes on over a vector that was
changed. So the claim of C81 without the condition is false. `e'` may even have been delivered well: here its delivery ends with an exception, which the outer listener catches. -/
theorem C81_registering_inside_is_undefined (react : Nat → Ev → Code Ev X) (e e' : Ev) (c : Ctx) (l : Nat) (rest : List Nat) (hl : c.listeners = l :: rest) (o : Op) (ho : registers o = true)
    (x : X) (hk : react l e = .fire e' fun _ => .done) (hk' : react l e' = .op o (.throw x)) (fuel d : Nat) : handle react (fuel + 2) d e c = .ub := by
  have h1 : handle react (fuel + 1) (d + 1) e' c = .done (some x, c.apply o, [.told (d + 1) (.listener l) e', .did o]) := by
    simp [handle, hl, loop, hk', run]
  have h2 : run (handle react (fuel + 1) (d + 1)) (react l e) c = .done (none, c.apply o, [.told (d + 1) (.listener l) e', .did o]) := by
    rw [hk]
    simp only [run, h1, R.bind_done, List.append_nil]
  have hv : (c.apply o).ver ≠ c.ver := by cases o <;> simp [registers, Ctx.apply] at ho ⊢
  rw [handle, hl]
  simp [loop, h2, hv]

/-- And the exact rule: nothing told after a listener that changed who listens. If somebody registered or cleared before the adapter was told, delivery did not end normally. -/
theorem C81_no_delivery_goes_on_after_registering (react : Nat → Ev → Code Ev X) (fuel d : Nat) (e : Ev) (c c' : Ctx) (x : Option X) (log : List (Note Ev))
    (h : handle react fuel d e c = .done (x, c', log)) (before after : List (Note Ev)) (w : Told) (hlog : log = before ++ .told d w e :: after) : Unregistered before := by
  have hd := (handle_good react fuel d e c x c' log h).2
  have key : ∀ (log₁ log₂ : List (Note Ev)) (w' : Told), Unregistered log₁ → (∀ d' w e', .told d' w e' ∈ log₂ → d + 1 ≤ d') →
      log₁ ++ .told d w' e :: log₂ = before ++ .told d w e :: after → Unregistered before := by
    intro log₁ log₂ w' hu hdeep heq
    have hp : before.length ≤ log₁.length := by
      refine Nat.le_of_not_lt fun hlt => ?_
      have h1 := congrArg (·[before.length]?) heq
      simp only [List.getElem?_append_right (Nat.le_refl _), Nat.sub_self, List.getElem?_cons_zero] at h1
      rw [List.getElem?_append_right (by omega)] at h1
      obtain ⟨m, hm⟩ : ∃ m, before.length - log₁.length = m + 1 := ⟨before.length - log₁.length - 1, by omega⟩
      rw [hm, List.getElem?_cons_succ] at h1
      have := hdeep d w e (List.mem_of_getElem? h1)
      omega
    intro o ho
    obtain ⟨i, hi, hg⟩ := List.getElem_of_mem ho
    have h1 := congrArg (·[i]?) heq
    simp only [List.getElem?_append_left hi] at h1
    rw [List.getElem?_append_left (by omega), List.getElem?_eq_getElem hi, hg] at h1
    exact hu o (List.mem_of_getElem? h1)
  cases hd with
  | all ht hr => exact key _ _ _ (tells_nested ht).2 (fun d' w e' => (runs_told hr).deep d' w e') hlog
  | cut _ ht hr => exact key _ _ _ (tells_nested ht).2 (fun d' w e' => (runs_told hr).deep d' w e') hlog

/-! ## The simpler model of C43 -/

/-- A handler as in C43: registrations, then maybe an exception. -/
def simple : List RegOp → Option X → Code Ev X
  | [], none => .done
  | [], some x => .throw x
  | .add l :: ops, x => .op (.add l) (simple ops x)
  | .clear :: ops, x => .op .clear (simple ops x)

/-- What C43 tells of a context. -/
def Ctx.plain (c : Ctx) : EventCtx := ⟨c.listeners, c.custom, c.builtin⟩

/-- Who was told. -/
def who : List (Note Ev) → List Told
  | [] => []
  | .told _ w _ :: log => w :: who log
  | .did _ :: log => who log

private theorem who_append (l₁ l₂ : List (Note Ev)) : who (l₁ ++ l₂) = who l₁ ++ who l₂ := by
  induction l₁ with
  | nil => rfl
  | cons n l ih => cases n <;> simp [who, ih]

private theorem run_simple (hd : Ev → Ctx → R (Option X × Ctx × List (Note Ev))) (ops : List RegOp) (x : Option X) : ∀ c : Ctx, ∃ c' log,
    run hd (simple ops x) c = .done (x, c', log) ∧ c'.plain = c.plain.regs ops ∧ who log = [] ∧ (c'.ver = c.ver ↔ ops = []) ∧ c.ver ≤ c'.ver := by
  induction ops with
  | nil => intro c; cases x <;> exact ⟨c, [], rfl, rfl, rfl, by simp, Nat.le_refl _⟩
  | cons o ops ih =>
    intro c
    cases o with
    | add l =>
      obtain ⟨c', log, h1, h2, h3, h4, h5⟩ := ih (c.apply (.add l))
      have h5 : c.ver + 1 ≤ c'.ver := h5
      exact ⟨c', .did (.add l) :: log, by simp [simple, run, h1], h2, h3, ⟨fun h => by omega, nofun⟩, by omega⟩
    | clear =>
      obtain ⟨c', log, h1, h2, h3, h4, h5⟩ := ih (c.apply .clear)
      have h5 : c.ver + 1 ≤ c'.ver := h5
      exact ⟨c', .did .clear :: log, by simp [simple, run, h1], h2, h3, ⟨fun h => by omega, nofun⟩, by omega⟩

/-- For handlers as in C43 the delivery is as C43 has it. -/
theorem C81_simple_handlers (react : Nat → Ev → Reaction X) (fuel d : Nat) (e : Ev) (c : Ctx) :
    (do let (x, c', log) ← handle (fun h e => simple (react h e).ops (react h e).throws) (fuel + 1) d e c
        R.done (x, c'.plain, who log)) = handleEvent react e c.plain := by
  have key : ∀ (ls : List Nat) (c : Ctx) (told : List Told),
      (do let (x, c', log) ← loop (fun h c => run (handle (fun h e => simple (react h e).ops (react h e).throws) fuel (d + 1)) (simple (react h e).ops (react h e).throws) c) d e c.ver ls c
          R.done (x, c'.plain, told ++ who log)) = fireEvent react e ls c.plain told := by
    intro ls
    induction ls with
    | nil => intro c told; simp [loop, fireEvent, who]
    | cons l ls ih =>
      intro c told
      obtain ⟨c', log, h1, h2, h3, h4, h5⟩ := run_simple (handle (fun h e => simple (react h e).ops (react h e).throws) fuel (d + 1)) (react l e).ops (react l e).throws c
      simp only [loop, h1, R.bind_done, fireEvent]
      cases ht : (react l e).throws with
      | some x => simp [h2, who, h3]
      | none =>
        simp only [h4]
        split
        · rename_i ho
          have hv := h4.2 ho
          rw [← h2, ← ih c' (told ++ [Told.listener l]), hv]
          cases loop (fun h c => run (handle (fun h e => simple (react h e).ops (react h e).throws) fuel (d + 1)) (simple (react h e).ops (react h e).throws) c) d e c.ver ls c' with
          | done r => simp [who, who_append, h3]
          | ub => rfl
          | oof => rfl
        · rfl
  have hk := key c.listeners c []
  unfold handleEvent
  show _ = (fireEvent react e c.listeners c.plain [] >>= _)
  rw [← hk, handle]
  cases loop (fun h c => run (handle (fun h e => simple (react h e).ops (react h e).throws) fuel (d + 1)) (simple (react h e).ops (react h e).throws) c) d e c.ver c.listeners c with
  | ub => rfl
  | oof => rfl
  | done r =>
    obtain ⟨x, c₁, log⟩ := r
    cases x with
    | some x => simp
    | none =>
      obtain ⟨c', log', h1, h2, h3, _, _⟩ :=
        run_simple (handle (fun h e => simple (react h e).ops (react h e).throws) fuel (d + 1)) (react c₁.adapter e).ops (react c₁.adapter e).throws c₁
      have ha : c₁.plain.adapter = c₁.adapter := rfl
      simp [tellAdapter, h1, h2, h3, who_append, who, ha]

namespace Demo

/-- Event 0: listener 1 calls a mocked method (event 1), is told that this failed, and sets adapter 8 and formatter 5; listener 2 returns. Event 1: everybody returns, except for adapter 7, which throws.
Adapter 8 returns. Event 2: listener 1 causes event 3, which it answers by registering listener 4 and an exception. Event 4: listener 1 causes it again. -/
def react : Nat → Nat → Code Nat String := fun h e =>
  if e = 0 ∧ h = 1 then .fire 1 fun x => if x = some "failed" then .op (.setAdapter 8) (.op (.setFormatter 5) .done) else .throw "?"
  else if e = 2 ∧ h = 1 then .fire 3 fun _ => .done
  else if e = 3 ∧ h = 1 then .op (.add 4) (.throw "oops")
  else if e = 4 ∧ h = 1 then .fire 4 fun _ => .done
  else if h = 7 then .throw "failed"
  else .done

def ctx : Ctx := { listeners := [1, 2], builtin := 7, builtinFormatter := 6 }

example : handle react 2 0 0 ctx = .done (none, { ctx with custom := some 8, customFormatter := some 5 },
    [.told 0 (.listener 1) 0, .told 1 (.listener 1) 1, .told 1 (.listener 2) 1, .told 1 (.adapter 7) 1, .did (.setAdapter 8), .did (.setFormatter 5), .told 0 (.listener 2) 0,
      .told 0 (.adapter 8) 0]) := by decide +kernel
example : ∃ c' log, unexpectedCall react 2 0 ctx = .done (.unexpected 5, c', log) := ⟨_, _, rfl⟩
example : ∃ c' log, unexpectedCall react 2 1 ctx = .done (.thrown "failed", c', log) := ⟨_, _, rfl⟩
example : handle react 2 0 2 ctx = .ub := C81_registering_inside_is_undefined react 2 3 ctx 1 [2] rfl (.add 4) rfl "oops" rfl rfl 0 0
example (fuel : Nat) : handle react fuel 0 4 ctx = .oof := C81_same_event_again_never_ends react 4 ctx 1 [2] rfl _ rfl fuel 0

/-- Handlers that neither register nor go on for ever: event `n + 1` makes listener 1 cause event `n`. -/
def counting : Nat → Nat → Code Nat String := fun h e =>
  match h, e with
  | 1, n + 1 => .fire n fun _ => .op (.setFormatter n) .done
  | _, _ => .done

example : ∀ h e, Quiet (counting h e) := by
  intro h e
  unfold counting
  split
  · exact .fire fun _ => .op rfl .done
  · exact .done
example : ∀ h e, Below (fun e => e) e (counting h e) := by
  intro h e
  unfold counting
  split
  · exact .fire (Nat.lt_succ_self _) fun _ => .op .done
  · exact .done

/-- Adapter 7 causes the event it is told of. -/
example (fuel : Nat) : handle (fun _ e => .fire e fun _ => (.done : Code Nat String)) fuel 0 3 { builtin := 7, builtinFormatter := 6 } = .oof :=
  C81_same_event_again_by_the_adapter_never_ends _ _ _ rfl _ rfl _ _

example : handle (fun h e => simple (FakeIt.Demo.react h e).ops (FakeIt.Demo.react h e).throws) 1 0 () ctx = .done (some "stop", ctx, [.told 0 (.listener 1) (), .told 0 (.listener 2) ()]) := by
  decide +kernel

end Demo
end FakeIt.Handlers
