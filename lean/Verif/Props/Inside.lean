import Verif.Lemmas.InsideGentle
/-!
# C88: event handlers may use the mocks
-/
namespace FakeIt.Inside

variable {A V X : Type}

/-! ## Specification: what can be seen -/

/-- What the test can see in the end: how it ended and what was printed. -/
def seen : R (Out A X × World A V) → R (Out A X × List (Report A))
  | .done (o, w) => .done (o, w.printed)
  | .ub => .ub
  | .oof => .oof

/-- A state some test can reach. -/
def Reachable (w : World A V) : Prop := ∃ (X : Type) (c : Config A V X) (fuel : Nat) (code : Code A V X) (o : Out A X), test c fuel code {} = .done (o, w)

theorem Reachable.rel {w : World A V} (h : Reachable w) : ∃ s : Spec.Mocks A V, Rel w s := by
  obtain ⟨X, c, fuel, code, o, h⟩ := h
  have := test_same c fuel code (fresh_rel (A := A) (V := V))
  rw [h] at this
  cases hs : Spec.test c fuel code {} with
  | done r => rw [hs] at this; cases this with | done h _ => exact ⟨_, h⟩
  | ub => rw [hs] at this; cases this
  | oof => rw [hs] at this; cases this

/-- The recorded calls of a mock (there are none if the list is empty), and the calls of a method with arguments that match. -/
def callsOf (w : World A V) (m : Nat) : List (Inv A) := w.recs.filter fun i => i.mock == m
def matching (w : World A V) (m f : Nat) (matcher : A → Bool) : Nat := (w.recs.filter fun i => i.mock == m && i.method == f && matcher i.args).length

/-! ## Theorems -/

theorem useNewest_none {a : A} {l : List (Stub A V)} (h : ∀ s, s ∈ l → s.accepts a = false) : useNewest a l = none := by
  induction l with
  | nil => rfl
  | cons x xs ih => simp only [useNewest, h x (List.mem_cons_self ..), Bool.false_eq_true, if_false, ih fun y hy => h y (List.mem_cons_of_mem _ hy), Option.map_none]

/-- **C88** (exactly): tests whose event handlers call, stub, verify, clear, reset and end mocks, format events and cause further events do what they do with mocks that are values and events that remember what they show;
they are undefined exactly when a mock is used whose life is over, or an event is formatted after the history of a mock whose calls it shows was deleted, or after the mock of the unexpected call was reset. -/
theorem C88_events_are_about_values (c : Config A V X) (fuel : Nat) (code : Code A V X) : seen (test c fuel code {}) = Spec.outcome (Spec.test c fuel code {}) := by
  have := test_same c fuel code (fresh_rel (A := A) (V := V))
  generalize test c fuel code {} = x at this
  generalize Spec.test c fuel code {} = y at this
  cases this with
  | ub => rfl
  | oof => rfl
  | done h _ => simp only [seen, Spec.outcome, h.printed]

/-- **C88** (as far as it holds): as long as neither the test nor the handlers delete anything, everything is defined: handlers may call mocked methods, stub, verify, cause further events, and format theirs whenever they like. -/
theorem C88_handlers_that_delete_nothing_partial (c : Config A V X) (hc : ∀ l k n, Spec.Gentle (c.react l k n)) (fuel : Nat) (code : Code A V X) (hg : Spec.Gentle code) : test c fuel code {} ≠ .ub := by
  intro h
  have h₁ := test_same c fuel code (fresh_rel (A := A) (V := V))
  have h₂ := Spec.run_keeps (Spec.deliver_keeps c hc fuel) hg (h := none) Spec.fresh_fine fun _ h => (nomatch h)
  rw [h] at h₁
  generalize hs : Spec.test c fuel code {} = y at h₁
  cases h₁ with
  | ub =>
    replace h₂ : Spec.Keeps {} (Spec.test c fuel code {}) := h₂
    rw [hs] at h₂; cases h₂

/-- **C88** is false: a listener that clears the history when a verification fails makes it undefined to format the event afterwards, if any calls of the mock are recorded. -/
theorem C88_clearing_spoils_the_report {w : World A V} (hw : Reachable w) (c : Config A V X) (fuel l m f n : Nat) (matcher : A → Bool) (ok : Nat → Bool) (k : Option (Exn A X) → Code A V X) (k' : Report A → Code A V X)
    (he : w.ended m = false) (hfail : ok (matching w m f matcher) = false) (hcalls : callsOf w m ≠ []) (hl : c.listeners = [l])
    (hclear : c.react l .failed w.events = .clear m .done) (hformat : c.react c.adapter .failed w.events = .format k') :
    test c (fuel + 1) (.verify m f n matcher ok k) w = .ub := by
  obtain ⟨s, hr⟩ := hw.rel
  have h₁ := test_same c (fuel + 1) (.verify m f n matcher ok k) hr
  suffices hs : Spec.test c (fuel + 1) (.verify m f n matcher ok k) s = .ub by
    rw [hs] at h₁; generalize test _ _ _ _ = x at h₁; cases h₁; rfl
  have hes : s.ended m = false := by rw [hr.ended]; exact he
  have hev : s.events = w.events := hr.events
  have hcount : (s.recs.filter fun r => r.mock == m && r.method == f && matcher r.args).length = matching w m f matcher := by
    rw [hr.recs, filter_rec (fun i : Inv A => i.mock == m && i.method == f && matcher i.args) _ _ fun _ _ => rfl, List.length_map]; rfl
  have hall : (s.recs.filter fun r => r.mock == m) = (callsOf w m).map Inv.value := by
    rw [hr.recs]; exact filter_rec _ _ _ fun _ _ => rfl
  obtain ⟨i, is, his⟩ : ∃ i is, callsOf w m = i :: is := by
    cases h : callsOf w m with
    | nil => exact absurd h hcalls
    | cons i is => exact ⟨i, is, rfl⟩
  have him : i.mock = m := by
    have : i ∈ callsOf w m := by rw [his]; exact List.mem_cons_self ..
    simpa using (List.mem_filter.1 this).2
  simp only [Spec.test, Spec.run, Spec.verifyMethod, hes, Bool.false_eq_true, if_false]
  have hp : ∀ d, (s.put m f d).recs = s.recs := fun _ => rfl
  simp only [hp, hcount, hfail, Bool.false_eq_true, if_false, hall, his, Spec.deliver, Spec.Happening.kind, hl, Spec.inTurn]
  have hpe : ∀ d, (s.put m f d).events = w.events := fun _ => hev
  have hpd : ∀ d, (s.put m f d).ended m = false := fun _ => hes
  simp only [hpe, hclear, hformat, Spec.run, hpd, Bool.false_eq_true, if_false]
  simp only [Spec.Mocks.report, Spec.Mocks.clear, hpd, Bool.false_eq_true, if_false, List.map_cons, List.take_succ_cons, Spec.Mocks.lines, Spec.Mocks.line, Spec.Mocks.show, Inv.value, him]
  simp [Spec.Mocks.put, Spec.bump]

/-- **C88** is false: a listener that resets the mock when one of its calls is unexpected makes the call undefined, although nobody else looks at the event: the library itself formats it. -/
theorem C88_resetting_spoils_the_call {w : World A V} (hw : Reachable w) (c : Config A V X) (fuel l m f : Nat) (a : A) (k : Sum V (Exn A X) → Code A V X) (b : Body A V)
    (he : w.ended m = false) (hb : w.bodies m f = some b) (hno : ∀ s, s ∈ b.stubs → s.accepts a = false) (hl : c.listeners = [l]) (hassert : c.asserting = false)
    (hreset : c.react l .unmatched w.events = .reset m .done) (hdone : c.react c.adapter .unmatched w.events = .done) :
    test c (fuel + 1) (.call m f a k) w = .ub := by
  obtain ⟨s, hr⟩ := hw.rel
  have h₁ := test_same c (fuel + 1) (.call m f a k) hr
  suffices hs : Spec.test c (fuel + 1) (.call m f a k) s = .ub by
    rw [hs] at h₁; generalize test _ _ _ _ = x at h₁; cases h₁; rfl
  have hes : s.ended m = false := by rw [hr.ended]; exact he
  have hev : s.events = w.events := hr.events
  have hu : Spec.serve a b.stubs = none := (serve_eq a b.stubs).trans (useNewest_none hno)
  simp only [Spec.test, Spec.run, Spec.callMethod, hes, Bool.false_eq_true, if_false, hr.methods, hb, Option.map_some, Body.meth, hu, Spec.unexpected, Spec.deliver, Spec.Happening.kind, hl, Spec.inTurn, hev,
    hreset, hdone, hassert, Bool.false_and]
  simp [Spec.Mocks.report, Spec.Mocks.reset, Spec.Mocks.nameOf]

/-- **C88** (holds): clearing the history when a call is unexpected is harmless, because the call keeps what the event refers to: it ends with the exception that says what was called. -/
theorem C88_clearing_is_harmless_for_unexpected_calls (w : World A V) (c : Config A V X) (fuel l m m' f : Nat) (a : A) (k : Sum V (Exn A X) → Code A V X) (b : Body A V)
    (he : w.ended m = false) (he' : w.ended m' = false) (hb : w.bodies m f = some b) (hno : ∀ s, s ∈ b.stubs → s.accepts a = false) (hl : c.listeners = [l]) (hassert : c.asserting = false)
    (hclear : c.react l .unmatched w.events = .clear m' .done) (hdone : c.react c.adapter .unmatched w.events = .done) :
    test c (fuel + 1) (.call m f a k) w =
      test c (fuel + 1) (k (.inr (.unexpected (.unexpected b.name a)))) { w with recs := w.recs.filter (fun i => i.mock != m'), next := w.next + 1, events := w.events + 1 } := by
  simp only [test, run, callMethod, he, he', Bool.false_eq_true, if_false, hb, useNewest_none hno, unexpected, handle, Event.kind, hl, tellAll, hclear, hdone, R.bind_done, Config.stops, hassert, World.clear, World.format, World.line, if_true]

/-- **C88** (holds): when a method nobody has stubbed is called, handlers may even reset or end the mock: the call ends with the exception that says so. -/
theorem C88_calls_of_unknown_methods_survive_a_reset (w : World A V) (c : Config A V X) (fuel l m f : Nat) (a : A) (k : Sum V (Exn A X) → Code A V X)
    (he : w.ended m = false) (hb : w.bodies m f = none) (hl : c.listeners = [l]) (hassert : c.asserting = false) (hdone : c.react c.adapter .unmocked w.events = .done) :
    (c.react l .unmocked w.events = .reset m .done →
      test c (fuel + 1) (.call m f a k) w = test c (fuel + 1) (k (.inr (.unexpected .unmocked))) { w.reset m with next := w.next + 1, events := w.events + 1 }) ∧
    (c.react l .unmocked w.events = .destroy m .done →
      test c (fuel + 1) (.call m f a k) w = test c (fuel + 1) (k (.inr (.unexpected .unmocked))) { w.destroy m with next := w.next + 1, events := w.events + 1 }) := by
  constructor <;> intro hx <;>
    simp only [test, run, callMethod, he, Bool.false_eq_true, if_false, hb, unexpected, handle, Event.kind, hl, tellAll, hx, hdone, R.bind_done, Config.stops, hassert, World.clear, World.reset, World.destroy, World.format]

/-- **C88** is false: after a listener has reset the mock, the report of a failed verification has the name the compiler gives the type of the method instead of the method's name, and making the report makes the method known again (the next call of it is
a call without an answer, not a call of a method nobody has stubbed). -/
theorem C88_resetting_changes_the_report (w : World A V) (c : Config A V X) (fuel l m f n : Nat) (matcher : A → Bool) (ok : Nat → Bool) (k : Option (Exn A X) → Code A V X)
    (he : w.ended m = false) (hfail : ok 0 = false) (hcalls : callsOf w m = []) (hl : c.listeners = [l])
    (hreset : c.react l .failed w.events = .reset m .done) (hformat : c.react c.adapter .failed w.events = .format fun r => .print r .done) :
    ∃ w', test c (fuel + 1) (.verify m f n matcher ok k) w = test c (fuel + 1) (k none) w' ∧ w'.printed = w.printed ++ [.failed (.compiler m f) 0 0 []] ∧
      (∃ b, w'.bodies m f = some b ∧ b.stubs = []) ∧ ∀ f', f' ≠ f → w'.bodies m f' = none := by
  have hnil : ∀ q : Inv A → Bool, w.recs.filter (fun i => i.mock == m && q i) = [] := by
    intro q
    rw [List.filter_eq_nil_iff]
    intro i hi
    have := (List.filter_eq_nil_iff.1 hcalls) i hi
    simp only [Bool.not_eq_true] at this
    simp [this]
  have hn : ∃ b, w.named m f n = (b, (w.named m f n).2) ∧ (w.named m f n).2.recs = w.recs ∧ (w.named m f n).2.ended = w.ended ∧ (w.named m f n).2.events = w.events ∧ (w.named m f n).2.printed = w.printed := by
    refine ⟨_, rfl, ?_⟩
    simp only [World.named, World.known]
    split <;> exact ⟨rfl, rfl, rfl, rfl⟩
  obtain ⟨b, hb, h₁, h₂, h₃, h₄⟩ := hn
  generalize (w.named m f n).2 = v at *
  have hcount : (v.recs.filter fun i => i.mock == m && i.body == b.uid && matcher i.args) = [] := by
    rw [h₁]; simpa only [Bool.and_assoc] using hnil (fun i => i.body == b.uid && matcher i.args)
  have hall : (v.recs.filter fun i => i.mock == m) = [] := by rw [h₁]; exact hcalls
  have hev : v.ended m = false := by rw [h₂]; exact he
  refine ⟨{ v with
      recs := v.recs.filter fun i => i.mock != m
      bodies := fun m' f' => if m' = m ∧ f' = f then some ⟨v.next, .compiler m f, []⟩ else if m' = m then none else v.bodies m' f'
      next := v.next + 1
      events := w.events + 1
      printed := v.printed ++ [.failed (.compiler m f) 0 0 []] }, ?_, by rw [h₄], ⟨⟨v.next, .compiler m f, []⟩, by simp, rfl⟩, fun f' hf' => by simp [hf']⟩
  simp only [test, run, verifyMethod, he, Bool.false_eq_true, if_false, hb, hcount, hall, List.length_nil, hfail, handle, Event.kind, hl, tellAll, h₃, hreset, hformat, hev, R.bind_done, Config.stops,
    List.take_nil, List.map_nil, World.format, World.reset, World.clear, World.known, World.put, World.followAll, if_true]

/-- **C88** (holds): a listener may stub what was missing. The call it is told of ends with the exception all the same; the next one is answered. -/
theorem C88_listeners_may_stub_what_is_missing (w : World A V) (c : Config A V X) (fuel l m f n : Nat) (a : A) (v : V) (b : Body A V) (st : Stub A V) (vs : List V) (k : Sum V (Exn A X) → Sum V (Exn A X) → Code A V X)
    (he : w.ended m = false) (hb : w.bodies m f = some b) (hno : ∀ s, s ∈ b.stubs → s.accepts a = false) (hl : c.listeners = [l]) (hassert : c.asserting = false)
    (hst : st.accepts a = true) (hsv : st.script = v :: vs)
    (hstub : c.react l .unmatched w.events = .stub m f n st .done) (hdone : c.react c.adapter .unmatched w.events = .done) :
    ∃ w', test c (fuel + 1) (.call m f a fun r => .call m f a fun r' => k r r') w = test c (fuel + 1) (k (.inr (.unexpected (.unexpected (.given n) a))) (.inl v)) w' := by
  have hfirst : ∃ w₁ : World A V, test c (fuel + 1) (.call m f a fun r => .call m f a fun r' => k r r') w =
      test c (fuel + 1) (.call m f a fun r' => k (.inr (.unexpected (.unexpected (.given n) a))) r') w₁ ∧ w₁.ended m = false ∧
      ∃ b₁, w₁.bodies m f = some b₁ ∧ b₁.stubs = st :: b.stubs := by
    refine ⟨{ (w.put m f { b with name := .given n }).put m f { b with name := .given n, stubs := st :: b.stubs } with next := w.next + 1, events := w.events + 1 }, ?_, he, _, put_same _ _ _ _, rfl⟩
    simp only [test, run, callMethod, he, Bool.false_eq_true, if_false, hb, useNewest_none hno, unexpected, handle, Event.kind, hl, tellAll, hstub, hdone, R.bind_done, Config.stops, hassert, World.format, World.line,
      World.named, World.known, World.put, and_self, if_true]
  obtain ⟨w₁, h₁, h₂, b₁, h₃, h₄⟩ := hfirst
  refine ⟨{ (w₁.put m f { b₁ with stubs := { st with script := vs } :: b.stubs }) with recs := w₁.recs ++ [{ uid := w₁.next, mock := m, method := f, body := b₁.uid, args := a }], next := w₁.next + 1 }, h₁.trans ?_⟩
  simp only [test, run, callMethod, h₂, Bool.false_eq_true, if_false, h₃, h₄, useNewest, hst, if_true, Stub.use, hsv, R.bind_done, World.put]

/-- **C88** (assertions): if the library is told to stop at unexpected calls, it stops after the listeners have been told and before the adapter is. -/
theorem C88_assertions_come_before_the_adapter (w : World A V) (c : Config A V X) (fuel l m f : Nat) (a : A) (k : Sum V (Exn A X) → Code A V X)
    (he : w.ended m = false) (hb : w.bodies m f = none) (hl : c.listeners = [l]) (hassert : c.asserting = true)
    (hprint : c.react l .unmocked w.events = .format fun r => .print r .done) :
    seen (test c (fuel + 1) (.call m f a k) w) = .done (.aborted, w.printed ++ [.unmocked]) := by
  simp only [test, run, callMethod, he, Bool.false_eq_true, if_false, hb, unexpected, handle, Event.kind, hl, tellAll, hprint, R.bind_done, Config.stops, hassert, World.format, if_true, seen]

namespace Demo

/-- A stubbing that accepts arguments below 10 and answers 5 for ever. -/
def five : Stub Nat Nat := { accepts := fun a => decide (a < 10), script := [], always := some 5 }
/-- Method 0 of mock 0 is stubbed and called with 3. -/
def used : Code Nat Nat Nat := .stub 0 0 7 five (.call 0 0 3 fun _ => .done)
/-- Listener 0 does what is given, the adapter (1) prints the report. -/
def conf (listener : Code Nat Nat Nat) : Config Nat Nat Nat :=
  { listeners := [0], adapter := 1, react := fun h _ _ => if h = 0 then listener else .format fun r => .print r .done }
/-- The same with an adapter that does nothing. -/
def quiet (listener : Code Nat Nat Nat) : Config Nat Nat Nat := { listeners := [0], adapter := 1, react := fun h _ _ => if h = 0 then listener else .done }
/-- The state after `used`. -/
def after : World Nat Nat :=
  { ((({} : World Nat Nat).put 0 0 ⟨0, .compiler 0 0, []⟩).put 0 0 ⟨0, .given 7, []⟩).put 0 0 ⟨0, .given 7, [five]⟩ |>.put 0 0 ⟨0, .given 7, [five]⟩ with
    recs := [{ uid := 1, mock := 0, method := 0, body := 0, args := 3 }], next := 2 }

theorem after_body : after.bodies 0 0 = some ⟨0, .given 7, [five]⟩ := by simp [after, World.put]
theorem after_reachable : Reachable after :=
  ⟨Nat, conf .done, 3, used, .returned, by
    simp [test, used, run, World.named, World.known, World.put, callMethod, useNewest, five, Stub.use, after]⟩
theorem after_refuses : ∀ s, s ∈ [five] → s.accepts 11 = false := by
  intro s hs
  rw [List.mem_singleton.1 hs]
  rfl

/-- A failing verification whose handlers call, stub and cause further events: listener 0 calls the method, once with arguments nobody accepts (an event inside the event), then prints the report. -/
def busy : Config Nat Nat Nat :=
  { listeners := [0], adapter := 1
    react := fun h _ n => if h = 0 ∧ n = 0 then .call 0 0 4 fun _ => .call 0 0 11 fun _ => .format fun r => .print r .done else .format fun r => .print r .done }

/-- `C88_events_are_about_values`, with what is seen: the event inside is reported first (by both handlers), then the outer one, as it was when it happened. -/
example : seen (test busy 3 (.stub 0 0 7 five (.call 0 0 3 fun _ => .verify 0 0 8 (fun _ => true) (fun n => n == 2) fun _ => .done)) {}) =
    .done (.returned, [.unexpected (.given 8) 11, .unexpected (.given 8) 11, .failed (.given 8) 1 1 [(.given 8, 3)], .failed (.given 8) 1 1 [(.given 8, 3)]]) ∧
    Spec.outcome (Spec.test busy 3 (.stub 0 0 7 five (.call 0 0 3 fun _ => .verify 0 0 8 (fun _ => true) (fun n => n == 2) fun _ => .done)) {}) =
    .done (.returned, [.unexpected (.given 8) 11, .unexpected (.given 8) 11, .failed (.given 8) 1 1 [(.given 8, 3)], .failed (.given 8) 1 1 [(.given 8, 3)]]) := by decide +kernel

/-- `C88_handlers_that_delete_nothing_partial`: these handlers and this test delete nothing. -/
example : test busy 3 (.stub 0 0 7 five (.call 0 0 3 fun _ => .verify 0 0 8 (fun _ => true) (fun n => n == 2) fun _ => .done)) {} ≠ .ub :=
  C88_handlers_that_delete_nothing_partial busy
    (by
      intro l k n
      simp only [busy]
      split
      · exact .call fun _ => .call fun _ => .format fun _ => .print .done
      · exact .format fun _ => .print .done)
    3 _ (.stub (.call fun _ => .verify fun _ => .done))

/-- `C88_clearing_spoils_the_report` -/
example : test (conf (.clear 0 .done)) 1 (.verify 0 0 7 (fun _ => true) (fun n => n == 2) fun _ => .done) after = .ub :=
  C88_clearing_spoils_the_report after_reachable (conf (.clear 0 .done)) 0 0 0 0 7 _ _ _ (fun r => .print r .done) rfl (by decide) (by decide) rfl rfl rfl

/-- `C88_resetting_spoils_the_call` -/
example : ∃ b, after.bodies 0 0 = some b ∧ test (quiet (.reset 0 .done)) 1 (.call 0 0 11 fun _ => .done) after = .ub :=
  ⟨_, after_body, C88_resetting_spoils_the_call after_reachable (quiet (.reset 0 .done)) 0 0 0 0 11 _ _ rfl after_body after_refuses rfl rfl rfl rfl⟩

/-- `C88_clearing_is_harmless_for_unexpected_calls` -/
example : seen (test (quiet (.clear 0 .done)) 1 (.call 0 0 11 fun r => match r with | .inr x => .throw x | .inl _ => .done) after) = .done (.thrown (.unexpected (.unexpected (.given 7) 11)), []) := by decide +kernel
example : ∃ b, after.bodies 0 0 = some b ∧ (∀ s, s ∈ b.stubs → s.accepts 11 = false) ∧ after.ended 0 = false := ⟨_, after_body, after_refuses, rfl⟩

/-- `C88_calls_of_unknown_methods_survive_a_reset`: method 1 has not been stubbed. -/
example : after.bodies 0 1 = none ∧ after.ended 0 = false ∧
    seen (test (quiet (.reset 0 .done)) 1 (.call 0 1 11 fun r => match r with | .inr x => .throw x | .inl _ => .done) after) = .done (.thrown (.unexpected .unmocked), []) ∧
    seen (test (quiet (.destroy 0 .done)) 1 (.call 0 1 11 fun r => match r with | .inr x => .throw x | .inl _ => .done) after) = .done (.thrown (.unexpected .unmocked), []) := by
  refine ⟨rfl, rfl, ?_, ?_⟩ <;> decide +kernel

/-- `C88_resetting_changes_the_report`: no calls of mock 2 are recorded; the name 9 is not in the report. -/
example : callsOf after 2 = [] ∧ after.ended 2 = false ∧
    seen (test (conf (.reset 2 .done)) 1 (.verify 2 0 9 (fun _ => true) (fun n => n == 1) fun _ => .done) after) = .done (.returned, [.failed (.compiler 2 0) 0 0 []]) ∧
    seen (test (conf .done) 1 (.verify 2 0 9 (fun _ => true) (fun n => n == 1) fun _ => .done) after) = .done (.returned, [.failed (.given 9) 0 0 []]) := by
  refine ⟨rfl, rfl, ?_, ?_⟩ <;> decide +kernel

/-- `C88_listeners_may_stub_what_is_missing` -/
example : ∃ b, after.bodies 0 0 = some b ∧ ∃ w', test (quiet (.stub 0 0 7 ⟨fun _ => true, [1, 2], none⟩ .done)) 1 (.call 0 0 11 fun _ => .call 0 0 11 fun r' => match r' with | .inl v => .print (.noMore v []) .done | .inr x => .throw x) after =
    test (quiet (.stub 0 0 7 ⟨fun _ => true, [1, 2], none⟩ .done)) 1 (.print (.noMore 1 []) .done) w' :=
  ⟨_, after_body, C88_listeners_may_stub_what_is_missing after (quiet (.stub 0 0 7 ⟨fun _ => true, [1, 2], none⟩ .done)) 0 0 0 0 7 11 1 _ ⟨fun _ => true, [1, 2], none⟩ [2]
    (fun _ r' => match r' with | .inl v => .print (.noMore v []) .done | .inr x => .throw x) rfl after_body after_refuses rfl rfl rfl rfl rfl rfl⟩

/-- `C88_assertions_come_before_the_adapter` -/
example : seen (test { conf (.format fun r => .print r .done) with asserting := true } 1 (.call 0 1 11 fun _ => .done) after) = .done (.aborted, [.unmocked]) :=
  C88_assertions_come_before_the_adapter after { conf (.format fun r => .print r .done) with asserting := true } 0 0 0 1 11 _ rfl rfl rfl rfl rfl

end Demo

end FakeIt.Inside
