import Verif.Model.Events
/-!
# C43: every listener is told, in order, before the testing framework
-/
namespace FakeIt
variable {Ev X : Type}

/-- Who should be told of an event and with which exception delivery should end, for listeners `ls` and adapter `a`. -/
inductive Spec.Delivers (throws : Nat → Option X) (a : Nat) : List Nat → List Told → Option X → Prop where
  /-- no listener is left: the adapter is told, what it throws is thrown -/
  | adapter : Spec.Delivers throws a [] [.adapter a] (throws a)
  /-- a listener throws: nobody after it is told -/
  | stop {l : Nat} {ls : List Nat} {x : X} : throws l = some x → Spec.Delivers throws a (l :: ls) [.listener l] (some x)
  /-- a listener returns: go on -/
  | next {l : Nat} {ls : List Nat} {told : List Told} {r : Option X} : throws l = none → Spec.Delivers throws a ls told r →
      Spec.Delivers throws a (l :: ls) (.listener l :: told) r

/-- The registered listeners do not register or clear listeners while handling this event. -/
def Spec.QuietHandlers (react : Nat → Ev → Reaction X) (e : Ev) (ls : List Nat) : Prop := ∀ l ∈ ls, (react l e).ops = []

open Spec

private theorem regs_keeps (c : EventCtx) (ops : List RegOp) : (c.regs ops).custom = c.custom ∧ (c.regs ops).builtin = c.builtin := by
  induction ops generalizing c with
  | nil => exact ⟨rfl, rfl⟩
  | cons o ops ih =>
    have := ih (c.reg o)
    have h2 : (c.reg o).custom = c.custom ∧ (c.reg o).builtin = c.builtin := by cases o <;> exact ⟨rfl, rfl⟩
    exact ⟨this.1.trans h2.1, this.2.trans h2.2⟩

private theorem fire_quiet (react : Nat → Ev → Reaction X) (e : Ev) (ls : List Nat) (c : EventCtx) (log : List Told) (hq : QuietHandlers react e ls) :
    ∃ told, (∀ t ∈ told, ∃ l, t = .listener l) ∧ ((fireEvent react e ls c log = .done (none, c, log ++ told) ∧
        ∀ a, Delivers (fun l => (react l e).throws) a ls (told ++ [.adapter a]) ((react a e).throws)) ∨
      ∃ x, fireEvent react e ls c log = .done (some x, c, log ++ told) ∧ ∀ a, Delivers (fun l => (react l e).throws) a ls told (some x)) := by
  induction ls generalizing log with
  | nil => exact ⟨[], by simp, Or.inl ⟨by simp [fireEvent], fun a => .adapter⟩⟩
  | cons l ls ih =>
    have h0 : (react l e).ops = [] := hq l (by simp)
    cases ht : (react l e).throws with
    | some x =>
      refine ⟨[.listener l], by simp, Or.inr ⟨x, ?_, fun a => .stop ht⟩⟩
      simp [fireEvent, ht, h0, EventCtx.regs]
    | none =>
      obtain ⟨told, hl, h⟩ := ih (log ++ [.listener l]) (fun l' h => hq l' (by simp [h]))
      refine ⟨.listener l :: told, by
        intro t ht
        rcases List.mem_cons.1 ht with rfl | ht
        · exact ⟨l, rfl⟩
        · exact hl t ht, ?_⟩
      have hstep : fireEvent react e (l :: ls) c log = fireEvent react e ls c (log ++ [.listener l]) := by
        simp [fireEvent, ht, h0, EventCtx.regs]
      rcases h with ⟨h1, h2⟩ | ⟨x, h1, h2⟩
      · exact Or.inl ⟨by rw [hstep, h1]; simp, fun a => .next ht (h2 a)⟩
      · exact Or.inr ⟨x, by rw [hstep, h1]; simp, fun a => .next ht (h2 a)⟩

/-- **C43**, for listeners that do not change the list of listeners while handling the event (otherwise see
`C43_registering_while_handling_is_undefined`): they are told in registration order, each once per registration, then the testing framework adapter
(the custom one if set); the first exception ends delivery and is what the caller gets. If the adapter is not reached the registrations are unchanged. -/
theorem C43_listeners_are_told_in_order_partial (react : Nat → Ev → Reaction X) (e : Ev) (c : EventCtx) (hq : QuietHandlers react e c.listeners) :
    ∃ told r c', handleEvent react e c = .done (r, c', told) ∧ Delivers (fun l => (react l e).throws) (c.custom.getD c.builtin) c.listeners told r ∧
      ((∀ a, Told.adapter a ∉ told) → c' = c) := by
  have ha : c.adapter = c.custom.getD c.builtin := by
    unfold EventCtx.adapter
    cases c.custom <;> rfl
  obtain ⟨told, hl, h⟩ := fire_quiet react e c.listeners c [] hq
  rcases h with ⟨h1, h2⟩ | ⟨x, h1, h2⟩
  · exact ⟨_, _, _, by simp only [handleEvent, h1, R.bind_done, List.nil_append, ha]; rfl, h2 _, fun h => absurd (by simp) (h (c.custom.getD c.builtin))⟩
  · exact ⟨_, _, _, by simp only [handleEvent, h1, R.bind_done, List.nil_append], h2 _, fun _ => rfl⟩

/-- Registering (or clearing) listeners adds to (empties) what the next event is delivered to, and leaves the adapter alone. -/
theorem C43_registration_order (c : EventCtx) (l : Nat) : (c.reg (.add l)).listeners = c.listeners ++ [l] ∧ (c.reg .clear).listeners = [] ∧
    (∀ ops, (c.regs ops).custom = c.custom ∧ (c.regs ops).builtin = c.builtin) := ⟨rfl, rfl, regs_keeps c⟩

/-- The full claim of C43 is false: if a listener that is reached returns after having registered or cleared listeners, delivery has undefined
behaviour (the vector is modified during the loop over it). -/
theorem C43_registering_while_handling_is_undefined (react : Nat → Ev → Reaction X) (e : Ev) (c : EventCtx) (before after : List Nat) (l : Nat)
    (hl : c.listeners = before ++ l :: after) (hb : ∀ b ∈ before, react b e = {}) (hops : (react l e).ops ≠ []) (ht : (react l e).throws = none) :
    handleEvent react e c = .ub := by
  have key : ∀ (before : List Nat) (log : List Told), (∀ b ∈ before, react b e = {}) → fireEvent react e (before ++ l :: after) c log = .ub := by
    intro before
    induction before with
    | nil => intro log _; simp [fireEvent, ht, hops]
    | cons b bs ih =>
      intro log h
      simp only [List.cons_append, fireEvent, h b (by simp), EventCtx.regs, List.foldl_nil]
      exact ih _ fun b' hb' => h b' (by simp [hb'])
  simp only [handleEvent, hl, key before [] hb, R.bind_ub]

namespace Demo

/-- Listener 2 throws, listener 9 registers itself again, the others do nothing; the adapter is 7. -/
def react : Nat → Unit → Reaction String := fun l _ =>
  if l = 2 then { throws := some "stop" } else if l = 7 then { throws := some "failed" } else if l = 9 then { ops := [.add 9] } else {}

example : handleEvent react () { listeners := [1, 3], builtin := 7 } =
    .done (some "failed", { listeners := [1, 3], builtin := 7 }, [.listener 1, .listener 3, .adapter 7]) := by decide +kernel
example : handleEvent react () { listeners := [1, 2, 3], builtin := 7 } =
    .done (some "stop", { listeners := [1, 2, 3], builtin := 7 }, [.listener 1, .listener 2]) := by decide +kernel
example : QuietHandlers react () [1, 2, 3] := by intro l hl; simp at hl; rcases hl with rfl | rfl | rfl <;> rfl
example : handleEvent react () { listeners := [1, 9, 3], builtin := 7 } = .ub :=
  C43_registering_while_handling_is_undefined react () _ [1] [3] 9 rfl (by intro b hb; simp at hb; subst hb; rfl) (by decide) rfl

end Demo
end FakeIt
