import Verif.Model.Finally
/-!
# C77: scope guards
-/
namespace FakeIt.Guards

namespace Spec

mutual
/-- No step is left unelided, no clause throws. -/
def tame : Stmt → Bool
  | .guard c steps => !c.throws && steps.all id
  | .act _ _ => true
  | .scope body => tameAll body
  | .attempt body => tameAll body

def tameAll : List Stmt → Bool
  | [] => true
  | st :: rest => tame st && tameAll rest
end

/-- What code with guards means: all that follows a guard in its block, up to the end of the block or to an exception, and then the clause. Effects; whether an exception leaves. -/
def meaning : List Stmt → List Nat × Bool
  | [] => ([], false)
  | .guard c _ :: rest => ((meaning rest).1 ++ [c.effect], (meaning rest).2)
  | .act e t :: rest => if t then ([e], true) else (e :: (meaning rest).1, (meaning rest).2)
  | .scope body :: rest => if (meaning body).2 then ((meaning body).1, true) else ((meaning body).1 ++ (meaning rest).1, (meaning rest).2)
  | .attempt body :: rest => ((meaning body).1 ++ (meaning rest).1, (meaning rest).2)

/-- What has been done when the statements, none of which throws, have been executed and their block goes on. -/
def sofar : List Stmt → List Nat
  | [] => []
  | .guard _ _ :: rest => sofar rest
  | .act e _ :: rest => e :: sofar rest
  | .scope body :: rest => (meaning body).1 ++ sofar rest
  | .attempt body :: rest => (meaning body).1 ++ sofar rest

end Spec
open Spec

theorem handOn_elided {g : Guard} {steps : List Bool} (h : steps.all id = true) : handOn g steps = ([], some g) := by
  induction steps with
  | nil => rfl
  | cons b steps ih =>
    simp only [List.all_cons, id, Bool.and_eq_true] at h
    obtain ⟨rfl, h⟩ := h
    exact ih h

/-- Guards of clauses that do not throw. -/
def Good (gs : List Guard) (cs : List Clause) : Prop := gs = cs.map some ∧ ∀ c ∈ cs, c.throws = false

theorem unwind_good : ∀ {cs : List Clause} {gs : List Guard}, Good gs cs → unwind gs = (cs.map Clause.effect, .normal)
  | [], gs, h => by rw [h.1]; rfl
  | c :: cs, gs, h => by
    rw [h.1]
    have := unwind_good (cs := cs) ⟨rfl, fun x hx => h.2 x (List.mem_cons_of_mem _ hx)⟩
    simp [unwind, destroyed, h.2 c (List.mem_cons_self ..), this]

theorem block_meaning : ∀ {body : List Stmt} {cs : List Clause} {gs : List Guard}, tameAll body = true → Good gs cs →
    block gs body = ((meaning body).1 ++ cs.map Clause.effect, if (meaning body).2 then .thrown else .normal)
  | [], cs, gs, _, g => by simp [block, meaning, unwind_good g]
  | .guard c steps :: rest, cs, gs, h, g => by
    simp only [tameAll, tame, Bool.and_eq_true, Bool.not_eq_true'] at h
    have ih := block_meaning (cs := c :: cs) (gs := some c :: gs) h.2 ⟨by rw [g.1]; rfl, fun x hx => by
      rcases List.mem_cons.1 hx with rfl | hx
      · exact h.1.1
      · exact g.2 x hx⟩
    simp [block, exec, handOn_elided h.1.2, ih, meaning]
  | .act e t :: rest, cs, gs, h, g => by
    simp only [tameAll, tame, Bool.true_and] at h
    have ih := block_meaning h g
    cases t <;> simp [block, exec, ih, meaning, unwind_good g]
  | .scope body :: rest, cs, gs, h, g => by
    simp only [tameAll, tame, Bool.and_eq_true] at h
    have i1 := block_meaning (cs := []) (gs := []) h.1 ⟨rfl, by simp⟩
    have ih := block_meaning h.2 g
    cases hm : (meaning body).2 <;> simp [block, exec, i1, hm, ih, meaning, unwind_good g]
  | .attempt body :: rest, cs, gs, h, g => by
    simp only [tameAll, tame, Bool.and_eq_true] at h
    have i1 := block_meaning (cs := []) (gs := []) h.1 ⟨rfl, by simp⟩
    have ih := block_meaning h.2 g
    cases hm : (meaning body).2 <;> simp [block, exec, i1, hm, ih, meaning]

/-- The claim: a clause takes effect exactly once, at the end of its block, after all that was done meanwhile, whether the block is left normally or by an exception; later guards first; the
exception goes on. What is missing: compilers that do not elide (before C++17 they may), clauses that throw. -/
theorem C77_guards_take_effect_at_the_end_partial (body : List Stmt) (h : tameAll body = true) :
    block [] body = ((meaning body).1, if (meaning body).2 then .thrown else .normal) := by
  simpa using block_meaning (cs := []) (gs := []) h ⟨rfl, by simp⟩

/-- The original method throws while two guards are waiting, one of them handed on through three elided steps. -/
example : block [] [.attempt [.guard ⟨10, false⟩ [], .scope [.guard ⟨20, false⟩ [true, true, true], .act 1 false, .act 2 true, .act 3 false], .act 4 false], .act 5 false] =
    ([1, 2, 20, 10, 5], .normal) := by decide +kernel
example : tameAll [.attempt [.guard ⟨10, false⟩ [], .scope [.guard ⟨20, false⟩ [true, true, true], .act 1 false, .act 2 true, .act 3 false], .act 4 false], .act 5 false] = true := by
  decide +kernel

theorem handOn_moved {g : Guard} {steps : List Bool} (h : false ∈ steps) : handOn g steps = ([], none) := by
  induction steps with
  | nil => simp at h
  | cons b steps ih =>
    cases b with
    | true =>
      simp only [List.mem_cons, Bool.false_eq_true, false_or] at h
      exact ih (by simpa using h)
    | false => simp [handOn, moved, destroyed]

/-- The claim does not hold for compilers that move: a guard that is really moved terminates the program, before anything it was to guard is done, without its clause and without the clauses of
the guards already waiting. -/
theorem C77_moved_guards_terminate (done : List Stmt) (c : Clause) (steps : List Bool) (rest : List Stmt) (h : tameAll done = true) (hn : (meaning done).2 = false) (hm : false ∈ steps) :
    block [] (done ++ .guard c steps :: rest) = (sofar done, .terminated) := by
  have key : ∀ (done : List Stmt) (gs : List Guard), tameAll done = true → (meaning done).2 = false → block gs (done ++ .guard c steps :: rest) = (sofar done, .terminated) := by
    intro done
    induction done with
    | nil => intro gs _ _; simp [block, exec, handOn_moved hm, sofar]
    | cons st done ih =>
      intro gs h hn
      simp only [tameAll, Bool.and_eq_true] at h
      cases st with
      | guard c' steps' =>
        simp only [tame, Bool.and_eq_true] at h
        have := ih (some c' :: gs) h.2 (by simpa [meaning] using hn)
        simp [block, exec, handOn_elided h.1.2, this, sofar]
      | act e t =>
        cases t with
        | true => simp [meaning] at hn
        | false =>
          have := ih gs h.2 (by simpa [meaning] using hn)
          simp [block, exec, this, sofar]
      | scope body =>
        have i1 := block_meaning (cs := []) (gs := []) h.1 ⟨rfl, by simp⟩
        cases hb : (meaning body).2 with
        | true => simp [meaning, hb] at hn
        | false =>
          have := ih gs h.2 (by simpa [meaning, hb] using hn)
          simp [block, exec, i1, hb, this, sofar]
      | attempt body =>
        have i1 := block_meaning (cs := []) (gs := []) h.1 ⟨rfl, by simp⟩
        have := ih gs h.2 (by simpa [meaning] using hn)
        cases hb : (meaning body).2 <;> simp [block, exec, i1, hb, this, sofar]
  exact key done [] h hn

example : block [] [.act 1 false, .guard ⟨10, false⟩ [], .guard ⟨20, false⟩ [true, false, true], .act 2 false] = ([1], .terminated) := by
  have := C77_moved_guards_terminate [.act 1 false, .guard ⟨10, false⟩ []] ⟨20, false⟩ [true, false, true] [.act 2 false] (by decide +kernel) (by simp [meaning]) (by decide)
  simpa [sofar] using this

/-- Nor does it for clauses that throw: the program ends at the end of the guard's block. -/
theorem C77_throwing_clauses_terminate (c : Clause) (body : List Stmt) (h : tameAll body = true) (hc : c.throws = true) :
    block [] (.guard c [] :: body) = ((meaning body).1 ++ [c.effect], .terminated) := by
  have unw : ∀ (cs : List Clause), (∀ x ∈ cs, x.throws = false) → unwind (cs.map some ++ [some c]) = (cs.map Clause.effect ++ [c.effect], .terminated) := by
    intro cs
    induction cs with
    | nil => intro _; simp [unwind, destroyed, hc]
    | cons x cs ih =>
      intro hx
      have := ih fun y hy => hx y (List.mem_cons_of_mem _ hy)
      simp [unwind, destroyed, hx x (List.mem_cons_self ..), this]
  have key : ∀ (body : List Stmt) (cs : List Clause), tameAll body = true → (∀ x ∈ cs, x.throws = false) →
      block (cs.map some ++ [some c]) body = ((meaning body).1 ++ cs.map Clause.effect ++ [c.effect], .terminated) := by
    intro body
    induction body with
    | nil => intro cs _ hx; simp [block, meaning, unw cs hx]
    | cons st body ih =>
      intro cs h hx
      simp only [tameAll, Bool.and_eq_true] at h
      cases st with
      | guard c' steps' =>
        simp only [tame, Bool.and_eq_true, Bool.not_eq_true'] at h
        have := ih (c' :: cs) h.2 fun y hy => by
          rcases List.mem_cons.1 hy with rfl | hy
          · exact h.1.1
          · exact hx y hy
        simp only [List.map_cons, List.cons_append] at this
        simp [block, exec, handOn_elided h.1.2, this, meaning]
      | act e t =>
        have := ih cs h.2 hx
        cases t <;> simp [block, exec, this, meaning, unw cs hx]
      | scope b =>
        have i1 := block_meaning (cs := []) (gs := []) h.1 ⟨rfl, by simp⟩
        have := ih cs h.2 hx
        cases hb : (meaning b).2 <;> simp [block, exec, i1, hb, this, meaning, unw cs hx]
      | attempt b =>
        have i1 := block_meaning (cs := []) (gs := []) h.1 ⟨rfl, by simp⟩
        have := ih cs h.2 hx
        cases hb : (meaning b).2 <;> simp [block, exec, i1, hb, this, meaning]
  have := key body [] h (by simp)
  simp only [List.map_nil, List.nil_append, List.append_nil] at this
  simp [block, exec, handOn, this]

example : block [] [.guard ⟨10, true⟩ [], .guard ⟨20, false⟩ [], .act 2 true] = ([2, 20, 10], .terminated) := by
  have := C77_throwing_clauses_terminate ⟨10, true⟩ [.guard ⟨20, false⟩ [], .act 2 true] (by decide +kernel) rfl
  simpa [meaning] using this

end FakeIt.Guards
