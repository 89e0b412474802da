import Verif.Model.Returning
/-!
# C65: what `Return(x)` gives back
-/
namespace FakeIt
variable {A : Type}

namespace Spec

/-- What has been promised to callers: a value, a value once (`none`: it has been given away), or a variable itself. -/
inductive Promise (A : Type) where
  | value (v : A)
  | onlyOnce (v : Option A)
  | variable_ (c : Nat)

/-- A test as its author sees it. -/
structure Promises (A : Type) where
  vars : List (Option A) := []
  promises : List (Promise A) := []
  read : List A := []

/-- The value of what is given. -/
def givenNow (vars : List (Option A)) : Given A → Option A
  | .var c => vars[c]?.join
  | .moved c => vars[c]?.join
  | .temp v => some v

/-- A step as its author sees it: `Return(x)` promises the value `x` has now, or for methods returning references the variable `x` itself (not a temporary). Values that cannot be copied are given
up by the author and given to one caller. -/
def Promises.step (after : A → A) (s : Promises A) : ReturnOp A → Option (Promises A)
  | .declare v => some { s with vars := s.vars ++ [some v] }
  | .assign c v => (s.vars[c]?.join).map fun _ => { s with vars := s.vars.set c (some v) }
  | .leave c => some { s with vars := s.vars.set c none }
  | .semicolon => some s
  | .give .value g => (givenNow s.vars g).map fun v => { s with promises := s.promises ++ [.value v] }
  | .give .reference (.var c) => some { s with promises := s.promises ++ [.variable_ c] }
  | .give .reference _ => none
  | .give .moveOnly (.temp v) => some { s with promises := s.promises ++ [.onlyOnce (some v)] }
  | .give .moveOnly (.moved c) => (s.vars[c]?.join).map fun v => { s with vars := s.vars.set c (some (after v)), promises := s.promises ++ [.onlyOnce (some v)] }
  | .give .moveOnly (.var _) => none
  | .answer i =>
    match s.promises[i]? with
    | none => none
    | some (.value v) => some { s with read := s.read ++ [v] }
    | some (.variable_ c) => (s.vars[c]?.join).map fun v => { s with read := s.read ++ [v] }
    | some (.onlyOnce none) => none
    | some (.onlyOnce (some v)) => some { s with promises := s.promises.set i (.onlyOnce none), read := s.read ++ [v] }

/-- A test as its author sees it. -/
def Promises.run (after : A → A) : Promises A → List (ReturnOp A) → Option (Promises A)
  | s, [] => some s
  | s, o :: os => (s.step after o).bind fun s => Promises.run after s os

end Spec
open Spec

/-- What keeps a promise. -/
private def Keeps : KeptValue A → Promise A → Prop
  | .copy v, .value u => v = u
  | .ref (.var c), .variable_ d => c = d
  | .store v, .onlyOnce (some u) => v = u
  | .store _, .onlyOnce none => True
  | _, _ => False

private structure Agree65 (s : ReturnState A) (i : Promises A) : Prop where
  vars : s.vars = i.vars
  read : s.read = i.read
  len : s.kept.length = i.promises.length
  kept : ∀ (n : Nat) (k : KeptValue A) (p : Promise A), s.kept[n]? = some k → i.promises[n]? = some p → Keeps k p

private theorem Agree65.add {s s' : ReturnState A} {i i' : Promises A} (h : Agree65 s i) {k : KeptValue A} {p : Promise A} (hv : s'.vars = i'.vars)
    (hr : s'.read = i'.read) (hk : s'.kept = s.kept ++ [k]) (hp : i'.promises = i.promises ++ [p]) (hkp : Keeps k p) : Agree65 s' i' := by
  refine ⟨hv, hr, by simp [hk, hp, h.len], fun n k' p' h1 h2 => ?_⟩
  rw [hk] at h1; rw [hp] at h2
  by_cases hn : n < s.kept.length
  · rw [List.getElem?_append_left hn] at h1
    rw [List.getElem?_append_left (by rw [← h.len]; exact hn)] at h2
    exact h.kept n k' p' h1 h2
  · have hn' : n = s.kept.length := by
      have := (List.getElem?_eq_some_iff.1 h1).1
      simp at this; omega
    subst hn'
    rw [List.getElem?_append_right (Nat.le_refl _)] at h1
    rw [List.getElem?_append_right (by rw [h.len]; exact Nat.le_refl _)] at h2
    simp at h1
    simp [h.len] at h2
    subst h1 h2
    exact hkp

private theorem step65 {after : A → A} {s : ReturnState A} {i i' : Promises A} (h : Agree65 s i) {o : ReturnOp A} (hi : i.step after o = some i') :
    ∃ s', s.step after o = .done s' ∧ Agree65 s' i' := by
  cases o with
  | declare v => cases hi; exact ⟨_, rfl, by simp [h.vars], h.read, h.len, h.kept⟩
  | leave c => cases hi; exact ⟨_, rfl, by simp [h.vars], h.read, h.len, h.kept⟩
  | semicolon => cases hi; exact ⟨_, rfl, h.vars, h.read, h.len, h.kept⟩
  | assign c v =>
    simp only [Promises.step, Option.map_eq_some_iff] at hi
    obtain ⟨x, hx, rfl⟩ := hi
    refine ⟨{ s with vars := s.vars.set c (some v) }, ?_, by simp [h.vars], h.read, h.len, h.kept⟩
    simp [ReturnState.step, ReturnState.at_, h.vars, hx, R.ofOption]
  | give k g =>
    cases k with
    | value =>
      simp only [Promises.step, Option.map_eq_some_iff] at hi
      obtain ⟨v, hv, rfl⟩ := hi
      cases g with
      | var c =>
        refine ⟨{ s with kept := s.kept ++ [.copy v] }, ?_, h.add h.vars h.read rfl rfl rfl⟩
        simp only [givenNow] at hv
        simp [ReturnState.step, ReturnState.give, ReturnState.at_, h.vars, hv, R.ofOption]
      | moved c =>
        refine ⟨{ s with kept := s.kept ++ [.copy v] }, ?_, h.add h.vars h.read rfl rfl rfl⟩
        simp only [givenNow] at hv
        simp [ReturnState.step, ReturnState.give, ReturnState.at_, h.vars, hv, R.ofOption]
      | temp u =>
        simp only [givenNow, Option.some.injEq] at hv
        subst hv
        refine ⟨{ s with temps := s.temps ++ [some u], kept := s.kept ++ [.copy u] }, ?_, h.add h.vars h.read rfl rfl rfl⟩
        simp [ReturnState.step, ReturnState.give, ReturnState.at_, R.ofOption]
    | reference =>
      cases g with
      | var c => cases hi; exact ⟨{ s with kept := s.kept ++ [.ref (.var c)] }, rfl, h.add h.vars h.read rfl rfl rfl⟩
      | moved c => cases hi
      | temp u => cases hi
    | moveOnly =>
      cases g with
      | var c => cases hi
      | moved c =>
        simp only [Promises.step, Option.map_eq_some_iff] at hi
        obtain ⟨v, hv, rfl⟩ := hi
        refine ⟨{ s with vars := s.vars.set c (some (after v)), kept := s.kept ++ [.store v] }, ?_, h.add (by simp [h.vars]) h.read rfl rfl rfl⟩
        simp [ReturnState.step, ReturnState.give, ReturnState.at_, h.vars, hv, R.ofOption]
      | temp u =>
        cases hi
        refine ⟨{ s with temps := (s.temps ++ [some u]).set s.temps.length (some (after u)), kept := s.kept ++ [.store u] }, ?_,
          h.add h.vars h.read rfl rfl rfl⟩
        simp [ReturnState.step, ReturnState.give, ReturnState.at_, R.ofOption]
  | answer n =>
    simp only [Promises.step] at hi
    cases hp : i.promises[n]? with
    | none => simp [hp] at hi
    | some p =>
      have hn : n < s.kept.length := by rw [h.len]; exact (List.getElem?_eq_some_iff.1 hp).1
      have hk := List.getElem?_eq_getElem hn
      have hkeep := h.kept n _ p hk hp
      revert hk hkeep
      generalize s.kept[n] = k
      intro hk hkeep
      cases p with
      | value v =>
        simp only [hp, Option.some.injEq] at hi
        subst hi
        cases k with
        | copy u =>
          simp only [Keeps] at hkeep
          subst hkeep
          exact ⟨{ s with read := s.read ++ [u] }, by simp [ReturnState.step, ReturnState.answer, hk, R.ofOption], h.vars, by simp [h.read], h.len, h.kept⟩
        | ref q => cases q <;> exact hkeep.elim
        | store u => exact hkeep.elim
      | variable_ c =>
        simp only [hp, Option.map_eq_some_iff] at hi
        obtain ⟨v, hv, rfl⟩ := hi
        cases k with
        | copy u => exact hkeep.elim
        | store u => exact hkeep.elim
        | ref q =>
          cases q with
          | temp t => exact hkeep.elim
          | var d =>
            simp only [Keeps] at hkeep
            subst hkeep
            exact ⟨{ s with read := s.read ++ [v] }, by simp [ReturnState.step, ReturnState.answer, hk, R.ofOption, ReturnState.at_, h.vars, hv], h.vars,
              by simp [h.read], h.len, h.kept⟩
      | onlyOnce x =>
        cases x with
        | none => simp [hp] at hi
        | some v =>
          simp only [hp, Option.some.injEq] at hi
          subst hi
          cases k with
          | copy u => exact hkeep.elim
          | ref q => cases q <;> exact hkeep.elim
          | store u =>
            simp only [Keeps] at hkeep
            subst hkeep
            refine ⟨{ s with kept := s.kept.set n (.store (after u)), read := s.read ++ [u] }, by simp [ReturnState.step, ReturnState.answer, hk, R.ofOption],
              h.vars, by simp [h.read], by simp [h.len], fun m k' p' h1 h2 => ?_⟩
            by_cases hm : n = m
            · subst hm
              simp only [List.getElem?_set_self hn, Option.some.injEq] at h1
              simp only [List.getElem?_set_self (show n < i.promises.length by rw [← h.len]; exact hn), Option.some.injEq] at h2
              subst h1 h2
              trivial
            · simp only [List.getElem?_set_ne hm] at h1 h2
              exact h.kept m k' p' h1 h2

private theorem run65 {after : A → A} : ∀ {os : List (ReturnOp A)} {s : ReturnState A} {i i' : Promises A}, Agree65 s i → i.run after os = some i' →
    ∃ s', s.run after os = .done s' ∧ Agree65 s' i'
  | [], s, i, i', h, hi => by cases hi; exact ⟨s, rfl, h⟩
  | o :: os, s, i, i', h, hi => by
    simp only [Promises.run, Option.bind_eq_some_iff] at hi
    obtain ⟨i1, hi1, hi2⟩ := hi
    obtain ⟨s1, h1, ha1⟩ := step65 h hi1
    obtain ⟨s2, h2, ha2⟩ := run65 ha1 hi2
    exact ⟨s2, by simp only [ReturnState.run, h1, R.bind_done, h2], ha2⟩

/-- C65: callers read what the statement promised: the value `x` had in the statement `Return(x)`, whatever happens to `x` later; for methods returning references the
variable itself with its current value; for values that cannot be copied, the value given up, once. Not included: references to temporaries and to variables that
are gone, where it is false (the next theorem). -/
theorem C65_callers_read_what_was_promised_partial (after : A → A) {os : List (ReturnOp A)} {i : Promises A} (hi : Promises.run after {} os = some i) :
    ∃ s, ReturnState.run after {} os = .done s ∧ s.read = i.read := by
  obtain ⟨s, h, ha⟩ := run65 (s := {}) (i := {}) ⟨rfl, rfl, rfl, fun n k p h1 _ => by simp at h1⟩ hi
  exact ⟨s, h, ha.read⟩

/-- Case: `int x = 4; ... Return(x); ... Return(x)` of a method returning references, `... Return(std::move(x))` of a method returning values that cannot be copied;
`x = 9`; the first two are called; `x` goes out of scope; the first and the third are called. -/
example : ∃ s, ReturnState.run (fun _ => 0) {} [.declare 4, .give .value (.var 0), .semicolon, .give .reference (.var 0), .semicolon, .give .moveOnly (.moved 0),
    .semicolon, .assign 0 9, .answer 0, .answer 1, .leave 0, .answer 0, .answer 2] = .done s ∧ s.read = [4, 9, 4, 4] :=
  C65_callers_read_what_was_promised_partial (fun _ => 0) (i := { vars := [none], promises := [.value 4, .variable_ 0, .onlyOnce none], read := [4, 9, 4, 4] }) (by rfl)

/-- C65: a method that returns a reference must not be stubbed with `Return(5)` (it compiles for `const int&`): reading the result is undefined, for all types and values.
Likewise for variables that are gone at the time of the call. -/
theorem C65_references_dangle (after : A → A) (v : A) :
    ReturnState.run after {} [.give .reference (.temp v), .semicolon, .answer 0] = .ub ∧
    ReturnState.run after {} [.declare v, .give .reference (.var 0), .semicolon, .leave 0, .answer 0] = .ub :=
  ⟨rfl, rfl⟩

end FakeIt
