import Verif.Spec.Select
import Verif.Model.Machine
/-!
# The reverse scan selects the newest accepting handler
-/
namespace FakeIt
variable {V E : Type}
open Spec

theorem derefAll_eq (heap : Addr → V) (args : List (Arg V)) : derefAll heap args = valuesOf heap args := by
  unfold derefAll valuesOf
  apply List.map_congr_left
  intro a _
  cases a <;> rfl

theorem matchArgs_false (ms : List (V → Bool)) (vs : List V) : matchArgs false ms vs = false := by
  induction ms generalizing vs with
  | nil => cases vs <;> rfl
  | cons m ms ih =>
    cases vs with
    | nil => rfl
    | cons v vs => simp only [matchArgs, Bool.false_eq_true, if_false]; exact ih vs

theorem matchArgs_true (ms : List (V → Bool)) (vs : List V) : matchArgs true ms vs = true ↔ Accepts (.args ms) vs := by
  induction ms generalizing vs with
  | nil =>
    cases vs with
    | nil => simp [matchArgs, Accepts]
    | cons v vs => simp [matchArgs, Accepts]
  | cons m ms ih =>
    cases vs with
    | nil => simp [matchArgs, Accepts]
    | cons v vs =>
      simp only [matchArgs, if_true]
      cases hm : m v with
      | false =>
        rw [matchArgs_false]
        simp only [Bool.false_eq_true, false_iff]
        intro h
        have := h.2 0 m v rfl rfl
        rw [hm] at this; cases this
      | true =>
        rw [ih]
        constructor
        · intro h
          refine ⟨by simpa using h.1, ?_⟩
          intro i m' v' hm' hv'
          cases i with
          | zero => simp at hm' hv'; subst hm'; subst hv'; exact hm
          | succ i => exact h.2 i m' v' (by simpa using hm') (by simpa using hv')
        · intro h
          exact ⟨by simpa using h.1, fun i m' v' hm' hv' => h.2 (i + 1) m' v' (by simpa using hm') (by simpa using hv')⟩

theorem matcherMatches_iff (addr : Option Addr) (kind : MatcherKind V) (heap : Addr → V) (inv : Invocation V)
    (h : ¬ (addr.isSome = true ∧ inv.matcher = addr)) :
    matcherMatches addr kind heap inv = true ↔ Accepts kind (valuesOf heap inv.args) := by
  have hc : (addr.isSome && inv.matcher == addr) = false := by
    cases hx : (addr.isSome && inv.matcher == addr) with
    | false => rfl
    | true => simp only [Bool.and_eq_true, beq_iff_eq] at hx; exact absurd hx h
  cases kind with
  | any => simp [matcherMatches, Accepts]
  | args ms => simp only [matcherMatches, hc, Bool.false_eq_true, if_false]; rw [matchArgs_true, derefAll_eq]
  | user p => simp only [matcherMatches, hc, Bool.false_eq_true, if_false, Accepts, derefAll_eq]

theorem accepts_iff (h : Handler V E) (heap : Addr → V) (inv : Invocation V) (hn : inv.matcher = none) :
    h.accepts heap inv = true ↔ Accepts h.matcher.kind (valuesOf heap inv.args) := by
  unfold Handler.accepts
  apply matcherMatches_iff
  rw [hn]; simp

theorem scanHandlers_some (heap : Addr → V) (inv : Invocation V) (l : List (Handler V E)) (h : Handler V E) :
    scanHandlers heap inv l = some h ↔ ∃ a b, l = a ++ h :: b ∧ h.accepts heap inv = true ∧ ∀ g ∈ a, g.accepts heap inv = false := by
  induction l with
  | nil => simp [scanHandlers]
  | cons x l ih =>
    simp only [scanHandlers]
    cases hx : x.accepts heap inv with
    | true =>
      simp only [if_true, Option.some.injEq]
      constructor
      · rintro rfl; exact ⟨[], l, rfl, hx, by simp⟩
      · rintro ⟨a, b, he, hh, ha⟩
        cases a with
        | nil => simp at he; exact he.1
        | cons y a =>
          simp only [List.cons_append, List.cons.injEq] at he
          have := ha y (by simp)
          rw [← he.1, hx] at this; cases this
    | false =>
      simp only [Bool.false_eq_true, if_false, ih]
      constructor
      · rintro ⟨a, b, rfl, hh, ha⟩
        refine ⟨x :: a, b, rfl, hh, ?_⟩
        intro g hg
        rcases List.mem_cons.1 hg with rfl | hg
        · exact hx
        · exact ha g hg
      · rintro ⟨a, b, he, hh, ha⟩
        cases a with
        | nil =>
          simp only [List.nil_append, List.cons.injEq] at he
          rw [← he.1, hx] at hh; cases hh
        | cons y a =>
          simp only [List.cons_append, List.cons.injEq] at he
          exact ⟨a, b, he.2, hh, fun g hg => ha g (by simp [hg])⟩

theorem scanHandlers_none (heap : Addr → V) (inv : Invocation V) (l : List (Handler V E)) :
    scanHandlers heap inv l = none ↔ ∀ g ∈ l, g.accepts heap inv = false := by
  induction l with
  | nil => simp [scanHandlers]
  | cons x l ih =>
    simp only [scanHandlers]
    cases hx : x.accepts heap inv with
    | true => simp [hx]
    | false => simp [hx, ih]

theorem findHandler_some (heap : Addr → V) (inv : Invocation V) (hn : inv.matcher = none) (l : List (Handler V E)) (h : Handler V E) :
    findHandler heap l inv = some h ↔ Selected l (valuesOf heap inv.args) h := by
  unfold findHandler
  rw [scanHandlers_some]
  constructor
  · rintro ⟨a, b, he, hh, ha⟩
    refine ⟨b.reverse, a.reverse, ?_, (accepts_iff h heap inv hn).1 hh, ?_⟩
    · have := congrArg List.reverse he
      simpa using this
    · intro g hg hacc
      have := ha g (by simpa using hg)
      rw [(accepts_iff g heap inv hn).2 hacc] at this; cases this
  · rintro ⟨older, newer, rfl, hh, hnew⟩
    refine ⟨newer.reverse, older.reverse, by simp, (accepts_iff h heap inv hn).2 hh, ?_⟩
    intro g hg
    cases hx : g.accepts heap inv with
    | false => rfl
    | true => exact absurd ((accepts_iff g heap inv hn).1 hx) (hnew g (by simpa using hg))

theorem findHandler_none (heap : Addr → V) (inv : Invocation V) (hn : inv.matcher = none) (l : List (Handler V E)) :
    findHandler heap l inv = none ↔ NoneAccepts l (valuesOf heap inv.args) := by
  unfold findHandler
  rw [scanHandlers_none]
  constructor
  · intro h g hg hacc
    have := h g (by simpa using hg)
    rw [(accepts_iff g heap inv hn).2 hacc] at this; cases this
  · intro h g hg
    cases hx : g.accepts heap inv with
    | false => rfl
    | true => exact absurd ((accepts_iff g heap inv hn).1 hx) (h g (by simpa using hg))

theorem Spec.Selected.mem {l : List (Handler V E)} {vs : List V} {h : Handler V E} (hs : Selected l vs h) : h ∈ l := by
  obtain ⟨a, b, rfl, -, -⟩ := hs; simp

/-- A user callable that finishes ends with one of its outcomes. -/
theorem runBody_ends (P : Prog V E) (call : CallFn V E) (fr : Option Frame) (args : List (Arg V)) (b : Body V E) (w : World V E)
    (o : Outcome V E) (w' : World V E) (h : runBody P call fr args b w = .done (o, w')) : Ends b o := by
  induction b generalizing w with
  | done o' =>
    simp only [runBody, R.done.injEq, Prod.mk.injEq] at h
    rw [← h.1]; exact .done _
  | setArg i v k ih => exact .setArg (ih _ h)
  | call m off as k ih =>
    simp only [runBody, R.bind_eq_done] at h
    obtain ⟨⟨o1, w1⟩, h1, h2⟩ := h
    exact .call o1 (ih o1 _ h2)
  | api a k ih =>
    simp only [runBody, R.bind_eq_done] at h
    obtain ⟨⟨w1, o1⟩, h1, h2⟩ := h
    exact .api o1 (ih o1 _ h2)

end FakeIt
