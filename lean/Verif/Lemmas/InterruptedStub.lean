import Verif.Spec.Interrupted
import Verif.Props.Building
import Verif.Lemmas.RefineTotal
import Verif.Lemmas.RefineRun
/-!
# Stubbing statements that exceptions interrupt: lemmas
-/
namespace FakeIt.Spec.Interrupted
open FakeIt.Building (St statement Res)
open FakeIt.Spec.Building (Holds steps arity actions)

variable {V E X : Type} {P : Prog V E} {th : Nat → Option X}

theorem holds_wf {s s' : St} {more : List Nat} (hw : FakeIt.Spec.Building.Wf s) (h : Holds s more s') : FakeIt.Spec.Building.Wf s' := by
  intro id hi
  rcases List.mem_append.mp (h.1.mem_iff.mp hi) with hi | hi
  · exact Nat.lt_of_lt_of_le (hw id hi) h.2.2.2
  · exact (h.2.2.1 id hi).2

/-- How a stubbing statement ends. -/
theorem statement_ends (c : FakeIt.Building.Crit) (f : FakeIt.Building.Form) {s s' : St} {r : Res X Unit} (hw : FakeIt.Spec.Building.Wf s) (h : statement th c f s = .done (r, s')) :
    FakeIt.Spec.Building.Wf s' ∧ ((∃ x, r = .exc x ∧ s'.stubs = s.stubs) ∨ (r = .ok () ∧ ∃ t, s'.stubs = s.stubs ++ [t] ∧ t.parts.length = arity c ∧ t.acts.length = actions f)) := by
  have hr := FakeIt.Building.statement_run (th := th) c f hw
  unfold FakeIt.Building.wp at hr
  rw [h] at hr
  cases r with
  | ok u =>
    obtain ⟨t, hat, -, hp, ha⟩ := hr
    exact ⟨holds_wf hw hat.1, .inr ⟨rfl, t, hat.2.1, hp, ha⟩⟩
  | exc x =>
    obtain ⟨b, o, left, -, -, hs, hh, -⟩ := FakeIt.Building.Broke.first hr
    exact ⟨holds_wf hw hh, .inl ⟨x, rfl, hs⟩⟩

/-- A stubbing statement in the library. -/
theorem stub_step {s : AState V E} {m off : Nat} {k : AMock V E} {l : List (Stub V E)} (hk : s.mocks[m]? = some k) (hl : k.stubs off = some l) (hc : Stubbable P k off) (x : Stubbing V E) (hx : writable x.acts = true) (ctr : Nat) :
    ∃ o s' k' n, aStep P s (stubOp m off ctr x) = some (o, s') ∧ s'.mocks[m]? = some k' ∧ k'.stubs off = some (⟨n, x.kind, x.acts⟩ :: l) ∧ Stubbable P k' off := by
  have hh : hook s m k off = s := by simp [hook, hl]
  have hm : ∀ ctr, mention P s m (.meth off ctr) = some (some s) := by
    intro ctr
    simp only [mention, hk, hc.1, if_true, if_pos (And.intro hc.2.1 hc.2.2), hh]
  have hi : ∀ ctr, install P s ⟨m, .meth off ctr, x.kind⟩ x.acts = some { s with
          mocks := s.mocks.modify m fun k => k.onStubs off fun l => ⟨nameOf s, x.kind, x.acts⟩ :: l
          installed := s.installed + 1 } := by
    intro ctr
    simp only [install, hk, methodOf]
    rw [if_pos ⟨hc.1, hx, by simp [hl]⟩]
  refine ⟨.api (.matcher (nameOf s)), { s with mocks := s.mocks.modify m fun k => k.onStubs off fun l => ⟨nameOf s, x.kind, x.acts⟩ :: l, installed := s.installed + 1 },
    k.onStubs off fun l => ⟨nameOf s, x.kind, x.acts⟩ :: l, nameOf s, ?_, ?_, ?_, ?_⟩
  · cases x with
    | when_ kind acts => simp only [stubOp, aStep, aApi, aStubOne, hm, Option.bind_eq_bind, Option.bind_some, Bool.false_eq_true, if_false]; rw [show install P s ⟨m, .meth off ctr, kind⟩ acts = _ from hi ctr]; rfl
    | assign kind f => simp only [stubOp, aStep, aApi, aStubOne, hm, Option.bind_eq_bind, Option.bind_some, Bool.false_eq_true, if_false]; rw [show install P s ⟨m, .meth off ctr, kind⟩ [.forever f] = _ from hi ctr]; rfl
  · simp only [List.getElem?_modify, hk, if_true]; rfl
  · simp [AMock.onStubs, hl]
  · exact hc

/-- Several statements. -/
theorem stubs_run {m off ctr : Nat} : ∀ (xs : List (Stubbing V E)) (_ : ∀ x ∈ xs, writable x.acts = true) {s : AState V E} {k : AMock V E} (_ : s.mocks[m]? = some k) (_ : Stubbable P k off) {st st' : St} (_ : FakeIt.Spec.Building.Wf st)
    (_ : HasStubs s m off st) {bs : List Bool} (_ : attempts th xs st = .done (bs, st')),
    ∃ (outs : List (OpOut V E)) (s' : AState V E), aRun P s ((passed xs bs).map (stubOp m off ctr)) = some (outs, s') ∧ HasStubs s' m off st' ∧ bs.length = xs.length := by
  intro xs
  induction xs with
  | nil =>
    intro _ s k _ _ st st' _ hst bs h
    cases h
    exact ⟨[], s, rfl, hst, rfl⟩
  | cons x xs ih =>
    intro hx s k hk hc st st' hw hst bs h
    obtain ⟨k', l, h1, h2, h3⟩ := hst
    rw [hk] at h1
    cases h1
    unfold attempts at h
    cases hs : statement th (critOf x.kind) x.form st with
    | ub => rw [hs] at h; cases h
    | oof => rw [hs] at h; cases h
    | done p =>
      obtain ⟨r, st1⟩ := p
      rw [hs] at h
      obtain ⟨hw1, he⟩ := statement_ends _ _ hw hs
      rcases he with ⟨e, rfl, he⟩ | ⟨rfl, t, he, hp, ha⟩
      · simp only [R.bind_done] at h
        cases hr : attempts th xs st1 with
        | ub => rw [hr] at h; cases h
        | oof => rw [hr] at h; cases h
        | done q =>
          obtain ⟨bs1, st2⟩ := q
          rw [hr] at h
          cases h
          obtain ⟨outs, s', i1, i2, i3⟩ := ih (fun y hy => hx y (by simp [hy])) hk hc hw1 ⟨k, l, hk, h2, by rw [he]; exact h3⟩ hr
          exact ⟨outs, s', i1, i2, by simp [i3]⟩
      · simp only [R.bind_done] at h
        cases hr : attempts th xs st1 with
        | ub => rw [hr] at h; cases h
        | oof => rw [hr] at h; cases h
        | done q =>
          obtain ⟨bs1, st2⟩ := q
          rw [hr] at h
          cases h
          obtain ⟨o, s1, k1, n, j1, j2, j3, j4⟩ := stub_step hk h2 hc x (hx x (by simp)) ctr
          have hact : actions x.form = x.acts.length := by cases x <;> rfl
          obtain ⟨outs, s', i1, i2, i3⟩ := ih (fun y hy => hx y (by simp [hy])) j2 j4 hw1 ⟨k1, _, j2, j3, by
            rw [he]
            simp only [List.reverse_append, List.reverse_cons, List.reverse_nil, List.nil_append, List.singleton_append, List.map_cons, h3, hp, ha, hact]⟩ hr
          refine ⟨o :: outs, s', ?_, i2, by simp [i3]⟩
          simp only [passed, if_true, List.map_cons, aRun, j1, Option.bind_eq_bind, Option.bind_some]
          rw [i1]
          rfl

theorem passed_sublist : ∀ (xs : List (Stubbing V E)) (bs : List Bool), (passed xs bs).Sublist xs
  | [], _ => by cases ‹List Bool› <;> exact .slnil
  | x :: xs, [] => by simp [passed]
  | x :: xs, b :: bs => by
    cases b with
    | true => simp only [passed, if_true]; exact .cons_cons _ (passed_sublist xs bs)
    | false => simp only [passed, Bool.false_eq_true, if_false]; exact .cons _ (passed_sublist xs bs)

theorem small_sublist {a b c : List (Op V E)} (h : b.Sublist c) (hs : Small (a ++ c)) : Small (a ++ b) := by
  have h1 := hs.1
  have h2 := hs.2
  have h3 := h.length_le
  have h4 : (b.map Op.mentions).sum ≤ (c.map Op.mentions).sum := by
    clear hs h1 h2 h3
    induction h with
    | slnil => exact Nat.le_refl _
    | cons x _ ih => simp only [List.map_cons, List.sum_cons]; omega
    | cons_cons x _ ih => simp only [List.map_cons, List.sum_cons]; omega
  simp only [List.length_append, List.map_append, List.sum_append] at h1 h2
  exact ⟨by simp only [List.length_append]; omega, by simp only [List.map_append, List.sum_append]; omega⟩

end FakeIt.Spec.Interrupted
