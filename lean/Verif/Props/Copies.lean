import Verif.Lemmas.Copies
/-!
# C76: copies of a mock

The claim: a mock can be copied (passed by value, kept in a container, captured by value), and all copies stand for the same mock until the last one ends.
-/
namespace FakeIt.Copies
open Spec

/-- The claim is false. No test that ends two of the copies (the original counts as one) is defined, whatever it does before, between and after. -/
theorem C76_two_copies_cannot_end (size : Nat) (spied : Bool) (before between after : List Op) (a b : Nat) :
    (start size spied).run (before ++ .destroy a :: (between ++ .destroy b :: after)) = .ub := by
  refine ub_of_not_done fun p h => ?_
  obtain ⟨s1, as1, as2, h1, h2, -⟩ := run_append h
  obtain ⟨s2, a', as', h3, h4, -⟩ := run_cons h2
  obtain ⟨s3, as3, as4, h5, h6, -⟩ := run_append h4
  obtain ⟨s4, a'', as'', h7, -, -⟩ := run_cons h6
  have p1 := (run_plain (start_plain size spied) h1).1
  have p2 := step_plain p1 h3
  have d := destroy_done h3
  have p3 := run_plain p2.1 h5
  exact (destroy_done h7).1 (p3.2 d.2.1 d.2.2).1

/-- Up to the second end the test may be fine. -/
example : ((start 1 true).run [.stub 0 0 5 7, .copy 0, .call 0, .destroy 1]).bind (fun p => .done p.2) = .done [.nothing, .nothing, .value 7, .nothing] := by decide +kernel
example : ((start 1 true).run [.stub 0 0 5 7, .copy 0, .call 0, .destroy 1, .destroy 0]) = .ub := C76_two_copies_cannot_end 1 true [.stub 0 0 5 7, .copy 0, .call 0] [] [] 1 0

/-- After the end of any copy of a mock with a fake object no call of a method is defined, although the others are still alive. -/
theorem C76_a_copy_takes_the_fake_object_away (size : Nat) (before between : List Op) (a slot : Nat) :
    (start size false).run (before ++ .destroy a :: (between ++ [.call slot])) = .ub := by
  refine ub_of_not_done fun p h => ?_
  obtain ⟨s1, as1, as2, h1, h2, -⟩ := run_append h
  obtain ⟨s2, a', as', h3, h4, -⟩ := run_cons h2
  obtain ⟨s3, as3, as4, h5, h6, -⟩ := run_append h4
  obtain ⟨s4, a'', as'', h7, -, -⟩ := run_cons h6
  have p1 := (run_plain (start_plain size false) h1).1
  have p2 := step_plain p1 h3
  have d := destroy_done h3
  have p3 := run_plain p2.1 h5
  have e := (call_detached p3.1 (p3.2 d.2.1 d.2.2).2 h7).1
  have e1 := spied_run h1
  have e2 := spied_step h3
  have e3 := spied_run h5
  rw [e3, e2, e1] at e
  simp [start] at e

/-- The mock is used through the original only, and the copy ends. -/
example : ((start 1 false).run [.stub 0 0 5 7, .call 0, .copy 0, .destroy 1]).bind (fun p => .done p.2) = .done [.nothing, .value 7, .nothing, .nothing] := by decide +kernel
example : (start 1 false).run [.stub 0 0 5 7, .call 0, .copy 0, .destroy 1, .call 0] = .ub := C76_a_copy_takes_the_fake_object_away 1 [.stub 0 0 5 7, .call 0, .copy 0] [] 1 0

/-- After the end of any copy of a mock of an existing object all calls reach the object's own implementations: the stubbings are lost, although the others are still alive. -/
theorem C76_a_copy_takes_the_stubbings_away (size : Nat) (before between : List Op) (a slot : Nat) {s : State} {as : List Ans}
    (h : (start size true).run (before ++ .destroy a :: (between ++ [.call slot])) = .done (s, as)) : as.getLast? = some .native := by
  obtain ⟨s1, as1, as2, h1, h2, hx⟩ := run_append h
  obtain ⟨s2, a', as', h3, h4, hy⟩ := run_cons h2
  obtain ⟨s3, as3, as4, h5, h6, hz⟩ := run_append h4
  obtain ⟨s4, a'', as'', h7, h8, hw⟩ := run_cons h6
  have p1 := (run_plain (start_plain size true) h1).1
  have p2 := step_plain p1 h3
  have d := destroy_done h3
  have p3 := run_plain p2.1 h5
  have e := (call_detached p3.1 (p3.2 d.2.1 d.2.2).2 h7).2
  simp only [Prod.mk.injEq] at e
  obtain ⟨-, rfl⟩ := e
  simp only [State.run, R.done.injEq, Prod.mk.injEq] at h8
  obtain ⟨-, rfl⟩ := h8
  simp only at hx hy hz hw
  subst hw; subst hz; subst hy; subst hx
  rw [show as1 ++ a' :: (as3 ++ [Ans.native]) = (as1 ++ a' :: as3) ++ [Ans.native] by simp]
  exact List.getLast?_concat

example : ((start 1 true).run [.stub 0 0 5 7, .call 0, .copy 0, .destroy 1, .call 0]).bind (fun p => .done p.2) = .done [.nothing, .value 7, .nothing, .nothing, .native] := by decide +kernel

/-- While all copies are alive: stubbing a method through a copy that does not know it (it was not mentioned through the copy, nor before the copy was made) makes calls of it undefined, even if
the method was stubbed through the original. -/
theorem C76_new_methods_of_copies_are_undefined (size : Nat) (spied : Bool) {ops : List Op} {w : World} {as : List Ans} (h : (World.start size spied).run ops = some (w, as))
    {m slot id v : Nat} {knows : Nat → Bool} (hm : m ≠ 0) (hk : w.knows[m]? = some knows) (hs : slot < size) (hn : knows slot = false) (hid : id ∉ w.used) :
    (start size spied).run (ops ++ [.stub m slot id v, .call slot]) = .ub := by
  obtain ⟨s, h1, h2⟩ := rel_run (.inl (rel_start size spied)) h
  have hsz : w.size = size := world_size h
  rcases h2 with ⟨k0, es, r⟩ | r
  · refine ub_of_not_done fun p hp => ?_
    obtain ⟨s1, as1, as2, h3, h4, -⟩ := run_append hp
    rw [h1] at h3
    simp only [R.done.injEq, Prod.mk.injEq] at h3
    obtain ⟨rfl, -⟩ := h3
    obtain ⟨s2, a1, as3, h5, h6, -⟩ := run_cons h4
    obtain ⟨s3, a2, as4, h7, -, -⟩ := run_cons h6
    exact foreign_method r hm hk (by rw [hsz]; exact hs) hn hid h5 h7
  · rw [r.knows] at hk
    simp at hk

example : (start 2 false).run [.stub 0 0 5 7, .copy 0, .call 0, .stub 1 1 6 8, .call 1] = .ub := by
  refine C76_new_methods_of_copies_are_undefined 2 false (ops := [.stub 0 0 5 7, .copy 0, .call 0]) (m := 1) rfl (by decide) rfl (by decide) (by decide +kernel) (by decide +kernel)

/-- A helper function may use the same method expression for both: then the stubbing through the copy is without effect. -/
theorem C76_stubbing_through_a_copy_may_be_lost :
    ((start 1 false).run [.copy 0, .stub 0 0 5 7, .stub 1 0 5 8, .call 0, .count 0 0 5, .count 1 0 5]).bind (fun p => .done p.2) =
      .done [.nothing, .nothing, .nothing, .value 7, .count 1, .count 0] := by decide +kernel

/-- What is missing: tests in which a copied mock or a copy ends or is reset, or in which a copy is asked for a method it does not know. All other tests (as far as modelled) are defined, and all
names mean the same mock: a stubbing through one of them acts on all, and each counts all calls. -/
theorem C76_copies_are_one_mock_partial (size : Nat) (spied : Bool) {ops : List Op} {w : World} {as : List Ans} (h : (World.start size spied).run ops = some (w, as)) :
    ∃ s, (start size spied).run ops = .done (s, as) := by
  obtain ⟨s, h1, -⟩ := rel_run (.inl (rel_start size spied)) h
  exact ⟨s, h1⟩

/-- Stubbing through the copy, stubbing a further method through the original, counting through both, a copy of a copy. -/
example : ((World.start 2 true).run [.stub 0 0 5 7, .call 1, .copy 0, .stub 1 0 9 8, .call 0, .count 0 0 3, .stub 0 1 4 6, .call 1, .copy 1, .count 2 0 5]).map Prod.snd =
    some [.nothing, .native, .nothing, .nothing, .value 8, .count 1, .nothing, .value 6, .nothing, .count 1] := by decide +kernel

/-- Without copies: reset, and the end. -/
example : ((World.start 2 true).run [.stub 0 0 5 7, .call 0, .reset 0, .call 0, .stub 0 0 6 8, .call 0, .destroy 0, .call 0]).map Prod.snd =
    some [.nothing, .value 7, .nothing, .native, .nothing, .value 8, .nothing, .native] := by decide +kernel

end FakeIt.Copies
