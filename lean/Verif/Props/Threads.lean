import Verif.Lemmas.ThreadsRun
import Verif.Lemmas.Trace
import Verif.Lemmas.Reported
import Verif.Props.Demo
/-!
# C73: calls from several threads

The model cuts every call into the steps between which other threads may run (`Model/Threads.lean`).  The claim one would like is that calls from several threads always behave
like the same calls made one after the other in some order.  It is false for threads that call the same method and true for threads that call different methods.
-/
namespace FakeIt
open Spec Threads
variable {V E : Type} {P : Prog V E} {nm : MockId → Nat → Nat}

namespace Spec

/-- Different threads call different methods (of the same or of different mocks). -/
def DifferentMethods (progs : List (List (Job V))) : Prop :=
  ∀ (t t' : Nat) (js js' : List (Job V)) (j j' : Job V), progs[t]? = some js → progs[t']? = some js' → t ≠ t' → j ∈ js → j' ∈ js' → ¬ (j.m = j'.m ∧ j.off = j'.off)

/-- `order` says which thread makes which call when; every thread makes its own calls in its own order. -/
def Interleaves (progs : List (List (Job V))) (order : List (Nat × Job V)) : Prop :=
  (∀ x ∈ order, x.1 < progs.length) ∧ ∀ (t : Nat) (js : List (Job V)), progs[t]? = some js → (order.filter (·.1 == t)).map (·.2) = js

/-- The calls as a test program without threads. -/
def inTurn (order : List (Nat × Job V)) : List (Op V E) := order.map fun x => .call x.2.m x.2.off (x.2.args.map .val)

/-- What the calls of thread `t` gave. -/
def answersOf {α : Type} (t : Nat) (order : List (Nat × Job V)) (outs : List α) : List α := ((order.zip outs).filter (·.1.1 == t)).map (·.2)

/-- The execution could have been one without threads: the same calls in some order give every caller the same, leave the same mocks, and report the same events. -/
def LikeInTurn (P : Prog V E) (n : Nat) (w : World V E) (progs : List (List (Job V))) (c : Config V E) : Prop :=
  ∃ (order : List (Nat × Job V)) (outs : List (Outcome V E)) (w' : World V E), Interleaves progs order ∧ runOps P n w (inTurn order) = .done (outs.map .call, w') ∧
    (∀ (t : Nat) (th : Thread V E), c.ts[t]? = some th → th.outs = answersOf t order outs) ∧
    w'.mocks = c.w.mocks ∧ w'.heap = c.w.heap ∧ w'.invTotal = c.w.invTotal ∧ w'.methTotal = c.w.methTotal ∧ w'.alloc = c.w.alloc ∧ c.w.log.Perm w'.log

/-- Whatever the test does next (calls, stubbing, verification, callbacks included) gives the same in both worlds, leaves the same mocks and variables, and is reported alike. -/
def SameSince (P : Prog V E) (a b : World V E) : Prop :=
  ∀ (n : Nat) (rest : List (Op V E)),
    (∀ outs a', runOps P n a rest = .done (outs, a') → ∃ b', runOps P n b rest = .done (outs, b') ∧ a'.mocks = b'.mocks ∧ a'.heap = b'.heap ∧ a'.invTotal = b'.invTotal ∧
      a'.methTotal = b'.methTotal ∧ a'.alloc = b'.alloc ∧ ∃ new, a'.log = a.log ++ new ∧ b'.log = b.log ++ new) ∧
    (runOps P n a rest = .ub ↔ runOps P n b rest = .ub) ∧ (runOps P n a rest = .oof ↔ runOps P n b rest = .oof)

end Spec

/-- Threads that call different methods, in any interleaving of the steps of their calls: when all are through, everything is as if the calls had been made one after the other, in some
order that keeps each thread's own order.  Records, ordinals, action lists and virtual tables are exactly those of that order; events may be reported in another order. -/
theorem C73_threads_behave_like_turns_partial (hP : P.Named nm) {w : World V E} (hw : Reach P nm w) {progs : List (List (Job V))} (hd : DifferentMethods progs) {sched : List Nat}
    {c : Config V E} (h : trun P (begin_ w progs) sched = some c) (ho : c.over) (n : Nat) : LikeInTurn P (n + 2) w progs c := by
  have hget : ∀ (t : Nat) (th : Thread V E), (begin_ w progs).ts[t]? = some th → ∃ js, progs[t]? = some js ∧ th = { jobs := js, cur := none, outs := [] } := by
    intro t th ht
    unfold begin_ at ht
    rw [List.getElem?_map] at ht
    obtain ⟨js, h1, h2⟩ := Option.map_eq_some_iff.1 ht
    exact ⟨js, h1, h2.symm⟩
  have hA : Threads.Apart (begin_ w progs) := by
    intro t t' th th' j j' h1 h2 hne hj hj'
    obtain ⟨js, e1, rfl⟩ := hget _ _ h1
    obtain ⟨js', e2, rfl⟩ := hget _ _ h2
    exact hd t t' js js' j j' e1 e2 hne (by simpa [Thread.all] using hj) (by simpa [Thread.all] using hj')
  have hU : Uniq (begin_ w progs).w := by
    intro m off b hb
    apply (hw.wf hP).inv2.nodup (m := m) (off := off)
    unfold bodyAt begin_ at hb
    unfold World.body? Mock.body?
    cases hk : w.mocks[m]? with
    | none => rw [hk] at hb; cases hb
    | some k =>
      rw [hk] at hb
      have : k.mocks[off]? = some (some b) := hb
      show (k.mocks[off]?).join = _
      rw [this]; rfl
  have hS : Sound (begin_ w progs) := by
    intro t th j ph h1 h2
    obtain ⟨js, -, rfl⟩ := hget _ _ h1
    cases h2
  obtain ⟨fut, order, outs, rest, L⟩ := lin (n := n) ho sched hA hU hS h
  have hfut : ∀ t, t < progs.length → fut t = none := by
    intro t ht
    exact L.rests t { jobs := progs[t], cur := none, outs := [] } (by unfold begin_; rw [List.getElem?_map, List.getElem?_eq_getElem ht]; rfl) rfl
  have hlen : (begin_ w progs).ts.length = progs.length := by unfold begin_; simp
  obtain ⟨w', e1, e2, e3⟩ := L.run w
    { shell := rfl, heap := rfl, inv := rfl, meth := rfl, alloc := rfl, free := fun _ _ _ => ⟨rfl, rfl⟩,
      busy := by
        intro t th j ph f h1 h2 _
        obtain ⟨js, -, rfl⟩ := hget _ _ h1
        cases h2 }
  refine ⟨order, outs, w', ⟨?_, ?_⟩, e1, ?_, e3.mocks, e3.heap, e3.inv, e3.meth, e3.alloc, ?_⟩
  · intro x hx; rw [← hlen]; exact L.ids x hx
  · intro t js ht
    exact L.jobs t { jobs := js, cur := none, outs := [] } (by unfold begin_; rw [List.getElem?_map, ht]; rfl)
  · intro t th ht
    have hlt : t < progs.length := by
      rw [← hlen, ← L.size]; exact (List.getElem?_eq_some_iff.mp ht).1
    have := L.ends t { jobs := progs[t], cur := none, outs := [] } th (by unfold begin_; rw [List.getElem?_map, List.getElem?_eq_getElem hlt]; rfl) ht
    rw [hfut t hlt] at this
    rw [this]; rfl
  · have hp : pending fut (begin_ w progs).ts.length = [] := by
      unfold pending
      rw [List.flatMap_eq_nil_iff]
      intro t ht
      rw [hfut t (by rw [← hlen]; exact List.mem_range.mp ht)]; rfl
    have := L.log
    rw [hp, List.append_nil] at this
    rw [e2]; exact this

private theorem sameSince {a b : World V E} (h : ∃ w : World V E, a = w.pre a.log ∧ b = w.pre b.log ∧ w.log = []) : SameSince P a b := by
  obtain ⟨w, ha, hb, hw⟩ := h
  intro n rest
  have e1 : runOps P n a rest = preR a.log (runOps P n w rest) := by rw [← pre_runOps, ← ha]
  have e2 : runOps P n b rest = preR b.log (runOps P n w rest) := by rw [← pre_runOps, ← hb]
  rw [e1, e2]
  cases runOps P n w rest with
  | ub => exact ⟨nofun, Iff.rfl, by simp [preR]⟩
  | oof => exact ⟨nofun, by simp [preR], Iff.rfl⟩
  | done r =>
    obtain ⟨outs, v⟩ := r
    refine ⟨?_, by simp [preR], by simp [preR]⟩
    intro outs' a' h
    cases h
    exact ⟨v.pre b.log, rfl, rfl, rfl, rfl, rfl, rfl, v.log, rfl, rfl⟩

/-- And so it remains: when the threads are through, whatever the test does next, in particular verification, gives what it would have given after the same calls made one after the other in
an order that explains what the threads saw. -/
theorem C73_the_rest_is_as_after_turns_partial (hP : P.Named nm) {w : World V E} (hw : Reach P nm w) {progs : List (List (Job V))} (hd : DifferentMethods progs) {sched : List Nat}
    {c : Config V E} (h : trun P (begin_ w progs) sched = some c) (ho : c.over) (n : Nat) :
    ∃ (order : List (Nat × Job V)) (outs : List (Outcome V E)) (w' : World V E), Interleaves progs order ∧ runOps P (n + 2) w (inTurn order) = .done (outs.map .call, w') ∧
      (∀ (t : Nat) (th : Thread V E), c.ts[t]? = some th → th.outs = answersOf t order outs) ∧ SameSince P c.w w' := by
  obtain ⟨order, outs, w', h1, h2, h3, hm, hh, hi, hmt, ha, -⟩ := C73_threads_behave_like_turns_partial hP hw hd h ho n
  refine ⟨order, outs, w', h1, h2, h3, sameSince ⟨{ w' with log := [] }, ?_, ?_, rfl⟩⟩
  · cases hc : c.w with
    | mk => rw [hc] at hm hh hi hmt ha; simp only at hm hh hi hmt ha; subst hm hh hi hmt ha; simp [World.pre]
  · simp [World.pre]

/-- At no time are two of these threads inside the same method. -/
theorem C73_no_two_threads_in_one_method {w : World V E} {progs : List (List (Job V))} (hd : DifferentMethods progs) {sched : List Nat} {c : Config V E}
    (h : trun P (begin_ w progs) sched = some c) {t t' : Nat} {th th' : Thread V E} {j j' : Job V} {ph ph' : Phase V E} (ht : c.ts[t]? = some th) (ht' : c.ts[t']? = some th')
    (hj : th.cur = some (j, ph)) (hj' : th'.cur = some (j', ph')) (hne : t ≠ t') : ¬ (j.m = j'.m ∧ j.off = j'.off) := by
  have hA : Threads.Apart (begin_ w progs) := by
    intro t t' th th' j j' h1 h2 hne hj hj'
    unfold begin_ at h1 h2
    rw [List.getElem?_map] at h1 h2
    obtain ⟨js, e1, rfl⟩ := Option.map_eq_some_iff.1 h1
    obtain ⟨js', e2, rfl⟩ := Option.map_eq_some_iff.1 h2
    exact hd t t' js js' j j' e1 e2 hne (by simpa [Thread.all] using hj) (by simpa [Thread.all] using hj')
  have : Threads.Apart c := by
    generalize begin_ w progs = c0 at h hA
    induction sched generalizing c0 with
    | nil => cases h; exact hA
    | cons s sched ih =>
      unfold trun at h
      cases h1 : tstep P c0 s with
      | none => rw [h1] at h; cases h
      | some c1 => rw [h1] at h; exact ih c1 h (hA.step h1)
  exact this t t' th th' j j' ht ht' hne (cur_all hj) (cur_all hj')

namespace Demo

/-- Two mocks and a spied object; mock 0: method 0 returns 1, then 2, then 3, method 1 changes its argument; object 2: method 0 is spied. -/
def stage : List (Op Nat Nat) :=
  [.api (.newMock 0), .api (.newMock 0), .api (.newSpy 0), .api (.when_ (tgt 0 0 .any) [.rep 1 (.ret 1), .rep 1 (.ret 2), .rep 1 (.ret 3)] false),
   .api (.when_ (tgt 0 1 (eq 4)) [.rep 2 (.user 3)] false), .api (.spy false [tgt 2 0 .any])]

/-- Thread 0 calls method 0 of mock 0; thread 1 calls method 1 of mock 0, once with an argument nobody expects; thread 2 calls the spied method. -/
def crew : List (List (Job Nat)) := [[⟨0, 0, [7]⟩, ⟨0, 0, [8]⟩], [⟨0, 1, [4]⟩, ⟨0, 1, [5]⟩], [⟨2, 0, [6]⟩, ⟨2, 0, [6]⟩]]

/-- The threads take turns step by step. -/
def turns : List Nat :=
  [0, 1, 0, 2, 2, 1, 2, 2, 2, 2, 2, 1, 2, 2, 1, 1, 0, 1, 0, 1, 1, 0, 0, 1, 0, 2, 0, 0, 0, 2, 2, 0, 2, 0, 2, 1, 2, 1, 1, 0, 0, 0, 2, 0, 1, 0, 2, 2, 2, 2, 1, 2, 0, 2]

/-- Two threads that call the same method once each. -/
def rivals : List (List (Job Nat)) := [[⟨0, 0, [7]⟩], [⟨0, 0, [7]⟩]]

/-- Both have taken the first action before either has ended. -/
def collision : List Nat := [0, 0, 0, 0, 1, 1, 1, 1, 0, 0, 0, 0, 0, 1, 1, 1, 1, 1]

theorem stage_reach : Reach prog Demo.nm (after stage) := by
  have hops : ∀ op ∈ stage, op.Within (Api.Named Demo.nm) (fun _ _ => True) := by
    intro op hop
    simp only [stage, List.mem_cons, List.not_mem_nil, or_false] at hop
    rcases hop with rfl | rfl | rfl | rfl | rfl | rfl <;> intro x hx <;> simp [Api.slots, tgt] at hx <;> subst hx <;> exact ⟨rfl, by decide⟩
  have h : ∃ outs, runOps prog 5 (World.start heap0) stage = .done (outs, after stage) := ⟨_, rfl⟩
  obtain ⟨outs, h⟩ := h
  exact Reach.run stage hops (.start heap0) h

end Demo
open Demo

/-- Threads that call the same method can give what no order of the calls gives: `When(Method(mock, f)).Return(1).Return(2).Return(3)`, two threads call `f` once each, both get 1. -/
theorem C73_same_method_not_like_turns : ∃ c, trun prog (begin_ (after stage) rivals) collision = some c ∧ c.over ∧ ∀ n, ¬ LikeInTurn prog n (after stage) rivals c := by
  have hrun : ∃ c, trun prog (begin_ (after stage) rivals) collision = some c ∧ c.ts = [⟨[], none, [.ret 1]⟩, ⟨[], none, [.ret 1]⟩] := ⟨_, rfl, rfl⟩
  obtain ⟨c, h1, h2⟩ := hrun
  refine ⟨c, h1, ?_, ?_⟩
  · intro th hth
    rw [h2] at hth
    simp at hth
    rw [hth]; exact ⟨rfl, rfl⟩
  · rintro n ⟨order, outs, w', ⟨hid, hord⟩, hr, ha, -⟩
    have hjob : ∀ x ∈ order, x.2 = ⟨0, 0, [7]⟩ := by
      intro x hx
      have hlt := hid x hx
      have hmem : ∀ t js, rivals[t]? = some js → x.1 = t → x.2 ∈ js := by
        intro t js hjs hxt
        rw [← hord t js hjs]
        exact List.mem_map.mpr ⟨x, List.mem_filter.mpr ⟨hx, by simp [hxt]⟩, rfl⟩
      have : x.1 = 0 ∨ x.1 = 1 := by
        have : rivals.length = 2 := rfl
        omega
      rcases this with h | h
      · simpa using hmem 0 [⟨0, 0, [7]⟩] rfl h
      · simpa using hmem 1 [⟨0, 0, [7]⟩] rfl h
    have h0 := hord 0 [⟨0, 0, [7]⟩] rfl
    have h1' := hord 1 [⟨0, 0, [7]⟩] rfl
    match order, outs with
    | [], _ => cases h0
    | [x], _ =>
      by_cases hx : x.1 = 0
      · simp [hx] at h1'
      · simp [hx] at h0
    | x :: y :: rest, outs =>
      have ex := hjob x (by simp)
      have ey := hjob y (by simp)
      have hops : (inTurn (x :: y :: rest) : List (Op Nat Nat)) = .call 0 0 [.val 7] :: .call 0 0 [.val 7] :: inTurn rest := by
        unfold inTurn; simp [ex, ey]
      rw [hops] at hr
      match n with
      | 0 => cases hr
      | n + 1 =>
        have step : ∃ w1 w2, opStep prog (n + 1) (after stage) (.call 0 0 [.val 7]) = .done (.call (.ret 1), w1) ∧
            opStep prog (n + 1) w1 (.call 0 0 [.val 7]) = .done (.call (.ret 2), w2) := ⟨_, _, rfl, rfl⟩
        obtain ⟨w1, w2, s1, s2⟩ := step
        unfold runOps at hr
        rw [s1] at hr
        simp only [R.bind_done] at hr
        unfold runOps at hr
        rw [s2] at hr
        simp only [R.bind_done, R.bind_eq_done] at hr
        obtain ⟨a, ⟨b, hb1, hb2⟩, hr⟩ := hr
        cases hb2
        simp only [R.done.injEq, Prod.mk.injEq] at hr
        obtain ⟨hr, -⟩ := hr
        match outs, hr with
        | o1 :: o2 :: os, hr =>
          simp only [List.map_cons, List.cons.injEq, OpOut.call.injEq] at hr
          have e2 : o2 = .ret 2 := hr.2.1.symm
          have hlt := hid y (by simp)
          have hget : c.ts[y.1]? = some ⟨[], none, [.ret 1]⟩ := by
            have : rivals.length = 2 := rfl
            rw [h2]
            have : y.1 = 0 ∨ y.1 = 1 := by omega
            rcases this with h | h <;> rw [h] <;> rfl
          have := ha y.1 _ hget
          have hin : o2 ∈ answersOf y.1 (x :: y :: rest) (o1 :: o2 :: os) := by
            unfold answersOf
            exact List.mem_map.mpr ⟨(y, o2), List.mem_filter.mpr ⟨by simp, by simp⟩, rfl⟩
          rw [← this, e2] at hin
          simp at hin

/-- And the first action is never used up: later calls, one after the other, get 1 as well. -/
example : ∃ c w', trun prog (begin_ (after stage) rivals) collision = some c ∧
    runOps prog 3 c.w [.call 0 0 [.val 7], .call 0 0 [.val 7], .call 0 0 [.val 7]] = .done ([.call (.ret 1), .call (.ret 1), .call (.ret 1)], w') := ⟨_, _, rfl, rfl⟩

theorem crew_different : DifferentMethods crew := by
  intro t t' js js' j j' h1 h2 hne hj hj'
  have hlt : t < 3 := (List.getElem?_eq_some_iff.mp h1).1
  have hlt' : t' < 3 := (List.getElem?_eq_some_iff.mp h2).1
  have h : ∀ t : Nat, t < 3 → t = 0 ∨ t = 1 ∨ t = 2 := by omega
  rcases h t hlt with rfl | rfl | rfl <;> rcases h t' hlt' with rfl | rfl | rfl <;> first
    | exact absurd rfl hne
    | (cases h1; cases h2; simp at hj hj'; rcases hj with rfl | rfl <;> rcases hj' with rfl | rfl <;> simp)

/-- The hypotheses of `C73_threads_behave_like_turns_partial` hold for the crew: three threads, two of them on the same mock; one event is reported. -/
example : ∃ c, trun prog (begin_ (after stage) crew) turns = some c ∧ c.over ∧ LikeInTurn prog 2 (after stage) crew c ∧ c.w.log.length = 1 ∧
    c.ts.map (·.outs) = [[.ret 1, .ret 2], [.ret 1, .unexpected], [.ret 10, .ret 10]] := by
  have hrun : ∃ c, trun prog (begin_ (after stage) crew) turns = some c ∧ c.w.log.length = 1 ∧
      c.ts = [⟨[], none, [.ret 1, .ret 2]⟩, ⟨[], none, [.ret 1, .unexpected]⟩, ⟨[], none, [.ret 10, .ret 10]⟩] := ⟨_, rfl, rfl, rfl⟩
  obtain ⟨c, h1, h2, h3⟩ := hrun
  have ho : c.over := by
    intro th hth
    rw [h3] at hth
    simp at hth
    rcases hth with rfl | rfl | rfl <;> exact ⟨rfl, rfl⟩
  refine ⟨c, h1, ho, C73_threads_behave_like_turns_partial (nm := Demo.nm) ?_ stage_reach crew_different h1 ho 0, h2, by rw [h3]; rfl⟩
  exact prog_named

/-- After the crew (see above for the hypotheses of `C73_the_rest_is_as_after_turns_partial`) the test verifies: method 0 of mock 0 was called twice, and there are calls not verified. -/
example : ∃ c w', trun prog (begin_ (after stage) crew) turns = some c ∧
    runOps prog 2 c.w [.api (.verify .involved [.leaf ⟨0, .meth 0 (Demo.nm 0 0), .any, none⟩] (.exactly 2) .asBool), .api (.verifyNoOther [.mock 0] .asBool)] =
      .done ([.api (.verdict true), .api (.verdict false)], w') := ⟨_, _, rfl, rfl⟩

/-- The hypotheses of `C73_no_two_threads_in_one_method` hold in the middle of the crew's work: threads 0 and 1 are both in calls of methods of mock 0. -/
example : ∃ c th th' j j' ph ph', trun prog (begin_ (after stage) crew) (turns.take 20) = some c ∧ c.ts[0]? = some th ∧ c.ts[1]? = some th' ∧ th.cur = some (j, ph) ∧
    th'.cur = some (j', ph') ∧ j.m = j'.m := ⟨_, _, _, _, _, _, _, rfl, rfl, rfl, rfl, rfl, rfl⟩

end FakeIt
