import Verif.Lemmas.Log
import Verif.Lemmas.Mono
import Verif.Props.Demo
/-!
# C07: unexpected calls are reported, handled ones are not
-/
namespace FakeIt
variable {V E : Type} {P : Prog V E} {nm : MockId → Nat → Nat}
open Spec

/-- C07: a call of a method that was never mentioned (on a mock that is not a spy; an unmentioned method of a spied object is just the real method)
is answered by an exception and reported by exactly one event, which shows no arguments. -/
theorem C07_unmentioned_call_is_reported (hP : P.Named nm) {m off : Nat} {w : World V E} (hw : Reach P nm w) {k : Mock V E}
    (hk : w.mock? m = some k) (hoff : Plain (P.cls k.cls) off) (hown : k.owner = true) (hb : w.body? m off = none) {args : List (Arg V)}
    {fuel : Nat} {o : Outcome V E} {w' : World V E} (hcall : callSlot P fuel w m off args = .done (o, w')) :
    o = .unexpected ∧ ∃ i, w'.log = w.log ++ [.unexpectedCall .unmocked i] ∧ i.args = [] := by
  cases fuel with
  | zero => simp [callSlot] at hcall
  | succ fuel =>
    have hk' := World.mock?_eq_some.1 hk
    have t := (hw.wf hP).steady.1.1 m k hk'.1
    simp only [callSlot, hk'.1, hk'.2] at hcall
    cases hv : k.vt[off]? with
    | none => simp [hv] at hcall
    | some x =>
      have hx : x = .unmocked := (orig_code t
        (t.unbound_entry hv (by simpa [World.body?, hk'.1] using hb) (fun d hd => (hoff d hd).2))
        (fun d hd => (hoff d hd).2) (fun hd => (hoff _ hd).1 rfl)).1 hown
      subst hx
      simp only [hv, runCode, unmockedCall] at hcall
      simp at hcall
      exact ⟨hcall.1.symm, _, by rw [← hcall.2]; rfl, rfl⟩

/-- Case. -/
example : Demo.w0.body? 0 1 = none ∧ ∃ i, (Demo.called Demo.w0 0 1 [.val 3]).log = Demo.w0.log ++ [.unexpectedCall .unmocked i] ∧ i.args = [] :=
  ⟨rfl, (C07_unmentioned_call_is_reported Demo.prog_named (m := 0) (off := 1) Demo.reach_w0 rfl (by intro d hd; cases hd; decide) rfl rfl
    (args := [.val 3]) (fuel := 5) (o := .unexpected) rfl).2⟩

/-- C07: the calls of methods without a stubbing on the instance of a mock made by `Mock<C> mock;` are answered by an exception and reported by exactly
one event for as long as the mock lives, whatever has been done before and since it was made. -/
theorem C07_unmentioned_call_on_a_made_mock_is_reported (hP : P.Named nm) {cls m off : Nat} {w w0 w1 : World V E} (hw : Reach P nm w)
    (hnew : apiStep P w (.newMock cls) = .done (w0, .mockId m)) {ops : List (Op V E)} (hops : ∀ op ∈ ops, op.Within (Api.Named nm) (fun _ _ => True))
    {fuel : Nat} {outs : List (OpOut V E)} (hrun : runOps P fuel w0 ops = .done (outs, w1)) (hlive : (w1.mock? m).isSome)
    (hoff : Plain (P.cls cls) off) (hb : w1.body? m off = none) {args : List (Arg V)} {fuel' : Nat} {o : Outcome V E} {w' : World V E}
    (hcall : callSlot P fuel' w1 m off args = .done (o, w')) : o = .unexpected ∧ ∃ i, w'.log = w1.log ++ [.unexpectedCall .unmocked i] ∧ i.args = [] := by
  have hr0 : Reach P nm w0 :=
    .step (fuel := 0) (op := .api (.newMock cls)) (out := .api (.mockId m)) hw (by simp [Op.Within, Api.Named, Api.slots]) (by simp only [opStep, hnew]; rfl)
  simp only [apiStep, R.done.injEq, Prod.mk.injEq, ApiOut.mockId.injEq] at hnew
  obtain ⟨rfl, rfl⟩ := hnew
  obtain ⟨k, hk⟩ := Option.isSome_iff_exists.1 hlive
  obtain ⟨k', hk', hc, ho, -⟩ := runOps_mono mono_dead hrun w.mocks.length (Mock.mk' cls (P.cls cls) true) (by simp)
  rw [(World.mock?_eq_some.1 hk).1] at hk'; cases hk'
  exact C07_unmentioned_call_is_reported hP (Reach.run ops hops hr0 hrun) hk (by rw [hc]; exact hoff) ho hb hcall

/-- Case: mock 0 of `Demo.w0`, made first of all, then the other steps leading to `Demo.w0`, then a call of its method 1. -/
example : ∃ i, (Demo.called Demo.w0 0 1 [.val 3]).log = Demo.w0.log ++ [.unexpectedCall .unmocked i] ∧ i.args = [] :=
  (C07_unmentioned_call_on_a_made_mock_is_reported Demo.prog_named (m := 0) (off := 1) (.start Demo.heap0) (cls := 0) rfl
    (ops := Demo.ops0.tail) (w1 := Demo.w0) (by
      intro op h
      simp only [Demo.ops0, List.tail, List.mem_cons, List.not_mem_nil, or_false] at h
      rcases h with rfl | rfl | rfl <;> simp [Op.Within, Api.Named, Api.slots, SlotRef.Named, Demo.tgt, Demo.nm, intMax])
    (fuel := 5) rfl rfl (by intro d hd; cases hd; decide) rfl (args := [.val 3]) (fuel' := 5) (o := .unexpected) rfl).2

/-- C07: such a call always comes to an end, for every method of the class. -/
theorem C07_unmentioned_call_finishes (hP : P.Named nm) {m off : Nat} {w : World V E} (hw : Reach P nm w) {k : Mock V E}
    (hk : w.mock? m = some k) (hoff : Plain (P.cls k.cls) off) (hlt : off < (P.cls k.cls).size) (hown : k.owner = true) (hb : w.body? m off = none)
    (args : List (Arg V)) (fuel : Nat) : ∃ w', callSlot P (fuel + 1) w m off args = .done (.unexpected, w') := by
  have hk' := World.mock?_eq_some.1 hk
  have t := (hw.wf hP).steady.1.1 m k hk'.1
  have hlen : off < k.vt.length := by rw [t.vtlen, t.orig_length]; exact hlt
  have hv := List.getElem?_eq_getElem hlen
  have hx := (orig_code t (t.unbound_entry hv (by simpa [World.body?, hk'.1] using hb) (fun d hd => (hoff d hd).2))
      (fun d hd => (hoff d hd).2) (fun hd => (hoff _ hd).1 rfl)).1 hown
  rw [hx] at hv
  simp only [callSlot, hk'.1, hk'.2, hv, runCode, unmockedCall]
  exact ⟨_, rfl⟩

/-- C07: a call whose arguments no stubbing accepts is answered by an exception and reported by exactly one event, which shows the arguments and the
method. It always comes to an end. -/
theorem C07_unaccepted_call_is_reported (hP : P.Named nm) {m off : Nat} {w : World V E} (hw : Reach P nm w) {k : Mock V E}
    (hk : w.mock? m = some k) (hoff : Plain (P.cls k.cls) off) (hb : w.body? m off ≠ none) {args : List (Arg V)}
    (hn : NoneAccepts (stubbings w m off) (valuesOf w.heap args)) (fuel : Nat) :
    ∃ i w', callSlot P (fuel + 1) w m off args = .done (.unexpected, w') ∧ w'.log = w.log ++ [.unexpectedCall .unmatched i] ∧ i.args = args ∧
      (w.body? m off).map MBody.method = some i.method := by
  have hk' := World.mock?_eq_some.1 hk
  cases hb' : w.body? m off with
  | none => exact absurd hb' hb
  | some b =>
    rw [show stubbings w m off = b.handlers by simp [stubbings, hb']] at hn
    exact ⟨_, _, call_unmatched (args := args) ((hw.wf hP).steady.live hb' hk'.1 hoff) hn fuel, rfl, rfl, rfl⟩

/-- Case: method 1 of mock 1 with a stubbing for 7 only, called with 8. -/
example : ∃ i w', callSlot Demo.prog 5 (Demo.next Demo.w0 (.api (.when_ (Demo.tgt 0 1 (Demo.eq 7)) [.rep 1 (.ret 5)] false))) 0 1 [.val 8] =
    .done (.unexpected, w') ∧ w'.log = [.unexpectedCall .unmatched i] ∧ i.args = [.val 8] ∧
    ((Demo.next Demo.w0 (.api (.when_ (Demo.tgt 0 1 (Demo.eq 7)) [.rep 1 (.ret 5)] false))).body? 0 1).map MBody.method = some i.method := by
  refine C07_unaccepted_call_is_reported (w := Demo.next Demo.w0 (.api (.when_ (Demo.tgt 0 1 (Demo.eq 7)) [.rep 1 (.ret 5)] false)))
    Demo.prog_named ?_ rfl (by intro d hd; cases hd; decide) (by intro h; cases h) ?_ 4
  · exact .step (fuel := 5) (op := .api (.when_ (Demo.tgt 0 1 (Demo.eq 7)) [.rep 1 (.ret 5)] false)) Demo.reach_w0
      (by simp [Op.Within, Api.Named, Api.slots, SlotRef.Named, Demo.tgt, Demo.nm, intMax]) rfl
  · intro h hh
    have : h.matcher.kind = Demo.eq 7 := by
      change h ∈ [_] at hh
      simp only [List.mem_singleton] at hh
      subst hh; rfl
    rw [this]
    intro ha
    have := Demo.accepts_eq.1 ha
    cases this

/-- What a call accepted by stubbing `h` does to the event log, when the action does not fire events itself. -/
private theorem call_log (hP : P.Named nm) {m off : Nat} {w : World V E} (hw : Reach P nm w) {k : Mock V E}
    (hk : w.mock? m = some k) (hoff : Plain (P.cls k.cls) off) {args : List (Arg V)} {h : Handler V E}
    (hsel : Selected (stubbings w m off) (valuesOf w.heap args) h) {i : Nat} {act : Act V E} (hfront : h.seq.front = .done (i, act))
    {fuel : Nat} {o : Outcome V E} {w' : World V E} (hcall : callSlot P fuel w m off args = .done (o, w')) :
    (act = .noMore → o = .unexpected ∧ ∃ i, w'.log = w.log ++ [.unexpectedCall .unmatched i] ∧ i.args = args ∧ (w.body? m off).map MBody.method = some i.method) ∧
    (QuietAct P (P.cls k.cls) (!k.owner) off (valuesOf w.heap args) act → w'.log = w.log) := by
  cases fuel with
  | zero => simp [callSlot] at hcall
  | succ fuel =>
    have hk' := (World.mock?_eq_some.1 hk).1
    cases hb : w.body? m off with
    | none => obtain ⟨older, newer, hst, -⟩ := hsel; simp [stubbings, hb] at hst
    | some b =>
      rw [show stubbings w m off = b.handlers by simp [stubbings, hb]] at hsel
      have hwf := hw.wf hP
      rw [callSlot_live (hwf.steady.live hb hk' hoff)] at hcall
      have hfind : findHandler w.heap b.handlers (fresh w b args) = some h := by
        rw [findHandler_some _ _ rfl]; exact hsel
      rw [handleCall_eq, hfind] at hcall
      simp only [R.bind_eq_done] at hcall
      obtain ⟨⟨o1, w1⟩, hrun, hend⟩ := hcall
      simp only [runHandler, R.bind_eq_done] at hrun
      obtain ⟨⟨i', act'⟩, hfront', ⟨o2, w3⟩, hinv, w4, hfin, hend2⟩ := hrun
      rw [hfront] at hfront'
      simp only [R.done.injEq, Prod.mk.injEq] at hfront' hend2
      obtain ⟨rfl, rfl⟩ := hfront'
      obtain ⟨rfl, rfl⟩ := hend2
      have hl4 := worldFinally_log hfin
      constructor
      · rintro rfl
        simp only [invokeAct, R.done.injEq, Prod.mk.injEq] at hinv
        obtain ⟨rfl, rfl⟩ := hinv
        simp only [unmatched, R.done.injEq, Prod.mk.injEq] at hend
        refine ⟨hend.1.symm, recorded w b args h, ?_, rfl, rfl⟩
        rw [← hend.2]
        show w4.log ++ _ = _
        rw [hl4]; rfl
      · intro hq
        have t := hwf.steady.1.1 m k hk'
        have := invoke_log (P := P) (mocks_updBody (mocks_updBody (w := w.bumpInv) hk' off _) off _)
          (fun hd ho => by
            have hlt : off < k.orig.length := by
              have := (hwf.steady.live hb hk' hoff)
              have hbk : k.body? off = some b := by simpa [World.body?, hk'] using hb
              have ha := (World.mock?_eq_some.1 hk).2
              rw [← (t.mlen ha).1]
              simp only [Mock.body?] at hbk
              cases hm : k.mocks[off]? with
              | none => simp [hm] at hbk
              | some x => exact lt_of_getElem?_some hm
            have hv := List.getElem?_eq_getElem hlt
            have := (orig_code t hv (fun d hd => (hoff d hd).2) (fun hd => (hoff _ hd).1 rfl)).2 ho
            rw [this] at hv; exact hv) hq hinv
        have hne := this.2
        have hl : w4.log = w.log := hl4.trans this.1
        cases o2 with
        | noMore => exact absurd rfl hne
        | _ =>
          simp only [R.done.injEq, Prod.mk.injEq] at hend
          rw [← hend.2]; exact hl

/-- C07: a call whose selected stubbing is exhausted is answered by an exception and reported by exactly one event, which shows the arguments and the method. -/
theorem C07_exhausted_call_is_reported (hP : P.Named nm) {m off : Nat} {w : World V E} (hw : Reach P nm w) {k : Mock V E}
    (hk : w.mock? m = some k) (hoff : Plain (P.cls k.cls) off) {args : List (Arg V)} {h : Handler V E}
    (hsel : Selected (stubbings w m off) (valuesOf w.heap args) h) {i : Nat} (hfront : h.seq.front = .done (i, .noMore))
    {fuel : Nat} {o : Outcome V E} {w' : World V E} (hcall : callSlot P fuel w m off args = .done (o, w')) :
    o = .unexpected ∧ ∃ i, w'.log = w.log ++ [.unexpectedCall .unmatched i] ∧ i.args = args ∧ (w.body? m off).map MBody.method = some i.method :=
  (call_log hP hw hk hoff hsel hfront hcall).1 rfl

/-- Case: `When(Method(mock0, f0).Using(7));` without actions. -/
example : ∃ i, (Demo.called (Demo.w1 []) 0 0 [.val 7]).log = (Demo.w1 []).log ++ [.unexpectedCall .unmatched i] ∧ i.args = [.val 7] ∧ ((Demo.w1 []).body? 0 0).map MBody.method = some i.method :=
  (C07_exhausted_call_is_reported Demo.prog_named (m := 0) (Demo.reach_w1 []) rfl (by intro d hd; cases hd; decide) (Demo.selected_w1 [])
    (i := 0) rfl (fuel := 5) (o := .unexpected) rfl).2

/-- C07: a call whose selected stubbing has an action left fires no event of its own. (Events fired by calls and verifications
that the action itself makes are excluded by `QuietAct`.) -/
theorem C07_handled_call_fires_nothing (hP : P.Named nm) {m off : Nat} {w : World V E} (hw : Reach P nm w) {k : Mock V E}
    (hk : w.mock? m = some k) (hoff : Plain (P.cls k.cls) off) {args : List (Arg V)} {h : Handler V E}
    (hsel : Selected (stubbings w m off) (valuesOf w.heap args) h) {i : Nat} {act : Act V E} (hfront : h.seq.front = .done (i, act))
    (hq : QuietAct P (P.cls k.cls) (!k.owner) off (valuesOf w.heap args) act)
    {fuel : Nat} {o : Outcome V E} {w' : World V E} (hcall : callSlot P fuel w m off args = .done (o, w')) : w'.log = w.log :=
  (call_log hP hw hk hoff hsel hfront hcall).2 hq

/-- Case: callable 3, which changes its parameter. -/
example : (Demo.called (Demo.w1 [.rep 1 (.user 3)]) 0 0 [.val 7]).log = (Demo.w1 [.rep 1 (.user 3)]).log :=
  C07_handled_call_fires_nothing Demo.prog_named (m := 0) (Demo.reach_w1 [.rep 1 (.user 3)]) rfl (by intro d hd; cases hd; decide)
    (Demo.selected_w1 _) (i := 1) (act := .rep 1 (.user 3)) rfl
    ⟨trivial, by intro o ho; cases ho with | setArg ho => cases ho; simp⟩ (fuel := 5) (o := .ret 1) rfl

end FakeIt
