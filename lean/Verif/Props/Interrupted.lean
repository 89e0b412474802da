import Verif.Lemmas.InterruptedRun
import Verif.Lemmas.OneThreadRun
import Verif.Props.Refinement
/-!
# C93: calls that exceptions interrupt, in the whole library
-/
namespace FakeIt
open FakeIt.Spec FakeIt.Spec.Interrupted
open FakeIt.Throwing (Kind St Res Exc call calls)
open FakeIt.Spec.Throwing (Enough)

variable {V E X : Type} {P : Prog V E} {nm : MockId → Nat → Nat} {d : Doing V E} {th : Nat → Option X}

theorem ready_of_run (hP : P.Plain) {heap : Addr → V} {ops : List (Op V E)} {outs : List (OpOut V E)} {s : AState V E} (hn : ∀ op ∈ ops, op.Within (Api.Named nm) fun _ _ => True)
    (hwr : ∀ op ∈ ops, op.Within Api.Writes fun _ _ => True) (hsm : Small ops) (hs : aRun P (AState.start heap) ops = some (outs, s)) {m off : Nat} {k : AMock V E} {l : List (Stub V E)} (hk : s.mocks[m]? = some k) (hl : k.stubs off = some l) :
    Ready P s m off k l := by
  have g := aRun_grows hs
  have g1 := g.made'
  have g2 := g.named'
  simp only [AState.start, List.length_nil, Nat.zero_add] at g1 g2
  have h1 := hsm.1
  have h2 := hsm.2
  obtain ⟨w, -, hR, hw⟩ := run_refines (plain_named hP) (.start heap) (rel_start heap) hn hwr hs (by omega) (by omega) 0
  exact ready_of_rel (plain_named hP) hw hR hk hl

/-- **C93**. After any test of the whole library, a call during which anything of the user's throws either leaves the method as it was before (and the call is not recorded), or as the library leaves it when nothing throws (and the call is recorded). -/
theorem C93_an_interrupted_call_is_made_or_not (hP : P.Plain) {heap : Addr → V} {ops : List (Op V E)} {outs : List (OpOut V E)} {s s' : AState V E} (hn : ∀ op ∈ ops, op.Within (Api.Named nm) fun _ _ => True)
    (hwr : ∀ op ∈ ops, op.Within Api.Writes fun _ _ => True) (hsm : Small ops) (hs : aRun P (AState.start heap) ops = some (outs, s)) {m off : Nat} {k : AMock V E} {l : List (Stub V E)} (hk : s.mocks[m]? = some k) (hl : k.stubs off = some l)
    (hc : Callable P k off) {vs : List V} {out : Outcome V E} (ha : aCall P s m off (vs.map .val) = some (out, s')) {st st' : St} (hst : Shows d s m off st) (hw : FakeIt.Spec.Throwing.Wf st) {copied : List Nat} {o : Res X (Option Nat)}
    (h : call th (callOf l copied vs) st = .done (o, st')) (hm : Enough th st st') :
    o ≠ .dead ∧ st'.faked = st.faked ∧ ((st'.hist = st.hist ∧ Shows d s m off st') ∨ (st'.hist ≠ st.hist ∧ Shows d s' m off st')) := by
  have hr := ready_of_run hP hn hwr hsm hs hk hl
  exact step_shows hr hw hst (call_served hr hc ha) h hm

/-- **C93**. If nothing throws but the action itself (or nothing at all), the method is as the library leaves it, and a call that nobody answers is one that the library reports; any other is answered by the newest stubbing that accepts the arguments. -/
theorem C93_uninterrupted_calls_are_the_librarys (hP : P.Plain) {heap : Addr → V} {ops : List (Op V E)} {outs : List (OpOut V E)} {s s' : AState V E} (hn : ∀ op ∈ ops, op.Within (Api.Named nm) fun _ _ => True)
    (hwr : ∀ op ∈ ops, op.Within Api.Writes fun _ _ => True) (hsm : Small ops) (hs : aRun P (AState.start heap) ops = some (outs, s)) {m off : Nat} {k : AMock V E} {l : List (Stub V E)} (hk : s.mocks[m]? = some k) (hl : k.stubs off = some l)
    (hc : Callable P k off) {vs : List V} {out : Outcome V E} (ha : aCall P s m off (vs.map .val) = some (out, s')) {st st' : St} (hst : Shows d s m off st) (hw : FakeIt.Spec.Throwing.Wf st) {copied : List Nat} {o : Res X (Option Nat)}
    (h : call th (callOf l copied vs) st = .done (o, st')) (hm : OnlyTheAction th st st') :
    Shows d s' m off st' ∧ st'.faked = st.faked ∧ (o = .exc .unexpected → ∃ r, s'.log = s.log ++ [.unexpected .unmatched r]) ∧
      (o ≠ .exc .unexpected → ∃ x, l.find? (fun x => accepts x.kind vs) = some x ∧ x.script ≠ []) := by
  have hr := ready_of_run hP hn hwr hsm hs hk hl
  exact whole_shows hr hw hst (call_served hr hc ha) h hm

/-- **C93**. After any number of calls, whichever of them were interrupted by exceptions of the user: the method is as if the test had made some of the calls, in this order, and no others; and this is a test that the library runs. -/
theorem C93_interrupted_calls_are_made_or_not (hP : P.Plain) {heap : Addr → V} {ops : List (Op V E)} {outs : List (OpOut V E)} {s : AState V E} (hn : ∀ op ∈ ops, op.Within (Api.Named nm) fun _ _ => True)
    (hwr : ∀ op ∈ ops, op.Within Api.Writes fun _ _ => True) (hs : aRun P (AState.start heap) ops = some (outs, s)) {m off : Nat} {k : AMock V E} {l : List (Stub V E)} (hk : s.mocks[m]? = some k) (hl : k.stubs off = some l)
    (hc : Callable P k off) (cs : List (List Nat × List V)) (hsm : Small (ops ++ cs.map fun c => callOp m off c.2)) {st st' : St} (hst : Shows d s m off st) (hw : FakeIt.Spec.Throwing.Wf st) (hf : st.faked = true) {kept : List Nat}
    (h : calls th (cs.map fun c => callOf l c.1 c.2) [] st = .done (some (kept, st'))) (hm : Enough th st st') (fuel : Nat) :
    ∃ (made : List (List V)) (outs' : List (OpOut V E)) (s' : AState V E), made.Sublist (cs.map Prod.snd) ∧ aRun P (AState.start heap) (ops ++ made.map (callOp m off)) = some (outs ++ outs', s') ∧
      (∃ w, runOps P (fuel + 3) (World.start heap) (ops ++ made.map (callOp m off)) = .done (outs ++ outs', w) ∧ Agrees s' w) ∧ Shows d s' m off st' ∧ st'.faked = true := by
  have hsmall : Small ops := by
    have h1 := hsm.1
    have h2 := hsm.2
    simp only [List.length_append, List.map_append, List.sum_append] at h1 h2
    exact ⟨by omega, by omega⟩
  have hr := ready_of_run hP hn hwr hsmall hs hk hl
  obtain ⟨made, outs', s', h1, h2, h3, h4⟩ := run_shows hP cs hr hc rfl hw hf hst hm h
  have hrun := OneThread.aRun_append _ _ hs h2
  have hcall : ∀ (A : Api V E → Prop), ∀ op ∈ made.map (callOp (E := E) m off), op.Within A fun _ _ => True := by
    intro A op hop
    obtain ⟨vs, -, rfl⟩ := List.mem_map.1 hop
    trivial
  have hsm' : Small (ops ++ made.map (callOp (E := E) m off)) := by
    have hlen := h1.length_le
    have e1 := hsm.1
    have e2 := hsm.2
    have e3 : ((made.map (callOp (E := E) m off)).map Op.mentions).sum = 0 := by
      clear h1 h2 hrun hcall hlen
      induction made with
      | nil => rfl
      | cons a as ih => simpa [callOp, Op.mentions] using ih
    simp only [List.length_append, List.map_append, List.sum_append, List.length_map] at e1 e2 hlen ⊢
    refine ⟨?_, ?_⟩
    · simp only [List.length_append, List.length_map]
      omega
    · simp only [List.map_append, List.sum_append, e3]
      omega
  obtain ⟨w, hw1, hw2⟩ := C56_library_refines_abstract_mock (plain_named hP) (nm := nm) (fun op hop => (List.mem_append.1 hop).elim (hn op) (hcall _ op)) (fun op hop => (List.mem_append.1 hop).elim (hwr op) (hcall _ op)) hsm' hrun fuel
  exact ⟨made, outs', s', h1, hrun, ⟨w, hw1, hw2⟩, h3, h4⟩

/-! ## Concrete cases -/
namespace InterruptedDemo
open FakeIt.Demo

/-- The beginning of the story of C56: two mocks, a stubbing with a script, one call. -/
def begun : List (Op Nat Nat) := story.take 4

/-- `Return` copies a value, callbacks are code of the user. -/
def doing : Doing Nat Nat := { fn := fun f => match f with | .ret _ => .ret | _ => .fn, dflt := .ret, params := [0] }

/-- The stubbing after that call: one more value, then a callback. -/
def left : List (Stub Nat Nat) := [⟨0, eq 7, [.rep 1 (.ret 5), .rep 1 (.user 0)]⟩]

/-- The method then: the record holds the copy of an argument. -/
def st0 : St := { live := [50], next := 51, blocks := 1, hist := [[50]], stubs := [[⟨.ret, some 1⟩, ⟨.fn, some 1⟩]], faked := true, ordinal := 1, log := [] }

theorem st0_wf : FakeIt.Spec.Throwing.Wf st0 := ⟨by simp [st0], by simp [st0]⟩

/-- Two steps throw: the copy of the argument of the first call, and the copy of the value that the second one returns. -/
def twice (n : Nat) : Option String := if n = 1 ∨ n = 9 then some "no" else none

/-- Three calls. -/
def three : List (List Nat × List Nat) := [([0], [7]), ([0], [7]), ([0], [7])]

/-- The method after them: one call has left no trace, the script is used up. -/
def st3 : St := { live := [50, 51, 52, 53], next := 54, blocks := 3, hist := [[50], [51], [52]], stubs := [[]], faked := true, ordinal := 4,
                  log := [.memory .record, .arg 0, .memory .record, .arg 0, .memory .count, .ask 0, .memory .place, .memory .clause, .memory .clauseCopy, .result, .memory .used,
                    .memory .record, .arg 0, .memory .count, .ask 0, .memory .place, .memory .clause, .memory .clauseCopy, .body, .memory .used] }

theorem three_calls : calls twice (three.map fun c => callOf left c.1 c.2) [] st0 = .done (some ([53], st3)) := by rfl

theorem begun_run : ∃ s k, aRun quiet (AState.start heap0) begun = some (storyOuts.take 4, s) ∧ s.mocks[0]? = some k ∧ k.stubs 0 = some left ∧ Callable quiet k 0 ∧ Shows doing s 0 0 st0 ∧
    ∃ s', aCall quiet s 0 0 ([7].map .val) = some (.ret 5, s') :=
  ⟨_, _, rfl, rfl, rfl, ⟨.inl rfl, by decide, by intro d hd; simp, by decide⟩, ⟨⟨_, _, rfl, rfl, rfl⟩, rfl⟩, _, rfl⟩

theorem begun_named : ∀ op ∈ begun, op.Within (Api.Named FakeIt.Demo.nm) fun _ _ => True := fun op hop => story_named op (List.mem_of_mem_take hop)

theorem begun_writes : ∀ op ∈ begun, op.Within Api.Writes fun _ _ => True := fun op hop => story_writes op (List.mem_of_mem_take hop)

theorem begun_small : Small begun := by constructor <;> decide +kernel

/-- The method after a call whose argument could not be copied. -/
def st1 : St := { st0 with ordinal := 2, log := [.memory .record, .arg 0] }

/-- The method after a call whose returned value could not be copied. -/
def st2 : St := { live := [50, 51], next := 52, blocks := 2, hist := [[50], [51]], stubs := [[⟨.fn, some 1⟩]], faked := true, ordinal := 2,
                  log := [.memory .record, .arg 0, .memory .count, .ask 0, .memory .place, .memory .clause, .memory .clauseCopy, .result, .memory .used] }

-- the hypotheses of `C93_an_interrupted_call_is_made_or_not` hold: the argument cannot be copied
example : ∃ s, aRun quiet (AState.start heap0) begun = some (storyOuts.take 4, s) ∧ Shows doing s 0 0 st1 := by
  obtain ⟨s, k, hs, hk, hl, hc, hst, s', ha⟩ := begun_run
  have hcall : call (fun n => if n = 1 then some "no" else none) (callOf left [0] [7]) st0 = .done (.exc (.user "no"), st1) := by rfl
  obtain ⟨-, -, h⟩ := C93_an_interrupted_call_is_made_or_not quiet_plain begun_named begun_writes begun_small hs hk hl hc ha hst st0_wf hcall (by
    intro n w h1 h2
    match n with
    | 0 => rfl
    | 1 => cases h2
    | n + 2 => rfl)
  exact ⟨s, hs, (h.resolve_right fun h => h.1 rfl).2⟩

-- the hypotheses of `C93_uninterrupted_calls_are_the_librarys` hold: the value cannot be copied
example : ∃ s s', aRun quiet (AState.start heap0) begun = some (storyOuts.take 4, s) ∧ aCall quiet s 0 0 ([7].map .val) = some (.ret 5, s') ∧ Shows doing s' 0 0 st2 := by
  obtain ⟨s, k, hs, hk, hl, hc, hst, s', ha⟩ := begun_run
  have hcall : call (fun n => if n = 7 then some "no" else none) (callOf left [0] [7]) st0 = .done (.exc (.user "no"), st2) := by rfl
  refine ⟨s, s', hs, ha, (C93_uninterrupted_calls_are_the_librarys quiet_plain begun_named begun_writes begun_small hs hk hl hc ha hst st0_wf hcall ?_).1⟩
  intro n o h1 h2 h3
  by_cases hn : n = 7
  · subst hn
    cases h2
    exact .inl rfl
  · simp [hn] at h3

-- the hypotheses of `C93_interrupted_calls_are_made_or_not` hold: three calls, the first of which could not copy its argument, and the second its value
example : ∃ (made : List (List Nat)) (outs : List (OpOut Nat Nat)) (w : World Nat Nat), made.Sublist [[7], [7], [7]] ∧
    runOps quiet 3 (World.start heap0) (begun ++ made.map (callOp 0 0)) = .done (storyOuts.take 4 ++ outs, w) ∧ (history w 0 0).length = 3 := by
  obtain ⟨s, k, hs, hk, hl, hc, hst, -⟩ := begun_run
  obtain ⟨made, outs, s', h1, -, ⟨w, h2, h3⟩, h4, -⟩ := C93_interrupted_calls_are_made_or_not quiet_plain begun_named begun_writes hs hk hl hc three ⟨by decide +kernel, by decide +kernel⟩ hst st0_wf rfl three_calls (by
    intro n w h1 h2
    by_cases h : n = 1 ∨ n = 9
    · rcases h with rfl | rfl <;> cases h2
    · simp [twice, h]) 0
  refine ⟨made, outs, w, h1, h2, ?_⟩
  have := congrArg List.length (h3.calls 0 0)
  rw [List.length_map, ← h4.2] at this
  exact this

end InterruptedDemo

end FakeIt
