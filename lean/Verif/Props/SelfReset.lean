import Verif.Lemmas.Lost
import Verif.Lemmas.Reenter
import Verif.Props.ReentrantMock
/-!
# C80: callbacks that reset or destroy the mock whose call they answer

A call holds the action it performs (`include/fakeit/ActionSequence.hpp` 42), so a callback may reset or destroy its own mock as long as the action has uses left: then nothing of the
destroyed stubbing is used when the callback ends. In the last use of an action the end of the call erases it from the destroyed vector.
-/
namespace FakeIt
open Spec
variable {V E : Type} {P : Prog V E} {nm : MockId → Nat → Nat}

/-- A call, up to the end of its action. -/
theorem call_begun (hP : P.Named nm) {w : World V E} (hw : Reach P nm w) {m off : Nat} {k : Mock V E} (hk : w.mock? m = some k) (hoff : Plain (P.cls k.cls) off)
    {b : MBody V E} (hb : w.body? m off = some b) {args : List (Arg V)} {h : Handler V E} (hsel : Selected (stubbings w m off) (valuesOf w.heap args) h) {i : Nat} {act : Act V E}
    (hf : h.seq.front = .done (i, act)) (fuel : Nat) :
    (∃ z : Outcome V E → World V E → R (Outcome V E × World V E), (∀ o w', o ≠ .noMore → z o w' = .done (o, w')) ∧ (∀ w', ∃ r, z .noMore w' = .done r) ∧
      callSlot P (fuel + 1) w m off args = do
        let r ← invokeAct P (callSlot P fuel) (begun w m off b.method args h i) ⟨m, off, w.invTotal + 1⟩ args act
        let w' ← worldFinally r.2 m off h.addr i act r.1
        z r.1 w') ∧
    m < (begun w m off b.method args h i).mocks.length ∧ h.addr ≤ (begun w m off b.method args h i).alloc ∧
    (begun w m off b.method args h i).acting? m off h.addr i = some act.tick ∧ (begun w m off b.method args h i).heap = w.heap := by
  have hk' := (World.mock?_eq_some.1 hk).1
  rw [stubbings_of hb] at hsel
  have hwf := hw.wf hP
  have hlive := hwf.steady.live hb hk' hoff
  have hmem : h ∈ b.handlers := by obtain ⟨_, _, e, _⟩ := hsel; rw [e]; simp
  have hin : (h.addr, h.matcher.addr) ∈ haddrs w m off := by
    simp only [haddrs, hk', kaddrs]
    have : k.body? off = some b := by simpa [World.body?, hk'] using hb
    rw [this]
    exact List.mem_map.2 ⟨h, hmem, rfl⟩
  have hnd : (b.handlers.map (·.addr)).Nodup := by
    have := hwf.inv2.1.2.nodup m off
    simp only [haddrs, hk', kaddrs] at this
    have e : k.body? off = some b := by simpa [World.body?, hk'] using hb
    rw [e] at this
    simp only [List.map_map] at this
    exact this
  refine ⟨⟨fun o w' => match o with
      | .noMore => .done (unmatched w' (recorded w b args h))
      | o => .done (o, w'), fun o w' ho => ?_, fun w' => ⟨_, rfl⟩, ?_⟩, ?_, ?_, ?_, rfl⟩
  · cases o <;> first | rfl | exact absurd rfl ho
  · rw [callSlot_live hlive]
    simp only [handleCall]
    have hfind : findHandler w.bumpInv.heap b.handlers (fresh w b args) = some h := by
      rw [findHandler_some _ _ rfl]; exact hsel
    change (match findHandler w.bumpInv.heap b.handlers (fresh w b args) with
      | none => _
      | some h => _) = _
    rw [hfind]
    simp only [runHandler, hf, R.bind_done]
    change ((invokeAct P (callSlot P fuel) (begun w m off b.method args h i) ⟨m, off, w.invTotal + 1⟩ args act >>= fun r => worldFinally r.2 m off h.addr i act r.1 >>= fun w' => R.done (r.1, w')) >>= _) = _
    cases invokeAct P (callSlot P fuel) (begun w m off b.method args h i) ⟨m, off, w.invTotal + 1⟩ args act with
    | ub => rfl
    | oof => rfl
    | done r =>
      simp only [R.bind_done]
      cases worldFinally r.2 m off h.addr i act r.1 with
      | ub => rfl
      | oof => rfl
      | done w' =>
        simp only [R.bind_done]
        obtain ⟨o, w1⟩ := r
        cases o <;> rfl
  · have := (List.getElem?_eq_some_iff.1 hk').1
    simpa [begun, World.updSeq, World.updBody, World.updMock, World.pushInv] using this
  · exact Nat.le_of_lt (hwf.inv2.1.2.lt m off _ hin).1
  · have hobj : h.seq.objs[i]? = some act := by
      unfold ActionSeq.front at hf
      split at hf
      · cases hf
      · simp only [R.bind_eq_done, R.ofOption_eq_done] at hf
        obtain ⟨a, h1, h2⟩ := hf
        cases h2
        exact h1
    have hh := handler_of_mem hb hmem hnd
    simp only [World.handler?, hb, Option.bind_some] at hh
    have key : (begun w m off b.method args h i).handler? m off h.addr = some { h with seq := h.seq.tick i } := by
      simp only [World.handler?, begun, World.updSeq, World.pushInv, World.body?_updBody, and_self, if_true]
      rw [show ({ w with invTotal := w.invTotal + 1 } : World V E).body? m off = some b from hb]
      simp only [Option.map_some, Option.bind_some]
      have hgen : ∀ l : List (Handler V E), l.find? (fun x => x.addr == h.addr) = some h →
          (l.map fun x => if x.addr == h.addr then { x with seq := { x.seq with objs := x.seq.objs.modify i Act.tick } } else x).find? (fun x => x.addr == h.addr) = some { h with seq := h.seq.tick i } := by
        intro l
        induction l with
        | nil => intro e; cases e
        | cons x l ih =>
          intro e
          simp only [List.map_cons, List.find?_cons] at e ⊢
          by_cases hx : x.addr = h.addr
          · simp only [hx, BEq.rfl] at e
            cases e
            simp [ActionSeq.tick]
          · simp only [beq_eq_false_iff_ne.2 hx] at e
            simp only [beq_eq_false_iff_ne.2 hx, Bool.false_eq_true, if_false]
            exact ih e
      exact hgen _ hh
    unfold World.acting?
    rw [key]
    simp only [ActionSeq.tick, List.getElem?_modify, hobj, if_true]
    rfl

/-- What C80 asks for, for one program: a callback that resets or destroys the mock whose call it answers is not undefined behaviour; the call ends as the callback did. -/
def Spec.MayEndItsMock (P : Prog V E) (nm : MockId → Nat → Nat) : Prop :=
  ∀ (w : World V E) (m off : Nat) (k : Mock V E) (b : MBody V E) (args : List (Arg V)) (h : Handler V E) (i : Nat) (act : Act V E) (f : Fn V E) (fuel : Nat) (o : Outcome V E) (w' : World V E),
    Reach P nm w → w.mock? m = some k → Plain (P.cls k.cls) off → w.body? m off = some b → Selected (stubbings w m off) (valuesOf w.heap args) h → h.seq.front = .done (i, act) →
    (act = .forever f ∨ ∃ n, 1 ≤ n ∧ act = .rep n f) → EndsMock m (f.code P (valuesOf w.heap args)) →
    runBody P (callSlot P fuel) (some ⟨m, off, w.invTotal + 1⟩) args (f.code P (valuesOf w.heap args)) (begun w m off b.method args h i) = .done (o, w') →
    callSlot P (fuel + 1) w m off args = .done (o, w')

/-- A callback that is performed for ever (`AlwaysDo`, an assigned lambda) may reset or destroy its mock: the call ends as the callback did, in the state it left, unless it ends with the
exception the library uses for "no more actions". -/
theorem C80_always_callbacks_may_end_their_mock_partial (hP : P.Named nm) {w : World V E} (hw : Reach P nm w) {m off : Nat} {k : Mock V E} (hk : w.mock? m = some k)
    (hoff : Plain (P.cls k.cls) off) {b : MBody V E} (hb : w.body? m off = some b) {args : List (Arg V)} {h : Handler V E} (hsel : Selected (stubbings w m off) (valuesOf w.heap args) h) {i : Nat}
    {f : Fn V E} (hf : h.seq.front = .done (i, .forever f)) (hB : EndsMock m (f.code P (valuesOf w.heap args))) {fuel : Nat} {o : Outcome V E} {w' : World V E}
    (hrun : runBody P (callSlot P fuel) (some ⟨m, off, w.invTotal + 1⟩) args (f.code P (valuesOf w.heap args)) (begun w m off b.method args h i) = .done (o, w')) (ho : o ≠ .noMore) :
    callSlot P (fuel + 1) w m off args = .done (o, w') := by
  obtain ⟨⟨z, hz, -, e⟩, hm, ha, hact, hheap⟩ := call_begun hP hw hk hoff hb hsel hf fuel
  rw [e]
  simp only [invokeAct, derefAll_eq, hheap, hrun, R.bind_done]
  have hn := hB.lost (off := off) hrun hm ha
  have hact' := (bodyTail fuel hrun).acting ha hact
  simp only [World.acting?, hn] at hact'
  simp only [worldFinally, hn, hact', orphanEnd, Act.isDone, Bool.false_eq_true, if_false]
  cases o <;> first | (exact absurd rfl ho) | exact hz _ _ ho

/-- The same for a counted callback that is not in its last use, if it makes no calls before. -/
theorem C80_counted_callbacks_may_end_their_mock_partial (hP : P.Named nm) {w : World V E} (hw : Reach P nm w) {m off : Nat} {k : Mock V E} (hk : w.mock? m = some k)
    (hoff : Plain (P.cls k.cls) off) {b : MBody V E} (hb : w.body? m off = some b) {args : List (Arg V)} {h : Handler V E} (hsel : Selected (stubbings w m off) (valuesOf w.heap args) h) {i : Nat} {n : Int}
    {f : Fn V E} (hf : h.seq.front = .done (i, .rep n f)) (hn : n ≠ 1) (hB : EndsEarly m (f.code P (valuesOf w.heap args))) {fuel : Nat} {o : Outcome V E} {w' : World V E}
    (hrun : runBody P (callSlot P fuel) (some ⟨m, off, w.invTotal + 1⟩) args (f.code P (valuesOf w.heap args)) (begun w m off b.method args h i) = .done (o, w')) (ho : o ≠ .noMore) :
    callSlot P (fuel + 1) w m off args = .done (o, w') := by
  obtain ⟨⟨z, hz, -, e⟩, hm, ha, hact, hheap⟩ := call_begun hP hw hk hoff hb hsel hf fuel
  rw [e]
  simp only [invokeAct, derefAll_eq, hheap, hrun, R.bind_done]
  obtain ⟨hn1, hact'⟩ := hB.lost hrun hm ha hact
  have hd : ((Act.rep n f).tick : Act V E).isDone = false := by
    simp only [Act.tick, Act.isDone, beq_eq_false_iff_ne]
    omega
  simp only [worldFinally, hn1, hact', orphanEnd, hd, Bool.false_eq_true, if_false]
  cases o <;> first | (exact absurd rfl ho) | exact hz _ _ ho

/-- In its last use (`Do`, `Return` with a callable, the last of `n_Times`), a callback that resets or destroys its mock, whatever it does afterwards, makes the call undefined behaviour:
the call never ends, neither with a result nor with an exception. -/
theorem C80_last_use_is_undefined (hP : P.Named nm) {w : World V E} (hw : Reach P nm w) {m off : Nat} {k : Mock V E} (hk : w.mock? m = some k)
    (hoff : Plain (P.cls k.cls) off) {b : MBody V E} (hb : w.body? m off = some b) {args : List (Arg V)} {h : Handler V E} (hsel : Selected (stubbings w m off) (valuesOf w.heap args) h) {i : Nat}
    {f : Fn V E} (hf : h.seq.front = .done (i, .rep 1 f)) (hB : EndsEarly m (f.code P (valuesOf w.heap args))) (fuel : Nat) :
    (∀ r, callSlot P fuel w m off args ≠ .done r) ∧
    ∀ o w', runBody P (callSlot P fuel) (some ⟨m, off, w.invTotal + 1⟩) args (f.code P (valuesOf w.heap args)) (begun w m off b.method args h i) = .done (o, w') →
      callSlot P (fuel + 1) w m off args = .ub := by
  have key : ∀ fuel o w', runBody P (callSlot P fuel) (some ⟨m, off, w.invTotal + 1⟩) args (f.code P (valuesOf w.heap args)) (begun w m off b.method args h i) = .done (o, w') →
      callSlot P (fuel + 1) w m off args = .ub := by
    intro fuel o w' hrun
    obtain ⟨⟨z, -, -, e⟩, hm, ha, hact, hheap⟩ := call_begun hP hw hk hoff hb hsel hf fuel
    rw [e]
    simp only [invokeAct, derefAll_eq, hheap, hrun, R.bind_done]
    obtain ⟨hn1, hact'⟩ := hB.lost hrun hm ha hact
    simp only [worldFinally, hn1, hact', orphanEnd, Act.tick, Act.isDone]
    rfl
  refine ⟨fun r hr => ?_, key fuel⟩
  cases fuel with
  | zero => cases hr
  | succ fuel =>
    cases hrun : runBody P (callSlot P fuel) (some ⟨m, off, w.invTotal + 1⟩) args (f.code P (valuesOf w.heap args)) (begun w m off b.method args h i) with
    | done x => rw [key fuel x.1 x.2 hrun] at hr; cases hr
    | ub =>
      obtain ⟨⟨z, -, -, e⟩, -, -, -, hheap⟩ := call_begun hP hw hk hoff hb hsel hf fuel
      rw [e] at hr
      simp only [invokeAct, derefAll_eq, hheap, hrun] at hr
      cases hr
    | oof =>
      obtain ⟨⟨z, -, -, e⟩, -, -, -, hheap⟩ := call_begun hP hw hk hoff hb hsel hf fuel
      rw [e] at hr
      simp only [invokeAct, derefAll_eq, hheap, hrun] at hr
      cases hr

/-- A callback that has ended its mock and then throws the library's own "no more actions" exception makes the call undefined behaviour, however many uses the action has left. -/
theorem C80_no_more_actions_after_the_end_is_undefined (hP : P.Named nm) {w : World V E} (hw : Reach P nm w) {m off : Nat} {k : Mock V E} (hk : w.mock? m = some k)
    (hoff : Plain (P.cls k.cls) off) {b : MBody V E} (hb : w.body? m off = some b) {args : List (Arg V)} {h : Handler V E} (hsel : Selected (stubbings w m off) (valuesOf w.heap args) h) {i : Nat} {act : Act V E}
    {f : Fn V E} (hf : h.seq.front = .done (i, act)) (hact : act = .forever f ∨ ∃ n, act = .rep n f) (hB : EndsMock m (f.code P (valuesOf w.heap args))) {fuel : Nat} {w' : World V E}
    (hrun : runBody P (callSlot P fuel) (some ⟨m, off, w.invTotal + 1⟩) args (f.code P (valuesOf w.heap args)) (begun w m off b.method args h i) = .done (.noMore, w')) :
    callSlot P (fuel + 1) w m off args = .ub := by
  obtain ⟨⟨z, -, -, e⟩, hm, ha, -, hheap⟩ := call_begun hP hw hk hoff hb hsel hf fuel
  have hn := hB.lost (off := off) hrun hm ha
  have hfin : ∀ a : Act V E, worldFinally w' m off h.addr i a .noMore = .ub := by
    intro a
    simp only [worldFinally, hn]
    split
    · rfl
    · unfold orphanEnd
      split
      · rfl
      · cases a <;> rfl
  rw [e]
  rcases hact with rfl | ⟨n, rfl⟩
  · simp only [invokeAct, derefAll_eq, hheap, hrun, R.bind_done, hfin]
    rfl
  · simp only [invokeAct, derefAll_eq, hheap, hrun, R.bind_done, hfin]
    rfl

namespace Demo

/-- Callable 0 resets mock 0, stubs its method 1 anew, calls it and returns one more; 1 destroys mock 0 and returns 7; 2 resets it and throws the library's "no more actions" exception;
others return their number. -/
def quits : Prog Nat Nat :=
  { prog with
    fn := fun f _ => match f with
      | 0 => .api (.reset 0) fun _ => .api (.when_ (tgt 0 1 .any) [.rep 2 (.ret 8)] false) fun _ => .call 0 1 [.val 6] fun o => match o with | .ret v => .done (.ret (v + 1)) | o => .done o
      | 1 => .api (.destroy 0) fun _ => .done (.ret 7)
      | 2 => .api (.reset 0) fun _ => .done .noMore
      | f => .done (.ret f) }

theorem quits_named : quits.Named Demo.nm := by
  intro f vs
  match f with
  | 0 =>
    refine ⟨?_, fun _ => ⟨?_, fun _ => ⟨trivial, fun o => ?_⟩⟩⟩
    · simp [Api.Named, Api.slots]
    · simp [Api.Named, Api.slots, SlotRef.Named, tgt, Demo.nm, intMax]
    · cases o <;> trivial
  | 1 => exact ⟨by simp [Api.Named, Api.slots], fun _ => trivial⟩
  | 2 => exact ⟨by simp [Api.Named, Api.slots], fun _ => trivial⟩
  | _ + 3 => trivial

/-- `Mock m; When(Method(m, f)).acts`. -/
def quitOps (acts : List (Act Nat Nat)) : List (Op Nat Nat) := [.api (.newMock 0), .api (.when_ (tgt 0 0 .any) acts false)]

/-- The state then. -/
def quitAt (acts : List (Act Nat Nat)) : World Nat Nat :=
  match runOps quits 5 (World.start heap0) (quitOps acts) with
  | .done (_, w) => w
  | _ => World.start heap0

theorem quit_reach (acts : List (Act Nat Nat)) : Reach quits Demo.nm (quitAt acts) := by
  refine Reach.run (outs := [.api (.mockId 0), .api (.matcher 0)]) (fuel := 5) (quitOps acts) ?_ (.start heap0) rfl
  intro op h
  simp only [quitOps, List.mem_cons, List.not_mem_nil, or_false] at h
  rcases h with rfl | rfl <;> simp [Op.Within, Api.Named, Api.slots, SlotRef.Named, tgt, Demo.nm, intMax]

end Demo
open Demo

/-- The code violates C80: `When(Method(m, f)).Do(g)` where `g` destroys `m`. -/
theorem C80_callbacks_may_not_end_their_mock : ¬ MayEndItsMock quits Demo.nm := by
  intro h
  have := h (quitAt [.rep 1 (.user 1)]) 0 0 _ _ [.val 0] _ 1 (.rep 1 (.user 1)) (.user 1) 3 (.ret 7) _ (quit_reach _) rfl (by intro d hd; cases hd; decide) rfl
    ⟨[], [], rfl, (by trivial), by simp⟩ rfl (.inr ⟨1, by decide, rfl⟩) (.destroy _) rfl
  cases this

/-- The hypotheses of `C80_last_use_is_undefined` hold there. -/
example : callSlot quits 5 (quitAt [.rep 1 (.user 1)]) 0 0 [.val 0] = .ub :=
  (C80_last_use_is_undefined quits_named (quit_reach [.rep 1 (.user 1)]) (m := 0) (off := 0) rfl (by intro d hd; cases hd; decide) rfl ⟨[], [], rfl, (by trivial), by simp⟩ rfl (.destroy _) 4).2
    (.ret 7) _ rfl

/-- The hypotheses of `C80_always_callbacks_may_end_their_mock_partial` hold for `When(Method(m, f)).AlwaysDo(g)` where `g` resets the mock, stubs another method and calls it: the call
answers 9, and the new stubbing has one use left. -/
example : ∃ w', callSlot quits 5 (quitAt [.forever (.user 0)]) 0 0 [.val 0] = .done (.ret 9, w') ∧ (stubbings w' 0 0).length = 0 ∧ (stubbings w' 0 1).length = 1 :=
  ⟨_, C80_always_callbacks_may_end_their_mock_partial quits_named (quit_reach [.forever (.user 0)]) (m := 0) (off := 0) rfl (by intro d hd; cases hd; decide) rfl ⟨[], [], rfl, (by trivial), by simp⟩
    rfl (.reset _) (fuel := 4) rfl (by decide), rfl, rfl⟩

/-- The hypotheses of `C80_counted_callbacks_may_end_their_mock_partial` hold for `Do(2_Times(g))`. -/
example : ∃ w', callSlot quits 5 (quitAt [.rep 2 (.user 1)]) 0 0 [.val 0] = .done (.ret 7, w') ∧ w'.mock? 0 = none :=
  ⟨_, C80_counted_callbacks_may_end_their_mock_partial quits_named (quit_reach [.rep 2 (.user 1)]) (m := 0) (off := 0) rfl (by intro d hd; cases hd; decide) rfl
    ⟨[], [], rfl, (by trivial), by simp⟩ rfl (by decide) (.destroy _) (fuel := 4) rfl (by decide), rfl⟩

/-- The hypotheses of `C80_no_more_actions_after_the_end_is_undefined` hold for callable 2, performed for ever. -/
example : callSlot quits 5 (quitAt [.forever (.user 2)]) 0 0 [.val 0] = .ub :=
  C80_no_more_actions_after_the_end_is_undefined quits_named (quit_reach [.forever (.user 2)]) (m := 0) (off := 0) rfl (by intro d hd; cases hd; decide) rfl ⟨[], [], rfl, (by trivial), by simp⟩
    rfl (.inl rfl) (.reset _) (fuel := 4) rfl

namespace Demo

theorem quits_within : quits.Within (fun a => a.Named Demo.nm ∧ a.Writes) fun _ _ => True := by
  intro f vs
  match f with
  | 0 =>
    refine ⟨⟨?_, trivial⟩, fun _ => ⟨⟨?_, trivial⟩, fun _ => ⟨trivial, fun o => ?_⟩⟩⟩
    · simp [Api.Named, Api.slots]
    · simp [Api.Named, Api.slots, SlotRef.Named, tgt, Demo.nm, intMax]
    · cases o <;> trivial
  | 1 => exact ⟨⟨by simp [Api.Named, Api.slots], trivial⟩, fun _ => trivial⟩
  | 2 => exact ⟨⟨by simp [Api.Named, Api.slots], trivial⟩, fun _ => trivial⟩
  | _ + 3 => trivial

/-- A callback resets its mock, stubs another method and calls it; that stubbing is used up and the calls are verified; a callback destroys its mock. -/
def quitStory : List (Op Nat Nat) :=
  [.api (.newMock 0), .api (.when_ (tgt 0 0 .any) [.forever (.user 0)] false), .call 0 0 [.val 4], .call 0 0 [.val 4], .call 0 1 [.val 5], .call 0 1 [.val 5],
   .api (.verify .involved [.leaf ⟨0, .meth 1 1, .any, none⟩] (.exactly 2) .asBool), .api (.when_ (tgt 0 0 .any) [.rep 2 (.user 1)] false), .call 0 0 [.val 1]]

/-- What happens. -/
def quitOuts : List (OpOut Nat Nat) :=
  [.api (.mockId 0), .api (.matcher 0), .call (.ret 9), .call .unexpected, .call (.ret 8), .call .unexpected, .api (.verdict false), .api (.matcher 4), .call (.ret 7)]

theorem quit_ops : ∀ op ∈ quitStory, op.Within (fun a => a.Named Demo.nm ∧ a.Writes) fun _ _ => True := by
  intro op h
  simp only [quitStory, List.mem_cons, List.not_mem_nil, or_false] at h
  rcases h with rfl | rfl | rfl | rfl | rfl | rfl | rfl | rfl | rfl
  all_goals first
    | trivial
    | (refine ⟨by simp [Api.Named, Api.slots, verifyLeaves, SlotRef.Named, tgt, Demo.nm, intMax, Seq.expected], ?_⟩
       first
         | trivial
         | exact ⟨by simp, fun s hs => by simp at hs; subst hs; exact .method _⟩)

theorem quit_run : ∃ s, rRun quits 4 (AState.start heap0) quitStory = some (quitOuts, s) ∧ s.made = 6 ∧ s.named.length = 3 := by
  have h : (rRun quits 4 (AState.start heap0) quitStory).map (fun r => (r.1, r.2.made, r.2.named.length)) = some (quitOuts, 6, 3) := by decide +kernel
  obtain ⟨⟨o, s⟩, h1, h2⟩ := Option.map_eq_some_iff.1 h
  simp only [Prod.mk.injEq] at h2
  obtain ⟨rfl, h3, h4⟩ := h2
  exact ⟨s, h1, h3, h4⟩

end Demo

/-- Such programs are also described by the abstract mock (the hypotheses of `C72_library_refines_reentrant_mock` hold). -/
example : ∃ w, runOps quits 20 (World.start heap0) quitStory = .done (quitOuts, w) := by
  obtain ⟨s, hs, hm, hl⟩ := quit_run
  obtain ⟨w, e, -⟩ := C72_library_refines_reentrant_mock (nm := Demo.nm) quits_within quit_ops hs (by rw [hm]; decide) (by rw [hl]; decide) 8
  exact ⟨w, e⟩

end FakeIt
