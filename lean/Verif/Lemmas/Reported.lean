import Verif.Lemmas.Twin
/-!
# What has been reported does not matter

No operation reads the list of reported events: the same operation in a world that differs only in what was reported before does the same and reports the same.
-/
namespace FakeIt
variable {V E : Type} {P : Prog V E}

/-- The same world in which `L` has been reported before. -/
def World.pre (w : World V E) (L : List (Event V)) : World V E := { w with log := L ++ w.log }

/-- A result with a world in second place, in which `L` has been reported before. -/
def preR {α : Type} (L : List (Event V)) (r : R (α × World V E)) : R (α × World V E) := r >>= fun (a, w) => .done (a, w.pre L)

/-- A result with a world in first place, in which `L` has been reported before. -/
def preL {α : Type} (L : List (Event V)) (r : R (World V E × α)) : R (World V E × α) := r >>= fun (w, a) => .done (w.pre L, a)

section
variable (w : World V E) (L : List (Event V))

theorem pre_mocks : (w.pre L).mocks = w.mocks := rfl
theorem pre_heap : (w.pre L).heap = w.heap := rfl
theorem pre_mock? (m : MockId) : (w.pre L).mock? m = w.mock? m := rfl
theorem pre_body? (m : MockId) (off : Nat) : (w.pre L).body? m off = w.body? m off := rfl
theorem pre_handler? (m : MockId) (off : Nat) (h : Addr) : (w.pre L).handler? m off h = w.handler? m off h := rfl
theorem pre_orphan? (m : MockId) (off : Nat) (h : Addr) (i : Nat) : (w.pre L).orphan? m off h i = w.orphan? m off h i := rfl
theorem pre_fire (e : Event V) : (w.pre L).fire e = (w.fire e).pre L := by simp [World.fire, World.pre]

theorem pre_touch (m : MockId) (s : SlotRef) : touch P (w.pre L) m s = (touch P w m s >>= fun o => .done (o.map (·.pre L))) := by
  unfold touch
  rw [pre_mock?]
  cases w.mock? m with
  | none => rfl
  | some k =>
    cases s with
    | meth off ctr => cases h : k.mocks[off]? with
      | none => simp [h]
      | some o => cases o <;> simp [h] <;> rfl
    | dtor =>
      dsimp only
      cases (P.cls k.cls).dtor with
      | none => rfl
      | some d =>
        dsimp only
        by_cases hd : d + 1 < k.vt.length
        · simp only [if_pos hd]
          cases h : k.mocks[d]? with
          | none => rfl
          | some o => cases o <;> rfl
        · simp [if_neg hd]

theorem pre_touchAll (l : List (MockId × SlotRef)) : touchAll P (w.pre L) l = preL L (touchAll P w l) := by
  induction l generalizing w with
  | nil => rfl
  | cons x l ih =>
    obtain ⟨m, s⟩ := x
    unfold touchAll
    rw [pre_touch]
    cases touch P w m s with
    | ub => rfl
    | oof => rfl
    | done o => cases o with
      | none => rfl
      | some w' => exact ih w'

theorem pre_commit (t : Target V) (acts : List (Act V E)) : commit P (w.pre L) t acts = (commit P w t acts >>= fun w => .done (w.pre L)) := by
  unfold commit
  rw [pre_mock?]
  cases w.mock? t.m with
  | none => rfl
  | some k =>
    dsimp only
    cases t.slot.off (P.cls k.cls) with
    | none => rfl
    | some off =>
      dsimp only
      rw [pre_body?]
      cases w.body? t.m off <;> rfl

theorem pre_commitAll (acts : List (Act V E)) (ts : List (Target V)) : commitAll P acts (w.pre L) ts = (commitAll P acts w ts >>= fun w => .done (w.pre L)) := by
  induction ts generalizing w with
  | nil => rfl
  | cons t ts ih =>
    unfold commitAll
    rw [pre_commit]
    cases commit P w t acts with
    | ub => rfl
    | oof => rfl
    | done w' => exact ih w'

theorem pre_stubOne (t : Target V) (acts : List (Act V E)) (u : Bool) : stubOne P (w.pre L) t acts u = preL L (stubOne P w t acts u) := by
  unfold stubOne
  rw [pre_touch]
  cases touch P w t.m t.slot with
  | ub => rfl
  | oof => rfl
  | done o => cases o with
    | none => rfl
    | some w1 =>
      cases u with
      | true => rfl
      | false =>
        simp only [R.bind_done, Option.map_some, pre_commit, Bool.false_eq_true, if_false]
        cases commit P w1 t acts <;> rfl

theorem pre_stubMany (ts : List (Target V)) (a : Act V E) : stubMany P (w.pre L) ts a = preL L (stubMany P w ts a) := by
  unfold stubMany
  rw [pre_touchAll]
  cases touchAll P w (ts.map fun t => (t.m, t.slot)) with
  | ub => rfl
  | oof => rfl
  | done x =>
    obtain ⟨w1, ok⟩ := x
    cases ok with
    | false => rfl
    | true =>
      simp only [preL, R.bind_done, pre_commitAll]
      cases commitAll P [a] w1 ts <;> rfl

theorem pre_collect (s : Source V) (into : List (Invocation V)) : s.collect P (w.pre L) into = s.collect P w into := by
  induction s generalizing into with
  | empty => rfl
  | mock m => rfl
  | ctx l => rfl
  | unverified s ih => simp only [Source.collect, ih]
  | union s t ih1 ih2 => simp only [Source.collect, ih1, ih2]

theorem pre_analyse (scope : Scope V) (pat : List (Seq (Leaf V))) : analyse P (w.pre L) scope pat = analyse P w scope pat := by
  have h : leafMatches P (w.pre L) = leafMatches P w := rfl
  unfold analyse
  rw [pre_collect, h]

theorem pre_verifyExpectation (scope : Scope V) (pat : List (Seq (Leaf V))) (e : Expectation) :
    verifyExpectation P (w.pre L) scope pat e = (verifyExpectation P w scope pat e >>= fun (e, w, x) => .done (e, w.pre L, x)) := by
  unfold verifyExpectation
  rw [pre_analyse]
  split
  · rfl
  · cases analyse P w scope pat with
    | ub => rfl
    | oof => rfl
    | done r =>
      obtain ⟨actual, count, matched⟩ := r
      simp only [R.bind_done]
      cases e.judge count actual <;> rfl

theorem pre_verify (scope : Scope V) (pat : List (Seq (Leaf V))) (q : Quant) (mode : VMode) : verifyStmt P (w.pre L) scope pat q mode = preL L (verifyStmt P w scope pat q mode) := by
  unfold verifyStmt
  rw [pre_touchAll]
  cases touchAll P w ((verifyLeaves scope pat).map fun l => (l.m, l.slot)) with
  | ub => rfl
  | oof => rfl
  | done x =>
    obtain ⟨w1, ok⟩ := x
    cases ok with
    | false => rfl
    | true =>
      have ha : allAlive (w1.pre L) (scope.source pat).mocks = allAlive w1 (scope.source pat).mocks := rfl
      simp only [preL, R.bind_done, ha]
      split
      · rfl
      · cases Expectation.init.quant q with
        | none => rfl
        | some e =>
          dsimp only
          cases mode with
          | stmt u => cases u with
            | true => rfl
            | false =>
              simp only [pre_verifyExpectation]
              cases verifyExpectation P w1 scope pat e with
              | ub => rfl
              | oof => rfl
              | done r =>
                obtain ⟨e', w2, x⟩ := r
                cases x with
                | none => rfl
                | some x => simp only [R.bind_done, pre_fire]
          | asBool =>
            simp only [pre_verifyExpectation]
            cases verifyExpectation P w1 scope pat e with
            | ub => rfl
            | oof => rfl
            | done r =>
              obtain ⟨e', w2, x⟩ := r
              cases x <;> rfl

theorem pre_noOther (srcs : List (Source V)) (mode : VMode) : noOtherStmt P (w.pre L) srcs mode = preL L (noOtherStmt P w srcs mode) := by
  unfold noOtherStmt
  rw [pre_touchAll]
  cases touchAll P w ((aggregate srcs).leaves.map fun l => (l.m, l.slot)) with
  | ub => rfl
  | oof => rfl
  | done x =>
    obtain ⟨w1, ok⟩ := x
    cases ok with
    | false => rfl
    | true =>
      have ha : allAlive (w1.pre L) (aggregate srcs).mocks = allAlive w1 (aggregate srcs).mocks := rfl
      have hn : noOther P (w1.pre L) srcs = noOther P w1 srcs := by unfold noOther; rw [pre_collect]
      simp only [preL, R.bind_done, ha, hn]
      split
      · rfl
      · cases mode with
        | stmt u => cases u with
          | true => rfl
          | false => cases noOther P w1 srcs with
            | none => rfl
            | some x => simp only [R.bind_done, pre_fire]
        | asBool => cases noOther P w1 srcs <;> rfl

/-- The API. -/
theorem pre_api (a : Api V E) : apiStep P (w.pre L) a = preL L (apiStep P w a) := by
  cases a with
  | newMock cls => rfl
  | newSpy cls => rfl
  | destroy m => simp only [apiStep, pre_mock?]; cases w.mock? m <;> rfl
  | touch m slot =>
    unfold apiStep
    simp only [pre_touch]
    cases touch P w m slot with
    | ub => rfl
    | oof => rfl
    | done o => cases o <;> rfl
  | when_ t acts u => exact pre_stubOne w L t acts u
  | fake ts => exact pre_stubMany w L ts _
  | spy move ts => exact pre_stubMany w L ts _
  | assign t f => exact pre_stubOne w L t _ _
  | stubData m cell v =>
    simp only [apiStep, pre_mock?]
    cases w.mock? m with
    | none => rfl
    | some k => dsimp only; split <;> rfl
  | writeData m cell v =>
    simp only [apiStep, pre_mock?]
    cases w.mock? m with
    | none => rfl
    | some k => dsimp only; split <;> rfl
  | reset m => simp only [apiStep, pre_mock?]; cases w.mock? m <;> rfl
  | clear m => simp only [apiStep, pre_mock?]; cases w.mock? m <;> rfl
  | write a v => rfl
  | verify scope pat q mode => exact pre_verify w L scope pat q mode
  | verifyNoOther srcs mode => exact pre_noOther w L srcs mode

/-! ## Calls -/

/-- A way to make calls that does not look at what has been reported. -/
def PreCall (L : List (Event V)) (call : CallFn V E) : Prop := ∀ w m off args, call (w.pre L) m off args = preR L (call w m off args)

variable {L} {call : CallFn V E} (hc : PreCall L call)

theorem pre_setArg (fr : Option Frame) (args : List (Arg V)) (i : Nat) (v : V) : setArg (w.pre L) fr args i v = (setArg w fr args i v).pre L := by
  unfold setArg
  cases args[i]? with
  | none => rfl
  | some a => cases a with
    | ref a => rfl
    | val x => cases fr <;> rfl

include hc

theorem pre_runBody (fr : Option Frame) (args : List (Arg V)) (b : Body V E) : runBody P call fr args b (w.pre L) = preR L (runBody P call fr args b w) := by
  induction b generalizing w with
  | done o => rfl
  | setArg i v k ih =>
    unfold runBody
    rw [pre_setArg]
    exact ih _
  | call m off as k ih =>
    unfold runBody
    rw [hc]
    cases call w m off as with
    | ub => rfl
    | oof => rfl
    | done r => exact ih _ _
  | api a k ih =>
    unfold runBody
    rw [pre_api]
    cases apiStep P w a with
    | ub => rfl
    | oof => rfl
    | done r => exact ih _ _

theorem pre_runDelegate (m : MockId) (off : Nat) (args : List (Arg V)) : runDelegate P call (w.pre L) m off args = preR L (runDelegate P call w m off args) := by
  unfold runDelegate
  rw [pre_mocks]
  cases w.mocks[m]? with
  | none => rfl
  | some k =>
    dsimp only
    split
    · rfl
    · split
      · rename_i f o _ _
        have : (w.pre L).setVt m off o = (w.setVt m off o).pre L := rfl
        rw [this, hc]
        cases call (w.setVt m off o) m off args <;> rfl
      · rfl

theorem pre_invokeAct (fr : Frame) (args : List (Arg V)) (a : Act V E) : invokeAct P call (w.pre L) fr args a = preR L (invokeAct P call w fr args a) := by
  cases a with
  | rep n f => exact pre_runBody w hc _ args _
  | forever f => exact pre_runBody w hc _ args _
  | dflt =>
    unfold invokeAct
    rw [pre_mocks]
    cases w.mocks[fr.m]? with
    | none => rfl
    | some k =>
      dsimp only
      cases (P.cls k.cls).dflt fr.off <;> rfl
  | deleg mv =>
    cases mv with
    | true => exact pre_runDelegate (w.updInv fr.m fr.off fr.uid fun i => { i with args := moveArgs P i.args }) hc _ _ args
    | false => exact pre_runDelegate w hc _ _ args
  | noMore => rfl

omit hc in
theorem pre_finally (m : MockId) (off : Nat) (h : Addr) (i : Nat) (a : Act V E) (o : Outcome V E) :
    worldFinally (w.pre L) m off h i a o = (worldFinally w m off h i a o >>= fun w => .done (w.pre L)) := by
  unfold worldFinally
  rw [pre_handler?, pre_orphan?]
  cases w.handler? m off h with
  | none =>
    dsimp only
    cases w.orphan? m off h i with
    | none => rfl
    | some x =>
      dsimp only
      unfold orphanEnd
      split
      · rfl
      · split <;> rfl
  | some hd =>
    dsimp only
    cases hd.seq.finallyClause i <;> rfl

theorem pre_runHandler (fr : Frame) (h : Handler V E) (args : List (Arg V)) : runHandler P call (w.pre L) fr h args = preR L (runHandler P call w fr h args) := by
  unfold runHandler
  cases h.seq.front with
  | ub => rfl
  | oof => rfl
  | done r =>
    obtain ⟨i, a⟩ := r
    simp only [R.bind_done]
    have : (w.pre L).updSeq fr.m fr.off h.addr (fun s => s.tick i) = (w.updSeq fr.m fr.off h.addr fun s => s.tick i).pre L := rfl
    rw [this, pre_invokeAct _ hc]
    cases invokeAct P call (w.updSeq fr.m fr.off h.addr fun s => s.tick i) fr args a with
    | ub => rfl
    | oof => rfl
    | done r =>
      obtain ⟨o, w'⟩ := r
      simp only [preR, R.bind_done, pre_finally]
      cases worldFinally w' fr.m fr.off h.addr i a o <;> rfl

theorem pre_handleCall (m : MockId) (off : Nat) (b : MBody V E) (args : List (Arg V)) : handleCall P call (w.pre L) m off b args = preR L (handleCall P call w m off b args) := by
  have hb : (w.pre L).bumpInv = w.bumpInv.pre L := rfl
  unfold handleCall
  simp only [hb, pre_heap]
  have e1 : (w.bumpInv.pre L).invTotal = w.bumpInv.invTotal := rfl
  have e2 : (w.bumpInv.pre L).lastOrdinal = w.bumpInv.lastOrdinal := rfl
  rw [e1, e2]
  cases findHandler w.bumpInv.heap b.handlers { uid := w.bumpInv.invTotal, ordinal := w.bumpInv.lastOrdinal, method := b.method, args := args, verified := false, matcher := none } with
  | none => simp [unmatched, preR, pre_fire]
  | some h =>
    dsimp only
    have e3 : ∀ inv, (w.bumpInv.pre L).pushInv m off inv = (w.bumpInv.pushInv m off inv).pre L := fun _ => rfl
    rw [e3, pre_runHandler _ hc]
    generalize runHandler P call (w.bumpInv.pushInv m off _) _ h args = r
    cases r with
    | ub => rfl
    | oof => rfl
    | done r =>
      obtain ⟨o, w3⟩ := r
      cases o <;> simp [preR, unmatched, pre_fire]

theorem pre_runCode (m : MockId) (k : Mock V E) (args : List (Arg V)) (c : Code) : runCode P call (w.pre L) m k args c = preR L (runCode P call w m k args c) := by
  cases c with
  | unmocked =>
    have hb : (w.pre L).bumpInv = w.bumpInv.pre L := rfl
    simp only [runCode, unmockedCall, hb, pre_fire, preR, R.bind_done]
    rfl
  | unmockedDtor => rfl
  | dtorThunk =>
    unfold runCode
    cases (P.cls k.cls).dtor with
    | none => rfl
    | some d => exact hc _ _ _ _
  | proxy id =>
    simp only [runCode]
    cases k.body? (Mock.getOffset k.offsets id) with
    | none => rfl
    | some b => exact pre_handleCall w hc _ _ _ _
  | native f => exact pre_runBody w hc _ _ _

omit hc

theorem pre_callSlot (L : List (Event V)) (n : Nat) : PreCall L (callSlot P n) := by
  induction n with
  | zero => intro w m off args; rfl
  | succ n ih =>
    intro w m off args
    unfold callSlot
    rw [pre_mocks]
    cases w.mocks[m]? with
    | none => rfl
    | some k =>
      dsimp only
      split
      · rfl
      · cases k.vt[off]? with
        | none => rfl
        | some c => exact pre_runCode w ih _ _ _ _

theorem pre_runOps (n : Nat) (L : List (Event V)) (ops : List (Op V E)) : runOps P n (w.pre L) ops = preR L (runOps P n w ops) := by
  induction ops generalizing w with
  | nil => rfl
  | cons op ops ih =>
    have h : opStep P n (w.pre L) op = preR L (opStep P n w op) := by
      cases op with
      | call m off args =>
        simp only [opStep]
        rw [pre_callSlot L n w]
        cases callSlot P n w m off args <;> rfl
      | api a =>
        simp only [opStep, pre_api]
        cases apiStep P w a <;> rfl
    unfold runOps
    rw [h]
    cases opStep P n w op with
    | ub => rfl
    | oof => rfl
    | done r =>
      obtain ⟨o, w'⟩ := r
      simp only [preR, R.bind_done, ih]
      cases runOps P n w' ops <;> rfl

end
end FakeIt
