import Verif.Model.Threads
/-!
# Calls of several threads and calls one after the other
-/
namespace FakeIt.Threads
variable {V E : Type}

/-! ## A call that is not disturbed -/

/-- The rest of a call, with nobody else touching the method. -/
inductive Runs (P : Prog V E) (st : Site V) : Cell V E → Phase V E → Cell V E → List (Event V) → Outcome V E → Prop where
  | done {c : Cell V E} {o : Outcome V E} : Runs P st c (.finished o) c [] o
  | step {c c1 c2 : Cell V E} {ph ph1 : Phase V E} {e es : List (Event V)} {o : Outcome V E} :
      advance P st c ph = some (c1, e, ph1) → Runs P st c1 ph1 c2 es o → Runs P st c ph c2 (e ++ es) o

theorem Runs.inv {P : Prog V E} {st : Site V} {c c2 : Cell V E} {ph : Phase V E} {es : List (Event V)} {o : Outcome V E}
    (h : Runs P st c ph c2 es o) : (ph = .finished o ∧ c2 = c ∧ es = []) ∨
      ∃ c1 e ph1 es1, advance P st c ph = some (c1, e, ph1) ∧ Runs P st c1 ph1 c2 es1 o ∧ es = e ++ es1 := by
  cases h with
  | done => exact .inl ⟨rfl, rfl, rfl⟩
  | step h1 h2 => exact .inr ⟨_, _, _, _, h1, h2, rfl⟩

/-- Peeling one step off. -/
theorem Runs.peel {P : Prog V E} {st : Site V} {c c2 c1 : Cell V E} {ph ph1 : Phase V E} {es e : List (Event V)} {o : Outcome V E}
    (h : Runs P st c ph c2 es o) (ha : advance P st c ph = some (c1, e, ph1)) : ∃ es1, Runs P st c1 ph1 c2 es1 o ∧ es = e ++ es1 := by
  rcases h.inv with ⟨rfl, -, -⟩ | ⟨_, _, _, _, h1, h2, h3⟩
  · cases ha
  · rw [ha] at h1; cases h1; exact ⟨_, h2, h3⟩

/-- A call that is stuck does not come to an end. -/
theorem Runs.stuck {P : Prog V E} {st : Site V} {c c2 : Cell V E} {ph : Phase V E} {es : List (Event V)} {o : Outcome V E}
    (h : Runs P st c ph c2 es o) (ha : advance P st c ph = none) : ph = .finished o := by
  rcases h.inv with ⟨rfl, -, -⟩ | ⟨_, _, _, _, h1, -, -⟩
  · rfl
  · rw [ha] at h1; cases h1

/-- The world with another cell and more events. -/
def view (w : World V E) (m : MockId) (off : Nat) (c : Cell V E) (es : List (Event V)) : World V E :=
  { putCell w m off c with log := w.log ++ es }

section view
variable {w : World V E} {m : MockId} {off : Nat} {c c' : Cell V E} {es : List (Event V)} {k : Mock V E}

theorem cell?_some (h : cell? w m off = some c) :
    ∃ k, w.mocks[m]? = some k ∧ k.mocks[off]? = some (some c.body) ∧ k.vt[off]? = some c.entry := by
  unfold cell? at h
  split at h
  · cases h
  · next k hk =>
    split at h
    · next b e hb he =>
      cases h
      refine ⟨k, hk, ?_, he⟩
      unfold Mock.body? at hb
      revert hb
      cases k.mocks[off]? with
      | none => intro hb; cases hb
      | some x => intro hb; cases x with
        | none => cases hb
        | some y => cases hb; rfl
    · cases h

theorem cell?_of (hk : w.mocks[m]? = some k) (hb : k.mocks[off]? = some (some c.body)) (he : k.vt[off]? = some c.entry) : cell? w m off = some c := by
  unfold cell?
  rw [hk]; dsimp only
  unfold Mock.body?
  rw [hb, he]; rfl

theorem set_same {α : Type} {l : List α} {i : Nat} {x : α} (h : l[i]? = some x) : l.set i x = l := by
  apply List.ext_getElem?
  intro j
  rw [List.getElem?_set]
  split
  · next e => subst e; split
              · exact h.symm
              · next hl => rw [List.getElem?_eq_none (by omega)]
  · rfl

theorem modify_same {α : Type} {l : List α} {i : Nat} {f : α → α} (h : ∀ x, l[i]? = some x → f x = x) : l.modify i f = l := by
  apply List.ext_getElem?
  intro j
  rw [List.getElem?_modify]
  split
  · next e => subst e; cases hx : l[i]? with
              | none => rfl
              | some x => simp [h x hx]
  · cases l[j]? <;> rfl

theorem modify_modify {α : Type} {l : List α} {i : Nat} {f g : α → α} : (l.modify i f).modify i g = l.modify i (fun x => g (f x)) := by
  apply List.ext_getElem?
  intro j
  simp only [List.getElem?_modify]
  split <;> cases l[j]? <;> rfl

theorem view_self (h : cell? w m off = some c) : view w m off c [] = w := by
  obtain ⟨k, hk, hb, he⟩ := cell?_some h
  unfold view putCell World.updMock
  rw [List.append_nil, modify_same]
  intro x hx
  rw [hk] at hx; cases hx
  rw [set_same hb, set_same he]

theorem view_mock (hk : w.mocks[m]? = some k) :
    (view w m off c es).mocks[m]? = some { k with vt := k.vt.set off c.entry, mocks := k.mocks.set off (some c.body) } := by
  show ((w.mocks.modify m _)[m]?) = _
  rw [List.getElem?_modify, hk]; simp

theorem view_body (h : cell? w m off = some c') : (view w m off c es).body? m off = some c.body := by
  obtain ⟨k, hk, hb, he⟩ := cell?_some h
  unfold World.body?
  rw [view_mock hk]
  show (Mock.body? _ off) = _
  unfold Mock.body?
  rw [List.getElem?_set, if_pos rfl, if_pos (List.getElem?_eq_some_iff.mp hb).1]
  rfl

theorem view_entry (h : cell? w m off = some c') (hk : w.mocks[m]? = some k) : (k.vt.set off c.entry)[off]? = some c.entry := by
  obtain ⟨k', hk', hb, he⟩ := cell?_some h
  rw [hk] at hk'; cases hk'
  rw [List.getElem?_set, if_pos rfl, if_pos (List.getElem?_eq_some_iff.mp he).1]

theorem view_updBody (h : cell? w m off = some c') (f : MBody V E → MBody V E) :
    (view w m off c es).updBody m off f = view w m off { c with body := f c.body } es := by
  obtain ⟨k, hk, hb, he⟩ := cell?_some h
  unfold World.updBody World.updMock view putCell World.updMock
  simp only [modify_modify]
  congr 1
  apply List.ext_getElem?
  intro j
  simp only [List.getElem?_modify]
  split
  · next e =>
    subst e
    rw [hk]
    refine congrArg some ?_
    unfold Mock.updBody
    dsimp only
    congr 1
    apply List.ext_getElem?
    intro j
    simp only [List.getElem?_modify, List.getElem?_set]
    have hl := (List.getElem?_eq_some_iff.mp hb).1
    by_cases hj : off = j
    · subst hj; simp [hl]
    · simp [hj]
  · rfl

theorem view_setVt (_h : cell? w m off = some c') (e : Code) : (view w m off c es).setVt m off e = view w m off { c with entry := e } es := by
  unfold World.setVt World.updMock view putCell World.updMock
  simp only [modify_modify]
  congr 1
  apply List.ext_getElem?
  intro j
  simp only [List.getElem?_modify]
  split
  · cases w.mocks[j]? with
    | none => rfl
    | some x => simp [List.set_set]
  · rfl

theorem view_updInv (h : cell? w m off = some c') (uid : Nat) (f : Invocation V → Invocation V) :
    (view w m off c es).updInv m off uid f = view w m off (c.updInv uid f) es := view_updBody h _

theorem view_updSeq (h : cell? w m off = some c') (a : Addr) (f : ActionSeq V E → ActionSeq V E) :
    (view w m off c es).updSeq m off a f = view w m off (c.updSeq a f) es := view_updBody h _

theorem view_handler (h : cell? w m off = some c') (a : Addr) :
    (view w m off c es).handler? m off a = c.body.handlers.find? (·.addr == a) := by
  unfold World.handler?
  rw [view_body h]; rfl

theorem view_fire (e : Event V) : (view w m off c es).fire e = view w m off c (es ++ [e]) := by
  unfold view World.fire
  simp [putCell, World.updMock]

end view

theorem derefAll_vals (heap : Addr → V) (vs : List V) : derefAll heap (vs.map .val) = vs := by
  unfold derefAll
  induction vs with
  | nil => rfl
  | cons v vs ih => simp only [List.map_cons, ih]; rfl

theorem findHandler_heap {hs : List (Handler V E)} {inv : Invocation V} {vs : List V} (hv : inv.args = vs.map .val) (h1 h2 : Addr → V) :
    findHandler h1 hs inv = findHandler h2 hs inv := by
  have : ∀ h : Handler V E, h.accepts h1 inv = h.accepts h2 inv := by
    intro h
    unfold Handler.accepts matcherMatches
    rw [hv, derefAll_vals, derefAll_vals]
  unfold findHandler
  generalize hs.reverse = l
  induction l with
  | nil => rfl
  | cons x l ih => unfold scanHandlers; rw [this x, ih]

theorem scan_mem {heap : Addr → V} {inv : Invocation V} {l : List (Handler V E)} {h : Handler V E} (e : scanHandlers heap inv l = some h) : h ∈ l := by
  induction l with
  | nil => cases e
  | cons x l ih =>
    unfold scanHandlers at e
    split at e
    · cases e; exact List.mem_cons_self
    · exact List.mem_cons_of_mem _ (ih e)

theorem find_addr {hs : List (Handler V E)} (hn : (hs.map (·.addr)).Nodup) {h : Handler V E} (hm : h ∈ hs) : hs.find? (·.addr == h.addr) = some h := by
  induction hs with
  | nil => cases hm
  | cons x hs ih =>
    rw [List.map_cons, List.nodup_cons] at hn
    rw [List.find?_cons]
    by_cases hx : x.addr = h.addr
    · have hxt : (x.addr == h.addr) = true := by simp [hx]
      rw [hxt]
      rcases List.mem_cons.mp hm with rfl | hm
      · rfl
      · exact absurd (List.mem_map.mpr ⟨h, hm, hx.symm⟩) hn.1
    · have hxt : (x.addr == h.addr) = false := by simp [hx]
      rw [hxt]
      rcases List.mem_cons.mp hm with rfl | hm
      · exact absurd rfl hx
      · exact ih hn.2 hm

section link
variable {P : Prog V E} {w : World V E} {m : MockId} {off : Nat} {c0 : Cell V E} {k : Mock V E} {st : Site V}
  {vs : List V} {n : Nat}

/-- What the rest of a call is about. -/
structure At (P : Prog V E) (w : World V E) (m : MockId) (off : Nat) (c0 : Cell V E) (k : Mock V E) (st : Site V) (vs : List V) : Prop where
  cell : cell? w m off = some c0
  mock : w.mocks[m]? = some k
  live : (!k.alive && k.owner) = false
  off_ : st.off = off
  cls : st.cls = P.cls k.cls
  orig : k.orig[off]? = some st.orig
  args : st.args = vs

theorem run_body (A : At P w m off c0 k st vs) {call : CallFn V E} {inv : Invocation V} {h : Addr} {i : Nat} {own : Bool} {back : Option Code}
    {es : List (Event V)} (b : Body V E) : ∀ {c c2 : Cell V E} {es' : List (Event V)} {o2 : Outcome V E},
    Runs P st c (.running inv h i own back b) c2 es' o2 →
    ∃ o c1, runBody P call (if own then some { m := m, off := off, uid := inv.uid } else none) (vs.map .val) b (view w m off c es) =
      .done (o, view w m off c1 es) ∧ Runs P st c1 (.acted inv h i back o) c2 es' o2 := by
  induction b with
  | done o =>
    intro c c2 es' o2 hr
    obtain ⟨es1, h1, h2⟩ := hr.peel rfl
    refine ⟨o, c, rfl, ?_⟩
    rw [h2]; exact h1
  | setArg j v b ih =>
    intro c c2 es' o2 hr
    obtain ⟨es1, h1, h2⟩ := hr.peel rfl
    obtain ⟨o, c1, h3, h4⟩ := ih h1
    refine ⟨o, c1, ?_, by rw [h2]; exact h4⟩
    unfold runBody
    rw [← h3]
    congr 1
    unfold setArg
    rw [List.getElem?_map]
    by_cases hj : j < vs.length
    · rw [List.getElem?_eq_getElem hj]
      have hj' : j < st.args.length := by rw [A.args]; exact hj
      cases own
      · simp
      · simp only [Option.map_some, if_true, Bool.true_and, hj', decide_true]
        exact view_updInv A.cell _ _
    · rw [List.getElem?_eq_none (by omega)]
      have hj' : ¬ j < st.args.length := by rw [A.args]; exact hj
      simp [hj']
  | call m' off' as kk ih =>
    intro c c2 es' o2 hr
    cases hr.stuck rfl
  | api a kk ih =>
    intro c c2 es' o2 hr
    cases hr.stuck rfl

theorem run_act (A : At P w m off c0 k st vs) {inv : Invocation V} {h : Addr} {i : Nat} {es : List (Event V)} (act : Act V E)
    {c c2 : Cell V E} {es' : List (Event V)} {o2 : Outcome V E} (hr : Runs P st c (.acting inv h i act) c2 es' o2) :
    ∃ o c1, invokeAct P (callSlot P (n + 1)) (view w m off c es) { m := m, off := off, uid := inv.uid } (vs.map .val) act =
      .done (o, view w m off c1 es) ∧ Runs P st c1 (.acted inv h i none o) c2 es' o2 := by
  cases act with
  | rep times f =>
    obtain ⟨es1, h1, h2⟩ := hr.peel rfl
    obtain ⟨o, c1, h3, h4⟩ := run_body (es := es) (call := callSlot P (n + 1)) A _ h1
    refine ⟨o, c1, ?_, by rw [h2]; exact h4⟩
    unfold invokeAct
    rw [derefAll_vals, ← A.args, ← h3, A.args]
    rfl
  | forever f =>
    obtain ⟨es1, h1, h2⟩ := hr.peel rfl
    obtain ⟨o, c1, h3, h4⟩ := run_body (es := es) (call := callSlot P (n + 1)) A _ h1
    refine ⟨o, c1, ?_, by rw [h2]; exact h4⟩
    unfold invokeAct
    rw [derefAll_vals, ← A.args, ← h3, A.args]
    rfl
  | dflt =>
    unfold invokeAct
    rw [view_mock A.mock]
    dsimp only
    have hd : (P.cls k.cls).dflt off = st.cls.dflt st.off := by rw [A.cls, A.off_]
    rw [hd]
    cases hv : st.cls.dflt st.off with
    | value v =>
      obtain ⟨es1, h1, h2⟩ := hr.peel (by unfold advance; dsimp only; rw [hv])
      exact ⟨_, c, rfl, by rw [h2]; exact h1⟩
    | throws =>
      obtain ⟨es1, h1, h2⟩ := hr.peel (by unfold advance; dsimp only; rw [hv])
      exact ⟨_, c, rfl, by rw [h2]; exact h1⟩
    | nullRef => cases hr.stuck (by unfold advance; dsimp only; rw [hv])
  | noMore =>
    obtain ⟨es1, h1, h2⟩ := hr.peel rfl
    exact ⟨_, c, rfl, by rw [h2]; exact h1⟩
  | deleg move =>
    unfold invokeAct
    dsimp only
    have hw : (if move then (view w m off c es).updInv m off inv.uid (fun i => { i with args := moveArgs P i.args }) else view w m off c es) =
        view w m off (if move then c.updInv inv.uid (fun x => { x with args := moveArgs P x.args }) else c) es := by
      cases move
      · rfl
      · exact view_updInv A.cell _ _
    rw [hw]
    have hent : (if move then c.updInv inv.uid (fun x => { x with args := moveArgs P x.args }) else c).entry = c.entry := by cases move <;> rfl
    have hadv : advance P st c (.acting inv h i (.deleg move)) =
      (let c1 := if move then c.updInv inv.uid (fun x => { x with args := moveArgs P x.args }) else c
       if st.cls.dtor = some st.off then some (c1, [], .acted inv h i none (.ret P.void))
       else some ({ c1 with entry := st.orig }, [], .swapped inv h i c.entry)) := rfl
    generalize (if move then c.updInv inv.uid (fun x => { x with args := moveArgs P x.args }) else c) = c1 at hw hadv hent
    dsimp only at hadv
    unfold runDelegate
    rw [view_mock A.mock]
    dsimp only
    have hdt : (P.cls k.cls).dtor = some off ↔ st.cls.dtor = some st.off := by rw [A.cls, A.off_]
    by_cases hd : st.cls.dtor = some st.off
    · rw [if_pos (hdt.mpr hd)]
      rw [if_pos hd] at hadv
      obtain ⟨es1, h1, h2⟩ := hr.peel hadv
      exact ⟨_, c1, rfl, by rw [h2]; exact h1⟩
    · rw [if_neg (fun h => hd (hdt.mp h))]
      rw [if_neg hd] at hadv
      obtain ⟨es1, h1, h2⟩ := hr.peel hadv
      rw [view_entry A.cell A.mock, A.orig]
      dsimp only
      rw [view_setVt A.cell]
      -- the swapped call
      have hsw : ∃ f, st.orig = .native f := by
        cases ho : st.orig with
        | native f => exact ⟨f, rfl⟩
        | _ => exact nomatch (h1.stuck (by unfold advance; dsimp only; rw [ho]))
      obtain ⟨f, hf⟩ := hsw
      obtain ⟨es2, h3, h4⟩ := h1.peel (ph1 := .running inv h i false (some c.entry) (P.fn f st.args)) (e := [])
        (c1 := { c1 with entry := st.orig }) (by unfold advance; dsimp only; rw [hf])
      obtain ⟨o, c3, h5, h6⟩ := run_body (es := es) (call := callSlot P n) A _ h3
      obtain ⟨es3, h7, h8⟩ := h6.peel rfl
      refine ⟨o, { c3 with entry := c.entry }, ?_, ?_⟩
      · have hcall : callSlot P (n + 1) (view w m off { c1 with entry := st.orig } es) m off (vs.map .val) = .done (o, view w m off c3 es) := by
          unfold callSlot
          rw [view_mock A.mock]
          dsimp only
          rw [A.live]
          simp only [Bool.false_eq_true, if_false]
          rw [view_entry (c := { c1 with entry := st.orig }) A.cell A.mock]
          dsimp only
          rw [hf]
          unfold runCode
          rw [derefAll_vals, ← h5, ← A.args, hf]
          rfl
        rw [hcall]
        show R.done _ = _
        rw [view_setVt A.cell, hent]
      · rw [h2, h4, h8]; exact h7

/-- How a call ends once its action sequence has been updated. -/
theorem run_left {c c2 : Cell V E} {inv : Invocation V} {o o2 : Outcome V E} {es' : List (Event V)} (hr : Runs P st c (.left inv o) c2 es' o2) :
    c2 = c ∧ ((o = .noMore ∧ o2 = .unexpected ∧ es' = [.unexpectedCall .unmatched inv]) ∨ (o ≠ .noMore ∧ o2 = o ∧ es' = [])) := by
  cases o with
  | noMore =>
    obtain ⟨es1, h1, h2⟩ := hr.peel rfl
    rcases h1.inv with ⟨h3, h4, h5⟩ | ⟨_, _, _, _, h3, -, -⟩
    · cases h3; subst h5; exact ⟨h4, .inl ⟨rfl, rfl, h2⟩⟩
    · cases h3
  | ret v =>
    obtain ⟨es1, h1, h2⟩ := hr.peel rfl
    rcases h1.inv with ⟨h3, h4, h5⟩ | ⟨_, _, _, _, h3, -, -⟩
    · cases h3; subst h5; exact ⟨h4, .inr ⟨(nomatch ·), rfl, h2⟩⟩
    · cases h3
  | exc v =>
    obtain ⟨es1, h1, h2⟩ := hr.peel rfl
    rcases h1.inv with ⟨h3, h4, h5⟩ | ⟨_, _, _, _, h3, -, -⟩
    · cases h3; subst h5; exact ⟨h4, .inr ⟨(nomatch ·), rfl, h2⟩⟩
    · cases h3
  | unexpected =>
    obtain ⟨es1, h1, h2⟩ := hr.peel rfl
    rcases h1.inv with ⟨h3, h4, h5⟩ | ⟨_, _, _, _, h3, -, -⟩
    · cases h3; subst h5; exact ⟨h4, .inr ⟨(nomatch ·), rfl, h2⟩⟩
    · cases h3

theorem run_acted (A : At P w m off c0 k st vs) {c c2 : Cell V E} {inv : Invocation V} {h : Addr} {i : Nat} {o o2 : Outcome V E}
    {es es' : List (Event V)} (hr : Runs P st c (.acted inv h i none o) c2 es' o2) :
    (∀ act, worldFinally (view w m off c es) m off h i act o = .done (view w m off c2 es)) ∧
      ((o = .noMore ∧ o2 = .unexpected ∧ es' = [.unexpectedCall .unmatched inv]) ∨ (o ≠ .noMore ∧ o2 = o ∧ es' = [])) := by
  unfold worldFinally
  rw [view_handler A.cell]
  cases hf : c.body.handlers.find? (·.addr == h) with
  | none => cases hr.stuck (by unfold advance; dsimp only; rw [hf])
  | some hd =>
    dsimp only
    cases hfin : hd.seq.finallyClause i with
    | ub => cases hr.stuck (by unfold advance; dsimp only; rw [hf]; dsimp only; rw [hfin])
    | oof => cases hr.stuck (by unfold advance; dsimp only; rw [hf]; dsimp only; rw [hfin])
    | done s =>
      obtain ⟨es1, h1, h2⟩ := hr.peel (c1 := c.updSeq h (fun _ => s)) (e := []) (ph1 := .left inv o)
        (by unfold advance; dsimp only; rw [hf]; dsimp only; rw [hfin])
      obtain ⟨h3, h4⟩ := run_left h1
      rw [h2, h3]
      refine ⟨fun _ => ?_, h4⟩
      show R.done _ = _
      rw [view_updSeq A.cell]

/-- A call that is not disturbed is a call of the core machine. -/
theorem run_handle (A : At P w m off c0 k st vs) {c2 : Cell V E} {es' : List (Event V)} {o2 : Outcome V E} {inv : Invocation V}
    (hn : (c0.body.handlers.map (·.addr)).Nodup) (hinv : inv.args = vs.map .val)
    (hu : inv = { uid := w.invTotal, ordinal := w.lastOrdinal, method := c0.body.method, args := vs.map .val, verified := false, matcher := none })
    (hr : Runs P st c0 (.entered inv) c2 es' o2) {w0 : World V E} (hw : w = w0.bumpInv) :
    handleCall P (callSlot P (n + 1)) w0 m off c0.body (vs.map .val) = .done (o2, view w m off c2 es') := by
  unfold handleCall
  dsimp only
  subst hu
  rw [← hw]
  rw [findHandler_heap hinv w.heap (fun _ => P.void)]
  generalize hi : ({ uid := w.invTotal, ordinal := w.lastOrdinal, method := c0.body.method, args := vs.map .val, verified := false,
                     matcher := none } : Invocation V) = inv at hr hinv
  have hi2 : ∀ a, ({ uid := w.invTotal, ordinal := w.lastOrdinal, method := c0.body.method, args := vs.map .val, verified := false,
                     matcher := some a } : Invocation V) = { inv with matcher := some a } := by intro a; rw [← hi]
  have hi3 : w.invTotal = inv.uid := by rw [← hi]
  cases hf : findHandler (fun _ => P.void) c0.body.handlers inv with
  | none =>
    obtain ⟨es1, h1, h2⟩ := hr.peel (c1 := c0) (e := []) (ph1 := .lost inv) (by unfold advance; dsimp only; rw [hf])
    obtain ⟨es2, h3, h4⟩ := h1.peel rfl
    rcases h3.inv with ⟨h5, h6, h7⟩ | ⟨_, _, _, _, h5, -, -⟩
    · cases h5; subst h6 h7
      rw [h2, h4]
      unfold unmatched
      have : w.fire (.unexpectedCall .unmatched inv) = view w m off c2 [.unexpectedCall .unmatched inv] := by
        rw [← List.nil_append [_], ← view_fire, view_self A.cell]
      rw [this]; rfl
    · cases h5
  | some h =>
    dsimp only
    obtain ⟨es1, h1, h2⟩ := hr.peel (c1 := c0) (e := []) (ph1 := .found { inv with matcher := some h.matcher.addr } h.addr) (by unfold advance; dsimp only; rw [hf])
    obtain ⟨es2, h3, h4⟩ := h1.peel rfl
    have hmem : h ∈ c0.body.handlers := by
      unfold findHandler at hf
      exact List.mem_reverse.mp (scan_mem hf)
    have hfind := find_addr hn hmem
    have hpush : w.pushInv m off { inv with matcher := some h.matcher.addr } =
        view w m off { c0 with body := { c0.body with invs := c0.body.invs ++ [{ inv with matcher := some h.matcher.addr }] } } [] := by
      conv => lhs; rw [← view_self A.cell]
      exact view_updBody A.cell _
    simp only [hi2]
    rw [hpush, hi3]
    generalize hc1 : ({ c0 with body := { c0.body with invs := c0.body.invs ++ [{ inv with matcher := some h.matcher.addr }] } } : Cell V E) = c1 at h3
    have hh : c1.body.handlers = c0.body.handlers := by rw [← hc1]
    unfold runHandler
    dsimp only
    cases hfr : h.seq.front with
    | ub => cases h3.stuck (by unfold advance; dsimp only; rw [hh, hfind]; dsimp only; rw [hfr])
    | oof => cases h3.stuck (by unfold advance; dsimp only; rw [hh, hfind]; dsimp only; rw [hfr])
    | done x =>
      obtain ⟨i, act⟩ := x
      obtain ⟨es3, h5, h6⟩ := h3.peel (c1 := c1.updSeq h.addr (·.tick i)) (e := []) (ph1 := .acting { inv with matcher := some h.matcher.addr } h.addr i act)
        (by unfold advance; dsimp only; rw [hh, hfind]; dsimp only; rw [hfr])
      obtain ⟨o, c3, h7, h8⟩ := run_act (es := []) (n := n) A act h5
      obtain ⟨h9, h10⟩ := run_acted (es := []) A h8
      have e1 : (view w m off c1 []).updSeq m off h.addr (fun s => s.tick i) = view w m off (c1.updSeq h.addr (·.tick i)) [] := view_updSeq A.cell _ _
      simp only [R.bind_done, e1, h7, h9]
      rw [h2, h4, h6]
      rcases h10 with ⟨rfl, rfl, h11⟩ | ⟨h11, rfl, h12⟩
      · rw [h11]
        show R.done (unmatched _ _) = _
        unfold unmatched
        rw [view_fire]; rfl
      · rw [h12]
        cases o2 with
        | noMore => exact absurd rfl h11
        | _ => rfl

end link
end FakeIt.Threads
