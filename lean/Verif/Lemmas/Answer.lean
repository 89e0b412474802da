import Verif.Lemmas.Trace
/-!
# What a call answers, without assumptions on the callables; and calls that surely finish
-/
namespace FakeIt
variable {V E : Type} {P : Prog V E} {nm : MockId → Nat → Nat} {Φ : MatcherKind V → Prop}
open Spec

theorem handleCall_eq (call : CallFn V E) (w : World V E) (m : MockId) (off : Nat) (b : MBody V E) (args : List (Arg V)) :
    handleCall P call w m off b args = (match findHandler w.heap b.handlers (fresh w b args) with
      | none => .done (unmatched w.bumpInv (fresh w b args))
      | some h => (do
        match ← runHandler P call (w.bumpInv.pushInv m off (recorded w b args h)) ⟨m, off, w.invTotal + 1⟩ h args with
        | (.noMore, w3) => .done (unmatched w3 (recorded w b args h))
        | (o, w3) => .done (o, w3))) := rfl

/-- A table entry that is original code (or "unmocked" code) answers as such. -/
theorem origAnswer {w : World V E} {m off : Nat} {k : Mock V E} (hk : w.mocks[m]? = some k) {x : Code} (hx : k.vt[off]? = some x)
    (hcode : x = .unmocked ∨ ∃ f, x = .native f) (fuel : Nat) (args : List (Arg V)) (o : Outcome V E) (w' : World V E)
    (h : callSlot P fuel w m off args = .done (o, w')) :
    (x = .unmocked → o = .unexpected) ∧ (∀ f, x = .native f → Ends (P.fn f (valuesOf w.heap args)) o) := by
  cases fuel with
  | zero => simp [callSlot] at h
  | succ fuel =>
    simp only [callSlot, hk] at h
    split at h
    · simp at h
    · simp only [hx] at h
      rcases hcode with rfl | ⟨f, rfl⟩
      · simp only [runCode, unmockedCall, R.done.injEq, Prod.mk.injEq] at h
        exact ⟨fun _ => h.1.symm, by intro f hf; cases hf⟩
      · simp only [runCode, derefAll_eq] at h
        refine ⟨(by intro hf; cases hf), ?_⟩
        intro f' hf'
        cases hf'
        exact runBody_ends P _ _ _ _ _ _ _ h

/-- A call performs the front action of the selected stubbing; no assumption on what callables do. -/
theorem answerAny {w : World V E} (hI : Inv0 P nm w) {m off : Nat} {b : MBody V E} (hlive : Live w m off b) {k : Mock V E}
    (hk : w.mocks[m]? = some k) (hnd : NotDel P w m off) {args : List (Arg V)} {h : Handler V E}
    (hsel : Selected b.handlers (valuesOf w.heap args) h) {fuel : Nat} {o : Outcome V E} {w' : World V E}
    (hcall : callSlot P (fuel + 1) w m off args = .done (o, w')) :
    ∃ i act, h.seq.front = .done (i, act) ∧ Answers P (P.cls k.cls) (!k.owner) off (valuesOf w.heap args) act.perf o := by
  rw [callSlot_live hlive] at hcall
  have hb := hlive.body
  simp only [handleCall] at hcall
  have hfind : findHandler w.bumpInv.heap b.handlers (fresh w b args) = some h := by
    rw [findHandler_some _ _ rfl]; exact hsel
  change (match findHandler w.bumpInv.heap b.handlers (fresh w b args) with
    | none => _
    | some h => _) = _ at hcall
  rw [hfind] at hcall
  simp only [R.bind_eq_done] at hcall
  obtain ⟨⟨o1, w1⟩, hrun, hend⟩ := hcall
  change runHandler P (callSlot P fuel) (w.bumpInv.pushInv m off (recorded w b args h)) ⟨m, off, w.invTotal + 1⟩ h args = .done (o1, w1) at hrun
  simp only [runHandler, R.bind_eq_done] at hrun
  obtain ⟨⟨i, act⟩, hfront, ⟨o2, w3⟩, hinv, w4, hfin, hend2⟩ := hrun
  simp only [R.done.injEq, Prod.mk.injEq] at hend2
  obtain ⟨rfl, rfl⟩ := hend2
  refine ⟨i, act, hfront, ?_⟩
  have hos : o = seen o2 := by
    cases o2 with
    | noMore =>
      simp only [unmatched, R.done.injEq, Prod.mk.injEq] at hend
      exact hend.1.symm
    | _ =>
      simp only [R.done.injEq, Prod.mk.injEq] at hend
      exact hend.1.symm
  subst hos
  have hq1 := stable0.push w m off b args h hI trivial hb hfind
  have hI1 := stable0.inv hq1 hI
  have hq2 := stable0.tick (w.bumpInv.pushInv m off (recorded w b args h)) m off h.addr i hI1 trivial
  have hq := stable0.trans hq1 hq2
  generalize hwt : ((w.bumpInv.pushInv m off (recorded w b args h)).updSeq m off h.addr fun s => s.tick i) = wt at hinv hq
  have hheapt : wt.heap = w.heap := by subst hwt; rfl
  obtain ⟨kt, hkt, hclst, hownt, -⟩ := hq.2.stat m k hk
  cases act with
  | rep t f =>
    simp only [invokeAct] at hinv
    have he := runBody_ends P _ _ _ _ _ _ _ hinv
    rw [derefAll_eq, hheapt] at he
    cases f with
    | ret v => cases he; rfl
    | thr e => cases he; rfl
    | user f => exact ⟨o2, he, rfl⟩
  | forever f =>
    simp only [invokeAct] at hinv
    have he := runBody_ends P _ _ _ _ _ _ _ hinv
    rw [derefAll_eq, hheapt] at he
    cases f with
    | ret v => cases he; rfl
    | thr e => cases he; rfl
    | user f => exact ⟨o2, he, rfl⟩
  | noMore =>
    simp only [invokeAct, R.done.injEq, Prod.mk.injEq] at hinv
    obtain ⟨rfl, rfl⟩ := hinv
    rfl
  | dflt =>
    simp only [invokeAct, hkt, hclst] at hinv
    cases hdf : (P.cls k.cls).dflt off with
    | value v =>
      simp only [hdf, R.done.injEq, Prod.mk.injEq] at hinv
      obtain ⟨rfl, rfl⟩ := hinv
      simp only [Answers, Act.perf, hdf]; rfl
    | throws =>
      simp only [hdf, R.done.injEq, Prod.mk.injEq] at hinv
      obtain ⟨rfl, rfl⟩ := hinv
      simp only [Answers, Act.perf, hdf]; rfl
    | nullRef => simp [hdf] at hinv
  | deleg mv =>
    simp only [invokeAct] at hinv
    generalize hw0 : (if mv = true then wt.updInv m off (w.invTotal + 1) (fun i => { i with args := moveArgs P i.args }) else wt) = w0 at hinv
    have hq0 : Q0 P nm wt w0 := by
      subst hw0
      split
      · exact stable0.setArgs _ _ _ _ args (moveArgs P) (stable0.inv hq hI) trivial (keepsForm_move P args)
      · exact stable0.refl _
    have hheap0 : w0.heap = w.heap := by
      subst hw0
      split
      · exact hheapt
      · exact hheapt
    obtain ⟨k0, hk0, hcls0, hown0, -⟩ := hq0.2.stat m kt hkt
    have hI0 := stable0.inv (stable0.trans hq hq0) hI
    simp only [runDelegate, hk0, hcls0, hclst] at hinv
    by_cases hdt : (P.cls k.cls).dtor = some off
    · simp only [if_pos hdt, R.done.injEq, Prod.mk.injEq] at hinv
      obtain ⟨rfl, rfl⟩ := hinv
      simp only [Act.perf, Answers, if_pos hdt]; rfl
    · simp only [if_neg hdt] at hinv
      split at hinv
      · rename_i fake orig hf ho
        simp only [R.bind_eq_done] at hinv
        obtain ⟨⟨o3, w5⟩, hc3, he3⟩ := hinv
        simp only [R.done.injEq, Prod.mk.injEq] at he3
        obtain ⟨rfl, rfl⟩ := he3
        have hoc := orig_code (hI0.1 m k0 hk0) ho (by
          intro d hd; rw [hcls0, hclst] at hd; exact hnd k d hk hd) (by rw [hcls0, hclst]; exact hdt)
        have hcode : orig = .unmocked ∨ ∃ f, orig = .native f := by
          cases hon : k0.owner with
          | true => exact .inl (hoc.1 hon)
          | false => exact .inr ⟨_, hoc.2 hon⟩
        have hkin : (w0.setVt m off orig).mocks[m]? = some { k0 with vt := k0.vt.set off orig } := by
          simp only [World.setVt, World.mocks_updMock, if_true, hk0, Option.map_some]
        have hvin : (k0.vt.set off orig)[off]? = some orig := by
          rw [List.getElem?_set_self (lt_of_getElem?_some hf)]
        obtain ⟨hun, hnat⟩ := origAnswer hkin hvin hcode fuel args _ _ hc3
        simp only [Act.perf, Answers, if_neg hdt]
        have hon : k0.owner = k.owner := hown0.trans hownt
        cases hk' : k.owner with
        | true =>
          have := hun (hoc.1 (by rw [hon, hk']))
          subst this
          simp [seen]
        | false =>
          have := hnat _ (hoc.2 (by rw [hon, hk']))
          rw [hcls0, hclst] at this
          have hheapin : (w0.setVt m off orig).heap = w.heap := hheap0
          rw [hheapin] at this
          simp only [Bool.not_false, if_true]
          exact ⟨_, this, rfl⟩
      · simp at hinv

/-! ## Calls that finish -/

theorem runBody_simple {call : CallFn V E} {fr : Option Frame} {args : List (Arg V)} {b : Body V E} (hb : b.Simple) (w : World V E) :
    ∃ o w', runBody P call fr args b w = .done (o, w') := by
  induction b generalizing w with
  | done o => exact ⟨o, w, rfl⟩
  | setArg i v k ih => exact ih hb _
  | call m off as k => exact hb.1.elim
  | api a k => exact hb.1.elim

/-- A call finishes if its action does: the bookkeeping around it never has undefined behaviour. -/
theorem serve_done {c : ClassDecl V} {m off : Nat} (hP : P.NonReentrant nm c m off Φ) {w : World V E} (hI : Inv2 P nm w)
    {b : MBody V E} (hlive : Live w m off b) {k : Mock V E} (hk : w.mocks[m]? = some k) (hc : P.cls k.cls = c) (hnd : NotDel P w m off)
    {args : List (Arg V)} {h : Handler V E} (hsel : Selected b.handlers (valuesOf w.heap args) h)
    {acts : List (Act V E)} (hrep : h.seq.Rep acts) (hsafe : Finishes P c (!k.owner) off (valuesOf w.heap args) (headAct acts).perf) (fuel : Nat) :
    ∃ o w', callSlot P (fuel + 2) w m off args = .done (o, w') := by
  rw [callSlot_live hlive]
  have hb := hlive.body
  have hIF : IF P nm c m off w := ⟨hI, ⟨k, hk, hc⟩, b, hb⟩
  have S := stableF (P := P) (nm := nm) (Φ := Φ) c m off
  have hCallOk : CallOk (Apart c m off) (IF P nm c m off) (QF P nm Φ m off) (callSlot P (fuel + 1)) := callSlot_stable S hP (fuel + 1)
  have hfind : findHandler w.bumpInv.heap b.handlers (fresh w b args) = some h := by
    rw [findHandler_some _ _ rfl]; exact hsel
  obtain ⟨i, rest, -, -, hfront⟩ := rep_front hrep
  obtain ⟨s', hs', -⟩ := rep_advance hrep hfront
  -- it is enough that the action finishes with the handlers kept
  generalize hwt : ((w.bumpInv.pushInv m off (recorded w b args h)).updSeq m off h.addr fun s => s.tick i) = wt
  have hbt : wt.body? m off = some { b with invs := b.invs ++ [recorded w b args h], handlers := setSeq b.handlers h.addr (h.seq.tick i) } := by
    subst hwt
    have hb2 : (w.bumpInv.pushInv m off (recorded w b args h)).body? m off = some { b with invs := b.invs ++ [recorded w b args h] } := by
      simp [World.pushInv, World.body?_updBody, hb]
    simp only [World.updSeq, World.body?_updBody, and_self, if_true, hb2, Option.map_some, setSeq, Option.some.injEq, MBody.mk.injEq,
      true_and, and_true]
    apply List.map_congr_left
    intro x hx
    by_cases hxa : x.addr = h.addr
    · have : x = h := eq_of_map_nodup (hI.nodup hb) hx hsel.mem hxa
      subst this; simp
    · simp [hxa]
  have hqt : Q2 P nm w wt := by
    subst hwt
    have h1 := stable2.push w m off b args h hI trivial hb hfind
    exact h1.trans (stable2.tick _ m off h.addr i (h1.inv hI) trivial)
  have hIFt : IF P nm c m off wt := by
    refine ⟨hqt.inv hI, ?_, _, hbt⟩
    obtain ⟨kt, hkt, hclst, -⟩ := hqt.1.1.2.stat m k hk
    exact ⟨kt, hkt, by rw [hclst]; exact hc⟩
  obtain ⟨kt, hkt, hclst, hownt, -⟩ := hqt.1.1.2.stat m k hk
  have hheapt : wt.heap = w.heap := by subst hwt; rfl
  have suff : (∃ o w3, invokeAct P (callSlot P (fuel + 1)) wt ⟨m, off, w.invTotal + 1⟩ args (headAct acts) = .done (o, w3) ∧ Kept Φ m off wt w3) →
      ∃ o w', handleCall P (callSlot P (fuel + 1)) w m off b args = .done (o, w') := by
    rintro ⟨o, w3, hinv, hK⟩
    obtain ⟨b3, more, hb3, -, hh3, -⟩ := hK _ hbt
    have hfind3 : w3.handler? m off h.addr = some { h with seq := h.seq.tick i } := by
      simp only [World.handler?, hb3, Option.bind_some, hh3]
      rw [List.find?_append]
      have hnodup := hI.nodup hb
      have : (setSeq b.handlers h.addr (h.seq.tick i)).find? (fun x => x.addr == h.addr) = some { h with seq := h.seq.tick i } := by
        obtain ⟨older, newer, he, -, -⟩ := hsel
        rw [he] at hnodup ⊢
        simp only [setSeq, List.map_append, List.map_cons, beq_self_eq_true, if_true, List.find?_append, List.find?_cons]
        have hno : (older.map fun x => if x.addr == h.addr then { x with seq := h.seq.tick i } else x).find? (fun x => x.addr == h.addr) = none := by
          rw [List.find?_eq_none]
          intro x hx
          simp only [List.mem_map] at hx
          obtain ⟨y, hy, rfl⟩ := hx
          simp only [List.map_append, List.map_cons, List.nodup_append] at hnodup
          have hne := hnodup.2.2 y.addr (List.mem_map_of_mem hy) h.addr (by simp)
          have : (y.addr == h.addr) = false := by simpa using hne
          simp [this]
        rw [hno]
        simp
      rw [this]; rfl
    have hrun : runHandler P (callSlot P (fuel + 1)) (w.bumpInv.pushInv m off (recorded w b args h)) ⟨m, off, w.invTotal + 1⟩ h args =
        .done (o, w3.updSeq m off h.addr fun _ => s') := by
      simp only [runHandler, hfront, R.bind_done, hwt, hinv, worldFinally, hfind3, hs']
    rw [handleCall_eq, show findHandler w.heap b.handlers (fresh w b args) = some h from hfind]
    simp only [hrun, R.bind_done]
    cases o with
    | noMore => exact ⟨_, _, rfl⟩
    | _ => exact ⟨_, _, rfl⟩
  apply suff
  have hfr : ∀ f, some (⟨m, off, w.invTotal + 1⟩ : Frame) = some f → (fun _ _ => True : MockId → Nat → Prop) f.m f.off := fun _ _ => trivial
  have hfn : ∀ f : Fn V E, (match f with | .user g => (P.fn g (valuesOf w.heap args)).Simple | _ => True) →
      ∃ o w3, runBody P (callSlot P (fuel + 1)) (some ⟨m, off, w.invTotal + 1⟩) args (f.code P (derefAll wt.heap args)) wt = .done (o, w3) ∧
        Kept Φ m off wt w3 := by
    intro f hf
    have hsimple : (f.code P (derefAll wt.heap args)).Simple := by
      cases f with
      | ret => trivial
      | thr => trivial
      | user g =>
        simp only [Fn.code, derefAll_eq, hheapt]
        exact hf
    obtain ⟨o, w3, h3⟩ := runBody_simple hsimple wt
    exact ⟨o, w3, h3, (runBody_stable S _ hCallOk _ args hfr _ (fnCode_within hP f _) wt hIFt _ _ h3).2⟩
  cases ha : headAct acts with
  | rep t f => rw [ha] at hsafe; exact hfn f (by cases f <;> first | trivial | exact hsafe)
  | forever f => rw [ha] at hsafe; exact hfn f (by cases f <;> first | trivial | exact hsafe)
  | noMore => exact ⟨_, _, rfl, Kept.refl _ _ _⟩
  | dflt =>
    rw [ha] at hsafe
    simp only [invokeAct, hkt, hclst, hc]
    cases hdf : c.dflt off with
    | value v => exact ⟨_, _, rfl, Kept.refl _ _ _⟩
    | throws => exact ⟨_, _, rfl, Kept.refl _ _ _⟩
    | nullRef => simp [Act.perf, Finishes, hdf] at hsafe
  | deleg mv =>
    rw [ha] at hsafe
    simp only [invokeAct]
    generalize hw0 : (if mv = true then wt.updInv m off (w.invTotal + 1) (fun i => { i with args := moveArgs P i.args }) else wt) = w0
    have hq0 : QF P nm Φ m off wt w0 := by
      subst hw0
      split
      · exact S.setArgs _ _ _ _ args (moveArgs P) hIFt trivial (keepsForm_move P args)
      · exact S.refl _
    have hIF0 := hq0.inv hIFt
    have hheap0 : w0.heap = w.heap := by
      subst hw0
      split
      · exact hheapt
      · exact hheapt
    obtain ⟨k0, hk0, hcls0, hown0, -⟩ := hq0.1.1.1.2.stat m kt hkt
    simp only [runDelegate, hk0, hcls0, hclst, hc]
    by_cases hdt : c.dtor = some off
    · rw [if_pos hdt]
      exact ⟨_, _, rfl, hq0.2⟩
    · rw [if_neg hdt]
      have t0 := hIF0.1.1.1 m k0 hk0
      -- the method has entries in both tables
      have hlive0 : ∃ x, k0.orig[off]? = some x := by
        obtain ⟨k1, id1, hk1, ha1, hv1, -, hb1⟩ := hlive
        rw [hk] at hk1; cases hk1
        obtain ⟨k0', hk0', -, -, ho⟩ := (hqt.trans hq0.1).1.1.2.stat m k hk
        rw [hk0] at hk0'; cases hk0'
        have hlt := lt_of_getElem?_some hv1
        rw [(hI.1.1 m k hk).vtlen] at hlt
        rw [ho]
        exact ⟨_, List.getElem?_eq_getElem hlt⟩
      obtain ⟨orig, ho⟩ := hlive0
      have hf : ∃ fake, k0.vt[off]? = some fake := by
        have := lt_of_getElem?_some ho
        rw [← t0.vtlen] at this
        exact ⟨_, List.getElem?_eq_getElem this⟩
      obtain ⟨fake, hf⟩ := hf
      simp only [hf, ho]
      have hoc := orig_code t0 ho (by
        intro d hd; rw [hcls0, hclst] at hd; exact hnd k d hk hd) (by rw [hcls0, hclst, hc]; exact hdt)
      have hkin : (w0.setVt m off orig).mocks[m]? = some { k0 with vt := k0.vt.set off orig } := by
        simp only [World.setVt, World.mocks_updMock, if_true, hk0, Option.map_some]
      have hvin : (k0.vt.set off orig)[off]? = some orig := by
        rw [List.getElem?_set_self (lt_of_getElem?_some hf)]
      have hIin : IF P nm c m off (w0.setVt m off orig) := by
        obtain ⟨h1, ⟨kx, hkx, hcx⟩, bx, hbx⟩ := hIF0
        refine ⟨stable2.swapIn h1 trivial hk0 ho, ?_, bx, by rw [World.body?_setVt]; exact hbx⟩
        obtain ⟨k1, hk1, hcls, -⟩ := (keep_setVt w0 m off orig).2.stat m kx hkx
        exact ⟨k1, hk1, by rw [hcls]; exact hcx⟩
      have hon : k0.owner = k.owner := hown0.trans hownt
      -- the object is there
      have hal : k0.alive = true := by
        cases hal : k0.alive with
        | true => rfl
        | false =>
          have := (t0.dead hal).2
          obtain ⟨bx, hbx⟩ := hIF0.2.2
          simp [World.body?, hk0, Mock.body?, this] at hbx
      have hdone : ∃ o w5, callSlot P (fuel + 1) (w0.setVt m off orig) m off args = .done (o, w5) := by
        simp only [callSlot, hkin, hal, Bool.not_true, Bool.false_and, Bool.false_eq_true, if_false, hvin]
        cases hk' : k.owner with
        | true =>
          rw [hoc.1 (by rw [hon, hk'])]
          exact ⟨_, _, rfl⟩
        | false =>
          rw [hoc.2 (by rw [hon, hk'])]
          simp only [runCode]
          apply runBody_simple
          simp only [derefAll_eq]
          have hheapin : (w0.setVt m off (Code.native ((P.cls k0.cls).impl off))).heap = w.heap := hheap0
          rw [hheapin, hcls0, hclst, hc]
          simp only [Act.perf, Finishes, hk', Bool.not_false] at hsafe
          exact hsafe hdt trivial
      obtain ⟨o, w5, h5⟩ := hdone
      rw [h5]
      refine ⟨_, _, rfl, ?_⟩
      have hcode : orig = .unmocked ∨ orig = .unmockedDtor ∨ ∃ f, orig = .native f := by
        cases hon : k0.owner with
        | true => exact .inl (hoc.1 hon)
        | false => exact .inr (.inr ⟨_, hoc.2 hon⟩)
      obtain ⟨hq5, -, -⟩ := origCall hP hIin hkin hvin hcode (fuel + 1) args _ _ h5
      exact hq0.2.trans (((Kept.same (World.body?_setVt _ _ _ _ _ _)).trans hq5.2).trans (Kept.same (World.body?_setVt _ _ _ _ _ _)))

end FakeIt
