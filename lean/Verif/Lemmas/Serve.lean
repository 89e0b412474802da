import Verif.Lemmas.Frame
import Verif.Lemmas.Select
import Verif.Lemmas.Script
/-!
# One call served by a stubbing
-/
namespace FakeIt
variable {V E : Type}
open Spec

/-- Calls of method `off` of mock `m` reach record `b`. -/
def Live (w : World V E) (m off : Nat) (b : MBody V E) : Prop :=
  ∃ k id, w.mocks[m]? = some k ∧ k.alive = true ∧ k.vt[off]? = some (.proxy id) ∧ Mock.getOffset k.offsets id = off ∧ k.body? off = some b

variable {P : Prog V E} {nm : MockId → Nat → Nat} {Φ : MatcherKind V → Prop}

theorem Live.body {w : World V E} {m off : Nat} {b : MBody V E} (h : Live w m off b) : w.body? m off = some b := by
  obtain ⟨k, id, hk, -, -, -, hb⟩ := h
  simp [World.body?, hk, hb]

theorem callSlot_live {w : World V E} {m off : Nat} {b : MBody V E} (h : Live w m off b) (fuel : Nat) (args : List (Arg V)) :
    callSlot P (fuel + 1) w m off args = handleCall P (callSlot P fuel) w m off b args := by
  obtain ⟨k, id, hk, ha, hv, hg, hb⟩ := h
  simp only [callSlot, hk, ha, hv, runCode, hg, hb]
  rfl

/-- Between calls, a mentioned method (not the destructor) is live. -/
theorem Steady.live {w : World V E} (hw : Steady P nm w) {m off : Nat} {b : MBody V E} (hb : w.body? m off = some b)
    {k : Mock V E} (hk : w.mocks[m]? = some k) (hd : ∀ d, (P.cls k.cls).dtor = some d → off ≠ d ∧ off ≠ d + 1) : Live w m off b := by
  obtain ⟨k', id, hk', ha, hv, ho⟩ := hw.2 m off (by intro k' d hk' hd'; rw [hk] at hk'; cases hk'; exact (hd d hd').2) ⟨b, hb⟩
  rw [hk] at hk'; cases hk'
  have t := hw.1.1 m k hk
  have hkb : k.body? off = some b := by simpa [World.body?, hk] using hb
  obtain ⟨⟨b0, hb0⟩, -⟩ := t.proxy off id hv
  obtain ⟨id2, hid2, hc⟩ := t.bound off b0 hb0
  rw [ho] at hid2; cases hid2
  rcases hc with ⟨-, hdt⟩ | ⟨ctr, rfl, -, -⟩
  · exact absurd rfl (hd off hdt).1
  · obtain ⟨hg, -⟩ := t.dispatch_meth ha off ctr hv
    exact ⟨k, ctr + 1, hk, ha, hv, hg, hkb⟩

theorem eq_of_map_nodup {α β : Type} {f : α → β} {l : List α} (h : (l.map f).Nodup) {x y : α} (hx : x ∈ l) (hy : y ∈ l) (he : f x = f y) : x = y := by
  induction l with
  | nil => cases hx
  | cons a l ih =>
    simp only [List.map_cons, List.nodup_cons, List.mem_map] at h
    rcases List.mem_cons.1 hx with hxa | hx'
    · rcases List.mem_cons.1 hy with hya | hy'
      · rw [hxa, hya]
      · exact absurd ⟨y, hy', by rw [← he, hxa]⟩ h.1
    · rcases List.mem_cons.1 hy with hya | hy'
      · exact absurd ⟨x, hx', by rw [he, hya]⟩ h.1
      · exact ih h.2 hx' hy'

/-- Replacing the script of one handler. -/
def setSeq (hs : List (Handler V E)) (a : Addr) (s : ActionSeq V E) : List (Handler V E) :=
  hs.map fun x => if x.addr == a then { x with seq := s } else x

/-- A table entry that is original code is run without touching the method's stubbings. -/
theorem origCall {c : ClassDecl V} {m off : Nat} (hP : P.NonReentrant nm c m off Φ) {w : World V E} (hI : IF P nm c m off w)
    {k : Mock V E} (hk : w.mocks[m]? = some k) {x : Code} (hx : k.vt[off]? = some x)
    (hcode : x = .unmocked ∨ x = .unmockedDtor ∨ ∃ f, x = .native f) (fuel : Nat) (args : List (Arg V)) (o : Outcome V E) (w' : World V E)
    (h : callSlot P fuel w m off args = .done (o, w')) :
    QF P nm Φ m off w w' ∧ (x = .unmocked → o = .unexpected) ∧ (∀ f, x = .native f → Ends (P.fn f (valuesOf w.heap args)) o) := by
  cases fuel with
  | zero => simp [callSlot] at h
  | succ fuel =>
    simp only [callSlot, hk] at h
    split at h
    · simp at h
    · simp only [hx] at h
      have S := stableF (P := P) (nm := nm) (Φ := Φ) c m off
      rcases hcode with rfl | rfl | ⟨f, rfl⟩
      · simp only [runCode, unmockedCall, R.done.injEq, Prod.mk.injEq] at h
        obtain ⟨rfl, rfl⟩ := h
        exact ⟨S.trans (S.bump w hI) (S.fire _ _ (S.inv (S.bump w hI) hI)), fun _ => rfl, (by intro f hf; cases hf)⟩
      · simp only [runCode, R.done.injEq, Prod.mk.injEq] at h
        obtain ⟨rfl, rfl⟩ := h
        exact ⟨S.refl w, (by intro hf; cases hf), (by intro f hf; cases hf)⟩
      · simp only [runCode, derefAll_eq] at h
        refine ⟨runBody_stable S _ (callSlot_stable S hP fuel) none args (by intro f hf; cases hf) _ (hP f _) w hI o w' h,
          (by intro hf; cases hf), ?_⟩
        intro f' hf'
        cases hf'
        exact runBody_ends P _ _ _ _ _ _ _ h

theorem orig_code {k : Mock V E} {nm' : Nat → Nat} (t : TableOk P nm' k) {off : Nat} {x : Code} (hx : k.orig[off]? = some x)
    (hnd : ∀ d, (P.cls k.cls).dtor = some d → off ≠ d + 1) (hd : (P.cls k.cls).dtor ≠ some off) :
    (k.owner = true → x = .unmocked) ∧ (k.owner = false → x = .native ((P.cls k.cls).impl off)) := by
  rw [t.orig_eq] at hx
  constructor
  · intro ho
    rw [if_pos ho] at hx
    unfold fakeVt at hx
    split at hx
    · rw [List.getElem?_replicate] at hx
      split at hx <;> simp_all
    · rename_i d hdd
      rw [List.getElem?_set_ne (by have := hnd d hdd; omega), List.getElem?_set_ne (by rintro rfl; exact hd hdd),
        List.getElem?_replicate] at hx
      split at hx <;> simp_all
  · intro ho
    rw [if_neg (by simp [ho])] at hx
    exact (getElem?_nativeVt _ _ _ hx).1

/-- The heart of the matter: a call whose arguments select handler `h` performs the front action of `h`, answers accordingly, and leaves `h` with
that action ticked (and removed if done); the other handlers keep their scripts. -/
theorem serveAny {c : ClassDecl V} {m off : Nat} (hP : P.NonReentrant nm c m off Φ) {w : World V E} (hI : Inv2 P nm w)
    {b : MBody V E} (hlive : Live w m off b) {k : Mock V E} (hk : w.mocks[m]? = some k) (hc : P.cls k.cls = c) (hnd : NotDel P w m off)
    {args : List (Arg V)} {h : Handler V E} (hsel : Selected b.handlers (valuesOf w.heap args) h)
    {fuel : Nat} {o : Outcome V E} {w' : World V E}
    (hcall : callSlot P (fuel + 1) w m off args = .done (o, w')) :
    ∃ i act s, h.seq.front = .done (i, act) ∧ (h.seq.tick i).finallyClause i = .done s ∧
    Answers P c (!k.owner) off (valuesOf w.heap args) act.perf o ∧ Q2 P nm w w' ∧
    ∃ b' more, w'.body? m off = some b' ∧ b'.method = b.method ∧
      b'.handlers = setSeq b.handlers h.addr s ++ more ∧ ∀ x ∈ more, Φ x.matcher.kind := by
  rw [callSlot_live hlive] at hcall
  have hb := hlive.body
  have hIF : IF P nm c m off w := ⟨hI, ⟨k, hk, hc⟩, b, hb⟩
  have S := stableF (P := P) (nm := nm) (Φ := Φ) c m off
  have hCallOk : CallOk (Apart c m off) (IF P nm c m off) (QF P nm Φ m off) (callSlot P fuel) := callSlot_stable S hP fuel
  simp only [handleCall] at hcall
  have hfind : findHandler w.bumpInv.heap b.handlers (fresh w b args) = some h := by
    rw [findHandler_some _ _ rfl]; exact hsel
  change (match findHandler w.bumpInv.heap b.handlers (fresh w b args) with
    | none => _
    | some h => _) = _ at hcall
  rw [hfind] at hcall
  simp only [R.bind_eq_done] at hcall
  obtain ⟨⟨o1, w1⟩, hrun, hend⟩ := hcall
  change runHandler P (callSlot P fuel) (w.bumpInv.pushInv m off (recorded w b args h)) ⟨m, off, w.invTotal + 1⟩ h args = .done (o1, w1) at hrun
  generalize hw2 : w.bumpInv.pushInv m off (recorded w b args h) = w2 at hrun
  have hheap2 : w2.heap = w.heap := by subst hw2; rfl
  have hq2 : QF P nm Φ m off w w2 := by
    subst hw2
    exact ⟨stable2.push w m off b args h hI trivial hb hfind,
      (Kept.same (w' := w.bumpInv) rfl).trans (Kept.updBody _ m off _ fun _ b => ⟨[], rfl, by simp, by simp⟩)⟩
  have hb2 : w2.body? m off = some { b with invs := b.invs ++ [recorded w b args h] } := by
    subst hw2
    simp [World.pushInv, World.body?_updBody, hb]
  have hIF2 := hq2.inv hIF
  obtain ⟨k2, hk2, hcls2, hown2, horig2⟩ := hq2.1.1.1.2.stat m k hk
  -- unfold the handler
  simp only [runHandler, R.bind_eq_done] at hrun
  obtain ⟨⟨i, act⟩, hfront, ⟨o2, w3⟩, hinv, w4, hfin, hend2⟩ := hrun
  simp only [R.done.injEq, Prod.mk.injEq] at hend2
  obtain ⟨rfl, rfl⟩ := hend2
  have hmem := hsel.mem
  have hnodup : (b.handlers.map (·.addr)).Nodup := by
    have := hI.1.2.nodup m off
    simp only [haddrs, hk, kaddrs] at this
    have hkb : k.body? off = some b := by simpa [World.body?, hk] using hb
    simpa [hkb, List.map_map, Function.comp_def] using this
  -- the ticked world
  generalize hwt : (w2.updSeq m off h.addr fun s => s.tick i) = wt at hinv
  have hbt : wt.body? m off = some { b with invs := b.invs ++ [recorded w b args h], handlers := setSeq b.handlers h.addr (h.seq.tick i) } := by
    subst hwt
    simp only [World.updSeq, World.body?_updBody, and_self, if_true, hb2, Option.map_some, setSeq, Option.some.injEq, MBody.mk.injEq,
      true_and, and_true]
    apply List.map_congr_left
    intro x hx
    by_cases hxa : x.addr = h.addr
    · have : x = h := by
        exact eq_of_map_nodup hnodup hx hmem hxa
      subst this; simp
    · simp [hxa]
  have hqt : Q2 P nm w wt := by
    subst hwt
    exact hq2.1.trans (stable2.tick w2 m off h.addr i hIF2.1 trivial)
  have hIFt : IF P nm c m off wt := by
    refine ⟨hqt.inv hI, ?_, _, hbt⟩
    obtain ⟨kt, hkt, hclst, -⟩ := hqt.1.1.2.stat m k hk
    exact ⟨kt, hkt, by rw [hclst]; exact hc⟩
  have hheapt : wt.heap = w.heap := by subst hwt; exact hheap2
  obtain ⟨kt, hkt, hclst, hownt, horigt⟩ := hqt.1.1.2.stat m k hk
  -- the action itself leaves the handlers alone
  have hact : Kept Φ m off wt w3 ∧ Q2 P nm w w4 ∧ Answers P c (!k.owner) off (valuesOf w.heap args) act.perf (seen o2) := by
    -- the usual ending
    have hfinQ : ∀ w3', QF P nm Φ m off wt w3' → w3' = w3 → Kept Φ m off wt w3 ∧ Q2 P nm w w4 := by
      intro w3' hq he
      subst he
      refine ⟨hq.2, ?_⟩
      rcases worldFinally_done hfin with ⟨hd, s, hhd, hs, rfl⟩ | ⟨-, -, -, -, rfl⟩
      rotate_left
      · exact hqt.trans hq.1
      · exact (hqt.trans hq.1).trans (stable2.fin _ m off h.addr hd i s (hq.inv hIFt).1 trivial hhd hs)
    have hfr : ∀ f, some (⟨m, off, w.invTotal + 1⟩ : Frame) = some f → (fun _ _ => True : MockId → Nat → Prop) f.m f.off := fun _ _ => trivial
    cases act with
    | rep t f =>
      simp only [invokeAct] at hinv
      have hq := runBody_stable S (callSlot P fuel) hCallOk _ args hfr _ (fnCode_within hP f _) wt hIFt _ _ hinv
      refine ⟨(hfinQ _ hq rfl).1, (hfinQ _ hq rfl).2, ?_⟩
      have he := runBody_ends P _ _ _ _ _ _ _ hinv
      rw [derefAll_eq, hheapt] at he
      cases f with
      | ret v => cases he; rfl
      | thr e => cases he; rfl
      | user f => exact ⟨o2, he, rfl⟩
    | forever f =>
      simp only [invokeAct] at hinv
      have hq := runBody_stable S (callSlot P fuel) hCallOk _ args hfr _ (fnCode_within hP f _) wt hIFt _ _ hinv
      refine ⟨(hfinQ _ hq rfl).1, (hfinQ _ hq rfl).2, ?_⟩
      have he := runBody_ends P _ _ _ _ _ _ _ hinv
      rw [derefAll_eq, hheapt] at he
      cases f with
      | ret v => cases he; rfl
      | thr e => cases he; rfl
      | user f => exact ⟨o2, he, rfl⟩
    | noMore =>
      simp only [invokeAct, R.done.injEq, Prod.mk.injEq] at hinv
      obtain ⟨rfl, rfl⟩ := hinv
      exact ⟨(hfinQ _ (S.refl _) rfl).1, (hfinQ _ (S.refl _) rfl).2, rfl⟩
    | dflt =>
      simp only [invokeAct, hkt, hclst, hc] at hinv
      cases hdf : c.dflt off with
      | value v =>
        simp only [hdf, R.done.injEq, Prod.mk.injEq] at hinv
        obtain ⟨rfl, rfl⟩ := hinv
        refine ⟨(hfinQ _ (S.refl _) rfl).1, (hfinQ _ (S.refl _) rfl).2, ?_⟩
        simp only [Answers, Act.perf, hdf]; rfl
      | throws =>
        simp only [hdf, R.done.injEq, Prod.mk.injEq] at hinv
        obtain ⟨rfl, rfl⟩ := hinv
        refine ⟨(hfinQ _ (S.refl _) rfl).1, (hfinQ _ (S.refl _) rfl).2, ?_⟩
        simp only [Answers, Act.perf, hdf]; rfl
      | nullRef => simp [hdf] at hinv
    | deleg mv =>
      simp only [invokeAct] at hinv
      generalize hw0 : (if mv = true then wt.updInv m off (w.invTotal + 1) (fun i => { i with args := moveArgs P i.args }) else wt) = w0 at hinv
      have hq0 : QF P nm Φ m off wt w0 := by
        subst hw0
        split
        · exact S.setArgs _ _ _ _ args (moveArgs P) hIFt trivial (keepsForm_move P args)
        · exact S.refl _
      have hIF0 := hq0.inv hIFt
      have hheap0 : w0.heap = w.heap := by
        subst hw0
        split
        · exact hheapt
        · exact hheapt
      obtain ⟨k0, hk0, hcls0, hown0, horig0⟩ := hq0.1.1.1.2.stat m kt hkt
      simp only [runDelegate, hk0, hcls0, hclst, hc] at hinv
      by_cases hdt : c.dtor = some off
      · simp only [if_pos hdt, R.done.injEq, Prod.mk.injEq] at hinv
        obtain ⟨rfl, rfl⟩ := hinv
        refine ⟨(hfinQ _ hq0 rfl).1, (hfinQ _ hq0 rfl).2, ?_⟩
        simp only [Act.perf, Answers, if_pos hdt]; rfl
      · simp only [if_neg hdt] at hinv
        split at hinv
        · rename_i fake orig hf ho
          simp only [R.bind_eq_done] at hinv
          obtain ⟨⟨o3, w5⟩, hc3, he3⟩ := hinv
          simp only [R.done.injEq, Prod.mk.injEq] at he3
          obtain ⟨rfl, rfl⟩ := he3
          have t0 := hIF0.1.1.1 m k0 hk0
          have hoc := orig_code t0 ho (by
            intro d hd; rw [hcls0, hclst] at hd; exact hnd k d hk hd) (by rw [hcls0, hclst, hc]; exact hdt)
          have hIin : IF P nm c m off (w0.setVt m off orig) := by
            obtain ⟨h1, ⟨kx, hkx, hcx⟩, bx, hbx⟩ := hIF0
            refine ⟨stable2.swapIn h1 trivial hk0 ho, ?_, bx, by rw [World.body?_setVt]; exact hbx⟩
            obtain ⟨k1, hk1, hcls, -⟩ := (keep_setVt w0 m off orig).2.stat m kx hkx
            exact ⟨k1, hk1, by rw [hcls]; exact hcx⟩
          have hcode : orig = .unmocked ∨ orig = .unmockedDtor ∨ ∃ f, orig = .native f := by
            cases hon : k0.owner with
            | true => exact .inl (hoc.1 hon)
            | false => exact .inr (.inr ⟨_, hoc.2 hon⟩)
          have hkin : (w0.setVt m off orig).mocks[m]? = some { k0 with vt := k0.vt.set off orig } := by
            simp only [World.setVt, World.mocks_updMock, if_true, hk0, Option.map_some]
          have hvin : (k0.vt.set off orig)[off]? = some orig := by
            rw [List.getElem?_set_self (lt_of_getElem?_some hf)]
          obtain ⟨hq5, hun, hnat⟩ := origCall hP hIin hkin hvin hcode fuel args _ _ hc3
          have hK : Kept Φ m off wt (w5.setVt m off fake) :=
            hq0.2.trans (((Kept.same (World.body?_setVt _ _ _ _ _ _)).trans hq5.2).trans (Kept.same (World.body?_setVt _ _ _ _ _ _)))
          refine ⟨hK, ?_, ?_⟩
          · rcases worldFinally_done hfin with ⟨hd, s, hhd, hs, rfl⟩ | ⟨-, -, h4, -, -⟩
            rotate_left
            · exact absurd rfl (h4 _)
            · have hh0 : ∃ hd0, w0.handler? m off h.addr = some hd0 := by
                obtain ⟨b0, more, hb0, -, hh, -⟩ := hq0.2 _ hbt
                apply handler?_isSome hb0 (h := { h with seq := h.seq.tick i })
                rw [hh]
                apply List.mem_append_left
                simp only [setSeq, List.mem_map]
                exact ⟨h, hmem, by simp⟩
              obtain ⟨hd0, hh0⟩ := hh0
              exact hqt.trans (hq0.1.trans (stable2.swap w0 w5 m off h.addr k0 fake orig hd0 hd i s hIF0.1 trivial hk0 hf ho hh0 hq5.1 hhd hs))
          · simp only [Act.perf, Answers, if_neg hdt]
            have hon : k0.owner = k.owner := hown0.trans hownt
            cases hk' : k.owner with
            | true =>
              have := hun (hoc.1 (by rw [hon, hk']))
              subst this
              simp [seen]
            | false =>
              have := hnat _ (hoc.2 (by rw [hon, hk']))
              rw [hcls0, hclst, hc] at this
              have hheapin : (w0.setVt m off orig).heap = w.heap := hheap0
              rw [hheapin] at this
              simp only [Bool.not_false, if_true]
              exact ⟨_, this, rfl⟩
        · simp at hinv
  obtain ⟨hK, hQ4, hAns⟩ := hact
  -- the end of the handler
  obtain ⟨b3, more, hb3, hm3, hh3, hΦ3⟩ := hK _ hbt
  have hfind3 : w3.handler? m off h.addr = some { h with seq := h.seq.tick i } := by
    simp only [World.handler?, hb3, Option.bind_some, hh3]
    rw [List.find?_append]
    have : (setSeq b.handlers h.addr (h.seq.tick i)).find? (fun x => x.addr == h.addr) = some { h with seq := h.seq.tick i } := by
      obtain ⟨older, newer, he, -, -⟩ := hsel
      rw [he] at hnodup ⊢
      simp only [setSeq, List.map_append, List.map_cons, beq_self_eq_true, if_true, List.find?_append, List.find?_cons]
      have hno : (older.map fun x => if x.addr == h.addr then { x with seq := h.seq.tick i } else x).find? (fun x => x.addr == h.addr) = none := by
        rw [List.find?_eq_none]
        intro x hx
        simp only [List.mem_map] at hx
        obtain ⟨y, hy, rfl⟩ := hx
        simp only [List.map_append, List.map_cons, List.nodup_append] at hnodup
        have hne := hnodup.2.2 y.addr (List.mem_map_of_mem hy) h.addr (by simp)
        have : (y.addr == h.addr) = false := by simpa using hne
        simp [this]
      rw [hno]
      simp
    rw [this]; rfl
  simp only [worldFinally, hfind3, R.bind_eq_done, R.done.injEq] at hfin
  obtain ⟨s, hs, hw4⟩ := hfin
  have hb4 : w4.body? m off = some { b3 with handlers := setSeq b3.handlers h.addr s } := by
    rw [← hw4]
    simp only [World.updSeq, World.body?_updBody, and_self, if_true, hb3, Option.map_some]
    rfl
  have hend3 : o = seen o2 ∧ (w' = w4 ∨ ∃ e, w' = w4.fire e) := by
    cases o2 with
    | noMore =>
      simp only [unmatched, R.done.injEq, Prod.mk.injEq] at hend
      exact ⟨hend.1.symm, .inr ⟨_, hend.2.symm⟩⟩
    | _ =>
      simp only [R.done.injEq, Prod.mk.injEq] at hend
      exact ⟨hend.1.symm, .inl hend.2.symm⟩
  obtain ⟨rfl, hw'⟩ := hend3
  refine ⟨i, act, s, hfront, hs, hAns, ?_, ?_⟩
  · rcases hw' with rfl | ⟨e, rfl⟩
    · exact hQ4
    · exact hQ4.trans (stable2.fire _ e (hQ4.inv hI))
  · refine ⟨{ b3 with handlers := setSeq b3.handlers h.addr s }, setSeq more h.addr s, ?_, hm3, ?_, ?_⟩
    · rcases hw' with rfl | ⟨e, rfl⟩
      · exact hb4
      · exact hb4
    · simp only [hh3, setSeq, List.map_append, List.map_map]
      congr 1
      apply List.map_congr_left
      intro x _
      by_cases hx : x.addr = h.addr <;> simp [hx]
    · intro x hx
      simp only [setSeq, List.mem_map] at hx
      obtain ⟨y, hy, rfl⟩ := hx
      have := hΦ3 y hy
      split <;> exact this

/-- If the handler's remaining script is `acts`, the call answers as the script says and leaves the rest of the script. -/
theorem serve {c : ClassDecl V} {m off : Nat} (hP : P.NonReentrant nm c m off Φ) {w : World V E} (hI : Inv2 P nm w)
    {b : MBody V E} (hlive : Live w m off b) {k : Mock V E} (hk : w.mocks[m]? = some k) (hc : P.cls k.cls = c) (hnd : NotDel P w m off)
    {args : List (Arg V)} {h : Handler V E} (hsel : Selected b.handlers (valuesOf w.heap args) h)
    {acts : List (Act V E)} (hrep : h.seq.Rep acts) {fuel : Nat} {o : Outcome V E} {w' : World V E}
    (hcall : callSlot P (fuel + 1) w m off args = .done (o, w')) :
    Answers P c (!k.owner) off (valuesOf w.heap args) (headAct acts).perf o ∧ Q2 P nm w w' ∧
    ∃ b' s more, w'.body? m off = some b' ∧ b'.method = b.method ∧ s.Rep (nextActs acts) ∧
      b'.handlers = setSeq b.handlers h.addr s ++ more ∧ ∀ x ∈ more, Φ x.matcher.kind := by
  obtain ⟨i, act, s, hfront, hs, hans, hq, b', more, hb', hm', hh', hΦ⟩ := serveAny hP hI hlive hk hc hnd hsel hcall
  obtain ⟨i', rest, -, -, hfront'⟩ := rep_front hrep
  rw [hfront] at hfront'
  simp only [R.done.injEq, Prod.mk.injEq] at hfront'
  obtain ⟨rfl, rfl⟩ := hfront'
  obtain ⟨s', hs', hrep'⟩ := rep_advance hrep hfront
  rw [hs] at hs'
  simp only [R.done.injEq] at hs'
  subst hs'
  exact ⟨hans, hq, b', s, more, hb', hm', hrep', hh', hΦ⟩

end FakeIt
