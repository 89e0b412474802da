import Verif.Lemmas.World
import Verif.Spec.Discipline
/-!
# Induction over call trees

A relation on worlds that is preserved by every primitive step of the machine is preserved by every virtual call, whatever the
user callbacks do.
-/
namespace FakeIt
variable {V E : Type}

/-- The invocation a handled call records. -/
def recorded (w : World V E) (b : MBody V E) (args : List (Arg V)) (h : Handler V E) : Invocation V :=
  { uid := w.invTotal + 1, ordinal := (w.invTotal + 1) % wrap32, method := b.method, args := args, verified := false,
    matcher := some h.matcher.addr }

/-- The invocation handed to the matchers. -/
def fresh (w : World V E) (b : MBody V E) (args : List (Arg V)) : Invocation V :=
  { uid := w.invTotal + 1, ordinal := (w.invTotal + 1) % wrap32, method := b.method, args := args, verified := false,
    matcher := none }

/-- Which parameters are references, and to which objects. -/
def form (args : List (Arg V)) : List (Option Addr) := args.map fun a => match a with | .val _ => none | .ref r => some r

/-- `f` only changes by-value elements of tuples that have the same by-reference elements as `args`. -/
def KeepsForm (args : List (Arg V)) (f : List (Arg V) → List (Arg V)) : Prop := ∀ l, form l = form args → form (f l) = form args

theorem lt_of_getElem? {α : Type} {l : List α} {i : Nat} {x : α} (h : l[i]? = some x) : i < l.length := (List.getElem?_eq_some_iff.1 h).1

theorem keepsForm_set {args : List (Arg V)} {i : Nat} {v v' : V} (h : args[i]? = some (.val v)) : KeepsForm args fun l => l.set i (.val v') := by
  intro l hl
  simp only [form, List.map_set] at hl ⊢
  rw [hl]
  apply List.ext_getElem?
  intro j
  rw [List.getElem?_set]
  by_cases hj : i = j
  · subst hj
    rw [List.getElem?_map, h]
    simp [lt_of_getElem? h]
  · simp [hj]

theorem keepsForm_move (P : Prog V E) (args : List (Arg V)) : KeepsForm args (moveArgs P) := by
  intro l hl
  rw [← hl]
  simp only [form, moveArgs, List.map_map]
  apply List.map_congr_left
  intro a _
  cases a <;> rfl

/-- Actions that may change the recorded by-value arguments: user callables and `SpyWithoutVerify`. -/
def Act.Writes : Act V E → Prop
  | .rep _ (.user _) => True
  | .forever (.user _) => True
  | .deleg true => True
  | _ => False

/-- `Q` is preserved by every primitive step from worlds satisfying `I`. Calls are made to virtual table entries in `C`; they are
answered by method records in `D`; the recorded arguments that callables write are those of invocations (record, number and
actual arguments) in `F`. -/
structure Stable (P : Prog V E) (A : Api V E → Prop) (C D : MockId → Nat → Prop) (F : MockId → Nat → Nat → List (Arg V) → Prop) (I : World V E → Prop)
    (Q : World V E → World V E → Prop) : Prop where
  inv : ∀ {w w'}, Q w w' → I w → I w'
  dispatch : ∀ {w m k off id}, I w → C m off → w.mocks[m]? = some k → k.vt[off]? = some (.proxy id) →
    (∃ b, k.body? (Mock.getOffset k.offsets id) = some b) → D m (Mock.getOffset k.offsets id)
  frame : ∀ {w m off} args, I w → D m off → F m off (w.invTotal + 1) args
  thunk : ∀ {w m k off d}, I w → C m off → w.mocks[m]? = some k → k.vt[off]? = some .dtorThunk → (P.cls k.cls).dtor = some d → C m d
  deleg : ∀ {m off}, D m off → C m off
  swapIn : ∀ {w m k off orig}, I w → D m off → w.mocks[m]? = some k → k.orig[off]? = some orig → I (w.setVt m off orig)
  refl : ∀ w, Q w w
  trans : ∀ {a b c}, Q a b → Q b c → Q a c
  api : ∀ {w a w' o}, I w → A a → apiStep P w a = .done (w', o) → Q w w'
  write : ∀ w a v, I w → Q w (w.write a v)
  setArgs : ∀ w m off uid args (f : List (Arg V) → List (Arg V)), I w → F m off uid args → KeepsForm args f →
    Q w (w.updInv m off uid fun i => { i with args := f i.args })
  bump : ∀ w, I w → Q w w.bumpInv
  fire : ∀ w e, I w → Q w (w.fire e)
  push : ∀ w m off b args h, I w → D m off → w.body? m off = some b →
    findHandler w.heap b.handlers (fresh w b args) = some h → Q w (w.bumpInv.pushInv m off (recorded w b args h))
  tick : ∀ w m off h i, I w → D m off → Q w (w.updSeq m off h fun s => s.tick i)
  fin : ∀ w m off h hd i s, I w → D m off → w.handler? m off h = some hd → hd.seq.finallyClause i = .done s →
    Q w (w.updSeq m off h fun _ => s)
  swap : ∀ w w' m off h k fake orig hd0 hd i s, I w → D m off → w.mocks[m]? = some k → k.vt[off]? = some fake →
    k.orig[off]? = some orig → w.handler? m off h = some hd0 → Q (w.setVt m off orig) w' →
    (w'.setVt m off fake).handler? m off h = some hd → hd.seq.finallyClause i = .done s →
    Q w ((w'.setVt m off fake).updSeq m off h fun _ => s)

variable {P : Prog V E} {A : Api V E → Prop} {C D : MockId → Nat → Prop} {F : MockId → Nat → Nat → List (Arg V) → Prop} {I : World V E → Prop} {Q : World V E → World V E → Prop}

theorem setArg_stable (S : Stable P A C D F I Q) (w : World V E) (hI : I w) (fr : Option Frame) (args : List (Arg V)) (i : Nat) (v : V)
    (hfr : ∀ f, fr = some f → F f.m f.off f.uid args) : Q w (setArg w fr args i v) := by
  unfold setArg
  split
  · exact S.refl w
  · exact S.write _ _ _ hI
  · rename_i hv
    cases fr with
    | none => exact S.refl w
    | some f => exact S.setArgs w f.m f.off f.uid args (fun a => a.set i (.val v)) hI (hfr f rfl) (keepsForm_set hv)

/-- The inductive hypothesis about nested calls. -/
def CallOk (C : MockId → Nat → Prop) (I : World V E → Prop) (Q : World V E → World V E → Prop) (call : CallFn V E) : Prop :=
  ∀ w m off args o w', I w → C m off → call w m off args = .done (o, w') → Q w w'

theorem runBody_stable (S : Stable P A C D F I Q) (call : CallFn V E) (hcall : CallOk C I Q call)
    (fr : Option Frame) (args : List (Arg V)) (hfr : ∀ f, fr = some f → F f.m f.off f.uid args) (b : Body V E) (hb : b.Within A C) (w : World V E)
    (hI : I w) (o : Outcome V E) (w' : World V E) (h : runBody P call fr args b w = .done (o, w')) : Q w w' := by
  induction b generalizing w with
  | done o' =>
    simp only [runBody, R.done.injEq, Prod.mk.injEq] at h
    obtain ⟨-, rfl⟩ := h
    exact S.refl w
  | setArg i v k ih =>
    have hq := setArg_stable S w hI fr args i v hfr
    exact S.trans hq (ih hb _ (S.inv hq hI) h)
  | call m off as k ih =>
    simp only [runBody, R.bind_eq_done] at h
    obtain ⟨⟨o1, w1⟩, h1, h2⟩ := h
    have hq := hcall _ _ _ _ _ _ hI hb.1 h1
    exact S.trans hq (ih o1 (hb.2 o1) _ (S.inv hq hI) h2)
  | api a k ih =>
    simp only [runBody, R.bind_eq_done] at h
    obtain ⟨⟨w1, o1⟩, h1, h2⟩ := h
    have hq := S.api hI hb.1 h1
    exact S.trans hq (ih o1 (hb.2 o1) _ (S.inv hq hI) h2)

theorem fnCode_within (hP : P.Within A C) (f : Fn V E) (vs : List V) : (f.code P vs).Within A C := by
  cases f with
  | ret => exact True.intro
  | thr => exact True.intro
  | user f => exact hP f vs

/-- Running a handler preserves `Q` if the bookkeeping of the script and the delegated call do. -/
theorem runHandler_gen (S : Stable P A C D F I Q) (hP : P.Within A C) (call : CallFn V E)
    (hcall : CallOk C I Q call)
    (w : World V E) (hI : I w) (fr : Frame) (h : Handler V E) (args : List (Arg V))
    (hfr : ∀ i act, h.seq.front = .done (i, act) → act.Writes → F fr.m fr.off fr.uid args) (hd0 : Handler V E)
    (hh : w.handler? fr.m fr.off h.addr = some hd0)
    (htick : ∀ i act, h.seq.front = .done (i, act) → Q w (w.updSeq fr.m fr.off h.addr fun s => s.tick i))
    (hfin : ∀ i act w1 hd s, h.seq.front = .done (i, act) → Q (w.updSeq fr.m fr.off h.addr fun s => s.tick i) w1 → I w1 →
      w1.handler? fr.m fr.off h.addr = some hd → hd.seq.finallyClause i = .done s → Q w1 (w1.updSeq fr.m fr.off h.addr fun _ => s))
    (hswap : ∀ i act w1 w2 k fake orig hd0 hd s, h.seq.front = .done (i, act) → Q (w.updSeq fr.m fr.off h.addr fun s => s.tick i) w1 → I w1 →
      w1.mocks[fr.m]? = some k → k.vt[fr.off]? = some fake → k.orig[fr.off]? = some orig → w1.handler? fr.m fr.off h.addr = some hd0 →
      (∃ o, call (w1.setVt fr.m fr.off orig) fr.m fr.off args = .done (o, w2)) →
      (w2.setVt fr.m fr.off fake).handler? fr.m fr.off h.addr = some hd → hd.seq.finallyClause i = .done s →
      Q w1 ((w2.setVt fr.m fr.off fake).updSeq fr.m fr.off h.addr fun _ => s))
    (o : Outcome V E) (w' : World V E) (hr : runHandler P call w fr h args = .done (o, w')) : Q w w' := by
  simp only [runHandler, R.bind_eq_done] at hr
  obtain ⟨⟨i, act⟩, hfront, ⟨o1, w1⟩, h2, w2, h3, h4⟩ := hr
  simp only [R.done.injEq, Prod.mk.injEq] at h4
  obtain ⟨-, rfl⟩ := h4
  have htick := htick i act hfront
  have hIt := S.inv htick hI
  have hfr' : act.Writes → ∀ f, some fr = some f → F f.m f.off f.uid args := by intro ha f hf; cases hf; exact hfr i act hfront ha
  have hbody : ∀ (f : Fn V E) vs, (∀ g, f = .user g → act.Writes) →
      runBody P call (some fr) args (f.code P vs) (w.updSeq fr.m fr.off h.addr fun s => s.tick i) = .done (o1, w1) →
      Q (w.updSeq fr.m fr.off h.addr fun s => s.tick i) w1 := by
    intro f vs hf hrun
    cases f with
    | ret v =>
      simp only [Fn.code, runBody, R.done.injEq, Prod.mk.injEq] at hrun
      rw [← hrun.2]; exact S.refl _
    | thr e =>
      simp only [Fn.code, runBody, R.done.injEq, Prod.mk.injEq] at hrun
      rw [← hrun.2]; exact S.refl _
    | user g => exact runBody_stable S call hcall (some fr) args (hfr' (hf g rfl)) _ (hP g _) _ hIt _ _ hrun
  -- finishing when the delegate bracket is not involved
  have hfinal : ∀ wx, Q (w.updSeq fr.m fr.off h.addr fun s => s.tick i) wx → wx = w1 → Q w w2 := by
    intro wx hq he
    subst he
    rcases worldFinally_done h3 with ⟨hd, s, hhd, hs, rfl⟩ | ⟨-, -, -, -, rfl⟩
    · exact S.trans htick (S.trans hq (hfin i act _ hd s hfront hq (S.inv hq hIt) hhd hs))
    · exact S.trans htick hq
  cases act with
  | rep t f => exact hfinal w1 (hbody f _ (by rintro g rfl; trivial) h2) rfl
  | forever f => exact hfinal w1 (hbody f _ (by rintro g rfl; trivial) h2) rfl
  | noMore =>
    simp only [invokeAct, R.done.injEq, Prod.mk.injEq] at h2
    exact hfinal _ (S.refl _) h2.2
  | dflt =>
    simp only [invokeAct] at h2
    split at h2
    · simp at h2
    · split at h2
      · simp only [R.done.injEq, Prod.mk.injEq] at h2
        exact hfinal _ (S.refl _) h2.2
      · simp only [R.done.injEq, Prod.mk.injEq] at h2
        exact hfinal _ (S.refl _) h2.2
      · simp at h2
  | deleg mv =>
    simp only [invokeAct] at h2
    -- the world after an optional move
    generalize hw0 : (if mv = true then
      (w.updSeq fr.m fr.off h.addr fun s => s.tick i).updInv fr.m fr.off fr.uid (fun i => { i with args := moveArgs P i.args })
      else (w.updSeq fr.m fr.off h.addr fun s => s.tick i)) = w0 at h2
    have hq0 : Q (w.updSeq fr.m fr.off h.addr fun s => s.tick i) w0 := by
      subst hw0
      split
      · rename_i hmv
        subst hmv
        exact S.setArgs _ _ _ _ args (moveArgs P) hIt (hfr i _ hfront trivial) (keepsForm_move P args)
      · exact S.refl _
    have hh0 : ∃ hd, w0.handler? fr.m fr.off h.addr = some hd := by
      have key : ∀ (w : World V E) (f : ActionSeq V E → ActionSeq V E) hd, w.handler? fr.m fr.off h.addr = some hd →
          ∃ hd', (w.updSeq fr.m fr.off h.addr f).handler? fr.m fr.off h.addr = some hd' := by
        intro w f hd hhd
        simp only [World.handler?, Option.bind_eq_some_iff] at hhd
        obtain ⟨b, hb, hfind⟩ := hhd
        simp only [World.handler?, World.updSeq, World.body?_updBody, hb]
        simp only [and_self, if_true, Option.map_some, Option.bind_some]
        have : (b.handlers.map fun x => if x.addr == h.addr then { x with seq := f x.seq } else x).find? (fun x => x.addr == h.addr) ≠ none := by
          intro hn
          rw [List.find?_eq_none] at hn
          have hm := List.mem_of_find?_eq_some hfind
          have ha := List.find?_some hfind
          have := hn _ (List.mem_map_of_mem hm)
          simp [ha] at this
        exact Option.ne_none_iff_exists'.1 this
      obtain ⟨hd1, h1⟩ := key w (fun s => s.tick i) hd0 hh
      subst hw0
      split
      · refine ⟨hd1, ?_⟩
        cases hb : (w.updSeq fr.m fr.off h.addr fun s => s.tick i).body? fr.m fr.off with
        | none => simp [World.handler?, hb] at h1
        | some b =>
          simp only [World.handler?, hb, Option.bind_some] at h1
          simp only [World.handler?, World.updInv, World.body?_updBody, and_self, if_true, hb, Option.map_some, Option.bind_some]
          exact h1
      · exact ⟨hd1, h1⟩
    simp only [runDelegate] at h2
    split at h2
    · simp at h2
    · rename_i k hk
      split at h2
      · simp only [R.done.injEq, Prod.mk.injEq] at h2
        exact hfinal _ (by rw [← h2.2]; exact hq0) rfl
      · split at h2
        · rename_i fake orig hf ho
          simp only [R.bind_eq_done] at h2
          obtain ⟨⟨o2, w3⟩, hc, he⟩ := h2
          simp only [R.done.injEq, Prod.mk.injEq] at he
          obtain ⟨-, rfl⟩ := he
          rcases worldFinally_done h3 with ⟨hd, s, hhd, hs, rfl⟩ | ⟨-, -, h4, -, -⟩
          rotate_left
          · exact absurd rfl (h4 _)
          · obtain ⟨hdx, hhdx⟩ := hh0
            have hI0 := S.inv hq0 hIt
            have := hswap i _ w0 w3 k fake orig hdx hd s hfront hq0 hI0 hk hf ho hhdx ⟨o2, hc⟩ hhd hs
            exact S.trans htick (S.trans hq0 this)
        · simp at h2

theorem runHandler_stable (S : Stable P A C D F I Q) (hP : P.Within A C) (call : CallFn V E)
    (hcall : CallOk C I Q call)
    (w : World V E) (hI : I w) (fr : Frame) (hfr : D fr.m fr.off) (h : Handler V E) (args : List (Arg V)) (hF : F fr.m fr.off fr.uid args) (hd0 : Handler V E)
    (hh : w.handler? fr.m fr.off h.addr = some hd0)
    (o : Outcome V E) (w' : World V E) (hr : runHandler P call w fr h args = .done (o, w')) : Q w w' :=
  runHandler_gen S hP call hcall w hI fr h args (fun _ _ _ _ => hF) hd0 hh
    (fun i _ _ => S.tick w fr.m fr.off h.addr i hI hfr)
    (fun i _ _ hd s _ _ hI1 hhd hs => S.fin _ _ _ _ hd i s hI1 hfr hhd hs)
    (fun i _ _ _ k fake orig hdx hd s _ _ hI1 hk hf ho hhdx ⟨_, hc⟩ hhd hs => S.swap _ _ fr.m fr.off h.addr k fake orig hdx hd i s hI1 hfr hk hf ho hhdx
      (hcall _ _ _ _ _ _ (S.swapIn hI1 hfr hk ho) (S.deleg hfr) hc) hhd hs)
    o w' hr

theorem findHandler_mem {heap : Addr → V} {hs : List (Handler V E)} {inv : Invocation V} {h : Handler V E}
    (hf : findHandler heap hs inv = some h) : h ∈ hs := by
  have : ∀ l : List (Handler V E), scanHandlers heap inv l = some h → h ∈ l := by
    intro l
    induction l with
    | nil => simp [scanHandlers]
    | cons x l ih =>
      simp only [scanHandlers]
      split
      · intro he; simp at he; simp [he]
      · intro he; simp [ih he]
  simpa using this _ hf

theorem handler?_isSome {w : World V E} {m off : Nat} {b : MBody V E} {h : Handler V E} (hb : w.body? m off = some b)
    (hm : h ∈ b.handlers) : ∃ hd, w.handler? m off h.addr = some hd := by
  simp only [World.handler?, hb, Option.bind_some]
  have : b.handlers.find? (fun x => x.addr == h.addr) ≠ none := by
    intro hn
    rw [List.find?_eq_none] at hn
    exact absurd (hn h hm) (by simp)
  exact Option.ne_none_iff_exists'.1 this

theorem handleCall_stable (S : Stable P A C D F I Q) (hP : P.Within A C) (call : CallFn V E)
    (hcall : CallOk C I Q call)
    (w : World V E) (hI : I w) (m off : Nat) (hm : D m off) (b : MBody V E) (hb : w.body? m off = some b) (args : List (Arg V))
    (o : Outcome V E) (w' : World V E) (hr : handleCall P call w m off b args = .done (o, w')) : Q w w' := by
  simp only [handleCall] at hr
  split at hr
  · simp only [unmatched, R.done.injEq, Prod.mk.injEq] at hr
    rw [← hr.2]
    exact S.trans (S.bump w hI) (S.fire _ _ (S.inv (S.bump w hI) hI))
  · rename_i h hh
    simp only [R.bind_eq_done] at hr
    obtain ⟨⟨o1, w1⟩, h1, h2⟩ := hr
    have hq := S.push w m off b args h hI hm hb hh
    obtain ⟨hd, hhd⟩ := handler?_isSome hb (findHandler_mem hh)
    have hhd' : (w.bumpInv.pushInv m off (recorded w b args h)).handler? m off h.addr = some hd := by
      simp only [World.handler?, hb, Option.bind_some] at hhd
      simp only [World.handler?, World.pushInv, World.body?_updBody, and_self, if_true, World.body?_bumpInv, hb, Option.map_some,
        Option.bind_some]
      exact hhd
    have h3 : Q (w.bumpInv.pushInv m off (recorded w b args h)) w1 :=
      runHandler_stable S hP call hcall _ (S.inv hq hI) _ hm h args (S.frame args hI hm) hd hhd' o1 w1 h1
    split at h2
    · simp only [unmatched, R.done.injEq, Prod.mk.injEq] at h2
      rename_i heq
      cases heq
      rw [← h2.2]
      exact S.trans hq (S.trans h3 (S.fire _ _ (S.inv h3 (S.inv hq hI))))
    · simp only [R.done.injEq, Prod.mk.injEq] at h2
      rename_i heq
      cases heq
      rw [← h2.2]
      exact S.trans hq h3

/-- Every virtual call preserves `Q`. -/
theorem callSlot_stable (S : Stable P A C D F I Q) (hP : P.Within A C) (fuel : Nat) :
    ∀ (w : World V E) (m off : Nat) (args : List (Arg V)) (o : Outcome V E) (w' : World V E), I w → C m off →
      callSlot P fuel w m off args = .done (o, w') → Q w w' := by
  induction fuel with
  | zero => intro w m off args o w' _ _ h; simp [callSlot] at h
  | succ fuel ih =>
    intro w m off args o w' hI hm h
    simp only [callSlot] at h
    split at h
    · simp at h
    · rename_i k hk
      split at h
      · simp at h
      · split at h
        · simp at h
        · rename_i c hc
          cases c with
          | unmocked =>
            simp only [runCode, unmockedCall, R.done.injEq, Prod.mk.injEq] at h
            rw [← h.2]
            exact S.trans (S.bump w hI) (S.fire _ _ (S.inv (S.bump w hI) hI))
          | unmockedDtor =>
            simp only [runCode, R.done.injEq, Prod.mk.injEq] at h
            rw [← h.2]; exact S.refl w
          | dtorThunk =>
            simp only [runCode] at h
            split at h
            · simp at h
            · rename_i d hd
              exact ih _ _ _ _ _ _ hI (S.thunk hI hm hk hc hd) h
          | proxy id =>
            simp only [runCode] at h
            split at h
            · simp at h
            · rename_i b hb
              exact handleCall_stable S hP _ ih w hI m _ (S.dispatch hI hm hk hc ⟨b, hb⟩) b (by simp [World.body?, hk, hb]) args o w' h
          | native f =>
            exact runBody_stable S _ ih none args (by intro f hf; cases hf) _ (hP f _) w hI o w' h

/-- A call of an entry that is original or "unmocked" code preserves `Q`, even if calls of that entry are not in `C`. -/
theorem callCode_stable (S : Stable P A C D F I Q) (hP : P.Within A C) (fuel : Nat) {w : World V E} {m off : Nat} {k : Mock V E} {x : Code} (hI : I w)
    (hk : w.mocks[m]? = some k) (hx : k.vt[off]? = some x) (hcode : x = .unmocked ∨ x = .unmockedDtor ∨ ∃ f, x = .native f)
    {args : List (Arg V)} {o : Outcome V E} {w' : World V E} (h : callSlot P fuel w m off args = .done (o, w')) : Q w w' := by
  cases fuel with
  | zero => simp [callSlot] at h
  | succ fuel =>
    simp only [callSlot, hk] at h
    split at h
    · simp at h
    · simp only [hx] at h
      rcases hcode with rfl | rfl | ⟨f, rfl⟩
      · simp only [runCode, unmockedCall, R.done.injEq, Prod.mk.injEq] at h
        rw [← h.2]
        exact S.trans (S.bump w hI) (S.fire _ _ (S.inv (S.bump w hI) hI))
      · simp only [runCode, R.done.injEq, Prod.mk.injEq] at h
        rw [← h.2]; exact S.refl w
      · exact runBody_stable S _ (callSlot_stable S hP fuel) none args (by intro f hf; cases hf) _ (hP f _) w hI o w' h

/-- Every step of the main program preserves `Q`. -/
theorem opStep_stable (S : Stable P A C D F I Q) (hP : P.Within A C) (fuel : Nat) (op : Op V E) (hop : op.Within A C)
    (w : World V E) (out : OpOut V E) (w' : World V E) (hI : I w) (h1 : opStep P fuel w op = .done (out, w')) : Q w w' := by
  cases op with
  | call m off args =>
    simp only [opStep, R.bind_eq_done] at h1
    obtain ⟨⟨o', w''⟩, h1, h3⟩ := h1
    simp only [R.done.injEq, Prod.mk.injEq] at h3
    obtain ⟨-, rfl⟩ := h3
    exact callSlot_stable S hP fuel _ _ _ _ _ _ hI hop h1
  | api a =>
    simp only [opStep, R.bind_eq_done] at h1
    obtain ⟨⟨w'', o'⟩, h1, h3⟩ := h1
    simp only [R.done.injEq, Prod.mk.injEq] at h3
    obtain ⟨-, rfl⟩ := h3
    exact S.api hI hop h1

/-- Every program run preserves `Q`. -/
theorem runOps_stable (S : Stable P A C D F I Q) (hP : P.Within A C) (fuel : Nat) (ops : List (Op V E))
    (hops : ∀ op ∈ ops, op.Within A C) :
    ∀ (w : World V E) outs (w' : World V E), I w → runOps P fuel w ops = .done (outs, w') → Q w w' := by
  induction ops with
  | nil =>
    intro w outs w' hI h
    simp only [runOps, R.done.injEq, Prod.mk.injEq] at h
    rw [← h.2]; exact S.refl w
  | cons op ops ih =>
    intro w outs w' hI h
    simp only [runOps, R.bind_eq_done] at h
    obtain ⟨⟨o, w1⟩, h1, ⟨os, w2⟩, h2, h3⟩ := h
    simp only [R.done.injEq, Prod.mk.injEq] at h3
    obtain ⟨-, rfl⟩ := h3
    have hq : Q w w1 := opStep_stable S hP fuel op (hops op (by simp)) w o w1 hI h1
    exact S.trans hq (ih (fun op h => hops op (by simp [h])) _ _ _ (S.inv hq hI) h2)

end FakeIt
