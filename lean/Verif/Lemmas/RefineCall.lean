import Verif.Lemmas.RefineOps
/-!
# Virtual calls refine the abstract mock's calls
-/
namespace FakeIt
variable {V E : Type} {P : Prog V E} {nm : MockId → Nat → Nat}
open Spec

/-! ## The world while one call is served -/

/-- The record of the called method: handler `a` has script `q`, invocation `inv` is the newest. -/
def srvB (a : Addr) (q : ActionSeq V E) (inv : Invocation V) (b : MBody V E) : MBody V E :=
  { b with handlers := setSeq b.handlers a q, invs := b.invs ++ [inv] }

/-- The world while (and after) a call is served: apart from that record only the test's variables, the call counter and the log change. -/
def srv (w : World V E) (m off : Nat) (a : Addr) (q : ActionSeq V E) (inv : Invocation V) (heap : Addr → V) (n : Nat) (log : List (Event V)) : World V E :=
  { mocks := (w.updBody m off (srvB a q inv)).mocks, heap := heap, invTotal := n, methTotal := w.methTotal, alloc := w.alloc, log := log }

theorem updBody_congr {w : World V E} {m off : Nat} {f g : MBody V E → MBody V E} (h : ∀ b, w.body? m off = some b → f b = g b) :
    w.updBody m off f = w.updBody m off g := by
  simp only [World.updBody, World.updMock]
  congr 1
  refine modify_congr fun k hk => ?_
  simp only [Mock.updBody]
  congr 1
  refine modify_congr fun x hx => ?_
  cases x with
  | none => rfl
  | some b =>
    simp only [Option.map_some]
    rw [h b (by simp [World.body?, hk, Mock.body?, hx])]

theorem updBody_updBody (w : World V E) (m off : Nat) (f g : MBody V E → MBody V E) : (w.updBody m off f).updBody m off g = w.updBody m off (g ∘ f) := by
  simp only [World.updBody, World.updMock, List.modify_modify_eq, World.mk.injEq, and_true]
  refine modify_congr fun k _ => ?_
  simp only [Function.comp_apply, Mock.updBody, List.modify_modify_eq, Mock.mk.injEq, true_and, and_true]
  refine modify_congr fun x _ => ?_
  cases x <;> rfl

theorem srv_updBody (w : World V E) (m off : Nat) (a : Addr) (q : ActionSeq V E) (inv : Invocation V) (heap : Addr → V) (n : Nat) (log : List (Event V))
    {q' : ActionSeq V E} {inv' : Invocation V} {g : MBody V E → MBody V E}
    (h : ∀ b, w.body? m off = some b → g (srvB a q inv b) = srvB a q' inv' b) :
    (srv w m off a q inv heap n log).updBody m off g = srv w m off a q' inv' heap n log := by
  have : (srv w m off a q inv heap n log).updBody m off g =
      { ((w.updBody m off (srvB a q inv)).updBody m off g) with heap := heap, invTotal := n, log := log } := rfl
  have hc : w.updBody m off (g ∘ srvB a q inv) = w.updBody m off (srvB a q' inv') := updBody_congr h
  rw [this, updBody_updBody, hc]
  rfl

theorem srv_body {w : World V E} {m off : Nat} {b : MBody V E} (hb : w.body? m off = some b) (a : Addr) (q : ActionSeq V E) (inv : Invocation V) (heap : Addr → V) (n : Nat) (log : List (Event V)) :
    (srv w m off a q inv heap n log).body? m off = some (srvB a q inv b) := by
  have : (srv w m off a q inv heap n log).body? m off = (w.updBody m off (srvB a q inv)).body? m off := rfl
  rw [this, World.body?_updBody, if_pos ⟨rfl, rfl⟩, hb]; rfl

theorem setSeq_setSeq (hs : List (Handler V E)) (a : Addr) (q q' : ActionSeq V E) : setSeq (setSeq hs a q) a q' = setSeq hs a q' := by
  simp only [setSeq, List.map_map]
  apply List.map_congr_left
  intro x _
  simp only [Function.comp_apply]
  by_cases h : x.addr = a <;> simp [h]

section
variable {w : World V E} {m off : Nat} {b : MBody V E} (hb : w.body? m off = some b) {a : Addr} {q : ActionSeq V E} {inv : Invocation V} {heap : Addr → V} {n : Nat} {log : List (Event V)}
include hb

theorem srv_updSeq (q' : ActionSeq V E) : (srv w m off a q inv heap n log).updSeq m off a (fun _ => q') = srv w m off a q' inv heap n log := by
  refine srv_updBody w m off a q inv heap n log fun b' _ => ?_
  simp only [srvB, MBody.mk.injEq, true_and, and_true]
  exact setSeq_setSeq _ _ _ _

theorem srv_updInv (huid : ∀ i ∈ b.invs, i.uid ≠ inv.uid) (f : Invocation V → Invocation V) :
    (srv w m off a q inv heap n log).updInv m off inv.uid f = srv w m off a q (f inv) heap n log := by
  refine srv_updBody w m off a q inv heap n log fun b' hb' => ?_
  rw [hb] at hb'; cases hb'
  simp only [srvB, MBody.mk.injEq, true_and, List.map_append, List.map_cons, List.map_nil, beq_self_eq_true, if_true]
  congr 1
  conv => rhs; rw [← List.map_id b.invs]
  apply List.map_congr_left
  intro i hi
  simp [huid i hi]

theorem srv_handler {h : Handler V E} (hmem : h ∈ b.handlers) (hnd : (b.handlers.map (·.addr)).Nodup) (ha : a = h.addr) :
    (srv w m off a q inv heap n log).handler? m off a = some { h with seq := q } := by
  subst ha
  simp only [World.handler?, srv_body hb, Option.bind_some, srvB]
  have : ∀ (l : List (Handler V E)), (l.map (·.addr)).Nodup → h ∈ l → (setSeq l h.addr q).find? (·.addr == h.addr) = some { h with seq := q } := by
    intro l
    induction l with
    | nil => intro _ hm; cases hm
    | cons x l ih =>
      intro hn hm
      simp only [setSeq, List.map_cons]
      by_cases hx : x.addr = h.addr
      · have : x = h := eq_of_map_nodup hn (by simp) hm hx
        subst this
        simp
      · have hm' : h ∈ l := by
          rcases List.mem_cons.1 hm with rfl | hm
          · exact absurd rfl hx
          · exact hm
        rw [if_neg (by simpa using hx), List.find?_cons_of_neg (by simpa using hx)]
        exact ih (List.nodup_cons.1 hn).2 hm'
  exact this _ hnd hmem

end

theorem srv_push {w : World V E} {m off : Nat} {b : MBody V E} (hb : w.body? m off = some b) {h : Handler V E} (hmem : h ∈ b.handlers) (hnd : (b.handlers.map (·.addr)).Nodup)
    (inv : Invocation V) (g : ActionSeq V E → ActionSeq V E) :
    (w.bumpInv.pushInv m off inv).updSeq m off h.addr g = srv w m off h.addr (g h.seq) inv w.heap (w.invTotal + 1) w.log := by
  have e : (w.bumpInv.pushInv m off inv).updSeq m off h.addr g = { ((w.updBody m off fun b => { b with invs := b.invs ++ [inv] }).updBody m off fun b =>
      { b with handlers := b.handlers.map fun x => if x.addr == h.addr then { x with seq := g x.seq } else x }) with invTotal := w.invTotal + 1 } := rfl
  rw [e, updBody_updBody, updBody_congr (g := srvB h.addr (g h.seq) inv)]
  · rfl
  · intro b' hb'
    rw [hb] at hb'; cases hb'
    simp only [Function.comp_apply, srvB, MBody.mk.injEq, true_and, and_true, setSeq]
    apply List.map_congr_left
    intro x hx
    by_cases hxa : x.addr = h.addr
    · have : x = h := eq_of_map_nodup hnd hx hmem hxa
      subst this; simp
    · simp [hxa]

/-! ## Running plain code -/

/-- The same parameters are references, to the same objects. -/
def SameForm (args as : List (Arg V)) : Prop := form args = form as

theorem SameForm.get {args as : List (Arg V)} (h : SameForm args as) (i : Nat) :
    (args[i]? = none ∧ as[i]? = none) ∨ (∃ r, args[i]? = some (.ref r) ∧ as[i]? = some (.ref r)) ∨ (∃ v v', args[i]? = some (.val v) ∧ as[i]? = some (.val v')) := by
  have := congrArg (·[i]?) h
  simp only [form, List.getElem?_map] at this
  cases h1 : args[i]? with
  | none => rw [h1] at this; cases h2 : as[i]? with
    | none => exact .inl ⟨rfl, rfl⟩
    | some x => rw [h2] at this; simp at this
  | some x =>
    rw [h1] at this
    cases h2 : as[i]? with
    | none => rw [h2] at this; simp at this
    | some y =>
      rw [h2] at this
      cases x <;> cases y <;> simp at this
      · exact .inr (.inr ⟨_, _, rfl, rfl⟩)
      · subst this; exact .inr (.inl ⟨_, rfl, rfl⟩)

theorem SameForm.set {args as : List (Arg V)} (h : SameForm args as) {i : Nat} {v v' : V} (hi : as[i]? = some (.val v')) : SameForm args (as.set i (.val v)) := by
  rw [SameForm, h]
  apply List.ext_getElem?
  intro j
  simp only [form, List.getElem?_map, List.getElem?_set]
  by_cases hj : i = j
  · subst hj
    rw [if_pos rfl, if_pos (List.getElem?_eq_some_iff.1 hi).1, hi]; rfl
  · simp [hj]

theorem runBody_plain_frame {call : CallFn V E} {w : World V E} {m off : Nat} {b : MBody V E} (hb : w.body? m off = some b) {a : Addr} {q : ActionSeq V E} {n : Nat} {log : List (Event V)}
    {args : List (Arg V)} (B : Body V E) : ∀ {inv : Invocation V} {heap : Addr → V} {o : Outcome V E} {as' : List (Arg V)} {heap' : Addr → V},
    (∀ i ∈ b.invs, i.uid ≠ inv.uid) → SameForm args inv.args → plain B inv.args heap = some (o, as', heap') →
    runBody P call (some ⟨m, off, inv.uid⟩) args B (srv w m off a q inv heap n log) = .done (o, srv w m off a q { inv with args := as' } heap' n log) := by
  induction B with
  | done o =>
    intro inv heap o' as' heap' _ _ h
    simp only [plain, Option.some.injEq, Prod.mk.injEq] at h
    obtain ⟨rfl, rfl, rfl⟩ := h
    rfl
  | setArg i v k ih =>
    intro inv heap o' as' heap' huid hf h
    simp only [runBody]
    rcases hf.get i with ⟨h1, h2⟩ | ⟨r, h1, h2⟩ | ⟨x, y, h1, h2⟩
    · simp only [plain, h2] at h
      simp only [setArg, h1]
      exact ih huid hf h
    · simp only [plain, h2] at h
      simp only [setArg, h1]
      exact ih huid hf h
    · simp only [plain, h2] at h
      simp only [setArg, h1, srv_updInv hb huid]
      exact ih (inv := { inv with args := inv.args.set i (.val v) }) huid (hf.set h2) h
  | call => intro inv heap o' as' heap' _ _ h; simp [plain] at h
  | api => intro inv heap o' as' heap' _ _ h; simp [plain] at h

theorem runBody_plain_none {call : CallFn V E} {args : List (Arg V)} (B : Body V E) : ∀ {as : List (Arg V)} {w : World V E} {o : Outcome V E} {as' : List (Arg V)} {heap' : Addr → V},
    SameForm args as → plain B as w.heap = some (o, as', heap') → runBody P call none args B w = .done (o, { w with heap := heap' }) := by
  induction B with
  | done o =>
    intro as w o' as' heap' _ h
    simp only [plain, Option.some.injEq, Prod.mk.injEq] at h
    obtain ⟨rfl, rfl, rfl⟩ := h
    rfl
  | setArg i v k ih =>
    intro as w o' as' heap' hf h
    simp only [runBody]
    rcases hf.get i with ⟨h1, h2⟩ | ⟨r, h1, h2⟩ | ⟨x, y, h1, h2⟩
    · simp only [plain, h2] at h
      simp only [setArg, h1]
      exact ih hf h
    · simp only [plain, h2] at h
      simp only [setArg, h1]
      rw [ih (w := w.write r v) hf h]; rfl
    · simp only [plain, h2] at h
      simp only [setArg, h1]
      exact ih (hf.set h2) h
  | call => intro as w o' as' heap' _ h; simp [plain] at h
  | api => intro as w o' as' heap' _ h; simp [plain] at h

/-! ## Performing the front action -/

theorem setVt_restore (w : World V E) {m off : Nat} {k : Mock V E} (hk : w.mocks[m]? = some k) {x y : Code} (hy : k.vt[off]? = some y) :
    (w.setVt m off x).setVt m off y = w := by
  have : (w.mocks.modify m fun k => { k with vt := k.vt.set off x }).modify m (fun k => { k with vt := k.vt.set off y }) = w.mocks := by
    rw [List.modify_modify_eq]
    conv => rhs; rw [← List.modify_id m w.mocks]
    refine modify_congr fun k' hk' => ?_
    rw [hk] at hk'; cases hk'
    simp only [Function.comp_apply, List.set_set, id]
    have : k.vt.set off y = k.vt := by
      apply List.ext_getElem?
      intro j
      rw [List.getElem?_set]
      by_cases hj : off = j
      · subst hj; rw [if_pos rfl, if_pos (List.getElem?_eq_some_iff.1 hy).1, hy]
      · simp [hj]
    rw [this]
  simp only [World.setVt, World.updMock, this]

/-- Calling through a table entry that is the fake's or the real object's own code. -/
theorem orig_plain {w : World V E} {m off : Nat} {k : Mock V E} (hk : w.mocks[m]? = some k) (hal : k.alive = true ∨ k.owner = false) {f : Nat}
    (hv : k.vt[off]? = some (.native f)) {args as' : List (Arg V)} {o : Outcome V E} {heap' : Addr → V}
    (hp : plain (P.fn f (valuesOf w.heap args)) args w.heap = some (o, as', heap')) (fuel : Nat) :
    callSlot P (fuel + 1) w m off args = .done (o, { w with heap := heap' }) := by
  have hc : (!k.alive && k.owner) = false := by rcases hal with h | h <;> simp [h]
  simp only [callSlot, hk, hc, hv, runCode, Bool.false_eq_true, if_false, derefAll_eq]
  exact runBody_plain_none _ rfl hp

theorem orig_unmocked {w : World V E} {m off : Nat} {k : Mock V E} (hk : w.mocks[m]? = some k) (hal : k.alive = true)
    (hv : k.vt[off]? = some .unmocked) (args : List (Arg V)) (fuel : Nat) : callSlot P (fuel + 1) w m off args = .done (unmockedCall w) := by
  simp only [callSlot, hk, hal, hv, runCode, Bool.not_true, Bool.false_and, Bool.false_eq_true, if_false]

/-- The front action of the chosen stubbing. -/
theorem invoke_refines {w : World V E} {m off : Nat} {b : MBody V E} (hb : w.body? m off = some b) {k : Mock V E} (hk : w.mocks[m]? = some k)
    {nm' : Nat → Nat} (t : TableOk P nm' k) (hal : k.alive = true) (hoff : off < (P.cls k.cls).size)
    (hnd : ∀ d, (P.cls k.cls).dtor = some d → off ≠ d + 1) {a : Addr} {q : ActionSeq V E} {inv : Invocation V} {log : List (Event V)}
    (huid : ∀ i ∈ b.invs, i.uid ≠ inv.uid) {s1 s2 : AState V E} (hlog : All2 (EvRel s1.named) log s1.log)
    {acts : List (Act V E)} {o : Outcome V E} {as : List (Arg V)} (hp : perform P (P.cls k.cls) (!k.owner) off inv.args s1 acts = some (o, as, s2)) (fuel : Nat) :
    ∃ log', invokeAct P (callSlot P (fuel + 1)) (srv w m off a q inv s1.heap s1.made log) ⟨m, off, inv.uid⟩ inv.args (headAct acts) =
        .done (o, srv w m off a q { inv with args := as } s2.heap s2.made log') ∧
      All2 (EvRel s1.named) log' s2.log ∧ s2 = { s1 with heap := s2.heap, made := s2.made, log := s2.log } ∧ s1.made ≤ s2.made := by
  have hmock : ∀ inv' heap n log, (srv w m off a q inv' heap n log : World V E).mocks[m]? = some (k.updBody off (srvB a q inv')) := by
    intro inv' heap n log
    show (w.mocks.modify m _)[m]? = _
    rw [List.getElem?_modify]; simp [hk]
  have hfn : ∀ f : Fn V E, runFn P s1 inv.args f = some (o, as, s2) →
      ∃ log', runBody P (callSlot P (fuel + 1)) (some ⟨m, off, inv.uid⟩) inv.args (f.code P (derefAll s1.heap inv.args)) (srv w m off a q inv s1.heap s1.made log) =
        .done (o, srv w m off a q { inv with args := as } s2.heap s2.made log') ∧
      All2 (EvRel s1.named) log' s2.log ∧ s2 = { s1 with heap := s2.heap, made := s2.made, log := s2.log } ∧ s1.made ≤ s2.made := by
    intro f hf
    cases f with
    | ret v =>
      simp only [runFn, Option.some.injEq, Prod.mk.injEq] at hf
      obtain ⟨rfl, rfl, rfl⟩ := hf
      exact ⟨log, rfl, hlog, rfl, Nat.le_refl _⟩
    | thr e =>
      simp only [runFn, Option.some.injEq, Prod.mk.injEq] at hf
      obtain ⟨rfl, rfl, rfl⟩ := hf
      exact ⟨log, rfl, hlog, rfl, Nat.le_refl _⟩
    | user f =>
      simp only [runFn, Option.map_eq_some_iff] at hf
      obtain ⟨⟨o1, as1, heap1⟩, hpl, he⟩ := hf
      simp only [Prod.mk.injEq] at he
      obtain ⟨rfl, rfl, rfl⟩ := he
      refine ⟨log, ?_, hlog, rfl, Nat.le_refl _⟩
      rw [derefAll_eq]
      exact runBody_plain_frame hb _ huid rfl hpl
  cases acts with
  | nil =>
    simp only [perform, Option.some.injEq, Prod.mk.injEq] at hp
    obtain ⟨rfl, rfl, rfl⟩ := hp
    exact ⟨log, rfl, hlog, rfl, Nat.le_refl _⟩
  | cons act l =>
    cases act with
    | rep c f => exact hfn f hp
    | forever f => exact hfn f hp
    | noMore => cases hp
    | dflt =>
      simp only [perform] at hp
      simp only [headAct, invokeAct, hmock]
      have hcls : (k.updBody off (srvB a q inv)).cls = k.cls := rfl
      rw [hcls]
      cases hd : (P.cls k.cls).dflt off with
      | value v =>
        rw [hd] at hp
        simp only [Option.some.injEq, Prod.mk.injEq] at hp
        obtain ⟨rfl, rfl, rfl⟩ := hp
        exact ⟨log, rfl, hlog, rfl, Nat.le_refl _⟩
      | throws =>
        rw [hd] at hp
        simp only [Option.some.injEq, Prod.mk.injEq] at hp
        obtain ⟨rfl, rfl, rfl⟩ := hp
        exact ⟨log, rfl, hlog, rfl, Nat.le_refl _⟩
      | nullRef => rw [hd] at hp; cases hp
    | deleg mv =>
      simp only [perform] at hp
      simp only [headAct, invokeAct]
      have hkept : (if mv = true then (srv w m off a q inv s1.heap s1.made log).updInv m off inv.uid (fun i => { i with args := moveArgs P i.args }) else srv w m off a q inv s1.heap s1.made log) =
          srv w m off a q { inv with args := if mv then moved P inv.args else inv.args } s1.heap s1.made log := by
        cases mv with
        | true => simp only [if_true]; exact srv_updInv hb huid _
        | false => rfl
      rw [hkept]
      generalize hkk : (if mv then moved P inv.args else inv.args) = kept at hp ⊢
      have hcls : (k.updBody off (srvB a q { inv with args := kept })).cls = k.cls := rfl
      have hvt : (k.updBody off (srvB a q { inv with args := kept })).vt = k.vt := rfl
      have hor : (k.updBody off (srvB a q { inv with args := kept })).orig = k.orig := rfl
      simp only [runDelegate, hmock, hcls, hvt, hor]
      by_cases hd : (P.cls k.cls).dtor = some off
      · rw [if_pos hd] at hp ⊢
        simp only [Option.some.injEq, Prod.mk.injEq] at hp
        obtain ⟨rfl, rfl, rfl⟩ := hp
        exact ⟨log, rfl, hlog, rfl, Nat.le_refl _⟩
      · rw [if_neg hd] at hp ⊢
        have hlt : off < k.orig.length := by rw [t.orig_length]; exact hoff
        have hltv : off < k.vt.length := by rw [t.vtlen]; exact hlt
        obtain ⟨x, hx⟩ : ∃ x, k.orig[off]? = some x := ⟨_, List.getElem?_eq_getElem hlt⟩
        obtain ⟨y, hy⟩ : ∃ y, k.vt[off]? = some y := ⟨_, List.getElem?_eq_getElem hltv⟩
        rw [hx, hy]
        dsimp only
        have hc := orig_code t hx hnd hd
        generalize hwx : srv w m off a q { inv with args := kept } s1.heap s1.made log = wx
        have hwk : wx.mocks[m]? = some (k.updBody off (srvB a q { inv with args := kept })) := by rw [← hwx]; exact hmock _ _ _ _
        have hsk : (wx.setVt m off x).mocks[m]? = some { (k.updBody off (srvB a q { inv with args := kept })) with vt := k.vt.set off x } := by
          show (wx.mocks.modify m _)[m]? = _
          rw [List.getElem?_modify]; simp [hwk]; rfl
        have hsv : (k.vt.set off x)[off]? = some x := by rw [List.getElem?_set]; simp [hltv]
        cases ho : k.owner with
        | true =>
          rw [ho] at hp
          simp only [Bool.not_true, Bool.false_eq_true, if_false, Option.some.injEq, Prod.mk.injEq] at hp
          obtain ⟨rfl, rfl, rfl⟩ := hp
          have hxu := hc.1 ho
          subst hxu
          rw [orig_unmocked hsk hal hsv]
          simp only [R.bind_done, unmockedCall]
          refine ⟨log ++ [.unexpectedCall .unmocked { uid := s1.made + 1, ordinal := (s1.made + 1) % wrap32, method := 0, args := [], verified := false, matcher := none }], ?_,
            hlog.append (.cons (.unexpected (by constructor <;> rfl)) .nil), (by first | rfl | trivial), Nat.le_succ _⟩
          have hinv : wx.invTotal = s1.made := by rw [← hwx]; rfl
          have hr := setVt_restore wx hwk (x := .unmocked) hy
          have : ∀ e : Event V, (((wx.setVt m off .unmocked).bumpInv.fire e).setVt m off y) = { ((wx.setVt m off .unmocked).setVt m off y) with invTotal := wx.invTotal + 1, log := wx.log ++ [e] } := fun _ => rfl
          rw [this, hr]
          show R.done (Outcome.unexpected, _) = R.done (Outcome.unexpected, _)
          have e2 : (wx.setVt m off .unmocked).bumpInv.invTotal = s1.made + 1 := by
            show wx.invTotal + 1 = _; rw [hinv]
          simp only [World.lastOrdinal, e2]
          rw [← hwx]
          rfl
        | false =>
          rw [ho] at hp
          simp only [Bool.not_false, if_true, Option.map_eq_some_iff] at hp
          obtain ⟨⟨o1, as1, heap1⟩, hpl, he⟩ := hp
          simp only [Prod.mk.injEq] at he
          obtain ⟨rfl, rfl, rfl⟩ := he
          have hxu := hc.2 ho
          subst hxu
          have hheap : (wx.setVt m off (.native ((P.cls k.cls).impl off))).heap = s1.heap := by rw [← hwx]; rfl
          rw [orig_plain hsk (.inl hal) hsv (by rw [hheap]; exact hpl)]
          simp only [R.bind_done]
          refine ⟨log, ?_, hlog, (by first | rfl | trivial), Nat.le_refl _⟩
          have hr := setVt_restore wx hwk (x := .native ((P.cls k.cls).impl off)) hy
          have : ({ (wx.setVt m off (.native ((P.cls k.cls).impl off))) with heap := heap1 } : World V E).setVt m off y =
            { ((wx.setVt m off (.native ((P.cls k.cls).impl off))).setVt m off y) with heap := heap1 } := rfl
          rw [this, hr, ← hwx]
          rfl

end FakeIt
