import Verif.Lemmas.RefineRun
/-!
# Where the library's behaviour is defined, so is the abstract mock's
-/
namespace FakeIt
variable {V E : Type} {P : Prog V E} {nm : MockId → Nat → Nat}
open Spec

theorem plain_some {B : Body V E} (h : B.Simple) : ∀ (as : List (Arg V)) (heap : Addr → V), ∃ r, plain B as heap = some r := by
  induction B with
  | done o => intro as heap; exact ⟨_, rfl⟩
  | setArg i v k ih =>
    intro as heap
    simp only [plain]
    split
    · exact ih h _ _
    · exact ih h _ _
    · exact ih h _ _
  | call m off as k ih => exact h.1.elim
  | api a k ih => exact h.1.elim

/-- The callables of the program use no mocks. -/
abbrev Prog.Plain (P : Prog V E) : Prop := ∀ f vs, (P.fn f vs).Simple

theorem runFn_some (hP : P.Plain) (s : AState V E) (args : List (Arg V)) (f : Fn V E) : ∃ r, runFn P s args f = some r := by
  cases f with
  | ret v => exact ⟨_, rfl⟩
  | thr e => exact ⟨_, rfl⟩
  | user f =>
    obtain ⟨r, hr⟩ := plain_some (hP f (valuesOf s.heap args)) args s.heap
    exact ⟨_, by simp only [runFn, hr, Option.map_some]; rfl⟩

/-- The only thing that can go wrong in a script. -/
theorem perform_none (hP : P.Plain) {c : ClassDecl V} {sp : Bool} {off : Nat} {args : List (Arg V)} {s : AState V E} {acts : List (Act V E)} (hw : WritableActs acts)
    (h : perform P c sp off args s acts = none) : headAct acts = .dflt ∧ c.dflt off = .nullRef := by
  cases acts with
  | nil => cases h
  | cons a l =>
    cases a with
    | rep n f => obtain ⟨r, hr⟩ := runFn_some hP s args f; simp only [perform, hr] at h; cases h
    | forever f => obtain ⟨r, hr⟩ := runFn_some hP s args f; simp only [perform, hr] at h; cases h
    | dflt =>
      refine ⟨rfl, ?_⟩
      simp only [perform] at h
      split at h
      · cases h
      · cases h
      · assumption
    | deleg mv =>
      simp only [perform] at h
      split at h
      · cases h
      · split at h
        · obtain ⟨r, hr⟩ := plain_some (hP (c.impl off) (valuesOf s.heap args)) args s.heap
          rw [hr] at h; cases h
        · cases h
    | noMore => exact (hw Act.noMore (by simp)).elim

theorem serve_total (hP : P.Plain) {s : AState V E} {w : World V E} (hw : Wf P nm w) (hR : Rel P s w) {m : MockId} {off : Nat} {k : Mock V E} {a : AMock V E} {b : MBody V E}
    (hb : w.body? m off = some b) (hk : w.mocks[m]? = some k) (ha : s.mocks[m]? = some a) {stubs : List (Stub V E)} (hst : a.stubs off = some stubs)
    {args : List (Arg V)} {call : CallFn V E} {r : Outcome V E × World V E} (hd : handleCall P call w m off b args = .done r) :
    ∃ x, Spec.serve P s m a off stubs args = some x := by
  have MR := hR.mocks.mock m k a hk ha
  have hkb : k.body? off = some b := by simpa [World.body?, hk] using hb
  have hB := MR.body off
  rw [hkb, hst] at hB
  have hB' : All2 StubRel b.handlers.reverse stubs := hB
  have hfind : All2.Opt StubRel (findHandler w.heap b.handlers (fresh w b args)) (stubs.find? fun st => accepts st.kind (valuesOf s.heap args)) := by
    unfold findHandler
    rw [scan_find _ _ rfl]
    refine All2.find? ?_ hB'
    intro x y hxy
    rw [hxy.kind, ← hR.heap]; rfl
  rw [handleCall_eq] at hd
  unfold Spec.serve
  dsimp only
  cases hf' : stubs.find? fun st => accepts st.kind (valuesOf s.heap args) with
  | none => exact ⟨_, rfl⟩
  | some st =>
    rw [hf'] at hfind
    cases hf : findHandler w.heap b.handlers (fresh w b args) with
    | none => rw [hf] at hfind; exact hfind.elim
    | some h =>
      rw [hf] at hfind
      have hsr : StubRel h st := hfind
      dsimp only
      cases hp : perform P (P.cls a.cls) a.spied off args { s with made := s.made + 1 } st.script with
      | some x =>
        obtain ⟨o, as, s2⟩ := x
        simp only [Option.bind_eq_bind, Option.bind_some]
        cases o <;> exact ⟨_, rfl⟩
      | none =>
        exfalso
        obtain ⟨h1, h2⟩ := perform_none hP hsr.writable hp
        have hmem : h ∈ b.handlers := ((findHandler_some _ _ rfl _ _).1 hf).mem
        obtain ⟨i, rst, -, -, hfront⟩ := rep_front hsr.rep
        rw [hf] at hd
        dsimp only at hd
        simp only [runHandler, hfront, R.bind_done, srv_push hb hmem (hw.inv2.nodup hb), h1] at hd
        have hmk : (srv w m off h.addr (h.seq.tick i) (recorded w b args h) w.heap (w.invTotal + 1) w.log).mocks[m]? =
            some (k.updBody off (srvB h.addr (h.seq.tick i) (recorded w b args h))) := by
          simp only [srv, World.updBody, World.mocks_updMock, if_true, hk, Option.map_some]
        have hcl : (k.updBody off (srvB h.addr (h.seq.tick i) (recorded w b args h))).cls = a.cls := MR.cls
        simp only [invokeAct, hmk, hcl, h2, R.bind_ub] at hd
        cases hd

/-- The entry a call runs. -/
theorem arrives_call {s : AState V E} {w : World V E} (hw : Wf P nm w) (hR : Rel P s w) {m : MockId} {off : Nat} {args : List (Arg V)} {a : AMock V E}
    (ha : s.mocks[m]? = some a) (hal : a.alive = true ∨ a.spied = true) (hoff : off < (P.cls a.cls).size) (fuel : Nat) :
    ∃ f, callSlot P (fuel + 3) w m off args = callSlot P (f + 2) w m (arrives (P.cls a.cls) a off args).1 (arrives (P.cls a.cls) a off args).2 := by
  obtain ⟨k, hk, MR⟩ := hR.mocks.get ha
  have t := hw.steady.1.1 m k hk
  unfold arrives
  cases hd : (P.cls a.cls).dtor with
  | none => exact ⟨fuel + 1, rfl⟩
  | some d =>
    dsimp only
    by_cases hdc : off = d + 1 ∧ (a.spied = false ∨ (a.stubs d).isSome = true)
    · rw [if_pos hdc]
      obtain ⟨rfl, hor⟩ := hdc
      have hthunk : k.vt[d + 1]? = some .dtorThunk := by
        rw [(MR.del d hd).2]
        cases hso : (a.stubs d).isSome with
        | true => rfl
        | false =>
          simp only [Bool.false_eq_true, if_false]
          have hsp : a.spied = false := by
            rcases hor with h | h
            · exact h
            · rw [hso] at h; cases h
          have hown : k.owner = true := by rw [MR.owner, hsp]; rfl
          rw [t.orig_eq, if_pos hown, MR.cls]
          exact fakeVt_del hd hoff
      have hcall : (!k.alive && k.owner) = false := by
        rcases hal with h | h
        · rw [MR.alive, h]; rfl
        · rw [MR.owner, h]; simp
      refine ⟨fuel, ?_⟩
      rw [callSlot]
      simp only [hk, hcall, hthunk, runCode, MR.cls, hd, Bool.false_eq_true, if_false]
    · rw [if_neg hdc]
      exact ⟨fuel + 1, rfl⟩

theorem call_total (hP : P.Plain) {s : AState V E} {w : World V E} (hw : Wf P nm w) (hR : Rel P s w) {m : MockId} {off : Nat} {args : List (Arg V)}
    {r : Outcome V E × World V E} {fuel : Nat} (hd : callSlot P (fuel + 3) w m off args = .done r) : ∃ x, aCall P s m off args = some x := by
  unfold aCall
  cases ha : s.mocks[m]? with
  | none =>
    rw [callSlot] at hd
    simp only [hR.mocks.none ha] at hd
    cases hd
  | some a =>
    obtain ⟨k, hk, MR⟩ := hR.mocks.get ha
    have t := hw.steady.1.1 m k hk
    dsimp only
    by_cases hc : (a.alive = true ∨ a.spied = true) ∧ off < (P.cls a.cls).size
    · simp only [hc.1, hc.2, and_self, if_true]
      obtain ⟨f, he⟩ := arrives_call hw hR ha hc.1 hc.2 (args := args) fuel
      rw [he] at hd
      generalize (arrives (P.cls a.cls) a off args).1 = off' at hd
      generalize (arrives (P.cls a.cls) a off args).2 = args' at hd
      cases hst : a.stubs off' with
      | some stubs =>
        obtain ⟨-, -, -, b, hb, hlive⟩ := stubs_live hw hR hk ha hst
        rw [callSlot_live hlive] at hd
        exact serve_total hP hw hR hb hk ha hst hd
      | none =>
        dsimp only
        split
        · obtain ⟨x, hx⟩ := plain_some (hP ((P.cls a.cls).impl off') (valuesOf s.heap args')) args' s.heap
          exact ⟨_, by rw [hx]; rfl⟩
        · split <;> exact ⟨_, rfl⟩
    · exfalso
      rw [callSlot] at hd
      simp only [hk] at hd
      split at hd
      · cases hd
      · rename_i hx
        rw [MR.alive, MR.owner] at hx
        cases hv : k.vt[off]? with
        | none => rw [hv] at hd; cases hd
        | some x =>
          refine hc ⟨?_, ?_⟩
          · cases hA : a.alive with
            | true => exact .inl rfl
            | false =>
              cases hB : a.spied with
              | true => exact .inr rfl
              | false => rw [hA, hB] at hx; exact (hx rfl).elim
          · rw [← MR.cls, ← t.orig_length, ← t.vtlen]
            exact (List.getElem?_eq_some_iff.1 hv).1

/-! ## Method expressions and stubbings -/

theorem mention_total {s : AState V E} {w : World V E} (hw : Wf P nm w) (hR : Rel P s w) {m : MockId} {slot : SlotRef} (hok : slotOk P s (m, slot))
    {r : Option (World V E)} (hd : touch P w m slot = .done r) : ∃ x, mention P s m slot = some x := by
  unfold mention
  unfold touch at hd
  cases hk? : w.mock? m with
  | none => rw [hk?] at hd; cases hd
  | some k =>
    rw [hk?] at hd
    obtain ⟨hk, hal⟩ := World.mock?_eq_some.1 hk?
    have t := hw.steady.1.1 m k hk
    cases ha : s.mocks[m]? with
    | none => rw [hR.mocks.none ha] at hk; cases hk
    | some a =>
      have MR := hR.mocks.mock m k a hk ha
      have hok' := hok a ha
      dsimp only
      rw [← MR.alive, hal, if_pos rfl]
      have hlen : k.mocks.length = (P.cls a.cls).size := by rw [(t.mlen hal).1, t.orig_length, MR.cls]
      cases slot with
      | meth off ctr =>
        dsimp only at hok' hd ⊢
        cases hg : k.mocks[off]? with
        | none => rw [hg] at hd; cases hd
        | some x =>
          rw [if_pos ⟨by rw [← hlen]; exact (List.getElem?_eq_some_iff.1 hg).1, fun d hd' => hok' d hd'⟩]
          exact ⟨_, rfl⟩
      | dtor =>
        dsimp only at hok' hd ⊢
        cases hdt : (P.cls a.cls).dtor with
        | none => exact ⟨_, rfl⟩
        | some d =>
          rw [MR.cls, hdt] at hd
          dsimp only at hd ⊢
          split at hd
          · rename_i hlt
            rw [t.vtlen, t.orig_length, MR.cls] at hlt
            rw [if_pos ⟨hlt, hok'⟩]
            exact ⟨_, rfl⟩
          · cases hd

theorem install_total {s : AState V E} {w : World V E} (hR : Rel P s w) {t : Target V} {acts : List (Act V E)} (hwr : writable acts = true)
    {w' : World V E} (hd : commit P w t acts = .done w') : ∃ x, Spec.install P s t acts = some x := by
  unfold commit at hd
  unfold Spec.install
  cases hk? : w.mock? t.m with
  | none => rw [hk?] at hd; cases hd
  | some k =>
    rw [hk?] at hd
    obtain ⟨hk, hal⟩ := World.mock?_eq_some.1 hk?
    cases ha : s.mocks[t.m]? with
    | none => rw [hR.mocks.none ha] at hk; cases hk
    | some a =>
      have MR := hR.mocks.mock t.m k a hk ha
      dsimp only at hd ⊢
      rw [methodOf_eq, ← MR.cls]
      cases ho : t.slot.off (P.cls k.cls) with
      | none => rw [ho] at hd; cases hd
      | some off =>
        rw [ho] at hd
        dsimp only at hd ⊢
        cases hb : w.body? t.m off with
        | none => rw [hb] at hd; cases hd
        | some b =>
          have hkb : k.body? off = some b := by simpa [World.body?, hk] using hb
          have hB := MR.body off
          rw [hkb] at hB
          have hs : (a.stubs off).isSome = true := by rw [← hB.isSome]; rfl
          rw [if_pos ⟨by rw [← MR.alive]; exact hal, hwr, hs⟩]
          exact ⟨_, rfl⟩

theorem slotOk_hook {s : AState V E} {m : MockId} {a : AMock V E} {off : Nat} {x : MockId × SlotRef} (h : slotOk P s x) : slotOk P (hook s m a off) x := by
  unfold hook
  split
  · exact h
  · intro k hk
    dsimp only at hk
    rw [List.getElem?_modify] at hk
    cases hx : s.mocks[x.1]? with
    | none => rw [hx] at hk; cases hk
    | some k0 =>
      have := h k0 hx
      rw [hx] at hk
      cases hk
      by_cases hm : m = x.1
      · simp only [hm, if_true]; exact this
      · simp only [hm, if_false]; exact this

theorem slotOk_mention {s s1 : AState V E} {m : MockId} {slot : SlotRef} (hm : mention P s m slot = some (some s1)) {x : MockId × SlotRef} (h : slotOk P s x) :
    slotOk P s1 x := by
  unfold mention at hm
  repeat' (first | (dsimp only at hm; split at hm) | split at hm)
  all_goals first
    | (cases hm; done)
    | (cases hm; exact slotOk_hook h)

theorem mentionAll_total {s : AState V E} {w : World V E} (hw : Wf P nm w) (hR : Rel P s w) (l : List (MockId × SlotRef))
    (hn : ∀ x ∈ l, SlotRef.Named nm x.1 x.2) (hok : ∀ x ∈ l, slotOk P s x) (hlen : s.named.length + l.length < wrap32)
    {r : World V E × Bool} (hd : touchAll P w l = .done r) : ∃ x, mentionAll P s l = some x := by
  induction l generalizing s w with
  | nil => exact ⟨_, rfl⟩
  | cons x l ih =>
    obtain ⟨m, slot⟩ := x
    simp only [touchAll, R.bind_eq_done] at hd
    obtain ⟨r1, h1, h2⟩ := hd
    obtain ⟨y, hy⟩ := mention_total hw hR (hok _ (by simp)) h1
    simp only [mentionAll, hy, Option.bind_eq_bind, Option.bind_some]
    cases y with
    | none => exact ⟨_, rfl⟩
    | some s1 =>
      have hg := (mention_grows hy).named'
      rw [List.length_cons] at hlen
      have hall : mentionAll P s [(m, slot)] = some (s1, true) := by simp [mentionAll, hy]
      obtain ⟨w1, e1, hR1, hw1⟩ := touchAll_refines hw hR [(m, slot)] (by intro x hx; exact hn x (by simp at hx; simp [hx])) hall (by omega)
      simp only [touchAll, R.bind_eq_done] at e1
      obtain ⟨r2, e1, e2⟩ := e1
      rw [h1] at e1; cases e1
      cases r1 with
      | none => simp at e2
      | some w2 =>
        simp at e2; subst e2
        exact ih hw1 hR1 (fun x hx => hn x (by simp [hx])) (fun x hx => slotOk_mention hy (hok x (by simp [hx]))) (by omega) h2

theorem installAll_total {s : AState V E} {w : World V E} (hR : Rel P s w) {ts : List (Target V)} {acts : List (Act V E)} (hwr : writable acts = true)
    {w' : World V E} (hd : commitAll P acts w ts = .done w') : ∃ x, installAll P acts s ts = some x := by
  induction ts generalizing s w with
  | nil => exact ⟨_, rfl⟩
  | cons t ts ih =>
    simp only [commitAll, R.bind_eq_done] at hd
    obtain ⟨w1, h1, h2⟩ := hd
    obtain ⟨s1, hs1⟩ := install_total hR hwr h1
    obtain ⟨w2, e1, hR1⟩ := commit_refines hR hs1
    rw [h1] at e1; cases e1
    simp only [installAll, hs1, Option.bind_eq_bind, Option.bind_some]
    exact ih hR1 h2

theorem stubOne_total {s : AState V E} {w : World V E} (hw : Wf P nm w) (hR : Rel P s w) {t : Target V} {acts : List (Act V E)} {u : Bool}
    (hok : slotOk P s (t.m, t.slot)) (hwr : u = false → writable acts = true) (hlen : s.named.length + 1 < wrap32)
    {r : World V E × ApiOut} (hd : stubOne P w t acts u = .done r) : ∃ x, aStubOne P s t acts u = some x := by
  simp only [stubOne, R.bind_eq_done] at hd
  obtain ⟨r1, h1, h2⟩ := hd
  obtain ⟨y, hy⟩ := mention_total hw hR hok h1
  simp only [aStubOne, hy, Option.bind_eq_bind, Option.bind_some]
  cases y with
  | none => exact ⟨_, rfl⟩
  | some s1 =>
    have hg := (mention_grows hy).named'
    obtain ⟨w1, e1, hR1⟩ := touch_refines hw hR hy (by intro s' h; cases h; omega)
    rw [h1] at e1; cases e1
    dsimp only at h2 ⊢
    cases u with
    | true => exact ⟨_, rfl⟩
    | false =>
      simp only [Bool.false_eq_true, if_false, R.bind_eq_done] at h2 ⊢
      obtain ⟨w2, h2, -⟩ := h2
      obtain ⟨s2, hs2⟩ := install_total hR1 (hwr rfl) h2
      exact ⟨_, by rw [hs2]; rfl⟩

theorem stubMany_total {s : AState V E} {w : World V E} (hw : Wf P nm w) (hR : Rel P s w) {ts : List (Target V)} {act : Act V E}
    (hn : ∀ t ∈ ts, SlotRef.Named nm t.m t.slot) (hok : ∀ t ∈ ts, slotOk P s (t.m, t.slot)) (hwr : writable [act] = true) (hlen : s.named.length + ts.length < wrap32)
    {r : World V E × ApiOut} (hd : stubMany P w ts act = .done r) : ∃ x, aStubMany P s ts act = some x := by
  simp only [stubMany, R.bind_eq_done] at hd
  obtain ⟨⟨w1, ok⟩, h1, h2⟩ := hd
  have hn' : ∀ x ∈ ts.map (fun t => (t.m, t.slot)), SlotRef.Named nm x.1 x.2 := by
    intro x hx
    obtain ⟨t, ht, rfl⟩ := List.mem_map.1 hx
    exact hn t ht
  obtain ⟨⟨s1, ok'⟩, hy⟩ := mentionAll_total hw hR (ts.map fun t => (t.m, t.slot)) hn'
    (by
      intro x hx
      obtain ⟨t, ht, rfl⟩ := List.mem_map.1 hx
      exact hok t ht) (by simpa using hlen) h1
  have hg := (mentionAll_grows _ hy).named'
  rw [List.length_map] at hg
  obtain ⟨w2, e1, hR1, -⟩ := touchAll_refines hw hR _ hn' hy (by omega)
  rw [h1] at e1; cases e1
  simp only [aStubMany, hy, Option.bind_eq_bind, Option.bind_some]
  cases ok with
  | false => exact ⟨_, rfl⟩
  | true =>
    simp only [R.bind_eq_done] at h2
    obtain ⟨w3, h3, -⟩ := h2
    obtain ⟨s2, hs2⟩ := installAll_total hR1 hwr h3
    exact ⟨_, by dsimp only; rw [hs2]; rfl⟩

/-! ## Verification -/

theorem live_of {s : AState V E} {w : World V E} (hR : Rel P s w) {ms : List MockId} (h : ∀ m ∈ ms, ∃ k, w.mock? m = some k) : live s ms = true := by
  refine List.all_eq_true.2 fun m hm => ?_
  obtain ⟨k, hk⟩ := h m hm
  obtain ⟨hk, hal⟩ := World.mock?_eq_some.1 hk
  cases ha : s.mocks[m]? with
  | none => rw [hR.mocks.none ha] at hk; cases hk
  | some a => dsimp only; rw [← (hR.mocks.mock m k a hk ha).alive]; exact hal

theorem live_of_scope {s : AState V E} {w : World V E} (hR : Rel P s w) {pat : List (Seq (Leaf V))} (hp : WritablePattern pat) {scope : Scope V}
    (h : allAlive w (scope.source pat).mocks = true) : live s (looksAt pat scope) = true := by
  have hA := aliveS_of h
  refine live_of hR fun m hm => hA m ?_
  have hinv : ∀ m, m ∈ mocksIn pat → m ∈ (aggregate ((pat.flatMap (Seq.involved Leaf.m)).map (Source.mock (V := V)))).mocks := by
    intro m hm
    obtain ⟨l, hl, rfl⟩ := List.mem_map.1 hm
    obtain ⟨e, he, hle⟩ := List.mem_flatten.1 hl
    obtain ⟨sq, hsq, rfl⟩ := List.mem_map.1 he
    refine mocks_aggregate.2 ⟨.mock l.m, List.mem_map.2 ⟨l.m, List.mem_flatMap.2 ⟨sq, hsq, (mem_involved (hp.2 sq hsq)).2 ⟨l, hle, rfl⟩⟩, rfl⟩, ?_⟩
    simp [Source.mocks]
  cases scope with
  | involved => exact hinv m hm
  | using_ src => simp only [looksAt] at hm; rw [mocksOf_eq] at hm; exact hm
  | unverified => exact hinv m hm

theorem verify_total {s : AState V E} {w : World V E} (hw : Wf P nm w) (hR : Rel P s w) {scope : Scope V} {pat : List (Seq (Leaf V))} {q : Quant} {mode : VMode}
    (hp : WritablePattern pat) (hn : ∀ l ∈ verifyLeaves scope pat, SlotRef.Named nm l.m l.slot) (hok : ∀ l ∈ verifyLeaves scope pat, slotOk P s (l.m, l.slot))
    (hlen : s.named.length + (verifyLeaves scope pat).length < wrap32) {r : World V E × ApiOut} (hd : verifyStmt P w scope pat q mode = .done r) :
    ∃ x, aVerify P s scope pat q mode = some x := by
  simp only [verifyStmt, R.bind_eq_done] at hd
  obtain ⟨⟨w1, ok⟩, h1, h2⟩ := hd
  have hn' : ∀ x ∈ (verifyLeaves scope pat).map (fun l => (l.m, l.slot)), SlotRef.Named nm x.1 x.2 := by
    intro x hx
    obtain ⟨l, hl, rfl⟩ := List.mem_map.1 hx
    exact hn l hl
  obtain ⟨⟨s1, ok'⟩, hy⟩ := mentionAll_total hw hR ((verifyLeaves scope pat).map fun l => (l.m, l.slot)) hn'
    (by
      intro x hx
      obtain ⟨l, hl, rfl⟩ := List.mem_map.1 hx
      exact hok l hl) (by simpa using hlen) h1
  have hg := (mentionAll_grows _ hy).named'
  rw [List.length_map] at hg
  obtain ⟨w2, e1, hR1, -⟩ := touchAll_refines hw hR _ hn' hy (by omega)
  rw [h1] at e1; cases e1
  simp only [aVerify, mentionedBy_eq, hy, Option.bind_eq_bind, Option.bind_some]
  cases ok with
  | false => exact ⟨_, rfl⟩
  | true =>
    dsimp only at h2 ⊢
    cases hal : allAlive w1 (scope.source pat).mocks with
    | false => rw [hal] at h2; cases h2
    | true =>
      rw [if_pos (live_of_scope hR1 hp hal)]
      split
      · exact ⟨_, rfl⟩
      · split
        · exact ⟨_, rfl⟩
        · split
          · exact ⟨_, rfl⟩
          · split <;> exact ⟨_, rfl⟩

theorem noOther_total {s : AState V E} {w : World V E} (hw : Wf P nm w) (hR : Rel P s w) {srcs : List (Source V)} {mode : VMode}
    (hn : ∀ l ∈ (aggregate srcs).leaves, SlotRef.Named nm l.m l.slot) (hok : ∀ l ∈ (aggregate srcs).leaves, slotOk P s (l.m, l.slot))
    (hlen : s.named.length + (aggregate srcs).leaves.length < wrap32) {r : World V E × ApiOut} (hd : noOtherStmt P w srcs mode = .done r) :
    ∃ x, aNoOther P s srcs mode = some x := by
  simp only [noOtherStmt, R.bind_eq_done] at hd
  obtain ⟨⟨w1, ok⟩, h1, h2⟩ := hd
  have hn' : ∀ x ∈ ((aggregate srcs).leaves).map (fun l => (l.m, l.slot)), SlotRef.Named nm x.1 x.2 := by
    intro x hx
    obtain ⟨l, hl, rfl⟩ := List.mem_map.1 hx
    exact hn l hl
  obtain ⟨⟨s1, ok'⟩, hy⟩ := mentionAll_total hw hR (((aggregate srcs).leaves).map fun l => (l.m, l.slot)) hn'
    (by
      intro x hx
      obtain ⟨l, hl, rfl⟩ := List.mem_map.1 hx
      exact hok l hl) (by simpa using hlen) h1
  have hg := (mentionAll_grows _ hy).named'
  rw [List.length_map] at hg
  obtain ⟨w2, e1, hR1, -⟩ := touchAll_refines hw hR _ hn' hy (by omega)
  rw [h1] at e1; cases e1
  unfold aNoOther
  rw [allOf_eq, leavesOf_eq, hy]
  simp only [Option.bind_eq_bind, Option.bind_some]
  cases ok with
  | false => exact ⟨_, rfl⟩
  | true =>
    dsimp only at h2 ⊢
    cases hal : allAlive w1 (aggregate srcs).mocks with
    | false => rw [hal] at h2; cases h2
    | true =>
      have hlv : live s1 (mocksOf (aggregate srcs)) = true := live_of hR1 fun m hm => aliveS_of hal m (by rw [← mocksOf_eq]; exact hm)
      split
      · split
        · exact ⟨_, rfl⟩
        · split
          · exact ⟨_, rfl⟩
          · split <;> exact ⟨_, rfl⟩
      · rename_i hc
        exact absurd hlv hc

/-! ## Steps and programs -/

theorem onMock_total {s s0 : AState V E} {w : World V E} (hR : Rel P s w) (h0 : s0.mocks = s.mocks) {m : MockId} {k : Mock V E} (hk : w.mock? m = some k)
    {f : AMock V E → Option (AMock V E)} (hf : ∀ a, MRel P a k → ∃ a', f a = some a') : ∃ x, onMock s0 m f = some x := by
  obtain ⟨hk, hal⟩ := World.mock?_eq_some.1 hk
  unfold onMock
  rw [h0]
  cases ha : s.mocks[m]? with
  | none => rw [hR.mocks.none ha] at hk; cases hk
  | some a =>
    have MR := hR.mocks.mock m k a hk ha
    obtain ⟨a', hf⟩ := hf a MR
    dsimp only
    rw [← MR.alive, hal, if_pos rfl, hf]
    exact ⟨_, rfl⟩

theorem setCell_some {k : Mock V E} {a : AMock V E} (MR : MRel P a k) {cell : Nat} (v : Int) (h : cell < k.data.length) : ∃ a', setCell a cell v = some a' := by
  unfold setCell
  rw [← MR.data, if_pos h]
  exact ⟨_, rfl⟩

theorem api_total {s : AState V E} {w : World V E} (hw : Wf P nm w) (hR : Rel P s w) {a : Api V E} (hn : a.Named nm) (hok : ∀ x ∈ a.slots, slotOk P s x)
    (hsc : scriptOk a) (hwr : a.Writes) (hlen : s.named.length + a.slots.length < wrap32) {r : World V E × ApiOut} (hd : apiStep P w a = .done r) :
    ∃ x, aApi P s a = some x := by
  have hmock : ∀ {m : MockId} {β : Type} {f : Mock V E → R β} {y : β}, (match w.mock? m with | none => R.ub | some k => f k) = .done y →
      ∃ k, w.mock? m = some k ∧ f k = .done y := by
    intro m β f y h
    cases hk : w.mock? m with
    | none => rw [hk] at h; cases h
    | some k => rw [hk] at h; exact ⟨k, rfl, h⟩
  cases a with
  | newMock cls => exact ⟨_, rfl⟩
  | newSpy cls => exact ⟨_, rfl⟩
  | destroy m =>
    obtain ⟨k, hk, -⟩ := hmock hd
    obtain ⟨x, hx⟩ := onMock_total (s0 := forget s m) hR rfl hk (f := fun k => some { k with alive := false, stubs := fun _ => none }) fun a _ => ⟨_, rfl⟩
    exact ⟨_, by simp only [aApi, hx]; rfl⟩
  | touch m slot =>
    simp only [apiStep, R.bind_eq_done] at hd
    obtain ⟨r1, h1, -⟩ := hd
    obtain ⟨y, hy⟩ := mention_total hw hR (hok (m, slot) (by simp [Api.slots])) h1
    exact ⟨_, by simp only [aApi, hy]; rfl⟩
  | when_ t acts u =>
    refine stubOne_total hw hR (hok (t.m, t.slot) (by simp [Api.slots])) (fun hu => ?_) (by simpa [Api.slots] using hlen) hd
    subst hu; exact hsc
  | fake ts =>
    exact stubMany_total hw hR (fun t ht => hn _ (List.mem_map.2 ⟨t, ht, rfl⟩)) (fun t ht => hok _ (List.mem_map.2 ⟨t, ht, rfl⟩)) rfl
      (by simpa [Api.slots] using hlen) hd
  | spy mv ts =>
    exact stubMany_total hw hR (fun t ht => hn _ (List.mem_map.2 ⟨t, ht, rfl⟩)) (fun t ht => hok _ (List.mem_map.2 ⟨t, ht, rfl⟩)) rfl
      (by simpa [Api.slots] using hlen) hd
  | assign t f => exact stubOne_total hw hR (hok (t.m, t.slot) (by simp [Api.slots])) (fun _ => rfl) (by simpa [Api.slots] using hlen) hd
  | stubData m cell v =>
    obtain ⟨k, hk, hd⟩ := hmock hd
    split at hd
    · rename_i hc
      obtain ⟨x, hx⟩ := onMock_total (s0 := s) hR rfl hk (f := fun k => setCell k cell v) fun a MR => setCell_some MR v hc
      exact ⟨_, by simp only [aApi, hx]; rfl⟩
    · cases hd
  | writeData m cell v =>
    obtain ⟨k, hk, hd⟩ := hmock hd
    split at hd
    · rename_i hc
      obtain ⟨x, hx⟩ := onMock_total (s0 := s) hR rfl hk (f := fun k => setCell k cell v) fun a MR => setCell_some MR v hc
      exact ⟨_, by simp only [aApi, hx]; rfl⟩
    · cases hd
  | reset m =>
    obtain ⟨k, hk, -⟩ := hmock hd
    obtain ⟨x, hx⟩ := onMock_total (s0 := forget s m) hR rfl hk (f := fun k => some { k with stubs := fun _ => none, wasReset := true, data := zeroed k }) fun a _ => ⟨_, rfl⟩
    exact ⟨_, by simp only [aApi, hx]; rfl⟩
  | clear m =>
    obtain ⟨k, hk, -⟩ := hmock hd
    obtain ⟨x, hx⟩ := onMock_total (s0 := forget s m) hR rfl hk (f := fun k => some { k with data := zeroed k }) fun a _ => ⟨_, rfl⟩
    exact ⟨_, by simp only [aApi, hx]; rfl⟩
  | write a v => exact ⟨_, rfl⟩
  | verify scope pat q mode =>
    exact verify_total hw hR hwr (fun l hl => hn _ (List.mem_map.2 ⟨l, hl, rfl⟩)) (fun l hl => hok _ (List.mem_map.2 ⟨l, hl, rfl⟩))
      (by simpa [Api.slots] using hlen) hd
  | verifyNoOther srcs mode =>
    exact noOther_total hw hR (fun l hl => hn _ (List.mem_map.2 ⟨l, hl, rfl⟩)) (fun l hl => hok _ (List.mem_map.2 ⟨l, hl, rfl⟩))
      (by simpa [Api.slots] using hlen) hd

theorem step_total (hP : P.Plain) {s : AState V E} {w : World V E} (hw : Wf P nm w) (hR : Rel P s w) {op : Op V E}
    (hn : op.Within (Api.Named nm) fun _ _ => True)
    (hok : op.Within (fun a => (∀ x ∈ a.slots, slotOk P s x) ∧ scriptOk a ∧ a.Writes) fun _ _ => True) (hlen : s.named.length + op.mentions < wrap32)
    {fuel : Nat} {r : OpOut V E × World V E} (hd : opStep P (fuel + 3) w op = .done r) : ∃ x, aStep P s op = some x := by
  cases op with
  | call m off args =>
    simp only [opStep, R.bind_eq_done] at hd
    obtain ⟨r1, h1, -⟩ := hd
    obtain ⟨x, hx⟩ := call_total hP hw hR h1
    exact ⟨_, by simp only [aStep, hx]; rfl⟩
  | api a =>
    simp only [opStep, R.bind_eq_done] at hd
    obtain ⟨r1, h1, -⟩ := hd
    obtain ⟨x, hx⟩ := api_total hw hR hn hok.1 hok.2.1 hok.2.2 hlen h1
    exact ⟨_, by simp only [aStep, hx]; rfl⟩

theorem plain_named (hP : P.Plain) : P.Named nm := by
  have : ∀ B : Body V E, B.Simple → B.Within (Api.Named nm) fun _ _ => True := by
    intro B
    induction B with
    | done o => intro _; trivial
    | setArg i v k ih => exact ih
    | call m off as k ih => intro h; exact h.1.elim
    | api a k ih => intro h; exact h.1.elim
  exact fun f vs => this _ (hP f vs)

theorem run_total (hP : P.Plain) {s : AState V E} {w w' : World V E} (hw : Reach P nm w) (hR : Rel P s w) {ops : List (Op V E)} {os : List (OpOut V E)}
    (hn : ∀ op ∈ ops, op.Within (Api.Named nm) fun _ _ => True) (hok : Orderly P s ops) (hm : s.made + 2 * ops.length < wrap32)
    (hl : s.named.length + (ops.map Op.mentions).sum < wrap32) {fuel : Nat} (hd : runOps P (fuel + 3) w ops = .done (os, w')) :
    ∃ s', aRun P s ops = some (os, s') ∧ Rel P s' w' := by
  induction ops generalizing s w os with
  | nil => cases hd; exact ⟨s, rfl, hR⟩
  | cons op ops ih =>
    simp only [runOps, R.bind_eq_done] at hd
    obtain ⟨⟨o, w1⟩, h1, ⟨os1, w2⟩, h2, h3⟩ := hd
    cases h3
    simp only [List.map_cons, List.sum_cons, List.length_cons] at hm hl
    obtain ⟨hok1, hok2⟩ := hok
    have hwf := hw.wf (plain_named hP)
    obtain ⟨⟨o', s1⟩, hs1⟩ := step_total hP hwf hR (hn op (by simp)) hok1 (by omega) h1
    have g := aStep_grows hs1
    have g1 := g.made'
    have g2 := g.named'
    have hwr : op.Within Api.Writes fun _ _ => True := by
      cases op with
      | call m off args => trivial
      | api a => exact hok1.2.2
    obtain ⟨w3, e1, hR1⟩ := step_refines hwf hR (hn op (by simp)) hwr hs1 (by omega) (by omega) fuel
    rw [h1] at e1; cases e1
    obtain ⟨s2, hs2, hR2⟩ := ih (hw.step (hn op (by simp)) h1) hR1 (fun op h => hn op (by simp [h])) (hok2 _ _ hs1) (by omega) (by omega) h2
    exact ⟨s2, by simp only [aRun, hs1, hs2, Option.bind_eq_bind, Option.bind_some], hR2⟩

end FakeIt
