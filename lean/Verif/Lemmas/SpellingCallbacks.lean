import Verif.Spec.SpellingCallbacks
import Verif.Lemmas.Spelling
/-!
# How a script is written, in tests whose callbacks use mocks: lemmas
-/
namespace FakeIt.Spec.Spelling

variable {V E : Type} {P Q : Prog V E}

/-! ## Operations depend on a program only through its classes -/

theorem mention_cls (h : P.cls = Q.cls) (s : AState V E) (m : MockId) (slot : SlotRef) : mention P s m slot = mention Q s m slot := by simp only [mention, h]

theorem mentionAll_cls (h : P.cls = Q.cls) : ∀ (l : List (MockId × SlotRef)) (s : AState V E), mentionAll P s l = mentionAll Q s l
  | [], _ => rfl
  | (m, slot) :: l, s => by
    simp only [mentionAll, mention_cls h, Option.bind_eq_bind]
    congr 1
    funext r
    cases r with
    | none => rfl
    | some s' => exact mentionAll_cls h l s'

theorem install_cls (h : P.cls = Q.cls) (s : AState V E) (t : Target V) (acts : List (Act V E)) : install P s t acts = install Q s t acts := by simp only [install, h]

theorem installAll_cls (h : P.cls = Q.cls) (acts : List (Act V E)) : ∀ (ts : List (Target V)) (s : AState V E), installAll P acts s ts = installAll Q acts s ts
  | [], _ => rfl
  | t :: ts, s => by
    simp only [installAll, install_cls h, Option.bind_eq_bind]
    congr 1
    funext s'
    exact installAll_cls h acts ts s'

theorem denotes_cls (h : P.cls = Q.cls) (s : AState V E) : denotes P s = denotes Q s := by
  funext l r
  simp only [denotes, h]

theorem inSource_cls (h : P.cls = Q.cls) (s : AState V E) (r : Rec V) : ∀ src : Source V, inSource P s src r = inSource Q s src r
  | .empty => rfl
  | .mock _ => rfl
  | .ctx l => by simp only [inSource, denotes_cls h]
  | .unverified src => by simp only [inSource, inSource_cls h s r src]
  | .union a b => by simp only [inSource, inSource_cls h s r a, inSource_cls h s r b]

theorem inScope_cls (h : P.cls = Q.cls) (s : AState V E) (pat : List (Seq (Leaf V))) (sc : Scope V) : inScope P s pat sc = inScope Q s pat sc := by
  funext r
  cases sc with
  | involved => rfl
  | using_ src => exact inSource_cls h s r src
  | unverified => rfl

theorem stubOne_cls (h : P.cls = Q.cls) (s : AState V E) (t : Target V) (acts : List (Act V E)) (u : Bool) : aStubOne P s t acts u = aStubOne Q s t acts u := by
  simp only [aStubOne, mention_cls h, install_cls h]

theorem stubMany_cls (h : P.cls = Q.cls) (s : AState V E) (ts : List (Target V)) (a : Act V E) : aStubMany P s ts a = aStubMany Q s ts a := by
  simp only [aStubMany, mentionAll_cls h, installAll_cls h]

theorem api_cls (h : P.cls = Q.cls) (s : AState V E) (a : Api V E) : aApi P s a = aApi Q s a := by
  cases a with
  | newMock cls => simp only [aApi, aNew, h]
  | newSpy cls => simp only [aApi, aNew, h]
  | touch m slot => simp only [aApi, mention_cls h]
  | when_ t acts u => exact stubOne_cls h s t acts u
  | fake ts => exact stubMany_cls h s ts .dflt
  | spy mv ts => exact stubMany_cls h s ts (.deleg mv)
  | assign t f => exact stubOne_cls h s t [.forever f] false
  | verify scope pat q mode => simp only [aApi, aVerify, mentionAll_cls h, inScope_cls h, denotes_cls h]
  | verifyNoOther srcs mode =>
    have : ∀ s, inSource P s (allOf srcs) = inSource Q s (allOf srcs) := fun s => funext fun r => inSource_cls h s r _
    simp only [aApi, aNoOther, mentionAll_cls h, this]
  | _ => rfl

/-- An operation with its scripts written out. -/
theorem api_spelled (s : AState V E) (a : Api V E) (hw : WrittenApi a) : aApi (spelledProg P) (stateS s) (spelledApi a) = (aApi P s a).map fun r => (stateS r.1, r.2) := by
  rw [api_cls (P := spelledProg P) (Q := P) rfl]
  have h := step_spelled (P := P) s (.api a) hw
  simp only [spelledOp, aStep, Option.map_map] at h
  revert h
  generalize aApi P (stateS s) (spelledApi a) = x
  generalize aApi P s a = y
  intro h
  cases x <;> cases y
  · rfl
  · simp at h
  · simp at h
  · rename_i r r'
    simp only [Option.map_some, Function.comp, Option.some.injEq, Prod.mk.injEq, OpOut.api.injEq] at h
    obtain ⟨x, y⟩ := r
    simp only at h
    simp [h.1, h.2]

/-! ## Code -/

/-- The second context forbids at least what the first does. -/
structure Looser (c c' : Ctx) : Prop where
  busy : c.busy = c'.busy
  bypass : c.bypass = c'.bypass
  active : ∀ m, m ∈ c.active → m ∈ c'.active

theorem Looser.ends {c c' : Ctx} (h : Looser c c') {a : Api V E} (ha : ¬ ends c'.active (spelledApi a) = true) : ¬ ends c.active a = true := by
  cases a <;> simp only [spelledApi, Spec.ends, List.contains_iff_mem] at ha ⊢ <;> first | exact fun hm => ha (h.active _ hm) | exact ha

/-- Calls made with scripts written out that succeed also succeed as written. -/
def Calls (call call' : AState V E → MockId → Nat → List (Arg V) → Option (Outcome V E × AState V E)) : Prop :=
  ∀ s m off as o t, call' (stateS s) m off as = some (o, t) → ∃ s', call s m off as = some (o, s') ∧ t = stateS s'

theorem onArgs_spelled (s : AState V E) (m : MockId) (off n : Nat) (f : List (Arg V) → List (Arg V)) : onArgs (stateS s) m off n f = stateS (onArgs s m off n f) := rfl

theorem setArg_spelled (s : AState V E) (fr : Option (MockId × Nat × Nat)) (args : List (Arg V)) (i : Nat) (v : V) : rSetArg (stateS s) fr args i v = stateS (rSetArg s fr args i v) := by
  unfold rSetArg
  cases args[i]? with
  | none => rfl
  | some a =>
    cases a with
    | ref a => rfl
    | val x => cases fr <;> rfl

theorem body_spelled {call call' : AState V E → MockId → Nat → List (Arg V) → Option (Outcome V E × AState V E)} (hc : Calls call call') {c c' : Ctx} (h : Looser c c') (fr : Option (MockId × Nat × Nat)) (args : List (Arg V)) :
    ∀ (b : Body V E) (_ : b.Within WrittenApi fun _ _ => True) (s : AState V E) (o : Outcome V E) (t : AState V E), rBody (spelledProg P) call' c' fr args (spelledBody b) (stateS s) = some (o, t) →
      ∃ s', rBody P call c fr args b s = some (o, s') ∧ t = stateS s'
  | .done o, _, s, o', t, e => by
    simp only [spelledBody, rBody, Option.some.injEq, Prod.mk.injEq] at e
    exact ⟨s, by simp [rBody, e.1], e.2.symm⟩
  | .setArg i v k, hb, s, o, t, e => by
    simp only [spelledBody, rBody, setArg_spelled] at e
    exact body_spelled hc h fr args k hb _ o t e
  | .call m off as k, hb, s, o, t, e => by
    simp only [spelledBody, rBody, Option.bind_eq_bind, Option.bind_eq_some_iff] at e
    obtain ⟨⟨o1, t1⟩, e1, e2⟩ := e
    obtain ⟨s1, h1, rfl⟩ := hc _ _ _ _ _ _ e1
    obtain ⟨s2, h2, h3⟩ := body_spelled hc h fr args (k o1) (hb.2 o1) s1 o t e2
    exact ⟨s2, by simp [rBody, h1, h2], h3⟩
  | .api a k, hb, s, o, t, e => by
    simp only [spelledBody, rBody, api_spelled s a hb.1] at e
    split at e
    · cases e
    · rename_i hn
      simp only [Option.bind_eq_bind, Option.bind_eq_some_iff, Option.map_eq_some_iff] at e
      obtain ⟨r, ⟨⟨s1, out⟩, e1, rfl⟩, e2⟩ := e
      obtain ⟨s2, h2, h3⟩ := body_spelled hc h fr args (k out) (hb.2 out) s1 o t e2
      exact ⟨s2, by simp [rBody, h.ends hn, e1, h2], h3⟩

theorem code_spelled (vs : List V) (f : Fn V E) : codeOf (spelledProg P) vs f = spelledBody (codeOf P vs f) := by cases f <;> rfl

theorem code_written (hP : P.Within WrittenApi fun _ _ => True) (vs : List V) (f : Fn V E) : (codeOf P vs f).Within WrittenApi fun _ _ => True := by
  cases f with
  | ret v => trivial
  | thr e => trivial
  | user f => exact hP f vs

/-! ## Calls -/

/-- The same in every context. -/
def Ways (call call' : RCall V E) : Prop := ∀ c c', Looser c c' → Calls (call c) (call' c')

theorem head_spelled (n : Int) (f : Fn V E) (l : List (Act V E)) : ∃ l', spelled (.rep n f :: l) = .rep 1 f :: l' := by
  obtain ⟨j, hj⟩ : ∃ j, max 1 n.toNat = j + 1 := ⟨max 1 n.toNat - 1, by omega⟩
  exact ⟨List.replicate j (.rep 1 f) ++ spelled l, by simp only [spelled, hj, List.replicate, List.cons_append]⟩

theorem perform_ways (hP : P.Within WrittenApi fun _ _ => True) {call call' : RCall V E} (hc : Ways call call') {c c' : Ctx} (h : Looser c c') (m : MockId) (cd : ClassDecl V) (spied : Bool) (off n : Nat) (args : List (Arg V))
    (s : AState V E) (l : List (Act V E)) {o : Outcome V E} {t : AState V E} (e : rPerform (spelledProg P) call' c' m cd spied off n args (stateS s) (spelled l) = some (o, t)) :
    ∃ s', rPerform P call c m cd spied off n args s l = some (o, s') ∧ t = stateS s' := by
  cases l with
  | nil =>
    simp only [spelled, rPerform, Option.some.injEq, Prod.mk.injEq] at e
    exact ⟨s, by simp [rPerform, e.1], e.2.symm⟩
  | cons a l =>
    cases a with
    | rep k f =>
      obtain ⟨l', hl⟩ := head_spelled k f l
      simp only [hl, rPerform, code_spelled] at e
      exact body_spelled (hc _ _ h) h _ _ _ (code_written hP _ f) s o t e
    | forever f =>
      simp only [spelled, rPerform, code_spelled] at e
      exact body_spelled (hc _ _ h) h _ _ _ (code_written hP _ f) s o t e
    | dflt =>
      simp only [spelled, rPerform] at e ⊢
      cases hd : cd.dflt off <;> rw [hd] at e
      · simp only [Option.some.injEq, Prod.mk.injEq] at e
        exact ⟨s, by simp [e.1], e.2.symm⟩
      · simp only [Option.some.injEq, Prod.mk.injEq] at e
        exact ⟨s, by simp [← e.1, spelledProg], e.2.symm⟩
      · cases e
    | deleg mv =>
      have hs1 : (if mv then onArgs (stateS s) m off n (moved (spelledProg P)) else stateS s) = stateS (if mv then onArgs s m off n (moved P) else s) := by cases mv <;> rfl
      simp only [spelled, rPerform, hs1] at e
      simp only [rPerform]
      generalize (if mv then onArgs s m off n (moved P) else s) = s1 at e ⊢
      by_cases hd : cd.dtor = some off
      · simp only [hd, if_true, Option.some.injEq, Prod.mk.injEq] at e ⊢
        exact ⟨s1, ⟨e.1, rfl⟩, e.2.symm⟩
      · simp only [hd, if_false] at e ⊢
        cases spied with
        | true =>
          simp only [if_true] at e ⊢
          have h1 : Looser { c with bypass := (m, off) :: c.bypass } { c' with bypass := (m, off) :: c'.bypass } := ⟨h.busy, by simp [h.bypass], h.active⟩
          exact body_spelled (hc _ _ h1) h1 _ _ _ (hP _ _) s1 o t e
        | false =>
          simp only [Bool.false_eq_true, if_false, Option.some.injEq, unstubbed, Prod.mk.injEq] at e ⊢
          exact ⟨_, ⟨e.1, rfl⟩, e.2.symm⟩
    | noMore => simp [spelled, rPerform] at e

theorem accept_spelled (s : AState V E) (m : MockId) (off : Nat) (args : List (Arg V)) (name : Nat) : accept (stateS s) m off args name = stateS (accept s m off args name) := by
  simp only [accept, stateS]
  congr 1
  symm
  apply modify_mocks
  intro k _
  simp only [AMock.onStubs, mockS]
  congr 1
  funext o
  by_cases ho : o = off
  · simp only [ho, if_true]
    cases k.stubs off with
    | none => rfl
    | some l =>
      simp only [Option.map_some, List.map_map]
      congr 1
      apply List.map_congr_left
      intro x _
      simp only [Function.comp]
      by_cases hx : x.name = name
      · simp [stubS, hx, spelled_rest]
      · simp [stubS, hx]
  · simp [ho]

theorem present_spelled (s : AState V E) (m : MockId) (off name : Nat) : present (stateS s) m off name = present s m off name := by
  unfold present
  rw [mocks_at]
  cases s.mocks[m]? with
  | none => rfl
  | some k =>
    simp only [Option.map_some, stubs_at]
    cases k.stubs off with
    | none => rfl
    | some l =>
      simp only [Option.map_some, List.any_map]
      rfl

theorem counted_spelled (l : List (Act V E)) : counted (spelled l) = counted l := by
  cases l with
  | nil => rfl
  | cons a l =>
    cases a with
    | rep n f =>
      obtain ⟨l', hl⟩ := head_spelled n f l
      rw [hl]
      rfl
    | _ => rfl

theorem enduring_spelled {l : List (Act V E)} (h : enduring (spelled l) = true) : enduring l = true := by
  cases l with
  | nil => exact h
  | cons a l =>
    cases a with
    | rep n f =>
      obtain ⟨l', hl⟩ := head_spelled n f l
      rw [hl] at h
      simp [enduring] at h
    | forever f => rfl
    | _ => exact h

theorem Looser.enter {c c' : Ctx} (h : Looser c c') (m : MockId) (st : Stub V E) : Looser (c.enter m st) (c'.enter m (stubS st)) := by
  refine ⟨?_, h.bypass, ?_⟩
  · simp only [Ctx.enter, stubS, counted_spelled, h.busy]
  · intro x hx
    simp only [Ctx.enter, stubS] at hx ⊢
    by_cases h1 : enduring (spelled st.script) = true
    · simp only [h1, enduring_spelled h1, if_true] at hx ⊢
      exact h.active x hx
    · simp only [h1]
      split at hx
      · exact List.mem_cons_of_mem _ (h.active x hx)
      · rcases List.mem_cons.1 hx with rfl | hx
        · exact List.mem_cons_self
        · exact List.mem_cons_of_mem _ (h.active x hx)

theorem serve_ways (hP : P.Within WrittenApi fun _ _ => True) {call call' : RCall V E} (hc : Ways call call') {c c' : Ctx} (h : Looser c c') (s : AState V E) (m : MockId) (k : AMock V E) (off : Nat) (stubs : List (Stub V E))
    (args : List (Arg V)) {o : Outcome V E} {t : AState V E} (e : rServe (spelledProg P) call' c' (stateS s) m (mockS k) off (stubs.map stubS) args = some (o, t)) :
    ∃ s', rServe P call c s m k off stubs args = some (o, s') ∧ t = stateS s' := by
  unfold rServe at e ⊢
  rw [find_spelled, show (stateS s).heap = s.heap from rfl] at e
  cases hf : stubs.find? fun st => accepts st.kind (valuesOf s.heap args) with
  | none =>
    rw [hf] at e
    simp only [Option.map_none, Option.some.injEq, Prod.mk.injEq] at e ⊢
    exact ⟨_, ⟨e.1, rfl⟩, e.2.symm⟩
  | some st =>
    rw [hf] at e
    simp only [Option.map_some] at e ⊢
    split at e
    · cases e
    · rename_i hb
      have hb' : ¬ st.name ∈ c.busy := by rw [h.busy]; exact hb
      simp only [hb', if_false]
      rw [Option.bind_eq_bind, Option.bind_eq_some_iff] at e
      obtain ⟨⟨o1, t1⟩, e1, e2⟩ := e
      rw [show (stubS st).name = st.name from rfl, accept_spelled] at e1
      obtain ⟨s2, h2, rfl⟩ := perform_ways hP hc (h.enter m st) m (P.cls k.cls) k.spied off (s.made + 1) args (accept s m off args st.name) st.script e1
      rw [h2]
      simp only [Option.bind_eq_bind, Option.bind_some]
      cases o1 with
      | noMore =>
        simp only [show (stubS st).name = st.name from rfl, present_spelled] at e2 ⊢
        by_cases hp : present s2 m off st.name = true
        · simp only [hp, if_true, Option.some.injEq, Prod.mk.injEq] at e2 ⊢
          exact ⟨_, ⟨e2.1, rfl⟩, e2.2.symm⟩
        · simp only [hp] at e2
          cases e2
      | _ =>
        simp only [Option.some.injEq, Prod.mk.injEq] at e2 ⊢
        exact ⟨_, ⟨e2.1, rfl⟩, e2.2.symm⟩

theorem arrives_spelled (c : ClassDecl V) (k : AMock V E) (off : Nat) (args : List (Arg V)) : arrives c (mockS k) off args = arrives c k off args := by
  unfold arrives
  cases c.dtor with
  | none => rfl
  | some d => simp only [stubs_isSome]; rfl

theorem call_ways (hP : P.Within WrittenApi fun _ _ => True) : ∀ fuel, Ways (rCall P fuel) (rCall (spelledProg P) fuel)
  | 0 => fun _ _ _ _ _ _ _ _ _ e => by simp [rCall] at e
  | fuel + 1 => by
    intro c c' h s m off as o t e
    have ih := call_ways hP fuel
    unfold rCall at e ⊢
    rw [mocks_at] at e
    cases hm : s.mocks[m]? with
    | none =>
      rw [hm] at e
      cases e
    | some k =>
      rw [hm] at e
      simp only [Option.map_some, arrives_spelled, show (mockS k).alive = k.alive from rfl, show (mockS k).spied = k.spied from rfl, show (mockS k).cls = k.cls from rfl, show (spelledProg P).cls = P.cls from rfl, ← h.bypass] at e
      simp only
      by_cases hg : (k.alive = true ∨ k.spied = true) ∧ off < (P.cls k.cls).size
      · rw [if_pos hg] at e ⊢
        generalize arrives (P.cls k.cls) k off as = q at e ⊢
        obtain ⟨off', args'⟩ := q
        simp only at e ⊢
        by_cases hb : (m, off') ∈ c.bypass
        · simp only [hb, if_true] at e ⊢
          exact body_spelled (ih _ _ h) h none args' _ (hP _ _) s o t e
        · simp only [hb, if_false, stubs_at] at e ⊢
          cases hs : k.stubs off' with
          | some l =>
            rw [hs] at e
            exact serve_ways hP ih h s m k off' l args' e
          | none =>
            rw [hs] at e
            simp only [Option.map_none] at e ⊢
            by_cases hsp : k.spied = true
            · simp only [hsp, if_true] at e ⊢
              exact body_spelled (ih _ _ h) h none args' _ (hP _ _) s o t e
            · simp only [hsp] at e ⊢
              by_cases hd : (P.cls k.cls).dtor = some off'
              · simp only [hd, if_true, Bool.false_eq_true, if_false, Option.some.injEq, Prod.mk.injEq] at e ⊢
                exact ⟨_, ⟨e.1, rfl⟩, e.2.symm⟩
              · simp only [hd, if_false, Bool.false_eq_true, Option.some.injEq, unstubbed, Prod.mk.injEq] at e ⊢
                exact ⟨_, ⟨e.1, rfl⟩, e.2.symm⟩
      · rw [if_neg hg] at e
        cases e

theorem rStep_ways (hP : P.Within WrittenApi fun _ _ => True) (fuel : Nat) (s : AState V E) (op : Op V E) (hw : WellWritten op) {o : OpOut V E} {t : AState V E}
    (e : rStep (spelledProg P) fuel (stateS s) (spelledOp op) = some (o, t)) : ∃ s', rStep P fuel s op = some (o, s') ∧ t = stateS s' := by
  cases op with
  | call m off args =>
    simp only [spelledOp, rStep, Option.map_eq_some_iff, Prod.mk.injEq] at e
    obtain ⟨⟨o1, t1⟩, e1, rfl, rfl⟩ := e
    obtain ⟨s', h1, h2⟩ := call_ways hP fuel .idle .idle ⟨rfl, rfl, fun _ h => h⟩ s m off args o1 t1 e1
    exact ⟨s', by simp [rStep, h1], h2⟩
  | api a =>
    simp only [spelledOp, rStep, api_spelled s a hw, Option.map_map, Option.map_eq_some_iff, Function.comp, Prod.mk.injEq] at e
    obtain ⟨⟨s1, o1⟩, e1, rfl, rfl⟩ := e
    exact ⟨s1, by simp [rStep, e1], rfl⟩

theorem rRun_ways (hP : P.Within WrittenApi fun _ _ => True) (fuel : Nat) : ∀ (ops : List (Op V E)) (_ : ∀ op ∈ ops, WellWritten op) (s : AState V E) {outs : List (OpOut V E)} {t : AState V E},
    rRun (spelledProg P) fuel (stateS s) (ops.map spelledOp) = some (outs, t) → ∃ s', rRun P fuel s ops = some (outs, s') ∧ t = stateS s'
  | [], _, s, outs, t, e => by
    simp only [List.map_nil, rRun, Option.some.injEq, Prod.mk.injEq] at e
    exact ⟨s, by simp [rRun, e.1], e.2.symm⟩
  | op :: ops, hw, s, outs, t, e => by
    simp only [List.map_cons, rRun, Option.bind_eq_bind, Option.bind_eq_some_iff] at e
    obtain ⟨⟨o1, t1⟩, e1, ⟨os, t2⟩, e2, e3⟩ := e
    obtain ⟨s1, h1, rfl⟩ := rStep_ways hP fuel s op (hw op (by simp)) e1
    obtain ⟨s2, h2, rfl⟩ := rRun_ways hP fuel ops (fun o ho => hw o (by simp [ho])) s1 e2
    simp only [Option.some.injEq, Prod.mk.injEq] at e3
    exact ⟨s2, by simp [rRun, h1, h2, e3.1], e3.2.symm⟩

/-! ## Callbacks that end no mocks -/

theorem Keeps.ends {a : Api V E} (h : Keeps a) (l : List MockId) : ends l (spelledApi a) = false := by
  cases a <;> first | rfl | exact absurd rfl (h.2.1 _) | exact absurd rfl (h.2.2 _)

/-- Calls that succeed as written also succeed with scripts written out. -/
def Back (call call' : AState V E → MockId → Nat → List (Arg V) → Option (Outcome V E × AState V E)) : Prop :=
  ∀ s m off as o s', call s m off as = some (o, s') → call' (stateS s) m off as = some (o, stateS s')

theorem body_back {call call' : AState V E → MockId → Nat → List (Arg V) → Option (Outcome V E × AState V E)} (hc : Back call call') (c c' : Ctx) (fr : Option (MockId × Nat × Nat)) (args : List (Arg V)) :
    ∀ (b : Body V E) (_ : b.Within Keeps fun _ _ => True) (s : AState V E) (o : Outcome V E) (s' : AState V E), rBody P call c fr args b s = some (o, s') →
      rBody (spelledProg P) call' c' fr args (spelledBody b) (stateS s) = some (o, stateS s')
  | .done o, _, s, o', t, e => by
    simp only [rBody, Option.some.injEq, Prod.mk.injEq] at e
    simp [spelledBody, rBody, e.1, e.2]
  | .setArg i v k, hb, s, o, t, e => by
    simp only [spelledBody, rBody, setArg_spelled] at e ⊢
    exact body_back hc c c' fr args k hb _ o t e
  | .call m off as k, hb, s, o, t, e => by
    simp only [rBody, Option.bind_eq_bind, Option.bind_eq_some_iff] at e
    obtain ⟨⟨o1, s1⟩, e1, e2⟩ := e
    have h2 := body_back hc c c' fr args (k o1) (hb.2 o1) s1 o t e2
    simp [spelledBody, rBody, hc _ _ _ _ _ _ e1, h2]
  | .api a k, hb, s, o, t, e => by
    simp only [rBody] at e
    split at e
    · cases e
    · simp only [Option.bind_eq_bind, Option.bind_eq_some_iff] at e
      obtain ⟨⟨s1, out⟩, e1, e2⟩ := e
      have h2 := body_back hc c c' fr args (k out) (hb.2 out) s1 o t e2
      simp [spelledBody, rBody, hb.1.ends, api_spelled s a hb.1.1, e1, h2]

theorem code_keeps (hP : P.Within Keeps fun _ _ => True) (vs : List V) (f : Fn V E) : (codeOf P vs f).Within Keeps fun _ _ => True := by
  cases f with
  | ret v => trivial
  | thr e => trivial
  | user f => exact hP f vs

/-- The two contexts differ only in which mocks are answering calls. -/
def Alike (c c' : Ctx) : Prop := c.busy = c'.busy ∧ c.bypass = c'.bypass

/-- The same in every context. -/
def Backs (call call' : RCall V E) : Prop := ∀ c c', Alike c c' → Back (call c) (call' c')

theorem perform_back (hP : P.Within Keeps fun _ _ => True) {call call' : RCall V E} (hc : Backs call call') {c c' : Ctx} (h : Alike c c') (m : MockId) (cd : ClassDecl V) (spied : Bool) (off n : Nat) (args : List (Arg V))
    (s : AState V E) (l : List (Act V E)) {o : Outcome V E} {t : AState V E} (e : rPerform P call c m cd spied off n args s l = some (o, t)) :
    rPerform (spelledProg P) call' c' m cd spied off n args (stateS s) (spelled l) = some (o, stateS t) := by
  cases l with
  | nil =>
    simp only [rPerform, Option.some.injEq, Prod.mk.injEq] at e
    simp [spelled, rPerform, e.1, e.2]
  | cons a l =>
    cases a with
    | rep k f =>
      obtain ⟨l', hl⟩ := head_spelled k f l
      simp only [hl, rPerform, code_spelled] at e ⊢
      exact body_back (hc _ _ h) _ _ _ _ _ (code_keeps hP _ f) s o t e
    | forever f =>
      simp only [spelled, rPerform, code_spelled] at e ⊢
      exact body_back (hc _ _ h) _ _ _ _ _ (code_keeps hP _ f) s o t e
    | dflt =>
      simp only [spelled, rPerform] at e ⊢
      cases hd : cd.dflt off <;> rw [hd] at e
      · simp only [Option.some.injEq, Prod.mk.injEq] at e
        simp [e.1, e.2]
      · simp only [Option.some.injEq, Prod.mk.injEq] at e
        simp [← e.1, ← e.2, spelledProg]
      · cases e
    | deleg mv =>
      have hs1 : (if mv then onArgs (stateS s) m off n (moved (spelledProg P)) else stateS s) = stateS (if mv then onArgs s m off n (moved P) else s) := by cases mv <;> rfl
      simp only [rPerform] at e
      simp only [spelled, rPerform, hs1]
      generalize (if mv then onArgs s m off n (moved P) else s) = s1 at e ⊢
      by_cases hd : cd.dtor = some off
      · simp only [hd, if_true, Option.some.injEq, Prod.mk.injEq] at e ⊢
        exact ⟨e.1, by rw [e.2]⟩
      · simp only [hd, if_false] at e ⊢
        cases spied with
        | true =>
          simp only [if_true] at e ⊢
          have h1 : Alike { c with bypass := (m, off) :: c.bypass } { c' with bypass := (m, off) :: c'.bypass } := ⟨h.1, by simp [h.2]⟩
          exact body_back (hc _ _ h1) _ _ _ _ _ (hP _ _) s1 o t e
        | false =>
          simp only [Bool.false_eq_true, if_false, Option.some.injEq, unstubbed, Prod.mk.injEq] at e ⊢
          exact ⟨e.1, by rw [← e.2]; rfl⟩
    | noMore => simp [rPerform] at e

theorem serve_back (hP : P.Within Keeps fun _ _ => True) {call call' : RCall V E} (hc : Backs call call') {c c' : Ctx} (h : Alike c c') (s : AState V E) (m : MockId) (k : AMock V E) (off : Nat) (stubs : List (Stub V E))
    (args : List (Arg V)) {o : Outcome V E} {t : AState V E} (e : rServe P call c s m k off stubs args = some (o, t)) :
    rServe (spelledProg P) call' c' (stateS s) m (mockS k) off (stubs.map stubS) args = some (o, stateS t) := by
  unfold rServe at e ⊢
  rw [find_spelled, show (stateS s).heap = s.heap from rfl]
  cases hf : stubs.find? fun st => accepts st.kind (valuesOf s.heap args) with
  | none =>
    rw [hf] at e
    simp only [Option.map_none, Option.some.injEq, Prod.mk.injEq] at e ⊢
    exact ⟨e.1, by rw [← e.2]; rfl⟩
  | some st =>
    rw [hf] at e
    simp only [Option.map_some] at e ⊢
    split at e
    · cases e
    · rename_i hb
      have hb' : ¬ (stubS st).name ∈ c'.busy := by rw [← h.1]; exact hb
      rw [if_neg hb']
      rw [Option.bind_eq_bind, Option.bind_eq_some_iff] at e
      obtain ⟨⟨o1, s2⟩, e1, e2⟩ := e
      have h2 := perform_back hP hc (c := c.enter m st) (c' := c'.enter m (stubS st)) ⟨by simp only [Ctx.enter, stubS, counted_spelled, h.1], h.2⟩ m (P.cls k.cls) k.spied off (s.made + 1) args (accept s m off args st.name) st.script e1
      rw [show (stubS st).name = st.name from rfl, accept_spelled]
      rw [show rPerform (spelledProg P) call' (c'.enter m (stubS st)) m ((spelledProg P).cls (mockS k).cls) (mockS k).spied off ((stateS s).made + 1) args (stateS (accept s m off args st.name)) (stubS st).script = some (o1, stateS s2) from h2]
      simp only [Option.bind_eq_bind, Option.bind_some]
      cases o1 with
      | noMore =>
        simp only [present_spelled] at e2 ⊢
        by_cases hp : present s2 m off st.name = true
        · simp only [hp, if_true, Option.some.injEq, Prod.mk.injEq] at e2 ⊢
          exact ⟨e2.1, by rw [← e2.2]; rfl⟩
        · simp only [hp] at e2
          cases e2
      | _ =>
        simp only [Option.some.injEq, Prod.mk.injEq] at e2 ⊢
        exact ⟨e2.1, by rw [e2.2]⟩

theorem call_back (hP : P.Within Keeps fun _ _ => True) : ∀ fuel, Backs (rCall P fuel) (rCall (spelledProg P) fuel)
  | 0 => fun _ _ _ _ _ _ _ _ _ e => by simp [rCall] at e
  | fuel + 1 => by
    intro c c' h s m off as o t e
    have ih := call_back hP fuel
    unfold rCall at e ⊢
    rw [mocks_at]
    cases hm : s.mocks[m]? with
    | none =>
      rw [hm] at e
      cases e
    | some k =>
      rw [hm] at e
      simp only [Option.map_some, arrives_spelled, show (mockS k).alive = k.alive from rfl, show (mockS k).spied = k.spied from rfl, show (mockS k).cls = k.cls from rfl, show (spelledProg P).cls = P.cls from rfl, ← h.2]
      simp only at e
      by_cases hg : (k.alive = true ∨ k.spied = true) ∧ off < (P.cls k.cls).size
      · rw [if_pos hg] at e ⊢
        generalize arrives (P.cls k.cls) k off as = q at e ⊢
        obtain ⟨off', args'⟩ := q
        simp only at e ⊢
        by_cases hb : (m, off') ∈ c.bypass
        · simp only [hb, if_true] at e ⊢
          exact body_back (ih _ _ h) _ _ none args' _ (hP _ _) s o t e
        · simp only [hb, if_false, stubs_at] at e ⊢
          cases hs : k.stubs off' with
          | some l =>
            rw [hs] at e
            exact serve_back hP ih h s m k off' l args' e
          | none =>
            rw [hs] at e
            simp only [Option.map_none] at e ⊢
            by_cases hsp : k.spied = true
            · simp only [hsp, if_true] at e ⊢
              exact body_back (ih _ _ h) _ _ none args' _ (hP _ _) s o t e
            · simp only [hsp] at e ⊢
              by_cases hd : (P.cls k.cls).dtor = some off'
              · simp only [hd, if_true, Bool.false_eq_true, if_false, Option.some.injEq, Prod.mk.injEq] at e ⊢
                exact ⟨e.1, by rw [e.2]⟩
              · simp only [hd, if_false, Bool.false_eq_true, Option.some.injEq, unstubbed, Prod.mk.injEq] at e ⊢
                exact ⟨e.1, by rw [← e.2]; rfl⟩
      · rw [if_neg hg] at e
        cases e

theorem rStep_back (hP : P.Within Keeps fun _ _ => True) (fuel : Nat) (s : AState V E) (op : Op V E) (hw : WellWritten op) {o : OpOut V E} {t : AState V E} (e : rStep P fuel s op = some (o, t)) :
    rStep (spelledProg P) fuel (stateS s) (spelledOp op) = some (o, stateS t) := by
  cases op with
  | call m off args =>
    simp only [rStep, Option.map_eq_some_iff, Prod.mk.injEq] at e
    obtain ⟨⟨o1, t1⟩, e1, rfl, rfl⟩ := e
    simp [spelledOp, rStep, call_back hP fuel .idle .idle ⟨rfl, rfl⟩ s m off args o1 t1 e1]
  | api a =>
    simp only [rStep, Option.map_eq_some_iff, Prod.mk.injEq] at e
    obtain ⟨⟨s1, o1⟩, e1, rfl, rfl⟩ := e
    simp [spelledOp, rStep, api_spelled s a hw, e1]

theorem rRun_back (hP : P.Within Keeps fun _ _ => True) (fuel : Nat) : ∀ (ops : List (Op V E)) (_ : ∀ op ∈ ops, WellWritten op) (s : AState V E) {outs : List (OpOut V E)} {t : AState V E},
    rRun P fuel s ops = some (outs, t) → rRun (spelledProg P) fuel (stateS s) (ops.map spelledOp) = some (outs, stateS t)
  | [], _, s, outs, t, e => by
    simp only [rRun, Option.some.injEq, Prod.mk.injEq] at e
    simp [rRun, e.1, e.2]
  | op :: ops, hw, s, outs, t, e => by
    simp only [rRun, Option.bind_eq_bind, Option.bind_eq_some_iff] at e
    obtain ⟨⟨o1, t1⟩, e1, ⟨os, t2⟩, e2, e3⟩ := e
    simp only [Option.some.injEq, Prod.mk.injEq] at e3
    simp [rRun, rStep_back hP fuel s op (hw op (by simp)) e1, rRun_back hP fuel ops (fun o ho => hw o (by simp [ho])) t1 e2, e3.1, e3.2]

/-! ## What may be written -/

theorem api_allowed {nm : MockId → Nat → Nat} {a : Api V E} (h : a.Named nm ∧ a.Writes) : (spelledApi a).Named nm ∧ (spelledApi a).Writes := by
  cases a <;> exact h

theorem body_allowed {nm : MockId → Nat → Nat} : ∀ {b : Body V E}, b.Within (fun a => a.Named nm ∧ a.Writes) (fun _ _ => True) → (spelledBody b).Within (fun a => a.Named nm ∧ a.Writes) fun _ _ => True
  | .done _, _ => trivial
  | .setArg _ _ k, h => body_allowed (b := k) h
  | .call _ _ _ k, h => ⟨trivial, fun o => body_allowed (b := k o) (h.2 o)⟩
  | .api _ k, h => ⟨api_allowed h.1, fun o => body_allowed (b := k o) (h.2 o)⟩

end FakeIt.Spec.Spelling
