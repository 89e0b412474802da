import Verif.Spec.Spelling
/-!
# How a script is written does not matter: lemmas
-/
namespace FakeIt.Spec.Spelling

variable {V E : Type} {P : Prog V E}

/-- A stubbing with its script written out. -/
def stubS (x : Stub V E) : Stub V E := { x with script := spelled x.script }

/-- A mock with all scripts written out. -/
def mockS (k : AMock V E) : AMock V E := { k with stubs := fun o => (k.stubs o).map (List.map stubS) }

/-- A state with all scripts written out. -/
def stateS (s : AState V E) : AState V E := { s with mocks := s.mocks.map mockS }

theorem mocks_at (s : AState V E) (m : Nat) : (stateS s).mocks[m]? = (s.mocks[m]?).map mockS := by simp [stateS]

theorem stubs_at (k : AMock V E) (o : Nat) : (mockS k).stubs o = (k.stubs o).map (List.map stubS) := rfl

theorem stubs_isSome (k : AMock V E) (o : Nat) : ((mockS k).stubs o).isSome = (k.stubs o).isSome := by simp [mockS]

theorem modify_mocks (l : List (AMock V E)) (m : Nat) (f g : AMock V E → AMock V E) (h : ∀ k, l[m]? = some k → mockS (f k) = g (mockS k)) : (l.modify m f).map mockS = (l.map mockS).modify m g := by
  apply List.ext_getElem?
  intro i
  simp only [List.getElem?_map, List.getElem?_modify]
  cases hi : l[i]? with
  | none => rfl
  | some k =>
    by_cases hm : m = i
    · subst hm
      simp [h k hi]
    · simp [hm]

theorem spelled_rest : ∀ l : List (Act V E), rest (spelled l) = spelled (rest l)
  | [] => rfl
  | .rep n f :: l => by
    simp only [spelled, rest]
    by_cases h : n ≤ 1
    · have : max 1 n.toNat = 1 := by omega
      simp [this, h]
    · have h1 : max 1 n.toNat = (max 1 (n - 1).toNat) + 1 := by omega
      simp [h1, h, List.replicate, spelled]
  | .forever f :: l => rfl
  | .dflt :: l => rfl
  | .deleg b :: l => rfl
  | .noMore :: l => rfl

theorem spelled_writable : ∀ l : List (Act V E), writable l = true → writable (spelled l) = true
  | [], _ => rfl
  | .rep n f :: l, h => by
    simp only [writable, List.all_cons, Bool.and_eq_true] at h
    have := spelled_writable l h.2
    simp only [writable] at this
    simp only [spelled, writable, List.all_append, this, Bool.and_true, List.all_replicate]
    simp
  | .forever f :: l, _ => rfl
  | .dflt :: l, _ => rfl
  | .deleg b :: l, _ => rfl
  | .noMore :: l, h => by simp [writable] at h

/-- The result of an action with all scripts written out. -/
def resultS (r : Outcome V E × List (Arg V) × AState V E) : Outcome V E × List (Arg V) × AState V E := (r.1, r.2.1, stateS r.2.2)

theorem runFn_spelled (s : AState V E) (args : List (Arg V)) (f : Fn V E) : runFn P (stateS s) args f = (runFn P s args f).map resultS := by
  cases f with
  | ret v => rfl
  | thr e => rfl
  | user f =>
    simp only [runFn, Option.map_map]
    rfl

theorem perform_spelled (c : ClassDecl V) (spied : Bool) (off : Nat) (args : List (Arg V)) (s : AState V E) (l : List (Act V E)) : perform P c spied off args (stateS s) (spelled l) = (perform P c spied off args s l).map resultS := by
  cases l with
  | nil => rfl
  | cons a l =>
    cases a with
    | rep n f =>
      obtain ⟨j, hj⟩ : ∃ j, max 1 n.toNat = j + 1 := ⟨max 1 n.toNat - 1, by omega⟩
      simp only [spelled, hj, List.replicate, List.cons_append, perform]
      exact runFn_spelled s args f
    | forever f => exact runFn_spelled s args f
    | dflt =>
      simp only [spelled, perform]
      cases c.dflt off <;> rfl
    | deleg mv =>
      simp only [spelled, perform]
      split
      · rfl
      · split
        · simp only [Option.map_map]
          rfl
        · rfl
    | noMore => rfl

theorem find_spelled (l : List (Stub V E)) (vs : List V) : (l.map stubS).find? (fun st => accepts st.kind vs) = (l.find? fun st => accepts st.kind vs).map stubS := by
  rw [List.find?_map]
  rfl

theorem serve_spelled (s : AState V E) (m : MockId) (k : AMock V E) (off : Nat) (stubs : List (Stub V E)) (args : List (Arg V)) :
    serve P (stateS s) m (mockS k) off (stubs.map stubS) args = (serve P s m k off stubs args).map fun r => (r.1, stateS r.2) := by
  unfold serve
  simp only
  rw [find_spelled]
  rw [show (stateS s).heap = s.heap from rfl]
  cases stubs.find? fun st => accepts st.kind (valuesOf s.heap args) with
  | none => rfl
  | some st =>
    simp only [Option.map_some, Option.bind_eq_bind]
    have hp : perform P (P.cls (mockS k).cls) (mockS k).spied off args ⟨(stateS s).mocks, (stateS s).calls, s.heap, (stateS s).made + 1, (stateS s).named, (stateS s).installed, (stateS s).log⟩ (stubS st).script = _ :=
      perform_spelled (P := P) (P.cls k.cls) k.spied off args ⟨s.mocks, s.calls, s.heap, s.made + 1, s.named, s.installed, s.log⟩ st.script
    rw [hp]
    cases perform P (P.cls k.cls) k.spied off args ⟨s.mocks, s.calls, s.heap, s.made + 1, s.named, s.installed, s.log⟩ st.script with
    | none => rfl
    | some r =>
      obtain ⟨o, as, s2⟩ := r
      simp only [Option.map_some, Option.bind_some, resultS]
      have hm : (s2.mocks.modify m fun k => k.onStubs off fun l => l.map fun x => if x.name = st.name then { x with script := rest x.script } else x).map mockS =
          (s2.mocks.map mockS).modify m fun k => k.onStubs off fun l => l.map fun x => if x.name = (stubS st).name then { x with script := rest x.script } else x := by
        apply modify_mocks
        intro k _
        simp only [AMock.onStubs, mockS]
        congr 1
        funext o
        by_cases ho : o = off
        · simp only [ho, if_true]
          cases k.stubs off with
          | none => rfl
          | some l =>
            simp only [Option.map_some, List.map_map]
            congr 1
            apply List.map_congr_left
            intro x _
            simp only [Function.comp]
            by_cases hx : x.name = st.name
            · simp [stubS, hx, spelled_rest]
            · simp [stubS, hx]
        · simp [ho]
      cases o <;> (simp only [Option.map_some, stateS]; rw [hm]; rfl)

theorem call_spelled (s : AState V E) (m : MockId) (off : Nat) (args : List (Arg V)) : aCall P (stateS s) m off args = (aCall P s m off args).map fun r => (r.1, stateS r.2) := by
  unfold aCall
  rw [mocks_at]
  cases s.mocks[m]? with
  | none => rfl
  | some k =>
    simp only [Option.map_some]
    rw [show (mockS k).alive = k.alive from rfl, show (mockS k).spied = k.spied from rfl, show (mockS k).cls = k.cls from rfl]
    split
    · have ha : arrives (P.cls k.cls) (mockS k) off args = arrives (P.cls k.cls) k off args := by
        unfold arrives
        cases (P.cls k.cls).dtor with
        | none => rfl
        | some d => simp only [stubs_isSome]; rfl
      rw [ha]
      generalize arrives (P.cls k.cls) k off args = q
      obtain ⟨off', args'⟩ := q
      simp only [stubs_at]
      cases k.stubs off' with
      | some l => exact serve_spelled s m k off' l args'
      | none =>
        simp only [Option.map_none]
        split
        · simp only [Option.map_map]
          rfl
        · split <;> rfl
    · rfl

theorem hook_spelled (s : AState V E) (m : MockId) (k : AMock V E) (off : Nat) : hook (stateS s) m (mockS k) off = stateS (hook s m k off) := by
  unfold hook
  rw [stubs_isSome]
  split
  · rfl
  · simp only [stateS]
    congr 1
    symm
    apply modify_mocks
    intro k _
    simp only [mockS]
    congr 1
    funext o
    by_cases ho : o = off <;> simp [ho]

theorem mention_spelled (s : AState V E) (m : MockId) (slot : SlotRef) : mention P (stateS s) m slot = (mention P s m slot).map (Option.map stateS) := by
  unfold mention
  rw [mocks_at]
  cases s.mocks[m]? with
  | none => rfl
  | some k =>
    simp only [Option.map_some]
    rw [show (mockS k).alive = k.alive from rfl, show (mockS k).cls = k.cls from rfl, show (mockS k).wasReset = k.wasReset from rfl]
    split
    · cases slot with
      | meth off ctr =>
        simp only
        split
        · simp [hook_spelled]
        · rfl
      | dtor =>
        simp only
        cases (P.cls k.cls).dtor with
        | none => rfl
        | some d =>
          simp only
          split
          · simp [hook_spelled]
          · rfl
    · rfl

theorem mentionAll_spelled : ∀ (l : List (MockId × SlotRef)) (s : AState V E), mentionAll P (stateS s) l = (mentionAll P s l).map fun r => (stateS r.1, r.2)
  | [], _ => rfl
  | (m, slot) :: l, s => by
    simp only [mentionAll, mention_spelled, Option.bind_eq_bind]
    cases mention P s m slot with
    | none => rfl
    | some r =>
      cases r with
      | none => rfl
      | some s' => exact mentionAll_spelled l s'

theorem install_spelled (s : AState V E) (t : Target V) (acts : List (Act V E)) (hw : writable acts = true) : install P (stateS s) t (spelled acts) = (install P s t acts).map stateS := by
  unfold install
  rw [mocks_at]
  cases s.mocks[t.m]? with
  | none => rfl
  | some k =>
    simp only [Option.map_some]
    rw [show (mockS k).alive = k.alive from rfl, show (mockS k).cls = k.cls from rfl]
    cases methodOf (P.cls k.cls) t.slot with
    | none => rfl
    | some off =>
      simp only [stubs_isSome, hw, spelled_writable acts hw]
      split
      · simp only [Option.map_some, stateS]
        congr 2
        symm
        apply modify_mocks
        intro k _
        simp only [AMock.onStubs, mockS]
        congr 1
        funext o
        by_cases ho : o = off
        · simp only [ho, if_true, Option.map_map]
          rfl
        · simp [ho]
      · rfl

theorem installAll_spelled (a : Act V E) (ha : spelled [a] = [a]) (hw : writable [a] = true) : ∀ (ts : List (Target V)) (s : AState V E), installAll P [a] (stateS s) ts = (installAll P [a] s ts).map stateS
  | [], _ => rfl
  | t :: ts, s => by
    have h := install_spelled (P := P) s t [a] hw
    rw [ha] at h
    simp only [installAll, h, Option.bind_eq_bind]
    cases install P s t [a] with
    | none => rfl
    | some s' => exact installAll_spelled a ha hw ts s'

theorem denotes_spelled (s : AState V E) (l : Leaf V) (r : Rec V) : denotes P (stateS s) l r = denotes P s l r := by
  unfold denotes
  rw [mocks_at]
  cases s.mocks[l.m]? <;> rfl

theorem inSource_spelled (s : AState V E) (r : Rec V) : ∀ src : Source V, inSource P (stateS s) src r = inSource P s src r
  | .empty => rfl
  | .mock _ => rfl
  | .ctx l => denotes_spelled s l r
  | .unverified src => by simp only [inSource, inSource_spelled s r src]
  | .union a b => by simp only [inSource, inSource_spelled s r a, inSource_spelled s r b]

theorem inScope_spelled (s : AState V E) (pat : List (Seq (Leaf V))) (sc : Scope V) (r : Rec V) : inScope P (stateS s) pat sc r = inScope P s pat sc r := by
  cases sc with
  | involved => rfl
  | using_ src => exact inSource_spelled s r src
  | unverified => rfl

theorem live_spelled (s : AState V E) (ms : List MockId) : live (stateS s) ms = live s ms := by
  unfold live
  congr 1
  funext m
  rw [mocks_at]
  cases s.mocks[m]? <;> rfl

theorem verify_spelled (s : AState V E) (scope : Scope V) (pat : List (Seq (Leaf V))) (q : Quant) (mode : VMode) :
    aVerify P (stateS s) scope pat q mode = (aVerify P s scope pat q mode).map fun r => (stateS r.1, r.2) := by
  unfold aVerify
  rw [mentionAll_spelled]
  simp only [Option.bind_eq_bind]
  cases mentionAll P s ((mentionedBy scope pat).map fun l => (l.m, l.slot)) with
  | none => rfl
  | some r =>
    obtain ⟨s1, b⟩ := r
    cases b with
    | false => rfl
    | true =>
      simp only [Option.map_some, Option.bind_some, live_spelled]
      split
      · cases expects q with
        | none => rfl
        | some ex =>
          simp only
          split
          · rfl
          · have h1 : inScope P (stateS s1) pat scope = inScope P s1 pat scope := by funext r; exact inScope_spelled s1 pat scope r
            have h2 : denotes P (stateS s1) = denotes P s1 := by funext l r; exact denotes_spelled s1 l r
            rw [h1, h2, show (stateS s1).calls = s1.calls from rfl, show (stateS s1).log = s1.log from rfl]
            split
            · rfl
            · split <;> rfl
      · rfl

theorem noOther_spelled (s : AState V E) (srcs : List (Source V)) (mode : VMode) : aNoOther P (stateS s) srcs mode = (aNoOther P s srcs mode).map fun r => (stateS r.1, r.2) := by
  unfold aNoOther
  rw [mentionAll_spelled]
  simp only [Option.bind_eq_bind]
  cases mentionAll P s ((leavesOf (allOf srcs)).map fun l => (l.m, l.slot)) with
  | none => rfl
  | some r =>
    obtain ⟨s1, b⟩ := r
    cases b with
    | false => rfl
    | true =>
      simp only [Option.map_some, Option.bind_some, live_spelled]
      split
      · split
        · rfl
        · have h1 : inSource P (stateS s1) (allOf srcs) = inSource P s1 (allOf srcs) := by funext r; exact inSource_spelled s1 r _
          rw [h1, show (stateS s1).calls = s1.calls from rfl, show (stateS s1).log = s1.log from rfl]
          split
          · rfl
          · split <;> rfl
      · rfl

theorem onMock_spelled (s : AState V E) (m : MockId) (f : AMock V E → Option (AMock V E)) (hf : ∀ k, f (mockS k) = (f k).map mockS) : onMock (stateS s) m f = (onMock s m f).map stateS := by
  unfold onMock
  rw [mocks_at]
  cases s.mocks[m]? with
  | none => rfl
  | some k =>
    simp only [Option.map_some]
    rw [show (mockS k).alive = k.alive from rfl, hf]
    split
    · cases f k with
      | none => rfl
      | some k' => simp [stateS, List.map_set]
    · rfl

theorem stubOne_spelled (s : AState V E) (t : Target V) (acts : List (Act V E)) (hw : writable acts = true) (u : Bool) : aStubOne P (stateS s) t (spelled acts) u = (aStubOne P s t acts u).map fun r => (stateS r.1, r.2) := by
  unfold aStubOne
  rw [mention_spelled]
  simp only [Option.bind_eq_bind]
  cases mention P s t.m t.slot with
  | none => rfl
  | some r =>
    cases r with
    | none => rfl
    | some s1 =>
      simp only [Option.map_some, Option.bind_some]
      split
      · rfl
      · rw [install_spelled s1 t acts hw]
        cases install P s1 t acts <;> rfl

theorem stubMany_spelled (s : AState V E) (ts : List (Target V)) (a : Act V E) (ha : spelled [a] = [a]) (hw : writable [a] = true) : aStubMany P (stateS s) ts a = (aStubMany P s ts a).map fun r => (stateS r.1, r.2) := by
  unfold aStubMany
  rw [mentionAll_spelled]
  simp only [Option.bind_eq_bind]
  cases mentionAll P s (ts.map fun t => (t.m, t.slot)) with
  | none => rfl
  | some r =>
    obtain ⟨s1, b⟩ := r
    cases b with
    | false => rfl
    | true =>
      simp only [Option.map_some, Option.bind_some]
      rw [installAll_spelled a ha hw]
      cases installAll P [a] s1 ts <;> rfl

/-- An operation on mocks, seen through the library's results. -/
theorem onMock_api (s : AState V E) (m : MockId) (f : AMock V E → Option (AMock V E)) (hf : ∀ k, f (mockS k) = (f k).map mockS) (o : ApiOut) :
    (onMock (stateS s) m f).map (·, o) = ((onMock s m f).map (·, o)).map fun r => (stateS r.1, r.2) := by
  rw [onMock_spelled s m f hf]
  cases onMock s m f <;> rfl

theorem step_spelled (s : AState V E) (op : Op V E) (hw : WellWritten op) : aStep P (stateS s) (spelledOp op) = (aStep P s op).map fun r => (r.1, stateS r.2) := by
  cases op with
  | call m off args =>
    simp only [spelledOp, aStep, call_spelled, Option.map_map]
    rfl
  | api a =>
    have h : aApi P (stateS s) (spelledApi a) = (aApi P s a).map fun r => (stateS r.1, r.2) := by
      have forget_s : ∀ m, forget (stateS s) m = stateS (forget s m) := fun _ => rfl
      cases a with
      | newMock cls => simp [spelledApi, aApi, aNew, stateS, mockS]
      | newSpy cls => simp [spelledApi, aApi, aNew, stateS, mockS]
      | destroy m => simp only [spelledApi, aApi, forget_s]; exact onMock_api _ _ _ (fun _ => rfl) _
      | touch m slot =>
        simp only [spelledApi, aApi, mention_spelled]
        cases mention P s m slot with
        | none => rfl
        | some r => cases r <;> rfl
      | when_ t acts u => exact stubOne_spelled s t acts hw u
      | fake ts => exact stubMany_spelled s ts .dflt rfl rfl
      | spy mv ts => exact stubMany_spelled s ts (.deleg mv) rfl rfl
      | assign t f => exact stubOne_spelled s t [.forever f] rfl false
      | stubData m cell v => exact onMock_api _ _ _ (fun k => by simp only [setCell]; rw [show (mockS k).data = k.data from rfl]; split <;> rfl) _
      | writeData m cell v => exact onMock_api _ _ _ (fun k => by simp only [setCell]; rw [show (mockS k).data = k.data from rfl]; split <;> rfl) _
      | reset m => simp only [spelledApi, aApi, forget_s]; exact onMock_api _ _ _ (fun _ => rfl) _
      | clear m => simp only [spelledApi, aApi, forget_s]; exact onMock_api _ _ _ (fun _ => rfl) _
      | write a v => rfl
      | verify scope pat q mode => exact verify_spelled s scope pat q mode
      | verifyNoOther srcs mode => exact noOther_spelled s srcs mode
    simp only [spelledOp, aStep, h, Option.map_map]
    rfl

theorem run_spelled : ∀ (ops : List (Op V E)) (_ : ∀ op ∈ ops, WellWritten op) (s : AState V E), aRun P (stateS s) (ops.map spelledOp) = (aRun P s ops).map fun r => (r.1, stateS r.2)
  | [], _, _ => rfl
  | op :: ops, hw, s => by
    simp only [List.map_cons, aRun, step_spelled s op (hw op (by simp)), Option.bind_eq_bind]
    cases aStep P s op with
    | none => rfl
    | some r =>
      simp only [Option.map_some, Option.bind_some, run_spelled ops (fun o ho => hw o (by simp [ho]))]
      cases aRun P r.2 ops <;> rfl

end FakeIt.Spec.Spelling
