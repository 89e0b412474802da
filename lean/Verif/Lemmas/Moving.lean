import Verif.Spec.Moving
import Verif.Lemmas.Reorder
/-!
# A stubbing statement may be moved across steps that do not concern its method: lemmas
-/
namespace FakeIt.Spec.Moving
open FakeIt.Spec.Reorder

variable {V E : Type} {P : Prog V E} {x : Stmt V E} {st : Stub V E} {N : List (MockId × Nat)} {i : Nat}

/-- The state after the statement, in which the methods `N` have been named. -/
def chg (x : Stmt V E) (st : Stub V E) (i : Nat) (N : List (MockId × Nat)) (s : AState V E) : AState V E :=
  ⟨s.mocks.modify x.m (put x.off st), s.calls, s.heap, s.made, N, i, s.log⟩

theorem mocks_at (s : AState V E) (m : Nat) : (chg x st i N s).mocks[m]? = (s.mocks[m]?).map fun k => if x.m = m then put x.off st k else k := by
  simp only [chg, List.getElem?_modify]
  rfl

/-- What is seen of a mock beside its stubbings is the same. -/
theorem same_at {k : AMock V E} {m : Nat} : (if x.m = m then put x.off st k else k).cls = k.cls ∧ (if x.m = m then put x.off st k else k).alive = k.alive ∧ (if x.m = m then put x.off st k else k).spied = k.spied ∧
    (if x.m = m then put x.off st k else k).wasReset = k.wasReset := by
  split <;> exact ⟨rfl, rfl, rfl, rfl⟩

theorem stubs_other {k : AMock V E} {m o : Nat} (h : m = x.m → o ≠ x.off) : (if x.m = m then put x.off st k else k).stubs o = k.stubs o := by
  split
  · rename_i hm
    simp [put, h hm.symm]
  · rfl

/-! ## Calls -/

/-- The result of an action. -/
def chgResult (x : Stmt V E) (st : Stub V E) (i : Nat) (N : List (MockId × Nat)) (r : Outcome V E × List (Arg V) × AState V E) : Outcome V E × List (Arg V) × AState V E := (r.1, r.2.1, chg x st i N r.2.2)

theorem runFn_chg (s : AState V E) (args : List (Arg V)) (f : Fn V E) : runFn P (chg x st i N s) args f = (runFn P s args f).map (chgResult x st i N) := by
  cases f with
  | ret v => rfl
  | thr e => rfl
  | user f =>
    simp only [runFn, Option.map_map]
    rfl

theorem perform_chg (c : ClassDecl V) (spied : Bool) (off : Nat) (args : List (Arg V)) (s : AState V E) (l : List (Act V E)) : perform P c spied off args (chg x st i N s) l = (perform P c spied off args s l).map (chgResult x st i N) := by
  cases l with
  | nil => rfl
  | cons a l =>
    cases a with
    | rep n f => exact runFn_chg s args f
    | forever f => exact runFn_chg s args f
    | dflt =>
      simp only [perform]
      cases c.dflt off <;> rfl
    | deleg mv =>
      simp only [perform]
      split
      · rfl
      · split
        · simp only [Option.map_map]
          rfl
        · rfl
    | noMore => rfl

theorem put_onStubs (k : AMock V E) {off : Nat} (h : off ≠ x.off) (g : List (Stub V E) → List (Stub V E)) : put x.off st (k.onStubs off g) = (put x.off st k).onStubs off g := by
  simp only [put, AMock.onStubs]
  congr 1
  funext o
  by_cases h1 : o = x.off
  · subst h1
    simp [Ne.symm h]
  · by_cases h2 : o = off
    · simp [h2, h]
    · simp [h1, h2]

theorem modify_comm (l : List (AMock V E)) {m off : Nat} (h : m = x.m → off ≠ x.off) (g : List (Stub V E) → List (Stub V E)) :
    (l.modify m fun k => k.onStubs off g).modify x.m (put x.off st) = (l.modify x.m (put x.off st)).modify m fun k => k.onStubs off g := by
  apply List.ext_getElem?
  intro j
  simp only [List.getElem?_modify]
  cases l[j]? with
  | none => rfl
  | some k =>
    simp only [Option.map_some, Option.map_eq_map]
    congr 1
    by_cases h1 : x.m = j <;> by_cases h2 : m = j
    · simp only [h1, h2, if_true]
      exact put_onStubs k (h (h2.trans h1.symm)) g
    · simp [h1, h2]
    · simp [h1, h2]
    · simp [h1, h2]

theorem serve_chg (s : AState V E) {m : MockId} {k k' : AMock V E} (hc : k'.cls = k.cls) (hp : k'.spied = k.spied) {off : Nat} (h : m = x.m → off ≠ x.off) (stubs : List (Stub V E)) (args : List (Arg V)) :
    serve P (chg x st i N s) m k' off stubs args = (serve P s m k off stubs args).map fun r => (r.1, chg x st i N r.2) := by
  unfold serve
  simp only [hc, hp]
  rw [show (chg x st i N s).heap = s.heap from rfl]
  cases stubs.find? fun st => accepts st.kind (valuesOf s.heap args) with
  | none => rfl
  | some q =>
    simp only [Option.bind_eq_bind]
    have e : perform P (P.cls k.cls) k.spied off args ⟨(chg x st i N s).mocks, (chg x st i N s).calls, s.heap, (chg x st i N s).made + 1, (chg x st i N s).named, (chg x st i N s).installed, (chg x st i N s).log⟩ q.script = _ :=
      perform_chg (P := P) (x := x) (st := st) (N := N) (i := i) (P.cls k.cls) k.spied off args ⟨s.mocks, s.calls, s.heap, s.made + 1, s.named, s.installed, s.log⟩ q.script
    rw [e]
    cases perform P (P.cls k.cls) k.spied off args ⟨s.mocks, s.calls, s.heap, s.made + 1, s.named, s.installed, s.log⟩ q.script with
    | none => rfl
    | some r =>
      obtain ⟨o, as, s2⟩ := r
      simp only [Option.map_some, Option.bind_some, chgResult]
      cases o <;> (simp only [Option.map_some, chg]; rw [modify_comm _ h])

theorem arrives_off (c : ClassDecl V) (k : AMock V E) (off : Nat) (args : List (Arg V)) : (arrives c k off args).1 = off ∨ c.dtor = some (arrives c k off args).1 := by
  unfold arrives
  cases hd : c.dtor with
  | none => exact .inl rfl
  | some d =>
    simp only
    split
    · exact .inr rfl
    · exact .inl rfl

theorem call_chg (s : AState V E) {k0 : AMock V E} (hk0 : s.mocks[x.m]? = some k0) (ht : Takes P x k0) {m : MockId} {off : Nat} (h : m = x.m → off ≠ x.off) (args : List (Arg V)) :
    aCall P (chg x st i N s) m off args = (aCall P s m off args).map fun r => (r.1, chg x st i N r.2) := by
  unfold aCall
  rw [mocks_at]
  cases hk : s.mocks[m]? with
  | none => rfl
  | some k =>
    simp only [Option.map_some]
    obtain ⟨g1, g2, g3, -⟩ := same_at (x := x) (st := st) (k := k) (m := m)
    rw [g1, g2, g3]
    have hd : ∀ d, (P.cls k.cls).dtor = some d → m = x.m → d ≠ x.off := by
      intro d hd hm
      subst hm
      rw [hk0] at hk
      cases hk
      exact Ne.symm (ht.2.1.2 d hd).1
    have ha : arrives (P.cls k.cls) (if x.m = m then put x.off st k else k) off args = arrives (P.cls k.cls) k off args := by
      unfold arrives
      cases hq : (P.cls k.cls).dtor with
      | none => rfl
      | some d => simp only [stubs_other (hd d hq), g3]
    rw [ha]
    have hoff : m = x.m → (arrives (P.cls k.cls) k off args).1 ≠ x.off := by
      intro hm
      rcases arrives_off (P.cls k.cls) k off args with e | e
      · rw [e]; exact h hm
      · exact hd _ e hm
    split
    · generalize arrives (P.cls k.cls) k off args = q at hoff ⊢
      obtain ⟨off', args'⟩ := q
      simp only at hoff ⊢
      rw [stubs_other hoff]
      cases k.stubs off' with
      | some l => exact serve_chg s g1 g3 hoff l args'
      | none =>
        simp only
        split
        · simp only [Option.map_map]
          rfl
        · split
          · rfl
          · rfl
    · rfl

/-! ## Method expressions -/

theorem hook_chg (s : AState V E) {m : MockId} {k : AMock V E} (hk : s.mocks[m]? = some k) (off : Nat) :
    ∃ N', hook (chg x st i N s) m (if x.m = m then put x.off st k else k) off = chg x st i N' (hook s m k off) := by
  by_cases hx : x.m = m ∧ off = x.off
  · obtain ⟨rfl, rfl⟩ := hx
    have h1 : hook (chg x st i N s) x.m (if x.m = x.m then put x.off st k else k) x.off = chg x st i N s := by simp [hook, put]
    rw [h1]
    refine ⟨N, ?_⟩
    unfold hook
    split
    · rfl
    · rename_i hn
      simp only [chg]
      congr 1
      apply List.ext_getElem?
      intro j
      simp only [List.getElem?_modify]
      by_cases hj : x.m = j
      · subst hj
        simp only [hk, if_true, Option.map_eq_map, Option.map_some]
        congr 1
        simp only [put]
        have : k.stubs x.off = none := by simpa using hn
        rw [this]
        congr 1
        funext o
        by_cases ho : o = x.off <;> simp [ho]
      · simp [hj]
  · have ho : m = x.m → off ≠ x.off := fun h1 h2 => hx ⟨h1.symm, h2⟩
    unfold hook
    rw [stubs_other ho]
    split
    · exact ⟨N, rfl⟩
    · refine ⟨N ++ [(m, off)], ?_⟩
      simp only [chg]
      congr 1
      apply List.ext_getElem?
      intro j
      simp only [List.getElem?_modify]
      cases s.mocks[j]? with
      | none => rfl
      | some q =>
        simp only [Option.map_some, Option.map_eq_map]
        congr 1
        by_cases h1 : x.m = j <;> by_cases h2 : m = j
        · have ho := ho (h2.trans h1.symm)
          simp only [h1, h2, if_true, put]
          congr 1
          funext o
          by_cases e1 : o = off
          · subst e1; simp [ho]
          · by_cases e2 : o = x.off
            · subst e2; simp [e1]
            · simp [e1, e2]
        · simp [h1, h2]
        · simp [h1, h2]
        · simp [h1, h2]

theorem mention_chg (N : List (MockId × Nat)) (s : AState V E) (m : MockId) (slot : SlotRef) : ∃ N', mention P (chg x st i N s) m slot = (mention P s m slot).map (Option.map (chg x st i N')) := by
  unfold mention
  rw [mocks_at]
  cases hk : s.mocks[m]? with
  | none => exact ⟨N, rfl⟩
  | some k =>
    simp only [Option.map_some]
    obtain ⟨g1, g2, -, g4⟩ := same_at (x := x) (st := st) (k := k) (m := m)
    rw [g1, g2, g4]
    split
    · cases slot with
      | meth off ctr =>
        obtain ⟨N', e⟩ := hook_chg (x := x) (st := st) (i := i) (N := N) s hk off
        refine ⟨N', ?_⟩
        simp only [e]
        split <;> rfl
      | dtor =>
        simp only
        cases (P.cls k.cls).dtor with
        | none => exact ⟨N, rfl⟩
        | some d =>
          obtain ⟨N', e⟩ := hook_chg (x := x) (st := st) (i := i) (N := N) s hk d
          refine ⟨N', ?_⟩
          simp only [e]
          split <;> rfl
    · exact ⟨N, rfl⟩

theorem mentionAll_chg : ∀ (l : List (MockId × SlotRef)) (N : List (MockId × Nat)) (s : AState V E), ∃ N', mentionAll P (chg x st i N s) l = (mentionAll P s l).map fun r => (chg x st i N' r.1, r.2)
  | [], N, s => ⟨N, rfl⟩
  | (m, slot) :: l, N, s => by
    obtain ⟨N1, e1⟩ := mention_chg (P := P) (x := x) (st := st) (i := i) N s m slot
    simp only [mentionAll, e1, Option.bind_eq_bind]
    cases mention P s m slot with
    | none => exact ⟨N, rfl⟩
    | some r =>
      cases r with
      | none => exact ⟨N, rfl⟩
      | some s1 => exact mentionAll_chg l N1 s1

/-! ## Verification -/

theorem denotes_chg (s : AState V E) : denotes P (chg x st i N s) = denotes P s := by
  funext l r
  unfold denotes
  rw [mocks_at]
  cases s.mocks[l.m]? with
  | none => rfl
  | some k =>
    simp only [Option.map_some]
    rw [(same_at (x := x) (st := st) (k := k) (m := l.m)).1]
    rfl

theorem inSource_chg (s : AState V E) : ∀ src : Source V, inSource P (chg x st i N s) src = inSource P s src
  | .empty => rfl
  | .mock _ => rfl
  | .ctx l => by funext r; simp only [inSource, denotes_chg]
  | .unverified src => by funext r; simp only [inSource, inSource_chg s src]
  | .union a b => by funext r; simp only [inSource, inSource_chg s a, inSource_chg s b]

theorem inScope_chg (s : AState V E) (pat : List (Seq (Leaf V))) (sc : Scope V) : inScope P (chg x st i N s) pat sc = inScope P s pat sc := by
  cases sc with
  | involved => rfl
  | using_ src => exact inSource_chg s src
  | unverified => rfl

theorem live_chg (s : AState V E) (ms : List MockId) : live (chg x st i N s) ms = live s ms := by
  unfold live
  congr 1
  funext m
  rw [mocks_at]
  cases s.mocks[m]? with
  | none => rfl
  | some k => exact (same_at (x := x) (st := st) (k := k) (m := m)).2.1

theorem verify_chg (N : List (MockId × Nat)) (s : AState V E) (scope : Scope V) (pat : List (Seq (Leaf V))) (q : Quant) (mode : VMode) :
    ∃ N', aVerify P (chg x st i N s) scope pat q mode = (aVerify P s scope pat q mode).map fun r => (chg x st i N' r.1, r.2) := by
  unfold aVerify
  obtain ⟨N1, e1⟩ := mentionAll_chg (P := P) (x := x) (st := st) (i := i) ((mentionedBy scope pat).map fun l => (l.m, l.slot)) N s
  refine ⟨N1, ?_⟩
  rw [e1]
  cases mentionAll P s ((mentionedBy scope pat).map fun l => (l.m, l.slot)) with
  | none => rfl
  | some r =>
    obtain ⟨s1, b⟩ := r
    simp only [Option.map_some, Option.bind_eq_bind, Option.bind_some]
    cases b with
    | false => rfl
    | true =>
      simp only [live_chg, inScope_chg, denotes_chg]
      rw [show (chg x st i N1 s1).calls = s1.calls from rfl]
      split
      · cases expects q with
        | none => rfl
        | some ex =>
          simp only
          split
          · rfl
          · split
            · rfl
            · split <;> rfl
      · rfl

theorem noOther_chg (N : List (MockId × Nat)) (s : AState V E) (srcs : List (Source V)) (mode : VMode) :
    ∃ N', aNoOther P (chg x st i N s) srcs mode = (aNoOther P s srcs mode).map fun r => (chg x st i N' r.1, r.2) := by
  unfold aNoOther
  obtain ⟨N1, e1⟩ := mentionAll_chg (P := P) (x := x) (st := st) (i := i) ((leavesOf (allOf srcs)).map fun l => (l.m, l.slot)) N s
  refine ⟨N1, ?_⟩
  rw [e1]
  cases mentionAll P s ((leavesOf (allOf srcs)).map fun l => (l.m, l.slot)) with
  | none => rfl
  | some r =>
    obtain ⟨s1, b⟩ := r
    simp only [Option.map_some, Option.bind_eq_bind, Option.bind_some]
    cases b with
    | false => rfl
    | true =>
      simp only [live_chg, inSource_chg]
      rw [show (chg x st i N1 s1).calls = s1.calls from rfl]
      split
      · split
        · rfl
        · split
          · rfl
          · split <;> rfl
      · rfl

/-! ## Steps -/

theorem onMock_chg (s : AState V E) (m : MockId) {f : AMock V E → Option (AMock V E)} (hf : m = x.m → ∀ k, f (put x.off st k) = (f k).map (put x.off st)) :
    onMock (chg x st i N s) m f = (onMock s m f).map (chg x st i N) := by
  unfold onMock
  rw [mocks_at]
  cases hk : s.mocks[m]? with
  | none => rfl
  | some k =>
    simp only [Option.map_some]
    rw [(same_at (x := x) (st := st) (k := k) (m := m)).2.1]
    split
    · have e : f (if x.m = m then put x.off st k else k) = (f k).map fun k' => if x.m = m then put x.off st k' else k' := by
        by_cases hm : x.m = m
        · simp only [hm, if_true]; exact hf hm.symm k
        · simp [hm]
      rw [e, Option.map_map, Option.map_map]
      congr 1
      funext k'
      simp only [Function.comp, chg]
      congr 1
      apply List.ext_getElem?
      intro j
      simp only [List.getElem?_modify, List.getElem?_set, List.length_modify]
      by_cases h1 : m = j
      · subst h1
        simp only [if_true]
        by_cases hl : m < s.mocks.length
        · simp [hl]
        · simp [hl]
      · simp [h1]
    · rfl

theorem setCell_chg (cell : Nat) (v : Int) (k : AMock V E) : setCell (put x.off st k) cell v = (setCell k cell v).map (put x.off st) := by
  unfold setCell
  rw [show (put x.off st k).data = k.data from rfl]
  split <;> rfl

theorem new_chg (s : AState V E) {k0 : AMock V E} (hk0 : s.mocks[x.m]? = some k0) (cls : Nat) (sp : Bool) : aNew P (chg x st i N s) cls sp = chg x st i N (aNew P s cls sp) := by
  simp only [aNew, chg]
  congr 1
  apply List.ext_getElem?
  intro j
  have hlt : x.m < s.mocks.length := (List.getElem?_eq_some_iff.1 hk0).1
  simp only [List.getElem?_modify, List.getElem?_append, List.length_modify]
  split
  · rfl
  · have : x.m ≠ j := by omega
    simp [this]

theorem step_chg (N : List (MockId × Nat)) (s : AState V E) {k0 : AMock V E} (hk0 : s.mocks[x.m]? = some k0) (ht : Takes P x k0) {op : Op V E} (h : Unconcerned x op) :
    ∃ N', aStep P (chg x st i N s) op = (aStep P s op).map fun r => (r.1, chg x st i N' r.2) := by
  have hx : ∀ {t : AState V E} {m : MockId} {f : AMock V E → Option (AMock V E)}, (m = x.m → ∀ k, f (put x.off st k) = (f k).map (put x.off st)) →
      ((onMock (chg x st i N t) m f).map fun z => (z, ApiOut.unit)) = ((onMock t m f).map fun z => (z, ApiOut.unit)).map fun r => (chg x st i N r.1, r.2) := by
    intro t m f hf
    rw [onMock_chg t m hf, Option.map_map, Option.map_map]
    rfl
  cases op with
  | call m off args =>
    refine ⟨N, ?_⟩
    simp only [aStep, call_chg s hk0 ht h, Option.map_map]
    rfl
  | api a =>
    suffices hs : ∃ N', aApi P (chg x st i N s) a = (aApi P s a).map fun r => (chg x st i N' r.1, r.2) by
      obtain ⟨N', e⟩ := hs
      refine ⟨N', ?_⟩
      simp only [aStep, e, Option.map_map]
      rfl
    cases a with
    | newMock cls => exact ⟨N, by simp only [aApi, new_chg s hk0, Option.map_some]; simp [chg]⟩
    | newSpy cls => exact ⟨N, by simp only [aApi, new_chg s hk0, Option.map_some]; simp [chg]⟩
    | destroy m => exact ⟨N, hx (t := forget s m) fun e => absurd e h⟩
    | touch m slot =>
      obtain ⟨N', e⟩ := mention_chg (P := P) (x := x) (st := st) (i := i) N s m slot
      simp only [aApi, e]
      cases mention P s m slot with
      | none => exact ⟨N, rfl⟩
      | some r =>
        cases r with
        | none => exact ⟨N, rfl⟩
        | some s1 => exact ⟨N', rfl⟩
    | when_ t acts u => exact h.elim
    | fake ts => exact h.elim
    | spy mv ts => exact h.elim
    | assign t f => exact h.elim
    | stubData m cell v => exact ⟨N, hx fun _ => setCell_chg cell v⟩
    | writeData m cell v => exact ⟨N, hx fun _ => setCell_chg cell v⟩
    | reset m => exact ⟨N, hx (t := forget s m) fun e => absurd e h⟩
    | clear m => exact ⟨N, hx (t := forget s m) fun _ k => rfl⟩
    | write a v => exact ⟨N, rfl⟩
    | verify scope pat q mode => exact verify_chg N s scope pat q mode
    | verifyNoOther srcs mode => exact noOther_chg N s srcs mode

/-! ## The mock is still there -/

/-- Mock `m` stays what it is (its stubbings and data members apart), and no stubbing is added. -/
def Stays (m : Nat) (s s' : AState V E) : Prop :=
  s'.installed = s.installed ∧ ∀ k, s.mocks[m]? = some k → ∃ k', s'.mocks[m]? = some k' ∧ k'.cls = k.cls ∧ k'.alive = k.alive

theorem Stays.refl (m : Nat) (s : AState V E) : Stays m s s := ⟨rfl, fun k h => ⟨k, h, rfl, rfl⟩⟩

theorem Stays.trans {m : Nat} {s t u : AState V E} (h : Stays m s t) (h' : Stays m t u) : Stays m s u :=
  ⟨h'.1.trans h.1, fun k hk => by
    obtain ⟨k1, e1, e2, e3⟩ := h.2 k hk
    obtain ⟨k2, f1, f2, f3⟩ := h'.2 k1 e1
    exact ⟨k2, f1, f2.trans e2, f3.trans e3⟩⟩

theorem Stays.of_eq {m : Nat} {s s' : AState V E} (h1 : s'.installed = s.installed) (h2 : s'.mocks = s.mocks) : Stays m s s' := ⟨h1, fun k h => ⟨k, by rw [h2, h], rfl, rfl⟩⟩

theorem Stays.modify {m j : Nat} {s s' : AState V E} {f : AMock V E → AMock V E} (h1 : s'.installed = s.installed) (h2 : s'.mocks = s.mocks.modify j f) (hf : ∀ k, (f k).cls = k.cls ∧ (f k).alive = k.alive) : Stays m s s' := by
  refine ⟨h1, fun k h => ?_⟩
  rw [h2, List.getElem?_modify, h]
  by_cases hj : j = m
  · exact ⟨f k, by simp [hj], hf k⟩
  · exact ⟨k, by simp [hj], rfl, rfl⟩

theorem runFn_mocks {s s' : AState V E} {args as : List (Arg V)} {f : Fn V E} {o : Outcome V E} (h : runFn P s args f = some (o, as, s')) : s'.mocks = s.mocks := by
  cases f with
  | ret v => cases h; rfl
  | thr e => cases h; rfl
  | user f =>
    simp only [runFn, Option.map_eq_some_iff] at h
    obtain ⟨r, -, h⟩ := h
    cases h; rfl

theorem perform_mocks {c : ClassDecl V} {sp : Bool} {off : Nat} {args as : List (Arg V)} {s s' : AState V E} {acts : List (Act V E)} {o : Outcome V E}
    (h : perform P c sp off args s acts = some (o, as, s')) : s'.mocks = s.mocks := by
  unfold perform at h
  split at h
  · cases h; rfl
  · exact runFn_mocks h
  · exact runFn_mocks h
  · split at h
    · cases h; rfl
    · cases h; rfl
    · cases h
  · dsimp only at h
    split at h
    · cases h; rfl
    · split at h
      · obtain ⟨r, -, h⟩ := Option.map_eq_some_iff.1 h
        cases h; rfl
      · cases h; rfl
  · cases h

theorem call_stays {j : Nat} {s s' : AState V E} {m : MockId} {off : Nat} {args : List (Arg V)} {o : Outcome V E} (h : aCall P s m off args = some (o, s')) : Stays j s s' := by
  have hi := call_installed h
  unfold aCall at h
  split at h
  · cases h
  · dsimp only at h
    split at h
    · split at h
      · unfold serve at h
        dsimp only at h
        split at h
        · cases h; exact .of_eq rfl rfl
        · simp only [Option.bind_eq_bind, Option.bind_eq_some_iff] at h
          obtain ⟨⟨o1, as, s2⟩, h1, h2⟩ := h
          have g := perform_mocks h1
          dsimp only at g h2
          split at h2 <;> cases h2 <;> exact .modify hi (congrArg (fun l => List.modify l m _) g) fun k => ⟨rfl, rfl⟩
      · split at h
        · obtain ⟨r, -, h⟩ := Option.map_eq_some_iff.1 h
          cases h; exact .of_eq rfl rfl
        · split at h
          · cases h; exact .refl _ _
          · cases h; exact .of_eq rfl rfl
    · cases h

theorem hook_stays (j : Nat) (s : AState V E) (m : MockId) (k : AMock V E) (off : Nat) : Stays j s (hook s m k off) := by
  unfold hook
  split
  · exact .refl _ _
  · exact .modify rfl rfl fun k => ⟨rfl, rfl⟩

theorem mention_stays {j : Nat} {s s' : AState V E} {m : MockId} {slot : SlotRef} (h : mention P s m slot = some (some s')) : Stays j s s' := by
  unfold mention at h
  repeat' (first | (dsimp only at h; split at h) | split at h)
  all_goals first
    | (cases h; done)
    | (cases h; exact hook_stays _ _ _ _ _)

theorem mentionAll_stays {j : Nat} : ∀ (l : List (MockId × SlotRef)) {s s' : AState V E} {b : Bool}, mentionAll P s l = some (s', b) → Stays j s s'
  | [], s, s', b, h => by cases h; exact .refl _ _
  | (m, slot) :: l, s, s', b, h => by
    simp only [mentionAll, Option.bind_eq_bind, Option.bind_eq_some_iff] at h
    obtain ⟨r, h1, h2⟩ := h
    cases r with
    | none => cases h2; exact .refl _ _
    | some s1 => exact (mention_stays h1).trans (mentionAll_stays l h2)

theorem verify_stays {j : Nat} {s s' : AState V E} {scope : Scope V} {pat : List (Seq (Leaf V))} {q : Quant} {mode : VMode} {o : ApiOut} (h : aVerify P s scope pat q mode = some (s', o)) : Stays j s s' := by
  simp only [aVerify, Option.bind_eq_bind, Option.bind_eq_some_iff] at h
  obtain ⟨⟨s1, ok⟩, h1, h2⟩ := h
  refine (mentionAll_stays _ h1).trans ?_
  cases ok <;> dsimp only at h2
  · cases h2; exact .refl _ _
  · repeat' (first | (dsimp only at h2; split at h2) | split at h2)
    all_goals first | (cases h2; done) | (cases h2; exact .of_eq rfl rfl)

theorem noOther_stays {j : Nat} {s s' : AState V E} {srcs : List (Source V)} {mode : VMode} {o : ApiOut} (h : aNoOther P s srcs mode = some (s', o)) : Stays j s s' := by
  simp only [aNoOther, Option.bind_eq_bind, Option.bind_eq_some_iff] at h
  obtain ⟨⟨s1, ok⟩, h1, h2⟩ := h
  refine (mentionAll_stays _ h1).trans ?_
  cases ok <;> dsimp only at h2
  · cases h2; exact .refl _ _
  · repeat' (first | (dsimp only at h2; split at h2) | split at h2)
    all_goals first | (cases h2; done) | (cases h2; exact .of_eq rfl rfl)

theorem onMock_stays {j : Nat} {s s' : AState V E} {m : MockId} {f : AMock V E → Option (AMock V E)} (hf : m = j → ∀ k k', f k = some k' → k'.cls = k.cls ∧ k'.alive = k.alive) (h : onMock s m f = some s') : Stays j s s' := by
  obtain ⟨k, k', e1, -, e3, rfl⟩ := onMock_spec h
  refine ⟨rfl, fun q hq => ?_⟩
  simp only [List.getElem?_set]
  by_cases hm : m = j
  · subst hm
    rw [e1] at hq
    cases hq
    have := (List.getElem?_eq_some_iff.1 e1).1
    exact ⟨k', by simp [this], hf rfl k k' e3⟩
  · exact ⟨q, by simp [hm, hq], rfl, rfl⟩

theorem setCell_kept {k k' : AMock V E} {cell : Nat} {v : Int} (h : setCell k cell v = some k') : k'.cls = k.cls ∧ k'.alive = k.alive := by
  unfold setCell at h
  split at h
  · cases h; exact ⟨rfl, rfl⟩
  · cases h

theorem step_stays {s s' : AState V E} {op : Op V E} {o : OpOut V E} (hu : Unconcerned x op) (h : aStep P s op = some (o, s')) : Stays x.m s s' := by
  cases op with
  | call m off args =>
    simp only [aStep, Option.map_eq_some_iff, Prod.mk.injEq] at h
    obtain ⟨⟨o1, s1⟩, h1, rfl, rfl⟩ := h
    exact call_stays h1
  | api a =>
    simp only [aStep, Option.map_eq_some_iff, Prod.mk.injEq] at h
    obtain ⟨⟨s1, o1⟩, h1, rfl, rfl⟩ := h
    have hnew : ∀ cls sp, Stays x.m s (aNew P s cls sp) := fun cls sp => ⟨rfl, fun k hk => ⟨k, by
      simp only [aNew]
      rw [List.getElem?_append_left (List.getElem?_eq_some_iff.1 hk).1]
      exact hk, rfl, rfl⟩⟩
    have hf : ∀ m, Stays x.m s (forget s m) := fun m => .of_eq rfl rfl
    cases a with
    | newMock cls => cases h1; exact hnew _ _
    | newSpy cls => cases h1; exact hnew _ _
    | destroy m =>
      obtain ⟨t, h2, h3⟩ := Option.map_eq_some_iff.1 h1
      cases h3
      exact (hf m).trans (onMock_stays (fun e => absurd e hu) h2)
    | touch m slot =>
      simp only [aApi, Option.map_eq_some_iff] at h1
      obtain ⟨r, h1, h2⟩ := h1
      cases r with
      | none => cases h2; exact .refl _ _
      | some s2 => cases h2; exact mention_stays h1
    | when_ t acts u => exact hu.elim
    | fake ts => exact hu.elim
    | spy mv ts => exact hu.elim
    | assign t f => exact hu.elim
    | stubData m cell v =>
      obtain ⟨t, h2, h3⟩ := Option.map_eq_some_iff.1 h1
      cases h3
      exact onMock_stays (fun _ k k' => setCell_kept) h2
    | writeData m cell v =>
      obtain ⟨t, h2, h3⟩ := Option.map_eq_some_iff.1 h1
      cases h3
      exact onMock_stays (fun _ k k' => setCell_kept) h2
    | reset m =>
      obtain ⟨t, h2, h3⟩ := Option.map_eq_some_iff.1 h1
      cases h3
      exact (hf m).trans (onMock_stays (fun e => absurd e hu) h2)
    | clear m =>
      obtain ⟨t, h2, h3⟩ := Option.map_eq_some_iff.1 h1
      cases h3
      exact (hf m).trans (onMock_stays (fun _ k k' e => by cases e; exact ⟨rfl, rfl⟩) h2)
    | write a v => cases h1; exact .of_eq rfl rfl
    | verify scope pat q mode => exact verify_stays h1
    | verifyNoOther srcs mode => exact noOther_stays h1

/-! ## Whole tests -/

theorem renRec_id (r : Rec V) : renRec id r = r := by simp [renRec]

theorem renReport_id (r : Report V) : renReport id r = r := by
  have h : ∀ l : List (Rec V), l.map (renRec id) = l := fun l => by rw [show (renRec id : Rec V → Rec V) = id from funext renRec_id, List.map_id]
  cases r <;> simp [renReport, renRec_id, h]

theorem renMock_id (k : AMock V E) : renMock id k = k := by
  unfold renMock
  rw [show (renStub id : Stub V E → Stub V E) = id from funext fun x => rfl]
  have : (fun o => (k.stubs o).map (List.map id)) = k.stubs := by
    funext o
    cases k.stubs o <;> simp
  rw [this]

theorem ren_id (N : List (MockId × Nat)) (s : AState V E) : ren id 0 N s = ⟨s.mocks, s.calls, s.heap, s.made, N, s.installed, s.log⟩ := by
  unfold ren
  rw [show (renMock id : AMock V E → AMock V E) = id from funext renMock_id, show (renRec id : Rec V → Rec V) = id from funext renRec_id, show (renReport id : Report V → Report V) = id from funext renReport_id]
  simp only [List.map_id, Nat.add_zero]

theorem renLeaf_id (l : Leaf V) : renLeaf id l = l := by simp [renLeaf]

theorem renSeq_id : ∀ x : Seq (Leaf V), renSeq id x = x
  | .leaf l => by simp [renSeq, renLeaf_id]
  | .cat a b => by simp [renSeq, renSeq_id a, renSeq_id b]
  | .rep a n => by simp [renSeq, renSeq_id a]

theorem renSource_id : ∀ x : Source V, renSource id x = x
  | .empty => rfl
  | .mock _ => rfl
  | .ctx l => by simp [renSource, renLeaf_id]
  | .unverified s => by simp [renSource, renSource_id s]
  | .union a b => by simp [renSource, renSource_id a, renSource_id b]

theorem renOp_id (op : Op V E) : renOp id op = op := by
  cases op with
  | call m off args => rfl
  | api a =>
    cases a with
    | verify scope pat q mode =>
      simp only [renOp, show (renSeq id : Seq (Leaf V) → Seq (Leaf V)) = id from funext renSeq_id, List.map_id]
      cases scope <;> simp [renScope, renSource_id]
    | verifyNoOther srcs mode => simp only [renOp, show (renSource id : Source V → Source V) = id from funext renSource_id, List.map_id]
    | _ => rfl

/-- The statement before the step, and after it. -/
theorem moved {s s1 s2 : AState V E} {op : Op V E} (hu : Unconcerned x op) {o1 o2 : OpOut V E} (h1 : aStep P s x.op = some (o1, s1)) (h2 : aStep P s1 op = some (o2, s2)) :
    ∃ t N, aStep P s op = some (o2, t) ∧ aStep P t x.op = some (o1, ren id 0 N s2) := by
  obtain ⟨k, hk, ht⟩ := takes_of_step h1
  obtain ⟨N1, e1⟩ := stub_takes hk ht
  rw [h1] at e1
  simp only [Option.some.injEq, Prod.mk.injEq] at e1
  obtain ⟨rfl, rfl⟩ := e1
  obtain ⟨N2, e2⟩ := step_chg (st := ⟨nameOf s, x.what.kind, x.what.acts⟩) (i := s.installed + 1) N1 s hk ht hu
  rw [show chg x ⟨nameOf s, x.what.kind, x.what.acts⟩ (s.installed + 1) N1 s = after s x N1 from rfl, h2] at e2
  obtain ⟨⟨o, t⟩, e3, e4⟩ := Option.map_eq_some_iff.1 e2.symm
  simp only [Prod.mk.injEq] at e4
  obtain ⟨rfl, rfl⟩ := e4
  obtain ⟨hi, hst⟩ := step_stays hu e3
  obtain ⟨k', hk', hc, ha⟩ := hst k hk
  have ht' : Takes P x k' := by
    unfold Takes at ht ⊢
    rw [hc, ha]
    exact ht
  obtain ⟨N3, e5⟩ := stub_takes hk' ht'
  refine ⟨t, N3, e3, ?_⟩
  rw [e5, ren_id]
  simp only [after, chg, nameOf, hi]

theorem ren_ren (N N' : List (MockId × Nat)) (s : AState V E) : ren id 0 N (ren id 0 N' s) = ren id 0 N s := by simp only [ren_id]

/-- What happens does not depend on the order in which methods have been named. -/
theorem run_any (N : List (MockId × Nat)) {ops : List (Op V E)} {s s' : AState V E} {outs : List (OpOut V E)} (h : aRun P s ops = some (outs, s')) : ∃ N', aRun P (ren id 0 N s) ops = some (outs, ren id 0 N' s') := by
  obtain ⟨N', e⟩ := run_same (σ := id) (fun _ _ h => h) N h fun _ _ _ => rfl
  rw [show (renOp id : Op V E → Op V E) = id from funext renOp_id, List.map_id] at e
  exact ⟨N', e⟩

/-- The statement after the step, and before it, if it can be made there. -/
theorem moved_back {s t u : AState V E} {op : Op V E} (hu : Unconcerned x op) {o1 o2 : OpOut V E} (h1 : aStep P s op = some (o2, t)) (h2 : aStep P t x.op = some (o1, u)) (hx : (aStep P s x.op).isSome) :
    ∃ s1 N, aStep P s x.op = some (o1, s1) ∧ aStep P s1 op = some (o2, ren id 0 N u) := by
  obtain ⟨⟨o, s1⟩, h3⟩ := Option.isSome_iff_exists.1 hx
  obtain ⟨k, hk, ht⟩ := takes_of_step h3
  obtain ⟨N1, e1⟩ := stub_takes hk ht
  obtain ⟨hi, hst⟩ := step_stays hu h1
  obtain ⟨k', hk', ht'⟩ := takes_of_step h2
  obtain ⟨N3, e5⟩ := stub_takes hk' ht'
  rw [h2] at e5
  simp only [Option.some.injEq, Prod.mk.injEq] at e5
  obtain ⟨rfl, rfl⟩ := e5
  obtain ⟨N2, e2⟩ := step_chg (st := ⟨nameOf s, x.what.kind, x.what.acts⟩) (i := s.installed + 1) N1 s hk ht hu
  refine ⟨after s x N1, N2, by rw [e1]; simp only [nameOf, hi], ?_⟩
  rw [show after s x N1 = chg x ⟨nameOf s, x.what.kind, x.what.acts⟩ (s.installed + 1) N1 s from rfl, e2, h1, ren_id]
  simp only [after, chg, nameOf, hi, Option.map_some]

/-- The statement before several steps, and after them. -/
theorem moved_list : ∀ {mid : List (Op V E)} (_ : ∀ op ∈ mid, Unconcerned x op) {s s1 s2 : AState V E} {o1 : OpOut V E} {om : List (OpOut V E)}, aStep P s x.op = some (o1, s1) → aRun P s1 mid = some (om, s2) →
    ∃ t N, aRun P s mid = some (om, t) ∧ aStep P t x.op = some (o1, ren id 0 N s2)
  | [], _, s, s1, s2, o1, om, h1, h2 => by
    cases h2
    exact ⟨s, s1.named, rfl, by rw [h1, ren_id]⟩
  | op :: mid, hu, s, s1, s2, o1, om, h1, h2 => by
    simp only [aRun, Option.bind_eq_bind, Option.bind_eq_some_iff] at h2
    obtain ⟨⟨o, r⟩, h3, ⟨os, r2⟩, h4, h5⟩ := h2
    cases h5
    obtain ⟨t, N, e1, e2⟩ := moved (hu op (by simp)) h1 h3
    obtain ⟨N', e3⟩ := run_any N h4
    obtain ⟨t2, N2, e4, e5⟩ := moved_list (fun q hq => hu q (by simp [hq])) e2 e3
    refine ⟨t2, N2, ?_, by rw [e5, ren_ren]⟩
    simp only [aRun, e1, e4, Option.bind_eq_bind, Option.bind_some]

/-- The statement after several steps, and before them, if it can be made there. -/
theorem moved_back_list : ∀ {mid : List (Op V E)} (_ : ∀ op ∈ mid, Unconcerned x op) {s t u : AState V E} {o1 : OpOut V E} {om : List (OpOut V E)}, aRun P s mid = some (om, t) → aStep P t x.op = some (o1, u) → (aStep P s x.op).isSome →
    ∃ s1 N, aStep P s x.op = some (o1, s1) ∧ aRun P s1 mid = some (om, ren id 0 N u)
  | [], _, s, t, u, o1, om, h1, h2, _ => by
    cases h1
    exact ⟨u, u.named, h2, by rw [ren_id]; rfl⟩
  | op :: mid, hu, s, t, u, o1, om, h1, h2, hx => by
    simp only [aRun, Option.bind_eq_bind, Option.bind_eq_some_iff] at h1
    obtain ⟨⟨o, r⟩, h3, ⟨os, r2⟩, h4, h5⟩ := h1
    cases h5
    have hr : (aStep P r x.op).isSome := by
      obtain ⟨⟨q, v⟩, hq⟩ := Option.isSome_iff_exists.1 hx
      obtain ⟨k, hk, ht⟩ := takes_of_step hq
      obtain ⟨k', hk', hc, ha⟩ := (step_stays (hu op (by simp)) h3).2 k hk
      have ht' : Takes P x k' := by
        unfold Takes at ht ⊢
        rw [hc, ha]
        exact ht
      obtain ⟨N, e⟩ := stub_takes hk' ht'
      rw [e]
      rfl
    obtain ⟨r1, N1, e1, e2⟩ := moved_back_list (fun q hq => hu q (by simp [hq])) h4 h2 hr
    obtain ⟨r0, N2, e3, e4⟩ := moved_back (hu op (by simp)) h3 e1 hx
    obtain ⟨N3, e5⟩ := run_any N2 e2
    refine ⟨r0, N3, e3, ?_⟩
    simp only [aRun, e4, e5, Option.bind_eq_bind, Option.bind_some, ren_ren]

theorem run_cons {op : Op V E} {ops : List (Op V E)} {s s1 s2 : AState V E} {o : OpOut V E} {os : List (OpOut V E)} (h1 : aStep P s op = some (o, s1)) (h2 : aRun P s1 ops = some (os, s2)) : aRun P s (op :: ops) = some (o :: os, s2) := by
  simp only [aRun, h1, h2, Option.bind_eq_bind, Option.bind_some]

theorem run_uncons {op : Op V E} {ops : List (Op V E)} {s s2 : AState V E} {outs : List (OpOut V E)} (h : aRun P s (op :: ops) = some (outs, s2)) : ∃ o os s1, outs = o :: os ∧ aStep P s op = some (o, s1) ∧ aRun P s1 ops = some (os, s2) := by
  simp only [aRun, Option.bind_eq_bind, Option.bind_eq_some_iff] at h
  obtain ⟨⟨o, r⟩, h3, ⟨os, r2⟩, h4, h5⟩ := h
  cases h5
  exact ⟨o, os, r, rfl, h3, h4⟩

/-- The same in a test. -/
theorem run_moved {s0 : AState V E} {pre mid post : List (Op V E)} (hu : ∀ op ∈ mid, Unconcerned x op) {outs : List (OpOut V E)} {s : AState V E} (h : aRun P s0 (pre ++ x.op :: (mid ++ post)) = some (outs, s)) :
    ∃ o1 a om o2 N, outs = o1 ++ a :: (om ++ o2) ∧ o1.length = pre.length ∧ om.length = mid.length ∧ aRun P s0 (pre ++ (mid ++ x.op :: post)) = some (o1 ++ (om ++ a :: o2), ren id 0 N s) := by
  obtain ⟨o1, os, t, rfl, hlen, h1, h2⟩ := run_split h
  obtain ⟨a, os, t1, rfl, h3, h4⟩ := run_uncons h2
  obtain ⟨om, o2, t2, rfl, hlen', h5, h6⟩ := run_split h4
  obtain ⟨r, N, e1, e2⟩ := moved_list hu h3 h5
  obtain ⟨N', e3⟩ := run_any N h6
  exact ⟨o1, a, om, o2, N', rfl, hlen, hlen', run_join h1 (run_join e1 (run_cons e2 e3))⟩

/-- The same in a test. -/
theorem run_moved_back {s0 : AState V E} {pre mid post : List (Op V E)} (hu : ∀ op ∈ mid, Unconcerned x op) (hx : (aRun P s0 (pre ++ [x.op])).isSome) {outs : List (OpOut V E)} {s : AState V E} (h : aRun P s0 (pre ++ (mid ++ x.op :: post)) = some (outs, s)) :
    ∃ o1 a om o2 N, outs = o1 ++ (om ++ a :: o2) ∧ o1.length = pre.length ∧ om.length = mid.length ∧ aRun P s0 (pre ++ x.op :: (mid ++ post)) = some (o1 ++ a :: (om ++ o2), ren id 0 N s) := by
  obtain ⟨o1, os, t, rfl, hlen, h1, h2⟩ := run_split h
  obtain ⟨om, os, t1, rfl, hlen', h3, h4⟩ := run_split h2
  obtain ⟨a, o2, t2, rfl, h5, h6⟩ := run_uncons h4
  have hx' : (aStep P t x.op).isSome := by
    obtain ⟨⟨q, v⟩, hq⟩ := Option.isSome_iff_exists.1 hx
    obtain ⟨q1, q2, t', -, -, g1, g2⟩ := run_split hq
    rw [h1] at g1
    cases g1
    obtain ⟨z, zs, v', -, hz, -⟩ := run_uncons g2
    rw [hz]
    rfl
  obtain ⟨r, N, e1, e2⟩ := moved_back_list hu h3 h5 hx'
  obtain ⟨N', e3⟩ := run_any N h6
  exact ⟨o1, a, om, o2, N', rfl, hlen, hlen', run_join h1 (run_cons e1 (run_join e2 e3))⟩

end FakeIt.Spec.Moving
