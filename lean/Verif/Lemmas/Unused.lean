import Verif.Spec.Unused
import Verif.Lemmas.Moving
/-!
# A stubbing of a method that is not called any more changes nothing: lemmas
-/
namespace FakeIt.Spec.Unused
open FakeIt.Spec.Reorder
open FakeIt.Spec.Moving (Stays call_stays mention_stays mentionAll_stays verify_stays noOther_stays renOp_id ren_id run_any)

variable {V E : Type} {P : Prog V E} {x : Stmt V E} {z : Option (List (Stub V E))} {N : List (MockId × Nat)}

/-- The method has other stubbings. -/
def over (off : Nat) (z : Option (List (Stub V E))) (k : AMock V E) : AMock V E := { k with stubs := fun o => if o = off then z else k.stubs o }

/-- The state in which the method of the statement has other stubbings, and the methods `N` have been named. -/
def O (x : Stmt V E) (z : Option (List (Stub V E))) (N : List (MockId × Nat)) (s : AState V E) : AState V E :=
  ⟨s.mocks.modify x.m (over x.off z), s.calls, s.heap, s.made, N, s.installed, s.log⟩

/-- The mock exists, and the method is none of its destructor's entries. -/
def Here (P : Prog V E) (x : Stmt V E) (s : AState V E) : Prop := ∃ k, s.mocks[x.m]? = some k ∧ ∀ d, (P.cls k.cls).dtor = some d → d ≠ x.off ∧ d + 1 ≠ x.off

theorem mocks_at (s : AState V E) (m : Nat) : (O x z N s).mocks[m]? = (s.mocks[m]?).map fun k => if x.m = m then over x.off z k else k := by
  simp only [O, List.getElem?_modify]
  rfl

/-- What is seen of a mock beside its stubbings is the same. -/
theorem same_at {k : AMock V E} {m : Nat} : (if x.m = m then over x.off z k else k).cls = k.cls ∧ (if x.m = m then over x.off z k else k).alive = k.alive ∧ (if x.m = m then over x.off z k else k).spied = k.spied ∧
    (if x.m = m then over x.off z k else k).wasReset = k.wasReset := by
  split <;> exact ⟨rfl, rfl, rfl, rfl⟩

theorem stubs_other {k : AMock V E} {m o : Nat} (h : m = x.m → o ≠ x.off) : (if x.m = m then over x.off z k else k).stubs o = k.stubs o := by
  split
  · rename_i hm
    simp [over, h hm.symm]
  · rfl

/-! ## Calls -/

/-- The result of an action. -/
def oResult (x : Stmt V E) (z : Option (List (Stub V E))) (N : List (MockId × Nat)) (r : Outcome V E × List (Arg V) × AState V E) : Outcome V E × List (Arg V) × AState V E := (r.1, r.2.1, O x z N r.2.2)

theorem runFn_over (s : AState V E) (args : List (Arg V)) (f : Fn V E) : runFn P (O x z N s) args f = (runFn P s args f).map (oResult x z N) := by
  cases f with
  | ret v => rfl
  | thr e => rfl
  | user f =>
    simp only [runFn, Option.map_map]
    rfl

theorem perform_over (c : ClassDecl V) (spied : Bool) (off : Nat) (args : List (Arg V)) (s : AState V E) (l : List (Act V E)) : perform P c spied off args (O x z N s) l = (perform P c spied off args s l).map (oResult x z N) := by
  cases l with
  | nil => rfl
  | cons a l =>
    cases a with
    | rep n f => exact runFn_over s args f
    | forever f => exact runFn_over s args f
    | dflt =>
      simp only [perform]
      cases c.dflt off <;> rfl
    | deleg mv =>
      simp only [perform]
      split
      · rfl
      · split
        · simp only [Option.map_map]
          rfl
        · rfl
    | noMore => rfl

theorem over_onStubs (k : AMock V E) {off : Nat} (h : off ≠ x.off) (g : List (Stub V E) → List (Stub V E)) : over x.off z (k.onStubs off g) = (over x.off z k).onStubs off g := by
  simp only [over, AMock.onStubs]
  congr 1
  funext o
  by_cases h1 : o = x.off
  · subst h1
    simp [Ne.symm h]
  · by_cases h2 : o = off
    · simp [h2, h]
    · simp [h1, h2]

theorem modify_comm (l : List (AMock V E)) {m off : Nat} (h : m = x.m → off ≠ x.off) (g : List (Stub V E) → List (Stub V E)) :
    (l.modify m fun k => k.onStubs off g).modify x.m (over x.off z) = (l.modify x.m (over x.off z)).modify m fun k => k.onStubs off g := by
  apply List.ext_getElem?
  intro j
  simp only [List.getElem?_modify]
  cases l[j]? with
  | none => rfl
  | some k =>
    simp only [Option.map_some, Option.map_eq_map]
    congr 1
    by_cases h1 : x.m = j <;> by_cases h2 : m = j
    · simp only [h1, h2, if_true]
      exact over_onStubs k (h (h2.trans h1.symm)) g
    · simp [h1, h2]
    · simp [h1, h2]
    · simp [h1, h2]

theorem serve_over (s : AState V E) {m : MockId} {k k' : AMock V E} (hc : k'.cls = k.cls) (hp : k'.spied = k.spied) {off : Nat} (h : m = x.m → off ≠ x.off) (stubs : List (Stub V E)) (args : List (Arg V)) :
    serve P (O x z N s) m k' off stubs args = (serve P s m k off stubs args).map fun r => (r.1, O x z N r.2) := by
  unfold serve
  simp only [hc, hp]
  rw [show (O x z N s).heap = s.heap from rfl]
  cases stubs.find? fun st => accepts st.kind (valuesOf s.heap args) with
  | none => rfl
  | some q =>
    simp only [Option.bind_eq_bind]
    have e : perform P (P.cls k.cls) k.spied off args ⟨(O x z N s).mocks, (O x z N s).calls, s.heap, (O x z N s).made + 1, (O x z N s).named, (O x z N s).installed, (O x z N s).log⟩ q.script = _ :=
      perform_over (P := P) (x := x) (z := z) (N := N)  (P.cls k.cls) k.spied off args ⟨s.mocks, s.calls, s.heap, s.made + 1, s.named, s.installed, s.log⟩ q.script
    rw [e]
    cases perform P (P.cls k.cls) k.spied off args ⟨s.mocks, s.calls, s.heap, s.made + 1, s.named, s.installed, s.log⟩ q.script with
    | none => rfl
    | some r =>
      obtain ⟨o, as, s2⟩ := r
      simp only [Option.map_some, Option.bind_some, oResult]
      cases o <;> (simp only [Option.map_some, O]; rw [modify_comm _ h])

theorem arrives_off (c : ClassDecl V) (k : AMock V E) (off : Nat) (args : List (Arg V)) : (arrives c k off args).1 = off ∨ c.dtor = some (arrives c k off args).1 := by
  unfold arrives
  cases hd : c.dtor with
  | none => exact .inl rfl
  | some d =>
    simp only
    split
    · exact .inr rfl
    · exact .inl rfl

theorem call_over (s : AState V E) (hh : Here P x s) {m : MockId} {off : Nat} (h : m = x.m → off ≠ x.off) (args : List (Arg V)) :
    aCall P (O x z N s) m off args = (aCall P s m off args).map fun r => (r.1, O x z N r.2) := by
  unfold aCall
  rw [mocks_at]
  cases hk : s.mocks[m]? with
  | none => rfl
  | some k =>
    simp only [Option.map_some]
    obtain ⟨g1, g2, g3, -⟩ := same_at (x := x) (z := z) (k := k) (m := m)
    rw [g1, g2, g3]
    have hd : ∀ d, (P.cls k.cls).dtor = some d → m = x.m → d ≠ x.off := by
      intro d hd hm
      subst hm
      obtain ⟨k0, hk0, h0⟩ := hh
      rw [hk0] at hk
      cases hk
      exact (h0 d hd).1
    have ha : arrives (P.cls k.cls) (if x.m = m then over x.off z k else k) off args = arrives (P.cls k.cls) k off args := by
      unfold arrives
      cases hq : (P.cls k.cls).dtor with
      | none => rfl
      | some d => simp only [stubs_other (hd d hq), g3]
    rw [ha]
    have hoff : m = x.m → (arrives (P.cls k.cls) k off args).1 ≠ x.off := by
      intro hm
      rcases arrives_off (P.cls k.cls) k off args with e | e
      · rw [e]; exact h hm
      · exact hd _ e hm
    split
    · generalize arrives (P.cls k.cls) k off args = q at hoff ⊢
      obtain ⟨off', args'⟩ := q
      simp only at hoff ⊢
      rw [stubs_other hoff]
      cases k.stubs off' with
      | some l => exact serve_over s g1 g3 hoff l args'
      | none =>
        simp only
        split
        · simp only [Option.map_map]
          rfl
        · split
          · rfl
          · rfl
    · rfl

/-! ## Method expressions -/


theorem hook_over (l0 : List (Stub V E)) (N : List (MockId × Nat)) (s : AState V E) {m : MockId} {k : AMock V E} (hk : s.mocks[m]? = some k) (off : Nat) :
    ∃ N', hook (O x (some l0) N s) m (if x.m = m then over x.off (some l0) k else k) off = O x (some l0) N' (hook s m k off) := by
  by_cases hx : x.m = m ∧ off = x.off
  · obtain ⟨rfl, rfl⟩ := hx
    have hs : ∀ l' N', O x l' N' (hook s x.m k x.off) = O x l' N' s := by
      intro l' N'
      unfold hook
      split
      · rfl
      · simp only [O]
        congr 1
        apply List.ext_getElem?
        intro j
        simp only [List.getElem?_modify]
        by_cases hj : x.m = j
        · subst hj
          simp only [hk, if_true, Option.map_eq_map, Option.map_some]
          congr 1
          simp only [over]
          congr 1
          funext o
          by_cases ho : o = x.off <;> simp [ho]
        · simp [hj]
    exact ⟨N, by rw [hs]; simp [hook, over]⟩
  · have ho : m = x.m → off ≠ x.off := fun h1 h2 => hx ⟨h1.symm, h2⟩
    unfold hook
    rw [stubs_other ho]
    split
    · exact ⟨N, rfl⟩
    · refine ⟨N ++ [(m, off)], ?_⟩
      simp only [O]
      congr 1
      apply List.ext_getElem?
      intro j
      simp only [List.getElem?_modify]
      cases s.mocks[j]? with
      | none => rfl
      | some q =>
        simp only [Option.map_some, Option.map_eq_map]
        congr 1
        by_cases h1 : x.m = j <;> by_cases h2 : m = j
        · have ho := ho (h2.trans h1.symm)
          simp only [h1, h2, if_true, over]
          congr 1
          funext o
          by_cases e1 : o = off
          · subst e1; simp [ho]
          · by_cases e2 : o = x.off
            · subst e2; simp [e1]
            · simp [e1, e2]
        · simp [h1, h2]
        · simp [h1, h2]
        · simp [h1, h2]

theorem mention_over (l0 : List (Stub V E)) (N : List (MockId × Nat)) (s : AState V E) (m : MockId) (slot : SlotRef) : ∃ N', mention P (O x (some l0) N s) m slot = (mention P s m slot).map (Option.map (O x (some l0) N')) := by
  unfold mention
  rw [mocks_at]
  cases hk : s.mocks[m]? with
  | none => exact ⟨N, rfl⟩
  | some k =>
    simp only [Option.map_some]
    obtain ⟨g1, g2, -, g4⟩ := same_at (x := x) (z := some l0) (k := k) (m := m)
    rw [g1, g2, g4]
    split
    · cases slot with
      | meth off ctr =>
        obtain ⟨N', e⟩ := hook_over (x := x) l0 N s hk off
        refine ⟨N', ?_⟩
        simp only [e]
        split <;> rfl
      | dtor =>
        simp only
        cases (P.cls k.cls).dtor with
        | none => exact ⟨N, rfl⟩
        | some d =>
          obtain ⟨N', e⟩ := hook_over (x := x) l0 N s hk d
          refine ⟨N', ?_⟩
          simp only [e]
          split <;> rfl
    · exact ⟨N, rfl⟩

theorem mentionAll_over : ∀ (ps : List (MockId × SlotRef)) (l0 : List (Stub V E)) (N : List (MockId × Nat)) (s : AState V E), ∃ N', mentionAll P (O x (some l0) N s) ps = (mentionAll P s ps).map fun r => (O x (some l0) N' r.1, r.2)
  | [], l0, N, s => ⟨N, rfl⟩
  | (m, slot) :: ps, l0, N, s => by
    obtain ⟨N1, e1⟩ := mention_over (P := P) (x := x) l0 N s m slot
    simp only [mentionAll, e1, Option.bind_eq_bind]
    cases mention P s m slot with
    | none => exact ⟨N, rfl⟩
    | some r =>
      cases r with
      | none => exact ⟨N, rfl⟩
      | some s1 => exact mentionAll_over ps l0 N1 s1

theorem denotes_over (s : AState V E) : denotes P (O x z N s) = denotes P s := by
  funext l r
  unfold denotes
  rw [mocks_at]
  cases s.mocks[l.m]? with
  | none => rfl
  | some k =>
    simp only [Option.map_some]
    rw [(same_at (x := x) (z := z) (k := k) (m := l.m)).1]
    rfl

theorem inSource_over (s : AState V E) : ∀ src : Source V, inSource P (O x z N s) src = inSource P s src
  | .empty => rfl
  | .mock _ => rfl
  | .ctx l => by funext r; simp only [inSource, denotes_over]
  | .unverified src => by funext r; simp only [inSource, inSource_over s src]
  | .union a b => by funext r; simp only [inSource, inSource_over s a, inSource_over s b]

theorem inScope_over (s : AState V E) (pat : List (Seq (Leaf V))) (sc : Scope V) : inScope P (O x z N s) pat sc = inScope P s pat sc := by
  cases sc with
  | involved => rfl
  | using_ src => exact inSource_over s src
  | unverified => rfl

theorem live_over (s : AState V E) (ms : List MockId) : live (O x z N s) ms = live s ms := by
  unfold live
  congr 1
  funext m
  rw [mocks_at]
  cases s.mocks[m]? with
  | none => rfl
  | some k => exact (same_at (x := x) (z := z) (k := k) (m := m)).2.1

theorem verify_over (l0 : List (Stub V E)) (N : List (MockId × Nat)) (s : AState V E) (scope : Scope V) (pat : List (Seq (Leaf V))) (q : Quant) (mode : VMode) :
    ∃ N', aVerify P (O x (some l0) N s) scope pat q mode = (aVerify P s scope pat q mode).map fun r => (O x (some l0) N' r.1, r.2) := by
  unfold aVerify
  obtain ⟨N1, e1⟩ := mentionAll_over (P := P) (x := x) ((mentionedBy scope pat).map fun l => (l.m, l.slot)) l0 N s
  refine ⟨N1, ?_⟩
  rw [e1]
  cases mentionAll P s ((mentionedBy scope pat).map fun l => (l.m, l.slot)) with
  | none => rfl
  | some r =>
    obtain ⟨s1, b⟩ := r
    simp only [Option.map_some, Option.bind_eq_bind, Option.bind_some]
    cases b with
    | false => rfl
    | true =>
      simp only [live_over, inScope_over, denotes_over]
      rw [show (O x (some l0) N1 s1).calls = s1.calls from rfl]
      split
      · cases expects q with
        | none => rfl
        | some ex =>
          simp only
          split
          · rfl
          · split
            · rfl
            · split <;> rfl
      · rfl

theorem noOther_over (l0 : List (Stub V E)) (N : List (MockId × Nat)) (s : AState V E) (srcs : List (Source V)) (mode : VMode) :
    ∃ N', aNoOther P (O x (some l0) N s) srcs mode = (aNoOther P s srcs mode).map fun r => (O x (some l0) N' r.1, r.2) := by
  unfold aNoOther
  obtain ⟨N1, e1⟩ := mentionAll_over (P := P) (x := x) ((leavesOf (allOf srcs)).map fun l => (l.m, l.slot)) l0 N s
  refine ⟨N1, ?_⟩
  rw [e1]
  cases mentionAll P s ((leavesOf (allOf srcs)).map fun l => (l.m, l.slot)) with
  | none => rfl
  | some r =>
    obtain ⟨s1, b⟩ := r
    simp only [Option.map_some, Option.bind_eq_bind, Option.bind_some]
    cases b with
    | false => rfl
    | true =>
      simp only [live_over, inSource_over]
      rw [show (O x (some l0) N1 s1).calls = s1.calls from rfl]
      split
      · split
        · rfl
        · split
          · rfl
          · split <;> rfl
      · rfl

theorem onMock_over {z z' : Option (List (Stub V E))} (s : AState V E) (m : MockId) {f : AMock V E → Option (AMock V E)} (hf : m = x.m → ∀ k, f (over x.off z k) = (f k).map (over x.off z')) (hz : m ≠ x.m → z' = z) :
    onMock (O x z N s) m f = (onMock s m f).map (O x z' N) := by
  unfold onMock
  rw [mocks_at]
  cases hk : s.mocks[m]? with
  | none => rfl
  | some k =>
    simp only [Option.map_some]
    rw [(same_at (x := x) (z := z) (k := k) (m := m)).2.1]
    split
    · have e : f (if x.m = m then over x.off z k else k) = (f k).map fun k' => if x.m = m then over x.off z' k' else k' := by
        by_cases hm : x.m = m
        · simp only [hm, if_true]; exact hf hm.symm k
        · simp [hm]
      rw [e, Option.map_map, Option.map_map]
      congr 1
      funext k'
      simp only [Function.comp, O]
      congr 1
      apply List.ext_getElem?
      intro j
      simp only [List.getElem?_modify, List.getElem?_set, List.length_modify]
      by_cases h1 : m = j
      · subst h1
        simp only [if_true]
        by_cases hl : m < s.mocks.length
        · simp [hl]
        · simp [hl]
      · by_cases h2 : x.m = j
        · rw [hz (fun e => h1 (e.trans h2))]
          simp [h1]
        · simp [h1, h2]
    · rfl

theorem setCell_over (cell : Nat) (v : Int) (k : AMock V E) : setCell (over x.off z k) cell v = (setCell k cell v).map (over x.off z) := by
  unfold setCell
  rw [show (over x.off z k).data = k.data from rfl]
  split <;> rfl

theorem new_over (s : AState V E) (hh : Here P x s) (cls : Nat) (sp : Bool) : aNew P (O x z N s) cls sp = O x z N (aNew P s cls sp) := by
  simp only [aNew, O]
  congr 1
  apply List.ext_getElem?
  intro j
  obtain ⟨k0, hk0, -⟩ := hh
  have hlt : x.m < s.mocks.length := (List.getElem?_eq_some_iff.1 hk0).1
  simp only [List.getElem?_modify, List.getElem?_append, List.length_modify]
  split
  · rfl
  · have : x.m ≠ j := by omega
    simp [this]


/-! ## Stubbings -/

theorem Here.of {s s' : AState V E} (h : Here P x s) (hs : ∀ k, s.mocks[x.m]? = some k → ∃ k', s'.mocks[x.m]? = some k' ∧ k'.cls = k.cls) : Here P x s' := by
  obtain ⟨k, hk, hd⟩ := h
  obtain ⟨k', hk', hc⟩ := hs k hk
  exact ⟨k', hk', by rw [hc]; exact hd⟩

theorem Here.stays {s s' : AState V E} (h : Here P x s) (hs : Stays x.m s s') : Here P x s' := h.of fun k hk => by
  obtain ⟨k', h1, h2, -⟩ := hs.2 k hk
  exact ⟨k', h1, h2⟩

theorem install_over {s s' : AState V E} {t : Target V} {acts : List (Act V E)} (h : install P s t acts = some s') : ∃ add, ∀ l0 N, install P (O x (some l0) N s) t acts = some (O x (some (add ++ l0)) N s') := by
  unfold install at h
  cases hk : s.mocks[t.m]? with
  | none => rw [hk] at h; cases h
  | some k =>
    rw [hk] at h
    cases ho : methodOf (P.cls k.cls) t.slot with
    | none => simp only [ho] at h; cases h
    | some off =>
      simp only [ho] at h
      by_cases hoff : t.m = x.m → off ≠ x.off
      · refine ⟨[], fun l0 N => ?_⟩
        unfold install
        rw [mocks_at, hk]
        simp only [Option.map_some]
        rw [(same_at (x := x) (z := some l0) (k := k) (m := t.m)).1, (same_at (x := x) (z := some l0) (k := k) (m := t.m)).2.1]
        simp only [ho]
        rw [stubs_other hoff]
        split at h
        · cases h
          rename_i hc
          rw [if_pos hc]
          simp only [O]
          rw [modify_comm _ hoff]
          rfl
        · cases h
      · have hm : t.m = x.m := by
          apply Decidable.byContradiction
          intro e
          exact hoff fun e' => absurd e' e
        have hf : off = x.off := by
          apply Decidable.byContradiction
          intro e
          exact hoff fun _ => e
        subst hf
        split at h
        · rename_i hc
          cases h
          refine ⟨[⟨nameOf s, t.kind, acts⟩], fun l0 N => ?_⟩
          unfold install
          rw [mocks_at, hk]
          simp only [Option.map_some]
          rw [(same_at (x := x) (z := some l0) (k := k) (m := t.m)).1, (same_at (x := x) (z := some l0) (k := k) (m := t.m)).2.1]
          simp only [ho]
          simp only [hm, if_true]
          rw [if_pos ⟨hc.1, hc.2.1, by simp [over]⟩]
          simp only [O, List.cons_append, List.nil_append]
          congr 2
          apply List.ext_getElem?
          intro j
          simp only [List.getElem?_modify]
          by_cases hj : x.m = j
          · simp only [hj, if_true]
            cases s.mocks[j]? with
            | none => rfl
            | some q =>
              simp only [Option.map_eq_map, Option.map_some]
              congr 1
              simp only [over, AMock.onStubs]
              congr 1
              funext o
              by_cases e : o = x.off <;> simp [e]
              rfl
          · simp only [hj, if_false]
        · cases h

theorem install_here {s s' : AState V E} (hh : Here P x s) {t : Target V} {acts : List (Act V E)} (h : install P s t acts = some s') : Here P x s' := by
  refine hh.of fun k hk => ?_
  unfold install at h
  split at h
  · cases h
  · split at h
    · cases h
    · split at h
      · cases h
        simp only [List.getElem?_modify, hk]
        by_cases hj : t.m = x.m
        · exact ⟨_, rfl, by simp only [hj, if_true]; rfl⟩
        · exact ⟨_, rfl, by simp only [hj, if_false]⟩
      · cases h

theorem installAll_over (acts : List (Act V E)) : ∀ (ts : List (Target V)) {s s' : AState V E}, Here P x s → installAll P acts s ts = some s' → (∃ add, ∀ l0 N, installAll P acts (O x (some l0) N s) ts = some (O x (some (add ++ l0)) N s')) ∧ Here P x s'
  | [], s, s', hh, h => by cases h; exact ⟨⟨[], fun _ _ => rfl⟩, hh⟩
  | t :: ts, s, s', hh, h => by
    simp only [installAll, Option.bind_eq_bind, Option.bind_eq_some_iff] at h
    obtain ⟨s1, h1, h2⟩ := h
    obtain ⟨l1, e1⟩ := install_over (x := x) h1
    obtain ⟨⟨l2, e2⟩, hh2⟩ := installAll_over acts ts (install_here hh h1) h2
    refine ⟨⟨l2 ++ l1, fun l0 N => ?_⟩, hh2⟩
    simp only [installAll, e1, Option.bind_eq_bind, Option.bind_some, e2, List.append_assoc]

theorem stubOne_over {s s' : AState V E} (hh : Here P x s) {t : Target V} {acts : List (Act V E)} {u : Bool} {o : ApiOut} (h : aStubOne P s t acts u = some (s', o)) :
    (∃ add, ∀ l0 N, ∃ N', aStubOne P (O x (some l0) N s) t acts u = some (O x (some (add ++ l0)) N' s', o)) ∧ Here P x s' := by
  unfold aStubOne at h ⊢
  simp only [Option.bind_eq_bind, Option.bind_eq_some_iff] at h
  obtain ⟨r, h1, h2⟩ := h
  have hm : ∀ l0 N, ∃ N', mention P (O x (some l0) N s) t.m t.slot = some (r.map (O x (some l0) N')) := fun l0 N => by
    obtain ⟨N1, e1⟩ := mention_over (P := P) (x := x) l0 N s t.m t.slot
    exact ⟨N1, by rw [e1, h1]; rfl⟩
  cases r with
  | none =>
    cases h2
    refine ⟨⟨[], fun l0 N => ?_⟩, hh⟩
    obtain ⟨N1, e1⟩ := hm l0 N
    exact ⟨N, by rw [e1]; rfl⟩
  | some s1 =>
    have hh1 := hh.stays (mention_stays h1)
    cases u with
    | true =>
      cases h2
      refine ⟨⟨[], fun l0 N => ?_⟩, hh1⟩
      obtain ⟨N1, e1⟩ := hm l0 N
      exact ⟨N1, by rw [e1]; rfl⟩
    | false =>
      simp only [Bool.false_eq_true, if_false] at h2
      obtain ⟨s2, h3, h4⟩ := Option.bind_eq_some_iff.1 h2
      cases h4
      obtain ⟨add, e2⟩ := install_over (x := x) h3
      refine ⟨⟨add, fun l0 N => ?_⟩, install_here hh1 h3⟩
      obtain ⟨N1, e1⟩ := hm l0 N
      refine ⟨N1, ?_⟩
      rw [e1]
      simp only [Option.map_some, Option.bind_eq_bind, Option.bind_some, Bool.false_eq_true, if_false, e2]
      rfl

theorem stubMany_over {s s' : AState V E} (hh : Here P x s) {ts : List (Target V)} {act : Act V E} {o : ApiOut} (h : aStubMany P s ts act = some (s', o)) :
    (∃ add, ∀ l0 N, ∃ N', aStubMany P (O x (some l0) N s) ts act = some (O x (some (add ++ l0)) N' s', o)) ∧ Here P x s' := by
  unfold aStubMany at h ⊢
  simp only [Option.bind_eq_bind, Option.bind_eq_some_iff] at h
  obtain ⟨⟨s1, b⟩, h1, h2⟩ := h
  have hm : ∀ l0 N, ∃ N', mentionAll P (O x (some l0) N s) (ts.map fun t => (t.m, t.slot)) = some (O x (some l0) N' s1, b) := fun l0 N => by
    obtain ⟨N1, e1⟩ := mentionAll_over (P := P) (x := x) (ts.map fun t => (t.m, t.slot)) l0 N s
    exact ⟨N1, by rw [e1, h1]; rfl⟩
  have hh1 := hh.stays (mentionAll_stays _ h1)
  cases b with
  | false =>
    cases h2
    refine ⟨⟨[], fun l0 N => ?_⟩, hh1⟩
    obtain ⟨N1, e1⟩ := hm l0 N
    exact ⟨N1, by rw [e1]; rfl⟩
  | true =>
    obtain ⟨s2, h3, h4⟩ := Option.bind_eq_some_iff.1 h2
    cases h4
    obtain ⟨⟨add, e2⟩, hh2⟩ := installAll_over _ _ hh1 h3
    refine ⟨⟨add, fun l0 N => ?_⟩, hh2⟩
    obtain ⟨N1, e1⟩ := hm l0 N
    refine ⟨N1, ?_⟩
    rw [e1]
    simp only [Option.bind_eq_bind, Option.bind_some, e2]

/-! ## Steps and tests -/

/-- What a step that does not call the method does, whatever stubbings the method has: it may add some. -/
theorem step_over {s s' : AState V E} (hh : Here P x s) {op : Op V E} (hop : Idle x op) {o : OpOut V E} (h : aStep P s op = some (o, s')) :
    (∃ add, ∀ l0 N, ∃ N', aStep P (O x (some l0) N s) op = some (o, O x (some (add ++ l0)) N' s')) ∧ Here P x s' := by
  have hx : ∀ {t : AState V E} {m : MockId} {f : AMock V E → Option (AMock V E)} {r : AState V E × ApiOut}, Here P x t → (∀ l0, m = x.m → ∀ k, f (over x.off (some l0) k) = (f k).map (over x.off (some l0))) →
      (∀ k k', f k = some k' → k'.cls = k.cls) → (onMock t m f).map (fun q => (q, ApiOut.unit)) = some r → (∃ add, ∀ l0 N, ∃ N', ((onMock (O x (some l0) N t) m f).map fun q => (q, ApiOut.unit)) = some (O x (some (add ++ l0)) N' r.1, r.2)) ∧ Here P x r.1 := by
    intro t m f r ht hf hc h
    obtain ⟨t', h1, rfl⟩ := Option.map_eq_some_iff.1 h
    refine ⟨⟨[], fun l0 N => ⟨N, ?_⟩⟩, ht.of fun k hk => ?_⟩
    · rw [onMock_over t m (hf l0) (fun _ => rfl), h1]
      rfl
    · obtain ⟨k0, k1, e1, -, e3, rfl⟩ := onMock_spec h1
      simp only [List.getElem?_set]
      by_cases hm : m = x.m
      · subst hm
        rw [e1] at hk
        cases hk
        have := (List.getElem?_eq_some_iff.1 e1).1
        exact ⟨k1, by simp [this], hc _ _ e3⟩
      · exact ⟨k, by simp [hm, hk], rfl⟩
  have hcell : ∀ (cell : Nat) (v : Int) (k k' : AMock V E), setCell k cell v = some k' → k'.cls = k.cls := fun cell v k k' e => (FakeIt.Spec.Moving.setCell_kept e).1
  cases op with
  | call m off args =>
    simp only [aStep, Option.map_eq_some_iff, Prod.mk.injEq] at h
    obtain ⟨⟨o1, s1⟩, h1, rfl, rfl⟩ := h
    refine ⟨⟨[], fun l0 N => ⟨N, ?_⟩⟩, hh.stays (call_stays h1)⟩
    simp only [aStep, call_over s hh hop, h1, Option.map_some]
    rfl
  | api a =>
    simp only [aStep, Option.map_eq_some_iff, Prod.mk.injEq] at h
    obtain ⟨⟨s1, o1⟩, h1, rfl, rfl⟩ := h
    suffices hs : (∃ add, ∀ l0 N, ∃ N', aApi P (O x (some l0) N s) a = some (O x (some (add ++ l0)) N' s1, o1)) ∧ Here P x s1 by
      obtain ⟨⟨add, e⟩, hi⟩ := hs
      refine ⟨⟨add, fun l0 N => ?_⟩, hi⟩
      obtain ⟨N', e⟩ := e l0 N
      exact ⟨N', by simp only [aStep, e, Option.map_some]⟩
    have hnew : ∀ cls sp, Here P x (aNew P s cls sp) := fun cls sp => hh.of fun k hk => ⟨k, by
      simp only [aNew]
      rw [List.getElem?_append_left (List.getElem?_eq_some_iff.1 hk).1]
      exact hk, rfl⟩
    have hforget : ∀ m, Here P x (forget s m) := fun m => hh.of fun k hk => ⟨k, hk, rfl⟩
    cases a with
    | newMock cls => cases h1; exact ⟨⟨[], fun l0 N => ⟨N, by simp only [aApi, new_over s hh]; simp [O]⟩⟩, hnew _ _⟩
    | newSpy cls => cases h1; exact ⟨⟨[], fun l0 N => ⟨N, by simp only [aApi, new_over s hh]; simp [O]⟩⟩, hnew _ _⟩
    | destroy m => exact hx (hforget m) (fun _ e => absurd e hop) (fun k k' e => by cases e; rfl) h1
    | touch m slot =>
      simp only [aApi, Option.map_eq_some_iff] at h1
      obtain ⟨r, h1, h2⟩ := h1
      have hm : ∀ l0 N, ∃ N', mention P (O x (some l0) N s) m slot = some (r.map (O x (some l0) N')) := fun l0 N => by
        obtain ⟨N1, e1⟩ := mention_over (P := P) (x := x) l0 N s m slot
        exact ⟨N1, by rw [e1, h1]; rfl⟩
      cases r with
      | none =>
        cases h2
        refine ⟨⟨[], fun l0 N => ?_⟩, hh⟩
        obtain ⟨N1, e1⟩ := hm l0 N
        exact ⟨N, by simp only [aApi, e1]; rfl⟩
      | some s2 =>
        cases h2
        refine ⟨⟨[], fun l0 N => ?_⟩, hh.stays (mention_stays h1)⟩
        obtain ⟨N1, e1⟩ := hm l0 N
        exact ⟨N1, by simp only [aApi, e1]; rfl⟩
    | when_ t acts u => exact stubOne_over hh h1
    | fake ts => exact stubMany_over hh h1
    | spy mv ts => exact stubMany_over hh h1
    | assign t f => exact stubOne_over hh h1
    | stubData m cell v => exact hx hh (fun _ _ => setCell_over cell v) (hcell cell v) h1
    | writeData m cell v => exact hx hh (fun _ _ => setCell_over cell v) (hcell cell v) h1
    | reset m => exact hx (hforget m) (fun _ e => absurd e hop) (fun k k' e => by cases e; rfl) h1
    | clear m => exact hx (hforget m) (fun _ _ k => rfl) (fun k k' e => by cases e; rfl) h1
    | write a v => cases h1; exact ⟨⟨[], fun l0 N => ⟨N, rfl⟩⟩, hh.of fun k hk => ⟨k, hk, rfl⟩⟩
    | verify scope pat q mode =>
      refine ⟨⟨[], fun l0 N => ?_⟩, hh.stays (verify_stays h1)⟩
      obtain ⟨N', e⟩ := verify_over (P := P) (x := x) l0 N s scope pat q mode
      exact ⟨N', by simp only [aApi, e]; rw [show aVerify P s scope pat q mode = some (s1, o1) from h1]; rfl⟩
    | verifyNoOther srcs mode =>
      refine ⟨⟨[], fun l0 N => ?_⟩, hh.stays (noOther_stays h1)⟩
      obtain ⟨N', e⟩ := noOther_over (P := P) (x := x) l0 N s srcs mode
      exact ⟨N', by simp only [aApi, e]; rw [show aNoOther P s srcs mode = some (s1, o1) from h1]; rfl⟩

/-- The mock is reset or ends: the states become the same. -/
theorem step_forgets (z : Option (List (Stub V E))) (N : List (MockId × Nat)) {s s' : AState V E} {op : Op V E} (hop : Forgets x op) {o : OpOut V E} (h : aStep P s op = some (o, s')) :
    aStep P (O x z N s) op = some (o, ren id 0 N s') := by
  have hx : ∀ {t : AState V E} {f : AMock V E → Option (AMock V E)} {r : AState V E × ApiOut}, (∀ k, f (over x.off z k) = f k) → (∀ k k', f k = some k' → k'.stubs x.off = none) →
      (onMock t x.m f).map (fun q => (q, ApiOut.unit)) = some r → ((onMock (O x z N t) x.m f).map fun q => (q, ApiOut.unit)) = some (ren id 0 N r.1, r.2) := by
    intro t f r hf hc h
    obtain ⟨t', h1, rfl⟩ := Option.map_eq_some_iff.1 h
    have hsame : ∀ k k', f k = some k' → over x.off none k' = k' := by
      intro k k' e
      have := hc k k' e
      obtain ⟨a, b, c, d, st, g⟩ := k'
      simp only [over]
      congr 1
      funext q
      by_cases hq : q = x.off
      · subst hq; simp; exact this.symm
      · simp [hq]
    rw [onMock_over (z' := none) t x.m (fun _ k => by
      rw [hf k]
      cases hfk : f k with
      | none => rfl
      | some k' => simp [hsame k k' hfk]) (fun e => absurd rfl e), h1]
    simp only [Option.map_some, ren_id, O]
    obtain ⟨k0, k1, e1, -, e3, rfl⟩ := onMock_spec h1
    congr 3
    apply List.ext_getElem?
    intro j
    simp only [List.getElem?_modify, List.getElem?_set]
    by_cases hj : x.m = j
    · subst hj
      have := (List.getElem?_eq_some_iff.1 e1).1
      simp [this, hsame _ _ e3]
    · simp [hj]
  cases op with
  | call m off args => exact absurd hop id
  | api a =>
    simp only [aStep, Option.map_eq_some_iff, Prod.mk.injEq] at h
    obtain ⟨⟨s1, o1⟩, h1, rfl, rfl⟩ := h
    suffices hs : aApi P (O x z N s) a = some (ren id 0 N s1, o1) by simp only [aStep, hs, Option.map_some]
    cases a with
    | destroy m =>
      cases hop
      exact hx (t := forget s x.m) (fun k => by simp [over]) (fun k k' e => by cases e; rfl) h1
    | reset m =>
      cases hop
      exact hx (t := forget s x.m) (fun k => by simp [over, zeroed] <;> rfl) (fun k k' e => by cases e; rfl) h1
    | _ => exact absurd hop id

/-- In a state the method has the stubbings it has. -/
theorem same_over (N : List (MockId × Nat)) {s : AState V E} : ∃ z, ren id 0 N s = O x z N s := by
  rw [ren_id]
  cases hk : s.mocks[x.m]? with
  | none =>
    refine ⟨none, ?_⟩
    simp only [O]
    congr 1
    apply List.ext_getElem?
    intro j
    simp only [List.getElem?_modify]
    by_cases hj : x.m = j
    · subst hj; simp [hk]
    · simp [hj]
  | some k =>
    refine ⟨k.stubs x.off, ?_⟩
    simp only [O]
    congr 1
    apply List.ext_getElem?
    intro j
    simp only [List.getElem?_modify]
    by_cases hj : x.m = j
    · subst hj
      simp only [hk, if_true, Option.map_eq_map, Option.map_some, over]
      congr 1
      obtain ⟨a, b, c, d, st, g⟩ := k
      simp only
      congr 1
      funext q
      by_cases hq : q = x.off <;> simp [hq]
    · simp [hj]

/-! ## A stubbing that accepts everything -/

/-- The method has these stubbings. -/
def Own (x : Stmt V E) (l : List (Stub V E)) (s : AState V E) : Prop := ∃ k, s.mocks[x.m]? = some k ∧ k.stubs x.off = some l

theorem Own.eq {l : List (Stub V E)} {s : AState V E} (h : Own x l s) : O x (some l) s.named s = s := by
  obtain ⟨k, hk, hl⟩ := h
  obtain ⟨mocks, calls, heap, made, named, installed, log⟩ := s
  simp only [O]
  congr 1
  apply List.ext_getElem?
  intro j
  simp only [List.getElem?_modify]
  by_cases hj : x.m = j
  · subst hj
    simp only at hk
    simp only [hk, if_true, Option.map_eq_map, Option.map_some, over]
    congr 1
    obtain ⟨a, b, c, d, st, g⟩ := k
    simp only at hl ⊢
    congr 1
    funext q
    by_cases hq : q = x.off
    · subst hq; simp [hl]
    · simp [hq]
  · simp [hj]

theorem Own.of {l : List (Stub V E)} {s : AState V E} (hh : Here P x s) (h : s = O x (some l) N s) : Own x l s := by
  obtain ⟨k, hk, -⟩ := hh
  have e := mocks_at (x := x) (z := some l) (N := N) s x.m
  rw [← h, hk] at e
  simp only [Option.map_some, if_true, Option.some.injEq] at e
  refine ⟨k, hk, ?_⟩
  rw [e]
  simp [over]

theorem find_hidden {p : Stub V E → Bool} {st : Stub V E} (h : p st = true) : ∀ top : List (Stub V E), ∃ q, ∀ l', (top ++ st :: l').find? p = some q
  | [] => ⟨st, fun l' => by simp [h]⟩
  | y :: top => by
    cases hy : p y with
    | true => exact ⟨y, fun l' => by simp [hy]⟩
    | false =>
      obtain ⟨q, hq⟩ := find_hidden h top
      exact ⟨q, fun l' => by simp only [List.cons_append, List.find?_cons, hy]; exact hq l'⟩

theorem modify_own (l : List (AMock V E)) (l0 : List (Stub V E)) (g : List (Stub V E) → List (Stub V E)) :
    (l.modify x.m (over x.off (some l0))).modify x.m (fun k => k.onStubs x.off g) = (l.modify x.m fun k => k.onStubs x.off g).modify x.m (over x.off (some (g l0))) := by
  apply List.ext_getElem?
  intro j
  simp only [List.getElem?_modify]
  by_cases hj : x.m = j
  · simp only [hj, if_true]
    cases l[j]? with
    | none => rfl
    | some q =>
      simp only [Option.map_eq_map, Option.map_some]
      congr 1
      simp only [over, AMock.onStubs]
      congr 1
      funext o
      by_cases e : o = x.off <;> simp [e]
  · simp [hj]

/-- A call of the method. -/
theorem call_hidden {s s' : AState V E} (hh : Here P x s) {top l : List (Stub V E)} {st : Stub V E} (hown : Own x (top ++ st :: l) s) (hst : st.kind = .any) {args : List (Arg V)} {o : Outcome V E} (h : aCall P s x.m x.off args = some (o, s')) :
    ∃ g : Stub V E → Stub V E, (∀ y, (g y).kind = y.kind) ∧ ∀ l' N, aCall P (O x (some (top ++ st :: l')) N s) x.m x.off args = some (o, O x (some ((top ++ st :: l').map g)) N s') := by
  obtain ⟨k, hk, hl⟩ := hown
  obtain ⟨k0, hk0, hd⟩ := hh
  rw [hk] at hk0
  cases hk0
  have harr : ∀ k' : AMock V E, arrives (P.cls k.cls) k' x.off args = (x.off, args) := by
    intro k'
    unfold arrives
    cases hq : (P.cls k.cls).dtor with
    | none => rfl
    | some d =>
      simp only
      rw [if_neg]
      intro e
      exact (hd d hq).2 e.1.symm
  obtain ⟨q, hq⟩ := find_hidden (p := fun st => accepts st.kind (valuesOf s.heap args)) (st := st) (by simp only [hst]; rfl) top
  refine ⟨fun y => if y.name = q.name then { y with script := rest y.script } else y, fun y => by dsimp only; split <;> rfl, fun l' N => ?_⟩
  unfold aCall at h ⊢
  rw [mocks_at]
  rw [hk] at h ⊢
  simp only [Option.map_some, if_true] at h ⊢
  rw [harr] at h
  rw [show (over x.off (some (top ++ st :: l')) k).cls = k.cls from rfl, show (over x.off (some (top ++ st :: l')) k).alive = k.alive from rfl, show (over x.off (some (top ++ st :: l')) k).spied = k.spied from rfl, harr]
  split at h
  · rename_i hc
    rw [if_pos hc]
    simp only [hl] at h
    have e1 : (over x.off (some (top ++ st :: l')) k).stubs x.off = some (top ++ st :: l') := by simp [over]
    simp only [e1]
    unfold serve at h ⊢
    rw [show (O x (some (top ++ st :: l')) N s).heap = s.heap from rfl, hq l']
    rw [hq l] at h
    simp only [Option.bind_eq_bind] at h ⊢
    rw [show (over x.off (some (top ++ st :: l')) k).cls = k.cls from rfl, show (over x.off (some (top ++ st :: l')) k).spied = k.spied from rfl]
    have e : perform P (P.cls k.cls) k.spied x.off args ⟨(O x (some (top ++ st :: l')) N s).mocks, (O x (some (top ++ st :: l')) N s).calls, s.heap, (O x (some (top ++ st :: l')) N s).made + 1, (O x (some (top ++ st :: l')) N s).named, (O x (some (top ++ st :: l')) N s).installed, (O x (some (top ++ st :: l')) N s).log⟩ q.script = _ :=
      perform_over (P := P) (x := x) (z := some (top ++ st :: l')) (N := N) (P.cls k.cls) k.spied x.off args ⟨s.mocks, s.calls, s.heap, s.made + 1, s.named, s.installed, s.log⟩ q.script
    rw [e]
    cases hp : perform P (P.cls k.cls) k.spied x.off args ⟨s.mocks, s.calls, s.heap, s.made + 1, s.named, s.installed, s.log⟩ q.script with
    | none => rw [hp] at h; cases h
    | some r =>
      obtain ⟨o', as, s2⟩ := r
      rw [hp] at h
      simp only [Option.map_some, Option.bind_some, oResult] at h ⊢
      cases o' <;> (cases h; simp only [O]; rw [modify_own])
  · cases h

theorem call_here {s s' : AState V E} (hh : Here P x s) {m off : Nat} {args : List (Arg V)} {o : Outcome V E} (h : aCall P s m off args = some (o, s')) : Here P x s' := hh.stays (call_stays h)

theorem idle_or {op : Op V E} : Forgets x op ∨ Idle x op ∨ ∃ args, op = .call x.m x.off args := by
  cases op with
  | call m off args =>
    by_cases h : m = x.m ∧ off = x.off
    · obtain ⟨rfl, rfl⟩ := h
      exact .inr (.inr ⟨args, rfl⟩)
    · exact .inr (.inl fun h1 h2 => h ⟨h1, h2⟩)
  | api a =>
    cases a with
    | reset m =>
      by_cases h : m = x.m
      · exact .inl h
      · exact .inr (.inl h)
    | destroy m =>
      by_cases h : m = x.m
      · exact .inl h
      · exact .inr (.inl h)
    | _ => exact .inr (.inl trivial)

/-- Below a stubbing that accepts everything, stubbings do not matter. -/
theorem run_hidden : ∀ {ops : List (Op V E)} {top l : List (Stub V E)} {st : Stub V E} (l' : List (Stub V E)) (N : List (MockId × Nat)) {s s' : AState V E} (_ : Here P x s) (_ : Own x (top ++ st :: l) s) (_ : st.kind = .any) {outs : List (OpOut V E)}, aRun P s ops = some (outs, s') →
    ∃ z' N', aRun P (O x (some (top ++ st :: l')) N s) ops = some (outs, O x z' N' s')
  | [], top, l, st, l', N, s, s', _, _, _, outs, h => by cases h; exact ⟨_, N, rfl⟩
  | op :: ops, top, l, st, l', N, s, s', hh, hown, hst, outs, h => by
    simp only [aRun, Option.bind_eq_bind, Option.bind_eq_some_iff] at h
    obtain ⟨⟨o, s1⟩, h1, ⟨os, s2⟩, h2, h3⟩ := h
    cases h3
    rcases idle_or (x := x) (op := op) with hf | hi | ⟨args, rfl⟩
    · obtain ⟨N2, e2⟩ := run_any N h2
      obtain ⟨z, e⟩ := same_over (x := x) N2 (s := s2)
      refine ⟨z, N2, ?_⟩
      simp only [aRun, step_forgets _ N hf h1, e2, Option.bind_eq_bind, Option.bind_some, e]
    · obtain ⟨⟨add, e1⟩, hh1⟩ := step_over hh hi h1
      have hown1 : Own x ((add ++ top) ++ st :: l) s1 := by
        obtain ⟨N1, e⟩ := e1 (top ++ st :: l) s.named
        rw [hown.eq, h1] at e
        simp only [Option.some.injEq, Prod.mk.injEq, true_and] at e
        rw [List.append_assoc]
        exact Own.of hh1 e
      obtain ⟨N1, e1⟩ := e1 (top ++ st :: l') N
      rw [← List.append_assoc] at e1
      obtain ⟨z2, N2, e2⟩ := run_hidden l' N1 hh1 hown1 hst h2
      refine ⟨z2, N2, ?_⟩
      simp only [aRun, e1, e2, Option.bind_eq_bind, Option.bind_some]
    · simp only [aStep, Option.map_eq_some_iff, Prod.mk.injEq] at h1
      obtain ⟨⟨o1, s1'⟩, h1, rfl, rfl⟩ := h1
      obtain ⟨g, hg, e1⟩ := call_hidden hh hown hst h1
      have hh1 := call_here hh h1
      have hown1 : Own x (top.map g ++ g st :: l.map g) s1' := by
        have e := e1 l s.named
        rw [hown.eq, h1] at e
        simp only [Option.some.injEq, Prod.mk.injEq, true_and] at e
        have := Own.of hh1 e
        simpa using this
      have e1 := e1 l' N
      rw [List.map_append, List.map_cons] at e1
      obtain ⟨z2, N2, e2⟩ := run_hidden (l'.map g) N hh1 hown1 ((hg st).trans hst) h2
      refine ⟨z2, N2, ?_⟩
      simp only [aRun, aStep, e1, e2, Option.map_some, Option.bind_eq_bind, Option.bind_some]

/-- A statement for the method. -/
theorem put_over (s : AState V E) {c : Stmt V E} (hm : c.m = x.m) (hoff : c.off = x.off) (l0 : List (Stub V E)) (N N' N'' : List (MockId × Nat)) : after (O x (some l0) N s) c N' = O x (some (⟨nameOf s, c.what.kind, c.what.acts⟩ :: l0)) N' (after s c N'') := by
  simp only [after, O, hm, hoff]
  congr 1
  apply List.ext_getElem?
  intro j
  simp only [List.getElem?_modify]
  by_cases hj : x.m = j
  · simp only [hj, if_true]
    cases s.mocks[j]? with
    | none => rfl
    | some q =>
      simp only [Option.map_eq_map, Option.map_some]
      congr 1
      simp only [over, put]
      congr 1
      funext o
      by_cases e : o = x.off <;> simp [e] <;> rfl
  · simp [hj]

theorem run_over : ∀ {ops : List (Op V E)} (_ : Unused x ops) (l0 : List (Stub V E)) (N : List (MockId × Nat)) {s s' : AState V E} (_ : Here P x s) {outs : List (OpOut V E)}, aRun P s ops = some (outs, s') →
    ∃ z' N', aRun P (O x (some l0) N s) ops = some (outs, O x z' N' s')
  | [], _, l0, N, s, s', _, outs, h => by cases h; exact ⟨some l0, N, rfl⟩
  | op :: ops, hi, l0, N, s, s', hh, outs, h => by
    simp only [aRun, Option.bind_eq_bind, Option.bind_eq_some_iff] at h
    obtain ⟨⟨o, s1⟩, h1, ⟨os, s2⟩, h2, h3⟩ := h
    cases h3
    rcases hi with hf | ⟨c, rfl, hm, hoff, hkind⟩ | ⟨hi, his⟩
    · obtain ⟨N2, e2⟩ := run_any N h2
      obtain ⟨z, e⟩ := same_over (x := x) N2 (s := s2)
      refine ⟨z, N2, ?_⟩
      simp only [aRun, step_forgets (some l0) N hf h1, e2, Option.bind_eq_bind, Option.bind_some, e]
    · obtain ⟨k, hk, ht⟩ := takes_of_step h1
      obtain ⟨Na, ea⟩ := stub_takes hk ht
      rw [ea] at h1
      cases h1
      have hk' : (O x (some l0) N s).mocks[c.m]? = some (over x.off (some l0) k) := by
        rw [mocks_at, hk]
        simp [hm]
      obtain ⟨Nb, eb⟩ := stub_takes (P := P) (x := c) hk' ht
      rw [put_over s hm hoff l0 N Nb Na] at eb
      have hk1 : (after s c Na).mocks[x.m]? = some (put c.off ⟨nameOf s, c.what.kind, c.what.acts⟩ k) := by
        simp only [after, List.getElem?_modify, hm]
        rw [← hm, hk]
        simp
      have hh1 : Here P x (after s c Na) := hh.of fun k0 hk0 => by
        rw [← hm, hk] at hk0
        cases hk0
        exact ⟨_, hk1, rfl⟩
      have hown : ∃ l, Own x ([] ++ ⟨nameOf s, c.what.kind, c.what.acts⟩ :: l) (after s c Na) := by
        cases hl : k.stubs x.off with
        | none => exact ⟨[], _, hk1, by simp [put, hoff, hl]⟩
        | some l => exact ⟨l, _, hk1, by simp [put, hoff, hl]⟩
      obtain ⟨l, hown⟩ := hown
      obtain ⟨z2, N2, e2⟩ := run_hidden l0 Nb hh1 hown hkind h2
      refine ⟨z2, N2, ?_⟩
      simp only [List.nil_append] at e2
      simp only [aRun, eb, e2, Option.bind_eq_bind, Option.bind_some]
      rfl
    · obtain ⟨⟨add, e1⟩, hh1⟩ := step_over hh hi h1
      obtain ⟨N1, e1⟩ := e1 l0 N
      obtain ⟨z2, N2, e2⟩ := run_over his (add ++ l0) N1 hh1 h2
      refine ⟨z2, N2, ?_⟩
      simp only [aRun, e1, e2, Option.bind_eq_bind, Option.bind_some]

theorem idle_ren {σ : Nat → Nat} {op : Op V E} (h : Idle x op) : Idle x (renOp σ op) := by
  cases op with
  | call m off args => exact h
  | api a => cases a <;> exact h

theorem unused_ren {σ : Nat → Nat} : ∀ {ops : List (Op V E)}, Unused x ops → Unused x (ops.map (renOp σ))
  | [], _ => trivial
  | op :: ops, h => by
    rcases h with hf | ⟨c, rfl, hc⟩ | ⟨hi, his⟩
    · refine .inl ?_
      cases op with
      | call m off args => exact hf
      | api a => cases a <;> exact hf
    · exact .inr (.inl ⟨c, op_ren c, hc⟩)
    · exact .inr (.inr ⟨idle_ren hi, unused_ren his⟩)

theorem shift_inj (a : Nat) : Inj (shift a) := by
  intro m n h
  unfold shift at h
  split at h <;> split at h <;> omega

/-- The statement is added to a test. -/
theorem run_added {heap : Addr → V} {pre post : List (Op V E)} (hpost : Unused x post) {outs : List (OpOut V E)} {s : AState V E} (h : aRun P (AState.start heap) (pre ++ post) = some (outs, s))
    (hx : (aRun P (AState.start heap) (pre ++ [x.op])).isSome) :
    ∃ a o1 o2 z N, outs = o1 ++ o2 ∧ o1.length = pre.length ∧ (aRun P (AState.start heap) (pre ++ [x.op])).map Prod.fst = some (o1 ++ [.api (.matcher a)]) ∧
      aRun P (AState.start heap) (pre.map (renOp (shift a)) ++ x.op :: post.map (renOp (shift a))) = some (o1 ++ .api (.matcher a) :: o2.map (renOut 1), O x z N (ren (shift a) 1 N s)) := by
  obtain ⟨o1, o2, t, rfl, hlen, h1, h2⟩ := run_split h
  have hx' : ∃ k, t.mocks[x.m]? = some k ∧ Takes P x k := by
    obtain ⟨⟨q, v⟩, hq⟩ := Option.isSome_iff_exists.1 hx
    obtain ⟨q1, q2, t', -, -, g1, g2⟩ := run_split hq
    rw [h1] at g1
    cases g1
    simp only [aRun, Option.bind_eq_bind, Option.bind_eq_some_iff] at g2
    obtain ⟨⟨_, _⟩, hz, -⟩ := g2
    exact takes_of_step hz
  obtain ⟨k, hk, ht⟩ := hx'
  generalize ha : 2 * t.installed = a
  have hlow : ∀ j, j < t.installed → shift a (2 * j) = 2 * (j + 0) := fun j hj => by
    unfold shift
    rw [if_pos (by omega)]
    rfl
  have hhigh : ∀ j, t.installed ≤ j → shift a (2 * j) = 2 * (j + 1) := fun j hj => by
    unfold shift
    rw [if_neg (by omega)]
    omega
  obtain ⟨N1, e1⟩ := run_same (shift_inj a) [] h1 fun j _ hj => hlow j hj
  have hk1 : (ren (shift a) 0 N1 t).mocks[x.m]? = some (renMock (shift a) k) := by
    rw [FakeIt.Spec.Reorder.mocks_at, hk]
    rfl
  obtain ⟨N2, e2⟩ := stub_takes hk1 ht
  obtain ⟨N3, e3⟩ := run_ren (d := 1) (shift_inj a) N2 h2 fun j hj _ => hhigh j hj
  -- the state after the statement: other stubbings of its method, and one more stubbing installed
  have hO : ∃ z, after (ren (shift a) 0 N1 t) x N2 = O x (some z) N2 (ren (shift a) 1 N2 t) := by
    refine ⟨(match (renMock (shift a) k).stubs x.off with | none => [⟨nameOf (ren (shift a) 0 N1 t), x.what.kind, x.what.acts⟩] | some l => ⟨nameOf (ren (shift a) 0 N1 t), x.what.kind, x.what.acts⟩ :: l), ?_⟩
    simp only [after, O]
    congr 1
    apply List.ext_getElem?
    intro j
    simp only [List.getElem?_modify]
    by_cases hj : x.m = j
    · subst hj
      rw [hk1, show (ren (shift a) 1 N2 t).mocks[x.m]? = some (renMock (shift a) k) from hk1]
      simp only [if_true, Option.map_eq_map, Option.map_some]
      rfl
    · simp only [hj, if_false]
      rfl
  obtain ⟨z, hO⟩ := hO
  have hh : Here P x (ren (shift a) 1 N2 t) := ⟨renMock (shift a) k, hk1, fun d hd => ⟨Ne.symm (ht.2.1.2 d hd).1, Ne.symm (ht.2.1.2 d hd).2⟩⟩
  obtain ⟨z', N4, e4⟩ := run_over (unused_ren hpost) z N2 hh e3
  obtain ⟨N5, e5⟩ := stub_takes hk ht
  have hlast : aRun P t [x.op] = some ([.api (.matcher a)], after t x N5) := by
    simp only [aRun, e5, Option.bind_eq_bind, Option.bind_some]
    rw [show nameOf t = a from ha]
  refine ⟨a, o1, o2, z', N4, rfl, hlen, by rw [run_join h1 hlast]; rfl, ?_⟩
  refine run_join e1 ?_
  simp only [aRun, e2, hO, e4, Option.bind_eq_bind, Option.bind_some]
  rw [show nameOf (ren (shift a) 0 N1 t) = a from ha]
  rfl

end FakeIt.Spec.Unused
