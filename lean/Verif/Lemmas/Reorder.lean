import Verif.Spec.Reorder
import Verif.Lemmas.RefineTotal
/-!
# Stubbing statements for different methods may be written in any order: lemmas
-/
namespace FakeIt.Spec.Reorder
open FakeIt.Spec.Interrupted (Stubbing stubOp)

variable {V E : Type} {P : Prog V E} {σ : Nat → Nat} {d : Nat} {N : List (MockId × Nat)}

/-- A stubbing with another address. -/
def renStub (σ : Nat → Nat) (x : Stub V E) : Stub V E := { x with name := σ x.name }

/-- A mock with other addresses. -/
def renMock (σ : Nat → Nat) (k : AMock V E) : AMock V E := { k with stubs := fun o => (k.stubs o).map (List.map (renStub σ)) }

/-- A state with other addresses, in which the methods `N` have been named and `d` more stubbings have been installed. -/
def ren (σ : Nat → Nat) (d : Nat) (N : List (MockId × Nat)) (s : AState V E) : AState V E :=
  ⟨s.mocks.map (renMock σ), s.calls.map (renRec σ), s.heap, s.made, N, s.installed + d, s.log.map (renReport σ)⟩

theorem renOut_zero (o : OpOut V E) : renOut 0 o = o := by
  cases o with
  | call o => rfl
  | api o => cases o <;> rfl

/-- Different stubbings keep different addresses. -/
def Inj (σ : Nat → Nat) : Prop := ∀ a b, σ a = σ b → a = b

theorem mocks_at (s : AState V E) (m : Nat) : (ren σ d N s).mocks[m]? = (s.mocks[m]?).map (renMock σ) := by simp [ren]

theorem stubs_at (k : AMock V E) (o : Nat) : (renMock σ k).stubs o = (k.stubs o).map (List.map (renStub σ)) := rfl

theorem stubs_isSome (k : AMock V E) (o : Nat) : ((renMock σ k).stubs o).isSome = (k.stubs o).isSome := by simp [renMock]

theorem modify_mocks (l : List (AMock V E)) (m : Nat) (f g : AMock V E → AMock V E) (h : ∀ k, renMock σ (f k) = g (renMock σ k)) : (l.modify m f).map (renMock σ) = (l.map (renMock σ)).modify m g := by
  apply List.ext_getElem?
  intro i
  simp only [List.getElem?_map, List.getElem?_modify]
  cases l[i]? with
  | none => rfl
  | some k =>
    by_cases hm : m = i
    · subst hm
      simp [h k]
    · simp [hm]

/-! ## Calls -/

/-- The result of an action. -/
def renResult (σ : Nat → Nat) (d : Nat) (N : List (MockId × Nat)) (r : Outcome V E × List (Arg V) × AState V E) : Outcome V E × List (Arg V) × AState V E := (r.1, r.2.1, ren σ d N r.2.2)

theorem runFn_ren (s : AState V E) (args : List (Arg V)) (f : Fn V E) : runFn P (ren σ d N s) args f = (runFn P s args f).map (renResult σ d N) := by
  cases f with
  | ret v => rfl
  | thr e => rfl
  | user f =>
    simp only [runFn, Option.map_map]
    rfl

theorem unstubbed_ren (s : AState V E) : unstubbed (ren σ d N s) = ((unstubbed s).1, ren σ d N (unstubbed s).2) := by simp [unstubbed, ren, renReport, renRec]

theorem perform_ren (c : ClassDecl V) (spied : Bool) (off : Nat) (args : List (Arg V)) (s : AState V E) (l : List (Act V E)) : perform P c spied off args (ren σ d N s) l = (perform P c spied off args s l).map (renResult σ d N) := by
  cases l with
  | nil => rfl
  | cons a l =>
    cases a with
    | rep n f => exact runFn_ren s args f
    | forever f => exact runFn_ren s args f
    | dflt =>
      simp only [perform]
      cases c.dflt off <;> rfl
    | deleg mv =>
      simp only [perform]
      split
      · rfl
      · split
        · simp only [Option.map_map]
          rfl
        · simp only [unstubbed_ren, Option.map_some, renResult]
    | noMore => rfl

theorem serve_ren (hσ : Inj σ) (s : AState V E) (m : MockId) (k : AMock V E) (off : Nat) (stubs : List (Stub V E)) (args : List (Arg V)) :
    serve P (ren σ d N s) m (renMock σ k) off (stubs.map (renStub σ)) args = (serve P s m k off stubs args).map fun r => (r.1, ren σ d N r.2) := by
  unfold serve
  simp only
  have hf : (stubs.map (renStub σ)).find? (fun st => accepts st.kind (valuesOf (ren σ d N s).heap args)) = (stubs.find? fun st => accepts st.kind (valuesOf s.heap args)).map (renStub σ) := by
    rw [List.find?_map]
    rfl
  rw [hf]
  cases stubs.find? fun st => accepts st.kind (valuesOf s.heap args) with
  | none => simp [ren, renReport, renRec]
  | some st =>
    simp only [Option.map_some, Option.bind_eq_bind]
    have hp : perform P (P.cls (renMock σ k).cls) (renMock σ k).spied off args ⟨(ren σ d N s).mocks, (ren σ d N s).calls, (ren σ d N s).heap, (ren σ d N s).made + 1, (ren σ d N s).named, (ren σ d N s).installed, (ren σ d N s).log⟩ (renStub σ st).script = _ :=
      perform_ren (P := P) (σ := σ) (d := d) (N := N) (P.cls k.cls) k.spied off args ⟨s.mocks, s.calls, s.heap, s.made + 1, s.named, s.installed, s.log⟩ st.script
    rw [hp]
    cases perform P (P.cls k.cls) k.spied off args ⟨s.mocks, s.calls, s.heap, s.made + 1, s.named, s.installed, s.log⟩ st.script with
    | none => rfl
    | some r =>
      obtain ⟨o, as, s2⟩ := r
      simp only [Option.map_some, Option.bind_some, renResult]
      have hm : (s2.mocks.modify m fun k => k.onStubs off fun l => l.map fun x => if x.name = st.name then { x with script := rest x.script } else x).map (renMock σ) =
          (s2.mocks.map (renMock σ)).modify m fun k => k.onStubs off fun l => l.map fun x => if x.name = (renStub σ st).name then { x with script := rest x.script } else x := by
        apply modify_mocks
        intro k
        simp only [AMock.onStubs, renMock]
        congr 1
        funext o
        by_cases ho : o = off
        · simp only [ho, if_true]
          cases k.stubs off with
          | none => rfl
          | some l =>
            simp only [Option.map_some, List.map_map]
            congr 1
            apply List.map_congr_left
            intro x _
            simp only [Function.comp]
            by_cases hx : x.name = st.name
            · simp [renStub, hx]
            · have : ¬ σ x.name = σ st.name := fun e => hx (hσ _ _ e)
              simp [renStub, hx, this]
        · simp [ho]
      cases o <;> (simp only [Option.map_some, ren]; rw [hm]; simp [renRec, renReport, renStub])

theorem arrives_ren (c : ClassDecl V) (k : AMock V E) (off : Nat) (args : List (Arg V)) : arrives c (renMock σ k) off args = arrives c k off args := by
  unfold arrives
  cases c.dtor with
  | none => rfl
  | some d => simp only [stubs_isSome]; rfl

theorem call_ren (hσ : Inj σ) (s : AState V E) (m : MockId) (off : Nat) (args : List (Arg V)) : aCall P (ren σ d N s) m off args = (aCall P s m off args).map fun r => (r.1, ren σ d N r.2) := by
  unfold aCall
  rw [mocks_at]
  cases s.mocks[m]? with
  | none => rfl
  | some k =>
    simp only [Option.map_some, arrives_ren]
    rw [show (renMock σ k).alive = k.alive from rfl, show (renMock σ k).spied = k.spied from rfl, show (renMock σ k).cls = k.cls from rfl]
    split
    · generalize arrives (P.cls k.cls) k off args = q
      obtain ⟨off', args'⟩ := q
      simp only [stubs_at]
      cases k.stubs off' with
      | some l => exact serve_ren hσ s m k off' l args'
      | none =>
        simp only [Option.map_none]
        split
        · simp only [Option.map_map]
          rfl
        · split
          · rfl
          · simp only [unstubbed_ren, Option.map_some]
    · rfl

/-! ## Mentioning and stubbing -/

theorem hook_ren (s : AState V E) (m : MockId) (k : AMock V E) (off : Nat) : (∃ N', hook (ren σ d N s) m (renMock σ k) off = ren σ d N' (hook s m k off)) ∧ (hook s m k off).installed = s.installed := by
  unfold hook
  rw [stubs_isSome]
  split
  · exact ⟨⟨N, rfl⟩, rfl⟩
  · refine ⟨⟨N ++ [(m, off)], ?_⟩, rfl⟩
    simp only [ren]
    congr 1
    symm
    apply modify_mocks
    intro k
    simp only [renMock]
    congr 1
    funext o
    by_cases ho : o = off <;> simp [ho]

theorem mention_ren (N : List (MockId × Nat)) {s : AState V E} {m : MockId} {slot : SlotRef} {r : Option (AState V E)} (h : mention P s m slot = some r) :
    (∃ N', mention P (ren σ d N s) m slot = some (r.map (ren σ d N'))) ∧ ∀ s', r = some s' → s'.installed = s.installed := by
  unfold mention at h ⊢
  rw [mocks_at]
  cases hm : s.mocks[m]? with
  | none => rw [hm] at h; cases h
  | some k =>
    rw [hm] at h
    simp only [Option.map_some] at h ⊢
    rw [show (renMock σ k).alive = k.alive from rfl, show (renMock σ k).cls = k.cls from rfl, show (renMock σ k).wasReset = k.wasReset from rfl]
    split at h
    · rename_i ha
      simp only [ha, if_true]
      cases slot with
      | meth off ctr =>
        simp only at h ⊢
        split at h
        · rename_i hc
          cases h
          obtain ⟨⟨N', hN⟩, hi⟩ := hook_ren (σ := σ) (d := d) (N := N) s m k off
          rw [if_pos hc, hN]
          exact ⟨⟨N', rfl⟩, fun s' e => by cases e; exact hi⟩
        · cases h
      | dtor =>
        simp only at h ⊢
        cases hd : (P.cls k.cls).dtor with
        | none =>
          rw [hd] at h
          cases h
          exact ⟨⟨N, rfl⟩, fun s' e => by cases e⟩
        | some e =>
          rw [hd] at h
          simp only at h ⊢
          split at h
          · rename_i hc
            cases h
            obtain ⟨⟨N', hN⟩, hi⟩ := hook_ren (σ := σ) (d := d) (N := N) s m k e
            rw [if_pos hc, hN]
            exact ⟨⟨N', rfl⟩, fun s' e => by cases e; exact hi⟩
          · cases h
    · cases h

theorem mentionAll_ren : ∀ (l : List (MockId × SlotRef)) (N : List (MockId × Nat)) {s s' : AState V E} {b : Bool}, mentionAll P s l = some (s', b) → (∃ N', mentionAll P (ren σ d N s) l = some (ren σ d N' s', b)) ∧ s'.installed = s.installed
  | [], N, s, s', b, h => by
    simp only [mentionAll, Option.some.injEq, Prod.mk.injEq] at h
    obtain ⟨rfl, rfl⟩ := h
    exact ⟨⟨N, rfl⟩, rfl⟩
  | (m, slot) :: l, N, s, s', b, h => by
    simp only [mentionAll, Option.bind_eq_bind, Option.bind_eq_some_iff] at h
    obtain ⟨r, h1, h2⟩ := h
    obtain ⟨⟨N1, e1⟩, hi⟩ := mention_ren (σ := σ) (d := d) N h1
    cases r with
    | none =>
      cases h2
      refine ⟨⟨N, ?_⟩, rfl⟩
      simp [mentionAll, e1]
    | some s1 =>
      obtain ⟨⟨N2, e2⟩, h3⟩ := mentionAll_ren l N1 h2
      refine ⟨⟨N2, ?_⟩, h3.trans (hi s1 rfl)⟩
      simp [mentionAll, e1, e2]

theorem install_ren (N : List (MockId × Nat)) {s s' : AState V E} {t : Target V} {acts : List (Act V E)} (h : install P s t acts = some s') (hf : ∀ j, s.installed ≤ j → j < s'.installed → σ (2 * j) = 2 * (j + d)) :
    install P (ren σ d N s) t acts = some (ren σ d N s') ∧ s'.installed = s.installed + 1 := by
  unfold install at h ⊢
  rw [mocks_at]
  cases hm : s.mocks[t.m]? with
  | none => rw [hm] at h; cases h
  | some k =>
    rw [hm] at h
    simp only [Option.map_some] at h ⊢
    rw [show (renMock σ k).alive = k.alive from rfl, show (renMock σ k).cls = k.cls from rfl]
    cases ho : methodOf (P.cls k.cls) t.slot with
    | none => rw [ho] at h; cases h
    | some off =>
      rw [ho] at h
      simp only [stubs_isSome] at h ⊢
      split at h
      · rename_i hc
        cases h
        rw [if_pos hc]
        refine ⟨?_, rfl⟩
        have hn : σ (nameOf s) = nameOf (ren σ d N s) := hf s.installed (Nat.le_refl _) (Nat.lt_succ_self _)
        simp only [ren]
        rw [show s.installed + d + 1 = s.installed + 1 + d by omega]
        congr 2
        symm
        apply modify_mocks
        intro k
        simp only [AMock.onStubs, renMock]
        congr 1
        funext o
        by_cases ho : o = off
        · simp only [ho, if_true, Option.map_map]
          congr 1
          funext l
          simp only [Function.comp, List.map_cons, renStub, hn]
          rfl
        · simp [ho]
      · cases h

theorem installAll_mono (acts : List (Act V E)) : ∀ (ts : List (Target V)) {s s' : AState V E}, installAll P acts s ts = some s' → s.installed ≤ s'.installed
  | [], s, s', h => by cases h; exact Nat.le_refl _
  | t :: ts, s, s', h => by
    simp only [installAll, Option.bind_eq_bind, Option.bind_eq_some_iff] at h
    obtain ⟨s1, h1, h2⟩ := h
    have := (install_ren (σ := id) (d := 0) [] h1 fun _ _ _ => rfl).2
    have := installAll_mono acts ts h2
    omega

theorem installAll_ren (acts : List (Act V E)) (N : List (MockId × Nat)) : ∀ (ts : List (Target V)) {s s' : AState V E}, installAll P acts s ts = some s' → (∀ j, s.installed ≤ j → j < s'.installed → σ (2 * j) = 2 * (j + d)) →
    installAll P acts (ren σ d N s) ts = some (ren σ d N s')
  | [], s, s', h, _ => by cases h; rfl
  | t :: ts, s, s', h, hf => by
    simp only [installAll, Option.bind_eq_bind, Option.bind_eq_some_iff] at h
    obtain ⟨s1, h1, h2⟩ := h
    have hle := installAll_mono acts ts h2
    obtain ⟨e1, hi⟩ := install_ren (σ := σ) (d := d) N h1 fun j a b => hf j a (by omega)
    have e2 := installAll_ren acts N ts h2 fun j a b => hf j (by omega) b
    simp [installAll, e1, e2]

/-! ## Verification -/

theorem denotes_ren (hσ : Inj σ) (s : AState V E) (l : Leaf V) (r : Rec V) : denotes P (ren σ d N s) (renLeaf σ l) (renRec σ r) = denotes P s l r := by
  unfold denotes
  rw [show (renLeaf σ l).m = l.m from rfl, show (renLeaf σ l).slot = l.slot from rfl, mocks_at]
  cases s.mocks[l.m]? with
  | none => rfl
  | some k =>
    simp only [Option.map_some]
    rw [show (renMock σ k).cls = k.cls from rfl]
    cases methodOf (P.cls k.cls) l.slot with
    | none => rfl
    | some off =>
      simp only
      congr 1
      congr 1
      simp only [renLeaf, renRec]
      cases l.addr with
      | none => rfl
      | some a =>
        cases r.served with
        | none => rfl
        | some b =>
          simp only [Option.map_some, Option.isSome_some, Bool.true_and]
          by_cases hab : b = a
          · simp [hab]
          · have : ¬ σ b = σ a := fun e => hab (hσ _ _ e)
            have h1 : (some (σ b) == some (σ a)) = false := beq_eq_false_iff_ne.2 fun e => this (Option.some.inj e)
            have h2 : (some b == some a) = false := beq_eq_false_iff_ne.2 fun e => hab (Option.some.inj e)
            rw [h1, h2]

theorem inSource_ren (hσ : Inj σ) (s : AState V E) (r : Rec V) : ∀ src : Source V, inSource P (ren σ d N s) (renSource σ src) (renRec σ r) = inSource P s src r
  | .empty => rfl
  | .mock _ => rfl
  | .ctx l => denotes_ren hσ s l r
  | .unverified src => by simp only [renSource, inSource, inSource_ren hσ s r src]; rfl
  | .union a b => by simp only [renSource, inSource, inSource_ren hσ s r a, inSource_ren hσ s r b]

theorem leavesOf_ren : ∀ src : Source V, leavesOf (renSource σ src) = (leavesOf src).map (renLeaf σ)
  | .empty => rfl
  | .mock _ => rfl
  | .ctx _ => rfl
  | .unverified s => leavesOf_ren s
  | .union a b => by simp [renSource, leavesOf, leavesOf_ren a, leavesOf_ren b]

theorem mocksOf_ren : ∀ src : Source V, mocksOf (renSource σ src) = mocksOf src
  | .empty => rfl
  | .mock _ => rfl
  | .ctx _ => rfl
  | .unverified s => mocksOf_ren s
  | .union a b => by simp [renSource, mocksOf, mocksOf_ren a, mocksOf_ren b]

theorem expected_ren : ∀ x : Seq (Leaf V), (renSeq σ x).expected = x.expected.map (renLeaf σ)
  | .leaf _ => rfl
  | .cat a b => by simp [renSeq, Seq.expected, expected_ren a, expected_ren b]
  | .rep a n => by simp [renSeq, Seq.expected, expected_ren a, List.map_flatten, List.map_replicate]

theorem patternOf_ren (pat : List (Seq (Leaf V))) : patternOf (pat.map (renSeq σ)) = (patternOf pat).map (List.map (renLeaf σ)) := by
  simp only [patternOf, List.map_map]
  apply List.map_congr_left
  intro x _
  exact expected_ren x

theorem mocksIn_ren (pat : List (Seq (Leaf V))) : mocksIn (pat.map (renSeq σ)) = mocksIn pat := by
  simp only [mocksIn, patternOf_ren]
  rw [← List.map_flatten, List.map_map]
  rfl

theorem inScope_ren (hσ : Inj σ) (s : AState V E) (pat : List (Seq (Leaf V))) (sc : Scope V) (r : Rec V) : inScope P (ren σ d N s) (pat.map (renSeq σ)) (renScope σ sc) (renRec σ r) = inScope P s pat sc r := by
  cases sc with
  | involved => simp only [renScope, inScope, mocksIn_ren]; rfl
  | using_ src => exact inSource_ren hσ s r src
  | unverified => simp only [renScope, inScope, mocksIn_ren]; rfl

theorem live_ren (s : AState V E) (ms : List MockId) : live (ren σ d N s) ms = live s ms := by
  unfold live
  congr 1
  funext m
  rw [mocks_at]
  cases s.mocks[m]? <;> rfl

section Find
variable {L I L' I' : Type} {mt : L → I → Bool} {mt' : L' → I' → Bool} {f : L → L'} {g : I → I'}

theorem takeBlock_map (h : ∀ l i, mt' (f l) (g i) = mt l i) : ∀ (ls : List L) (cs : List I), takeBlock mt' (ls.map f) (cs.map g) = (takeBlock mt ls cs).map fun r => (r.1.map g, r.2.map g)
  | [], cs => rfl
  | _ :: _, [] => rfl
  | l :: ls, c :: cs => by
    simp only [List.map_cons, takeBlock, h, takeBlock_map h ls cs]
    split
    · cases takeBlock mt ls cs <;> rfl
    · rfl

theorem findBlock_map (h : ∀ l i, mt' (f l) (g i) = mt l i) (e : List L) : ∀ cs : List I, findBlock mt' (e.map f) (cs.map g) = (findBlock mt e cs).map fun r => (r.1.map g, r.2.map g)
  | [] => takeBlock_map h e []
  | c :: cs => by
    have := takeBlock_map h e (c :: cs)
    simp only [List.map_cons] at this
    simp only [List.map_cons, findBlock, this]
    cases takeBlock mt e (c :: cs) with
    | none => exact findBlock_map h e cs
    | some r => rfl

theorem findPattern_map (h : ∀ l i, mt' (f l) (g i) = mt l i) : ∀ (es : List (List L)) (cs : List I),
    findPattern mt' (es.map (List.map f)) (cs.map g) = ((findPattern mt es cs).1.map g, (findPattern mt es cs).2.map (List.map g))
  | [], cs => rfl
  | e :: es, cs => by
    simp only [List.map_cons, findPattern, findBlock_map h]
    cases findBlock mt e cs with
    | none => rfl
    | some r =>
      obtain ⟨a, b⟩ := r
      simp only [Option.map_some, findPattern_map h es b, List.map_append]

theorem findAll_map (h : ∀ l i, mt' (f l) (g i) = mt l i) (es : List (List L)) : ∀ (fuel : Nat) (cs : List I),
    findAll mt' (es.map (List.map f)) fuel (cs.map g) = ((findAll mt es fuel cs).1, (findAll mt es fuel cs).2.map g)
  | 0, cs => rfl
  | fuel + 1, cs => by
    simp only [findAll, findPattern_map h]
    obtain ⟨a, b⟩ := findPattern mt es cs
    cases b with
    | none => rfl
    | some b => simp only [Option.map_some, findAll_map h es fuel b, List.map_append]

end Find

theorem filter_map_ren {p q : Rec V → Bool} (h : ∀ r, q (renRec σ r) = p r) (l : List (Rec V)) : (l.map (renRec σ)).filter q = (l.filter p).map (renRec σ) := by
  rw [List.filter_map]
  congr 2
  funext r
  exact h r

theorem mentioned_ren (scope : Scope V) (pat : List (Seq (Leaf V))) :
    (mentionedBy (renScope σ scope) (pat.map (renSeq σ))).map (fun l => (l.m, l.slot)) = (mentionedBy scope pat).map fun l => (l.m, l.slot) := by
  have h : ∀ l : List (Leaf V), (l.map (renLeaf σ)).map (fun l => (l.m, l.slot)) = l.map fun l => (l.m, l.slot) := by
    intro l
    rw [List.map_map]
    rfl
  simp only [mentionedBy, patternOf_ren, List.map_append]
  rw [← List.map_flatten, h]
  congr 1
  cases scope with
  | using_ s => simp only [renScope, leavesOf_ren, h]
  | _ => rfl

theorem looksAt_ren (scope : Scope V) (pat : List (Seq (Leaf V))) : looksAt (pat.map (renSeq σ)) (renScope σ scope) = looksAt pat scope := by
  cases scope with
  | using_ s => exact mocksOf_ren s
  | involved => exact mocksIn_ren pat
  | unverified => exact mocksIn_ren pat

theorem marked_ren (ns : List Nat) (r : Rec V) : marked ns (renRec σ r) = renRec σ (marked ns r) := by
  unfold marked
  rw [show (renRec σ r).number = r.number from rfl]
  split <;> rfl

theorem numbers_ren (l : List (Rec V)) : (l.map (renRec σ)).map Rec.number = l.map Rec.number := by
  rw [List.map_map]
  rfl

theorem verify_ren (hσ : Inj σ) (N : List (MockId × Nat)) {s s' : AState V E} {scope : Scope V} {pat : List (Seq (Leaf V))} {q : Quant} {mode : VMode} {o : ApiOut} (h : aVerify P s scope pat q mode = some (s', o)) :
    (∃ N', aVerify P (ren σ d N s) (renScope σ scope) (pat.map (renSeq σ)) q mode = some (ren σ d N' s', renApiOut d o)) ∧ s'.installed = s.installed := by
  unfold aVerify at h ⊢
  rw [mentioned_ren]
  simp only [Option.bind_eq_bind, Option.bind_eq_some_iff] at h
  obtain ⟨⟨s1, b⟩, h1, h2⟩ := h
  obtain ⟨⟨N1, e1⟩, hi⟩ := mentionAll_ren (σ := σ) (d := d) _ N h1
  simp only [e1, Option.bind_eq_bind, Option.bind_some]
  cases b with
  | false => cases h2; exact ⟨⟨N1, rfl⟩, hi⟩
  | true =>
    simp only [looksAt_ren, live_ren] at h2 ⊢
    split at h2
    · rename_i hl
      simp only [hl, if_true]
      cases hx : expects q with
      | none => rw [hx] at h2; cases h2; exact ⟨⟨N1, rfl⟩, hi⟩
      | some ex =>
        rw [hx] at h2
        simp only at h2 ⊢
        have hs : (ren σ d N1 s1).calls.filter (inScope P (ren σ d N1 s1) (pat.map (renSeq σ)) (renScope σ scope)) = (s1.calls.filter (inScope P s1 pat scope)).map (renRec σ) := filter_map_ren (inScope_ren hσ s1 pat scope) _
        rw [hs, patternOf_ren, List.length_map, findAll_map (fun l r => denotes_ren hσ s1 l r)]
        generalize findAll (denotes P s1) (patternOf pat) ((s1.calls.filter (inScope P s1 pat scope)).length + 1) (s1.calls.filter (inScope P s1 pat scope)) = fa at h2 ⊢
        split at h2
        · rename_i hmode
          cases h2
          rw [if_pos hmode]
          exact ⟨⟨N1, rfl⟩, hi⟩
        · rename_i hmode
          rw [if_neg hmode]
          split at h2
          · rename_i hful
            cases h2
            rw [if_pos hful]
            refine ⟨⟨N1, ?_⟩, hi⟩
            simp only [ren, List.map_map]
            congr 3
            apply List.map_congr_left
            intro r _
            exact marked_ren _ r
          · rename_i hful
            rw [if_neg hful]
            split at h2
            · rename_i hb
              cases h2
              rw [if_pos hb]
              exact ⟨⟨N1, rfl⟩, hi⟩
            · rename_i hb
              cases h2
              rw [if_neg hb]
              exact ⟨⟨N1, by simp [ren, renReport, renApiOut]⟩, hi⟩
    · cases h2

theorem allOf_ren (srcs : List (Source V)) : allOf (srcs.map (renSource σ)) = renSource σ (allOf srcs) := by
  induction srcs with
  | nil => rfl
  | cons a l ih =>
    simp only [allOf, List.map_cons, List.foldr_cons, renSource] at ih ⊢
    rw [ih]

theorem noOther_ren (hσ : Inj σ) (N : List (MockId × Nat)) {s s' : AState V E} {srcs : List (Source V)} {mode : VMode} {o : ApiOut} (h : aNoOther P s srcs mode = some (s', o)) :
    (∃ N', aNoOther P (ren σ d N s) (srcs.map (renSource σ)) mode = some (ren σ d N' s', renApiOut d o)) ∧ s'.installed = s.installed := by
  unfold aNoOther at h ⊢
  rw [allOf_ren, leavesOf_ren, List.map_map, show ((fun l : Leaf V => (l.m, l.slot)) ∘ renLeaf σ) = fun l => (l.m, l.slot) from rfl]
  simp only [Option.bind_eq_bind, Option.bind_eq_some_iff] at h
  obtain ⟨⟨s1, b⟩, h1, h2⟩ := h
  obtain ⟨⟨N1, e1⟩, hi⟩ := mentionAll_ren (σ := σ) (d := d) _ N h1
  simp only [e1, Option.bind_eq_bind, Option.bind_some]
  cases b with
  | false => cases h2; exact ⟨⟨N1, rfl⟩, hi⟩
  | true =>
    simp only [mocksOf_ren, live_ren] at h2 ⊢
    have hs : (ren σ d N1 s1).calls.filter (inSource P (ren σ d N1 s1) (renSource σ (allOf srcs))) = (s1.calls.filter (inSource P s1 (allOf srcs))).map (renRec σ) := filter_map_ren (fun r => inSource_ren hσ s1 r _) _
    have hu : ∀ l : List (Rec V), (l.map (renRec σ)).filter (fun r => !r.verified) = (l.filter fun r => !r.verified).map (renRec σ) := fun l => filter_map_ren (fun _ => rfl) l
    rw [hs, hu]
    generalize s1.calls.filter (inSource P s1 (allOf srcs)) = all at h2 ⊢
    simp only [List.isEmpty_map]
    split at h2
    · rename_i hl
      rw [if_pos hl]
      split at h2
      · rename_i hc
        cases h2
        rw [if_pos hc]
        exact ⟨⟨N1, rfl⟩, hi⟩
      · rename_i hc
        rw [if_neg hc]
        split at h2
        · rename_i hd
          cases h2
          rw [if_pos hd]
          exact ⟨⟨N1, rfl⟩, hi⟩
        · rename_i hd
          rw [if_neg hd]
          split at h2
          · rename_i hb
            cases h2
            rw [if_pos hb]
            exact ⟨⟨N1, rfl⟩, hi⟩
          · rename_i hb
            cases h2
            rw [if_neg hb]
            exact ⟨⟨N1, by simp [ren, renReport, renApiOut]⟩, hi⟩
    · cases h2

/-! ## Steps -/

theorem runFn_installed {s s' : AState V E} {args as : List (Arg V)} {f : Fn V E} {o : Outcome V E} (h : runFn P s args f = some (o, as, s')) : s'.installed = s.installed := by
  cases f with
  | ret v => cases h; rfl
  | thr e => cases h; rfl
  | user f =>
    simp only [runFn, Option.map_eq_some_iff] at h
    obtain ⟨r, -, h⟩ := h
    cases h; rfl

theorem perform_installed {c : ClassDecl V} {sp : Bool} {off : Nat} {args as : List (Arg V)} {s s' : AState V E} {acts : List (Act V E)} {o : Outcome V E}
    (h : perform P c sp off args s acts = some (o, as, s')) : s'.installed = s.installed := by
  unfold perform at h
  split at h
  · cases h; rfl
  · exact runFn_installed h
  · exact runFn_installed h
  · split at h
    · cases h; rfl
    · cases h; rfl
    · cases h
  · dsimp only at h
    split at h
    · cases h; rfl
    · split at h
      · obtain ⟨r, -, h⟩ := Option.map_eq_some_iff.1 h
        cases h; rfl
      · cases h; rfl
  · cases h

theorem call_installed {s s' : AState V E} {m : MockId} {off : Nat} {args : List (Arg V)} {o : Outcome V E} (h : aCall P s m off args = some (o, s')) : s'.installed = s.installed := by
  unfold aCall at h
  split at h
  · cases h
  · dsimp only at h
    split at h
    · split at h
      · unfold serve at h
        dsimp only at h
        split at h
        · cases h; rfl
        · simp only [Option.bind_eq_bind, Option.bind_eq_some_iff] at h
          obtain ⟨⟨o1, as, s2⟩, h1, h2⟩ := h
          have g := perform_installed h1
          dsimp only at g h2
          split at h2 <;> cases h2 <;> exact g
      · split at h
        · obtain ⟨r, -, h⟩ := Option.map_eq_some_iff.1 h
          cases h; rfl
        · split at h
          · cases h; rfl
          · cases h; rfl
    · cases h

theorem onMock_ren {s s' : AState V E} {m : MockId} {f : AMock V E → Option (AMock V E)} (hf : ∀ k, f (renMock σ k) = (f k).map (renMock σ)) (h : onMock s m f = some s') :
    onMock (ren σ d N s) m f = some (ren σ d N s') ∧ s'.installed = s.installed := by
  unfold onMock at h ⊢
  rw [mocks_at]
  cases hm : s.mocks[m]? with
  | none => rw [hm] at h; cases h
  | some k =>
    rw [hm] at h
    simp only [Option.map_some] at h ⊢
    rw [show (renMock σ k).alive = k.alive from rfl]
    split at h
    · rename_i ha
      rw [if_pos ha, hf]
      obtain ⟨k', h1, rfl⟩ := Option.map_eq_some_iff.1 h
      rw [h1]
      refine ⟨?_, rfl⟩
      simp [ren, List.map_set]
    · cases h

theorem forget_ren (s : AState V E) (m : MockId) : forget (ren σ d N s) m = ren σ d N (forget s m) := by
  simp only [forget, ren]
  congr 1
  exact filter_map_ren (fun r => rfl) _

theorem setCell_ren (cell : Nat) (v : Int) (k : AMock V E) : setCell (renMock σ k) cell v = (setCell k cell v).map (renMock σ) := by
  unfold setCell
  rw [show (renMock σ k).data = k.data from rfl]
  split <;> rfl

theorem new_ren (s : AState V E) (cls : Nat) (sp : Bool) : aNew P (ren σ d N s) cls sp = ren σ d N (aNew P s cls sp) := by
  simp only [aNew, ren, List.map_append, List.map_cons, List.map_nil]
  rfl

theorem stubOne_ren (N : List (MockId × Nat)) {s s' : AState V E} {t : Target V} {acts : List (Act V E)} {u : Bool} {o : ApiOut} (h : aStubOne P s t acts u = some (s', o)) (hf : ∀ j, s.installed ≤ j → j < s'.installed → σ (2 * j) = 2 * (j + d)) :
    (∃ N', aStubOne P (ren σ d N s) t acts u = some (ren σ d N' s', renApiOut d o)) ∧ s.installed ≤ s'.installed := by
  unfold aStubOne at h ⊢
  simp only [Option.bind_eq_bind, Option.bind_eq_some_iff] at h ⊢
  obtain ⟨r, h1, h2⟩ := h
  obtain ⟨⟨N1, e1⟩, hi⟩ := mention_ren (σ := σ) (d := d) N h1
  cases r with
  | none => cases h2; exact ⟨⟨N, _, e1, rfl⟩, Nat.le_refl _⟩
  | some s1 =>
    have hi := hi s1 rfl
    cases u with
    | true => cases h2; exact ⟨⟨N1, _, e1, rfl⟩, by omega⟩
    | false =>
      simp only [Bool.false_eq_true, if_false] at h2
      obtain ⟨s2, h3, h4⟩ := Option.bind_eq_some_iff.1 h2
      cases h4
      obtain ⟨e2, hi2⟩ := install_ren (σ := σ) (d := d) N1 h3 fun j a b => hf j (by omega) b
      refine ⟨⟨N1, _, e1, ?_⟩, by omega⟩
      simp only [Option.map_some, Bool.false_eq_true, if_false, e2, Option.bind_some, renApiOut, nameOf]
      rw [show 2 * (ren σ d N1 s1).installed = 2 * s1.installed + 2 * d from Nat.mul_add _ _ _]

theorem stubMany_ren (N : List (MockId × Nat)) {s s' : AState V E} {ts : List (Target V)} {act : Act V E} {o : ApiOut} (h : aStubMany P s ts act = some (s', o)) (hf : ∀ j, s.installed ≤ j → j < s'.installed → σ (2 * j) = 2 * (j + d)) :
    (∃ N', aStubMany P (ren σ d N s) ts act = some (ren σ d N' s', renApiOut d o)) ∧ s.installed ≤ s'.installed := by
  unfold aStubMany at h ⊢
  simp only [Option.bind_eq_bind, Option.bind_eq_some_iff] at h ⊢
  obtain ⟨⟨s1, b⟩, h1, h2⟩ := h
  obtain ⟨⟨N1, e1⟩, hi⟩ := mentionAll_ren (σ := σ) (d := d) _ N h1
  cases b with
  | false => cases h2; exact ⟨⟨N1, _, e1, rfl⟩, by omega⟩
  | true =>
    obtain ⟨s2, h3, h4⟩ := Option.bind_eq_some_iff.1 h2
    cases h4
    have hle := installAll_mono _ _ h3
    have e2 := installAll_ren (σ := σ) (d := d) _ N1 _ h3 fun j a b => hf j (by omega) b
    refine ⟨⟨N1, _, e1, ?_⟩, by omega⟩
    simp only [e2, Option.bind_some, renApiOut]

theorem step_ren (hσ : Inj σ) (N : List (MockId × Nat)) {s s' : AState V E} {op : Op V E} {o : OpOut V E} (h : aStep P s op = some (o, s')) (hf : ∀ j, s.installed ≤ j → j < s'.installed → σ (2 * j) = 2 * (j + d)) :
    (∃ N', aStep P (ren σ d N s) (renOp σ op) = some (renOut d o, ren σ d N' s')) ∧ s.installed ≤ s'.installed := by
  have hx : ∀ {t t' : AState V E} {m : MockId} {f : AMock V E → Option (AMock V E)} {r : AState V E × ApiOut}, (∀ k, f (renMock σ k) = (f k).map (renMock σ)) → (onMock t m f).map (fun z => (z, ApiOut.unit)) = some r →
      ((onMock (ren σ d N t) m f).map fun z => (z, ApiOut.unit)) = some (ren σ d N r.1, renApiOut d r.2) ∧ r.1.installed = t.installed := by
    intro t t' m f r hf h
    obtain ⟨t', h1, rfl⟩ := Option.map_eq_some_iff.1 h
    obtain ⟨e, hi⟩ := onMock_ren (σ := σ) (d := d) (N := N) hf h1
    exact ⟨by rw [e]; rfl, hi⟩
  cases op with
  | call m off args =>
    simp only [aStep, Option.map_eq_some_iff, Prod.mk.injEq] at h
    obtain ⟨⟨o1, s1⟩, h1, rfl, rfl⟩ := h
    refine ⟨⟨N, ?_⟩, Nat.le_of_eq (call_installed h1).symm⟩
    simp only [renOp, aStep, call_ren hσ, h1, Option.map_some]; rfl
  | api a =>
    simp only [aStep, Option.map_eq_some_iff, Prod.mk.injEq] at h
    obtain ⟨⟨s1, o1⟩, h1, rfl, rfl⟩ := h
    suffices hs : (∃ N' b, renOp σ (.api a) = .api b ∧ aApi P (ren σ d N s) b = some (ren σ d N' s1, renApiOut d o1)) ∧ s.installed ≤ s1.installed by
      obtain ⟨⟨N', b, hb, e⟩, hi⟩ := hs
      refine ⟨⟨N', ?_⟩, hi⟩
      simp only [hb, aStep, e, Option.map_some]; rfl
    cases a with
    | newMock cls => cases h1; exact ⟨⟨N, _, rfl, by simp only [aApi, new_ren]; simp [ren, renApiOut]⟩, Nat.le_refl _⟩
    | newSpy cls => cases h1; exact ⟨⟨N, _, rfl, by simp only [aApi, new_ren]; simp [ren, renApiOut]⟩, Nat.le_refl _⟩
    | destroy m =>
      obtain ⟨e, hi⟩ := hx (t' := s) (fun k => rfl) h1
      exact ⟨⟨N, _, rfl, by simp only [aApi, forget_ren]; exact e⟩, Nat.le_of_eq hi.symm⟩
    | touch m slot =>
      simp only [aApi, Option.map_eq_some_iff] at h1
      obtain ⟨r, h1, h2⟩ := h1
      obtain ⟨⟨N1, e1⟩, hi⟩ := mention_ren (σ := σ) (d := d) N h1
      cases r with
      | none => cases h2; exact ⟨⟨N, _, rfl, by simp only [aApi, e1]; rfl⟩, Nat.le_refl _⟩
      | some s2 => cases h2; exact ⟨⟨N1, _, rfl, by simp only [aApi, e1]; rfl⟩, Nat.le_of_eq (hi _ rfl).symm⟩
    | when_ t acts u =>
      obtain ⟨⟨N', e⟩, hi⟩ := stubOne_ren (σ := σ) (d := d) N h1 hf
      exact ⟨⟨N', _, rfl, e⟩, hi⟩
    | fake ts =>
      obtain ⟨⟨N', e⟩, hi⟩ := stubMany_ren (σ := σ) (d := d) N h1 hf
      exact ⟨⟨N', _, rfl, e⟩, hi⟩
    | spy mv ts =>
      obtain ⟨⟨N', e⟩, hi⟩ := stubMany_ren (σ := σ) (d := d) N h1 hf
      exact ⟨⟨N', _, rfl, e⟩, hi⟩
    | assign t f =>
      obtain ⟨⟨N', e⟩, hi⟩ := stubOne_ren (σ := σ) (d := d) N h1 hf
      exact ⟨⟨N', _, rfl, e⟩, hi⟩
    | stubData m cell v =>
      obtain ⟨e, hi⟩ := hx (t' := s) (setCell_ren cell v) h1
      exact ⟨⟨N, _, rfl, e⟩, Nat.le_of_eq hi.symm⟩
    | writeData m cell v =>
      obtain ⟨e, hi⟩ := hx (t' := s) (setCell_ren cell v) h1
      exact ⟨⟨N, _, rfl, e⟩, Nat.le_of_eq hi.symm⟩
    | reset m =>
      obtain ⟨e, hi⟩ := hx (t' := s) (fun k => rfl) h1
      exact ⟨⟨N, _, rfl, by simp only [aApi, forget_ren]; exact e⟩, Nat.le_of_eq hi.symm⟩
    | clear m =>
      obtain ⟨e, hi⟩ := hx (t' := s) (fun k => rfl) h1
      exact ⟨⟨N, _, rfl, by simp only [aApi, forget_ren]; exact e⟩, Nat.le_of_eq hi.symm⟩
    | write a v => cases h1; exact ⟨⟨N, _, rfl, rfl⟩, Nat.le_refl _⟩
    | verify scope pat q mode =>
      obtain ⟨⟨N', e⟩, hi⟩ := verify_ren hσ N h1
      exact ⟨⟨N', _, rfl, e⟩, Nat.le_of_eq hi.symm⟩
    | verifyNoOther srcs mode =>
      obtain ⟨⟨N', e⟩, hi⟩ := noOther_ren hσ N h1
      exact ⟨⟨N', _, rfl, e⟩, Nat.le_of_eq hi.symm⟩

theorem run_mono : ∀ {ops : List (Op V E)} {s s' : AState V E} {outs : List (OpOut V E)}, aRun P s ops = some (outs, s') → s.installed ≤ s'.installed
  | [], s, s', outs, h => by cases h; exact Nat.le_refl _
  | op :: ops, s, s', outs, h => by
    simp only [aRun, Option.bind_eq_bind, Option.bind_eq_some_iff] at h
    obtain ⟨⟨o, s1⟩, h1, ⟨os, s2⟩, h2, h3⟩ := h
    cases h3
    exact Nat.le_trans (step_ren (σ := id) (d := 0) (fun _ _ h => h) [] h1 fun _ _ _ => rfl).2 (run_mono h2)

theorem run_ren (hσ : Inj σ) : ∀ {ops : List (Op V E)} (N : List (MockId × Nat)) {s s' : AState V E} {outs : List (OpOut V E)}, aRun P s ops = some (outs, s') → (∀ j, s.installed ≤ j → j < s'.installed → σ (2 * j) = 2 * (j + d)) →
    ∃ N', aRun P (ren σ d N s) (ops.map (renOp σ)) = some (outs.map (renOut d), ren σ d N' s')
  | [], N, s, s', outs, h, _ => by cases h; exact ⟨N, rfl⟩
  | op :: ops, N, s, s', outs, h, hf => by
    simp only [aRun, Option.bind_eq_bind, Option.bind_eq_some_iff] at h
    obtain ⟨⟨o, s1⟩, h1, ⟨os, s2⟩, h2, h3⟩ := h
    cases h3
    have hle := run_mono h2
    obtain ⟨⟨N1, e1⟩, hi⟩ := step_ren hσ N h1 fun j a b => hf j a (Nat.lt_of_lt_of_le b hle)
    obtain ⟨N2, e2⟩ := run_ren hσ N1 h2 fun j a b => hf j (Nat.le_trans hi a) b
    refine ⟨N2, ?_⟩
    simp only [List.map_cons, aRun, e1, e2, Option.bind_eq_bind, Option.bind_some]

/-- If no more stubbings have been installed, the outcomes are the same. -/
theorem run_same (hσ : Inj σ) {ops : List (Op V E)} (N : List (MockId × Nat)) {s s' : AState V E} {outs : List (OpOut V E)} (h : aRun P s ops = some (outs, s')) (hf : ∀ j, s.installed ≤ j → j < s'.installed → σ (2 * j) = 2 * (j + 0)) :
    ∃ N', aRun P (ren σ 0 N s) (ops.map (renOp σ)) = some (outs, ren σ 0 N' s') := by
  obtain ⟨N', e⟩ := run_ren hσ N h hf
  rw [show (renOut 0 : OpOut V E → OpOut V E) = id from funext renOut_zero, List.map_id] at e
  exact ⟨N', e⟩

/-! ## The two statements -/

/-- A stubbing is added to a method, which is mentioned if it has not been. -/
def put (off : Nat) (st : Stub V E) (k : AMock V E) : AMock V E :=
  { k with stubs := fun o => if o = off then some (match k.stubs off with | none => [st] | some l => st :: l) else k.stubs o }

/-- The mock takes the statement. -/
def Takes (P : Prog V E) (x : Stmt V E) (k : AMock V E) : Prop :=
  k.alive = true ∧ (x.off < (P.cls k.cls).size ∧ ∀ d ∈ (P.cls k.cls).dtor, x.off ≠ d ∧ x.off ≠ d + 1) ∧ writable x.what.acts = true

/-- The statement has been made. -/
def after (s : AState V E) (x : Stmt V E) (N : List (MockId × Nat)) : AState V E :=
  ⟨s.mocks.modify x.m (put x.off ⟨nameOf s, x.what.kind, x.what.acts⟩), s.calls, s.heap, s.made, N, s.installed + 1, s.log⟩

theorem op_eq (s : AState V E) (x : Stmt V E) : aStep P s x.op = (aStubOne P s ⟨x.m, .meth x.off x.ctr, x.what.kind⟩ x.what.acts false).map fun r => (.api r.2, r.1) := by
  obtain ⟨m, off, ctr, w⟩ := x
  cases w <;> rfl

/-- What a statement does, if the mock takes it. -/
theorem stub_takes {s : AState V E} {x : Stmt V E} {k : AMock V E} (hk : s.mocks[x.m]? = some k) (ht : Takes P x k) : ∃ N, aStep P s x.op = some (.api (.matcher (nameOf s)), after s x N) := by
  rw [op_eq]
  unfold aStubOne
  have hm : mention P s x.m (.meth x.off x.ctr) = some (some (hook s x.m k x.off)) := by
    simp only [mention, hk, ht.1, if_true, if_pos ht.2.1]
  simp only [hm, Option.bind_eq_bind, Option.bind_some, Bool.false_eq_true, if_false]
  cases hl : k.stubs x.off with
  | some l =>
    have hh : hook s x.m k x.off = s := by simp [hook, hl]
    have hi : install P s ⟨x.m, .meth x.off x.ctr, x.what.kind⟩ x.what.acts = some (after s x s.named) := by
      simp only [install, hk, methodOf]
      rw [if_pos ⟨ht.1, ht.2.2, by simp [hl]⟩]
      simp only [after]
      congr 2
      apply List.ext_getElem?
      intro i
      simp only [List.getElem?_modify]
      by_cases hx : x.m = i
      · subst hx
        simp only [hk, if_true, Option.map_eq_map, Option.map_some]
        congr 1
        simp only [AMock.onStubs, put, hl]
        congr 1
        funext o
        by_cases ho : o = x.off
        · simp [ho, hl]
        · simp [ho]
      · simp [hx]
    rw [hh, hi]
    exact ⟨s.named, rfl⟩
  | none =>
    have hh : hook s x.m k x.off = ⟨s.mocks.modify x.m (fun k => { k with stubs := fun o => if o = x.off then some [] else k.stubs o }), s.calls, s.heap, s.made, s.named ++ [(x.m, x.off)], s.installed, s.log⟩ := by
      simp [hook, hl]
    rw [hh]
    have hk' : (s.mocks.modify x.m (fun k => { k with stubs := fun o => if o = x.off then some [] else k.stubs o }))[x.m]? = some { k with stubs := fun o => if o = x.off then some [] else k.stubs o } := by
      simp [hk]
    have hi : install P ⟨s.mocks.modify x.m (fun k => { k with stubs := fun o => if o = x.off then some [] else k.stubs o }), s.calls, s.heap, s.made, s.named ++ [(x.m, x.off)], s.installed, s.log⟩ ⟨x.m, .meth x.off x.ctr, x.what.kind⟩ x.what.acts =
        some (after s x (s.named ++ [(x.m, x.off)])) := by
      simp only [install, hk', methodOf]
      rw [if_pos ⟨ht.1, ht.2.2, by simp⟩]
      simp only [after]
      congr 2
      apply List.ext_getElem?
      intro i
      simp only [List.getElem?_modify]
      by_cases hx : x.m = i
      · subst hx
        simp only [hk, if_true, Option.map_eq_map, Option.map_some]
        congr 1
        simp only [AMock.onStubs, put, hl]
        congr 1
        funext o
        by_cases ho : o = x.off
        · simp [ho]; rfl
        · simp [ho]
      · simp [hx]
    rw [hi]
    exact ⟨s.named ++ [(x.m, x.off)], rfl⟩

/-- If the statement can be made, the mock takes it. -/
theorem takes_of_step {s s' : AState V E} {x : Stmt V E} {o : OpOut V E} (h : aStep P s x.op = some (o, s')) : ∃ k, s.mocks[x.m]? = some k ∧ Takes P x k := by
  rw [op_eq] at h
  obtain ⟨r, h, -⟩ := Option.map_eq_some_iff.1 h
  unfold aStubOne at h
  simp only [Option.bind_eq_bind, Option.bind_eq_some_iff] at h
  obtain ⟨q, h1, h2⟩ := h
  unfold mention at h1
  cases hk : s.mocks[x.m]? with
  | none => rw [hk] at h1; cases h1
  | some k =>
    rw [hk] at h1
    dsimp only at h1
    split at h1
    · rename_i ha
      split at h1
      · rename_i hc
        cases h1
        simp only [Bool.false_eq_true, if_false] at h2
        obtain ⟨s2, h3, -⟩ := Option.bind_eq_some_iff.1 h2
        refine ⟨k, rfl, ha, hc, ?_⟩
        unfold install at h3
        split at h3
        · cases h3
        · split at h3
          · cases h3
          · split at h3
            · rename_i hw
              exact hw.2.1
            · cases h3
      · cases h1
    · cases h1

theorem swap_swap (a b n : Nat) : swap a b (swap a b n) = n := by
  unfold swap
  by_cases h1 : n = a
  · subst h1
    by_cases h2 : b = n
    · simp [h2]
    · simp [h2]
  · by_cases h2 : n = b
    · simp [h2]
    · simp [h1, h2]

theorem swap_inj (a b : Nat) : Inj (swap a b) := fun x y h => by rw [← swap_swap a b x, h, swap_swap]

/-- The two statements in the other order. -/
theorem two_swapped {s s1 s2 : AState V E} {x y : Stmt V E} (hap : x.Apart y) {o1 o2 : OpOut V E} (h1 : aStep P s x.op = some (o1, s1)) (h2 : aStep P s1 y.op = some (o2, s2)) (N : List (MockId × Nat)) :
    o1 = .api (.matcher (2 * s.installed)) ∧ o2 = .api (.matcher (2 * (s.installed + 1))) ∧ s1.installed = s.installed + 1 ∧ s2.installed = s.installed + 2 ∧
    ∃ r1 N', aStep P (ren (swap (2 * s.installed) (2 * (s.installed + 1))) 0 N s) y.op = some (o1, r1) ∧ aStep P r1 x.op = some (o2, ren (swap (2 * s.installed) (2 * (s.installed + 1))) 0 N' s2) := by
  obtain ⟨k, hk, htx⟩ := takes_of_step h1
  obtain ⟨k1, hk1, hty⟩ := takes_of_step h2
  obtain ⟨N1, e1⟩ := stub_takes hk htx
  rw [h1] at e1
  simp only [Option.some.injEq, Prod.mk.injEq] at e1
  obtain ⟨rfl, rfl⟩ := e1
  obtain ⟨N2, e2⟩ := stub_takes hk1 hty
  rw [h2] at e2
  simp only [Option.some.injEq, Prod.mk.injEq] at e2
  obtain ⟨rfl, rfl⟩ := e2
  refine ⟨rfl, rfl, rfl, rfl, ?_⟩
  generalize hσ : swap (2 * s.installed) (2 * (s.installed + 1)) = σ
  have ha : σ (2 * s.installed) = 2 * (s.installed + 1) := by rw [← hσ]; simp [swap]
  have hb : σ (2 * (s.installed + 1)) = 2 * s.installed := by
    rw [← hσ]
    unfold swap
    rw [if_neg (by omega), if_pos rfl]
  -- the mocks are there in the other order
  have hy : ∃ k', (ren σ 0 N s).mocks[y.m]? = some k' ∧ Takes P y k' := by
    rw [mocks_at]
    simp only [after, List.getElem?_modify] at hk1
    cases hq : s.mocks[y.m]? with
    | none => rw [hq] at hk1; simp at hk1
    | some k0 =>
      rw [hq] at hk1
      refine ⟨_, rfl, ?_⟩
      by_cases hm : x.m = y.m
      · simp only [hm, if_true, Option.map_eq_map, Option.map_some, Option.some.injEq] at hk1
        subst hk1
        exact hty
      · simp only [hm, if_false, Option.map_eq_map, Option.map_some, Option.some.injEq] at hk1
        subst hk1
        exact hty
  obtain ⟨k2, hk2, hty2⟩ := hy
  obtain ⟨N3, e3⟩ := stub_takes hk2 hty2
  have hx : ∃ k', (after (ren σ 0 N s) y N3).mocks[x.m]? = some k' ∧ Takes P x k' := by
    simp only [after, List.getElem?_modify, mocks_at, hk, Option.map_some, Option.map_eq_map]
    refine ⟨_, rfl, ?_⟩
    by_cases hm : y.m = x.m
    · simp only [hm, if_true]; exact htx
    · simp only [hm, if_false]; exact htx
  obtain ⟨k3, hk3, htx3⟩ := hx
  obtain ⟨N4, e4⟩ := stub_takes hk3 htx3
  refine ⟨_, N4, e3, ?_⟩
  rw [e4]
  simp only [after, ren, nameOf]
  congr 3
  apply List.ext_getElem?
  intro i
  simp only [List.getElem?_modify, List.getElem?_map]
  cases s.mocks[i]? with
  | none => rfl
  | some q =>
    simp only [Option.map_some, Option.map_eq_map]
    congr 1
    by_cases hxi : x.m = i <;> by_cases hyi : y.m = i
    · have ho : x.off ≠ y.off := hap (hxi.trans hyi.symm)
      simp only [hxi, hyi, if_true, put, renMock]
      congr 1
      funext o
      by_cases h1 : o = x.off
      · subst h1
        simp only [if_true, if_neg ho, Option.map_some]
        cases q.stubs x.off <;> simp [renStub, ha]
      · by_cases h2 : o = y.off
        · subst h2
          simp only [if_true, if_neg h1, Option.map_some]
          cases q.stubs y.off <;> simp [renStub, hb]
        · simp [h1, h2]
    · simp only [hxi, hyi, if_true, if_false, put, renMock]
      congr 1
      funext o
      by_cases h1 : o = x.off
      · subst h1
        simp only [if_true, Option.map_some]
        cases q.stubs x.off <;> simp [renStub, ha]
      · simp [h1]
    · simp only [hxi, hyi, if_true, if_false, put, renMock]
      congr 1
      funext o
      by_cases h1 : o = y.off
      · subst h1
        simp only [if_true, Option.map_some]
        cases q.stubs y.off <;> simp [renStub, hb]
      · simp [h1]
    · simp only [hxi, hyi, if_false]

/-! ## Whole tests -/

theorem run_split : ∀ {as bs : List (Op V E)} {s s' : AState V E} {outs : List (OpOut V E)}, aRun P s (as ++ bs) = some (outs, s') →
    ∃ o1 o2 s1, outs = o1 ++ o2 ∧ o1.length = as.length ∧ aRun P s as = some (o1, s1) ∧ aRun P s1 bs = some (o2, s')
  | [], bs, s, s', outs, h => ⟨[], outs, s, rfl, rfl, rfl, h⟩
  | a :: as, bs, s, s', outs, h => by
    simp only [List.cons_append, aRun, Option.bind_eq_bind, Option.bind_eq_some_iff] at h
    obtain ⟨⟨o, t⟩, h1, ⟨os, t2⟩, h2, h3⟩ := h
    cases h3
    obtain ⟨o1, o2, s1, rfl, e2, e3, e4⟩ := run_split h2
    refine ⟨o :: o1, o2, s1, rfl, by simp [e2], ?_, e4⟩
    simp only [aRun, h1, e3, Option.bind_eq_bind, Option.bind_some]

theorem run_join : ∀ {as bs : List (Op V E)} {s s1 s2 : AState V E} {o1 o2 : List (OpOut V E)}, aRun P s as = some (o1, s1) → aRun P s1 bs = some (o2, s2) → aRun P s (as ++ bs) = some (o1 ++ o2, s2)
  | [], bs, s, s1, s2, o1, o2, h, h' => by cases h; exact h'
  | a :: as, bs, s, s1, s2, o1, o2, h, h' => by
    simp only [aRun, Option.bind_eq_bind, Option.bind_eq_some_iff] at h
    obtain ⟨⟨o, t⟩, h1, ⟨os, t2⟩, h2, h3⟩ := h
    cases h3
    have := run_join h2 h'
    simp only [List.cons_append, aRun, h1, this, Option.bind_eq_bind, Option.bind_some]

theorem op_ren (x : Stmt V E) : renOp σ x.op = x.op := by
  obtain ⟨m, off, ctr, w⟩ := x
  cases w <;> rfl

/-- The two statements in the other order, in a test. -/
theorem run_swapped {heap : Addr → V} {pre post : List (Op V E)} {x y : Stmt V E} (hap : x.Apart y) {outs : List (OpOut V E)} {s : AState V E} (h : aRun P (AState.start heap) (pre ++ x.op :: y.op :: post) = some (outs, s)) :
    ∃ a b N, outs[pre.length]? = some (.api (.matcher a)) ∧ outs[pre.length + 1]? = some (.api (.matcher b)) ∧
      aRun P (AState.start heap) ((pre ++ y.op :: x.op :: post).map (renOp (swap a b))) = some (outs, ren (swap a b) 0 N s) := by
  obtain ⟨o1, o2, t, rfl, hlen, h1, h2⟩ := run_split h
  simp only [aRun, Option.bind_eq_bind, Option.bind_eq_some_iff] at h2
  obtain ⟨⟨p, t1⟩, h3, ⟨p2, u⟩, ⟨⟨p3, t2⟩, h4, ⟨p4, u2⟩, h5, h6⟩, h7⟩ := h2
  cases h6
  cases h7
  generalize hσ : swap (2 * t.installed) (2 * (t.installed + 1)) = σ
  have hinj : Inj σ := hσ ▸ swap_inj _ _
  have hfix : ∀ j, j ≠ t.installed → j ≠ t.installed + 1 → σ (2 * j) = 2 * (j + 0) := by
    intro j hj hj'
    rw [← hσ]
    unfold swap
    rw [if_neg (by omega), if_neg (by omega)]
    rfl
  obtain ⟨N1, e1⟩ := run_same hinj [] h1 fun j _ hj => hfix j (by omega) (by omega)
  obtain ⟨q1, q2, q3, q4, r1, N2, e2, e3⟩ := two_swapped hap h3 h4 N1
  rw [hσ] at e2 e3
  dsimp only at q4 h5 ⊢
  obtain ⟨N3, e4⟩ := run_same hinj N2 h5 fun j hj _ => hfix j (by omega) (by omega)
  refine ⟨2 * t.installed, 2 * (t.installed + 1), N3, ?_, ?_, ?_⟩
  · rw [List.getElem?_append_right (by omega), hlen, Nat.sub_self, ← q1]; rfl
  · rw [List.getElem?_append_right (by omega), hlen, Nat.add_sub_cancel_left, ← q2]; rfl
  · rw [hσ, List.map_append, List.map_cons, List.map_cons, op_ren, op_ren]
    refine run_join e1 ?_
    simp only [aRun, e2, e3, e4, Option.bind_eq_bind, Option.bind_some]

/-! ## What a user can write -/

theorem writable_ren {x : Seq (Leaf V)} (h : Writable x) : Writable (renSeq σ x) := by
  induction h with
  | method l => exact .method _
  | plus _ _ ih1 ih2 => exact .plus ih1 ih2
  | @star s r n hs hr ih =>
    refine .star (n := n) ih ?_
    unfold Seq.opStar at hr ⊢
    split at hr
    · cases hr
    · rename_i hn
      cases hr
      rw [if_neg hn]
      rfl

theorem slots_ren {a b : Api V E} (h : renOp σ (.api a) = .api b) : b.slots = a.slots := by
  cases a with
  | verify scope pat q mode =>
    cases h
    simp only [Api.slots, ← mentionedBy_eq, mentioned_ren]
  | verifyNoOther srcs mode =>
    cases h
    simp only [Api.slots, ← allOf_eq, ← leavesOf_eq, allOf_ren, leavesOf_ren, List.map_map]
    rfl
  | _ => cases h; rfl

theorem renOp_api (a : Api V E) : ∃ b, renOp σ (.api a) = .api b := by
  cases a <;> exact ⟨_, rfl⟩

theorem named_ren {nm : MockId → Nat → Nat} {op : Op V E} (h : op.Within (Api.Named nm) fun _ _ => True) : (renOp σ op).Within (Api.Named nm) fun _ _ => True := by
  cases op with
  | call m off args => trivial
  | api a =>
    obtain ⟨b, hb⟩ := renOp_api (σ := σ) a
    rw [hb]
    intro z hz
    rw [slots_ren hb] at hz
    exact h z hz

theorem writes_ren {op : Op V E} (h : op.Within Api.Writes fun _ _ => True) : (renOp σ op).Within Api.Writes fun _ _ => True := by
  cases op with
  | call m off args => trivial
  | api a =>
    cases a with
    | verify scope pat q mode =>
      refine ⟨fun e => h.1 (List.map_eq_nil_iff.1 e), ?_⟩
      intro z hz
      obtain ⟨z', hz', rfl⟩ := List.mem_map.1 hz
      exact writable_ren (h.2 z' hz')
    | _ => trivial

theorem mentions_ren (op : Op V E) : (renOp σ op).mentions = op.mentions := by
  cases op with
  | call m off args => rfl
  | api a =>
    obtain ⟨b, hb⟩ := renOp_api (σ := σ) a
    rw [hb]
    exact congrArg List.length (slots_ren hb)

theorem small_ren {ops ops' : List (Op V E)} (hp : ops.Perm ops') (h : Small ops) : Small (ops'.map (renOp σ)) := by
  refine ⟨by rw [List.length_map, ← hp.length_eq]; exact h.1, ?_⟩
  rw [List.map_map, show (Op.mentions ∘ renOp σ : Op V E → Nat) = Op.mentions from funext mentions_ren, ← (hp.map Op.mentions).sum_nat]
  exact h.2

theorem callsTo_ren (s : AState V E) (m off : Nat) : callsTo (ren σ d N s) m off = (callsTo s m off).map (renRec σ) := filter_map_ren (fun _ => rfl) _

end FakeIt.Spec.Reorder
