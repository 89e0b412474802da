import Verif.Lemmas.OneThreadSteps
/-!
# Lemmas for C90: whole programs
-/
namespace FakeIt.OneThread

open FakeIt.Spec

variable {V E : Type} {P : Prog V E} {cs : List (Nat × Bool)}

theorem noOther_sim {T : Table V E} {s : AState V E} (hI : Inv P cs T s) {m : Nat} {c : Nat × Bool} (hc : cs[m]? = some c) :
    Simulates P cs T s (.noOther m) := by
  obtain ⟨k, hk, k1, k2, k3, k4⟩ := hI.mocks m c hc
  have hsrc : ∀ r : Rec V, inSource P s (allOf [.mock m]) r = ofMock m r := by
    intro r; simp [allOf, inSource]
  have hall : s.calls.filter (inSource P s (allOf [.mock m])) = s.calls.filter (ofMock m) := List.filter_congr fun r _ => hsrc r
  have hlive : live s (mocksOf (V := V) (allOf [.mock m])) = true := by simp [live, allOf, mocksOf, hk, k3]
  have hiff : ((s.calls.filter (ofMock m)).filter fun r => !r.verified).isEmpty = true ↔
      (List.range (sizeOf P cs m)).all (fun k => (Races.Spec.ofName (viewOf P T s) m k).calls.all Races.Spec.Rec.verified) = true := by
    rw [List.isEmpty_iff, List.filter_eq_nil_iff, List.all_eq_true]
    constructor
    · intro h k' _
      rw [ofName_view hI, List.all_eq_true]
      intro x hx
      obtain ⟨r, hr, rfl⟩ := List.mem_map.1 hx
      obtain ⟨hr1, hr2⟩ := List.mem_filter.1 hr
      have := h r (List.mem_filter.2 ⟨hr1, by simp [ofMock, beq_iff_eq.1 hr2]⟩)
      simpa [callRec] using this
    · intro h r hr
      obtain ⟨hr1, hr2⟩ := List.mem_filter.1 hr
      obtain ⟨m', off, vs, hm, _, hT⟩ := hI.calls r hr1
      obtain rfl : m' = m := by simpa [ofMock, hm] using hr2
      obtain ⟨c', hc', hlt⟩ := hI.inside m' off hT
      have hsz : sizeOf P cs m' = (P.cls c'.1).size := by rw [sizeOf, hc']
      have := h off (List.mem_range.2 (by omega))
      rw [ofName_view hI, List.all_eq_true] at this
      have := this (callRec s.heap r) (List.mem_map.2 ⟨r, List.mem_filter.2 ⟨hr1, by simp [hm]⟩, rfl⟩)
      simpa [callRec] using this
  have hstep : aStep P s (Step.noOther (V := V) (E := E) m).test =
      if ((s.calls.filter (ofMock m)).filter fun r => !r.verified).isEmpty then some (.api (.verdict true), s)
      else some (.api (.verdict false), { s with log := s.log ++ [.others (s.calls.filter (ofMock m)) ((s.calls.filter (ofMock m)).filter fun r => !r.verified)] }) := by
    have hmen : mentionAll P s ((leavesOf (V := V) (allOf [.mock m])).map fun l => (l.m, l.slot)) = some (s, true) := rfl
    simp only [Step.test, aStep, aApi, aNoOther, hmen]
    show Option.map _ (if live s (mocksOf (V := V) (allOf [.mock m])) = true then _ else none) = _
    rw [hlive]
    simp only [if_true, hall]
    by_cases he : ((s.calls.filter (ofMock m)).filter fun r => !r.verified).isEmpty = true
    · simp only [he, if_true]; rfl
    · simp only [he]; rfl
  have hans : Races.Spec.answer (origOf cs) (sizeOf P cs) (viewOf P T s) ((Step.noOther (V := V) (E := E) m).op P) =
      (if (List.range (sizeOf P cs m)).all (fun k => (Races.Spec.ofName (viewOf P T s) m k).calls.all Races.Spec.Rec.verified) then .held else .failed, viewOf P T s) := rfl
  by_cases he : ((s.calls.filter (ofMock m)).filter fun r => !r.verified).isEmpty = true
  · rw [if_pos he] at hstep
    exact ⟨T, s, _, .held, hstep, rfl, hI, by rw [hans, if_pos (hiff.1 he)], rfl, rfl⟩
  · rw [if_neg he] at hstep
    refine ⟨T, _, _, .failed, hstep, rfl, hI.same (Nat.le_refl _) _, ?_, rfl, rfl⟩
    rw [hans, if_neg fun h => he (hiff.2 h)]
    rfl

theorem forget_callsTo {s : AState V E} {m m' k : Nat} : callsTo (forget s m) m' k = if m' = m then [] else callsTo s m' k := by
  rw [callsTo, forget, List.filter_filter]
  by_cases h : m' = m
  · subst h
    rw [if_pos rfl, List.filter_eq_nil_iff]
    intro r _
    cases hm : r.meth with
    | none => simp
    | some x => simp only [ofMock, hm]; intro hx; simp only [Bool.and_eq_true, beq_iff_eq, Option.some.injEq] at hx; rw [hx.1] at hx; simp at hx
  · rw [if_neg h, callsTo]
    apply List.filter_congr
    intro r _
    cases hm : r.meth with
    | none => simp
    | some x =>
      by_cases hx : x = (m', k)
      · subst hx; simp [ofMock, hm, h]
      · have : (x == (m', k)) = false := beq_eq_false_iff_ne.2 hx
        simp [this]

/-- Operations that forget the calls of a mock. -/
theorem forget_inv {T T' : Table V E} {s : AState V E} (hI : Inv P cs T s) {m : Nat} {k' : AMock V E} {c : Nat × Bool} (hc : cs[m]? = some c)
    (h1 : k'.cls = c.1) (h2 : k'.spied = c.2) (h3 : k'.alive = true)
    (h4 : ∀ off, k'.stubs off = (T' m off).map List.reverse) (hT : ∀ m' off, m' ≠ m → T' m' off = T m' off)
    (hT' : ∀ off, T' m off = T m off ∨ T' m off = none) (hlt : m < s.mocks.length) :
    Inv P cs T' { forget s m with mocks := s.mocks.set m k' } := by
  have hmono : ∀ m' off l, T' m' off = some l → T m' off = some l := by
    intro m' off l h
    by_cases hm : m' = m
    · subst hm
      rcases hT' off with e | e <;> rw [e] at h
      · exact h
      · cases h
    · rw [hT m' off hm] at h; exact h
  have hmem : ∀ r, r ∈ (forget s m).calls → r ∈ s.calls ∧ ofMock m r = false := by
    intro r hr
    obtain ⟨a, b⟩ := List.mem_filter.1 hr
    exact ⟨a, by simpa using b⟩
  refine ⟨?_, ?_, ?_, ?_, ?_, ?_, ?_⟩
  · intro m' c' hc'
    by_cases hm : m' = m
    · subst hm
      rw [hc] at hc'
      cases hc'
      exact ⟨k', by simp [hlt], h1, h2, h3, h4⟩
    · obtain ⟨k, hk, a, b, d, e⟩ := hI.mocks m' c' hc'
      exact ⟨k, by simp [Ne.symm hm, hk], a, b, d, fun off => by rw [hT m' off hm]; exact e off⟩
  · intro m' off h
    obtain ⟨l, hl⟩ := Option.isSome_iff_exists.1 h
    exact hI.inside m' off (by rw [hmono m' off l hl]; rfl)
  · intro r hr
    obtain ⟨hr1, hr2⟩ := hmem r hr
    obtain ⟨m', off, vs, a, b, d⟩ := hI.calls r hr1
    have hm : m' ≠ m := by rintro rfl; simp [ofMock, a] at hr2
    exact ⟨m', off, vs, a, b, by rw [hT m' off hm]; exact d⟩
  · exact hI.numbers.sublist (List.Sublist.map _ List.filter_sublist)
  · exact fun r hr => hI.made r (hmem r hr).1
  · exact fun m' off l hl => hI.names m' off l (hmono m' off l hl)
  · exact fun m' off l c' hl hc' => hI.good m' off l c' (hmono m' off l hl) hc'

theorem reset_sim {T : Table V E} {s : AState V E} (hI : Inv P cs T s) {m : Nat} {c : Nat × Bool} (hc : cs[m]? = some c) :
    Simulates P cs T s (.reset m) := by
  obtain ⟨k, hk, k1, k2, k3, k4⟩ := hI.mocks m c hc
  have hlt : m < s.mocks.length := (List.getElem?_eq_some_iff.1 hk).1
  have hk' : (forget s m).mocks[m]? = some k := hk
  refine ⟨fun m' off => if m' = m then none else T m' off, _, .api .unit, .done, ?_, ?_, forget_inv hI (k' := { k with stubs := fun _ => none, wasReset := true, data := zeroed k }) hc k1 k2 k3 (by simp) (by simp +contextual) (by simp) hlt, ?_, .inl rfl, ?_⟩
  · simp only [Step.test, aStep, aApi, onMock, hk', k3]
    rfl
  · rfl
  · refine congrArg (Prod.mk _) ?_
    funext m' off
    show (if m' = m then none else viewOf P T s m' off) = _
    rw [viewOf]
    by_cases hm : m' = m
    · simp [hm, viewOf]
    · have hct : callsTo { forget s m with mocks := s.mocks.set m { k with stubs := fun _ => none, wasReset := true, data := zeroed k } } m' off = callsTo s m' off :=
        (forget_callsTo (s := s)).trans (if_neg hm)
      simp only [if_neg hm, viewOf, hct]
      rfl
  · funext m' off
    by_cases hm : m' = m
    · simp [givenBy, Given.step, hm]
    · simp [givenBy, Given.step, hm]

theorem clear_sim {T : Table V E} {s : AState V E} (hI : Inv P cs T s) {m : Nat} {c : Nat × Bool} (hc : cs[m]? = some c) :
    Simulates P cs T s (.clear m) := by
  obtain ⟨k, hk, k1, k2, k3, k4⟩ := hI.mocks m c hc
  have hlt : m < s.mocks.length := (List.getElem?_eq_some_iff.1 hk).1
  have hk' : (forget s m).mocks[m]? = some k := hk
  refine ⟨T, _, .api .unit, .done, ?_, ?_, forget_inv hI (k' := { k with data := zeroed k }) hc k1 k2 k3 k4 (fun _ _ _ => rfl) (fun _ => .inl rfl) hlt, ?_, .inl rfl, rfl⟩
  · simp only [Step.test, aStep, aApi, onMock, hk', k3]
    rfl
  · rfl
  · refine congrArg (Prod.mk _) ?_
    funext m' off
    show (if m' = m then (viewOf P T s m' off).map fun M => ⟨M.stubbings, []⟩ else viewOf P T s m' off) = _
    have hct : callsTo { forget s m with mocks := s.mocks.set m { k with data := zeroed k } } m' off = if m' = m then [] else callsTo s m' off :=
      forget_callsTo (s := s)
    simp only [viewOf, hct]
    by_cases hm : m' = m
    · simp only [if_pos hm]
      cases T m' off <;> rfl
    · simp only [if_neg hm]
      rfl

theorem step_sim (ht : Tame P cs) {T : Table V E} {s : AState V E} (hI : Inv P cs T s) {st : Step V E} (hf : st.Fit P cs) : Simulates P cs T s st := by
  obtain ⟨c, hc, hoff, hf⟩ := hf
  cases st with
  | call m off vs => exact call_sim ht hI hc (hoff off rfl)
  | when_ m off ctr kind acts => exact when_sim ht hI hc (hoff off rfl) ctr kind hf
  | fake m off ctr kind => exact fake_sim ht hI hc (hoff off rfl) ctr kind hf
  | spy m off ctr kind => exact spy_sim ht hI hc (hoff off rfl) ctr kind hf
  | verify m off ctr kind q => exact verify_sim ht hI hc (hoff off rfl) ctr kind hf
  | noOther m => exact noOther_sim hI hc
  | reset m => exact reset_sim hI hc
  | clear m => exact clear_sim hI hc

theorem steps_sim (ht : Tame P cs) : ∀ (sts : List (Step V E)) {T : Table V E} {s : AState V E}, Inv P cs T s → (∀ st ∈ sts, st.Fit P cs) →
    ∃ T' s' os, aRun P s (sts.map Step.test) = some (os, s') ∧ s'.heap = s.heap ∧ Inv P cs T' s' ∧
      (Races.Spec.answers (origOf cs) (sizeOf P cs) (viewOf P T s) (sts.map (Step.op P))).2 = viewOf P T' s' ∧
      AllSame P cs (givenBy T) sts (Races.Spec.answers (origOf cs) (sizeOf P cs) (viewOf P T s) (sts.map (Step.op P))).1 os
  | [], T, s, hI, _ => ⟨T, s, [], rfl, rfl, hI, rfl, trivial⟩
  | st :: sts, T, s, hI, hf => by
    obtain ⟨T1, s1, o, r, h1, h2, h3, h4, h5, h6⟩ := step_sim ht hI (hf st (List.mem_cons_self ..))
    obtain ⟨T2, s2, os, g1, g2, g3, g4, g5⟩ := steps_sim ht sts h3 fun st' h => hf st' (List.mem_cons_of_mem _ h)
    refine ⟨T2, s2, o :: os, ?_, g2.trans h2, g3, ?_, ?_⟩
    · simp [aRun, h1, g1]
    · simp only [List.map_cons, Races.Spec.answers, h4]
      exact g4
    · simp only [List.map_cons, Races.Spec.answers, h4]
      exact ⟨h5, by rw [← h6]; exact g5⟩

theorem start_inv (heap : Addr → V) : ∃ s : AState V E, aRun P (AState.start heap) (setup cs) = some (setupOuts cs, s) ∧ s.heap = heap ∧ Inv P cs (fun _ _ => none) s := by
  have key : ∀ (l : List (Nat × Bool)) (s : AState V E), ∃ s' : AState V E, aRun P s (setup l) = some ((List.range l.length).map (fun i => .api (.mockId (s.mocks.length + i))), s') ∧
      s'.heap = s.heap ∧ s'.calls = s.calls ∧ s'.mocks = s.mocks ++ l.map fun c => ⟨c.1, c.2, true, false, fun _ => none, List.replicate (P.cls c.1).dataSize 0⟩ := by
    intro l
    induction l with
    | nil => intro s; exact ⟨s, by simp [setup, aRun], rfl, rfl, by simp⟩
    | cons c l ih =>
      intro s
      obtain ⟨s', h1, h2, h3, h4⟩ := ih (aNew P s c.1 c.2)
      refine ⟨s', ?_, h2, h3, ?_⟩
      · have hstep : aStep P s (.api (if c.2 then .newSpy c.1 else .newMock c.1)) = some (.api (.mockId s.mocks.length), aNew P s c.1 c.2) := by
          obtain ⟨c1, c2⟩ := c
          cases c2 <;> rfl
        simp only [setup, List.map_cons, aRun, hstep]
        have h1' : aRun P (aNew P s c.1 c.2) (l.map fun c => .api (if c.2 then .newSpy c.1 else .newMock c.1)) = _ := h1
        simp only [h1', Option.bind_eq_bind, Option.bind_some, List.length_cons, List.range_succ_eq_map, List.map_cons, List.map_map]
        congr 2
        congr 1
        apply List.map_congr_left
        intro i _
        simp only [Function.comp, aNew, List.length_append, List.length_cons, List.length_nil, Nat.zero_add, Nat.add_assoc, Nat.add_comm 1]
      · rw [h4]
        simp [aNew]
  obtain ⟨s, h1, h2, h3, h4⟩ := key cs (AState.start heap)
  refine ⟨s, ?_, h2, ?_⟩
  · rw [h1]
    simp [AState.start, setupOuts]
  · refine ⟨?_, by simp, ?_, ?_, ?_, by simp, by simp⟩
    · intro m c hc
      refine ⟨⟨c.1, c.2, true, false, fun _ => none, List.replicate (P.cls c.1).dataSize 0⟩, ?_, rfl, rfl, rfl, by simp⟩
      rw [h4]
      simp [AState.start, hc]
    · rw [h3]; simp [AState.start]
    · rw [h3]; simp [AState.start]
    · rw [h3]; simp [AState.start]

theorem aRun_append : ∀ (ops ops' : List (Op V E)) {s s1 s2 : AState V E} {os os' : List (OpOut V E)}, aRun P s ops = some (os, s1) → aRun P s1 ops' = some (os', s2) →
    aRun P s (ops ++ ops') = some (os ++ os', s2)
  | [], _, _, _, _, _, _, h, h' => by cases h; exact h'
  | op :: ops, ops', s, s1, s2, os, os', h, h' => by
    simp only [aRun, Option.bind_eq_bind, Option.bind_eq_some_iff] at h
    obtain ⟨⟨o, t⟩, h1, ⟨os1, t1⟩, h2, h3⟩ := h
    cases h3
    have := aRun_append ops ops' h2 h'
    simp [aRun, h1, this]

end FakeIt.OneThread
