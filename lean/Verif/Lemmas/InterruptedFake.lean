import Verif.Spec.InterruptedFake
import Verif.Props.Several
import Verif.Lemmas.InterruptedStub
/-!
# `Fake` and `Spy` on several methods, interrupted by exceptions: lemmas
-/
namespace FakeIt.Spec.Interrupted
open FakeIt.Building (St Res)

variable {V E X : Type} {P : Prog V E} {th : Nat → Option X}

/-- How such a statement ends. -/
theorem several_ends (kind : FakeIt.Several.Kind) (cs : List FakeIt.Building.Crit) {s s' : St} {r : Res X Unit} (hw : FakeIt.Spec.Building.Wf s) (h : FakeIt.Several.statement th kind cs s = .done (r, s')) :
    ∃ n ts, n ≤ cs.length ∧ s'.stubs = s.stubs ++ ts ∧ FakeIt.Spec.Several.Made (cs.take n) ts ∧ ((r = .ok () ∧ n = cs.length) ∨ ((∃ x, r = .exc x) ∧ n < cs.length)) := by
  have hr := FakeIt.Several.statement_run (th := th) kind cs hw
  unfold FakeIt.Building.wp at hr
  rw [h] at hr
  cases r with
  | ok u =>
    obtain ⟨ts, hat, hm⟩ := hr
    exact ⟨cs.length, ts, Nat.le_refl _, hat.1.2.1, by rwa [List.take_length], .inl ⟨rfl, rfl⟩⟩
  | exc x =>
    rcases hr with ⟨n, c, hc, hb⟩ | ⟨n, ts, hlt, hm, hb⟩
    · obtain ⟨b, o, l, -, -, hs, -⟩ := FakeIt.Several.Broke.inArgument (kind := kind) hc hb
      exact ⟨0, [], Nat.zero_le _, by simpa using hs, rfl, .inr ⟨⟨x, rfl⟩, Nat.lt_of_le_of_lt (Nat.zero_le n) (List.getElem?_eq_some_iff.1 hc).1⟩⟩
    · obtain ⟨b, o, -, -, -, hs, -⟩ := FakeIt.Several.Broke.inStubbing hlt hb
      exact ⟨n, ts, Nat.le_of_lt hlt, hs, hm, .inr ⟨⟨x, rfl⟩, hlt⟩⟩

/-- What the statement makes a method do. -/
def Manner.act : Manner → Act V E
  | .fake => .dflt
  | .spy b => .deleg b

/-- A stubbing more. -/
def stubbed (s : AState V E) (a : Aim V) (acts : List (Act V E)) : AState V E :=
  { s with mocks := s.mocks.modify a.m fun k => k.onStubs a.off fun l => ⟨nameOf s, a.kind, acts⟩ :: l, installed := s.installed + 1 }

theorem writable_act (how : Manner) : writable [how.act (V := V) (E := E)] = true := by cases how <;> rfl

theorem known_mention {s : AState V E} {a : Aim V} (h : Known P s a) : mention P s a.m (.meth a.off a.ctr) = some (some s) := by
  obtain ⟨k, hk, hc, hs⟩ := h
  simp only [mention, hk, hc.1, if_true, if_pos (And.intro hc.2.1 hc.2.2), hook, hs]

theorem known_install {s : AState V E} {a : Aim V} (h : Known P s a) (how : Manner) : install P s a.target [how.act] = some (stubbed s a [how.act]) := by
  obtain ⟨k, hk, hc, hs⟩ := h
  simp only [install, Aim.target, hk, methodOf]
  rw [if_pos ⟨hc.1, writable_act how, hs⟩]
  rfl

theorem stubbed_mock {s : AState V E} {a : Aim V} {acts : List (Act V E)} {m : Nat} {k' : AMock V E} (h : (stubbed s a acts).mocks[m]? = some k') :
    ∃ k, s.mocks[m]? = some k ∧ k' = (if a.m = m then k.onStubs a.off fun l => ⟨nameOf s, a.kind, acts⟩ :: l else k) := by
  simp only [stubbed, List.getElem?_modify] at h
  cases hm : s.mocks[m]? with
  | none => rw [hm] at h; cases h
  | some k =>
    rw [hm] at h
    simp only [Option.map_eq_map, Option.map_some, Option.some.injEq] at h
    refine ⟨k, rfl, ?_⟩
    rw [← h]

theorem known_stubbed {s : AState V E} {a b : Aim V} {acts : List (Act V E)} (h : Known P s b) : Known P (stubbed s a acts) b := by
  obtain ⟨k, hk, hc, hs⟩ := h
  by_cases hm : a.m = b.m
  · refine ⟨k.onStubs a.off fun l => ⟨nameOf s, a.kind, acts⟩ :: l, ?_, hc, ?_⟩
    · simp only [stubbed, List.getElem?_modify, hk, hm, if_true]
      rfl
    · simp only [AMock.onStubs]
      split
      · simpa using hs
      · exact hs
  · refine ⟨k, ?_, hc, hs⟩
    simp only [stubbed, List.getElem?_modify, hk, hm, if_false]
    rfl

theorem ofMethod_append {keys : List (Nat × Nat)} {stubs : List FakeIt.Building.Stub} (h : keys.length = stubs.length) (key key' : Nat × Nat) (t : FakeIt.Building.Stub) :
    ofMethod (keys ++ [key]) (stubs ++ [t]) key' = if key = key' then t :: ofMethod keys stubs key' else ofMethod keys stubs key' := by
  unfold ofMethod
  rw [List.zip_append h, List.filter_append, List.map_append, List.reverse_append]
  by_cases hk : key = key'
  · simp [hk]
  · simp [hk]

theorem hasAll_stubbed {s : AState V E} {keys : List (Nat × Nat)} {st st' : St} {a : Aim V} {acts : List (Act V E)} {t : FakeIt.Building.Stub} (h : HasAll s keys st) (hs : st'.stubs = st.stubs ++ [t])
    (ht : (t.parts.length, t.acts.length) = (FakeIt.Spec.Building.arity a.crit, acts.length)) : HasAll (stubbed s a acts) (keys ++ [a.key]) st' := by
  refine ⟨by simp [hs, h.1], ?_⟩
  intro m off k' l' hk' hl'
  obtain ⟨k, hk, rfl⟩ := stubbed_mock hk'
  rw [hs, ofMethod_append h.1]
  by_cases hm : a.m = m
  · rw [if_pos hm] at hl'
    simp only [AMock.onStubs] at hl'
    by_cases ho : off = a.off
    · subst ho
      rw [if_pos rfl] at hl'
      obtain ⟨l, hl, rfl⟩ := Option.map_eq_some_iff.1 hl'
      rw [if_pos (by simp [Aim.key, hm]), List.map_cons, List.map_cons, h.2 m a.off k l hk hl, ht]
      rfl
    · rw [if_neg ho] at hl'
      rw [if_neg (by simp only [Aim.key, Prod.mk.injEq, not_and]; intro _ h; exact ho h.symm)]
      exact h.2 m off k l' hk hl'
  · rw [if_neg hm] at hl'
    rw [if_neg (by simp [Aim.key, hm])]
    exact h.2 m off k l' hk hl'

theorem mentionAll_known : ∀ (as : List (Aim V)) {s : AState V E} (_ : ∀ a ∈ as, Known P s a), mentionAll P s ((as.map Aim.target).map fun t => (t.m, t.slot)) = some (s, true)
  | [], _, _ => rfl
  | a :: as, s, h => by
    simp only [List.map_cons, mentionAll]
    rw [show mention P s a.target.m a.target.slot = some (some s) from known_mention (h a (by simp))]
    exact mentionAll_known as fun b hb => h b (by simp [hb])

theorem fakeOp_one (how : Manner) {s : AState V E} {a : Aim V} (h : Known P s a) : aStep P s (fakeOp how [a]) = some (.api .unit, stubbed s a [how.act]) := by
  have h1 := mentionAll_known (P := P) (s := s) [a] (by simpa using h)
  have h2 := known_install (P := P) h how
  cases how with
  | fake =>
    simp only [fakeOp, aStep, aApi, aStubMany, Option.bind_eq_bind, List.map_cons, List.map_nil, installAll] at h1 ⊢
    rw [h1]
    simp only [Option.bind_some]
    rw [show install P s a.target [Act.dflt] = _ from h2]
    rfl
  | spy b =>
    simp only [fakeOp, aStep, aApi, aStubMany, Option.bind_eq_bind, List.map_cons, List.map_nil, installAll] at h1 ⊢
    rw [h1]
    simp only [Option.bind_some]
    rw [show install P s a.target [Act.deleg b] = _ from h2]
    rfl

/-- The state after the stubbings. -/
def stubbedAll (how : Manner) : AState V E → List (Aim V) → AState V E
  | s, [] => s
  | s, a :: as => stubbedAll how (stubbed s a [how.act]) as

theorem installAll_known (how : Manner) : ∀ (as : List (Aim V)) {s : AState V E} (_ : ∀ a ∈ as, Known P s a), installAll P [how.act] s (as.map Aim.target) = some (stubbedAll how s as)
  | [], _, _ => rfl
  | a :: as, s, h => by
    simp only [List.map_cons, installAll, known_install (h a (by simp)) how, Option.bind_eq_bind, Option.bind_some]
    exact installAll_known how as fun b hb => known_stubbed (h b (by simp [hb]))

theorem fakeOp_all (how : Manner) (as : List (Aim V)) {s : AState V E} (h : ∀ a ∈ as, Known P s a) : aStep P s (fakeOp how as) = some (.api .unit, stubbedAll how s as) := by
  have h1 := mentionAll_known (P := P) as h
  have h2 := installAll_known (P := P) how as h
  cases how with
  | fake =>
    simp only [fakeOp, aStep, aApi, aStubMany, h1, Option.bind_eq_bind, Option.bind_some]
    rw [show installAll P [Act.dflt] s (as.map Aim.target) = _ from h2]
    rfl
  | spy b =>
    simp only [fakeOp, aStep, aApi, aStubMany, h1, Option.bind_eq_bind, Option.bind_some]
    rw [show installAll P [Act.deleg b] s (as.map Aim.target) = _ from h2]
    rfl

theorem fakeOp_each (how : Manner) : ∀ (as : List (Aim V)) {s : AState V E} (_ : ∀ a ∈ as, Known P s a), aRun P s (as.map fun a => fakeOp how [a]) = some (as.map fun _ => .api .unit, stubbedAll how s as)
  | [], _, _ => rfl
  | a :: as, s, h => by
    simp only [List.map_cons, aRun, fakeOp_one how (h a (by simp)), Option.bind_eq_bind, Option.bind_some]
    rw [fakeOp_each how as fun b hb => known_stubbed (h b (by simp [hb]))]
    rfl

theorem hasAll_all (how : Manner) : ∀ (as : List (Aim V)) (ts : List FakeIt.Building.Stub) {s : AState V E} {keys : List (Nat × Nat)} {st st' : St} (_ : HasAll s keys st) (_ : st'.stubs = st.stubs ++ ts)
    (_ : ts.map (fun t => (t.parts.length, t.acts.length)) = as.map (fun a => (FakeIt.Spec.Building.arity a.crit, 1))), HasAll (stubbedAll how s as) (keys ++ as.map Aim.key) st'
  | [], [], s, keys, st, st', h, hs, _ => by
    refine ⟨by simp [hs, h.1], ?_⟩
    simp only [List.append_nil, List.map_nil] at hs ⊢
    rw [hs]
    exact h.2
  | [], t :: ts, _, _, _, _, _, _, ht => by cases ht
  | a :: as, [], _, _, _, _, _, _, ht => by cases ht
  | a :: as, t :: ts, s, keys, st, st', h, hs, ht => by
    simp only [List.map_cons, List.cons.injEq] at ht
    have h1 := hasAll_stubbed (acts := [how.act]) (st' := { st with stubs := st.stubs ++ [t] }) h rfl ht.1
    have h2 := hasAll_all how as ts h1 (st' := st') (by simp [hs]) ht.2
    simpa [stubbedAll] using h2

/-! ## Methods that were not named before -/

/-- The method is named. -/
def naming (s : AState V E) (a : Aim V) : AState V E :=
  match s.mocks[a.m]? with
  | some k => hook s a.m k a.off
  | none => s

/-- The methods are named. -/
def namingAll : AState V E → List (Aim V) → AState V E
  | s, [] => s
  | s, a :: as => namingAll (naming s a) as

theorem able_mention {s : AState V E} {a : Aim V} (h : Able P s a) : mention P s a.m (.meth a.off a.ctr) = some (some (naming s a)) := by
  obtain ⟨k, hk, hc⟩ := h
  simp only [mention, naming, hk, hc.1, if_true, if_pos (And.intro hc.2.1 hc.2.2)]

theorem naming_cases {s : AState V E} {a : Aim V} {k : AMock V E} (hk : s.mocks[a.m]? = some k) : ((k.stubs a.off).isSome = true ∧ naming s a = s) ∨ ((k.stubs a.off).isSome = false ∧
    naming s a = { s with mocks := s.mocks.modify a.m fun k => { k with stubs := fun o => if o = a.off then some [] else k.stubs o }, named := s.named ++ [(a.m, a.off)] }) := by
  unfold naming hook
  rw [hk]
  by_cases h : (k.stubs a.off).isSome = true
  · exact .inl ⟨h, by simp [h]⟩
  · exact .inr ⟨by simpa using h, by simp [h]⟩

theorem naming_mock {s : AState V E} {a : Aim V} {m : Nat} {k : AMock V E} (h : s.mocks[m]? = some k) : ∃ k', (naming s a).mocks[m]? = some k' ∧ k'.cls = k.cls ∧ k'.alive = k.alive ∧ ∀ o, (k.stubs o).isSome = true → k'.stubs o = k.stubs o := by
  cases ha : s.mocks[a.m]? with
  | none => exact ⟨k, by simpa [naming, ha] using h, rfl, rfl, fun _ _ => rfl⟩
  | some k1 =>
    rcases naming_cases ha with ⟨-, e⟩ | ⟨hn, e⟩
    · exact ⟨k, by rw [e]; exact h, rfl, rfl, fun _ _ => rfl⟩
    · rw [e]
      by_cases hm : a.m = m
      · subst hm
        rw [h] at ha
        cases ha
        refine ⟨{ k with stubs := fun o => if o = a.off then some [] else k.stubs o }, ?_, rfl, rfl, ?_⟩
        · simp only [List.getElem?_modify, h, if_true]
          rfl
        · intro o ho
          by_cases hoa : o = a.off
          · rw [hoa, hn] at ho
            cases ho
          · simp [hoa]
      · refine ⟨k, ?_, rfl, rfl, fun _ _ => rfl⟩
        simp only [List.getElem?_modify, h, hm, if_false]
        rfl

theorem able_naming {s : AState V E} {a b : Aim V} (h : Able P s b) : Able P (naming s a) b := by
  obtain ⟨k, hk, hc⟩ := h
  obtain ⟨k', hk', h1, h2, -⟩ := naming_mock (a := a) hk
  exact ⟨k', hk', by unfold Stubbable; rw [h1, h2]; exact hc⟩

theorem known_naming {s : AState V E} {a b : Aim V} (h : Known P s b) : Known P (naming s a) b := by
  obtain ⟨k, hk, hc, hs⟩ := h
  obtain ⟨k', hk', h1, h2, h3⟩ := naming_mock (a := a) hk
  exact ⟨k', hk', by unfold Stubbable; rw [h1, h2]; exact hc, by rw [h3 _ hs]; exact hs⟩

theorem known_named {s : AState V E} {a : Aim V} (h : Able P s a) : Known P (naming s a) a := by
  obtain ⟨k, hk, hc⟩ := h
  rcases naming_cases hk with ⟨hs, e⟩ | ⟨-, e⟩
  · rw [e]
    exact ⟨k, hk, hc, hs⟩
  · rw [e]
    refine ⟨{ k with stubs := fun o => if o = a.off then some [] else k.stubs o }, ?_, hc, by simp⟩
    simp only [List.getElem?_modify, hk, if_true]
    rfl

theorem able_of_known {s : AState V E} {a : Aim V} (h : Known P s a) : Able P s a := by
  obtain ⟨k, hk, hc, -⟩ := h
  exact ⟨k, hk, hc⟩

theorem able_stubbed {s : AState V E} {a b : Aim V} {acts : List (Act V E)} (h : Able P s b) : Able P (stubbed s a acts) b := by
  obtain ⟨k, hk, hc⟩ := h
  by_cases hm : a.m = b.m
  · refine ⟨k.onStubs a.off fun l => ⟨nameOf s, a.kind, acts⟩ :: l, ?_, hc⟩
    simp only [stubbed, List.getElem?_modify, hk, hm, if_true]
    rfl
  · refine ⟨k, ?_, hc⟩
    simp only [stubbed, List.getElem?_modify, hk, hm, if_false]
    rfl

/-- Naming another method does not matter for a stubbing. -/
theorem naming_stubbed {s : AState V E} {a b : Aim V} {acts : List (Act V E)} (ha : Known P s a) (hb : Able P s b) : naming (stubbed s a acts) b = stubbed (naming s b) a acts := by
  obtain ⟨k, hk, -⟩ := hb
  have hk' : ∃ k', (stubbed s a acts).mocks[b.m]? = some k' ∧ (k'.stubs b.off).isSome = (k.stubs b.off).isSome := by
    by_cases hm : a.m = b.m
    · refine ⟨k.onStubs a.off fun l => ⟨nameOf s, a.kind, acts⟩ :: l, ?_, ?_⟩
      · simp only [stubbed, List.getElem?_modify, hk, hm, if_true]
        rfl
      · simp only [AMock.onStubs]
        split <;> simp
    · refine ⟨k, ?_, rfl⟩
      simp only [stubbed, List.getElem?_modify, hk, hm, if_false]
      rfl
  obtain ⟨k', hk', hs⟩ := hk'
  rcases naming_cases hk with ⟨h1, e1⟩ | ⟨h1, e1⟩
  · rcases naming_cases hk' with ⟨h2, e2⟩ | ⟨h2, -⟩
    · rw [e1, e2]
    · rw [hs, h1] at h2
      cases h2
  · rcases naming_cases hk' with ⟨h2, -⟩ | ⟨h2, e2⟩
    · rw [hs, h1] at h2
      cases h2
    · rw [e1, e2]
      have hne : ¬(a.m = b.m ∧ a.off = b.off) := by
        rintro ⟨h3, h4⟩
        obtain ⟨k2, hk2, -, hs2⟩ := ha
        rw [h3, hk] at hk2
        cases hk2
        rw [h4, h1] at hs2
        cases hs2
      simp only [stubbed, nameOf]
      congr 1
      apply List.ext_getElem?
      intro i
      simp only [List.getElem?_modify]
      cases s.mocks[i]? with
      | none => rfl
      | some q =>
        by_cases h3 : a.m = i <;> by_cases h4 : b.m = i <;> simp only [h3, h4, if_true, if_false, Option.map_eq_map, Option.map_some, id]
        congr 1
        simp only [AMock.onStubs]
        congr 1
        funext o
        by_cases h5 : o = b.off
        · by_cases h6 : o = a.off
          · exact absurd ⟨h3.trans h4.symm, h6.symm.trans h5⟩ hne
          · simp [h5, h6]
            intro h7
            exact absurd (h5.trans h7) h6
        · simp [h5]

theorem namingAll_stubbed : ∀ (as : List (Aim V)) {s : AState V E} {a : Aim V} {acts : List (Act V E)} (_ : Known P s a) (_ : ∀ b ∈ as, Able P s b), namingAll (stubbed s a acts) as = stubbed (namingAll s as) a acts
  | [], _, _, _, _, _ => rfl
  | b :: as, s, a, acts, ha, hb => by
    simp only [namingAll]
    rw [naming_stubbed ha (hb b (by simp))]
    exact namingAll_stubbed as (known_naming ha) fun c hc => able_naming (hb c (by simp [hc]))

theorem known_namingAll : ∀ (as : List (Aim V)) {s : AState V E} {a : Aim V} (_ : Known P s a), Known P (namingAll s as) a
  | [], _, _, h => h
  | _ :: as, _, _, h => known_namingAll as (known_naming h)

theorem known_namedAll : ∀ (as : List (Aim V)) {s : AState V E} (_ : ∀ a ∈ as, Able P s a), ∀ a ∈ as, Known P (namingAll s as) a
  | [], _, _, _, h => by cases h
  | b :: as, s, hs, a, ha => by
    rcases List.mem_cons.1 ha with rfl | ha
    · exact known_namingAll as (known_named (hs a (by simp)))
    · exact known_namedAll as (fun c hc => able_naming (hs c (by simp [hc]))) a ha

theorem mentionAll_able : ∀ (as : List (Aim V)) {s : AState V E} (_ : ∀ a ∈ as, Able P s a), mentionAll P s ((as.map Aim.target).map fun t => (t.m, t.slot)) = some (namingAll s as, true)
  | [], _, _ => rfl
  | a :: as, s, h => by
    simp only [List.map_cons, mentionAll]
    rw [show mention P s a.target.m a.target.slot = some (some (naming s a)) from able_mention (h a (by simp))]
    exact mentionAll_able as fun b hb => able_naming (h b (by simp [hb]))

theorem fakeOp_able (how : Manner) (as : List (Aim V)) {s : AState V E} (h : ∀ a ∈ as, Able P s a) : aStep P s (fakeOp how as) = some (.api .unit, stubbedAll how (namingAll s as) as) := by
  have h1 := mentionAll_able (P := P) as h
  have h2 := installAll_known (P := P) how as (known_namedAll as h)
  cases how with
  | fake =>
    simp only [fakeOp, aStep, aApi, aStubMany, h1, Option.bind_eq_bind, Option.bind_some]
    rw [show installAll P [Act.dflt] (namingAll s as) (as.map Aim.target) = _ from h2]
    rfl
  | spy b =>
    simp only [fakeOp, aStep, aApi, aStubMany, h1, Option.bind_eq_bind, Option.bind_some]
    rw [show installAll P [Act.deleg b] (namingAll s as) (as.map Aim.target) = _ from h2]
    rfl

theorem fakeOp_each_able (how : Manner) : ∀ (as : List (Aim V)) {s : AState V E} (_ : ∀ a ∈ as, Able P s a), aRun P s (as.map fun a => fakeOp how [a]) = some (as.map fun _ => .api .unit, stubbedAll how (namingAll s as) as)
  | [], _, _ => rfl
  | a :: as, s, h => by
    have h1 : aStep P s (fakeOp how [a]) = some (.api .unit, stubbed (naming s a) a [how.act]) := fakeOp_able how [a] (by simpa using h a (by simp))
    simp only [List.map_cons, aRun, h1, Option.bind_eq_bind, Option.bind_some]
    rw [fakeOp_each_able how as fun b hb => able_stubbed (able_naming (h b (by simp [hb]))), namingAll_stubbed as (known_named (h a (by simp))) fun b hb => able_naming (h b (by simp [hb]))]
    rfl

end FakeIt.Spec.Interrupted
