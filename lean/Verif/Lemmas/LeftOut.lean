import Verif.Spec.LeftOut
import Verif.Lemmas.Checks
import Verif.Lemmas.Moving
/-!
# Checks that can be left out: lemmas
-/
namespace FakeIt.Spec.LeftOut
open FakeIt.Spec.Reorder (run_split run_join)
open FakeIt.Spec.Moving (perform_mocks)
open FakeIt.Spec.Checks (OnlyLooks looks)

variable {V E : Type} {P : Prog V E}

/-- Mock `j` stays, and so do the methods that have been mentioned. -/
def Kept (j : MockId) (s s' : AState V E) : Prop := ∀ k, s.mocks[j]? = some k → ∃ k', s'.mocks[j]? = some k' ∧ k'.cls = k.cls ∧ ∀ o, (k.stubs o).isSome → (k'.stubs o).isSome

theorem Kept.refl (j : MockId) (s : AState V E) : Kept j s s := fun k h => ⟨k, h, rfl, fun _ h => h⟩

theorem Kept.trans {j : MockId} {s t u : AState V E} (h : Kept j s t) (h' : Kept j t u) : Kept j s u := fun k hk => by
  obtain ⟨k1, e1, c1, f1⟩ := h k hk
  obtain ⟨k2, e2, c2, f2⟩ := h' k1 e1
  exact ⟨k2, e2, c2.trans c1, fun o ho => f2 o (f1 o ho)⟩

theorem Kept.of_eq {j : MockId} {s s' : AState V E} (h : s'.mocks = s.mocks) : Kept j s s' := fun k hk => ⟨k, by rw [h]; exact hk, rfl, fun _ h => h⟩

theorem Kept.modify {j m : MockId} {s s' : AState V E} {f : AMock V E → AMock V E} (h : s'.mocks = s.mocks.modify m f) (hf : ∀ k, (f k).cls = k.cls ∧ ∀ o, (k.stubs o).isSome → ((f k).stubs o).isSome) : Kept j s s' := fun k hk => by
  rw [h, List.getElem?_modify, hk]
  by_cases e : m = j
  · exact ⟨f k, by simp [e], hf k⟩
  · exact ⟨k, by simp [e], rfl, fun _ h => h⟩

theorem call_kept {j : MockId} {s s' : AState V E} {m : MockId} {off : Nat} {args : List (Arg V)} {o : Outcome V E} (h : aCall P s m off args = some (o, s')) : Kept j s s' := by
  unfold aCall at h
  split at h
  · cases h
  · dsimp only at h
    split at h
    · split at h
      · unfold serve at h
        dsimp only at h
        split at h
        · cases h; exact .of_eq rfl
        · simp only [Option.bind_eq_bind, Option.bind_eq_some_iff] at h
          obtain ⟨⟨o1, as, s2⟩, h1, h2⟩ := h
          have g := perform_mocks h1
          dsimp only at g h2
          split at h2 <;> cases h2 <;> exact .modify (congrArg (fun l => List.modify l m _) g) fun k => ⟨rfl, fun o ho => by rw [onStubs_isSome]; exact ho⟩
      · split at h
        · obtain ⟨r, -, h⟩ := Option.map_eq_some_iff.1 h
          cases h; exact .of_eq rfl
        · split at h
          · cases h; exact .refl _ _
          · cases h; exact .of_eq rfl
    · cases h

theorem hook_kept (j : MockId) (s : AState V E) (m : MockId) (k : AMock V E) (off : Nat) : Kept j s (hook s m k off) := by
  unfold hook
  split
  · exact .refl _ _
  · exact .modify rfl fun k => ⟨rfl, fun o ho => by dsimp only; split <;> simp_all⟩

theorem mention_kept {j : MockId} {s s' : AState V E} {m : MockId} {slot : SlotRef} (h : mention P s m slot = some (some s')) : Kept j s s' := by
  unfold mention at h
  repeat' (first | (dsimp only at h; split at h) | split at h)
  all_goals first
    | (cases h; done)
    | (cases h; exact hook_kept _ _ _ _ _)

theorem mentionAll_kept {j : MockId} : ∀ (l : List (MockId × SlotRef)) {s s' : AState V E} {b : Bool}, mentionAll P s l = some (s', b) → Kept j s s'
  | [], s, s', b, h => by cases h; exact .refl _ _
  | (m, slot) :: l, s, s', b, h => by
    simp only [mentionAll, Option.bind_eq_bind, Option.bind_eq_some_iff] at h
    obtain ⟨r, h1, h2⟩ := h
    cases r with
    | none => cases h2; exact .refl _ _
    | some s1 => exact (mention_kept h1).trans (mentionAll_kept l h2)

theorem install_kept {j : MockId} {s s' : AState V E} {t : Target V} {acts : List (Act V E)} (h : install P s t acts = some s') : Kept j s s' := by
  unfold install at h
  repeat' (first | (dsimp only at h; split at h) | split at h)
  all_goals first
    | (cases h; done)
    | (cases h; exact .modify rfl fun k => ⟨rfl, fun o ho => by rw [onStubs_isSome]; exact ho⟩)

theorem installAll_kept {j : MockId} {acts : List (Act V E)} : ∀ (ts : List (Target V)) {s s' : AState V E}, installAll P acts s ts = some s' → Kept j s s'
  | [], s, s', h => by cases h; exact .refl _ _
  | t :: ts, s, s', h => by
    simp only [installAll, Option.bind_eq_bind, Option.bind_eq_some_iff] at h
    obtain ⟨s1, h1, h2⟩ := h
    exact (install_kept h1).trans (installAll_kept ts h2)

/-- The operation evaluates its method expressions first; if nothing is thrown, all of them have been evaluated, and the rest keeps the mentioned methods. -/
theorem api_mentions {s s' : AState V E} {a : Api V E} {o : ApiOut} (h : aApi P s a = some (s', o)) (ha : a.slots ≠ []) : ∃ s1 b, mentionAll P s a.slots = some (s1, b) ∧ (o ≠ .threw → b = true) ∧ ∀ j, Kept j s1 s' := by
  have one : ∀ {t : Target V} {acts : List (Act V E)} {u : Bool}, aStubOne P s t acts u = some (s', o) → ∃ s1 b, mentionAll P s [(t.m, t.slot)] = some (s1, b) ∧ (o ≠ .threw → b = true) ∧ ∀ j, Kept j s1 s' := by
    intro t acts u h
    simp only [aStubOne, Option.bind_eq_bind, Option.bind_eq_some_iff] at h
    obtain ⟨r, h1, h2⟩ := h
    cases r with
    | none => cases h2; exact ⟨s, false, by simp [mentionAll, h1], fun e => absurd rfl e, fun j => .refl _ _⟩
    | some s1 =>
      refine ⟨s1, true, by simp [mentionAll, h1], fun _ => rfl, fun j => ?_⟩
      dsimp only at h2
      split at h2
      · cases h2; exact .refl _ _
      · simp only [Option.bind_eq_some_iff] at h2
        obtain ⟨s2, h3, h4⟩ := h2
        cases h4
        exact install_kept h3
  have many : ∀ {ts : List (Target V)} {act : Act V E}, aStubMany P s ts act = some (s', o) → ∃ s1 b, mentionAll P s (ts.map fun t => (t.m, t.slot)) = some (s1, b) ∧ (o ≠ .threw → b = true) ∧ ∀ j, Kept j s1 s' := by
    intro ts act h
    simp only [aStubMany, Option.bind_eq_bind, Option.bind_eq_some_iff] at h
    obtain ⟨⟨s1, b⟩, h1, h2⟩ := h
    refine ⟨s1, b, h1, ?_⟩
    cases b <;> dsimp only at h2
    · cases h2; exact ⟨fun e => absurd rfl e, fun j => .refl _ _⟩
    · simp only [Option.bind_eq_some_iff] at h2
      obtain ⟨s2, h3, h4⟩ := h2
      cases h4
      exact ⟨fun _ => rfl, fun j => installAll_kept _ h3⟩
  cases a with
  | touch m slot =>
    simp only [aApi, Option.map_eq_some_iff] at h
    obtain ⟨r, h1, h2⟩ := h
    cases r with
    | none => cases h2; exact ⟨s, false, by simp [Api.slots, mentionAll, h1], fun e => absurd rfl e, fun j => .refl _ _⟩
    | some s2 => cases h2; exact ⟨s', true, by simp [Api.slots, mentionAll, h1], fun _ => rfl, fun j => .refl _ _⟩
  | when_ t acts u => exact one h
  | assign t f => exact one h
  | fake ts => exact many h
  | spy mv ts => exact many h
  | verify scope pat q mode =>
    simp only [aApi, aVerify, Option.bind_eq_bind, Option.bind_eq_some_iff] at h
    obtain ⟨⟨s1, b⟩, h1, h2⟩ := h
    rw [mentionedBy_eq] at h1
    refine ⟨s1, b, h1, ?_⟩
    cases b <;> dsimp only at h2
    · cases h2; exact ⟨fun e => absurd rfl e, fun j => .refl _ _⟩
    · refine ⟨fun _ => rfl, fun j => ?_⟩
      repeat' (first | (dsimp only at h2; split at h2) | split at h2)
      all_goals first | (cases h2; done) | (cases h2; exact .of_eq rfl)
  | verifyNoOther srcs mode =>
    simp only [aApi, aNoOther, Option.bind_eq_bind, Option.bind_eq_some_iff] at h
    obtain ⟨⟨s1, b⟩, h1, h2⟩ := h
    rw [allOf_eq, leavesOf_eq] at h1
    refine ⟨s1, b, h1, ?_⟩
    cases b <;> dsimp only at h2
    · cases h2; exact ⟨fun e => absurd rfl e, fun j => .refl _ _⟩
    · refine ⟨fun _ => rfl, fun j => ?_⟩
      repeat' (first | (dsimp only at h2; split at h2) | split at h2)
      all_goals first | (cases h2; done) | (cases h2; exact .of_eq rfl)
  | _ => exact absurd rfl ha

theorem onMock_kept {j : MockId} {s s' : AState V E} {m : MockId} {f : AMock V E → Option (AMock V E)} (hf : m = j → ∀ k k', f k = some k' → k'.cls = k.cls ∧ k'.stubs = k.stubs) (h : onMock s m f = some s') : Kept j s s' := by
  obtain ⟨k, k', e1, -, e3, rfl⟩ := onMock_spec h
  intro q hq
  simp only [List.getElem?_set]
  by_cases hm : m = j
  · subst hm
    rw [e1] at hq
    cases hq
    have := (List.getElem?_eq_some_iff.1 e1).1
    obtain ⟨c, d⟩ := hf rfl k k' e3
    exact ⟨k', by simp [this], c, fun o ho => by rw [d]; exact ho⟩
  · exact ⟨q, by simp [hm, hq], rfl, fun _ h => h⟩

theorem setCell_keeps {k k' : AMock V E} {cell : Nat} {v : Int} (h : setCell k cell v = some k') : k'.cls = k.cls ∧ k'.stubs = k.stubs := by
  unfold setCell at h
  split at h
  · cases h; exact ⟨rfl, rfl⟩
  · cases h

theorem step_kept {j : MockId} {s s' : AState V E} {op : Op V E} {o : OpOut V E} (hu : Keeps j op) (h : aStep P s op = some (o, s')) : Kept j s s' := by
  cases op with
  | call m off args =>
    simp only [aStep, Option.map_eq_some_iff, Prod.mk.injEq] at h
    obtain ⟨⟨o1, s1⟩, h1, rfl, rfl⟩ := h
    exact call_kept h1
  | api a =>
    simp only [aStep, Option.map_eq_some_iff, Prod.mk.injEq] at h
    obtain ⟨⟨s1, o1⟩, h1, rfl, rfl⟩ := h
    by_cases ha : a.slots = []
    · have hnew : ∀ cls sp, Kept j s (aNew P s cls sp) := fun cls sp k hk => ⟨k, by
        simp only [aNew]
        rw [List.getElem?_append_left (List.getElem?_eq_some_iff.1 hk).1]
        exact hk, rfl, fun _ h => h⟩
      have hf : ∀ m, Kept j s (forget s m) := fun m => .of_eq rfl
      have hnil : ∀ {l : List (MockId × SlotRef)}, l = [] → ∀ {t : AState V E} {b : Bool}, mentionAll P s l = some (t, b) → t = s := by
        intro l e t b h
        subst e
        cases h; rfl
      cases a with
      | newMock cls => cases h1; exact hnew _ _
      | newSpy cls => cases h1; exact hnew _ _
      | destroy m =>
        obtain ⟨t, h2, h3⟩ := Option.map_eq_some_iff.1 h1
        cases h3
        exact (hf m).trans (onMock_kept (fun e => absurd e hu) h2)
      | touch m slot => cases ha
      | when_ t acts u => cases ha
      | assign t f => cases ha
      | fake ts =>
        simp only [aApi, aStubMany, Option.bind_eq_bind, Option.bind_eq_some_iff] at h1
        obtain ⟨⟨s2, b⟩, h2, h3⟩ := h1
        cases hnil ha h2
        cases b <;> dsimp only at h3
        · cases h3; exact .refl _ _
        · simp only [Option.bind_eq_some_iff] at h3
          obtain ⟨s3, h4, h5⟩ := h3
          cases h5
          exact installAll_kept _ h4
      | spy mv ts =>
        simp only [aApi, aStubMany, Option.bind_eq_bind, Option.bind_eq_some_iff] at h1
        obtain ⟨⟨s2, b⟩, h2, h3⟩ := h1
        cases hnil ha h2
        cases b <;> dsimp only at h3
        · cases h3; exact .refl _ _
        · simp only [Option.bind_eq_some_iff] at h3
          obtain ⟨s3, h4, h5⟩ := h3
          cases h5
          exact installAll_kept _ h4
      | stubData m cell v =>
        obtain ⟨t, h2, h3⟩ := Option.map_eq_some_iff.1 h1
        cases h3
        exact onMock_kept (fun _ k k' => setCell_keeps) h2
      | writeData m cell v =>
        obtain ⟨t, h2, h3⟩ := Option.map_eq_some_iff.1 h1
        cases h3
        exact onMock_kept (fun _ k k' => setCell_keeps) h2
      | reset m =>
        obtain ⟨t, h2, h3⟩ := Option.map_eq_some_iff.1 h1
        cases h3
        exact (hf m).trans (onMock_kept (fun e => absurd e hu) h2)
      | clear m =>
        obtain ⟨t, h2, h3⟩ := Option.map_eq_some_iff.1 h1
        cases h3
        exact (hf m).trans (onMock_kept (fun _ k k' e => by cases e; exact ⟨rfl, rfl⟩) h2)
      | write a v => cases h1; exact .of_eq rfl
      | verify scope pat q mode =>
        simp only [aApi, aVerify, Option.bind_eq_bind, Option.bind_eq_some_iff] at h1
        obtain ⟨⟨s2, b⟩, h2, h3⟩ := h1
        refine (mentionAll_kept _ h2).trans ?_
        cases b <;> dsimp only at h3
        · cases h3; exact .refl _ _
        · repeat' (first | (dsimp only at h3; split at h3) | split at h3)
          all_goals first | (cases h3; done) | (cases h3; exact .of_eq rfl)
      | verifyNoOther srcs mode =>
        simp only [aApi, aNoOther, Option.bind_eq_bind, Option.bind_eq_some_iff] at h1
        obtain ⟨⟨s2, b⟩, h2, h3⟩ := h1
        refine (mentionAll_kept _ h2).trans ?_
        cases b <;> dsimp only at h3
        · cases h3; exact .refl _ _
        · repeat' (first | (dsimp only at h3; split at h3) | split at h3)
          all_goals first | (cases h3; done) | (cases h3; exact .of_eq rfl)
    · obtain ⟨s2, b, h2, -, h3⟩ := api_mentions h1 ha
      exact (mentionAll_kept _ h2).trans (h3 j)

theorem run_kept {j : MockId} : ∀ {ops : List (Op V E)} (_ : ∀ op ∈ ops, Keeps j op) {s s' : AState V E} {outs : List (OpOut V E)}, aRun P s ops = some (outs, s') → Kept j s s'
  | [], _, s, s', outs, h => by cases h; exact .refl _ _
  | op :: ops, hk, s, s', outs, h => by
    simp only [aRun, Option.bind_eq_bind, Option.bind_eq_some_iff] at h
    obtain ⟨⟨o, t⟩, h1, ⟨os, u⟩, h2, h3⟩ := h
    cases h3
    exact (step_kept (hk op (by simp)) h1).trans (run_kept (fun op h => hk op (by simp [h])) h2)

/-- The method an expression stands for has been mentioned. -/
def Known (P : Prog V E) (s : AState V E) (x : MockId × SlotRef) : Prop := ∃ k off, s.mocks[x.1]? = some k ∧ methodOf (P.cls k.cls) x.2 = some off ∧ (k.stubs off).isSome

theorem Known.kept {s s' : AState V E} {x : MockId × SlotRef} (h : Known P s x) (hk : Kept x.1 s s') : Known P s' x := by
  obtain ⟨k, off, h1, h2, h3⟩ := h
  obtain ⟨k', e1, e2, e3⟩ := hk k h1
  exact ⟨k', off, e1, by rw [e2]; exact h2, e3 off h3⟩

theorem hook_knows {s : AState V E} {m : MockId} {k : AMock V E} {off : Nat} {slot : SlotRef} (hk : s.mocks[m]? = some k) (hm : methodOf (P.cls k.cls) slot = some off) : Known P (hook s m k off) (m, slot) := by
  unfold hook
  split
  · rename_i h; exact ⟨k, off, hk, hm, h⟩
  · exact ⟨{ k with stubs := fun o => if o = off then some [] else k.stubs o }, off, by simp [hk], hm, by simp⟩

theorem mention_knows {s s' : AState V E} {m : MockId} {slot : SlotRef} (h : mention P s m slot = some (some s')) : Known P s' (m, slot) := by
  unfold mention at h
  split at h
  · cases h
  · rename_i k hk
    dsimp only at h
    split at h
    · split at h
      · split at h
        · cases h; exact hook_knows hk rfl
        · cases h
      · split at h
        · cases h
        · rename_i d hd
          split at h
          · cases h; exact hook_knows hk hd
          · cases h
    · cases h

theorem mentionAll_knows : ∀ (l : List (MockId × SlotRef)) {s s' : AState V E}, mentionAll P s l = some (s', true) → ∀ x ∈ l, Known P s' x
  | [], _, _, _, x, hx => by cases hx
  | (m, slot) :: l, s, s', h, x, hx => by
    simp only [mentionAll, Option.bind_eq_bind, Option.bind_eq_some_iff] at h
    obtain ⟨r, h1, h2⟩ := h
    cases r with
    | none => cases h2
    | some s1 =>
      rcases List.mem_cons.1 hx with rfl | hx
      · exact (mention_knows h1).kept (mentionAll_kept l h2)
      · exact mentionAll_knows l h2 x hx

theorem mention_known {s s' : AState V E} {m : MockId} {slot : SlotRef} (hk : Known P s (m, slot)) (h : mention P s m slot = some (some s')) : s' = s := by
  obtain ⟨k, off, h1, h2, h3⟩ := hk
  dsimp only at h1 h2
  unfold mention at h
  rw [h1] at h
  dsimp only at h
  split at h
  · split at h
    · split at h
      · cases h2; cases h; simp [hook, h3]
      · cases h
    · split at h
      · cases h
      · rename_i d hd
        split at h
        · simp only [methodOf, hd] at h2
          cases h2; cases h; simp [hook, h3]
        · cases h
  · cases h

theorem mentionAll_known : ∀ (l : List (MockId × SlotRef)) {s s' : AState V E}, (∀ x ∈ l, Known P s x) → mentionAll P s l = some (s', true) → s' = s
  | [], _, _, _, h => by cases h; rfl
  | (m, slot) :: l, s, s', hk, h => by
    simp only [mentionAll, Option.bind_eq_bind, Option.bind_eq_some_iff] at h
    obtain ⟨r, h1, h2⟩ := h
    cases r with
    | none => cases h2
    | some s1 =>
      cases mention_known (hk _ (by simp)) h1
      exact mentionAll_known l (fun x hx => hk x (by simp [hx])) h2

theorem seen_known {s0 t : AState V E} {pre : List (Op V E)} {outs : List (OpOut V E)} {x : MockId × SlotRef} (h : aRun P s0 pre = some (outs, t)) (hs : Seen pre outs x) : Known P t x := by
  obtain ⟨p1, p2, b, q1, q2, o, rfl, rfl, hl, ho, hx, hk⟩ := hs
  obtain ⟨r1, r2, u, e, hl', h1, h2⟩ := run_split h
  obtain ⟨rfl, rfl⟩ := List.append_inj e (hl.trans hl'.symm)
  simp only [aRun, Option.bind_eq_bind, Option.bind_eq_some_iff] at h2
  obtain ⟨⟨q, t1⟩, h3, ⟨os, t2⟩, h4, h5⟩ := h2
  simp only [Option.some.injEq, Prod.mk.injEq, List.cons.injEq] at h5
  obtain ⟨⟨rfl, rfl⟩, rfl⟩ := h5
  simp only [aStep, Option.map_eq_some_iff, Prod.mk.injEq] at h3
  obtain ⟨⟨t3, o3⟩, h3, e3, rfl⟩ := h3
  cases e3
  obtain ⟨s1, c, m1, m2, m3⟩ := api_mentions h3 (List.ne_nil_of_mem hx)
  cases m2 ho
  exact ((mentionAll_knows _ m1 x hx).kept (m3 _)).kept (run_kept hk h4)

theorem run_left_out {heap : Addr → V} {pre post : List (Op V E)} {a : Api V E} {o : ApiOut} {o1 o2 : List (OpOut V E)} {s : AState V E} (hl : o1.length = pre.length) (hseen : ∀ x ∈ a.slots, Seen pre o1 x)
    (h : aRun P (AState.start heap) (pre ++ .api a :: post) = some (o1 ++ .api o :: o2, s)) (ho : OnlyLooks a o) : aRun P (AState.start heap) (pre ++ post) = some (o1 ++ o2, s) := by
  obtain ⟨p1, p2, t, e, hl', h1, h2⟩ := run_split h
  obtain ⟨rfl, rfl⟩ := List.append_inj e (hl.trans hl'.symm)
  simp only [aRun, Option.bind_eq_bind, Option.bind_eq_some_iff] at h2
  obtain ⟨⟨q, t1⟩, h3, ⟨os, t2⟩, h4, h5⟩ := h2
  simp only [Option.some.injEq, Prod.mk.injEq, List.cons.injEq] at h5
  obtain ⟨⟨rfl, rfl⟩, rfl⟩ := h5
  simp only [aStep, Option.map_eq_some_iff, Prod.mk.injEq] at h3
  obtain ⟨⟨t3, o3⟩, h3, e3, rfl⟩ := h3
  cases e3
  cases mentionAll_known _ (fun x hx => seen_known h1 (hseen x hx)) (looks h3 ho)
  exact run_join h1 h4

end FakeIt.Spec.LeftOut
