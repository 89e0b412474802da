import Verif.Props.Lifecycle
/-!
# C40 and C55: saved expressions, and statements over lists of methods
-/
namespace FakeIt
variable {V E : Type} {P : Prog V E} {nm : MockId → Nat → Nat}
open Spec

/-! ## C55 -/

/-- What `commit` does to a mock. -/
def stubbed (t : Target V) (acts : List (Act V E)) (a : Nat) (b : MBody V E) : MBody V E :=
  { b with handlers := b.handlers ++ [{ addr := a + 1, matcher := { addr := a, kind := t.kind }, seq := ActionSeq.ofActs acts }] }

/-- `commit` taken apart. -/
theorem commit_done {w w1 : World V E} {t : Target V} {acts : List (Act V E)} : commit P w t acts = .done w1 ↔
    ∃ k off b, w.mock? t.m = some k ∧ t.slot.off (P.cls k.cls) = some off ∧ k.mocks[off]? = some (some b) ∧
      w1 = { w.updMock t.m (fun k => k.updBody off (stubbed t acts w.alloc)) with alloc := w.alloc + 2 } := by
  constructor
  · intro h
    unfold commit at h
    split at h
    · cases h
    · rename_i k hk
      split at h
      · cases h
      · rename_i off ho
        split at h
        · cases h
        · rename_i b hb
          simp only [R.done.injEq] at h
          refine ⟨k, off, b, hk, ho, ?_, h.symm⟩
          simp only [World.body?, (World.mock?_eq_some.1 hk).1, Option.bind_some, Mock.body?] at hb
          cases hm : k.mocks[off]? with
          | none => simp [hm] at hb
          | some o => simp [hm] at hb; rw [hb]
  · rintro ⟨k, off, b, hk, ho, hb, rfl⟩
    have : w.body? t.m off = some b := by simp [World.body?, (World.mock?_eq_some.1 hk).1, Mock.body?, hb]
    simp only [commit, hk, ho, this]
    rfl

theorem mock?_updMock {w : World V E} {m m' : Nat} {f : Mock V E → Mock V E} (hf : ∀ k, (f k).alive = k.alive) :
    (w.updMock m f).mock? m' = if m = m' then (w.mock? m').map f else w.mock? m' := by
  simp only [World.mock?, World.mocks_updMock]
  by_cases h : m = m'
  · subst h
    cases hk : w.mocks[m]? with
    | none => simp
    | some k => simp [hf]
  · simp [h]

theorem commit_bind {w : World V E} {t : Target V} {acts : List (Act V E)} {k k' : Mock V E} {off off' : Nat} {b nb : MBody V E} (hk : w.mock? t.m = some k)
    (ho : t.slot.off (P.cls k.cls) = some off) (hb : k.mocks[off]? = some (some b)) {m : Nat} (hk' : w.mock? m = some k') (hb' : k'.mocks[off']? = some none)
    {g : Mock V E → Mock V E} (ha : ∀ k, (g k).alive = k.alive) (hcls : ∀ k, (g k).cls = k.cls) (hm : ∀ k, (g k).mocks = k.mocks.set off' (some nb))
    (hcomm : ∀ f, off ≠ off' → ∀ k, g (k.updBody off f) = (g k).updBody off f) (n : Nat) :
    commit P { w.updMock m g with methTotal := n } t acts =
      .done { ({ w.updMock t.m (fun k => k.updBody off (stubbed t acts w.alloc)) with alloc := w.alloc + 2 } : World V E).updMock m g with methTotal := n } := by
  have hne : m = t.m → off ≠ off' := by
    intro e ho'
    subst e
    rw [hk] at hk'
    cases hk'
    rw [ho', hb'] at hb
    cases hb
  rw [commit_done]
  have hmk : ({ w.updMock m g with methTotal := n } : World V E).mock? t.m = if m = t.m then (w.mock? t.m).map g else w.mock? t.m := mock?_updMock ha
  refine ⟨if m = t.m then g k else k, off, b, ?_, ?_, ?_, ?_⟩
  · rw [hmk, hk]; split <;> rfl
  · split
    · rw [hcls]; exact ho
    · exact ho
  · split
    · rename_i e
      rw [hm, List.getElem?_set_ne (Ne.symm (hne e))]; exact hb
    · exact hb
  · have := updMock_comm w m t.m g (fun k => k.updBody off (stubbed t acts w.alloc)) (fun e k => hcomm _ (hne e) k)
    simp only [World.updMock, World.mk.injEq, true_and, and_true] at this ⊢
    exact this.symm

theorem updBody_comm_bind {off off' ctr : Nat} {nb : MBody V E} (f : MBody V E → MBody V E) (hne : off ≠ off') (k : Mock V E) :
    (k.updBody off f).bind off' ctr nb = (k.bind off' ctr nb).updBody off f := by
  simp only [Mock.updBody, Mock.bind, Mock.mk.injEq, true_and, and_true]
  apply List.ext_getElem?
  intro i
  simp only [List.getElem?_set, List.getElem?_modify, List.length_modify]
  by_cases h1 : off' = i
  · subst h1
    simp only [if_true, if_neg hne]
    split <;> rfl
  · simp [h1]

theorem updBody_comm_bindDtor {off off' : Nat} {nb : MBody V E} (f : MBody V E → MBody V E) (hne : off ≠ off') (k : Mock V E) :
    (k.updBody off f).bindDtor off' nb = (k.bindDtor off' nb).updBody off f := by
  simp only [Mock.updBody, Mock.bindDtor, Mock.mk.injEq, true_and, and_true]
  apply List.ext_getElem?
  intro i
  simp only [List.getElem?_set, List.getElem?_modify, List.length_modify]
  by_cases h1 : off' = i
  · subst h1
    simp only [if_true, if_neg hne]
    split <;> rfl
  · simp [h1]

/-- Evaluating a method expression after a commit is the same as before it. -/
theorem touch_after_commit {w w1 : World V E} {t : Target V} {acts : List (Act V E)} (hc : commit P w t acts = .done w1) (m : MockId) (s : SlotRef) :
    touch P w1 m s = (touch P w m s >>= fun r => match r with
      | none => .done none
      | some w2 => commit P w2 t acts >>= fun w3 => .done (some w3)) := by
  obtain ⟨k, off, b, hk, ho, hb, rfl⟩ := commit_done.1 hc
  have hself := hc
  have hmk : ({ w.updMock t.m (fun k => k.updBody off (stubbed t acts w.alloc)) with alloc := w.alloc + 2 } : World V E).mock? m =
      if t.m = m then (w.mock? m).map (fun k => k.updBody off (stubbed t acts w.alloc)) else w.mock? m := mock?_updMock (fun _ => rfl)
  cases hk' : w.mock? m with
  | none =>
    have : touch P w m s = .ub := by simp only [touch, hk']
    rw [this]
    simp only [touch, hmk, hk', Option.map_none, ite_self]
    rfl
  | some k' =>
    obtain ⟨k1, hk1, hc1, hv1, hm1⟩ : ∃ k1 : Mock V E, ({ w.updMock t.m (fun k => k.updBody off (stubbed t acts w.alloc)) with alloc := w.alloc + 2 } : World V E).mock? m = some k1 ∧
        k1.cls = k'.cls ∧ k1.vt = k'.vt ∧ ∀ o : Nat, (k1.mocks[o]?).map Option.isSome = (k'.mocks[o]?).map Option.isSome := by
      rw [hmk, hk']
      split
      · refine ⟨_, rfl, rfl, rfl, fun o => ?_⟩
        simp only [Mock.updBody, List.getElem?_modify]
        cases k'.mocks[o]? with
        | none => rfl
        | some x => cases x <;> by_cases hoo : off = o <;> simp [hoo]
      · exact ⟨_, rfl, rfl, rfl, fun _ => rfl⟩
    have key : ∀ o : Nat, (k'.mocks[o]? = none ∧ k1.mocks[o]? = none) ∨ (k'.mocks[o]? = some none ∧ k1.mocks[o]? = some none) ∨
        ∃ b b1, k'.mocks[o]? = some (some b) ∧ k1.mocks[o]? = some (some b1) := by
      intro o
      have := hm1 o
      cases h1 : k'.mocks[o]? with
      | none => simp [h1] at this; exact .inl ⟨rfl, by simpa using this⟩
      | some x =>
        cases h2 : k1.mocks[o]? with
        | none => simp [h1, h2] at this
        | some y =>
          cases x <;> cases y <;> simp [h1, h2] at this
          · exact .inr (.inl ⟨rfl, rfl⟩)
          · exact .inr (.inr ⟨_, _, rfl, rfl⟩)
    cases s with
    | meth o ctr =>
      rcases key o with ⟨h1, h2⟩ | ⟨h1, h2⟩ | ⟨b, b1, h1, h2⟩
      · simp only [touch, hk', hk1, h1, h2]; rfl
      · simp only [touch, hk', hk1, h1, h2, R.bind_done]
        rw [commit_bind hk ho hb hk' h1 (fun _ => rfl) (fun _ => rfl) (fun _ => rfl) (g := (·.bind o ctr (newBody w.methTotal))) (nb := newBody w.methTotal) (fun f hne k => updBody_comm_bind f hne k) (w.methTotal + 1)]
        rfl
      · simp only [touch, hk', hk1, h1, h2, R.bind_done, hself]
    | dtor =>
      simp only [touch, hk', hk1, hc1, hv1]
      cases hd : (P.cls k'.cls).dtor with
      | none => rfl
      | some d =>
        dsimp only
        by_cases hlt : d + 1 < k'.vt.length
        · simp only [if_pos hlt]
          rcases key d with ⟨h1, h2⟩ | ⟨h1, h2⟩ | ⟨b, b1, h1, h2⟩
          · simp only [h1, h2]; rfl
          · simp only [h1, h2, R.bind_done]
            rw [commit_bind hk ho hb hk' h1 (fun _ => rfl) (fun _ => rfl) (fun _ => rfl) (g := (·.bindDtor d (newBody w.methTotal))) (nb := newBody w.methTotal) (fun f hne k => updBody_comm_bindDtor f hne k) (w.methTotal + 1)]
            rfl
          · simp only [h1, h2, R.bind_done, hself]
        · simp only [if_neg hlt]; rfl

/-- After a method expression was evaluated, the statement it belongs to can be committed. -/
theorem commit_of_touch {w w1 : World V E} {t : Target V} (h : touch P w t.m t.slot = .done (some w1)) (acts : List (Act V E)) : ∃ w2, commit P w1 t acts = .done w2 := by
  unfold touch at h
  split at h
  · cases h
  · rename_i k hk
    split at h
    · rename_i off ctr hs
      split at h
      · cases h
      · rename_i b hb
        simp only [R.done.injEq, Option.some.injEq] at h
        subst h
        exact ⟨_, commit_done.2 ⟨k, off, b, hk, by rw [hs]; rfl, hb, rfl⟩⟩
      · rename_i hb
        simp only [R.done.injEq, Option.some.injEq] at h
        subst h
        have hm : ({ w.updMock t.m (·.bind off ctr (newBody w.methTotal)) with methTotal := w.methTotal + 1 } : World V E).mock? t.m = some (k.bind off ctr (newBody w.methTotal)) := by
          show (w.updMock t.m (·.bind off ctr (newBody w.methTotal))).mock? t.m = _
          rw [mock?_updMock (f := (·.bind off ctr (newBody w.methTotal))) (fun _ => rfl), if_pos rfl, hk]; rfl
        exact ⟨_, commit_done.2 ⟨_, off, newBody w.methTotal, hm, by rw [hs]; rfl, List.getElem?_set_self (lt_of_getElem?_some hb), rfl⟩⟩
    · rename_i hs
      split at h
      · cases h
      · rename_i d hd
        split at h
        · split at h
          · cases h
          · rename_i b hb
            simp only [R.done.injEq, Option.some.injEq] at h
            subst h
            exact ⟨_, commit_done.2 ⟨k, d, b, hk, by rw [hs]; exact hd, hb, rfl⟩⟩
          · rename_i hb
            simp only [R.done.injEq, Option.some.injEq] at h
            subst h
            have hm : ({ w.updMock t.m (·.bindDtor d (newBody w.methTotal)) with methTotal := w.methTotal + 1 } : World V E).mock? t.m = some (k.bindDtor d (newBody w.methTotal)) := by
              show (w.updMock t.m (·.bindDtor d (newBody w.methTotal))).mock? t.m = _
              rw [mock?_updMock (f := (·.bindDtor d (newBody w.methTotal))) (fun _ => rfl), if_pos rfl, hk]; rfl
            exact ⟨_, commit_done.2 ⟨_, d, newBody w.methTotal, hm, by rw [hs]; exact hd, List.getElem?_set_self (lt_of_getElem?_some hb), rfl⟩⟩
        · cases h

/-- Evaluating a method expression does not make a possible commit impossible. -/
theorem commit_after_touch {w w1 w2 : World V E} {t : Target V} {acts : List (Act V E)} (hc : commit P w t acts = .done w1) {m : MockId} {s : SlotRef}
    (h : touch P w m s = .done (some w2)) : ∃ w3, commit P w2 t acts = .done w3 := by
  obtain ⟨k, off, b, hk, ho, hb, -⟩ := commit_done.1 hc
  unfold touch at h
  split at h
  · cases h
  · rename_i k' hk'
    split at h
    · split at h
      · cases h
      · simp only [R.done.injEq, Option.some.injEq] at h
        subst h; exact ⟨_, hc⟩
      · rename_i o ctr _ hb'
        simp only [R.done.injEq, Option.some.injEq] at h
        subst h
        exact ⟨_, commit_bind hk ho hb hk' hb' (fun _ => rfl) (fun _ => rfl) (fun _ => rfl) (g := (·.bind o ctr (newBody w.methTotal))) (nb := newBody w.methTotal)
          (fun f hne k => updBody_comm_bind f hne k) (w.methTotal + 1)⟩
    · split at h
      · cases h
      · rename_i d hd
        split at h
        · split at h
          · cases h
          · simp only [R.done.injEq, Option.some.injEq] at h
            subst h; exact ⟨_, hc⟩
          · rename_i hb'
            simp only [R.done.injEq, Option.some.injEq] at h
            subst h
            exact ⟨_, commit_bind hk ho hb hk' hb' (fun _ => rfl) (fun _ => rfl) (fun _ => rfl) (g := (·.bindDtor d (newBody w.methTotal))) (nb := newBody w.methTotal)
              (fun f hne k => updBody_comm_bindDtor f hne k) (w.methTotal + 1)⟩
        · cases h

theorem touchAll_after_commit {t : Target V} {acts : List (Act V E)} (l : List (MockId × SlotRef)) {w w1 : World V E} (hc : commit P w t acts = .done w1) :
    touchAll P w1 l = (touchAll P w l >>= fun r => commit P r.1 t acts >>= fun w3 => .done (w3, r.2)) := by
  induction l generalizing w w1 with
  | nil => simp only [touchAll, R.bind_done, hc]
  | cons x l ih =>
    simp only [touchAll, touch_after_commit hc]
    cases ht : touch P w x.1 x.2 with
    | ub => rfl
    | oof => rfl
    | done r =>
      cases r with
      | none => simp only [R.bind_done, hc]
      | some w2 =>
        obtain ⟨w3, h3⟩ := commit_after_touch hc ht
        simp only [R.bind_done, h3]
        exact ih h3

/-- A statement over a list is the statement for its first element followed by the statement for the others. -/
theorem stubMany_cons {w w' : World V E} {t : Target V} {ts : List (Target V)} {act : Act V E} :
    stubMany P w (t :: ts) act = .done (w', .unit) ↔ ∃ w1, stubMany P w [t] act = .done (w1, .unit) ∧ stubMany P w1 ts act = .done (w', .unit) := by
  simp only [stubMany, List.map_cons, List.map_nil, touchAll]
  cases ht : touch P w t.m t.slot with
  | ub => simp
  | oof => simp
  | done r =>
    cases r with
    | none => simp
    | some w1 =>
      obtain ⟨w2, hc⟩ := commit_of_touch ht [act]
      simp only [R.bind_done, commitAll, hc]
      have := touchAll_after_commit (ts.map fun t => (t.m, t.slot)) hc
      constructor
      · intro h
        refine ⟨w2, rfl, ?_⟩
        rw [this]
        cases hta : touchAll P w1 (ts.map fun t => (t.m, t.slot)) with
        | ub => simp [hta] at h
        | oof => simp [hta] at h
        | done r =>
          obtain ⟨w3, ok⟩ := r
          cases ok with
          | false => simp [hta] at h
          | true =>
            simp only [hta, R.bind_done] at h ⊢
            cases hc3 : commit P w3 t [act] with
            | ub => simp [hc3] at h
            | oof => simp [hc3] at h
            | done w4 => simpa [hc3] using h
      · rintro ⟨w2', h2, h⟩
        simp only [R.done.injEq, Prod.mk.injEq, and_true] at h2
        subst h2
        rw [this] at h
        cases hta : touchAll P w1 (ts.map fun t => (t.m, t.slot)) with
        | ub => simp [hta] at h
        | oof => simp [hta] at h
        | done r =>
          obtain ⟨w3, ok⟩ := r
          simp only [hta, R.bind_done] at h ⊢
          cases hc3 : commit P w3 t [act] with
          | ub => simp [hc3] at h
          | oof => simp [hc3] at h
          | done w4 =>
            cases ok with
            | false => simp [hc3] at h
            | true => simpa [hc3] using h

/-- The three statements over lists of method expressions. -/
inductive Spec.ListStmt where
  | fake
  | spy
  | spyWithoutVerify

/-- The operation. -/
def Spec.ListStmt.op (s : Spec.ListStmt) (ts : List (Target V)) : Op V E :=
  match s with
  | .fake => .api (.fake ts)
  | .spy => .api (.spy false ts)
  | .spyWithoutVerify => .api (.spy true ts)

theorem listStmt_step (s : Spec.ListStmt) {fuel : Nat} :
    ∃ act : Act V E, ∀ (w : World V E) (ts : List (Target V)) w', opStep P fuel w (s.op ts) = .done (.api .unit, w') ↔ stubMany P w ts act = .done (w', .unit) := by
  refine ⟨match s with | .fake => .dflt | .spy => .deleg false | .spyWithoutVerify => .deleg true, fun w ts w' => ?_⟩
  cases s <;>
  · simp only [Spec.ListStmt.op, opStep, apiStep, R.bind_eq_done]
    constructor
    · rintro ⟨⟨a, b⟩, h, h'⟩
      simp only [R.done.injEq, Prod.mk.injEq, OpOut.api.injEq] at h'
      rw [h, h'.1, h'.2]
    · intro h
      exact ⟨_, h, rfl⟩

/-- C55. `Fake(m1, ..., mk)`, `Spy(m1, ..., mk)` and `SpyWithoutVerify(m1, ..., mk)` complete exactly if the `k` separate statements in that order all
complete, and then lead to the same state. (Partial: a list one of whose expressions throws is not covered, see
`C55_throwing_list_stubs_nothing`.) -/
theorem C55_list_equals_one_by_one_partial (s : Spec.ListStmt) (fuel : Nat) (w w' : World V E) (ts : List (Target V)) :
    runOps P fuel w [s.op ts] = .done ([.api .unit], w') ↔ runOps P fuel w (ts.map fun t => s.op [t]) = .done (ts.map (fun _ => .api .unit), w') := by
  obtain ⟨act, hact⟩ := listStmt_step (P := P) (fuel := fuel) s
  have one : ∀ (w : World V E) op os w', runOps P fuel w (op :: os) = .done (.api .unit :: os.map (fun _ => .api .unit), w') ↔
      ∃ w1, opStep P fuel w op = .done (.api .unit, w1) ∧ runOps P fuel w1 os = .done (os.map (fun _ => .api .unit), w') := by
    intro w op os w'
    simp only [runOps, R.bind_eq_done]
    constructor
    · rintro ⟨⟨o, w1⟩, h1, ⟨os', w2⟩, h2, h3⟩
      simp only [R.done.injEq, Prod.mk.injEq, List.cons.injEq] at h3
      obtain ⟨⟨rfl, rfl⟩, rfl⟩ := h3
      exact ⟨w1, h1, h2⟩
    · rintro ⟨w1, h1, h2⟩
      exact ⟨_, h1, _, h2, rfl⟩
  have lhs : runOps P fuel w [s.op ts] = .done ([.api .unit], w') ↔ stubMany P w ts act = .done (w', .unit) := by
    have := one w (s.op ts) [] w'
    simp only [List.map_nil] at this
    rw [this]
    constructor
    · rintro ⟨w1, h1, h2⟩
      simp only [runOps, R.done.injEq, Prod.mk.injEq, true_and] at h2
      rw [← h2]; exact (hact _ _ _).1 h1
    · intro h; exact ⟨w', (hact _ _ _).2 h, rfl⟩
  rw [lhs]
  clear lhs
  induction ts generalizing w with
  | nil => simp [stubMany, touchAll, commitAll, runOps]
  | cons t ts ih =>
    rw [stubMany_cons, List.map_cons]
    have := one w (s.op [t]) (ts.map fun t => s.op [t]) w'
    simp only [List.map_map] at this
    simp only [List.map_cons]
    rw [show (ts.map fun _ => (OpOut.api .unit : OpOut V E)) = ts.map ((fun _ => OpOut.api .unit) ∘ fun t => s.op (E := E) [t]) from rfl, this]
    constructor
    · rintro ⟨w1, h1, h2⟩
      exact ⟨w1, (hact _ _ _).2 h1, (ih w1).1 h2⟩
    · rintro ⟨w1, h1, h2⟩
      exact ⟨w1, (hact _ _ _).1 h1, (ih w1).2 h2⟩

/-- Mentioning a method adds no stubbing anywhere. -/
theorem touch_stubs {w w' : World V E} {m : MockId} {s : SlotRef} (h : touch P w m s = .done (some w')) (m' off' : Nat) : stubbings w' m' off' = stubbings w m' off' := by
  unfold touch at h
  split at h
  · cases h
  · rename_i k hk
    have hk' := (World.mock?_eq_some.1 hk).1
    split at h
    · split at h
      · cases h
      · simp only [R.done.injEq, Option.some.injEq] at h
        subst h; rfl
      · rename_i off ctr _ hn
        simp only [R.done.injEq, Option.some.injEq] at h
        subst h
        have := body?_bindAt w m k off ctr hk' hn m' off'
        rw [stubbings, show World.body? { w.updMock m (·.bind off ctr (newBody w.methTotal)) with methTotal := w.methTotal + 1 } m' off' = _ from this]
        by_cases hmo : m = m' ∧ off = off'
        · rw [if_pos hmo, stubbings, ← hmo.1, ← hmo.2, body?_none_of hk' hn]; rfl
        · rw [if_neg hmo]; rfl
    · split at h
      · cases h
      · rename_i d hd
        split at h
        · split at h
          · cases h
          · simp only [R.done.injEq, Option.some.injEq] at h
            subst h; rfl
          · rename_i hn
            simp only [R.done.injEq, Option.some.injEq] at h
            subst h
            have := body?_bindDtorAt w m k d hk' hn m' off'
            rw [stubbings, show World.body? { w.updMock m (·.bindDtor d (newBody w.methTotal)) with methTotal := w.methTotal + 1 } m' off' = _ from this]
            by_cases hmo : m = m' ∧ d = off'
            · rw [if_pos hmo, stubbings, ← hmo.1, ← hmo.2, body?_none_of hk' hn]; rfl
            · rw [if_neg hmo]; rfl
        · cases h

theorem touchAll_stubs (l : List (MockId × SlotRef)) {w w' : World V E} {ok : Bool} (h : touchAll P w l = .done (w', ok)) (m' off' : Nat) :
    stubbings w' m' off' = stubbings w m' off' := by
  induction l generalizing w with
  | nil => simp [touchAll] at h; rw [h.1]
  | cons x l ih =>
    simp only [touchAll, R.bind_eq_done] at h
    obtain ⟨r, h1, h2⟩ := h
    cases r with
    | none => simp at h2; rw [h2.1]
    | some w1 => exact (ih h2).trans (touch_stubs h1 m' off')

/-- C55 for lists with an expression that throws (`Dtor` of a class without virtual destructor): no method of the list gets stubbed, not even those before
it; whereas separate statements would have stubbed those. -/
theorem C55_throwing_list_stubs_nothing (s : Spec.ListStmt) {fuel : Nat} {w w' : World V E} {ts : List (Target V)}
    (h : runOps P fuel w [s.op ts] = .done ([.api .threw], w')) : ∀ m off, stubbings w' m off = stubbings w m off := by
  simp only [runOps, R.bind_eq_done, R.done.injEq] at h
  obtain ⟨⟨o, w1⟩, h1, _, rfl, h3⟩ := h
  simp only [Prod.mk.injEq, List.cons.injEq, and_true] at h3
  obtain ⟨rfl, rfl⟩ := h3
  obtain ⟨act, hact⟩ : ∃ act : Act V E, stubMany P w ts act = .done (w1, .threw) := by
    cases s <;>
    · simp only [Spec.ListStmt.op, opStep, apiStep, R.bind_eq_done] at h1
      obtain ⟨⟨a, b⟩, h, h'⟩ := h1
      simp only [R.done.injEq, Prod.mk.injEq, OpOut.api.injEq] at h'
      rw [h'.1, h'.2] at h
      exact ⟨_, h⟩
  simp only [stubMany, R.bind_eq_done] at hact
  obtain ⟨⟨w2, ok⟩, h2, h3⟩ := hact
  cases ok with
  | true => simp [R.bind_eq_done] at h3
  | false =>
    simp only [R.done.injEq, Prod.mk.injEq, and_true] at h3
    subst h3
    exact touchAll_stubs _ h2

namespace Demo

/-- Class 0 is the usual one, class 1 has no virtual destructor. -/
def prog2 : Prog Nat Nat := { prog with cls := fun c => if c = 0 then cls else { cls with dtor := none } }

/-- Answers of the operations. -/
def outs2 (ops : List (Op Nat Nat)) : List (OpOut Nat Nat) := match runOps prog2 5 (World.start heap0) ops with
  | .done (os, _) => os
  | _ => []

/-- Two mocks of the two classes. -/
def two : World Nat Nat := match runOps prog2 5 (World.start heap0) [.api (.newMock 0), .api (.newMock 1)] with
  | .done (_, w) => w
  | _ => World.start heap0

end Demo

/-- Case for C55: `Fake(Method(mock1, f1), Dtor(mock0), Method(mock1, f1).Using(2))`. -/
example : Demo.outs2 [.api (.newMock 0), .api (.newMock 1), Spec.ListStmt.fake.op [Demo.tgt 1 1 .any, ⟨0, .dtor, .any⟩, Demo.tgt 1 1 (Demo.eq 2)], .call 1 1 [.val 5]] =
      [.api (.mockId 0), .api (.mockId 1), .api .unit, .call (.ret 0)] ∧
    (∃ w', runOps Demo.prog2 5 Demo.two [Spec.ListStmt.fake.op [Demo.tgt 1 1 .any, ⟨0, .dtor, .any⟩, Demo.tgt 1 1 (Demo.eq 2)]] = .done ([.api .unit], w') ∧
      runOps Demo.prog2 5 Demo.two [.api (.fake [Demo.tgt 1 1 .any]), .api (.fake [⟨0, .dtor, .any⟩]), .api (.fake [Demo.tgt 1 1 (Demo.eq 2)])] =
        .done ([.api .unit, .api .unit, .api .unit], w')) :=
  ⟨by decide +kernel, _, rfl, (C55_list_equals_one_by_one_partial .fake 5 Demo.two _ [Demo.tgt 1 1 .any, ⟨0, .dtor, .any⟩, Demo.tgt 1 1 (Demo.eq 2)]).1 rfl⟩

/-- Case: `Fake(Method(mock1, f1), Dtor(mock1))` throws and leaves `f1` unstubbed; the separate statements leave `f1` stubbed. -/
example : Demo.outs2 [.api (.newMock 0), .api (.newMock 1), Spec.ListStmt.fake.op [Demo.tgt 1 1 .any, ⟨1, .dtor, .any⟩], .call 1 1 [.val 5]] =
      [.api (.mockId 0), .api (.mockId 1), .api .threw, .call .unexpected] ∧
    Demo.outs2 [.api (.newMock 0), .api (.newMock 1), .api (.fake [Demo.tgt 1 1 .any]), .api (.fake [⟨1, .dtor, .any⟩]), .call 1 1 [.val 5]] =
      [.api (.mockId 0), .api (.mockId 1), .api .unit, .api .threw, .call (.ret 0)] ∧
    ∃ w', runOps Demo.prog2 5 Demo.two [Spec.ListStmt.fake.op [Demo.tgt 1 1 .any, ⟨1, .dtor, .any⟩]] = .done ([.api .threw], w') ∧
      ∀ m off, stubbings w' m off = stubbings Demo.two m off :=
  ⟨by decide +kernel, by decide +kernel, _, rfl, C55_throwing_list_stubs_nothing .fake (P := Demo.prog2) (fuel := 5) (ts := [Demo.tgt 1 1 .any, ⟨1, .dtor, .any⟩]) rfl⟩

/-! ## C40 -/

/-- C40. A call is served by the stubbing of some method expression (`h`, whose matcher object is `h.matcher.addr`). Whatever happens afterwards (except
that the mock is cleared, reset or destroyed) - in particular whatever becomes of the variables the call referred to and of its recorded arguments -,
verifying with that same expression object recognises the call: the record is in the history and the expression denotes it, so `Verify(expr)`
passes. -/
theorem C40_expression_recognises_calls_it_served {m off : Nat} (hP : KeepsHistory P nm m) {w w' w2 : World V E} (hw : Reach P nm w) {k : Mock V E}
    (hk : w.mock? m = some k) (hoff : Plain (P.cls k.cls) off) {args : List (Arg V)} {h : Handler V E}
    (hsel : Selected (stubbings w m off) (valuesOf w.heap args) h) {fuel : Nat} {o : Outcome V E}
    (hcall : callSlot P fuel w m off args = .done (o, w')) {ops : List (Op V E)}
    (hops : ∀ op ∈ ops, op.Within (fun a => a.Named nm ∧ a.KeepsHistory m) (fun _ _ => True)) {fuel' : Nat} {outs : List (OpOut V E)}
    (hrun : runOps P fuel' w' ops = .done (outs, w2)) {k2 : Mock V E} (hk2 : w2.mock? m = some k2)
    {l : Leaf V} (hlm : l.m = m) (hls : l.slot.off (P.cls k.cls) = some off) (hla : l.addr = some h.matcher.addr) :
    (∃ i, (history w2 m off)[(history w m off).length]? = some i ∧ i.uid = w.invTotal + 1 ∧ Denotes P w2 l i) ∧
    ∀ {mode : VMode} {w3 : World V E} {b : Bool}, (Api.verify (E := E) .involved [.leaf l] .dflt mode).Named nm →
      apiStep P w2 (.verify .involved [.leaf l] .dflt mode) = .done (w3, .verdict b) → Unwrapped w3 → b = true := by
  have hw' : Reach P nm w' := .step (fuel := fuel) (op := .call m off args) (out := .call o) hw trivial (by simp only [opStep, hcall]; rfl)
  have hw2 : Reach P nm w2 := Reach.run ops (fun op hop => by
    have := hops op hop
    cases op <;> first | trivial | exact this.1) hw' hrun
  have hex := C09_history_append_only (off := off) hP hw' hops hrun
  obtain ⟨i0, hu0, hm0, he0⟩ : ∃ i : Invocation V, i.uid = w.invTotal + 1 ∧ i.matcher = some h.matcher.addr ∧ Extends (history w m off ++ [i]) (history w' m off) := by
    cases fuel with
    | zero => simp [callSlot] at hcall
    | succ fuel =>
      have hk' := (World.mock?_eq_some.1 hk).1
      cases hb : w.body? m off with
      | none => obtain ⟨older, newer, hst, -⟩ := hsel; simp [stubbings, hb] at hst
      | some b =>
        rw [stubbings_of hb] at hsel
        have hwf := hw.wf hP.named
        obtain ⟨-, b', hb', he, -⟩ := call_records (strict := False) (c := P.cls k.cls) (fun f vs => (hP f vs).mono (fun _ h => h) (fun _ _ _ h => h.elim))
          hwf.inv2 (hwf.steady.live hb hk' hoff) hk' rfl (fun d hd => (hoff d hd).2) hsel hcall
        rw [history_of hb, history_of hb']
        exact ⟨recorded w b args h, rfl, rfl, he⟩
  obtain ⟨i1, hi1, hs1⟩ := extends_last he0
  obtain ⟨i2, hi2, hs2⟩ : ∃ i2, (history w2 m off)[(history w m off).length]? = some i2 ∧ Same i1 i2 := by
    have aux : ∀ (l l' : List (Invocation V)) (n : Nat) i, Extends l l' → l[n]? = some i → ∃ i', l'[n]? = some i' ∧ Same i i' := by
      intro l l' n i he
      induction he generalizing n with
      | nil => intro h; simp at h
      | cons hs _ ih =>
        intro h
        cases n with
        | zero => simp at h; subst h; exact ⟨_, rfl, hs⟩
        | succ n => simp at h; simpa using ih n h
    exact aux _ _ _ _ hex hi1
  have hcls : k2.cls = k.cls := by
    have hall : runOps P fuel w [.call m off args] = .done ([.call o], w') := by simp only [runOps, opStep, hcall]; rfl
    obtain ⟨k1, hk1, hc1, -⟩ := runOps_mono mono_dead hall m k (World.mock?_eq_some.1 hk).1
    obtain ⟨k3, hk3, hc3, -⟩ := runOps_mono mono_dead hrun m k1 hk1
    rw [(World.mock?_eq_some.1 hk2).1] at hk3
    cases hk3
    rw [hc3, hc1]
  have hden : Denotes P w2 l i2 := by
    refine ⟨k2, off, by rw [hlm]; exact hk2, by rw [hcls]; exact hls, by rw [hlm]; exact List.mem_of_getElem? hi2, .inl ⟨by rw [hla]; simp, ?_⟩⟩
    rw [hs2.matcher, hs1.matcher, hm0, hla]
  refine ⟨⟨i2, hi2, by rw [hs2.uid, hs1.uid, hu0], hden⟩, ?_⟩
  intro mode w3 b hn hv hu
  obtain ⟨n, ⟨actual, ha, ho, hmax⟩, -, hb⟩ := C19_verdict_by_match_count_partial hP.named hw2 hn ⟨by simp, by intro s hs; simp at hs; subst hs; exact .method l⟩ (by simp) hv hu
  rw [hb]
  have hin : i2 ∈ actual := (ha.mem i2).2 ⟨.leaf l, by simp, l, by simp [Seq.expected], off, by rw [hlm]; exact List.mem_of_getElem? hi2⟩
  obtain ⟨p, hp⟩ := List.getElem?_of_mem hin
  have : Occurs (Denotes P w2) actual (blocks [.leaf l]) 1 0 (p + 1) (List.range' p 1 ++ [] ++ []) := by
    refine .succ (.cons (Nat.zero_le p) ?_ (.nil _)) (.zero _)
    intro j l' hj
    cases j with
    | zero => simp [Seq.expected] at hj; subst hj; exact ⟨i2, hp, hden⟩
    | succ j => simp [Seq.expected] at hj
  exact hmax _ _ _ this

namespace Demo

/-- Variable 3 holds 7; `When(Method(mock0, f0).Using(7))` is stubbed. -/
def ref7 : World Nat Nat := next (w1 acts1) (.api (.write 3 7))

theorem reach_ref7 : Reach prog Demo.nm ref7 :=
  .step (fuel := 5) (op := .api (.write 3 7)) (out := .api .unit) (reach_w1 acts1) (by simp [Op.Within, Api.Named, Api.slots]) rfl

/-- Then `f0` is called with a reference to variable 3, and variable 3 is overwritten. -/
def ref0 : World Nat Nat := next (called ref7 0 0 [.ref 3]) (.api (.write 3 0))

end Demo

/-- Case: verified with the expression that served the call, the call is recognised although its argument is now 0; a new expression with the same
argument 7 does not recognise it. -/
example :
    (∃ i, (history Demo.ref0 0 0)[0]? = some i ∧ i.uid = 1 ∧
      Denotes Demo.prog Demo.ref0 { m := 0, slot := .meth 0 0, kind := Demo.eq 7, addr := some (Demo.h1 Demo.acts1).matcher.addr } i) ∧
    (match apiStep Demo.prog Demo.ref0 (.verify .involved [.leaf { m := 0, slot := .meth 0 0, kind := Demo.eq 7, addr := some (Demo.h1 Demo.acts1).matcher.addr }] .dflt .asBool) with
      | .done (_, o) => decide (o = .verdict true) | _ => false) = true ∧
    (match apiStep Demo.prog Demo.ref0 (.verify .involved [.leaf { m := 0, slot := .meth 0 0, kind := Demo.eq 7, addr := none }] .dflt .asBool) with
      | .done (_, o) => decide (o = .verdict false) | _ => false) = true :=
  ⟨(C40_expression_recognises_calls_it_served Demo.prog_keeps Demo.reach_ref7 (m := 0) (off := 0) (k := Demo.ref7.mocks[0]) rfl Demo.plain0 (args := [.ref 3]) (h := Demo.h1 Demo.acts1)
      (Demo.selected_w1 Demo.acts1) (fuel := 5) (o := .ret 5) (w' := Demo.called Demo.ref7 0 0 [.ref 3]) rfl (ops := [.api (.write 3 0)])
      (by intro op h; simp only [List.mem_cons, List.not_mem_nil, or_false] at h; subst h; simp [Op.Within, Api.Named, Api.slots, Api.KeepsHistory]) (fuel' := 5) rfl
      (k2 := Demo.ref0.mocks[0]) rfl rfl rfl rfl).1, by decide +kernel, by decide +kernel⟩

end FakeIt
