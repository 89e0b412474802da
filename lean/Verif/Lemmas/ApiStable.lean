import Verif.Lemmas.Stable
import Verif.Spec.Discipline
/-!
# API operations as compositions of primitive updates
-/
namespace FakeIt
variable {V E : Type}

/-- The world after a method is mentioned for the first time. -/
def World.bindAt (w : World V E) (m off ctr : Nat) : World V E :=
  { w.updMock m (·.bind off ctr (newBody w.methTotal)) with methTotal := w.methTotal + 1 }

/-- The world after a destructor is mentioned for the first time. -/
def World.bindDtorAt (w : World V E) (m d : Nat) : World V E :=
  { w.updMock m (·.bindDtor d (newBody w.methTotal)) with methTotal := w.methTotal + 1 }

/-- The world after a new handler was committed. -/
def World.commitAt (w : World V E) (m off : Nat) (kind : MatcherKind V) (acts : List (Act V E)) : World V E :=
  { w.updBody m off (fun b => { b with handlers := b.handlers ++
      [{ addr := w.alloc + 1, matcher := { addr := w.alloc, kind := kind }, seq := ActionSeq.ofActs acts }] })
    with alloc := w.alloc + 2 }

/-- `Q` is preserved by every primitive step of the API operations in `A`; `B` are the method expressions they may evaluate. -/
structure ApiStable (P : Prog V E) (A : Api V E → Prop) (B : MockId → SlotRef → Prop)
    (I : World V E → Prop) (Q : World V E → World V E → Prop) : Prop where
  inv : ∀ {w w'}, Q w w' → I w → I w'
  refl : ∀ w, Q w w
  trans : ∀ {a b c}, Q a b → Q b c → Q a c
  slots : ∀ {a}, A a → ∀ x ∈ a.slots, B x.1 x.2
  newMock : ∀ (w : World V E) cls own, I w → Q w { w with mocks := w.mocks ++ [Mock.mk' cls (P.cls cls) own] }
  destroy : ∀ w m k, I w → A (.destroy m) → w.mock? m = some k → Q w (w.updMock m Mock.destroy)
  reset : ∀ w m k, I w → A (.reset m) → w.mock? m = some k → Q w (w.updMock m Mock.reset)
  clear : ∀ w m k, I w → A (.clear m) → w.mock? m = some k → Q w (w.updMock m Mock.clear)
  stubData : ∀ w m k cell v, I w → A (.stubData m cell v) → w.mock? m = some k → cell < k.data.length →
    Q w (w.updMock m fun k => { k with data := k.data.set cell v, members := k.members ++ [cell] })
  writeData : ∀ w m k cell v, I w → A (.writeData m cell v) → w.mock? m = some k → cell < k.data.length →
    Q w (w.updMock m fun k => { k with data := k.data.set cell v })
  bind : ∀ w m k off ctr, I w → B m (.meth off ctr) → w.mock? m = some k → k.mocks[off]? = some none → Q w (w.bindAt m off ctr)
  bindDtor : ∀ w m k d, I w → B m .dtor → w.mock? m = some k → (P.cls k.cls).dtor = some d → d + 1 < k.vt.length →
    k.mocks[d]? = some none → Q w (w.bindDtorAt m d)
  commit : ∀ w m k slot off b kind acts, I w → (∃ a, A a ∧ (⟨m, slot, kind⟩, acts) ∈ a.stubs) → B m slot → w.mock? m = some k → slot.off (P.cls k.cls) = some off →
    w.body? m off = some b → Q w (w.commitAt m off kind acts)
  write : ∀ w a v, I w → Q w (w.write a v)
  fire : ∀ w e, I w → Q w (w.fire e)
  mark : ∀ w scope pat q mode actual count matched, I w → A (.verify scope pat q mode) →
    analyse P w scope pat = .done (actual, count, matched) → Q w (w.mark (matched.map (·.uid)))

variable {P : Prog V E} {A : Api V E → Prop} {B : MockId → SlotRef → Prop}
  {I : World V E → Prop} {Q : World V E → World V E → Prop}

theorem touch_stable (S : ApiStable P A B I Q) {w w' : World V E} (hI : I w) {m : MockId} {slot : SlotRef} (hB : B m slot)
    (h : touch P w m slot = .done (some w')) : Q w w' := by
  unfold touch at h
  split at h
  · simp at h
  · rename_i k hk
    split at h
    · split at h
      · simp at h
      · simp at h; subst h; exact S.refl w
      · rename_i hn
        simp only [R.done.injEq, Option.some.injEq] at h
        subst h
        exact S.bind w m k _ _ hI hB hk hn
    · split at h
      · simp at h
      · rename_i d hd
        split at h
        · rename_i hlt
          split at h
          · simp at h
          · simp at h; subst h; exact S.refl w
          · rename_i hn
            simp only [R.done.injEq, Option.some.injEq] at h
            subst h
            exact S.bindDtor w m k d hI hB hk hd hlt hn
        · simp at h

theorem touchAll_stable (S : ApiStable P A B I Q) (l : List (MockId × SlotRef)) (hB : ∀ x ∈ l, B x.1 x.2) {w w' : World V E} {ok : Bool} (hI : I w)
    (h : touchAll P w l = .done (w', ok)) : Q w w' := by
  induction l generalizing w with
  | nil => simp [touchAll] at h; rw [← h.1]; exact S.refl w
  | cons x l ih =>
    obtain ⟨m, s⟩ := x
    simp only [touchAll, R.bind_eq_done] at h
    obtain ⟨r, h1, h2⟩ := h
    cases r with
    | none => simp at h2; rw [← h2.1]; exact S.refl w
    | some w1 =>
      have hq := touch_stable S hI (hB (m, s) (by simp)) h1
      exact S.trans hq (ih (fun x hx => hB x (by simp [hx])) (S.inv hq hI) h2)

theorem commit_stable (S : ApiStable P A B I Q) {w w' : World V E} (hI : I w) {t : Target V} {acts : List (Act V E)} (hB : B t.m t.slot)
    (hs : ∃ a, A a ∧ (t, acts) ∈ a.stubs) (h : commit P w t acts = .done w') : Q w w' := by
  unfold commit at h
  split at h
  · simp at h
  · rename_i k hk
    split at h
    · simp at h
    · rename_i off hoff
      split at h
      · simp at h
      · rename_i b hb
        simp only [R.done.injEq] at h
        subst h
        exact S.commit w t.m k t.slot off b t.kind acts hI hs hB hk hoff hb

theorem commitAll_stable (S : ApiStable P A B I Q) (acts : List (Act V E)) (ts : List (Target V)) (hB : ∀ t ∈ ts, B t.m t.slot)
    (hs : ∀ t ∈ ts, ∃ a, A a ∧ (t, acts) ∈ a.stubs) {w w' : World V E} (hI : I w) (h : commitAll P acts w ts = .done w') : Q w w' := by
  induction ts generalizing w with
  | nil => simp [commitAll] at h; subst h; exact S.refl w
  | cons t ts ih =>
    simp only [commitAll, R.bind_eq_done] at h
    obtain ⟨w1, h1, h2⟩ := h
    have hq := commit_stable S hI (hB t (by simp)) (hs t (by simp)) h1
    exact S.trans hq (ih (fun t ht => hB t (by simp [ht])) (fun t ht => hs t (by simp [ht])) (S.inv hq hI) h2)

theorem stubOne_stable (S : ApiStable P A B I Q) {w w' : World V E} (hI : I w) {t : Target V} {acts : List (Act V E)} {u : Bool} {o : ApiOut}
    (hB : B t.m t.slot) (hs : u = false → ∃ a, A a ∧ (t, acts) ∈ a.stubs) (h : stubOne P w t acts u = .done (w', o)) : Q w w' := by
  simp only [stubOne, R.bind_eq_done] at h
  obtain ⟨r, h1, h2⟩ := h
  cases r with
  | none => simp at h2; rw [h2.1]; exact S.refl _
  | some w1 =>
    have hq := touch_stable S hI hB h1
    dsimp only at h2
    split at h2
    · simp at h2; rw [← h2.1]; exact hq
    · rename_i hu
      simp only [R.bind_eq_done, R.done.injEq, Prod.mk.injEq] at h2
      obtain ⟨w2, h2, h3, -⟩ := h2
      rw [← h3]
      exact S.trans hq (commit_stable S (S.inv hq hI) hB (hs (by simpa using hu)) h2)

theorem stubMany_stable (S : ApiStable P A B I Q) {w w' : World V E} (hI : I w) {ts : List (Target V)} {act : Act V E} {o : ApiOut}
    (hB : ∀ t ∈ ts, B t.m t.slot) (hs : ∀ t ∈ ts, ∃ a, A a ∧ (t, [act]) ∈ a.stubs) (h : stubMany P w ts act = .done (w', o)) : Q w w' := by
  simp only [stubMany, R.bind_eq_done] at h
  obtain ⟨⟨w1, ok⟩, h1, h2⟩ := h
  have hq := touchAll_stable S _ (by simpa using fun t ht => hB t ht) hI h1
  cases ok with
  | false => simp at h2; rw [← h2.1]; exact hq
  | true =>
    simp only [R.bind_eq_done, R.done.injEq, Prod.mk.injEq] at h2
    obtain ⟨w2, h2, h3, -⟩ := h2
    rw [← h3]
    exact S.trans hq (commitAll_stable S _ _ hB hs (S.inv hq hI) h2)

theorem verifyExpectation_stable (S : ApiStable P A B I Q) {w w' : World V E} (hI : I w) {scope pat e e' evt q mode} (hA : A (.verify scope pat q mode))
    (h : verifyExpectation P w scope pat e = .done (e', w', evt)) : Q w w' := by
  unfold verifyExpectation at h
  split at h
  · simp at h; rw [h.2.1]; exact S.refl _
  · simp only [R.bind_eq_done] at h
    obtain ⟨⟨actual, count, matched⟩, h1, h2⟩ := h
    split at h2
    · simp at h2; rw [h2.2.1]; exact S.refl _
    · simp at h2; rw [← h2.2.1]
      exact S.mark w scope pat q mode actual count matched hI hA h1

theorem verifyStmt_stable (S : ApiStable P A B I Q) {w w' : World V E} (hI : I w) {scope pat q mode o} (hA : A (.verify scope pat q mode))
    (h : verifyStmt P w scope pat q mode = .done (w', o)) : Q w w' := by
  simp only [verifyStmt, R.bind_eq_done] at h
  obtain ⟨⟨w1, ok⟩, h1, h2⟩ := h
  have hq := touchAll_stable S _ (S.slots hA) hI h1
  cases ok with
  | false => simp at h2; rw [← h2.1]; exact hq
  | true =>
    dsimp only at h2
    split at h2
    · simp at h2
    · split at h2
      · simp at h2; rw [← h2.1]; exact hq
      · split at h2
        · simp at h2; rw [← h2.1]; exact hq
        · simp only [R.bind_eq_done] at h2
          obtain ⟨⟨e', w2, evt⟩, h3, h4⟩ := h2
          have hq2 := S.trans hq (verifyExpectation_stable S (S.inv hq hI) hA h3)
          cases evt with
          | some ev => simp at h4; rw [← h4.1]; exact S.trans hq2 (S.fire _ _ (S.inv hq2 hI))
          | none => simp at h4; rw [← h4.1]; exact hq2
        · simp only [R.bind_eq_done] at h2
          obtain ⟨⟨e', w2, evt⟩, h3, h4⟩ := h2
          have hq2 := S.trans hq (verifyExpectation_stable S (S.inv hq hI) hA h3)
          cases evt with
          | some ev => simp at h4; rw [← h4.1]; exact hq2
          | none => simp at h4; rw [← h4.1]; exact hq2

theorem noOtherStmt_stable (S : ApiStable P A B I Q) {w w' : World V E} (hI : I w) {srcs mode o} (hA : A (.verifyNoOther srcs mode))
    (h : noOtherStmt P w srcs mode = .done (w', o)) : Q w w' := by
  simp only [noOtherStmt, R.bind_eq_done] at h
  obtain ⟨⟨w1, ok⟩, h1, h2⟩ := h
  have hq := touchAll_stable S _ (S.slots hA) hI h1
  cases ok with
  | false => simp at h2; rw [← h2.1]; exact hq
  | true =>
    dsimp only at h2
    split at h2
    · simp at h2
    · split at h2
      · simp at h2; rw [← h2.1]; exact hq
      · split at h2
        · simp at h2; rw [← h2.1]; exact S.trans hq (S.fire _ _ (S.inv hq hI))
        · simp at h2; rw [← h2.1]; exact hq
      · split at h2
        · simp at h2; rw [← h2.1]; exact hq
        · simp at h2; rw [← h2.1]; exact hq

/-- Every API operation in `A` preserves `Q`. -/
theorem apiStep_stable (S : ApiStable P A B I Q) {w w' : World V E} (hI : I w) {a : Api V E} {o : ApiOut} (hA : A a)
    (h : apiStep P w a = .done (w', o)) : Q w w' := by
  cases a with
  | newMock cls => simp [apiStep] at h; rw [← h.1]; exact S.newMock _ _ _ hI
  | newSpy cls => simp [apiStep] at h; rw [← h.1]; exact S.newMock _ _ _ hI
  | destroy m =>
    simp only [apiStep] at h
    split at h
    · simp at h
    · rename_i k hk; simp at h; rw [← h.1]; exact S.destroy w m k hI hA hk
  | touch m slot =>
    simp only [apiStep, R.bind_eq_done] at h
    obtain ⟨r, h1, h2⟩ := h
    cases r with
    | none => simp at h2; rw [h2.1]; exact S.refl _
    | some w1 => simp at h2; rw [← h2.1]; exact touch_stable S hI (S.slots hA (m, slot) (by simp [Api.slots])) h1
  | when_ t acts u =>
    exact stubOne_stable S hI (S.slots hA (t.m, t.slot) (by simp [Api.slots])) (fun hu => ⟨_, hA, by subst hu; simp [Api.stubs]⟩) h
  | fake ts =>
    exact stubMany_stable S hI (fun t ht => S.slots hA (t.m, t.slot) (by simpa [Api.slots] using ⟨t, ht, rfl, rfl⟩))
      (fun t ht => ⟨_, hA, by simpa [Api.stubs] using ht⟩) h
  | spy mv ts =>
    exact stubMany_stable S hI (fun t ht => S.slots hA (t.m, t.slot) (by simpa [Api.slots] using ⟨t, ht, rfl, rfl⟩))
      (fun t ht => ⟨_, hA, by simpa [Api.stubs] using ht⟩) h
  | assign t f =>
    exact stubOne_stable S hI (S.slots hA (t.m, t.slot) (by simp [Api.slots])) (fun _ => ⟨_, hA, by simp [Api.stubs]⟩) h
  | stubData m cell v =>
    simp only [apiStep] at h
    split at h
    · simp at h
    · rename_i k hk
      split at h
      · rename_i hlt; simp at h; rw [← h.1]; exact S.stubData w m k cell v hI hA hk hlt
      · simp at h
  | writeData m cell v =>
    simp only [apiStep] at h
    split at h
    · simp at h
    · rename_i k hk
      split at h
      · rename_i hlt; simp at h; rw [← h.1]; exact S.writeData w m k cell v hI hA hk hlt
      · simp at h
  | reset m =>
    simp only [apiStep] at h
    split at h
    · simp at h
    · rename_i k hk; simp at h; rw [← h.1]; exact S.reset w m k hI hA hk
  | clear m =>
    simp only [apiStep] at h
    split at h
    · simp at h
    · rename_i k hk; simp at h; rw [← h.1]; exact S.clear w m k hI hA hk
  | write a v => simp [apiStep] at h; rw [← h.1]; exact S.write _ _ _ hI
  | verify scope pat q mode => exact verifyStmt_stable S hI hA h
  | verifyNoOther srcs mode => exact noOtherStmt_stable S hI hA h

end FakeIt
