import Verif.Lemmas.Reenter
/-!
# Re-entrant abstract mock: a stubbing's script is what is left after the calls it has served
-/
namespace FakeIt
variable {V E : Type} {P : Prog V E} {nm : MockId → Nat → Nat}
open Spec

/-- The methods of the recorded calls served by stubbing `j`. -/
def servedBy (s : AState V E) (j : Nat) : List (Option (MockId × Nat)) := (s.calls.filter fun r => r.served == some j).map Rec.meth

/-- Stubbing `j`, if it still exists, belongs to method `off` of mock `m`, and what is left of its script `acts` is what the recorded calls have left over. -/
structure Uses (j m off : Nat) (acts : List (Act V E)) (s : AState V E) : Prop where
  old : j < 2 * s.installed
  only : ∀ (m' : Nat) k off' l st, s.mocks[m']? = some k → k.stubs off' = some l → st ∈ l → st.name = j →
    m' = m ∧ off' = off ∧ st.script = afterActs acts (servedBy s j).length
  of_ : ∀ x ∈ servedBy s j, x = some (m, off)

namespace Uses
variable {j m off : Nat} {acts : List (Act V E)} {s s' : AState V E}

/-- The stubbings of `s'` named `j` are stubbings of `s`. -/
def Sub (j : Nat) (s s' : AState V E) : Prop :=
  ∀ (m' : Nat) k' off' l' st, s'.mocks[m']? = some k' → k'.stubs off' = some l' → st ∈ l' → st.name = j → ∃ k l, s.mocks[m']? = some k ∧ k.stubs off' = some l ∧ st ∈ l

theorem frame (h : Uses j m off acts s) (hi : s.installed ≤ s'.installed) (hs : Sub j s s') (hc : servedBy s' j = servedBy s j) : Uses j m off acts s' := by
  refine ⟨Nat.lt_of_lt_of_le h.old (Nat.mul_le_mul_left 2 hi), ?_, by rw [hc]; exact h.of_⟩
  intro m' k' off' l' st hk hl hst hn
  obtain ⟨k, l, h1, h2, h3⟩ := hs m' k' off' l' st hk hl hst hn
  rw [hc]
  exact h.only m' k off' l st h1 h2 h3 hn

theorem same (h : Uses j m off acts s) (hi : s'.installed = s.installed) (hm : s'.mocks = s.mocks) (hc : s'.calls = s.calls) : Uses j m off acts s' :=
  h.frame (Nat.le_of_eq hi.symm) (fun _ k' _ l' _ h1 h2 h3 _ => ⟨k', l', hm ▸ h1, h2, h3⟩) (by rw [servedBy, servedBy, hc])

theorem servedBy_map {g : Rec V → Rec V} (hg : ∀ r, (g r).served = r.served ∧ (g r).meth = r.meth) (hc : s'.calls = s.calls.map g) : servedBy s' j = servedBy s j := by
  unfold servedBy
  rw [hc]
  induction s.calls with
  | nil => rfl
  | cons r l ih =>
    simp only [List.map_cons, List.filter_cons, (hg r).1]
    split
    · simp only [List.map_cons, (hg r).2, ih]
    · exact ih

theorem mapped (h : Uses j m off acts s) {g : Rec V → Rec V} (hg : ∀ r, (g r).served = r.served ∧ (g r).meth = r.meth) (hi : s'.installed = s.installed) (hm : s'.mocks = s.mocks)
    (hc : s'.calls = s.calls.map g) : Uses j m off acts s' :=
  h.frame (Nat.le_of_eq hi.symm) (fun _ k' _ l' _ h1 h2 h3 _ => ⟨k', l', hm ▸ h1, h2, h3⟩) (servedBy_map hg hc)

theorem onArgs (h : Uses j m off acts s) (m' off' n : Nat) (f : List (Arg V) → List (Arg V)) : Uses j m off acts (onArgs s m' off' n f) :=
  h.mapped (g := fun r => if isCall m' off' n r then { r with args := f r.args } else r) (fun r => by split <;> exact ⟨rfl, rfl⟩) rfl rfl rfl

theorem setArg (h : Uses j m off acts s) (fr : Option (MockId × Nat × Nat)) (args : List (Arg V)) (i : Nat) (v : V) : Uses j m off acts (rSetArg s fr args i v) := by
  unfold rSetArg
  split
  · exact h
  · exact h.same rfl rfl rfl
  · split
    · exact h
    · exact h.onArgs ..

/-- Mocks changed at one place, with stubbings taken from before. -/
theorem modified (h : Uses j m off acts s) (m1 : Nat) (f : AMock V E → AMock V E)
    (hf : ∀ k off' l' st, s.mocks[m1]? = some k → (f k).stubs off' = some l' → st ∈ l' → st.name = j → ∃ l, k.stubs off' = some l ∧ st ∈ l)
    (hi : s.installed ≤ s'.installed) (hm : s'.mocks = s.mocks.modify m1 f) (hc : servedBy s' j = servedBy s j) : Uses j m off acts s' := by
  refine h.frame hi (fun m' k' off' l' st h1 h2 h3 h4 => ?_) hc
  rw [hm, List.getElem?_modify] at h1
  by_cases hmm : m1 = m'
  · subst hmm
    simp only [if_true] at h1
    obtain ⟨k, hk, rfl⟩ := Option.map_eq_some_iff.1 h1
    obtain ⟨l, hl, hst⟩ := hf k off' l' st hk h2 h3 h4
    exact ⟨k, l, hk, hl, hst⟩
  · simp only [hmm, if_false] at h1
    exact ⟨k', l', by simpa using h1, h2, h3⟩

theorem hook (h : Uses j m off acts s) {m1 : Nat} {k : AMock V E} (_hk : s.mocks[m1]? = some k) (off1 : Nat) : Uses j m off acts (hook s m1 k off1) := by
  unfold Spec.hook
  split
  · exact h
  · refine h.modified m1 _ ?_ (Nat.le_refl _) rfl rfl
    intro k off' l' st _ hl hst _
    dsimp only at hl
    split at hl
    · cases hl; cases hst
    · exact ⟨l', hl, hst⟩

theorem mention (h : Uses j m off acts s) {m1 : Nat} {slot : SlotRef} (hm : mention P s m1 slot = some (some s')) : Uses j m off acts s' := by
  unfold Spec.mention at hm
  split at hm
  · cases hm
  · rename_i k hk
    dsimp only at hm
    split at hm
    · split at hm
      · split at hm
        · cases hm; exact h.hook hk _
        · cases hm
      · split at hm
        · cases hm
        · split at hm
          · cases hm; exact h.hook hk _
          · cases hm
    · cases hm

theorem mentionAll {b : Bool} (l : List (MockId × SlotRef)) : ∀ {s s' : AState V E}, Uses j m off acts s → mentionAll P s l = some (s', b) → Uses j m off acts s' := by
  induction l with
  | nil => intro s s' h hm; cases hm; exact h
  | cons x l ih =>
    intro s s' h hm
    simp only [Spec.mentionAll, Option.bind_eq_bind, Option.bind_eq_some_iff] at hm
    obtain ⟨r, h1, h2⟩ := hm
    cases r with
    | none => cases h2; exact h
    | some s1 => exact ih (h.mention h1) h2

theorem install (h : Uses j m off acts s) {t : Target V} {acts' : List (Act V E)} (hm : Spec.install P s t acts' = some s') : Uses j m off acts s' := by
  unfold Spec.install at hm
  split at hm
  · cases hm
  · split at hm
    · cases hm
    · split at hm
      · cases hm
        refine h.modified t.m _ ?_ (Nat.le_succ _) rfl rfl
        intro k off' l' st _ hl hst hn
        dsimp only [AMock.onStubs] at hl
        split at hl
        · obtain ⟨l, h1, rfl⟩ := Option.map_eq_some_iff.1 hl
          rcases List.mem_cons.1 hst with rfl | hst
          · have := h.old
            rw [← hn] at this
            exact absurd this (Nat.lt_irrefl _)
          · exact ⟨l, h1, hst⟩
        · exact ⟨l', hl, hst⟩
      · cases hm

theorem installAll {acts' : List (Act V E)} (ts : List (Target V)) : ∀ {s s' : AState V E}, Uses j m off acts s → installAll P acts' s ts = some s' → Uses j m off acts s' := by
  induction ts with
  | nil => intro s s' h hm; cases hm; exact h
  | cons t ts ih =>
    intro s s' h hm
    simp only [Spec.installAll, Option.bind_eq_bind, Option.bind_eq_some_iff] at hm
    obtain ⟨s1, h1, h2⟩ := hm
    exact ih (h.install h1) h2

theorem servedBy_forget (h : Uses j m off acts s) {m1 : Nat} (hne : m1 ≠ m) : servedBy (forget s m1) j = servedBy s j := by
  have h' := h.of_
  unfold servedBy at h' ⊢
  simp only [forget, List.filter_filter]
  congr 1
  apply List.filter_congr
  intro r hr
  by_cases hj : r.served == some j
  · have := h' r.meth (List.mem_map_of_mem (List.mem_filter.2 ⟨hr, hj⟩))
    simp [hj, ofMock, this, Ne.symm hne]
  · simp [hj]

theorem onMock (h : Uses j m off acts s) {s0 : AState V E} (h0 : s0.mocks = s.mocks) (hi : s0.installed = s.installed) (hc : servedBy s0 j = servedBy s j) {m1 : Nat}
    {f : AMock V E → Option (AMock V E)} (hf : ∀ k k', f k = some k' → ∀ off' l', k'.stubs off' = some l' → k.stubs off' = some l') (hm : onMock s0 m1 f = some s') : Uses j m off acts s' := by
  unfold Spec.onMock at hm
  split at hm
  · cases hm
  · rename_i k hk
    split at hm
    · obtain ⟨k', hk', rfl⟩ := Option.map_eq_some_iff.1 hm
      refine h.modified m1 (fun _ => k') ?_ (Nat.le_of_eq hi.symm) (by dsimp only; rw [set_eq_modify, h0]) hc
      intro k1 off' l' st hk1 hl hst _
      rw [h0, hk1] at hk
      cases hk
      exact ⟨l', hf _ _ hk' off' l' hl, hst⟩
    · cases hm

theorem api (h : Uses j m off acts s) {a : Api V E} (ha : a.KeepsHistory m) {o : ApiOut} (hm : aApi P s a = some (s', o)) : Uses j m off acts s' := by
  have one : ∀ {t : Target V} {acts' : List (Act V E)} {u : Bool}, aStubOne P s t acts' u = some (s', o) → Uses j m off acts s' := by
    intro t acts' u hm
    simp only [aStubOne, Option.bind_eq_bind, Option.bind_eq_some_iff] at hm
    obtain ⟨r, h1, h2⟩ := hm
    cases r with
    | none => cases h2; exact h
    | some s1 =>
      dsimp only at h2
      split at h2
      · cases h2; exact h.mention h1
      · simp only [Option.bind_eq_some_iff] at h2
        obtain ⟨s2, h3, h4⟩ := h2
        cases h4
        exact (h.mention h1).install h3
  have many : ∀ {ts : List (Target V)} {act : Act V E}, aStubMany P s ts act = some (s', o) → Uses j m off acts s' := by
    intro ts act hm
    simp only [aStubMany, Option.bind_eq_bind, Option.bind_eq_some_iff] at hm
    obtain ⟨⟨s1, b⟩, h1, h2⟩ := hm
    cases b with
    | false => cases h2; exact h.mentionAll _ h1
    | true =>
      simp only [Option.bind_eq_some_iff] at h2
      obtain ⟨s2, h3, h4⟩ := h2
      cases h4
      exact (h.mentionAll _ h1).installAll _ h3
  have new : ∀ (cls : Nat) (sp : Bool), Uses j m off acts (aNew P s cls sp) := by
    intro cls sp
    refine h.frame (Nat.le_refl _) (fun m' k' off' l' st h1 h2 h3 h4 => ?_) rfl
    simp only [aNew] at h1
    by_cases hlt : m' < s.mocks.length
    · rw [List.getElem?_append_left hlt] at h1
      exact ⟨k', l', h1, h2, h3⟩
    · rw [List.getElem?_append_right (Nat.le_of_not_lt hlt)] at h1
      cases hx : m' - s.mocks.length with
      | zero => rw [hx] at h1; cases h1; cases h2
      | succ x => rw [hx] at h1; simp at h1
  cases a with
  | newMock cls => cases hm; exact new _ _
  | newSpy cls => cases hm; exact new _ _
  | destroy m1 =>
    obtain ⟨s1, h1, h2⟩ := Option.map_eq_some_iff.1 hm
    cases h2
    exact h.onMock (s0 := forget s m1) rfl rfl (h.servedBy_forget ha) (fun k k' hk off' l' hl => by cases hk; cases hl) h1
  | touch m1 slot =>
    obtain ⟨r, h1, h2⟩ := Option.map_eq_some_iff.1 hm
    cases r with
    | none => cases h2; exact h
    | some s1 => cases h2; exact h.mention h1
  | when_ t acts' u => exact one hm
  | fake ts => exact many hm
  | spy mv ts => exact many hm
  | assign t f => exact one hm
  | stubData m1 cell v | writeData m1 cell v =>
    obtain ⟨s1, h1, h2⟩ := Option.map_eq_some_iff.1 hm
    cases h2
    refine h.onMock (s0 := s) rfl rfl rfl (fun k k' hk off' l' hl => ?_) h1
    simp only [setCell] at hk
    split at hk
    · cases hk; exact hl
    · cases hk
  | reset m1 =>
    obtain ⟨s1, h1, h2⟩ := Option.map_eq_some_iff.1 hm
    cases h2
    exact h.onMock (s0 := forget s m1) rfl rfl (h.servedBy_forget ha) (fun k k' hk off' l' hl => by cases hk; cases hl) h1
  | clear m1 =>
    obtain ⟨s1, h1, h2⟩ := Option.map_eq_some_iff.1 hm
    cases h2
    exact h.onMock (s0 := forget s m1) rfl rfl (h.servedBy_forget ha) (fun k k' hk off' l' hl => by cases hk; exact hl) h1
  | write b v => cases hm; exact h.same rfl rfl rfl
  | verify scope pat q mode =>
    simp only [aApi, aVerify, Option.bind_eq_bind, Option.bind_eq_some_iff] at hm
    obtain ⟨⟨s1, b⟩, h1, h2⟩ := hm
    have h1' := h.mentionAll _ h1
    cases b with
    | false => cases h2; exact h1'
    | true =>
      dsimp only at h2
      split at h2
      · split at h2
        · cases h2; exact h1'
        · split at h2
          · cases h2; exact h1'
          · split at h2
            · cases h2
              exact h1'.mapped (g := marked _) (fun r => by unfold marked; split <;> exact ⟨rfl, rfl⟩) rfl rfl rfl
            · split at h2
              · cases h2; exact h1'
              · cases h2; exact h1'.same rfl rfl rfl
      · cases h2
  | verifyNoOther srcs mode =>
    simp only [aApi, aNoOther, Option.bind_eq_bind, Option.bind_eq_some_iff] at hm
    obtain ⟨⟨s1, b⟩, h1, h2⟩ := hm
    have h1' := h.mentionAll _ h1
    cases b with
    | false => cases h2; exact h1'
    | true =>
      dsimp only at h2
      split at h2
      · split at h2
        · cases h2; exact h1'
        · split at h2
          · cases h2; exact h1'
          · split at h2
            · cases h2; exact h1'
            · cases h2; exact h1'.same rfl rfl rfl
      · cases h2

/-- A call is recorded and the script of the stubbing that serves it advances. -/
theorem accept (ha : WritableActs acts) (h : Uses j m off acts s) {m1 off1 : Nat} {k : AMock V E} {l : List (Stub V E)} {st : Stub V E} (hk : s.mocks[m1]? = some k)
    (hl : k.stubs off1 = some l) (hst : st ∈ l) (args : List (Arg V)) : Uses j m off acts (accept s m1 off1 args st.name) := by
  by_cases hj : st.name = j
  · obtain ⟨rfl, rfl, -⟩ := h.only m1 k off1 l st hk hl hst hj
    have hsv : servedBy (Spec.accept s m1 off1 args st.name) j = servedBy s j ++ [some (m1, off1)] := by
      simp [servedBy, Spec.accept, hj]
    refine ⟨h.old, ?_, ?_⟩
    · intro m' k' off' l' st' hk' hl' hst' hn'
      simp only [Spec.accept, List.getElem?_modify] at hk'
      rw [hsv, List.length_append, List.length_singleton, afterActs_succ]
      by_cases hm : m1 = m'
      · subst hm
        simp only [if_true, hk, Option.map_eq_map, Option.map_some, Option.some.injEq] at hk'
        subst hk'
        simp only [AMock.onStubs] at hl'
        split at hl'
        · rename_i ho
          subst ho
          rw [hl] at hl'
          cases hl'
          obtain ⟨x, hx, rfl⟩ := List.mem_map.1 hst'
          split at hn'
          · rename_i hxn
            obtain ⟨h1, h2, h3⟩ := h.only m1 k off' l x hk hl hx hn'
            refine ⟨h1, h2, ?_⟩
            rw [if_pos hxn]
            dsimp only
            rw [h3]
            exact rest_eq (writable_after ha _)
          · rename_i hxn
            exact absurd (hn'.trans hj.symm) hxn
        · rename_i ho
          obtain ⟨_, h2, _⟩ := h.only m1 k off' l' st' hk hl' hst' hn'
          exact absurd h2 ho
      · simp only [hm, if_false] at hk'
        obtain ⟨h1, _, _⟩ := h.only m' k' off' l' st' (by simpa using hk') hl' hst' hn'
        exact absurd h1.symm hm
    · intro x hx
      rw [hsv] at hx
      rcases List.mem_append.1 hx with hx | hx
      · exact h.of_ x hx
      · simpa using hx
  · refine h.modified m1 _ ?_ (Nat.le_refl _) rfl ?_
    · intro k' off' l' st' _ hl' hst' hn'
      simp only [AMock.onStubs] at hl'
      split at hl'
      · obtain ⟨l0, h0, rfl⟩ := Option.map_eq_some_iff.1 hl'
        obtain ⟨x, hx, rfl⟩ := List.mem_map.1 hst'
        split at hn'
        · rename_i hxn
          exact absurd (hxn.symm.trans hn') hj
        · rename_i hxn
          rw [if_neg hxn]
          exact ⟨l0, h0, hx⟩
      · exact ⟨l', hl', hst'⟩
    · simp [servedBy, Spec.accept, hj]

variable {A : Api V E → Prop}

theorem body {call : AState V E → MockId → Nat → List (Arg V) → Option (Outcome V E × AState V E)} {c : Ctx} {fr : Option (MockId × Nat × Nat)} {args : List (Arg V)}
    (hA : ∀ a, A a → a.KeepsHistory m)
    (hcall : ∀ s m' off' as o s', Uses j m off acts s → call s m' off' as = some (o, s') → Uses j m off acts s') (B : Body V E) :
    B.Within A (fun _ _ => True) → ∀ {s o s'}, Uses j m off acts s → rBody P call c fr args B s = some (o, s') → Uses j m off acts s' := by
  induction B with
  | done o => intro _ s o' s' h hr; cases hr; exact h
  | setArg i v k ih => intro hB s o s' h hr; exact ih hB (h.setArg fr args i v) hr
  | call m' off' as k ih =>
    intro hB s o s' h hr
    simp only [rBody, Option.bind_eq_bind, Option.bind_eq_some_iff] at hr
    obtain ⟨⟨o1, s1⟩, h1, h2⟩ := hr
    exact ih o1 (hB.2 o1) (hcall _ _ _ _ _ _ h h1) h2
  | api a k ih =>
    intro hB s o s' h hr
    simp only [rBody] at hr
    split at hr
    · cases hr
    · simp only [Option.bind_eq_bind, Option.bind_eq_some_iff] at hr
      obtain ⟨⟨s1, o1⟩, h1, h2⟩ := hr
      exact ih o1 (hB.2 o1) (h.api (hA a hB.1) h1) h2

theorem code (hP : P.Within A fun _ _ => True) (vs : List V) (f : Fn V E) : (codeOf P vs f).Within A (fun _ _ => True) := by
  cases f with
  | ret v => trivial
  | thr e => trivial
  | user f => exact hP f vs

theorem unstubbed (h : Uses j m off acts s) : Uses j m off acts (unstubbed s).2 := h.same rfl rfl rfl

theorem perform (hA : ∀ a, A a → a.KeepsHistory m) (hP : P.Within A fun _ _ => True) {call : RCall V E}
    (hcall : ∀ c s m' off' as o s', Uses j m off acts s → call c s m' off' as = some (o, s') → Uses j m off acts s') {c : Ctx} {m1 : Nat} {cd : ClassDecl V} {sp : Bool} {off1 n : Nat}
    {args : List (Arg V)} {script : List (Act V E)} {o : Outcome V E} (h : Uses j m off acts s) (hr : rPerform P call c m1 cd sp off1 n args s script = some (o, s')) : Uses j m off acts s' := by
  unfold rPerform at hr
  split at hr
  · cases hr; exact h
  · exact body hA (hcall c) _ (code hP _ _) h hr
  · exact body hA (hcall c) _ (code hP _ _) h hr
  · split at hr
    · cases hr; exact h
    · cases hr; exact h
    · cases hr
  · rename_i mv l
    dsimp only at hr
    have hmv : Uses j m off acts (if mv then Spec.onArgs s m1 off1 n (moved P) else s) := by
      split
      · exact h.onArgs ..
      · exact h
    generalize (if mv = true then Spec.onArgs s m1 off1 n (moved P) else s) = s1 at hr hmv
    split at hr
    · cases hr; exact hmv
    · split at hr
      · exact body hA (hcall _) _ (hP _ _) hmv hr
      · cases hr; exact hmv.unstubbed
  · cases hr

theorem serve (ha : WritableActs acts) (hA : ∀ a, A a → a.KeepsHistory m) (hP : P.Within A fun _ _ => True) {call : RCall V E}
    (hcall : ∀ c s m' off' as o s', Uses j m off acts s → call c s m' off' as = some (o, s') → Uses j m off acts s') {c : Ctx} {m1 : Nat} {k : AMock V E} {off1 : Nat} {l : List (Stub V E)}
    {args : List (Arg V)} {o : Outcome V E} (h : Uses j m off acts s) (hk : s.mocks[m1]? = some k) (hl : k.stubs off1 = some l)
    (hr : rServe P call c s m1 k off1 l args = some (o, s')) : Uses j m off acts s' := by
  unfold rServe at hr
  split at hr
  · cases hr; exact h.same rfl rfl rfl
  · rename_i st hfind
    split at hr
    · cases hr
    · simp only [Option.bind_eq_bind, Option.bind_eq_some_iff] at hr
      obtain ⟨⟨o1, s2⟩, h1, h2⟩ := hr
      have g := perform hA hP hcall (h.accept ha hk hl (List.mem_of_find?_eq_some hfind) args) h1
      dsimp only at h2
      split at h2
      · split at h2
        · cases h2; exact g.same rfl rfl rfl
        · cases h2
      · cases h2; exact g

theorem call (ha : WritableActs acts) (hA : ∀ a, A a → a.KeepsHistory m) (hP : P.Within A fun _ _ => True) (fuel : Nat) :
    ∀ c s m' off' as o s', Uses j m off acts s → rCall P fuel c s m' off' as = some (o, s') → Uses j m off acts s' := by
  induction fuel with
  | zero => intro c s m' off' as o s' _ hr; cases hr
  | succ fuel ih =>
    intro c s m' off' as o s' h hr
    unfold rCall at hr
    split at hr
    · cases hr
    · rename_i k hk
      dsimp only at hr
      split at hr
      · split at hr
        · exact body hA (ih c) _ (hP _ _) h hr
        · split at hr
          · rename_i hl
            exact serve ha hA hP ih h hk hl hr
          · split at hr
            · exact body hA (ih c) _ (hP _ _) h hr
            · split at hr
              · cases hr; exact h
              · cases hr; exact h.unstubbed
      · cases hr

theorem run (ha : WritableActs acts) (hA : ∀ a, A a → a.KeepsHistory m) (hP : P.Within A fun _ _ => True) {fuel : Nat} {ops : List (Op V E)} :
    (∀ op ∈ ops, op.Within A fun _ _ => True) → ∀ {s s' : AState V E} {os : List (OpOut V E)}, Uses j m off acts s → rRun P fuel s ops = some (os, s') → Uses j m off acts s' := by
  induction ops with
  | nil => intro _ s s' os h hr; cases hr; exact h
  | cons op ops ih =>
    intro hops s s' os h hr
    simp only [rRun, Option.bind_eq_bind, Option.bind_eq_some_iff] at hr
    obtain ⟨⟨o, s1⟩, h1, ⟨os1, s2⟩, h2, h3⟩ := hr
    cases h3
    refine ih (fun op h => hops op (by simp [h])) ?_ h2
    have hop := hops op (by simp)
    cases op with
    | call m' off' as =>
      obtain ⟨⟨o1, s1'⟩, e1, e2⟩ := Option.map_eq_some_iff.1 h1
      cases e2
      exact call ha hA hP fuel _ _ _ _ _ _ _ h e1
    | api a =>
      obtain ⟨⟨s1', o1⟩, e1, e2⟩ := Option.map_eq_some_iff.1 h1
      cases e2
      exact h.api (hA a hop) e1

/-! ## The beginning -/

/-- No stubbing is called `j`, and none has served calls under that name. -/
structure Absent (j : Nat) (s : AState V E) : Prop where
  stubs : ∀ (m' : Nat) k off' l st, s.mocks[m']? = some k → k.stubs off' = some l → st ∈ l → st.name ≠ j
  calls : servedBy s j = []

theorem absent_mention (h : Absent j s) {m1 : Nat} {slot : SlotRef} (hm : Spec.mention P s m1 slot = some (some s')) : Absent j s' ∧ s'.installed = s.installed := by
  have hook : ∀ (k : AMock V E) (off1 : Nat), Absent j (Spec.hook s m1 k off1) ∧ (Spec.hook s m1 k off1).installed = s.installed := by
    intro k off1
    unfold Spec.hook
    split
    · exact ⟨h, rfl⟩
    · refine ⟨⟨fun m' k' off' l st hk hl hst => ?_, h.calls⟩, rfl⟩
      rw [List.getElem?_modify] at hk
      by_cases hmm : m1 = m'
      · subst hmm
        simp only [if_true] at hk
        obtain ⟨k0, hk0, rfl⟩ := Option.map_eq_some_iff.1 hk
        dsimp only at hl
        split at hl
        · cases hl; cases hst
        · exact h.stubs m1 k0 off' l st hk0 hl hst
      · simp only [hmm, if_false] at hk
        exact h.stubs m' k' off' l st (by simpa using hk) hl hst
  unfold Spec.mention at hm
  split at hm
  · cases hm
  · dsimp only at hm
    split at hm
    · split at hm
      · split at hm
        · cases hm; exact hook _ _
        · cases hm
      · split at hm
        · cases hm
        · split at hm
          · cases hm; exact hook _ _
          · cases hm
    · cases hm

/-- Installing the stubbing. -/
theorem start (h : Absent (nameOf s) s) {t : Target V} (hm : aApi P s (.when_ t acts false) = some (s', .matcher j)) :
    WritableActs acts ∧ ∃ off, Uses j t.m off acts s' := by
  simp only [aApi, aStubOne, Option.bind_eq_bind, Option.bind_eq_some_iff] at hm
  obtain ⟨r, h1, h2⟩ := hm
  cases r with
  | none => cases h2
  | some s1 =>
    simp only [Bool.false_eq_true, if_false, Option.bind_eq_some_iff] at h2
    obtain ⟨s2, h3, h4⟩ := h2
    obtain ⟨ha, hi⟩ := absent_mention h h1
    have hn : nameOf s = nameOf s1 := by rw [nameOf, nameOf, hi]
    rw [hn] at ha
    cases h4
    unfold Spec.install at h3
    split at h3
    · cases h3
    · split at h3
      · cases h3
      · rename_i off hoff
        split at h3
        · rename_i hc
          cases h3
          refine ⟨writable_iff.1 hc.2.1, off, Nat.lt_of_lt_of_le (Nat.lt_succ_self _) (by simp only [nameOf]; omega), ?_, ?_⟩
          · intro m' k' off' l st hk hl hst hn
            have hz : (servedBy ({ s1 with mocks := s1.mocks.modify t.m fun k => k.onStubs off fun l => ⟨nameOf s1, t.kind, acts⟩ :: l, installed := s1.installed + 1 } : AState V E) (nameOf s1)).length = 0 := by
              have := ha.calls
              simp only [servedBy] at this ⊢
              rw [this]; rfl
            rw [hz]
            rw [List.getElem?_modify] at hk
            by_cases hmm : t.m = m'
            · subst hmm
              simp only [if_true] at hk
              obtain ⟨k0, hk0, rfl⟩ := Option.map_eq_some_iff.1 hk
              dsimp only [AMock.onStubs] at hl
              split at hl
              · rename_i ho
                obtain ⟨l0, hl0, rfl⟩ := Option.map_eq_some_iff.1 hl
                rcases List.mem_cons.1 hst with rfl | hst
                · exact ⟨rfl, ho, rfl⟩
                · exact absurd hn (ha.stubs t.m k0 off' l0 st hk0 hl0 hst)
              · exact absurd hn (ha.stubs t.m k0 off' l st hk0 hl hst)
            · simp only [hmm, if_false] at hk
              exact absurd hn (ha.stubs m' k' off' l st (by simpa using hk) hl hst)
          · intro x hx
            have : x ∈ servedBy s1 (nameOf s1) := hx
            rw [ha.calls] at this
            cases this
        · cases h3

/-- The library's addresses: the next one is not in use. -/
theorem absent_of_rel {w : World V E} (hr : Rel P s w) (hw : Wf P nm w) : Absent (nameOf s) s := by
  constructor
  · intro m' k off' l st hk hl hst hn
    obtain ⟨k', hk', hm⟩ := hr.mocks.get hk
    have hb := hm.body off'
    rw [hl] at hb
    cases hbody : k'.body? off' with
    | none => rw [hbody] at hb; exact hb
    | some b =>
      rw [hbody] at hb
      obtain ⟨h, hh, hs⟩ := All2.right hb hst
      have := (hw.steady.1.2.lt m' off' (h.addr, h.matcher.addr) (by
        simp only [haddrs, hk', kaddrs, hbody]
        exact List.mem_map.2 ⟨h, List.mem_reverse.1 hh, rfl⟩)).1
      rw [hs.addr, ← hs.name, hn, hr.alloc, nameOf] at this
      exact absurd this (Nat.not_lt.2 (Nat.le_succ _))
  · rw [servedBy, List.map_eq_nil_iff, List.filter_eq_nil_iff]
    intro r hr' hsv
    obtain ⟨m', off', hmeth⟩ := hr.known r hr'
    obtain ⟨i, hi, hri⟩ := All2.right (hr.hist m' off') (List.mem_filter.2 ⟨hr', by simp [hmeth]⟩)
    unfold history at hi
    split at hi
    · cases hi
    · rename_i b hb
      obtain ⟨-, -, -, -, a, ha, hlt⟩ := hw.recs.ok m' off' b hb i hi
      rw [hri.served, ha] at hsv
      have : a = nameOf s := by simpa using hsv
      rw [this, hr.alloc, nameOf] at hlt
      exact absurd hlt (Nat.lt_irrefl _)

/-- What the library's stubbing has left, and how often it has been used. -/
theorem library {w : World V E} (h : Uses j m off acts s) (hr : Rel P s w) {m' off' : Nat} {hd : Handler V E} (hin : hd ∈ stubbings w m' off') (hj : hd.matcher.addr = j) :
    m' = m ∧ off' = off ∧ hd.seq.Rep (afterActs acts ((history w m' off').countP fun i => i.matcher == some j)) := by
  unfold stubbings at hin
  split at hin
  · cases hin
  · rename_i b hb
    simp only [World.body?] at hb
    obtain ⟨k, hk, hkb⟩ := Option.bind_eq_some_iff.1 hb
    have hlt : m' < s.mocks.length := by rw [← hr.mocks.len]; exact (List.getElem?_eq_some_iff.1 hk).1
    have ha := List.getElem?_eq_getElem hlt
    have hm := hr.mocks.mock m' k _ hk ha
    have hbr := hm.body off'
    rw [hkb] at hbr
    cases hl : s.mocks[m'].stubs off' with
    | none => rw [hl] at hbr; exact hbr.elim
    | some l =>
      rw [hl] at hbr
      obtain ⟨st, hst, hs⟩ := All2.left hbr (List.mem_reverse.2 hin)
      obtain ⟨rfl, rfl, h3⟩ := h.only m' _ off' l st ha hl hst (hs.name.trans hj)
      refine ⟨rfl, rfl, ?_⟩
      have hrep := hs.rep
      rw [h3] at hrep
      suffices hc : (history w m' off').countP (fun i => i.matcher == some j) = (servedBy s j).length by rw [hc]; exact hrep
      have h1 : (history w m' off').countP (fun i => i.matcher == some j) = (callsOf s.calls m' off').countP fun r => r.served == some j := by
        have := All2.filter (p := fun i : Invocation V => i.matcher == some j) (q := fun r : Rec V => r.served == some j) (fun a b hab => by rw [hab.served]) (hr.hist m' off')
        rw [List.countP_eq_length_filter, List.countP_eq_length_filter, this.length]
      rw [h1, servedBy, List.length_map, List.countP_eq_length_filter, callsOf, List.filter_filter]
      congr 1
      apply List.filter_congr
      intro r hr'
      by_cases hsv : r.served == some j
      · have := h.of_ r.meth (List.mem_map_of_mem (List.mem_filter.2 ⟨hr', hsv⟩))
        simp [hsv, this]
      · simp [hsv]

end Uses

theorem rRun_append {fuel : Nat} {pre post : List (Op V E)} : ∀ {s s' : AState V E} {os : List (OpOut V E)}, rRun P fuel s (pre ++ post) = some (os, s') →
    ∃ os1 s1 os2, rRun P fuel s pre = some (os1, s1) ∧ rRun P fuel s1 post = some (os2, s') ∧ os = os1 ++ os2 := by
  induction pre with
  | nil => intro s s' os h; exact ⟨[], s, os, rfl, h, rfl⟩
  | cons op pre ih =>
    intro s s' os h
    simp only [List.cons_append, rRun, Option.bind_eq_bind, Option.bind_eq_some_iff] at h
    obtain ⟨⟨o, s1⟩, h1, ⟨os1, s2⟩, h2, h3⟩ := h
    cases h3
    obtain ⟨os3, s3, os4, e1, e2, rfl⟩ := ih h2
    exact ⟨o :: os3, s3, os4, by simp [rRun, h1, e1], e2, rfl⟩

theorem rRun_length {fuel : Nat} {ops : List (Op V E)} : ∀ {s s' : AState V E} {os : List (OpOut V E)}, rRun P fuel s ops = some (os, s') → os.length = ops.length := by
  induction ops with
  | nil => intro s s' os h; cases h; rfl
  | cons op ops ih =>
    intro s s' os h
    simp only [rRun, Option.bind_eq_bind, Option.bind_eq_some_iff] at h
    obtain ⟨⟨o, s1⟩, h1, ⟨os1, s2⟩, h2, h3⟩ := h
    cases h3
    simp [ih h2]

end FakeIt
