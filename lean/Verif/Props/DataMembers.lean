import Verif.Model.DataMembers
/-!
# C54: stubbed data members
-/
namespace FakeIt

/-! ## Specification -/

/-- Histories of a mock with its own object in which no member is stubbed while it is stubbed already, the history is not cleared while a member is
stubbed, and only stubbed members (or those of plain types) are written. `st` are the members stubbed now; the result are those stubbed afterwards. -/
def Spec.careful (trivial : Nat → Bool) : List Nat → List DOp → Option (List Nat)
  | st, [] => some st
  | st, .stub c _ :: os => if c ∈ st then none else careful trivial (st ++ [c]) os
  | st, .write c _ :: os => if trivial c ∨ c ∈ st then careful trivial st os else none
  | st, .clear :: os => if st = [] then careful trivial [] os else none
  | _, .reset :: os => careful trivial [] os
  | _, .destroyMock :: _ => none
  | _, .destroyObject _ :: _ => none

/-- The value of a member after a history: what was stubbed or written last; zero bytes at first and after `Reset` and `ClearInvocationHistory`. -/
def Spec.valueOf (c : Nat) : Option Int → List DOp → Option Int
  | v, [] => v
  | v, .stub d x :: os => valueOf c (if d = c then some x else v) os
  | v, .write d x :: os => valueOf c (if d = c then some x else v) os
  | _, .clear :: os => valueOf c none os
  | _, .reset :: os => valueOf c none os
  | v, _ :: os => valueOf c v os

/-- Histories of a mock spying on an object with `n` members in which only members of plain types are stubbed. -/
def Spec.spiedPlain (trivial : Nat → Bool) (n : Nat) : DOp → Prop
  | .stub c _ => trivial c = true
  | .write c _ => trivial c = true ∨ c < n
  | .clear => True
  | .reset => True
  | .destroyMock => False
  | .destroyObject _ => False

/-- What was stubbed or written last. -/
def Spec.lastValue (c : Nat) (v : Option Int) (os : List DOp) : Option Int :=
  os.foldl (fun v o => match o with
    | .stub d x => if d = c then some x else v
    | .write d x => if d = c then some x else v
    | _ => v) v

open Spec

open Classical in
private structure DInv (st : List Nat) (s : DState) : Prop where
  owner : s.owner = true
  alive : s.alive = true
  wrappers : s.wrappers = st
  nodup : st.Nodup
  objs : ∀ c, c ∈ st ↔ (s.cells c).obj.isSome = true
  vals : ∀ c ∈ st, (s.cells c).value.isSome = true
  inj : ∀ c d o, (s.cells c).obj = some o → (s.cells d).obj = some o → c = d
  below : ∀ c o, (s.cells c).obj = some o → o < s.next
  made : ∀ o, s.log.count (.constructed o) = if o < s.next then 1 else 0
  gone : ∀ o, s.log.count (.destroyed o) = if o < s.next ∧ ∀ c, (s.cells c).obj ≠ some o then 1 else 0

open Classical in
private theorem destroy_all {trivial : Nat → Bool} {s : DState} {cs rest : List Nat} (hn : (cs ++ rest).Nodup)
    (ho : ∀ c, c ∈ cs ++ rest ↔ (s.cells c).obj.isSome = true) (hv : ∀ c ∈ cs, (s.cells c).value.isSome = true)
    (hi : ∀ c d o, (s.cells c).obj = some o → (s.cells d).obj = some o → c = d) (hb : ∀ c o, (s.cells c).obj = some o → o < s.next)
    (hg : ∀ o, s.log.count (.destroyed o) = if o < s.next ∧ ∀ c, (s.cells c).obj ≠ some o then 1 else 0) :
    ∃ s', s.destroyCells trivial cs = .done s' ∧ s'.owner = s.owner ∧ s'.alive = s.alive ∧ s'.wrappers = s.wrappers ∧ s'.next = s.next ∧
      (∀ c, (s'.cells c).value = (s.cells c).value) ∧
      (∀ c, c ∈ rest ↔ (s'.cells c).obj.isSome = true) ∧
      (∀ o, s'.log.count (.constructed o) = s.log.count (.constructed o)) ∧
      (∀ o, s'.log.count (.destroyed o) = if o < s.next ∧ ∀ c, (s'.cells c).obj ≠ some o then 1 else 0) := by
  induction cs generalizing s with
  | nil => exact ⟨s, rfl, rfl, rfl, rfl, rfl, fun _ => rfl, by simpa using ho, fun _ => rfl, hg⟩
  | cons a as ih =>
    have hoa : (s.cells a).obj.isSome = true := (ho a).1 (by simp)
    obtain ⟨o, ho1⟩ := Option.isSome_iff_exists.1 hoa
    obtain ⟨v, hv1⟩ := Option.isSome_iff_exists.1 (hv a (by simp))
    let s1 : DState := { s.setCell a { obj := none, value := some v } with log := s.log ++ [.destroyed o] }
    have hstep : s.destroyCell trivial a = .done s1 := by rw [DState.destroyCell, ho1, hv1]
    have hcell : ∀ c, (s1.cells c) = if c = a then { obj := none, value := some v } else s.cells c := fun c => rfl
    have hnd : a ∉ as ++ rest := (List.nodup_cons.1 hn).1
    have hval : ∀ c, (s1.cells c).value = (s.cells c).value := by
      intro c; rw [hcell]; split
      · next h => subst h; exact hv1.symm
      · rfl
    have hobj : ∀ c x, (s1.cells c).obj = some x ↔ c ≠ a ∧ (s.cells c).obj = some x := by
      intro c x; rw [hcell]; split
      · next h => simp [h]
      · next h => simp [h]
    obtain ⟨s', h1, h2, h3, h4, h5, h6, h7, h8, h9⟩ := ih (s := s1) (List.nodup_cons.1 hn).2
      (by
        intro c
        rw [Option.isSome_iff_exists]
        constructor
        · intro hc
          have hne : c ≠ a := by rintro rfl; exact hnd hc
          obtain ⟨x, hx⟩ := Option.isSome_iff_exists.1 ((ho c).1 (List.mem_cons_of_mem _ hc))
          exact ⟨x, (hobj c x).2 ⟨hne, hx⟩⟩
        · rintro ⟨x, hx⟩
          have := (hobj c x).1 hx
          have hm := (ho c).2 (by rw [this.2]; rfl)
          rcases List.mem_cons.1 hm with h | h
          · exact absurd h this.1
          · exact h)
      (fun c hc => by rw [hval]; exact hv c (by simp [hc]))
      (fun c d x hc hd => hi c d x ((hobj c x).1 hc).2 ((hobj d x).1 hd).2)
      (fun c x hc => hb c x ((hobj c x).1 hc).2)
      (by
        intro x
        show (s.log ++ [DLog.destroyed o]).count (.destroyed x) = _
        rw [List.count_append, hg x]
        by_cases hx : x = o
        · subst hx
          rw [if_neg (fun h => h.2 a ho1)]
          rw [if_pos]
          · simp
          · refine ⟨hb a x ho1, fun c hc => ?_⟩
            have := (hobj c x).1 hc
            exact this.1 (hi c a x this.2 ho1)
        · have h0 : List.count (DLog.destroyed x) [DLog.destroyed o] = 0 := by
            rw [List.count_eq_zero]; simp [hx]
          rw [h0, Nat.add_zero]
          have : (∀ c, (s1.cells c).obj ≠ some x) ↔ ∀ c, (s.cells c).obj ≠ some x := by
            constructor
            · intro h c hc
              refine h c ((hobj c x).2 ⟨?_, hc⟩)
              rintro rfl
              rw [ho1] at hc; cases hc; exact hx rfl
            · intro h c hc
              exact h c ((hobj c x).1 hc).2
          simp only [this]
          rfl)
    refine ⟨s', ?_, h2, h3, h4, h5, fun c => (h6 c).trans (hval c), h7, fun x => ?_, h9⟩
    · rw [DState.destroyCells, hstep]; exact h1
    · rw [h8]
      show (s.log ++ [DLog.destroyed o]).count _ = _
      rw [List.count_append]
      simp

private theorem init_data {s : DState} (h : s.owner = true) : s.initData = { s with cells := fun c => { s.cells c with value := none } } := by
  rw [DState.initData, if_pos h]

open Classical in
private theorem run_careful {trivial : Nat → Bool} {st st' : List Nat} {s : DState} {os : List DOp} (h : DInv st s) (hc : careful trivial st os = some st') :
    ∃ s', DState.run trivial os s = .done s' ∧ DInv st' s' ∧ ∀ c, (s'.cells c).value = valueOf c (s.cells c).value os := by
  induction os generalizing st s with
  | nil => simp only [careful, Option.some.injEq] at hc; subst hc; exact ⟨s, rfl, h, fun _ => rfl⟩
  | cons o os ih =>
    have fin : ∀ (st1 : List Nat) (s1 : DState), s.step trivial o = .done s1 → DInv st1 s1 → careful trivial st1 os = some st' →
        (∀ c, valueOf c (s1.cells c).value os = valueOf c (s.cells c).value (o :: os)) →
        ∃ s', DState.run trivial (o :: os) s = .done s' ∧ DInv st' s' ∧ ∀ c, (s'.cells c).value = valueOf c (s.cells c).value (o :: os) := by
      intro st1 s1 h1 h2 h3 h4
      obtain ⟨s', h5, h6, h7⟩ := ih h2 h3
      exact ⟨s', by rw [DState.run, h1]; exact h5, h6, fun c => (h7 c).trans (h4 c)⟩
    cases o with
    | stub c v =>
      simp only [careful] at hc
      split at hc
      · cases hc
      · next hmem =>
        have hnone : (s.cells c).obj = none := by
          cases hx : (s.cells c).obj with
          | none => rfl
          | some x => exact absurd ((h.objs c).2 (by rw [hx]; rfl)) hmem
        have hobj : ∀ d x, ((if d = c then ({ obj := some s.next, value := some v } : DCell) else s.cells d).obj = some x) ↔
            (d = c ∧ x = s.next) ∨ (s.cells d).obj = some x := by
          intro d x
          split
          · next hd => subst hd; simp [hnone, eq_comm]
          · next hd => simp [hd]
        refine fin _ { s.construct c v with wrappers := s.wrappers ++ [c] } (by rw [DState.step.eq_def]; exact if_pos h.alive) ⟨h.owner, h.alive, ?_, ?_, ?_, ?_, ?_, ?_, ?_, ?_⟩ hc ?_
        · show s.wrappers ++ [c] = _; rw [h.wrappers]
        · rw [List.nodup_append]
          exact ⟨h.nodup, by simp, fun a ha b hb => by simp only [List.mem_singleton] at hb; subst hb; rintro rfl; exact hmem ha⟩
        · intro d
          rw [Option.isSome_iff_exists]
          simp only [DState.construct, DState.setCell, hobj, List.mem_append, List.mem_singleton, h.objs d, Option.isSome_iff_exists]
          constructor
          · rintro (⟨x, hx⟩ | rfl)
            · exact ⟨x, .inr hx⟩
            · exact ⟨_, .inl ⟨rfl, rfl⟩⟩
          · rintro ⟨x, ⟨rfl, -⟩ | hx⟩
            · exact .inr rfl
            · exact .inl ⟨x, hx⟩
        · intro d hd
          simp only [DState.construct, DState.setCell]
          split
          · rfl
          · next hne =>
            rcases List.mem_append.1 hd with hd | hd
            · exact h.vals d hd
            · exact absurd (List.mem_singleton.1 hd) hne
        · intro a b x ha hb
          simp only [DState.construct, DState.setCell, hobj] at ha hb
          rcases ha with ⟨rfl, rfl⟩ | ha <;> rcases hb with ⟨rfl, hx⟩ | hb
          · rfl
          · exact absurd (h.below _ _ hb) (Nat.lt_irrefl _)
          · subst hx; exact absurd (h.below _ _ ha) (Nat.lt_irrefl _)
          · exact h.inj a b x ha hb
        · intro a x ha
          simp only [DState.construct, DState.setCell, hobj] at ha ⊢
          rcases ha with ⟨-, rfl⟩ | ha
          · omega
          · have := h.below a x ha; omega
        · intro x
          show (s.log ++ [DLog.constructed s.next]).count (.constructed x) = if x < s.next + 1 then 1 else 0
          rw [List.count_append, h.made x]
          by_cases hx : x = s.next
          · subst hx; simp
          · have h0 : List.count (DLog.constructed x) [DLog.constructed s.next] = 0 := by rw [List.count_eq_zero]; simp [hx]
            rw [h0]
            by_cases hlt : x < s.next
            · rw [if_pos hlt, if_pos (by omega)]
            · rw [if_neg hlt, if_neg (by omega)]
        · intro x
          show (s.log ++ [DLog.constructed s.next]).count (.destroyed x) =
            if x < s.next + 1 ∧ ∀ d, (if d = c then ({ obj := some s.next, value := some v } : DCell) else s.cells d).obj ≠ some x then 1 else 0
          rw [List.count_append, h.gone x]
          have h0 : List.count (DLog.destroyed x) [DLog.constructed s.next] = 0 := by rw [List.count_eq_zero]; simp
          rw [h0]
          simp only [ne_eq, hobj, not_or, not_and]
          by_cases hx : x = s.next
          · subst hx
            rw [if_neg (fun hh => Nat.lt_irrefl _ hh.1), if_neg (fun hh => (hh.2 c).1 rfl rfl)]
          · have : (x < s.next ∧ ∀ d, ¬ (s.cells d).obj = some x) ↔ (x < s.next + 1 ∧ ∀ d, (d = c → ¬ x = s.next) ∧ ¬ (s.cells d).obj = some x) := by
              constructor
              · exact fun hh => ⟨by omega, fun d => ⟨fun _ => hx, hh.2 d⟩⟩
              · exact fun hh => ⟨by omega, fun d => (hh.2 d).2⟩
            simp only [this, Nat.add_zero]
        · intro d
          simp only [DState.construct, DState.setCell, valueOf]
          by_cases hd : d = c
          · subst hd; simp
          · rw [if_neg hd, if_neg (Ne.symm hd)]
    | write c v =>
      simp only [careful] at hc
      split at hc
      · next hok =>
        have hcond : trivial c = true ∨ ((s.cells c).obj ≠ none ∧ (s.cells c).value ≠ none) := by
          rcases hok with hok | hok
          · exact .inl hok
          · have h1 := (h.objs c).1 hok
            have h2 := h.vals c hok
            exact .inr ⟨fun e => (by rw [e] at h1; cases h1), fun e => (by rw [e] at h2; cases h2)⟩
        have hobj : ∀ d, ((if d = c then ({ s.cells c with value := some v } : DCell) else s.cells d).obj) = (s.cells d).obj := by
          intro d; split
          · next hd => subst hd; rfl
          · rfl
        refine fin _ (s.setCell c { s.cells c with value := some v }) (by rw [DState.step.eq_def]; exact if_pos hcond) ⟨h.owner, h.alive, h.wrappers, h.nodup, ?_, ?_, ?_, ?_, h.made, ?_⟩ hc ?_
        · intro d; simp only [DState.setCell, hobj]; exact h.objs d
        · intro d hd
          simp only [DState.setCell]
          split
          · rfl
          · exact h.vals d hd
        · intro a b x; simp only [DState.setCell, hobj]; exact h.inj a b x
        · intro a x; simp only [DState.setCell, hobj]; exact h.below a x
        · intro x; simp only [DState.setCell, hobj]; exact h.gone x
        · intro d
          simp only [DState.setCell, valueOf]
          by_cases hd : d = c
          · subst hd; simp
          · rw [if_neg hd, if_neg (Ne.symm hd)]
      · cases hc
    | clear =>
      simp only [careful] at hc
      split at hc
      · next he =>
        subst he
        refine fin [] { s with cells := fun c => { s.cells c with value := none } } (by rw [← init_data h.owner, DState.step.eq_def]; exact if_pos h.alive) ⟨h.owner, h.alive, h.wrappers, h.nodup, h.objs, ?_, h.inj, h.below, h.made, h.gone⟩ hc ?_
        · intro d hd; cases hd
        · intro d; rfl
      · cases hc
    | reset =>
      simp only [careful] at hc
      obtain ⟨s1, h1, h2, h3, h4, h5, h6, h7, h8, h9⟩ := destroy_all (trivial := trivial) (s := s) (cs := st) (rest := [])
        (by simpa using h.nodup) (by simpa using h.objs) h.vals h.inj h.below h.gone
      have hnone : ∀ c, (s1.cells c).obj = none := by
        intro c
        cases hx : (s1.cells c).obj with
        | none => rfl
        | some x => have := (h7 c).2 (by rw [hx]; rfl); cases this
      refine fin [] { s1 with wrappers := [], cells := fun c => { s1.cells c with value := none } } ?_ ⟨?_, ?_, rfl, List.nodup_nil, ?_, ?_, ?_, ?_, ?_, ?_⟩ hc ?_
      · rw [DState.step, if_pos h.alive, h.wrappers, h1, R.bind_done, init_data (by rw [← h.owner]; exact h2)]
      · exact h2.trans h.owner
      · exact h3.trans h.alive
      · intro c; exact h7 c
      · intro c hc; cases hc
      · intro a b x ha; dsimp only at ha; rw [hnone] at ha; cases ha
      · intro a x ha; dsimp only at ha; rw [hnone] at ha; cases ha
      · intro x; dsimp only; rw [h8, h.made, h5]
      · intro x; dsimp only; rw [h9, h5]
      · intro c; rfl
    | destroyMock => cases hc
    | destroyObject n => cases hc

private theorem fake_inv : DInv [] DState.fake := by
  constructor <;> simp [DState.fake]

/-- **C54** (partial: careful histories, of mocks with their own object). No memory error; every stubbed member is constructed once and destroyed at most
once, no later than `Reset`; and each member has the value stubbed or written last. -/
theorem C54_members_live_until_reset_partial {trivial : Nat → Bool} {os : List DOp} {st : List Nat} (hc : careful trivial [] os = some st) :
    ∃ s, DState.run trivial os DState.fake = .done s ∧ (∀ o < s.next, s.log.count (.constructed o) = 1 ∧ s.log.count (.destroyed o) ≤ 1) ∧
      (st = [] → ∀ o < s.next, s.log.count (.destroyed o) = 1) ∧
      (∀ c, (s.cells c).value = valueOf c none os) ∧ (∀ c ∈ st, ∃ o, (s.cells c).obj = some o ∧ s.log.count (.destroyed o) = 0) := by
  obtain ⟨s, h1, h2, h3⟩ := run_careful fake_inv hc
  refine ⟨s, h1, fun o ho => ⟨by rw [h2.made, if_pos ho], ?_⟩, fun he o ho => ?_, h3, fun c hc => ?_⟩
  · rw [h2.gone]; split <;> omega
  · subst he
    rw [h2.gone]
    refine if_pos ⟨ho, fun c hc => ?_⟩
    have := (h2.objs c).2 (by rw [hc]; rfl)
    cases this
  · obtain ⟨o, ho⟩ := Option.isSome_iff_exists.1 ((h2.objs c).1 hc)
    exact ⟨o, ho, by rw [h2.gone, if_neg (fun hh => hh.2 c ho)]⟩

/-- **C54** (partial, as above). Destroying the mock destroys each member that is still stubbed, once, so that in the end every member object
constructed has been destroyed exactly once. -/
theorem C54_members_die_with_the_mock_partial {trivial : Nat → Bool} {os : List DOp} {st : List Nat} (hc : careful trivial [] os = some st) :
    ∃ s, DState.run trivial (os ++ [.destroyMock]) DState.fake = .done s ∧
      ∀ o < s.next, s.log.count (.constructed o) = 1 ∧ s.log.count (.destroyed o) = 1 := by
  obtain ⟨s, h1, h2, -⟩ := run_careful fake_inv hc
  obtain ⟨s1, g1, g2, g3, g4, g5, g6, g7, g8, g9⟩ := destroy_all (trivial := trivial) (s := s) (cs := st) (rest := [])
    (by simpa using h2.nodup) (by simpa using h2.objs) h2.vals h2.inj h2.below h2.gone
  have happ : ∀ (a b : List DOp) (s s' : DState), DState.run trivial a s = .done s' → DState.run trivial (a ++ b) s = DState.run trivial b s' := by
    intro a b
    induction a with
    | nil => intro s s' h; cases h; rfl
    | cons o a ih =>
      intro s s' h
      simp only [DState.run, R.bind_eq_done] at h
      obtain ⟨s2, h3, h4⟩ := h
      simp only [List.cons_append, DState.run, h3, R.bind_done]
      exact ih s2 s' h4
  refine ⟨{ s1 with wrappers := [], alive := false }, ?_, fun o ho => ⟨?_, ?_⟩⟩
  · rw [happ _ _ _ _ h1]
    simp only [DState.run, DState.step, if_pos h2.alive, h2.wrappers, g1, R.bind_done]
  · dsimp only at ho ⊢
    rw [g8, h2.made, if_pos (by omega)]
  · dsimp only at ho ⊢
    rw [g9]
    refine if_pos ⟨by omega, fun c hc => ?_⟩
    have := (g7 c).2 (by rw [hc]; rfl)
    cases this

private theorem destroyCells_ub {trivial : Nat → Bool} {s s' : DState} {a b : List Nat} (h : s.destroyCells trivial a = .done s')
    (hb : s'.destroyCells trivial b = .ub) : s.destroyCells trivial (a ++ b) = .ub := by
  induction a generalizing s with
  | nil => cases h; exact hb
  | cons c a ih =>
    simp only [DState.destroyCells, R.bind_eq_done] at h
    obtain ⟨s2, h3, h4⟩ := h
    simp only [List.cons_append, DState.destroyCells, h3, R.bind_done]
    exact ih h4

private theorem run_append' {trivial : Nat → Bool} (b : List DOp) : ∀ (a : List DOp) (s s' : DState), DState.run trivial a s = .done s' →
    DState.run trivial (a ++ b) s = DState.run trivial b s' := by
  intro a
  induction a with
  | nil => intro s s' h; cases h; rfl
  | cons o a ih =>
    intro s s' h
    simp only [DState.run, R.bind_eq_done] at h
    obtain ⟨s2, h3, h4⟩ := h
    simp only [List.cons_append, DState.run, h3, R.bind_done]
    exact ih s2 s' h4

private theorem careful_append {trivial : Nat → Bool} {b : List DOp} : ∀ {a : List DOp} {st st' : List Nat}, careful trivial st a = some st' →
    careful trivial st (a ++ b) = careful trivial st' b := by
  intro a
  induction a with
  | nil => intro st st' h; simp only [careful, Option.some.injEq] at h; subst h; rfl
  | cons o a ih =>
    intro st st' h
    cases o <;> simp only [careful, List.cons_append] at h ⊢
    · split at h
      · cases h
      · next hm => rw [if_neg hm]; exact ih h
    · split at h
      · next hm => rw [if_pos hm]; exact ih h
      · cases h
    · split at h
      · next hm => rw [if_pos hm]; exact ih h
      · cases h
    · exact ih h
    · cases h
    · cases h

/-- **C54** is false: stubbing a member (whose destructor does something) twice makes `Reset` undefined behaviour: the second object is destroyed twice, the
first never. -/
theorem C54_stubbing_twice_is_undefined {trivial : Nat → Bool} {os : List DOp} {st : List Nat} (hc : careful trivial [] os = some st) {c : Nat}
    (hs : c ∉ st) (ht : trivial c = false) (v v' : Int) :
    DState.run trivial (os ++ [.stub c v, .stub c v', .reset]) DState.fake = .ub := by
  obtain ⟨s, h1, h2, -⟩ := run_careful fake_inv hc
  have hca : careful trivial st [.stub c v] = some (st ++ [c]) := by simp [careful, hs]
  obtain ⟨s1, g1, g2, -⟩ := run_careful h2 hca
  rw [run_append' _ _ _ _ h1, show [DOp.stub c v, .stub c v', .reset] = [.stub c v] ++ [.stub c v', .reset] from rfl, run_append' _ _ _ _ g1]
  obtain ⟨o, ho⟩ := Option.isSome_iff_exists.1 ((g2.objs c).1 (by simp))
  -- the state after the second stubbing
  let s2 : DState := { s1.construct c v' with wrappers := s1.wrappers ++ [c] }
  have hcell : ∀ d, s2.cells d = if d = c then { obj := some s1.next, value := some v' } else s1.cells d := fun d => rfl
  have hdest : s2.destroyCells trivial (st ++ [c] ++ [c]) = .ub := by
    -- the first pass destroys everything, the last destructor has no object
    have key : ∀ (l : List Nat) (x : DState), l.Nodup → (∀ d ∈ l, (x.cells d).obj.isSome = true ∧ (x.cells d).value.isSome = true) →
        ∃ x', x.destroyCells trivial l = .done x' ∧ ∀ d ∈ l, (x'.cells d).obj = none := by
      intro l
      induction l with
      | nil => intro x _ _; exact ⟨x, rfl, fun d hd => by cases hd⟩
      | cons a l ih =>
        intro x hn hx
        obtain ⟨p, hp⟩ := Option.isSome_iff_exists.1 (hx a (by simp)).1
        obtain ⟨q, hq⟩ := Option.isSome_iff_exists.1 (hx a (by simp)).2
        have hnn := List.nodup_cons.1 hn
        let x1 : DState := { x.setCell a { obj := none, value := some q } with log := x.log ++ [.destroyed p] }
        have hcell1 : ∀ d, x1.cells d = if d = a then { obj := none, value := some q } else x.cells d := fun d => rfl
        obtain ⟨x', h3, h4⟩ := ih x1 hnn.2 (fun d hd => by
          rw [hcell1, if_neg (by rintro rfl; exact hnn.1 hd)]; exact hx d (by simp [hd]))
        refine ⟨x', by simp only [DState.destroyCells, DState.destroyCell, hp, hq]; exact h3, fun d hd => ?_⟩
        rcases List.mem_cons.1 hd with rfl | hd
        · -- destroying the others does not touch it
          have keep : ∀ (l : List Nat) (y y' : DState), y.destroyCells trivial l = .done y' → d ∉ l → (y'.cells d) = y.cells d := by
            intro l
            induction l with
            | nil => intro y y' h _; cases h; rfl
            | cons b l ihl =>
              intro y y' h hn
              simp only [DState.destroyCells, R.bind_eq_done] at h
              obtain ⟨y1, h5, h6⟩ := h
              rw [ihl y1 y' h6 (fun hh => hn (List.mem_cons_of_mem _ hh))]
              have hdb : d ≠ b := by rintro rfl; exact hn (by simp)
              simp only [DState.destroyCell] at h5
              split at h5
              · cases h5; simp [DState.setCell, hdb]
              · split at h5
                · cases h5; simp [DState.setCell, hdb]
                · cases h5
              · split at h5
                · cases h5; rfl
                · cases h5
          rw [keep l x1 x' h3 hnn.1, hcell1, if_pos rfl]
        · exact h4 d hd
    obtain ⟨x', h3, h4⟩ := key (st ++ [c]) s2 g2.nodup (fun d hd => by
      rw [hcell]
      split
      · exact ⟨rfl, rfl⟩
      · exact ⟨(g2.objs d).1 hd, g2.vals d hd⟩)
    refine destroyCells_ub h3 ?_
    simp only [DState.destroyCells, DState.destroyCell, h4 c (by simp), ht]
    rfl
  simp only [DState.run, DState.step, if_pos g2.alive, R.bind_done]
  rw [if_pos (show ({ s1.construct c v' with wrappers := s1.wrappers ++ [c] } : DState).alive = true from g2.alive)]
  have hw : s2.destroyCells trivial (s1.wrappers ++ [c]) = .ub := by rw [g2.wrappers]; exact hdest
  exact (congrArg (fun r => (r >>= fun s : DState => R.done ({ s with wrappers := [] } : DState).initData) >>= fun s => R.done s) hw).trans rfl

/-- **C54** is false: `ClearInvocationHistory` zeroes a stubbed member, without destroying it. -/
theorem C54_clearing_zeroes_members {trivial : Nat → Bool} {os : List DOp} {st : List Nat} (hc : careful trivial [] os = some st) {c : Nat}
    (hs : c ∉ st) (v : Int) :
    ∃ s o, DState.run trivial (os ++ [.stub c v, .clear]) DState.fake = .done s ∧ (s.cells c).value = none ∧ (s.cells c).obj = some o ∧
      s.log.count (.destroyed o) = 0 := by
  have hca : careful trivial [] (os ++ [.stub c v]) = some (st ++ [c]) := by rw [careful_append hc]; simp [careful, hs]
  obtain ⟨s1, g1, g2, -⟩ := run_careful fake_inv hca
  obtain ⟨o, ho⟩ := Option.isSome_iff_exists.1 ((g2.objs c).1 (by simp))
  refine ⟨s1.initData, o, ?_, ?_, ?_, ?_⟩
  · rw [show os ++ [DOp.stub c v, .clear] = (os ++ [.stub c v]) ++ [.clear] by simp, run_append' _ _ _ _ g1]
    simp only [DState.run, DState.step, if_pos g2.alive, R.bind_done]
  · rw [init_data g2.owner]
  · rw [init_data g2.owner]; exact ho
  · rw [init_data g2.owner]
    show s1.log.count _ = 0
    rw [g2.gone, if_neg (fun hh => hh.2 c ho)]

/-- **C54** is false: after that, destroying the zeroed member at `Reset` is undefined behaviour, if its destructor does something. -/
theorem C54_clearing_is_undefined {trivial : Nat → Bool} {os : List DOp} (hc : careful trivial [] os = some []) {c : Nat}
    (ht : trivial c = false) (v : Int) :
    DState.run trivial (os ++ [.stub c v, .clear, .reset]) DState.fake = .ub := by
  have hca : careful trivial [] (os ++ [.stub c v]) = some [c] := by rw [careful_append hc]; simp [careful]
  obtain ⟨s1, g1, g2, -⟩ := run_careful fake_inv hca
  obtain ⟨o, ho⟩ := Option.isSome_iff_exists.1 ((g2.objs c).1 (by simp))
  rw [show os ++ [DOp.stub c v, .clear, .reset] = (os ++ [.stub c v]) ++ [.clear, .reset] by simp, run_append' _ _ _ _ g1]
  simp only [DState.run, DState.step, if_pos g2.alive, R.bind_done, init_data g2.owner, g2.wrappers, DState.destroyCells, DState.destroyCell, ho, ht]
  rfl

/-- **C54** is false for members of spied objects: they are destroyed by the mock and again by the object. -/
theorem C54_spied_members_are_destroyed_twice {trivial : Nat → Bool} {vs : List Int} {c : Nat} (hlt : c < vs.length)
    (ht : trivial c = false) (v : Int) : DState.run trivial [.stub c v, .destroyMock, .destroyObject vs.length] (DState.spying vs) = .ub := by
  let s1 : DState := { (DState.spying vs).construct c v with wrappers := [c] }
  let s2 : DState := { s1.setCell c { obj := none, value := some v } with log := s1.log ++ [.destroyed vs.length], wrappers := [], alive := false }
  have h2 : DState.run trivial [.stub c v, .destroyMock] (DState.spying vs) = .done s2 := by
    simp [DState.run, DState.step, DState.spying, DState.construct, DState.setCell, DState.destroyCells, DState.destroyCell, s2, s1]
  rw [show [DOp.stub c v, .destroyMock, .destroyObject vs.length] = [.stub c v, .destroyMock] ++ [.destroyObject vs.length] from rfl, run_append' _ _ _ _ h2]
  have key : ∀ (l : List Nat) (x : DState), c ∈ l → (x.cells c).obj = none → x.destroyCells trivial l = .ub ∨ x.destroyCells trivial l = .oof := by
    intro l
    induction l with
    | nil => intro x h; cases h
    | cons a l ih =>
      intro x hm hx
      simp only [DState.destroyCells]
      by_cases ha : a = c
      · subst ha
        left
        simp only [DState.destroyCell, hx, ht]
        rfl
      · have hm : c ∈ l := by
          rcases List.mem_cons.1 hm with h | h
          · exact absurd h.symm ha
          · exact h
        cases hd : x.destroyCell trivial a with
        | ub => left; rfl
        | oof => right; rfl
        | done y =>
          rw [R.bind_done]
          apply ih y hm
          simp only [DState.destroyCell] at hd
          split at hd
          · cases hd; simp [DState.setCell, Ne.symm ha, hx]
          · split at hd
            · cases hd; simp [DState.setCell, Ne.symm ha, hx]
            · cases hd
          · split at hd
            · cases hd; exact hx
            · cases hd
  have noof : ∀ (l : List Nat) (x : DState), x.destroyCells trivial l ≠ .oof := by
    intro l
    induction l with
    | nil => intro x h; cases h
    | cons a l ih =>
      intro x h
      simp only [DState.destroyCells, DState.destroyCell] at h
      split at h
      · exact ih _ h
      · split at h
        · exact ih _ h
        · cases h
      · split at h
        · exact ih _ h
        · cases h
  simp only [DState.run, DState.step]
  rcases key (List.range vs.length) s2 (List.mem_range.2 hlt) (by simp [s2, DState.setCell]) with h | h
  · rw [h]; rfl
  · exact absurd h (noof _ _)

private structure SpyInv (trivial : Nat → Bool) (n : Nat) (s : DState) : Prop where
  owner : s.owner = false
  alive : s.alive = true
  wrappers : ∀ c ∈ s.wrappers, trivial c = true
  next : n ≤ s.next
  whole : ∀ c < n, trivial c = false → (s.cells c).obj = some c ∧ (s.cells c).value.isSome = true
  inj : ∀ c d, c < n → (s.cells d).obj = some c → d = c
  gone : ∀ c < n, trivial c = false → s.log.count (.destroyed c) = 0

private theorem destroyCell_plain {trivial : Nat → Bool} {n c : Nat} {s : DState} (h : SpyInv trivial n s) (hc : trivial c = true) :
    ∃ s', s.destroyCell trivial c = .done s' ∧ SpyInv trivial n s' ∧ s'.wrappers = s.wrappers ∧ ∀ d, (s'.cells d).value = (s.cells d).value := by
  have keep : ∀ (o : Nat) (v : Option Int), (s.cells c).obj = some o → (s.cells c).value = v →
      SpyInv trivial n { s.setCell c { obj := none, value := v } with log := s.log ++ [.destroyed o] } ∧
      ∀ d, (({ s.setCell c { obj := none, value := v } with log := s.log ++ [.destroyed o] } : DState).cells d).value = (s.cells d).value := by
    intro o v ho hv
    refine ⟨⟨h.owner, h.alive, h.wrappers, h.next, fun d hd ht => ?_, fun d e hd he => ?_, fun d hd ht => ?_⟩, fun d => ?_⟩
    · have : d ≠ c := by rintro rfl; rw [hc] at ht; cases ht
      simpa [DState.setCell, this] using h.whole d hd ht
    · by_cases hec : e = c
      · simp [DState.setCell, hec] at he
      · exact h.inj d e hd (by simpa [DState.setCell, hec] using he)
    · have hod : o ≠ d := by
        rintro rfl
        have := h.inj o c hd ho
        subst this
        rw [hc] at ht; cases ht
      show (s.log ++ [DLog.destroyed o]).count (.destroyed d) = 0
      rw [List.count_append, h.gone d hd ht, List.count_eq_zero.2 (by simp [Ne.symm hod])]
    · by_cases hd : d = c
      · subst hd; simp [DState.setCell, hv]
      · simp [DState.setCell, hd]
  simp only [DState.destroyCell, hc, if_true]
  split
  · next o v ho hv => exact ⟨_, rfl, (keep o _ ho hv).1, rfl, (keep o _ ho hv).2⟩
  · next o ho hv => exact ⟨_, rfl, (keep o _ ho hv).1, rfl, (keep o _ ho hv).2⟩
  · exact ⟨s, rfl, h, rfl, fun _ => rfl⟩

private theorem destroyCells_plain {trivial : Nat → Bool} {n : Nat} : ∀ (cs : List Nat) {s : DState}, SpyInv trivial n s → (∀ c ∈ cs, trivial c = true) →
    ∃ s', s.destroyCells trivial cs = .done s' ∧ SpyInv trivial n s' ∧ s'.wrappers = s.wrappers ∧ ∀ d, (s'.cells d).value = (s.cells d).value
  | [], s, h, _ => ⟨s, rfl, h, rfl, fun _ => rfl⟩
  | c :: cs, s, h, hc => by
    obtain ⟨s1, h1, h2, h3, h4⟩ := destroyCell_plain h (hc c (by simp))
    obtain ⟨s2, g1, g2, g3, g4⟩ := destroyCells_plain cs h2 (fun d hd => hc d (by simp [hd]))
    exact ⟨s2, by rw [DState.destroyCells, h1, R.bind_done, g1], g2, g3.trans h3, fun d => (g4 d).trans (h4 d)⟩

private theorem run_spied {trivial : Nat → Bool} {n : Nat} : ∀ (os : List DOp) {s : DState}, SpyInv trivial n s → (∀ o ∈ os, spiedPlain trivial n o) →
    ∃ s', DState.run trivial os s = .done s' ∧ SpyInv trivial n s' ∧ ∀ c, (s'.cells c).value = lastValue c (s.cells c).value os
  | [], s, h, _ => ⟨s, rfl, h, fun _ => rfl⟩
  | o :: os, s, h, hos => by
    have ho := hos o (by simp)
    suffices hs : ∃ s1, s.step trivial o = .done s1 ∧ SpyInv trivial n s1 ∧ ∀ c, (s1.cells c).value = lastValue c (s.cells c).value [o] by
      obtain ⟨s1, h1, h2, h3⟩ := hs
      obtain ⟨s2, g1, g2, g3⟩ := run_spied os h2 (fun p hp => hos p (by simp [hp]))
      exact ⟨s2, by rw [DState.run, h1, R.bind_done, g1], g2, fun c => by rw [g3, h3]; rfl⟩
    cases o with
    | stub c v =>
      have ht : trivial c = true := ho
      refine ⟨{ s.construct c v with wrappers := s.wrappers ++ [c] }, by rw [DState.step, if_pos h.alive], ⟨h.owner, h.alive, ?_, Nat.le_succ_of_le h.next, ?_, ?_, ?_⟩, ?_⟩
      · intro d hd
        rcases List.mem_append.1 hd with hd | hd
        · exact h.wrappers d hd
        · cases List.mem_singleton.1 hd; exact ht
      · intro d hd hd'
        have : d ≠ c := by rintro rfl; rw [ht] at hd'; cases hd'
        simpa [DState.construct, DState.setCell, this] using h.whole d hd hd'
      · intro d e hd he
        by_cases hec : e = c
        · simp [DState.construct, DState.setCell, hec] at he
          have := h.next
          omega
        · exact h.inj d e hd (by simpa [DState.construct, DState.setCell, hec] using he)
      · intro d hd hd'
        show (s.log ++ [DLog.constructed s.next]).count (.destroyed d) = 0
        rw [List.count_append, h.gone d hd hd', List.count_eq_zero.2 (by simp)]
      · intro d
        by_cases hd : d = c
        · subst hd; simp [DState.construct, DState.setCell, lastValue]
        · simp [DState.construct, DState.setCell, lastValue, hd, Ne.symm hd]
    | write c v =>
      have hok : trivial c = true ∨ ((s.cells c).obj ≠ none ∧ (s.cells c).value ≠ none) := by
        cases ht : trivial c with
        | true => exact .inl rfl
        | false =>
          rcases ho with ho | ho
          · rw [ht] at ho; cases ho
          · obtain ⟨g1, g2⟩ := h.whole c ho ht
            exact .inr ⟨by simp [g1], fun hn => by simp [hn] at g2⟩
      refine ⟨s.setCell c { s.cells c with value := some v }, by rw [DState.step, if_pos hok], ⟨h.owner, h.alive, h.wrappers, h.next, ?_, ?_, h.gone⟩, ?_⟩
      · intro d hd hd'
        obtain ⟨g1, g2⟩ := h.whole d hd hd'
        by_cases hdc : d = c
        · subst hdc; simp [DState.setCell, g1]
        · simpa [DState.setCell, hdc] using ⟨g1, g2⟩
      · intro d e hd he
        by_cases hec : e = c
        · subst hec; exact h.inj d e hd (by simpa [DState.setCell] using he)
        · exact h.inj d e hd (by simpa [DState.setCell, hec] using he)
      · intro d
        by_cases hd : d = c
        · subst hd; simp [DState.setCell, lastValue]
        · simp [DState.setCell, lastValue, hd, Ne.symm hd]
    | clear => exact ⟨s, by simp [DState.step, h.alive, DState.initData, h.owner], h, fun _ => rfl⟩
    | reset =>
      obtain ⟨s1, h1, h2, h3, h4⟩ := destroyCells_plain s.wrappers h h.wrappers
      refine ⟨{ s1 with wrappers := [] }, ?_, ⟨h2.owner, h2.alive, by simp, h2.next, h2.whole, h2.inj, h2.gone⟩, h4⟩
      rw [DState.step, if_pos h.alive, h1, R.bind_done]
      simp [DState.initData, h2.owner]
    | destroyMock => exact absurd ho id
    | destroyObject n => exact absurd ho id

private theorem spying_inv (trivial : Nat → Bool) (vs : List Int) : SpyInv trivial vs.length (DState.spying vs) := by
  refine ⟨rfl, rfl, by simp [DState.spying], Nat.le_refl _, fun c hc _ => ?_, fun c d hc hd => ?_, fun c hc _ => ?_⟩
  · simp [DState.spying, hc]
  · simp only [DState.spying] at hd
    split at hd
    · simpa using hd
    · cases hd
  · simp [DState.spying, List.count_eq_zero]

/-- **C54**, spied objects, as far as it holds (members of plain types stubbed only). No memory error; each member of the real object has the value
stubbed or written last: neither `Reset` nor `ClearInvocationHistory` nor the destruction of the mock changes a byte of it. What is missing: members of
class types, for which the claim is false (`C54_spied_members_are_destroyed_twice`). -/
theorem C54_spied_members_keep_their_values_partial {trivial : Nat → Bool} {vs : List Int} {os : List DOp}
    (hos : ∀ o ∈ os, spiedPlain trivial vs.length o) :
    (∃ s, DState.run trivial os (DState.spying vs) = .done s ∧ ∀ c, (s.cells c).value = lastValue c vs[c]? os) ∧
    ∃ s, DState.run trivial (os ++ [.destroyMock]) (DState.spying vs) = .done s ∧ (∀ c, (s.cells c).value = lastValue c vs[c]? os) ∧
      ∀ c < vs.length, trivial c = false → s.log.count (.destroyed c) = 0 := by
  obtain ⟨s, h1, h2, h3⟩ := run_spied os (spying_inv trivial vs) hos
  have hv : ∀ c, ((DState.spying vs).cells c).value = vs[c]? := by
    intro c; simp only [DState.spying]; split <;> simp_all
  obtain ⟨s1, g1, g2, g3, g4⟩ := destroyCells_plain s.wrappers h2 h2.wrappers
  refine ⟨⟨s, h1, fun c => by rw [h3, hv]⟩, { s1 with wrappers := [], alive := false }, ?_, fun c => ?_, g2.gone⟩
  · rw [run_append' _ _ _ _ h1]
    simp only [DState.run, DState.step, if_pos h2.alive, g1, R.bind_done]
  · rw [← hv, ← h3]; exact g4 c

namespace Demo

example : ∀ o ∈ [DOp.stub 0 5, .write 1 6, .clear, .reset], spiedPlain (fun c => c == 0) 2 o := by simp [spiedPlain]
example : lastValue 1 ([3, 4] : List Int)[1]? [DOp.stub 0 5, .write 1 6, .clear, .reset] = some 6 := rfl

/-- Two members, one of a class type; stubbed, written, reset, stubbed again. -/
def memberOps : List DOp := [.stub 0 5, .stub 1 6, .write 0 7, .reset, .clear, .write 1 3, .stub 0 8]

example : careful (fun c => c == 1) [] memberOps = some [0] := rfl
example : valueOf 0 none memberOps = some 8 ∧ valueOf 1 none memberOps = some 3 ∧ valueOf 0 none (memberOps.take 3) = some 7 := ⟨rfl, rfl, rfl⟩
example : careful (fun _ => false) [] [.stub 0 5, .stub 1 6, .reset] = some [] := rfl

end Demo
end FakeIt
