import Verif.Lemmas.OwnersStep
/-!
# Lemmas for C91: when no group ends, and owners of objects that are gone
-/
namespace FakeIt.Owners
open Spec

theorem reactAll_same {n : Nat → Nat} {ks : List Mck} (h : ∀ i k, ks[i]? = some k → react (n i) k = some k) : reactAll n ks = some ks := by
  induction ks generalizing n with
  | nil => rfl
  | cons k ks ih =>
    simp only [reactAll]
    rw [h 0 k rfl, Option.bind_some, ih fun i k hk => h (i + 1) k (by simpa using hk)]
    rfl

theorem endedBy_zero {b a : World} {j : Nat} (h : ∀ g, b.objs[g]? = some j → g ∈ b.shares → g ∈ a.shares) : endedBy b a j = 0 := by
  unfold endedBy
  rw [List.countP_eq_zero]
  intro g _ hg
  simp only [Bool.and_eq_true, decide_eq_true_eq, Bool.not_eq_true', decide_eq_false_iff_not] at hg
  exact hg.2 (h g hg.1.1 hg.1.2)

theorem endedBy_pos {b a : World} {g j : Nat} (hg : b.objs[g]? = some j) (hb : g ∈ b.shares) (ha : g ∉ a.shares) : endedBy b a j ≠ 0 := by
  unfold endedBy
  intro h
  rw [List.countP_eq_zero] at h
  have := h g (List.mem_range.2 (List.getElem?_eq_some_iff.1 hg).1)
  simp [hg, hb, ha] at this

theorem react_object {n : Nat} {k k' : Mck} (h : react n k = some k') (ho : k.object = false) : k' = k ∧ n = 0 := by
  unfold react at h
  split at h
  · next hn => cases h; exact ⟨rfl, hn⟩
  · simp at h

/-- The group owns an object that is gone. -/
def Stranded (w : World) (g : Nat) : Prop := g ∈ w.shares ∧ ∃ (m : Nat) (k : Mck), w.objs[g]? = some m ∧ w.mocks[m]? = some k ∧ k.object = false

theorem stranded_lose {b a w : World} {g : Nat} (h : Stranded b g) (hl : lose b a = some w) (hobj : a.objs = b.objs) (hmk : ∀ (m : Nat) (k : Mck), b.mocks[m]? = some k → k.object = false → ∃ k' : Mck, a.mocks[m]? = some k' ∧ k'.object = false) :
    Stranded w g := by
  obtain ⟨hs, m, k, h1, h2, h3⟩ := h
  obtain ⟨k1, h4, h5⟩ := hmk m k h2 h3
  simp only [lose, Option.map_eq_some_iff] at hl
  obtain ⟨ks, h6, rfl⟩ := hl
  obtain ⟨k2, h7, h8⟩ := reactAll_get h6 h4
  obtain ⟨rfl, hn⟩ := react_object h8 h5
  refine ⟨?_, m, k2, by rw [← h1, ← hobj], h7, h5⟩
  have : World.shares { a with mocks := ks } = a.shares := shares_congr rfl (reactAll_methods h6)
  rw [this]
  exact Classical.byContradiction fun hh => endedBy_pos h1 hs hh hn

theorem stranded_set {w : World} {g m : Nat} {k k' : Mck} (h : Stranded w g) (hk : w.mocks[m]? = some k) (ho : k.object = false → k'.object = false)
    (hs : ∀ g, (sharesOf k.methods).count g ≤ (sharesOf k'.methods).count g) : Stranded (w.setMock m k') g := by
  obtain ⟨h0, i, x, h1, h2, h3⟩ := h
  have hml : m < w.mocks.length := (List.getElem?_eq_some_iff.1 hk).1
  refine ⟨?_, i, ?_⟩
  · have := shares_setMock hk k' g
    have := hs g
    rw [mem_iff_count] at h0 ⊢
    omega
  · by_cases him : m = i
    · subst him
      rw [hk] at h2
      cases h2
      exact ⟨k', h1, by show (w.mocks.set m k')[m]? = _; rw [List.getElem?_set_self hml], ho h3⟩
    · exact ⟨x, h1, by show (w.mocks.set m k')[i]? = _; rw [List.getElem?_set_ne him]; exact h2, h3⟩

theorem keep_object {w : World} {m : Nat} {k k' : Mck} (hk : w.mocks[m]? = some k) (ho : k.object = false → k'.object = false) (i : Nat) (x : Mck) (hx : w.mocks[i]? = some x) (hxo : x.object = false) :
    ∃ y, (w.setMock m k').mocks[i]? = some y ∧ y.object = false := by
  have hml : m < w.mocks.length := (List.getElem?_eq_some_iff.1 hk).1
  by_cases him : m = i
  · subst him
    rw [hk] at hx
    cases hx
    exact ⟨k', by show (w.mocks.set m k')[m]? = _; rw [List.getElem?_set_self hml], ho hxo⟩
  · exact ⟨x, by show (w.mocks.set m k')[i]? = _; rw [List.getElem?_set_ne him]; exact hx, hxo⟩

theorem stranded_step {w w' : World} {op : Op} {a : Ans} {g : Nat} (h : Stranded w g) (hs : w.step op = some (w', a)) : Stranded w' g := by
  cases op with
  | mock fake size dtorAt =>
    simp only [World.step, Option.some.injEq, Prod.mk.injEq] at hs
    obtain ⟨rfl, -⟩ := hs
    obtain ⟨h0, i, x, h1, h2, h3⟩ := h
    refine ⟨?_, i, x, h1, ?_, h3⟩
    · simp only [World.shares, List.flatMap_append, List.mem_append] at h0 ⊢
      rcases h0 with h | h
      · exact .inl h
      · exact .inr (.inl h)
    · show (w.mocks ++ _)[i]? = _
      rw [List.getElem?_append_left (List.getElem?_eq_some_iff.1 h2).1]; exact h2
  | own m =>
    simp only [World.step] at hs
    split at hs
    · split at hs
      · cases hs
        obtain ⟨h0, i, x, h1, h2, h3⟩ := h
        refine ⟨?_, i, x, ?_, h2, h3⟩
        · simp only [World.shares, List.filterMap_append, List.mem_append] at h0 ⊢
          rcases h0 with h | h
          · exact .inl (.inl h)
          · exact .inr h
        · show (w.objs ++ _)[g]? = _
          rw [List.getElem?_append_left (List.getElem?_eq_some_iff.1 h1).1]; exact h1
      · cases hs
    · cases hs
  | copy v =>
    simp only [World.step] at hs
    split at hs
    · cases hs
      obtain ⟨h0, rest⟩ := h
      refine ⟨?_, rest⟩
      simp only [World.shares, List.filterMap_append, List.mem_append] at h0 ⊢
      rcases h0 with h | h
      · exact .inl (.inl h)
      · exact .inr h
    · cases hs
  | drop v =>
    simp only [World.step] at hs
    split at hs
    · simp only [Option.map_eq_some_iff, Prod.mk.injEq] at hs
      obtain ⟨w1, h1, rfl, -⟩ := hs
      exact stranded_lose h h1 rfl (fun m k hk ho => ⟨k, hk, ho⟩)
    · cases hs
  | stub m f v =>
    simp only [World.step, Option.bind_eq_some_iff, Option.map_eq_some_iff, Prod.mk.injEq] at hs
    obtain ⟨p, -, k, hk, b, hb, rfl, -⟩ := hs
    obtain ⟨o, ho, hcb⟩ := body_some hb
    refine stranded_set h (mock_some hk).1 id fun g => ?_
    have h3 := sharesOf_set ho ⟨true, b.kept ++ p.2, b.records⟩ g
    have h4 := hcb g
    simp only [Body.shares, Body.recorded, List.count_append] at h3 h4 ⊢
    omega
  | stubDtor m n =>
    simp only [World.step, Option.bind_eq_some_iff, Option.map_eq_some_iff, Prod.mk.injEq] at hs
    obtain ⟨k, hk, d, -, rfl, -⟩ := hs
    exact stranded_set h (mock_some hk).1 id fun g => Nat.le_refl _
  | count m f =>
    simp only [World.step, Option.bind_eq_some_iff, Option.map_eq_some_iff, Prod.mk.injEq] at hs
    obtain ⟨k, hk, b, hb, rfl, -⟩ := hs
    obtain ⟨o, ho, hcb⟩ := body_some hb
    refine stranded_set h (mock_some hk).1 id fun g => ?_
    have h3 := sharesOf_set ho b g
    have h4 := hcb g
    simp only at h3 h4 ⊢
    omega
  | countDtor m =>
    simp only [World.step, Option.bind_eq_some_iff, Option.map_eq_some_iff, Prod.mk.injEq] at hs
    obtain ⟨k, hk, d, -, rfl, -⟩ := hs
    exact stranded_set h (mock_some hk).1 id fun g => Nat.le_refl _
  | call m f args =>
    simp only [World.step, Option.bind_eq_some_iff] at hs
    obtain ⟨p, hp, hs⟩ := hs
    have go : ∀ {w1 : World} {b : Ans}, (lose w { w with vars := p.1 }).map (·, b) = some (w1, a) → Stranded w1 g := by
      intro w1 b hh
      simp only [Option.map_eq_some_iff, Prod.mk.injEq] at hh
      obtain ⟨w2, h1, rfl, -⟩ := hh
      exact stranded_lose h h1 rfl (fun m k hk ho => ⟨k, hk, ho⟩)
    split at hs
    · cases hs
    · next k hk =>
      split at hs
      · cases hs
      · next hob =>
        split at hs
        · exact go hs
        · cases hs
        · split at hs
          · cases hs
          · exact go hs
          · next b hb =>
            split at hs
            · simp only [Option.some.injEq, Prod.mk.injEq] at hs
              obtain ⟨rfl, -⟩ := hs
              -- the owners move from variables to the record
              obtain ⟨h0, i, x, h1, h2, h3⟩ := h
              have him : m ≠ i := by
                intro him; subst him
                rw [hk] at h2; cases h2
                exact hob h3
              refine ⟨?_, i, x, h1, by show (w.mocks.set m _)[i]? = _; rw [List.getElem?_set_ne him]; exact h2, h3⟩
              have hmem := give_shares (w := w) hp g
              rw [hmem] at h0
              have hc := shares_setMock (w := { w with vars := p.1 }) hk { k with methods := k.methods.set f (some ⟨true, b.kept, b.records ++ [p.2]⟩) } g
              have hc2 := sharesOf_set hb ⟨true, b.kept, b.records ++ [p.2]⟩ g
              simp only [Option.map_some, Option.getD_some, Body.shares, Body.recorded, List.flatten_append, List.flatten_cons, List.flatten_nil, List.count_append, List.append_nil] at hc2
              simp only [mem_iff_count] at h0 ⊢
              simp only at hc hc2 ⊢
              rcases h0 with h0 | h0 <;> omega
            · exact go hs
  | clear m =>
    simp only [World.step, Option.bind_eq_some_iff, Option.map_eq_some_iff, Prod.mk.injEq] at hs
    obtain ⟨k, hk, w1, h1, k2, hk2, w2, h2, rfl, -⟩ := hs
    have hw1 := stranded_lose h h1 rfl (keep_object (mock_some hk).1 id)
    exact stranded_lose hw1 h2 rfl (keep_object (mock_some hk2).1 id)
  | reset m =>
    simp only [World.step, Option.bind_eq_some_iff, Option.map_eq_some_iff, Prod.mk.injEq] at hs
    obtain ⟨k, hk, w1, h1, k2, hk2, rfl, -⟩ := hs
    have hw1 := stranded_lose h h1 rfl (keep_object (mock_some hk).1 id)
    exact stranded_set hw1 hk2 id fun g => Nat.le_refl _
  | destroy m =>
    simp only [World.step, Option.bind_eq_some_iff] at hs
    obtain ⟨k, hk, hs⟩ := hs
    split at hs
    · simp only [Option.bind_eq_some_iff, Option.map_eq_some_iff, Prod.mk.injEq] at hs
      obtain ⟨w1, h1, k2, hk2, rfl, -⟩ := hs
      have hw1 := stranded_lose h h1 rfl (keep_object (mock_some hk).1 id)
      exact stranded_set hw1 hk2 (fun ho => by simp [ho]) fun g => Nat.le_refl _
    · cases hs

theorem stranded_run {ops : List Op} : ∀ {w w' : World} {as : List Ans} {g : Nat}, Stranded w g → w.run ops = some (w', as) → Stranded w' g := by
  induction ops with
  | nil => intro w w' as g h hr; simp only [World.run, Option.some.injEq, Prod.mk.injEq] at hr; rw [← hr.1]; exact h
  | cons op ops ih =>
    intro w w' as g h hr
    simp only [World.run, Option.bind_eq_some_iff, Option.map_eq_some_iff, Prod.mk.injEq] at hr
    obtain ⟨p, h1, q, h2, h3, -⟩ := hr
    subst h3
    exact ih (stranded_step h h1) h2

theorem mocks_lose {b a w : World} (h : lose b a = some w) (m : Nat) (k : Mck) (hk : a.mocks[m]? = some k) : react (endedBy b a m) k = w.mocks[m]? ∧ (endedBy b a m = 0 → w.mocks[m]? = some k) := by
  simp only [lose, Option.map_eq_some_iff] at h
  obtain ⟨ks, h1, rfl⟩ := h
  obtain ⟨k', h2, h3⟩ := reactAll_get h1 hk
  refine ⟨h3.trans h2.symm, fun h0 => ?_⟩
  rw [h0, react_zero] at h3
  cases h3
  exact h2

theorem lose_fields {b a w : World} (h : lose b a = some w) : w.objs = a.objs ∧ w.vars = a.vars := by
  simp only [lose, Option.map_eq_some_iff] at h
  obtain ⟨ks, -, rfl⟩ := h
  exact ⟨rfl, rfl⟩

theorem lose_methods {b a w : World} (h : lose b a = some w) (i : Nat) : (w.mocks[i]?).map Mck.methods = (a.mocks[i]?).map Mck.methods := by
  simp only [lose, Option.map_eq_some_iff] at h
  obtain ⟨ks, h1, rfl⟩ := h
  have := reactAll_methods h1
  simp only []
  rw [← List.getElem?_map, ← List.getElem?_map, this]

theorem recordsOf_append (xs ys : List (Option Body)) : recordsOf (xs ++ ys) = recordsOf xs ++ recordsOf ys := by simp [recordsOf]

theorem recordsOf_forget (bs : List (Option Body)) : recordsOf (forget bs) = [] := by
  induction bs with
  | nil => rfl
  | cons b bs ih => cases b <;> simp_all [recordsOf, forget, Body.recorded, Body.cleared]

end FakeIt.Owners
