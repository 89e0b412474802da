import Verif.Model.Concurrency
/-!
# C12: ordinals under concurrency
-/
namespace FakeIt

/-! ## Specification -/

/-- The executions: any interleaving of the threads' steps. `tr` is what is seen, in order. -/
inductive Spec.Execution : List CEvent → CState → Prop where
  | start : Execution [] {}
  | step {tr : List CEvent} {s s' : CState} {t : Nat} {m : CMove} {e : CEvent} : Execution tr s → cstep s t m = some (s', e) → Execution (tr ++ [e]) s'

/-- `a` is seen before `b`. -/
def Spec.Earlier (tr : List CEvent) (a b : CEvent) : Prop := ∃ i j : Nat, i < j ∧ tr[i]? = some a ∧ tr[j]? = some b

/-- How many ordinals were given. -/
def Spec.given : List CEvent → Nat
  | [] => 0
  | .took _ _ _ :: tr => given tr + 1
  | _ :: tr => given tr

open Spec

private theorem given_append (a b : List CEvent) : given (a ++ b) = given a + given b := by
  induction a with
  | nil => simp [given]
  | cons x a ih => cases x <;> simp only [List.cons_append, given, ih] <;> omega

private structure CInv (tr : List CEvent) (s : CState) : Prop where
  /-- the counter -/
  count : s.counter = given tr
  /-- ordinals are given in the order 1, 2, 3, ... -/
  took : ∀ i t k o : Nat, tr[i]? = some (CEvent.took t k o) → o = given (tr.take i) + 1
  /-- begun calls -/
  begun : ∀ t k : Nat, k < (s.threads t).begun ↔ CEvent.entered t k ∈ tr
  stack : ∀ t, ∀ f ∈ (s.threads t).stack, f.1 < (s.threads t).begun
  inner : ∀ t, ∀ f ∈ (s.threads t).stack.tail, f.2 = true
  nodup : ∀ t, ((s.threads t).stack.map (·.1)).Nodup
  /-- a call without ordinal is the innermost one -/
  has : ∀ t k : Nat, k < (s.threads t).begun → (k, false) ∈ (s.threads t).stack ∨ ∃ o, CEvent.took t k o ∈ tr
  hasNot : ∀ t k o : Nat, (k, false) ∈ (s.threads t).stack → CEvent.took t k o ∉ tr
  tookBegun : ∀ t k o : Nat, CEvent.took t k o ∈ tr → k < (s.threads t).begun
  /-- unique events, and their order -/
  uniqE : ∀ i j t k : Nat, tr[i]? = some (CEvent.entered t k) → tr[j]? = some (CEvent.entered t k) → i = j
  uniqT : ∀ i j t k o o' : Nat, tr[i]? = some (CEvent.took t k o) → tr[j]? = some (CEvent.took t k o') → i = j
  enterBefore : ∀ j t k o : Nat, tr[j]? = some (CEvent.took t k o) → ∃ i : Nat, i < j ∧ tr[i]? = some (CEvent.entered t k)
  takeBefore : ∀ j t k : Nat, tr[j]? = some (CEvent.left t k) → ∃ i o : Nat, i < j ∧ tr[i]? = some (CEvent.took t k o)
  prog : ∀ j t k : Nat, tr[j]? = some (CEvent.entered t k) → ∀ k', k' < k → ∃ i o : Nat, i < j ∧ tr[i]? = some (CEvent.took t k' o)

private theorem snoc_get {tr : List CEvent} {e x : CEvent} {i : Nat} (h : (tr ++ [e])[i]? = some x) : tr[i]? = some x ∨ (i = tr.length ∧ x = e) := by
  by_cases hi : i < tr.length
  · rw [List.getElem?_append_left hi] at h; exact .inl h
  · rw [List.getElem?_append_right (by omega)] at h
    by_cases h0 : i - tr.length = 0
    · rw [h0] at h; simp at h; exact .inr ⟨by omega, h.symm⟩
    · obtain ⟨n, hn⟩ := Nat.exists_eq_succ_of_ne_zero h0
      rw [hn] at h; simp at h

private theorem get_snoc {tr : List CEvent} {e x : CEvent} {i : Nat} (h : tr[i]? = some x) : (tr ++ [e])[i]? = some x := by
  rw [List.getElem?_append_left (List.getElem?_eq_some_iff.1 h).1]; exact h

private theorem take_snoc {tr : List CEvent} {e x : CEvent} {i : Nat} (h : tr[i]? = some x) : (tr ++ [e]).take i = tr.take i := by
  have := (List.getElem?_eq_some_iff.1 h).1
  rw [List.take_append_of_le_length (by omega)]

private theorem mem_get {tr : List CEvent} {x : CEvent} (h : x ∈ tr) : ∃ i : Nat, i < tr.length ∧ tr[i]? = some x := by
  obtain ⟨i, hi, rfl⟩ := List.getElem_of_mem h
  exact ⟨i, hi, by simp [hi]⟩

private theorem get_mem {tr : List CEvent} {x : CEvent} {i : Nat} (h : tr[i]? = some x) : x ∈ tr := List.mem_of_getElem? h

private theorem cinv {tr : List CEvent} {s : CState} (h : Execution tr s) (hg : given tr < 2 ^ 32) : CInv tr s := by
  induction h with
  | start =>
    constructor <;> simp [given]
  | @step tr s s' t m e h hs ih =>
    rw [given_append] at hg
    have I := ih (by omega)
    cases m with
    | enter =>
      simp only [cstep] at hs
      have hst : (∀ f ∈ (s.threads t).stack, f.2 = true) ∧ s' = s.setThread t { begun := (s.threads t).begun + 1, stack := ((s.threads t).begun, false) :: (s.threads t).stack } ∧
          e = .entered t (s.threads t).begun := by
        split at hs
        · cases hs
        · next st hne =>
          simp only [Option.some.injEq, Prod.mk.injEq] at hs
          refine ⟨?_, hs.1.symm, hs.2.symm⟩
          intro f hf
          have hi := I.inner t
          cases hst : (s.threads t).stack with
          | nil => rw [hst] at hf; cases hf
          | cons g gs =>
            rw [hst] at hf hi
            rcases List.mem_cons.1 hf with rfl | hf
            · obtain ⟨k, b⟩ := f
              cases b with
              | true => rfl
              | false => exact absurd hst (hne k gs)
            · exact hi f hf
      obtain ⟨hall, rfl, rfl⟩ := hst
      have hT : ∀ i u k o : Nat, (tr ++ [CEvent.entered t (s.threads t).begun])[i]? = some (.took u k o) → tr[i]? = some (.took u k o) := by
        intro i u k o h
        rcases snoc_get h with h | ⟨-, h⟩
        · exact h
        · cases h
      have hM : ∀ u k o, CEvent.took u k o ∈ tr ++ [CEvent.entered t (s.threads t).begun] ↔ CEvent.took u k o ∈ tr := by
        intro u k o; simp
      constructor
      · show s.counter = _
        rw [given_append, I.count]; rfl
      · intro i u k o h
        have h := hT _ _ _ _ h
        rw [take_snoc h]; exact I.took i u k o h
      · intro u k
        simp only [CState.setThread]
        by_cases hu : u = t
        · subst hu
          rw [if_pos rfl]
          simp only [List.mem_append, List.mem_singleton, CEvent.entered.injEq, true_and, ← I.begun u k]
          omega
        · rw [if_neg hu]
          simp [← I.begun u k, hu]
      · intro u f hf
        simp only [CState.setThread] at hf ⊢
        by_cases hu : u = t
        · subst hu
          rw [if_pos rfl] at hf ⊢
          rcases List.mem_cons.1 hf with rfl | hf
          · exact Nat.lt_succ_self _
          · exact Nat.lt_succ_of_lt (I.stack u f hf)
        · rw [if_neg hu] at hf ⊢
          exact I.stack u f hf
      · intro u f hf
        simp only [CState.setThread] at hf
        by_cases hu : u = t
        · subst hu
          rw [if_pos rfl] at hf
          exact hall f hf
        · rw [if_neg hu] at hf
          exact I.inner u f hf
      · intro u
        simp only [CState.setThread]
        by_cases hu : u = t
        · subst hu
          rw [if_pos rfl]
          refine List.nodup_cons.2 ⟨fun hm => ?_, I.nodup u⟩
          obtain ⟨f, hf, he⟩ := List.mem_map.1 hm
          have := I.stack u f hf
          dsimp only at he
          omega
        · rw [if_neg hu]; exact I.nodup u
      · intro u k hk
        simp only [CState.setThread] at hk ⊢
        by_cases hu : u = t
        · subst hu
          rw [if_pos rfl] at hk ⊢
          dsimp only at hk ⊢
          by_cases he : k = (s.threads u).begun
          · subst he; exact .inl (by simp)
          · rcases I.has u k (by omega) with h1 | ⟨o, h1⟩
            · exact .inl (List.mem_cons_of_mem _ h1)
            · exact .inr ⟨o, List.mem_append_left _ h1⟩
        · rw [if_neg hu] at hk ⊢
          rcases I.has u k hk with h1 | ⟨o, h1⟩
          · exact .inl h1
          · exact .inr ⟨o, List.mem_append_left _ h1⟩
      · intro u k o hk
        rw [hM]
        simp only [CState.setThread] at hk
        by_cases hu : u = t
        · subst hu
          rw [if_pos rfl] at hk
          rcases List.mem_cons.1 hk with he | hk
          · simp only [Prod.mk.injEq, and_true] at he
            subst he
            intro hm
            exact Nat.lt_irrefl _ (I.tookBegun _ _ _ hm)
          · exact I.hasNot u k o hk
        · rw [if_neg hu] at hk
          exact I.hasNot u k o hk
      · intro u k o hm
        rw [hM] at hm
        have := I.tookBegun u k o hm
        simp only [CState.setThread]
        by_cases hu : u = t
        · subst hu; rw [if_pos rfl]; exact Nat.lt_succ_of_lt this
        · rw [if_neg hu]; exact this
      · have hnew : ∀ (i : Nat), tr[i]? ≠ some (.entered t (s.threads t).begun) := fun i h =>
          Nat.lt_irrefl _ ((I.begun t _).2 (get_mem h))
        intro i j u k hi hj
        rcases snoc_get hi with hi | ⟨hi, he⟩ <;> rcases snoc_get hj with hj | ⟨hj, he'⟩
        · exact I.uniqE i j u k hi hj
        · cases he'; exact absurd hi (hnew i)
        · cases he; exact absurd hj (hnew j)
        · omega
      · intro i j u k o o' hi hj
        exact I.uniqT i j u k o o' (hT _ _ _ _ hi) (hT _ _ _ _ hj)
      · intro j u k o hj
        obtain ⟨i, h1, h2⟩ := I.enterBefore j u k o (hT _ _ _ _ hj)
        exact ⟨i, h1, get_snoc h2⟩
      · intro j u k hj
        rcases snoc_get hj with hj | ⟨-, he⟩
        · obtain ⟨i, o, h1, h2⟩ := I.takeBefore j u k hj
          exact ⟨i, o, h1, get_snoc h2⟩
        · cases he
      · intro j u k hj k' hk
        rcases snoc_get hj with hj | ⟨hj, he⟩
        · obtain ⟨i, o, h1, h2⟩ := I.prog j u k hj k' hk
          exact ⟨i, o, h1, get_snoc h2⟩
        · cases he
          rcases I.has t k' hk with h1 | ⟨o, h1⟩
          · have := hall _ h1; cases this
          · obtain ⟨i, hi, h2⟩ := mem_get h1
            exact ⟨i, o, by omega, get_snoc h2⟩
    | take =>
      simp only [cstep] at hs
      split at hs
      · next k st hst =>
        simp only [Option.some.injEq, Prod.mk.injEq] at hs
        obtain ⟨rfl, rfl⟩ := hs
        have hgt : given tr + 1 < 2 ^ 32 := by simpa [given] using hg
        have ho : (s.counter + 1) % 2 ^ 32 = given tr + 1 := by rw [I.count]; exact Nat.mod_eq_of_lt hgt
        have hmem : (k, false) ∈ (s.threads t).stack := by rw [hst]; simp
        have hkb : k < (s.threads t).begun := I.stack t _ hmem
        have hnd := I.nodup t
        have hin := I.inner t
        have hss := I.stack t
        rw [hst] at hnd hin hss
        simp only [List.map_cons, List.nodup_cons] at hnd
        rw [ho]
        have hE : ∀ i u k' : Nat, (tr ++ [CEvent.took t k (given tr + 1)])[i]? = some (.entered u k') → tr[i]? = some (.entered u k') := by
          intro i u k' h
          rcases snoc_get h with h | ⟨-, h⟩
          · exact h
          · cases h
        constructor
        · show given tr + 1 = _
          rw [given_append]; rfl
        · intro i u k' o h
          rcases snoc_get h with h | ⟨hi, h⟩
          · rw [take_snoc h]; exact I.took i u k' o h
          · cases h; subst hi; rw [List.take_left']; rfl
        · intro u k'
          simp only [CState.setThread]
          by_cases hu : u = t
          · subst hu; rw [if_pos rfl]; simp [← I.begun u k']
          · rw [if_neg hu]; simp [← I.begun u k']
        · intro u f hf
          simp only [CState.setThread] at hf ⊢
          by_cases hu : u = t
          · subst hu
            rw [if_pos rfl] at hf ⊢
            rcases List.mem_cons.1 hf with rfl | hf
            · exact hkb
            · exact hss f (List.mem_cons_of_mem _ hf)
          · rw [if_neg hu] at hf ⊢; exact I.stack u f hf
        · intro u f hf
          simp only [CState.setThread] at hf
          by_cases hu : u = t
          · subst hu; rw [if_pos rfl] at hf; exact hin f hf
          · rw [if_neg hu] at hf; exact I.inner u f hf
        · intro u
          simp only [CState.setThread]
          by_cases hu : u = t
          · subst hu; rw [if_pos rfl]; exact List.nodup_cons.2 hnd
          · rw [if_neg hu]; exact I.nodup u
        · intro u k' hk'
          simp only [CState.setThread] at hk' ⊢
          by_cases hu : u = t
          · subst hu
            rw [if_pos rfl] at hk' ⊢
            rcases I.has u k' hk' with h1 | ⟨o, h1⟩
            · rw [hst] at h1
              rcases List.mem_cons.1 h1 with he | h1
              · cases he; exact .inr ⟨given tr + 1, by simp⟩
              · have := hin _ h1; cases this
            · exact .inr ⟨o, List.mem_append_left _ h1⟩
          · rw [if_neg hu] at hk' ⊢
            rcases I.has u k' hk' with h1 | ⟨o, h1⟩
            · exact .inl h1
            · exact .inr ⟨o, List.mem_append_left _ h1⟩
        · intro u k' o hk' hm
          simp only [CState.setThread] at hk'
          by_cases hu : u = t
          · subst hu
            rw [if_pos rfl] at hk'
            rcases List.mem_cons.1 hk' with he | hk'
            · cases he
            · have := hin _ hk'; cases this
          · rw [if_neg hu] at hk'
            rcases List.mem_append.1 hm with hm | hm
            · exact I.hasNot u k' o hk' hm
            · simp only [List.mem_singleton, CEvent.took.injEq] at hm; exact hu hm.1
        · intro u k' o hm
          simp only [CState.setThread]
          rcases List.mem_append.1 hm with hm | hm
          · have := I.tookBegun u k' o hm
            by_cases hu : u = t
            · subst hu; rw [if_pos rfl]; exact this
            · rw [if_neg hu]; exact this
          · simp only [List.mem_singleton, CEvent.took.injEq] at hm
            obtain ⟨rfl, rfl, -⟩ := hm
            rw [if_pos rfl]; exact hkb
        · intro i j u k' hi hj
          exact I.uniqE i j u k' (hE _ _ _ hi) (hE _ _ _ hj)
        · intro i j u k' o o' hi hj
          rcases snoc_get hi with hi | ⟨hi, he⟩ <;> rcases snoc_get hj with hj | ⟨hj, he'⟩
          · exact I.uniqT i j u k' o o' hi hj
          · cases he'; exact absurd (get_mem hi) (I.hasNot _ _ _ hmem)
          · cases he; exact absurd (get_mem hj) (I.hasNot _ _ _ hmem)
          · omega
        · intro j u k' o hj
          rcases snoc_get hj with hj | ⟨hj, he⟩
          · obtain ⟨i, h1, h2⟩ := I.enterBefore j u k' o hj
            exact ⟨i, h1, get_snoc h2⟩
          · cases he
            obtain ⟨i, hi, h2⟩ := mem_get ((I.begun t k).1 hkb)
            exact ⟨i, by omega, get_snoc h2⟩
        · intro j u k' hj
          rcases snoc_get hj with hj | ⟨-, he⟩
          · obtain ⟨i, o, h1, h2⟩ := I.takeBefore j u k' hj
            exact ⟨i, o, h1, get_snoc h2⟩
          · cases he
        · intro j u k' hj k'' hk''
          obtain ⟨i, o, h1, h2⟩ := I.prog j u k' (hE _ _ _ hj) k'' hk''
          exact ⟨i, o, h1, get_snoc h2⟩
      · cases hs
    | leave =>
      simp only [cstep] at hs
      split at hs
      · next k st hst =>
        simp only [Option.some.injEq, Prod.mk.injEq] at hs
        obtain ⟨rfl, rfl⟩ := hs
        have hmem : (k, true) ∈ (s.threads t).stack := by rw [hst]; simp
        have hkb : k < (s.threads t).begun := I.stack t _ hmem
        have hnd := I.nodup t
        have hin := I.inner t
        have hss := I.stack t
        rw [hst] at hnd hin hss
        simp only [List.map_cons, List.nodup_cons] at hnd
        have hE : ∀ i u k' : Nat, (tr ++ [CEvent.left t k])[i]? = some (.entered u k') → tr[i]? = some (.entered u k') := by
          intro i u k' h
          rcases snoc_get h with h | ⟨-, h⟩
          · exact h
          · cases h
        have hT : ∀ i u k' o : Nat, (tr ++ [CEvent.left t k])[i]? = some (.took u k' o) → tr[i]? = some (.took u k' o) := by
          intro i u k' o h
          rcases snoc_get h with h | ⟨-, h⟩
          · exact h
          · cases h
        constructor
        · show s.counter = _
          rw [given_append, I.count]; rfl
        · intro i u k' o h
          have h := hT _ _ _ _ h
          rw [take_snoc h]; exact I.took i u k' o h
        · intro u k'
          simp only [CState.setThread]
          by_cases hu : u = t
          · subst hu; rw [if_pos rfl]; simp [← I.begun u k']
          · rw [if_neg hu]; simp [← I.begun u k']
        · intro u f hf
          simp only [CState.setThread] at hf ⊢
          by_cases hu : u = t
          · subst hu
            rw [if_pos rfl] at hf ⊢
            exact hss f (List.mem_cons_of_mem _ hf)
          · rw [if_neg hu] at hf ⊢; exact I.stack u f hf
        · intro u f hf
          simp only [CState.setThread] at hf
          by_cases hu : u = t
          · subst hu; rw [if_pos rfl] at hf; exact hin f (List.mem_of_mem_tail hf)
          · rw [if_neg hu] at hf; exact I.inner u f hf
        · intro u
          simp only [CState.setThread]
          by_cases hu : u = t
          · subst hu; rw [if_pos rfl]; exact hnd.2
          · rw [if_neg hu]; exact I.nodup u
        · intro u k' hk'
          simp only [CState.setThread] at hk' ⊢
          by_cases hu : u = t
          · subst hu
            rw [if_pos rfl] at hk' ⊢
            rcases I.has u k' hk' with h1 | ⟨o, h1⟩
            · rw [hst] at h1
              rcases List.mem_cons.1 h1 with he | h1
              · cases he
              · have := hin _ h1; cases this
            · exact .inr ⟨o, List.mem_append_left _ h1⟩
          · rw [if_neg hu] at hk' ⊢
            rcases I.has u k' hk' with h1 | ⟨o, h1⟩
            · exact .inl h1
            · exact .inr ⟨o, List.mem_append_left _ h1⟩
        · intro u k' o hk' hm
          simp only [List.mem_append, List.mem_singleton, reduceCtorEq, or_false] at hm
          simp only [CState.setThread] at hk'
          by_cases hu : u = t
          · subst hu
            rw [if_pos rfl] at hk'
            have := hin _ hk'; cases this
          · rw [if_neg hu] at hk'
            exact I.hasNot u k' o hk' hm
        · intro u k' o hm
          simp only [List.mem_append, List.mem_singleton, reduceCtorEq, or_false] at hm
          simp only [CState.setThread]
          have := I.tookBegun u k' o hm
          by_cases hu : u = t
          · subst hu; rw [if_pos rfl]; exact this
          · rw [if_neg hu]; exact this
        · intro i j u k' hi hj
          exact I.uniqE i j u k' (hE _ _ _ hi) (hE _ _ _ hj)
        · intro i j u k' o o' hi hj
          exact I.uniqT i j u k' o o' (hT _ _ _ _ hi) (hT _ _ _ _ hj)
        · intro j u k' o hj
          obtain ⟨i, h1, h2⟩ := I.enterBefore j u k' o (hT _ _ _ _ hj)
          exact ⟨i, h1, get_snoc h2⟩
        · intro j u k' hj
          rcases snoc_get hj with hj | ⟨hj, he⟩
          · obtain ⟨i, o, h1, h2⟩ := I.takeBefore j u k' hj
            exact ⟨i, o, h1, get_snoc h2⟩
          · cases he
            rcases I.has t k hkb with h1 | ⟨o, h1⟩
            · rw [hst] at h1
              rcases List.mem_cons.1 h1 with he | h1
              · cases he
              · have := hin _ h1; cases this
            · obtain ⟨i, hi, h2⟩ := mem_get h1
              exact ⟨i, o, by omega, get_snoc h2⟩
        · intro j u k' hj k'' hk''
          obtain ⟨i, o, h1, h2⟩ := I.prog j u k' (hE _ _ _ hj) k'' hk''
          exact ⟨i, o, h1, get_snoc h2⟩
      · cases hs

private theorem given_take {tr : List CEvent} {i j : Nat} {t k o : Nat} (hij : i < j) (hi : tr[i]? = some (.took t k o)) :
    given (tr.take i) < given (tr.take j) := by
  obtain ⟨hl, hget⟩ := List.getElem?_eq_some_iff.1 hi
  have h1 : tr.take j = tr.take i ++ .took t k o :: ((tr.drop (i + 1)).take (j - i - 1)) := by
    have h2 : tr = tr.take i ++ (.took t k o :: tr.drop (i + 1)) := by
      have h3 : tr.drop i = tr[i] :: tr.drop (i + 1) := List.drop_eq_getElem_cons hl
      rw [← hget, ← h3, List.take_append_drop]
    have h4 : (tr.take i).length = i := by rw [List.length_take]; omega
    obtain ⟨d, rfl⟩ : ∃ d, j = i + (d + 1) := ⟨j - i - 1, by omega⟩
    have h5 : i + (d + 1) - i - 1 = d := by omega
    rw [h5]
    conv => lhs; rw [h2]
    have h6 := List.take_length_add_append (l₁ := tr.take i) (l₂ := CEvent.took t k o :: tr.drop (i + 1)) (d + 1)
    rw [h4] at h6
    rw [h6, List.take_succ_cons]
  rw [h1, given_append]
  simp only [given]
  omega

/-- Ordinals grow in the order in which they are given. -/
private theorem ordinals_grow {tr : List CEvent} {s : CState} (I : CInv tr s) {i j t k o t' k' o' : Nat} (hi : tr[i]? = some (.took t k o))
    (hj : tr[j]? = some (.took t' k' o')) (hij : i < j) : o < o' := by
  rw [I.took i t k o hi, I.took j t' k' o' hj]
  exact Nat.succ_lt_succ (given_take hij hi)

/-- **C12.** Any number of threads calling mocked methods in any interleaving, with nested calls, fewer than 2^32 calls in all: two calls have different
ordinals, calls of one thread have increasing ordinals in the order the thread begins them, and a call that ended before another one began has the smaller
ordinal. -/
theorem C12_concurrent_ordinals_partial {tr : List CEvent} {s : CState} (h : Execution tr s) (hg : given tr < 2 ^ 32)
    {t k o t' k' o' : Nat} (h1 : .took t k o ∈ tr) (h2 : .took t' k' o' ∈ tr) :
    (o = o' → t = t' ∧ k = k') ∧ (t = t' → k < k' → o < o') ∧ (Earlier tr (.left t k) (.entered t' k') → o < o') := by
  have I := cinv h hg
  obtain ⟨i, -, hi⟩ := mem_get h1
  obtain ⟨j, -, hj⟩ := mem_get h2
  refine ⟨fun he => ?_, ?_, ?_⟩
  · rcases Nat.lt_trichotomy i j with hij | rfl | hij
    · have := ordinals_grow I hi hj hij; omega
    · rw [hi] at hj; cases hj; exact ⟨rfl, rfl⟩
    · have := ordinals_grow I hj hi hij; omega
  · rintro rfl hk
    obtain ⟨q, hq, hqe⟩ := I.enterBefore j t k' o' hj
    obtain ⟨i', o2, hi', h3⟩ := I.prog q t k' hqe k hk
    have := I.uniqT i i' t k o o2 hi h3
    exact ordinals_grow I hi hj (by omega)
  · rintro ⟨p, q, hpq, hp, hq⟩
    obtain ⟨i', o2, hi', h3⟩ := I.takeBefore p t k hp
    have e1 := I.uniqT i i' t k o o2 hi h3
    obtain ⟨q', hq', hqe⟩ := I.enterBefore j t' k' o' hj
    have e2 := I.uniqE q q' t' k' hq hqe
    exact ordinals_grow I hi hj (by omega)

/-- **C12.** No call is left without an ordinal: a call that ended has one. -/
theorem C12_finished_calls_have_ordinals_partial {tr : List CEvent} {s : CState} (h : Execution tr s) (hg : given tr < 2 ^ 32) {t k : Nat}
    (hl : .left t k ∈ tr) : ∃ o, 0 < o ∧ o < 2 ^ 32 ∧ .took t k o ∈ tr := by
  have I := cinv h hg
  obtain ⟨j, -, hj⟩ := mem_get hl
  obtain ⟨i, o, -, hi⟩ := I.takeBefore j t k hj
  have ho := I.took i t k o hi
  have hsum : given tr = given (tr.take i) + given (tr.drop i) := by rw [← given_append, List.take_append_drop]
  have hpos : 0 < given (tr.drop i) := by
    obtain ⟨hl, hget⟩ := List.getElem?_eq_some_iff.1 hi
    rw [List.drop_eq_getElem_cons hl, hget]
    simp [given]
  exact ⟨o, by omega, by omega, get_mem hi⟩

namespace Demo

/-- Two threads: thread 0 calls, thread 1 calls in between, thread 0 makes a nested call. -/
def threadTrace : List CEvent :=
  [.entered 0 0, .entered 1 0, .took 1 0 1, .took 0 0 2, .entered 0 1, .left 1 0, .took 0 1 3, .left 0 1, .entered 1 1, .took 1 1 4, .left 0 0]

example : ∃ s, Execution threadTrace s :=
  ⟨_, .step (tr := threadTrace.take 10) (t := 0) (m := .leave)
    (.step (tr := threadTrace.take 9) (t := 1) (m := .take)
    (.step (tr := threadTrace.take 8) (t := 1) (m := .enter)
    (.step (tr := threadTrace.take 7) (t := 0) (m := .leave)
    (.step (tr := threadTrace.take 6) (t := 0) (m := .take)
    (.step (tr := threadTrace.take 5) (t := 1) (m := .leave)
    (.step (tr := threadTrace.take 4) (t := 0) (m := .enter)
    (.step (tr := threadTrace.take 3) (t := 0) (m := .take)
    (.step (tr := threadTrace.take 2) (t := 1) (m := .take)
    (.step (tr := threadTrace.take 1) (t := 1) (m := .enter)
    (.step (tr := []) (t := 0) (m := .enter) .start rfl) rfl) rfl) rfl) rfl) rfl) rfl) rfl) rfl) rfl) rfl⟩

example : given threadTrace < 2 ^ 32 ∧ .took 0 1 3 ∈ threadTrace ∧ .took 1 1 4 ∈ threadTrace := by decide
example : Earlier threadTrace (.left 0 1) (.entered 1 1) := ⟨7, 8, by decide, rfl, rfl⟩

end Demo
end FakeIt
