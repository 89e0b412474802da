import Verif.Model.MoveOnly
/-!
# C71: methods with arguments that cannot be copied can be mocked, and `Spy` explains why it refuses them

The real code violates the general claim: the trait does not look into classes and containers other than vectors.
-/
namespace FakeIt.MoveOnly

/-- `Part t u`: a value of type `u` contains values of type `t` (or is one). -/
inductive Part : Ty → Ty → Prop where
  | self (t : Ty) : Part t t
  | elem (h : Part t u) : Part t (.vector u)
  | item (h : Part t u) : Part t (.list u)
  | left (h : Part t a) : Part t (.both a b)
  | right (h : Part t b) : Part t (.both a b)

/-- `Member t u`: a value of type `u` has values of type `t` as members; elements of containers are not members. -/
inductive Member : Ty → Ty → Prop where
  | self (t : Ty) : Member t t
  | left (h : Member t a) : Member t (.both a b)
  | right (h : Member t b) : Member t (.both a b)

/-- Values of this type can be copied: nothing in them is unique or fixed. -/
def Copyable (t : Ty) : Prop := ¬ Part .unique t ∧ ¬ Part .fixed t

/-- Values of this type can be moved: no member is fixed. -/
def Movable (t : Ty) : Prop := ¬ Member .fixed t

/-- The type of the elements of a vector of vectors of … -/
def innermost : Ty → Ty
  | .vector t => innermost t
  | t => t

/-- No container of things that cannot be copied, apart from vectors at the outside. -/
def Open (t : Ty) : Prop :=
  (∀ u, Part (.vector u) (innermost t) → Copyable u) ∧ (∀ u, Part (.list u) (innermost t) → Copyable u)

/-- A parameter taken by value has a type with this property. -/
def ByValue (p : Ty → Prop) (q : Param) : Prop := ∀ t, q = .value t → p t

/-! ### The functions of the model and the relations above -/

theorem copyable_vector {t : Ty} : Copyable (.vector t) ↔ Copyable t :=
  ⟨fun h => ⟨fun x => h.1 (.elem x), fun x => h.2 (.elem x)⟩, fun h => ⟨fun x => by cases x with | elem x => exact h.1 x, fun x => by cases x with | elem x => exact h.2 x⟩⟩

theorem copyable_list {t : Ty} : Copyable (.list t) ↔ Copyable t :=
  ⟨fun h => ⟨fun x => h.1 (.item x), fun x => h.2 (.item x)⟩, fun h => ⟨fun x => by cases x with | item x => exact h.1 x, fun x => by cases x with | item x => exact h.2 x⟩⟩

theorem copyable_both {a b : Ty} : Copyable (.both a b) ↔ Copyable a ∧ Copyable b :=
  ⟨fun h => ⟨⟨fun x => h.1 (.left x), fun x => h.2 (.left x)⟩, ⟨fun x => h.1 (.right x), fun x => h.2 (.right x)⟩⟩,
    fun h => ⟨fun x => by cases x with | left x => exact h.1.1 x | right x => exact h.2.1 x, fun x => by cases x with | left x => exact h.1.2 x | right x => exact h.2.2 x⟩⟩

theorem movable_both {a b : Ty} : Movable (.both a b) ↔ Movable a ∧ Movable b :=
  ⟨fun h => ⟨fun x => h (.left x), fun x => h (.right x)⟩, fun h x => by cases x with | left x => exact h.1 x | right x => exact h.2 x⟩

theorem copyCompiles_iff (t : Ty) : t.copyCompiles = true ↔ Copyable t := by
  induction t with
  | plain => exact ⟨fun _ => ⟨(nomatch ·), (nomatch ·)⟩, fun _ => rfl⟩
  | unique => exact ⟨(nomatch ·), fun h => (h.1 (.self _)).elim⟩
  | fixed => exact ⟨(nomatch ·), fun h => (h.2 (.self _)).elim⟩
  | vector t ih => rw [copyable_vector]; exact ih
  | list t ih => rw [copyable_list]; exact ih
  | both a b iha ihb => rw [copyable_both, ← iha, ← ihb]; simp [Ty.copyCompiles]

theorem moveConstructible_iff (t : Ty) : t.isMoveConstructible = true ↔ Movable t := by
  induction t with
  | plain => exact ⟨fun _ => (nomatch ·), fun _ => rfl⟩
  | unique => exact ⟨fun _ => (nomatch ·), fun _ => rfl⟩
  | fixed => exact ⟨(nomatch ·), fun h => (h (.self _)).elim⟩
  | vector t => exact ⟨fun _ => (nomatch ·), fun _ => rfl⟩
  | list t => exact ⟨fun _ => (nomatch ·), fun _ => rfl⟩
  | both a b iha ihb => rw [movable_both, ← iha, ← ihb]; simp [Ty.isMoveConstructible]

theorem copyCompiles_declared {t : Ty} (h : t.copyCompiles = true) : t.isCopyConstructible = true := by
  induction t with
  | plain => rfl
  | unique => cases h
  | fixed => cases h
  | vector t => rfl
  | list t => rfl
  | both a b iha ihb =>
    simp only [Ty.copyCompiles, Bool.and_eq_true] at h
    simp [Ty.isCopyConstructible, iha h.1, ihb h.2]

theorem smartTest_innermost (t : Ty) : smartTest t = (innermost t).isCopyConstructible := by
  induction t with
  | vector t ih => exact ih
  | plain | unique | fixed | list | both => rfl

theorem copyable_innermost (t : Ty) : Copyable (innermost t) ↔ Copyable t := by
  induction t with
  | vector t ih => rw [copyable_vector]; exact ih
  | plain | unique | fixed | list | both => exact Iff.rfl

theorem declared_copies {t : Ty} (hv : ∀ u, Part (.vector u) t → Copyable u) (hl : ∀ u, Part (.list u) t → Copyable u) :
    t.isCopyConstructible = true ↔ Copyable t := by
  induction t with
  | plain => exact (copyCompiles_iff .plain)
  | unique => exact copyCompiles_iff .unique
  | fixed => exact copyCompiles_iff .fixed
  | vector t => exact ⟨fun _ => copyable_vector.2 (hv t (.self _)), fun _ => rfl⟩
  | list t => exact ⟨fun _ => copyable_list.2 (hl t (.self _)), fun _ => rfl⟩
  | both a b iha ihb =>
    rw [copyable_both, ← iha (fun u h => hv u (.left h)) (fun u h => hl u (.left h)), ← ihb (fun u h => hv u (.right h)) (fun u h => hl u (.right h))]
    simp [Ty.isCopyConstructible]

/-- The trait is right about types without hidden containers. -/
theorem smartTest_open {t : Ty} (h : Open t) : smartTest t = true ↔ Copyable t := by
  rw [smartTest_innermost, declared_copies h.1 h.2, copyable_innermost]

theorem smartTest_copyable {t : Ty} (h : Copyable t) : smartTest t = true := by
  rw [smartTest_innermost]
  exact copyCompiles_declared ((copyCompiles_iff _).2 ((copyable_innermost t).2 h))

theorem allTrue_iff (vs : List Bool) : allTrue vs = true ↔ ∀ v ∈ vs, v = true := by
  simp only [allTrue, beq_iff_eq]
  induction vs with
  | nil => simp
  | cons v vs ih =>
    simp only [List.cons_append, List.cons.injEq, List.mem_cons, forall_eq_or_imp]
    constructor
    · rintro ⟨rfl, h⟩
      exact ⟨rfl, ih.1 h⟩
    · rintro ⟨rfl, h⟩
      exact ⟨rfl, ih.2 h⟩

theorem smart_all {ps : List Param} : allTrue (ps.map Param.smart) = true ↔ ∀ p ∈ ps, p.smart = true := by
  rw [allTrue_iff]; simp

theorem takesForwarded_iff (p : Param) : p.takesForwarded = true ↔ ByValue Movable p := by
  cases p with
  | value t => exact ⟨fun h u e => by cases e; exact (moveConstructible_iff t).1 h, fun h => (moveConstructible_iff t).2 (h t rfl)⟩
  | lref t => exact ⟨fun _ _ => (nomatch ·), fun _ => rfl⟩
  | rref t => exact ⟨fun _ _ => (nomatch ·), fun _ => rfl⟩

theorem takesLvalue_iff {p : Param} (h : p.smart = true) : p.takesLvalue = true ↔ ByValue Copyable p := by
  cases p with
  | value t =>
    refine ⟨fun hh u e => ?_, fun hh => ?_⟩
    · cases e; exact (copyCompiles_iff t).1 (Bool.and_eq_true _ _ ▸ hh).2
    · have := (copyCompiles_iff t).2 (hh t rfl)
      show (t.isCopyConstructible && t.copyCompiles) = true
      rw [copyCompiles_declared this, this]; rfl
  | lref t => exact ⟨fun _ _ => (nomatch ·), fun _ => rfl⟩
  | rref t => cases h

/-! ### The theorems -/

/-- Exactly which methods can be mocked: those whose value parameters can be moved and, unless the trait rejects a parameter, can be copied. -/
theorem C71_which_methods_can_be_mocked (ps : List Param) :
    mocking ps = .accepted ↔ (∀ p ∈ ps, ByValue Movable p) ∧
      ((∀ p ∈ ps, ByValue Copyable p) ∨ (∃ t, Param.rref t ∈ ps) ∨ ∃ t, Param.value t ∈ ps ∧ (Member .unique (innermost t) ∨ Member .fixed (innermost t))) := by
  have key : ∀ t : Ty, t.isCopyConstructible = false ↔ Member .unique t ∨ Member .fixed t := by
    intro t
    induction t with
    | plain => exact ⟨(nomatch ·), fun h => by rcases h with h | h <;> cases h⟩
    | unique => exact ⟨fun _ => .inl (.self _), fun _ => rfl⟩
    | fixed => exact ⟨fun _ => .inr (.self _), fun _ => rfl⟩
    | vector t => exact ⟨(nomatch ·), fun h => by rcases h with h | h <;> cases h⟩
    | list t => exact ⟨(nomatch ·), fun h => by rcases h with h | h <;> cases h⟩
    | both a b iha ihb =>
      simp only [Ty.isCopyConstructible, Bool.and_eq_false_iff, iha, ihb]
      constructor
      · rintro ((h | h) | (h | h))
        · exact .inl (.left h)
        · exact .inr (.left h)
        · exact .inl (.right h)
        · exact .inr (.right h)
      · rintro (h | h)
        · cases h with
          | left h => exact .inl (.inl h)
          | right h => exact .inr (.inl h)
        · cases h with
          | left h => exact .inl (.inr h)
          | right h => exact .inr (.inr h)
  have hbad : (¬ ∀ p ∈ ps, p.smart = true) ↔ (∃ t, Param.rref t ∈ ps) ∨ ∃ t, Param.value t ∈ ps ∧ (Member .unique (innermost t) ∨ Member .fixed (innermost t)) := by
    constructor
    · intro h
      obtain ⟨p, hp⟩ := Classical.not_forall.1 h
      obtain ⟨hp, hs⟩ := Classical.not_imp.1 hp
      cases p with
      | value t =>
        refine .inr ⟨t, hp, (key _).1 ?_⟩
        rw [← smartTest_innermost]
        exact Bool.eq_false_iff.2 hs
      | lref t => exact (hs rfl).elim
      | rref t => exact .inl ⟨t, hp⟩
    · rintro (⟨t, ht⟩ | ⟨t, ht, h⟩) hh
      · cases hh _ ht
      · have h1 := hh _ ht
        have h2 := (key _).2 h
        rw [← smartTest_innermost] at h2
        rw [Param.smart, h2] at h1
        cases h1
  have hfw : ps.all Param.takesForwarded = true ↔ ∀ p ∈ ps, ByValue Movable p := by
    rw [List.all_eq_true]
    exact forall_congr' fun p => forall_congr' fun _ => takesForwarded_iff p
  by_cases hs : ∀ p ∈ ps, p.smart = true
  · have h2 : copyArgsCompiles ps = true ↔ ∀ p ∈ ps, ByValue Copyable p := by
      rw [copyArgsCompiles, if_pos (smart_all.2 hs), List.all_eq_true]
      exact ⟨fun h p hp => (takesLvalue_iff (hs p hp)).1 (h p hp), fun h p hp => (takesLvalue_iff (hs p hp)).2 (h p hp)⟩
    rw [← hbad, ← hfw, ← h2]
    simp only [mocking]
    constructor
    · intro h
      split at h
      · rename_i hh; rw [Bool.and_eq_true] at hh; exact ⟨hh.1, .inl hh.2⟩
      · cases h
    · rintro ⟨h1, h | h⟩
      · rw [if_pos (by rw [h1, h]; rfl)]
      · exact (h hs).elim
  · have h2 : copyArgsCompiles ps = true := by rw [copyArgsCompiles, if_neg (fun h => hs (smart_all.1 h))]
    rw [← hbad, ← hfw]
    simp only [mocking, h2, Bool.and_true]
    constructor
    · intro h
      split at h
      · rename_i hh; exact ⟨hh, .inr hs⟩
      · cases h
    · rintro ⟨h1, -⟩
      rw [if_pos h1]

/-- Methods whose value parameters can be moved can be mocked. Missing for the full claim: parameters of types with hidden containers of things that cannot be copied; see
`C71_hidden_containers_cannot_be_mocked`. -/
theorem C71_move_only_arguments_can_be_mocked_partial {ps : List Param} (ho : ∀ p ∈ ps, ByValue Open p) :
    (mocking ps = .accepted ↔ ∀ p ∈ ps, ByValue Movable p) ∧ (spyingWithoutVerify ps = .accepted ↔ ∀ p ∈ ps, ByValue Movable p) := by
  have : mocking ps = .accepted ↔ ∀ p ∈ ps, ByValue Movable p := by
    refine ⟨fun h => ((C71_which_methods_can_be_mocked ps).1 h).1, fun h => ?_⟩
    by_cases hs : ∀ p ∈ ps, p.smart = true
    · refine (C71_which_methods_can_be_mocked ps).2 ⟨h, .inl fun p hp t e => ?_⟩
      have := hs p hp
      rw [e] at this
      exact (smartTest_open (ho p hp t e)).1 this
    · have h1 : ps.all Param.takesForwarded = true := by
        rw [List.all_eq_true]; exact fun p hp => (takesForwarded_iff p).2 (h p hp)
      have h2 : copyArgsCompiles ps = true := by rw [copyArgsCompiles, if_neg (fun h => hs (smart_all.1 h))]
      rw [mocking, if_pos (by rw [h1, h2]; rfl)]
  exact ⟨this, this⟩

/-- `Spy` accepts a method that can be mocked if all value parameters can be copied and there is no rvalue reference, and otherwise says why it does not. Missing for the
full claim: as above. -/
theorem C71_spy_accepts_what_can_be_copied_partial {ps : List Param} (ho : ∀ p ∈ ps, ByValue Open p) (hm : ∀ p ∈ ps, ByValue Movable p) :
    (spying ps = .accepted ↔ (∀ p ∈ ps, ByValue Copyable p) ∧ ∀ t, Param.rref t ∉ ps) ∧ (spying ps ≠ .accepted → spying ps = .explained) := by
  have hacc := (C71_move_only_arguments_can_be_mocked_partial ho).1.2 hm
  have hs : (∀ p ∈ ps, p.smart = true) ↔ (∀ p ∈ ps, ByValue Copyable p) ∧ ∀ t, Param.rref t ∉ ps := by
    constructor
    · intro h
      refine ⟨fun p hp t e => ?_, fun t ht => nomatch h _ ht⟩
      have := h p hp
      rw [e] at this
      exact (smartTest_open (ho p hp t e)).1 this
    · rintro ⟨h1, h2⟩ p hp
      cases p with
      | value t => exact smartTest_copyable (h1 _ hp t rfl)
      | lref t => rfl
      | rref t => exact (h2 t hp).elim
  rw [← hs, ← smart_all]
  simp only [spying, hacc]
  split <;> simp [*]

/-- Whatever the parameters: what `Spy` accepts can be copied, so nothing is spied that would change the caller's arguments or lose the recorded ones. -/
theorem C71_spied_arguments_can_be_copied {ps : List Param} (h : spying ps = .accepted) :
    (∀ p ∈ ps, ByValue Copyable p) ∧ (∀ t, Param.rref t ∉ ps) ∧ mocking ps = .accepted := by
  simp only [spying] at h
  split at h
  · rename_i hacc
    split at h
    · rename_i hs
      have hs' := smart_all.1 hs
      refine ⟨?_, fun t ht => (nomatch hs' _ ht), hacc⟩
      rcases ((C71_which_methods_can_be_mocked ps).1 hacc).2 with h | ⟨t, ht⟩ | ⟨t, ht, hh⟩
      · exact h
      · exact nomatch hs' _ ht
      · simp only [mocking] at hacc
        split at hacc
        · rename_i hc
          rw [Bool.and_eq_true] at hc
          have hc := hc.2
          rw [copyArgsCompiles, if_pos hs, List.all_eq_true] at hc
          exact fun p hp => (takesLvalue_iff (hs' p hp)).1 (hc p hp)
        · cases hacc
    · cases h
  · rename_i hn
    exact (hn h).elim

/-- The general claim is false: a method with a single value parameter that can be moved but whose elements, inside a list or inside a class, cannot be copied cannot
be mocked at all, although a vector of such elements is fine; and `Spy` does not explain it. A further parameter that is plainly move-only makes it possible again. -/
theorem C71_hidden_containers_cannot_be_mocked {t : Ty} (ht : ¬ Copyable t) :
    mocking [.value (.list t)] = .error ∧ mocking [.value (.both .plain (.vector t))] = .error ∧ mocking [.value (.vector (.list t))] = .error ∧
    spying [.value (.list t)] = .error ∧ spyingWithoutVerify [.value (.list t)] = .error ∧
    Movable (.list t) ∧ Movable (.both .plain (.vector t)) ∧ Movable (.vector (.list t)) ∧
    mocking [.value (.list t), .value .unique] = .accepted := by
  have hc : t.copyCompiles = false := Bool.eq_false_iff.2 fun h => ht ((copyCompiles_iff t).1 h)
  refine ⟨?_, ?_, ?_, ?_, ?_, (nomatch ·), fun h => ?_, (nomatch ·), rfl⟩
  · simp [mocking, copyArgsCompiles, allTrue, Param.smart, smartTest, Ty.isCopyConstructible, Param.takesLvalue, Ty.copyCompiles, hc]
  · simp [mocking, copyArgsCompiles, allTrue, Param.smart, smartTest, Ty.isCopyConstructible, Param.takesLvalue, Ty.copyCompiles, hc]
  · simp [mocking, copyArgsCompiles, allTrue, Param.smart, smartTest, Ty.isCopyConstructible, Param.takesLvalue, Ty.copyCompiles, hc]
  · simp [spying, mocking, copyArgsCompiles, allTrue, Param.smart, smartTest, Ty.isCopyConstructible, Param.takesLvalue, Ty.copyCompiles, hc]
  · simp [spyingWithoutVerify, mocking, copyArgsCompiles, allTrue, Param.smart, smartTest, Ty.isCopyConstructible, Param.takesLvalue, Ty.copyCompiles, hc]
  · cases h with
    | left h => cases h
    | right h => cases h

/-! ### Examples -/

/-- The hypothesis of `C71_hidden_containers_cannot_be_mocked` holds for `unique_ptr`. -/
example : ¬ Copyable .unique := fun h => h.1 (.self _)

/-- The hypotheses of the partial theorems hold for a method with a vector of vectors of unique pointers, a reference and a pair; it is mocked but not spied. -/
example : (∀ p ∈ [Param.value (.vector (.vector .unique)), .lref (.list .unique), .value (.both .plain (.vector .plain))], ByValue Open p ∧ ByValue Movable p) ∧
    mocking [.value (.vector (.vector .unique)), .lref (.list .unique), .value (.both .plain (.vector .plain))] = .accepted ∧
    spying [.value (.vector (.vector .unique)), .lref (.list .unique), .value (.both .plain (.vector .plain))] = .explained := by
  refine ⟨?_, by decide, by decide⟩
  intro p hp
  simp only [List.mem_cons, List.not_mem_nil, or_false] at hp
  rcases hp with rfl | rfl | rfl
  · exact ⟨fun t e => by cases e; exact ⟨fun u h => (nomatch h), fun u h => (nomatch h)⟩, fun t e => by cases e; exact (moveConstructible_iff _).1 rfl⟩
  · exact ⟨fun t => (nomatch ·), fun t => (nomatch ·)⟩
  · refine ⟨fun t e => ?_, fun t e => by cases e; exact (moveConstructible_iff _).1 rfl⟩
    cases e
    refine ⟨fun u h => ?_, fun u h => ?_⟩
    · cases h with
      | left h => cases h
      | right h =>
        cases h with
        | self => exact (copyCompiles_iff _).1 rfl
        | elem h => cases h
    · cases h with
      | left h => cases h
      | right h =>
        cases h with
        | elem h => cases h

/-- The hypothesis of `C71_spied_arguments_can_be_copied` holds for a method with copyable parameters. -/
example : spying [.value (.both .plain (.list (.vector .plain))), .lref .unique] = .accepted := by decide

/-- Rvalue references are mocked, not spied. -/
example : mocking [.rref .plain] = .accepted ∧ spying [.rref .plain] = .explained ∧ spyingWithoutVerify [.rref .plain] = .accepted := by decide

end FakeIt.MoveOnly
