import Verif.Lemmas.RacesMock
/-!
# C87: what different threads may do with mocks at the same time

Threads that start together, use no synchronisation of their own, and call, stub, verify, reset and clear mocks.  A race is two threads about to access the
same memory, one of them writing.
-/
namespace FakeIt.Races

open Spec

variable {V : Type}

/-- Two mocks of classes with three virtual methods, made by the library itself. -/
private def unmockedAll : Nat → Nat → Entry := fun _ _ => .unmocked

/-- Nothing stubbed yet. -/
private def new : Mem Nat := fresh unmockedAll (fun _ => 3) 0

/-- In mock `0` the methods `0` and `2` have been stubbed, to give something for all arguments, and method `0` has been called. -/
private def used : Mem Nat
  | .body m k => m == 0 && (k == 0 || k == 2)
  | .entry m k => if m = 0 ∧ (k = 0 ∨ k = 2) then .proxy else .unmocked
  | .ident m k => if m = 0 ∧ (k = 0 ∨ k = 2) then some k else none
  | .stubs 0 0 => [fun _ => true]
  | .stubs 0 2 => [fun _ => true]
  | .seq 0 0 0 => [⟨none, .gives⟩]
  | .seq 0 2 0 => [⟨some 2, .spies⟩]
  | .recs 0 0 => 1
  | l => new l

private theorem new_settled : Settled unmockedAll new :=
  ⟨fun m k h => by simp [Known, new, fresh] at h, fun m k h => by simp [Known, new, fresh] at h, fun _ _ _ => rfl,
   fun m k j h => by simp [new, fresh] at h, fun _ _ => by simp [unmockedAll]⟩

private theorem used_known (m k : Nat) : Known used m k ↔ m = 0 ∧ (k = 0 ∨ k = 2) := by simp [Known, used]

private theorem used_settled : Settled unmockedAll used := by
  refine ⟨?_, ?_, ?_, ?_, fun _ _ => by simp [unmockedAll]⟩
  · intro m k h
    obtain ⟨rfl, rfl | rfl⟩ := (used_known m k).1 h <;> simp [used, new, fresh]
  · intro m k h
    obtain ⟨rfl, rfl | rfl⟩ := (used_known m k).1 h <;> simp [used]
  · intro m k h
    rw [used_known] at h
    simp only [used]
    rw [if_neg h]
    rfl
  · intro m k j h
    simp only [used] at h
    split at h
    · exact (Option.some.inj h).symm
    · cases h

/-! ## Threads that do not race -/

/-- Threads whose operations go together never race, in any interleaving: operations on different mocks; calls of different methods; stubbing of different
methods; calls of a method while another one is stubbed that has been named before or comes later in the class; `VerifyNoOtherInvocations`.
(Partial: not all operations on different methods go together, see `C87_clashing_operations_race`.) -/
theorem C87_compatible_threads_never_race_partial {orig : Nat → Nat → Entry} {μ : Mem V} (hs : Settled orig μ) {tss : List (List (Op V))}
    (hfit : ∀ os, os ∈ tss → ∀ o, o ∈ os → Fits μ o) (hsep : Separate (Known μ) tss) : RaceFree (start orig μ tss) :=
  raceFree_of_apart (separate_apart hs hfit hsep)

/-- Three threads: one calls method `0` of mock `0`, one calls method `2` (a spy) and stubs it again, one stubs and verifies mock `1` and resets it. -/
private def three : List (List (Op Nat)) :=
  [[.call 0 0 5, .call 0 0 6], [.call 0 2 7, .stub 0 2 1 (fun _ => true) [], .call 0 2 8],
   [.stub 1 1 4 (fun n => n == 2) [⟨some 1, .gives⟩], .verify 1 1 4 (fun _ => true) (· == 0), .reset 1]]

private theorem three_fits : ∀ os, os ∈ three → ∀ o, o ∈ os → Fits used o := by
  intro os hos o ho f hf
  simp only [three, List.mem_cons, List.not_mem_nil, or_false] at hos
  rcases hos with rfl | rfl | rfl <;> simp only [List.mem_cons, List.not_mem_nil, or_false] at ho
  · rcases ho with rfl | rfl <;> cases hf <;> simp [used, new, fresh]
  · rcases ho with rfl | rfl | rfl <;> cases hf <;> simp [used, new, fresh]
  · rcases ho with rfl | rfl | rfl <;> cases hf <;> simp [used, new, fresh]

private theorem three_separate : Separate (Known used) three := by
  have key : ∀ (i : Nat) os, three[i]? = some os → (i = 0 ∧ os = [.call 0 0 5, .call 0 0 6]) ∨
      (i = 1 ∧ os = [.call 0 2 7, .stub 0 2 1 (fun _ => true) [], .call 0 2 8]) ∨
      (i = 2 ∧ os = [.stub 1 1 4 (fun n => n == 2) [⟨some 1, .gives⟩], .verify 1 1 4 (fun _ => true) (· == 0), .reset 1]) := by
    intro i os h
    match i with
    | 0 => exact .inl ⟨rfl, (Option.some.inj h).symm⟩
    | 1 => exact .inr (.inl ⟨rfl, (Option.some.inj h).symm⟩)
    | 2 => exact .inr (.inr ⟨rfl, (Option.some.inj h).symm⟩)
    | i + 3 => simp [three] at h
  intro i j os os' hij hi hj o ho o' ho'
  rcases key i os hi with ⟨rfl, rfl⟩ | ⟨rfl, rfl⟩ | ⟨rfl, rfl⟩ <;> rcases key j os' hj with ⟨rfl, rfl⟩ | ⟨rfl, rfl⟩ | ⟨rfl, rfl⟩
  all_goals first
    | exact absurd rfl hij
    | (simp only [List.mem_cons, List.not_mem_nil, or_false] at ho ho'
       rcases ho with rfl | rfl | rfl <;> rcases ho' with rfl | rfl | rfl <;> simp [Compatible, mockOf, SameMock, CallStub] <;> exact .inl rfl)
    | (simp only [List.mem_cons, List.not_mem_nil, or_false] at ho ho'
       rcases ho with rfl | rfl <;> rcases ho' with rfl | rfl | rfl <;> simp [Compatible, mockOf, SameMock, CallStub])
    | (simp only [List.mem_cons, List.not_mem_nil, or_false] at ho ho'
       rcases ho with rfl | rfl | rfl <;> rcases ho' with rfl | rfl <;> simp [Compatible, mockOf, SameMock, CallStub])

example : RaceFree (start unmockedAll used three) := C87_compatible_threads_never_race_partial used_settled three_fits three_separate

/-- Every thread then ends as if it were alone: it never meets undefined behaviour; its results are those of mocks without memory locations, starting with the
mocks as they were; and each method the other threads leave alone is afterwards as this thread leaves it. -/
theorem C87_as_if_alone_partial {orig : Nat → Nat → Entry} {μ : Mem V} (hs : Settled orig μ) {tss : List (List (Op V))}
    (hfit : ∀ os, os ∈ tss → ∀ o, o ∈ os → Fits μ o) (hsep : Separate (Known μ) tss) {c : Config V (List Result)} (hc : Steps (start orig μ tss) c)
    (i : Nat) (os : List (Op V)) (hi : tss[i]? = some os) : c.ts[i]? ≠ some .ub ∧
      ∀ rs, c.ts[i]? = some (.ret rs) → rs = (answers orig (fun m => μ (.vecs m)) (view μ) os).1 ∧
        ∀ m k, (∀ (j : Nat) os', j ≠ i → tss[j]? = some os' → ∀ o, o ∈ os' → Leaves m k o) →
          view c.mem m k = (answers orig (fun m => μ (.vecs m)) (view μ) os).2 m k :=
  separate_answers hs hfit hsep hc i os hi

/-- The second of the three threads above, at the end: a spying call, a call of a stubbing without actions, which is unexpected. -/
example {c : Config Nat (List Result)} (hc : Steps (start unmockedAll used three) c) (rs : List Result) (h : c.ts[1]? = some (.ret rs)) :
    rs = [.served 0, .done, .unexpected] :=
  ((C87_as_if_alone_partial used_settled three_fits three_separate hc 1 _ rfl).2 rs h).1

/-- And the third: the verification that there was no call holds. -/
example {c : Config Nat (List Result)} (hc : Steps (start unmockedAll used three) c) (rs : List Result) (h : c.ts[2]? = some (.ret rs)) :
    rs = [.done, .held, .done] :=
  ((C87_as_if_alone_partial used_settled three_fits three_separate hc 2 _ rfl).2 rs h).1

/-- One thread alone gets the answers of mocks without memory locations, and leaves the mocks accordingly. -/
theorem C87_alone_answers {orig : Nat → Nat → Entry} {μ : Mem V} (hs : Settled orig μ) {os : List (Op V)} (hfit : ∀ o, o ∈ os → Fits μ o) :
    (∃ tr rs μ', Alone (thread orig os) μ tr (.ret rs) μ') ∧
    ∀ tr rs μ', Alone (thread orig os) μ tr (.ret rs) μ' → (rs, view μ') = answers orig (fun m => μ (.vecs m)) (view μ) os := by
  obtain ⟨tr, rs, μ', h, _⟩ := (thread_may hs os hfit).ends
  exact ⟨⟨tr, rs, μ', h⟩, fun _ _ _ hal => thread_answers hs hfit hal⟩

private def one : List (Op Nat) :=
  [.stub 1 1 0 (fun n => n < 9) [⟨some 1, .gives⟩, ⟨some 2, .sets (· + 1)⟩], .stub 1 1 0 (fun n => n == 5) [⟨none, .gives⟩], .call 1 1 5, .call 1 1 6,
   .call 1 1 7, .verify 1 1 0 (fun n => n == 8) (· == 1), .noOther 1, .verify 1 1 0 (fun _ => true) (· == 2), .call 1 0 0, .clear 1, .noOther 1, .reset 1]

example {tr : List Access} {rs : List Result} {μ' : Mem Nat} (hal : Alone (thread unmockedAll one) new tr (.ret rs) μ') :
    rs = [.done, .done, .served 1, .served 0, .served 0, .held, .failed, .failed, .unexpected, .done, .held, .done] := by
  have h := (C87_alone_answers new_settled (os := one) (by
    intro o ho f hf
    simp only [one, List.mem_cons, List.not_mem_nil, or_false] at ho
    rcases ho with rfl | rfl | rfl | rfl | rfl | rfl | rfl | rfl | rfl | rfl | rfl | rfl <;> cases hf <;> simp [new, fresh])).2 tr rs μ' hal
  exact congrArg Prod.fst h

/-- Threads that use different mocks never race, whatever they do. -/
theorem C87_different_mocks_never_race {orig : Nat → Nat → Entry} {μ : Mem V} (hs : Settled orig μ) {tss : List (List (Op V))}
    (hfit : ∀ os, os ∈ tss → ∀ o, o ∈ os → Fits μ o)
    (hdiff : ∀ (i j : Nat) os os', i ≠ j → tss[i]? = some os → tss[j]? = some os' → ∀ o, o ∈ os → ∀ o', o' ∈ os' → mockOf o ≠ mockOf o') :
    RaceFree (start orig μ tss) :=
  C87_compatible_threads_never_race_partial hs hfit fun i j os os' hij hi hj o ho o' ho' => .inl (hdiff i j os os' hij hi hj o ho o' ho')

example : RaceFree (start unmockedAll new [[.stub 0 1 0 (fun n => n == 2) [], .call 0 1 2, .verify 0 1 0 (fun _ => true) (· == 1)],
    [.stub 1 1 0 (fun n => n == 2) [], .reset 1, .noOther 1]]) := by
  refine C87_different_mocks_never_race new_settled ?_ ?_
  · intro os hos o ho f hf
    simp only [List.mem_cons, List.not_mem_nil, or_false] at hos
    rcases hos with rfl | rfl <;> simp only [List.mem_cons, List.not_mem_nil, or_false] at ho <;>
      rcases ho with rfl | rfl | rfl <;> cases hf <;> simp [new, fresh]
  · intro i j os os' hij hi hj o ho o' ho'
    match i, j with
    | 0, 0 => exact absurd rfl hij
    | 1, 1 => exact absurd rfl hij
    | i + 2, _ => simp at hi
    | 0, j + 2 => simp at hj
    | 1, j + 2 => simp at hj
    | 0, 1 =>
      cases hi
      cases hj
      simp only [List.mem_cons, List.not_mem_nil, or_false] at ho ho'
      rcases ho with rfl | rfl | rfl <;> rcases ho' with rfl | rfl | rfl <;> simp [mockOf]
    | 1, 0 =>
      cases hi
      cases hj
      simp only [List.mem_cons, List.not_mem_nil, or_false] at ho ho'
      rcases ho with rfl | rfl | rfl <;> rcases ho' with rfl | rfl | rfl <;> simp [mockOf]

/-- Two verifications of different methods of a mock that have been named before and that hold do not race. -/
theorem C87_holding_verifications_do_not_race {orig : Nat → Nat → Entry} {μ : Mem V} (hs : Settled orig μ) {m f g : Nat} (hfg : f ≠ g)
    (hf : Known μ m f) (hg : Known μ m g) {p p' : V → Bool} {e e' : Nat → Bool} (hp : Holds μ m f p e) (hp' : Holds μ m g p' e') (txt txt' : Nat) :
    RaceFree (start orig μ [[.verify m f txt p e], [.verify m g txt' p' e']]) :=
  raceFree_of_apart (verifications_apart hs hfg hf hg hp hp' txt txt')

example : RaceFree (start unmockedAll used [[.verify 0 0 1 (fun n => n == 0) (· == 1)], [.verify 0 2 1 (fun _ => true) (· == 0)]]) :=
  C87_holding_verifications_do_not_race used_settled (by decide) ((used_known 0 0).2 (by decide)) ((used_known 0 2).2 (by decide)) (by simp [Holds, found, used, new, fresh, List.range, List.range.loop])
    (by simp [Holds, found, used, new, fresh]) 1 1

/-- Whether threads can race is decided by what each of them does when it runs alone: they race in no interleaving exactly if no two of them make conflicting
accesses then.  (Of any programs of single accesses, for any operations.) -/
theorem C87_race_free_iff (orig : Nat → Nat → Entry) (μ : Mem V) (tss : List (List (Op V))) : RaceFree (start orig μ tss) ↔
    ∀ (i j : Nat) os os', i ≠ j → tss[i]? = some os → tss[j]? = some os' →
      ∀ a b, Makes (thread orig os) μ a → Makes (thread orig os') μ b → ¬ Conflict a b := by
  refine ⟨fun h i j os os' hij hi hj a b ha hb hab => ?_, fun h => raceFree_of_apart fun i j p q hij hi hj a b ha hb => ?_⟩
  · obtain ⟨c', hc', hr⟩ := canRace_of_makes ha hb hab (tss.map (thread orig)) i j hij (by rw [List.getElem?_map, hi]; rfl)
      (by rw [List.getElem?_map, hj]; rfl)
    exact h c' hc' i j hij hr
  · rw [List.getElem?_map] at hi hj
    obtain ⟨os, hos, rfl⟩ := Option.map_eq_some_iff.1 hi
    obtain ⟨os', hos', rfl⟩ := Option.map_eq_some_iff.1 hj
    exact h i j os os' hij hos hos' a b ha hb

/-- An unexpected call and a verification naming the method it is about for the first time: the call of method `1`, unknown, reads its entry of the table, which
the verification writes. -/
example : ¬ RaceFree (start unmockedAll used [[.call 0 1 5], [.verify 0 1 7 (fun _ => true) (· == 0)]]) := by
  intro h
  refine (C87_race_free_iff _ _ _).1 h 0 1 _ _ (by decide) rfl rfl ⟨.entry 0 1, false⟩ ⟨.entry 0 1, true⟩ ?_ ?_ ⟨rfl, .inr rfl⟩
  · exact ⟨_, _, _, .rd _ _ _ _ _ _ (.nil _ _), List.mem_cons_self ..⟩
  · exact ⟨_, _, _, .rd _ _ _ _ _ _ (.rd _ _ _ _ _ _ (.inc _ 0 _ _ _ _ (.wr _ _ _ _ _ _ _ (.wr _ _ _ _ _ _ _ (.wr _ _ _ _ _ _ _
      (.wr _ _ _ _ _ _ _ (.nil _ _))))))), by simp⟩

/-! ## Operations that race -/

/-- Operations that clash race if two threads start with them, whatever the threads do afterwards and whatever other threads do: recorded calls of the same
method; a recorded call and any verification or clearing of its mock; a call and the stubbing of the same method, or the first stubbing of a method that comes
earlier in the class; two stubbings or verifications that name the same method; `Reset` and anything; clearing and verifying. -/
theorem C87_clashing_operations_race {orig : Nat → Nat → Entry} {μ : Mem V} (hs : Settled orig μ) {o o' : Op V} (hfit : Fits μ o) (hfit' : Fits μ o')
    (h : Clashes μ o o') {tss : List (List (Op V))} {i j : Nat} (hij : i ≠ j) {os os' : List (Op V)} (hi : tss[i]? = some (o :: os))
    (hj : tss[j]? = some (o' :: os')) : CanRace (start orig μ tss) i j ∧ ¬ RaceFree (start orig μ tss) := by
  obtain ⟨a, b, ha, hb, hab⟩ := clashes_race (orig := orig) hs hfit hfit' h
  have hr := canRace_of_surely ha hb hab tss i j hij os os' hi hj
  refine ⟨hr, fun hfree => ?_⟩
  obtain ⟨c', hc', hr'⟩ := hr
  exact hfree c' hc' i j hij hr'

/-- Verifying method `2` while another thread calls method `0` of the same mock. -/
example : CanRace (start unmockedAll used [[.call 0 0 5], [.verify 0 2 1 (fun _ => true) (· == 0)]]) 0 1 :=
  (C87_clashing_operations_race used_settled (fun f hf => by cases hf; simp [used, new, fresh])
    (fun f hf => by cases hf; simp [used, new, fresh])
    (.callVerify ⟨(used_known 0 0).2 (by decide), _, List.mem_cons_self .., rfl⟩ 2 1 _ _) (by decide) rfl rfl).1

/-- Stubbing method `1` for the first time while another thread calls method `2`. -/
example : CanRace (start unmockedAll used [[.call 0 2 5], [.stub 0 1 1 (fun _ => true) []]]) 0 1 :=
  (C87_clashing_operations_race used_settled (fun f hf => by cases hf; simp [used, new, fresh])
    (fun f hf => by cases hf; simp [used, new, fresh])
    (.callFirst ((used_known 0 2).2 (by decide)) (by simp [used_known]) (by decide) 5 1 _ _) (by decide) rfl rfl).1

/-- So threads that name different methods of one mock may race: the claim that different methods do not disturb each other is false. -/
theorem C87_different_methods_can_race : ¬ ∀ (orig : Nat → Nat → Entry) (μ : Mem Nat) (m f g : Nat) (o o' : Op Nat), Settled orig μ → Fits μ o → Fits μ o' →
    mockOf o = m → mockOf o' = m → methodOf o = some f → methodOf o' = some g → f ≠ g → RaceFree (start orig μ [[o], [o']]) := by
  intro h
  have hfree := h unmockedAll used 0 2 1 (.call 0 2 5) (.stub 0 1 1 (fun _ => true) []) used_settled
    (fun f hf => by cases hf; simp [used, new, fresh]) (fun f hf => by cases hf; simp [used, new, fresh]) rfl rfl rfl rfl (by decide)
  exact (C87_clashing_operations_race used_settled (fun f hf => by cases hf; simp [used, new, fresh])
    (fun f hf => by cases hf; simp [used, new, fresh])
    (.callFirst ((used_known 0 2).2 (by decide)) (by simp [used_known]) (by decide) 5 1 _ _) (i := 0) (j := 1) (by decide) rfl rfl).2 hfree

/-! ## The memory these are about -/

/-- `Settled` is what every use of the library by one thread gives: new mocks are settled, and any sequence of operations leaves settled memory, without
undefined behaviour and without changing the sizes of the tables. -/
theorem C87_settled {orig : Nat → Nat → Entry} (horig : ∀ m k, orig m k ≠ .proxy) (size : Nat → Nat) (a : V) :
    Settled orig (fresh orig size a) ∧
    ∀ (μ : Mem V), Settled orig μ → ∀ (os : List (Op V)), (∀ o, o ∈ os → Fits μ o) → ∀ tr p' μ', Alone (thread orig os) μ tr p' μ' →
      p' ≠ .ub ∧ ∀ rs, p' = .ret rs → Settled orig μ' ∧ ∀ m, μ' (.vecs m) = μ (.vecs m) :=
  ⟨fresh_settled horig size a, fun _ hs os hfit _ _ _ hal => ⟨(settled_alone hs os hfit hal).1, fun rs he =>
    ⟨(settled_alone hs os hfit hal).2 rs he, fun m => by subst he; exact thread_sizes hs hfit hal m⟩⟩⟩

example : Settled unmockedAll (fresh unmockedAll (fun _ => 3) 0) := (C87_settled (fun _ _ => by simp [unmockedAll]) (fun _ => 3) 0).1

end FakeIt.Races
