import Verif.Spec.Copies
/-!
# Lemmas for C76
-/
namespace FakeIt.Copies
open Spec

theorem mock_not_oof {s : State} {m : Nat} : s.mock m ≠ .oof := by
  unfold State.mock
  cases s.mocks[m]? with
  | none => simp
  | some k => simp only [R.ofOption_some, R.bind_done]; split <;> simp

theorem mock_cases (s : State) (m : Nat) : s.mock m = .ub ∨ ∃ k, s.mock m = .done k ∧ s.mocks[m]? = some k ∧ k.live = true := by
  unfold State.mock
  cases s.mocks[m]? with
  | none => simp
  | some k =>
    simp only [R.ofOption_some, R.bind_done]
    by_cases h : k.live = true
    · right; exact ⟨k, by simp [h], rfl, h⟩
    · left; simp [h]

theorem setMethod_not_oof {s : State} {slot : Nat} {c : Code} : s.setMethod slot c ≠ .oof := by
  unfold State.setMethod
  cases s.clone <;> (repeat' split) <;> simp <;> split <;> simp

theorem mention_not_oof {s : State} {m slot id : Nat} : s.mention m slot id ≠ .oof := by
  unfold State.mention
  rcases mock_cases s m with h | ⟨k, h, -, -⟩
  · simp [h]
  · rw [h, R.bind_done]
    cases k.slots[slot]? with
    | none => simp
    | some b =>
      rw [R.ofOption_some, R.bind_done]
      cases b with
      | some p => simp
      | none =>
        dsimp only
        cases hs : s.setMethod slot (.proxy id) with
        | done s => simp
        | ub => simp
        | oof => exact absurd hs setMethod_not_oof

theorem bind_not_oof {α β : Type} {x : R α} {f : α → R β} (hx : x ≠ .oof) (hf : ∀ a, f a ≠ .oof) : (x >>= f) ≠ .oof := by
  cases x with
  | done a => exact hf a
  | ub => simp
  | oof => exact absurd rfl hx

theorem ofOption_not_oof {α : Type} {o : Option α} : R.ofOption o ≠ .oof := by cases o <;> simp

theorem call_not_oof {s : State} {slot : Nat} : s.call slot ≠ .oof := by
  unfold State.call
  split
  · refine bind_not_oof ?_ fun es => bind_not_oof ofOption_not_oof fun c => ?_
    · unfold State.table
      split
      · exact ofOption_not_oof
      · simp
    · cases c with
      | native => simp
      | unmocked =>
        dsimp only
        split
        · exact bind_not_oof mock_not_oof fun _ => by simp
        · simp
      | proxy id =>
        dsimp only
        split
        · refine bind_not_oof mock_not_oof fun k => bind_not_oof ofOption_not_oof fun b => bind_not_oof ofOption_not_oof fun body => ?_
          split <;> simp
        · simp
  · simp

theorem step_not_oof {s : State} {op : Op} : s.step op ≠ .oof := by
  cases op with
  | copy m => exact bind_not_oof (bind_not_oof mock_not_oof fun _ => by simp) fun _ => by simp
  | stub m slot id v => exact bind_not_oof mention_not_oof fun p => bind_not_oof ofOption_not_oof fun _ => by simp
  | count m slot id => exact bind_not_oof mention_not_oof fun p => bind_not_oof ofOption_not_oof fun _ => by simp
  | call slot => exact call_not_oof
  | reset m => exact bind_not_oof (bind_not_oof mock_not_oof fun _ => bind_not_oof ofOption_not_oof fun _ => by simp) fun _ => by simp
  | destroy m =>
    refine bind_not_oof (bind_not_oof mock_not_oof fun _ => ?_) fun _ => by simp
    split
    · exact bind_not_oof ofOption_not_oof fun _ => by simp
    · simp

theorem run_not_oof : ∀ {ops : List Op} {s : State}, s.run ops ≠ .oof
  | [], _ => by simp [State.run]
  | _ :: _, _ => bind_not_oof step_not_oof fun _ => bind_not_oof run_not_oof fun _ => by simp

theorem ub_of_not_done {s : State} {ops : List Op} (h : ∀ p, s.run ops ≠ .done p) : s.run ops = .ub := by
  cases h' : s.run ops with
  | done p => exact absurd h' (h p)
  | ub => rfl
  | oof => exact absurd h' run_not_oof

theorem run_append : ∀ {xs ys : List Op} {s : State} {p : State × List Ans}, s.run (xs ++ ys) = .done p →
    ∃ s1 as1 as2, s.run xs = .done (s1, as1) ∧ s1.run ys = .done (p.1, as2) ∧ p.2 = as1 ++ as2
  | [], ys, s, p, h => ⟨s, [], p.2, rfl, h, rfl⟩
  | x :: xs, ys, s, p, h => by
    rw [List.cons_append, State.run, R.bind_eq_done] at h
    obtain ⟨⟨s1, a⟩, h1, h2⟩ := h
    simp only [R.bind_eq_done, R.done.injEq] at h2
    obtain ⟨⟨s2, as⟩, h2, rfl⟩ := h2
    obtain ⟨s3, as1, as2, h3, h4, h5⟩ := run_append h2
    refine ⟨s3, a :: as1, as2, ?_, h4, ?_⟩
    · simp [State.run, h1, h3]
    · simp at h5; simp [h5]

theorem run_cons {x : Op} {ys : List Op} {s : State} {p : State × List Ans} (h : s.run (x :: ys) = .done p) :
    ∃ s1 a as, s.step x = .done (s1, a) ∧ s1.run ys = .done (p.1, as) ∧ p.2 = a :: as := by
  rw [State.run, R.bind_eq_done] at h
  obtain ⟨⟨s1, a⟩, h1, h2⟩ := h
  simp only [R.bind_eq_done, R.done.injEq] at h2
  obtain ⟨⟨s2, as⟩, h2, rfl⟩ := h2
  exact ⟨s1, a, as, h1, h2, rfl⟩

/-- The old table of a real object holds implementations, the one of a fake object does not. -/
structure Plain (s : State) : Prop where
  native : s.spied = true → ∀ c ∈ s.original, c = .native
  fake : s.spied = false → ∀ c ∈ s.original, c ≠ .native

theorem mention_plain {s : State} {m slot id : Nat} {p : State × Nat} (hp : Plain s) (h : s.mention m slot id = .done p) :
    Plain p.1 ∧ (s.clone = none → s.attached = false → p.1.clone = none ∧ p.1.attached = false) := by
  unfold State.mention at h
  rw [R.bind_eq_done] at h
  obtain ⟨k, -, h⟩ := h
  rw [R.bind_eq_done] at h
  obtain ⟨bd, -, h⟩ := h
  cases bd with
  | some q =>
    simp only [R.done.injEq] at h
    subst h
    exact ⟨hp, fun a b => ⟨a, b⟩⟩
  | none =>
    dsimp only at h
    rw [R.bind_eq_done] at h
    obtain ⟨s1, h1, h⟩ := h
    simp only [R.done.injEq] at h
    subst h
    unfold State.setMethod at h1
    split at h1
    · split at h1
      · rw [R.bind_eq_done] at h1
        obtain ⟨es, -, h1⟩ := h1
        split at h1
        · simp only [R.done.injEq] at h1
          subst h1
          exact ⟨⟨hp.native, hp.fake⟩, fun _ hb => by simp_all⟩
        · simp at h1
      · split at h1
        · simp at h1
        · split at h1
          · simp only [R.done.injEq] at h1
            subst h1
            refine ⟨⟨fun hs => by simp_all, fun hs c hc => ?_⟩, fun a b => ⟨a, b⟩⟩
            rcases List.mem_or_eq_of_mem_set hc with hc | rfl
            · exact hp.fake hs c hc
            · simp
          · simp at h1
    · simp at h1

theorem call_plain {s : State} {slot : Nat} {p : State × Ans} (h : s.call slot = .done p) : ∃ bs, p.1 = { s with bodies := bs } := by
  unfold State.call at h
  split at h
  · rw [R.bind_eq_done] at h
    obtain ⟨es, -, h⟩ := h
    rw [R.bind_eq_done] at h
    obtain ⟨c, -, h⟩ := h
    cases c with
    | native => simp only [R.done.injEq] at h; subst h; exact ⟨s.bodies, rfl⟩
    | unmocked =>
      dsimp only at h
      split at h
      · rw [R.bind_eq_done] at h
        obtain ⟨_, -, h⟩ := h
        simp only [R.done.injEq] at h; subst h; exact ⟨s.bodies, rfl⟩
      · simp at h
    | proxy id =>
      dsimp only at h
      split at h
      · rw [R.bind_eq_done] at h
        obtain ⟨k, -, h⟩ := h
        rw [R.bind_eq_done] at h
        obtain ⟨b, -, h⟩ := h
        rw [R.bind_eq_done] at h
        obtain ⟨body, -, h⟩ := h
        split at h
        · simp only [R.done.injEq] at h; subst h; exact ⟨s.bodies, rfl⟩
        · simp only [R.done.injEq] at h; subst h; exact ⟨_, rfl⟩
      · simp at h
  · simp at h

theorem step_plain {s : State} {op : Op} {p : State × Ans} (hp : Plain s) (h : s.step op = .done p) :
    Plain p.1 ∧ (s.clone = none → s.attached = false → p.1.clone = none ∧ p.1.attached = false) := by
  cases op with
  | copy m =>
    unfold State.step State.copy at h
    rw [R.bind_eq_done] at h
    obtain ⟨s1, h1, h⟩ := h
    rw [R.bind_eq_done] at h1
    obtain ⟨k, -, h1⟩ := h1
    simp only [R.done.injEq] at h h1
    subst h1; subst h
    exact ⟨⟨hp.native, hp.fake⟩, fun a b => ⟨a, b⟩⟩
  | stub m slot id v =>
    unfold State.step at h
    rw [R.bind_eq_done] at h
    obtain ⟨q, h1, h⟩ := h
    have := mention_plain hp h1
    dsimp only at h
    rw [R.bind_eq_done] at h
    obtain ⟨body, -, h⟩ := h
    simp only [R.done.injEq] at h
    subst h
    exact ⟨⟨this.1.native, this.1.fake⟩, this.2⟩
  | count m slot id =>
    unfold State.step at h
    rw [R.bind_eq_done] at h
    obtain ⟨q, h1, h⟩ := h
    have := mention_plain hp h1
    dsimp only at h
    rw [R.bind_eq_done] at h
    obtain ⟨body, -, h⟩ := h
    simp only [R.done.injEq] at h
    subst h
    exact this
  | call slot =>
    obtain ⟨bs, h⟩ := call_plain h
    rw [h]
    exact ⟨⟨hp.native, hp.fake⟩, fun a b => ⟨a, b⟩⟩
  | reset m =>
    unfold State.step State.reset at h
    rw [R.bind_eq_done] at h
    obtain ⟨s1, h1, h⟩ := h
    rw [R.bind_eq_done] at h1
    obtain ⟨k, -, h1⟩ := h1
    rw [R.bind_eq_done] at h1
    obtain ⟨es, he, h1⟩ := h1
    simp only [R.done.injEq] at h h1
    subst h1; subst h
    refine ⟨⟨hp.native, hp.fake⟩, fun a _ => ?_⟩
    rw [a] at he
    simp at he
  | destroy m =>
    unfold State.step State.destroy at h
    rw [R.bind_eq_done] at h
    obtain ⟨s1, h1, h⟩ := h
    rw [R.bind_eq_done] at h1
    obtain ⟨k, -, h1⟩ := h1
    split at h1
    · rw [R.bind_eq_done] at h1
      obtain ⟨es, he, h1⟩ := h1
      simp only [R.done.injEq] at h h1
      subst h1; subst h
      exact ⟨⟨hp.native, hp.fake⟩, fun _ _ => ⟨rfl, rfl⟩⟩
    · simp at h1

theorem destroy_done {s : State} {m : Nat} {p : State × Ans} (h : s.step (.destroy m) = .done p) :
    s.clone ≠ none ∧ p.1.clone = none ∧ p.1.attached = false := by
  unfold State.step State.destroy at h
  rw [R.bind_eq_done] at h
  obtain ⟨s1, h1, h⟩ := h
  rw [R.bind_eq_done] at h1
  obtain ⟨k, -, h1⟩ := h1
  split at h1
  · rw [R.bind_eq_done] at h1
    obtain ⟨es, he, h1⟩ := h1
    simp only [R.done.injEq] at h h1
    subst h1; subst h
    refine ⟨fun hn => ?_, rfl, rfl⟩
    rw [hn] at he; simp at he
  · simp at h1

theorem start_plain (size : Nat) (spied : Bool) : Plain (start size spied) := by
  constructor
  · intro h c hc
    simp only [start] at h hc
    rw [h] at hc
    exact List.eq_of_mem_replicate hc
  · intro h c hc
    simp only [start] at h hc
    rw [h] at hc
    rw [List.eq_of_mem_replicate hc]
    simp

theorem run_plain : ∀ {ops : List Op} {s : State} {p : State × List Ans}, Plain s → s.run ops = .done p →
    Plain p.1 ∧ (s.clone = none → s.attached = false → p.1.clone = none ∧ p.1.attached = false)
  | [], s, p, hp, h => by
    simp only [State.run, R.done.injEq] at h
    subst h
    exact ⟨hp, fun a b => ⟨a, b⟩⟩
  | op :: ops, s, p, hp, h => by
    obtain ⟨s1, a, as, h1, h2, -⟩ := run_cons h
    have i1 := step_plain hp h1
    have i2 := run_plain i1.1 h2
    exact ⟨i2.1, fun a b => i2.2 (i1.2 a b).1 (i1.2 a b).2⟩

theorem spied_step {s : State} {op : Op} {p : State × Ans} (h : s.step op = .done p) : p.1.spied = s.spied := by
  cases op with
  | copy m =>
    unfold State.step State.copy at h
    simp only [R.bind_eq_done, R.done.injEq] at h
    obtain ⟨s1, ⟨k, -, rfl⟩, rfl⟩ := h
    rfl
  | stub m slot id v =>
    unfold State.step State.mention State.setMethod at h
    simp only [R.bind_eq_done, R.done.injEq] at h
    obtain ⟨q, ⟨k, -, bd, -, h1⟩, body, -, rfl⟩ := h
    cases bd with
    | some x => simp only [R.done.injEq] at h1; subst h1; rfl
    | none =>
      simp only [R.bind_eq_done, R.done.injEq] at h1
      obtain ⟨s1, h1, rfl⟩ := h1
      split at h1
      · split at h1
        · simp only [R.bind_eq_done] at h1
          obtain ⟨es, -, h1⟩ := h1
          split at h1
          · simp only [R.done.injEq] at h1; subst h1; rfl
          · simp at h1
        · split at h1
          · simp at h1
          · split at h1
            · simp only [R.done.injEq] at h1; subst h1; rfl
            · simp at h1
      · simp at h1
  | count m slot id =>
    unfold State.step State.mention State.setMethod at h
    simp only [R.bind_eq_done, R.done.injEq] at h
    obtain ⟨q, ⟨k, -, bd, -, h1⟩, body, -, rfl⟩ := h
    cases bd with
    | some x => simp only [R.done.injEq] at h1; subst h1; rfl
    | none =>
      simp only [R.bind_eq_done, R.done.injEq] at h1
      obtain ⟨s1, h1, rfl⟩ := h1
      split at h1
      · split at h1
        · simp only [R.bind_eq_done] at h1
          obtain ⟨es, -, h1⟩ := h1
          split at h1
          · simp only [R.done.injEq] at h1; subst h1; rfl
          · simp at h1
        · split at h1
          · simp at h1
          · split at h1
            · simp only [R.done.injEq] at h1; subst h1; rfl
            · simp at h1
      · simp at h1
  | call slot =>
    obtain ⟨bs, h⟩ := call_plain h
    rw [h]
  | reset m =>
    unfold State.step State.reset at h
    simp only [R.bind_eq_done, R.done.injEq] at h
    obtain ⟨s1, ⟨k, -, es, -, rfl⟩, rfl⟩ := h
    rfl
  | destroy m =>
    unfold State.step State.destroy at h
    simp only [R.bind_eq_done, R.done.injEq] at h
    obtain ⟨s1, ⟨k, -, h1⟩, rfl⟩ := h
    split at h1
    · simp only [R.bind_eq_done, R.done.injEq] at h1
      obtain ⟨es, -, rfl⟩ := h1
      rfl
    · simp at h1

theorem spied_run : ∀ {ops : List Op} {s : State} {p : State × List Ans}, s.run ops = .done p → p.1.spied = s.spied
  | [], s, p, h => by simp only [State.run, R.done.injEq] at h; subst h; rfl
  | op :: ops, s, p, h => by
    obtain ⟨s1, a, as, h1, h2, -⟩ := run_cons h
    have i1 := spied_step h1
    have i2 := spied_run h2
    exact i2.trans i1

/-- After the end of a copy calls reach what the object had before. -/
theorem call_detached {s : State} {slot : Nat} {p : State × Ans} (hp : Plain s) (ha : s.attached = false) (h : s.call slot = .done p) :
    s.spied = true ∧ p = (s, .native) := by
  unfold State.call State.table at h
  rw [ha] at h
  split at h
  · simp only [R.bind_eq_done, R.ofOption_eq_done, Bool.false_eq_true, if_false, R.done.injEq] at h
    obtain ⟨es, rfl, c, hc, h⟩ := h
    cases c with
    | native =>
      simp only [R.done.injEq] at h
      refine ⟨?_, h.symm⟩
      cases hs : s.spied with
      | true => rfl
      | false => exact absurd rfl (hp.fake hs _ (List.mem_of_getElem? hc))
    | unmocked => simp at h
    | proxy id => simp at h
  · simp at h

theorem find_some {id b : Nat} : ∀ {l : List (Option (Nat × Nat))} {i : Nat}, l[i]? = some (some (id, b)) → (∀ j b' : Nat, l[j]? = some (some (id, b')) → b' = b) →
    (l.find? (isId id)).join.map Prod.snd = some b
  | [], _, h, _ => by simp at h
  | none :: l, 0, h, _ => by simp at h
  | none :: l, i + 1, h, hu => by
    simp only [List.find?_cons, isId]
    exact find_some (by simpa using h) fun j b' hj => hu (j + 1) b' (by simpa using hj)
  | some (x, y) :: l, i, h, hu => by
    simp only [List.find?_cons, isId]
    by_cases hx : x = id
    · subst hx
      simp only [BEq.rfl]
      have := hu 0 y rfl
      simp [this]
    · rw [beq_false_of_ne hx]
      cases i with
      | zero =>
        simp at h
        exact absurd h.1 hx
      | succ i => exact find_some (by simpa using h) fun j b' hj => hu (j + 1) b' (by simpa using hj)

theorem find_none {id : Nat} {k : Mck} (h : ∀ (j b : Nat), k.slots[j]? ≠ some (some (id, b))) : k.find id = none := by
  unfold Mck.find
  have : k.slots.find? (isId id) = none := by
    rw [List.find?_eq_none]
    intro x hx
    cases x with
    | none => simp [isId]
    | some p =>
      intro hp
      obtain ⟨j, hj, hp'⟩ := List.getElem_of_mem hx
      refine h j p.2 ?_
      rw [List.getElem?_eq_getElem hj, hp']
      simp only [isId, beq_iff_eq] at hp
      rw [← hp]
  rw [this]
  rfl

/-- What the object had before the mock. -/
def dflt (spied : Bool) : Code := if spied then .native else .unmocked

/-- The copies and the one mock they stand for. -/
structure Rel (w : World) (s : State) (k0 : Mck) (es : List Code) : Prop where
  over : w.over = false
  clone : s.clone = some es
  elen : es.length = w.size
  orig : s.original = List.replicate w.size (dflt w.spied)
  spied : s.spied = w.spied
  attached : s.attached = true
  object : s.object = true
  first : s.mocks[0]? = some k0
  len : s.mocks.length = w.knows.length
  mocks : ∀ (m : Nat) (k : Mck), s.mocks[m]? = some k → k.live = true ∧ k.slots.length = w.size ∧ ∃ kn : Nat → Bool, w.knows[m]? = some kn ∧
    ∀ i : Nat, i < w.size → (kn i = true ↔ ∃ p, k.slots[i]? = some (some p)) ∧ ∀ p, k.slots[i]? = some (some p) → k0.slots[i]? = some (some p)
  unbound : ∀ i : Nat, k0.slots[i]? = some none → w.methods i = none ∧ es[i]? = some (dflt w.spied)
  bound : ∀ i id b : Nat, k0.slots[i]? = some (some (id, b)) → es[i]? = some (.proxy id) ∧ id ∈ w.used ∧
    ∃ body, s.bodies[b]? = some body ∧ w.methods i = some (body.answers, body.calls)
  inj : ∀ i j id b id' b' : Nat, k0.slots[i]? = some (some (id, b)) → k0.slots[j]? = some (some (id', b')) → (id = id' ∨ b = b') → i = j

/-- After the end of the only one. -/
structure Over (w : World) (s : State) : Prop where
  over : w.over = true
  knows : w.knows = []
  orig : s.original = List.replicate w.size (dflt w.spied)
  spied : s.spied = w.spied
  attached : s.attached = false
  object : s.object = s.spied

theorem rel_start (size : Nat) (spied : Bool) : ∃ k0 es, Rel (World.start size spied) (start size spied) k0 es := by
  refine ⟨⟨List.replicate size none, true⟩, List.replicate size (dflt spied), rfl, rfl, by simp [World.start], rfl, rfl, rfl, rfl, rfl, rfl, ?_, ?_, ?_, ?_⟩
  · intro m k h
    have hm : m = 0 := by
      have := (List.getElem?_eq_some_iff.1 h).1
      simp [start] at this
      exact this
    subst hm
    simp only [start, List.getElem?_cons_zero, Option.some.injEq] at h
    subst h
    refine ⟨rfl, by simp [World.start], _, rfl, fun i hi => ⟨?_, ?_⟩⟩ <;> simp [List.getElem?_replicate]
  · intro i h
    simp only [List.getElem?_replicate] at h ⊢
    split at h
    · exact ⟨rfl, by simp [World.start, *]⟩
    · simp at h
  · intro i id b h
    simp only [List.getElem?_replicate] at h
    split at h <;> simp at h
  · intro i j id b id' b' h
    simp only [List.getElem?_replicate] at h
    split at h <;> simp at h

theorem rel_mock {w : World} {s : State} {k0 : Mck} {es : List Code} (r : Rel w s k0 es) {m : Nat} {kn : Nat → Bool} (h : w.knows[m]? = some kn) :
    ∃ k, s.mocks[m]? = some k ∧ s.mock m = .done k := by
  have hm : m < s.mocks.length := by rw [r.len]; exact (List.getElem?_eq_some_iff.1 h).1
  have hk := List.getElem?_eq_getElem hm
  refine ⟨_, hk, ?_⟩
  unfold State.mock
  rw [hk, R.ofOption_some, R.bind_done, (r.mocks _ _ hk).1]
  rfl

theorem rel_mention {w w' : World} {s : State} {k0 : Mck} {es : List Code} {m slot id : Nat} (r : Rel w s k0 es) (h : w.mention m slot id = some w') :
    ∃ s' b id' k0' es', s.mention m slot id = .done (s', b) ∧ Rel w' s' k0' es' ∧ k0'.slots[slot]? = some (some (id', b)) := by
  unfold World.mention at h
  cases hkn : w.knows[m]? with
  | none => simp [hkn] at h
  | some kn =>
    simp only [hkn] at h
    split at h
    · rename_i hslot
      obtain ⟨k, hk, hmk⟩ := rel_mock r hkn
      obtain ⟨hlive, hlen, kn', hkn', hks⟩ := r.mocks m k hk
      obtain rfl : kn' = kn := by rw [hkn] at hkn'; simpa using hkn'.symm
      split at h
      · rename_i hknown
        simp only [Option.some.injEq] at h
        subst h
        obtain ⟨⟨id', b⟩, hp⟩ := (hks slot hslot).1.1 hknown
        refine ⟨s, b, id', k0, es, ?_, r, (hks slot hslot).2 _ hp⟩
        simp [State.mention, hmk, hp]
      · rename_i hunk
        split at h
        · rename_i hnew
          obtain ⟨rfl, hid⟩ := hnew
          simp only [Option.some.injEq] at h
          subst h
          obtain rfl : k0 = k := by have := r.first; rw [this] at hk; simpa using hk
          have hnone : k0.slots[slot]? = some none := by
            have hl : slot < k0.slots.length := by rw [hlen]; exact hslot
            rw [List.getElem?_eq_getElem hl]
            cases hv : k0.slots[slot] with
            | none => rfl
            | some p =>
              exact absurd ((hks slot hslot).1.2 ⟨p, by rw [List.getElem?_eq_getElem hl, hv]⟩) hunk
          have hes : slot < es.length := by rw [r.elen]; exact hslot
          have hsl : slot < k0.slots.length := by rw [hlen]; exact hslot
          have hm0 : 0 < s.mocks.length := (List.getElem?_eq_some_iff.1 hk).1
          have get : ∀ i : Nat, (k0.slots.set slot (some (id, s.bodies.length)))[i]? = if slot = i then some (some (id, s.bodies.length)) else k0.slots[i]? := by
            intro i
            rw [List.getElem?_set]
            split
            · rename_i h; subst h; simp
            · rfl
          have bnd : ∀ i idx b : Nat, k0.slots[i]? = some (some (idx, b)) → b < s.bodies.length := by
            intro i idx b hi
            obtain ⟨-, -, body, hb, -⟩ := r.bound i idx b hi
            exact (List.getElem?_eq_some_iff.1 hb).1
          refine ⟨{ s with clone := some (es.set slot (.proxy id)), bodies := s.bodies ++ [⟨[], 0⟩], mocks := s.mocks.set 0 { k0 with slots := k0.slots.set slot (some (id, s.bodies.length)) } },
              s.bodies.length, id, { k0 with slots := k0.slots.set slot (some (id, s.bodies.length)) }, es.set slot (.proxy id), ?_, ?_, ?_⟩
          · rw [State.mention, hmk, R.bind_done, hnone, R.ofOption_some, R.bind_done, State.setMethod]
            simp only [r.object, r.attached, if_true, r.clone, R.ofOption_some, R.bind_done, hes]
          · refine ⟨r.over, rfl, by simp [r.elen], r.orig, r.spied, r.attached, r.object, ?_, ?_, ?_, ?_, ?_, ?_⟩
            · simp [hm0]
            · simp [r.len]
            · intro m k hmk'
              simp only [List.getElem?_set] at hmk'
              by_cases hm : 0 = m
              · subst hm
                simp only [if_true, hm0, Option.some.injEq] at hmk'
                subst hmk'
                refine ⟨hlive, by simpa using hlen, upd kn' slot true, ?_, fun i hi => ⟨?_, ?_⟩⟩
                · simp [← r.len, hm0]
                · simp only [get, upd]
                  by_cases hi' : i = slot
                  · subst hi'; simp
                  · simp only [hi', if_false, if_neg (fun h : slot = i => hi' h.symm)]
                    exact (hks i hi).1
                · intro p hp; exact hp
              · simp only [hm, if_false] at hmk'
                obtain ⟨h1, h2, kn2, h3, h4⟩ := r.mocks m k hmk'
                refine ⟨h1, h2, kn2, ?_, fun i hi => ⟨(h4 i hi).1, fun p hp => ?_⟩⟩
                · simp [hm, h3]
                · have := (h4 i hi).2 p hp
                  rw [get]
                  by_cases hi' : slot = i
                  · subst hi'; rw [hnone] at this; simp at this
                  · simp only [hi', if_false]; exact this
            · intro i hi
              simp only [get] at hi
              by_cases hi' : slot = i
              · simp [hi'] at hi
              · simp only [hi', if_false] at hi
                obtain ⟨h1, h2⟩ := r.unbound i hi
                refine ⟨?_, ?_⟩
                · simp only [upd]
                  rw [if_neg (fun h => hi' (Eq.symm h))]
                  exact h1
                · simp only [List.getElem?_set, hi', if_false]
                  exact h2
            · intro i idx b hi
              simp only [get] at hi
              by_cases hi' : slot = i
              · subst hi'
                simp only [if_true, Option.some.injEq, Prod.mk.injEq] at hi
                obtain ⟨rfl, rfl⟩ := hi
                refine ⟨by simp [hes], by simp, ⟨[], 0⟩, by simp, by simp [upd]⟩
              · simp only [hi', if_false] at hi
                obtain ⟨h1, h2, body, h3, h4⟩ := r.bound i idx b hi
                refine ⟨by simp only [List.getElem?_set, hi', if_false]; exact h1, List.mem_cons_of_mem _ h2, body, ?_, ?_⟩
                · rw [List.getElem?_append_left (bnd _ _ _ hi)]; exact h3
                · simp only [upd]
                  rw [if_neg (fun h => hi' (Eq.symm h))]
                  exact h4
            · intro i j i1 b1 i2 b2 h1 h2 h12
              simp only [get] at h1 h2
              have old : ∀ i idx b : Nat, k0.slots[i]? = some (some (idx, b)) → idx ≠ id ∧ b ≠ s.bodies.length := by
                intro i idx b hi
                refine ⟨fun hx => ?_, fun hx => ?_⟩
                · subst hx; exact hid (r.bound _ _ _ hi).2.1
                · have := bnd _ _ _ hi; omega
              by_cases hi : slot = i <;> by_cases hj : slot = j
              · rw [← hi, ← hj]
              · simp only [hi, if_true, Option.some.injEq, Prod.mk.injEq] at h1 h2
                obtain ⟨rfl, rfl⟩ := h1
                rw [← hi] at h2
                simp only [hj, if_false] at h2
                have := old _ _ _ h2
                rcases h12 with h12 | h12
                · exact absurd h12.symm this.1
                · exact absurd h12.symm this.2
              · simp only [hj, if_true, Option.some.injEq, Prod.mk.injEq] at h1 h2
                obtain ⟨rfl, rfl⟩ := h2
                rw [← hj] at h1
                simp only [hi, if_false] at h1
                have := old _ _ _ h1
                rcases h12 with h12 | h12
                · exact absurd h12 this.1
                · exact absurd h12 this.2
              · simp only [hi, hj, if_false] at h1 h2
                exact r.inj _ _ _ _ _ _ h1 h2 h12
          · simp [hsl]
        · simp at h
    · simp at h

theorem foreign_method {w : World} {s s1 s2 : State} {k0 : Mck} {es : List Code} {m slot id v : Nat} {kn : Nat → Bool} {a1 a2 : Ans} (r : Rel w s k0 es) (hm : m ≠ 0)
    (hk : w.knows[m]? = some kn) (hs : slot < w.size) (hn : kn slot = false) (hid : id ∉ w.used) (h1 : s.step (.stub m slot id v) = .done (s1, a1))
    (h2 : s1.step (.call slot) = .done (s2, a2)) : False := by
  obtain ⟨k, hk', hmk⟩ := rel_mock r hk
  obtain ⟨hlive, hlen, kn', hkn', hks⟩ := r.mocks m k hk'
  obtain rfl : kn' = kn := by rw [hk] at hkn'; simpa using hkn'.symm
  have hl : slot < k.slots.length := by rw [hlen]; exact hs
  have hnone : k.slots[slot]? = some none := by
    rw [List.getElem?_eq_getElem hl]
    cases hv : k.slots[slot] with
    | none => rfl
    | some p =>
      have := (hks slot hs).1.2 ⟨p, by rw [List.getElem?_eq_getElem hl, hv]⟩
      rw [hn] at this
      simp at this
  have hes : slot < es.length := by rw [r.elen]; exact hs
  have hment : s.mention m slot id = .done ({ s with clone := some (es.set slot (.proxy id)), bodies := s.bodies ++ [⟨[], 0⟩], mocks := s.mocks.set m { k with slots := k.slots.set slot (some (id, s.bodies.length)) } },
      s.bodies.length) := by
    rw [State.mention, hmk, R.bind_done, hnone, R.ofOption_some, R.bind_done, State.setMethod]
    simp only [r.object, r.attached, if_true, r.clone, R.ofOption_some, R.bind_done, hes]
  simp only [State.step, hment, R.bind_done] at h1
  rw [R.bind_eq_done] at h1
  obtain ⟨body, -, h1⟩ := h1
  simp only [R.done.injEq, Prod.mk.injEq] at h1
  obtain ⟨rfl, -⟩ := h1
  have hl0 := (r.mocks 0 k0 r.first).1
  have hf : k0.find id = none := find_none fun j b hj => hid (r.bound j id b hj).2.1
  have hget : (s.mocks.set m { k with slots := k.slots.set slot (some (id, s.bodies.length)) })[0]? = some k0 := by
    rw [List.getElem?_set_ne hm]; exact r.first
  simp [State.step, State.call, State.table, r.object, r.attached, hes, State.mock, hget, hl0, hf] at h2

/-- A change of one body is a change of one method. -/
theorem rel_body {w : World} {s : State} {k0 : Mck} {es : List Code} {slot id b : Nat} {body : Body} (r : Rel w s k0 es) (hk : k0.slots[slot]? = some (some (id, b)))
    (hb : b < s.bodies.length) :
    Rel { w with methods := upd w.methods slot (some (body.answers, body.calls)) } { s with bodies := s.bodies.set b body } k0 es := by
  refine ⟨r.over, r.clone, r.elen, r.orig, r.spied, r.attached, r.object, r.first, r.len, r.mocks, ?_, ?_, r.inj⟩
  · intro i hi
    obtain ⟨h1, h2⟩ := r.unbound i hi
    refine ⟨?_, h2⟩
    simp only [upd]
    rw [if_neg]
    · exact h1
    · rintro rfl; rw [hk] at hi; simp at hi
  · intro i idx b' hi
    obtain ⟨h1, h2, bd, h3, h4⟩ := r.bound i idx b' hi
    refine ⟨h1, h2, ?_⟩
    by_cases hi' : i = slot
    · subst hi'
      rw [hk] at hi
      simp only [Option.some.injEq, Prod.mk.injEq] at hi
      obtain ⟨rfl, rfl⟩ := hi
      exact ⟨body, by simp [hb], by simp [upd]⟩
    · refine ⟨bd, ?_, by simp only [upd, hi', if_false]; exact h4⟩
      simp only
      rw [List.getElem?_set_ne, h3]
      rintro rfl
      exact hi' (r.inj _ _ _ _ _ _ hi hk (.inr rfl))

theorem rel_step {w w' : World} {s : State} {k0 : Mck} {es : List Code} {op : Op} {a : Ans} (r : Rel w s k0 es) (h : w.step op = some (w', a)) :
    ∃ s', s.step op = .done (s', a) ∧ ((∃ k0' es', Rel w' s' k0' es') ∨ Over w' s') := by
  cases op with
  | copy m =>
    simp only [World.step] at h
    cases hkn : w.knows[m]? with
    | none => simp [hkn] at h
    | some kn =>
      simp only [hkn, Option.some.injEq, Prod.mk.injEq] at h
      obtain ⟨rfl, rfl⟩ := h
      obtain ⟨k, hk, hmk⟩ := rel_mock r hkn
      refine ⟨{ s with mocks := s.mocks ++ [k] }, by simp [State.step, State.copy, hmk], .inl ⟨k0, es, ?_⟩⟩
      refine ⟨r.over, r.clone, r.elen, r.orig, r.spied, r.attached, r.object, ?_, by simp [r.len], ?_, r.unbound, r.bound, r.inj⟩
      · simp only
        rw [List.getElem?_append_left (List.getElem?_eq_some_iff.1 r.first).1]
        exact r.first
      · intro m' k' hm'
        simp only [List.getElem?_append] at hm' ⊢
        rw [← r.len]
        split at hm'
        · rename_i hlt
          rw [if_pos hlt]
          exact r.mocks m' k' hm'
        · rename_i hge
          rw [if_neg hge]
          have hx : m' - s.mocks.length = 0 := by
            have := (List.getElem?_eq_some_iff.1 hm').1
            simpa using this
          rw [hx] at hm' ⊢
          simp only [List.getElem?_cons_zero, Option.some.injEq] at hm'
          subst hm'
          obtain ⟨h1, h2, kn', h3, h4⟩ := r.mocks m k hk
          rw [hkn] at h3
          simp only [Option.some.injEq] at h3
          subst h3
          exact ⟨h1, h2, kn, rfl, h4⟩
  | stub m slot id v =>
    simp only [World.step] at h
    cases hm : w.mention m slot id with
    | none => simp [hm] at h
    | some w1 =>
      simp only [hm] at h
      obtain ⟨s1, b, id', k1, es1, h1, r1, hk⟩ := rel_mention r hm
      obtain ⟨-, -, body, hb, hmeth⟩ := r1.bound _ _ _ hk
      simp only [hmeth, Option.some.injEq, Prod.mk.injEq] at h
      obtain ⟨rfl, rfl⟩ := h
      refine ⟨{ s1 with bodies := s1.bodies.set b { body with answers := v :: body.answers } }, by simp [State.step, h1, hb], .inl ⟨k1, es1, ?_⟩⟩
      exact rel_body (body := { body with answers := v :: body.answers }) r1 hk (List.getElem?_eq_some_iff.1 hb).1
  | count m slot id =>
    simp only [World.step] at h
    cases hm : w.mention m slot id with
    | none => simp [hm] at h
    | some w1 =>
      simp only [hm] at h
      obtain ⟨s1, b, id', k1, es1, h1, r1, hk⟩ := rel_mention r hm
      obtain ⟨-, -, body, hb, hmeth⟩ := r1.bound _ _ _ hk
      simp only [hmeth, Option.some.injEq, Prod.mk.injEq] at h
      obtain ⟨rfl, rfl⟩ := h
      exact ⟨s1, by simp [State.step, h1, hb], .inl ⟨k1, es1, r1⟩⟩
  | call slot =>
    simp only [World.step, r.over] at h
    split at h
    · rename_i hslot
      obtain ⟨hlive, hlen, -⟩ := r.mocks 0 k0 r.first
      have hm0 : s.mock 0 = .done k0 := by simp [State.mock, r.first, hlive]
      have hl : slot < k0.slots.length := by rw [hlen]; exact hslot
      have hk := List.getElem?_eq_getElem hl
      cases hv : k0.slots[slot] with
      | none =>
        rw [hv] at hk
        obtain ⟨h1, h2⟩ := r.unbound _ hk
        simp only [h1, Option.some.injEq, Prod.mk.injEq, Bool.false_eq_true, if_false] at h
        obtain ⟨rfl, rfl⟩ := h
        refine ⟨s, ?_, .inl ⟨k0, es, r⟩⟩
        simp only [State.step, State.call, r.object, if_true, State.table, r.attached, r.clone, R.ofOption_some, R.bind_done, h2, dflt]
        cases w.spied <;> simp [hm0]
      | some p =>
        obtain ⟨idx, b⟩ := p
        rw [hv] at hk
        obtain ⟨h1, -, body, h3, h4⟩ := r.bound _ _ _ hk
        have hf : k0.find idx = some b := find_some hk fun j b' hj => by
          have := r.inj _ _ _ _ _ _ hk hj (.inl rfl)
          subst this
          rw [hk] at hj
          simp at hj
          exact hj.symm
        have hc : s.call slot = match body.answers with
            | [] => .done (s, .unexpected)
            | v :: _ => .done ({ s with bodies := s.bodies.set b { body with calls := body.calls + 1 } }, .value v) := by
          simp only [State.call, r.object, if_true, State.table, r.attached, r.clone, R.ofOption_some, R.bind_done, h1, hm0, hf, h3]
          cases body.answers <;> rfl
        simp only [State.step]
        rw [hc]
        simp only [h4, Bool.false_eq_true, if_false] at h
        cases ha : body.answers with
        | nil =>
          simp only [ha, Option.some.injEq, Prod.mk.injEq] at h
          obtain ⟨rfl, rfl⟩ := h
          exact ⟨s, rfl, .inl ⟨k0, es, r⟩⟩
        | cons v vs =>
          simp only [ha, Option.some.injEq, Prod.mk.injEq] at h
          obtain ⟨rfl, rfl⟩ := h
          refine ⟨_, rfl, .inl ⟨k0, es, ?_⟩⟩
          have := rel_body (body := { body with calls := body.calls + 1 }) r hk (List.getElem?_eq_some_iff.1 h3).1
          have hovr : ({ w with methods := upd w.methods slot (some (v :: vs, body.calls + 1)), over := false } : World) =
              { w with methods := upd w.methods slot (some (body.answers, body.calls + 1)) } := by rw [ha, ← r.over]
          rw [hovr, ← ha]
          exact this
    · simp at h
  | reset m =>
    simp only [World.step] at h
    split at h
    · rename_i hc
      obtain ⟨rfl, hlen⟩ := hc
      simp only [Option.some.injEq, Prod.mk.injEq] at h
      obtain ⟨rfl, rfl⟩ := h
      obtain ⟨hlive, hl, -⟩ := r.mocks 0 k0 r.first
      have hm0 : s.mock 0 = .done k0 := by simp [State.mock, r.first, hlive]
      have hone : s.mocks.length = 1 := by rw [r.len, hlen]
      have hget : ∀ i : Nat, (k0.slots.map fun _ => (none : Option (Nat × Nat)))[i]? = if i < w.size then some none else none := by
        intro i
        rw [List.getElem?_map]
        split
        · rename_i hi
          rw [List.getElem?_eq_getElem (by rw [hl]; exact hi)]
          rfl
        · rename_i hi
          rw [List.getElem?_eq_none (by rw [hl]; omega)]
          rfl
      refine ⟨{ s with clone := some s.original, mocks := s.mocks.set 0 { k0 with slots := k0.slots.map fun _ => none } },
        by simp [State.step, State.reset, hm0, r.clone], .inl ⟨{ k0 with slots := k0.slots.map fun _ => none }, s.original, ?_⟩⟩
      refine ⟨r.over, rfl, by simp [r.orig], r.orig, r.spied, r.attached, r.object, by simp [hone], by simp [hone], ?_, ?_, ?_, ?_⟩
      · intro m k hm
        have : m = 0 := by
          have := (List.getElem?_eq_some_iff.1 hm).1
          simp [hone] at this
          exact this
        subst this
        simp only [List.getElem?_set, if_true, hone, Nat.zero_lt_one, Option.some.injEq] at hm
        subst hm
        refine ⟨hlive, by simpa using hl, _, rfl, fun i hi => ⟨?_, fun p hp => hp⟩⟩
        simp only [hget, hi, if_true]
        simp
      · intro i hi
        simp only [hget] at hi
        split at hi
        · rename_i h
          exact ⟨rfl, by simp [r.orig, h]⟩
        · simp at hi
      · intro i id b hi
        simp only [hget] at hi
        split at hi <;> simp at hi
      · intro i j id b id' b' hi
        simp only [hget] at hi
        split at hi <;> simp at hi
    · simp at h
  | destroy m =>
    simp only [World.step] at h
    split at h
    · rename_i hc
      obtain ⟨rfl, hlen⟩ := hc
      simp only [Option.some.injEq, Prod.mk.injEq] at h
      obtain ⟨rfl, rfl⟩ := h
      obtain ⟨hlive, -⟩ := r.mocks 0 k0 r.first
      have hm0 : s.mock 0 = .done k0 := by simp [State.mock, r.first, hlive]
      have hone : s.mocks = [k0] := by
        have hl : s.mocks.length = 1 := by rw [r.len, hlen]
        have hf := r.first
        match hs : s.mocks, hl with
        | [x], _ => rw [hs] at hf; simp at hf; rw [hf]
      refine ⟨{ s with clone := none, attached := false, mocks := [{ k0 with live := false }], object := s.spied }, ?_, .inr ?_⟩
      · simp [State.step, State.destroy, hm0, r.object, r.clone, hone]
      · exact ⟨rfl, rfl, r.orig, r.spied, rfl, rfl⟩
    · simp at h

theorem world_step_size {w w' : World} {op : Op} {a : Ans} (h : w.step op = some (w', a)) : w'.size = w.size := by
  have men : ∀ {w w' : World} {m slot id : Nat}, w.mention m slot id = some w' → w'.size = w.size := by
    intro w w' m slot id h
    unfold World.mention at h
    repeat' split at h
    all_goals first | (simp at h; done) | (simp only [Option.some.injEq] at h; subst h; rfl)
  cases op with
  | stub m slot id v =>
    simp only [World.step] at h
    split at h
    · rename_i hm
      split at h
      · simp only [Option.some.injEq, Prod.mk.injEq] at h
        obtain ⟨rfl, -⟩ := h
        have := men hm
        exact this
      · simp at h
    · simp at h
  | count m slot id =>
    simp only [World.step] at h
    split at h
    · rename_i hm
      split at h
      · simp only [Option.some.injEq, Prod.mk.injEq] at h
        obtain ⟨rfl, -⟩ := h
        have := men hm
        exact this
      · simp at h
    · simp at h
  | _ =>
    simp only [World.step] at h
    repeat' split at h
    all_goals first | (simp at h; done) | (simp only [Option.some.injEq, Prod.mk.injEq] at h; obtain ⟨rfl, -⟩ := h; rfl)

theorem world_size' : ∀ {ops : List Op} {w w' : World} {as : List Ans}, w.run ops = some (w', as) → w'.size = w.size
  | [], w, w', as, h => by
    simp only [World.run, Option.some.injEq, Prod.mk.injEq] at h
    rw [h.1]
  | op :: ops, w, w', as, h => by
    simp only [World.run] at h
    split at h
    · simp at h
    · rename_i h1
      split at h
      · simp at h
      · rename_i h2
        simp only [Option.some.injEq, Prod.mk.injEq] at h
        obtain ⟨rfl, -⟩ := h
        exact (world_size' h2).trans (world_step_size h1)

theorem world_size {size : Nat} {spied : Bool} {ops : List Op} {w : World} {as : List Ans} (h : (World.start size spied).run ops = some (w, as)) : w.size = size :=
  world_size' h

theorem over_step {w w' : World} {s : State} {op : Op} {a : Ans} (r : Over w s) (h : w.step op = some (w', a)) :
    ∃ s', s.step op = .done (s', a) ∧ Over w' s' := by
  cases op with
  | copy m => simp [World.step, r.knows] at h
  | stub m slot id v => simp [World.step, World.mention, r.knows] at h
  | count m slot id => simp [World.step, World.mention, r.knows] at h
  | call slot =>
    simp only [World.step, r.over, if_true] at h
    split at h
    · rename_i hs
      split at h
      · rename_i hsp
        simp only [Option.some.injEq, Prod.mk.injEq] at h
        obtain ⟨rfl, rfl⟩ := h
        refine ⟨s, ?_, r⟩
        simp [State.step, State.call, r.object, r.spied, hsp, State.table, r.attached, r.orig, hs, dflt]
      · simp at h
    · simp at h
  | reset m => simp [World.step, r.knows] at h
  | destroy m => simp [World.step, r.knows] at h

theorem rel_run : ∀ {ops : List Op} {w w' : World} {s : State} {as : List Ans}, ((∃ k0 es, Rel w s k0 es) ∨ Over w s) → w.run ops = some (w', as) →
    ∃ s', s.run ops = .done (s', as) ∧ ((∃ k0 es, Rel w' s' k0 es) ∨ Over w' s')
  | [], w, w', s, as, r, h => by
    simp only [World.run, Option.some.injEq, Prod.mk.injEq] at h
    obtain ⟨rfl, rfl⟩ := h
    exact ⟨s, rfl, r⟩
  | op :: ops, w, w', s, as, r, h => by
    simp only [World.run] at h
    cases h1 : w.step op with
    | none => simp [h1] at h
    | some p =>
      obtain ⟨w1, a⟩ := p
      simp only [h1] at h
      cases h2 : w1.run ops with
      | none => simp [h2] at h
      | some q =>
        obtain ⟨w2, as2⟩ := q
        simp only [h2, Option.some.injEq, Prod.mk.injEq] at h
        obtain ⟨rfl, rfl⟩ := h
        have : ∃ s', s.step op = .done (s', a) ∧ ((∃ k0' es', Rel w1 s' k0' es') ∨ Over w1 s') := by
          rcases r with ⟨k0, es, r⟩ | r
          · exact rel_step r h1
          · obtain ⟨s', h3, h4⟩ := over_step r h1
            exact ⟨s', h3, .inr h4⟩
        obtain ⟨s1, h3, h4⟩ := this
        obtain ⟨s2, h5, h6⟩ := rel_run h4 h2
        exact ⟨s2, by simp [State.run, h3, h5], h6⟩

end FakeIt.Copies
