import Verif.Model.Machine
/-!
# Reading after writing: lemmas about the primitive updates
-/
namespace FakeIt
variable {V E : Type}

namespace World

theorem mocks_updMock (w : World V E) (m m' : MockId) (f : Mock V E → Mock V E) :
    (w.updMock m f).mocks[m']? = if m = m' then (w.mocks[m']?).map f else w.mocks[m']? := by
  simp only [updMock, List.getElem?_modify]
  split <;> simp

theorem body?_updBody (w : World V E) (m m' : MockId) (off off' : Nat) (f : MBody V E → MBody V E) :
    (w.updBody m off f).body? m' off' = if m = m' ∧ off = off' then (w.body? m' off').map f else w.body? m' off' := by
  simp only [updBody, body?, mocks_updMock]
  by_cases hm : m = m'
  · subst hm
    simp only [if_true, true_and]
    cases w.mocks[m]? with
    | none => simp
    | some k =>
      simp only [Option.map_some, Option.bind_some, Mock.body?, Mock.updBody, List.getElem?_modify]
      by_cases ho : off = off'
      · subst ho
        simp only [if_true]
        cases k.mocks[off]? with
        | none => simp
        | some x => cases x <;> simp [Option.join]
      · simp only [if_neg ho]
        cases k.mocks[off']? <;> simp
  · simp [hm]

theorem body?_setVt (w : World V E) (m m' : MockId) (off off' : Nat) (c : Code) :
    (w.setVt m off c).body? m' off' = w.body? m' off' := by
  simp only [setVt, body?, mocks_updMock]
  by_cases hm : m = m'
  · subst hm
    cases h : w.mocks[m]? <;> simp [Mock.body?]
  · simp [hm]

@[simp] theorem body?_write (w : World V E) (a : Addr) (v : V) (m off : Nat) : (w.write a v).body? m off = w.body? m off := rfl
@[simp] theorem body?_fire (w : World V E) (e : Event V) (m off : Nat) : (w.fire e).body? m off = w.body? m off := rfl
@[simp] theorem body?_bumpInv (w : World V E) (m off : Nat) : (w.bumpInv).body? m off = w.body? m off := rfl

@[simp] theorem mocks_write (w : World V E) (a : Addr) (v : V) : (w.write a v).mocks = w.mocks := rfl
@[simp] theorem mocks_fire (w : World V E) (e : Event V) : (w.fire e).mocks = w.mocks := rfl
@[simp] theorem mocks_bumpInv (w : World V E) : (w.bumpInv).mocks = w.mocks := rfl

@[simp] theorem invTotal_updMock (w : World V E) (m : MockId) (f) : (w.updMock m f).invTotal = w.invTotal := rfl
@[simp] theorem invTotal_updBody (w : World V E) (m : MockId) (off) (f) : (w.updBody m off f).invTotal = w.invTotal := rfl
@[simp] theorem invTotal_updSeq (w : World V E) (m off h) (f) : (w.updSeq m off h f).invTotal = w.invTotal := rfl
@[simp] theorem invTotal_updInv (w : World V E) (m off h) (f) : (w.updInv m off h f).invTotal = w.invTotal := rfl
@[simp] theorem invTotal_pushInv (w : World V E) (m off i) : (w.pushInv m off i).invTotal = w.invTotal := rfl
@[simp] theorem invTotal_setVt (w : World V E) (m off c) : (w.setVt m off c).invTotal = w.invTotal := rfl
@[simp] theorem invTotal_write (w : World V E) (a : Addr) (v : V) : (w.write a v).invTotal = w.invTotal := rfl
@[simp] theorem invTotal_fire (w : World V E) (e : Event V) : (w.fire e).invTotal = w.invTotal := rfl
@[simp] theorem invTotal_bumpInv (w : World V E) : (w.bumpInv).invTotal = w.invTotal + 1 := rfl

@[simp] theorem alloc_updMock (w : World V E) (m : MockId) (f) : (w.updMock m f).alloc = w.alloc := rfl
@[simp] theorem alloc_updBody (w : World V E) (m : MockId) (off) (f) : (w.updBody m off f).alloc = w.alloc := rfl
@[simp] theorem alloc_updSeq (w : World V E) (m off h) (f) : (w.updSeq m off h f).alloc = w.alloc := rfl
@[simp] theorem alloc_updInv (w : World V E) (m off h) (f) : (w.updInv m off h f).alloc = w.alloc := rfl
@[simp] theorem alloc_pushInv (w : World V E) (m off i) : (w.pushInv m off i).alloc = w.alloc := rfl
@[simp] theorem alloc_setVt (w : World V E) (m off c) : (w.setVt m off c).alloc = w.alloc := rfl
@[simp] theorem alloc_write (w : World V E) (a : Addr) (v : V) : (w.write a v).alloc = w.alloc := rfl
@[simp] theorem alloc_fire (w : World V E) (e : Event V) : (w.fire e).alloc = w.alloc := rfl
@[simp] theorem alloc_bumpInv (w : World V E) : (w.bumpInv).alloc = w.alloc := rfl

@[simp] theorem heap_updMock (w : World V E) (m : MockId) (f) : (w.updMock m f).heap = w.heap := rfl
@[simp] theorem heap_updBody (w : World V E) (m : MockId) (off) (f) : (w.updBody m off f).heap = w.heap := rfl
@[simp] theorem heap_updSeq (w : World V E) (m off h) (f) : (w.updSeq m off h f).heap = w.heap := rfl
@[simp] theorem heap_updInv (w : World V E) (m off h) (f) : (w.updInv m off h f).heap = w.heap := rfl
@[simp] theorem heap_pushInv (w : World V E) (m off i) : (w.pushInv m off i).heap = w.heap := rfl
@[simp] theorem heap_setVt (w : World V E) (m off c) : (w.setVt m off c).heap = w.heap := rfl
@[simp] theorem heap_fire (w : World V E) (e : Event V) : (w.fire e).heap = w.heap := rfl
@[simp] theorem heap_bumpInv (w : World V E) : (w.bumpInv).heap = w.heap := rfl

@[simp] theorem log_updMock (w : World V E) (m : MockId) (f) : (w.updMock m f).log = w.log := rfl
@[simp] theorem log_updBody (w : World V E) (m : MockId) (off) (f) : (w.updBody m off f).log = w.log := rfl
@[simp] theorem log_updSeq (w : World V E) (m off h) (f) : (w.updSeq m off h f).log = w.log := rfl
@[simp] theorem log_updInv (w : World V E) (m off h) (f) : (w.updInv m off h f).log = w.log := rfl
@[simp] theorem log_pushInv (w : World V E) (m off i) : (w.pushInv m off i).log = w.log := rfl
@[simp] theorem log_setVt (w : World V E) (m off c) : (w.setVt m off c).log = w.log := rfl
@[simp] theorem log_write (w : World V E) (a : Addr) (v : V) : (w.write a v).log = w.log := rfl
@[simp] theorem log_fire (w : World V E) (e : Event V) : (w.fire e).log = w.log ++ [e] := rfl
@[simp] theorem log_bumpInv (w : World V E) : (w.bumpInv).log = w.log := rfl

/-- The effect of marking on one mock. -/
def _root_.FakeIt.Mock.mark (uids : List Nat) (k : Mock V E) : Mock V E :=
  { k with mocks := k.mocks.map (Option.map fun b =>
          { b with invs := b.invs.map fun i => if uids.contains i.uid then { i with verified := true } else i }) }

theorem mocks_mark (w : World V E) (uids : List Nat) (m : Nat) : (w.mark uids).mocks[m]? = (w.mocks[m]?).map (Mock.mark uids) := by
  simp only [mark, List.getElem?_map]; rfl

theorem _root_.FakeIt.Mock.body?_mark (uids : List Nat) (k : Mock V E) (off : Nat) : (k.mark uids).body? off = (k.body? off).map fun b =>
    { b with invs := b.invs.map fun i => if uids.contains i.uid then { i with verified := true } else i } := by
  simp only [Mock.mark, Mock.body?, List.getElem?_map]
  cases k.mocks[off]? with
  | none => rfl
  | some x => cases x <;> rfl

theorem body?_mark (w : World V E) (uids : List Nat) (m off : Nat) : (w.mark uids).body? m off = (w.body? m off).map fun b =>
    { b with invs := b.invs.map fun i => if uids.contains i.uid then { i with verified := true } else i } := by
  simp only [body?, mocks_mark]
  cases w.mocks[m]? with
  | none => rfl
  | some k => simp only [Option.map_some, Option.bind_some, Mock.body?_mark]

theorem mock?_eq_some {w : World V E} {m : MockId} {k : Mock V E} :
    w.mock? m = some k ↔ w.mocks[m]? = some k ∧ k.alive = true := by
  unfold mock?
  cases w.mocks[m]? with
  | none => simp
  | some k' =>
    simp only [Option.some.injEq]
    constructor
    · intro h
      split at h
      · simp at h; subst h; simp_all
      · simp at h
    · rintro ⟨rfl, h⟩
      simp [h]

end World

/-- How the end of a call can be defined: its stubbing is there, or it was destroyed and the action is not used up and did not delegate. -/
theorem worldFinally_done {w w' : World V E} {m off : Nat} {h : Addr} {i : Nat} {act : Act V E} {o : Outcome V E} (hfin : worldFinally w m off h i act o = .done w') :
    (∃ hd s, w.handler? m off h = some hd ∧ hd.seq.finallyClause i = .done s ∧ w' = w.updSeq m off h fun _ => s) ∨
      (w.handler? m off h = none ∧ (∃ a, w.orphan? m off h i = some a ∧ a.isDone = false) ∧ (∀ b, act ≠ .deleg b) ∧ o ≠ .noMore ∧ w' = w) := by
  unfold worldFinally at hfin
  split at hfin
  · rename_i hn
    split at hfin
    · cases hfin
    · rename_i a ha
      unfold orphanEnd at hfin
      split at hfin
      · cases hfin
      · rename_i hd
        split at hfin
        · cases hfin
        · cases hfin
        · rename_i h1 h2
          simp only [R.done.injEq] at hfin
          exact .inr ⟨hn, ⟨a, ha, by simpa using hd⟩, fun b hb => h1 b hb, fun ho => h2 ho, hfin.symm⟩
  · rename_i hd hhd
    simp only [R.bind_eq_done, R.done.injEq] at hfin
    obtain ⟨s, hs, rfl⟩ := hfin
    exact .inl ⟨hd, s, hhd, hs, rfl⟩

/-- Updating a sequence that is not there does nothing. -/
theorem World.updSeq_none {w : World V E} {m off : Nat} {h : Addr} (hn : w.handler? m off h = none) (f : ActionSeq V E → ActionSeq V E) : w.updSeq m off h f = w := by
  have : w.mocks.modify m (fun k => k.updBody off fun b => { b with handlers := b.handlers.map fun x => if x.addr == h then { x with seq := f x.seq } else x }) = w.mocks := by
    apply List.ext_getElem?
    intro n
    rw [List.getElem?_modify]
    split
    · rename_i hmn
      subst hmn
      cases hk : w.mocks[m]? with
      | none => rfl
      | some k =>
        show some _ = some k
        have hm : k.mocks.modify off (Option.map fun b => { b with handlers := b.handlers.map fun x => if x.addr == h then { x with seq := f x.seq } else x }) = k.mocks := by
          apply List.ext_getElem?
          intro j
          rw [List.getElem?_modify]
          split
          · rename_i hj
            subst hj
            cases hb : k.mocks[off]? with
            | none => rfl
            | some b =>
              cases b with
              | none => rfl
              | some b =>
                show some (some _) = some (some b)
                have hf : b.handlers.find? (·.addr == h) = none := by
                  simpa [World.handler?, World.body?, hk, Mock.body?, hb] using hn
                have : (b.handlers.map fun x => if x.addr == h then { x with seq := f x.seq } else x) = b.handlers := by
                  conv => rhs; rw [← List.map_id b.handlers]
                  apply List.map_congr_left
                  intro x hx
                  have := List.find?_eq_none.1 hf x hx
                  simp [this]
                simp only [this]
          · simp
        simp only [Mock.updBody, hm]
    · simp
  show { w with mocks := w.mocks.modify m _ } = w
  rw [this]

/-- However the end of a call is defined, it only replaces the sequence of its stubbing. -/
theorem worldFinally_updSeq {w w' : World V E} {m off : Nat} {h : Addr} {i : Nat} {act : Act V E} {o : Outcome V E} (hfin : worldFinally w m off h i act o = .done w') :
    ∃ s, w' = w.updSeq m off h fun _ => s := by
  rcases worldFinally_done hfin with ⟨_, s, -, -, h⟩ | ⟨hn, -, -, -, h⟩
  · exact ⟨s, h⟩
  · exact ⟨ActionSeq.init, by rw [World.updSeq_none hn]; exact h⟩

end FakeIt
