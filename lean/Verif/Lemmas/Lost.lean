import Verif.Lemmas.Patch
import Verif.Lemmas.Answer
import Verif.Spec.SelfReset
/-!
# Stubbings that have been destroyed stay destroyed

Whatever a callback does, a stubbing that does not exist any more does not come back, and the action sequence it had does not change; an action that is performed for ever does not
change at all.
-/
namespace FakeIt
open Spec
variable {V E : Type} {P : Prog V E}

/-- The stubbing of method `off` at address `h`. -/
def Mock.held? (k : Mock V E) (off : Nat) (h : Addr) : Option (Handler V E) := (k.body? off).bind fun b => b.handlers.find? (·.addr == h)

/-- What happens to the stubbings of a mock with addresses up to `a`. -/
def MTail (a : Nat) (k k' : Mock V E) : Prop := ∀ off (h : Addr), h ≤ a →
  (k.held? off h = none → k'.held? off h = none ∧ k'.gone off h = k.gone off h) ∧
  ∀ i f, k.acting? off h i = some (.forever f) → k'.acting? off h i = some (.forever f)

theorem Mock.acting?_held (k : Mock V E) (off : Nat) (h : Addr) (i : Nat) :
    k.acting? off h i = match k.held? off h with | some hd => hd.seq.objs[i]? | none => (k.gone off h).bind fun s => s.objs[i]? := rfl

/-- What happens to the stubbings that exist in `w` or have existed there. -/
structure Tail (w w' : World V E) : Prop where
  alloc : w.alloc ≤ w'.alloc
  mock : ∀ (m : Nat) k, w.mocks[m]? = some k → ∃ k', w'.mocks[m]? = some k' ∧ MTail w.alloc k k'

theorem MTail.refl (a : Nat) (k : Mock V E) : MTail a k k := fun _ _ _ => ⟨fun h => ⟨h, rfl⟩, fun _ _ h => h⟩

theorem Tail.refl (w : World V E) : Tail w w := ⟨Nat.le_refl _, fun _ k h => ⟨k, h, .refl _ k⟩⟩

theorem Tail.trans {a b c : World V E} (h1 : Tail a b) (h2 : Tail b c) : Tail a c := by
  refine ⟨Nat.le_trans h1.alloc h2.alloc, fun m k hk => ?_⟩
  obtain ⟨k1, hk1, e1⟩ := h1.mock m k hk
  obtain ⟨k2, hk2, e2⟩ := h2.mock m k1 hk1
  refine ⟨k2, hk2, fun off h hl => ⟨fun hn => ?_, fun i f hf => ?_⟩⟩
  · obtain ⟨hn1, hg1⟩ := (e1 off h hl).1 hn
    obtain ⟨hn2, hg2⟩ := (e2 off h (Nat.le_trans hl h1.alloc)).1 hn1
    exact ⟨hn2, hg2.trans hg1⟩
  · exact (e2 off h (Nat.le_trans hl h1.alloc)).2 i f ((e1 off h hl).2 i f hf)

theorem Tail.updMock {w w' : World V E} (m' : Nat) (f : Mock V E → Mock V E) (hw' : w'.mocks = (w.updMock m' f).mocks) (ha : w.alloc ≤ w'.alloc)
    (hf : ∀ k, w.mocks[m']? = some k → MTail w.alloc k (f k)) : Tail w w' := by
  refine ⟨ha, fun m k hk => ?_⟩
  rw [hw', World.mocks_updMock]
  by_cases hm : m' = m
  · subst hm
    simp only [if_true, hk, Option.map_some]
    exact ⟨_, rfl, hf k hk⟩
  · simp only [hm, if_false]
    exact ⟨k, hk, .refl _ k⟩

theorem Tail.same {w w' : World V E} (hw' : w'.mocks = w.mocks) (ha : w.alloc ≤ w'.alloc) : Tail w w' :=
  ⟨ha, fun _ k hk => ⟨k, by rw [hw']; exact hk, .refl _ k⟩⟩

/-- The stubbings are the same. -/
theorem MTail.held {a : Nat} {k k' : Mock V E} (hg : k'.gone = k.gone) (hh : ∀ off (h : Addr), h ≤ a → k'.held? off h = k.held? off h) : MTail a k k' := by
  intro off h hl
  refine ⟨fun e => ⟨by rw [hh off h hl]; exact e, by rw [hg]⟩, fun i f e => ?_⟩
  rw [Mock.acting?_held] at e ⊢
  rw [hh off h hl, hg]; exact e

/-- The stubbings have been destroyed. -/
theorem MTail.buried (a : Nat) {k k' : Mock V E} (hg : k'.gone = k.buried) (hb : ∀ off, k'.body? off = none) : MTail a k k' := by
  intro off h _
  refine ⟨fun hn => ⟨by simp [Mock.held?, hb], ?_⟩, fun i f hf => ?_⟩
  · rw [hg]
    unfold Mock.held? at hn
    simp only [Mock.buried, hn]
  · rw [acting_buried hg hb]; exact hf

theorem held_updBody {k : Mock V E} {off : Nat} {f : MBody V E → MBody V E} {o : Nat} {h : Addr}
    (hf : ∀ b, k.body? off = some b → (f b).handlers.find? (·.addr == h) = b.handlers.find? (·.addr == h)) : (k.updBody off f).held? o h = k.held? o h := by
  unfold Mock.held?
  rw [body?_updBody_mock]
  split
  · rename_i ho
    subst ho
    cases hb : k.body? off with
    | none => rfl
    | some b => exact hf b hb
  · rfl

theorem held_new {k k' : Mock V E} {off : Nat} {b0 : MBody V E} (hn : k.mocks[off]? = some none) (hm : k'.mocks = k.mocks.set off (some b0)) (h0 : b0.handlers = []) (o : Nat) (h : Addr) :
    k'.held? o h = k.held? o h := by
  simp only [Mock.held?, Mock.body?, hm, List.getElem?_set]
  by_cases ho : off = o
  · subst ho
    have hl := (List.getElem?_eq_some_iff.1 hn).1
    rw [hn]
    simp [hl, h0]
  · simp [ho]

theorem held_mocks {k k' : Mock V E} {o : Nat} {h : Addr} (hm : (k'.body? o).map (·.handlers) = (k.body? o).map (·.handlers)) : k'.held? o h = k.held? o h := by
  have : ∀ x : Option (MBody V E), (x.bind fun b => b.handlers.find? (·.addr == h)) = (x.map (·.handlers)).bind fun l => l.find? (·.addr == h) := by intro x; cases x <;> rfl
  unfold Mock.held?
  rw [this, this, hm]

theorem apiStableTail : ApiStable P (fun _ => True) (fun _ _ => True) (fun _ => True) (Tail (V := V) (E := E)) where
  inv _ _ := trivial
  refl w := Tail.refl w
  trans h1 h2 := h1.trans h2
  slots _ _ _ := trivial
  newMock w cls own _ := by
    refine ⟨Nat.le_refl _, fun m k hk => ⟨k, ?_, .refl _ k⟩⟩
    show (w.mocks ++ _)[m]? = _
    rw [List.getElem?_append_left (List.getElem?_eq_some_iff.1 hk).1, hk]
  destroy w m' k _ _ _ := .updMock m' _ rfl (Nat.le_refl _) fun k _ => .buried _ rfl fun _ => rfl
  reset w m' k _ _ _ := .updMock m' _ rfl (Nat.le_refl _) fun k _ => .buried _ (initData_gone _) fun o => by rw [Mock.reset, initData_body, proxyReset_body]
  clear w m' k _ _ _ := .updMock m' _ rfl (Nat.le_refl _) fun k _ => .held (initData_gone _) fun off h _ => held_mocks (by
    rw [Mock.clear, initData_body]
    simp only [Mock.body?, List.getElem?_map]
    cases k.mocks[off]? with
    | none => rfl
    | some x => cases x <;> rfl)
  stubData w m' k cell v _ _ _ _ := .updMock m' _ rfl (Nat.le_refl _) fun k _ => .held rfl fun _ _ _ => rfl
  writeData w m' k cell v _ _ _ _ := .updMock m' _ rfl (Nat.le_refl _) fun k _ => .held rfl fun _ _ _ => rfl
  bind w m' k off ctr _ _ hk hn := .updMock m' _ rfl (Nat.le_refl _) fun k' hk' => by
    rw [(World.mock?_eq_some.1 hk).1] at hk'; cases hk'
    exact .held rfl fun o h _ => held_new (b0 := newBody w.methTotal) hn rfl rfl o h
  bindDtor w m' k d _ _ hk hd _ hn := .updMock m' _ rfl (Nat.le_refl _) fun k' hk' => by
    rw [(World.mock?_eq_some.1 hk).1] at hk'; cases hk'
    exact .held rfl fun o h _ => held_new (b0 := newBody w.methTotal) hn rfl rfl o h
  commit w m' k slot off b kind acts _ _ _ hk _ hb := .updMock m' _ rfl (Nat.le_add_right _ 2) fun k' hk' => .held rfl fun o h hl => by
    rw [held_updBody (k := k')]
    intro b _
    rw [List.find?_append]
    cases b.handlers.find? (·.addr == h) with
    | some x => rfl
    | none =>
      rw [List.find?_cons_of_neg]; · rfl
      simp only [beq_iff_eq]
      intro e
      rw [← e] at hl
      exact absurd hl (Nat.not_succ_le_self _)
  write w a v _ := .same rfl (Nat.le_refl _)
  fire w e _ := .same rfl (Nat.le_refl _)
  mark w scope pat q mode actual count matched _ _ _ := by
    refine ⟨Nat.le_refl _, fun m k hk => ⟨Mock.mark (matched.map (·.uid)) k, by rw [World.mocks_mark, hk]; rfl, .held rfl fun off h _ => held_mocks ?_⟩⟩
    simp only [Mock.body?, Mock.mark, List.getElem?_map]
    cases k.mocks[off]? with
    | none => rfl
    | some x => cases x <;> rfl

/-- The script of one stubbing changes, but not an action performed for ever. -/
theorem MTail.updSeq (a : Nat) (k : Mock V E) (off : Nat) (h : Addr) (g : ActionSeq V E → ActionSeq V E)
    (hg : ∀ hd, k.held? off h = some hd → ∀ (i : Nat) (f : Fn V E), hd.seq.objs[i]? = some (Act.forever f) → (g hd.seq).objs[i]? = some (Act.forever f)) :
    MTail a k (k.updBody off fun b => { b with handlers := b.handlers.map fun x => if x.addr == h then { x with seq := g x.seq } else x }) := by
  intro o h' _
  have key : (k.updBody off fun b => { b with handlers := b.handlers.map fun x => if x.addr == h then { x with seq := g x.seq } else x }).held? o h' =
      (k.held? o h').map fun x => if o = off ∧ x.addr = h then { x with seq := g x.seq } else x := by
    unfold Mock.held?
    rw [body?_updBody_mock]
    split
    · rename_i ho
      subst ho
      cases hb : k.body? off with
      | none => rfl
      | some b =>
        simp only [Option.map_some, Option.bind_some, true_and]
        induction b.handlers with
        | nil => rfl
        | cons x l ih =>
          simp only [List.map_cons, List.find?_cons]
          by_cases hx : x.addr = h
          · simp only [hx, BEq.rfl, if_true]
            by_cases hh : h = h'
            · simp [hh, hx]
            · simp only [beq_eq_false_iff_ne.2 hh]; exact ih
          · simp only [beq_eq_false_iff_ne.2 hx, Bool.false_eq_true, if_false]
            by_cases hh : x.addr = h'
            · simp only [hh, BEq.rfl, Option.map_some]
              rw [if_neg (hh ▸ hx)]
            · simp only [beq_eq_false_iff_ne.2 hh]; exact ih
    · rename_i ho
      cases (k.body? o).bind fun b => b.handlers.find? (·.addr == h') with
      | none => rfl
      | some x => rw [Option.map_some, if_neg fun e => ho e.1.symm]
  refine ⟨fun hn => ⟨by rw [key, hn]; rfl, rfl⟩, fun i f hf => ?_⟩
  rw [Mock.acting?_held] at hf ⊢
  rw [key]
  cases hd : k.held? o h' with
  | none => rw [hd] at hf; exact hf
  | some x =>
    rw [hd] at hf
    simp only [Option.map_some] at hf ⊢
    split
    · rename_i hc
      obtain ⟨rfl, rfl⟩ := hc
      refine hg x ?_ i f hf
      rw [← hd]
      unfold Mock.held? at hd ⊢
      obtain ⟨b, hb, hfnd⟩ := Option.bind_eq_some_iff.1 hd
      have := List.find?_some hfnd
      simp only [beq_iff_eq] at this
      rw [this]
    · exact hf

theorem tick_forever (q : ActionSeq V E) (j i : Nat) (f : Fn V E) (h : q.objs[i]? = some (.forever f)) : (q.tick j).objs[i]? = some (.forever f) := by
  unfold ActionSeq.tick
  simp only [List.getElem?_modify, h]
  split <;> rfl

theorem fin_objs {q s : ActionSeq V E} {i : Nat} (h : q.finallyClause i = .done s) : s.objs = q.objs := by
  unfold ActionSeq.finallyClause at h
  repeat' split at h
  all_goals first | (cases h; rfl) | cases h

theorem World.handler?_held (w : World V E) (m off : Nat) (h : Addr) : w.handler? m off h = (w.mocks[m]?).bind fun k => k.held? off h := by
  unfold World.handler? World.body? Mock.held?
  cases w.mocks[m]? <;> rfl

theorem Tail.setVt (w : World V E) (m off : Nat) (c : Code) : Tail w (w.setVt m off c) :=
  .updMock m _ rfl (Nat.le_refl _) fun _ _ => .held rfl fun _ _ _ => rfl

theorem Tail.inv (w : World V E) (m off : Nat) (f : MBody V E → MBody V E) (hf : ∀ b, (f b).handlers = b.handlers) : Tail w (w.updBody m off f) :=
  .updMock m _ rfl (Nat.le_refl _) fun _ _ => .held rfl fun _ _ _ => held_updBody fun b _ => by rw [hf]

theorem Tail.updSeq (w : World V E) (m off : Nat) (h : Addr) (g : ActionSeq V E → ActionSeq V E)
    (hg : ∀ hd, w.handler? m off h = some hd → ∀ (i : Nat) (f : Fn V E), hd.seq.objs[i]? = some (Act.forever f) → (g hd.seq).objs[i]? = some (Act.forever f)) :
    Tail w (w.updSeq m off h g) := by
  refine Tail.updMock m _ rfl (Nat.le_refl _) ?_
  intro k hk
  refine MTail.updSeq w.alloc k off h g ?_
  intro hd e
  refine hg hd ?_
  rw [World.handler?_held, hk]; exact e

theorem Tail.fin (w : World V E) (m off : Nat) (h : Addr) (hd : Handler V E) (i : Nat) (s : ActionSeq V E) (hh : w.handler? m off h = some hd) (hs : hd.seq.finallyClause i = .done s) :
    Tail w (w.updSeq m off h fun _ => s) := by
  refine Tail.updSeq w m off h _ ?_
  intro hd' e j f hf
  rw [hh] at e
  cases e
  rw [fin_objs hs]; exact hf

theorem stableTail : Stable P (fun _ => True) (fun _ _ => True) (fun _ _ => True) (fun _ _ _ _ => True) (fun _ => True) (Tail (V := V) (E := E)) where
  inv _ _ := trivial
  dispatch _ _ _ _ _ := trivial
  frame _ _ _ := trivial
  thunk _ _ _ _ _ := trivial
  deleg _ := trivial
  swapIn _ _ _ _ := trivial
  refl := Tail.refl
  trans h1 h2 := h1.trans h2
  api hI hA h := apiStep_stable apiStableTail hI hA h
  write _ _ _ _ := .same rfl (Nat.le_refl _)
  setArgs w m off _ _ _ _ _ _ := .inv w m off _ fun _ => rfl
  bump _ _ := .same rfl (Nat.le_refl _)
  fire _ _ _ := .same rfl (Nat.le_refl _)
  push w m off _ _ _ _ _ _ _ := (Tail.same rfl (Nat.le_refl _) : Tail w w.bumpInv).trans (.inv _ m off _ fun _ => rfl)
  tick w m off h _ _ _ := .updSeq w m off h _ fun _ _ _ _ hf => tick_forever _ _ _ _ hf
  fin w m off h hd i s _ _ hh hs := .fin w m off h hd i s hh hs
  swap w w' m off h _ fake orig _ hd i s _ _ _ _ _ _ hq hh hs := ((Tail.setVt w m off orig).trans hq).trans ((Tail.setVt w' m off fake).trans (.fin _ m off h hd i s hh hs))

/-! ## Code that ends a mock -/

theorem Spec.EndsEarly.ends {m : MockId} {b : Body V E} (h : EndsEarly m b) : EndsMock m b := by
  induction h with
  | reset k => exact .reset k
  | destroy k => exact .destroy k
  | api a k _ ih => exact .api a k ih
  | setArg i v k _ ih => exact .setArg i v k ih

theorem within_all (b : Body V E) : b.Within (fun _ => True) fun _ _ => True := by
  induction b with
  | done o => trivial
  | setArg i v k ih => exact ih
  | call m off as k ih => exact ⟨trivial, ih⟩
  | api a k ih => exact ⟨trivial, ih⟩

theorem callTail (fuel : Nat) : CallOk (fun _ _ => True) (fun _ => True) (Tail (V := V) (E := E)) (callSlot P fuel) :=
  fun w m off args o w' _ _ h => callSlot_stable stableTail (fun _ _ => within_all _) fuel w m off args o w' trivial trivial h

theorem bodyTail (fuel : Nat) {fr : Option Frame} {args : List (Arg V)} {b : Body V E} {w w' : World V E} {o : Outcome V E}
    (h : runBody P (callSlot P fuel) fr args b w = .done (o, w')) : Tail w w' :=
  runBody_stable stableTail _ (callTail fuel) fr args (fun _ _ => trivial) b (within_all b) w trivial o w' h

theorem Tail.lost {w w' : World V E} (h : Tail w w') {m off : Nat} {a : Addr} (hm : m < w.mocks.length) (ha : a ≤ w.alloc) (hn : w.handler? m off a = none) (i : Nat) :
    w'.handler? m off a = none ∧ w'.orphan? m off a i = w.orphan? m off a i := by
  have hk : w.mocks[m]? = some w.mocks[m] := List.getElem?_eq_getElem hm
  obtain ⟨k', hk', e⟩ := h.mock m _ hk
  rw [World.handler?_held, hk] at hn
  obtain ⟨h1, h2⟩ := (e off a ha).1 hn
  refine ⟨by rw [World.handler?_held, hk']; exact h1, ?_⟩
  unfold World.orphan?
  rw [hk, hk']
  simp only [Option.bind_some, h2]

/-- Resetting or destroying removes the stubbings; the call still has its action. -/
theorem ended {w w' : World V E} {m : MockId} {o : ApiOut} (h : apiStep P w (.reset m) = .done (w', o) ∨ apiStep P w (.destroy m) = .done (w', o)) (off : Nat) (a : Addr) (i : Nat) :
    w'.mocks.length = w.mocks.length ∧ w'.alloc = w.alloc ∧ w'.handler? m off a = none ∧ w'.orphan? m off a i = w.acting? m off a i := by
  have key : ∀ g : Mock V E → Mock V E, (∀ k, (g k).gone = k.buried ∧ ∀ o, (g k).body? o = none) → w' = w.updMock m g →
      w'.mocks.length = w.mocks.length ∧ w'.alloc = w.alloc ∧ w'.handler? m off a = none ∧ w'.orphan? m off a i = w.acting? m off a i := by
    rintro g hg rfl
    refine ⟨by simp [World.updMock], rfl, ?_, ?_⟩
    · rw [World.handler?_held, World.mocks_updMock, if_pos rfl]
      cases w.mocks[m]? with
      | none => rfl
      | some k => simp [Mock.held?, (hg k).2]
    · rw [World.acting?_eq]
      unfold World.orphan?
      rw [World.mocks_updMock, if_pos rfl]
      cases w.mocks[m]? with
      | none => rfl
      | some k =>
        simp only [Option.map_some, Option.bind_some, (hg k).1]
        unfold Mock.acting? Mock.buried
        cases (k.body? off).bind fun b => b.handlers.find? (·.addr == a) <;> rfl
  rcases h with h | h
  · refine key Mock.reset (fun k => ⟨initData_gone _, fun o => by rw [Mock.reset, initData_body, proxyReset_body]⟩) ?_
    simp only [apiStep] at h
    split at h
    · cases h
    · cases h; rfl
  · refine key Mock.destroy (fun k => ⟨rfl, fun o => rfl⟩) ?_
    simp only [apiStep] at h
    split at h
    · cases h
    · cases h; rfl

/-- When code that ends a mock has run, its stubbings do not exist. -/
theorem Spec.EndsMock.lost {m : MockId} {b : Body V E} (hb : EndsMock m b) {fuel : Nat} {fr : Option Frame} {args : List (Arg V)} {w w' : World V E} {o : Outcome V E}
    (h : runBody P (callSlot P fuel) fr args b w = .done (o, w')) {off : Nat} {a : Addr} (hm : m < w.mocks.length) (ha : a ≤ w.alloc) : w'.handler? m off a = none := by
  induction hb generalizing w with
  | reset k =>
    simp only [runBody, R.bind_eq_done] at h
    obtain ⟨⟨w1, o1⟩, h1, h2⟩ := h
    obtain ⟨e1, e2, e3, -⟩ := ended (.inl h1) off a 0
    exact ((bodyTail fuel h2).lost (by rw [e1]; exact hm) (by rw [e2]; exact ha) e3 0).1
  | destroy k =>
    simp only [runBody, R.bind_eq_done] at h
    obtain ⟨⟨w1, o1⟩, h1, h2⟩ := h
    obtain ⟨e1, e2, e3, -⟩ := ended (.inr h1) off a 0
    exact ((bodyTail fuel h2).lost (by rw [e1]; exact hm) (by rw [e2]; exact ha) e3 0).1
  | api x k hk ih =>
    simp only [runBody, R.bind_eq_done] at h
    obtain ⟨⟨w1, o1⟩, h1, h2⟩ := h
    have t := apiStep_stable apiStableTail trivial trivial h1
    obtain ⟨k', hk', -⟩ := t.mock m _ (List.getElem?_eq_getElem hm)
    exact ih o1 h2 (List.getElem?_eq_some_iff.1 hk').1 (Nat.le_trans ha t.alloc)
  | setArg i v k hk ih =>
    have t := setArg_stable (stableTail (P := P)) w trivial fr args i v fun _ _ => trivial
    obtain ⟨k', hk', -⟩ := t.mock m _ (List.getElem?_eq_getElem hm)
    exact ih h (List.getElem?_eq_some_iff.1 hk').1 (Nat.le_trans ha t.alloc)
  | call m' off' as k hk ih =>
    simp only [runBody, R.bind_eq_done] at h
    obtain ⟨⟨o1, w1⟩, h1, h2⟩ := h
    have t := callTail fuel _ _ _ _ _ _ trivial trivial h1
    obtain ⟨k', hk', -⟩ := t.mock m _ (List.getElem?_eq_getElem hm)
    exact ih o1 h2 (List.getElem?_eq_some_iff.1 hk').1 (Nat.le_trans ha t.alloc)

theorem setArg_holds (w : World V E) (fr : Option Frame) (args : List (Arg V)) (i : Nat) (v : V) : Holds w (setArg w fr args i v) := by
  unfold setArg
  split
  · exact .refl w
  · exact .same rfl (Nat.le_refl _)
  · cases fr with
    | none => exact .refl w
    | some f =>
      refine .updMock f.m _ rfl (Nat.le_refl _) fun k _ o h i a _ e => ?_
      refine Eq.trans ?_ e
      refine acting_updBody ?_
      intro b _
      rfl

/-- If it made no calls before, the action of the call that is in progress is as it was. -/
theorem Spec.EndsEarly.lost {m : MockId} {b : Body V E} (hb : EndsEarly m b) {fuel : Nat} {fr : Option Frame} {args : List (Arg V)} {w w' : World V E} {o : Outcome V E}
    (h : runBody P (callSlot P fuel) fr args b w = .done (o, w')) {off : Nat} {a : Addr} {i : Nat} {act : Act V E} (hm : m < w.mocks.length) (ha : a ≤ w.alloc)
    (hact : w.acting? m off a i = some act) : w'.handler? m off a = none ∧ w'.orphan? m off a i = some act := by
  induction hb generalizing w with
  | reset k =>
    simp only [runBody, R.bind_eq_done] at h
    obtain ⟨⟨w1, o1⟩, h1, h2⟩ := h
    obtain ⟨e1, e2, e3, e4⟩ := ended (.inl h1) off a i
    obtain ⟨h3, h4⟩ := (bodyTail fuel h2).lost (by rw [e1]; exact hm) (by rw [e2]; exact ha) e3 i
    exact ⟨h3, by rw [h4, e4, hact]⟩
  | destroy k =>
    simp only [runBody, R.bind_eq_done] at h
    obtain ⟨⟨w1, o1⟩, h1, h2⟩ := h
    obtain ⟨e1, e2, e3, e4⟩ := ended (.inr h1) off a i
    obtain ⟨h3, h4⟩ := (bodyTail fuel h2).lost (by rw [e1]; exact hm) (by rw [e2]; exact ha) e3 i
    exact ⟨h3, by rw [h4, e4, hact]⟩
  | api x k hk ih =>
    simp only [runBody, R.bind_eq_done] at h
    obtain ⟨⟨w1, o1⟩, h1, h2⟩ := h
    have t := apiStep_stable apiStableHolds trivial trivial h1
    exact ih o1 h2 (Nat.lt_of_lt_of_le hm t.len) (Nat.le_trans ha t.alloc) (t.acts _ _ _ _ _ ha hact)
  | setArg i v k hk ih =>
    have t := setArg_holds w fr args i v
    exact ih h (Nat.lt_of_lt_of_le hm t.len) (Nat.le_trans ha t.alloc) (t.acts _ _ _ _ _ ha hact)

theorem Tail.acting {w w' : World V E} (h : Tail w w') {m off : Nat} {a : Addr} {i : Nat} {f : Fn V E} (ha : a ≤ w.alloc) (hact : w.acting? m off a i = some (.forever f)) :
    w'.acting? m off a i = some (.forever f) := by
  rw [World.acting?_eq] at hact ⊢
  obtain ⟨k, hk, hact⟩ := Option.bind_eq_some_iff.1 hact
  obtain ⟨k', hk', e⟩ := h.mock m k hk
  rw [hk']
  exact (e off a ha).2 i f hact

end FakeIt
