import Verif.Lemmas.Owners
/-!
# Lemmas for C91: every operation
-/
namespace FakeIt.Owners
open Spec

theorem count_flatMap_set {α : Type} {f : α → List Nat} {ks : List α} {m : Nat} {k : α} (h : ks[m]? = some k) (k' : α) (g : Nat) :
    (ks.flatMap f).count g + (f k').count g = ((ks.set m k').flatMap f).count g + (f k).count g := by
  induction ks generalizing m with
  | nil => simp at h
  | cons x xs ih =>
    cases m with
    | zero =>
      simp only [List.getElem?_cons_zero, Option.some.injEq] at h
      subst h
      simp only [List.set_cons_zero, List.flatMap_cons, List.count_append]
      omega
    | succ m =>
      have := ih (m := m) (by simpa using h)
      simp only [List.set_cons_succ, List.flatMap_cons, List.count_append]
      omega

theorem count_vars_set {vars : List (Option Nat)} {v : Nat} {o : Option Nat} (h : vars[v]? = some o) (g : Nat) :
    (vars.filterMap id).count g = ((vars.set v none).filterMap id).count g + o.toList.count g := by
  induction vars generalizing v with
  | nil => simp at h
  | cons x xs ih =>
    cases v with
    | zero =>
      simp only [List.getElem?_cons_zero, Option.some.injEq] at h
      subst h
      cases x with
      | none => simp
      | some y => simp [List.count_cons]
    | succ v =>
      have := ih (v := v) (by simpa using h)
      cases x with
      | none => simpa using this
      | some y => simp only [List.set_cons_succ, List.filterMap_cons, id, List.count_cons]; omega

theorem shares_setMock {w : World} {m : Nat} {k : Mck} (h : w.mocks[m]? = some k) (k' : Mck) (g : Nat) :
    w.shares.count g + (sharesOf k'.methods).count g = (w.setMock m k').shares.count g + (sharesOf k.methods).count g := by
  have := count_flatMap_set (f := fun k : Mck => sharesOf k.methods) h k' g
  simp only [World.shares, World.setMock, List.count_append]
  omega

theorem mem_iff_count {l : List Nat} {g : Nat} : g ∈ l ↔ 0 < l.count g := List.count_pos_iff.symm

/-- Owners are somewhere else than before, but none has gone yet. -/
theorem Good.move {s s' : State} {pend pend' : List Nat} (hG : Good s pend) (ho : s'.objs = s.objs) (hc : s'.counts = s.counts) (hm : s'.mocks.length = s.mocks.length)
    (h : ∀ g, (s.world.shares ++ pend).count g = (s'.world.shares ++ pend').count g) : Good s' pend' := by
  refine ⟨by rw [hc, ho]; exact hG.len, fun g hg => ?_, fun g hg => ?_, fun m hm' => ?_⟩
  · rw [hc, hG.cnt g (by rw [← ho]; exact hg), h]
  · rw [ho]
    refine hG.lt g ?_
    rw [mem_iff_count, h, ← mem_iff_count]
    exact hg
  · rw [hm]; rw [ho] at hm'; exact hG.obj m hm'

/-- A mock gets other bodies, and the owners that were in the old ones go. -/
theorem lose_mock {s : State} {m : Nat} {k k' : Mck} {pend : List Nat} (hG : Good s []) (hk : s.mocks[m]? = some k) (h : ∀ g, (sharesOf k.methods).count g = (sharesOf k'.methods).count g + pend.count g) :
    AgreesS (State.releaseAll pend { s with mocks := s.mocks.set m k' }) (lose s.world (s.world.setMock m k')) := by
  have hc : ∀ g, (s.world.shares ++ []).count g = (World.shares (s.world.setMock m k') ++ pend).count g := by
    intro g
    have h1 := shares_setMock (w := s.world) hk k' g
    have h2 := h g
    simp only [List.append_nil, List.count_append]
    omega
  refine releaseAll_lose (s := { s with mocks := s.mocks.set m k' }) (hG.move rfl rfl (by simp) hc) rfl fun g => ?_
  have := hc g
  simp only [List.append_nil, List.count_append] at this
  show g ∈ s.world.shares ↔ g ∈ World.shares (s.world.setMock m k') ∨ g ∈ pend
  simp only [mem_iff_count]
  omega

/-- A mock gets other bodies with the same owners. -/
theorem Good.setMock {s : State} {m : Nat} {k k' : Mck} {pend pend' : List Nat} (hG : Good s pend) (hk : s.mocks[m]? = some k)
    (h : ∀ g, (sharesOf k.methods).count g + pend.count g = (sharesOf k'.methods).count g + pend'.count g) : Good { s with mocks := s.mocks.set m k' } pend' := by
  refine hG.move rfl rfl (by simp) fun g => ?_
  show _ = (World.shares (s.world.setMock m k') ++ pend').count g
  have h1 := shares_setMock (w := s.world) hk k' g
  have h2 := h g
  simp only [List.count_append]
  omega

/-- Arguments. -/
theorem pass_give {args : List (Nat × Bool)} : ∀ {s : State} {pend : List Nat}, Good s pend →
    match give args s.vars with
    | some p => ∃ cs, s.pass args = .done ({ s with counts := cs, vars := p.1 }, p.2) ∧ Good { s with counts := cs, vars := p.1 } (p.2 ++ pend) ∧
        ∀ g, g ∈ s.world.shares ↔ g ∈ World.shares ⟨s.objs, p.1, s.mocks⟩ ∨ g ∈ p.2
    | none => ∀ x, s.pass args ≠ .done x := by
  induction args with
  | nil =>
    intro s pend hG
    exact ⟨s.counts, rfl, hG, fun g => by simp [State.world]⟩
  | cons a as ih =>
    intro s pend hG
    obtain ⟨v, moved⟩ := a
    simp only [give, State.pass]
    cases hv : s.vars[v]? with
    | none => intro x hx; simp at hx
    | some o =>
      cases o with
      | none => simpa using ih hG
      | some g =>
        have hmem : g ∈ s.world.shares := by
          simp only [World.shares, State.world, List.mem_append, List.mem_filterMap]
          exact .inl ⟨some g, List.mem_of_getElem? hv, rfl⟩
        have hl : g < s.objs.length := hG.lt g (by simp [hmem])
        -- the state after the first argument
        have key : ∃ s1 : State, s.argument v g moved = .done s1 ∧ s1.objs = s.objs ∧ s1.mocks = s.mocks ∧
            s1.vars = (if moved then s.vars.set v none else s.vars) ∧ Good s1 (g :: pend) ∧ ∀ x, x ∈ s.world.shares ↔ x ∈ s1.world.shares ∨ x = g := by
          cases moved with
          | true =>
            have hc : ∀ x, (s.world.shares ++ pend).count x = (World.shares ⟨s.objs, s.vars.set v none, s.mocks⟩ ++ g :: pend).count x := by
              intro x
              have := count_vars_set hv x
              simp only [Option.toList_some, List.count_cons, List.count_nil] at this
              simp only [World.shares, State.world, List.count_append, List.count_cons]
              omega
            refine ⟨{ s with vars := s.vars.set v none }, rfl, rfl, rfl, rfl, hG.move rfl rfl rfl hc, fun x => ?_⟩
            show _ ↔ x ∈ World.shares ⟨s.objs, s.vars.set v none, s.mocks⟩ ∨ x = g
            have := hc x
            simp only [List.count_append, List.count_cons] at this
            by_cases hx : x = g
            · subst hx; simp [hmem]
            · have hx' : ¬ g = x := fun h => hx h.symm
              simp only [beq_iff_eq, hx', if_false] at this
              simp only [hx, or_false, mem_iff_count]
              omega
          | false =>
            refine ⟨{ s with counts := s.counts.set g ((s.world.shares ++ pend).count g + 1) }, ?_, rfl, rfl, rfl, ?_, fun x => ?_⟩
            · simp [State.argument, State.addRef, hG.cnt g hl]
            · refine ⟨by simpa using hG.len, fun x hx => ?_, fun x hx => ?_, hG.obj⟩
              · show (s.counts.set g _)[x]? = some ((s.world.shares ++ g :: pend).count x)
                by_cases hxg : g = x
                · subst hxg
                  rw [List.getElem?_set_self (by rw [hG.len]; exact hl)]
                  simp only [List.count_append, List.count_cons_self]
                  rfl
                · rw [List.getElem?_set_ne hxg, hG.cnt x hx]
                  simp only [List.count_append, List.count_cons]
                  simp [hxg]
              · have hx : x ∈ s.world.shares ++ g :: pend := hx
                simp only [List.mem_append, List.mem_cons] at hx
                rcases hx with h | rfl | h
                · exact hG.lt x (by simp [h])
                · exact hl
                · exact hG.lt x (by simp [h])
            · show _ ↔ x ∈ s.world.shares ∨ x = g
              constructor
              · exact .inl
              · rintro (h | rfl)
                · exact h
                · exact hmem
        obtain ⟨s1, h1, ho, hk, hvs, hG1, hmem1⟩ := key
        have := ih hG1
        rw [hvs] at this
        simp only [Res.ofOption_some, Res.bind_done, h1]
        cases hg : give as (if moved then s.vars.set v none else s.vars) with
        | none =>
          rw [hg] at this
          simp only [Option.map_none]
          intro x hx
          rw [Res.bind_eq_done] at hx
          obtain ⟨y, hy, -⟩ := hx
          exact this y hy
        | some p =>
          rw [hg] at this
          obtain ⟨cs, h2, h3, h4⟩ := this
          simp only [Option.map_some]
          refine ⟨cs, ?_, ?_, fun x => ?_⟩
          · rw [h2, Res.bind_done, ho, hk]
          · refine h3.move (by simp [ho]) rfl (by simp [hk]) fun x => ?_
            simp only [State.world, World.shares, hk, List.count_append, List.cons_append, List.count_cons]
            omega
          · rw [hmem1, h4]
            simp only [ho, hk, List.mem_cons, or_assoc]
            constructor
            · rintro (h | h | h)
              · exact .inl h
              · exact .inr (.inr h)
              · exact .inr (.inl h)
            · rintro (h | h | h)
              · exact .inl h
              · exact .inr (.inr h)
              · exact .inr (.inl h)

theorem give_shares {w : World} {args : List (Nat × Bool)} {p : List (Option Nat) × List Nat} (h : give args w.vars = some p) (g : Nat) :
    g ∈ w.shares ↔ g ∈ World.shares { w with vars := p.1 } ∨ g ∈ p.2 := by
  obtain ⟨objs, vars, mocks⟩ := w
  induction args generalizing vars p with
  | nil => simp only [give, Option.some.injEq] at h; subst h; simp
  | cons a as ih =>
    obtain ⟨v, moved⟩ := a
    simp only [give] at h
    cases hv : vars[v]? with
    | none => simp [hv] at h
    | some o =>
      cases o with
      | none => simp only [hv] at h; exact ih vars h
      | some x =>
        simp only [hv, Option.map_eq_some_iff] at h
        obtain ⟨q, hq, rfl⟩ := h
        have h1 := ih (if moved then vars.set v none else vars) hq
        have h2 : g ∈ World.shares ⟨objs, vars, mocks⟩ ↔ g ∈ World.shares ⟨objs, if moved then vars.set v none else vars, mocks⟩ ∨ g = x := by
          have hx : x ∈ World.shares ⟨objs, vars, mocks⟩ := by
            simp only [World.shares, List.mem_append, List.mem_filterMap]
            exact .inl ⟨some x, List.mem_of_getElem? hv, rfl⟩
          cases moved with
          | false =>
            simp only [Bool.false_eq_true, if_false]
            exact ⟨.inl, fun h => h.elim id fun h => h ▸ hx⟩
          | true =>
            simp only [if_true]
            by_cases hgx : g = x
            · subst hgx; simp [hx]
            · have := count_vars_set hv g
              have hxg : ¬ x = g := fun h => hgx h.symm
              simp only [Option.toList_some, List.count_cons, List.count_nil, beq_iff_eq, hxg, if_false] at this
              simp only [hgx, or_false, mem_iff_count, World.shares, List.count_append]
              omega
        simp only [List.mem_cons]
        rw [h2, h1]
        simp only [or_assoc]
        constructor
        · rintro (h | h | h)
          · exact .inl h
          · exact .inr (.inr h)
          · exact .inr (.inl h)
        · rintro (h | h | h)
          · exact .inl h
          · exact .inr (.inr h)
          · exact .inr (.inl h)

theorem mock_eq (s : State) (m : Nat) : s.mock m = Res.ofOption (s.world.mock m) := by
  simp only [State.mock, World.mock, State.world]
  cases s.mocks[m]? with
  | none => rfl
  | some k =>
    by_cases h : k.phase = .live <;> simp [h]

theorem mock_some {w : World} {m : Nat} {k : Mck} (h : w.mock m = some k) : w.mocks[m]? = some k ∧ k.phase = .live := by
  unfold World.mock at h
  split at h
  · next k' hk => split at h <;> simp_all
  · cases h

theorem body_eq (k : Mck) (f : Nat) : k.body f = Res.ofOption (Spec.body k f) := by
  simp only [Mck.body, Spec.body]
  cases k.methods[f]? with
  | none => rfl
  | some o =>
    cases o with
    | none => by_cases h : k.object = true <;> simp [h]
    | some b => rfl

theorem dtorBody_eq (k : Mck) : k.dtorBody = Res.ofOption (Spec.dtorBody k) := by
  simp only [Mck.dtorBody, Spec.dtorBody]
  cases k.dtor with
  | none => by_cases h : k.object = true <;> simp [h]
  | some d => rfl

theorem AgreesS.answer {r : Res State} {o : Option World} (h : AgreesS r o) (a : Ans) : Agrees (r >>= fun s => .done (s, a)) (o.map (·, a)) := by
  cases o with
  | none =>
    intro x hx
    rw [Res.bind_eq_done] at hx
    obtain ⟨y, hy, -⟩ := hx
    exact h y hy
  | some w =>
    obtain ⟨s, h1, h2, h3⟩ := h
    exact ⟨s, by rw [h1]; rfl, h2, h3⟩

theorem AgreesS.bind {α : Type} {r : Res State} {o : Option World} (h : AgreesS r o) {f : State → Res (State × α)} {f' : World → Option (World × α)}
    (hf : ∀ s, Good s [] → o = some s.world → Agrees (f s) (f' s.world)) : Agrees (r >>= f) (o.bind f') := by
  cases o with
  | none =>
    intro x hx
    rw [Res.bind_eq_done] at hx
    obtain ⟨y, hy, -⟩ := hx
    exact h y hy
  | some w =>
    obtain ⟨s, h1, h2, h3⟩ := h
    rw [h1, Res.bind_done]
    subst h2
    exact hf s h3 rfl

theorem agrees_bind {α β : Type} {o : Option β} {f : β → Res (State × α)} {f' : β → Option (World × α)} (hf : ∀ b, o = some b → Agrees (f b) (f' b)) :
    Agrees (Res.ofOption o >>= f) (o.bind f') := by
  cases o with
  | none => intro x hx; simp at hx
  | some b => exact hf b rfl

theorem agrees_map {α β : Type} {o : Option β} {f : β → Res (State × α)} {f' : β → World × α} (hf : ∀ b, o = some b → Agrees (f b) (some (f' b))) :
    Agrees (Res.ofOption o >>= f) (o.map f') := by
  cases o with
  | none => intro x hx; simp at hx
  | some b => exact hf b rfl

theorem not_done_ub {α : Type} (x : α) : (Res.ub : Res α) ≠ .done x := by intro h; cases h

theorem sharesOf_set {bs : List (Option Body)} {f : Nat} {o : Option Body} (h : bs[f]? = some o) (b : Body) (g : Nat) :
    (sharesOf bs).count g + (Body.shares b).count g = (sharesOf (bs.set f (some b))).count g + ((o.map Body.shares).getD []).count g := by
  have := count_flatMap_set (f := fun b : Option Body => (b.map Body.shares).getD []) h (some b) g
  simpa [sharesOf] using this

theorem sharesOf_append (xs ys : List (Option Body)) : sharesOf (xs ++ ys) = sharesOf xs ++ sharesOf ys := by simp [sharesOf]

theorem sharesOf_forget (bs : List (Option Body)) (g : Nat) : (sharesOf bs).count g = (sharesOf (forget bs)).count g + (recordsOf bs).count g := by
  induction bs with
  | nil => rfl
  | cons b bs ih =>
    have e1 : sharesOf (b :: bs) = (b.map Body.shares).getD [] ++ sharesOf bs := rfl
    have e2 : sharesOf (forget (b :: bs)) = ((b.map Body.cleared).map Body.shares).getD [] ++ sharesOf (forget bs) := rfl
    have e3 : recordsOf (b :: bs) = (b.map Body.recorded).getD [] ++ recordsOf bs := rfl
    rw [e1, e2, e3]
    cases b with
    | none => simpa using ih
    | some b =>
      simp only [Option.map_some, Option.getD_some, Body.shares, Body.cleared, Body.recorded, List.count_append, List.flatten_nil, List.nil_append] at ih ⊢
      omega

theorem sharesOf_none (bs : List (Option Body)) : sharesOf (bs.map fun _ => none) = [] := by
  induction bs with
  | nil => rfl
  | cons b bs ih => simp [sharesOf]

/-- The body of a method after it was looked up. -/
theorem body_some {k : Mck} {f : Nat} {b : Body} (h : Spec.body k f = some b) : ∃ o, k.methods[f]? = some o ∧ ∀ g, ((o.map Body.shares).getD []).count g = (Body.shares b).count g := by
  unfold Spec.body at h
  split at h
  · next b' hb => cases h; exact ⟨_, hb, fun g => rfl⟩
  · next hb =>
    split at h
    · cases h; exact ⟨_, hb, fun g => by simp [Body.shares, Body.recorded]⟩
    · cases h
  · cases h

/-- **Every operation agrees with the specification.** -/
theorem step_agrees {s : State} (hG : Good s []) (op : Op) : Agrees (s.step op) (s.world.step op) := by
  cases op with
  | mock fake size dtorAt =>
    refine ⟨_, rfl, rfl, ?_⟩
    have hs : World.shares ⟨s.objs, s.vars, s.mocks ++ [⟨fake, List.replicate size none, dtorAt, none, .live, true⟩]⟩ = s.world.shares := by
      have : sharesOf (List.replicate size none) = [] := by
        have := sharesOf_none (List.replicate size none); simp at this; exact this
      simp [World.shares, State.world, this]
    refine ⟨hG.len, fun g hg => ?_, fun g hg => ?_, fun m hm => ?_⟩
    · rw [hG.cnt g hg]
      show _ = some ((World.shares ⟨s.objs, s.vars, s.mocks ++ [_]⟩ ++ []).count g)
      rw [hs]
    · have hg : g ∈ World.shares ⟨s.objs, s.vars, s.mocks ++ [⟨fake, List.replicate size none, dtorAt, none, .live, true⟩]⟩ ++ [] := hg
      rw [hs] at hg
      exact hG.lt g hg
    · have := hG.obj m hm
      show m < (s.mocks ++ [_]).length
      simp only [List.length_append, List.length_singleton]
      omega
  | own m =>
    simp only [State.step, World.step]
    cases hk : s.mocks[m]? with
    | none => simp only [State.world, hk]; exact fun x => not_done_ub x
    | some k =>
      simp only [State.world, hk, Res.ofOption_some, Res.bind_done]
      cases ho : k.object with
      | false => simp only [Bool.false_eq_true, if_false]; exact fun x => not_done_ub x
      | true =>
        simp only [if_true]
        refine ⟨_, rfl, rfl, ?_⟩
        have hs : ∀ g, (World.shares ⟨s.objs ++ [m], s.vars ++ [some s.objs.length], s.mocks⟩ ++ []).count g = s.world.shares.count g + if s.objs.length = g then 1 else 0 := by
          intro g
          simp only [World.shares, State.world, List.append_nil, List.filterMap_append, List.count_append, List.filterMap_cons, List.filterMap_nil, id, List.count_cons, List.count_nil, beq_iff_eq]
          omega
        have hlt : ∀ g, g ∈ s.world.shares → g < s.objs.length := fun g hg => hG.lt g (by simpa using hg)
        refine ⟨by simp [hG.len], fun g hg => ?_, fun g hg => ?_, fun x hx => ?_⟩
        · show (s.counts ++ [1])[g]? = some ((World.shares ⟨s.objs ++ [m], s.vars ++ [some s.objs.length], s.mocks⟩ ++ []).count g)
          rw [hs]
          by_cases h : g < s.objs.length
          · rw [List.getElem?_append_left (by rw [hG.len]; exact h), hG.cnt g h, if_neg (by omega)]
            simp
          · have hg : g < (s.objs ++ [m]).length := hg
            simp only [List.length_append, List.length_singleton] at hg
            have : g = s.objs.length := by omega
            subst this
            have h0 : s.world.shares.count s.objs.length = 0 := List.count_eq_zero_of_not_mem fun h => Nat.lt_irrefl _ (hlt _ h)
            rw [h0, if_pos rfl, ← hG.len]
            simp
        · have hg : g ∈ World.shares ⟨s.objs ++ [m], s.vars ++ [some s.objs.length], s.mocks⟩ ++ [] := hg
          rw [mem_iff_count, hs] at hg
          show g < (s.objs ++ [m]).length
          simp only [List.length_append, List.length_singleton]
          by_cases h : s.objs.length = g
          · omega
          · rw [if_neg h, Nat.add_zero, ← mem_iff_count] at hg
            have := hlt g hg
            omega
        · have hx : x ∈ s.objs ++ [m] := hx
          show x < s.mocks.length
          simp only [List.mem_append, List.mem_singleton] at hx
          rcases hx with h | rfl
          · exact hG.obj x h
          · exact (List.getElem?_eq_some_iff.1 hk).1
  | copy v =>
    simp only [State.step, World.step]
    cases hv : s.vars[v]? with
    | none => simp only [State.world, hv]; exact fun x => not_done_ub x
    | some o =>
      simp only [State.world, hv, Res.ofOption_some, Res.bind_done, State.share]
      have := pass_give (args := [(v, false)]) hG
      cases o with
      | none =>
        simp only [State.pass, hv, Res.ofOption_some, Res.bind_done]
        refine ⟨_, rfl, rfl, hG.move rfl rfl rfl fun g => ?_⟩
        simp [State.world, World.shares]
      | some g =>
        simp only [give, hv] at this
        obtain ⟨cs, h1, h2, -⟩ := this
        rw [h1, Res.bind_done]
        refine ⟨_, rfl, rfl, h2.move rfl rfl rfl fun x => ?_⟩
        simp only [State.world, World.shares, List.filterMap_append, List.count_append, List.filterMap_cons, List.filterMap_nil, id, List.count_cons, List.count_nil]
        simp
        omega
  | drop v =>
    simp only [State.step, World.step]
    cases hv : s.vars[v]? with
    | none =>
      have : ¬ v < s.vars.length := by simpa using hv
      simp only [State.world, this, if_false]
      exact fun x => not_done_ub x
    | some o =>
      have hl : v < s.vars.length := (List.getElem?_eq_some_iff.1 hv).1
      simp only [Res.ofOption_some, Res.bind_done]
      have e : s.world.vars.length = s.vars.length := rfl
      rw [e, if_pos hl]
      have hc : ∀ g, (s.world.shares ++ []).count g = (World.shares ⟨s.objs, s.vars.set v none, s.mocks⟩ ++ o.toList).count g := by
        intro g
        have := count_vars_set hv g
        simp only [State.world, World.shares, List.append_nil, List.count_append]
        omega
      refine AgreesS.answer (releaseAll_lose (s := { s with vars := s.vars.set v none }) (hG.move rfl rfl rfl hc) rfl fun g => ?_) .nothing
      have := hc g
      simp only [List.append_nil, List.count_append] at this
      show g ∈ s.world.shares ↔ g ∈ World.shares ⟨s.objs, s.vars.set v none, s.mocks⟩ ∨ g ∈ o.toList
      simp only [mem_iff_count]
      omega
  | stub m f v =>
    simp only [State.step, World.step, State.stub]
    have hsh : s.share v = s.pass (v.toList.map (·, false)) := by cases v <;> rfl
    rw [hsh]
    have := pass_give (args := v.toList.map (·, false)) hG
    cases hg : give (v.toList.map (·, false)) s.vars with
    | none =>
      rw [hg] at this
      have e : s.world.vars = s.vars := rfl
      rw [e, hg]
      intro x hx
      rw [Res.bind_eq_done] at hx
      obtain ⟨y, hy, -⟩ := hx
      exact this y hy
    | some p =>
      rw [hg] at this
      obtain ⟨cs, h1, h2, -⟩ := this
      have e : s.world.vars = s.vars := rfl
      rw [e, hg, h1, Res.bind_done, Option.bind_some]
      have hp : p.1 = s.vars := by
        cases v with
        | none => simp only [Option.toList_none, List.map_nil, give, Option.some.injEq] at hg; rw [← hg]
        | some v =>
          simp only [Option.toList_some, List.map_cons, List.map_nil, give] at hg
          cases hv : s.vars[v]? with
          | none => simp [hv] at hg
          | some o =>
            cases o with
            | none => simp only [hv, Option.some.injEq] at hg; rw [← hg]
            | some g => simp only [hv, Bool.false_eq_true, if_false, Option.map_some, Option.some.injEq] at hg; rw [← hg]
      simp only []
      rw [mock_eq]
      have e2 : State.world { s with counts := cs, vars := p.1 } = s.world := by simp [State.world, hp]
      rw [e2]
      refine agrees_bind fun k hk => ?_
      rw [body_eq]
      refine agrees_map fun b hb => ?_
      obtain ⟨o, ho, hcb⟩ := body_some hb
      refine ⟨_, rfl, by simp [State.world, World.setMock, hp], ?_⟩
      refine Good.setMock h2 (mock_some hk).1 fun g => ?_
      have h3 := sharesOf_set ho ⟨true, b.kept ++ p.2, b.records⟩ g
      have h4 := hcb g
      simp only [Body.shares, Body.recorded, List.count_append, List.append_nil, List.count_nil] at h3 h4 ⊢
      omega
  | stubDtor m n =>
    simp only [State.step, World.step]
    rw [mock_eq]
    refine agrees_bind fun k hk => ?_
    rw [dtorBody_eq]
    refine agrees_map fun d hd => ?_
    exact ⟨_, rfl, rfl, Good.setMock hG (mock_some hk).1 fun g => rfl⟩
  | call m f args =>
    simp only [State.step, World.step, State.call]
    have := pass_give (args := args) hG
    have e : s.world.vars = s.vars := rfl
    rw [e]
    cases hg : give args s.vars with
    | none =>
      rw [hg] at this
      intro x hx
      rw [Res.bind_eq_done] at hx
      obtain ⟨y, hy, -⟩ := hx
      exact this y hy
    | some p =>
      rw [hg] at this
      obtain ⟨cs, h1, h2, h3⟩ := this
      rw [h1, Res.bind_done, Option.bind_some]
      simp only []
      have e2 : s.world.mocks = s.mocks := rfl
      rw [e2]
      have go : AgreesS (State.releaseAll p.2 { s with counts := cs, vars := p.1 }) (lose s.world { s.world with vars := p.1 }) :=
        releaseAll_lose (s := { s with counts := cs, vars := p.1 }) (by simpa using h2) rfl h3
      cases hk : s.mocks[m]? with
      | none => exact fun x => not_done_ub x
      | some k =>
        simp only [Res.ofOption_some, Res.bind_done]
        cases ho : k.object with
        | false => simp only [Bool.false_eq_true, if_false, if_true]; exact fun x => not_done_ub x
        | true =>
          simp only [if_true, Bool.true_eq_false, if_false]
          cases hp : k.phase with
          | ended => exact go.answer _
          | resetting => exact fun x => not_done_ub x
          | live =>
            simp only []
            cases hf : k.methods[f]? with
            | none => exact fun x => not_done_ub x
            | some o =>
              simp only [Res.ofOption_some, Res.bind_done]
              cases o with
              | none => exact go.answer _
              | some b =>
                simp only []
                cases hb : b.stubbed with
                | false => simp only [Bool.false_eq_true, if_false]; exact go.answer _
                | true =>
                  simp only [if_true]
                  refine ⟨_, rfl, rfl, ?_⟩
                  refine Good.setMock h2 hk fun g => ?_
                  have h3 := sharesOf_set hf ⟨true, b.kept, b.records ++ [p.2]⟩ g
                  simp only [Option.map_some, Option.getD_some, Body.shares, Body.recorded, List.flatten_append, List.flatten_cons, List.flatten_nil, List.count_append, List.append_nil, List.count_nil] at h3 ⊢
                  omega
  | count m f =>
    simp only [State.step, World.step]
    rw [mock_eq]
    refine agrees_bind fun k hk => ?_
    rw [body_eq]
    refine agrees_map fun b hb => ?_
    obtain ⟨o, ho, hcb⟩ := body_some hb
    refine ⟨_, rfl, rfl, Good.setMock hG (mock_some hk).1 fun g => ?_⟩
    have h3 := sharesOf_set ho b g
    have h4 := hcb g
    simp only [List.count_nil] at h3 h4 ⊢
    omega
  | countDtor m =>
    simp only [State.step, World.step]
    rw [mock_eq]
    refine agrees_bind fun k hk => ?_
    rw [dtorBody_eq]
    refine agrees_map fun d hd => ?_
    exact ⟨_, rfl, rfl, Good.setMock hG (mock_some hk).1 fun g => rfl⟩
  | clear m =>
    simp only [State.step, World.step, State.clear]
    rw [mock_eq]
    have assoc : ∀ {α β γ : Type} (x : Res α) (f : α → Res β) (g : β → Res γ), ((x >>= f) >>= g) = (x >>= fun a => f a >>= g) := by
      intro α β γ x f g; cases x <;> rfl
    rw [assoc]
    refine agrees_bind fun k hk => ?_
    rw [assoc]
    refine AgreesS.bind (lose_mock hG (mock_some hk).1 fun g => ?_) fun s1 hG1 _ => ?_
    · have h1 : sharesOf k.methods = sharesOf (k.methods.take k.dtorAt) ++ sharesOf (k.methods.drop k.dtorAt) := by rw [← sharesOf_append, List.take_append_drop]
      have h2 := sharesOf_forget (k.methods.take k.dtorAt) g
      simp only [h1, sharesOf_append, List.count_append]
      have h3 : List.map (Option.map Body.cleared) (List.take k.dtorAt k.methods) = forget (List.take k.dtorAt k.methods) := rfl
      rw [h3]
      omega
    · rw [mock_eq, assoc]
      refine agrees_bind fun k hk => ?_
      refine AgreesS.answer (lose_mock hG1 (mock_some hk).1 fun g => ?_) _
      have h1 : sharesOf k.methods = sharesOf (k.methods.take k.dtorAt) ++ sharesOf (k.methods.drop k.dtorAt) := by rw [← sharesOf_append, List.take_append_drop]
      have h2 := sharesOf_forget (k.methods.drop k.dtorAt) g
      simp only [h1, sharesOf_append, List.count_append]
      have h3 : List.map (Option.map Body.cleared) (List.drop k.dtorAt k.methods) = forget (List.drop k.dtorAt k.methods) := rfl
      rw [h3]
      omega
  | reset m =>
    simp only [State.step, World.step, State.reset]
    rw [mock_eq]
    have assoc : ∀ {α β γ : Type} (x : Res α) (f : α → Res β) (g : β → Res γ), ((x >>= f) >>= g) = (x >>= fun a => f a >>= g) := by
      intro α β γ x f g; cases x <;> rfl
    rw [assoc]
    refine agrees_bind fun k hk => ?_
    rw [assoc]
    refine AgreesS.bind (lose_mock hG (mock_some hk).1 fun g => by simp [sharesOf_none]) fun s1 hG1 _ => ?_
    rw [assoc]
    have e : s1.world.mocks = s1.mocks := rfl
    rw [e]
    refine agrees_map fun k hk => ?_
    exact ⟨_, rfl, rfl, Good.setMock hG1 hk fun g => rfl⟩
  | destroy m =>
    simp only [State.step, World.step, State.destroy]
    rw [mock_eq]
    have assoc : ∀ {α β γ : Type} (x : Res α) (f : α → Res β) (g : β → Res γ), ((x >>= f) >>= g) = (x >>= fun a => f a >>= g) := by
      intro α β γ x f g; cases x <;> rfl
    rw [assoc]
    refine agrees_bind fun k hk => ?_
    cases ho : k.object with
    | false => simp only [Bool.false_eq_true, if_false]; exact fun x => not_done_ub x
    | true =>
      simp only [if_true]
      rw [assoc]
      refine AgreesS.bind (lose_mock hG (mock_some hk).1 fun g => by simp [sharesOf_none]) fun s1 hG1 _ => ?_
      rw [assoc]
      have e : s1.world.mocks = s1.mocks := rfl
      rw [e]
      refine agrees_map fun k hk => ?_
      exact ⟨_, rfl, rfl, Good.setMock hG1 hk fun g => rfl⟩

theorem good_start : Good start [] := by
  refine ⟨rfl, fun g hg => ?_, fun g hg => ?_, fun m hm => ?_⟩
  · exact absurd hg (Nat.not_lt_zero _)
  · simp [start, State.world, World.shares] at hg
  · simp [start] at hm

theorem run_agrees {ops : List Op} : ∀ {s : State}, Good s [] → Agrees (s.run ops) (s.world.run ops) := by
  induction ops with
  | nil => intro s hG; exact ⟨s, rfl, rfl, hG⟩
  | cons op ops ih =>
    intro s hG
    have h := step_agrees hG op
    simp only [State.run, World.run]
    cases ho : s.world.step op with
    | none =>
      rw [ho] at h
      intro x hx
      rw [Res.bind_eq_done] at hx
      obtain ⟨y, hy, -⟩ := hx
      exact h y hy
    | some p =>
      rw [ho] at h
      obtain ⟨s1, h1, h2, h3⟩ := h
      rw [h1, Res.bind_done, Option.bind_some, ← h2]
      have h4 := ih h3
      cases hr : s1.world.run ops with
      | none =>
        rw [hr] at h4
        intro x hx
        simp only [Res.bind_eq_done] at hx
        obtain ⟨y, hy, -⟩ := hx
        exact h4 y hy
      | some q =>
        rw [hr] at h4
        obtain ⟨s2, h5, h6, h7⟩ := h4
        exact ⟨s2, by simp only [h5, Res.bind_done], h6, h7⟩

end FakeIt.Owners
