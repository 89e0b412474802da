import Verif.Lemmas.Functors
/-!
# Function objects: operations and programs
-/
namespace FakeIt.Functors
open Spec

variable {S V E A : Type}

/-! ## Stubbing -/

theorem matching_at {s : St S A} {a : ASt S A} (hr : Rel s a) (hf : Fine s) {p : Option Nat} {pv : Option (Fn S)} (hv : predValue a p = some pv) :
    ∃ q s', matching p s = .done (q, s') ∧ Same s s' ∧ Fine s' ∧ Keeps s s' ∧ q.toList.length = p.toList.length ∧
      ((q.map Prod.snd).map s'.objs) = pv.map some ∧ (∀ y ∈ (q.map Prod.fst).toList, (s'.objs y).isSome ∧ s.objs y = none ∧ y ∉ (q.map Prod.snd).toList) ∧
      (∀ y ∈ (q.map Prod.snd).toList, s.objs y = none) ∧
      ∀ y, y ∉ (q.map Prod.fst).toList → y ∉ (q.map Prod.snd).toList → s'.objs y = s.objs y := by
  cases p with
  | none =>
    simp [predValue] at hv; subst hv
    exact ⟨none, s, rfl, Same.refl s, hf, fun _ _ h => h, rfl, rfl, by simp, by simp, by simp⟩
  | some x =>
    rcases var_at hr x with ⟨id, f, -, h1, h2, h3⟩ | ⟨-, h2⟩
    · simp [predValue, h3] at hv; subst hv
      obtain ⟨s1, c1, o1, n1, sm1, f1⟩ := copy_at hf h2
      have hp : s1.objs s.next = some f := by rw [o1, upd_self]
      obtain ⟨s2, c2, o2, n2, sm2, f2⟩ := copy_at f1 hp
      have hne : s.next ≠ s1.next := by omega
      have hnone1 : s.objs s.next = none := hf.bound _ (Nat.le_refl _)
      have hnone2 : s.objs s1.next = none := hf.bound _ (by omega)
      refine ⟨some (s.next, s1.next), s2, by simp only [matching, h1, R.bind_done, c1, c2], sm1.trans sm2, f2, ?_, rfl, ?_, ?_, ?_, ?_⟩
      · exact (keeps_upd o1 hnone1).trans (keeps_upd o2 (f1.bound _ (Nat.le_refl _)))
      · simp [o2, upd_self]
      · simp [o2, upd_ne hne, hp, hnone1, hne]
      · simp [hnone2]
      · intro y hy1 hy2
        simp at hy1 hy2
        rw [o2, upd_ne hy2, o1, upd_ne hy1]
    · simp [predValue, h2] at hv

theorem matching_ub {s : St S A} {a : ASt S A} (hr : Rel s a) {p : Option Nat} (hv : predValue a p = none) : matching p s = .ub := by
  cases p with
  | none => simp [predValue] at hv
  | some x =>
    rcases var_at hr x with ⟨id, f, -, h1, h2, h3⟩ | ⟨h1, -⟩
    · simp [predValue, h3] at hv
    · simp [matching, h1]

theorem stub_at {s : St S A} {a : ASt S A} {t : Tally} (h : Inv s a t) {p : Option Nat} {l : List (How × Nat)} (u : Bool) {pv : Option (Fn S)} {fs}
    (hp : predValue a p = some pv) (hl : values a l = some fs) :
    ∃ s', stub p l u s = .done s' ∧ Inv s' (if u then a else { a with scripts := ⟨pv, fs⟩ :: a.scripts }) (Tally.step t (.stub p l u : Op S A)) := by
  obtain ⟨q, s1, m1, m2, m3, m4, m5, m6, m7, m8, m9⟩ := matching_at h.rel h.fine hp
  obtain ⟨as, s2, g1, g2, g3, g4, g5, g6, g7, g8⟩ := giveAll_at l (h.rel.keep m4 m2) m3 hl
  have hk2 : Keeps s1 s2 := by
    intro x f hx
    rw [g5 x (fun h' => by rw [g4 x h'] at hx; cases hx)]; exact hx
  -- the new function objects
  have hqs : ∀ y ∈ (q.map Prod.snd).toList, (s1.objs y).isSome := by
    intro y hy
    cases q with
    | none => simp at hy
    | some r =>
      simp at hy; subst hy
      cases pv with
      | none => simp at m6
      | some f => simp at m6; simp [m6]
  have hqa : ∀ y ∈ (q.map Prod.snd).toList, y ∉ as.map Act.fn := by
    intro y hy h'
    have := hqs y hy
    rw [g4 y h'] at this; cases this
  have hta : ∀ y ∈ (q.map Prod.fst).toList, y ∉ as.map Act.fn := by
    intro y hy h'
    have := (m7 y hy).1
    rw [g4 y h'] at this; cases this
  let tt : Stub := { pred := q.map Prod.snd, acts := as, used := [] }
  have hfns : tt.fns = as.map Act.fn ++ (q.map Prod.snd).toList := by simp [tt, Stub.fns]
  have hnd : tt.fns.Nodup := by
    rw [hfns, List.nodup_append]
    refine ⟨g3, by cases q <;> simp, fun y hy z hz hyz => ?_⟩
    subst hyz; exact hqa y hz hy
  have hsome2 : ∀ x ∈ tt.fns, (s2.objs x).isSome := by
    intro x hx
    rw [hfns, List.mem_append] at hx
    rcases hx with hx | hx
    · obtain ⟨act, hact, rfl⟩ := List.mem_map.1 hx
      have hm : (s2.objs act.fn, left act.times) ∈ fs.map fun p => (some p.1, p.2) := by rw [← g2]; exact List.mem_map.2 ⟨act, hact, rfl⟩
      obtain ⟨r, -, hr⟩ := List.mem_map.1 hm
      simp only [Prod.mk.injEq] at hr
      rw [← hr.1]; rfl
    · rw [g5 x (hqa x hx)]; exact hqs x hx
  have hnew : ∀ x ∈ tt.fns, s.objs x = none := by
    intro x hx
    rw [hfns, List.mem_append] at hx
    rcases hx with hx | hx
    · have := g4 x hx
      cases hs : s.objs x with
      | none => rfl
      | some f => rw [m4 x f hs] at this; cases this
    · exact m8 x hx
  have htmp2 : ∀ y ∈ (q.map Prod.fst).toList, (s2.objs y).isSome ∧ y ∉ tt.fns ∧ s.objs y = none := by
    intro y hy
    refine ⟨by rw [g5 y (hta y hy)]; exact (m7 y hy).1, ?_, (m7 y hy).2.1⟩
    rw [hfns, List.mem_append]
    exact not_or.2 ⟨hta y hy, (m7 y hy).2.2⟩
  have hrest : ∀ y, y ∉ tt.fns → y ∉ (q.map Prod.fst).toList → s2.objs y = s.objs y := by
    intro y hy hy'
    rw [hfns, List.mem_append, not_or] at hy
    rw [g5 y hy.1, m9 y hy' hy.2]
  have htnd : (q.map Prod.fst).toList.Nodup := by cases q <;> simp
  have hsm := m2.trans g6
  cases u with
  | true =>
    obtain ⟨s3, d1, d2, d3, d4, d5⟩ := destroyAll_at g7 hnd hsome2
    obtain ⟨s4, e1, e2, e3, e4, e5⟩ := destroyAll_at (ids := (q.map Prod.fst).toList) d5 htnd (by
      intro y hy; rw [d2]; simp only [(htmp2 y hy).2.1, if_false]; exact (htmp2 y hy).1)
    have hobj : s4.objs = s.objs := by
      rw [e2, d2]; funext y
      by_cases hy : y ∈ (q.map Prod.fst).toList
      · simp only [hy, if_true]; exact (htmp2 y hy).2.2.symm
      · simp only [hy, if_false]
        by_cases hy' : y ∈ tt.fns
        · simp only [hy', if_true]; exact (hnew y hy').symm
        · simp only [hy', if_false]; exact hrest y hy' hy
    have hsame := (hsm.trans d4).trans e4
    refine ⟨s4, ?_, h.rel.keep (fun x f hx => by rw [hobj]; exact hx) hsame, e5, ?_, ?_⟩
    · simp only [stub, m1, R.bind_done, g1, if_true]
      show (destroyAll tt.fns s2 >>= _) = _
      rw [d1]; exact e1
    · exact h.own.same hsame.vars (by rw [hsame.stubs]) (fun x => by rw [hobj])
    · have := h.counts.same hsame.vars (by rw [hsame.stubs])
      simpa [Tally.step] using this
  | false =>
    obtain ⟨s4, e1, e2, e3, e4, e5⟩ := destroyAll_at (s := { s2 with stubs := s2.stubs ++ [tt] }) (ids := (q.map Prod.fst).toList)
      ⟨g7.bound, g7.dead, g7.died, g7.once⟩ htnd (fun y hy => (htmp2 y hy).1)
    have hv4 : s4.vars = s.vars := e4.vars.trans hsm.vars
    have hs4 : s4.stubs = s.stubs ++ [tt] := by rw [e4.stubs]; show s2.stubs ++ [tt] = _; rw [hsm.stubs]
    have hobj : ∀ y, y ∉ tt.fns → s4.objs y = s.objs y := by
      intro y hy'
      rw [e2]
      by_cases hy : y ∈ (q.map Prod.fst).toList
      · simp only [hy, if_true]; exact (htmp2 y hy).2.2.symm
      · simp only [hy, if_false]; exact hrest y hy' hy
    have hobj2 : ∀ y ∈ tt.fns, s4.objs y = s2.objs y := by
      intro y hy
      rw [e2]
      have : y ∉ (q.map Prod.fst).toList := fun h' => (htmp2 y h').2.1 hy
      simp only [this, if_false]
    have hk : ∀ x f, s.objs x = some f → s4.objs x = some f := by
      intro x f hx
      rw [hobj x (fun h' => by rw [hnew x h'] at hx; cases hx)]; exact hx
    refine ⟨s4, ?_, ⟨?_, ?_, ?_, ?_⟩, e5, ?_, ?_⟩
    · simp only [stub, m1, R.bind_done, g1, Bool.false_eq_true, if_false]
      exact e1
    · rw [hv4]; exact vars_keep hk h.rel.vars
    · rw [hs4]
      simp only [List.reverse_append, List.reverse_cons, List.reverse_nil, List.nil_append, List.singleton_append, List.map_cons, Bool.false_eq_true, if_false, List.cons.injEq]
      refine ⟨?_, views_keep hk h.rel.stubs⟩
      have : view s4.objs tt = view s2.objs tt := view_congr hobj2
      rw [this]
      unfold view inj
      congr 1
      have : (q.map Prod.snd).map s2.objs = (q.map Prod.snd).map s1.objs := by
        cases q with
        | none => rfl
        | some r => simp only [Option.map_some, Option.some.injEq]; exact g5 _ (hqa _ (by simp))
      show (q.map Prod.snd).map s2.objs = _
      rw [this, m6]
    · rw [e4.hist]; exact (hsm.hist.trans h.rel.hist)
    · rw [e4.alive]; exact (hsm.alive.trans h.rel.alive)
    · exact h.own.add hv4 hs4 hnd hnew hobj (fun x hx => by rw [hobj2 x hx]; exact hsome2 x hx)
    · refine ⟨by rw [hv4]; exact h.counts.vars, ?_⟩
      rw [hs4]
      simp only [Tally.step, Bool.false_eq_true, if_false, List.flatMap_append, List.length_append, List.flatMap_cons, List.flatMap_nil, List.append_nil, ← h.counts.given, hfns,
        List.length_map, g8]
      have : (q.map Prod.snd).toList.length = p.toList.length := by rw [← m5]; cases q <;> rfl
      omega

theorem stub_ub {s : St S A} {a : ASt S A} {t : Tally} (h : Inv s a t) {p : Option Nat} {l : List (How × Nat)} (u : Bool)
    (hn : predValue a p = none ∨ values a l = none) : stub p l u s = .ub := by
  cases hp : predValue a p with
  | none => simp [stub, matching_ub h.rel hp]
  | some pv =>
    obtain ⟨q, s1, m1, m2, m3, m4, -⟩ := matching_at h.rel h.fine hp
    have hl : values a l = none := by rcases hn with h' | h' <;> simp_all
    simp only [stub, m1, R.bind_done, giveAll_ub l (h.rel.keep m4 m2) m3 hl, R.bind_ub]

theorem assign_at {s : St S A} {a : ASt S A} {t : Tally} (h : Inv s a t) {x : Nat} {f : Fn S} (hv : value a x = some f) :
    ∃ s', assign x s = .done s' ∧ Inv s' { a with scripts := ⟨none, [(f, none)]⟩ :: a.scripts } (Tally.step t (.assign x : Op S A)) := by
  rcases var_at h.rel x with ⟨id, g, -, h1, h2, h3⟩ | ⟨-, h2⟩
  · rw [hv] at h3; cases h3
    obtain ⟨m, s1, p1, p2, p3, -, p5, p6⟩ := pass_at 4 h.fine h2
    have hk : ∀ x f, s.objs x = some f → s1.objs x = some f := keeps_upd p2 p3
    refine ⟨{ s1 with stubs := s1.stubs ++ [{ pred := none, acts := [⟨m, none⟩], used := [] }] }, by simp only [assign, h1, R.bind_done, p1],
      ⟨?_, ?_, p5.hist.trans h.rel.hist, p5.alive.trans h.rel.alive⟩, ⟨p6.bound, p6.dead, p6.died, p6.once⟩, ?_, ?_⟩
    · show s1.vars.map (Option.map s1.objs) = _
      rw [p5.vars]; exact vars_keep hk h.rel.vars
    · show (s1.stubs ++ [_]).reverse.map (view s1.objs) = _
      rw [p5.stubs]
      simp only [List.reverse_append, List.reverse_cons, List.reverse_nil, List.nil_append, List.singleton_append, List.map_cons, List.cons.injEq]
      exact ⟨by simp [view, inj, left, p2, upd_self], views_keep hk h.rel.stubs⟩
    · refine h.own.add (t := { pred := none, acts := [⟨m, none⟩], used := [] }) p5.vars (by rw [p5.stubs]) (by simp [Stub.fns]) ?_ ?_ ?_
      · intro y hy; simp [Stub.fns] at hy; subst hy; exact p3
      · intro y hy; simp [Stub.fns] at hy; show s1.objs y = _; rw [p2, upd_ne hy]
      · intro y hy; simp [Stub.fns] at hy; subst hy; show (s1.objs y).isSome = true; rw [p2, upd_self]; rfl
    · refine ⟨by show _ = s1.vars.map _; rw [p5.vars]; exact h.counts.vars, ?_⟩
      show t.given + 1 = ((s1.stubs ++ [_]).flatMap _).length
      rw [p5.stubs]; simp [Stub.fns, h.counts.given]
  · rw [hv] at h2; cases h2

theorem assign_ub {s : St S A} {a : ASt S A} (h : Rel s a) {x : Nat} (hv : value a x = none) : assign x s = .ub := by
  rcases var_at h x with ⟨id, g, -, h1, h2, h3⟩ | ⟨h1, -⟩
  · rw [hv] at h3; cases h3
  · simp [assign, h1]

/-! ## The test's own function objects -/

theorem make_at {s : St S A} {a : ASt S A} {t : Tally} (h : Inv s a t) (f : Fn S) :
    Inv { s with objs := upd s.objs s.next (some f), next := s.next + 1, vars := s.vars ++ [some s.next] } { a with vars := a.vars ++ [some f] } (Tally.step t (.make f : Op S A)) := by
  have hnone : s.objs s.next = none := h.fine.bound _ (Nat.le_refl _)
  have hk : ∀ x f', s.objs x = some f' → upd s.objs s.next (some f) x = some f' := by
    intro x f' hx
    rw [upd_ne (fun h' => by rw [h', hnone] at hx; cases hx)]; exact hx
  refine ⟨⟨?_, views_keep hk h.rel.stubs, h.rel.hist, h.rel.alive⟩, fine_new h.fine f _, ⟨?_, fun x => ?_⟩, ⟨?_, h.counts.given⟩⟩
  · show (s.vars ++ [some s.next]).map (Option.map (upd s.objs s.next (some f))) = _
    rw [List.map_append, List.map_append, vars_keep hk h.rel.vars]
    simp [upd_self]
  · show ((s.vars ++ [some s.next]).filterMap id ++ s.stubs.flatMap Stub.fns).Nodup
    have hn := h.own.nodup
    unfold owned at hn
    have hnot : s.next ∉ s.vars.filterMap id ++ s.stubs.flatMap Stub.fns := fun h' => by
      have := (h.own.some s.next).2 h'
      rw [hnone] at this; cases this
    rw [List.filterMap_append]
    show (s.vars.filterMap id ++ [s.next] ++ s.stubs.flatMap Stub.fns).Nodup
    rw [List.append_assoc, List.singleton_append]
    exact ((List.perm_middle (l₁ := s.vars.filterMap id) (a := s.next)).nodup_iff).2 (List.nodup_cons.2 ⟨hnot, hn⟩)
  · show (upd s.objs s.next (some f) x).isSome = true ↔ x ∈ (s.vars ++ [some s.next]).filterMap id ++ s.stubs.flatMap Stub.fns
    have := h.own.some x
    unfold owned at this
    by_cases hx : x = s.next
    · subst hx; simp [upd_self]
    · rw [upd_ne hx, this]; simp [hx]
  · show t.vars ++ [true] = (s.vars ++ [some s.next]).map _
    simp [h.counts.vars]

theorem mem_of_get {vs : List (Option Nat)} {x id : Nat} (h : vs[x]? = some (some id)) : id ∈ vs.filterMap (fun o => o) := by
  rw [List.mem_filterMap]; exact ⟨some id, List.mem_of_getElem? h, rfl⟩

/-- Changing one owned function object. -/
theorem vars_set {m : Nat → Option (Fn S)} {id : Nat} {f : Fn S} :
    ∀ {vs : List (Option Nat)} {as : List (Option (Fn S))} {x : Nat}, vs.map (Option.map m) = as.map (Option.map some) → vs[x]? = some (some id) → (vs.filterMap (fun o => o)).Nodup →
      vs.map (Option.map (upd m id (some f))) = (as.set x (some f)).map (Option.map some)
  | [], as, x, _, hx, _ => by simp at hx
  | v :: vs, [], x, h, _, _ => by simp at h
  | v :: vs, b :: as, 0, h, hx, hn => by
    simp at hx; subst hx
    simp only [List.map_cons, List.cons.injEq, List.set_cons_zero] at h ⊢
    refine ⟨by simp [upd_self], ?_⟩
    rw [← h.2]
    apply List.map_congr_left
    intro o ho
    cases o with
    | none => rfl
    | some y =>
      have : id ∉ vs.filterMap (fun o => o) := by
        rw [List.filterMap_cons] at hn; exact (List.nodup_cons.1 hn).1
      have hy : y ≠ id := fun h' => this (by rw [List.mem_filterMap]; exact ⟨some y, ho, by rw [h']⟩)
      simp [upd_ne hy]
  | v :: vs, b :: as, x + 1, h, hx, hn => by
    simp only [List.map_cons, List.cons.injEq, List.set_cons_succ] at h ⊢
    simp at hx
    refine ⟨?_, vars_set h.2 hx ?_⟩
    · cases v with
      | none => exact h.1
      | some y =>
        have hy : y ≠ id := by
          intro h'
          subst h'
          have : y ∉ vs.filterMap (fun o => o) := (List.nodup_cons.1 (by simpa using hn)).1
          exact this (mem_of_get hx)
        simpa [upd_ne hy] using h.1
    · cases v with
      | none => simpa using hn
      | some y => exact (List.nodup_cons.1 (by simpa using hn)).2

theorem vars_drop {m : Nat → Option (Fn S)} {id : Nat} {o : Option (Fn S)} :
    ∀ {vs : List (Option Nat)} {as : List (Option (Fn S))} {x : Nat}, vs.map (Option.map m) = as.map (Option.map some) → vs[x]? = some (some id) → (vs.filterMap (fun o => o)).Nodup →
      (vs.set x none).map (Option.map (upd m id o)) = (as.set x none).map (Option.map some)
  | [], as, x, _, hx, _ => by simp at hx
  | v :: vs, [], x, h, _, _ => by simp at h
  | v :: vs, b :: as, 0, h, hx, hn => by
    simp at hx; subst hx
    simp only [List.map_cons, List.cons.injEq, List.set_cons_zero] at h ⊢
    refine ⟨rfl, ?_⟩
    rw [← h.2]
    apply List.map_congr_left
    intro o' ho
    cases o' with
    | none => rfl
    | some y =>
      have : id ∉ vs.filterMap (fun o => o) := by
        rw [List.filterMap_cons] at hn; exact (List.nodup_cons.1 hn).1
      have hy : y ≠ id := fun h' => this (by rw [List.mem_filterMap]; exact ⟨some y, ho, by rw [h']⟩)
      simp [upd_ne hy]
  | v :: vs, b :: as, x + 1, h, hx, hn => by
    simp only [List.map_cons, List.cons.injEq, List.set_cons_succ] at h ⊢
    simp at hx
    refine ⟨?_, vars_drop h.2 hx ?_⟩
    · cases v with
      | none => exact h.1
      | some y =>
        have hy : y ≠ id := by
          intro h'
          subst h'
          have : y ∉ vs.filterMap (fun o => o) := (List.nodup_cons.1 (by simpa using hn)).1
          exact this (mem_of_get hx)
        simpa [upd_ne hy] using h.1
    · cases v with
      | none => simpa using hn
      | some y => exact (List.nodup_cons.1 (by simpa using hn)).2

theorem filterMap_set_perm : ∀ {vs : List (Option Nat)} {x id : Nat}, vs[x]? = some (some id) →
    List.Perm (vs.filterMap (fun o => o)) (id :: (vs.set x none).filterMap (fun o => o))
  | [], x, id, h => by simp at h
  | v :: vs, 0, id, h => by simp at h; subst h; simp
  | v :: vs, x + 1, id, h => by
    simp at h
    have := filterMap_set_perm h
    cases v with
    | none => simpa using this
    | some y =>
      simp only [List.set_cons_succ, List.filterMap_cons]
      exact (this.cons y).trans (List.Perm.swap _ _ _)

theorem owned_nodup {s : St S A} (h : Owned s) : (s.vars.filterMap (fun o => o)).Nodup ∧ (s.stubs.flatMap Stub.fns).Nodup ∧
    ∀ x ∈ s.vars.filterMap (fun o => o), x ∉ s.stubs.flatMap Stub.fns := by
  have hn := h.nodup
  unfold owned at hn
  rw [List.nodup_append] at hn
  exact ⟨hn.1, hn.2.1, fun x hx hx' => hn.2.2 x hx x hx' rfl⟩

theorem views_other {m m' : Nat → Option (Fn S)} {ts : List Stub} (h : ∀ x ∈ ts.flatMap Stub.fns, m' x = m x) : ts.map (view m') = ts.map (view m) := by
  apply List.map_congr_left
  intro t ht
  exact view_congr fun x hx => h x (List.mem_flatMap.2 ⟨t, ht, hx⟩)

theorem own_run_at (beh : Nat → S → A → S × Out V E) {s : St S A} {a : ASt S A} {t : Tally} (h : Inv s a t) {x : Nat} {f : Fn S} (hv : value a x = some f) (arg : A) :
    ∃ id s', var x s = .done id ∧ perform beh id arg s = .done (result beh f arg, s') ∧ Inv s' { a with vars := a.vars.set x (some (after beh f arg)) } t := by
  rcases var_at h.rel x with ⟨id, g, h0, h1, h2, h3⟩ | ⟨-, h2⟩
  · rw [hv] at h3; cases h3
    obtain ⟨s1, p1, p2, p3, p4, p5⟩ := perform_at beh h.fine h2 arg
    obtain ⟨hn1, hn2, hn3⟩ := owned_nodup h.own
    refine ⟨id, s1, h1, p1, ⟨?_, ?_, p4.hist.trans h.rel.hist, p4.alive.trans h.rel.alive⟩, p5, ?_, h.counts.same p4.vars (by rw [p4.stubs])⟩
    · rw [p4.vars, p2]; exact vars_set h.rel.vars h0 hn1
    · rw [p4.stubs, p2]
      rw [views_other (m := s.objs), h.rel.stubs]
      intro y hy
      rw [upd_ne]
      intro h'
      subst h'
      exact hn3 y (mem_of_get h0) (by simpa [List.mem_flatMap] using hy)
    · refine h.own.same p4.vars (by rw [p4.stubs]) fun y => ?_
      rw [p2]
      by_cases hy : y = id
      · subst hy; simp [upd_self, h2]
      · rw [upd_ne hy]
  · rw [hv] at h2; cases h2

theorem drop_at {s : St S A} {a : ASt S A} {t : Tally} (h : Inv s a t) {x : Nat} {f : Fn S} (hv : value a x = some f) :
    ∃ id s', var x s = .done id ∧ destroy id s = .done s' ∧ Inv { s' with vars := s'.vars.set x none } { a with vars := a.vars.set x none } (Tally.step t (.drop x : Op S A)) := by
  rcases var_at h.rel x with ⟨id, g, h0, h1, h2, h3⟩ | ⟨-, h2⟩
  · rw [hv] at h3; cases h3
    obtain ⟨s1, p1, p2, p3, p4, p5⟩ := destroy_at h.fine h2
    obtain ⟨hn1, hn2, hn3⟩ := owned_nodup h.own
    have hperm : List.Perm (owned s) (id :: owned { s1 with vars := s1.vars.set x none }) := by
      show List.Perm (s.vars.filterMap (fun o => o) ++ s.stubs.flatMap Stub.fns) (id :: ((s1.vars.set x none).filterMap (fun o => o) ++ s1.stubs.flatMap Stub.fns))
      rw [p4.vars, p4.stubs, ← List.cons_append]
      exact (filterMap_set_perm h0).append_right _
    have hnd : (id :: owned { s1 with vars := s1.vars.set x none }).Nodup := hperm.nodup_iff.1 h.own.nodup
    refine ⟨id, s1, h1, p1, ⟨?_, ?_, p4.hist.trans h.rel.hist, p4.alive.trans h.rel.alive⟩, ⟨p5.bound, p5.dead, p5.died, p5.once⟩, ⟨(List.nodup_cons.1 hnd).2, fun y => ?_⟩, ⟨?_, ?_⟩⟩
    · show (s1.vars.set x none).map (Option.map s1.objs) = _
      rw [p4.vars, p2]; exact vars_drop h.rel.vars h0 hn1
    · show s1.stubs.reverse.map (view s1.objs) = _
      rw [p4.stubs, p2]
      rw [views_other (m := s.objs), h.rel.stubs]
      intro y hy
      rw [upd_ne]
      intro h'
      subst h'
      exact hn3 y (mem_of_get h0) (by simpa [List.mem_flatMap] using hy)
    · show (s1.objs y).isSome = true ↔ _
      by_cases hy : y = id
      · subst hy
        have : s1.objs y = none := by rw [p2, upd_self]
        simp only [this]
        exact ⟨fun h' => (by cases h'), fun h' => absurd h' (List.nodup_cons.1 hnd).1⟩
      · have : s1.objs y = s.objs y := by rw [p2, upd_ne hy]
        rw [this, h.own.some y, hperm.mem_iff, List.mem_cons]
        exact ⟨fun h' => h'.resolve_left hy, .inr⟩
    · show t.vars.set x false = (s1.vars.set x none).map _
      rw [p4.vars, List.map_set, h.counts.vars]; rfl
    · show t.given = (s1.stubs.flatMap _).length
      rw [p4.stubs]; exact h.counts.given
  · rw [hv] at h2; cases h2

/-! ## Reset -/

theorem forget_at {s : St S A} {a : ASt S A} {t : Tally} (h : Inv s a t) :
    ∃ s', forget s = .done s' ∧ Inv s' { a with scripts := [], hist := [] } { t with given := 0 } := by
  obtain ⟨hn1, hn2, hn3⟩ := owned_nodup h.own
  obtain ⟨s1, d1, d2, d3, d4, d5⟩ := destroyAll_at h.fine hn2 (fun x hx => (h.own.some x).2 (List.mem_append.2 (.inr hx)))
  refine ⟨{ s1 with stubs := [], hist := [] }, by simp only [forget, d1, R.bind_done], ⟨?_, rfl, rfl, d4.alive.trans h.rel.alive⟩,
    ⟨d5.bound, d5.dead, d5.died, d5.once⟩, ⟨?_, fun y => ?_⟩, ⟨?_, rfl⟩⟩
  · show s1.vars.map (Option.map s1.objs) = _
    rw [d4.vars]
    show _ = a.vars.map (Option.map some)
    rw [← h.rel.vars]
    apply List.map_congr_left
    intro o ho
    cases o with
    | none => rfl
    | some y =>
      have hy : y ∉ s.stubs.flatMap Stub.fns := hn3 y (by rw [List.mem_filterMap]; exact ⟨_, ho, rfl⟩)
      simp only [Option.map_some, d2, hy, if_false]
  · show (s1.vars.filterMap (fun o => o) ++ []).Nodup
    rw [List.append_nil, d4.vars]; exact hn1
  · show (s1.objs y).isSome = true ↔ y ∈ s1.vars.filterMap (fun o => o) ++ []
    rw [List.append_nil, d4.vars, d2]
    have := h.own.some y
    unfold owned at this
    by_cases hy : y ∈ s.stubs.flatMap Stub.fns
    · simp only [hy, if_true]
      constructor
      · intro h'; cases h'
      · intro h'; exact absurd hy (hn3 y h')
    · simp only [hy, if_false]
      rw [this, List.mem_append]
      constructor
      · rintro (h' | h')
        · exact h'
        · exact absurd h' hy
      · exact .inl
  · show t.vars = s1.vars.map _
    rw [d4.vars]; exact h.counts.vars

/-! ## Calls -/

theorem take_get {ts : List Stub} {n : Nat} {t : Stub} (h : ts[n]? = some t) : ts.take (n + 1) = ts.take n ++ [t] := by
  rw [List.take_add_one, h]; rfl

theorem split_get {ts : List Stub} {n : Nat} {t : Stub} (h : ts[n]? = some t) : ts = ts.take n ++ t :: ts.drop (n + 1) := by
  have := (List.take_append_drop (n + 1) ts).symm
  rw [take_get h, List.append_assoc, List.singleton_append] at this
  exact this

/-- The function objects of different stubbings are different. -/
theorem apart {ts : List Stub} {n : Nat} {t : Stub} (h : ts[n]? = some t) (hn : (ts.flatMap Stub.fns).Nodup) :
    t.fns.Nodup ∧ ∀ x ∈ t.fns, x ∉ (ts.take n).flatMap Stub.fns := by
  rw [split_get h, List.flatMap_append, List.flatMap_cons, List.nodup_append, List.nodup_append] at hn
  obtain ⟨-, ⟨h1, -, -⟩, h2⟩ := hn
  exact ⟨h1, fun x hx hx' => h2 x hx' x (List.mem_append.2 (.inl hx)) rfl⟩

theorem views_rev {m m' : Nat → Option (Fn S)} {ts : List Stub} (h : ∀ x ∈ ts.flatMap Stub.fns, m' x = m x) : ts.reverse.map (view m') = ts.reverse.map (view m) :=
  views_other fun x hx => h x (by simpa [List.mem_flatMap] using hx)

/-- What a call may do to the state: the stubbings before the `n`-th become others with the same function objects, whose states change. -/
structure Served (ids : List Nat) (n : Nat) (s s' : St S A) : Prop where
  drop : s'.stubs.drop n = s.stubs.drop n
  fns : s'.stubs.map Stub.fns = s.stubs.map Stub.fns
  out : ∀ x, x ∉ ids → s'.objs x = s.objs x
  some : ∀ x, (s'.objs x).isSome = (s.objs x).isSome
  vars : s'.vars = s.vars
  alive : s'.alive = s.alive
  fine : Fine s'

theorem serve_at (beh : Nat → S → A → S × Out V E) {s : St S A} {n : Nat} {t : Stub} {c : Script S} (hf : Fine s) (ht : s.stubs[n]? = some t) (hnd : t.fns.Nodup)
    (hv : view s.objs t = inj c) (a : A) :
    ∃ s' t', serve beh n a s = .done ((served beh c a).1, s') ∧ s'.stubs[n]? = some t' ∧ s'.stubs.take n = s.stubs.take n ∧ view s'.objs t' = inj (served beh c a).2 ∧
      Served t.fns (n + 1) s s' ∧ s'.hist = s.hist := by
  have hlt : n < s.stubs.length := by
    rw [List.getElem?_eq_some_iff] at ht; exact ht.1
  obtain ⟨pred, acts, used⟩ := t
  obtain ⟨cp, ca⟩ := c
  simp only [view, inj, Prod.mk.injEq] at hv
  cases acts with
  | nil =>
    have : ca = [] := by simpa using hv.2.symm
    subst this
    refine ⟨s, _, by simp only [serve, ht]; rfl, ht, rfl, ?_, ⟨rfl, rfl, fun _ _ => rfl, fun _ => rfl, rfl, rfl, hf⟩, rfl⟩
    simp only [view, inj, served, Prod.mk.injEq]; exact ⟨hv.1, rfl⟩
  | cons act rest =>
    cases ca with
    | nil => simp at hv
    | cons p crest =>
      obtain ⟨f, k⟩ := p
      simp only [List.map_cons, List.cons.injEq, Prod.mk.injEq] at hv
      obtain ⟨hp, ⟨ho, hk⟩, hr⟩ := hv
      -- the state in which the function runs
      let act' : Act := { act with times := act.times.map (· - 1) }
      let t1 : Stub := { pred := pred, acts := act' :: rest, used := used }
      let s0 : St S A := { s with stubs := s.stubs.set n t1 }
      have hf0 : Fine s0 := ⟨hf.bound, hf.dead, hf.died, hf.once⟩
      obtain ⟨s1, p1, p2, p3, p4, p5⟩ := perform_at beh hf0 (show s0.objs act.fn = some f from ho) a
      have hmem : act.fn ∈ Stub.fns { pred := pred, acts := act :: rest, used := used } := by simp [Stub.fns]
      have hrest : ∀ y, y ∈ rest.map Act.fn ∨ y ∈ pred.toList → y ≠ act.fn := by
        intro y hy h'
        subst h'
        simp only [Stub.fns, List.map_cons] at hnd
        rw [List.append_assoc, List.nodup_append] at hnd
        have h3 := (List.nodup_cons.1 (show (act.fn :: (rest.map Act.fn ++ pred.toList)).Nodup from hnd.2.1)).1
        apply h3
        rw [List.mem_append]
        rcases hy with hy | hy
        · exact .inl hy
        · exact .inr (by simpa using hy)
      have hviewp : pred.map s1.objs = cp.map some := by
        rw [← hp, p2]
        cases pred with
        | none => rfl
        | some y => simp only [Option.map_some, Option.some.injEq]; exact upd_ne (hrest y (.inr (by simp)))
      have hviewr : rest.map (fun act => (s1.objs act.fn, left act.times)) = crest.map (fun p => (some p.1, p.2)) := by
        rw [← hr, p2]
        apply List.map_congr_left
        intro b hb
        rw [upd_ne (hrest _ (.inl (List.mem_map.2 ⟨b, hb, rfl⟩)))]
      have hs1 : s1.stubs = s.stubs.set n t1 := p4.stubs
      have hsv : ∀ (tt : Stub) (ss : St S A), tt.fns = Stub.fns { pred := pred, acts := act :: rest, used := used } → ss.stubs = s.stubs.set n tt → ss.objs = s1.objs → ss.vars = s1.vars →
          ss.alive = s1.alive → Fine ss → Served (Stub.fns { pred := pred, acts := act :: rest, used := used }) (n + 1) s ss := by
        intro tt ss e1 e2 e3 e4 e5 e6
        refine ⟨?_, ?_, ?_, ?_, e4.trans p4.vars, e5.trans p4.alive, e6⟩
        · rw [e2, List.drop_set]; simp
        · rw [e2, List.map_set, e1]
          apply List.ext_getElem?
          intro j
          rw [List.getElem?_set]
          by_cases hj : n = j
          · subst hj
            simp [hlt]
            rw [List.getElem?_eq_some_iff] at ht
            rw [ht.2]
          · simp [hj]
        · intro x hx
          rw [e3, p2, upd_ne (fun h' : x = act.fn => hx (h' ▸ hmem))]
        · intro x
          rw [e3, p2]
          by_cases hx : x = act.fn
          · rw [hx, upd_self, ho]; rfl
          · rw [upd_ne hx]
      by_cases hz : act'.times = some 0
      · -- used up
        let t2 : Stub := { pred := pred, acts := rest, used := used ++ [act'] }
        have hk0 : k = some 0 := by
          rw [← hk]
          cases htm : act.times with
          | none => simp [act', htm] at hz
          | some m =>
            have : m = 1 := by simp [act', htm] at hz; omega
            subst this; rfl
        subst hk0
        refine ⟨{ s1 with stubs := s1.stubs.set n t2 }, t2, ?_, ?_, ?_, ?_, ?_, p4.hist⟩
        · simp only [serve, ht]
          show (perform beh act.fn a s0 >>= _) = _
          rw [p1, R.bind_done]
          show (if act'.times = some 0 then _ else _) = _
          rw [if_pos hz]; rfl
        · show (s1.stubs.set n t2)[n]? = _
          rw [hs1]; simp [hlt]
        · show (s1.stubs.set n t2).take n = _
          rw [hs1]; simp [List.take_set_of_le]
        · simp only [served, view, inj, Prod.mk.injEq]
          exact ⟨hviewp, hviewr⟩
        · refine hsv t2 _ ?_ ?_ rfl rfl rfl ⟨p5.bound, p5.dead, p5.died, p5.once⟩
          · simp [t2, Stub.fns, act']
          · show s1.stubs.set n t2 = _
            rw [hs1, List.set_set]
      · refine ⟨s1, t1, ?_, ?_, ?_, ?_, ?_, p4.hist⟩
        · simp only [serve, ht]
          show (perform beh act.fn a s0 >>= _) = _
          rw [p1, R.bind_done]
          show (if act'.times = some 0 then _ else _) = _
          rw [if_neg hz]
          congr 2
          cases k with
          | none => rfl
          | some k => cases k <;> rfl
        · rw [hs1]; simp [hlt]
        · rw [hs1]; simp [List.take_set_of_le]
        · have hself : s1.objs act.fn = some (after beh f a) := by rw [p2, upd_self]
          have hleft : k = none ∧ left act'.times = none ∨ ∃ j, k = some (j + 1) ∧ left act'.times = some j := by
            cases htm : act.times with
            | none => simp [htm, left] at hk; exact .inl ⟨hk.symm, by simp [act', htm, left]⟩
            | some m =>
              simp only [act', htm, Option.map_some, left] at hz hk ⊢
              have hz : m ≠ 1 := fun h' => hz (by simp [h'])
              by_cases hm : 0 < m
              · right
                rw [if_pos hm] at hk
                refine ⟨m.toNat - 2, ?_, ?_⟩
                · rw [← hk]; congr 1; omega
                · rw [if_pos (by omega)]; congr 1; omega
              · left
                rw [if_neg hm] at hk
                exact ⟨hk.symm, by rw [if_neg (by omega)]⟩
          rcases hleft with ⟨h1, h2⟩ | ⟨j, h1, h2⟩
          · subst h1
            simp only [served, view, inj, Prod.mk.injEq, t1, List.map_cons, List.cons.injEq]
            exact ⟨hviewp, ⟨hself, h2⟩, hviewr⟩
          · subst h1
            simp only [served, view, inj, Prod.mk.injEq, t1, List.map_cons, List.cons.injEq]
            exact ⟨hviewp, ⟨hself, h2⟩, hviewr⟩
        · refine hsv t1 _ ?_ hs1 rfl rfl rfl p5
          simp [t1, Stub.fns, act']

section
variable (beh : Nat → S → A → S × Out V E) (truth : V → Bool)

/-- The rest of a call, when the stubbings from the `n`-th on were asked. -/
def callFrom (a : A) (n : Nat) (s : St S A) : R (Ans V E × St S A) := do
  let (f, s) ← choose beh truth a n s
  match f with
  | .nobody => .done (.unexpected, s)
  | .threw e => .done (.out (.exc e), s)
  | .stub i => serve beh i a { s with hist := s.hist ++ [a] }

theorem callFrom_at (a : A) : ∀ (n : Nat) {s : St S A} {cs : List (Script S)}, n ≤ s.stubs.length → Fine s → (s.stubs.flatMap Stub.fns).Nodup →
    (s.stubs.take n).reverse.map (view s.objs) = cs.map inj →
    ∃ s', callFrom beh truth a n s = .done ((answer beh truth a cs).1, s') ∧ (s'.stubs.take n).reverse.map (view s'.objs) = (answer beh truth a cs).2.1.map inj ∧
      Served ((s.stubs.take n).flatMap Stub.fns) n s s' ∧ s'.hist = if (answer beh truth a cs).2.2 then s.hist ++ [a] else s.hist
  | 0, s, cs, _, hf, hn, hv => by
    have : cs = [] := by simpa using hv.symm
    subst this
    exact ⟨s, rfl, rfl, ⟨rfl, rfl, fun _ _ => rfl, fun _ => rfl, rfl, rfl, hf⟩, rfl⟩
  | n + 1, s, cs, hle, hf, hn, hv => by
    have hlt : n < s.stubs.length := hle
    obtain ⟨t, ht⟩ : ∃ t, s.stubs[n]? = some t := ⟨_, List.getElem?_eq_getElem hlt⟩
    obtain ⟨htn, hta⟩ := apart ht hn
    have htk := take_get ht
    have hids : ∀ x, x ∉ (s.stubs.take (n + 1)).flatMap Stub.fns → x ∉ t.fns ∧ x ∉ (s.stubs.take n).flatMap Stub.fns := by
      intro x hx
      rw [htk, List.flatMap_append, List.mem_append, not_or] at hx
      exact ⟨by simpa using hx.2, hx.1⟩
    rw [htk, List.reverse_append, List.reverse_singleton, List.singleton_append, List.map_cons] at hv
    cases cs with
    | nil => simp at hv
    | cons c cs =>
      simp only [List.map_cons, List.cons.injEq] at hv
      obtain ⟨hvt, hvs⟩ := hv
      -- serving by this stubbing
      have serveHere : ∀ (s1 : St S A) (c1 : Script S), Fine s1 → s1.stubs = s.stubs → view s1.objs t = inj c1 → (s.stubs.take n).reverse.map (view s1.objs) = cs.map inj →
          ∃ s', serve beh n a s1 = .done ((served beh c1 a).1, s') ∧ (s'.stubs.take (n + 1)).reverse.map (view s'.objs) = ((served beh c1 a).2 :: cs).map inj ∧
            Served t.fns (n + 1) s1 s' ∧ s'.hist = s1.hist := by
        intro s1 c1 h1 h2 h3 h4
        obtain ⟨s', t', e1, e2, e3, e4, e5, e6⟩ := serve_at beh h1 (by rw [h2]; exact ht) htn h3 a
        refine ⟨s', e1, ?_, e5, e6⟩
        rw [take_get e2, List.reverse_append, List.reverse_singleton, List.singleton_append, List.map_cons, List.map_cons, e4, e3, h2]
        congr 1
        rw [← h4]
        exact views_rev fun x hx => e5.out x fun h' => hta x h' hx
      cases hp : t.pred with
      | none =>
        have hcp : c.pred = none := by
          have := congrArg Prod.fst hvt
          simp only [view, inj, hp, Option.map_none] at this
          cases hc : c.pred with
          | none => rfl
          | some f => rw [hc] at this; cases this
        obtain ⟨s', e1, e2, e3, e4⟩ := serveHere { s with hist := s.hist ++ [a] } c ⟨hf.bound, hf.dead, hf.died, hf.once⟩ rfl hvt hvs
        refine ⟨s', ?_, ?_, ?_, ?_⟩
        · simp only [callFrom, choose, ht, hp, R.bind_done, answer, hcp]; exact e1
        · simp only [answer, hcp]; exact e2
        · exact ⟨e3.drop, e3.fns, fun x hx => e3.out x (hids x hx).1, e3.some, e3.vars, e3.alive, e3.fine⟩
        · simp only [answer, hcp]; exact e4
      | some id =>
        obtain ⟨p, hcp, hop⟩ : ∃ p, c.pred = some p ∧ s.objs id = some p := by
          have := congrArg Prod.fst hvt
          simp only [view, inj, hp, Option.map_some] at this
          cases hc : c.pred with
          | none => rw [hc] at this; cases this
          | some f => rw [hc] at this; simp only [Option.map_some, Option.some.injEq] at this; exact ⟨f, rfl, this⟩
        obtain ⟨s1, p1, p2, p3, p4, p5⟩ := perform_at beh hf hop a
        have hmem : id ∈ t.fns := by simp [Stub.fns, hp]
        have hsome1 : ∀ x, (s1.objs x).isSome = (s.objs x).isSome := by
          intro x; rw [p2]
          by_cases hx : x = id
          · rw [hx, upd_self, hop]; rfl
          · rw [upd_ne hx]
        have hout1 : ∀ x, x ∉ t.fns → s1.objs x = s.objs x := by
          intro x hx; rw [p2, upd_ne (fun h' : x = id => hx (h' ▸ hmem))]
        have hvs1 : (s.stubs.take n).reverse.map (view s1.objs) = cs.map inj := by
          rw [← hvs]; exact views_rev fun x hx => hout1 x fun h' => hta x h' hx
        have hvt1 : view s1.objs t = inj { c with pred := some (after beh p a) } := by
          have h2 := congrArg Prod.snd hvt
          simp only [view, inj] at h2
          simp only [view, inj, hp, Option.map_some, Prod.mk.injEq]
          refine ⟨by rw [p2, upd_self], ?_⟩
          rw [← h2]
          apply List.map_congr_left
          intro b hb
          rw [p2, upd_ne]
          intro h'
          simp only [Stub.fns, hp] at htn
          rw [List.nodup_append] at htn
          exact htn.2.2 b.fn (List.mem_append.2 (.inr (List.mem_map.2 ⟨b, hb, rfl⟩))) id (by simp) h'
        cases hres : result beh p a with
        | exc e =>
          refine ⟨s1, ?_, ?_, ?_, ?_⟩
          · simp only [callFrom, choose, ht, hp, p1, hres, R.bind_done, answer, hcp]
          · rw [p4.stubs, htk]
            simp only [answer, hcp, hres, List.reverse_append, List.reverse_singleton, List.singleton_append, List.map_cons, hvt1, hvs1]
          · exact ⟨by rw [p4.stubs], by rw [p4.stubs], fun x hx => hout1 x (hids x hx).1, hsome1, p4.vars, p4.alive, p5⟩
          · simp only [answer, hcp, hres]; exact p4.hist
        | ret v =>
          by_cases htr : truth v = true
          · obtain ⟨s', e1, e2, e3, e4⟩ := serveHere { s1 with hist := s1.hist ++ [a] } _ ⟨p5.bound, p5.dead, p5.died, p5.once⟩ p4.stubs hvt1 hvs1
            refine ⟨s', ?_, ?_, ?_, ?_⟩
            · simp only [callFrom, choose, ht, hp, p1, hres, htr, if_true, R.bind_done, answer, hcp]; exact e1
            · simp only [answer, hcp, hres, htr, if_true]; exact e2
            · exact ⟨e3.drop.trans (by show s1.stubs.drop _ = _; rw [p4.stubs]), e3.fns.trans (by show s1.stubs.map _ = _; rw [p4.stubs]),
                fun x hx => (e3.out x (hids x hx).1).trans (hout1 x (hids x hx).1), fun x => (e3.some x).trans (hsome1 x), e3.vars.trans p4.vars, e3.alive.trans p4.alive, e3.fine⟩
            · simp only [answer, hcp, hres, htr, if_true]
              rw [e4]; show s1.hist ++ [a] = _; rw [p4.hist]
          · obtain ⟨s', e1, e2, e3, e4⟩ := callFrom_at a n (s := s1) (cs := cs) (by rw [p4.stubs]; omega) p5 (by rw [p4.stubs]; exact hn) (by rw [p4.stubs]; exact hvs1)
            have hget : s'.stubs[n]? = some t := by
              have := congrArg (fun l => l[0]?) e3.drop
              simp only [List.getElem?_drop, Nat.add_zero] at this
              rw [this, p4.stubs]; exact ht
            rw [p4.stubs] at e3
            have hvt' : view s'.objs t = view s1.objs t := view_congr fun x hx => e3.out x (hta x hx)
            refine ⟨s', ?_, ?_, ?_, ?_⟩
            · simp only [answer, hcp, hres, htr, Bool.false_eq_true, if_false]
              rw [← e1]
              simp only [callFrom, choose, ht, hp, p1, hres, htr, Bool.false_eq_true, if_false, R.bind_done]
            · simp only [answer, hcp, hres, htr, Bool.false_eq_true, if_false]
              rw [take_get hget, List.reverse_append, List.reverse_singleton, List.singleton_append, List.map_cons, List.map_cons, hvt', hvt1, e2]
            · refine ⟨?_, e3.fns.trans (by rw [p4.stubs]), fun x hx => (e3.out x (hids x hx).2).trans (hout1 x (hids x hx).1), fun x => (e3.some x).trans (hsome1 x),
                e3.vars.trans p4.vars, e3.alive.trans p4.alive, e3.fine⟩
              have := congrArg (List.drop 1) e3.drop
              rw [List.drop_drop, List.drop_drop, p4.stubs] at this
              exact this
            · simp only [answer, hcp, hres, htr, Bool.false_eq_true, if_false]
              rw [e4, p4.hist]

theorem call_at {s : St S A} {b : ASt S A} {t : Tally} (h : Inv s b t) (a : A) :
    ∃ s', call beh truth a s = .done ((answer beh truth a b.scripts).1, s') ∧
      Inv s' { b with scripts := (answer beh truth a b.scripts).2.1, hist := if (answer beh truth a b.scripts).2.2 then b.hist ++ [a] else b.hist } t := by
  obtain ⟨hn1, hn2, hn3⟩ := owned_nodup h.own
  obtain ⟨s', e1, e2, e3, e4⟩ := callFrom_at beh truth a s.stubs.length (Nat.le_refl _) h.fine hn2 (by rw [List.take_length]; exact h.rel.stubs)
  have hlen : s'.stubs.length = s.stubs.length := by simpa using congrArg List.length e3.fns
  rw [← hlen, List.take_length] at e2
  rw [List.take_length] at e3
  refine ⟨s', e1, ⟨?_, e2, ?_, e3.alive.trans h.rel.alive⟩, e3.fine, h.own.same e3.vars e3.fns e3.some, h.counts.same e3.vars e3.fns⟩
  · rw [e3.vars]
    show _ = b.vars.map (Option.map some)
    rw [← h.rel.vars]
    apply List.map_congr_left
    intro o ho
    cases o with
    | none => rfl
    | some y =>
      simp only [Option.map_some, Option.some.injEq]
      exact e3.out y (hn3 y (by rw [List.mem_filterMap]; exact ⟨_, ho, rfl⟩))
  · rw [e4, h.rel.hist]

/-! ## Verifying -/

theorem askAll_at (id : Nat) : ∀ (as : List A) (n : Nat) {s : St S A} {p : Fn S}, Fine s → s.objs id = some p →
    ∃ s', askAll beh truth id as n s = .done (accepted beh truth p as n, s') ∧ Same s s' ∧ Fine s' ∧ (s'.objs id).isSome ∧ ∀ x, x ≠ id → s'.objs x = s.objs x
  | [], n, s, p, hf, hp => ⟨s, rfl, Same.refl s, hf, by rw [hp]; rfl, fun _ _ => rfl⟩
  | a :: as, n, s, p, hf, hp => by
    obtain ⟨s1, p1, p2, p3, p4, p5⟩ := perform_at beh hf hp a
    have hself : s1.objs id = some (after beh p a) := by rw [p2, upd_self]
    have hne : ∀ x, x ≠ id → s1.objs x = s.objs x := fun x hx => by rw [p2, upd_ne hx]
    cases hres : result beh p a with
    | exc e => exact ⟨s1, by simp only [askAll, p1, hres, R.bind_done, accepted], p4, p5, by rw [hself]; rfl, hne⟩
    | ret v =>
      obtain ⟨s', e1, e2, e3, e4, e5⟩ := askAll_at id as (if truth v then n + 1 else n) p5 hself
      exact ⟨s', by simp only [askAll, p1, hres, R.bind_done, accepted]; exact e1, p4.trans e2, e3, e4, fun x hx => (e5 x hx).trans (hne x hx)⟩

theorem count_at {s : St S A} {b : ASt S A} {t : Tally} (h : Inv s b t) {x : Nat} {p : Fn S} (hv : value b x = some p) :
    ∃ s', count beh truth x s = .done (accepted beh truth p b.hist 0, s') ∧ Inv s' b t := by
  rcases var_at h.rel x with ⟨id, g, -, h1, h2, h3⟩ | ⟨-, h2⟩
  · rw [hv] at h3; cases h3
    obtain ⟨s1, c1, o1, n1, sm1, f1⟩ := copy_at h.fine h2
    have hp1 : s1.objs s.next = some p := by rw [o1, upd_self]
    obtain ⟨s2, c2, o2, n2, sm2, f2⟩ := copy_at f1 hp1
    have hne : s.next ≠ s1.next := by omega
    have hp2 : s2.objs s1.next = some p := by rw [o2, upd_self]
    obtain ⟨s3, a1, a2, a3, a4, a5⟩ := askAll_at beh truth s1.next s2.hist 0 f2 hp2
    have hsome : (s3.objs s.next).isSome := by rw [a5 _ hne, o2, upd_ne hne, hp1]; rfl
    obtain ⟨s4, d1, d2, d3, d4, d5⟩ := destroyAll_at (ids := [s1.next, s.next]) a3 (by simp; omega) (by
      intro y hy; simp at hy; rcases hy with rfl | rfl
      · exact a4
      · exact hsome)
    have hsame := ((sm1.trans sm2).trans a2).trans d4
    have hobj : s4.objs = s.objs := by
      rw [d2]; funext y
      by_cases hy : y ∈ [s1.next, s.next]
      · simp only [hy, if_true]
        simp at hy
        exact (h.fine.bound y (by omega)).symm
      · simp only [hy, if_false]
        simp only [List.mem_cons, List.not_mem_nil, or_false, not_or] at hy
        rw [a5 y hy.1, o2, upd_ne hy.1, o1, upd_ne hy.2]
    refine ⟨s4, ?_, h.rel.keep (fun x f hx => by rw [hobj]; exact hx) hsame, d5, h.own.same hsame.vars (by rw [hsame.stubs]) (fun x => by rw [hobj]), h.counts.same hsame.vars (by rw [hsame.stubs])⟩
    have hh : s2.hist = b.hist := (sm1.trans sm2).hist.trans h.rel.hist
    rw [hh] at a1
    simp only [count, h1, R.bind_done, c1, c2, hh, a1, d1]
  · rw [hv] at h2; cases h2

theorem count_ub {s : St S A} {b : ASt S A} (h : Rel s b) {x : Nat} (hv : value b x = none) : count beh truth x s = .ub := by
  rcases var_at h x with ⟨id, g, -, h1, h2, h3⟩ | ⟨h1, -⟩
  · rw [hv] at h3; cases h3
  · simp [count, h1]

/-! ## Programs -/

theorem step_at {s : St S A} {b b' : ASt S A} {t : Tally} (h : Inv s b t) {o : Op S A} {r : Ans V E} (ha : aStep beh truth b o = some (r, b')) :
    ∃ s', step beh truth s o = .done (r, s') ∧ Inv s' b' (t.step o) := by
  cases o with
  | make f =>
    simp only [aStep, Option.some.injEq, Prod.mk.injEq] at ha
    obtain ⟨rfl, rfl⟩ := ha
    exact ⟨_, rfl, make_at h f⟩
  | run x a =>
    simp only [aStep, Option.map_eq_some_iff, Prod.mk.injEq] at ha
    obtain ⟨f, hv, rfl, rfl⟩ := ha
    obtain ⟨id, s', e1, e2, e3⟩ := own_run_at beh h hv a
    exact ⟨s', by simp only [step, e1, R.bind_done, e2], e3⟩
  | drop x =>
    simp only [aStep, Option.map_eq_some_iff, Prod.mk.injEq] at ha
    obtain ⟨f, hv, rfl, rfl⟩ := ha
    obtain ⟨id, s', e1, e2, e3⟩ := drop_at h hv
    exact ⟨_, by simp only [step, e1, R.bind_done, e2], e3⟩
  | stub p l u =>
    by_cases hal : b.alive = true
    · rw [aStep, if_pos hal] at ha
      simp only [Option.bind_eq_bind, Option.bind_eq_some_iff, Option.some.injEq, Prod.mk.injEq] at ha
      obtain ⟨pv, hp, fs, hl, rfl, rfl⟩ := ha
      obtain ⟨s', e1, e2⟩ := stub_at h u hp hl
      exact ⟨s', by simp only [step, needMock, h.rel.alive, hal, if_true, e1, R.bind_done], e2⟩
    · simp [aStep, hal] at ha
  | assign x =>
    by_cases hal : b.alive = true
    · rw [aStep, if_pos hal] at ha
      simp only [Option.map_eq_some_iff, Prod.mk.injEq] at ha
      obtain ⟨f, hv, rfl, rfl⟩ := ha
      obtain ⟨s', e1, e2⟩ := assign_at h hv
      exact ⟨s', by simp only [step, needMock, h.rel.alive, hal, if_true, e1, R.bind_done], e2⟩
    · simp [aStep, hal] at ha
  | call a =>
    by_cases hal : b.alive = true
    · rw [aStep, if_pos hal] at ha
      simp only [Option.some.injEq, Prod.mk.injEq] at ha
      obtain ⟨rfl, rfl⟩ := ha
      obtain ⟨s', e1, e2⟩ := call_at beh truth h a
      exact ⟨s', by simp only [step, needMock, h.rel.alive, hal, if_true, e1], e2⟩
    · simp [aStep, hal] at ha
  | count x =>
    by_cases hal : b.alive = true
    · rw [aStep, if_pos hal] at ha
      simp only [Option.map_eq_some_iff, Prod.mk.injEq] at ha
      obtain ⟨f, hv, rfl, rfl⟩ := ha
      obtain ⟨s', e1, e2⟩ := count_at beh truth h hv
      exact ⟨s', by simp only [step, needMock, h.rel.alive, hal, if_true, e1], e2⟩
    · simp [aStep, hal] at ha
  | reset =>
    by_cases hal : b.alive = true
    · rw [aStep, if_pos hal] at ha
      simp only [Option.some.injEq, Prod.mk.injEq] at ha
      obtain ⟨rfl, rfl⟩ := ha
      obtain ⟨s', e1, e2⟩ := forget_at h
      exact ⟨s', by simp only [step, needMock, h.rel.alive, hal, if_true, e1, R.bind_done], e2⟩
    · simp [aStep, hal] at ha
  | clear =>
    by_cases hal : b.alive = true
    · rw [aStep, if_pos hal] at ha
      simp only [Option.some.injEq, Prod.mk.injEq] at ha
      obtain ⟨rfl, rfl⟩ := ha
      exact ⟨{ s with hist := [] }, by rw [step, needMock, if_pos (h.rel.alive.trans hal)], ⟨h.rel.vars, h.rel.stubs, rfl, h.rel.alive⟩, ⟨h.fine.bound, h.fine.dead, h.fine.died, h.fine.once⟩,
        ⟨h.own.nodup, h.own.some⟩, ⟨h.counts.vars, h.counts.given⟩⟩
    · simp [aStep, hal] at ha
  | finish =>
    by_cases hal : b.alive = true
    · rw [aStep, if_pos hal] at ha
      simp only [Option.some.injEq, Prod.mk.injEq] at ha
      obtain ⟨rfl, rfl⟩ := ha
      obtain ⟨s', e1, e2⟩ := forget_at h
      exact ⟨{ s' with alive := false }, by simp only [step, needMock, h.rel.alive, hal, if_true, e1, R.bind_done], ⟨e2.rel.vars, e2.rel.stubs, e2.rel.hist, rfl⟩,
        ⟨e2.fine.bound, e2.fine.dead, e2.fine.died, e2.fine.once⟩, ⟨e2.own.nodup, e2.own.some⟩, ⟨e2.counts.vars, e2.counts.given⟩⟩
    · simp [aStep, hal] at ha

theorem step_ub {s : St S A} {b : ASt S A} {t : Tally} (h : Inv s b t) {o : Op S A} (ha : aStep beh truth b o = none) : step beh truth s o = .ub := by
  have hvar : ∀ x, value b x = none → var x s = .ub := by
    intro x hx
    rcases var_at h.rel x with ⟨id, f, -, h1, h2, h3⟩ | ⟨h1, -⟩
    · rw [hx] at h3; cases h3
    · exact h1
  by_cases hal : b.alive = true
  · cases o with
    | make f => simp [aStep] at ha
    | run x a => simp only [aStep, Option.map_eq_none_iff] at ha; simp [step, hvar x ha]
    | drop x => simp only [aStep, Option.map_eq_none_iff] at ha; simp [step, hvar x ha]
    | stub p l u =>
      simp only [aStep, hal, if_true] at ha
      have : predValue b p = none ∨ values b l = none := by
        cases hp : predValue b p with
        | none => exact .inl rfl
        | some pv =>
          cases hl : values b l with
          | none => exact .inr rfl
          | some fs => simp [hp, hl] at ha
      simp only [step, needMock, h.rel.alive, hal, if_true, stub_ub h u this, R.bind_ub]
    | assign x =>
      simp only [aStep, hal, if_true, Option.map_eq_none_iff] at ha
      simp only [step, needMock, h.rel.alive, hal, if_true, assign_ub h.rel ha, R.bind_ub]
    | call a => simp [aStep, hal] at ha
    | count x =>
      simp only [aStep, hal, if_true, Option.map_eq_none_iff] at ha
      simp only [step, needMock, h.rel.alive, hal, if_true, count_ub beh truth h.rel ha]
    | reset => simp [aStep, hal] at ha
    | clear => simp [aStep, hal] at ha
    | finish => simp [aStep, hal] at ha
  · have hs : s.alive = false := by rw [h.rel.alive]; simpa using hal
    cases o with
    | make f => simp [aStep] at ha
    | run x a => simp only [aStep, Option.map_eq_none_iff] at ha; simp [step, hvar x ha]
    | drop x => simp only [aStep, Option.map_eq_none_iff] at ha; simp [step, hvar x ha]
    | _ => simp [step, needMock, hs]

theorem run_at : ∀ (os : List (Op S A)) {s : St S A} {b b' : ASt S A} {t : Tally} {rs : List (Ans V E)}, Inv s b t → aRun beh truth b os = some (rs, b') →
    ∃ s', run beh truth s os = .done (rs, s') ∧ Inv s' b' (os.foldl Tally.step t)
  | [], s, b, b', t, rs, h, ha => by
    simp only [aRun, Option.some.injEq, Prod.mk.injEq] at ha
    obtain ⟨rfl, rfl⟩ := ha
    exact ⟨s, rfl, h⟩
  | o :: os, s, b, b', t, rs, h, ha => by
    simp only [aRun, Option.bind_eq_bind, Option.bind_eq_some_iff] at ha
    obtain ⟨⟨r, b1⟩, h1, ⟨rs1, b2⟩, h2, h3⟩ := ha
    simp only [Option.some.injEq, Prod.mk.injEq] at h3
    obtain ⟨rfl, rfl⟩ := h3
    obtain ⟨s1, e1, e2⟩ := step_at beh truth h h1
    obtain ⟨s2, e3, e4⟩ := run_at os e2 h2
    exact ⟨s2, by simp only [run, e1, R.bind_done, e3], e4⟩

theorem run_ub : ∀ (os : List (Op S A)) {s : St S A} {b : ASt S A} {t : Tally}, Inv s b t → aRun beh truth b os = none → run beh truth s os = .ub
  | [], s, b, t, h, ha => by simp [aRun] at ha
  | o :: os, s, b, t, h, ha => by
    cases h1 : aStep beh truth b o with
    | none => simp only [run, step_ub beh truth h h1, R.bind_ub]
    | some p =>
      obtain ⟨r, b1⟩ := p
      obtain ⟨s1, e1, e2⟩ := step_at beh truth h h1
      have : aRun beh truth b1 os = none := by
        cases h2 : aRun beh truth b1 os with
        | none => rfl
        | some q => simp [aRun, h1, h2] at ha
      simp only [run, e1, R.bind_done, run_ub os e2 this, R.bind_ub]

end
end FakeIt.Functors
