import Verif.Spec.Functors
/-!
# Function objects: lemmas
-/
namespace FakeIt.Functors
open Spec

variable {S V E A : Type}

theorem upd_self (m : Nat → Option (Fn S)) (id : Nat) (o : Option (Fn S)) : upd m id o id = o := by simp [upd]
theorem upd_ne {m : Nat → Option (Fn S)} {id x : Nat} {o : Option (Fn S)} (h : x ≠ id) : upd m id o x = m x := by simp [upd, h]

/-- Names and destructors are in order. -/
structure Fine (s : St S A) : Prop where
  bound : ∀ x, s.next ≤ x → s.objs x = none
  dead : ∀ x, x < s.next → (s.objs x = none ↔ x ∈ s.died)
  died : ∀ x ∈ s.died, x < s.next
  once : s.died.Nodup

/-- Nothing but function objects and their bookkeeping is different. -/
structure Same (s s' : St S A) : Prop where
  vars : s'.vars = s.vars
  stubs : s'.stubs = s.stubs
  hist : s'.hist = s.hist
  alive : s'.alive = s.alive

theorem Same.refl (s : St S A) : Same s s := ⟨rfl, rfl, rfl, rfl⟩
theorem Same.trans {s t u : St S A} (h : Same s t) (k : Same t u) : Same s u :=
  ⟨k.vars.trans h.vars, k.stubs.trans h.stubs, k.hist.trans h.hist, k.alive.trans h.alive⟩

theorem Fine.lt {s : St S A} (h : Fine s) {x : Nat} {f : Fn S} (hx : s.objs x = some f) : x < s.next := by
  rcases Nat.lt_or_ge x s.next with h' | h'
  · exact h'
  · simp [h.bound x h'] at hx

theorem fine_new {s : St S A} (h : Fine s) (f : Fn S) (vars : List (Option Nat)) :
    Fine { s with objs := upd s.objs s.next (some f), next := s.next + 1, vars := vars } := by
  refine ⟨fun x hx => ?_, fun x hx => ?_, fun x hx => ?_, h.once⟩
  · have hx : s.next + 1 ≤ x := hx
    have : x ≠ s.next := by omega
    show upd s.objs s.next (some f) x = none
    rw [upd_ne this]; exact h.bound x (by omega)
  · have hx : x < s.next + 1 := hx
    show upd s.objs s.next (some f) x = none ↔ x ∈ s.died
    by_cases hn : x = s.next
    · subst hn; rw [upd_self]
      constructor
      · intro h'; cases h'
      · intro h'; have := h.died _ h'; omega
    · rw [upd_ne hn]; exact h.dead x (by omega)
  · have := h.died x hx
    show x < s.next + 1
    omega

theorem copy_at {s : St S A} (h : Fine s) {id : Nat} {f : Fn S} (hf : s.objs id = some f) :
    ∃ s', copy id s = .done (s.next, s') ∧ s'.objs = upd s.objs s.next (some f) ∧ s'.next = s.next + 1 ∧ Same s s' ∧ Fine s' := by
  refine ⟨{ s with objs := upd s.objs s.next (some f), next := s.next + 1 }, by simp [copy, hf], rfl, rfl, ⟨rfl, rfl, rfl, rfl⟩, fine_new h f s.vars⟩

theorem destroy_at {s : St S A} (h : Fine s) {id : Nat} {f : Fn S} (hf : s.objs id = some f) :
    ∃ s', destroy id s = .done s' ∧ s'.objs = upd s.objs id none ∧ s'.next = s.next ∧ Same s s' ∧ Fine s' := by
  refine ⟨{ s with objs := upd s.objs id none, died := s.died ++ [id] }, by simp [destroy, hf], rfl, rfl, ⟨rfl, rfl, rfl, rfl⟩, ?_⟩
  have hlt := h.lt hf
  have hnd : id ∉ s.died := fun h' => by simp [(h.dead id hlt).2 h'] at hf
  refine ⟨fun x hx => ?_, fun x hx => ?_, fun x hx => ?_, ?_⟩
  · show upd s.objs id none x = none
    by_cases hn : x = id
    · subst hn; exact upd_self _ _ _
    · rw [upd_ne hn]; exact h.bound x hx
  · show upd s.objs id none x = none ↔ x ∈ s.died ++ [id]
    by_cases hn : x = id
    · subst hn; simp [upd_self]
    · rw [upd_ne hn]; simp [hn]; exact h.dead x hx
  · rcases List.mem_append.1 hx with h' | h'
    · exact h.died x h'
    · simp at h'; subst h'; exact hlt
  · show (s.died ++ [id]).Nodup
    rw [List.nodup_append]
    refine ⟨h.once, by simp, ?_⟩
    intro a ha b hb
    simp at hb; subst hb
    exact fun h' => hnd (h' ▸ ha)

theorem destroyAll_at : ∀ {ids : List Nat} {s : St S A}, Fine s → ids.Nodup → (∀ x ∈ ids, (s.objs x).isSome) →
    ∃ s', destroyAll ids s = .done s' ∧ (s'.objs = fun x => if x ∈ ids then none else s.objs x) ∧ s'.next = s.next ∧ Same s s' ∧ Fine s'
  | [], s, h, _, _ => ⟨s, rfl, by funext x; simp, rfl, Same.refl s, h⟩
  | id :: ids, s, h, hnd, hs => by
    obtain ⟨f, hf⟩ := Option.isSome_iff_exists.1 (hs id List.mem_cons_self)
    obtain ⟨s1, h1, o1, n1, sm1, f1⟩ := destroy_at h hf
    rw [List.nodup_cons] at hnd
    obtain ⟨s2, h2, o2, n2, sm2, f2⟩ := destroyAll_at (ids := ids) f1 hnd.2 (by
      intro x hx
      have : x ≠ id := fun h' => hnd.1 (h' ▸ hx)
      rw [o1, upd_ne this]; exact hs x (List.mem_cons_of_mem _ hx))
    refine ⟨s2, ?_, ?_, n2.trans n1, sm1.trans sm2, f2⟩
    · show (destroy id s >>= destroyAll ids) = .done s2
      rw [h1]; exact h2
    · rw [o2, o1]; funext x
      by_cases hx : x = id
      · subst hx; simp [upd_self]
      · simp [upd_ne hx, hx]

theorem pass_at : ∀ (n : Nat) {s : St S A} {id : Nat} {f : Fn S}, Fine s → s.objs id = some f →
    ∃ m s', pass n id s = .done (m, s') ∧ s'.objs = upd s.objs m (some f) ∧ s.objs m = none ∧ s.next ≤ s'.next ∧ Same s s' ∧ Fine s'
  | 0, s, id, f, h, hf => by
    obtain ⟨s1, h1, o1, n1, sm1, f1⟩ := copy_at h hf
    exact ⟨s.next, s1, h1, o1, h.bound _ (Nat.le_refl _), by omega, sm1, f1⟩
  | n + 1, s, id, f, h, hf => by
    obtain ⟨s1, h1, o1, n1, sm1, f1⟩ := copy_at h hf
    have hp : s1.objs s.next = some f := by rw [o1, upd_self]
    obtain ⟨m, s2, h2, o2, hm, n2, sm2, f2⟩ := pass_at n f1 hp
    have hne : s.next ≠ m := fun h' => by rw [← h', hp] at hm; cases hm
    have hp2 : s2.objs s.next = some f := by rw [o2, upd_ne hne, hp]
    obtain ⟨s3, h3, o3, n3, sm3, f3⟩ := destroy_at f2 hp2
    refine ⟨m, s3, ?_, ?_, ?_, by omega, (sm1.trans sm2).trans sm3, f3⟩
    · simp only [pass, h1, R.bind_done, h2, h3]
    · rw [o3, o2, o1]; funext x
      by_cases hx : x = s.next
      · subst hx; rw [upd_self, upd_ne hne, h.bound _ (Nat.le_refl _)]
      · rw [upd_ne hx]
        by_cases hxm : x = m
        · subst hxm; rw [upd_self, upd_self]
        · rw [upd_ne hxm, upd_ne hxm, upd_ne hx]
    · rw [o1, upd_ne (Ne.symm hne)] at hm; exact hm

theorem perform_at (beh : Nat → S → A → S × Out V E) {s : St S A} (h : Fine s) {id : Nat} {f : Fn S} (hf : s.objs id = some f) (a : A) :
    ∃ s', perform beh id a s = .done (result beh f a, s') ∧ s'.objs = upd s.objs id (some (after beh f a)) ∧ s'.next = s.next ∧ Same s s' ∧ Fine s' := by
  refine ⟨{ s with objs := upd s.objs id (some (after beh f a)) }, by simp only [perform, hf]; rfl, rfl, rfl, ⟨rfl, rfl, rfl, rfl⟩, ?_⟩
  have hlt := h.lt hf
  refine ⟨fun x hx => ?_, fun x hx => ?_, h.died, h.once⟩
  · have hx : s.next ≤ x := hx
    show upd s.objs id _ x = none
    rw [upd_ne (by omega)]; exact h.bound x hx
  · show upd s.objs id _ x = none ↔ x ∈ s.died
    by_cases hn : x = id
    · subst hn; rw [upd_self, ← h.dead x hlt, hf]; simp
    · rw [upd_ne hn]; exact h.dead x hx

/-! ## The relation -/

/-- How often an action may be used after the next time. -/
def left : Option Int → Option Nat
  | none => none
  | some n => if 0 < n then some (n.toNat - 1) else none

/-- A stubbing as values. -/
def view (m : Nat → Option (Fn S)) (t : Stub) : Option (Option (Fn S)) × List (Option (Fn S) × Option Nat) :=
  (t.pred.map m, t.acts.map fun act => (m act.fn, left act.times))

/-- The same of the specification. -/
def inj (c : Script S) : Option (Option (Fn S)) × List (Option (Fn S) × Option Nat) :=
  (c.pred.map some, c.acts.map fun p => (some p.1, p.2))

/-- The state of the model shows the state of the specification. -/
structure Rel (s : St S A) (a : ASt S A) : Prop where
  vars : s.vars.map (Option.map s.objs) = a.vars.map (Option.map some)
  stubs : s.stubs.reverse.map (view s.objs) = a.scripts.map inj
  hist : s.hist = a.hist
  alive : s.alive = a.alive

/-- Function objects that were there still are and are the same. -/
def Keeps (s s' : St S A) : Prop := ∀ x f, s.objs x = some f → s'.objs x = some f

theorem view_congr {m m' : Nat → Option (Fn S)} {t : Stub} (h : ∀ x ∈ t.fns, m' x = m x) : view m' t = view m t := by
  unfold view
  congr 1
  · cases hp : t.pred with
    | none => rfl
    | some id => simp [h id (by simp [Stub.fns, hp])]
  · apply List.map_congr_left
    intro act hact
    rw [h act.fn (by simp only [Stub.fns, List.mem_append, List.mem_map]; exact .inl (.inr ⟨act, hact, rfl⟩))]

theorem view_keep {m m' : Nat → Option (Fn S)} (hk : ∀ x f, m x = some f → m' x = some f) {t : Stub} {c : Script S} (h : view m t = inj c) : view m' t = inj c := by
  obtain ⟨pred, acts, used⟩ := t
  obtain ⟨cp, ca⟩ := c
  simp only [view, inj, Prod.mk.injEq] at h ⊢
  constructor
  · cases pred with
    | none => exact h.1
    | some id =>
      cases cp with
      | none => simp at h
      | some f => simp at h ⊢; exact hk _ _ h.1
  · rw [← h.2]
    apply List.map_congr_left
    intro act hact
    have hm : ((m act.fn, left act.times)) ∈ ca.map fun p => (some p.1, p.2) := by rw [← h.2]; exact List.mem_map.2 ⟨act, hact, rfl⟩
    obtain ⟨p, -, hp⟩ := List.mem_map.1 hm
    simp only [Prod.mk.injEq] at hp
    rw [← hp.1, hk _ _ hp.1.symm]

theorem views_keep {m m' : Nat → Option (Fn S)} (hk : ∀ x f, m x = some f → m' x = some f) :
    ∀ {ts : List Stub} {cs : List (Script S)}, ts.map (view m) = cs.map inj → ts.map (view m') = cs.map inj
  | [], cs, h => by simpa using h
  | t :: ts, [], h => by simp at h
  | t :: ts, c :: cs, h => by
    simp only [List.map_cons, List.cons.injEq] at h ⊢
    exact ⟨view_keep hk h.1, views_keep hk h.2⟩

theorem vars_keep {m m' : Nat → Option (Fn S)} (hk : ∀ x f, m x = some f → m' x = some f) :
    ∀ {vs : List (Option Nat)} {as : List (Option (Fn S))}, vs.map (Option.map m) = as.map (Option.map some) → vs.map (Option.map m') = as.map (Option.map some)
  | [], as, h => by simpa using h
  | v :: vs, [], h => by simp at h
  | v :: vs, b :: as, h => by
    simp only [List.map_cons, List.cons.injEq] at h ⊢
    refine ⟨?_, vars_keep hk h.2⟩
    cases v with
    | none => exact h.1
    | some id =>
      cases b with
      | none => simp at h
      | some f => simp at h ⊢; exact hk _ _ h.1

theorem Rel.keep {s s' : St S A} {a : ASt S A} (h : Rel s a) (hk : Keeps s s') (hs : Same s s') : Rel s' a :=
  ⟨by rw [hs.vars]; exact vars_keep hk h.vars, by rw [hs.stubs]; exact views_keep hk h.stubs, hs.hist.trans h.hist, hs.alive.trans h.alive⟩

theorem keeps_upd {s s' : St S A} {m : Nat} {o : Option (Fn S)} (ho : s'.objs = upd s.objs m o) (hm : s.objs m = none) : Keeps s s' := by
  intro x f hx
  rw [ho]
  by_cases hxm : x = m
  · subst hxm; rw [hm] at hx; cases hx
  · rw [upd_ne hxm]; exact hx

theorem Keeps.trans {s t u : St S A} (h : Keeps s t) (k : Keeps t u) : Keeps s u := fun x f hx => k x f (h x f hx)

/-- Variables. -/
theorem var_at {s : St S A} {a : ASt S A} (h : Rel s a) (x : Nat) :
    (∃ id f, s.vars[x]? = some (some id) ∧ var x s = .done id ∧ s.objs id = some f ∧ value a x = some f) ∨ (var x s = .ub ∧ value a x = none) := by
  have hx := congrArg (fun l => l[x]?) h.vars
  simp only [List.getElem?_map] at hx
  unfold var value
  cases hv : s.vars[x]? with
  | none =>
    right
    rw [hv] at hx
    cases ha : a.vars[x]? with
    | none => simp
    | some b => rw [ha] at hx; simp at hx
  | some o =>
    rw [hv] at hx
    cases ha : a.vars[x]? with
    | none => rw [ha] at hx; simp at hx
    | some b =>
      rw [ha] at hx
      cases o with
      | none => cases b <;> simp_all
      | some id =>
        cases b with
        | none => simp at hx
        | some f => left; exact ⟨id, f, rfl, rfl, by simpa using hx, rfl⟩

/-! ## Stubbing -/

theorem give_at {s : St S A} {a : ASt S A} (hr : Rel s a) (hf : Fine s) (h : How) (x : Nat) {f : Fn S} (hv : value a x = some f) :
    ∃ act s', give h x s = .done (act, s') ∧ s'.objs = upd s.objs act.fn (some f) ∧ s.objs act.fn = none ∧ left act.times = more h ∧ Same s s' ∧ Fine s' := by
  rcases var_at hr x with ⟨id, g, -, h1, h2, h3⟩ | ⟨-, h2⟩
  · rw [hv] at h3; cases h3
    cases h with
    | once =>
      obtain ⟨m, s', p1, p2, p3, -, p5, p6⟩ := pass_at 2 hf h2
      exact ⟨⟨m, some 1⟩, s', by simp only [give, h1, R.bind_done, p1], p2, p3, by simp [left, more], p5, p6⟩
    | times n =>
      obtain ⟨m, s', p1, p2, p3, -, p5, p6⟩ := pass_at 1 hf h2
      exact ⟨⟨m, some n⟩, s', by simp only [give, h1, R.bind_done, p1], p2, p3, by simp [left, more], p5, p6⟩
    | always =>
      obtain ⟨m, s', p1, p2, p3, -, p5, p6⟩ := pass_at 2 hf h2
      exact ⟨⟨m, none⟩, s', by simp only [give, h1, R.bind_done, p1], p2, p3, by simp [left, more], p5, p6⟩
  · rw [hv] at h2; cases h2

theorem give_ub {s : St S A} {a : ASt S A} (hr : Rel s a) (h : How) (x : Nat) (hv : value a x = none) : give h x s = .ub := by
  rcases var_at hr x with ⟨id, g, -, h1, h2, h3⟩ | ⟨h1, -⟩
  · rw [hv] at h3; cases h3
  · simp [give, h1]

theorem giveAll_at {a : ASt S A} : ∀ (l : List (How × Nat)) {s : St S A}, Rel s a → Fine s → ∀ {fs}, values a l = some fs →
    ∃ as s', giveAll l s = .done (as, s') ∧ (as.map fun act => (s'.objs act.fn, left act.times)) = fs.map (fun p => (some p.1, p.2)) ∧
      (as.map Act.fn).Nodup ∧ (∀ x ∈ as.map Act.fn, s.objs x = none) ∧ (∀ x, x ∉ as.map Act.fn → s'.objs x = s.objs x) ∧ Same s s' ∧ Fine s' ∧ as.length = l.length
  | [], s, hr, hf, fs, hv => by
    simp [values] at hv; subst hv
    exact ⟨[], s, rfl, rfl, by simp, by simp, by simp, Same.refl s, hf, rfl⟩
  | (h, x) :: l, s, hr, hf, fs, hv => by
    cases h1 : value a x with
    | none => simp [values, h1] at hv
    | some f =>
      cases h2 : values a l with
      | none => simp [values, h1, h2] at hv
      | some gs =>
        simp [values, h1, h2] at hv; subst hv
        obtain ⟨act, s1, g1, g2, g3, g4, g5, g6⟩ := give_at hr hf h x h1
        obtain ⟨as, s2, k1, k2, k3, k4, k5, k6, k7, k8⟩ := giveAll_at l (hr.keep (keeps_upd g2 g3) g5) g6 h2
        have hact : s1.objs act.fn = some f := by rw [g2, upd_self]
        have hnot : act.fn ∉ as.map Act.fn := fun h' => by rw [k4 _ h'] at hact; cases hact
        refine ⟨act :: as, s2, by simp only [giveAll, g1, R.bind_done, k1], ?_, ?_, ?_, ?_, g5.trans k6, k7, by simp [k8]⟩
        · simp only [List.map_cons, List.cons.injEq, k2, and_true]
          rw [k5 _ hnot, hact, g4]
        · simp only [List.map_cons, List.nodup_cons]; exact ⟨hnot, k3⟩
        · intro y hy
          simp only [List.map_cons, List.mem_cons] at hy
          by_cases hya : y = act.fn
          · rw [hya]; exact g3
          · rcases hy with h' | h'
            · exact absurd h' hya
            · have := k4 y h'
              rw [g2, upd_ne hya] at this; exact this
        · intro y hy
          simp only [List.map_cons, List.mem_cons, not_or] at hy
          rw [k5 y hy.2, g2, upd_ne hy.1]

theorem giveAll_ub {a : ASt S A} : ∀ (l : List (How × Nat)) {s : St S A}, Rel s a → Fine s → values a l = none → giveAll l s = .ub
  | [], s, hr, hf, hv => by simp [values] at hv
  | (h, x) :: l, s, hr, hf, hv => by
    cases h1 : value a x with
    | none => simp [giveAll, give_ub hr h x h1]
    | some f =>
      cases h2 : values a l with
      | some gs => simp [values, h1, h2] at hv
      | none =>
        obtain ⟨act, s1, g1, g2, g3, g4, g5, g6⟩ := give_at hr hf h x h1
        simp only [giveAll, g1, R.bind_done, giveAll_ub l (hr.keep (keeps_upd g2 g3) g5) g6 h2, R.bind_ub]


/-! ## Ownership -/

/-- The function objects that belong to somebody. -/
def owned (s : St S A) : List Nat := s.vars.filterMap id ++ s.stubs.flatMap Stub.fns

/-- Every function object belongs to exactly one owner. -/
structure Owned (s : St S A) : Prop where
  nodup : (owned s).Nodup
  some : ∀ x, (s.objs x).isSome ↔ x ∈ owned s

/-- The numbers are right. -/
structure Counts (s : St S A) (t : Tally) : Prop where
  vars : t.vars = s.vars.map Option.isSome
  given : t.given = (s.stubs.flatMap Stub.fns).length

/-- The invariant. -/
structure Inv (s : St S A) (a : ASt S A) (t : Tally) : Prop where
  rel : Rel s a
  fine : Fine s
  own : Owned s
  counts : Counts s t

/-- Nothing is new. -/
theorem Owned.same {s s' : St S A} (h : Owned s) (hv : s'.vars = s.vars) (hs : s'.stubs.map Stub.fns = s.stubs.map Stub.fns)
    (ho : ∀ x, (s'.objs x).isSome = (s.objs x).isSome) : Owned s' := by
  have : owned s' = owned s := by unfold owned; rw [hv, List.flatMap_def, List.flatMap_def, hs]
  exact ⟨this ▸ h.nodup, fun x => by rw [this, ho]; exact h.some x⟩

theorem Counts.same {s s' : St S A} {t : Tally} (h : Counts s t) (hv : s'.vars = s.vars) (hs : s'.stubs.map Stub.fns = s.stubs.map Stub.fns) : Counts s' t :=
  ⟨by rw [hv]; exact h.vars, by rw [List.flatMap_def, hs, ← List.flatMap_def]; exact h.given⟩

/-- A stubbing is added. -/
theorem Owned.add {s s' : St S A} (h : Owned s) {t : Stub} (hv : s'.vars = s.vars) (hs : s'.stubs = s.stubs ++ [t]) (hn : t.fns.Nodup)
    (hnew : ∀ x ∈ t.fns, s.objs x = none) (hold : ∀ x, x ∉ t.fns → s'.objs x = s.objs x) (hsome : ∀ x ∈ t.fns, (s'.objs x).isSome) : Owned s' := by
  have ho : owned s' = owned s ++ t.fns := by unfold owned; rw [hv, hs]; simp [List.append_assoc]
  refine ⟨?_, fun x => ?_⟩
  · rw [ho, List.nodup_append]
    refine ⟨h.nodup, hn, fun a ha b hb hab => ?_⟩
    subst hab
    have := (h.some a).2 ha
    rw [hnew a hb] at this; cases this
  · rw [ho, List.mem_append]
    by_cases hx : x ∈ t.fns
    · simp [hx, hsome x hx]
    · rw [hold x hx]; simp [hx, h.some x]

end FakeIt.Functors
