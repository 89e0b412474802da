import Verif.Spec.Kept
/-!
# Lemmas for C75
-/
namespace FakeIt.Kept

open Spec

/-! ## What objects stand for -/

/-- The sequence object at `a`, as far as it still exists, stands for the method expressions `l`. -/
inductive DenL (h : Addr → Option Obj) (n : Addr) : Addr → List Nat → Prop where
  | gone {a l} : a < n → h a = none → DenL h n a l
  | ctx {a i} : a < n → h a = some (.ctx i) → DenL h n a [i]
  | cat {a b c l l'} : a < n → h a = some (.cat b c) → DenL h n b l → DenL h n c l' → DenL h n a (l ++ l')
  | rep {a b l more} : a < n → h a = some (.rep more b) → DenL h n b l → DenL h n a (List.replicate (more + 1) l).flatten

inductive DenLs (h : Addr → Option Obj) (n : Addr) : List Addr → List (List Nat) → Prop where
  | nil : DenLs h n [] []
  | cons {a l as ls} : DenL h n a l → DenLs h n as ls → DenLs h n (a :: as) (l :: ls)

def Den (h : Addr → Option Obj) (n a : Addr) : Val → Prop
  | .ctx i => a < n ∧ (h a = none ∨ h a = some (.ctx i))
  | .seq l => DenL h n a l
  | .stub i => a < n ∧ (h a = none ∨ ∃ b, h a = some (.stub b) ∧ b < n ∧ (h b = none ∨ h b = some (.ctx i)))
  | .check ls q => a < n ∧ (h a = none ∨ ∃ pat, h a = some (.check pat q) ∧ DenLs h n pat ls)

/-- Objects have ended and new ones have been made. -/
structure Later (h : Addr → Option Obj) (n : Addr) (h' : Addr → Option Obj) (n' : Addr) : Prop where
  le : n ≤ n'
  old : ∀ b, b < n → h' b = none ∨ h' b = h b

theorem Later.refl (h : Addr → Option Obj) (n : Addr) : Later h n h n := ⟨Nat.le_refl _, fun _ _ => .inr rfl⟩

theorem Later.trans {h n h' n' h'' n''} (a : Later h n h' n') (b : Later h' n' h'' n'') : Later h n h'' n'' := by
  refine ⟨Nat.le_trans a.le b.le, fun c hc => ?_⟩
  rcases b.old c (Nat.lt_of_lt_of_le hc a.le) with e | e
  · exact .inl e
  · rcases a.old c hc with e' | e'
    · exact .inl (e.trans e')
    · exact .inr (e.trans e')

theorem DenL.lt {h n a l} (d : DenL h n a l) : a < n := by cases d <;> assumption

theorem DenL.later {h n h' n' a l} (d : DenL h n a l) (hl : Later h n h' n') : DenL h' n' a l := by
  induction d with
  | gone ha hn =>
    refine .gone (Nat.lt_of_lt_of_le ha hl.le) ?_
    rcases hl.old _ ha with e | e
    · exact e
    · exact e.trans hn
  | ctx ha hn =>
    have hlt := Nat.lt_of_lt_of_le ha hl.le
    rcases hl.old _ ha with e | e
    · exact .gone hlt e
    · exact .ctx hlt (e.trans hn)
  | cat ha hn _ _ ih1 ih2 =>
    have hlt := Nat.lt_of_lt_of_le ha hl.le
    rcases hl.old _ ha with e | e
    · exact .gone hlt e
    · exact .cat hlt (e.trans hn) ih1 ih2
  | rep ha hn _ ih1 =>
    have hlt := Nat.lt_of_lt_of_le ha hl.le
    rcases hl.old _ ha with e | e
    · exact .gone hlt e
    · exact .rep hlt (e.trans hn) ih1

theorem DenLs.later {h n h' n' as ls} (d : DenLs h n as ls) (hl : Later h n h' n') : DenLs h' n' as ls := by
  induction d with
  | nil => exact .nil
  | cons d _ ih => exact .cons (d.later hl) ih

theorem Den.later {h n h' n' a v} (d : Den h n a v) (hl : Later h n h' n') : Den h' n' a v := by
  cases v with
  | ctx i =>
    refine ⟨Nat.lt_of_lt_of_le d.1 hl.le, ?_⟩
    rcases hl.old _ d.1 with e | e
    · exact .inl e
    · rw [e]; exact d.2
  | seq l => exact DenL.later d hl
  | stub i =>
    refine ⟨Nat.lt_of_lt_of_le d.1 hl.le, ?_⟩
    rcases hl.old _ d.1 with e | e
    · exact .inl e
    · rw [e]
      rcases d.2 with h0 | ⟨b, h1, h2, h3⟩
      · exact .inl h0
      · refine .inr ⟨b, h1, Nat.lt_of_lt_of_le h2 hl.le, ?_⟩
        rcases hl.old _ h2 with e | e
        · exact .inl e
        · rw [e]; exact h3
  | check ls q =>
    refine ⟨Nat.lt_of_lt_of_le d.1 hl.le, ?_⟩
    rcases hl.old _ d.1 with e | e
    · exact .inl e
    · rw [e]
      rcases d.2 with h0 | ⟨pat, h1, h2⟩
      · exact .inl h0
      · exact .inr ⟨pat, h1, h2.later hl⟩

theorem Den.lt {h n a v} (d : Den h n a v) : a < n := by
  cases v with
  | seq l => exact DenL.lt d
  | ctx i => exact d.1
  | stub i => exact d.1
  | check ls q => exact d.1

theorem Den.leaves {h n a v l} (d : Den h n a v) (hv : v.leaves = some l) : DenL h n a l := by
  cases v with
  | ctx i =>
    cases hv
    rcases d.2 with h0 | h0
    · exact .gone d.1 h0
    · exact .ctx d.1 h0
  | seq l' => cases hv; exact d
  | stub i => cases hv
  | check ls q => cases hv

theorem DenL.walk {h n a l} (d : DenL h n a l) : ∀ {fuel r}, walk h fuel a = .done r → r = l := by
  induction d with
  | gone _ hn =>
    intro fuel r hr
    cases fuel with
    | zero => cases hr
    | succ f => simp only [Kept.walk, hn] at hr; cases hr
  | ctx _ hn =>
    intro fuel r hr
    cases fuel with
    | zero => cases hr
    | succ f => simp only [Kept.walk, hn] at hr; cases hr; rfl
  | cat _ hn _ _ ih1 ih2 =>
    intro fuel r hr
    cases fuel with
    | zero => cases hr
    | succ f =>
      simp only [Kept.walk, hn, R.bind_eq_done] at hr
      obtain ⟨l1, h1, l2, h2, h3⟩ := hr
      cases h3
      rw [ih1 h1, ih2 h2]
  | rep _ hn _ ih1 =>
    intro fuel r hr
    cases fuel with
    | zero => cases hr
    | succ f =>
      simp only [Kept.walk, hn, R.bind_eq_done] at hr
      obtain ⟨l1, h1, h3⟩ := hr
      cases h3
      rw [ih1 h1]

theorem DenLs.walkAll {h n as ls} (d : DenLs h n as ls) : ∀ {r}, walkAll h as = .done r → r = ls := by
  induction d with
  | nil => intro r hr; cases hr; rfl
  | cons d _ ih =>
    intro r hr
    simp only [Kept.walkAll, R.bind_eq_done] at hr
    obtain ⟨l1, h1, l2, h2, h3⟩ := hr
    cases h3
    rw [d.walk h1, ih h2]

/-! ## Whenever the test is defined, variables behave like values -/

inductive EnvRel (h : Addr → Option Obj) (n : Addr) : List Binding → List Named → Prop where
  | nil : EnvRel h n [] []
  | cons {b u bs us} : b.name = u.name → b.own = u.owner → Den h n b.addr u.val → EnvRel h n bs us → EnvRel h n (b :: bs) (u :: us)

theorem EnvRel.later {h n h' n' bs us} (d : EnvRel h n bs us) (hl : Later h n h' n') : EnvRel h' n' bs us := by
  induction d with
  | nil => exact .nil
  | cons h1 h2 h3 _ ih => exact .cons h1 h2 (h3.later hl) ih

theorem EnvRel.length {h n bs us} (d : EnvRel h n bs us) : bs.length = us.length := by
  induction d with
  | nil => rfl
  | cons _ _ _ _ ih => simp [ih]

theorem EnvRel.find {h n bs us} (d : EnvRel h n bs us) {x : Nat} {u : Named} (hu : us.find? (·.name == x) = some u) :
    ∃ b, bs.find? (·.name == x) = some b ∧ Den h n b.addr u.val := by
  induction d with
  | nil => cases hu
  | @cons b u' bs us h1 h2 h3 _ ih =>
    simp only [List.find?_cons] at hu ⊢
    by_cases hx : (u'.name == x) = true
    · rw [hx] at hu
      rw [h1, hx]
      cases hu
      exact ⟨b, rfl, h3⟩
    · simp only [Bool.not_eq_true] at hx
      rw [hx] at hu
      rw [h1, hx]
      exact ih hu

structure Rel (s : State) (v : VState) : Prop where
  env : EnvRel s.heap s.next s.env v.env
  made : s.made = v.made
  log : s.log = v.log

/-- What evaluating an expression does to the state: new objects only. -/
structure Grow (s s' : State) : Prop where
  env : s'.env = s.env
  le : s.next ≤ s'.next
  old : ∀ b, b < s.next → s'.heap b = s.heap b

theorem Grow.refl (s : State) : Grow s s := ⟨rfl, Nat.le_refl _, fun _ _ => rfl⟩
theorem Grow.trans {s t r : State} (a : Grow s t) (b : Grow t r) : Grow s r :=
  ⟨b.env.trans a.env, Nat.le_trans a.le b.le, fun c hc => (b.old c (Nat.lt_of_lt_of_le hc a.le)).trans (a.old c hc)⟩
theorem Grow.later {s t : State} (a : Grow s t) : Later s.heap s.next t.heap t.next := ⟨a.le, fun b hb => .inr (a.old b hb)⟩

theorem grow_alloc (s : State) (o : Obj) : Grow s (s.alloc o).2 :=
  ⟨rfl, Nat.le_succ _, fun b hb => by simp [State.alloc, Nat.ne_of_lt hb]⟩

theorem alloc_at (s : State) (o : Obj) : (s.alloc o).2.heap s.next = some o := by simp [State.alloc]

theorem Rel.grow {s s' : State} {v v' : VState} (h : Rel s v) (g : Grow s s') (hm : s'.made = v'.made) (hl : s'.log = v'.log) (he : v'.env = v.env) :
    Rel s' v' := ⟨by rw [g.env, he]; exact h.env.later g.later, hm, hl⟩

theorem ctxAt_done {s : State} {a : Addr} {i : Nat} : s.ctxAt a = .done i ↔ s.heap a = some (.ctx i) := by
  unfold State.ctxAt
  split
  · next h => rw [h]; simp
  · next h => simp only [reduceCtorEq, false_iff]; exact h i

theorem lookup_done {s : State} {x : Nat} {a : Addr} : s.lookup x = .done a ↔ ∃ b, s.env.find? (·.name == x) = some b ∧ b.addr = a := by
  simp [State.lookup, R.ofOption_eq_done]

theorem Den.ctxAt {s : State} {a : Addr} {i j : Nat} (d : Den s.heap s.next a (.ctx i)) (h : s.ctxAt a = .done j) : j = i := by
  rw [ctxAt_done] at h
  rcases d.2 with e | e
  · rw [e] at h; cases h
  · rw [e] at h; cases h; rfl

theorem eval_rel : ∀ (e : Expr) {s : State} {v : VState} {u : Val} {fr : Bool} {v' : VState} {a : Addr} {fr' : Bool} {s' : State}, Rel s v →
    veval e v = some (u, fr, v') → eval e s = .done (a, fr', s') → Rel s' v' ∧ Grow s s' ∧ Den s'.heap s'.next a u ∧ fr' = fr := by
  intro e
  induction e with
  | var x =>
    intro s v u fr v' a fr' s' h hv he
    simp only [veval, Option.bind_eq_bind, Option.bind_eq_some_iff] at hv
    obtain ⟨b, hb, hv⟩ := hv
    cases hv
    simp only [eval, R.bind_eq_done, lookup_done] at he
    obtain ⟨c, ⟨b', hb', rfl⟩, he⟩ := he
    cases he
    obtain ⟨b2, h2, h3⟩ := h.env.find hb
    rw [hb'] at h2
    cases h2
    exact ⟨h, .refl _, h3, rfl⟩
  | method k =>
    intro s v u fr v' a fr' s' h hv he
    cases hv
    cases he
    have g : ∀ m l, Grow s { (s.alloc (.ctx s.made)).2 with made := m, log := l } := fun m l => ⟨rfl, Nat.le_succ _, (grow_alloc s _).old⟩
    refine ⟨h.grow (g _ _) (by rw [h.made]) (by simp [h.made, h.log]) rfl, g _ _, ?_, rfl⟩
    exact ⟨Nat.lt_succ_self _, .inr (by simp [h.made])⟩
  | args e ih =>
    intro s v u fr v' a fr' s' h hv he
    simp only [veval, Option.bind_eq_bind, Option.bind_eq_some_iff] at hv
    obtain ⟨⟨w, f1, v1⟩, h1, hv⟩ := hv
    simp only [eval, R.bind_eq_done] at he
    obtain ⟨⟨a1, g1, s1⟩, h2, i, h3, he⟩ := he
    obtain ⟨r, g, d, -⟩ := ih h h1 h2
    cases w with
    | ctx j =>
      cases hv
      cases he
      obtain rfl := d.ctxAt h3
      exact ⟨⟨r.env, r.made, by rw [r.log]⟩, ⟨g.env, g.le, g.old⟩, d, rfl⟩
    | _ => cases hv
  | plus e f ih1 ih2 =>
    intro s v u fr v' a fr' s' h hv he
    simp only [veval, Option.bind_eq_bind, Option.bind_eq_some_iff] at hv
    obtain ⟨⟨w, f1, v1⟩, h1, ⟨w2, f2, v2⟩, h2, l, hl, l', hl', hv⟩ := hv
    simp only [eval, R.bind_eq_done] at he
    obtain ⟨⟨a1, g1, s1⟩, h3, ⟨a2, g2, s2⟩, h4, he⟩ := he
    obtain ⟨r1, k1, d1, -⟩ := ih1 h h1 h3
    obtain ⟨r2, k2, d2, -⟩ := ih2 r1 h2 h4
    cases hv
    cases he
    have g := grow_alloc s2 (.cat a1 a2)
    refine ⟨r2.grow g r2.made r2.log rfl, (k1.trans k2).trans g, ?_, rfl⟩
    exact DenL.cat (Nat.lt_succ_self _) (alloc_at s2 _) (((d1.later k2.later).leaves hl).later g.later) ((d2.leaves hl').later g.later)
  | times more e ih =>
    intro s v u fr v' a fr' s' h hv he
    simp only [veval, Option.bind_eq_bind, Option.bind_eq_some_iff] at hv
    obtain ⟨⟨w, f1, v1⟩, h1, l, hl, hv⟩ := hv
    simp only [eval, R.bind_eq_done] at he
    obtain ⟨⟨a1, g1, s1⟩, h3, he⟩ := he
    obtain ⟨r1, k1, d1, -⟩ := ih h h1 h3
    cases hv
    cases he
    have g := grow_alloc s1 (.rep more a1)
    refine ⟨r1.grow g r1.made r1.log rfl, k1.trans g, ?_, rfl⟩
    exact DenL.rep (Nat.lt_succ_self _) (alloc_at s1 _) ((d1.leaves hl).later g.later)

theorem evalAll_rel : ∀ (es : List Expr) {s : State} {v : VState} {ls : List (List Nat)} {v' : VState} {as : List Addr} {s' : State}, Rel s v →
    vevalAll es v = some (ls, v') → evalAll es s = .done (as, s') → Rel s' v' ∧ Grow s s' ∧ DenLs s'.heap s'.next as ls := by
  intro es
  induction es with
  | nil =>
    intro s v ls v' as s' h hv he
    cases hv; cases he
    exact ⟨h, .refl _, .nil⟩
  | cons e es ih =>
    intro s v ls v' as s' h hv he
    simp only [vevalAll, Option.bind_eq_bind, Option.bind_eq_some_iff] at hv
    obtain ⟨⟨w, f1, v1⟩, h1, l, hl, ⟨ls2, v2⟩, h2, hv⟩ := hv
    simp only [evalAll, R.bind_eq_done] at he
    obtain ⟨⟨a1, g1, s1⟩, h3, ⟨as2, s2⟩, h4, he⟩ := he
    obtain ⟨r1, k1, d1, -⟩ := eval_rel e h h1 h3
    obtain ⟨r2, k2, d2⟩ := ih r1 h2 h4
    cases hv; cases he
    exact ⟨r2, k1.trans k2, .cons ((d1.leaves hl).later k2.later) d2⟩

theorem later_sweep (s : State) (n : Addr) (keep : Option Addr) : Later s.heap s.next (s.sweep n keep).heap (s.sweep n keep).next :=
  ⟨Nat.le_refl _, fun b _ => by simp only [State.sweep]; split <;> simp⟩

theorem Rel.sweep {s : State} {v : VState} (h : Rel s v) (n : Addr) (keep : Option Addr) : Rel (s.sweep n keep) v :=
  ⟨h.env.later (later_sweep s n keep), h.made, h.log⟩

theorem appendAll_done {a : Addr} : ∀ {acts : List Nat} {s s' : State}, State.appendAll a acts s = .done s' →
    s' = s ∧ acts = [] ∨ ∃ i, s.heap a = some (.ctx i) ∧ s' = { s with log := s.log ++ acts.map (.append i) } := by
  intro acts
  induction acts with
  | nil => intro s s' h; cases h; exact .inl ⟨rfl, rfl⟩
  | cons x xs ih =>
    intro s s' h
    simp only [State.appendAll, State.append, R.bind_eq_done] at h
    obtain ⟨s1, ⟨i, h1, h2⟩, h3⟩ := h
    cases h2
    rw [ctxAt_done] at h1
    refine .inr ⟨i, h1, ?_⟩
    rcases ih h3 with ⟨h4, h5⟩ | ⟨j, h4, h5⟩
    · subst h4; subst h5; rfl
    · have : j = i := by simpa [h1] using h4.symm
      subst this
      rw [h5]; simp

theorem finish_later {s s' : State} {o : Obj} (h : s.finish o = .done s') : s'.heap = s.heap ∧ s'.next = s.next ∧ s'.env = s.env ∧ s'.made = s.made := by
  cases o with
  | stub a =>
    simp only [State.finish, R.bind_eq_done] at h
    obtain ⟨i, -, h⟩ := h
    cases h
    exact ⟨rfl, rfl, rfl, rfl⟩
  | check pat q =>
    simp only [State.finish, R.bind_eq_done] at h
    obtain ⟨i, -, h⟩ := h
    cases h
    exact ⟨rfl, rfl, rfl, rfl⟩
  | _ => cases h; exact ⟨rfl, rfl, rfl, rfl⟩

/-- One variable ends. -/
theorem drop_rel {s s' : State} {v : VState} {b : Binding} {u : Named} (h : Rel s v) (ho : b.own = u.owner) (hd : Den s.heap s.next b.addr u.val)
    (hs : s.drop b = .done s') : Rel s' { v with log := v.log ++ ending u } := by
  unfold State.drop at hs
  by_cases hb : b.own = true
  · rw [if_pos hb] at hs
    have hu : u.owner = true := by rw [← ho, hb]
    cases hx : s.heap b.addr with
    | none => rw [hx] at hs; cases hs
    | some o =>
      rw [hx] at hs
      simp only [R.bind_eq_done] at hs
      obtain ⟨t, h1, h2⟩ := hs
      cases h2
      obtain ⟨e1, e2, e3, e4⟩ := finish_later h1
      have hlat : Later s.heap s.next (fun c => if c = b.addr then none else t.heap c) t.next := by
        refine ⟨by rw [e2]; exact Nat.le_refl _, fun c _ => ?_⟩
        split
        · exact .inl rfl
        · exact .inr (by rw [e1])
      refine ⟨by dsimp only; rw [e3]; exact h.env.later hlat, e4.trans h.made, ?_⟩
      dsimp only
      cases hv : u.val with
      | ctx i =>
        rw [hv] at hd
        rcases hd.2 with e | e
        · rw [e] at hx; cases hx
        · rw [e] at hx; cases hx
          cases h1
          simp [ending, hu, hv, h.log]
      | seq l =>
        rw [hv] at hd
        have : t = s := by
          cases hd with
          | gone _ e => rw [e] at hx; cases hx
          | ctx _ e => rw [e] at hx; cases hx; cases h1; rfl
          | cat _ e => rw [e] at hx; cases hx; cases h1; rfl
          | rep _ e => rw [e] at hx; cases hx; cases h1; rfl
        subst this
        simp [ending, hu, hv, h.log]
      | stub i =>
        rw [hv] at hd
        rcases hd.2 with e | ⟨c, e, -, e'⟩
        · rw [e] at hx; cases hx
        · rw [e] at hx; cases hx
          simp only [State.finish, R.bind_eq_done, ctxAt_done] at h1
          obtain ⟨j, h3, h4⟩ := h1
          cases h4
          rcases e' with e' | e'
          · rw [e'] at h3; cases h3
          · rw [e'] at h3; cases h3
            simp [ending, hu, hv, h.log]
      | check ls q =>
        rw [hv] at hd
        rcases hd.2 with e | ⟨pat, e, e'⟩
        · rw [e] at hx; cases hx
        · rw [e] at hx; cases hx
          simp only [State.finish, R.bind_eq_done] at h1
          obtain ⟨r, h3, h4⟩ := h1
          cases h4
          obtain rfl := e'.walkAll h3
          simp [ending, hu, hv, h.log]
  · rw [if_neg hb] at hs
    cases hs
    have hu : u.owner = false := by rw [← ho]; simpa using hb
    refine ⟨h.env, h.made, ?_⟩
    simp [ending, hu, h.log]

theorem leave_rel {depth : Nat} : ∀ (bs : List Binding) (us : List Named) {s s' : State} {v : VState}, s.env = bs → v.env = us → Rel s v →
    State.leave depth bs s = .done s' →
    Rel s' { v with env := us.drop (us.length - depth), log := v.log ++ ((us.take (us.length - depth)).map ending).flatten } := by
  intro bs
  induction bs with
  | nil =>
    intro us s s' v hb hu h hs
    cases hs
    have := h.env
    rw [hb, hu] at this
    cases this
    refine ⟨?_, h.made, by simp [h.log]⟩
    have h2 := h.env
    rw [hu] at h2
    simpa using h2
  | cons b bs ih =>
    intro us s s' v hb hu h hs
    have hE := h.env
    rw [hb, hu] at hE
    cases hE with
    | @cons _ u _ us h1 h2 h3 h4 =>
      have hlen := h4.length
      simp only [State.leave] at hs
      by_cases hd : depth ≤ bs.length
      · rw [if_pos hd] at hs
        simp only [R.bind_eq_done] at hs
        obtain ⟨t, ht, hs⟩ := hs
        have r := drop_rel h h2 h3 ht
        have hte : t.env = b :: bs := by
          rw [← hb]
          unfold State.drop at ht
          split at ht
          · split at ht
            · cases ht
            · simp only [R.bind_eq_done] at ht
              obtain ⟨t', h5, h6⟩ := ht
              cases h6
              exact (finish_later h5).2.2.1
          · cases ht; rfl
        have r2 : Rel { t with env := bs } { v with env := us, log := v.log ++ ending u } := by
          refine ⟨?_, r.made, r.log⟩
          have h5 := r.env
          rw [hte] at h5
          dsimp only at h5 ⊢
          rw [hu] at h5
          cases h5 with
          | cons _ _ _ h6 => exact h6
        have r3 := ih us rfl rfl r2 hs
        have e : (u :: us).length - depth = (us.length - depth) + 1 := by simp only [List.length_cons]; omega
        rw [e]
        simp only [List.drop_succ_cons, List.take_succ_cons, List.map_cons, List.flatten_cons]
        dsimp only at r3
        rw [List.append_assoc] at r3
        exact r3
      · rw [if_neg hd] at hs
        cases hs
        have e : (u :: us).length - depth = 0 := by simp only [List.length_cons]; omega
        rw [e]
        refine ⟨by simp only [List.drop_zero]; rw [← hu]; exact h.env, h.made, by simp [h.log]⟩

theorem Rel.declare {s : State} {v : VState} (h : Rel s v) {x : Nat} {a : Addr} {own : Bool} {u : Val} (hd : Den s.heap s.next a u) :
    Rel (s.declare x a own) { v with env := ⟨x, u, own⟩ :: v.env } := ⟨.cons rfl rfl hd h.env, h.made, h.log⟩

theorem den_sweep {s : State} {n : Addr} {keep : Option Addr} {a : Addr} {u : Val} (hd : Den s.heap s.next a u) :
    Den (s.sweep n keep).heap (s.sweep n keep).next a u := hd.later (later_sweep s n keep)

mutual
theorem step_rel : ∀ (c : Stmt) {s s' : State} {v v' : VState}, Rel s v → vstep c v = some v' → step c s = .done s' → Rel s' v'
  | .val x e, s, s', v, v', h, hv, hs => by
    simp only [vstep, Option.bind_eq_bind, Option.bind_eq_some_iff] at hv
    obtain ⟨⟨w, f, v1⟩, h1, hv⟩ := hv
    simp only [step, R.bind_eq_done] at hs
    obtain ⟨⟨a, g, s1⟩, h2, hs⟩ := hs
    obtain ⟨r, k, d, -⟩ := eval_rel e h h1 h2
    dsimp only at hs hv
    have hv' : v' = { v1 with env := ⟨x, w, true⟩ :: v1.env } := by
      cases w <;> simp at hv <;> exact hv.symm
    have hw : ∃ l, w.leaves = some l := by cases w <;> simp at hv <;> exact ⟨_, rfl⟩
    subst hv'
    by_cases hg : g = true
    · rw [if_pos hg] at hs
      cases hs
      exact (r.sweep _ _).declare (den_sweep d)
    · rw [if_neg hg] at hs
      cases ho : s1.heap a with
      | none => rw [ho] at hs; cases hs
      | some o =>
        rw [ho] at hs
        cases hs
        have gr := grow_alloc s1 o
        have d2 : Den (s1.alloc o).2.heap (s1.alloc o).2.next s1.next w := by
          cases w with
          | ctx i =>
            rcases d.2 with e0 | e0
            · rw [e0] at ho; cases ho
            · rw [e0] at ho; cases ho
              exact ⟨Nat.lt_succ_self _, .inr (alloc_at _ _)⟩
          | seq l =>
            have d' : DenL s1.heap s1.next a l := d
            show DenL _ _ _ _
            cases d' with
            | gone _ e0 => rw [e0] at ho; cases ho
            | ctx _ e0 => rw [e0] at ho; cases ho; exact .ctx (Nat.lt_succ_self _) (alloc_at _ _)
            | cat _ e0 q1 q2 =>
              rw [e0] at ho; cases ho
              exact .cat (Nat.lt_succ_self _) (alloc_at _ _) (q1.later gr.later) (q2.later gr.later)
            | rep _ e0 q1 =>
              rw [e0] at ho; cases ho
              exact .rep (Nat.lt_succ_self _) (alloc_at _ _) (q1.later gr.later)
          | stub i => obtain ⟨l, hl⟩ := hw; cases hl
          | check ls q => obtain ⟨l, hl⟩ := hw; cases hl
        exact ((r.grow gr r.made r.log rfl).sweep _ _).declare (den_sweep d2)
  | .ref x e, s, s', v, v', h, hv, hs => by
    simp only [vstep, Option.bind_eq_bind, Option.bind_eq_some_iff] at hv
    obtain ⟨⟨w, f, v1⟩, h1, hv⟩ := hv
    simp only [step, R.bind_eq_done] at hs
    obtain ⟨⟨a, g, s1⟩, h2, hs⟩ := hs
    obtain ⟨r, k, d, rfl⟩ := eval_rel e h h1 h2
    cases hv
    cases hs
    exact (r.sweep _ _).declare (den_sweep d)
  | .when_ e acts, s, s', v, v', h, hv, hs => by
    simp only [vstep, Option.bind_eq_bind, Option.bind_eq_some_iff] at hv
    obtain ⟨⟨w, f, v1⟩, h1, hv⟩ := hv
    simp only [step, R.bind_eq_done] at hs
    obtain ⟨⟨a, g, s1⟩, h2, s2, h3, s3, h4, hs⟩ := hs
    obtain ⟨r, k, d, -⟩ := eval_rel e h h1 h2
    cases w with
    | ctx i =>
      cases hv
      cases hs
      refine Rel.sweep ?_ _ _
      simp only [State.finish, R.bind_eq_done, ctxAt_done] at h4
      obtain ⟨j, h5, h6⟩ := h4
      cases h6
      dsimp only at h3 h5 ⊢
      have hd := d.2
      rcases appendAll_done h3 with ⟨e1, e2⟩ | ⟨j', e1, e2⟩
      · subst e1; subst e2
        rcases hd with q | q
        · rw [q] at h5; cases h5
        · rw [q] at h5; cases h5
          exact ⟨r.env, r.made, by simp [r.log]⟩
      · subst e2
        dsimp only at h5 ⊢
        rcases hd with q | q
        · rw [q] at h5; cases h5
        · rw [q] at h5 e1; cases h5; cases e1
          exact ⟨r.env, r.made, by simp [r.log]⟩
    | _ => cases hv
  | .verify es q, s, s', v, v', h, hv, hs => by
    simp only [vstep, Option.bind_eq_bind, Option.bind_eq_some_iff] at hv
    obtain ⟨⟨ls, v1⟩, h1, hv⟩ := hv
    simp only [step, R.bind_eq_done] at hs
    obtain ⟨⟨as, s1⟩, h2, l0, h3, s3, h4, hs⟩ := hs
    obtain ⟨r, k, d⟩ := evalAll_rel es h h1 h2
    cases hv
    cases hs
    refine Rel.sweep ?_ _ _
    simp only [State.finish, R.bind_eq_done] at h4
    obtain ⟨l1, h5, h6⟩ := h4
    cases h6
    obtain rfl := d.walkAll h5
    exact ⟨r.env, r.made, by simp [r.log]⟩
  | .keepWhen p e, s, s', v, v', h, hv, hs => by
    simp only [vstep, Option.bind_eq_bind, Option.bind_eq_some_iff] at hv
    obtain ⟨⟨w, f, v1⟩, h1, hv⟩ := hv
    simp only [step, R.bind_eq_done] at hs
    obtain ⟨⟨a, g, s1⟩, h2, hs⟩ := hs
    obtain ⟨r, k, d, -⟩ := eval_rel e h h1 h2
    cases w with
    | ctx i =>
      cases hv
      cases hs
      have gr := grow_alloc s1 (.stub a)
      have d' := d.later gr.later
      refine ((r.grow gr r.made r.log rfl).sweep _ _).declare (den_sweep ?_)
      exact ⟨Nat.lt_succ_self _, .inr ⟨a, alloc_at _ _, d'.1, d'.2⟩⟩
    | _ => cases hv
  | .keepVerify p es q, s, s', v, v', h, hv, hs => by
    simp only [vstep, Option.bind_eq_bind, Option.bind_eq_some_iff] at hv
    obtain ⟨⟨ls, v1⟩, h1, hv⟩ := hv
    simp only [step, R.bind_eq_done] at hs
    obtain ⟨⟨as, s1⟩, h2, l0, h3, hs⟩ := hs
    obtain ⟨r, k, d⟩ := evalAll_rel es h h1 h2
    cases hv
    cases hs
    have gr := grow_alloc s1 (.check as q)
    refine ((r.grow gr r.made r.log rfl).sweep _ _).declare (den_sweep ?_)
    exact ⟨Nat.lt_succ_self _, .inr ⟨as, alloc_at _ _, d.later gr.later⟩⟩
  | .act p x, s, s', v, v', h, hv, hs => by
    simp only [vstep, Option.bind_eq_bind, Option.bind_eq_some_iff] at hv
    obtain ⟨u, h1, hv⟩ := hv
    simp only [step, R.bind_eq_done, lookup_done] at hs
    obtain ⟨c, ⟨b, hb, rfl⟩, hs⟩ := hs
    obtain ⟨b', hb', d⟩ := h.env.find h1
    rw [hb] at hb'
    cases hb'
    cases hu : u.val with
    | stub i =>
      rw [hu] at hv d
      cases hv
      rcases d.2 with e | ⟨a, e, -, e'⟩
      · rw [e] at hs; cases hs
      · rw [e] at hs
        simp only [State.append, R.bind_eq_done, ctxAt_done] at hs
        obtain ⟨j, h3, hs⟩ := hs
        cases hs
        rcases e' with e' | e'
        · rw [e'] at h3; cases h3
        · rw [e'] at h3; cases h3
          exact ⟨h.env, h.made, by simp [h.log]⟩
    | _ => rw [hu] at hv; cases hv
  | .call k, s, s', v, v', h, hv, hs => by
    cases hv
    cases hs
    exact ⟨h.env, h.made, by simp [h.log]⟩
  | .block body, s, s', v, v', h, hv, hs => by
    simp only [vstep, Option.bind_eq_bind, Option.bind_eq_some_iff] at hv
    obtain ⟨t, h1, hv⟩ := hv
    simp only [step, R.bind_eq_done] at hs
    obtain ⟨s1, h2, hs⟩ := hs
    have r := run_rel body h h1 h2
    cases hv
    have := leave_rel s1.env t.env rfl rfl r hs
    rwa [h.env.length] at this

theorem run_rel : ∀ (cs : List Stmt) {s s' : State} {v v' : VState}, Rel s v → vstep.vrun cs v = some v' → step.run cs s = .done s' → Rel s' v'
  | [], s, s', v, v', h, hv, hs => by cases hv; cases hs; exact h
  | c :: cs, s, s', v, v', h, hv, hs => by
    simp only [vstep.vrun, Option.bind_eq_bind, Option.bind_eq_some_iff] at hv
    obtain ⟨t, h1, hv⟩ := hv
    simp only [step.run, R.bind_eq_done] at hs
    obtain ⟨s1, h2, hs⟩ := hs
    exact run_rel cs (step_rel c h h1 h2) hv hs
end

/-! ## Careful tests have no undefined behaviour -/

/-- What an object refers to. -/
def Obj.refs : Obj → List Addr
  | .ctx _ => []
  | .cat a b => [a, b]
  | .rep _ a => [a]
  | .stub a => [a]
  | .check pat _ => pat

/-- Everything the object at `a` needs still exists. -/
inductive Sound (h : Addr → Option Obj) : Addr → Prop where
  | mk {a o} : h a = some o → (∀ r ∈ o.refs, r < a) → (∀ r ∈ o.refs, Sound h r) → Sound h a

def owned (bs : List Binding) : List Addr := (bs.filter (·.own)).map (·.addr)

/-- Variables refer to earlier variables only. -/
def Solid (h : Addr → Option Obj) : List Binding → Prop
  | [] => True
  | b :: bs => Solid h bs ∧ if b.own then b.addr ∉ owned bs ∧ ∃ o, h b.addr = some o ∧ ∀ r ∈ o.refs, r ∈ owned bs ∧ r < b.addr else b.addr ∈ owned bs

theorem owned_cons_true {b : Binding} (h : b.own = true) (bs : List Binding) : owned (b :: bs) = b.addr :: owned bs := by simp [owned, h]
theorem owned_cons_false {b : Binding} (h : b.own = false) (bs : List Binding) : owned (b :: bs) = owned bs := by simp [owned, h]

theorem Solid.keep {h h' : Addr → Option Obj} : ∀ {bs : List Binding}, Solid h bs → (∀ a ∈ owned bs, h' a = h a) → Solid h' bs
  | [], _, _ => trivial
  | b :: bs, hs, he => by
    cases ho : b.own with
    | true =>
      rw [owned_cons_true ho] at he
      simp only [Solid, ho, if_true] at hs ⊢
      exact ⟨hs.1.keep fun a ha => he a (by simp [ha]), hs.2.1, by rw [he _ (by simp)]; exact hs.2.2⟩
    | false =>
      rw [owned_cons_false ho] at he
      simp only [Solid, ho, Bool.false_eq_true, if_false] at hs ⊢
      exact ⟨hs.1.keep he, hs.2⟩

theorem Solid.sound {h : Addr → Option Obj} : ∀ {bs : List Binding}, Solid h bs → ∀ a ∈ owned bs, Sound h a
  | [], _, a, ha => by cases ha
  | b :: bs, hs, a, ha => by
    cases ho : b.own with
    | true =>
      rw [owned_cons_true ho] at ha
      simp only [Solid, ho, if_true] at hs
      rcases List.mem_cons.1 ha with rfl | ha
      · obtain ⟨h1, h2, o, h3, h4⟩ := hs
        exact .mk h3 (fun r hr => (h4 r hr).2) fun r hr => h1.sound r (h4 r hr).1
      · exact hs.1.sound a ha
    | false =>
      rw [owned_cons_false ho] at ha
      simp only [Solid, ho, Bool.false_eq_true, if_false] at hs
      exact hs.1.sound a ha

theorem Solid.mem {h : Addr → Option Obj} : ∀ {bs : List Binding}, Solid h bs → ∀ b ∈ bs, b.addr ∈ owned bs
  | [], _, b, hb => by cases hb
  | c :: bs, hs, b, hb => by
    cases ho : c.own with
    | true =>
      simp only [Solid, ho, if_true] at hs
      rw [owned_cons_true ho]
      rcases List.mem_cons.1 hb with rfl | hb
      · simp
      · exact List.mem_cons_of_mem _ (hs.1.mem b hb)
    | false =>
      simp only [Solid, ho, Bool.false_eq_true, if_false] at hs
      rw [owned_cons_false ho]
      rcases List.mem_cons.1 hb with rfl | hb
      · exact hs.2
      · exact hs.1.mem b hb

theorem Solid.refs {h : Addr → Option Obj} : ∀ {bs : List Binding}, Solid h bs → ∀ a ∈ owned bs, ∀ o, h a = some o → ∀ r ∈ o.refs, r ∈ owned bs
  | [], _, a, ha, _, _, _, _ => by cases ha
  | b :: bs, hs, a, ha, o, hoo, r, hr => by
    cases ho : b.own with
    | true =>
      rw [owned_cons_true ho] at ha ⊢
      simp only [Solid, ho, if_true] at hs
      rcases List.mem_cons.1 ha with rfl | ha
      · obtain ⟨h1, h2, o', h3, h4⟩ := hs
        rw [h3] at hoo
        cases hoo
        exact List.mem_cons_of_mem _ (h4 r hr).1
      · exact List.mem_cons_of_mem _ (hs.1.refs a ha o hoo r hr)
    | false =>
      rw [owned_cons_false ho] at ha ⊢
      simp only [Solid, ho, Bool.false_eq_true, if_false] at hs
      exact hs.1.refs a ha o hoo r hr

theorem Sound.keep {h h' : Addr → Option Obj} {n : Addr} {a : Addr} (hs : Sound h a) (ha : a < n) (he : ∀ b, b < n → h' b = h b) : Sound h' a := by
  induction hs with
  | mk h1 h2 _ ih => exact .mk ((he _ ha).trans h1) h2 fun r hr => ih r hr (Nat.lt_trans (h2 r hr) ha)

theorem Sound.some {h : Addr → Option Obj} {a : Addr} (hs : Sound h a) : ∃ o, h a = some o := by
  cases hs with
  | mk h1 _ _ => exact ⟨_, h1⟩

theorem EnvRel.owned_lt {h n bs us} (d : EnvRel h n bs us) : ∀ a ∈ owned bs, a < n := by
  induction d with
  | nil => intro a ha; cases ha
  | @cons b u bs us h1 h2 h3 _ ih =>
    intro a ha
    cases ho : b.own with
    | true =>
      rw [owned_cons_true ho] at ha
      rcases List.mem_cons.1 ha with rfl | ha
      · exact h3.lt
      · exact ih a ha
    | false => rw [owned_cons_false ho] at ha; exact ih a ha

theorem walk_sound {h : Addr → Option Obj} {n a l} (d : DenL h n a l) : Sound h a → ∀ {fuel}, a < fuel → walk h fuel a = .done l := by
  induction d with
  | gone _ hn => intro hs; obtain ⟨o, ho⟩ := hs.some; rw [hn] at ho; cases ho
  | ctx _ hn =>
    intro _ fuel hf
    cases fuel with
    | zero => exact absurd hf (Nat.not_lt_zero _)
    | succ f => simp only [Kept.walk, hn]
  | @cat a b c l l' _ hn _ _ ih1 ih2 =>
    intro hs fuel hf
    cases fuel with
    | zero => exact absurd hf (Nat.not_lt_zero _)
    | succ f =>
      cases hs with
      | mk h1 h2 h3 =>
        rw [hn] at h1
        cases h1
        have hb := h2 b (by simp [Obj.refs])
        have hc := h2 c (by simp [Obj.refs])
        simp only [Kept.walk, hn, ih1 (h3 b (by simp [Obj.refs])) (fuel := f) (Nat.lt_of_lt_of_le hb (Nat.le_of_lt_succ hf)), ih2 (h3 c (by simp [Obj.refs])) (fuel := f) (Nat.lt_of_lt_of_le hc (Nat.le_of_lt_succ hf)), R.bind_done]
  | @rep a b l more _ hn _ ih1 =>
    intro hs fuel hf
    cases fuel with
    | zero => exact absurd hf (Nat.not_lt_zero _)
    | succ f =>
      cases hs with
      | mk h1 h2 h3 =>
        rw [hn] at h1
        cases h1
        have hb := h2 b (by simp [Obj.refs])
        simp only [Kept.walk, hn, ih1 (h3 b (by simp [Obj.refs])) (fuel := f) (Nat.lt_of_lt_of_le hb (Nat.le_of_lt_succ hf)), R.bind_done]

theorem walkAll_sound {h : Addr → Option Obj} {n as ls} (d : DenLs h n as ls) : (∀ a ∈ as, Sound h a) → walkAll h as = .done ls := by
  induction d with
  | nil => intro _; rfl
  | cons d _ ih =>
    intro hs
    simp only [Kept.walkAll, walk_sound d (hs _ (by simp)) (Nat.lt_succ_self _), ih (fun a ha => hs a (by simp [ha])), R.bind_done]

/-- All variables can be used. -/
def AllSound (s : State) : Prop := ∀ b ∈ s.env, Sound s.heap b.addr

theorem AllSound.grow {s s' : State} {v : VState} (h : AllSound s) (r : Rel s v) (g : Grow s s') : AllSound s' := by
  intro b hb
  rw [g.env] at hb
  refine (h b hb).keep ?_ g.old
  have hr := r.env
  clear r g h
  generalize s.env = bs at hr hb
  generalize v.env = us at hr
  induction hr with
  | nil => cases hb
  | cons _ _ d _ ih =>
    rcases List.mem_cons.1 hb with rfl | hb
    · exact d.lt
    · exact ih hb

theorem Den.ctx_of_sound {s : State} {a : Addr} {i : Nat} (d : Den s.heap s.next a (.ctx i)) (hs : Sound s.heap a) : s.ctxAt a = .done i := by
  obtain ⟨o, ho⟩ := hs.some
  rw [ctxAt_done]
  rcases d.2 with e | e
  · rw [e] at ho; cases ho
  · exact e

theorem eval_total : ∀ (e : Expr) {s : State} {v : VState} {u : Val} {fr : Bool} {v' : VState}, Rel s v → AllSound s → veval e v = some (u, fr, v') →
    ∃ a s', eval e s = .done (a, fr, s') ∧ Sound s'.heap a ∧ (stays e = true → a ∈ s.env.map (·.addr)) ∧
      (∀ x y, e = .plus x y → ∃ b c, s'.heap a = some (.cat b c) ∧ (stays x = true → b ∈ s.env.map (·.addr)) ∧ (stays y = true → c ∈ s.env.map (·.addr))) ∧
      (∀ m x, e = .times m x → ∃ b, s'.heap a = some (.rep m b) ∧ (stays x = true → b ∈ s.env.map (·.addr))) ∧
      (fr = true → s.next ≤ a ∧ ((∃ x y, e = .plus x y) ∨ ∃ m x, e = .times m x)) ∧
      (fr = false → stays e = true ∨ ∃ i, s'.heap a = some (.ctx i)) := by
  intro e
  induction e with
  | var x =>
    intro s v u fr v' h hs hv
    simp only [veval, Option.bind_eq_bind, Option.bind_eq_some_iff] at hv
    obtain ⟨b, hb, hv⟩ := hv
    cases hv
    obtain ⟨b2, h2, h3⟩ := h.env.find hb
    have hm := List.mem_of_find?_eq_some h2
    refine ⟨b2.addr, s, ?_, hs b2 hm, fun _ => List.mem_map_of_mem hm, ?_, ?_, ?_, fun _ => .inl rfl⟩
    · simp only [eval, (lookup_done (s := s) (x := x) (a := b2.addr)).2 ⟨b2, h2, rfl⟩, R.bind_done]
    · intro x y h; cases h
    · intro x y h; cases h
    · intro h; cases h
  | method k =>
    intro s v u fr v' h hs hv
    cases hv
    refine ⟨_, _, rfl, .mk (alloc_at s _) (fun r hr => (by cases hr)) (fun r hr => (by cases hr)), fun h => (by cases h), ?_, ?_, ?_,
      fun _ => .inr ⟨_, alloc_at s _⟩⟩
    · intro x y h; cases h
    · intro x y h; cases h
    · intro h; cases h
  | args e ih =>
    intro s v u fr v' h hs hv
    simp only [veval, Option.bind_eq_bind, Option.bind_eq_some_iff] at hv
    obtain ⟨⟨w, f1, v1⟩, h1, hv⟩ := hv
    obtain ⟨a, s1, h2, h3, h4, -⟩ := ih h hs h1
    obtain ⟨r, g, d, -⟩ := eval_rel e h h1 h2
    cases w with
    | ctx i =>
      cases hv
      have hc := d.ctx_of_sound h3
      refine ⟨a, { s1 with log := s1.log ++ [.criteria i] }, by simp only [eval, h2, hc, R.bind_done], h3, h4, ?_, ?_, ?_, fun _ => .inr ⟨i, ctxAt_done.1 hc⟩⟩
      · intro x y h; cases h
      · intro x y h; cases h
      · intro h; cases h
    | _ => cases hv
  | plus e f ih1 ih2 =>
    intro s v u fr v' h hs hv
    simp only [veval, Option.bind_eq_bind, Option.bind_eq_some_iff] at hv
    obtain ⟨⟨w, f1, v1⟩, h1, ⟨w2, f2, v2⟩, h2, l, hl, l', hl', hv⟩ := hv
    obtain ⟨a, s1, e1, p1, q1, -⟩ := ih1 h hs h1
    obtain ⟨r1, g1, d1, -⟩ := eval_rel e h h1 e1
    obtain ⟨b, s2, e2, p2, q2, -⟩ := ih2 r1 (hs.grow h g1) h2
    obtain ⟨r2, g2, d2, -⟩ := eval_rel f r1 h2 e2
    cases hv
    have g := grow_alloc s2 (.cat a b)
    have ha : a < s2.next := Nat.lt_of_lt_of_le d1.lt g2.le
    have hb : b < s2.next := d2.lt
    refine ⟨_, _, by simp only [eval, e1, e2, R.bind_done]; rfl, ?_, fun h => (by cases h), ?_, ?_, fun _ => ⟨Nat.le_trans g1.le g2.le, .inl ⟨_, _, rfl⟩⟩, fun h => (by cases h)⟩
    · refine .mk (alloc_at s2 _) ?_ ?_
      · intro r hr
        simp only [Obj.refs, List.mem_cons, List.not_mem_nil, or_false] at hr
        rcases hr with rfl | rfl
        · exact ha
        · exact hb
      · intro r hr
        simp only [Obj.refs, List.mem_cons, List.not_mem_nil, or_false] at hr
        rcases hr with rfl | rfl
        · exact (p1.keep d1.lt g2.old).keep ha g.old
        · exact p2.keep hb g.old
    · intro x y hxy
      cases hxy
      exact ⟨a, b, alloc_at s2 _, q1, by rw [← g1.env]; exact q2⟩
    · intro m x h; cases h
  | times more e ih =>
    intro s v u fr v' h hs hv
    simp only [veval, Option.bind_eq_bind, Option.bind_eq_some_iff] at hv
    obtain ⟨⟨w, f1, v1⟩, h1, l, hl, hv⟩ := hv
    obtain ⟨a, s1, e1, p1, q1, -⟩ := ih h hs h1
    obtain ⟨r1, g1, d1, -⟩ := eval_rel e h h1 e1
    cases hv
    have g := grow_alloc s1 (.rep more a)
    refine ⟨_, _, by simp only [eval, e1, R.bind_done]; rfl, ?_, fun h => (by cases h), ?_, ?_, fun _ => ⟨g1.le, .inr ⟨_, _, rfl⟩⟩, fun h => (by cases h)⟩
    · refine .mk (alloc_at s1 _) ?_ ?_
      · intro r hr
        simp only [Obj.refs, List.mem_cons, List.not_mem_nil, or_false] at hr
        subst hr
        exact d1.lt
      · intro r hr
        simp only [Obj.refs, List.mem_cons, List.not_mem_nil, or_false] at hr
        subst hr
        exact p1.keep d1.lt g.old
    · intro x y h; cases h
    · intro m x hxy
      cases hxy
      exact ⟨a, alloc_at s1 _, q1⟩

theorem evalAll_total : ∀ (es : List Expr) {s : State} {v : VState} {ls : List (List Nat)} {v' : VState}, Rel s v → AllSound s →
    vevalAll es v = some (ls, v') → ∃ as s', evalAll es s = .done (as, s') ∧ (∀ a ∈ as, Sound s'.heap a) ∧
      (es.all stays = true → ∀ a ∈ as, a ∈ s.env.map (·.addr)) := by
  intro es
  induction es with
  | nil =>
    intro s v ls v' h hs hv
    exact ⟨[], s, rfl, fun a ha => (by cases ha), fun _ a ha => (by cases ha)⟩
  | cons e es ih =>
    intro s v ls v' h hs hv
    simp only [vevalAll, Option.bind_eq_bind, Option.bind_eq_some_iff] at hv
    obtain ⟨⟨w, f1, v1⟩, h1, l, hl, ⟨ls2, v2⟩, h2, hv⟩ := hv
    obtain ⟨a, s1, e1, p1, q1, -⟩ := eval_total e h hs h1
    obtain ⟨r1, g1, d1, -⟩ := eval_rel e h h1 e1
    obtain ⟨as, s2, e2, p2, q2⟩ := ih r1 (hs.grow h g1) h2
    obtain ⟨r2, g2, d2⟩ := evalAll_rel es r1 h2 e2
    refine ⟨a :: as, s2, by simp only [evalAll, e1, e2, R.bind_done], ?_, ?_⟩
    · intro b hb
      rcases List.mem_cons.1 hb with rfl | hb
      · exact p1.keep d1.lt g2.old
      · exact p2 b hb
    · intro hall b hb
      simp only [List.all_cons, Bool.and_eq_true] at hall
      rcases List.mem_cons.1 hb with rfl | hb
      · exact q1 hall.1
      · rw [← g1.env]; exact q2 hall.2 b hb

theorem Solid.allSound {s : State} (h : Solid s.heap s.env) : AllSound s := fun b hb => h.sound _ (h.mem b hb)

theorem Solid.addr {s : State} (h : Solid s.heap s.env) {a : Addr} (ha : a ∈ s.env.map (·.addr)) : a ∈ owned s.env := by
  obtain ⟨b, hb, rfl⟩ := List.mem_map.1 ha
  exact h.mem b hb

theorem solid_sweep {s s1 : State} {v : VState} (h : Solid s.heap s.env) (r : Rel s v) (g : Grow s s1) (keep : Option Addr) :
    Solid (s1.sweep s.next keep).heap s1.env := by
  rw [g.env]
  refine h.keep fun a ha => ?_
  have hlt := r.env.owned_lt a ha
  simp only [State.sweep]
  rw [if_neg (fun h => absurd h.1 (Nat.not_le_of_lt hlt)), g.old a hlt]

/-- Declaring a variable for an object made in the same statement. -/
theorem solid_declare {s s1 : State} {v : VState} (h : Solid s.heap s.env) (r : Rel s v) (g : Grow s s1) {a : Addr} {o : Obj} (ha : s.next ≤ a)
    (ho : s1.heap a = some o) (hr : ∀ r ∈ o.refs, r ∈ owned s.env) (x : Nat) :
    Solid ((s1.sweep s.next (some a)).declare x a true).heap ((s1.sweep s.next (some a)).declare x a true).env := by
  refine ⟨solid_sweep h r g _, ?_⟩
  simp only [if_true]
  have hne : a ∉ owned s.env := fun hm => absurd (r.env.owned_lt a hm) (Nat.not_lt_of_le ha)
  refine ⟨by rw [show (s1.sweep s.next (some a)).env = s.env from g.env]; exact hne, o, ?_, fun b hb => ⟨?_, ?_⟩⟩
  · show (if s.next ≤ a ∧ some a ≠ some a then none else s1.heap a) = some o
    rw [if_neg (fun h => h.2 rfl), ho]
  · rw [show (s1.sweep s.next (some a)).env = s.env from g.env]; exact hr b hb
  · exact Nat.lt_of_lt_of_le (r.env.owned_lt b (hr b hb)) ha

theorem drop_total {s : State} {v : VState} {b : Binding} {bs : List Binding} {u : Named} {us : List Named} (h : Rel s v) (hb : s.env = b :: bs)
    (hu : v.env = u :: us) (hs : Solid s.heap s.env) : ∃ s', s.drop b = .done s' ∧ Solid s'.heap bs := by
  have hE := h.env
  rw [hb, hu] at hE
  rw [hb] at hs
  cases hE with
  | cons h1 h2 h3 h4 =>
    cases ho : b.own with
    | false =>
      simp only [Solid, ho, Bool.false_eq_true, if_false] at hs
      exact ⟨s, by simp [State.drop, ho], hs.1⟩
    | true =>
      have hsd := hs.sound b.addr (by rw [owned_cons_true ho]; simp)
      simp only [Solid, ho, if_true] at hs
      obtain ⟨h5, h6, o, h7, h8⟩ := hs
      have key : ∃ t, s.finish o = .done t := by
        cases o with
        | ctx i => exact ⟨_, rfl⟩
        | cat b c => exact ⟨_, rfl⟩
        | rep m b => exact ⟨_, rfl⟩
        | stub a =>
          have hsa := h5.sound a (h8 a (by simp [Obj.refs])).1
          cases hv : u.val with
          | stub i =>
            rw [hv] at h3
            rcases h3.2 with e | ⟨c, e, e1, e2⟩
            · rw [e] at h7; cases h7
            · rw [e] at h7; cases h7
              have := Den.ctx_of_sound (s := s) (a := a) (i := i) ⟨e1, e2⟩ hsa
              exact ⟨_, by simp only [State.finish, this, R.bind_done]; rfl⟩
          | ctx i => rw [hv] at h3; rcases h3.2 with e | e <;> (rw [e] at h7; cases h7)
          | seq l =>
            rw [hv] at h3
            have h3' : DenL s.heap s.next b.addr l := h3
            cases h3' with
            | gone _ e => rw [e] at h7; cases h7
            | ctx _ e => rw [e] at h7; cases h7
            | cat _ e => rw [e] at h7; cases h7
            | rep _ e => rw [e] at h7; cases h7
          | check ls q => rw [hv] at h3; rcases h3.2 with e | ⟨p, e, _⟩ <;> (rw [e] at h7; cases h7)
        | check pat q =>
          cases hv : u.val with
          | check ls q' =>
            rw [hv] at h3
            rcases h3.2 with e | ⟨p, e, e1⟩
            · rw [e] at h7; cases h7
            · rw [e] at h7; cases h7
              have := walkAll_sound e1 fun a ha => h5.sound a (h8 a (by simpa [Obj.refs] using ha)).1
              exact ⟨_, by simp only [State.finish, this, R.bind_done]; rfl⟩
          | ctx i => rw [hv] at h3; rcases h3.2 with e | e <;> (rw [e] at h7; cases h7)
          | stub i => rw [hv] at h3; rcases h3.2 with e | ⟨c, e, _⟩ <;> (rw [e] at h7; cases h7)
          | seq l =>
            rw [hv] at h3
            have h3' : DenL s.heap s.next b.addr l := h3
            cases h3' with
            | gone _ e => rw [e] at h7; cases h7
            | ctx _ e => rw [e] at h7; cases h7
            | cat _ e => rw [e] at h7; cases h7
            | rep _ e => rw [e] at h7; cases h7
      obtain ⟨t, ht⟩ := key
      refine ⟨_, by simp only [State.drop, ho, if_true, h7, ht, R.bind_done]; rfl, ?_⟩
      refine h5.keep fun a ha => ?_
      dsimp only
      rw [if_neg (fun (e : a = b.addr) => h6 (e ▸ ha)), (finish_later ht).1]

theorem leave_total {depth : Nat} : ∀ (bs : List Binding) (us : List Named) {s : State} {v : VState}, s.env = bs → v.env = us → Rel s v →
    Solid s.heap s.env → ∃ s', State.leave depth bs s = .done s' ∧ Solid s'.heap s'.env := by
  intro bs
  induction bs with
  | nil =>
    intro us s v hb hu h hs
    exact ⟨s, rfl, hs⟩
  | cons b bs ih =>
    intro us s v hb hu h hs
    have hE := h.env
    rw [hb, hu] at hE
    cases hE with
    | @cons _ u _ us h1 h2 h3 h4 =>
      by_cases hd : depth ≤ bs.length
      · obtain ⟨t, ht, hts⟩ := drop_total h hb hu hs
        have r := drop_rel h h2 h3 ht
        have hte : t.env = b :: bs := by
          rw [← hb]
          unfold State.drop at ht
          split at ht
          · split at ht
            · cases ht
            · simp only [R.bind_eq_done] at ht
              obtain ⟨t', h5, h6⟩ := ht
              cases h6
              exact (finish_later h5).2.2.1
          · cases ht; rfl
        have r2 : Rel { t with env := bs } { v with env := us, log := v.log ++ ending u } := by
          refine ⟨?_, r.made, r.log⟩
          have h5 := r.env
          rw [hte] at h5
          dsimp only at h5 ⊢
          rw [hu] at h5
          cases h5 with
          | cons _ _ _ h6 => exact h6
        obtain ⟨s', e1, e2⟩ := ih us rfl rfl r2 hts
        exact ⟨s', by simp only [State.leave, if_pos hd, ht, R.bind_done, e1], e2⟩
      · exact ⟨s, by simp only [State.leave, if_neg hd], hs⟩

theorem appendAll_total {a : Addr} : ∀ (acts : List Nat) {s : State} {i : Nat}, s.heap a = some (.ctx i) → ∃ s', State.appendAll a acts s = .done s' := by
  intro acts
  induction acts with
  | nil => intro s i _; exact ⟨s, rfl⟩
  | cons x xs ih =>
    intro s i h
    obtain ⟨s', h'⟩ := ih (s := { s with log := s.log ++ [.append i x] }) h
    exact ⟨s', by simp only [State.appendAll, State.append, ctxAt_done.2 h, R.bind_done]; exact h'⟩

mutual
theorem step_total : ∀ (c : Stmt) {s : State} {v v' : VState}, Rel s v → Solid s.heap s.env → careful c = true → vstep c v = some v' →
    ∃ s', step c s = .done s' ∧ Solid s'.heap s'.env
  | .val x e, s, v, v', h, hs, hc, hv => by
    simp only [vstep, Option.bind_eq_bind, Option.bind_eq_some_iff] at hv
    obtain ⟨⟨w, f, v1⟩, h1, hv⟩ := hv
    obtain ⟨a, s1, e1, p1, q1, q2, q3, q4, q5⟩ := eval_total e h hs.allSound h1
    obtain ⟨r, g, d, -⟩ := eval_rel e h h1 e1
    simp only [careful] at hc
    simp only [step, e1, R.bind_done]
    cases f with
    | true =>
      simp only [if_true]
      refine ⟨_, rfl, ?_⟩
      have hnew := (q4 rfl).1
      rcases (q4 rfl).2 with ⟨x', y', rfl⟩ | ⟨m, x', rfl⟩
      · obtain ⟨b, c, k1, k2, k3⟩ := q2 _ _ rfl
        simp only [solid, Bool.and_eq_true] at hc
        refine solid_declare hs h g hnew k1 (fun r hr => ?_) x
        simp only [Obj.refs, List.mem_cons, List.not_mem_nil, or_false] at hr
        rcases hr with rfl | rfl
        · exact hs.addr (k2 hc.1)
        · exact hs.addr (k3 hc.2)
      · obtain ⟨b, k1, k2⟩ := q3 _ _ rfl
        simp only [solid] at hc
        refine solid_declare hs h g hnew k1 (fun r hr => ?_) x
        simp only [Obj.refs, List.mem_cons, List.not_mem_nil, or_false] at hr
        subst hr
        exact hs.addr (k2 hc)
    | false =>
      obtain ⟨o, ho⟩ := p1.some
      simp only [Bool.false_eq_true, if_false, ho]
      refine ⟨_, rfl, ?_⟩
      have g2 := g.trans (grow_alloc s1 o)
      refine solid_declare hs h g2 g.le (alloc_at s1 o) (fun r hr => ?_) x
      rcases q5 rfl with q | ⟨i, q⟩
      · have hm := hs.addr (q1 q)
        exact hs.refs a hm o ((g.old a (h.env.owned_lt a hm)).symm.trans ho) r hr
      · rw [q] at ho
        cases ho
        cases hr
  | .ref x e, s, v, v', h, hs, hc, hv => by
    simp only [vstep, Option.bind_eq_bind, Option.bind_eq_some_iff] at hv
    obtain ⟨⟨w, f, v1⟩, h1, hv⟩ := hv
    obtain ⟨a, s1, e1, p1, q1, q2, q3, q4, q5⟩ := eval_total e h hs.allSound h1
    obtain ⟨r, g, d, -⟩ := eval_rel e h h1 e1
    simp only [careful] at hc
    simp only [step, e1, R.bind_done]
    refine ⟨_, rfl, ?_⟩
    cases f with
    | true =>
      simp only [if_true]
      have hnew := (q4 rfl).1
      rcases (q4 rfl).2 with ⟨x', y', rfl⟩ | ⟨m, x', rfl⟩
      · obtain ⟨b, c, k1, k2, k3⟩ := q2 _ _ rfl
        simp only [bindable, Bool.and_eq_true] at hc
        refine solid_declare hs h g hnew k1 (fun r hr => ?_) x
        simp only [Obj.refs, List.mem_cons, List.not_mem_nil, or_false] at hr
        rcases hr with rfl | rfl
        · exact hs.addr (k2 hc.1)
        · exact hs.addr (k3 hc.2)
      · obtain ⟨b, k1, k2⟩ := q3 _ _ rfl
        simp only [bindable] at hc
        refine solid_declare hs h g hnew k1 (fun r hr => ?_) x
        simp only [Obj.refs, List.mem_cons, List.not_mem_nil, or_false] at hr
        subst hr
        exact hs.addr (k2 hc)
    | false =>
      have hst : stays e = true := by
        cases e with
        | plus x y => simp only [veval, Option.bind_eq_bind, Option.bind_eq_some_iff] at h1; obtain ⟨_, _, _, _, _, _, _, _, h⟩ := h1; cases h
        | times m x => simp only [veval, Option.bind_eq_bind, Option.bind_eq_some_iff] at h1; obtain ⟨_, _, _, _, h⟩ := h1; cases h
        | var x => rfl
        | method k => exact hc
        | args e => exact hc
      refine ⟨solid_sweep hs h g _, ?_⟩
      simp only [Bool.false_eq_true, if_false]
      rw [show (s1.sweep s.next none).env = s.env from g.env]
      exact hs.addr (q1 hst)
  | .when_ e acts, s, v, v', h, hs, hc, hv => by
    simp only [vstep, Option.bind_eq_bind, Option.bind_eq_some_iff] at hv
    obtain ⟨⟨w, f, v1⟩, h1, hv⟩ := hv
    obtain ⟨a, s1, e1, p1, -⟩ := eval_total e h hs.allSound h1
    obtain ⟨r, g, d, -⟩ := eval_rel e h h1 e1
    cases w with
    | ctx i =>
      have hctx := ctxAt_done.1 (d.ctx_of_sound p1)
      obtain ⟨s2, h2⟩ := appendAll_total acts hctx
      have hs2 : s2.heap = s1.heap ∧ s2.env = s1.env ∧ s2.next = s1.next := by
        rcases appendAll_done h2 with ⟨e, _⟩ | ⟨_, _, e⟩ <;> (subst e; exact ⟨rfl, rfl, rfl⟩)
      have hctx2 : s2.ctxAt a = .done i := by rw [ctxAt_done, hs2.1]; exact hctx
      refine ⟨_, by simp only [step, e1, h2, State.finish, hctx2, R.bind_done]; rfl, ?_⟩
      have := solid_sweep hs h g none
      refine Eq.mp ?_ this
      simp only [State.sweep, hs2.1, hs2.2.1]
    | _ => cases hv
  | .verify es q, s, v, v', h, hs, hc, hv => by
    simp only [vstep, Option.bind_eq_bind, Option.bind_eq_some_iff] at hv
    obtain ⟨⟨ls, v1⟩, h1, hv⟩ := hv
    obtain ⟨as, s1, e1, p1, -⟩ := evalAll_total es h hs.allSound h1
    obtain ⟨r, g, d⟩ := evalAll_rel es h h1 e1
    have hw := walkAll_sound d p1
    refine ⟨_, by simp only [step, e1, hw, State.finish, R.bind_done]; rfl, ?_⟩
    exact solid_sweep hs h g none
  | .keepWhen p e, s, v, v', h, hs, hc, hv => by
    simp only [vstep, Option.bind_eq_bind, Option.bind_eq_some_iff] at hv
    obtain ⟨⟨w, f, v1⟩, h1, hv⟩ := hv
    obtain ⟨a, s1, e1, p1, q1, -⟩ := eval_total e h hs.allSound h1
    obtain ⟨r, g, d, -⟩ := eval_rel e h h1 e1
    simp only [careful] at hc
    refine ⟨_, by simp only [step, e1, R.bind_done]; rfl, ?_⟩
    refine solid_declare hs h (g.trans (grow_alloc s1 (.stub a))) g.le (alloc_at s1 _) (fun r hr => ?_) p
    simp only [Obj.refs, List.mem_cons, List.not_mem_nil, or_false] at hr
    subst hr
    exact hs.addr (q1 hc)
  | .keepVerify p es q, s, v, v', h, hs, hc, hv => by
    simp only [vstep, Option.bind_eq_bind, Option.bind_eq_some_iff] at hv
    obtain ⟨⟨ls, v1⟩, h1, hv⟩ := hv
    obtain ⟨as, s1, e1, p1, q1⟩ := evalAll_total es h hs.allSound h1
    obtain ⟨r, g, d⟩ := evalAll_rel es h h1 e1
    simp only [careful] at hc
    have hw := walkAll_sound d p1
    refine ⟨_, by simp only [step, e1, hw, R.bind_done]; rfl, ?_⟩
    exact solid_declare hs h (g.trans (grow_alloc s1 (.check as q))) g.le (alloc_at s1 _) (fun r hr => hs.addr (q1 hc r hr)) p
  | .act p x, s, v, v', h, hs, hc, hv => by
    simp only [vstep, Option.bind_eq_bind, Option.bind_eq_some_iff] at hv
    obtain ⟨u, h1, hv⟩ := hv
    obtain ⟨b, hb, d⟩ := h.env.find h1
    have hsd := hs.allSound b (List.mem_of_find?_eq_some hb)
    cases hu : u.val with
    | stub i =>
      rw [hu] at d
      obtain ⟨o, ho⟩ := hsd.some
      rcases d.2 with e | ⟨a, e, e1, e2⟩
      · rw [e] at ho; cases ho
      · have hsa : Sound s.heap a := by
          cases hsd with
          | mk k1 k2 k3 =>
            rw [e] at k1
            cases k1
            exact k3 a (by simp [Obj.refs])
        have hctx := Den.ctx_of_sound (s := s) (a := a) (i := i) ⟨e1, e2⟩ hsa
        have hl : s.lookup p = .done b.addr := lookup_done.2 ⟨b, hb, rfl⟩
        exact ⟨{ s with log := s.log ++ [.append i x] }, by simp only [step, hl, R.bind_done, e, State.append, hctx], hs⟩
    | _ => rw [hu] at hv; cases hv
  | .call k, s, v, v', h, hs, hc, hv => ⟨_, rfl, hs⟩
  | .block body, s, v, v', h, hs, hc, hv => by
    simp only [vstep, Option.bind_eq_bind, Option.bind_eq_some_iff] at hv
    obtain ⟨t, h1, hv⟩ := hv
    simp only [careful] at hc
    obtain ⟨s1, e1, hs1⟩ := run_total body h hs hc h1
    have r := run_rel body h h1 e1
    obtain ⟨s2, e2, hs2⟩ := leave_total (depth := s.env.length) s1.env t.env rfl rfl r hs1
    exact ⟨s2, by simp only [step, e1, R.bind_done, e2], hs2⟩

theorem run_total : ∀ (cs : List Stmt) {s : State} {v v' : VState}, Rel s v → Solid s.heap s.env → carefulAll cs = true → vstep.vrun cs v = some v' →
    ∃ s', step.run cs s = .done s' ∧ Solid s'.heap s'.env
  | [], s, v, v', h, hs, hc, hv => ⟨s, rfl, hs⟩
  | c :: cs, s, v, v', h, hs, hc, hv => by
    simp only [vstep.vrun, Option.bind_eq_bind, Option.bind_eq_some_iff] at hv
    obtain ⟨t, h1, hv⟩ := hv
    simp only [carefulAll, Bool.and_eq_true] at hc
    obtain ⟨s1, e1, hs1⟩ := step_total c h hs hc.1 h1
    obtain ⟨s2, e2, hs2⟩ := run_total cs (step_rel c h h1 e1) hs1 hc.2 hv
    exact ⟨s2, by simp only [step.run, e1, R.bind_done, e2], hs2⟩
end

/-! ## Nothing that has ended comes back -/

theorem walk_ne_oof (h : Addr → Option Obj) : ∀ (fuel : Nat) (a : Addr), walk h fuel a ≠ .oof := by
  intro fuel
  induction fuel with
  | zero => intro a h; cases h
  | succ f ih =>
    intro a
    simp only [Kept.walk]
    split
    · intro h; cases h
    · next b c _ =>
      have h1 := ih b
      have h2 := ih c
      cases hb : walk h f b with
      | oof => exact absurd hb h1
      | ub => intro h; cases h
      | done l =>
        cases hc : walk h f c with
        | oof => exact absurd hc h2
        | ub => intro h; cases h
        | done l' => intro h; cases h
    · next m b _ =>
      have h1 := ih b
      cases hb : walk h f b with
      | oof => exact absurd hb h1
      | ub => intro h; cases h
      | done l => intro h; cases h
    · intro h; cases h

theorem walkAll_ne_oof (h : Addr → Option Obj) : ∀ (as : List Addr), walkAll h as ≠ .oof := by
  intro as
  induction as with
  | nil => intro h; cases h
  | cons a as ih =>
    simp only [Kept.walkAll]
    cases ha : walk h (a + 1) a with
    | oof => exact absurd ha (walk_ne_oof h _ _)
    | ub => intro h; cases h
    | done l =>
      cases hb : walkAll h as with
      | oof => exact absurd hb ih
      | ub => intro h; cases h
      | done l' => intro h; cases h

theorem bind_ne_oof {α β : Type} {x : R α} {f : α → R β} (hx : x ≠ .oof) (hf : ∀ a, x = .done a → f a ≠ .oof) : (x >>= f) ≠ .oof := by
  cases x with
  | done a => exact hf a rfl
  | ub => intro h; cases h
  | oof => exact absurd rfl hx

theorem done_ne_oof {α : Type} (a : α) : R.done a ≠ .oof := by intro h; cases h

theorem ctxAt_ne_oof (s : State) (a : Addr) : s.ctxAt a ≠ .oof := by
  unfold State.ctxAt
  split
  · exact done_ne_oof _
  · intro h; cases h

theorem lookup_ne_oof (s : State) (x : Nat) : s.lookup x ≠ .oof := by
  unfold State.lookup
  cases (s.env.find? (·.name == x)).map (·.addr) with
  | none => intro h; cases h
  | some a => exact done_ne_oof _

theorem eval_ne_oof : ∀ (e : Expr) (s : State), eval e s ≠ .oof := by
  intro e
  induction e with
  | var x => intro s; exact bind_ne_oof (lookup_ne_oof _ _) fun _ _ => done_ne_oof _
  | method k => intro s; exact done_ne_oof _
  | args e ih => intro s; exact bind_ne_oof (ih s) fun _ _ => bind_ne_oof (ctxAt_ne_oof _ _) fun _ _ => done_ne_oof _
  | plus e f ih1 ih2 => intro s; exact bind_ne_oof (ih1 s) fun _ _ => bind_ne_oof (ih2 _) fun _ _ => done_ne_oof _
  | times m e ih => intro s; exact bind_ne_oof (ih s) fun _ _ => done_ne_oof _

theorem evalAll_ne_oof : ∀ (es : List Expr) (s : State), evalAll es s ≠ .oof := by
  intro es
  induction es with
  | nil => intro s; exact done_ne_oof _
  | cons e es ih => intro s; exact bind_ne_oof (eval_ne_oof e s) fun _ _ => bind_ne_oof (ih _) fun _ _ => done_ne_oof _

theorem appendAll_ne_oof (a : Addr) : ∀ (acts : List Nat) (s : State), State.appendAll a acts s ≠ .oof := by
  intro acts
  induction acts with
  | nil => intro s; exact done_ne_oof _
  | cons x xs ih =>
    intro s
    exact bind_ne_oof (bind_ne_oof (ctxAt_ne_oof _ _) fun _ _ => done_ne_oof _) fun _ _ => ih _

theorem finish_ne_oof (s : State) (o : Obj) : s.finish o ≠ .oof := by
  cases o with
  | stub a => exact bind_ne_oof (ctxAt_ne_oof _ _) fun _ _ => done_ne_oof _
  | check pat q => exact bind_ne_oof (walkAll_ne_oof _ _) fun _ _ => done_ne_oof _
  | _ => exact done_ne_oof _

theorem drop_ne_oof (s : State) (b : Binding) : s.drop b ≠ .oof := by
  unfold State.drop
  split
  · split
    · intro h; cases h
    · exact bind_ne_oof (finish_ne_oof _ _) fun _ _ => done_ne_oof _
  · exact done_ne_oof _

theorem leave_ne_oof (depth : Nat) : ∀ (bs : List Binding) (s : State), State.leave depth bs s ≠ .oof := by
  intro bs
  induction bs with
  | nil => intro s; exact done_ne_oof _
  | cons b bs ih =>
    intro s
    simp only [State.leave]
    split
    · exact bind_ne_oof (drop_ne_oof _ _) fun _ _ => ih _
    · exact done_ne_oof _

mutual
theorem step_ne_oof : ∀ (c : Stmt) (s : State), step c s ≠ .oof
  | .val x e, s => by
    refine bind_ne_oof (eval_ne_oof e s) fun r _ => ?_
    dsimp only
    split
    · exact done_ne_oof _
    · split
      · intro h; cases h
      · exact done_ne_oof _
  | .ref x e, s => bind_ne_oof (eval_ne_oof e s) fun _ _ => done_ne_oof _
  | .when_ e acts, s => bind_ne_oof (eval_ne_oof e s) fun _ _ => bind_ne_oof (appendAll_ne_oof _ _ _) fun _ _ =>
      bind_ne_oof (finish_ne_oof _ _) fun _ _ => done_ne_oof _
  | .verify es q, s => bind_ne_oof (evalAll_ne_oof es s) fun _ _ => bind_ne_oof (walkAll_ne_oof _ _) fun _ _ =>
      bind_ne_oof (finish_ne_oof _ _) fun _ _ => done_ne_oof _
  | .keepWhen p e, s => bind_ne_oof (eval_ne_oof e s) fun _ _ => done_ne_oof _
  | .keepVerify p es q, s => bind_ne_oof (evalAll_ne_oof es s) fun _ _ => bind_ne_oof (walkAll_ne_oof _ _) fun _ _ => done_ne_oof _
  | .act p x, s => by
    refine bind_ne_oof (lookup_ne_oof _ _) fun c _ => ?_
    split
    · exact bind_ne_oof (ctxAt_ne_oof _ _) fun _ _ => done_ne_oof _
    · intro h; cases h
  | .call k, s => done_ne_oof _
  | .block body, s => bind_ne_oof (run_ne_oof body s) fun _ _ => leave_ne_oof _ _ _

theorem run_ne_oof : ∀ (cs : List Stmt) (s : State), step.run cs s ≠ .oof
  | [], _ => done_ne_oof _
  | c :: cs, s => bind_ne_oof (step_ne_oof c s) fun _ _ => run_ne_oof cs _
end

theorem eval_grow : ∀ (e : Expr) {s s' : State} {a : Addr} {fr : Bool}, eval e s = .done (a, fr, s') →
    Grow s s' ∧ (fr = true → s.next ≤ a) ∧ (stays e = false → s.next ≤ a) ∧ (fr = false → stays e = true ∨ s.next ≤ a) := by
  intro e
  induction e with
  | var x =>
    intro s s' a fr h
    simp only [eval, R.bind_eq_done] at h
    obtain ⟨c, _, h⟩ := h
    cases h
    exact ⟨.refl _, fun h => (by cases h), fun h => (by cases h), fun _ => .inl rfl⟩
  | method k =>
    intro s s' a fr h
    cases h
    exact ⟨⟨rfl, Nat.le_succ _, (grow_alloc s _).old⟩, fun h => (by cases h), fun _ => Nat.le_refl _, fun _ => .inr (Nat.le_refl _)⟩
  | args e ih =>
    intro s s' a fr h
    simp only [eval, R.bind_eq_done] at h
    obtain ⟨⟨a1, g1, s1⟩, h2, i, h3, h⟩ := h
    cases h
    obtain ⟨g, h1, h2, h3⟩ := ih h2
    refine ⟨⟨g.env, g.le, g.old⟩, fun h => (by cases h), h2, fun _ => ?_⟩
    cases hst : stays e with
    | true => exact .inl hst
    | false => exact .inr (h2 hst)
  | plus e f ih1 ih2 =>
    intro s s' a fr h
    simp only [eval, R.bind_eq_done] at h
    obtain ⟨⟨a1, g1, s1⟩, h3, ⟨a2, g2, s2⟩, h4, h⟩ := h
    cases h
    have k1 := (ih1 h3).1
    have k2 := (ih2 h4).1
    have hle : s.next ≤ s2.next := Nat.le_trans k1.le k2.le
    exact ⟨(k1.trans k2).trans (grow_alloc s2 _), fun _ => hle, fun _ => hle, fun h => (by cases h)⟩
  | times m e ih =>
    intro s s' a fr h
    simp only [eval, R.bind_eq_done] at h
    obtain ⟨⟨a1, g1, s1⟩, h3, h⟩ := h
    cases h
    have k1 := (ih h3).1
    exact ⟨k1.trans (grow_alloc s1 _), fun _ => k1.le, fun _ => k1.le, fun h => (by cases h)⟩

theorem evalAll_grow : ∀ (es : List Expr) {s s' : State} {as : List Addr}, evalAll es s = .done (as, s') →
    Grow s s' ∧ ∀ e es', es = e :: es' → stays e = false → ∃ a as', as = a :: as' ∧ s.next ≤ a := by
  intro es
  induction es with
  | nil => intro s s' as h; cases h; exact ⟨.refl _, fun e es' h => (by cases h)⟩
  | cons e es ih =>
    intro s s' as h
    simp only [evalAll, R.bind_eq_done] at h
    obtain ⟨⟨a1, g1, s1⟩, h3, ⟨as2, s2⟩, h4, h⟩ := h
    cases h
    have k1 := eval_grow e h3
    refine ⟨k1.1.trans (ih h4).1, fun e' es' he hst => ?_⟩
    cases he
    exact ⟨a1, as2, rfl, k1.2.2.1 hst⟩

/-- What a statement does to older objects and variables: nothing. -/
structure Frame (names : List Nat) (s s' : State) : Prop where
  env : ∃ new, s'.env = new ++ s.env ∧ (∀ b ∈ new, b.own = true → s.next ≤ b.addr) ∧ (∀ b ∈ new, b.name ∈ names)
  le : s.next ≤ s'.next
  old : ∀ b, b < s.next → s'.heap b = s.heap b

theorem Frame.trans {N M : List Nat} {s t r : State} (a : Frame N s t) (b : Frame M t r) : Frame (N ++ M) s r := by
  obtain ⟨n1, h1, h2, h3⟩ := a.env
  obtain ⟨n2, h4, h5, h6⟩ := b.env
  refine ⟨⟨n2 ++ n1, by rw [h4, h1, List.append_assoc], ?_, ?_⟩, Nat.le_trans a.le b.le,
    fun c hc => (b.old c (Nat.lt_of_lt_of_le hc a.le)).trans (a.old c hc)⟩
  · intro c hc ho
    rcases List.mem_append.1 hc with hc | hc
    · exact Nat.le_trans a.le (h5 c hc ho)
    · exact h2 c hc ho
  · intro c hc
    rcases List.mem_append.1 hc with hc | hc
    · exact List.mem_append_right _ (h6 c hc)
    · exact List.mem_append_left _ (h3 c hc)

theorem frame_sweep {s s1 : State} (g : Grow s s1) (keep : Option Addr) : Frame [] s (s1.sweep s.next keep) :=
  ⟨⟨[], g.env, by simp, by simp⟩, g.le, fun b hb => by
    simp only [State.sweep]
    rw [if_neg (fun h => absurd h.1 (Nat.not_le_of_lt hb)), g.old b hb]⟩

theorem frame_declare {s s1 : State} (g : Grow s s1) (keep : Option Addr) (x : Nat) (a : Addr) (own : Bool) (h : own = true → s.next ≤ a) :
    Frame [x] s ((s1.sweep s.next keep).declare x a own) := by
  have f := frame_sweep g keep
  refine ⟨⟨[⟨x, a, own⟩], ?_, ?_, ?_⟩, f.le, f.old⟩
  · show _ :: s1.env = _
    rw [g.env]; rfl
  · intro b hb ho
    simp only [List.mem_singleton] at hb
    subst hb
    exact h ho
  · intro b hb
    simp only [List.mem_singleton] at hb
    subst hb
    simp

theorem drop_frame {s s' : State} {b : Binding} (h : s.drop b = .done s') : s'.env = s.env ∧ s'.next = s.next ∧
    (∀ c, (b.own = true → c ≠ b.addr) → s'.heap c = s.heap c) := by
  unfold State.drop at h
  split at h
  · next ho =>
    split at h
    · cases h
    · simp only [R.bind_eq_done] at h
      obtain ⟨t, h1, h2⟩ := h
      cases h2
      obtain ⟨e1, e2, e3, -⟩ := finish_later h1
      refine ⟨e3, e2, fun c hc => ?_⟩
      dsimp only
      rw [if_neg (hc ho), e1]
  · cases h; exact ⟨rfl, rfl, fun _ _ => rfl⟩

theorem leave_frame {depth n : Nat} {E : List Binding} (hE : E.length = depth) : ∀ (new : List Binding) {s s' : State}, s.env = new ++ E →
    (∀ b ∈ new, b.own = true → n ≤ b.addr) → State.leave depth (new ++ E) s = .done s' → s'.env = E ∧ s'.next = s.next ∧ ∀ c, c < n → s'.heap c = s.heap c := by
  intro new
  induction new with
  | nil =>
    intro s s' he _ h
    cases E with
    | nil => cases h; exact ⟨he, rfl, fun _ _ => rfl⟩
    | cons b bs =>
      simp only [List.nil_append, State.leave] at h
      rw [if_neg (by simp only [List.length_cons] at hE; omega)] at h
      cases h
      exact ⟨he, rfl, fun _ _ => rfl⟩
  | cons b bs ih =>
    intro s s' he hn h
    simp only [List.cons_append, State.leave] at h
    rw [if_pos (by simp only [List.length_append]; omega)] at h
    simp only [R.bind_eq_done] at h
    obtain ⟨t, h1, h2⟩ := h
    obtain ⟨k1, k2, k3⟩ := drop_frame h1
    obtain ⟨m1, m2, m3⟩ := ih rfl (fun c hc => hn c (by simp [hc])) h2
    refine ⟨m1, m2.trans k2, fun c hc => (m3 c hc).trans (k3 c fun ho e => ?_)⟩
    exact absurd hc (Nat.not_lt_of_le (e ▸ hn b (by simp) ho))

mutual
theorem step_frame : ∀ (c : Stmt) {s s' : State}, step c s = .done s' → Frame (declares c) s s'
  | .val x e, s, s', h => by
    simp only [step, R.bind_eq_done] at h
    obtain ⟨⟨a, g, s1⟩, h2, h⟩ := h
    obtain ⟨gr, k1, -, -⟩ := eval_grow e h2
    dsimp only at h
    split at h
    · next hg =>
      cases h
      exact frame_declare gr _ _ _ _ fun _ => k1 hg
    · split at h
      · cases h
      · cases h
        exact frame_declare (gr.trans (grow_alloc s1 _)) _ _ _ _ fun _ => gr.le
  | .ref x e, s, s', h => by
    simp only [step, R.bind_eq_done] at h
    obtain ⟨⟨a, g, s1⟩, h2, h⟩ := h
    obtain ⟨gr, k1, -, -⟩ := eval_grow e h2
    cases h
    exact frame_declare gr _ _ _ _ k1
  | .when_ e acts, s, s', h => by
    simp only [step, R.bind_eq_done] at h
    obtain ⟨⟨a, g, s1⟩, h2, s2, h3, s3, h4, h⟩ := h
    obtain ⟨gr, -⟩ := eval_grow e h2
    cases h
    obtain ⟨e1, e2, e3, -⟩ := finish_later h4
    have hs2 : s2.heap = s1.heap ∧ s2.env = s1.env ∧ s2.next = s1.next := by
      rcases appendAll_done h3 with ⟨e, _⟩ | ⟨_, _, e⟩ <;> (subst e; exact ⟨rfl, rfl, rfl⟩)
    exact frame_sweep ⟨by rw [e3, hs2.2.1]; exact gr.env, by rw [e2, hs2.2.2]; exact gr.le, fun b hb => by rw [e1, hs2.1]; exact gr.old b hb⟩ _
  | .verify es q, s, s', h => by
    simp only [step, R.bind_eq_done] at h
    obtain ⟨⟨as, s1⟩, h2, l0, h3, s3, h4, h⟩ := h
    obtain ⟨gr, -⟩ := evalAll_grow es h2
    cases h
    obtain ⟨e1, e2, e3, -⟩ := finish_later h4
    exact frame_sweep ⟨by rw [e3]; exact gr.env, by rw [e2]; exact gr.le, fun b hb => by rw [e1]; exact gr.old b hb⟩ _
  | .keepWhen p e, s, s', h => by
    simp only [step, R.bind_eq_done] at h
    obtain ⟨⟨a, g, s1⟩, h2, h⟩ := h
    obtain ⟨gr, -⟩ := eval_grow e h2
    cases h
    exact frame_declare (gr.trans (grow_alloc s1 _)) _ _ _ _ fun _ => gr.le
  | .keepVerify p es q, s, s', h => by
    simp only [step, R.bind_eq_done] at h
    obtain ⟨⟨as, s1⟩, h2, l0, h3, h⟩ := h
    obtain ⟨gr, -⟩ := evalAll_grow es h2
    cases h
    exact frame_declare (gr.trans (grow_alloc s1 _)) _ _ _ _ fun _ => gr.le
  | .act p x, s, s', h => by
    simp only [step, R.bind_eq_done] at h
    obtain ⟨c, -, h⟩ := h
    split at h
    · simp only [State.append, R.bind_eq_done] at h
      obtain ⟨i, -, h⟩ := h
      cases h
      exact ⟨⟨[], rfl, by simp, by simp⟩, Nat.le_refl _, fun _ _ => rfl⟩
    · cases h
  | .call k, s, s', h => by
    cases h
    exact ⟨⟨[], rfl, by simp, by simp⟩, Nat.le_refl _, fun _ _ => rfl⟩
  | .block body, s, s', h => by
    simp only [step, R.bind_eq_done] at h
    obtain ⟨s1, h1, h⟩ := h
    have f := run_frame body h1
    obtain ⟨new, e1, e2, -⟩ := f.env
    rw [e1] at h
    obtain ⟨m1, m2, m3⟩ := leave_frame rfl new e1 e2 h
    exact ⟨⟨[], m1, by simp, by simp⟩, by rw [m2]; exact f.le, fun b hb => (m3 b hb).trans (f.old b hb)⟩

theorem run_frame : ∀ (cs : List Stmt) {s s' : State}, step.run cs s = .done s' → Frame (cs.map declares).flatten s s'
  | [], s, s', h => by
    cases h
    exact ⟨⟨[], rfl, by simp, by simp⟩, Nat.le_refl _, fun _ _ => rfl⟩
  | c :: cs, s, s', h => by
    simp only [step.run, R.bind_eq_done] at h
    obtain ⟨s1, h1, h⟩ := h
    exact (step_frame c h1).trans (run_frame cs h)
end

theorem run_append : ∀ (cs ds : List Stmt) (s : State), step.run (cs ++ ds) s = (step.run cs s >>= fun t => step.run ds t) := by
  intro cs
  induction cs with
  | nil => intro ds s; rfl
  | cons c cs ih =>
    intro ds s
    simp only [List.cons_append, step.run]
    cases step c s with
    | done t => simp only [R.bind_done]; exact ih ds t
    | ub => rfl
    | oof => rfl

/-- A variable whose end is undefined makes the end of its block undefined. -/
theorem leave_not_done {depth n : Nat} {E : List Binding} {b : Binding} (hE : depth ≤ E.length) :
    ∀ (new : List Binding) {s s' : State}, s.env = new ++ b :: E →
    (∀ c ∈ new, c.own = true → n ≤ c.addr) → (∀ t t' : State, (∀ c, c < n → t.heap c = s.heap c) → t.drop b ≠ .done t') →
    State.leave depth (new ++ b :: E) s ≠ .done s' := by
  intro new
  induction new with
  | nil =>
    intro s s' he _ hb h
    simp only [List.nil_append, State.leave] at h
    rw [if_pos hE] at h
    simp only [R.bind_eq_done] at h
    obtain ⟨t, h1, -⟩ := h
    exact hb s t (fun _ _ => rfl) h1
  | cons c new ih =>
    intro s s' he hn hb h
    simp only [List.cons_append, State.leave] at h
    rw [if_pos (by simp only [List.length_append, List.length_cons]; omega)] at h
    simp only [R.bind_eq_done] at h
    obtain ⟨t, h1, h2⟩ := h
    obtain ⟨k1, k2, k3⟩ := drop_frame h1
    refine ih (s := { t with env := new ++ b :: E }) rfl (fun d hd => hn d (by simp [hd])) ?_ h2
    intro r r' hr
    refine hb r r' fun d hd => (hr d hd).trans (k3 d fun ho e => ?_)
    exact absurd hd (Nat.not_lt_of_le (e ▸ hn c (by simp) ho))

/-- The object at `a` is gone, or refers to one that is gone. -/
def Broken (h : Addr → Option Obj) (n a : Addr) : Prop :=
  a < n ∧ (h a = none ∨ (∃ b c, h a = some (.cat b c) ∧ ((b < n ∧ h b = none) ∨ (c < n ∧ h c = none))) ∨
    ∃ m b, h a = some (.rep m b) ∧ b < n ∧ h b = none)

theorem Broken.keep {h h' : Addr → Option Obj} {n n' a : Addr} (d : Broken h n a) (hn : n ≤ n') (he : ∀ b, b < n → h' b = h b) : Broken h' n' a := by
  obtain ⟨h1, h2⟩ := d
  refine ⟨Nat.lt_of_lt_of_le h1 hn, ?_⟩
  rw [he a h1]
  rcases h2 with h2 | ⟨b, c, h2, h3⟩ | ⟨m, b, h2, h3, h4⟩
  · exact .inl h2
  · refine .inr (.inl ⟨b, c, h2, ?_⟩)
    rcases h3 with ⟨h3, h4⟩ | ⟨h3, h4⟩
    · exact .inl ⟨Nat.lt_of_lt_of_le h3 hn, (he b h3).trans h4⟩
    · exact .inr ⟨Nat.lt_of_lt_of_le h3 hn, (he c h3).trans h4⟩
  · exact .inr (.inr ⟨m, b, h2, Nat.lt_of_lt_of_le h3 hn, (he b h3).trans h4⟩)

theorem walk_none {h : Addr → Option Obj} {a : Addr} (ha : h a = none) (fuel : Nat) (l : List Nat) : walk h fuel a ≠ .done l := by
  intro hw
  cases fuel with
  | zero => cases hw
  | succ f => simp only [walk, ha] at hw; cases hw

theorem Broken.walk {h : Addr → Option Obj} {n a : Addr} (d : Broken h n a) (fuel : Nat) (l : List Nat) : walk h fuel a ≠ .done l := by
  intro hw
  obtain ⟨-, h2⟩ := d
  rcases h2 with h2 | ⟨b, c, h2, h3⟩ | ⟨m, b, h2, -, h4⟩
  · exact walk_none h2 _ _ hw
  · cases fuel with
    | zero => cases hw
    | succ f =>
      simp only [Kept.walk, h2, R.bind_eq_done] at hw
      obtain ⟨l1, w1, l2, w2, -⟩ := hw
      rcases h3 with ⟨-, h3⟩ | ⟨-, h3⟩
      · exact walk_none h3 _ _ w1
      · exact walk_none h3 _ _ w2
  · cases fuel with
    | zero => cases hw
    | succ f =>
      simp only [Kept.walk, h2, R.bind_eq_done] at hw
      obtain ⟨l1, w1, -⟩ := hw
      exact walk_none h4 _ _ w1

theorem Broken.walkAll {h : Addr → Option Obj} {n a : Addr} (d : Broken h n a) (as : List Addr) (l : List (List Nat)) : walkAll h (a :: as) ≠ .done l := by
  intro hw
  simp only [Kept.walkAll, R.bind_eq_done] at hw
  obtain ⟨l1, w1, -⟩ := hw
  exact d.walk _ _ w1

theorem Broken.ctxAt {s : State} {n a : Addr} (d : Broken s.heap n a) (i : Nat) : s.ctxAt a ≠ .done i := by
  intro h
  rw [ctxAt_done] at h
  obtain ⟨-, h2⟩ := d
  rcases h2 with h2 | ⟨b, c, h2, -⟩ | ⟨m, b, h2, -, -⟩ <;> (rw [h] at h2; cases h2)

theorem eval_new : ∀ (e : Expr) {s s' : State} {a : Addr} {fr : Bool}, eval e s = .done (a, fr, s') → stays e = false → s.next ≤ a ∧ a < s'.next := by
  intro e
  induction e with
  | var x => intro s s' a fr h hs; cases hs
  | method k => intro s s' a fr h hs; cases h; exact ⟨Nat.le_refl _, Nat.lt_succ_self _⟩
  | args e ih =>
    intro s s' a fr h hs
    simp only [eval, R.bind_eq_done] at h
    obtain ⟨⟨a1, g1, s1⟩, h2, i, h3, h⟩ := h
    cases h
    obtain ⟨k1, k2⟩ := ih h2 hs
    exact ⟨k1, k2⟩
  | plus e f ih1 ih2 =>
    intro s s' a fr h hs
    have hh := h
    simp only [eval, R.bind_eq_done] at h
    obtain ⟨⟨a1, g1, s1⟩, h3, ⟨a2, g2, s2⟩, h4, h⟩ := h
    cases h
    exact ⟨(eval_grow _ hh).2.2.1 hs, Nat.lt_succ_self _⟩
  | times m e ih =>
    intro s s' a fr h hs
    have hh := h
    simp only [eval, R.bind_eq_done] at h
    obtain ⟨⟨a1, g1, s1⟩, h3, h⟩ := h
    cases h
    exact ⟨(eval_grow _ hh).2.2.1 hs, Nat.lt_succ_self _⟩

/-- A sequence with a temporary operand is broken once the statement is over. -/
theorem eval_operator : ∀ (e : Expr) {s s' : State} {a : Addr} {fr : Bool}, eval e s = .done (a, fr, s') → solid e = false →
    fr = true ∧ Broken (s'.sweep s.next (some a)).heap s'.next a := by
  intro e s s' a fr h hs
  cases e with
  | plus e f =>
    have hh := h
    simp only [eval, R.bind_eq_done] at h
    obtain ⟨⟨a1, g1, s1⟩, h3, ⟨a2, g2, s2⟩, h4, h⟩ := h
    cases h
    have k1 := eval_grow e h3
    have k2 := eval_grow f h4
    refine ⟨rfl, Nat.lt_succ_self _, .inr (.inl ⟨a1, a2, ?_, ?_⟩)⟩
    · simp [State.sweep, State.alloc]
    · simp only [solid, Bool.and_eq_false_iff] at hs
      rcases hs with hs | hs
      · obtain ⟨n1, n2⟩ := eval_new e h3 hs
        have hlt : a1 < s2.next := Nat.lt_of_lt_of_le n2 k2.1.le
        refine .inl ⟨Nat.lt_succ_of_lt hlt, ?_⟩
        simp only [State.sweep, State.alloc]
        rw [if_pos ⟨n1, fun h => absurd (Option.some.inj h) (Nat.ne_of_gt hlt)⟩]
      · obtain ⟨n1, n2⟩ := eval_new f h4 hs
        refine .inr ⟨Nat.lt_succ_of_lt n2, ?_⟩
        simp only [State.sweep, State.alloc]
        rw [if_pos ⟨Nat.le_trans k1.1.le n1, fun h => absurd (Option.some.inj h) (Nat.ne_of_gt n2)⟩]
  | times m e =>
    simp only [eval, R.bind_eq_done] at h
    obtain ⟨⟨a1, g1, s1⟩, h3, h⟩ := h
    cases h
    refine ⟨rfl, Nat.lt_succ_self _, .inr (.inr ⟨m, a1, ?_, ?_⟩)⟩
    · simp [State.sweep, State.alloc]
    · obtain ⟨n1, n2⟩ := eval_new e h3 hs
      refine ⟨Nat.lt_succ_of_lt n2, ?_⟩
      simp only [State.sweep, State.alloc]
      rw [if_pos ⟨n1, fun h => absurd (Option.some.inj h) (Nat.ne_of_gt n2)⟩]
  | _ => cases hs

theorem eval_fresh : ∀ (e : Expr) {s s' : State} {a : Addr} {fr : Bool}, eval e s = .done (a, fr, s') → bindable e = false → solid e = true →
    fr = false ∧ stays e = false := by
  intro e s s' a fr h hb hs
  cases e with
  | var x => cases hb
  | method k => cases h; exact ⟨rfl, rfl⟩
  | args e =>
    simp only [eval, R.bind_eq_done] at h
    obtain ⟨⟨a1, g1, s1⟩, h2, i, h3, h⟩ := h
    cases h
    exact ⟨rfl, hb⟩
  | plus e f => simp only [bindable, solid] at hb hs; rw [hb] at hs; cases hs
  | times m e => simp only [bindable, solid] at hb hs; rw [hb] at hs; cases hs

/-- After these declarations the variable is broken. -/
theorem declared_broken {c : Stmt} {x : Nat} {e : Expr} (hc : (c = .val x e ∧ solid e = false) ∨ (c = .ref x e ∧ bindable e = false)) {s s' : State}
    (h : step c s = .done s') : ∃ a own, s'.env = ⟨x, a, own⟩ :: s.env ∧ Broken s'.heap s'.next a := by
  rcases hc with ⟨rfl, hs⟩ | ⟨rfl, hb⟩
  · simp only [step, R.bind_eq_done] at h
    obtain ⟨⟨a, g, s1⟩, h2, h⟩ := h
    obtain ⟨rfl, hbr⟩ := eval_operator e h2 hs
    cases h
    exact ⟨a, true, by show _ :: s1.env = _; rw [(eval_grow e h2).1.env], hbr⟩
  · simp only [step, R.bind_eq_done] at h
    obtain ⟨⟨a, g, s1⟩, h2, h⟩ := h
    cases h
    refine ⟨a, g, by show _ :: s1.env = _; rw [(eval_grow e h2).1.env], ?_⟩
    cases hs : solid e with
    | false =>
      obtain ⟨rfl, hbr⟩ := eval_operator e h2 hs
      exact hbr
    | true =>
      obtain ⟨rfl, hst⟩ := eval_fresh e h2 hb hs
      obtain ⟨n1, n2⟩ := eval_new e h2 hst
      refine ⟨n2, .inl ?_⟩
      simp only [State.declare, State.sweep]
      rw [if_pos ⟨n1, by simp⟩]

/-- Other statements do not repair it. -/
theorem lookup_frame {names : List Nat} {s s' : State} {x : Nat} {a : Addr} {own : Bool} {E : List Binding} (f : Frame names s s') (hs : s.env = ⟨x, a, own⟩ :: E)
    (hx : x ∉ names) : s'.lookup x = .done a := by
  rw [lookup_done]
  obtain ⟨new, e1, -, e3⟩ := f.env
  refine ⟨⟨x, a, own⟩, ?_, rfl⟩
  rw [e1, List.find?_append, hs]
  have hn : new.find? (·.name == x) = none := by
    rw [List.find?_eq_none]
    intro b hb he
    exact hx (eq_of_beq he ▸ e3 b hb)
  rw [hn]
  simp

theorem block_not_done_of_step {pre post : List Stmt} {c : Stmt} (h : ∀ s s', step c s ≠ .done s') (s s' : State) : step (.block (pre ++ c :: post)) s ≠ .done s' := by
  intro hd
  simp only [step, run_append, step.run, R.bind_eq_done] at hd
  obtain ⟨s1, ⟨s2, h1, s3, h2, h3⟩, h4⟩ := hd
  exact h _ _ h2

/-- A statement object that refers to something broken makes the end of its block undefined. -/
theorem block_not_done_of_kept {pre post : List Stmt} {c : Stmt}
    (h : ∀ s s', step c s = .done s' → ∃ p k o, s'.env = ⟨p, k, true⟩ :: s.env ∧ k < s'.next ∧ s'.heap k = some o ∧
      ∀ t t' : State, (∀ b, b < s'.next → t.heap b = s'.heap b) → t.finish o ≠ .done t') (s s' : State) :
    step (.block (pre ++ c :: post)) s ≠ .done s' := by
  intro hd
  simp only [step, run_append, step.run, R.bind_eq_done] at hd
  obtain ⟨s1, ⟨s2, h1, s3, h2, h3⟩, h4⟩ := hd
  obtain ⟨p, k, o, e1, e2, e3, e4⟩ := h _ _ h2
  obtain ⟨new0, f1, -, -⟩ := (run_frame pre h1).env
  have fr := run_frame post h3
  obtain ⟨new, f2, f3, -⟩ := fr.env
  rw [f2, e1] at h4
  refine leave_not_done (n := s3.next) ?_ new (by rw [f2, e1]) f3 ?_ h4
  · rw [f1]; simp
  · intro t t' ht hdrop
    have hk : t.heap k = some o := by rw [ht k e2, fr.old k e2, e3]
    simp only [State.drop, if_true, hk, R.bind_eq_done] at hdrop
    obtain ⟨t2, h5, -⟩ := hdrop
    exact e4 t t2 (fun b hb => (ht b hb).trans (fr.old b hb)) h5

theorem keepWhen_kept {p : Nat} {e : Expr} (he : stays e = false) (s s' : State) (h : step (.keepWhen p e) s = .done s') :
    ∃ p k o, s'.env = ⟨p, k, true⟩ :: s.env ∧ k < s'.next ∧ s'.heap k = some o ∧
      ∀ t t' : State, (∀ b, b < s'.next → t.heap b = s'.heap b) → t.finish o ≠ .done t' := by
  simp only [step, R.bind_eq_done] at h
  obtain ⟨⟨a, g, s1⟩, h2, h⟩ := h
  cases h
  obtain ⟨n1, n2⟩ := eval_new e h2 he
  refine ⟨p, s1.next, .stub a, by show _ :: s1.env = _; rw [(eval_grow e h2).1.env]; rfl, Nat.lt_succ_self _,
    by simp [State.declare, State.sweep, State.alloc], ?_⟩
  intro t t' ht hf
  simp only [State.finish, R.bind_eq_done] at hf
  obtain ⟨i, h3, -⟩ := hf
  rw [ctxAt_done, ht a (Nat.lt_succ_of_lt n2)] at h3
  simp only [State.declare, State.sweep, State.alloc] at h3
  rw [if_pos ⟨n1, fun h => absurd (Option.some.inj h) (Nat.ne_of_gt n2)⟩] at h3
  cases h3

theorem keepVerify_kept {p : Nat} {e : Expr} {es : List Expr} {q : Int} (he : stays e = false) (s s' : State) (h : step (.keepVerify p (e :: es) q) s = .done s') :
    ∃ p k o, s'.env = ⟨p, k, true⟩ :: s.env ∧ k < s'.next ∧ s'.heap k = some o ∧
      ∀ t t' : State, (∀ b, b < s'.next → t.heap b = s'.heap b) → t.finish o ≠ .done t' := by
  simp only [step, evalAll, R.bind_eq_done] at h
  obtain ⟨⟨as, s1⟩, ⟨⟨a, g, s0⟩, h1, ⟨as', s2⟩, h2, h3⟩, l0, h4, h⟩ := h
  cases h3
  cases h
  obtain ⟨n1, n2⟩ := eval_new e h1 he
  have g0 := (eval_grow e h1).1
  have g1 := (evalAll_grow es h2).1
  have hlt : a < s2.next := Nat.lt_of_lt_of_le n2 g1.le
  refine ⟨p, s2.next, .check (a :: as') q, by show _ :: s2.env = _; rw [g1.env, g0.env]; rfl, Nat.lt_succ_self _,
    by simp [State.declare, State.sweep, State.alloc], ?_⟩
  intro t t' ht hf
  simp only [State.finish, R.bind_eq_done] at hf
  obtain ⟨i, h3, -⟩ := hf
  refine Broken.walkAll (n := s2.next) ⟨hlt, .inl ?_⟩ _ _ h3
  rw [ht a (Nat.lt_succ_of_lt hlt)]
  simp only [State.declare, State.sweep, State.alloc]
  rw [if_pos ⟨n1, fun h => absurd (Option.some.inj h) (Nat.ne_of_gt hlt)⟩]

/-- Using a broken variable. -/
theorem block_not_done_of_use {pre mid post : List Stmt} {c u : Stmt} {x : Nat} {e : Expr}
    (hc : (c = .val x e ∧ solid e = false) ∨ (c = .ref x e ∧ bindable e = false)) (hx : x ∉ (mid.map declares).flatten)
    (hu : (∃ es q, u = .verify (.var x :: es) q) ∨ ∃ acts, u = .when_ (.var x) acts) (s s' : State) :
    step (.block (pre ++ c :: mid ++ u :: post)) s ≠ .done s' := by
  intro hd
  simp only [List.append_assoc, List.cons_append, step, run_append, step.run, R.bind_eq_done] at hd
  obtain ⟨s1, ⟨s2, h1, s3, h2, s4, h3, s5, h4, h5⟩, h6⟩ := hd
  obtain ⟨a, own, e1, e2⟩ := declared_broken hc h2
  have fr := run_frame mid h3
  have hl := lookup_frame fr e1 hx
  have hb : Broken s4.heap s4.next a := e2.keep fr.le fr.old
  rcases hu with ⟨es, q, rfl⟩ | ⟨acts, rfl⟩
  · simp only [step, evalAll, eval, hl, R.bind_done, R.bind_eq_done] at h4
    obtain ⟨⟨as, s6⟩, ⟨⟨as', s7⟩, h2, h3⟩, l0, h4, -⟩ := h4
    cases h3
    have g := (evalAll_grow es h2).1
    exact (hb.keep g.le g.old).walkAll _ _ h4
  · simp only [step, eval, hl, R.bind_done, R.bind_eq_done] at h4
    obtain ⟨s6, h7, s7, h8, -⟩ := h4
    have hh : s6.heap = s4.heap := by
      rcases appendAll_done h7 with ⟨e, _⟩ | ⟨_, _, e⟩ <;> (subst e; rfl)
    simp only [State.finish, R.bind_eq_done] at h8
    obtain ⟨i, h9, -⟩ := h8
    rw [← hh] at hb
    exact hb.ctxAt _ h9

end FakeIt.Kept
