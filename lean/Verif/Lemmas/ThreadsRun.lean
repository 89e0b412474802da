import Verif.Lemmas.Threads
/-!
# Threads that call different methods
-/
namespace FakeIt.Threads
variable {V E : Type}

/-- The entry of a virtual table. -/
def entryAt (w : World V E) (m : MockId) (off : Nat) : Option Code := (w.mocks[m]?).bind (·.vt[off]?)

/-- The body of a method. -/
def bodyAt (w : World V E) (m : MockId) (off : Nat) : Option (Option (MBody V E)) := (w.mocks[m]?).bind (·.mocks[off]?)

/-- A mock without what calls change. -/
def shell (k : Mock V E) : Mock V E := { k with vt := [], mocks := [] }

theorem cell?_iff {w : World V E} {m : MockId} {off : Nat} {c : Cell V E} :
    cell? w m off = some c ↔ entryAt w m off = some c.entry ∧ bodyAt w m off = some (some c.body) := by
  constructor
  · intro h
    obtain ⟨k, hk, hb, he⟩ := cell?_some h
    unfold entryAt bodyAt
    rw [hk]; exact ⟨he, hb⟩
  · rintro ⟨he, hb⟩
    unfold entryAt at he
    unfold bodyAt at hb
    cases hk : w.mocks[m]? with
    | none => rw [hk] at he; cases he
    | some k => rw [hk] at he hb; exact cell?_of hk hb he

/-- Worlds that agree in everything but the order of events. -/
structure Alike (w w' : World V E) : Prop where
  mocks : w.mocks = w'.mocks
  heap : w.heap = w'.heap
  inv : w.invTotal = w'.invTotal
  meth : w.methTotal = w'.methTotal
  alloc : w.alloc = w'.alloc

theorem mocks_ext {a b : List (Mock V E)} (hs : a.map shell = b.map shell)
    (he : ∀ (m off : Nat), (a[m]?).bind (·.vt[off]?) = (b[m]?).bind (·.vt[off]?))
    (hb : ∀ (m off : Nat), (a[m]?).bind (·.mocks[off]?) = (b[m]?).bind (·.mocks[off]?)) : a = b := by
  apply List.ext_getElem?
  intro m
  have h1 : (a.map shell)[m]? = (b.map shell)[m]? := by rw [hs]
  rw [List.getElem?_map, List.getElem?_map] at h1
  have h2 := he m
  have h3 := hb m
  cases ha : a[m]? with
  | none =>
    rw [ha] at h1
    cases hb : b[m]? with
    | none => rfl
    | some y => rw [hb] at h1; cases h1
  | some x =>
    rw [ha] at h1 h2 h3
    cases hb : b[m]? with
    | none => rw [hb] at h1; cases h1
    | some y =>
      rw [hb] at h1 h2 h3
      have h2' : x.vt = y.vt := List.ext_getElem? h2
      have h3' : x.mocks = y.mocks := List.ext_getElem? h3
      have h4 : shell x = shell y := by simpa using h1
      obtain ⟨a1, a2, a3, a4, a5, a6, a7, a8, a9⟩ := x
      obtain ⟨b1, b2, b3, b4, b5, b6, b7, b8, b9⟩ := y
      simp only [shell, Mock.mk.injEq] at h4
      dsimp only at h2' h3'
      simp [h4, h2', h3']

section put
variable {w : World V E} {m m' : MockId} {off off' : Nat} {c : Cell V E} {es : List (Event V)}

theorem view_shell : (view w m off c es).mocks.map shell = w.mocks.map shell := by
  show (w.mocks.modify m _).map shell = _
  apply List.ext_getElem?
  intro j
  rw [List.getElem?_map, List.getElem?_map, List.getElem?_modify]
  cases w.mocks[j]? with
  | none => rfl
  | some x => simp only [Option.map_eq_map, Option.map_some]; split <;> rfl

theorem view_get (j : Nat) : (view w m off c es).mocks[j]? =
    (w.mocks[j]?).map fun k => if m = j then { k with vt := k.vt.set off c.entry, mocks := k.mocks.set off (some c.body) } else k := by
  show (w.mocks.modify m _)[j]? = _
  rw [List.getElem?_modify]
  rfl

theorem view_entryAt : entryAt (view w m off c es) m' off' =
    if m = m' ∧ off = off' then (entryAt w m off).map (fun _ => c.entry) else entryAt w m' off' := by
  unfold entryAt
  rw [view_get]
  cases hk : w.mocks[m']? with
  | none =>
    simp only [Option.map_none, Option.bind_none]
    split
    · next h => obtain ⟨rfl, rfl⟩ := h; rw [hk]; rfl
    · rfl
  | some k =>
    simp only [Option.map_some, Option.bind_some]
    by_cases hm : m = m'
    · subst hm
      by_cases ho : off = off'
      · subst ho
        rw [hk]
        simp only [and_self, if_true, Option.bind_some, List.getElem?_set]
        split
        · next h => rw [List.getElem?_eq_getElem h]; rfl
        · next h => rw [List.getElem?_eq_none (by omega)]; rfl
      · simp [ho]
    · simp [hm]

theorem view_bodyAt : bodyAt (view w m off c es) m' off' =
    if m = m' ∧ off = off' then (bodyAt w m off).map (fun _ => some c.body) else bodyAt w m' off' := by
  unfold bodyAt
  rw [view_get]
  cases hk : w.mocks[m']? with
  | none =>
    simp only [Option.map_none, Option.bind_none]
    split
    · next h => obtain ⟨rfl, rfl⟩ := h; rw [hk]; rfl
    · rfl
  | some k =>
    simp only [Option.map_some, Option.bind_some]
    by_cases hm : m = m'
    · subst hm
      by_cases ho : off = off'
      · subst ho
        rw [hk]
        simp only [and_self, if_true, Option.bind_some, List.getElem?_set]
        split
        · next h => rw [List.getElem?_eq_getElem h]; rfl
        · next h => rw [List.getElem?_eq_none (by omega)]; rfl
      · simp [ho]
    · simp [hm]

end put

/-- Every stubbing of a method has its own address. -/
def Uniq (w : World V E) : Prop := ∀ m off (b : MBody V E), bodyAt w m off = some (some b) → (b.handlers.map (·.addr)).Nodup

theorem advance_addrs {P : Prog V E} {st : Site V} {c c1 : Cell V E} {ph ph1 : Phase V E} {es : List (Event V)}
    (h : advance P st c ph = some (c1, es, ph1)) : c1.body.handlers.map (·.addr) = c.body.handlers.map (·.addr) := by
  have hu : ∀ a (f : ActionSeq V E → ActionSeq V E), (c.updSeq a f).body.handlers.map (·.addr) = c.body.handlers.map (·.addr) := by
    intro a f
    unfold Cell.updSeq
    simp only [List.map_map]
    apply List.map_congr_left
    intro x _
    simp only [Function.comp]
    split <;> rfl
  unfold advance at h
  repeat' (split at h)
  all_goals first
    | (cases h; done)
    | (cases h; rfl)
    | (cases h; exact hu _ _)
    | (cases h; split <;> rfl)
    | (dsimp only at h; repeat' (split at h)) <;> cases h <;> rfl

/-! ## Interleaved and one after the other -/

/-- All calls of a thread that are not over. -/
def Thread.all (th : Thread V E) : List (Job V) := (th.cur.map (·.1)).toList ++ th.jobs

/-- Different threads call different methods. -/
def Apart (c : Config V E) : Prop :=
  ∀ (t t' : Nat) (th th' : Thread V E) (j j' : Job V), c.ts[t]? = some th → c.ts[t']? = some th' → t ≠ t' → j ∈ th.all → j' ∈ th'.all →
    ¬ (j.m = j'.m ∧ j.off = j'.off)

/-- What a running call will have done. -/
abbrev Future (V E : Type) := Cell V E × List (Event V) × Outcome V E

/-- `ws` is the world in which the running calls have ended already. -/
structure Ahead (c : Config V E) (fut : Nat → Option (Future V E)) (ws : World V E) : Prop where
  shell : ws.mocks.map shell = c.w.mocks.map shell
  heap : ws.heap = c.w.heap
  inv : ws.invTotal = c.w.invTotal
  meth : ws.methTotal = c.w.methTotal
  alloc : ws.alloc = c.w.alloc
  busy : ∀ (t : Nat) (th : Thread V E) (j : Job V) (ph : Phase V E) (f : Future V E), c.ts[t]? = some th → th.cur = some (j, ph) → fut t = some f →
    entryAt ws j.m j.off = some f.1.entry ∧ bodyAt ws j.m j.off = some (some f.1.body)
  free : ∀ (m off : Nat), (∀ (t : Nat) (th : Thread V E) (j : Job V) (ph : Phase V E), c.ts[t]? = some th → th.cur = some (j, ph) → ¬ (j.m = m ∧ j.off = off)) →
    entryAt ws m off = entryAt c.w m off ∧ bodyAt ws m off = bodyAt c.w m off

/-- The events of the running calls. -/
def pending (fut : Nat → Option (Future V E)) (n : Nat) : List (Event V) := (List.range n).flatMap fun t => (fut t).elim [] (·.2.1)

/-- The calls as steps of a program. -/
def opOf (p : Nat × Job V) : Op V E := .call p.2.m p.2.off (p.2.args.map .val)

/-- The jobs of thread `t`. -/
def mine (t : Nat) (order : List (Nat × Job V)) : List (Job V) := (order.filter (·.1 == t)).map (·.2)

/-- The results of the calls of thread `t`. -/
def results {α : Type} (t : Nat) (order : List (Nat × Job V)) (outs : List α) : List α := ((order.zip outs).filter (·.1.1 == t)).map (·.2)

/-- A running call comes to the end `f` from the cell `x`. -/
def Ends (P : Prog V E) (w : World V E) (j : Job V) (ph : Phase V E) (x : Cell V E) (f : Future V E) : Prop :=
  (ph = .finished f.2.2 ∧ f.1 = x ∧ f.2.1 = []) ∨ ∃ st, site? P w j = some st ∧ Runs P st x ph f.1 f.2.1 f.2.2

theorem Ends.runs {P : Prog V E} {w : World V E} {j : Job V} {ph : Phase V E} {x : Cell V E} {f : Future V E} {st : Site V} (h : Ends P w j ph x f)
    (hs : site? P w j = some st) : Runs P st x ph f.1 f.2.1 f.2.2 := by
  rcases h with ⟨h1, h2, h3⟩ | ⟨st', h1, h2⟩
  · rw [h1, h2, h3]; exact .done
  · rw [hs] at h1; cases h1; exact h2

/-- What is shown by induction on the rest of the execution. -/
structure Lin (P : Prog V E) (n : Nat) (c cf : Config V E) (fut : Nat → Option (Future V E)) (order : List (Nat × Job V)) (outs : List (Outcome V E))
    (rest : List (Event V)) : Prop where
  flight : ∀ (t : Nat) (th : Thread V E) (j : Job V) (ph : Phase V E), c.ts[t]? = some th → th.cur = some (j, ph) →
    ∃ x f, cell? c.w j.m j.off = some x ∧ fut t = some f ∧ Ends P c.w j ph x f
  rests : ∀ (t : Nat) (th : Thread V E), c.ts[t]? = some th → th.cur = none → fut t = none
  jobs : ∀ (t : Nat) (th : Thread V E), c.ts[t]? = some th → mine t order = th.jobs
  ids : ∀ p ∈ order, p.1 < c.ts.length
  len : outs.length = order.length
  size : cf.ts.length = c.ts.length
  ends : ∀ (t : Nat) (th thf : Thread V E), c.ts[t]? = some th → cf.ts[t]? = some thf →
    thf.outs = th.outs ++ ((fut t).map (·.2.2)).toList ++ results t order outs
  log : cf.w.log.Perm (c.w.log ++ pending fut c.ts.length ++ rest)
  run : ∀ ws, Ahead c fut ws → ∃ w', runOps P (n + 2) ws (order.map opOf) = .done (outs.map .call, w') ∧ w'.log = ws.log ++ rest ∧ Alike w' cf.w

theorem pending_change {f g : Nat → Option (Future V E)} {t : Nat} {a : List (Event V)} (ht : (f t).elim [] (·.2.1) = a ++ (g t).elim [] (·.2.1))
    (ho : ∀ u, u ≠ t → f u = g u) : ∀ {n : Nat}, t < n → (pending f n).Perm (a ++ pending g n) := by
  have same : ∀ k, k ≤ t → pending f k = pending g k := by
    intro k hk
    unfold pending
    rw [List.flatMap_def, List.flatMap_def]
    congr 1
    apply List.map_congr_left
    intro u hu
    rw [ho u (by have := List.mem_range.mp hu; omega)]
  intro n
  induction n with
  | zero => intro h; omega
  | succ n ih =>
    intro h
    have e : ∀ (q : Nat → Option (Future V E)), pending q (n + 1) = pending q n ++ (q n).elim [] (·.2.1) := by
      intro q; unfold pending; rw [List.range_succ, List.flatMap_append, List.flatMap_singleton]
    rw [e f, e g]
    by_cases hn : n = t
    · subst hn
      rw [same n (Nat.le_refl _), ht, ← List.append_assoc, ← List.append_assoc]
      exact List.Perm.append_right _ List.perm_append_comm
    · rw [ho n hn, ← List.append_assoc]
      exact List.Perm.append_right _ (ih (by omega))

theorem Uniq.view {w : World V E} {m : MockId} {off : Nat} {c x : Cell V E} {es : List (Event V)} (h : Uniq w) (hc : cell? w m off = some x)
    (ha : c.body.handlers.map (·.addr) = x.body.handlers.map (·.addr)) : Uniq (Threads.view w m off c es) := by
  intro m' off' b hb
  rw [view_bodyAt] at hb
  obtain ⟨-, hb'⟩ := cell?_iff.mp hc
  split at hb
  · rw [hb'] at hb; cases hb
    rw [ha]; exact h _ _ _ hb'
  · exact h _ _ _ hb

theorem site_view {P : Prog V E} {w : World V E} {m : MockId} {off : Nat} {c : Cell V E} {es : List (Event V)} (j : Job V) :
    site? P (view w m off c es) j = site? P w j := by
  unfold site?
  rw [view_get]
  cases w.mocks[j.m]? with
  | none => rfl
  | some k => simp only [Option.map_some]; split <;> rfl

/-- What entering a call needs. -/
theorem enter_some {w w1 : World V E} {j : Job V} {ph : Phase V E} (h : enter w j = some (w1, ph)) :
    ∃ k id b, w.mocks[j.m]? = some k ∧ (!k.alive && k.owner) = false ∧ k.vt[j.off]? = some (.proxy id) ∧ Mock.getOffset k.offsets id = j.off ∧
      k.mocks[j.off]? = some (some b) ∧ w1 = w.bumpInv ∧
      ph = .entered { uid := w.bumpInv.invTotal, ordinal := w.bumpInv.lastOrdinal, method := b.method, args := j.args.map .val, verified := false,
                      matcher := none } := by
  unfold enter at h
  split at h
  · cases h
  · next k hk =>
    split at h
    · cases h
    · next hl =>
      split at h
      · next id hv =>
        split at h
        · next ho =>
          split at h
          · cases h
          · next b hb =>
            cases h
            refine ⟨k, id, b, hk, by simpa using hl, hv, ho, ?_, rfl, rfl⟩
            unfold Mock.body? at hb
            revert hb
            cases k.mocks[j.off]? with
            | none => intro hb; cases hb
            | some x => intro hb; cases x with
              | none => cases hb
              | some y => cases hb; rfl
        · cases h
      · cases h

/-- A call that is not disturbed is a call of the core machine. -/
theorem call_link {P : Prog V E} {w w1 : World V E} {j : Job V} {ph : Phase V E} {st : Site V} {x x2 : Cell V E} {es : List (Event V)} {o : Outcome V E}
    {n : Nat} (he : enter w j = some (w1, ph)) (hs : site? P w j = some st) (hx : cell? w j.m j.off = some x)
    (hn : (x.body.handlers.map (·.addr)).Nodup) (hr : Runs P st x ph x2 es o) :
    callSlot P (n + 2) w j.m j.off (j.args.map .val) = .done (o, view w1 j.m j.off x2 es) := by
  obtain ⟨k, id, b, hk, hl, hv, ho, hb, rfl, rfl⟩ := enter_some he
  have hxb : x.body = b ∧ x.entry = .proxy id := by
    obtain ⟨k', hk', hb', he'⟩ := cell?_some hx
    rw [hk] at hk'; cases hk'
    rw [hb] at hb'; rw [hv] at he'
    exact ⟨(Option.some.inj (Option.some.inj hb')).symm, (Option.some.inj he').symm⟩
  have A : At P w.bumpInv j.m j.off x k st j.args := by
    unfold site? at hs
    rw [hk] at hs
    dsimp only at hs
    obtain ⟨oc, h1, h2⟩ := Option.map_eq_some_iff.mp hs
    subst h2
    exact { cell := hx, mock := hk, live := hl, off_ := rfl, cls := rfl, orig := h1, args := rfl }
  unfold callSlot
  rw [hk]
  dsimp only
  rw [hl, hv]
  simp only [Bool.false_eq_true, if_false]
  unfold runCode
  dsimp only
  rw [ho]
  have hbody : k.body? j.off = some b := by unfold Mock.body?; rw [hb]; rfl
  rw [hbody]
  dsimp only
  rw [← hxb.1] at hr ⊢
  exact run_handle A hn rfl rfl hr rfl

/-! ## Steps preserve what is needed -/

theorem get_set {α : Type} {l : List α} {t u : Nat} {x y : α} (hl : ∃ z, l[t]? = some z) (h : (l.set t x)[u]? = some y) :
    (u = t ∧ y = x) ∨ (u ≠ t ∧ l[u]? = some y) := by
  obtain ⟨z, hz⟩ := hl
  rw [List.getElem?_set] at h
  by_cases e : t = u
  · subst e
    rw [if_pos rfl, if_pos (List.getElem?_eq_some_iff.mp hz).1] at h
    cases h; exact .inl ⟨rfl, rfl⟩
  · rw [if_neg e] at h
    exact .inr ⟨fun h => e h.symm, h⟩

theorem set_get_self {α : Type} {l : List α} {t : Nat} {x z : α} (hz : l[t]? = some z) : (l.set t x)[t]? = some x := by
  rw [List.getElem?_set, if_pos rfl, if_pos (List.getElem?_eq_some_iff.mp hz).1]

theorem set_get_other {α : Type} {l : List α} {t u : Nat} {x : α} (h : u ≠ t) : (l.set t x)[u]? = l[u]? := by
  rw [List.getElem?_set, if_neg (fun e => h e.symm)]

/-- The three kinds of steps. -/
theorem tstep_cases {P : Prog V E} {c c1 : Config V E} {t : Nat} (h : tstep P c t = some c1) : ∃ th, c.ts[t]? = some th ∧
    ((th.cur = none ∧ ∃ j js w1 ph, th.jobs = j :: js ∧ enter c.w j = some (w1, ph) ∧
        c1 = { w := w1, ts := c.ts.set t { th with jobs := js, cur := some (j, ph) } }) ∨
     (∃ j o, th.cur = some (j, .finished o) ∧ c1 = { c with ts := c.ts.set t { th with cur := none, outs := th.outs ++ [o] } }) ∨
     (∃ j ph x st x1 es ph1, th.cur = some (j, ph) ∧ cell? c.w j.m j.off = some x ∧ site? P c.w j = some st ∧ advance P st x ph = some (x1, es, ph1) ∧
        c1 = { w := view c.w j.m j.off x1 es, ts := c.ts.set t { th with cur := some (j, ph1) } })) := by
  unfold tstep at h
  split at h
  · cases h
  · next th hth =>
    refine ⟨th, hth, ?_⟩
    split at h
    · next hc =>
      split at h
      · cases h
      · next j js hj =>
        split at h
        · cases h
        · next w1 ph he => cases h; exact .inl ⟨hc, j, js, w1, ph, hj, he, rfl⟩
    · next j o hc => cases h; exact .inr (.inl ⟨j, o, hc, rfl⟩)
    · next j ph hp hc =>
      split at h
      · next x st hx hs =>
        split at h
        · cases h
        · next x1 es ph1 ha => cases h; exact .inr (.inr ⟨j, ph, x, st, x1, es, ph1, hc, hx, hs, ha, rfl⟩)
      · cases h

theorem Uniq.step {P : Prog V E} {c c1 : Config V E} {t : Nat} (hu : Uniq c.w) (h : tstep P c t = some c1) : Uniq c1.w := by
  obtain ⟨th, hth, ⟨-, j, js, w1, ph, -, he, rfl⟩ | ⟨j, o, -, rfl⟩ | ⟨j, ph, x, st, x1, es, ph1, -, hx, -, ha, rfl⟩⟩ := tstep_cases h
  · obtain ⟨_, _, _, _, _, _, _, _, rfl, _⟩ := enter_some he
    exact hu
  · exact hu
  · exact hu.view hx (advance_addrs ha)

theorem Apart.step {P : Prog V E} {c c1 : Config V E} {t : Nat} (ha : Apart c) (h : tstep P c t = some c1) : Apart c1 := by
  obtain ⟨th, hth, hcs⟩ := tstep_cases h
  have key : ∃ th1 : Thread V E, c1.ts = c.ts.set t th1 ∧ ∀ j ∈ th1.all, j ∈ th.all := by
    rcases hcs with ⟨hc, j, js, w1, ph, hj, -, rfl⟩ | ⟨j, o, hc, rfl⟩ | ⟨j, ph, x, st, x1, es, ph1, hc, -, -, -, rfl⟩
    · exact ⟨_, rfl, by intro i hi; unfold Thread.all at hi ⊢; rw [hc, hj]; exact hi⟩
    · exact ⟨_, rfl, by intro i hi; unfold Thread.all at hi ⊢; simp at hi ⊢; exact .inr hi⟩
    · exact ⟨_, rfl, by intro i hi; unfold Thread.all at hi ⊢; rw [hc]; exact hi⟩
  obtain ⟨th1, hts, hsub⟩ := key
  intro u u' tu tu' j j' h1 h2 hne hj hj'
  rw [hts] at h1 h2
  rcases get_set ⟨th, hth⟩ h1 with ⟨rfl, rfl⟩ | ⟨hu, g1⟩
  · rcases get_set ⟨th, hth⟩ h2 with ⟨rfl, rfl⟩ | ⟨hu', g2⟩
    · exact absurd rfl hne
    · exact ha _ _ _ _ _ _ hth g2 hne (hsub _ hj) hj'
  · rcases get_set ⟨th, hth⟩ h2 with ⟨rfl, rfl⟩ | ⟨hu', g2⟩
    · exact ha _ _ _ _ _ _ g1 hth hne hj (hsub _ hj')
    · exact ha _ _ _ _ _ _ g1 g2 hne hj hj'

theorem cur_all {th : Thread V E} {j : Job V} {ph : Phase V E} (h : th.cur = some (j, ph)) : j ∈ th.all := by unfold Thread.all; rw [h]; simp

/-! ## The induction -/

theorem lin_nil {P : Prog V E} {n : Nat} {c : Config V E} (ho : c.over) : Lin P n c c (fun _ => none) [] [] [] := by
  have hidle : ∀ (t : Nat) (th : Thread V E), c.ts[t]? = some th → th.jobs = [] ∧ th.cur = none := fun t th h => ho th (List.mem_of_getElem? h)
  refine { flight := ?_, rests := fun _ _ _ _ => rfl, jobs := fun t th h => (hidle t th h).1.symm, ids := by simp, len := rfl, size := rfl,
           ends := ?_, log := ?_, run := ?_ }
  · intro t th j ph h hc; rw [(hidle t th h).2] at hc; cases hc
  · intro t th thf h1 h2; rw [h1] at h2; cases h2; simp [results]
  · have : pending (fun _ => (none : Option (Future V E))) c.ts.length = [] := by simp [pending]
    rw [this, List.append_nil, List.append_nil]
  · intro ws ha
    refine ⟨ws, rfl, by simp, ?_⟩
    have hfree := fun m off => ha.free m off (fun t th j ph h hc => by rw [(hidle t th h).2] at hc; cases hc)
    exact { mocks := mocks_ext ha.shell (fun m off => (hfree m off).1) (fun m off => (hfree m off).2),
            heap := ha.heap, inv := ha.inv, meth := ha.meth, alloc := ha.alloc }

theorem lin_advance {P : Prog V E} {n : Nat} {c cf : Config V E} {t : Nat} {th : Thread V E} {j : Job V} {ph ph1 : Phase V E} {x x1 : Cell V E} {st : Site V}
    {es : List (Event V)} (hA : Apart c) (hth : c.ts[t]? = some th) (hc : th.cur = some (j, ph)) (hx : cell? c.w j.m j.off = some x)
    (hs : site? P c.w j = some st) (hadv : advance P st x ph = some (x1, es, ph1)) {fut : Nat → Option (Future V E)} {order : List (Nat × Job V)}
    {outs : List (Outcome V E)} {rest : List (Event V)}
    (L : Lin P n { w := view c.w j.m j.off x1 es, ts := c.ts.set t { th with cur := some (j, ph1) } } cf fut order outs rest) :
    ∃ fut', Lin P n c cf fut' order outs rest := by
  have hxe := cell?_iff.mp hx
  have hx1 : cell? (view c.w j.m j.off x1 es) j.m j.off = some x1 := by
    rw [cell?_iff, view_entryAt, view_bodyAt, if_pos ⟨rfl, rfl⟩, if_pos ⟨rfl, rfl⟩, hxe.1, hxe.2]
    exact ⟨rfl, rfl⟩
  have hself : (c.ts.set t { th with cur := some (j, ph1) })[t]? = some { th with cur := some (j, ph1) } := set_get_self hth
  obtain ⟨y, f, h2, h3, h4⟩ := L.flight t _ j ph1 hself rfl
  dsimp only at h2
  rw [hx1] at h2; cases h2
  obtain ⟨fc, fe, fo⟩ := f
  replace h4 := h4.runs (by dsimp only; rw [site_view]; exact hs)
  have hother : ∀ (u : Nat) (tu : Thread V E) (i : Job V) (p : Phase V E), u ≠ t → c.ts[u]? = some tu → tu.cur = some (i, p) → ¬ (j.m = i.m ∧ j.off = i.off) := by
    intro u tu i p hu h hcur e
    exact hA t u th tu j i hth h (fun e => hu e.symm) (cur_all hc) (cur_all hcur) e
  refine ⟨fun u => if u = t then some (fc, es ++ fe, fo) else fut u, ?_⟩
  refine { flight := ?_, rests := ?_, jobs := ?_, ids := ?_, len := L.len, size := ?_, ends := ?_, log := ?_, run := ?_ }
  · intro u tu i p h hcur
    by_cases hu : u = t
    · subst hu
      rw [hth] at h; cases h
      rw [hc] at hcur; cases hcur
      exact ⟨x, (fc, es ++ fe, fo), hx, if_pos rfl, .inr ⟨st, hs, .step hadv h4⟩⟩
    · obtain ⟨y2, f2, g2, g3, g4⟩ := L.flight u tu i p (by rw [← h]; exact set_get_other hu) hcur
      dsimp only at g2 g4
      refine ⟨y2, f2, ?_, by rw [if_neg hu]; exact g3, by unfold Ends at g4 ⊢; rw [site_view] at g4; exact g4⟩
      rw [cell?_iff, view_entryAt, view_bodyAt, if_neg (hother u tu i p hu h hcur), if_neg (hother u tu i p hu h hcur)] at g2
      exact cell?_iff.mpr g2
  · intro u tu h hcur
    by_cases hu : u = t
    · subst hu; rw [hth] at h; cases h; rw [hc] at hcur; cases hcur
    · show (if u = t then _ else _) = _
      rw [if_neg hu]
      exact L.rests u tu (by rw [← h]; exact set_get_other hu) hcur
  · intro u tu h
    by_cases hu : u = t
    · subst hu; rw [hth] at h; cases h
      exact L.jobs u { th with cur := some (j, ph1) } hself
    · exact L.jobs u tu (by rw [← h]; exact set_get_other hu)
  · intro p hp; have := L.ids p hp; simpa using this
  · have := L.size; simpa using this
  · intro u tu thf h hf
    by_cases hu : u = t
    · subst hu; rw [hth] at h; cases h
      have := L.ends u _ thf hself hf
      rw [h3] at this
      simpa using this
    · have := L.ends u tu thf (by rw [← h]; exact set_get_other hu) hf
      rw [if_neg hu]; exact this
  · have h := L.log
    dsimp only at h
    rw [List.length_set] at h
    refine h.trans ?_
    show (c.w.log ++ es ++ pending fut c.ts.length ++ rest).Perm _
    have hp : (pending (fun u => if u = t then some (fc, es ++ fe, fo) else fut u) c.ts.length).Perm (es ++ pending fut c.ts.length) :=
      pending_change (t := t) (by rw [if_pos rfl, h3]; rfl) (fun u hu => if_neg hu) (List.getElem?_eq_some_iff.mp hth).1
    rw [List.append_assoc c.w.log]
    exact ((hp.append_left c.w.log).append_right rest).symm
  · intro ws ha
    apply L.run
    refine { shell := by rw [ha.shell]; exact view_shell.symm, heap := ha.heap, inv := ha.inv, meth := ha.meth, alloc := ha.alloc, busy := ?_, free := ?_ }
    · intro u tu i p f h hcur hf
      rcases get_set ⟨th, hth⟩ h with ⟨rfl, rfl⟩ | ⟨hu, h⟩
      · cases hcur
        rw [h3] at hf; cases hf
        exact ha.busy u th j ph (fc, es ++ fe, fo) hth hc (if_pos rfl)
      · exact ha.busy u tu i p f h hcur (by rw [if_neg hu]; exact hf)
    · intro m off hno
      have h1 := hno t _ j ph1 hself rfl
      dsimp only
      rw [view_entryAt, view_bodyAt, if_neg h1, if_neg h1]
      apply ha.free
      intro u tu i p h hcur
      by_cases hu : u = t
      · subst hu; rw [hth] at h; cases h; rw [hc] at hcur; cases hcur; exact h1
      · exact hno u tu i p (by rw [← h]; exact set_get_other hu) hcur

theorem lin_finish {P : Prog V E} {n : Nat} {c cf : Config V E} {t : Nat} {th : Thread V E} {j : Job V} {x : Cell V E} {o : Outcome V E}
    (hth : c.ts[t]? = some th) (hc : th.cur = some (j, .finished o)) (hx : cell? c.w j.m j.off = some x) {fut : Nat → Option (Future V E)}
    {order : List (Nat × Job V)} {outs : List (Outcome V E)} {rest : List (Event V)}
    (L : Lin P n { c with ts := c.ts.set t { th with cur := none, outs := th.outs ++ [o] } } cf fut order outs rest) :
    ∃ fut', Lin P n c cf fut' order outs rest := by
  have hself : (c.ts.set t { th with cur := none, outs := th.outs ++ [o] })[t]? = some { th with cur := none, outs := th.outs ++ [o] } := set_get_self hth
  have hnone : fut t = none := L.rests t _ hself rfl
  have hxe := cell?_iff.mp hx
  refine ⟨fun u => if u = t then some (x, [], o) else fut u, ?_⟩
  refine { flight := ?_, rests := ?_, jobs := ?_, ids := ?_, len := L.len, size := ?_, ends := ?_, log := ?_, run := ?_ }
  · intro u tu i p h hcur
    by_cases hu : u = t
    · subst hu
      rw [hth] at h; cases h
      rw [hc] at hcur; cases hcur
      exact ⟨x, (x, [], o), hx, if_pos rfl, .inl ⟨rfl, rfl, rfl⟩⟩
    · obtain ⟨y2, f2, g2, g3, g4⟩ := L.flight u tu i p (by rw [← h]; exact set_get_other hu) hcur
      exact ⟨y2, f2, g2, by rw [if_neg hu]; exact g3, g4⟩
  · intro u tu h hcur
    by_cases hu : u = t
    · subst hu; rw [hth] at h; cases h; rw [hc] at hcur; cases hcur
    · show (if u = t then _ else _) = _
      rw [if_neg hu]
      exact L.rests u tu (by rw [← h]; exact set_get_other hu) hcur
  · intro u tu h
    by_cases hu : u = t
    · subst hu; rw [hth] at h; cases h
      exact L.jobs u { th with cur := none, outs := th.outs ++ [o] } hself
    · exact L.jobs u tu (by rw [← h]; exact set_get_other hu)
  · intro p hp; have := L.ids p hp; simpa using this
  · have := L.size; simpa using this
  · intro u tu thf h hf
    by_cases hu : u = t
    · subst hu; rw [hth] at h; cases h
      have := L.ends u _ thf hself hf
      rw [hnone] at this
      simpa using this
    · have := L.ends u tu thf (by rw [← h]; exact set_get_other hu) hf
      rw [if_neg hu]; exact this
  · have h := L.log
    dsimp only at h
    rw [List.length_set] at h
    refine h.trans ?_
    have hp : (pending (fun u => if u = t then some (x, [], o) else fut u) c.ts.length).Perm ([] ++ pending fut c.ts.length) :=
      pending_change (t := t) (by rw [if_pos rfl, hnone]; rfl) (fun u hu => if_neg hu) (List.getElem?_eq_some_iff.mp hth).1
    exact ((hp.append_left c.w.log).append_right rest).symm
  · intro ws ha
    apply L.run
    refine { shell := ha.shell, heap := ha.heap, inv := ha.inv, meth := ha.meth, alloc := ha.alloc, busy := ?_, free := ?_ }
    · intro u tu i p f h hcur hf
      rcases get_set ⟨th, hth⟩ h with ⟨rfl, rfl⟩ | ⟨hu, h⟩
      · cases hcur
      · exact ha.busy u tu i p f h hcur (by rw [if_neg hu]; exact hf)
    · intro m off hno
      by_cases hm : j.m = m ∧ j.off = off
      · obtain ⟨rfl, rfl⟩ := hm
        have := ha.busy t th j _ (x, [], o) hth hc (if_pos rfl)
        rw [this.1, this.2]
        exact ⟨hxe.1.symm, hxe.2.symm⟩
      · apply ha.free
        intro u tu i p h hcur
        by_cases hu : u = t
        · subst hu; rw [hth] at h; cases h; rw [hc] at hcur; cases hcur; exact hm
        · exact hno u tu i p (by rw [← h]; exact set_get_other hu) hcur

theorem shell_get {a b : List (Mock V E)} (h : a.map shell = b.map shell) {m : Nat} {k : Mock V E} (hk : a[m]? = some k) :
    ∃ k', b[m]? = some k' ∧ shell k = shell k' := by
  have h1 : (a.map shell)[m]? = (b.map shell)[m]? := by rw [h]
  rw [List.getElem?_map, List.getElem?_map, hk] at h1
  cases hb : b[m]? with
  | none => rw [hb] at h1; cases h1
  | some k' => rw [hb] at h1; exact ⟨k', rfl, Option.some.inj h1⟩

theorem lin_enter {P : Prog V E} {n : Nat} {c cf : Config V E} {t : Nat} {th : Thread V E} {j : Job V} {js : List (Job V)} {w1 : World V E} {ph : Phase V E}
    (hA : Apart c) (hU : Uniq c.w) (hth : c.ts[t]? = some th) (hc : th.cur = none) (hj : th.jobs = j :: js) (he : enter c.w j = some (w1, ph))
    {fut : Nat → Option (Future V E)} {order : List (Nat × Job V)} {outs : List (Outcome V E)} {rest : List (Event V)}
    (L : Lin P n { w := w1, ts := c.ts.set t { th with jobs := js, cur := some (j, ph) } } cf fut order outs rest) :
    ∃ fut' order' outs' rest', Lin P n c cf fut' order' outs' rest' := by
  have hself : (c.ts.set t { th with jobs := js, cur := some (j, ph) })[t]? = some { th with jobs := js, cur := some (j, ph) } := set_get_self hth
  obtain ⟨x, f, h2, h3, h4⟩ := L.flight t _ j ph hself rfl
  obtain ⟨k, id, b, hk, hl, hv, ho, hb, hw1, hph⟩ := enter_some he
  subst hw1
  have hx : cell? c.w j.m j.off = some x := h2
  have hxe := cell?_iff.mp hx
  have h4' : ∃ st, site? P c.w j = some st ∧ Runs P st x ph f.1 f.2.1 f.2.2 := by
    rcases h4 with ⟨h, -, -⟩ | h
    · rw [hph] at h; cases h
    · exact h
  obtain ⟨st, hs, hr⟩ := h4'
  obtain ⟨fc, fe, fo⟩ := f
  have hjall : j ∈ th.all := by unfold Thread.all; rw [hj]; simp
  have hother : ∀ (u : Nat) (tu : Thread V E) (i : Job V) (p : Phase V E), c.ts[u]? = some tu → tu.cur = some (i, p) → ¬ (i.m = j.m ∧ i.off = j.off) := by
    intro u tu i p h hcur e
    by_cases hu : u = t
    · subst hu; rw [hth] at h; cases h; rw [hc] at hcur; cases hcur
    · exact hA u t tu th i j h hth hu (cur_all hcur) hjall e
  refine ⟨fun u => if u = t then none else fut u, (t, j) :: order, fo :: outs, fe ++ rest, ?_⟩
  refine { flight := ?_, rests := ?_, jobs := ?_, ids := ?_, len := ?_, size := ?_, ends := ?_, log := ?_, run := ?_ }
  · intro u tu i p h hcur
    by_cases hu : u = t
    · subst hu
      rw [hth] at h; cases h
      rw [hc] at hcur; cases hcur
    · obtain ⟨y2, f2, g2, g3, g4⟩ := L.flight u tu i p (by rw [← h]; exact set_get_other hu) hcur
      exact ⟨y2, f2, g2, by rw [if_neg hu]; exact g3, g4⟩
  · intro u tu h hcur
    show (if u = t then _ else _) = _
    by_cases hu : u = t
    · rw [if_pos hu]
    · rw [if_neg hu]
      exact L.rests u tu (by rw [← h]; exact set_get_other hu) hcur
  · intro u tu h
    by_cases hu : u = t
    · subst hu; rw [hth] at h; cases h
      have := L.jobs u _ hself
      unfold mine at this ⊢
      simp [this, hj]
    · have := L.jobs u tu (by rw [← h]; exact set_get_other hu)
      unfold mine at this ⊢
      rw [List.filter_cons_of_neg (by simpa using fun h => hu h.symm)]
      exact this
  · intro p hp
    rcases List.mem_cons.mp hp with rfl | hp
    · exact (List.getElem?_eq_some_iff.mp hth).1
    · have := L.ids p hp; simpa using this
  · simp [L.len]
  · have := L.size; simpa using this
  · intro u tu thf h hf
    by_cases hu : u = t
    · subst hu; rw [hth] at h; cases h
      have := L.ends u _ thf hself hf
      rw [h3] at this
      unfold results at this ⊢
      simpa using this
    · have := L.ends u tu thf (by rw [← h]; exact set_get_other hu) hf
      rw [if_neg hu]
      unfold results at this ⊢
      rw [List.zip_cons_cons, List.filter_cons_of_neg (by simpa using fun h => hu h.symm)]
      exact this
  · have h := L.log
    dsimp only at h
    rw [List.length_set] at h
    refine h.trans ?_
    show (c.w.log ++ pending fut c.ts.length ++ rest).Perm _
    have hp : (pending fut c.ts.length).Perm (fe ++ pending (fun u => if u = t then none else fut u) c.ts.length) :=
      pending_change (t := t) (by rw [if_pos rfl, h3]; simp) (fun u hu => (if_neg hu).symm) (List.getElem?_eq_some_iff.mp hth).1
    rw [List.append_assoc, List.append_assoc]
    refine List.Perm.append_left _ ?_
    rw [← List.append_assoc]
    refine List.Perm.append_right _ ?_
    exact hp.trans List.perm_append_comm
  · intro ws ha
    -- the call in `ws`
    have hfree := ha.free j.m j.off hother
    have hwx : cell? ws j.m j.off = some x := cell?_iff.mpr ⟨by rw [hfree.1]; exact hxe.1, by rw [hfree.2]; exact hxe.2⟩
    obtain ⟨k', hk', hsh⟩ := shell_get ha.shell.symm hk
    have hent : enter ws j = some (ws.bumpInv, ph) := by
      obtain ⟨k2, hk2, hb2, hv2⟩ := cell?_some hwx
      rw [hk'] at hk2; cases hk2
      obtain ⟨kc, hkc, hbc, hvc⟩ := cell?_some hx
      rw [hk] at hkc; cases hkc
      rw [hb] at hbc; rw [hv] at hvc
      have e1 : k.alive = k'.alive := by have := congrArg Mock.alive hsh; exact this
      have e2 : k.owner = k'.owner := by have := congrArg Mock.owner hsh; exact this
      have e3 : k.offsets = k'.offsets := by have := congrArg Mock.offsets hsh; exact this
      unfold enter
      rw [hk']
      dsimp only
      rw [← e1, ← e2, hl, hv2, ← hvc]
      simp only [Bool.false_eq_true, if_false]
      rw [← e3, if_pos ho]
      have : k'.body? j.off = some b := by unfold Mock.body?; rw [hb2, ← hbc]; rfl
      rw [this, hph]
      have e4 : ws.bumpInv.invTotal = c.w.bumpInv.invTotal := by show ws.invTotal + 1 = _; rw [ha.inv]; rfl
      have e5 : ws.bumpInv.lastOrdinal = c.w.bumpInv.lastOrdinal := by unfold World.lastOrdinal; rw [e4]
      simp only [e4, e5]
    have hsite : site? P ws j = some st := by
      rw [← hs]
      unfold site?
      rw [hk, hk']
      have e1 : k.orig = k'.orig := by have := congrArg Mock.orig hsh; exact this
      have e2 : k.cls = k'.cls := by have := congrArg Mock.cls hsh; exact this
      simp only [e1, e2]
    have hcall := call_link (n := n) hent hsite hwx (hU _ _ _ hxe.2) hr
    obtain ⟨w', g1, g2, g3⟩ := L.run (view ws.bumpInv j.m j.off fc fe) (by
      have hme := cell?_iff.mp hwx
      refine { shell := ?_, heap := ha.heap, inv := ?_, meth := ha.meth, alloc := ha.alloc, busy := ?_, free := ?_ }
      · rw [view_shell]; exact ha.shell
      · show ws.invTotal + 1 = c.w.invTotal + 1; rw [ha.inv]
      · intro u tu i p f h hcur hf
        rw [view_entryAt, view_bodyAt]
        rcases get_set ⟨th, hth⟩ h with ⟨rfl, rfl⟩ | ⟨hu, h⟩
        · cases hcur
          rw [h3] at hf; cases hf
          rw [if_pos ⟨rfl, rfl⟩, if_pos ⟨rfl, rfl⟩]
          have e1 : entryAt ws.bumpInv j.m j.off = some x.entry := hme.1
          have e2 : bodyAt ws.bumpInv j.m j.off = some (some x.body) := hme.2
          rw [e1, e2]; exact ⟨rfl, rfl⟩
        · have hne := hother u tu i p h hcur
          have hne' : ¬ (j.m = i.m ∧ j.off = i.off) := fun e => hne ⟨e.1.symm, e.2.symm⟩
          rw [if_neg hne', if_neg hne']
          exact ha.busy u tu i p f h hcur (by rw [if_neg hu]; exact hf)
      · intro m off hno
        rw [view_entryAt, view_bodyAt]
        have h1 := hno t _ j ph hself rfl
        rw [if_neg h1, if_neg h1]
        refine ha.free m off ?_
        intro u tu i p h hcur
        by_cases hu : u = t
        · subst hu; rw [hth] at h; cases h; rw [hc] at hcur; cases hcur
        · exact hno u tu i p (by rw [← h]; exact set_get_other hu) hcur)
    refine ⟨w', ?_, ?_, g3⟩
    · rw [List.map_cons, List.map_cons]
      unfold runOps opOf
      simp only [opStep, hcall, R.bind_done]
      have g1' := g1
      unfold opOf at g1'
      rw [g1']
      rfl
    · rw [g2]
      show ws.log ++ fe ++ rest = _
      rw [List.append_assoc]

/-- Running calls have a cell. -/
def Sound (c : Config V E) : Prop := ∀ (t : Nat) (th : Thread V E) (j : Job V) (ph : Phase V E), c.ts[t]? = some th → th.cur = some (j, ph) →
  ∃ x, cell? c.w j.m j.off = some x

theorem Sound.step {P : Prog V E} {c c1 : Config V E} {t : Nat} (hs : Sound c) (h : tstep P c t = some c1) : Sound c1 := by
  obtain ⟨th, hth, ⟨-, j, js, w1, ph, -, he, rfl⟩ | ⟨j, o, -, rfl⟩ | ⟨j, ph, x, st, x1, es, ph1, hc, hx, -, ha, rfl⟩⟩ := tstep_cases h
  · obtain ⟨k, id, b, hk, -, hv, -, hb, rfl, -⟩ := enter_some he
    intro u tu i p hu hcur
    rcases get_set ⟨th, hth⟩ hu with ⟨rfl, rfl⟩ | ⟨hne, hu⟩
    · cases hcur
      exact ⟨⟨b, .proxy id⟩, cell?_of hk hb hv⟩
    · exact hs u tu i p hu hcur
  · intro u tu i p hu hcur
    rcases get_set ⟨th, hth⟩ hu with ⟨rfl, rfl⟩ | ⟨hne, hu⟩
    · cases hcur
    · exact hs u tu i p hu hcur
  · have key : ∀ i : Job V, (∃ x, cell? c.w i.m i.off = some x) → ∃ x, cell? (view c.w j.m j.off x1 es) i.m i.off = some x := by
      rintro i ⟨y, hy⟩
      have hy' := cell?_iff.mp hy
      have hx' := cell?_iff.mp hx
      by_cases e : j.m = i.m ∧ j.off = i.off
      · exact ⟨x1, cell?_iff.mpr (by rw [view_entryAt, view_bodyAt, if_pos e, if_pos e, hx'.1, hx'.2]; exact ⟨rfl, rfl⟩)⟩
      · exact ⟨y, cell?_iff.mpr (by rw [view_entryAt, view_bodyAt, if_neg e, if_neg e]; exact hy')⟩
    intro u tu i p hu hcur
    rcases get_set ⟨th, hth⟩ hu with ⟨rfl, rfl⟩ | ⟨hne, hu⟩
    · cases hcur
      exact key _ ⟨x, hx⟩
    · exact key _ (hs u tu i p hu hcur)

theorem lin {P : Prog V E} {n : Nat} {cf : Config V E} (ho : cf.over) (sched : List Nat) : ∀ {c : Config V E}, Apart c → Uniq c.w → Sound c →
    trun P c sched = some cf → ∃ fut order outs rest, Lin P n c cf fut order outs rest := by
  induction sched with
  | nil => intro c _ _ _ h; cases h; exact ⟨_, _, _, _, lin_nil ho⟩
  | cons t sched ih =>
    intro c hA hU hS h
    unfold trun at h
    cases h1 : tstep P c t with
    | none => rw [h1] at h; cases h
    | some c1 =>
      rw [h1] at h
      obtain ⟨fut, order, outs, rest, L⟩ := ih (hA.step h1) (hU.step h1) (hS.step h1) h
      obtain ⟨th, hth, ⟨hc, j, js, w1, ph, hj, he, rfl⟩ | ⟨j, o, hc, rfl⟩ | ⟨j, ph, x, st, x1, es, ph1, hc, hx, hs, ha, rfl⟩⟩ := tstep_cases h1
      · exact lin_enter hA hU hth hc hj he L
      · obtain ⟨x, hx⟩ := hS t th j _ hth hc
        obtain ⟨fut', L'⟩ := lin_finish hth hc hx L
        exact ⟨_, _, _, _, L'⟩
      · obtain ⟨fut', L'⟩ := lin_advance hA hth hc hx hs ha L
        exact ⟨_, _, _, _, L'⟩

end FakeIt.Threads
