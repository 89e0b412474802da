import Verif.Spec.Races
/-!
# Helper lemmas for races: interleavings of programs in general
-/
namespace FakeIt.Races.Spec

variable {V α β : Type}

theorem set_same (μ : Mem V) (l : Loc) (v : Val V l) : (μ.set l v) l = v := by simp [Mem.set]

theorem set_other (μ : Mem V) {l l' : Loc} (v : Val V l) (h : l' ≠ l) : (μ.set l v) l' = μ l' := by simp [Mem.set, h]

theorem set_comm (μ : Mem V) {l l' : Loc} (v : Val V l) (v' : Val V l') (h : l ≠ l') :
    (μ.set l v).set l' v' = (μ.set l' v').set l v := by
  funext x
  by_cases hx : x = l
  · subst hx
    rw [set_other _ _ h, set_same, set_same]
  · by_cases hx' : x = l'
    · subst hx'
      rw [set_same, set_other _ _ hx, set_same]
    · rw [set_other _ _ hx', set_other _ _ hx, set_other _ _ hx, set_other _ _ hx']

/-- Running on. -/
theorem Alone.trans {p p' p'' : Prog V α} {μ μ' μ'' : Mem V} {tr tr' : List Access}
    (h : Alone p μ tr p' μ') (h' : Alone p' μ' tr' p'' μ'') : Alone p μ (tr ++ tr') p'' μ'' := by
  induction h with
  | nil => exact h'
  | rd l k μ μ' tr p' _ ih => exact .rd _ _ _ _ _ _ (ih h')
  | wr l v k μ μ' tr p' _ ih => exact .wr _ _ _ _ _ _ _ (ih h')
  | inc k n μ μ' tr p' _ ih => exact .inc _ n _ _ _ _ (ih h')

theorem Makes.of_pending {p p' : Prog V α} {μ μ' : Mem V} {tr : List Access} (h : Alone p μ tr p' μ') {a : Access}
    (ha : pending p' = some a) : Makes p μ a := by
  cases p' with
  | ret x => simp [pending] at ha
  | ub => simp [pending] at ha
  | inc k => simp [pending] at ha
  | rd l k =>
    simp [pending] at ha
    subst ha
    exact ⟨_, _, _, h.trans (.rd l k _ _ [] _ (.nil _ _)), by simp⟩
  | wr l v k =>
    simp [pending] at ha
    subst ha
    exact ⟨_, _, _, h.trans (.wr l v k _ _ [] _ (.nil _ _)), by simp⟩

/-- A run does not change what it does not write. -/
theorem Alone.frame {p p' : Prog V α} {μ μ' : Mem V} {tr : List Access} (h : Alone p μ tr p' μ') (l : Loc)
    (hl : ⟨l, true⟩ ∉ tr) : μ' l = μ l := by
  induction h with
  | nil => rfl
  | rd l' k μ μ' tr p' _ ih => exact ih fun hm => hl (List.mem_cons_of_mem _ hm)
  | wr l' v k μ μ' tr p' _ ih =>
    rw [ih fun hm => hl (List.mem_cons_of_mem _ hm)]
    apply set_other
    intro he
    subst he
    exact hl (List.mem_cons_self ..)
  | inc k n μ μ' tr p' _ ih => exact ih hl

/-- A write of a location a run does not use does not change the run. -/
theorem Alone.set_mem {p p' : Prog V α} {μ μ' : Mem V} {tr : List Access} (h : Alone p μ tr p' μ') (l : Loc) (v : Val V l)
    (hl : ∀ w, (⟨l, w⟩ : Access) ∉ tr) : Alone p (μ.set l v) tr p' (μ'.set l v) := by
  induction h with
  | nil => exact .nil _ _
  | rd l' k μ μ' tr p' h' ih =>
    have hne : l' ≠ l := fun he => hl false (he ▸ List.mem_cons_self ..)
    have := ih fun w hm => hl w (List.mem_cons_of_mem _ hm)
    refine .rd _ _ _ _ _ _ ?_
    rw [set_other _ _ hne]
    exact this
  | wr l' v' k μ μ' tr p' h' ih =>
    have hne : l' ≠ l := fun he => hl true (he ▸ List.mem_cons_self ..)
    have := ih fun w hm => hl w (List.mem_cons_of_mem _ hm)
    refine .wr _ _ _ _ _ _ _ ?_
    rw [set_comm _ _ _ (fun h => hne h.symm)]
    exact this
  | inc k n μ μ' tr p' h' ih => exact .inc _ n _ _ _ _ (ih hl)

/-- What holds after any interleaving of threads that have no conflicting accesses: every thread is where it would be alone, and sees what it would see. -/
structure Parallel (μ : Mem V) (ps : List (Prog V α)) (c : Config V α) : Prop where
  len : c.ts.length = ps.length
  each : ∀ (i : Nat) p, ps[i]? = some p → ∃ p' μi tr, c.ts[i]? = some p' ∧ Alone p μ tr p' μi ∧
    ∀ l w, Makes p μ ⟨l, w⟩ → c.mem l = μi l
  rest : ∀ l, (∀ (i : Nat) p, ps[i]? = some p → ¬ Makes p μ ⟨l, true⟩) → c.mem l = μ l

/-- Threads whose accesses, when each runs alone, do not conflict. -/
def Apart (μ : Mem V) (ps : List (Prog V α)) : Prop :=
  ∀ (i j : Nat) p q, i ≠ j → ps[i]? = some p → ps[j]? = some q → ∀ a b, Makes p μ a → Makes q μ b → ¬ Conflict a b

theorem Parallel.init (μ : Mem V) (ps : List (Prog V α)) : Parallel μ ps ⟨μ, ps⟩ :=
  ⟨rfl, fun _ p h => ⟨p, μ, [], h, .nil _ _, fun _ _ _ => rfl⟩, fun _ _ => rfl⟩

theorem Parallel.step {μ : Mem V} {ps : List (Prog V α)} (hap : Apart μ ps) {c c' : Config V α} (h : Parallel μ ps c)
    (hs : Step c c') : Parallel μ ps c' := by
  cases hs with
  | mk i p p' μ' hi hs =>
    have hlt : i < c.ts.length := by
      rcases Nat.lt_or_ge i c.ts.length with h' | h'
      · exact h'
      · rw [List.getElem?_eq_none h'] at hi
        cases hi
    obtain ⟨p0, hp0⟩ : ∃ p0, ps[i]? = some p0 := ⟨ps[i]'(h.len ▸ hlt), by simp⟩
    obtain ⟨p1, μi, tr, hp1, hal, hag⟩ := h.each i p0 hp0
    rw [hi] at hp1
    cases hp1
    -- the thread that moved
    have hmoved : ∃ μi' tr', Alone p0 μ tr' p' μi' ∧ ∀ l w, Makes p0 μ ⟨l, w⟩ → μ' l = μi' l := by
      cases hs with
      | rd l k =>
        have hm : Makes p0 μ ⟨l, false⟩ := .of_pending hal rfl
        have x := hal.trans (.rd l k _ _ [] _ (.nil _ _))
        rw [← hag l false hm] at x
        exact ⟨μi, _, x, hag⟩
      | wr l v k =>
        refine ⟨μi.set l v, _, hal.trans (.wr l v _ _ _ [] _ (.nil _ _)), ?_⟩
        intro l' w hl'
        by_cases he : l' = l
        · subst he
          rw [set_same, set_same]
        · rw [set_other _ _ he, set_other _ _ he]
          exact hag l' w hl'
      | inc k n => exact ⟨μi, _, hal.trans (.inc k n _ _ [] _ (.nil _ _)), hag⟩
    -- what it wrote concerns nobody else
    have hothers : ∀ l, (∀ a, a.loc = l → a.write = true → ¬ Makes p0 μ a) → μ' l = c.mem l := by
      intro l hl
      cases hs with
      | rd l' k => rfl
      | wr l' v k =>
        apply set_other
        intro he
        exact hl ⟨l', true⟩ he.symm rfl (.of_pending hal rfl)
      | inc k n => rfl
    refine ⟨by rw [List.length_set]; exact h.len, ?_, ?_⟩
    · intro j q hj
      by_cases hij : i = j
      · subst hij
        rw [hp0] at hj
        cases hj
        obtain ⟨μi', tr', h1, h2⟩ := hmoved
        exact ⟨p', μi', tr', by simp [hlt], h1, h2⟩
      · obtain ⟨q', μj, trj, h1, h2, h3⟩ := h.each j q hj
        refine ⟨q', μj, trj, by rw [List.getElem?_set_ne hij]; exact h1, h2, ?_⟩
        intro l w hl
        show μ' l = μj l
        rw [hothers l ?_]
        · exact h3 l w hl
        · intro a hal' haw ham
          exact hap i j p0 q hij hp0 hj a ⟨l, w⟩ ham hl ⟨hal', .inl haw⟩
    · intro l hl
      show μ' l = μ l
      rw [hothers l ?_]
      · exact h.rest l hl
      · intro a hal' haw ham
        refine hl i p0 hp0 ?_
        obtain ⟨al, aw⟩ := a
        cases hal'
        cases haw
        exact ham

theorem Parallel.steps {μ : Mem V} {ps : List (Prog V α)} (hap : Apart μ ps) {c : Config V α} (hs : Steps ⟨μ, ps⟩ c) : Parallel μ ps c := by
  generalize hc0 : (⟨μ, ps⟩ : Config V α) = c0 at hs
  induction hs with
  | refl => subst hc0; exact .init μ ps
  | tail c' c'' _ h2 ih => exact ih.step hap h2

theorem raceFree_of_apart {μ : Mem V} {ps : List (Prog V α)} (hap : Apart μ ps) : RaceFree (⟨μ, ps⟩ : Config V α) := by
  intro c hc i j hij ⟨p, q, a, b, hp, hq, ha, hb, hab⟩
  have hpar := Parallel.steps hap hc
  have hlt : ∀ {k : Nat} {x}, c.ts[k]? = some x → ∃ x0, ps[k]? = some x0 := by
    intro k x hk
    rcases Nat.lt_or_ge k c.ts.length with h' | h'
    · exact ⟨ps[k]'(hpar.len ▸ h'), by simp⟩
    · rw [List.getElem?_eq_none h'] at hk
      cases hk
  obtain ⟨p0, hp0⟩ := hlt hp
  obtain ⟨q0, hq0⟩ := hlt hq
  obtain ⟨p1, μi, tr, hp1, hal, _⟩ := hpar.each i p0 hp0
  obtain ⟨q1, μj, tr', hq1, hal', _⟩ := hpar.each j q0 hq0
  rw [hp] at hp1
  cases hp1
  rw [hq] at hq1
  cases hq1
  exact hap i j p0 q0 hij hp0 hq0 a b (.of_pending hal ha) (.of_pending hal' hb) hab

/-! ## The other direction: conflicting accesses meet in some interleaving -/

theorem Steps.head {c c' c'' : Config V α} (hs : Step c c') (h : Steps c' c'') : Steps c c'' := by
  induction h with
  | refl => exact .tail _ _ _ (.refl _) hs
  | tail b d h1 h2 ih => exact .tail _ _ _ ih h2

theorem Steps.trans {c c' c'' : Config V α} (h : Steps c c') (h' : Steps c' c'') : Steps c c'' := by
  induction h' with
  | refl => exact h
  | tail b d h1 h2 ih => exact .tail _ _ _ ih h2

/-- A thread running alone while the others wait. -/
theorem steps_of_alone {p p' : Prog V α} {μ μ' : Mem V} {tr : List Access} (h : Alone p μ tr p' μ') (ts : List (Prog V α)) (i : Nat)
    (hi : ts[i]? = some p) : Steps ⟨μ, ts⟩ ⟨μ', ts.set i p'⟩ := by
  induction h generalizing ts with
  | nil p μ =>
    have : ts.set i p = ts := by
      apply List.ext_getElem?
      intro k
      by_cases hk : i = k
      · subst hk
        rcases Nat.lt_or_ge i ts.length with h' | h'
        · rw [List.getElem?_set_self h', hi]
        · rw [List.getElem?_eq_none h'] at hi
          cases hi
      · rw [List.getElem?_set_ne hk]
    rw [this]
    exact .refl _
  | rd l k μ μ' tr p' _ ih =>
    have hlt : i < ts.length := by
      rcases Nat.lt_or_ge i ts.length with h' | h'
      · exact h'
      · rw [List.getElem?_eq_none h'] at hi
        cases hi
    have := ih (ts.set i (k (μ l))) (by simp [hlt])
    rw [List.set_set] at this
    exact .head (.mk ⟨μ, ts⟩ i _ _ _ hi (.rd l k μ)) this
  | wr l v k μ μ' tr p' _ ih =>
    have hlt : i < ts.length := by
      rcases Nat.lt_or_ge i ts.length with h' | h'
      · exact h'
      · rw [List.getElem?_eq_none h'] at hi
        cases hi
    have := ih (ts.set i k) (by simp [hlt])
    rw [List.set_set] at this
    exact .head (.mk ⟨μ, ts⟩ i _ _ _ hi (.wr l v k μ)) this
  | inc k n μ μ' tr p' _ ih =>
    have hlt : i < ts.length := by
      rcases Nat.lt_or_ge i ts.length with h' | h'
      · exact h'
      · rw [List.getElem?_eq_none h'] at hi
        cases hi
    have := ih (ts.set i (k n)) (by simp [hlt])
    rw [List.set_set] at this
    exact .head (.mk ⟨μ, ts⟩ i _ _ _ hi (.inc k n μ)) this

/-- A run up to one of its accesses. -/
theorem Alone.upto {p p' : Prog V α} {μ μ' : Mem V} {tr : List Access} (h : Alone p μ tr p' μ') {a : Access} (ha : a ∈ tr) :
    ∃ tr1 q μ1, Alone p μ tr1 q μ1 ∧ pending q = some a ∧ ∀ x, x ∈ tr1 → x ∈ tr := by
  induction h with
  | nil => cases ha
  | rd l k μ μ' tr p' h ih =>
    rcases List.mem_cons.1 ha with he | ha'
    · exact ⟨[], _, μ, .nil _ _, by rw [he]; rfl, by simp⟩
    · obtain ⟨tr1, q, μ1, h1, h2, h3⟩ := ih ha'
      refine ⟨_, q, μ1, .rd _ _ _ _ _ _ h1, h2, ?_⟩
      intro x hx
      rcases List.mem_cons.1 hx with he | hx'
      · rw [he]; exact List.mem_cons_self ..
      · exact List.mem_cons_of_mem _ (h3 x hx')
  | wr l v k μ μ' tr p' h ih =>
    rcases List.mem_cons.1 ha with he | ha'
    · exact ⟨[], _, μ, .nil _ _, by rw [he]; rfl, by simp⟩
    · obtain ⟨tr1, q, μ1, h1, h2, h3⟩ := ih ha'
      refine ⟨_, q, μ1, .wr _ _ _ _ _ _ _ h1, h2, ?_⟩
      intro x hx
      rcases List.mem_cons.1 hx with he | hx'
      · rw [he]; exact List.mem_cons_self ..
      · exact List.mem_cons_of_mem _ (h3 x hx')
  | inc k n μ μ' tr p' h ih =>
    obtain ⟨tr1, q, μ1, h1, h2, h3⟩ := ih ha
    exact ⟨tr1, q, μ1, .inc _ n _ _ _ _ h1, h2, h3⟩

theorem canRace_of_pending {p q q' : Prog V α} {μ μ' : Mem V} {tr : List Access} {a b : Access} (ha : pending p = some a)
    (h : Alone q μ tr q' μ') (hb : b ∈ tr) (hab : Conflict a b) (ts : List (Prog V α)) (i j : Nat) (hij : i ≠ j)
    (hi : ts[i]? = some p) (hj : ts[j]? = some q) : CanRace ⟨μ, ts⟩ i j := by
  obtain ⟨tr1, q1, μ1, h1, h2, _⟩ := h.upto hb
  have hlt : j < ts.length := by
    rcases Nat.lt_or_ge j ts.length with h' | h'
    · exact h'
    · rw [List.getElem?_eq_none h'] at hj
      cases hj
  refine ⟨_, steps_of_alone h1 ts j hj, p, q1, a, b, ?_, ?_, ha, h2, hab⟩
  · show (ts.set j q1)[i]? = some p
    rw [List.getElem?_set_ne (fun h => hij h.symm)]
    exact hi
  · show (ts.set j q1)[j]? = some q1
    rw [List.getElem?_set_self hlt]

theorem canRace_of_alone {p p' : Prog V α} {μ μp : Mem V} {trp : List Access} (hp : Alone p μ trp p' μp) :
    ∀ {q q' : Prog V α} {μq : Mem V} {trq : List Access}, Alone q μ trq q' μq →
    ∀ {a b : Access}, a ∈ trp → b ∈ trq → Conflict a b → ∀ (ts : List (Prog V α)) (i j : Nat), i ≠ j → ts[i]? = some p → ts[j]? = some q →
    CanRace ⟨μ, ts⟩ i j := by
  induction hp with
  | nil => intro q q' μq trq _ a b ha; cases ha
  | rd l k μ μ' tr p' h ih =>
    intro q q' μq trq hq a b ha hb hab ts i j hij hi hj
    rcases List.mem_cons.1 ha with he | ha'
    · subst he
      exact canRace_of_pending rfl hq hb hab ts i j hij hi hj
    · have hlt : i < ts.length := by
        rcases Nat.lt_or_ge i ts.length with h' | h'
        · exact h'
        · rw [List.getElem?_eq_none h'] at hi
          cases hi
      obtain ⟨c', hc', hr⟩ := ih hq ha' hb hab (ts.set i (k (μ l))) i j hij (by simp [hlt]) (by rw [List.getElem?_set_ne hij]; exact hj)
      exact ⟨c', .head (.mk ⟨μ, ts⟩ i _ _ _ hi (.rd l k μ)) hc', hr⟩
  | wr l v k μ μ' tr p' h ih =>
    intro q q' μq trq hq a b ha hb hab ts i j hij hi hj
    by_cases hx : ∃ x, x ∈ trq ∧ x.loc = l
    · obtain ⟨x, hx1, hx2⟩ := hx
      exact canRace_of_pending rfl hq hx1 ⟨hx2.symm, .inl rfl⟩ ts i j hij hi hj
    · rcases List.mem_cons.1 ha with he | ha'
      · subst he
        exact absurd ⟨b, hb, hab.1.symm⟩ hx
      · have hlt : i < ts.length := by
          rcases Nat.lt_or_ge i ts.length with h' | h'
          · exact h'
          · rw [List.getElem?_eq_none h'] at hi
            cases hi
        have hq' := hq.set_mem l v (fun w hm => hx ⟨_, hm, rfl⟩)
        obtain ⟨c', hc', hr⟩ := ih hq' ha' hb hab (ts.set i k) i j hij (by simp [hlt]) (by rw [List.getElem?_set_ne hij]; exact hj)
        exact ⟨c', .head (.mk ⟨μ, ts⟩ i _ _ _ hi (.wr l v k μ)) hc', hr⟩
  | inc k n μ μ' tr p' h ih =>
    intro q q' μq trq hq a b ha hb hab ts i j hij hi hj
    have hlt : i < ts.length := by
      rcases Nat.lt_or_ge i ts.length with h' | h'
      · exact h'
      · rw [List.getElem?_eq_none h'] at hi
        cases hi
    obtain ⟨c', hc', hr⟩ := ih hq ha hb hab (ts.set i (k n)) i j hij (by simp [hlt]) (by rw [List.getElem?_set_ne hij]; exact hj)
    exact ⟨c', .head (.mk ⟨μ, ts⟩ i _ _ _ hi (.inc k n μ)) hc', hr⟩

theorem canRace_of_makes {p q : Prog V α} {μ : Mem V} {a b : Access} (hp : Makes p μ a) (hq : Makes q μ b) (hab : Conflict a b)
    (ts : List (Prog V α)) (i j : Nat) (hij : i ≠ j) (hi : ts[i]? = some p) (hj : ts[j]? = some q) : CanRace ⟨μ, ts⟩ i j := by
  obtain ⟨_, _, _, h1, h2⟩ := hp
  obtain ⟨_, _, _, h3, h4⟩ := hq
  exact canRace_of_alone h1 h3 h2 h4 hab ts i j hij hi hj

/-! ## Programs one after the other -/

/-- Every access of the program is in `F`, it meets no undefined behaviour, and it ends as `Q` says. -/
def Safe (F : Access → Prop) : Prog V α → Mem V → (α → Mem V → Prop) → Prop
  | .ret a, μ, Q => Q a μ
  | .rd l k, μ, Q => F ⟨l, false⟩ ∧ Safe F (k (μ l)) μ Q
  | .wr l v k, μ, Q => F ⟨l, true⟩ ∧ Safe F k (μ.set l v) Q
  | .inc k, μ, Q => ∀ n, Safe F (k n) μ Q
  | .ub, _, _ => False

theorem safe_bind {F : Access → Prop} {p : Prog V α} {f : α → Prog V β} {Q : β → Mem V → Prop} {μ : Mem V} :
    Safe F (p >>= f) μ Q ↔ Safe F p μ (fun a μ' => Safe F (f a) μ' Q) := by
  show Safe F (p.bind f) μ Q ↔ _
  induction p generalizing μ with
  | ret a => rfl
  | rd l k ih => simp only [Prog.bind, Safe, ih]
  | wr l v k ih => simp only [Prog.bind, Safe, ih]
  | inc k ih => simp only [Prog.bind, Safe, ih]
  | ub => rfl

theorem safe_pure {F : Access → Prop} {a : α} {Q : α → Mem V → Prop} {μ : Mem V} :
    Safe F (pure a : Prog V α) μ Q ↔ Q a μ := Iff.rfl

theorem safe_ret {F : Access → Prop} {a : α} {Q : α → Mem V → Prop} {μ : Mem V} :
    Safe F (.ret a : Prog V α) μ Q ↔ Q a μ := Iff.rfl

theorem safe_get {F : Access → Prop} {l : Loc} {Q : Val V l → Mem V → Prop} {μ : Mem V} :
    Safe F (get l) μ Q ↔ F ⟨l, false⟩ ∧ Q (μ l) μ := Iff.rfl

theorem safe_put {F : Access → Prop} {l : Loc} {v : Val V l} {Q : Unit → Mem V → Prop} {μ : Mem V} :
    Safe F (put l v) μ Q ↔ F ⟨l, true⟩ ∧ Q () (μ.set l v) := Iff.rfl

theorem safe_next {F : Access → Prop} {Q : Nat → Mem V → Prop} {μ : Mem V} :
    Safe F (next : Prog V Nat) μ Q ↔ ∀ n, Q n μ := Iff.rfl

theorem Safe.mono {F G : Access → Prop} (hFG : ∀ a, F a → G a) {p : Prog V α} {Q R : α → Mem V → Prop} (hQR : ∀ a μ, Q a μ → R a μ)
    {μ : Mem V} (h : Safe F p μ Q) : Safe G p μ R := by
  induction p generalizing μ with
  | ret a => exact hQR _ _ h
  | rd l k ih => exact ⟨hFG _ h.1, ih _ h.2⟩
  | wr l v k ih => exact ⟨hFG _ h.1, ih h.2⟩
  | inc k ih => exact fun n => ih n (h n)
  | ub => exact h.elim

theorem Safe.and {F : Access → Prop} {p : Prog V α} {Q R : α → Mem V → Prop} {μ : Mem V} (h : Safe F p μ Q) {G : Access → Prop} (h' : Safe G p μ R) :
    Safe F p μ (fun a μ' => Q a μ' ∧ R a μ') := by
  induction p generalizing μ with
  | ret a => exact ⟨h, h'⟩
  | rd l k ih => exact ⟨h.1, ih _ h.2 h'.2⟩
  | wr l v k ih => exact ⟨h.1, ih h.2 h'.2⟩
  | inc k ih => exact fun n => ih n (h n) (h' n)
  | ub => exact h.elim

/-- What a run of a safe program does. -/
theorem Safe.alone {F : Access → Prop} {p p' : Prog V α} {Q : α → Mem V → Prop} {μ μ' : Mem V} {tr : List Access}
    (h : Safe F p μ Q) (hal : Alone p μ tr p' μ') : (∀ a, a ∈ tr → F a) ∧ Safe F p' μ' Q := by
  induction hal with
  | nil => exact ⟨by simp, h⟩
  | rd l k μ μ' tr p' _ ih =>
    obtain ⟨h1, h2⟩ := ih h.2
    refine ⟨?_, h2⟩
    intro a ha
    rcases List.mem_cons.1 ha with he | ha'
    · rw [he]; exact h.1
    · exact h1 a ha'
  | wr l v k μ μ' tr p' _ ih =>
    obtain ⟨h1, h2⟩ := ih h.2
    refine ⟨?_, h2⟩
    intro a ha
    rcases List.mem_cons.1 ha with he | ha'
    · rw [he]; exact h.1
    · exact h1 a ha'
  | inc k n μ μ' tr p' _ ih => exact ih (h n)

theorem Safe.makes {F : Access → Prop} {p : Prog V α} {Q : α → Mem V → Prop} {μ : Mem V} (h : Safe F p μ Q) {a : Access}
    (ha : Makes p μ a) : F a := by
  obtain ⟨_, _, _, h1, h2⟩ := ha
  exact (h.alone h1).1 a h2

/-- A safe program can be run to its end. -/
theorem Safe.ends {F : Access → Prop} {p : Prog V α} {Q : α → Mem V → Prop} {μ : Mem V} (h : Safe F p μ Q) :
    ∃ tr a μ', Alone p μ tr (.ret a) μ' ∧ Q a μ' := by
  induction p generalizing μ with
  | ret a => exact ⟨[], a, μ, .nil _ _, h⟩
  | rd l k ih =>
    obtain ⟨tr, a, μ', h1, h2⟩ := ih _ h.2
    exact ⟨_, a, μ', .rd _ _ _ _ _ _ h1, h2⟩
  | wr l v k ih =>
    obtain ⟨tr, a, μ', h1, h2⟩ := ih h.2
    exact ⟨_, a, μ', .wr _ _ _ _ _ _ _ h1, h2⟩
  | inc k ih =>
    obtain ⟨tr, a, μ', h1, h2⟩ := ih 0 (h 0)
    exact ⟨_, a, μ', .inc _ 0 _ _ _ _ h1, h2⟩
  | ub => exact h.elim

/-- Accesses of a program that surely makes them, whatever the counters give. -/
def Surely (a : Access) : Prog V α → Mem V → Prop
  | .ret _, _ => False
  | .rd l k, μ => a = ⟨l, false⟩ ∨ Surely a (k (μ l)) μ
  | .wr l v k, μ => a = ⟨l, true⟩ ∨ Surely a k (μ.set l v)
  | .inc k, μ => ∃ n, Surely a (k n) μ
  | .ub, _ => False

theorem Surely.makes {a : Access} {p : Prog V α} {μ : Mem V} (h : Surely a p μ) : Makes p μ a := by
  induction p generalizing μ with
  | ret _ => exact h.elim
  | rd l k ih =>
    rcases h with h | h
    · subst h
      exact ⟨_, _, _, .rd l k μ μ [] _ (.nil _ _), by simp⟩
    · obtain ⟨tr, p', μ', h1, h2⟩ := ih _ h
      exact ⟨_, _, _, .rd l k μ μ' tr p' h1, List.mem_cons_of_mem _ h2⟩
  | wr l v k ih =>
    rcases h with h | h
    · subst h
      exact ⟨_, _, _, .wr l v k μ _ [] _ (.nil _ _), by simp⟩
    · obtain ⟨tr, p', μ', h1, h2⟩ := ih h
      exact ⟨_, _, _, .wr l v k μ μ' tr p' h1, List.mem_cons_of_mem _ h2⟩
  | inc k ih =>
    obtain ⟨n, h⟩ := h
    obtain ⟨tr, p', μ', h1, h2⟩ := ih n h
    exact ⟨tr, p', μ', .inc k n μ μ' tr p' h1, h2⟩
  | ub => exact h.elim

theorem surely_bind_left {a : Access} {p : Prog V α} {f : α → Prog V β} {μ : Mem V} (h : Surely a p μ) : Surely a (p >>= f) μ := by
  show Surely a (p.bind f) μ
  induction p generalizing μ with
  | ret _ => exact h.elim
  | rd l k ih => exact h.imp id (ih _)
  | wr l v k ih => exact h.imp id ih
  | inc k ih => exact h.elim fun n hn => ⟨n, ih n hn⟩
  | ub => exact h.elim

/-- If the first program ends as `Q` says and the second then makes the access. -/
theorem surely_bind_right {a : Access} {p : Prog V α} {f : α → Prog V β} {μ : Mem V} {F : Access → Prop} {Q : α → Mem V → Prop}
    (h : Safe F p μ Q) (hf : ∀ x μ', Q x μ' → Surely a (f x) μ') : Surely a (p >>= f) μ := by
  show Surely a (p.bind f) μ
  induction p generalizing μ with
  | ret x => exact hf x μ h
  | rd l k ih => exact .inr (ih _ h.2)
  | wr l v k ih => exact .inr (ih h.2)
  | inc k ih => exact ⟨0, ih 0 (h 0)⟩
  | ub => exact h.elim

end FakeIt.Races.Spec
