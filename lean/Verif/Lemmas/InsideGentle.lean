import Verif.Lemmas.Inside
/-!
# Handlers that delete nothing
-/
namespace FakeIt.Inside.Spec

variable {A V X : Type}

/-- Nothing has been lost, and all recorded calls are of known methods. -/
structure Grow (s s' : Mocks A V) : Prop where
  deletions : s'.deletions = s.deletions
  resets : s'.resets = s.resets
  ended : s'.ended = s.ended
  known : ∀ m f, (s.methods m f).isSome → (s'.methods m f).isSome
  recs : (∀ r, r ∈ s.recs → (s.methods r.mock r.method).isSome) → ∀ r, r ∈ s'.recs → (s'.methods r.mock r.method).isSome

theorem Grow.refl (s : Mocks A V) : Grow s s := ⟨rfl, rfl, rfl, fun _ _ h => h, fun h => h⟩

theorem Grow.trans {s s' s'' : Mocks A V} (h : Grow s s') (h' : Grow s' s'') : Grow s s'' :=
  ⟨h'.deletions.trans h.deletions, h'.resets.trans h.resets, h'.ended.trans h.ended, fun m f H => h'.known m f (h.known m f H), fun H => h'.recs (h.recs H)⟩

/-- No mock has ended, and all recorded calls are of known methods. -/
structure Fine (s : Mocks A V) : Prop where
  ended : ∀ m, s.ended m = false
  recs : ∀ r, r ∈ s.recs → (s.methods r.mock r.method).isSome

theorem Fine.grow {s s' : Mocks A V} (h : Fine s) (g : Grow s s') : Fine s' := ⟨fun m => by rw [g.ended]; exact h.ended m, g.recs h.recs⟩

/-- The report can be made. -/
def Good (s : Mocks A V) : Happening A → Prop
  | .unmocked => True
  | .unexpected m f _ r => s.resets m = r ∧ (s.methods m f).isSome
  | .failed _ _ _ _ shown => ∀ c, c ∈ shown → s.deletions c.mock = c.deletions ∧ (s.methods c.mock c.method).isSome
  | .noMore _ shown => ∀ c, c ∈ shown → s.deletions c.mock = c.deletions ∧ (s.methods c.mock c.method).isSome

theorem Good.grow {s s' : Mocks A V} (g : Grow s s') {h} (H : Good s h) : Good s' h := by
  cases h with
  | unmocked => trivial
  | unexpected => exact ⟨by rw [g.resets]; exact H.1, g.known _ _ H.2⟩
  | failed => exact fun c hc => ⟨by rw [g.deletions]; exact (H c hc).1, g.known _ _ (H c hc).2⟩
  | noMore => exact fun c hc => ⟨by rw [g.deletions]; exact (H c hc).1, g.known _ _ (H c hc).2⟩

theorem grow_put (s : Mocks A V) (m f : Nat) (d : Method A V) : Grow s (s.put m f d) := by
  have hk : ∀ m' f', (s.methods m' f').isSome → ((s.put m f d).methods m' f').isSome := by
    intro m' f' h
    simp only [Mocks.put]
    split
    · rfl
    · exact h
  exact ⟨rfl, rfl, rfl, hk, fun h r hr => hk _ _ (h r hr)⟩

theorem lines_good {s : Mocks A V} : ∀ {l : List (Shown A)}, (∀ c, c ∈ l → s.deletions c.mock = c.deletions ∧ (s.methods c.mock c.method).isSome) → ∃ ls, s.lines l = some ls ∧ ls.map Prod.snd = l.map Shown.args := by
  intro l
  induction l with
  | nil => exact fun _ => ⟨[], rfl, rfl⟩
  | cons c cs ih =>
    intro h
    obtain ⟨ls, hls, hm⟩ := ih fun d hd => h d (List.mem_cons_of_mem _ hd)
    obtain ⟨hd, hk⟩ := h c (List.mem_cons_self ..)
    obtain ⟨d, hdd⟩ := Option.isSome_iff_exists.1 hk
    refine ⟨(d.name, c.args) :: ls, ?_, by simp [hm]⟩
    simp only [Mocks.lines, Mocks.line, hd, if_true, Mocks.nameOf, hdd, Option.map_some, hls]

theorem report_good {s : Mocks A V} (hf : Fine s) {h} (H : Good s h) : ∃ r s', s.report h = .done (r, s') ∧ Grow s s' := by
  cases h with
  | unmocked => exact ⟨_, _, rfl, .refl _⟩
  | unexpected m f a r =>
    obtain ⟨d, hd⟩ := Option.isSome_iff_exists.1 H.2
    refine ⟨.unexpected d.name a, s, ?_, .refl _⟩
    simp only [Mocks.report, Mocks.nameOf, hd, Option.map_some, H.1, if_true]
  | failed m f c t shown =>
    have g := grow_put s m f (s.methodOf m f)
    obtain ⟨ls, hls, _⟩ := lines_good (Good.grow g (h := .failed m f c t shown) H)
    refine ⟨.failed (s.methodOf m f).name c t ls, _, ?_, g⟩
    simp only [Mocks.report, hf.ended m, hls, Bool.false_eq_true, if_false]
  | noMore t shown =>
    obtain ⟨ls, hls, _⟩ := lines_good H
    refine ⟨.noMore t ls, s, ?_, .refl _⟩
    simp only [Mocks.report, hls]

/-- It is defined, and nothing is lost. -/
inductive Keeps {α : Type} (s : Mocks A V) : R (α × Mocks A V) → Prop where
  | done {a s'} (g : Grow s s') : Keeps s (.done (a, s'))
  | oof : Keeps s .oof

theorem Keeps.grow {α : Type} {s s' : Mocks A V} (g : Grow s s') {x : R (α × Mocks A V)} (h : Keeps s' x) : Keeps s x := by
  cases h with
  | done g' => exact .done (g.trans g')
  | oof => exact .oof

def KeepsAll (d : Happening A → Mocks A V → R (Out A X × Mocks A V)) : Prop := ∀ h s, Fine s → Good s h → Keeps s (d h s)

theorem unexpected_keeps {d : Happening A → Mocks A V → R (Out A X × Mocks A V)} (H : KeepsAll d) {h s} (hf : Fine s) (hg : Good s h) : Keeps s (unexpected d h s) := by
  unfold unexpected
  have := H h s hf hg
  generalize d h s = x at this
  cases this with
  | oof => exact .oof
  | done g =>
    rename_i o s'
    cases o with
    | returned =>
      obtain ⟨r, s'', e, g'⟩ := report_good (hf.grow g) (hg.grow g)
      simp only [e]
      exact .done (g.trans g')
    | thrown x => exact .done g
    | aborted => exact .done g

theorem call_keeps {d : Happening A → Mocks A V → R (Out A X × Mocks A V)} (H : KeepsAll d) (m f : Nat) (a : A) {s} (hf : Fine s) : Keeps s (callMethod d m f a s) := by
  unfold callMethod
  rw [hf.ended m]
  simp only [Bool.false_eq_true, if_false]
  cases hm : s.methods m f with
  | none => exact unexpected_keeps H hf trivial
  | some md =>
    cases hu : serve a md.stubs with
    | none => simp only [hu]; exact unexpected_keeps H hf ⟨rfl, by rw [hm]; rfl⟩
    | some vs =>
      obtain ⟨v, stubs⟩ := vs
      have g := grow_put s m f { md with stubs := stubs }
      have hk : ((s.put m f { md with stubs := stubs }).methods m f).isSome := by simp [Mocks.put]
      have g' : Grow s { s.put m f { md with stubs := stubs } with recs := s.recs ++ [⟨m, f, a, false⟩] } := by
        refine ⟨rfl, rfl, rfl, g.known, ?_⟩
        intro h r hr
        rcases List.mem_append.1 hr with hr | hr
        · exact g.recs h r hr
        · rw [List.mem_singleton.1 hr]; exact hk
      simp only [hu]
      cases v with
      | some v => exact .done g'
      | none =>
        refine (unexpected_keeps H (hf.grow g') ?_).grow g'
        exact ⟨rfl, hk⟩

theorem shown_good {s : Mocks A V} (hf : Fine s) (l : List (Rec A)) (hl : ∀ r, r ∈ l → r ∈ s.recs) : ∀ c, c ∈ l.map s.show → s.deletions c.mock = c.deletions ∧ (s.methods c.mock c.method).isSome := by
  intro c hc
  obtain ⟨r, hr, rfl⟩ := List.mem_map.1 hc
  exact ⟨rfl, hf.recs r (hl r hr)⟩

theorem verify_keeps {d : Happening A → Mocks A V → R (Out A X × Mocks A V)} (H : KeepsAll d) (m f n : Nat) (ma : A → Bool) (ok : Nat → Bool) {s} (hf : Fine s) : Keeps s (verifyMethod d m f n ma ok s) := by
  unfold verifyMethod
  rw [hf.ended m]
  simp only [Bool.false_eq_true, if_false]
  have g := grow_put s m f { s.methodOf m f with name := .given n }
  generalize s.put m f _ = s' at *
  split
  · refine .done (g.trans ⟨rfl, rfl, rfl, fun _ _ h => h, ?_⟩)
    intro h r hr
    obtain ⟨r', hr', rfl⟩ := List.mem_map.1 hr
    have := h r' hr'
    split <;> exact this
  · refine (H _ _ (hf.grow g) ?_).grow g
    refine shown_good (hf.grow g) _ ?_
    exact fun r hr => (List.mem_filter.1 (List.mem_of_mem_take hr)).1

theorem verifyRest_keeps {d : Happening A → Mocks A V → R (Out A X × Mocks A V)} (H : KeepsAll d) (m : Nat) {s} (hf : Fine s) : Keeps s (verifyRest d m s) := by
  unfold verifyRest
  rw [hf.ended m]
  simp only [Bool.false_eq_true, if_false]
  split
  · exact .done (.refl _)
  · refine H _ _ hf ?_
    refine shown_good hf _ ?_
    exact fun r hr => (List.mem_filter.1 (List.mem_of_mem_take hr)).1

theorem run_keeps {d : Happening A → Mocks A V → R (Out A X × Mocks A V)} (H : KeepsAll d) {code : Code A V X} (hc : Gentle code) {h : Option (Happening A)} :
    ∀ {s}, Fine s → (∀ e, h = some e → Good s e) → Keeps s (run d h code s) := by
  have hg : ∀ {s s' : Mocks A V}, Grow s s' → (∀ e, h = some e → Good s e) → ∀ e, h = some e → Good s' e := fun g H e he => (H e he).grow g
  induction hc with
  | done => exact fun _ _ => .done (.refl _)
  | throw => exact fun _ _ => .done (.refl _)
  | format _ ih =>
    intro s hf he
    cases h with
    | none => exact ih _ hf he
    | some e =>
      simp only [run]
      obtain ⟨r, s', er, g⟩ := report_good hf (he e rfl)
      simp only [er]
      exact (ih r (hf.grow g) (hg g he)).grow g
  | print _ ih =>
    rename_i r k _
    intro s hf he
    have g : Grow s { s with printed := s.printed ++ [r] } := ⟨rfl, rfl, rfl, fun _ _ h => h, fun h => h⟩
    exact (ih (hf.grow g) (hg g he)).grow g
  | call _ ih =>
    rename_i m f a k _
    intro s hf he
    simp only [run]
    have := call_keeps H m f a hf
    generalize callMethod d m f a s = x at this
    cases this with
    | oof => exact .oof
    | done g =>
      rename_i o s'
      cases o with
      | value v => exact (ih _ (hf.grow g) (hg g he)).grow g
      | thrown x => exact (ih _ (hf.grow g) (hg g he)).grow g
      | aborted => exact .done g
  | stub _ ih =>
    rename_i m f n st k _
    intro s hf he
    simp only [run, hf.ended, Bool.false_eq_true, if_false]
    have g := grow_put s m f ⟨.given n, st :: (s.methodOf m f).stubs⟩
    exact (ih (hf.grow g) (hg g he)).grow g
  | verify _ ih =>
    rename_i m f n ma ok k _
    intro s hf he
    simp only [run]
    have := verify_keeps H m f n ma ok hf
    generalize verifyMethod d m f n ma ok s = x at this
    cases this with
    | oof => exact .oof
    | done g =>
      rename_i o s'
      cases o with
      | returned => exact (ih _ (hf.grow g) (hg g he)).grow g
      | thrown x => exact (ih _ (hf.grow g) (hg g he)).grow g
      | aborted => exact .done g
  | verifyNoOther _ ih =>
    rename_i m k _
    intro s hf he
    simp only [run]
    have := verifyRest_keeps H m hf
    generalize verifyRest d m s = x at this
    cases this with
    | oof => exact .oof
    | done g =>
      rename_i o s'
      cases o with
      | returned => exact (ih _ (hf.grow g) (hg g he)).grow g
      | thrown x => exact (ih _ (hf.grow g) (hg g he)).grow g
      | aborted => exact .done g

theorem inTurn_keeps {t : Nat → Mocks A V → R (Out A X × Mocks A V)} {h : Happening A} (H : ∀ l s, Fine s → Good s h → Keeps s (t l s)) (ls : List Nat) :
    ∀ {s}, Fine s → Good s h → Keeps s (inTurn t ls s) := by
  induction ls with
  | nil => exact fun _ _ => .done (.refl _)
  | cons l ls ih =>
    intro s hf hg
    simp only [inTurn]
    have := H l s hf hg
    generalize t l s = x at this
    cases this with
    | oof => exact .oof
    | done g =>
      rename_i o s'
      cases o with
      | returned => exact (ih (hf.grow g) (hg.grow g)).grow g
      | thrown x => exact .done g
      | aborted => exact .done g

theorem deliver_keeps (c : Config A V X) (hc : ∀ l k n, Gentle (c.react l k n)) (depth : Nat) : KeepsAll (deliver c depth) := by
  induction depth with
  | zero => exact fun _ _ _ _ => .oof
  | succ n ih =>
    intro h s hf hg
    simp only [deliver]
    have ht : ∀ l s', Fine s' → Good s' h → Keeps s' (run (deliver c n) (some h) (c.react l h.kind s.events) s') :=
      fun l s' hf' hg' => run_keeps ih (hc _ _ _) hf' fun e he => by cases he; exact hg'
    have g₀ : Grow s { s with events := s.events + 1 } := ⟨rfl, rfl, rfl, fun _ _ h => h, fun h => h⟩
    have := inTurn_keeps ht c.listeners (hf.grow g₀) (hg.grow g₀)
    generalize inTurn _ _ _ = x at this
    cases this with
    | oof => exact .oof
    | done g =>
      rename_i o s'
      cases o with
      | returned =>
        simp only
        split
        · exact .done (g₀.trans g)
        · exact (ht c.adapter s' (hf.grow (g₀.trans g)) (hg.grow (g₀.trans g))).grow (g₀.trans g)
      | thrown x => exact .done (g₀.trans g)
      | aborted => exact .done (g₀.trans g)

theorem fresh_fine : Fine ({} : Mocks A V) := ⟨fun _ => rfl, fun _ h => (nomatch h)⟩

end FakeIt.Inside.Spec
