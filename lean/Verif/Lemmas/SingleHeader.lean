import Verif.Spec.Preprocess
/-!
# Lemmas about the single header generator
-/
namespace FakeIt.SingleHeader
open Spec

/-! ## Conditional directives -/

theorem stackStep_append {env : String → Bool} {s s' b : List Bool} {l : Line} (h : stackStep env s l = some s') :
    stackStep env (s ++ b) l = some (s' ++ b) := by
  cases l <;> cases s <;> simp_all [stackStep] <;> (subst h; simp)

theorem stackAfter_append {env : String → Bool} (l₁ l₂ : List Line) (s : List Bool) :
    stackAfter env s (l₁ ++ l₂) = (stackAfter env s l₁).bind fun s' => stackAfter env s' l₂ := by
  induction l₁ generalizing s with
  | nil => simp [stackAfter]
  | cons l ls ih =>
    simp only [List.cons_append, stackAfter]
    cases stackStep env s l <;> simp [ih]

theorem active_append {s b : List Bool} : Active (s ++ b) ↔ Active s ∧ Active b := by
  simp only [Active, List.mem_append]
  constructor
  · exact fun h => ⟨fun x hx => h x (.inl hx), fun x hx => h x (.inr hx)⟩
  · rintro ⟨h₁, h₂⟩ x (hx | hx)
    · exact h₁ x hx
    · exact h₂ x hx

theorem active_nil : Active [] := by simp [Active]

/-! ## The preprocessor on lines that follow each other -/

theorem preLines_append {fs : Files} {env dirs sub cur} (l₁ l₂ : List Line) (st : PpState) :
    preLines fs env dirs sub cur st (l₁ ++ l₂) = (preLines fs env dirs sub cur st l₁).bind fun st' => preLines fs env dirs sub cur st' l₂ := by
  induction l₁ generalizing st with
  | nil => simp [preLines]
  | cons l ls ih =>
    simp only [List.cons_append, preLines]
    cases stackStep env st.stack l with
    | none => simp
    | some s' =>
      by_cases ha : Active st.stack
      · simp only [ha, if_true]
        cases l with
        | incl h =>
          cases hr : resolve fs dirs cur h with
          | none => simp [hr]
          | some p =>
            by_cases hp : p ∈ st.onces
            · simp only [hr, hp, if_true, ih]
            · simp only [hr, hp, if_false]
              cases sub st.onces p with
              | none => simp
              | some r => simp only [ih]
        | _ => simp only [ih]
      · simp only [ha, if_false, ih]

/-- Lines without includes and `#pragma once` that take the conditions from `s` to `s'` and leave the text `t`. -/
def Flat (env : String → Bool) (s : List Bool) (ls : List Line) (s' : List Bool) (t : List String) : Prop :=
  ∀ fs dirs sub cur v out, preLines fs env dirs sub cur { stack := s, onces := v, out := out } ls = some { stack := s', onces := v, out := out ++ t }

theorem Flat.nil {env s} : Flat env s [] s [] := by
  intro fs dirs sub cur v out
  simp [preLines]

theorem Flat.append {env s s₁ s₂ l₁ l₂ t₁ t₂} (h₁ : Flat env s l₁ s₁ t₁) (h₂ : Flat env s₁ l₂ s₂ t₂) : Flat env s (l₁ ++ l₂) s₂ (t₁ ++ t₂) := by
  intro fs dirs sub cur v out
  rw [preLines_append, h₁]
  simp only [Option.bind_some]
  rw [h₂, List.append_assoc]

/-- A line as it comes out of the generator. -/
def finish1 (l : Line) : List Line := [Out.line l].filterMap finishLine

/-- The text of a line under conditions that hold. -/
def textOf : Line → List String
  | .text t => [t]
  | _ => []

theorem flat_line {env : String → Bool} {s s' : List Bool} {l : Line} (hl : ∀ h, l ≠ .incl h) (hs : stackStep env s l = some s') :
    Flat env s (finish1 l) s' (if Active s then textOf l else []) := by
  intro fs dirs sub cur v out
  cases l with
  | incl h => exact absurd rfl (hl h)
  | once => simp [stackStep] at hs; subst hs; simp [finish1, List.filterMap, finishLine, preLines, textOf]
  | comment t => simp [stackStep] at hs; subst hs; simp [finish1, List.filterMap, finishLine, preLines, textOf]
  | text t =>
    simp [stackStep] at hs; subst hs
    by_cases ha : Active s <;> simp [finish1, List.filterMap, finishLine, preLines, textOf, ha, stackStep]
  | ifdef c => by_cases ha : Active s <;> simp [finish1, List.filterMap, finishLine, preLines, textOf, ha, hs]
  | els => by_cases ha : Active s <;> simp [finish1, List.filterMap, finishLine, preLines, textOf, ha, hs]
  | endif => by_cases ha : Active s <;> simp [finish1, List.filterMap, finishLine, preLines, textOf, ha, hs]

/-! ## The generator, line by line -/

theorem parseLines_other {sub done l ls} (hl : ∀ h, l ≠ .incl h) :
    parseLines sub done (l :: ls) = (parseLines sub done ls).bind fun r => some (.line l :: r.1, r.2) := by
  cases l with
  | incl h => exact absurd rfl (hl h)
  | _ => rfl

theorem parseLines_old {sub done h ls} (hd : h ∈ done) : parseLines sub done (.incl h :: ls) = parseLines sub done ls := by
  simp [parseLines, hd]

theorem parseLines_new {sub done h ls o done'} (hd : h ∉ done) (e : parseLines sub done (.incl h :: ls) = some (o, done')) :
    ∃ o₁ d₁ o₂, sub (h :: done) h = some (o₁, d₁) ∧ parseLines sub d₁ ls = some (o₂, done') ∧ o = o₁ ++ o₂ := by
  simp only [parseLines, hd, if_false] at e
  cases h₁ : sub (h :: done) h with
  | none => simp [h₁] at e
  | some r₁ =>
    obtain ⟨o₁, d₁⟩ := r₁
    cases h₂ : parseLines sub d₁ ls with
    | none => simp [h₁, h₂] at e
    | some r₂ =>
      obtain ⟨o₂, d₂⟩ := r₂
      simp [h₁, h₂] at e
      exact ⟨o₁, d₁, o₂, rfl, by rw [h₂, e.2], e.1.symm⟩

theorem parseLines_other_some {sub done l ls o done'} (hl : ∀ h, l ≠ .incl h) (e : parseLines sub done (l :: ls) = some (o, done')) :
    ∃ o₂, parseLines sub done ls = some (o₂, done') ∧ o = .line l :: o₂ := by
  rw [parseLines_other hl] at e
  cases h₂ : parseLines sub done ls with
  | none => simp [h₂] at e
  | some r₂ =>
    obtain ⟨o₂, d₂⟩ := r₂
    simp [h₂] at e
    exact ⟨o₂, by rw [e.2], e.1.symm⟩

theorem parseFile_some {fs cfg n done h o done' g ls} (hg : locate fs cfg h = some g) (hls : fs g = some ls)
    (e : parseFile fs cfg n done h = some (o, done')) :
    ∃ m o₂, n = m + 1 ∧ parseLines (parseFile fs cfg m) done ls = some (o₂, done') ∧ o = .mark h :: o₂ := by
  cases n with
  | zero => simp [parseFile] at e
  | succ m =>
    simp only [parseFile, hg, hls] at e
    cases h₂ : parseLines (parseFile fs cfg m) done ls with
    | none => simp [h₂] at e
    | some r₂ =>
      obtain ⟨o₂, d₂⟩ := r₂
      simp [h₂] at e
      exact ⟨m, o₂, rfl, by rw [h₂, e.2], e.1.symm⟩

/-- Induction over the lines of the files as the generator comes along them. -/
theorem line_cases (l : Line) : (∃ h, l = .incl h) ∨ ∀ h, l ≠ .incl h := by
  cases l <;> simp

section
variable {fs : Files} {cfg : String} {dirs : List Path} {env : String → Bool} {root : Path} {part off : Path → Prop}

/-- A file the generator has come to. -/
def Entered (fs : Files) (cfg : String) (root : Path) (done : List Spelling) (f : Path) : Prop :=
  f = root ∨ ∃ h ∈ done, locate fs cfg h = some f

/-- The headers processed are named by files the generator has come to. -/
def Owned (fs : Files) (cfg : String) (root : Path) (part : Path → Prop) (done : List Spelling) : Prop :=
  ∀ h ∈ done, ∃ f ls, part f ∧ fs f = some ls ∧ .incl h ∈ ls ∧ Entered fs cfg root done f

theorem Entered.mono {done done' f} (hd : ∀ h ∈ done, h ∈ done') (h : Entered fs cfg root done f) : Entered fs cfg root done' f := by
  rcases h with h | ⟨h, hh, e⟩
  · exact .inl h
  · exact .inr ⟨h, hd h hh, e⟩

/-- A file named by a header that is not processed yet has not been come to. -/
theorem not_entered (ht : Tidy fs cfg dirs env root part off) {done f ls h g} (ho : Owned fs cfg root part done) (hp : part f) (hf : fs f = some ls)
    (hi : .incl h ∈ ls) (hg : locate fs cfg h = some g) (hd : h ∉ done) : ¬ Entered fs cfg root done g := by
  rintro (e | ⟨h', hh', e⟩)
  · subst e
    exact ht.root_free f ls h hp hf hi hg
  · obtain ⟨f', ls', hp', hf', hi', -⟩ := ho h' hh'
    have := ht.spelled f f' ls ls' h h' hp hp' hf hf' hi hi' (hg.trans e.symm)
    subst this
    exact hd hh'

/-- What the generator adds to the processed headers. -/
theorem own (ht : Tidy fs cfg dirs env root part off) : ∀ n done f pre ls o done', part f → fs f = some (pre ++ ls) → Owned fs cfg root part done →
    Entered fs cfg root done f → parseLines (parseFile fs cfg n) done ls = some (o, done') →
    (∀ h ∈ done, h ∈ done') ∧ Owned fs cfg root part done' ∧
      ∀ h ∈ done', h ∈ done ∨ .incl h ∈ ls ∨ ∃ f' ls', part f' ∧ fs f' = some ls' ∧ .incl h ∈ ls' ∧ ¬ Entered fs cfg root done f' := by
  intro n
  induction n with
  | zero =>
    intro done f pre ls
    induction ls generalizing pre with
    | nil =>
      intro o done' hp hf ho he e
      simp [parseLines] at e
      obtain ⟨rfl, rfl⟩ := e
      exact ⟨fun _ h => h, ho, fun _ h => .inl h⟩
    | cons l ls ih =>
      intro o done' hp hf ho he e
      have hf' : fs f = some ((pre ++ [l]) ++ ls) := by simpa using hf
      rcases line_cases l with ⟨h, rfl⟩ | hl
      · by_cases hd : h ∈ done
        · rw [parseLines_old hd] at e
          obtain ⟨a, b, c⟩ := ih (pre ++ [.incl h]) o done' hp hf' ho he e
          exact ⟨a, b, fun x hx => (c x hx).imp_right fun y => y.imp_left fun z => List.mem_cons_of_mem _ z⟩
        · obtain ⟨o₁, d₁, o₂, e₁, -⟩ := parseLines_new hd e
          simp [parseFile] at e₁
      · obtain ⟨o₂, e₂, -⟩ := parseLines_other_some hl e
        obtain ⟨a, b, c⟩ := ih (pre ++ [l]) o₂ done' hp hf' ho he e₂
        exact ⟨a, b, fun x hx => (c x hx).imp_right fun y => y.imp_left fun z => List.mem_cons_of_mem _ z⟩
  | succ n ihn =>
    intro done f pre ls
    induction ls generalizing pre done with
    | nil =>
      intro o done' hp hf ho he e
      simp [parseLines] at e
      obtain ⟨rfl, rfl⟩ := e
      exact ⟨fun _ h => h, ho, fun _ h => .inl h⟩
    | cons l ls ih =>
      intro o done' hp hf ho he e
      have hf' : fs f = some ((pre ++ [l]) ++ ls) := by simpa using hf
      rcases line_cases l with ⟨h, rfl⟩ | hl
      · by_cases hd : h ∈ done
        · rw [parseLines_old hd] at e
          obtain ⟨a, b, c⟩ := ih done (pre ++ [.incl h]) o done' hp hf' ho he e
          exact ⟨a, b, fun x hx => (c x hx).imp_right fun y => y.imp_left fun z => List.mem_cons_of_mem _ z⟩
        · obtain ⟨o₁, d₁, o₂, e₁, e₂, -⟩ := parseLines_new hd e
          have hmem : Line.incl h ∈ pre ++ .incl h :: ls := by simp
          obtain ⟨g, hpg, hsome, hg, -⟩ := ht.found f _ h hp hf hmem
          obtain ⟨gs, hgs⟩ := Option.isSome_iff_exists.mp hsome
          have hng := not_entered ht ho hp hf hmem hg hd
          obtain ⟨m, o₃, hm, e₃, -⟩ := parseFile_some hg hgs e₁
          have hm : m = n := by omega
          subst hm
          have hO : Owned fs cfg root part (h :: done) := by
            intro x hx
            rcases List.mem_cons.mp hx with rfl | hx
            · exact ⟨f, _, hp, hf, hmem, he.mono fun _ => List.mem_cons_of_mem _⟩
            · obtain ⟨f', ls', a, b, c, d⟩ := ho x hx
              exact ⟨f', ls', a, b, c, d.mono fun _ => List.mem_cons_of_mem _⟩
          obtain ⟨a₁, b₁, c₁⟩ := ihn (h :: done) g [] gs o₃ d₁ hpg (by simpa using hgs) hO (.inr ⟨h, by simp, hg⟩) e₃
          have hsub : ∀ x ∈ done, x ∈ d₁ := fun x hx => a₁ x (List.mem_cons_of_mem _ hx)
          obtain ⟨a₂, b₂, c₂⟩ := ih d₁ (pre ++ [.incl h]) o₂ done' hp hf' b₁ (he.mono hsub) e₂
          refine ⟨fun x hx => a₂ x (hsub x hx), b₂, ?_⟩
          intro x hx
          rcases c₂ x hx with hx | hx | ⟨f', ls', p₁, p₂, p₃, p₄⟩
          · rcases c₁ x hx with hx | hx | ⟨f', ls', p₁, p₂, p₃, p₄⟩
            · rcases List.mem_cons.mp hx with rfl | hx
              · exact .inr (.inl (by simp))
              · exact .inl hx
            · exact .inr (.inr ⟨g, gs, hpg, hgs, hx, hng⟩)
            · exact .inr (.inr ⟨f', ls', p₁, p₂, p₃, fun q => p₄ (q.mono fun _ => List.mem_cons_of_mem _)⟩)
          · exact .inr (.inl (List.mem_cons_of_mem _ hx))
          · exact .inr (.inr ⟨f', ls', p₁, p₂, p₃, fun q => p₄ (q.mono hsub)⟩)
      · obtain ⟨o₂, e₂, -⟩ := parseLines_other_some hl e
        obtain ⟨a, b, c⟩ := ih done (pre ++ [l]) o₂ done' hp hf' ho he e₂
        exact ⟨a, b, fun x hx => (c x hx).imp_right fun y => y.imp_left fun z => List.mem_cons_of_mem _ z⟩

/-- What is added to the processed headers in a file that is not wanted is not wanted. -/
theorem offs (ht : Tidy fs cfg dirs env root part off) : ∀ n done f pre ls o done', part f → fs f = some (pre ++ ls) → off f →
    parseLines (parseFile fs cfg n) done ls = some (o, done') → ∀ h ∈ done', h ∈ done ∨ ∃ g, locate fs cfg h = some g ∧ off g := by
  intro n
  induction n with
  | zero =>
    intro done f pre ls
    induction ls generalizing pre with
    | nil =>
      intro o done' hp hf hoff e
      simp [parseLines] at e
      obtain ⟨rfl, rfl⟩ := e
      exact fun _ h => .inl h
    | cons l ls ih =>
      intro o done' hp hf hoff e
      have hf' : fs f = some ((pre ++ [l]) ++ ls) := by simpa using hf
      rcases line_cases l with ⟨h, rfl⟩ | hl
      · by_cases hd : h ∈ done
        · rw [parseLines_old hd] at e
          exact ih _ o done' hp hf' hoff e
        · obtain ⟨o₁, d₁, o₂, e₁, -⟩ := parseLines_new hd e
          simp [parseFile] at e₁
      · obtain ⟨o₂, e₂, -⟩ := parseLines_other_some hl e
        exact ih _ o₂ done' hp hf' hoff e₂
  | succ n ihn =>
    intro done f pre ls
    induction ls generalizing pre done with
    | nil =>
      intro o done' hp hf hoff e
      simp [parseLines] at e
      obtain ⟨rfl, rfl⟩ := e
      exact fun _ h => .inl h
    | cons l ls ih =>
      intro o done' hp hf hoff e
      have hf' : fs f = some ((pre ++ [l]) ++ ls) := by simpa using hf
      rcases line_cases l with ⟨h, rfl⟩ | hl
      · by_cases hd : h ∈ done
        · rw [parseLines_old hd] at e
          exact ih done _ o done' hp hf' hoff e
        · obtain ⟨o₁, d₁, o₂, e₁, e₂, -⟩ := parseLines_new hd e
          have hmem : Line.incl h ∈ pre ++ .incl h :: ls := by simp
          obtain ⟨g, hpg, hsome, hg, -⟩ := ht.found f _ h hp hf hmem
          obtain ⟨gs, hgs⟩ := Option.isSome_iff_exists.mp hsome
          have hcl := ht.closed f _ hp hf
          rw [stackAfter_append] at hcl
          obtain ⟨s, hs, -⟩ := Option.bind_eq_some_iff.mp hcl
          have hgoff : off g := (ht.wanted f pre ls h g s hp hf hg hs).mpr (.inl hoff)
          obtain ⟨m, o₃, hm, e₃, -⟩ := parseFile_some hg hgs e₁
          have hm : m = n := by omega
          subst hm
          have c₁ := ihn (h :: done) g [] gs o₃ d₁ hpg (by simpa using hgs) hgoff e₃
          have c₂ := ih d₁ (pre ++ [.incl h]) o₂ done' hp hf' hoff e₂
          intro x hx
          rcases c₂ x hx with hx | hx
          · rcases c₁ x hx with hx | hx
            · rcases List.mem_cons.mp hx with rfl | hx
              · exact .inr ⟨g, hg, hgoff⟩
              · exact .inl hx
            · exact .inr hx
          · exact .inr hx
      · obtain ⟨o₂, e₂, -⟩ := parseLines_other_some hl e
        exact ih done _ o₂ done' hp hf' hoff e₂

/-- What is written for a line that is no include. -/
theorem finish_cons {l : Line} {o : List Out} : (Out.line l :: o).filterMap finishLine = finish1 l ++ o.filterMap finishLine := by
  have : Out.line l :: o = [Out.line l] ++ o := rfl
  rw [this, List.filterMap_append]
  rfl

/-- Under a condition that does not hold, the text of a file and of the files it includes amounts to nothing. -/
theorem flat_off (ht : Tidy fs cfg dirs env root part off) : ∀ n done f pre ls o done' s b, part f → fs f = some (pre ++ ls) → ¬ Active b →
    stackAfter env [] pre = some s → parseLines (parseFile fs cfg n) done ls = some (o, done') →
    Flat env (s ++ b) (o.filterMap finishLine) b [] := by
  intro n
  induction n with
  | zero =>
    intro done f pre ls
    induction ls generalizing pre with
    | nil =>
      intro o done' s b hp hf hb hs e
      have hcl := ht.closed f _ hp hf
      simp only [List.append_nil, hs, Option.some.injEq] at hcl
      subst hcl
      simp [parseLines] at e
      obtain ⟨rfl, rfl⟩ := e
      exact Flat.nil
    | cons l ls ih =>
      intro o done' s b hp hf hb hs e
      have hf' : fs f = some ((pre ++ [l]) ++ ls) := by simpa using hf
      have hcl := ht.closed f _ hp hf
      rw [stackAfter_append, hs] at hcl
      simp only [Option.bind_some, stackAfter] at hcl
      obtain ⟨s', hs', -⟩ := Option.bind_eq_some_iff.mp hcl
      have hpre : stackAfter env [] (pre ++ [l]) = some s' := by simp [stackAfter_append, hs, stackAfter, hs']
      rcases line_cases l with ⟨h, rfl⟩ | hl
      · simp [stackStep] at hs'
        subst hs'
        by_cases hd : h ∈ done
        · rw [parseLines_old hd] at e
          exact ih _ o done' s b hp hf' hb hpre e
        · obtain ⟨o₁, d₁, o₂, e₁, -⟩ := parseLines_new hd e
          simp [parseFile] at e₁
      · obtain ⟨o₂, e₂, rfl⟩ := parseLines_other_some hl e
        have h₁ := flat_line (env := env) hl (stackStep_append (b := b) hs')
        rw [if_neg (fun q => hb (active_append.mp q).2)] at h₁
        rw [finish_cons]
        exact h₁.append (ih _ o₂ done' s' b hp hf' hb hpre e₂)
  | succ n ihn =>
    intro done f pre ls
    induction ls generalizing pre done with
    | nil =>
      intro o done' s b hp hf hb hs e
      have hcl := ht.closed f _ hp hf
      simp only [List.append_nil, hs, Option.some.injEq] at hcl
      subst hcl
      simp [parseLines] at e
      obtain ⟨rfl, rfl⟩ := e
      exact Flat.nil
    | cons l ls ih =>
      intro o done' s b hp hf hb hs e
      have hf' : fs f = some ((pre ++ [l]) ++ ls) := by simpa using hf
      have hcl := ht.closed f _ hp hf
      rw [stackAfter_append, hs] at hcl
      simp only [Option.bind_some, stackAfter] at hcl
      obtain ⟨s', hs', -⟩ := Option.bind_eq_some_iff.mp hcl
      have hpre : stackAfter env [] (pre ++ [l]) = some s' := by simp [stackAfter_append, hs, stackAfter, hs']
      rcases line_cases l with ⟨h, rfl⟩ | hl
      · simp [stackStep] at hs'
        subst hs'
        by_cases hd : h ∈ done
        · rw [parseLines_old hd] at e
          exact ih done _ o done' s b hp hf' hb hpre e
        · obtain ⟨o₁, d₁, o₂, e₁, e₂, rfl⟩ := parseLines_new hd e
          have hmem : Line.incl h ∈ pre ++ .incl h :: ls := by simp
          obtain ⟨g, hpg, hsome, hg, -⟩ := ht.found f _ h hp hf hmem
          obtain ⟨gs, hgs⟩ := Option.isSome_iff_exists.mp hsome
          obtain ⟨m, o₃, hm, e₃, rfl⟩ := parseFile_some hg hgs e₁
          have hm : m = n := by omega
          subst hm
          have h₁ := ihn (h :: done) g [] gs o₃ d₁ [] (s ++ b) hpg (by simpa using hgs) (fun q => hb (active_append.mp q).2) rfl e₃
          have h₂ := ih d₁ _ o₂ done' s b hp hf' hb hpre e₂
          have := h₁.append h₂
          simpa [List.filterMap_append, List.filterMap_cons, finishLine] using this
      · obtain ⟨o₂, e₂, rfl⟩ := parseLines_other_some hl e
        have h₁ := flat_line (env := env) hl (stackStep_append (b := b) hs')
        rw [if_neg (fun q => hb (active_append.mp q).2)] at h₁
        rw [finish_cons]
        exact h₁.append (ih done _ o₂ done' s' b hp hf' hb hpre e₂)

/-- The processed headers and the files that are not to be read again, as far as the wanted files are concerned. -/
structure Agree (fs : Files) (cfg : String) (part off : Path → Prop) (done : List Spelling) (v : List Path) : Prop where
  seen : ∀ f ls h g, part f → fs f = some ls → .incl h ∈ ls → locate fs cfg h = some g → ¬ off g → g ∈ v → h ∈ done
  kept : ∀ h g gs, h ∈ done → locate fs cfg h = some g → ¬ off g → fs g = some gs → Guarded gs → g ∈ v

/-- Headers of files without `#pragma once` in front do not come up again. -/
def Unrepeated (fs : Files) (cfg : String) (done : List Spelling) (ls : List Line) : Prop :=
  ∀ h g gs, h ∈ done → locate fs cfg h = some g → fs g = some gs → ¬ Guarded gs → .incl h ∉ ls

/-- The generator passes over lines without includes. -/
theorem parseLines_plain {sub done} : ∀ (pre ls : List Line) {o done'}, (∀ l ∈ pre, ∀ h, l ≠ .incl h) →
    parseLines sub done (pre ++ ls) = some (o, done') → ∃ o₂, parseLines sub done ls = some (o₂, done') ∧ o = pre.map Out.line ++ o₂
  | [], ls, o, done', _, e => ⟨o, e, rfl⟩
  | l :: pre, ls, o, done', hp, e => by
    obtain ⟨o₁, e₁, rfl⟩ := parseLines_other_some (hp l (by simp)) e
    obtain ⟨o₂, e₂, rfl⟩ := parseLines_plain pre ls (fun x hx => hp x (List.mem_cons_of_mem _ hx)) e₁
    exact ⟨o₂, e₂, rfl⟩

/-- The preprocessor passes over comments. -/
theorem preLines_comments {fs : Files} {env dirs sub cur} : ∀ (pre ls : List Line) (st : PpState), (∀ l ∈ pre, ∃ t, l = Line.comment t) →
    preLines fs env dirs sub cur st (pre ++ ls) = preLines fs env dirs sub cur st ls
  | [], _, _, _ => rfl
  | l :: pre, ls, st, hp => by
    obtain ⟨t, rfl⟩ := hp l (by simp)
    have ih := preLines_comments (fs := fs) (env := env) (dirs := dirs) (sub := sub) (cur := cur) pre ls st
      (fun x hx => hp x (List.mem_cons_of_mem _ hx))
    by_cases ha : Active st.stack <;> simp [preLines, stackStep, ha, ih]

theorem stackAfter_comments {env : String → Bool} : ∀ (pre : List Line) (s : List Bool), (∀ l ∈ pre, ∃ t, l = Line.comment t) →
    stackAfter env s pre = some s
  | [], _, _ => rfl
  | l :: pre, s, hp => by
    obtain ⟨t, rfl⟩ := hp l (by simp)
    simpa [stackAfter, stackStep] using stackAfter_comments pre s (fun x hx => hp x (List.mem_cons_of_mem _ hx))

/-- The preprocessor on a line that is no include. -/
theorem preLines_other {sub f s s' v out l ls} (hl : ∀ h, l ≠ .incl h) (hs : stackStep env s l = some s') :
    ∃ v', preLines fs env dirs sub f { stack := s, onces := v, out := out } (l :: ls)
        = preLines fs env dirs sub f { stack := s', onces := v', out := out ++ if Active s then textOf l else [] } ls ∧ (v' = v ∨ v' = f :: v) := by
  by_cases ha : Active s
  · cases l with
    | incl h => exact absurd rfl (hl h)
    | once =>
      simp [stackStep] at hs; subst hs
      exact ⟨f :: v, by simp [preLines, stackStep, ha, textOf], .inr rfl⟩
    | text t =>
      simp [stackStep] at hs; subst hs
      exact ⟨v, by simp [preLines, stackStep, ha, textOf], .inl rfl⟩
    | comment t =>
      simp [stackStep] at hs; subst hs
      exact ⟨v, by simp [preLines, stackStep, ha, textOf], .inl rfl⟩
    | ifdef c => exact ⟨v, by simp [preLines, hs, ha, textOf], .inl rfl⟩
    | els => exact ⟨v, by simp [preLines, hs, ha, textOf], .inl rfl⟩
    | endif => exact ⟨v, by simp [preLines, hs, ha, textOf], .inl rfl⟩
  · exact ⟨v, by simp [preLines, hs, ha], .inl rfl⟩

/-- A file the generator has come to may be marked as not to be read again. -/
theorem Agree.mark (ht : Tidy fs cfg dirs env root part off) {done v f} (ho : Owned fs cfg root part done) (he : Entered fs cfg root done f)
    (ha : Agree fs cfg part off done v) : Agree fs cfg part off done (f :: v) := by
  refine ⟨?_, fun h g gs a b c d e => List.mem_cons_of_mem _ (ha.kept h g gs a b c d e)⟩
  intro f' ls h g hp hf hi hg hoff hv
  rcases List.mem_cons.mp hv with rfl | hv
  · rcases he with rfl | ⟨h', hh', e⟩
    · exact absurd hg (ht.root_free f' ls h hp hf hi)
    · obtain ⟨f₂, ls₂, hp₂, hf₂, hi₂, -⟩ := ho h' hh'
      have := ht.spelled f' f₂ ls ls₂ h h' hp hp₂ hf hf₂ hi hi₂ (hg.trans e.symm)
      exact this ▸ hh'
  · exact ha.seen f' ls h g hp hf hi hg hoff hv

theorem mem_split {l : Line} {ls : List Line} (h : l ∈ ls) : ∃ a c, ls = a ++ l :: c := List.append_of_mem h

theorem Unrepeated.enter (ht : Tidy fs cfg dirs env root part off) {done f pre h ls g gs} (ho : Owned fs cfg root part done)
    (he : Entered fs cfg root done f) (hp : part f) (hf : fs f = some (pre ++ .incl h :: ls)) (hg : locate fs cfg h = some g) (hpg : part g)
    (hgs : fs g = some gs) (hng : ¬ Entered fs cfg root done g) : Unrepeated fs cfg (h :: done) gs := by
  intro x gx gxs hx hgx hgxs hun hi
  obtain ⟨a, c, e⟩ := mem_split hi
  rcases List.mem_cons.mp hx with rfl | hx
  · obtain ⟨rfl, -⟩ := ht.single f g pre ls a c x gx gxs hp hpg hf (hgs.trans (by rw [e])) hgx hgxs hun
    exact hng he
  · obtain ⟨f', ls', hp', hf', hi', he'⟩ := ho x hx
    obtain ⟨a', c', e'⟩ := mem_split hi'
    obtain ⟨rfl, -⟩ := ht.single f' g a' c' a c x gx gxs hp' hpg (hf'.trans (by rw [e'])) (hgs.trans (by rw [e])) hgx hgxs hun
    exact hng he'

theorem Unrepeated.back (ht : Tidy fs cfg dirs env root part off) {done f pre h ls g gs d₁}
    (he : Entered fs cfg root done f) (hp : part f) (hf : fs f = some (pre ++ .incl h :: ls)) (hpg : part g)
    (hgs : fs g = some gs) (hng : ¬ Entered fs cfg root done g) (hu : Unrepeated fs cfg done (.incl h :: ls))
    (c₁ : ∀ x ∈ d₁, x ∈ h :: done ∨ .incl x ∈ gs ∨ ∃ f' ls', part f' ∧ fs f' = some ls' ∧ .incl x ∈ ls' ∧ ¬ Entered fs cfg root (h :: done) f') :
    Unrepeated fs cfg d₁ ls := by
  intro x gx gxs hx hgx hgxs hun hi
  obtain ⟨a, c, e⟩ := mem_split hi
  have hfx : fs f = some ((pre ++ .incl h :: a) ++ .incl x :: c) := by rw [hf, e]; simp
  rcases c₁ x hx with hx | hx | ⟨f', ls', p₁, p₂, p₃, p₄⟩
  · rcases List.mem_cons.mp hx with rfl | hx
    · obtain ⟨-, q⟩ := ht.single f f pre ls _ c x gx gxs hp hp hf hfx hgx hgxs hun
      have := congrArg List.length q
      simp at this
    · exact hu x gx gxs hx hgx hgxs hun (List.mem_cons_of_mem _ hi)
  · obtain ⟨a', c', e'⟩ := mem_split hx
    obtain ⟨rfl, -⟩ := ht.single f g _ c a' c' x gx gxs hp hpg hfx (hgs.trans (by rw [e'])) hgx hgxs hun
    exact hng he
  · obtain ⟨a', c', e'⟩ := mem_split p₃
    obtain ⟨rfl, -⟩ := ht.single f f' _ c a' c' x gx gxs hp p₁ hfx (p₂.trans (by rw [e'])) hgx hgxs hun
    exact p₄ (he.mono fun _ => List.mem_cons_of_mem _)

theorem Owned.enter {done f ls h} (ho : Owned fs cfg root part done) (hp : part f) (hf : fs f = some ls) (hi : .incl h ∈ ls)
    (he : Entered fs cfg root done f) : Owned fs cfg root part (h :: done) := by
  intro x hx
  rcases List.mem_cons.mp hx with rfl | hx
  · exact ⟨f, _, hp, hf, hi, he.mono fun _ => List.mem_cons_of_mem _⟩
  · obtain ⟨f', ls', a, b, c, d⟩ := ho x hx
    exact ⟨f', ls', a, b, c, d.mono fun _ => List.mem_cons_of_mem _⟩

/-- The compiler makes the same of a file and of what the generator writes for it. -/
theorem sim (ht : Tidy fs cfg dirs env root part off) : ∀ n done f pre ls o done' s v b out, part f → ¬ off f → fs f = some (pre ++ ls) → Active b →
    stackAfter env [] pre = some s → Owned fs cfg root part done → Entered fs cfg root done f → Unrepeated fs cfg done ls →
    Agree fs cfg part off done v → parseLines (parseFile fs cfg n) done ls = some (o, done') →
    ∃ v' t, preLines fs env dirs (preFile fs env dirs n) f { stack := s, onces := v, out := out } ls = some { stack := [], onces := v', out := out ++ t } ∧
      Flat env (s ++ b) (o.filterMap finishLine) b t ∧ Agree fs cfg part off done' v' := by
  intro n
  induction n using Nat.strongRecOn with
  | _ n ihn =>
    intro done f pre ls
    induction ls generalizing pre done with
    | nil =>
      intro o done' s v b out hp hon hf hb hs ho he hu ha e
      have hcl := ht.closed f _ hp hf
      simp only [List.append_nil, hs, Option.some.injEq] at hcl
      subst hcl
      simp [parseLines] at e
      obtain ⟨rfl, rfl⟩ := e
      exact ⟨v, [], by simp [preLines], Flat.nil, ha⟩
    | cons l ls ih =>
      intro o done' s v b out hp hon hf hb hs ho he hu ha e
      have hf' : fs f = some ((pre ++ [l]) ++ ls) := by simpa using hf
      have hcl := ht.closed f _ hp hf
      rw [stackAfter_append, hs] at hcl
      simp only [Option.bind_some, stackAfter] at hcl
      obtain ⟨s', hs', -⟩ := Option.bind_eq_some_iff.mp hcl
      have hpre : stackAfter env [] (pre ++ [l]) = some s' := by simp [stackAfter_append, hs, stackAfter, hs']
      rcases line_cases l with ⟨h, rfl⟩ | hl
      · simp [stackStep] at hs'
        subst hs'
        have hmem : Line.incl h ∈ pre ++ .incl h :: ls := by simp
        obtain ⟨g, hpg, hsome, hg, hres⟩ := ht.found f _ h hp hf hmem
        obtain ⟨gs, hgs⟩ := Option.isSome_iff_exists.mp hsome
        have hw := ht.wanted f pre ls h g s hp hf hg hs
        have hu' : Unrepeated fs cfg done ls := fun x gx gxs a b c d q => hu x gx gxs a b c d (List.mem_cons_of_mem _ q)
        by_cases hd : h ∈ done
        · rw [parseLines_old hd] at e
          obtain ⟨v', t, e₁, e₂, e₃⟩ := ih done _ o done' s v b out hp hon hf' hb hpre ho he hu' ha e
          refine ⟨v', t, ?_, e₂, e₃⟩
          by_cases hact : Active s
          · have hgon : ¬ off g := fun q => (hw.mp q).elim hon (fun q => q hact)
            have hguard : Guarded gs := Classical.byContradiction fun q => hu h g gs hd hg hgs q (by simp)
            have hv := ha.kept h g gs hd hg hgon hgs hguard
            simp only [preLines, stackStep, hact, if_true, hres, hv]
            exact e₁
          · simp only [preLines, stackStep, hact, if_false]
            exact e₁
        · obtain ⟨o₁, d₁, o₂, p₁, p₂, rfl⟩ := parseLines_new hd e
          have hng := not_entered ht ho hp hf hmem hg hd
          obtain ⟨m, o₃, rfl, p₃, rfl⟩ := parseFile_some hg hgs p₁
          have hO := ho.enter hp hf hmem he
          have hE : Entered fs cfg root (h :: done) g := .inr ⟨h, by simp, hg⟩
          obtain ⟨a₁, b₁, c₁⟩ := own ht m (h :: done) g [] gs o₃ d₁ hpg (by simpa using hgs) hO hE p₃
          have hsub : ∀ x ∈ done, x ∈ d₁ := fun x hx => a₁ x (List.mem_cons_of_mem _ hx)
          have hU₁ : Unrepeated fs cfg d₁ ls := Unrepeated.back ht he hp hf hpg hgs hng hu c₁
          by_cases hact : Active s
          · have hgon : ¬ off g := fun q => (hw.mp q).elim hon (fun q => q hact)
            have hgv : g ∉ v := fun q => hd (ha.seen f _ h g hp hf hmem hg hgon q)
            have hU := Unrepeated.enter ht ho he hp hf hg hpg hgs hng
            have hsb : Active (s ++ b) := active_append.mpr ⟨hact, hb⟩
            have hin : ∃ v₁ t₁, preLines fs env dirs (preFile fs env dirs m) g { stack := [], onces := v, out := [] } gs
                  = some { stack := [], onces := v₁, out := t₁ } ∧
                Flat env (s ++ b) (o₃.filterMap finishLine) (s ++ b) t₁ ∧ Agree fs cfg part off d₁ v₁ := by
              by_cases hguard : Guarded gs
              · obtain ⟨cp, rest, rfl, hcp⟩ := hguard
                have hcp' : ∀ l ∈ cp ++ [Line.once], ∀ h, l ≠ .incl h := by
                  intro l hl h q
                  subst q
                  rcases List.mem_append.mp hl with hl | hl
                  · obtain ⟨t, q⟩ := hcp _ hl
                    cases q
                  · simp at hl
                have hsplit : cp ++ Line.once :: rest = (cp ++ [.once]) ++ rest := by simp
                rw [hsplit] at p₃ hgs hU
                obtain ⟨o₄, p₄, rfl⟩ := parseLines_plain _ _ hcp' p₃
                have hst : stackAfter env [] (cp ++ [.once]) = some [] := by
                  rw [stackAfter_append]
                  have := stackAfter_comments (env := env) cp [] hcp
                  simp [this, stackAfter, stackStep]
                have hA : Agree fs cfg part off (h :: done) (g :: v) := by
                  refine ⟨?_, ?_⟩
                  · intro f₂ ls₂ h₂ g₂ q₁ q₂ q₃ q₄ q₅ q₆
                    rcases List.mem_cons.mp q₆ with rfl | q₆
                    · have := ht.spelled f f₂ _ ls₂ h h₂ hp q₁ hf q₂ hmem q₃ (hg.trans q₄.symm)
                      simp [this]
                    · exact List.mem_cons_of_mem _ (ha.seen f₂ ls₂ h₂ g₂ q₁ q₂ q₃ q₄ q₅ q₆)
                  · intro h₂ g₂ gs₂ q₁ q₂ q₃ q₄ q₅
                    rcases List.mem_cons.mp q₁ with rfl | q₁
                    · have : g = g₂ := Option.some.inj (hg.symm.trans q₂)
                      simp [this]
                    · exact List.mem_cons_of_mem _ (ha.kept h₂ g₂ gs₂ q₁ q₂ q₃ q₄ q₅)
                have hU' : Unrepeated fs cfg (h :: done) rest :=
                  fun x gx gxs a b c d q => hU x gx gxs a b c d (List.mem_append_right _ q)
                obtain ⟨v₁, t₁, r₁, r₂, r₃⟩ := ihn m (by omega) (h :: done) g _ rest o₄ d₁ [] (g :: v) (s ++ b) [] hpg hgon hgs hsb hst hO hE hU' hA p₄
                refine ⟨v₁, t₁, ?_, ?_, r₃⟩
                · rw [preLines_comments _ _ _ hcp]
                  simpa [preLines, stackStep, active_nil] using r₁
                · have hfm : (List.map Out.line (cp ++ [Line.once])).filterMap finishLine = [] := by
                    rw [List.filterMap_eq_nil_iff]
                    intro x hx
                    obtain ⟨l, hl, rfl⟩ := List.mem_map.mp hx
                    rcases List.mem_append.mp hl with hl | hl
                    · obtain ⟨t, rfl⟩ := hcp _ hl
                      rfl
                    · simp at hl
                      subst hl
                      rfl
                  rw [List.filterMap_append, hfm]
                  simpa using r₂
              · have hA : Agree fs cfg part off (h :: done) v := by
                  refine ⟨fun f₂ ls₂ h₂ g₂ q₁ q₂ q₃ q₄ q₅ q₆ => List.mem_cons_of_mem _ (ha.seen f₂ ls₂ h₂ g₂ q₁ q₂ q₃ q₄ q₅ q₆), ?_⟩
                  intro h₂ g₂ gs₂ q₁ q₂ q₃ q₄ q₅
                  rcases List.mem_cons.mp q₁ with rfl | q₁
                  · have : g = g₂ := Option.some.inj (hg.symm.trans q₂)
                    subst this
                    have : gs = gs₂ := Option.some.inj (hgs.symm.trans q₄)
                    subst this
                    exact absurd q₅ hguard
                  · exact ha.kept h₂ g₂ gs₂ q₁ q₂ q₃ q₄ q₅
                obtain ⟨v₁, t₁, r₁, r₂, r₃⟩ := ihn m (by omega) (h :: done) g [] gs o₃ d₁ [] v (s ++ b) [] hpg hgon (by simpa using hgs) hsb rfl hO hE hU hA p₃
                exact ⟨v₁, t₁, by simpa using r₁, by simpa using r₂, r₃⟩
            obtain ⟨v₁, t₁, r₁, r₂, r₃⟩ := hin
            obtain ⟨v', t, e₁, e₂, e₃⟩ := ih d₁ _ o₂ done' s v₁ b (out ++ t₁) hp hon hf' hb hpre b₁ (he.mono hsub) hU₁ r₃ p₂
            refine ⟨v', t₁ ++ t, ?_, ?_, e₃⟩
            · have hpf : preFile fs env dirs (m + 1) v g = some (v₁, t₁) := by simp [preFile, hgs, r₁]
              simp only [preLines, stackStep, hact, if_true, hres, hgv, if_false, hpf]
              rw [e₁, List.append_assoc]
            · have := r₂.append e₂
              simpa [List.filterMap_append, List.filterMap_cons, finishLine] using this
          · have hgoff : off g := hw.mpr (.inr hact)
            have hoffs := offs ht m (h :: done) g [] gs o₃ d₁ hpg (by simpa using hgs) hgoff p₃
            have hA : Agree fs cfg part off d₁ v := by
              refine ⟨fun f₂ ls₂ h₂ g₂ q₁ q₂ q₃ q₄ q₅ q₆ => hsub _ (ha.seen f₂ ls₂ h₂ g₂ q₁ q₂ q₃ q₄ q₅ q₆), ?_⟩
              intro h₂ g₂ gs₂ q₁ q₂ q₃ q₄ q₅
              rcases hoffs h₂ q₁ with q | ⟨g', q, q'⟩
              · rcases List.mem_cons.mp q with rfl | q
                · have : g = g₂ := Option.some.inj (hg.symm.trans q₂)
                  exact absurd (this ▸ hgoff) q₃
                · exact ha.kept h₂ g₂ gs₂ q q₂ q₃ q₄ q₅
              · have : g' = g₂ := Option.some.inj (q.symm.trans q₂)
                exact absurd (this ▸ q') q₃
            obtain ⟨v', t, e₁, e₂, e₃⟩ := ih d₁ _ o₂ done' s v b out hp hon hf' hb hpre b₁ (he.mono hsub) hU₁ hA p₂
            have hfl := flat_off ht m (h :: done) g [] gs o₃ d₁ [] (s ++ b) hpg (by simpa using hgs) (fun q => hact (active_append.mp q).1) rfl p₃
            refine ⟨v', t, ?_, ?_, e₃⟩
            · simp only [preLines, stackStep, hact, if_false]
              exact e₁
            · have := hfl.append e₂
              simpa [List.filterMap_append, List.filterMap_cons, finishLine] using this
      · obtain ⟨o₂, p₂, rfl⟩ := parseLines_other_some hl e
        have hu' : Unrepeated fs cfg done ls := fun x gx gxs a b c d q => hu x gx gxs a b c d (List.mem_cons_of_mem _ q)
        obtain ⟨v₁, q₁, q₂⟩ := preLines_other (fs := fs) (dirs := dirs) (sub := preFile fs env dirs n) (f := f) (v := v) (out := out) (ls := ls) hl hs'
        have hA : Agree fs cfg part off done v₁ := by
          rcases q₂ with rfl | rfl
          · exact ha
          · exact ha.mark ht ho he
        obtain ⟨v', t, e₁, e₂, e₃⟩ := ih done _ o₂ done' s' v₁ b (out ++ if Active s then textOf l else []) hp hon hf' hb hpre ho he hu' hA p₂
        refine ⟨v', (if Active s then textOf l else []) ++ t, ?_, ?_, e₃⟩
        · rw [q₁, e₁, List.append_assoc]
        · have h₁ := flat_line (env := env) hl (stackStep_append (b := b) hs')
          have hc : (if Active (s ++ b) then textOf l else []) = if Active s then textOf l else [] := by
            by_cases hact : Active s
            · rw [if_pos hact, if_pos (active_append.mpr ⟨hact, hb⟩)]
            · rw [if_neg hact, if_neg (fun q => hact (active_append.mp q).1)]
          rw [hc] at h₁
          rw [finish_cons]
          exact h₁.append e₂

end
/-! ## Termination -/

theorem filter_shrinks {names done : List Spelling} {h : Spelling} (hm : h ∈ names) (hd : h ∉ done) :
    (names.filter (· ∉ h :: done)).length < (names.filter (· ∉ done)).length := by
  induction names with
  | nil => simp at hm
  | cons x xs ih =>
    have hle : ∀ ys : List Spelling, (ys.filter (· ∉ h :: done)).length ≤ (ys.filter (· ∉ done)).length := by
      intro ys
      induction ys with
      | nil => simp
      | cons y ys ih =>
        by_cases h₁ : y ∈ done
        · simpa [List.filter_cons, h₁] using ih
        · by_cases h₂ : y = h
          · subst h₂
            simp only [List.filter_cons, List.mem_cons, true_or, not_true_eq_false, decide_false, h₁, not_false_eq_true, decide_true, if_true,
              List.length_cons]
            have : (List.filter (fun x => decide ¬(x = y ∨ x ∈ done)) ys).length ≤ (ys.filter (· ∉ done)).length := by simpa using ih
            simp only [Bool.false_eq_true, if_false]
            omega
          · simpa [List.filter_cons, h₁, h₂] using ih
    rcases List.mem_cons.mp hm with rfl | hm
    · have := hle xs
      simp [hd] at this ⊢
      omega
    · have := ih hm
      by_cases h₁ : x ∈ done
      · simpa [List.filter_cons, h₁] using this
      · by_cases h₂ : x = h
        · have := hle xs
          subst h₂
          simp [h₁] at this ⊢
          omega
        · simpa [List.filter_cons, h₁, h₂] using this

theorem filter_mono {names done done' : List Spelling} (h : ∀ x ∈ done, x ∈ done') :
    (names.filter (· ∉ done')).length ≤ (names.filter (· ∉ done)).length := by
  induction names with
  | nil => simp
  | cons x xs ih =>
    by_cases h₁ : x ∈ done
    · simpa [List.filter_cons, h₁, h x h₁] using ih
    · by_cases h₂ : x ∈ done'
      · simp [h₁, h₂] at ih ⊢
        omega
      · simpa [List.filter_cons, h₁, h₂] using ih

theorem terminates {fs : Files} {cfg : String} {names : List Spelling} (hn : ∀ f ls h, fs f = some ls → .incl h ∈ ls → h ∈ names) :
    ∀ n done ls, (names.filter (· ∉ done)).length ≤ n → (∀ h, .incl h ∈ ls → h ∈ names) →
      ∃ o done', parseLines (parseFile fs cfg n) done ls = some (o, done') ∧ ∀ x ∈ done, x ∈ done' := by
  intro n
  induction n using Nat.strongRecOn with
  | _ n ihn =>
    intro done ls
    induction ls generalizing done with
    | nil => exact fun _ _ => ⟨[], done, rfl, fun _ h => h⟩
    | cons l ls ih =>
      intro hle hl
      have hl' : ∀ h, .incl h ∈ ls → h ∈ names := fun h q => hl h (List.mem_cons_of_mem _ q)
      rcases line_cases l with ⟨h, rfl⟩ | hni
      · by_cases hd : h ∈ done
        · rw [parseLines_old hd]
          exact ih done hle hl'
        · have hlt := filter_shrinks (hl h (by simp)) hd
          obtain ⟨m, rfl⟩ : ∃ m, n = m + 1 := ⟨n - 1, by omega⟩
          have hsub : ∃ o₁ d₁, parseFile fs cfg (m + 1) (h :: done) h = some (o₁, d₁) ∧ ∀ x ∈ h :: done, x ∈ d₁ := by
            cases hg : locate fs cfg h with
            | none => exact ⟨[], h :: done, by simp [parseFile, hg], fun _ h => h⟩
            | some g =>
              cases hgs : fs g with
              | none => exact ⟨[], h :: done, by simp [parseFile, hg, hgs], fun _ h => h⟩
              | some gs =>
                obtain ⟨o, d, e, hd⟩ := ihn m (by omega) (h :: done) gs (by omega) (fun x hx => hn g gs x hgs hx)
                exact ⟨.mark h :: o, d, by simp [parseFile, hg, hgs, e], hd⟩
          obtain ⟨o₁, d₁, e₁, hd₁⟩ := hsub
          have hsub' : ∀ x ∈ done, x ∈ d₁ := fun x hx => hd₁ x (List.mem_cons_of_mem _ hx)
          obtain ⟨o₂, d₂, e₂, hd₂⟩ := ih d₁ (Nat.le_trans (filter_mono hsub') hle) hl'
          exact ⟨o₁ ++ o₂, d₂, by simp [parseLines, hd, e₁, e₂], fun x hx => hd₂ x (hsub' x hx)⟩
      · obtain ⟨o₂, d₂, e₂, hd₂⟩ := ih done hle hl'
        exact ⟨.line l :: o₂, d₂, by rw [parseLines_other hni, e₂]; rfl, hd₂⟩

/-! ## How often a header is written -/

theorem locate_some {fs : Files} {cfg : String} {h : Spelling} {g : Path} (hg : locate fs cfg h = some g) : ∃ gs, fs g = some gs := by
  unfold locate at hg
  split at hg
  · next h₁ => cases hg; exact Option.isSome_iff_exists.mp h₁
  · split at hg
    · next h₁ => cases hg; exact Option.isSome_iff_exists.mp h₁
    · cases hg

/-- The headers processed while going through some lines: each is written once if there is such a file, those named are among them, and so are those named in
their files. -/
theorem marks {fs : Files} {cfg : String} : ∀ n done ls o done', parseLines (parseFile fs cfg n) done ls = some (o, done') →
    (∀ x ∈ done, x ∈ done') ∧ (∀ x, .incl x ∈ ls → x ∈ done') ∧
    (∀ x ∈ done', x ∈ done ∨ ∀ g gs y, locate fs cfg x = some g → fs g = some gs → .incl y ∈ gs → y ∈ done') ∧
    (∀ p : Spelling → Prop, (∀ x, .incl x ∈ ls → p x) → (∀ x g gs y, p x → locate fs cfg x = some g → fs g = some gs → .incl y ∈ gs → p y) →
      ∀ x ∈ done', x ∈ done ∨ p x) ∧
    (∀ x, o.count (.mark x) = if x ∈ done' ∧ x ∉ done ∧ (locate fs cfg x).isSome then 1 else 0) := by
  intro n
  induction n using Nat.strongRecOn with
  | _ n ihn =>
    intro done ls
    induction ls generalizing done with
    | nil =>
      intro o done' e
      simp [parseLines] at e
      obtain ⟨rfl, rfl⟩ := e
      refine ⟨fun _ h => h, by simp, fun _ h => .inl h, fun _ _ _ _ h => .inl h, fun x => ?_⟩
      rw [if_neg (fun q => q.2.1 q.1)]
      rfl
    | cons l ls ih =>
      intro o done' e
      rcases line_cases l with ⟨h, rfl⟩ | hni
      · by_cases hd : h ∈ done
        · rw [parseLines_old hd] at e
          obtain ⟨a, b, c, d, f⟩ := ih done o done' e
          refine ⟨a, ?_, c, ?_, f⟩
          · intro x hx
            rcases List.mem_cons.mp hx with hx | hx
            · cases hx
              exact a h hd
            · exact b x hx
          · exact fun p hp hq => d p (fun x hx => hp x (List.mem_cons_of_mem _ hx)) hq
        · obtain ⟨o₁, d₁, o₂, p₁, p₂, rfl⟩ := parseLines_new hd e
          have hin : (∀ x ∈ h :: done, x ∈ d₁) ∧
              (∀ x ∈ d₁, x ∈ done ∨ ∀ g gs y, locate fs cfg x = some g → fs g = some gs → .incl y ∈ gs → y ∈ d₁) ∧
              (∀ p : Spelling → Prop, p h → (∀ x g gs y, p x → locate fs cfg x = some g → fs g = some gs → .incl y ∈ gs → p y) →
                ∀ x ∈ d₁, x ∈ done ∨ p x) ∧
              (∀ x, o₁.count (.mark x) = if x ∈ d₁ ∧ x ∉ done ∧ (locate fs cfg x).isSome then 1 else 0) := by
            cases n with
            | zero => simp [parseFile] at p₁
            | succ m =>
              cases hg : locate fs cfg h with
              | none =>
                simp [parseFile, hg] at p₁
                obtain ⟨rfl, rfl⟩ := p₁
                refine ⟨fun _ h => h, ?_, ?_, ?_⟩
                · intro x hx
                  rcases List.mem_cons.mp hx with rfl | hx
                  · right
                    intro g gs y q
                    rw [hg] at q
                    cases q
                  · exact .inl hx
                · intro p hp _ x hx
                  rcases List.mem_cons.mp hx with rfl | hx
                  · exact .inr hp
                  · exact .inl hx
                · intro x
                  rw [if_neg]
                  · rfl
                  · rintro ⟨q₁, q₂, q₃⟩
                    rcases List.mem_cons.mp q₁ with rfl | q₁
                    · simp [hg] at q₃
                    · exact q₂ q₁
              | some g =>
                obtain ⟨gs, hgs⟩ := locate_some hg
                obtain ⟨m', o₃, hm, p₃, rfl⟩ := parseFile_some hg hgs p₁
                have hm : m = m' := by omega
                subst hm
                obtain ⟨a, b, c, d, f⟩ := ihn m (by omega) (h :: done) gs o₃ d₁ p₃
                refine ⟨a, ?_, ?_, ?_⟩
                · intro x hx
                  rcases c x hx with hx | hx
                  · rcases List.mem_cons.mp hx with rfl | hx
                    · right
                      intro g' gs' y q₁ q₂ q₃
                      rw [hg] at q₁
                      cases q₁
                      rw [hgs] at q₂
                      cases q₂
                      exact b y q₃
                    · exact .inl hx
                  · exact .inr hx
                · intro p hp hq x hx
                  rcases d p (fun y hy => hq h g gs y hp hg hgs hy) hq x hx with hx | hx
                  · rcases List.mem_cons.mp hx with rfl | hx
                    · exact .inr hp
                    · exact .inl hx
                  · exact .inr hx
                · intro x
                  by_cases hx : x = h
                  · subst hx
                    have h₀ : o₃.count (.mark x) = 0 := by
                      rw [f x, if_neg]
                      simp
                    have h₁ : x ∈ d₁ := a x (by simp)
                    simp [h₀, h₁, hd, hg]
                  · have hne : (Out.mark h == Out.mark x) = false := by simp [Ne.symm hx]
                    rw [List.count_cons, hne, f x]
                    simp [hx]
          obtain ⟨a₁, c₁, d₁', f₁⟩ := hin
          obtain ⟨a₂, b₂, c₂, d₂, f₂⟩ := ih d₁ o₂ done' p₂
          refine ⟨fun x hx => a₂ x (a₁ x (List.mem_cons_of_mem _ hx)), ?_, ?_, ?_, ?_⟩
          · intro x hx
            rcases List.mem_cons.mp hx with hx | hx
            · cases hx
              exact a₂ h (a₁ h (by simp))
            · exact b₂ x hx
          · intro x hx
            rcases c₂ x hx with hx | hx
            · rcases c₁ x hx with hx | hx
              · exact .inl hx
              · exact .inr fun g gs y q₁ q₂ q₃ => a₂ y (hx g gs y q₁ q₂ q₃)
            · exact .inr hx
          · intro p hp hq x hx
            rcases d₂ p (fun y hy => hp y (List.mem_cons_of_mem _ hy)) hq x hx with hx | hx
            · exact d₁' p (hp h (by simp)) hq x hx
            · exact .inr hx
          · intro x
            rw [List.count_append, f₁, f₂]
            have h₁ : x ∈ done → x ∈ d₁ := fun q => a₁ x (List.mem_cons_of_mem _ q)
            have h₂ : x ∈ d₁ → x ∈ done' := a₂ x
            by_cases q₁ : x ∈ done' <;> by_cases q₂ : x ∈ d₁ <;> by_cases q₃ : x ∈ done <;> simp_all
      · obtain ⟨o₂, p₂, rfl⟩ := parseLines_other_some hni e
        obtain ⟨a, b, c, d, f⟩ := ih done o₂ done' p₂
        refine ⟨a, ?_, c, ?_, ?_⟩
        · intro x hx
          rcases List.mem_cons.mp hx with hx | hx
          · exact absurd hx.symm (hni x)
          · exact b x hx
        · exact fun p hp hq => d p (fun x hx => hp x (List.mem_cons_of_mem _ hx)) hq
        · intro x
          rw [← f x]
          simp

end FakeIt.SingleHeader
