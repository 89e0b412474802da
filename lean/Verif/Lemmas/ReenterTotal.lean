import Verif.Lemmas.Reenter
import Verif.Lemmas.RefineTotal
import Verif.Lemmas.MatchAnalysis
import Verif.Spec.ReentrantFate
/-!
# Where the re-entrant abstract mock says "undefined", the library's behaviour is undefined
-/
namespace FakeIt
variable {V E : Type} {P : Prog V E} {nm : MockId → Nat → Nat}
open Spec

/-! ## The labelled machine has the same results -/

theorem Fate.result_bind {α β : Type} (x : Fate α) (f : α → Fate β) : (x.bind f).result = x.result.bind fun a => (f a).result := by
  cases x <;> rfl

theorem Fate.result_some {α : Type} {x : Fate α} {a : α} : x.result = some a ↔ x = .runs a := by
  cases x <;> simp [Fate.result]

theorem Fate.bind_undefined {α β : Type} {x : Fate α} {f : α → Fate β} {a b : Nat} (h : x.bind f = .undefined a b) :
    x = .undefined a b ∨ ∃ r, x = .runs r ∧ f r = .undefined a b := by
  cases x with
  | runs r => exact .inr ⟨r, rfl, h⟩
  | undefined a' b' => exact .inl (by simpa [Fate.bind] using h)
  | outside => cases h
  | deep => cases h

theorem fApi_result (c : Ctx) (s : AState V E) (a : Api V E) : (fApi P c s a).result = if ends c.active a then none else aApi P s a := by
  unfold fApi
  split
  · rfl
  · cases aApi P s a with
    | some r => rfl
    | none => dsimp only; split <;> rfl

theorem fBody_result {fc : AState V E → MockId → Nat → List (Arg V) → Fate (Outcome V E × AState V E)} {rc : AState V E → MockId → Nat → List (Arg V) → Option (Outcome V E × AState V E)}
    (h : ∀ s m off as, (fc s m off as).result = rc s m off as) (c : Ctx) (fr : Option (MockId × Nat × Nat)) (args : List (Arg V)) (B : Body V E) :
    ∀ s, (fBody P fc c fr args B s).result = rBody P rc c fr args B s := by
  induction B with
  | done o => intro s; rfl
  | setArg i v k ih => intro s; exact ih _
  | call m off as k ih =>
    intro s
    simp only [fBody, rBody, Fate.result_bind, h, Option.bind_eq_bind]
    congr 1
    funext r
    exact ih r.1 r.2
  | api a k ih =>
    intro s
    simp only [fBody, rBody, Fate.result_bind, fApi_result, Option.bind_eq_bind]
    split
    · rfl
    · congr 1
      funext r
      exact ih r.2 r.1

theorem fPerform_result {fc : FCall V E} {rc : RCall V E} (h : ∀ c s m off as, (fc c s m off as).result = rc c s m off as) (c : Ctx) (m : MockId) (cd : ClassDecl V) (sp : Bool) (off n : Nat)
    (args : List (Arg V)) (s : AState V E) (acts : List (Act V E)) : (fPerform P fc c m cd sp off n args s acts).result = rPerform P rc c m cd sp off n args s acts := by
  cases acts with
  | nil => rfl
  | cons act l =>
    cases act with
    | rep t f => exact fBody_result (h c) ..
    | forever f => exact fBody_result (h c) ..
    | noMore => rfl
    | dflt => simp only [fPerform, rPerform]; cases cd.dflt off <;> rfl
    | deleg mv =>
      simp only [fPerform, rPerform]
      split
      · rfl
      · split
        · exact fBody_result (h _) ..
        · rfl

theorem fServe_result {fc : FCall V E} {rc : RCall V E} (h : ∀ c s m off as, (fc c s m off as).result = rc c s m off as) (c : Ctx) (s : AState V E) (m : MockId) (k : AMock V E) (off : Nat)
    (stubs : List (Stub V E)) (args : List (Arg V)) : (fServe P fc c s m k off stubs args).result = rServe P rc c s m k off stubs args := by
  unfold fServe rServe
  cases stubs.find? fun st => accepts st.kind (valuesOf s.heap args) with
  | none => rfl
  | some st =>
    dsimp only
    split
    · rfl
    · rw [Fate.result_bind, fPerform_result h]
      simp only [Option.bind_eq_bind]
      congr 1
      funext r
      obtain ⟨o, s2⟩ := r
      cases o <;> first | rfl | (dsimp only; split <;> rfl)

theorem fCall_result (n : Nat) : ∀ (c : Ctx) (s : AState V E) (m off : Nat) (args : List (Arg V)), (fCall P n c s m off args).result = rCall P n c s m off args := by
  induction n with
  | zero => intro c s m off args; rfl
  | succ n ih =>
    intro c s m off args
    unfold fCall rCall
    cases s.mocks[m]? with
    | none => rfl
    | some k =>
      dsimp only
      split
      · split
        · exact fBody_result (fun s m off as => ih c s m off as) ..
        · cases k.stubs (arrives (P.cls k.cls) k off args).1 with
          | some stubs => exact fServe_result ih ..
          | none =>
            dsimp only
            split
            · exact fBody_result (fun s m off as => ih c s m off as) ..
            · split <;> rfl
      · rfl

theorem ends_idle (a : Api V E) : ends Ctx.idle.active a = false := by cases a <;> rfl

theorem fStep_result (n : Nat) (s : AState V E) (op : Op V E) : (fStep P n s op).result = rStep P n s op := by
  cases op with
  | call m off args =>
    simp only [fStep, rStep, Fate.result_bind, fCall_result]
    cases rCall P n .idle s m off args <;> rfl
  | api a =>
    simp only [fStep, rStep, Fate.result_bind, fApi_result, ends_idle, Bool.false_eq_true, if_false]
    cases aApi P s a <;> rfl

theorem fRun_result (n : Nat) (s : AState V E) (ops : List (Op V E)) : (fRun P n s ops).result = rRun P n s ops := by
  induction ops generalizing s with
  | nil => rfl
  | cons op ops ih =>
    simp only [fRun, rRun, Fate.result_bind, fStep_result, ih, Option.bind_eq_bind]
    rfl

/-! ## The counters only grow -/

/-- Undefined behaviour comes no earlier than the state. -/
structure Late {α : Type} (s : AState V E) (x : Fate α) : Prop where
  le : ∀ a b, x = .undefined a b → s.made ≤ a ∧ s.named.length ≤ b

theorem Late.now {α : Type} (s : AState V E) : Late s (.undefined s.made s.named.length : Fate α) := by
  constructor; intro a b h; cases h; exact ⟨Nat.le_refl _, Nat.le_refl _⟩
theorem Late.runs {α : Type} (s : AState V E) (r : α) : Late s (.runs r) := ⟨fun _ _ h => (nomatch h)⟩
theorem Late.outside {α : Type} (s : AState V E) : Late s (.outside : Fate α) := ⟨fun _ _ h => (nomatch h)⟩
theorem Late.deep {α : Type} (s : AState V E) : Late s (.deep : Fate α) := ⟨fun _ _ h => (nomatch h)⟩
theorem Late.of_up {α : Type} {s s' : AState V E} {x : Fate α} (h : Late s' x) (hu : AUp s s') : Late s x :=
  ⟨fun a b e => ⟨Nat.le_trans hu.1 (h.le a b e).1, Nat.le_trans hu.2.length_le (h.le a b e).2⟩⟩
theorem Late.bind {α β : Type} {s : AState V E} {x : Fate α} {f : α → Fate β} (h : Late s x) (hf : ∀ r, x = .runs r → Late s (f r)) : Late s (x.bind f) := by
  constructor
  intro a b e
  rcases Fate.bind_undefined e with e | ⟨r, hr, e⟩
  · exact h.le a b e
  · exact (hf r hr).le a b e

theorem fApi_late (c : Ctx) (s : AState V E) (a : Api V E) : Late s (fApi P c s a) := by
  unfold fApi
  split
  · exact .outside s
  · cases aApi P s a with
    | some r => exact .runs s r
    | none =>
      dsimp only
      split
      · constructor; intro a b h; cases h; exact ⟨Nat.le_refl _, Nat.le_add_right _ _⟩
      · exact .outside s

theorem fApi_runs {c : Ctx} {s : AState V E} {a : Api V E} {r : AState V E × ApiOut} (h : fApi P c s a = .runs r) : ends c.active a = false ∧ aApi P s a = some r := by
  have := fApi_result (P := P) c s a
  rw [h] at this
  simp only [Fate.result] at this
  split at this
  · cases this
  · rename_i he; exact ⟨by simpa using he, this.symm⟩

section
variable {fc : AState V E → MockId → Nat → List (Arg V) → Fate (Outcome V E × AState V E)} {rc : AState V E → MockId → Nat → List (Arg V) → Option (Outcome V E × AState V E)}

theorem fBody_late (hr : ∀ s m off as, (fc s m off as).result = rc s m off as) (hup : ∀ s m off as o s', rc s m off as = some (o, s') → AUp s s') (hl : ∀ s m off as, Late s (fc s m off as))
    (c : Ctx) (fr : Option (MockId × Nat × Nat)) (args : List (Arg V)) (B : Body V E) : ∀ s, Late s (fBody P fc c fr args B s) := by
  induction B with
  | done o => intro s; exact .runs s _
  | setArg i v k ih => intro s; exact (ih _).of_up (rSetArg_up ..)
  | call m off as k ih =>
    intro s
    refine (hl s m off as).bind fun r e => (ih r.1 r.2).of_up (hup s m off as r.1 r.2 ?_)
    rw [← hr, e]; rfl
  | api a k ih =>
    intro s
    refine (fApi_late c s a).bind fun r e => (ih r.2 r.1).of_up ?_
    have g := aApi_grows (fApi_runs e).2
    exact ⟨g.made, g.pre⟩

end

theorem fPerform_late {fc : FCall V E} {rc : RCall V E} (hr : ∀ c s m off as, (fc c s m off as).result = rc c s m off as) (hup : ∀ c s m off as o s', rc c s m off as = some (o, s') → AUp s s')
    (hl : ∀ c s m off as, Late s (fc c s m off as)) (c : Ctx) (m : MockId) (cd : ClassDecl V) (sp : Bool) (off n : Nat)
    (args : List (Arg V)) (s : AState V E) (acts : List (Act V E)) : Late s (fPerform P fc c m cd sp off n args s acts) := by
  cases acts with
  | nil => exact .runs s _
  | cons act l =>
    cases act with
    | rep t f => exact fBody_late (hr c) (hup c) (hl c) ..
    | forever f => exact fBody_late (hr c) (hup c) (hl c) ..
    | noMore => exact .outside s
    | dflt =>
      simp only [fPerform]
      split
      · exact .runs s _
      · exact .runs s _
      · exact .now s
    | deleg mv =>
      simp only [fPerform]
      have hmv : AUp s (if mv then onArgs s m off n (moved P) else s) := by split <;> exact ⟨Nat.le_refl _, List.prefix_refl _⟩
      split
      · exact .runs s _
      · split
        · exact (fBody_late (hr _) (hup _) (hl _) ..).of_up hmv
        · exact .runs s _

theorem fServe_late {fc : FCall V E} {rc : RCall V E} (hr : ∀ c s m off as, (fc c s m off as).result = rc c s m off as) (hup : ∀ c s m off as o s', rc c s m off as = some (o, s') → AUp s s')
    (hl : ∀ c s m off as, Late s (fc c s m off as)) (c : Ctx) (s : AState V E) (m : MockId) (k : AMock V E) (off : Nat)
    (stubs : List (Stub V E)) (args : List (Arg V)) : Late s (fServe P fc c s m k off stubs args) := by
  unfold fServe
  cases stubs.find? fun st => accepts st.kind (valuesOf s.heap args) with
  | none => exact .runs s _
  | some st =>
    dsimp only
    split
    · exact .outside s
    · have hu : AUp s (accept s m off args st.name) := ⟨Nat.le_succ _, List.prefix_refl _⟩
      refine ((fPerform_late hr hup hl ..).of_up hu).bind fun r hr' => ?_
      obtain ⟨o, s2⟩ := r
      cases o <;> first | exact .runs s _ | skip
      dsimp only
      split
      · exact .runs s _
      · have h1 := fPerform_result (P := P) hr (c.enter m st) m (P.cls k.cls) k.spied off (s.made + 1) args (accept s m off args st.name) st.script
        rw [hr'] at h1
        exact (Late.now s2).of_up (hu.trans (rPerform_up hup h1.symm))

theorem fCall_late (n : Nat) : ∀ (c : Ctx) (s : AState V E) (m off : Nat) (args : List (Arg V)), Late s (fCall P n c s m off args) := by
  induction n with
  | zero => intro c s m off args; exact .deep s
  | succ n ih =>
    intro c s m off args
    have hb : ∀ (c : Ctx) (args : List (Arg V)) (B : Body V E), Late s (fBody P (fCall P n c) c none args B s) := fun c args B =>
      fBody_late (fCall_result n c) (fun _ _ _ _ _ _ h => rCall_up n h) (fun s m off as => ih c s m off as) c none args B s
    unfold fCall
    cases s.mocks[m]? with
    | none => exact .now s
    | some k =>
      dsimp only
      split
      · split
        · exact hb ..
        · cases k.stubs (arrives (P.cls k.cls) k off args).1 with
          | some stubs => exact fServe_late (fCall_result n) (fun _ _ _ _ _ _ _ h => rCall_up n h) ih ..
          | none =>
            dsimp only
            split
            · exact hb ..
            · split <;> exact .runs s _
      · exact .now s

theorem fStep_late (n : Nat) (s : AState V E) (op : Op V E) : Late s (fStep P n s op) := by
  cases op with
  | call m off args => exact (fCall_late n ..).bind fun r _ => .runs s _
  | api a => exact (fApi_late ..).bind fun r _ => .runs s _

theorem fRun_late (n : Nat) (s : AState V E) (ops : List (Op V E)) : Late s (fRun P n s ops) := by
  induction ops generalizing s with
  | nil => exact .runs s _
  | cons op ops ih =>
    refine (fStep_late n s op).bind fun r e => ?_
    have h : rStep P n s op = some (r.1, r.2) := by rw [← fStep_result, e]; rfl
    exact ((ih r.2).of_up (rStep_up h)).bind fun r' _ => .runs s _

/-! ## Operations other than calls -/

theorem slotFits_ok {s : AState V E} {x : MockId × SlotRef} (h : slotFits P s x = true) : slotOk P s x := by
  intro k hk
  unfold slotFits at h
  rw [hk] at h
  dsimp only at h
  split at h
  · rename_i off ctr e
    rw [e]
    intro d hd
    rw [hd] at h
    simpa using h
  · rename_i e
    rw [e]
    simpa using h

theorem scriptFits_ok {a : Api V E} (h : scriptFits a = true) : scriptOk a := by
  unfold scriptOk
  split
  · exact h
  · trivial

theorem bind_ne_oof {α β : Type} {x : R α} {f : α → R β} (hx : x ≠ .oof) (hf : ∀ a, x = .done a → f a ≠ .oof) : (x >>= f) ≠ .oof := by
  cases x with
  | done a => exact hf a rfl
  | ub => exact fun h => (nomatch h)
  | oof => exact absurd rfl hx

theorem touch_ne_oof (w : World V E) (m : MockId) (slot : SlotRef) : touch P w m slot ≠ .oof := by
  unfold touch
  repeat' split
  all_goals (intro h; cases h)

theorem touchAll_ne_oof (l : List (MockId × SlotRef)) : ∀ w : World V E, touchAll P w l ≠ .oof := by
  induction l with
  | nil => intro w h; cases h
  | cons x l ih =>
    intro w
    refine bind_ne_oof (touch_ne_oof _ _ _) fun r _ => ?_
    cases r with
    | none => exact fun h => (nomatch h)
    | some w' => exact ih w'

theorem commit_ne_oof (w : World V E) (t : Target V) (acts : List (Act V E)) : commit P w t acts ≠ .oof := by
  unfold commit
  repeat' split
  all_goals (intro h; cases h)

theorem commitAll_ne_oof (acts : List (Act V E)) (l : List (Target V)) : ∀ w : World V E, commitAll P acts w l ≠ .oof := by
  induction l with
  | nil => intro w h; cases h
  | cons x l ih => intro w; exact bind_ne_oof (commit_ne_oof _ _ _) fun r _ => ih r

theorem stubOne_ne_oof (w : World V E) (t : Target V) (acts : List (Act V E)) (u : Bool) : stubOne P w t acts u ≠ .oof := by
  refine bind_ne_oof (touch_ne_oof _ _ _) fun r _ => ?_
  cases r with
  | none => exact fun h => (nomatch h)
  | some w' =>
    dsimp only
    split
    · exact fun h => (nomatch h)
    · exact bind_ne_oof (commit_ne_oof _ _ _) fun _ _ h => (nomatch h)

theorem stubMany_ne_oof (w : World V E) (ts : List (Target V)) (act : Act V E) : stubMany P w ts act ≠ .oof := by
  refine bind_ne_oof (touchAll_ne_oof _ _) fun r _ => ?_
  obtain ⟨w1, ok⟩ := r
  cases ok with
  | false => exact fun h => (nomatch h)
  | true => exact bind_ne_oof (commitAll_ne_oof _ _ _) fun _ _ h => (nomatch h)

theorem verifyStmt_ne_oof (w : World V E) (scope : Scope V) {pat : List (Seq (Leaf V))} (hp : WritablePattern pat) (q : Quant) (mode : VMode) : verifyStmt P w scope pat q mode ≠ .oof := by
  have hv : ∀ (w : World V E) (e : Expectation), verifyExpectation P w scope pat e ≠ .oof := by
    intro w e
    unfold verifyExpectation
    split
    · exact fun h => (nomatch h)
    · have hs : ∀ s ∈ pat, s.expected ≠ [] := fun s hs => (hp.2 s hs).expected_ne_nil
      obtain ⟨c, m, m', _, _, _, h1, -⟩ := MatchAnalysis.countMatches_spec (mt := leafMatches P w) (sortByOrder ((scope.source pat).collect P w [])) pat hs hp.1
      refine bind_ne_oof (by simp only [analyse, h1, R.bind_done]; exact fun h => (nomatch h)) fun r _ => ?_
      dsimp only
      split <;> exact fun h => (nomatch h)
  refine bind_ne_oof (touchAll_ne_oof _ _) fun r _ => ?_
  obtain ⟨w1, ok⟩ := r
  cases ok with
  | false => exact fun h => (nomatch h)
  | true =>
    dsimp only
    split
    · exact fun h => (nomatch h)
    · split
      · exact fun h => (nomatch h)
      · cases mode with
        | stmt u =>
          cases u with
          | true => exact fun h => (nomatch h)
          | false => exact bind_ne_oof (hv _ _) fun r _ => by split <;> exact fun h => (nomatch h)
        | asBool => exact bind_ne_oof (hv _ _) fun r _ => by split <;> exact fun h => (nomatch h)

theorem noOther_ne_oof (w : World V E) (srcs : List (Source V)) (mode : VMode) : noOtherStmt P w srcs mode ≠ .oof := by
  refine bind_ne_oof (touchAll_ne_oof _ _) fun r _ => ?_
  obtain ⟨w1, ok⟩ := r
  cases ok with
  | false => exact fun h => (nomatch h)
  | true =>
    dsimp only
    repeat' split
    all_goals exact fun h => (nomatch h)

theorem apiStep_ne_oof (w : World V E) {a : Api V E} (hwr : a.Writes) : apiStep P w a ≠ .oof := by
  cases a with
  | newMock cls => exact fun h => (nomatch h)
  | newSpy cls => exact fun h => (nomatch h)
  | write a v => exact fun h => (nomatch h)
  | touch m slot =>
    refine bind_ne_oof (touch_ne_oof _ _ _) fun r _ => ?_
    cases r <;> exact fun h => (nomatch h)
  | when_ t acts u => exact stubOne_ne_oof _ _ _ _
  | fake ts => exact stubMany_ne_oof _ _ _
  | spy mv ts => exact stubMany_ne_oof _ _ _
  | assign t f => exact stubOne_ne_oof _ _ _ _
  | verify scope pat q mode => exact verifyStmt_ne_oof _ _ hwr _ _
  | verifyNoOther srcs mode => exact noOther_ne_oof _ _ _
  | _ =>
    simp only [apiStep]
    repeat' split
    all_goals exact fun h => (nomatch h)

theorem Sim.api_ub {ps : List (Patch V E)} {c : Ctx} {s : AState V E} {w : World V E} (hc : CtxRel c ps) (h : Sim P nm ps s w) {a : Api V E} (hn : a.Named nm) (hwr : a.Writes) {x y : Nat}
    (hs : fApi P c s a = .undefined x y) (hl : y < wrap32) : apiStep P w a = .ub := by
  unfold fApi at hs
  split at hs
  · cases hs
  rename_i he
  cases ha : aApi P s a with
  | some r => rw [ha] at hs; cases hs
  | none =>
    rw [ha] at hs
    dsimp only at hs
    split at hs
    · rename_i hfit
      simp only [Bool.and_eq_true, List.all_eq_true] at hfit
      cases hs
      have hq := patch_api (a := a) (fun p hp => (h.ok p hp).fit) (ends_spares hc (by simpa using he))
      cases ew : apiStep P w a with
      | ub => rfl
      | oof => exact absurd ew (apiStep_ne_oof w hwr)
      | done r =>
        rw [ew] at hq
        cases ev : apiStep P (patch ps w) a with
        | ub => rw [ev] at hq; exact hq.elim
        | oof => rw [ev] at hq; exact hq.elim
        | done r' =>
          obtain ⟨z, hz⟩ := api_total h.wf h.rel hn (fun x hx => slotFits_ok (hfit.1 x hx)) (scriptFits_ok hfit.2) hwr hl ev
          rw [ha] at hz; cases hz
    · cases hs

/-! ## Code -/

/-- Where nested calls are undefined in the abstract, they are in the library. -/
def CallUb (P : Prog V E) (nm : MockId → Nat → Nat) (fc : AState V E → MockId → Nat → List (Arg V) → Fate (Outcome V E × AState V E)) (call : CallFn V E) (ps : List (Patch V E)) : Prop :=
  ∀ s w m off args x y, Sim P nm ps s w → fc s m off args = .undefined x y → x < wrap32 → y < wrap32 → call w m off args = .ub

theorem body_ub {fc : AState V E → MockId → Nat → List (Arg V) → Fate (Outcome V E × AState V E)} {rc : AState V E → MockId → Nat → List (Arg V) → Option (Outcome V E × AState V E)}
    {call : CallFn V E} {ps : List (Patch V E)} {c : Ctx} (hc : CtxRel c ps) (hcall : CallSim P nm rc call ps) (hub : CallUb P nm fc call ps)
    (hr : ∀ s m off as, (fc s m off as).result = rc s m off as) (hup : ∀ s m off as o s', rc s m off as = some (o, s') → AUp s s') (hlt : ∀ s m off as, Late s (fc s m off as))
    (fr : Option (MockId × Nat × Nat)) (args : List (Arg V)) (B : Body V E) :
    B.Within (fun a => a.Named nm ∧ a.Writes) (fun _ _ => True) → ∀ {s w x y}, Sim P nm ps s w → fBody P fc c fr args B s = .undefined x y → x < wrap32 → y < wrap32 →
    runBody P call (frameOf fr) args B w = .ub := by
  induction B with
  | done o => intro _ s w x y _ h; cases h
  | setArg i v k ih => intro hB s w x y hS h hx hy; exact ih hB (hS.setArg fr args i v) h hx hy
  | call m off as k ih =>
    intro hB s w x y hS h hx hy
    simp only [fBody] at h
    rcases Fate.bind_undefined h with e | ⟨⟨o1, s1⟩, e, h2⟩
    · simp only [runBody, hub _ _ _ _ _ _ _ hS e hx hy]; rfl
    · have g := (fBody_late (P := P) hr hup hlt c fr args (k o1) s1).le _ _ h2
      have e' : rc s m off as = some (o1, s1) := by rw [← hr, e]; rfl
      obtain ⟨w1, e1, hS1⟩ := hcall _ _ _ _ _ _ _ hS e' (Nat.lt_of_le_of_lt g.1 hx) (Nat.lt_of_le_of_lt g.2 hy)
      simp only [runBody, e1, R.bind_done]
      exact ih o1 (hB.2 o1) hS1 h2 hx hy
  | api a k ih =>
    intro hB s w x y hS h hx hy
    simp only [fBody] at h
    rcases Fate.bind_undefined h with e | ⟨⟨s1, o1⟩, e, h2⟩
    · simp only [runBody, hS.api_ub hc hB.1.1 hB.1.2 e hy]; rfl
    · have g := (fBody_late (P := P) hr hup hlt c fr args (k o1) s1).le _ _ h2
      obtain ⟨w1, e1, hS1⟩ := hS.api hc hB.1.1 hB.1.2 (fApi_runs e).1 (fApi_runs e).2 (Nat.lt_of_le_of_lt g.1 hx) (Nat.lt_of_le_of_lt g.2 hy)
      simp only [runBody, e1, R.bind_done]
      exact ih o1 (hB.2 o1) hS1 h2 hx hy

/-- Nested calls, at most `n` deep. -/
def NestedUb (P : Prog V E) (nm : MockId → Nat → Nat) (n : Nat) : Prop :=
  ∀ c (ps : List (Patch V E)), CtxRel c ps → ∀ F, 3 * n ≤ F → CallUb P nm (fCall P n c) (callSlot P F) ps

theorem run_ub (ht : Tame P nm) {n : Nat} (hn : NestedUb P nm n) {c : Ctx} {ps : List (Patch V E)} (hc : CtxRel c ps) (fr : Option (MockId × Nat × Nat)) (args : List (Arg V)) {B : Body V E}
    (hB : B.Within (fun a => a.Named nm ∧ a.Writes) (fun _ _ => True)) {s : AState V E} {w : World V E} {x y : Nat} (hS : Sim P nm ps s w)
    (h : fBody P (fCall P n c) c fr args B s = .undefined x y) (hx : x < wrap32) (hy : y < wrap32) {F : Nat} (hF : 3 * n ≤ F) : runBody P (callSlot P F) (frameOf fr) args B w = .ub :=
  body_ub hc (call_sim ht n c ps hc F hF) (hn c ps hc F hF) (fCall_result n c) (fun _ _ _ _ _ _ h => rCall_up n h) (fun s m off as => fCall_late n c s m off as) fr args B hB hS h hx hy

theorem fPerform_ub (ht : Tame P nm) {n : Nat} (hn : NestedUb P nm n) {c : Ctx} {ps : List (Patch V E)} (hc : CtxRel c ps) {s : AState V E} {w : World V E} (hS : Sim P nm ps s w)
    {m off : Nat} {a : AMock V E} (ha : s.mocks[m]? = some a) {stubs : List (Stub V E)} (hst : a.stubs off = some stubs) (hby : (m, off) ∉ c.bypass)
    {uid : Nat} {args : List (Arg V)} {acts : List (Act V E)} (hact : enduring acts = false → m ∈ c.active) {x y : Nat}
    (h : fPerform P (fCall P n) c m (P.cls a.cls) a.spied off uid args s acts = .undefined x y) (hx : x < wrap32) (hy : y < wrap32) {F : Nat} (hF : 3 * n ≤ F) :
    invokeAct P (callSlot P (F + 1)) w ⟨m, off, uid⟩ args (headAct acts) = .ub := by
  have hfn : ∀ f : Fn V E, fBody P (fCall P n c) c (some (m, off, uid)) args (codeOf P (valuesOf s.heap args) f) s = .undefined x y →
      runBody P (callSlot P (F + 1)) (some ⟨m, off, uid⟩) args (f.code P (derefAll w.heap args)) w = .ub := by
    intro f hf
    rw [derefAll_eq, hS.heap, ← codeOf_eq]
    exact run_ub ht hn hc (some (m, off, uid)) args (codeOf_within ht _ f) hS hf hx hy (Nat.le_succ_of_le hF)
  cases acts with
  | nil => cases h
  | cons act l =>
    cases act with
    | rep t f => exact hfn f h
    | forever f => exact hfn f h
    | noMore => cases h
    | dflt =>
      obtain ⟨k, hk, MR⟩ := mock_patched hS ha
      have hcls : k.cls = a.cls := by rw [← MR.cls, patchM_cls]
      simp only [fPerform] at h
      simp only [headAct, invokeAct, hk, hcls]
      cases hd : (P.cls a.cls).dflt off with
      | value v => rw [hd] at h; cases h
      | throws => rw [hd] at h; cases h
      | nullRef => rfl
    | deleg mv =>
      simp only [fPerform] at h
      simp only [headAct, invokeAct]
      have hS1 : Sim P nm ps (if mv then onArgs s m off uid (moved P) else s) (if mv then w.updInv m off uid (fun i => { i with args := moveArgs P i.args }) else w) := by
        cases mv with
        | true => exact hS.updInv m off uid (moveArgs P) (args := args) (keepsForm_move P args)
        | false => exact hS
      have hmk : (if mv = true then onArgs s m off uid (moved P) else s).mocks = s.mocks := by split <;> rfl
      generalize (if mv = true then onArgs s m off uid (moved P) else s) = s1 at h hS1 hmk
      generalize (if mv = true then w.updInv m off uid (fun i => { i with args := moveArgs P i.args }) else w) = w1 at hS1 ⊢
      rw [← hmk] at ha
      obtain ⟨k, hk, MR⟩ := mock_patched hS1 ha
      have hk' : (patch ps w1).mocks[m]? = some (patchM ps m k) := by rw [patch_mocks, hk]; rfl
      have hcls : k.cls = a.cls := by rw [← MR.cls, patchM_cls]
      obtain ⟨hal, hlt, hnd, b', hb', -⟩ := stubs_live hS1.wf hS1.rel hk' ha hst
      simp only [patchM_alive, patchM_cls] at hal hlt hnd
      obtain ⟨b, hb, -⟩ := body_of_patched hb'
      simp only [runDelegate, hk, hcls]
      by_cases hd : (P.cls a.cls).dtor = some off
      · rw [if_pos hd] at h; cases h
      · rw [if_neg hd] at h ⊢
        have t := hS1.wf.steady.1.1 m _ hk'
        have hvt : ∀ y x, Patch.vt m off y x ∉ ps := fun y x hmem => hby ((hc.bypass m off).2 ⟨y, x, hmem⟩)
        have hlo : off < k.orig.length := by
          have := t.orig_length
          rw [patchM_orig, patchM_cls] at this
          rw [this]; exact hlt
        obtain ⟨y', hy'⟩ : ∃ y, (patchM ps m k).vt[off]? = some y := ⟨_, List.getElem?_eq_getElem (by rw [t.vtlen, patchM_orig]; exact hlo)⟩
        have hy1 : k.vt[off]? = some y' := by rw [← hy', patchM_vt ps m k hvt]
        obtain ⟨x1, hx1⟩ : ∃ x, k.orig[off]? = some x := ⟨_, List.getElem?_eq_getElem hlo⟩
        have hcode := orig_code t (x := x1) (off := off) (by rw [patchM_orig]; exact hx1) (by rw [patchM_cls]; exact hnd) (by rw [patchM_cls, hcls]; exact hd)
        simp only [patchM_owner, patchM_cls] at hcode
        rw [hy1, hx1]
        dsimp only
        have hown : k.owner = !a.spied := by rw [← MR.owner, patchM_owner]
        have hsk : (w1.setVt m off x1).mocks[m]? = some { k with vt := k.vt.set off x1 } := by
          show (w1.mocks.modify m _)[m]? = _
          rw [List.getElem?_modify]; simp [hk]
        have hsv : (k.vt.set off x1)[off]? = some x1 := by rw [List.getElem?_set]; simp [(List.getElem?_eq_some_iff.1 hy1).1]
        cases hsp : a.spied with
        | false =>
          rw [hsp] at h
          simp only [Bool.false_eq_true, if_false] at h
          cases h
        | true =>
          rw [hsp] at h hown
          simp only [if_true] at h
          have hxu := hcode.2 (by rw [hown]; rfl)
          rw [hcls] at hxu
          subst hxu
          rw [native_call hsk (.inl hal) hsv]
          let p : Patch V E := .vt m off y' (.native ((P.cls a.cls).impl off))
          have hkb : k.mocks[off]? = some (some b) := by
            have : k.body? off = some b := by simpa [World.body?, hk] using hb
            unfold Mock.body? at this
            cases hx : k.mocks[off]? with
            | none => rw [hx] at this; cases this
            | some z => rw [hx] at this; simp at this; rw [this]
          have hr : p.ap (w1.setVt m off (.native ((P.cls a.cls).impl off))) = w1 := setVt_restore w1 hk hy1
          have hS2 : Sim P nm (p :: ps) s1 (w1.setVt m off (.native ((P.cls a.cls).impl off))) := by
            refine ⟨by rw [patch_cons, hr]; exact hS1.rel, by rw [patch_cons, hr]; exact hS1.wf, fun p' hp' => ?_⟩
            rcases List.mem_cons.1 hp' with rfl | hp'
            · refine ⟨{ k with vt := k.vt.set off (.native ((P.cls a.cls).impl off)) }, b, hsk, hal, hkb, hsv, by rw [hcls], fun d hd' => ⟨?_, hnd d hd'⟩⟩
              rintro rfl
              rw [hcls] at hd'
              exact hd hd'
            · exact (hS1.ok p' hp').setVt fun y x e => hvt y x (e ▸ hp')
          have hc2 : CtxRel { c with bypass := (m, off) :: c.bypass } (p :: ps) := hc.vt (hact rfl) _ _
          have e2 : runBody P (callSlot P F) none args (P.fn ((P.cls a.cls).impl off) (valuesOf s1.heap args)) (w1.setVt m off (.native ((P.cls a.cls).impl off))) = .ub :=
            run_ub ht hn hc2 none args (ht _ _) hS2 h hx hy hF
          rw [hS2.heap, e2]
          rfl

/-! ## Answering a call -/

theorem handle_ub (ht : Tame P nm) {n : Nat} (hn : NestedUb P nm n) {c : Ctx} {ps : List (Patch V E)} (hc : CtxRel c ps) {s : AState V E} {w : World V E} (hS : Sim P nm ps s w)
    {m off : Nat} {a : AMock V E} (ha : s.mocks[m]? = some a) {stubs : List (Stub V E)} (hst : a.stubs off = some stubs) (hby : (m, off) ∉ c.bypass) {b : MBody V E} (hb : w.body? m off = some b)
    {args : List (Arg V)} {x y : Nat} (hs : fServe P (fCall P n) c s m a off stubs args = .undefined x y) (hx : x < wrap32) (hy : y < wrap32) {F : Nat} (hF : 3 * n ≤ F) :
    handleCall P (callSlot P (F + 1)) w m off b args = .ub := by
  obtain ⟨k, hk, MR⟩ := mock_patched hS ha
  have hpb : (patch ps w).body? m off = some (patchB ps m off b) := by rw [patch_body, hb]; rfl
  have hkb : (patchM ps m k).body? off = some (patchB ps m off b) := by
    have : (patch ps w).mocks[m]? = some (patchM ps m k) := by rw [patch_mocks, hk]; rfl
    simpa [World.body?, this] using hpb
  have hB := MR.body off
  rw [hkb, hst] at hB
  have hB' : All2 StubRel (patchB ps m off b).handlers.reverse stubs := hB
  have hmeth := hS.rel.meths m off _ hpb
  have hfind : All2.Opt StubRel (findHandler w.heap (patchB ps m off b).handlers (fresh w b args)) (stubs.find? fun st => accepts st.kind (valuesOf s.heap args)) := by
    unfold findHandler
    rw [scan_find _ _ rfl]
    refine All2.find? ?_ hB'
    intro x y hxy
    rw [hxy.kind, ← hS.heap]; rfl
  rw [find_patched _ _ _ _ _ rfl] at hfind
  rw [handleCall_eq]
  unfold fServe at hs
  cases hf : findHandler w.heap b.handlers (fresh w b args) with
  | none =>
    rw [hf] at hfind
    cases hf' : stubs.find? fun st => accepts st.kind (valuesOf s.heap args) with
    | some st => rw [hf'] at hfind; exact hfind.elim
    | none =>
      rw [hf'] at hs
      cases hs
  | some h =>
    rw [hf] at hfind
    cases hf' : stubs.find? fun st => accepts st.kind (valuesOf s.heap args) with
    | none => rw [hf'] at hfind; exact hfind.elim
    | some st =>
      rw [hf'] at hfind
      have hsr' : StubRel (patchH ps m off h) st := hfind
      rw [hf'] at hs
      dsimp only at hs
      split at hs
      · cases hs
      rename_i hbusy
      rcases Fate.bind_undefined hs with hp | ⟨⟨o1, s2⟩, hp, e⟩
      case inr =>
        have hr := fPerform_result (P := P) (fCall_result (P := P) n) (c.enter m st) m (P.cls a.cls) a.spied off (s.made + 1) args (accept s m off args st.name) st.script
        rw [hp] at hr
        cases o1 <;> first | (cases e; done) | skip
        dsimp only at e
        split at e
        · cases e
        · rename_i hab
          cases e
          have := (handler_sim ht (call_sim ht n) hc hS ha hst hby hb hf hsr' hbusy hr.symm hx hy hF).1 ⟨rfl, by simpa using hab⟩
          simp only [this]; rfl
      have hname : h.addr = st.name + 1 := by
        have h1 := hsr'.addr
        have h2 := hsr'.name
        rw [patchH_addr, patchH_matcher] at h1
        rw [patchH_matcher] at h2
        rw [h1, ← h2]
      have hnseq : ∀ i q q', Patch.seq m off h.addr i q q' ∉ ps := by
        intro i q q' hmem
        obtain ⟨nme, hnm, e⟩ := hc.busy _ _ _ _ _ _ hmem
        rw [hname] at e
        exact hbusy (Nat.succ.inj e ▸ hnm)
      have hnspare : ∀ i act, Patch.spare m off h.addr i act ∈ ps → act.tick = act := by
        intro i act hmem
        rcases hc.spare _ _ _ _ _ hmem with e | ⟨nme, hnm, e⟩
        · exact e
        · rw [hname] at e
          exact absurd (Nat.succ.inj e ▸ hnm) hbusy
      have hself : patchH ps m off h = h := patchH_self hnseq
      rw [hself] at hsr'
      have hsr := hsr'
      have hmem : h ∈ b.handlers := ((findHandler_some _ _ rfl _ _).1 hf).mem
      have hnodup := patched_nodup hS hb
      have hpmem : h ∈ (patchB ps m off b).handlers := List.mem_map.2 ⟨h, hmem, hself⟩
      have hpnodup := hS.wf.inv2.nodup hpb
      have hpfind : findHandler (patch ps w).heap (patchB ps m off b).handlers (fresh (patch ps w) (patchB ps m off b) args) = some h := by
        rw [find_patched _ _ _ _ _ rfl, patch_heap]
        have : fresh (patch ps w) (patchB ps m off b) args = fresh w b args := by simp only [fresh, patch_invTotal]; rfl
        rw [this, hf, Option.map_some, hself]
      have hrec : recorded (patch ps w) (patchB ps m off b) args h = recorded w b args h := by simp only [recorded, patch_invTotal]; rfl
      obtain ⟨i, rst, -, hobj, hfront⟩ := rep_front hsr.rep
      obtain ⟨q, hfin, -⟩ := rep_advance hsr.rep hfront
      have hq : ∀ acts, h.seq.Rep acts → q.Rep (nextActs acts) := by
        intro acts hr
        obtain ⟨q', hfin', hrep'⟩ := rep_advance hr hfront
        rw [hfin] at hfin'; cases hfin'; exact hrep'
      -- the world as it will be
      have hRq : Rel P (accept s m off args st.name) (srv (patch ps w) m off h.addr q (recorded w b args h) w.heap (w.invTotal + 1) w.log) := by
        have := rel_serve hS.rel hpb hpmem hpnodup hsr hq (args := args) (as := args) (heap := s.heap) (n := s.made + 1) (Nat.le_refl _) hS.rel.log
        rw [hrec] at this
        have e : (patch ps w).log = w.log := patch_log ps w
        rw [e, ← hS.heap, ← hS.made] at this
        have e3 : ({ s with calls := s.calls ++ [⟨some (m, off), w.invTotal + 1, args, some st.name, false⟩]
                            mocks := s.mocks.modify m fun k => k.onStubs off fun l => l.map fun x => if x.name = st.name then { x with script := rest x.script } else x
                            heap := w.heap, made := w.invTotal + 1, log := s.log } : AState V E) = accept s m off args st.name := by
          rw [hS.heap, hS.made]; rfl
        rw [← e3]
        exact this
      have hWq : Wf P nm (srv (patch ps w) m off h.addr q (recorded w b args h) w.heap (w.invTotal + 1) w.log) := by
        have h1 := (stable2.push _ m off _ args h hS.wf.inv2 trivial hpb hpfind).wf hS.wf
        have h2 := (stable2.tick _ m off h.addr i h1.inv2 trivial).wf h1
        rw [srv_push hpb hpmem hpnodup] at h2
        have h3 := (stable2.fin _ m off h.addr _ i q h2.inv2 trivial (srv_handler hpb hpmem hpnodup rfl) hfin).wf h2
        rw [srv_updSeq hpb, hrec] at h3
        rw [patch_heap, patch_invTotal, patch_log] at h3
        exact h3
      -- the world now
      have hw3 : (w.bumpInv.pushInv m off (recorded w b args h)).updSeq m off h.addr (fun s => s.tick i) =
          srv w m off h.addr (h.seq.tick i) (recorded w b args h) w.heap (w.invTotal + 1) w.log := srv_push hb hmem hnodup _ _
      have hok3 : ∀ p ∈ ps, p.Ok P (srv w m off h.addr (h.seq.tick i) (recorded w b args h) w.heap (w.invTotal + 1) w.log) := by
        intro p hp
        refine (hS.ok p hp).setSeq (m := m) (off := off) (a := h.addr) (q := h.seq.tick i) (f := srvB h.addr (h.seq.tick i) (recorded w b args h)) rfl (Nat.le_refl _) (fun _ => rfl)
          (fun i q1 q2 e => hnseq i q1 q2 (e ▸ hp)) (fun i act e => hnspare i act (e ▸ hp)) ?_
        intro hd hhd j act hj hact
        rw [handler_of_mem hb hmem hnodup] at hhd
        cases hhd
        exact tick_keeps _ _ _ hj hact
      have hh3 : (srv w m off h.addr (h.seq.tick i) (recorded w b args h) w.heap (w.invTotal + 1) w.log).handler? m off h.addr = some { h with seq := h.seq.tick i } :=
        srv_handler hb hmem hnodup rfl
      have halloc : h.addr ≤ w.alloc := by
        have := (hS.wf.inv2.1.2.lt m off (h.addr, h.matcher.addr) (by
          simp only [haddrs]
          rw [show (patch ps w).mocks[m]? = some (patchM ps m k) by rw [patch_mocks, hk]; rfl]
          simp only [kaddrs, hkb]
          exact List.mem_map.2 ⟨h, hpmem, rfl⟩)).1
        rw [patch_alloc] at this
        exact Nat.le_of_lt this
      have haccept : ∃ a1, (accept s m off args st.name).mocks[m]? = some a1 ∧ a1.cls = a.cls ∧ a1.spied = a.spied ∧ ∃ l, a1.stubs off = some l := by
        refine ⟨_, by simp only [accept, List.getElem?_modify, ha]; rfl, ?_, ?_, ?_⟩
        · simp [AMock.onStubs]
        · simp [AMock.onStubs]
        · simp [AMock.onStubs, hst]
      obtain ⟨a1, ha1, hcls1, hsp1, l1, hst1⟩ := haccept
      rw [← hcls1, ← hsp1] at hp
      suffices runHandler P (callSlot P (F + 1)) (w.bumpInv.pushInv m off (recorded w b args h)) ⟨m, off, w.invTotal + 1⟩ h args = .ub by
        simp only [this]; rfl
      have hact : enduring st.script = false → m ∈ (c.enter m st).active := by
        intro he
        simp only [Ctx.enter, he, Bool.false_eq_true, if_false]
        exact List.mem_cons_self ..
      cases hend : enduring st.script with
      | true =>
        obtain ⟨hnd, htt, hdl⟩ := enduring_head hend
        have hobj' : (h.seq.tick i).objs[i]? = some (headAct st.script).tick := by simp [ActionSeq.tick, hobj]
        have hqt : h.seq.tick i = q := by
          simp only [ActionSeq.finallyClause, hobj', hnd] at hfin
          cases hfin; rfl
        have hap : ∀ w : World V E, (Patch.spare m off h.addr i (headAct st.script).tick).ap w = w := ap_sturdy fun hf => hf.elim
        have hS3 : Sim P nm (.spare m off h.addr i (headAct st.script).tick :: ps) (accept s m off args st.name) (srv w m off h.addr (h.seq.tick i) (recorded w b args h) w.heap (w.invTotal + 1) w.log) := by
          have e' : patch (.spare m off h.addr i (headAct st.script).tick :: ps) (srv w m off h.addr (h.seq.tick i) (recorded w b args h) w.heap (w.invTotal + 1) w.log) =
              srv (patch ps w) m off h.addr q (recorded w b args h) w.heap (w.invTotal + 1) w.log := by
            rw [patch_cons, patch_srv _ _ _ _ _ hnseq, ← hqt, hap]
          refine ⟨by rw [e']; exact hRq, by rw [e']; exact hWq, fun p hp => ?_⟩
          rcases List.mem_cons.1 hp with rfl | hp
          · refine ⟨?_, halloc, by simp only [World.acting?, hh3]; exact hobj', hnd⟩
            have := (List.getElem?_eq_some_iff.1 hk).1
            simpa [srv, World.updBody, World.updMock] using this
          · exact hok3 p hp
        have hc3 := hc.endure (m := m) (off := off) hname i htt
        have e4 := fPerform_ub ht hn hc3 hS3 ha1 hst1 hby hact hp hx hy hF
        simp only [runHandler, hfront, R.bind_done, hw3]
        rw [← hS.made] at e4
        rw [e4]
        rfl
      | false =>
        cases hcnt : counted st.script with
        | true =>
          have hS3 : Sim P nm (.seq m off h.addr i (h.seq.tick i) q :: ps) (accept s m off args st.name) (srv w m off h.addr (h.seq.tick i) (recorded w b args h) w.heap (w.invTotal + 1) w.log) := by
            have e : (Patch.seq m off h.addr i (h.seq.tick i) q).ap (srv w m off h.addr (h.seq.tick i) (recorded w b args h) w.heap (w.invTotal + 1) w.log) =
                srv w m off h.addr q (recorded w b args h) w.heap (w.invTotal + 1) w.log := srv_updSeq hb q
            have e' : patch (.seq m off h.addr i (h.seq.tick i) q :: ps) (srv w m off h.addr (h.seq.tick i) (recorded w b args h) w.heap (w.invTotal + 1) w.log) =
                srv (patch ps w) m off h.addr q (recorded w b args h) w.heap (w.invTotal + 1) w.log := by rw [patch_cons, e, patch_srv _ _ _ _ _ hnseq]
            refine ⟨by rw [e']; exact hRq, by rw [e']; exact hWq, fun p hp => ?_⟩
            rcases List.mem_cons.1 hp with rfl | hp
            · exact ⟨halloc, ⟨_, hh3, rfl⟩, hfin⟩
            · exact hok3 p hp
          have hc3 := hc.seq (m := m) (off := off) hcnt hend hname i (h.seq.tick i) q
          have e4 := fPerform_ub ht hn hc3 hS3 ha1 hst1 hby hact hp hx hy hF
          simp only [runHandler, hfront, R.bind_done, hw3]
          rw [← hS.made] at e4
          rw [e4]
          rfl
        | false =>
          obtain ⟨hct, hcd⟩ := calm_head hcnt
          have hqt : h.seq.tick i = q := by
            have : (h.seq.tick i).objs[i]? = some (headAct st.script) := tick_keeps _ _ _ hobj hct
            simp only [ActionSeq.finallyClause, this, hcd] at hfin
            cases hfin; rfl
          have hS3 : Sim P nm (.calm m off h.addr i (headAct st.script) :: ps) (accept s m off args st.name) (srv w m off h.addr (h.seq.tick i) (recorded w b args h) w.heap (w.invTotal + 1) w.log) := by
            have e' : patch (.calm m off h.addr i (headAct st.script) :: ps) (srv w m off h.addr (h.seq.tick i) (recorded w b args h) w.heap (w.invTotal + 1) w.log) =
                srv (patch ps w) m off h.addr q (recorded w b args h) w.heap (w.invTotal + 1) w.log := by
              rw [patch_cons, patch_srv _ _ _ _ _ hnseq, ← hqt]
              congr 1
              simp only [Patch.ap, World.updMock]
              rw [show (Patch.calm m off h.addr i (headAct st.script)).onMock = id from rfl, List.modify_id]
            refine ⟨by rw [e']; exact hRq, by rw [e']; exact hWq, fun p hp => ?_⟩
            rcases List.mem_cons.1 hp with rfl | hp
            · exact ⟨⟨_, hh3, tick_keeps _ _ _ hobj hct⟩, hct, hcd⟩
            · exact hok3 p hp
          have hc3 := hc.calm (m := m) (off := off) hend h.addr i (headAct st.script)
          have e4 := fPerform_ub ht hn hc3 hS3 ha1 hst1 hby hact hp hx hy hF
          simp only [runHandler, hfront, R.bind_done, hw3]
          rw [← hS.made] at e4
          rw [e4]
          rfl

/-! ## Whole calls -/

theorem slot_ub (ht : Tame P nm) {n : Nat} (hn : NestedUb P nm n) {c : Ctx} {ps : List (Patch V E)} (hc : CtxRel c ps) {s : AState V E} {w : World V E} (hS : Sim P nm ps s w)
    {m off : Nat} {k : Mock V E} {a : AMock V E} (hk : w.mocks[m]? = some k) (ha : s.mocks[m]? = some a) (hal : a.alive = true ∨ a.spied = true) (hoff : off < (P.cls a.cls).size)
    {args : List (Arg V)} {x y : Nat} (hdel : ∀ d, (P.cls a.cls).dtor = some d → off = d + 1 → a.spied = true ∧ a.stubs d = none)
    (hs : (if (m, off) ∈ c.bypass then fBody P (fCall P n c) c none args (P.fn ((P.cls a.cls).impl off) (valuesOf s.heap args)) s
      else match a.stubs off with
      | some stubs => fServe P (fCall P n) c s m a off stubs args
      | none =>
        if a.spied then fBody P (fCall P n c) c none args (P.fn ((P.cls a.cls).impl off) (valuesOf s.heap args)) s
        else if (P.cls a.cls).dtor = some off then .runs (.ret P.void, s)
        else .runs (unstubbed s)) = .undefined x y) (hx : x < wrap32) (hy : y < wrap32) {F : Nat} (hF : 3 * n ≤ F) :
    callSlot P (F + 2) w m off args = .ub := by
  have hk' : (patch ps w).mocks[m]? = some (patchM ps m k) := by rw [patch_mocks, hk]; rfl
  have MR := hS.rel.mocks.mock m _ a hk' ha
  have hcls : k.cls = a.cls := by rw [← MR.cls, patchM_cls]
  have hown : k.owner = !a.spied := by rw [← MR.owner, patchM_owner]
  have halv : k.alive = a.alive := by rw [← MR.alive, patchM_alive]
  have t := hS.wf.steady.1.1 m _ hk'
  have hcall : k.alive = true ∨ k.owner = false := by
    rcases hal with h | h
    · exact .inl (by rw [halv]; exact h)
    · exact .inr (by rw [hown, h]; rfl)
  have hrun : k.vt[off]? = some (.native ((P.cls a.cls).impl off)) →
      fBody P (fCall P n c) c none args (P.fn ((P.cls a.cls).impl off) (valuesOf s.heap args)) s = .undefined x y → callSlot P (F + 2) w m off args = .ub := by
    intro hv hr
    rw [native_call hk hcall hv, hS.heap]
    exact run_ub ht hn hc none args (ht _ _) hS hr hx hy (Nat.le_succ_of_le hF)
  by_cases hby : (m, off) ∈ c.bypass
  · rw [if_pos hby] at hs
    obtain ⟨y1, x1, hmem⟩ := (hc.bypass m off).1 hby
    obtain ⟨k0, b, hk0, -, -, hv, hx1, -⟩ := hS.ok _ hmem
    rw [hk] at hk0; cases hk0
    rw [hx1, hcls] at hv
    exact hrun hv hs
  · rw [if_neg hby] at hs
    have hvt : (patchM ps m k).vt[off]? = k.vt[off]? := patchM_vt ps m k fun y x hmem => hby ((hc.bypass m off).2 ⟨y, x, hmem⟩)
    cases hst : a.stubs off with
    | some stubs =>
      rw [hst] at hs
      obtain ⟨hkal, hlt, hnd, b', hb', hlive⟩ := stubs_live hS.wf hS.rel hk' ha hst
      obtain ⟨b, hb, rfl⟩ := body_of_patched hb'
      have hlive' : Live w m off b := by
        obtain ⟨k1, id, h1, h2, h3, h4, h5⟩ := hlive
        rw [hk'] at h1; cases h1
        exact ⟨k, id, hk, by rwa [patchM_alive] at h2, by rw [← hvt]; exact h3, by rwa [patchM_offsets] at h4, by simpa [World.body?, hk] using hb⟩
      rw [callSlot_live hlive']
      exact handle_ub ht hn hc hS ha hst hby hb hs hx hy hF
    | none =>
      rw [hst] at hs
      dsimp only at hs
      split at hs
      · rename_i hsp
        rw [hsp] at hown
        have hlo : off < (patchM ps m k).orig.length := by rw [t.orig_length, MR.cls]; exact hoff
        have hlv : off < (patchM ps m k).vt.length := by rw [t.vtlen]; exact hlo
        obtain ⟨x1, hx1⟩ : ∃ x, (patchM ps m k).vt[off]? = some x := ⟨_, List.getElem?_eq_getElem hlv⟩
        have hxo : (patchM ps m k).orig[off]? = some x1 := by
          rcases t.entry off x1 hx1 with ⟨id, rfl⟩ | rfl | h
          · obtain ⟨⟨b, hb⟩, -⟩ := t.proxy off id hx1
            have hB := MR.body off
            rw [body?_of_get hb, hst] at hB
            exact hB.elim
          · obtain ⟨d, hd, rfl⟩ := t.thunk off hx1
            rw [MR.cls] at hd
            have hc := hdel d hd rfl
            have := (MR.del d hd).2
            rw [hc.2] at this
            simp only [Option.isSome_none, Bool.false_eq_true, if_false] at this
            rw [← this]; exact hx1
          · exact h
        rw [hvt] at hx1
        have hnat : x1 = .native ((P.cls a.cls).impl off) := by
          rw [t.orig_eq, if_neg (by rw [patchM_owner, hown]; decide)] at hxo
          rw [← MR.cls]
          exact (getElem?_nativeVt _ _ _ hxo).1
        subst hnat
        exact hrun hx1 hs
      · split at hs <;> cases hs

theorem call_ub (ht : Tame P nm) (n : Nat) : NestedUb P nm n := by
  induction n with
  | zero => intro c ps _ F _ s w m off args x y _ h; cases h
  | succ n hn =>
    intro c ps hc F hF s w m off args x y hS hs hx hy
    obtain ⟨G, rfl⟩ : ∃ G, F = G + 3 := ⟨F - 3, by omega⟩
    have hG : 3 * n ≤ G := by omega
    unfold fCall at hs
    cases ha : s.mocks[m]? with
    | none =>
      have hk : w.mocks[m]? = none := by
        have := hS.rel.mocks.none ha
        rw [patch_mocks] at this
        simpa using this
      simp only [callSlot, hk]
    | some a =>
      rw [ha] at hs
      dsimp only at hs
      obtain ⟨k, hk, MR⟩ := mock_patched hS ha
      have hk' : (patch ps w).mocks[m]? = some (patchM ps m k) := by rw [patch_mocks, hk]; rfl
      have t := hS.wf.steady.1.1 m _ hk'
      have hcls : k.cls = a.cls := by rw [← MR.cls, patchM_cls]
      have hown : k.owner = !a.spied := by rw [← MR.owner, patchM_owner]
      have halv : k.alive = a.alive := by rw [← MR.alive, patchM_alive]
      split at hs
      · rename_i hcnd
        obtain ⟨hal, hoff⟩ := hcnd
        unfold arrives at hs
        cases hd : (P.cls a.cls).dtor with
        | none =>
          rw [hd] at hs
          dsimp only at hs
          exact slot_ub ht hn hc hS hk ha hal hoff (fun d hd' => by rw [hd] at hd'; cases hd') (by rw [hd]; exact hs) hx hy (Nat.le_succ_of_le hG)
        | some d =>
          rw [hd] at hs
          dsimp only at hs
          by_cases hdc : off = d + 1 ∧ (a.spied = false ∨ (a.stubs d).isSome = true)
          · simp only [if_pos hdc] at hs
            obtain ⟨rfl, hor⟩ := hdc
            have hthunk : (patchM ps m k).vt[d + 1]? = some .dtorThunk := by
              rw [(MR.del d hd).2]
              cases hso : (a.stubs d).isSome with
              | true => rfl
              | false =>
                simp only [Bool.false_eq_true, if_false]
                have hsp : a.spied = false := by
                  rcases hor with h | h
                  · exact h
                  · rw [hso] at h; cases h
                have hown : (patchM ps m k).owner = true := by rw [MR.owner, hsp]; rfl
                rw [t.orig_eq, if_pos hown, MR.cls]
                exact fakeVt_del hd hoff
            have hthunk' : k.vt[d + 1]? = some .dtorThunk := by
              rw [← hthunk]
              refine (patchM_vt ps m k fun y x hmem => ?_).symm
              obtain ⟨k0, b, hk0, -, -, -, -, hne⟩ := hS.ok _ hmem
              rw [hk] at hk0; cases hk0
              exact (hne d (by rw [← hd, ← MR.cls, patchM_cls])).2 rfl
            have hcall : (!k.alive && k.owner) = false := by
              rcases hal with h | h
              · rw [halv, h]; rfl
              · rw [hown, h]; simp
            have he : callSlot P (G + 3) w m (d + 1) args = callSlot P (G + 2) w m d [] := by
              rw [callSlot]
              simp only [hk, hcall, hthunk', runCode, hcls, hd, Bool.false_eq_true, if_false]
            rw [he]
            refine slot_ub ht hn hc hS hk ha hal (by omega) (fun d' hd' e => by rw [hd] at hd'; cases hd'; omega) ?_ hx hy hG
            rw [hd]
            simp only [if_true] at hs ⊢
            exact hs
          · simp only [if_neg hdc] at hs
            refine slot_ub ht hn hc hS hk ha hal hoff (fun d' hd' e => ?_) (by rw [hd]; exact hs) hx hy (Nat.le_succ_of_le hG)
            rw [hd] at hd'; cases hd'
            have : ¬(a.spied = false ∨ (a.stubs d).isSome = true) := fun h => hdc ⟨e, h⟩
            simp only [not_or, Bool.not_eq_false, Bool.not_eq_true, Option.isSome_eq_false_iff, Option.isNone_iff_eq_none] at this
            exact this
      · rename_i hcnd
        rw [callSlot]
        simp only [hk]
        split
        · rfl
        · rename_i hdead
          have hal : a.alive = true ∨ a.spied = true := by
            rw [halv, hown] at hdead
            cases hA : a.alive with
            | true => exact .inl rfl
            | false =>
              cases hB : a.spied with
              | true => exact .inr rfl
              | false => rw [hA, hB] at hdead; exact (hdead rfl).elim
          have hlen : k.vt.length = (P.cls a.cls).size := by
            have h1 : (patchM ps m k).vt.length = (P.cls a.cls).size := by rw [t.vtlen, t.orig_length, MR.cls]
            rw [← h1]; exact (patchM_field ps m k (·.vt.length) (by simp)).symm
          have hnone : k.vt[off]? = none := by
            rw [List.getElem?_eq_none_iff, hlen]
            exact Nat.le_of_not_lt fun h => hcnd ⟨hal, h⟩
          rw [hnone]

/-! ## Whole programs -/

theorem step_ub (ht : Tame P nm) {fuel : Nat} {s : AState V E} {w : World V E} (hS : Sim P nm [] s w) {op : Op V E} (hop : op.Within (fun a => a.Named nm ∧ a.Writes) (fun _ _ => True))
    {x y : Nat} (hs : fStep P fuel s op = .undefined x y) (hx : x < wrap32) (hy : y < wrap32) {F : Nat} (hF : 3 * fuel ≤ F) : opStep P F w op = .ub := by
  cases op with
  | call m off args =>
    rcases Fate.bind_undefined hs with e | ⟨r, -, e⟩
    · simp only [opStep, call_ub ht fuel _ _ .idle F hF _ _ _ _ _ _ _ hS e hx hy]; rfl
    · cases e
  | api a =>
    rcases Fate.bind_undefined hs with e | ⟨r, -, e⟩
    · simp only [opStep, hS.api_ub .idle hop.1 hop.2 e hy]; rfl
    · cases e

theorem program_ub (ht : Tame P nm) {fuel : Nat} {ops : List (Op V E)} : (∀ op ∈ ops, op.Within (fun a => a.Named nm ∧ a.Writes) (fun _ _ => True)) →
    ∀ {s : AState V E} {w : World V E} {x y : Nat}, Sim P nm [] s w → fRun P fuel s ops = .undefined x y → x < wrap32 → y < wrap32 → ∀ {F : Nat}, 3 * fuel ≤ F → runOps P F w ops = .ub := by
  induction ops with
  | nil => intro _ s w x y _ h; cases h
  | cons op ops ih =>
    intro hops s w x y hS h hx hy F hF
    simp only [fRun] at h
    rcases Fate.bind_undefined h with e | ⟨⟨o, s1⟩, e, h2⟩
    · simp only [runOps, step_ub ht hS (hops _ (by simp)) e hx hy hF]; rfl
    · rcases Fate.bind_undefined h2 with e2 | ⟨r, -, e2⟩
      · have g := (fRun_late (P := P) fuel s1 ops).le _ _ e2
        have e' : rStep P fuel s op = some (o, s1) := by rw [← fStep_result, e]; rfl
        obtain ⟨w1, e1, hS1⟩ := step_sim ht hS (hops _ (by simp)) e' (Nat.lt_of_le_of_lt g.1 hx) (Nat.lt_of_le_of_lt g.2 hy) hF
        simp only [runOps, e1, R.bind_done, ih (fun op h => hops op (by simp [h])) hS1 e2 hx hy hF]; rfl
      · cases e2

/-! ## The bound on the depth of nested calls -/

/-- The same, or `x` is too deep to tell. -/
def Deeper {α : Type} (x y : Fate α) : Prop := x = .deep ∨ x = y

theorem Deeper.bind {α β : Type} {x y : Fate α} {f g : α → Fate β} (h : Deeper x y) (hf : ∀ r, Deeper (f r) (g r)) : Deeper (x.bind f) (y.bind g) := by
  rcases h with rfl | rfl
  · exact .inl rfl
  · cases x with
    | runs a => exact hf a
    | _ => exact .inr rfl

theorem fBody_deeper {fc gc : AState V E → MockId → Nat → List (Arg V) → Fate (Outcome V E × AState V E)} (h : ∀ s m off as, Deeper (fc s m off as) (gc s m off as))
    (c : Ctx) (fr : Option (MockId × Nat × Nat)) (args : List (Arg V)) (B : Body V E) : ∀ s, Deeper (fBody P fc c fr args B s) (fBody P gc c fr args B s) := by
  induction B with
  | done o => intro s; exact .inr rfl
  | setArg i v k ih => intro s; exact ih _
  | call m off as k ih => intro s; exact (h s m off as).bind fun r => ih r.1 r.2
  | api a k ih => intro s; exact Deeper.bind (.inr rfl) fun r => ih r.2 r.1

theorem fPerform_deeper {fc gc : FCall V E} (h : ∀ c s m off as, Deeper (fc c s m off as) (gc c s m off as)) (c : Ctx) (m : MockId) (cd : ClassDecl V) (sp : Bool) (off n : Nat)
    (args : List (Arg V)) (s : AState V E) (acts : List (Act V E)) : Deeper (fPerform P fc c m cd sp off n args s acts) (fPerform P gc c m cd sp off n args s acts) := by
  cases acts with
  | nil => exact .inr rfl
  | cons act l =>
    cases act with
    | rep t f => exact fBody_deeper (h c) ..
    | forever f => exact fBody_deeper (h c) ..
    | noMore => exact .inr rfl
    | dflt => exact .inr rfl
    | deleg mv =>
      simp only [fPerform]
      split
      · exact .inr rfl
      · split
        · exact fBody_deeper (h _) ..
        · exact .inr rfl

theorem fServe_deeper {fc gc : FCall V E} (h : ∀ c s m off as, Deeper (fc c s m off as) (gc c s m off as)) (c : Ctx) (s : AState V E) (m : MockId) (k : AMock V E) (off : Nat)
    (stubs : List (Stub V E)) (args : List (Arg V)) : Deeper (fServe P fc c s m k off stubs args) (fServe P gc c s m k off stubs args) := by
  unfold fServe
  cases stubs.find? fun st => accepts st.kind (valuesOf s.heap args) with
  | none => exact .inr rfl
  | some st =>
    dsimp only
    split
    · exact .inr rfl
    · exact Deeper.bind (fPerform_deeper h ..) fun r => .inr rfl

theorem fCall_deeper (n j : Nat) : ∀ (c : Ctx) (s : AState V E) (m off : Nat) (args : List (Arg V)), Deeper (fCall P n c s m off args) (fCall P (n + j) c s m off args) := by
  induction n with
  | zero => intro c s m off args; exact .inl rfl
  | succ n ih =>
    intro c s m off args
    rw [Nat.add_right_comm]
    unfold fCall
    cases s.mocks[m]? with
    | none => exact .inr rfl
    | some k =>
      dsimp only
      split
      · split
        · exact fBody_deeper (fun s m off as => ih c s m off as) ..
        · cases k.stubs (arrives (P.cls k.cls) k off args).1 with
          | some stubs => exact fServe_deeper ih ..
          | none =>
            dsimp only
            split
            · exact fBody_deeper (fun s m off as => ih c s m off as) ..
            · exact .inr rfl
      · exact .inr rfl

theorem fRun_deeper (n j : Nat) (ops : List (Op V E)) : ∀ s : AState V E, Deeper (fRun P n s ops) (fRun P (n + j) s ops) := by
  induction ops with
  | nil => intro s; exact .inr rfl
  | cons op ops ih =>
    intro s
    refine Deeper.bind ?_ fun r => Deeper.bind (ih r.2) fun _ => .inr rfl
    cases op with
    | call m off args => exact Deeper.bind (fCall_deeper n j ..) fun _ => .inr rfl
    | api a => exact .inr rfl

end FakeIt
