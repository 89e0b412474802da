import Verif.Lemmas.RefineTotal
import Verif.Lemmas.Independent
import Verif.Spec.ReentrantMock
/-!
# The re-entrant abstract mock extends the one without re-entrancy
-/
namespace FakeIt
variable {V E : Type} {P : Prog V E}
open Spec Independent

/-- A state with one more recorded call. -/
def withRec (s : AState V E) (r : Rec V) (as : List (Arg V)) (heap : Addr → V) : AState V E :=
  { s with calls := s.calls ++ [{ r with args := as }], heap := heap }

theorem onArgs_withRec {s : AState V E} {r : Rec V} {m off n : Nat} (hr : r.meth = some (m, off)) (hn : r.number = n) (h : ∀ x ∈ s.calls, x.number ≠ n) (as : List (Arg V)) (heap : Addr → V)
    (f : List (Arg V) → List (Arg V)) : onArgs (withRec s r as heap) m off n f = withRec s r (f as) heap := by
  have : (s.calls.map fun x => if isCall m off n x then { x with args := f x.args } else x) = s.calls := by
    conv => rhs; rw [← List.map_id s.calls]
    apply List.map_congr_left
    intro x hx
    rw [if_neg]; · rfl
    simp [isCall, h x hx]
  simp only [onArgs, withRec, List.map_append, this, List.map_cons, List.map_nil]
  rw [if_pos (by simp [isCall, hr, hn])]

theorem plain_frame {call : AState V E → MockId → Nat → List (Arg V) → Option (Outcome V E × AState V E)} {c : Ctx} {s : AState V E} {r : Rec V} {m off n : Nat}
    (hr : r.meth = some (m, off)) (hn : r.number = n) (h : ∀ x ∈ s.calls, x.number ≠ n) {args : List (Arg V)} (B : Body V E) :
    ∀ {as heap o as' heap'}, SameForm args as → plain B as heap = some (o, as', heap') → rBody P call c (some (m, off, n)) args B (withRec s r as heap) = some (o, withRec s r as' heap') := by
  induction B with
  | done o => intro as heap o' as' heap' _ hp; cases hp; rfl
  | setArg i v k ih =>
    intro as heap o' as' heap' hf hp
    simp only [rBody]
    rcases hf.get i with ⟨h1, h2⟩ | ⟨x, h1, h2⟩ | ⟨x, y, h1, h2⟩
    · simp only [plain, h2] at hp
      simp only [rSetArg, h1]
      exact ih hf hp
    · simp only [plain, h2] at hp
      simp only [rSetArg, h1]
      exact ih hf hp
    · simp only [plain, h2] at hp
      simp only [rSetArg, h1, onArgs_withRec hr hn h]
      exact ih (hf.set h2) hp
  | call => intro as heap o' as' heap' _ hp; cases hp
  | api => intro as heap o' as' heap' _ hp; cases hp

theorem plain_none {call : AState V E → MockId → Nat → List (Arg V) → Option (Outcome V E × AState V E)} {c : Ctx} {args : List (Arg V)} (B : Body V E) :
    ∀ {s : AState V E} {as o as' heap'}, SameForm args as → plain B as s.heap = some (o, as', heap') → rBody P call c none args B s = some (o, { s with heap := heap' }) := by
  induction B with
  | done o => intro s as o' as' heap' _ hp; cases hp; rfl
  | setArg i v k ih =>
    intro s as o' as' heap' hf hp
    simp only [rBody]
    rcases hf.get i with ⟨h1, h2⟩ | ⟨x, h1, h2⟩ | ⟨x, y, h1, h2⟩
    · simp only [plain, h2] at hp
      simp only [rSetArg, h1]
      exact ih hf hp
    · simp only [plain, h2] at hp
      simp only [rSetArg, h1]
      rw [ih hf hp]
    · simp only [plain, h2] at hp
      simp only [rSetArg, h1]
      exact ih (hf.set h2) hp
  | call => intro s as o' as' heap' _ hp; cases hp
  | api => intro s as o' as' heap' _ hp; cases hp

theorem plain_perform {call : RCall V E} {c : Ctx} {cd : ClassDecl V} {sp : Bool} {m off n : Nat} {args as : List (Arg V)} {s s' : AState V E} {acts : List (Act V E)} {o : Outcome V E}
    {r : Rec V} (hr : r.meth = some (m, off)) (hn : r.number = n) (h : ∀ x ∈ s.calls, x.number ≠ n)
    (hp : perform P cd sp off args s acts = some (o, as, s')) (M : List (AMock V E)) :
    rPerform P call c m cd sp off n args { withRec s r args s.heap with mocks := M } acts = some (o, { withRec s' r as s'.heap with mocks := M }) ∧
      ∃ hp2 md lg, s' = { s with heap := hp2, made := md, log := lg } := by
  have hfn : ∀ f, runFn P s args f = some (o, as, s') →
      rBody P (call c) c (some (m, off, n)) args (codeOf P (valuesOf s.heap args) f) { withRec s r args s.heap with mocks := M } = some (o, { withRec s' r as s'.heap with mocks := M }) ∧
      ∃ hp2 md lg, s' = { s with heap := hp2, made := md, log := lg } := by
    intro f hf
    cases f with
    | ret v => cases hf; exact ⟨rfl, _, _, _, rfl⟩
    | thr e => cases hf; exact ⟨rfl, _, _, _, rfl⟩
    | user f =>
      simp only [runFn, Option.map_eq_some_iff] at hf
      obtain ⟨⟨o1, as1, heap1⟩, h1, h2⟩ := hf
      cases h2
      exact ⟨plain_frame (s := { s with mocks := M }) hr hn h _ rfl h1, _, _, _, rfl⟩
  cases acts with
  | nil => cases hp; exact ⟨rfl, _, _, _, rfl⟩
  | cons act l =>
    cases act with
    | rep t f => exact hfn f hp
    | forever f => exact hfn f hp
    | noMore => cases hp
    | dflt =>
      simp only [perform] at hp
      simp only [rPerform]
      cases hd : cd.dflt off with
      | value v => rw [hd] at hp; cases hp; exact ⟨rfl, _, _, _, rfl⟩
      | throws => rw [hd] at hp; cases hp; exact ⟨rfl, _, _, _, rfl⟩
      | nullRef => rw [hd] at hp; cases hp
    | deleg mv =>
      simp only [perform] at hp
      simp only [rPerform]
      have e : (if mv = true then onArgs { withRec s r args s.heap with mocks := M } m off n (moved P) else { withRec s r args s.heap with mocks := M }) =
          { withRec s r (if mv then moved P args else args) s.heap with mocks := M } := by
        cases mv with
        | true => exact onArgs_withRec (s := { s with mocks := M }) hr hn h _ _ _
        | false => rfl
      rw [e]
      generalize (if mv then moved P args else args) = kept at hp ⊢
      by_cases hd : cd.dtor = some off
      · rw [if_pos hd] at hp ⊢
        cases hp
        exact ⟨rfl, _, _, _, rfl⟩
      · rw [if_neg hd] at hp ⊢
        cases sp with
        | true =>
          simp only [if_true, Option.map_eq_some_iff] at hp ⊢
          obtain ⟨⟨o1, as1, heap1⟩, h1, h2⟩ := hp
          cases h2
          exact ⟨plain_none _ rfl h1, _, _, _, rfl⟩
        | false =>
          simp only [Bool.false_eq_true, if_false] at hp ⊢
          cases hp
          exact ⟨rfl, _, _, _, rfl⟩

/-- The stubbing that answers is still there. -/
theorem present_accept {s s2 : AState V E} {m off : Nat} {k : AMock V E} {stubs : List (Stub V E)} {st : Stub V E} (hk : s.mocks[m]? = some k) (hl : k.stubs off = some stubs) (hst : st ∈ stubs)
    (h2 : s2.mocks = s.mocks.modify m fun k => k.onStubs off fun l => l.map fun x => if x.name = st.name then { x with script := rest x.script } else x) : present s2 m off st.name = true := by
  simp only [present, h2, List.getElem?_modify, hk, if_true, Option.map_eq_map, Option.map_some, AMock.onStubs, hl, List.any_map]
  exact List.any_eq_true.2 ⟨st, hst, by simp⟩

theorem plain_serve {call : RCall V E} {s s' : AState V E} (hN : Numbers s) {m off : Nat} {k : AMock V E} {stubs : List (Stub V E)} (hk : s.mocks[m]? = some k) (hl : k.stubs off = some stubs)
    {args : List (Arg V)} {o : Outcome V E}
    (hs : Spec.serve P s m k off stubs args = some (o, s')) : rServe P call .idle s m k off stubs args = some (o, s') := by
  unfold Spec.serve at hs
  unfold rServe
  dsimp only at hs
  cases hf : stubs.find? fun st => accepts st.kind (valuesOf s.heap args) with
  | none => rw [hf] at hs; exact hs
  | some st =>
    rw [hf] at hs
    simp only [Option.bind_eq_bind, Option.bind_eq_some_iff] at hs
    obtain ⟨⟨o1, as, s2⟩, hp, hs⟩ := hs
    dsimp only
    rw [if_neg (by simp [Ctx.idle])]
    obtain ⟨h1, hp2, md, lg, rfl⟩ := plain_perform (call := call) (c := Ctx.idle.enter m st)
      (m := m) (n := s.made + 1) (r := ⟨some (m, off), s.made + 1, args, some st.name, false⟩) rfl rfl (by
        intro x hx e
        have := hN.bound x hx
        rw [e] at this
        exact Nat.not_succ_le_self _ this) hp
      (s.mocks.modify m fun k => k.onStubs off fun l => l.map fun x => if x.name = st.name then { x with script := rest x.script } else x)
    have h1' : rPerform P call (Ctx.idle.enter m st) m (P.cls k.cls) k.spied off (s.made + 1) args
        (accept s m off args st.name) st.script = _ := h1
    simp only [h1', Option.bind_eq_bind, Option.bind_some]
    cases o1 <;> first | exact hs | skip
    dsimp only
    rw [if_pos (present_accept hk hl (List.mem_of_find?_eq_some hf) rfl)]
    exact hs

theorem plain_call {s s' : AState V E} (hN : Numbers s) {m off : Nat} {args : List (Arg V)} {o : Outcome V E} (hs : aCall P s m off args = some (o, s')) (fuel : Nat) :
    rCall P (fuel + 1) .idle s m off args = some (o, s') := by
  unfold aCall at hs
  unfold rCall
  cases ha : s.mocks[m]? with
  | none => rw [ha] at hs; cases hs
  | some k =>
    rw [ha] at hs
    dsimp only at hs ⊢
    split at hs
    · rename_i hc
      rw [if_pos hc]
      rw [if_neg (by simp [Ctx.idle])]
      split at hs <;> rename_i hst <;> simp only [hst]
      · exact plain_serve hN ha hst hs
      · split at hs <;> rename_i hsp <;> simp only [hsp]
        · obtain ⟨⟨o1, as1, heap1⟩, h1, h2⟩ := Option.map_eq_some_iff.1 hs
          cases h2
          exact plain_none _ rfl h1
        · exact hs
    · cases hs

theorem plain_run {s s' : AState V E} {ops : List (Op V E)} {os : List (OpOut V E)} (hN : Numbers s) (hs : aRun P s ops = some (os, s')) (fuel : Nat) :
    rRun P (fuel + 1) s ops = some (os, s') := by
  induction ops generalizing s os with
  | nil => exact hs
  | cons op ops ih =>
    simp only [aRun, Option.bind_eq_bind, Option.bind_eq_some_iff] at hs
    obtain ⟨⟨o, s1⟩, h1, ⟨os1, s2⟩, h2, h3⟩ := hs
    cases h3
    have h1' : rStep P (fuel + 1) s op = some (o, s1) := by
      cases op with
      | call m off args =>
        simp only [aStep, Option.map_eq_some_iff] at h1
        obtain ⟨r, h4, h5⟩ := h1
        cases h5
        simp only [rStep, plain_call hN h4 fuel, Option.map_some]
      | api a => exact h1
    simp only [rRun, h1', Option.bind_eq_bind, Option.bind_some, ih (aStep_numbers hN h1) h2]

/-! ## The bound on the depth does not matter -/

theorem rBody_more {call call' : AState V E → MockId → Nat → List (Arg V) → Option (Outcome V E × AState V E)} {c : Ctx} {fr : Option (MockId × Nat × Nat)} {args : List (Arg V)}
    (h : ∀ s m off as r, call s m off as = some r → call' s m off as = some r) (B : Body V E) : ∀ {s r}, rBody P call c fr args B s = some r → rBody P call' c fr args B s = some r := by
  induction B with
  | done o => intro s r hr; exact hr
  | setArg i v k ih => intro s r hr; exact ih hr
  | call m off as k ih =>
    intro s r hr
    simp only [rBody, Option.bind_eq_bind, Option.bind_eq_some_iff] at hr ⊢
    obtain ⟨x, h1, h2⟩ := hr
    exact ⟨x, h _ _ _ _ _ h1, ih _ h2⟩
  | api a k ih =>
    intro s r hr
    simp only [rBody] at hr ⊢
    split at hr
    · cases hr
    · rename_i he
      rw [if_neg he]
      simp only [Option.bind_eq_bind, Option.bind_eq_some_iff] at hr ⊢
      obtain ⟨x, h1, h2⟩ := hr
      exact ⟨x, h1, ih _ h2⟩

theorem rPerform_more {call call' : RCall V E} (h : ∀ c s m off as r, call c s m off as = some r → call' c s m off as = some r) {c : Ctx} {m : MockId} {cd : ClassDecl V} {sp : Bool}
    {off n : Nat} {args : List (Arg V)} {s : AState V E} {acts : List (Act V E)} {r : Outcome V E × AState V E} (hr : rPerform P call c m cd sp off n args s acts = some r) :
    rPerform P call' c m cd sp off n args s acts = some r := by
  cases acts with
  | nil => exact hr
  | cons act l =>
    cases act with
    | rep t f => exact rBody_more (h c) _ hr
    | forever f => exact rBody_more (h c) _ hr
    | noMore => exact hr
    | dflt => exact hr
    | deleg mv =>
      simp only [rPerform] at hr ⊢
      generalize (if mv = true then onArgs s m off n (moved P) else s) = s1 at hr ⊢
      split at hr
      · rename_i hd; rw [if_pos hd]; exact hr
      · rename_i hd
        rw [if_neg hd]
        split at hr
        · rename_i hsp; rw [if_pos hsp]; exact rBody_more (h _) _ hr
        · rename_i hsp; rw [if_neg hsp]; exact hr

theorem rServe_more {call call' : RCall V E} (h : ∀ c s m off as r, call c s m off as = some r → call' c s m off as = some r) {c : Ctx} {m : MockId} {k : AMock V E}
    {off : Nat} {stubs : List (Stub V E)} {args : List (Arg V)} {s : AState V E} {r : Outcome V E × AState V E} (hr : rServe P call c s m k off stubs args = some r) :
    rServe P call' c s m k off stubs args = some r := by
  unfold rServe at hr ⊢
  split at hr
  · exact hr
  · split at hr
    · cases hr
    · rename_i hb
      dsimp only
      rw [if_neg hb]
      simp only [Option.bind_eq_bind, Option.bind_eq_some_iff] at hr ⊢
      obtain ⟨x, h1, h2⟩ := hr
      exact ⟨x, rPerform_more h h1, h2⟩

theorem rCall_more (n : Nat) : ∀ {c : Ctx} {s : AState V E} {m off args r}, rCall P n c s m off args = some r → rCall P (n + 1) c s m off args = some r := by
  induction n with
  | zero => intro c s m off args r h; cases h
  | succ n ih =>
    intro c s m off args r h
    rw [rCall] at h ⊢
    split at h
    · cases h
    · dsimp only at h ⊢
      split at h
      · rename_i hc
        rw [if_pos hc]
        split at h
        · rename_i hb; rw [if_pos hb]; exact rBody_more (fun _ _ _ _ _ h => ih h) _ h
        · rename_i hb
          rw [if_neg hb]
          split at h
          · exact rServe_more (fun _ _ _ _ _ _ h => ih h) h
          · split at h
            · rename_i hsp; simp only [hsp, if_true]; exact rBody_more (fun _ _ _ _ _ h => ih h) _ h
            · rename_i hsp; simp only [hsp]; exact h
      · cases h

theorem rRun_more (n k : Nat) {s : AState V E} {ops : List (Op V E)} {r : List (OpOut V E) × AState V E} (h : rRun P n s ops = some r) : rRun P (n + k) s ops = some r := by
  induction k with
  | zero => exact h
  | succ k ih =>
    clear h
    rw [← Nat.add_assoc]
    generalize n + k = n at ih
    induction ops generalizing s r with
    | nil => exact ih
    | cons op ops ih' =>
      simp only [rRun, Option.bind_eq_bind, Option.bind_eq_some_iff] at ih ⊢
      obtain ⟨x, h1, y, h2, h3⟩ := ih
      refine ⟨x, ?_, y, ih' h2, h3⟩
      cases op with
      | call m off args =>
        simp only [rStep, Option.map_eq_some_iff] at h1 ⊢
        obtain ⟨z, h4, h5⟩ := h1
        exact ⟨z, rCall_more n h4, h5⟩
      | api a => exact h1

end FakeIt
