import Verif.Lemmas.Answer
/-!
# Which calls fire events
-/
namespace FakeIt
variable {V E : Type} {P : Prog V E} {nm : MockId → Nat → Nat}
open Spec

/-- API operations that never report anything: all except verification statements. -/
def Spec.Silent : Api V E → Prop
  | .verify _ _ _ _ => False
  | .verifyNoOther _ _ => False
  | _ => True

/-- Code that makes no virtual calls and no verifications, and does not throw FakeIt's own "no more recorded actions" exception. -/
def Spec.Quiet (b : Body V E) : Prop := b.Within Silent (fun _ _ => False) ∧ ∀ o, Ends b o → o ≠ .noMore

/-- There is an action, and it is not one that reports something by itself (a `Spy` of a mock without a real object does). -/
def Spec.QuietAct (P : Prog V E) (c : ClassDecl V) (spied : Bool) (off : Nat) (vs : List V) : Act V E → Prop
  | .rep _ (.user f) => Quiet (P.fn f vs)
  | .forever (.user f) => Quiet (P.fn f vs)
  | .rep _ _ => True
  | .forever _ => True
  | .dflt => True
  | .deleg _ => c.dtor = some off ∨ (spied = true ∧ Quiet (P.fn (c.impl off) vs))
  | .noMore => False

theorem touch_log {w w' : World V E} {m slot} (h : touch P w m slot = .done (some w')) : w'.log = w.log := by
  unfold touch at h
  repeat' split at h
  all_goals first | (simp at h; done) | (simp at h; subst h; rfl)

theorem touchAll_log {w w' : World V E} {ok} (l : List (MockId × SlotRef)) (h : touchAll P w l = .done (w', ok)) : w'.log = w.log := by
  induction l generalizing w with
  | nil => simp [touchAll] at h; rw [h.1]
  | cons x l ih =>
    simp only [touchAll, R.bind_eq_done] at h
    obtain ⟨r, h1, h2⟩ := h
    cases r with
    | none => simp at h2; rw [h2.1]
    | some w1 => rw [ih h2, touch_log h1]

theorem commit_log {w w' : World V E} {t acts} (h : commit P w t acts = .done w') : w'.log = w.log := by
  unfold commit at h
  repeat' split at h
  all_goals first | (simp at h; done) | (simp at h; subst h; rfl)

theorem commitAll_log {w w' : World V E} {acts} (ts : List (Target V)) (h : commitAll P acts w ts = .done w') : w'.log = w.log := by
  induction ts generalizing w with
  | nil => simp [commitAll] at h; rw [h]
  | cons t ts ih =>
    simp only [commitAll, R.bind_eq_done] at h
    obtain ⟨w1, h1, h2⟩ := h
    rw [ih h2, commit_log h1]

theorem stubOne_log {w w' : World V E} {t acts u o} (h : stubOne P w t acts u = .done (w', o)) : w'.log = w.log := by
  simp only [stubOne, R.bind_eq_done] at h
  obtain ⟨r, h1, h2⟩ := h
  cases r with
  | none => simp at h2; rw [h2.1]
  | some w1 =>
    dsimp only at h2
    split at h2
    · simp at h2; rw [← h2.1, touch_log h1]
    · simp only [R.bind_eq_done, R.done.injEq, Prod.mk.injEq] at h2
      obtain ⟨w2, h2, h3, -⟩ := h2
      rw [← h3, commit_log h2, touch_log h1]

theorem stubMany_log {w w' : World V E} {ts act o} (h : stubMany P w ts act = .done (w', o)) : w'.log = w.log := by
  simp only [stubMany, R.bind_eq_done] at h
  obtain ⟨⟨w1, ok⟩, h1, h2⟩ := h
  cases ok with
  | false => simp at h2; rw [← h2.1, touchAll_log _ h1]
  | true =>
    simp only [R.bind_eq_done, R.done.injEq, Prod.mk.injEq] at h2
    obtain ⟨w2, h2, h3, -⟩ := h2
    rw [← h3, commitAll_log _ h2, touchAll_log _ h1]

theorem apiStep_log {w w' : World V E} {a : Api V E} {o} (ha : Silent a) (h : apiStep P w a = .done (w', o)) : w'.log = w.log := by
  cases a with
  | newMock cls => simp [apiStep] at h; rw [← h.1]
  | newSpy cls => simp [apiStep] at h; rw [← h.1]
  | destroy m => simp only [apiStep] at h; split at h <;> simp at h; rw [← h.1]; rfl
  | touch m s =>
    simp only [apiStep, R.bind_eq_done] at h
    obtain ⟨r, h1, h2⟩ := h
    cases r with
    | none => simp at h2; rw [h2.1]
    | some w1 => simp at h2; rw [← h2.1, touch_log h1]
  | when_ t acts u => exact stubOne_log h
  | fake ts => exact stubMany_log h
  | spy mv ts => exact stubMany_log h
  | assign t f => exact stubOne_log h
  | stubData m c v => simp only [apiStep] at h; repeat' split at h
                      all_goals first | (simp at h; done) | (simp at h; rw [← h.1]; rfl)
  | writeData m c v => simp only [apiStep] at h; repeat' split at h
                       all_goals first | (simp at h; done) | (simp at h; rw [← h.1]; rfl)
  | reset m => simp only [apiStep] at h; split at h <;> simp at h; rw [← h.1]; rfl
  | clear m => simp only [apiStep] at h; split at h <;> simp at h; rw [← h.1]; rfl
  | write a v => simp [apiStep] at h; rw [← h.1]; rfl
  | verify => exact ha.elim
  | verifyNoOther => exact ha.elim

theorem setArg_log (w : World V E) (fr : Option Frame) (args : List (Arg V)) (i : Nat) (v : V) : (setArg w fr args i v).log = w.log := by
  unfold setArg
  split
  · rfl
  · rfl
  · split <;> rfl

theorem runBody_log {call : CallFn V E} {fr : Option Frame} {args : List (Arg V)} {b : Body V E} (hb : b.Within Silent (fun _ _ => False))
    {w w' : World V E} {o} (h : runBody P call fr args b w = .done (o, w')) : w'.log = w.log := by
  induction b generalizing w with
  | done o => simp [runBody] at h; rw [h.2]
  | setArg i v k ih => rw [ih hb h, setArg_log]
  | call m off as k => exact hb.1.elim
  | api a k ih =>
    simp only [runBody, R.bind_eq_done] at h
    obtain ⟨⟨w1, out⟩, h1, h2⟩ := h
    rw [ih out (hb.2 out) h2, apiStep_log hb.1 h1]

/-- The table entries that matter are not changed by recording and ticking. -/
theorem mocks_updBody {w : World V E} {m : Nat} {k : Mock V E} (hk : w.mocks[m]? = some k) (off : Nat) (f : MBody V E → MBody V E) :
    (w.updBody m off f).mocks[m]? = some (k.updBody off f) := by
  simp only [World.updBody, World.mocks_updMock, if_true, hk, Option.map_some]

theorem invoke_log {call : Nat} {wt w' : World V E} {m off uid : Nat} {kt : Mock V E} (hk : wt.mocks[m]? = some kt)
    (hoff : (P.cls kt.cls).dtor ≠ some off → kt.owner = false → kt.orig[off]? = some (.native ((P.cls kt.cls).impl off)))
    {args : List (Arg V)} {act : Act V E} (hq : QuietAct P (P.cls kt.cls) (!kt.owner) off (valuesOf wt.heap args) act) {o : Outcome V E}
    (h : invokeAct P (callSlot P call) wt ⟨m, off, uid⟩ args act = .done (o, w')) : w'.log = wt.log ∧ o ≠ .noMore := by
  have fnc : ∀ f : Fn V E, (∀ u, f = .user u → Quiet (P.fn u (valuesOf wt.heap args))) →
      runBody P (callSlot P call) (some ⟨m, off, uid⟩) args (f.code P (derefAll wt.heap args)) wt = .done (o, w') → w'.log = wt.log ∧ o ≠ .noMore := by
    intro f hf h
    cases f with
    | ret v => simp [Fn.code, runBody] at h; rw [← h.2, ← h.1]; simp
    | thr v => simp [Fn.code, runBody] at h; rw [← h.2, ← h.1]; simp
    | user u =>
      rw [Fn.code, derefAll_eq] at h
      exact ⟨runBody_log (hf u rfl).1 h, (hf u rfl).2 _ (runBody_ends P _ _ _ _ _ _ _ h)⟩
  cases act with
  | rep n f => exact fnc f (by rintro u rfl; exact hq) h
  | forever f => exact fnc f (by rintro u rfl; exact hq) h
  | dflt =>
    simp only [invokeAct, hk] at h
    split at h
    · simp at h; rw [← h.1, ← h.2]; simp
    · simp at h; rw [← h.1, ← h.2]; simp
    · simp at h
  | deleg move =>
    simp only [invokeAct] at h
    have gen : ∀ w1 : World V E, w1.log = wt.log → w1.heap = wt.heap → (∃ k1, w1.mocks[m]? = some k1 ∧ k1.cls = kt.cls ∧ k1.owner = kt.owner ∧
        k1.orig = kt.orig) → runDelegate P (callSlot P call) w1 m off args = .done (o, w') → w'.log = wt.log ∧ o ≠ .noMore := by
      rintro w1 hl hh ⟨k1, hk1, hc, ho, hor⟩ h
      simp only [runDelegate, hk1] at h
      split at h
      · simp at h; rw [← h.1, ← h.2]; exact ⟨hl, by simp⟩
      · rename_i hd
        rw [hc] at hd
        rcases hq with hq | ⟨hs, hq⟩
        · exact absurd hq hd
        have how : kt.owner = false := by simpa using hs
        have hnat := hoff hd how
        split at h
        · rename_i fake orig hf horig
          rw [hor, hnat] at horig
          simp only [Option.some.injEq] at horig
          subst horig
          simp only [R.bind_eq_done, R.done.injEq, Prod.mk.injEq] at h
          obtain ⟨⟨o1, w2⟩, h1, rfl, rfl⟩ := h
          cases call with
          | zero => simp [callSlot] at h1
          | succ call =>
            have hm : (w1.setVt m off (.native ((P.cls kt.cls).impl off))).mocks[m]? =
                some { k1 with vt := k1.vt.set off (.native ((P.cls kt.cls).impl off)) } := by
              simp only [World.setVt, World.mocks_updMock, if_true, hk1, Option.map_some]
            simp only [callSlot, hm, ho, how, Bool.and_false, Bool.false_eq_true, if_false,
              List.getElem?_set_self (lt_of_getElem?_some hf), runCode, derefAll_eq] at h1
            have hh' : (w1.setVt m off (.native ((P.cls kt.cls).impl off))).heap = wt.heap := hh
            rw [hh'] at h1
            refine ⟨?_, hq.2 _ (runBody_ends P _ _ _ _ _ _ _ h1)⟩
            have := runBody_log hq.1 h1
            exact this.trans hl
        · simp at h
    cases move with
    | false => exact gen wt rfl rfl ⟨kt, hk, rfl, rfl, rfl⟩ h
    | true => exact gen (wt.updInv m off uid fun i => { i with args := moveArgs P i.args }) rfl rfl ⟨_, mocks_updBody hk off _, rfl, rfl, rfl⟩ h
  | noMore => exact hq.elim

theorem worldFinally_log {w w' : World V E} {m off a i act o} (h : worldFinally w m off a i act o = .done w') : w'.log = w.log := by
  obtain ⟨s, rfl⟩ := worldFinally_updSeq h
  rfl

end FakeIt
