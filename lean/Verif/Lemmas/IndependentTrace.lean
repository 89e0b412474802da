import Verif.Lemmas.IndependentRun
/-!
# Runs with the reports of every step
-/
namespace FakeIt.Independent
open Spec
variable {V E : Type} {P : Prog V E} {nm : MockId → Nat → Nat} {mine : MockId → Bool} {vars : Addr → Bool}

/-- A report without the methods. -/
def strip : Told V → Shown V
  | .unexpected ty c => .unexpected ty c.2
  | .mismatch ty ex n l => .mismatch ty ex n (l.map Prod.snd)
  | .others l k => .others (l.map Prod.snd) (k.map Prod.snd)

theorem recs_strip {names : List (MockId × Nat)} {l : List (Invocation V)} {l' : List (Rec V)} (h : All2 (RecRel names) l l') :
    l.map (fun i => (i.args, i.verified)) = (l'.map Rec.plain).map Prod.snd := by
  rw [List.map_map]
  exact h.map_eq fun i r h => by simp [Rec.plain, h.args, h.verified]

theorem event_strip {names : List (MockId × Nat)} {e : Event V} {r : Report V} (h : EvRel names e r) : displayed e = strip r.told := by
  cases h with
  | unexpected h => simp [displayed, strip, Report.told, Rec.plain, h.args, h.verified]
  | mismatch h => simp only [displayed, strip, Report.told, recs_strip h]
  | others h h' => simp only [displayed, strip, Report.told, recs_strip h, recs_strip h']

theorem all2_drop {α β : Type} {R : α → β → Prop} {l : List α} {l' : List β} (h : All2 R l l') (n : Nat) : All2 R (l.drop n) (l'.drop n) := by
  induction h generalizing n with
  | nil => simp; exact .nil
  | cons h1 h2 ih =>
    cases n with
    | zero => exact .cons h1 h2
    | succ n => exact ih n

theorem slice_strip {s s' : AState V E} {w w' : World V E} (h : Rel P s w) (h' : Rel P s' w') :
    (w'.log.drop w.log.length).map displayed = ((s'.log.drop s.log.length).map Report.told).map strip := by
  rw [List.map_map, h.log.length]
  exact (all2_drop h'.log _).map_eq fun _ _ h => event_strip h

/-- What both machines let the test see of a step. -/
def see (x : OpOut V E × List (Event V)) : OpOut V E × List (Shown V) := (unnamed x.1, x.2.map displayed)
def aSee (x : OpOut V E × List (Report V)) : OpOut V E × List (Shown V) := (unnamed x.1, (x.2.map Report.told).map strip)

theorem aTraced_run {s s' : AState V E} {ops : List (Op V E)} {tr : List (OpOut V E × List (Report V))} (h : aTraced P s ops = some (tr, s')) :
    aRun P s ops = some (tr.map Prod.fst, s') := by
  induction ops generalizing s tr with
  | nil => cases h; rfl
  | cons op ops ih =>
    simp only [aTraced, Option.bind_eq_bind, Option.bind_eq_some_iff] at h
    obtain ⟨⟨o, s1⟩, h1, ⟨os, s2⟩, h2, h3⟩ := h
    cases h3
    simp only [aRun, h1, ih h2, Option.bind_eq_bind, Option.bind_some, List.map_cons]

theorem trace_refines (hP : P.Named nm) {s s' : AState V E} {w : World V E} (hw : Reach P nm w) (h : Rel P s w) {ops : List (Op V E)}
    {tr : List (OpOut V E × List (Report V))} (hn : ∀ op ∈ ops, op.Within (Api.Named nm) fun _ _ => True)
    (hwr : ∀ op ∈ ops, op.Within Api.Writes fun _ _ => True) (hs : aTraced P s ops = some (tr, s')) (hm : s'.made < wrap32) (hl : s'.named.length < wrap32)
    (fuel : Nat) : ∃ tr' w', traced P (fuel + 3) w ops = .done (tr', w') ∧ tr'.map see = tr.map aSee ∧ Rel P s' w' := by
  induction ops generalizing s w tr with
  | nil => cases hs; exact ⟨[], w, rfl, rfl, h⟩
  | cons op ops ih =>
    simp only [aTraced, Option.bind_eq_bind, Option.bind_eq_some_iff] at hs
    obtain ⟨⟨o, s1⟩, h1, ⟨os1, s2⟩, h2, h3⟩ := hs
    cases h3
    dsimp only at h2
    have g := aRun_grows (aTraced_run h2)
    obtain ⟨w1, e1, hR1⟩ := step_refines (hw.wf hP) h (hn op (by simp)) (hwr op (by simp)) h1 (Nat.lt_of_le_of_lt g.made hm) (Nat.lt_of_le_of_lt g.named hl) fuel
    obtain ⟨tr', w2, e2, e3, hR2⟩ := ih (hw.step (hn op (by simp)) e1) hR1 (fun op h => hn op (by simp [h])) (fun op h => hwr op (by simp [h])) h2
    refine ⟨(o, w1.log.drop w.log.length) :: tr', w2, by simp only [traced, e1, R.bind_done, e2], ?_, hR2⟩
    simp only [List.map_cons, e3, see, aSee, slice_strip h hR1]

theorem trace_total (hP : P.Plain) {s : AState V E} {w w' : World V E} (hw : Reach P nm w) (hR : Rel P s w) {ops : List (Op V E)}
    {tr : List (OpOut V E × List (Event V))} (hn : ∀ op ∈ ops, op.Within (Api.Named nm) fun _ _ => True) (hok : Orderly P s ops)
    (hm : s.made + 2 * ops.length < wrap32) (hl : s.named.length + (ops.map Op.mentions).sum < wrap32) {fuel : Nat}
    (hd : traced P (fuel + 3) w ops = .done (tr, w')) :
    ∃ tr' s', aTraced P s ops = some (tr', s') ∧ tr.map see = tr'.map aSee ∧ Rel P s' w' ∧ ∀ op ∈ ops, op.Within Api.Writes fun _ _ => True := by
  induction ops generalizing s w tr with
  | nil => cases hd; exact ⟨[], s, rfl, rfl, hR, by simp⟩
  | cons op ops ih =>
    simp only [traced, R.bind_eq_done] at hd
    obtain ⟨⟨o, w1⟩, h1, ⟨os1, w2⟩, h2, h3⟩ := hd
    cases h3
    simp only [List.map_cons, List.sum_cons, List.length_cons] at hm hl
    obtain ⟨hok1, hok2⟩ := hok
    have hwf := hw.wf (plain_named hP)
    obtain ⟨⟨o', s1⟩, hs1⟩ := step_total hP hwf hR (hn op (by simp)) hok1 (by omega) h1
    have g := aStep_grows hs1
    have g1 := g.made'
    have g2 := g.named'
    have hwr : op.Within Api.Writes fun _ _ => True := by
      cases op with
      | call m off args => trivial
      | api a => exact hok1.2.2
    obtain ⟨w3, e1, hR1⟩ := step_refines hwf hR (hn op (by simp)) hwr hs1 (by omega) (by omega) fuel
    rw [h1] at e1; cases e1
    obtain ⟨tr', s2, hs2, e2, hR2, hwrs⟩ := ih (hw.step (hn op (by simp)) h1) hR1 (fun op h => hn op (by simp [h])) (hok2 _ _ hs1) (by omega) (by omega) h2
    refine ⟨(o, s1.log.drop s.log.length) :: tr', s2, by simp only [aTraced, hs1, hs2, Option.bind_eq_bind, Option.bind_some], ?_, hR2, ?_⟩
    · simp only [List.map_cons, e2, see, aSee, slice_strip hR hR1]
    · intro op' h
      rcases List.mem_cons.1 h with rfl | h
      · exact hwr
      · exact hwrs op' h

theorem traced_length {fuel : Nat} {w w' : World V E} {ops : List (Op V E)} {tr : List (OpOut V E × List (Event V))} (h : traced P fuel w ops = .done (tr, w')) :
    tr.length = ops.length := by
  induction ops generalizing w tr with
  | nil => cases h; rfl
  | cons op ops ih =>
    simp only [traced, R.bind_eq_done] at h
    obtain ⟨⟨o, w1⟩, h1, ⟨os1, w2⟩, h2, h3⟩ := h
    cases h3
    simp [ih h2]

theorem ours_keep (ops : List (Bool × Op V E)) (tr : List (OpOut V E × List (Report V))) :
    (ourOuts ops tr).map (fun x => (x.1, x.2.map strip)) = Spec.keep ((ops.map Prod.fst).zip (tr.map aSee)) := by
  induction ops generalizing tr with
  | nil => simp [ourOuts, Spec.keep]
  | cons x ops ih =>
    obtain ⟨b, op⟩ := x
    cases tr with
    | nil => cases b <;> simp [ourOuts, Spec.keep]
    | cons y tr =>
      cases b with
      | true => simp only [ourOuts, List.map_cons, List.zip_cons_cons, Spec.keep, ih, aSee]
      | false => simp only [ourOuts, List.map_cons, List.zip_cons_cons, Spec.keep, ih]

theorem keep_mem {ops : List (Bool × Op V E)} {op : Op V E} (h : op ∈ Spec.keep ops) : op ∈ ops.map Prod.snd := by
  induction ops with
  | nil => cases h
  | cons x ops ih =>
    obtain ⟨b, op'⟩ := x
    cases b with
    | true =>
      simp only [Spec.keep, List.mem_cons] at h
      rcases h with rfl | h
      · simp
      · exact List.mem_cons_of_mem _ (ih h)
    | false => exact List.mem_cons_of_mem _ (ih h)

theorem keep_small {ops : List (Bool × Op V E)} (h : Small (ops.map Prod.snd)) : Small (Spec.keep ops) := by
  have : (Spec.keep ops).length ≤ (ops.map Prod.snd).length ∧ ((Spec.keep ops).map Op.mentions).sum ≤ ((ops.map Prod.snd).map Op.mentions).sum := by
    clear h
    induction ops with
    | nil => simp [Spec.keep]
    | cons x ops ih =>
      obtain ⟨b, op⟩ := x
      cases b <;> simp only [Spec.keep, List.map_cons, List.length_cons, List.sum_cons] <;> omega
  exact ⟨by have := h.1; omega, by have := h.2; omega⟩

theorem numbers_start (heap : Addr → V) : Numbers (AState.start (E := E) heap) where
  bound := fun _ hr => nomatch hr
  apart := fun _ hr => nomatch hr

theorem sim_start (heap : Addr → V) : Sim mine vars (AState.start (E := E) heap) (AState.start heap) :=
  ⟨rfl, ⟨fun _ _ => False, ⟨fun h => h.elim, fun h => h.elim⟩, fun _ _ => trivial⟩,
   ⟨fun _ _ => False, ⟨fun h => h.elim, fun h => h.elim⟩, .nil⟩, fun _ _ => rfl⟩

/-- What can be seen of our mocks. -/
theorem sim_history {s s' : AState V E} {w w' : World V E} (h : Rel P s w) (h' : Rel P s' w') (hs : Sim mine vars s s') {m : MockId} (hm : mine m = true) (off : Nat) :
    (history w m off).map (fun i => (i.args, i.verified)) = (history w' m off).map fun i => (i.args, i.verified) := by
  obtain ⟨K, -, hc⟩ := hs.calls
  have e : ∀ u : AState V E, callsOf u.calls m off = (u.calls.filter (ours mine)).filter fun r => r.meth == some (m, off) := by
    intro u
    refine filter_ours (fun r hr => ?_) _
    have := beq_iff_eq.1 hr
    simp only [ours, this, hm]
  rw [recs_strip (h.hist m off), recs_strip (h'.hist m off), e, e]
  refine congrArg _ (plain_map (hc.filter fun a b hab => ?_))
  have := hab.plain
  simp only [Rec.plain, Prod.mk.injEq] at this
  rw [this.1]

end FakeIt.Independent
