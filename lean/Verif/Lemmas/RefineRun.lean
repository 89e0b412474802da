import Verif.Lemmas.RefineVerify
/-!
# Whole programs: the library and the abstract mock
-/
namespace FakeIt
variable {V E : Type} {P : Prog V E} {nm : MockId → Nat → Nat}
open Spec

/-! ## Numbers only grow, and not by much -/

/-- The counters have not decreased, and have grown at most by `a` and `b`. -/
structure AGrows (a b : Nat) (s s' : AState V E) : Prop where
  made : s.made ≤ s'.made
  named : s.named.length ≤ s'.named.length
  made' : s'.made ≤ s.made + a
  named' : s'.named.length ≤ s.named.length + b
  pre : s.named <+: s'.named

theorem AGrows.trans {a b c d : Nat} {r s t : AState V E} (h : AGrows a b r s) (h' : AGrows c d s t) : AGrows (a + c) (b + d) r t := by
  have h1 := h.made; have h2 := h.named; have h3 := h.made'; have h4 := h.named'
  have g1 := h'.made; have g2 := h'.named; have g3 := h'.made'; have g4 := h'.named'
  constructor <;> first | omega | exact h.pre.trans h'.pre

theorem AGrows.mono {a b c d : Nat} {s t : AState V E} (h : AGrows a b s t) (h1 : a ≤ c) (h2 : b ≤ d) : AGrows c d s t := by
  have h1 := h.made; have h2 := h.named; have h3 := h.made'; have h4 := h.named'
  constructor <;> first | omega | exact h.pre

theorem AGrows.of_eq {a b : Nat} {s s' : AState V E} (h1 : s'.made = s.made) (h2 : s'.named = s.named) : AGrows a b s s' := by
  constructor <;> first | (rw [h1]; omega) | (rw [h2]; omega) | (rw [h2]; exact List.prefix_refl _)

theorem AGrows.refl {a b : Nat} (s : AState V E) : AGrows a b s s := .of_eq rfl rfl

theorem hook_grows (s : AState V E) (m : MockId) (a : AMock V E) (off : Nat) : AGrows 0 1 s (hook s m a off) := by
  unfold hook
  split
  · exact .refl _
  · constructor <;> simp

theorem mention_grows {s s' : AState V E} {m : MockId} {slot : SlotRef} (h : mention P s m slot = some (some s')) : AGrows 0 1 s s' := by
  unfold mention at h
  repeat' (first | (dsimp only at h; split at h) | split at h)
  all_goals first
    | (cases h; done)
    | (cases h; exact hook_grows _ _ _ _)

theorem mentionAll_grows {s s' : AState V E} {ok : Bool} (l : List (MockId × SlotRef)) (h : mentionAll P s l = some (s', ok)) : AGrows 0 l.length s s' := by
  induction l generalizing s with
  | nil => simp [mentionAll] at h; rw [h.1]; exact .refl _
  | cons x l ih =>
    obtain ⟨m, slot⟩ := x
    simp only [mentionAll, Option.bind_eq_bind, Option.bind_eq_some_iff] at h
    obtain ⟨r, h1, h2⟩ := h
    cases r with
    | none => cases h2; exact .refl _
    | some s1 => exact ((mention_grows h1).trans (ih h2)).mono (Nat.le_refl _) (by simp; omega)

theorem runFn_grows {s s' : AState V E} {args as : List (Arg V)} {f : Fn V E} {o : Outcome V E} (h : runFn P s args f = some (o, as, s')) : AGrows 1 0 s s' := by
  cases f with
  | ret v => cases h; exact .refl _
  | thr e => cases h; exact .refl _
  | user f =>
    simp only [runFn, Option.map_eq_some_iff] at h
    obtain ⟨r, -, h⟩ := h
    cases h; exact .of_eq rfl rfl

theorem unstubbed_grows (s : AState V E) : AGrows 1 0 s (unstubbed s).2 := by constructor <;> simp [unstubbed]

theorem perform_grows {c : ClassDecl V} {sp : Bool} {off : Nat} {args as : List (Arg V)} {s s' : AState V E} {acts : List (Act V E)} {o : Outcome V E}
    (h : perform P c sp off args s acts = some (o, as, s')) : AGrows 1 0 s s' := by
  unfold perform at h
  split at h
  · cases h; exact .refl _
  · exact runFn_grows h
  · exact runFn_grows h
  · split at h
    · cases h; exact .refl _
    · cases h; exact .refl _
    · cases h
  · dsimp only at h
    split at h
    · cases h; exact .refl _
    · split at h
      · obtain ⟨r, -, h⟩ := Option.map_eq_some_iff.1 h
        cases h; exact .of_eq rfl rfl
      · cases h; exact unstubbed_grows _
  · cases h

theorem serve_grows {s s' : AState V E} {m : MockId} {k : AMock V E} {off : Nat} {stubs : List (Stub V E)} {args : List (Arg V)} {o : Outcome V E}
    (h : Spec.serve P s m k off stubs args = some (o, s')) : AGrows 2 0 s s' := by
  unfold Spec.serve at h
  dsimp only at h
  split at h
  · cases h; constructor <;> simp
  · simp only [Option.bind_eq_bind, Option.bind_eq_some_iff] at h
    obtain ⟨⟨o1, as, s2⟩, h1, h2⟩ := h
    have g := perform_grows h1
    have g1 := g.made; have g2 := g.named; have g3 := g.made'; have g4 := g.named'
    dsimp only at g1 g2 g3 g4 h2
    split at h2 <;> cases h2 <;> (constructor <;> dsimp only <;> first | omega | exact g.pre)

theorem aCall_grows {s s' : AState V E} {m : MockId} {off : Nat} {args : List (Arg V)} {o : Outcome V E} (h : aCall P s m off args = some (o, s')) : AGrows 2 0 s s' := by
  unfold aCall at h
  split at h
  · cases h
  · dsimp only at h
    split at h
    · split at h
      · exact serve_grows h
      · split at h
        · obtain ⟨r, -, h⟩ := Option.map_eq_some_iff.1 h
          cases h; exact .of_eq rfl rfl
        · split at h
          · cases h; exact .refl _
          · cases h; exact (unstubbed_grows _).mono (by omega) (Nat.le_refl _)
    · cases h

theorem onMock_grows {a b : Nat} {s s0 s' : AState V E} {m : MockId} {f : AMock V E → Option (AMock V E)} (h : onMock s0 m f = some s') (h1 : s0.made = s.made)
    (h2 : s0.named = s.named) : AGrows a b s s' := by
  obtain ⟨a, a', _, _, _, rfl⟩ := onMock_spec h
  exact .of_eq h1 h2

theorem aStubOne_grows {s s' : AState V E} {t : Target V} {acts : List (Act V E)} {u : Bool} {o : ApiOut} (h : aStubOne P s t acts u = some (s', o)) :
    AGrows 0 1 s s' := by
  simp only [aStubOne, Option.bind_eq_bind, Option.bind_eq_some_iff] at h
  obtain ⟨r, h1, h2⟩ := h
  cases r with
  | none => cases h2; exact .refl _
  | some s1 =>
    have g := mention_grows h1
    dsimp only at h2
    split at h2
    · cases h2; exact g
    · obtain ⟨s2, h3, h4⟩ := Option.bind_eq_some_iff.1 h2
      cases h4
      exact g.trans (c := 0) (d := 0) (.of_eq (install_len h3).2 (install_len h3).1)

theorem aStubMany_grows {s s' : AState V E} {ts : List (Target V)} {act : Act V E} {o : ApiOut} (h : aStubMany P s ts act = some (s', o)) :
    AGrows 0 ts.length s s' := by
  simp only [aStubMany, Option.bind_eq_bind, Option.bind_eq_some_iff] at h
  obtain ⟨⟨s1, ok⟩, h1, h2⟩ := h
  have g := mentionAll_grows _ h1
  rw [List.length_map] at g
  cases ok with
  | false => cases h2; exact g
  | true =>
    obtain ⟨s2, h3, h4⟩ := Option.bind_eq_some_iff.1 h2
    cases h4
    exact g.trans (c := 0) (d := 0) (.of_eq (installAll_len h3).2 (installAll_len h3).1)

theorem aVerify_grows {s s' : AState V E} {scope : Scope V} {pat : List (Seq (Leaf V))} {q : Quant} {mode : VMode} {o : ApiOut}
    (h : aVerify P s scope pat q mode = some (s', o)) : AGrows 0 (verifyLeaves scope pat).length s s' := by
  simp only [aVerify, Option.bind_eq_bind, Option.bind_eq_some_iff] at h
  obtain ⟨⟨s1, ok⟩, h1, h2⟩ := h
  have g := mentionAll_grows _ h1
  rw [List.length_map, mentionedBy_eq] at g
  refine g.trans (c := 0) (d := 0) ?_
  cases ok <;> dsimp only at h2
  · cases h2; exact .refl _
  · repeat' (first | (dsimp only at h2; split at h2) | split at h2)
    all_goals first | (cases h2; done) | (cases h2; exact .of_eq rfl rfl)

theorem aNoOther_grows {s s' : AState V E} {srcs : List (Source V)} {mode : VMode} {o : ApiOut} (h : aNoOther P s srcs mode = some (s', o)) :
    AGrows 0 (aggregate srcs).leaves.length s s' := by
  simp only [aNoOther, Option.bind_eq_bind, Option.bind_eq_some_iff] at h
  obtain ⟨⟨s1, ok⟩, h1, h2⟩ := h
  have g := mentionAll_grows _ h1
  rw [List.length_map, leavesOf_eq, allOf_eq] at g
  refine g.trans (c := 0) (d := 0) ?_
  cases ok <;> dsimp only at h2
  · cases h2; exact .refl _
  · repeat' (first | (dsimp only at h2; split at h2) | split at h2)
    all_goals first | (cases h2; done) | (cases h2; exact .of_eq rfl rfl)

theorem aApi_grows {s s' : AState V E} {a : Api V E} {o : ApiOut} (h : aApi P s a = some (s', o)) : AGrows 0 a.slots.length s s' := by
  cases a with
  | newMock cls => cases h; exact .of_eq rfl rfl
  | newSpy cls => cases h; exact .of_eq rfl rfl
  | touch m slot =>
    simp only [aApi, Option.map_eq_some_iff] at h
    obtain ⟨r, h1, h2⟩ := h
    cases r with
    | none => cases h2; exact .refl _
    | some s1 => cases h2; exact mention_grows h1
  | when_ t acts u => exact aStubOne_grows h
  | fake ts => exact (aStubMany_grows h).mono (Nat.le_refl _) (by simp [Api.slots])
  | spy mv ts => exact (aStubMany_grows h).mono (Nat.le_refl _) (by simp [Api.slots])
  | assign t f => exact aStubOne_grows h
  | write a v => cases h; exact .of_eq rfl rfl
  | verify scope pat q mode => exact (aVerify_grows h).mono (Nat.le_refl _) (by simp [Api.slots])
  | verifyNoOther srcs mode => exact (aNoOther_grows h).mono (Nat.le_refl _) (by simp [Api.slots])
  | _ =>
    simp only [aApi, Option.map_eq_some_iff] at h
    obtain ⟨s1, h1, h2⟩ := h
    cases h2
    exact onMock_grows h1 rfl rfl

theorem aStep_grows {s s' : AState V E} {op : Op V E} {o : OpOut V E} (h : aStep P s op = some (o, s')) : AGrows 2 op.mentions s s' := by
  cases op with
  | call m off args =>
    simp only [aStep, Option.map_eq_some_iff] at h
    obtain ⟨r, h1, h2⟩ := h
    cases h2
    exact aCall_grows h1
  | api a =>
    simp only [aStep, Option.map_eq_some_iff] at h
    obtain ⟨r, h1, h2⟩ := h
    cases h2
    exact (aApi_grows h1).mono (by omega) (Nat.le_refl _)

theorem aRun_grows {s s' : AState V E} {ops : List (Op V E)} {os : List (OpOut V E)} (h : aRun P s ops = some (os, s')) :
    AGrows (2 * ops.length) (ops.map Op.mentions).sum s s' := by
  induction ops generalizing s os with
  | nil => cases h; exact .refl _
  | cons op ops ih =>
    simp only [aRun, Option.bind_eq_bind, Option.bind_eq_some_iff] at h
    obtain ⟨⟨o, s1⟩, h1, ⟨os1, s2⟩, h2, h3⟩ := h
    cases h3
    exact ((aStep_grows h1).trans (ih h2)).mono (by simp; omega) (by simp)

/-! ## One step -/

theorem api_refines {s s' : AState V E} {w : World V E} (hw : Wf P nm w) (h : Rel P s w) {a : Api V E} {o : ApiOut} (hn : a.Named nm) (hwr : a.Writes)
    (hs : aApi P s a = some (s', o)) (hm : s'.made < wrap32) (hl : s'.named.length < wrap32) : ∃ w', apiStep P w a = .done (w', o) ∧ Rel P s' w' := by
  cases a with
  | newMock cls => cases hs; exact ⟨_, by simp only [apiStep, h.mocks.len]; rfl, new_refines h cls false⟩
  | newSpy cls => cases hs; exact ⟨_, by simp only [apiStep, h.mocks.len]; rfl, new_refines h cls true⟩
  | destroy m =>
    simp only [aApi, Option.map_eq_some_iff] at hs
    obtain ⟨s1, h1, h2⟩ := hs
    cases h2
    obtain ⟨⟨k, hk⟩, hR⟩ := destroy_refines h h1
    exact ⟨_, by simp only [apiStep, hk], hR⟩
  | touch m slot =>
    simp only [aApi, Option.map_eq_some_iff] at hs
    obtain ⟨r, h1, h2⟩ := hs
    cases r with
    | none =>
      cases h2
      have := touch_refines hw h h1 (by intro s' h; cases h)
      exact ⟨w, by simp only [apiStep, this, R.bind_done], h⟩
    | some s1 =>
      cases h2
      obtain ⟨w', h3, hR⟩ := touch_refines hw h h1 (by intro s' h; cases h; exact hl)
      exact ⟨w', by simp only [apiStep, h3, R.bind_done], hR⟩
  | when_ t acts u => exact stubOne_refines hw h hs hl
  | fake ts => exact stubMany_refines hw h (fun t ht => hn _ (List.mem_map.2 ⟨t, ht, rfl⟩)) hs hl
  | spy mv ts => exact stubMany_refines hw h (fun t ht => hn _ (List.mem_map.2 ⟨t, ht, rfl⟩)) hs hl
  | assign t f => exact stubOne_refines hw h hs hl
  | stubData m cell v =>
    simp only [aApi, Option.map_eq_some_iff] at hs
    obtain ⟨s1, h1, h2⟩ := hs
    cases h2
    obtain ⟨⟨k, hk, hc⟩, hR⟩ := data_refines h h1 (fun k => { k with data := k.data.set cell v, members := k.members ++ [cell] }) fun k => rfl
    exact ⟨_, by simp only [apiStep, hk, hc, if_true], hR⟩
  | writeData m cell v =>
    simp only [aApi, Option.map_eq_some_iff] at hs
    obtain ⟨s1, h1, h2⟩ := hs
    cases h2
    obtain ⟨⟨k, hk, hc⟩, hR⟩ := data_refines h h1 (fun k => { k with data := k.data.set cell v }) fun k => rfl
    exact ⟨_, by simp only [apiStep, hk, hc, if_true], hR⟩
  | reset m =>
    simp only [aApi, Option.map_eq_some_iff] at hs
    obtain ⟨s1, h1, h2⟩ := hs
    cases h2
    obtain ⟨⟨k, hk⟩, hR⟩ := reset_refines h h1
    exact ⟨_, by simp only [apiStep, hk], hR⟩
  | clear m =>
    simp only [aApi, Option.map_eq_some_iff] at hs
    obtain ⟨s1, h1, h2⟩ := hs
    cases h2
    obtain ⟨⟨k, hk⟩, hR⟩ := clear_refines h h1
    exact ⟨_, by simp only [apiStep, hk], hR⟩
  | write a v =>
    cases hs
    refine ⟨_, rfl, h.mocks, h.hist, h.known, h.sorted, h.bound, ?_, h.made, h.named, h.alloc, h.meths, h.log⟩
    show (fun b => if b = a then v else w.heap b) = _
    rw [h.heap]
  | verify scope pat q mode => exact verify_refines hw h hwr (fun l hl' => hn _ (List.mem_map.2 ⟨l, hl', rfl⟩)) hs hm hl
  | verifyNoOther srcs mode => exact noOther_refines hw h (fun l hl' => hn _ (List.mem_map.2 ⟨l, hl', rfl⟩)) hs hm hl

theorem step_refines {s s' : AState V E} {w : World V E} (hw : Wf P nm w) (h : Rel P s w) {op : Op V E} {o : OpOut V E}
    (hn : op.Within (Api.Named nm) fun _ _ => True) (hwr : op.Within Api.Writes fun _ _ => True)
    (hs : aStep P s op = some (o, s')) (hm : s'.made < wrap32) (hl : s'.named.length < wrap32) (fuel : Nat) :
    ∃ w', opStep P (fuel + 3) w op = .done (o, w') ∧ Rel P s' w' := by
  cases op with
  | call m off args =>
    simp only [aStep, Option.map_eq_some_iff] at hs
    obtain ⟨⟨o1, s1⟩, h1, h2⟩ := hs
    cases h2
    obtain ⟨w', h3, hR⟩ := call_refines hw h h1 fuel
    exact ⟨w', by simp only [opStep, h3, R.bind_done], hR⟩
  | api a =>
    simp only [aStep, Option.map_eq_some_iff] at hs
    obtain ⟨⟨s1, o1⟩, h1, h2⟩ := hs
    cases h2
    obtain ⟨w', h3, hR⟩ := api_refines hw h hn hwr h1 hm hl
    exact ⟨w', by simp only [opStep, h3, R.bind_done], hR⟩

theorem run_refines (hP : P.Named nm) {s s' : AState V E} {w : World V E} (hw : Reach P nm w) (h : Rel P s w) {ops : List (Op V E)} {os : List (OpOut V E)}
    (hn : ∀ op ∈ ops, op.Within (Api.Named nm) fun _ _ => True) (hwr : ∀ op ∈ ops, op.Within Api.Writes fun _ _ => True)
    (hs : aRun P s ops = some (os, s')) (hm : s'.made < wrap32) (hl : s'.named.length < wrap32) (fuel : Nat) :
    ∃ w', runOps P (fuel + 3) w ops = .done (os, w') ∧ Rel P s' w' ∧ Reach P nm w' := by
  induction ops generalizing s w os with
  | nil => cases hs; exact ⟨w, rfl, h, hw⟩
  | cons op ops ih =>
    simp only [aRun, Option.bind_eq_bind, Option.bind_eq_some_iff] at hs
    obtain ⟨⟨o, s1⟩, h1, ⟨os1, s2⟩, h2, h3⟩ := hs
    cases h3
    have g := aRun_grows h2
    obtain ⟨w1, e1, hR1⟩ := step_refines (hw.wf hP) h (hn op (by simp)) (hwr op (by simp)) h1 (Nat.lt_of_le_of_lt g.made hm) (Nat.lt_of_le_of_lt g.named hl) fuel
    obtain ⟨w2, e2, hR2, hr2⟩ := ih (hw.step (hn op (by simp)) e1) hR1 (fun op h => hn op (by simp [h])) (fun op h => hwr op (by simp [h])) h2
    exact ⟨w2, by simp only [runOps, e1, R.bind_done, e2], hR2, hr2⟩

theorem rel_start (heap : Addr → V) : Rel P (AState.start (E := E) heap) (World.start heap) := by
  refine ⟨⟨rfl, ?_⟩, ?_, ?_, List.Pairwise.nil, ?_, rfl, rfl, rfl, rfl, ?_, All2.nil⟩
  · intro m k a hk; cases hk
  · intro m off; exact All2.nil
  · intro r hr; cases hr
  · intro r hr; cases hr
  · intro m off b hb; cases hb

/-! ## What can be seen -/

theorem MethRel.lookup {names : List (MockId × Nat)} {id : Nat} {p : Option (MockId × Nat)} (h : MethRel names id p) : methodWithId names id = p := by
  cases p with
  | none => rw [show id = 0 from h]; rfl
  | some p => obtain ⟨j, rfl, h⟩ := h; exact h

theorem RecRel.eq {names : List (MockId × Nat)} {i : Invocation V} {r : Rec V} (h : RecRel names i r) : recOf names i = r := by
  unfold recOf
  rw [h.meth.lookup, ← h.number, ← h.args, ← h.served, ← h.verified]

theorem recs_eq {names : List (MockId × Nat)} {l : List (Invocation V)} {l' : List (Rec V)} (h : All2 (RecRel names) l l') : l.map (recOf names) = l' := by
  rw [All2.map_eq (g := id) (fun _ _ => RecRel.eq) h, List.map_id]

theorem EvRel.eq {names : List (MockId × Nat)} {e : Event V} {r : Report V} (h : EvRel names e r) : reportOf names e = r := by
  cases h with
  | unexpected h => simp only [reportOf, h.eq]
  | mismatch h => simp only [reportOf, recs_eq h]
  | others h h' => simp only [reportOf, recs_eq h, recs_eq h']

theorem Rel.agrees {s : AState V E} {w : World V E} (h : Rel P s w) : Agrees s w := by
  refine ⟨?_, fun m off => recs_eq (h.hist m off), h.heap, by rw [All2.map_eq (g := id) (fun _ _ => EvRel.eq) h.log, List.map_id]⟩
  apply List.ext_getElem?
  intro m
  rw [List.getElem?_map, List.getElem?_map]
  cases ha : s.mocks[m]? with
  | none => rw [h.mocks.none ha]; rfl
  | some a =>
    obtain ⟨k, hk, MR⟩ := h.mocks.get ha
    rw [hk]
    simp [MR.cls, MR.alive, MR.data]

end FakeIt
