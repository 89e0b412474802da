import Verif.Lemmas.Patch
import Verif.Spec.ReentrantMock
/-!
# Callbacks that use mocks: the library and the re-entrant abstract mock
-/
namespace FakeIt
variable {V E : Type} {P : Prog V E} {nm : MockId → Nat → Nat}
open Spec

/-! ## Counters only grow -/

/-- The counters have not decreased. -/
def AUp (s s' : AState V E) : Prop := s.made ≤ s'.made ∧ s.named <+: s'.named

theorem AUp.refl (s : AState V E) : AUp s s := ⟨Nat.le_refl _, List.prefix_refl _⟩
theorem AUp.trans {a b c : AState V E} (h : AUp a b) (h' : AUp b c) : AUp a c := ⟨Nat.le_trans h.1 h'.1, h.2.trans h'.2⟩

theorem rSetArg_up (s : AState V E) (fr : Option (MockId × Nat × Nat)) (args : List (Arg V)) (i : Nat) (v : V) : AUp s (rSetArg s fr args i v) := by
  unfold rSetArg
  split
  · exact .refl _
  · exact ⟨Nat.le_refl _, List.prefix_refl _⟩
  · split <;> exact ⟨Nat.le_refl _, List.prefix_refl _⟩

theorem rBody_up {call : AState V E → MockId → Nat → List (Arg V) → Option (Outcome V E × AState V E)} {c : Ctx} {fr : Option (MockId × Nat × Nat)} {args : List (Arg V)}
    (hcall : ∀ s m off as o s', call s m off as = some (o, s') → AUp s s') (B : Body V E) : ∀ {s o s'}, rBody P call c fr args B s = some (o, s') → AUp s s' := by
  induction B with
  | done o => intro s o' s' h; cases h; exact .refl _
  | setArg i v k ih => intro s o s' h; exact (rSetArg_up s fr args i v).trans (ih h)
  | call m off as k ih =>
    intro s o s' h
    simp only [rBody, Option.bind_eq_bind, Option.bind_eq_some_iff] at h
    obtain ⟨⟨o1, s1⟩, h1, h2⟩ := h
    exact (hcall _ _ _ _ _ _ h1).trans (ih o1 h2)
  | api a k ih =>
    intro s o s' h
    simp only [rBody] at h
    split at h
    · cases h
    · simp only [Option.bind_eq_bind, Option.bind_eq_some_iff] at h
      obtain ⟨⟨s1, o1⟩, h1, h2⟩ := h
      have g := aApi_grows h1
      exact AUp.trans ⟨g.made, g.pre⟩ (ih o1 h2)

theorem rPerform_up {call : RCall V E} {c : Ctx} {m : MockId} {cd : ClassDecl V} {sp : Bool} {off n : Nat} {args : List (Arg V)} {s s' : AState V E} {acts : List (Act V E)} {o : Outcome V E}
    (hcall : ∀ c s m off as o s', call c s m off as = some (o, s') → AUp s s') (h : rPerform P call c m cd sp off n args s acts = some (o, s')) : AUp s s' := by
  unfold rPerform at h
  split at h
  · cases h; exact .refl _
  · exact rBody_up (hcall c) _ h
  · exact rBody_up (hcall c) _ h
  · split at h
    · cases h; exact .refl _
    · cases h; exact .refl _
    · cases h
  · rename_i mv l
    dsimp only at h
    have hmv : AUp s (if mv then onArgs s m off n (moved P) else s) := by split <;> exact ⟨Nat.le_refl _, List.prefix_refl _⟩
    refine hmv.trans ?_
    generalize (if mv = true then onArgs s m off n (moved P) else s) = s1 at h
    split at h
    · cases h; exact .refl _
    · split at h
      · exact rBody_up (hcall _) _ h
      · cases h; exact ⟨Nat.le_succ _, List.prefix_refl _⟩
  · cases h

theorem rServe_up {call : RCall V E} {c : Ctx} {m : MockId} {k : AMock V E} {off : Nat} {stubs : List (Stub V E)} {args : List (Arg V)} {s s' : AState V E} {o : Outcome V E}
    (hcall : ∀ c s m off as o s', call c s m off as = some (o, s') → AUp s s') (h : rServe P call c s m k off stubs args = some (o, s')) : AUp s s' := by
  unfold rServe at h
  split at h
  · cases h; exact ⟨Nat.le_succ _, List.prefix_refl _⟩
  · split at h
    · cases h
    · simp only [Option.bind_eq_bind, Option.bind_eq_some_iff] at h
      obtain ⟨⟨o1, s2⟩, h1, h2⟩ := h
      have g := rPerform_up hcall h1
      have g' : AUp s s2 := ⟨Nat.le_trans (Nat.le_succ _) g.1, g.2⟩
      dsimp only at h2
      split at h2
      · split at h2
        · cases h2; exact g'
        · cases h2
      · cases h2; exact g'

theorem rCall_up (fuel : Nat) : ∀ {c : Ctx} {s : AState V E} {m off args o s'}, rCall P fuel c s m off args = some (o, s') → AUp s s' := by
  induction fuel with
  | zero => intro c s m off args o s' h; cases h
  | succ fuel ih =>
    intro c s m off args o s' h
    unfold rCall at h
    split at h
    · cases h
    · dsimp only at h
      split at h
      · split at h
        · exact rBody_up (fun _ _ _ _ _ _ h => ih h) _ h
        · split at h
          · exact rServe_up (fun _ _ _ _ _ _ _ h => ih h) h
          · split at h
            · exact rBody_up (fun _ _ _ _ _ _ h => ih h) _ h
            · split at h
              · cases h; exact .refl _
              · cases h; exact ⟨Nat.le_succ _, List.prefix_refl _⟩
      · cases h

/-! ## What is going on goes on -/

theorem Goes.updBody {m : Nat} {w w' : World V E} (m' off : Nat) (f : MBody V E → MBody V E) (hw' : w'.mocks = (w.updBody m' off f).mocks) (ha : w.alloc ≤ w'.alloc)
    (hf : ∀ b, (f b).handlers = b.handlers) : Goes P m w w' := by
  refine .updMock m' _ hw' ha fun _ k _ => ⟨rfl, rfl, fun o b hb => ⟨?_, fun _ => rfl⟩⟩
  simp only [Mock.updBody, List.getElem?_modify, hb]
  by_cases ho : off = o
  · simp only [ho, if_true, Option.map_eq_map, Option.map_some]
    exact ⟨f b, rfl, fun h hd e => by rw [hf]; exact e⟩
  · simp only [ho, if_false]
    exact ⟨b, rfl, fun _ _ h => h⟩

theorem Holds.updBody {w w' : World V E} (m off : Nat) (f : MBody V E → MBody V E) (hw' : w'.mocks = (w.updBody m off f).mocks) (ha : w.alloc ≤ w'.alloc)
    (hf : ∀ b, (f b).handlers = b.handlers) : Holds w w' :=
  .updMock m _ hw' ha fun k _ o h i a _ e => by rw [acting_updBody fun b _ => by rw [hf]]; exact e

/-- What is going on goes on if nothing has happened to the handlers, or to what is in the way of destroying them. -/
theorem Patch.Ok.step {p : Patch V E} {w w' : World V E} (hp : p.Ok P w) (hg : p.Frail → Goes P p.mock w w') (hh : Holds w w') : p.Ok P w' := by
  by_cases hfr : p.Frail
  · exact (hg hfr).ok hfr hp
  · exact hh.ok hfr hp

theorem Patch.Ok.same {p : Patch V E} {w w' : World V E} (hp : p.Ok P w) (hw' : w'.mocks = w.mocks) (ha : w.alloc ≤ w'.alloc) : p.Ok P w' :=
  hp.step (fun _ => .same hw' ha) (.same hw' ha)

theorem find_setSeq (hs : List (Handler V E)) (a h : Addr) (q : ActionSeq V E) :
    (setSeq hs a q).find? (·.addr == h) = (hs.find? (·.addr == h)).map fun x => if h = a then { x with seq := q } else x := by
  induction hs with
  | nil => rfl
  | cons x l ih =>
    simp only [setSeq, List.map_cons]
    by_cases hx : x.addr = h
    · by_cases hxa : x.addr = a
      · have : h = a := hx.symm.trans hxa
        simp [hxa, this]
      · have : h ≠ a := by rw [← hx]; exact hxa
        simp [hx, this]
    · have e : (if x.addr == a then { x with seq := q } else x : Handler V E).addr = x.addr := by split <;> rfl
      rw [List.find?_cons_of_neg (by rw [e]; simpa using hx), List.find?_cons_of_neg (by simpa using hx)]
      exact ih

theorem handler_set {w w' : World V E} {m off : Nat} {a : Addr} {q : ActionSeq V E} {f : MBody V E → MBody V E} (hw' : w'.mocks = (w.updBody m off f).mocks)
    (hf : ∀ b, (f b).handlers = setSeq b.handlers a q) (m' off' : Nat) (h : Addr) :
    w'.handler? m' off' h = (w.handler? m' off' h).map fun x => if m' = m ∧ off' = off ∧ h = a then { x with seq := q } else x := by
  have hb : w'.body? m' off' = (w.updBody m off f).body? m' off' := by simp only [World.body?, hw']
  simp only [World.handler?, hb, World.body?_updBody]
  by_cases hc : m = m' ∧ off = off'
  · obtain ⟨rfl, rfl⟩ := hc
    simp only [and_self, if_true, true_and]
    cases w.body? m off with
    | none => rfl
    | some b => simp only [Option.map_some, Option.bind_some, hf, find_setSeq]
  · rw [if_neg hc]
    have : ∀ x : Handler V E, (if m' = m ∧ off' = off ∧ h = a then { x with seq := q } else x) = x := by
      intro x
      rw [if_neg]
      rintro ⟨rfl, rfl, -⟩
      exact hc ⟨rfl, rfl⟩
    simp [this]

/-- A handler's script is replaced; actions that cannot be used up stay. -/
theorem Patch.Ok.setSeq {p : Patch V E} {w w' : World V E} {m off : Nat} {a : Addr} {q : ActionSeq V E} {f : MBody V E → MBody V E} (hp : p.Ok P w)
    (hw' : w'.mocks = (w.updBody m off f).mocks) (ha : w.alloc ≤ w'.alloc) (hf : ∀ b, (f b).handlers = FakeIt.setSeq b.handlers a q)
    (hne : ∀ i q1 q2, p ≠ .seq m off a i q1 q2) (hsp : ∀ i act, p = .spare m off a i act → act.tick = act)
    (hq : ∀ hd, w.handler? m off a = some hd → ∀ (i : Nat) act, hd.seq.objs[i]? = some act → act.tick = act → q.objs[i]? = some act) : p.Ok P w' := by
  cases p with
  | spare m' o h i act =>
    obtain ⟨h0, h1, h2, h3⟩ := hp
    refine ⟨by rw [hw']; simpa [World.updBody, World.updMock] using h0, Nat.le_trans h1 ha, ?_, h3⟩
    have ho : w'.orphan? m' o h i = w.orphan? m' o h i := by
      simp only [World.orphan?, hw', World.updBody, World.mocks_updMock]
      split
      · cases w.mocks[m']? <;> rfl
      · rfl
    unfold World.acting? at h2 ⊢
    rw [handler_set hw' hf, ho]
    cases hh : w.handler? m' o h with
    | none => rw [hh] at h2; exact h2
    | some hd =>
      rw [hh] at h2
      simp only [Option.map_some]
      split
      · rename_i hc
        obtain ⟨rfl, rfl, rfl⟩ := hc
        exact hq hd hh i act h2 (hsp i act rfl)
      · exact h2
  | seq m' o h i q1 q2 =>
    obtain ⟨h1, ⟨hd, h2, h3⟩, h4⟩ := hp
    refine ⟨Nat.le_trans h1 ha, ⟨hd, ?_, h3⟩, h4⟩
    rw [handler_set hw' hf, h2]
    simp only [Option.map_some]
    rw [if_neg]
    rintro ⟨rfl, rfl, rfl⟩
    exact hne i q1 q2 rfl
  | calm m' o h i act =>
    obtain ⟨⟨hd, h2, h3⟩, h4, h5⟩ := hp
    refine ⟨⟨_, by rw [handler_set hw' hf, h2]; rfl, ?_⟩, h4, h5⟩
    split
    · rename_i hc
      obtain ⟨rfl, rfl, rfl⟩ := hc
      exact hq hd h2 i act h3 h4
    · exact h3
  | vt m' o c x =>
    obtain ⟨k, b, hk, hal, hb, hv, hx, hd⟩ := hp
    rw [Patch.Ok, hw', World.updBody, World.mocks_updMock, hk]
    by_cases hm : m = m'
    · subst hm
      refine ⟨k.updBody off f, if off = o then f b else b, by simp, hal, ?_, hv, hx, hd⟩
      simp only [Mock.updBody, List.getElem?_modify, hb]
      by_cases ho : off = o <;> simp [ho]
    · exact ⟨k, b, by simp [hm], hal, hb, hv, hx, hd⟩

/-- A table entry is replaced. -/
theorem Patch.Ok.setVt {p : Patch V E} {w : World V E} {m off : Nat} {y : Code} (hp : p.Ok P w) (hne : ∀ c x, p ≠ .vt m off c x) : p.Ok P (w.setVt m off y) := by
  have hb : ∀ m' off', (w.setVt m off y).body? m' off' = w.body? m' off' := by
    intro m' off'
    simp only [World.setVt, World.body?, World.mocks_updMock]
    split
    · rename_i hm; subst hm; cases w.mocks[m]? <;> rfl
    · rfl
  cases p with
  | spare m' o h i act =>
    obtain ⟨h0, h1, h2, h3⟩ := hp
    refine ⟨by simpa [World.setVt, World.updMock] using h0, h1, ?_, h3⟩
    have ho : (w.setVt m off y).orphan? m' o h i = w.orphan? m' o h i := by
      simp only [World.orphan?, World.setVt, World.mocks_updMock]
      split
      · cases w.mocks[m']? <;> rfl
      · rfl
    unfold World.acting? at h2 ⊢
    rw [ho, World.handler?, hb]
    exact h2
  | seq m' o h i q1 q2 =>
    obtain ⟨h1, ⟨hd, h2, h3⟩, h4⟩ := hp
    exact ⟨h1, ⟨hd, by rw [World.handler?, hb]; exact h2, h3⟩, h4⟩
  | calm m' o h i act =>
    obtain ⟨⟨hd, h2, h3⟩, h4⟩ := hp
    exact ⟨⟨hd, by rw [World.handler?, hb]; exact h2, h3⟩, h4⟩
  | vt m' o c x =>
    obtain ⟨k, b, hk, hal, hb, hv, hx, hd⟩ := hp
    rw [Patch.Ok, World.setVt, World.mocks_updMock, hk]
    by_cases hm : m = m'
    · subst hm
      have ho : off ≠ o := by rintro rfl; exact hne c x rfl
      exact ⟨{ k with vt := k.vt.set off y }, b, by simp, hal, hb, by rw [List.getElem?_set, if_neg ho]; exact hv, hx, hd⟩
    · exact ⟨k, b, by simp [hm], hal, hb, hv, hx, hd⟩

/-! ## The relation -/

/-- The state of the library in the middle of calls, and the abstract state. -/
structure Sim (P : Prog V E) (nm : MockId → Nat → Nat) (ps : List (Patch V E)) (s : AState V E) (w : World V E) : Prop where
  rel : Rel P s (patch ps w)
  wf : Wf P nm (patch ps w)
  ok : ∀ p ∈ ps, p.Ok P w

/-- What is going on, on both sides. -/
structure CtxRel (c : Ctx) (ps : List (Patch V E)) : Prop where
  busy : ∀ m off (h : Addr) i q q', Patch.seq m off h i q q' ∈ ps → ∃ n : Nat, n ∈ c.busy ∧ h = n + 1
  spare : ∀ m off (h : Addr) i (a : Act V E), Patch.spare m off h i a ∈ ps → a.tick = a ∨ ∃ n : Nat, n ∈ c.busy ∧ h = n + 1
  bypass : ∀ m off, (m, off) ∈ c.bypass ↔ ∃ y x, Patch.vt m off y x ∈ ps
  active : ∀ p ∈ ps, p.Frail → p.mock ∈ c.active

section
variable {c : Ctx} {ps : List (Patch V E)} (hc : CtxRel c ps)
include hc

/-- Something more is going on. -/
theorem CtxRel.push {c' : Ctx} {p : Patch V E} (hb : c.busy ⊆ c'.busy) (ha : c.active ⊆ c'.active) (hfr : p.Frail → p.mock ∈ c'.active)
    (hseq : ∀ m off h i q q', p = .seq m off h i q q' → ∃ n : Nat, n ∈ c'.busy ∧ h = n + 1)
    (hsp : ∀ m off h i a, p = .spare m off h i a → a.tick = a ∨ ∃ n : Nat, n ∈ c'.busy ∧ h = n + 1)
    (hby : ∀ m off, (m, off) ∈ c'.bypass ↔ (m, off) ∈ c.bypass ∨ ∃ y x, p = .vt m off y x) : CtxRel c' (p :: ps) := by
  refine ⟨fun m off h i q q' hmem => ?_, fun m off h i a hmem => ?_, fun m off => ?_, fun p' hp' hf => ?_⟩
  · rcases List.mem_cons.1 hmem with e | hmem
    · exact hseq _ _ _ _ _ _ e.symm
    · obtain ⟨n, h1, h2⟩ := hc.busy _ _ _ _ _ _ hmem
      exact ⟨n, hb h1, h2⟩
  · rcases List.mem_cons.1 hmem with e | hmem
    · exact hsp _ _ _ _ _ e.symm
    · rcases hc.spare _ _ _ _ _ hmem with h | ⟨n, h1, h2⟩
      · exact .inl h
      · exact .inr ⟨n, hb h1, h2⟩
  · rw [hby, hc.bypass]
    constructor
    · rintro (⟨y, x, h⟩ | ⟨y, x, rfl⟩)
      · exact ⟨y, x, List.mem_cons_of_mem _ h⟩
      · exact ⟨y, x, List.mem_cons_self ..⟩
    · rintro ⟨y, x, h⟩
      rcases List.mem_cons.1 h with e | h
      · exact .inr ⟨y, x, e.symm⟩
      · exact .inl ⟨y, x, h⟩
  · rcases List.mem_cons.1 hp' with rfl | hp'
    · exact hfr hf
    · exact ha (hc.active p' hp' hf)

/-- An original method is run. -/
theorem CtxRel.vt {m off : Nat} (hm : m ∈ c.active) (y x : Code) : CtxRel { c with bypass := (m, off) :: c.bypass } (Patch.vt m off y x :: ps) := by
  refine hc.push (List.Subset.refl _) (List.Subset.refl _) (fun _ => hm) (by intros; contradiction) (by intros; contradiction) fun m' off' => ?_
  simp only [List.mem_cons, Prod.mk.injEq]
  constructor
  · rintro (⟨rfl, rfl⟩ | h)
    · exact .inr ⟨_, _, rfl⟩
    · exact .inl h
  · rintro (h | ⟨y, x, e⟩)
    · exact .inr h
    · cases e; exact .inl ⟨rfl, rfl⟩

omit hc in
theorem CtxRel.enter_busy (c : Ctx) (m : Nat) (st : Stub V E) : c.busy ⊆ (c.enter m st).busy := by
  simp only [Ctx.enter]
  split
  · exact List.subset_cons_self ..
  · exact List.Subset.refl _

omit hc in
theorem CtxRel.enter_active (c : Ctx) (m : Nat) (st : Stub V E) : c.active ⊆ (c.enter m st).active := by
  simp only [Ctx.enter]
  split
  · exact List.Subset.refl _
  · exact List.subset_cons_self ..

/-- The last use of an entry is being performed. -/
theorem CtxRel.seq {m off : Nat} {st : Stub V E} (hcnt : counted st.script = true) (hend : enduring st.script = false) {h : Addr} (hh : h = st.name + 1) (i : Nat) (q q' : ActionSeq V E) :
    CtxRel (c.enter m st) (Patch.seq m off h i q q' :: ps) := by
  refine hc.push (CtxRel.enter_busy c m st) (CtxRel.enter_active c m st) (fun _ => ?_) ?_ (by intros; contradiction) fun m' off' => ?_
  · simp only [Ctx.enter, hend, Bool.false_eq_true, if_false]; exact List.mem_cons_self ..
  · intro m' off' h' i' q1 q2 e
    cases e
    exact ⟨st.name, by simp [Ctx.enter, hcnt], hh⟩
  · simp [Ctx.enter]

/-- Something that cannot be used up is being performed. -/
theorem CtxRel.calm {m off : Nat} {st : Stub V E} (hend : enduring st.script = false) (h : Addr) (i : Nat) (a : Act V E) : CtxRel (c.enter m st) (Patch.calm m off h i a :: ps) := by
  refine hc.push (CtxRel.enter_busy c m st) (CtxRel.enter_active c m st) (fun _ => ?_) (by intros; contradiction) (by intros; contradiction) fun m' off' => ?_
  · simp only [Ctx.enter, hend, Bool.false_eq_true, if_false]; exact List.mem_cons_self ..
  · simp [Ctx.enter]

/-- A function of an entry with more uses is being performed. -/
theorem CtxRel.endure {m off : Nat} {st : Stub V E} {h : Addr} (hh : h = st.name + 1) (i : Nat) {a : Act V E} (ha : counted st.script = false → a.tick = a) :
    CtxRel (c.enter m st) (Patch.spare m off h i a :: ps) := by
  refine hc.push (CtxRel.enter_busy c m st) (CtxRel.enter_active c m st) (fun hf => hf.elim) (by intros; contradiction) ?_ fun m' off' => ?_
  · intro m' off' h' i' a' e
    cases e
    cases hcnt : counted st.script with
    | false => exact .inl (ha hcnt)
    | true => exact .inr ⟨st.name, by simp [Ctx.enter, hcnt], hh⟩
  · simp [Ctx.enter]

end

/-- The recorded arguments of one call change. -/
theorem Rel.onArgs {s : AState V E} {w : World V E} (h : Rel P s w) (m off n : Nat) (f : List (Arg V) → List (Arg V)) :
    Rel P (onArgs s m off n f) (w.updInv m off n fun i => { i with args := f i.args }) := by
  have hb : ∀ m' off', (w.updInv m off n fun i => { i with args := f i.args }).body? m' off' =
      if m = m' ∧ off = off' then (w.body? m' off').map (fun b => { b with invs := b.invs.map fun i => if i.uid == n then { i with args := f i.args } else i }) else w.body? m' off' :=
    fun m' off' => World.body?_updBody _ _ _ _ _ _
  have hmap : ∀ r : Rec V, (if isCall m off n r then { r with args := f r.args } else r).number = r.number ∧ (if isCall m off n r then { r with args := f r.args } else r).meth = r.meth := by
    intro r; split <;> exact ⟨rfl, rfl⟩
  refine ⟨?_, fun m' off' => ?_, ?_, ?_, ?_, h.heap, h.made, h.named, h.alloc, ?_, h.log⟩
  · have : MocksRel P (w.mocks.modify m fun k => k.updBody off fun b => { b with invs := b.invs.map fun i => if i.uid == n then { i with args := f i.args } else i })
        (s.mocks.modify m id) := by
      refine h.mocks.modify m fun k a hk ha => ?_
      have R := h.mocks.mock m k a hk ha
      refine ⟨R.cls, R.owner, R.alive, R.data, fun o => ?_, fun hr o ho => ?_, R.reset, R.del⟩
      · have := R.body o
        rw [body?_updBody_mock]
        split
        · rename_i ho
          cases hx : k.body? o with
          | none => rw [hx] at this; exact this
          | some b => rw [hx] at this; show BRel _ (a.stubs o); revert this; cases a.stubs o <;> exact id
        · exact this
      · refine R.fresh hr o ?_
        simp only [Mock.updBody, List.getElem?_modify] at ho
        cases hx : k.mocks[o]? with
        | none => rw [hx] at ho; cases ho
        | some x =>
          rw [hx] at ho
          cases x with
          | none => rfl
          | some b => split at ho <;> cases ho
    rw [List.modify_id] at this
    exact this
  · have hh := h.hist m' off'
    have hcalls : callsOf (Spec.onArgs s m off n f).calls m' off' = (callsOf s.calls m' off').map fun r => if isCall m off n r then { r with args := f r.args } else r := by
      simp only [callsOf, Spec.onArgs, List.filter_map]
      congr 1
      apply List.filter_congr
      intro r _
      simp only [Function.comp_apply, (hmap r).2]
    rw [hcalls]
    by_cases hc : m = m' ∧ off = off'
    · obtain ⟨rfl, rfl⟩ := hc
      have : history (w.updInv m off n fun i => { i with args := f i.args }) m off = (history w m off).map fun i => if i.uid == n then { i with args := f i.args } else i := by
        simp only [history, hb, and_self, if_true]
        cases w.body? m off <;> rfl
      rw [this]
      refine All2.map (R := fun x y => RecRel s.named x y ∧ x ∈ history w m off ∧ y ∈ callsOf s.calls m off) ?_ hh.withMem
      rintro i r ⟨hir, -, hr⟩
      have hmeth : r.meth = some (m, off) := by simpa [callsOf] using (List.mem_filter.1 hr).2
      have e : isCall m off n r = (i.uid == n) := by simp [isCall, hmeth, hir.number]
      rw [e]
      split
      · exact ⟨hir.number, by rw [hir.args], hir.served, hir.verified, hir.meth⟩
      · exact hir
    · have : history (w.updInv m off n fun i => { i with args := f i.args }) m' off' = history w m' off' := by
        simp only [history, hb, if_neg hc]
      rw [this]
      have e : ((callsOf s.calls m' off').map fun r => if isCall m off n r then { r with args := f r.args } else r) = callsOf s.calls m' off' := by
        conv => rhs; rw [← List.map_id (callsOf s.calls m' off')]
        apply List.map_congr_left
        intro r hr
        have hmeth : r.meth = some (m', off') := by simpa [callsOf] using (List.mem_filter.1 hr).2
        rw [if_neg]; · rfl
        simp only [isCall, hmeth, Bool.and_eq_true, beq_iff_eq, Option.some.injEq, Prod.mk.injEq]
        rintro ⟨⟨rfl, rfl⟩, -⟩
        exact hc ⟨rfl, rfl⟩
      rw [e]; exact hh
  · intro r hr
    obtain ⟨r0, hr0, rfl⟩ := List.mem_map.1 hr
    rw [(hmap r0).2]; exact h.known r0 hr0
  · refine List.pairwise_map.2 (h.sorted.imp ?_)
    intro a b hab
    rw [(hmap a).1, (hmap b).1]; exact hab
  · intro r hr
    obtain ⟨r0, hr0, rfl⟩ := List.mem_map.1 hr
    rw [(hmap r0).1]; exact h.bound r0 hr0
  · intro m' off' b' hb'
    rw [hb] at hb'
    split at hb'
    · obtain ⟨b0, hb0, rfl⟩ := Option.map_eq_some_iff.1 hb'
      exact h.meths m' off' b0 hb0
    · exact h.meths m' off' b' hb'

section
variable {ps : List (Patch V E)} {s : AState V E} {w : World V E}

theorem Sim.heap (h : Sim P nm ps s w) : w.heap = s.heap := by rw [← h.rel.heap, patch_heap]
theorem Sim.made (h : Sim P nm ps s w) : w.invTotal = s.made := by rw [← h.rel.made, patch_invTotal]

theorem Sim.updInv (h : Sim P nm ps s w) (m off n : Nat) (f : List (Arg V) → List (Arg V)) {args : List (Arg V)} (hf : KeepsForm args f) :
    Sim P nm ps (onArgs s m off n f) (w.updInv m off n fun i => { i with args := f i.args }) := by
  refine ⟨?_, ?_, fun p hp => ?_⟩
  · rw [← patch_updInv]; exact h.rel.onArgs m off n f
  · rw [← patch_updInv]; exact (stable2.setArgs _ m off n args f h.wf.inv2 trivial hf).wf h.wf
  · exact (h.ok p hp).step (fun _ => Goes.updBody (P := P) (w' := w.updInv m off n fun i => { i with args := f i.args }) m off
      (fun b => { b with invs := b.invs.map fun i => if i.uid == n then { i with args := f i.args } else i }) rfl (Nat.le_refl _) (fun _ => rfl))
      (Holds.updBody (w' := w.updInv m off n fun i => { i with args := f i.args }) m off
      (fun b => { b with invs := b.invs.map fun i => if i.uid == n then { i with args := f i.args } else i }) rfl (Nat.le_refl _) (fun _ => rfl))

theorem Sim.write (h : Sim P nm ps s w) (a : Addr) (v : V) : Sim P nm ps { s with heap := fun b => if b = a then v else s.heap b } (w.write a v) := by
  refine ⟨?_, ?_, fun p hp => (h.ok p hp).same rfl (Nat.le_refl _)⟩
  · rw [← patch_write]
    have R := h.rel
    refine ⟨R.mocks, R.hist, R.known, R.sorted, R.bound, ?_, R.made, R.named, R.alloc, R.meths, R.log⟩
    show (fun b => if b = a then v else (patch ps w).heap b) = _
    rw [R.heap]
  · rw [← patch_write]; exact (stable2.write _ a v h.wf.inv2).wf h.wf

/-- The number of a call is taken and something is reported. -/
theorem Sim.report (h : Sim P nm ps s w) (e : Event V) (r : Report V) (her : EvRel s.named e r) :
    Sim P nm ps { s with made := s.made + 1, log := s.log ++ [r] } (w.bumpInv.fire e) := by
  refine ⟨?_, ?_, fun p hp => (h.ok p hp).same rfl (Nat.le_refl _)⟩
  · rw [← patch_fire, ← patch_bump]
    have R := h.rel.counters (heap := s.heap) (n := s.made + 1) (Nat.le_succ _) (h.rel.log.append (.cons her .nil))
    have e2 : (patch ps w).bumpInv.fire e = { patch ps w with heap := s.heap, invTotal := s.made + 1, log := (patch ps w).log ++ [e] } := by
      rw [← h.rel.heap, ← h.rel.made]; rfl
    rw [e2]; exact R
  · rw [← patch_fire, ← patch_bump]
    have h1 := (stable2.bump _ h.wf.inv2).wf h.wf
    exact (stable2.fire _ e h1.inv2).wf h1

theorem Sim.fire (h : Sim P nm ps s w) (e : Event V) (r : Report V) (her : EvRel s.named e r) :
    Sim P nm ps { s with log := s.log ++ [r] } (w.fire e) := by
  refine ⟨?_, ?_, fun p hp => (h.ok p hp).same rfl (Nat.le_refl _)⟩
  · rw [← patch_fire]
    have R := h.rel
    exact ⟨R.mocks, R.hist, R.known, R.sorted, R.bound, R.heap, R.made, R.named, R.alloc, R.meths, R.log.append (.cons her .nil)⟩
  · rw [← patch_fire]; exact (stable2.fire _ e h.wf.inv2).wf h.wf

theorem ends_spares {c : Ctx} (hc : CtxRel c ps) {a : Api V E} (he : ends c.active a = false) : ∀ p ∈ ps, p.Frail → a.Spares p.mock := by
  intro p hp hfr
  have := hc.active p hp hfr
  cases a <;> first
    | trivial
    | (intro e; subst e; simp [ends, this] at he)

theorem Sim.api {c : Ctx} (hc : CtxRel c ps) (h : Sim P nm ps s w) {a : Api V E} (hn : a.Named nm) (hwr : a.Writes) (he : ends c.active a = false) {s' : AState V E} {o : ApiOut}
    (hs : aApi P s a = some (s', o)) (hm : s'.made < wrap32) (hl : s'.named.length < wrap32) : ∃ w', apiStep P w a = .done (w', o) ∧ Sim P nm ps s' w' := by
  obtain ⟨v, e, hR⟩ := api_refines h.wf h.rel hn hwr hs hm hl
  have hq := patch_api (a := a) (fun p hp => (h.ok p hp).fit) (ends_spares hc he)
  rw [e] at hq
  cases ew : apiStep P w a with
  | ub => rw [ew] at hq; exact hq.elim
  | oof => rw [ew] at hq; exact hq.elim
  | done x =>
    obtain ⟨w', o'⟩ := x
    rw [ew] at hq
    obtain ⟨rfl, hv⟩ := hq
    simp only at hv
    subst hv
    refine ⟨w', rfl, hR, (stable2.api h.wf.inv2 hn e).wf h.wf, fun p hp => ?_⟩
    exact (h.ok p hp).step (fun hfr => apiStep_stable (apiStableGoes p.mock) trivial (ends_spares hc he p hp hfr) ew) (apiStep_stable apiStableHolds trivial trivial ew)

/-- The frame of a callback on both sides. -/
def frameOf (fr : Option (MockId × Nat × Nat)) : Option Frame := fr.map fun x => ⟨x.1, x.2.1, x.2.2⟩

theorem Sim.setArg (h : Sim P nm ps s w) (fr : Option (MockId × Nat × Nat)) (args : List (Arg V)) (i : Nat) (v : V) :
    Sim P nm ps (rSetArg s fr args i v) (setArg w (frameOf fr) args i v) := by
  unfold FakeIt.setArg rSetArg
  cases hi : args[i]? with
  | none => exact h
  | some x =>
    cases x with
    | ref a => exact h.write a v
    | val x =>
      cases fr with
      | none => exact h
      | some f => exact h.updInv f.1 f.2.1 f.2.2 _ (keepsForm_set hi)

end

/-- Nested calls agree. -/
def CallSim (P : Prog V E) (nm : MockId → Nat → Nat) (rc : AState V E → MockId → Nat → List (Arg V) → Option (Outcome V E × AState V E)) (call : CallFn V E)
    (ps : List (Patch V E)) : Prop :=
  ∀ s w m off args o s', Sim P nm ps s w → rc s m off args = some (o, s') → s'.made < wrap32 → s'.named.length < wrap32 →
    ∃ w', call w m off args = .done (o, w') ∧ Sim P nm ps s' w'

theorem body_sim {rc : AState V E → MockId → Nat → List (Arg V) → Option (Outcome V E × AState V E)} {call : CallFn V E} {ps : List (Patch V E)} {c : Ctx} (hc : CtxRel c ps)
    (hcall : CallSim P nm rc call ps) (hup : ∀ s m off as o s', rc s m off as = some (o, s') → AUp s s') (fr : Option (MockId × Nat × Nat)) (args : List (Arg V)) (B : Body V E) :
    B.Within (fun a => a.Named nm ∧ a.Writes) (fun _ _ => True) → ∀ {s w o s'}, Sim P nm ps s w → rBody P rc c fr args B s = some (o, s') → s'.made < wrap32 → s'.named.length < wrap32 →
    ∃ w', runBody P call (frameOf fr) args B w = .done (o, w') ∧ Sim P nm ps s' w' := by
  induction B with
  | done o => intro _ s w o' s' hS h _ _; cases h; exact ⟨w, rfl, hS⟩
  | setArg i v k ih => intro hB s w o s' hS h hm hl; exact ih hB (hS.setArg fr args i v) h hm hl
  | call m off as k ih =>
    intro hB s w o s' hS h hm hl
    simp only [rBody, Option.bind_eq_bind, Option.bind_eq_some_iff] at h
    obtain ⟨⟨o1, s1⟩, h1, h2⟩ := h
    have g := rBody_up hup _ h2
    obtain ⟨w1, e1, hS1⟩ := hcall _ _ _ _ _ _ _ hS h1 (Nat.lt_of_le_of_lt g.1 hm) (Nat.lt_of_le_of_lt g.2.length_le hl)
    obtain ⟨w2, e2, hS2⟩ := ih o1 (hB.2 o1) hS1 h2 hm hl
    exact ⟨w2, by simp only [runBody, e1, R.bind_done, e2], hS2⟩
  | api a k ih =>
    intro hB s w o s' hS h hm hl
    simp only [rBody] at h
    split at h
    · cases h
    · rename_i he
      simp only [Option.bind_eq_bind, Option.bind_eq_some_iff] at h
      obtain ⟨⟨s1, o1⟩, h1, h2⟩ := h
      have g := rBody_up hup _ h2
      obtain ⟨w1, e1, hS1⟩ := hS.api hc hB.1.1 hB.1.2 (by simpa using he) h1 (Nat.lt_of_le_of_lt g.1 hm) (Nat.lt_of_le_of_lt g.2.length_le hl)
      obtain ⟨w2, e2, hS2⟩ := ih o1 (hB.2 o1) hS1 h2 hm hl
      exact ⟨w2, by simp only [runBody, e1, R.bind_done, e2], hS2⟩

/-! ## Performing an action -/

/-- What the program may do anywhere. -/
def Tame (P : Prog V E) (nm : MockId → Nat → Nat) : Prop := ∀ f vs, (P.fn f vs).Within (fun a => a.Named nm ∧ a.Writes) (fun _ _ => True)

/-- Nested calls of the abstract mock, at most `n` deep, are simulated. -/
def Nested (P : Prog V E) (nm : MockId → Nat → Nat) (n : Nat) : Prop :=
  ∀ c (ps : List (Patch V E)), CtxRel c ps → ∀ F, 3 * n ≤ F → CallSim P nm (rCall P n c) (callSlot P F) ps

theorem codeOf_eq (vs : List V) (f : Fn V E) : codeOf P vs f = f.code P vs := by cases f <;> rfl

theorem codeOf_within (ht : Tame P nm) (vs : List V) (f : Fn V E) : (codeOf P vs f).Within (fun a => a.Named nm ∧ a.Writes) (fun _ _ => True) := by
  cases f with
  | ret v => trivial
  | thr e => trivial
  | user f => exact ht f vs

theorem moved_eq (args : List (Arg V)) : moveArgs P args = moved P args := rfl

theorem Sim.unmocked {ps : List (Patch V E)} {s : AState V E} {w : World V E} (h : Sim P nm ps s w) : (unmockedCall w).1 = (unstubbed s).1 ∧ Sim P nm ps (unstubbed s).2 (unmockedCall w).2 := by
  refine ⟨rfl, ?_⟩
  exact h.report (.unexpectedCall .unmocked { uid := w.invTotal + 1, ordinal := (w.invTotal + 1) % wrap32, method := 0, args := [], verified := false, matcher := none })
    (.unexpected .unmocked ⟨none, s.made + 1, [], none, false⟩) (.unexpected ⟨by rw [h.made], rfl, rfl, rfl, rfl⟩)

theorem mock_patched {ps : List (Patch V E)} {s : AState V E} {w : World V E} (h : Sim P nm ps s w) {m : Nat} {a : AMock V E} (ha : s.mocks[m]? = some a) :
    ∃ k, w.mocks[m]? = some k ∧ MRel P a (patchM ps m k) := by
  obtain ⟨k', hk', MR⟩ := h.rel.mocks.get ha
  rw [patch_mocks] at hk'
  obtain ⟨k, hk, rfl⟩ := Option.map_eq_some_iff.1 hk'
  exact ⟨k, hk, MR⟩

theorem body_of_patched {ps : List (Patch V E)} {w : World V E} {m off : Nat} {b' : MBody V E} (h : (patch ps w).body? m off = some b') :
    ∃ b, w.body? m off = some b ∧ b' = patchB ps m off b := by
  rw [patch_body] at h
  obtain ⟨b, hb, rfl⟩ := Option.map_eq_some_iff.1 h
  exact ⟨b, hb, rfl⟩

theorem native_call {w : World V E} {m off : Nat} {k : Mock V E} (hk : w.mocks[m]? = some k) (hal : k.alive = true ∨ k.owner = false) {f : Nat}
    (hv : k.vt[off]? = some (.native f)) (args : List (Arg V)) (F : Nat) :
    callSlot P (F + 1) w m off args = runBody P (callSlot P F) none args (P.fn f (valuesOf w.heap args)) w := by
  have hc : (!k.alive && k.owner) = false := by rcases hal with h | h <;> simp [h]
  simp only [callSlot, hk, hc, hv, runCode, Bool.false_eq_true, if_false, derefAll_eq]

theorem perform_sim (ht : Tame P nm) {n : Nat} (hn : Nested P nm n) {c : Ctx} {ps : List (Patch V E)} (hc : CtxRel c ps) {s s' : AState V E} {w : World V E} (hS : Sim P nm ps s w)
    {m off : Nat} {a : AMock V E} (ha : s.mocks[m]? = some a) {stubs : List (Stub V E)} (hst : a.stubs off = some stubs) (hby : (m, off) ∉ c.bypass)
    {uid : Nat} {args : List (Arg V)} {acts : List (Act V E)} (hact : enduring acts = false → m ∈ c.active) {o : Outcome V E}
    (h : rPerform P (rCall P n) c m (P.cls a.cls) a.spied off uid args s acts = some (o, s')) (hm : s'.made < wrap32) (hl : s'.named.length < wrap32) {F : Nat} (hF : 3 * n ≤ F) :
    ∃ w', invokeAct P (callSlot P (F + 1)) w ⟨m, off, uid⟩ args (headAct acts) = .done (o, w') ∧ Sim P nm ps s' w' := by
  have hcs : CallSim P nm (rCall P n c) (callSlot P (F + 1)) ps := hn c ps hc _ (Nat.le_succ_of_le hF)
  have hfn : ∀ f : Fn V E, rBody P (rCall P n c) c (some (m, off, uid)) args (codeOf P (valuesOf s.heap args) f) s = some (o, s') →
      ∃ w', runBody P (callSlot P (F + 1)) (some ⟨m, off, uid⟩) args (f.code P (derefAll w.heap args)) w = .done (o, w') ∧ Sim P nm ps s' w' := by
    intro f hf
    rw [derefAll_eq, hS.heap, ← codeOf_eq]
    exact body_sim hc hcs (fun _ _ _ _ _ _ h => rCall_up n h) (some (m, off, uid)) args _ (codeOf_within ht _ f) hS hf hm hl
  cases acts with
  | nil => cases h; exact ⟨w, rfl, hS⟩
  | cons act l =>
    cases act with
    | rep t f => exact hfn f h
    | forever f => exact hfn f h
    | noMore => cases h
    | dflt =>
      obtain ⟨k, hk, MR⟩ := mock_patched hS ha
      have hcls : k.cls = a.cls := by rw [← MR.cls, patchM_cls]
      simp only [rPerform] at h
      simp only [headAct, invokeAct, hk, hcls]
      cases hd : (P.cls a.cls).dflt off with
      | value v => rw [hd] at h; cases h; exact ⟨w, rfl, hS⟩
      | throws => rw [hd] at h; cases h; exact ⟨w, rfl, hS⟩
      | nullRef => rw [hd] at h; cases h
    | deleg mv =>
      simp only [rPerform] at h
      simp only [headAct, invokeAct]
      have hS1 : Sim P nm ps (if mv then onArgs s m off uid (moved P) else s) (if mv then w.updInv m off uid (fun i => { i with args := moveArgs P i.args }) else w) := by
        cases mv with
        | true => exact hS.updInv m off uid (moveArgs P) (args := args) (keepsForm_move P args)
        | false => exact hS
      have hmk : (if mv = true then onArgs s m off uid (moved P) else s).mocks = s.mocks := by split <;> rfl
      generalize (if mv = true then onArgs s m off uid (moved P) else s) = s1 at h hS1 hmk
      generalize (if mv = true then w.updInv m off uid (fun i => { i with args := moveArgs P i.args }) else w) = w1 at hS1 ⊢
      rw [← hmk] at ha
      obtain ⟨k, hk, MR⟩ := mock_patched hS1 ha
      have hk' : (patch ps w1).mocks[m]? = some (patchM ps m k) := by rw [patch_mocks, hk]; rfl
      have hcls : k.cls = a.cls := by rw [← MR.cls, patchM_cls]
      obtain ⟨hal, hlt, hnd, b', hb', -⟩ := stubs_live hS1.wf hS1.rel hk' ha hst
      simp only [patchM_alive, patchM_cls] at hal hlt hnd
      obtain ⟨b, hb, -⟩ := body_of_patched hb'
      simp only [runDelegate, hk, hcls]
      by_cases hd : (P.cls a.cls).dtor = some off
      · rw [if_pos hd] at h ⊢
        cases h
        exact ⟨w1, rfl, hS1⟩
      · rw [if_neg hd] at h ⊢
        have t := hS1.wf.steady.1.1 m _ hk'
        have hvt : ∀ y x, Patch.vt m off y x ∉ ps := fun y x hmem => hby ((hc.bypass m off).2 ⟨y, x, hmem⟩)
        have hlo : off < k.orig.length := by
          have := t.orig_length
          rw [patchM_orig, patchM_cls] at this
          rw [this]; exact hlt
        obtain ⟨y', hy'⟩ : ∃ y, (patchM ps m k).vt[off]? = some y := ⟨_, List.getElem?_eq_getElem (by rw [t.vtlen, patchM_orig]; exact hlo)⟩
        have hy : k.vt[off]? = some y' := by rw [← hy', patchM_vt ps m k hvt]
        obtain ⟨x, hx⟩ : ∃ x, k.orig[off]? = some x := ⟨_, List.getElem?_eq_getElem hlo⟩
        have hcode := orig_code t (x := x) (off := off) (by rw [patchM_orig]; exact hx) (by rw [patchM_cls]; exact hnd) (by rw [patchM_cls, hcls]; exact hd)
        simp only [patchM_owner, patchM_cls] at hcode
        rw [hy, hx]
        dsimp only
        have hown : k.owner = !a.spied := by rw [← MR.owner, patchM_owner]
        have hsk : (w1.setVt m off x).mocks[m]? = some { k with vt := k.vt.set off x } := by
          show (w1.mocks.modify m _)[m]? = _
          rw [List.getElem?_modify]; simp [hk]
        have hsv : (k.vt.set off x)[off]? = some x := by rw [List.getElem?_set]; simp [(List.getElem?_eq_some_iff.1 hy).1]
        cases hsp : a.spied with
        | false =>
          rw [hsp] at h hown
          simp only [Bool.false_eq_true, if_false] at h
          have hxu := hcode.1 (by rw [hown]; rfl)
          subst hxu
          rw [orig_unmocked hsk hal hsv]
          have hu := hS1.unmocked
          simp only [R.bind_done]
          rw [Option.some.injEq] at h
          have h1 : (unstubbed s1).1 = o := by rw [h]
          have h2 : (unstubbed s1).2 = s' := by rw [h]
          refine ⟨(unmockedCall w1).2, ?_, h2 ▸ hu.2⟩
          rw [← h1, ← hu.1]
          have hr := setVt_restore w1 hk (x := .unmocked) hy
          have : (unmockedCall (w1.setVt m off .unmocked)).2.setVt m off y' = (unmockedCall ((w1.setVt m off .unmocked).setVt m off y')).2 := rfl
          rw [this, hr]
          rfl
        | true =>
          rw [hsp] at h hown
          simp only [if_true] at h
          have hxu := hcode.2 (by rw [hown]; rfl)
          rw [hcls] at hxu
          subst hxu
          rw [native_call hsk (.inl hal) hsv]
          let p : Patch V E := .vt m off y' (.native ((P.cls a.cls).impl off))
          have hkb : k.mocks[off]? = some (some b) := by
            have : k.body? off = some b := by simpa [World.body?, hk] using hb
            unfold Mock.body? at this
            cases hx : k.mocks[off]? with
            | none => rw [hx] at this; cases this
            | some z => rw [hx] at this; simp at this; rw [this]
          have hr : p.ap (w1.setVt m off (.native ((P.cls a.cls).impl off))) = w1 := setVt_restore w1 hk hy
          have hS2 : Sim P nm (p :: ps) s1 (w1.setVt m off (.native ((P.cls a.cls).impl off))) := by
            refine ⟨by rw [patch_cons, hr]; exact hS1.rel, by rw [patch_cons, hr]; exact hS1.wf, fun p' hp' => ?_⟩
            rcases List.mem_cons.1 hp' with rfl | hp'
            · refine ⟨{ k with vt := k.vt.set off (.native ((P.cls a.cls).impl off)) }, b, hsk, hal, hkb, hsv, by rw [hcls], fun d hd' => ⟨?_, hnd d hd'⟩⟩
              rintro rfl
              rw [hcls] at hd'
              exact hd hd'
            · exact (hS1.ok p' hp').setVt fun y x e => hvt y x (e ▸ hp')
          have hc2 : CtxRel { c with bypass := (m, off) :: c.bypass } (p :: ps) := hc.vt (hact rfl) _ _
          obtain ⟨w2, e2, hS3⟩ := body_sim hc2 (hn _ _ hc2 F hF) (fun _ _ _ _ _ _ h => rCall_up n h) none args _ (ht _ _) hS2 h hm hl
          rw [hS2.heap]
          have e2' : runBody P (callSlot P F) none args (P.fn ((P.cls a.cls).impl off) (valuesOf s1.heap args)) (w1.setVt m off (.native ((P.cls a.cls).impl off))) = .done (o, w2) := e2
          rw [e2']
          refine ⟨w2.setVt m off y', rfl, hS3.rel, hS3.wf, fun p' hp' => ?_⟩
          exact (hS3.ok p' (List.mem_cons_of_mem _ hp')).setVt fun y x e => hvt y x (e ▸ hp')

/-! ## Answering a call -/

theorem finally_objs {q q' : ActionSeq V E} {i : Nat} (h : q.finallyClause i = .done q') : q'.objs = q.objs := by
  unfold ActionSeq.finallyClause at h
  split at h
  · cases h
  · split at h
    · split at h
      · cases h
      · cases h; rfl
    · cases h; rfl

theorem tick_keeps (q : ActionSeq V E) (i j : Nat) {a : Act V E} (h : q.objs[j]? = some a) (ha : a.tick = a) : (q.tick i).objs[j]? = some a := by
  simp only [ActionSeq.tick, List.getElem?_modify, h]
  split <;> simp [ha]

theorem calm_head {acts : List (Act V E)} (h : counted acts = false) : (headAct acts).tick = headAct acts ∧ (headAct acts).isDone = false := by
  cases acts with
  | nil => exact ⟨rfl, rfl⟩
  | cons a l => cases a <;> first | (cases h; done) | exact ⟨rfl, rfl⟩

theorem updSeq_mocks (w : World V E) (m off : Nat) (a : Addr) (q : ActionSeq V E) :
    w.updSeq m off a (fun _ => q) = w.updBody m off fun b => { b with handlers := setSeq b.handlers a q } := rfl

theorem handler_of_mem {w : World V E} {m off : Nat} {b : MBody V E} (hb : w.body? m off = some b) {h : Handler V E} (hmem : h ∈ b.handlers) (hnd : (b.handlers.map (·.addr)).Nodup) :
    w.handler? m off h.addr = some h := by
  simp only [World.handler?, hb, Option.bind_some]
  generalize b.handlers = l at hmem hnd
  induction l with
  | nil => cases hmem
  | cons x l ih =>
    by_cases hx : x.addr = h.addr
    · have : x = h := eq_of_map_nodup hnd (by simp) hmem hx
      subst this; simp
    · rw [List.find?_cons_of_neg (by simpa using hx)]
      refine ih ?_ (List.nodup_cons.1 hnd).2
      rcases List.mem_cons.1 hmem with rfl | hm
      · exact absurd rfl hx
      · exact hm

/-- Storing a handler's script where it already is changes nothing. -/
theorem updSeq_self {w : World V E} {m off : Nat} {a : Addr} {hd : Handler V E} (hh : w.handler? m off a = some hd) (hnd : ∀ b, w.body? m off = some b → (b.handlers.map (·.addr)).Nodup) :
    w.updSeq m off a (fun _ => hd.seq) = w := by
  rw [updSeq_mocks, updBody_congr (g := id)]
  · simp only [World.updBody, World.updMock]
    have : (fun k : Mock V E => k.updBody off id) = id := by
      funext k
      simp only [Mock.updBody, id]
      have : (Option.map id : Option (MBody V E) → Option (MBody V E)) = id := by funext x; cases x <;> rfl
      have e : (k.mocks.modify off (Option.map id)) = k.mocks := by rw [this, List.modify_id]
      cases k; simp only at e ⊢; rw [e]
    rw [this, List.modify_id]
  · intro b hb
    simp only [World.handler?, hb, Option.bind_some] at hh
    have hmem := List.mem_of_find?_eq_some hh
    have ha : hd.addr = a := by simpa using List.find?_some hh
    have : setSeq b.handlers a hd.seq = b.handlers := by
      simp only [setSeq]
      conv => rhs; rw [← List.map_id b.handlers]
      apply List.map_congr_left
      intro x hx
      by_cases hxa : x.addr = a
      · have : x = hd := eq_of_map_nodup (hnd b hb) hx hmem (hxa.trans ha.symm)
        subst this; simp
      · simp [hxa]
    simp only [this, id]

theorem patched_nodup {ps : List (Patch V E)} {s : AState V E} {w : World V E} (hS : Sim P nm ps s w) {m off : Nat} {b : MBody V E} (hb : w.body? m off = some b) :
    (b.handlers.map (·.addr)).Nodup := by
  have := hS.wf.inv2.nodup (b := patchB ps m off b) (by rw [patch_body, hb]; rfl)
  rw [patchB, List.map_map] at this
  rwa [show ((fun x : Handler V E => x.addr) ∘ patchH ps m off) = (·.addr) from funext fun x => patchH_addr ps m off x] at this

theorem Sim.handler_present {ps : List (Patch V E)} {s : AState V E} {w : World V E} (hS : Sim P nm ps s w) (m off name : Nat) :
    present s m off name = (w.handler? m off (name + 1)).isSome := by
  unfold present World.handler? World.body?
  cases ha : s.mocks[m]? with
  | none =>
    have : w.mocks[m]? = none := by
      rw [List.getElem?_eq_none_iff] at ha ⊢
      have := hS.rel.mocks.len
      have e : (patch ps w).mocks.length = w.mocks.length := by
        clear this hS ha
        induction ps generalizing w with
        | nil => rfl
        | cons p ps ih => rw [patch_cons, ih, ap_length]
      rw [e] at this
      rw [this]; exact ha
    rw [this]; rfl
  | some a =>
    obtain ⟨k, hk, MR⟩ := mock_patched hS ha
    have hpk : (patch ps w).mocks[m]? = some (patchM ps m k) := by rw [patch_mocks, hk]; rfl
    have hpb : (patchM ps m k).body? off = (k.body? off).map (patchB ps m off) := by
      have := patch_body ps w m off
      simpa [World.body?, hpk, hk] using this
    have hB := MR.body off
    rw [hpb] at hB
    simp only [hk, Option.bind_some]
    cases hkb : k.body? off with
    | none =>
      rw [hkb] at hB
      cases hst : a.stubs off with
      | none => rfl
      | some l => rw [hst] at hB; exact hB.elim
    | some b =>
      rw [hkb] at hB
      cases hst : a.stubs off with
      | none => rw [hst] at hB; exact hB.elim
      | some l =>
        rw [hst] at hB
        have hB' : All2 StubRel (patchB ps m off b).handlers.reverse l := hB
        simp only [Option.bind_some]
        rw [Bool.eq_iff_iff, List.any_eq_true, List.find?_isSome]
        constructor
        · rintro ⟨st, hst, e⟩
          obtain ⟨x, hx, hR⟩ := hB'.right hst
          rw [List.mem_reverse] at hx
          obtain ⟨y, hy, rfl⟩ := List.mem_map.1 hx
          refine ⟨y, hy, ?_⟩
          have h1 := hR.addr
          rw [patchH_addr] at h1
          simp only [beq_iff_eq] at e ⊢
          rw [h1, ← hR.name, e]
        · rintro ⟨y, hy, e⟩
          obtain ⟨st, hst, hR⟩ := hB'.left (List.mem_reverse.2 (List.mem_map.2 ⟨y, hy, rfl⟩))
          refine ⟨st, hst, ?_⟩
          have h1 := hR.addr
          rw [patchH_addr] at h1
          simp only [beq_iff_eq] at e ⊢
          rw [h1, ← hR.name] at e
          exact Nat.succ.inj e

theorem Sim.present {ps : List (Patch V E)} {s : AState V E} {w : World V E} (hS : Sim P nm ps s w) {m off name : Nat} {hd : Handler V E} (h : w.handler? m off (name + 1) = some hd) :
    Spec.present s m off name = true := by rw [hS.handler_present, h]; rfl

theorem enduring_head {acts : List (Act V E)} (h : enduring acts = true) :
    (headAct acts).tick.isDone = false ∧ (counted acts = false → (headAct acts).tick.tick = (headAct acts).tick) ∧ ∀ b, headAct acts ≠ .deleg b := by
  cases acts with
  | nil => cases h
  | cons a l =>
    cases a with
    | rep n f =>
      simp only [enduring, decide_eq_true_eq] at h
      refine ⟨?_, fun h => (by cases h), fun b h => (by cases h)⟩
      show (n - 1 == 0) = false
      simp only [beq_eq_false_iff_ne]
      omega
    | forever f => exact ⟨rfl, fun _ => rfl, fun b h => (by cases h)⟩
    | _ => cases h

/-- The entry of the stubbing that answers a call is performed: the call ends as the abstract mock says. -/
theorem handler_sim (ht : Tame P nm) {n : Nat} (hn : Nested P nm n) {c : Ctx} {ps : List (Patch V E)} (hc : CtxRel c ps) {s s2 : AState V E} {w : World V E} (hS : Sim P nm ps s w)
    {m off : Nat} {a : AMock V E} (ha : s.mocks[m]? = some a) {stubs : List (Stub V E)} (hst : a.stubs off = some stubs) (hby : (m, off) ∉ c.bypass) {b : MBody V E} (hb : w.body? m off = some b)
    {args : List (Arg V)} {h : Handler V E} (hf : findHandler w.heap b.handlers (fresh w b args) = some h) {st : Stub V E} (hsr' : StubRel (patchH ps m off h) st) (hbusy : st.name ∉ c.busy) {o1 : Outcome V E}
    (hp : rPerform P (rCall P n) (c.enter m st) m (P.cls a.cls) a.spied off (s.made + 1) args (accept s m off args st.name) st.script = some (o1, s2)) (hm : s2.made < wrap32)
    (hl : s2.named.length < wrap32) {F : Nat} (hF : 3 * n ≤ F) :
    (o1 = .noMore ∧ present s2 m off st.name = false → runHandler P (callSlot P (F + 1)) (w.bumpInv.pushInv m off (recorded w b args h)) ⟨m, off, w.invTotal + 1⟩ h args = .ub) ∧
    (¬ (o1 = .noMore ∧ present s2 m off st.name = false) →
      ∃ w5, runHandler P (callSlot P (F + 1)) (w.bumpInv.pushInv m off (recorded w b args h)) ⟨m, off, w.invTotal + 1⟩ h args = .done (o1, w5) ∧ Sim P nm ps s2 w5) := by
  obtain ⟨k, hk, MR⟩ := mock_patched hS ha
  have hpb : (patch ps w).body? m off = some (patchB ps m off b) := by rw [patch_body, hb]; rfl
  have hkb : (patchM ps m k).body? off = some (patchB ps m off b) := by
    have : (patch ps w).mocks[m]? = some (patchM ps m k) := by rw [patch_mocks, hk]; rfl
    simpa [World.body?, this] using hpb
  have hname : h.addr = st.name + 1 := by
    have h1 := hsr'.addr
    have h2 := hsr'.name
    rw [patchH_addr, patchH_matcher] at h1
    rw [patchH_matcher] at h2
    rw [h1, ← h2]
  have hnseq : ∀ i q q', Patch.seq m off h.addr i q q' ∉ ps := by
    intro i q q' hmem
    obtain ⟨nme, hnm, e⟩ := hc.busy _ _ _ _ _ _ hmem
    rw [hname] at e
    exact hbusy (Nat.succ.inj e ▸ hnm)
  have hnspare : ∀ i act, Patch.spare m off h.addr i act ∈ ps → act.tick = act := by
    intro i act hmem
    rcases hc.spare _ _ _ _ _ hmem with e | ⟨nme, hnm, e⟩
    · exact e
    · rw [hname] at e
      exact absurd (Nat.succ.inj e ▸ hnm) hbusy
  have hself : patchH ps m off h = h := patchH_self hnseq
  rw [hself] at hsr'
  have hsr := hsr'
  have hmem : h ∈ b.handlers := ((findHandler_some _ _ rfl _ _).1 hf).mem
  have hnodup := patched_nodup hS hb
  have hpmem : h ∈ (patchB ps m off b).handlers := List.mem_map.2 ⟨h, hmem, hself⟩
  have hpnodup := hS.wf.inv2.nodup hpb
  have hpfind : findHandler (patch ps w).heap (patchB ps m off b).handlers (fresh (patch ps w) (patchB ps m off b) args) = some h := by
    rw [find_patched _ _ _ _ _ rfl, patch_heap]
    have : fresh (patch ps w) (patchB ps m off b) args = fresh w b args := by simp only [fresh, patch_invTotal]; rfl
    rw [this, hf, Option.map_some, hself]
  have hrec : recorded (patch ps w) (patchB ps m off b) args h = recorded w b args h := by simp only [recorded, patch_invTotal]; rfl
  obtain ⟨i, rst, -, hobj, hfront⟩ := rep_front hsr.rep
  obtain ⟨q, hfin, -⟩ := rep_advance hsr.rep hfront
  have hq : ∀ acts, h.seq.Rep acts → q.Rep (nextActs acts) := by
    intro acts hr
    obtain ⟨q', hfin', hrep'⟩ := rep_advance hr hfront
    rw [hfin] at hfin'; cases hfin'; exact hrep'
  -- the world as it will be
  have hRq : Rel P (accept s m off args st.name) (srv (patch ps w) m off h.addr q (recorded w b args h) w.heap (w.invTotal + 1) w.log) := by
    have := rel_serve hS.rel hpb hpmem hpnodup hsr hq (args := args) (as := args) (heap := s.heap) (n := s.made + 1) (Nat.le_refl _) hS.rel.log
    rw [hrec] at this
    have e : (patch ps w).log = w.log := patch_log ps w
    rw [e, ← hS.heap, ← hS.made] at this
    have e3 : ({ s with calls := s.calls ++ [⟨some (m, off), w.invTotal + 1, args, some st.name, false⟩]
                        mocks := s.mocks.modify m fun k => k.onStubs off fun l => l.map fun x => if x.name = st.name then { x with script := rest x.script } else x
                        heap := w.heap, made := w.invTotal + 1, log := s.log } : AState V E) = accept s m off args st.name := by
      rw [hS.heap, hS.made]; rfl
    rw [← e3]
    exact this
  have hWq : Wf P nm (srv (patch ps w) m off h.addr q (recorded w b args h) w.heap (w.invTotal + 1) w.log) := by
    have h1 := (stable2.push _ m off _ args h hS.wf.inv2 trivial hpb hpfind).wf hS.wf
    have h2 := (stable2.tick _ m off h.addr i h1.inv2 trivial).wf h1
    rw [srv_push hpb hpmem hpnodup] at h2
    have h3 := (stable2.fin _ m off h.addr _ i q h2.inv2 trivial (srv_handler hpb hpmem hpnodup rfl) hfin).wf h2
    rw [srv_updSeq hpb, hrec] at h3
    rw [patch_heap, patch_invTotal, patch_log] at h3
    exact h3
  -- the world now
  have hw3 : (w.bumpInv.pushInv m off (recorded w b args h)).updSeq m off h.addr (fun s => s.tick i) =
      srv w m off h.addr (h.seq.tick i) (recorded w b args h) w.heap (w.invTotal + 1) w.log := srv_push hb hmem hnodup _ _
  have hok3 : ∀ p ∈ ps, p.Ok P (srv w m off h.addr (h.seq.tick i) (recorded w b args h) w.heap (w.invTotal + 1) w.log) := by
    intro p hp
    refine (hS.ok p hp).setSeq (m := m) (off := off) (a := h.addr) (q := h.seq.tick i) (f := srvB h.addr (h.seq.tick i) (recorded w b args h)) rfl (Nat.le_refl _) (fun _ => rfl)
      (fun i q1 q2 e => hnseq i q1 q2 (e ▸ hp)) (fun i act e => hnspare i act (e ▸ hp)) ?_
    intro hd hhd j act hj hact
    rw [handler_of_mem hb hmem hnodup] at hhd
    cases hhd
    exact tick_keeps _ _ _ hj hact
  have hh3 : (srv w m off h.addr (h.seq.tick i) (recorded w b args h) w.heap (w.invTotal + 1) w.log).handler? m off h.addr = some { h with seq := h.seq.tick i } :=
    srv_handler hb hmem hnodup rfl
  have halloc : h.addr ≤ w.alloc := by
    have := (hS.wf.inv2.1.2.lt m off (h.addr, h.matcher.addr) (by
      simp only [haddrs]
      rw [show (patch ps w).mocks[m]? = some (patchM ps m k) by rw [patch_mocks, hk]; rfl]
      simp only [kaddrs, hkb]
      exact List.mem_map.2 ⟨h, hpmem, rfl⟩)).1
    rw [patch_alloc] at this
    exact Nat.le_of_lt this
  have haccept : ∃ a1, (accept s m off args st.name).mocks[m]? = some a1 ∧ a1.cls = a.cls ∧ a1.spied = a.spied ∧ ∃ l, a1.stubs off = some l := by
    refine ⟨_, by simp only [accept, List.getElem?_modify, ha]; rfl, ?_, ?_, ?_⟩
    · simp [AMock.onStubs]
    · simp [AMock.onStubs]
    · simp [AMock.onStubs, hst]
  obtain ⟨a1, ha1, hcls1, hsp1, l1, hst1⟩ := haccept
  have hact : enduring st.script = false → m ∈ (c.enter m st).active := by
    intro he
    simp only [Ctx.enter, he, Bool.false_eq_true, if_false]
    exact List.mem_cons_self ..
  rw [← hcls1, ← hsp1] at hp
  cases hend : enduring st.script with
  | true =>
    obtain ⟨hnd, htt, hdl⟩ := enduring_head hend
    have hobj' : (h.seq.tick i).objs[i]? = some (headAct st.script).tick := by simp [ActionSeq.tick, hobj]
    have hqt : h.seq.tick i = q := by
      simp only [ActionSeq.finallyClause, hobj', hnd] at hfin
      cases hfin; rfl
    have hap : ∀ w : World V E, (Patch.spare m off h.addr i (headAct st.script).tick).ap w = w := ap_sturdy fun hf => hf.elim
    have hS3 : Sim P nm (.spare m off h.addr i (headAct st.script).tick :: ps) (accept s m off args st.name) (srv w m off h.addr (h.seq.tick i) (recorded w b args h) w.heap (w.invTotal + 1) w.log) := by
      have e' : patch (.spare m off h.addr i (headAct st.script).tick :: ps) (srv w m off h.addr (h.seq.tick i) (recorded w b args h) w.heap (w.invTotal + 1) w.log) =
          srv (patch ps w) m off h.addr q (recorded w b args h) w.heap (w.invTotal + 1) w.log := by
        rw [patch_cons, patch_srv _ _ _ _ _ hnseq, ← hqt, hap]
      refine ⟨by rw [e']; exact hRq, by rw [e']; exact hWq, fun p hp => ?_⟩
      rcases List.mem_cons.1 hp with rfl | hp
      · refine ⟨?_, halloc, by simp only [World.acting?, hh3]; exact hobj', hnd⟩
        have := (List.getElem?_eq_some_iff.1 hk).1
        simpa [srv, World.updBody, World.updMock] using this
      · exact hok3 p hp
    have hc3 := hc.endure (m := m) (off := off) hname i htt
    obtain ⟨w4, e4, hS4⟩ := perform_sim ht hn hc3 hS3 ha1 hst1 hby hact hp hm hl hF
    obtain ⟨-, -, hho, -⟩ := hS4.ok _ (List.mem_cons_self ..)
    have hS5 : Sim P nm ps s2 w4 := by
      refine ⟨?_, ?_, fun p hp => hS4.ok p (List.mem_cons_of_mem _ hp)⟩
      · have := hS4.rel; rwa [patch_cons, hap] at this
      · have := hS4.wf; rwa [patch_cons, hap] at this
    rw [← hS.made] at e4
    have hrun : runHandler P (callSlot P (F + 1)) (w.bumpInv.pushInv m off (recorded w b args h)) ⟨m, off, w.invTotal + 1⟩ h args =
        (worldFinally w4 m off h.addr i (headAct st.script) o1).bind fun w' => .done (o1, w') := by
      simp only [runHandler, hfront, R.bind_done, hw3]
      rw [e4]; rfl
    rw [hrun]
    unfold World.acting? at hho
    cases hh : w4.handler? m off h.addr with
    | some hd =>
      rw [hh] at hho
      refine ⟨fun hab => absurd (hS5.present (by rw [← hname]; exact hh)) (by rw [hab.2]; decide), fun _ => ⟨w4, ?_, hS5⟩⟩
      simp only [worldFinally, hh, ActionSeq.finallyClause, hho, hnd]
      simp only [Bool.false_eq_true, if_false, R.bind_done]
      rw [updSeq_self hh fun b hb => patched_nodup hS5 hb]
      rfl
    | none =>
      rw [hh] at hho
      have habs : present s2 m off st.name = false := by rw [hS5.handler_present, ← hname, hh]; rfl
      simp only [worldFinally, hh, hho, orphanEnd, hnd]
      refine ⟨?_, fun hno => ⟨w4, ?_, hS5⟩⟩
      · rintro ⟨rfl, -⟩
        cases hha : headAct st.script <;> rfl
      · have : o1 ≠ .noMore := fun e => hno ⟨e, habs⟩
        cases hha : headAct st.script <;> cases o1 <;> first | rfl | exact absurd rfl this | exact absurd hha (hdl _)
  | false =>
    cases hcnt : counted st.script with
    | true =>
      have hS3 : Sim P nm (.seq m off h.addr i (h.seq.tick i) q :: ps) (accept s m off args st.name) (srv w m off h.addr (h.seq.tick i) (recorded w b args h) w.heap (w.invTotal + 1) w.log) := by
        have e : (Patch.seq m off h.addr i (h.seq.tick i) q).ap (srv w m off h.addr (h.seq.tick i) (recorded w b args h) w.heap (w.invTotal + 1) w.log) =
            srv w m off h.addr q (recorded w b args h) w.heap (w.invTotal + 1) w.log := srv_updSeq hb q
        have e' : patch (.seq m off h.addr i (h.seq.tick i) q :: ps) (srv w m off h.addr (h.seq.tick i) (recorded w b args h) w.heap (w.invTotal + 1) w.log) =
            srv (patch ps w) m off h.addr q (recorded w b args h) w.heap (w.invTotal + 1) w.log := by rw [patch_cons, e, patch_srv _ _ _ _ _ hnseq]
        refine ⟨by rw [e']; exact hRq, by rw [e']; exact hWq, fun p hp => ?_⟩
        rcases List.mem_cons.1 hp with rfl | hp
        · exact ⟨halloc, ⟨_, hh3, rfl⟩, hfin⟩
        · exact hok3 p hp
      have hc3 := hc.seq (m := m) (off := off) hcnt hend hname i (h.seq.tick i) q
      obtain ⟨w4, e4, hS4⟩ := perform_sim ht hn hc3 hS3 ha1 hst1 hby hact hp hm hl hF
      obtain ⟨-, ⟨hd, hhd, hhs⟩, -⟩ := hS4.ok _ (List.mem_cons_self ..)
      refine ⟨fun hab => absurd (hS4.present (by rw [← hname]; exact hhd)) (by rw [hab.2]; decide), fun _ => ⟨(Patch.seq m off h.addr i (h.seq.tick i) q).ap w4, ?_, ⟨hS4.rel, hS4.wf, fun p hp => ?_⟩⟩⟩
      · simp only [runHandler, hfront, R.bind_done, hw3]
        rw [← hS.made] at e4
        rw [e4]
        simp only [R.bind_done, worldFinally, hhd, hhs, hfin]
        rfl
      · refine (hS4.ok p (List.mem_cons_of_mem _ hp)).setSeq (m := m) (off := off) (a := h.addr) (q := q) (f := fun b => { b with handlers := setSeq b.handlers h.addr q }) rfl (Nat.le_refl _) (fun _ => rfl)
          (fun i q1 q2 e => hnseq i q1 q2 (e ▸ hp)) (fun i act e => hnspare i act (e ▸ hp)) ?_
        intro hd' hhd' j act hj _
        rw [hhd] at hhd'
        cases hhd'
        rw [finally_objs hfin, ← hhs]; exact hj
    | false =>
      obtain ⟨hct, hcd⟩ := calm_head hcnt
      have hqt : h.seq.tick i = q := by
        have : (h.seq.tick i).objs[i]? = some (headAct st.script) := tick_keeps _ _ _ hobj hct
        simp only [ActionSeq.finallyClause, this, hcd] at hfin
        cases hfin; rfl
      have hS3 : Sim P nm (.calm m off h.addr i (headAct st.script) :: ps) (accept s m off args st.name) (srv w m off h.addr (h.seq.tick i) (recorded w b args h) w.heap (w.invTotal + 1) w.log) := by
        have e' : patch (.calm m off h.addr i (headAct st.script) :: ps) (srv w m off h.addr (h.seq.tick i) (recorded w b args h) w.heap (w.invTotal + 1) w.log) =
            srv (patch ps w) m off h.addr q (recorded w b args h) w.heap (w.invTotal + 1) w.log := by
          rw [patch_cons, patch_srv _ _ _ _ _ hnseq, ← hqt]
          congr 1
          simp only [Patch.ap, World.updMock]
          rw [show (Patch.calm m off h.addr i (headAct st.script)).onMock = id from rfl, List.modify_id]
        refine ⟨by rw [e']; exact hRq, by rw [e']; exact hWq, fun p hp => ?_⟩
        rcases List.mem_cons.1 hp with rfl | hp
        · exact ⟨⟨_, hh3, tick_keeps _ _ _ hobj hct⟩, hct, hcd⟩
        · exact hok3 p hp
      have hc3 := hc.calm (m := m) (off := off) hend h.addr i (headAct st.script)
      obtain ⟨w4, e4, hS4⟩ := perform_sim ht hn hc3 hS3 ha1 hst1 hby hact hp hm hl hF
      have hcalm := hS4.ok _ (List.mem_cons_self ..)
      obtain ⟨⟨hd, hhd, hho⟩, -, -⟩ := hcalm
      have hap : (Patch.calm m off h.addr i (headAct st.script)).ap w4 = w4 := by
        simp only [Patch.ap, World.updMock]
        rw [show (Patch.calm m off h.addr i (headAct st.script)).onMock = id from rfl, List.modify_id]
      have hS5 : Sim P nm ps s2 w4 := by
        refine ⟨?_, ?_, fun p hp => hS4.ok p (List.mem_cons_of_mem _ hp)⟩
        · have := hS4.rel; rwa [patch_cons, hap] at this
        · have := hS4.wf; rwa [patch_cons, hap] at this
      refine ⟨fun hab => absurd (hS5.present (by rw [← hname]; exact hhd)) (by rw [hab.2]; decide), fun _ => ⟨w4, ?_, hS5⟩⟩
      simp only [runHandler, hfront, R.bind_done, hw3]
      rw [← hS.made] at e4
      rw [e4]
      simp only [R.bind_done, worldFinally, hhd, ActionSeq.finallyClause, hho, hcd]
      simp only [Bool.false_eq_true, if_false, R.bind_done]
      rw [updSeq_self hhd fun b hb => patched_nodup hS5 hb]

theorem handle_sim (ht : Tame P nm) {n : Nat} (hn : Nested P nm n) {c : Ctx} {ps : List (Patch V E)} (hc : CtxRel c ps) {s s' : AState V E} {w : World V E} (hS : Sim P nm ps s w)
    {m off : Nat} {a : AMock V E} (ha : s.mocks[m]? = some a) {stubs : List (Stub V E)} (hst : a.stubs off = some stubs) (hby : (m, off) ∉ c.bypass) {b : MBody V E} (hb : w.body? m off = some b)
    {args : List (Arg V)} {o : Outcome V E} (hs : rServe P (rCall P n) c s m a off stubs args = some (o, s')) (hm : s'.made < wrap32) (hl : s'.named.length < wrap32) {F : Nat} (hF : 3 * n ≤ F) :
    ∃ w', handleCall P (callSlot P (F + 1)) w m off b args = .done (o, w') ∧ Sim P nm ps s' w' := by
  obtain ⟨k, hk, MR⟩ := mock_patched hS ha
  have hpb : (patch ps w).body? m off = some (patchB ps m off b) := by rw [patch_body, hb]; rfl
  have hkb : (patchM ps m k).body? off = some (patchB ps m off b) := by
    have : (patch ps w).mocks[m]? = some (patchM ps m k) := by rw [patch_mocks, hk]; rfl
    simpa [World.body?, this] using hpb
  have hB := MR.body off
  rw [hkb, hst] at hB
  have hB' : All2 StubRel (patchB ps m off b).handlers.reverse stubs := hB
  have hmeth := hS.rel.meths m off _ hpb
  have hfind : All2.Opt StubRel (findHandler w.heap (patchB ps m off b).handlers (fresh w b args)) (stubs.find? fun st => accepts st.kind (valuesOf s.heap args)) := by
    unfold findHandler
    rw [scan_find _ _ rfl]
    refine All2.find? ?_ hB'
    intro x y hxy
    rw [hxy.kind, ← hS.heap]; rfl
  rw [find_patched _ _ _ _ _ rfl] at hfind
  rw [handleCall_eq]
  unfold rServe at hs
  cases hf : findHandler w.heap b.handlers (fresh w b args) with
  | none =>
    rw [hf] at hfind
    cases hf' : stubs.find? fun st => accepts st.kind (valuesOf s.heap args) with
    | some st => rw [hf'] at hfind; exact hfind.elim
    | none =>
      rw [hf'] at hs
      simp only [Option.some.injEq, Prod.mk.injEq] at hs
      obtain ⟨rfl, rfl⟩ := hs
      exact ⟨_, rfl, hS.report (.unexpectedCall .unmatched (fresh w b args)) _ (.unexpected ⟨by simp [fresh, hS.made], rfl, rfl, rfl, hmeth⟩)⟩
  | some h =>
    rw [hf] at hfind
    cases hf' : stubs.find? fun st => accepts st.kind (valuesOf s.heap args) with
    | none => rw [hf'] at hfind; exact hfind.elim
    | some st =>
      rw [hf'] at hfind
      have hsr' : StubRel (patchH ps m off h) st := hfind
      rw [hf'] at hs
      dsimp only at hs
      split at hs
      · cases hs
      rename_i hbusy
      simp only [Option.bind_eq_bind, Option.bind_eq_some_iff] at hs
      obtain ⟨⟨o1, s2⟩, hp, hs⟩ := hs
      have hup := rPerform_up (fun _ _ _ _ _ _ _ h => rCall_up n h) hp
      have hb2 : (s2.made < wrap32 ∧ s2.named.length < wrap32) ∧ ¬ (o1 = .noMore ∧ present s2 m off st.name = false) := by
        dsimp only at hs
        split at hs
        · split at hs
          · rename_i hpr
            cases hs; exact ⟨⟨hm, hl⟩, fun h => by rw [hpr] at h; cases h.2⟩
          · cases hs
        · rename_i hno
          cases hs; exact ⟨⟨hm, hl⟩, fun h => hno h.1⟩
      obtain ⟨w5, e5, hS5⟩ := (handler_sim ht hn hc hS ha hst hby hb hf hsr' hbusy hp hb2.1.1 hb2.1.2 hF).2 hb2.2
      simp only [e5, R.bind_done]
      cases o1 with
      | noMore =>
        dsimp only at hs
        split at hs
        · simp only [Option.some.injEq, Prod.mk.injEq] at hs
          obtain ⟨rfl, rfl⟩ := hs
          refine ⟨_, rfl, hS5.fire (.unexpectedCall .unmatched (recorded w b args h)) _ (.unexpected ⟨by simp [recorded, hS.made], rfl, ?_, rfl, ?_⟩)⟩
          · have := hsr'.name
            rw [patchH_matcher] at this
            simp [recorded, this]
          · obtain ⟨more, hmore⟩ := hup.2
            rw [← hmore]
            exact MethRel.mono hmeth
        · cases hs
      | ret v => cases hs; exact ⟨_, rfl, hS5⟩
      | exc e => cases hs; exact ⟨_, rfl, hS5⟩
      | unexpected => cases hs; exact ⟨_, rfl, hS5⟩

/-! ## Whole calls -/

theorem slot_sim (ht : Tame P nm) {n : Nat} (hn : Nested P nm n) {c : Ctx} {ps : List (Patch V E)} (hc : CtxRel c ps) {s s' : AState V E} {w : World V E} (hS : Sim P nm ps s w)
    {m off : Nat} {k : Mock V E} {a : AMock V E} (hk : w.mocks[m]? = some k) (ha : s.mocks[m]? = some a) (hal : a.alive = true ∨ a.spied = true) (hoff : off < (P.cls a.cls).size)
    {args : List (Arg V)} {o : Outcome V E} (hdel : ∀ d, (P.cls a.cls).dtor = some d → off = d + 1 → a.spied = true ∧ a.stubs d = none)
    (hs : (if (m, off) ∈ c.bypass then rBody P (rCall P n c) c none args (P.fn ((P.cls a.cls).impl off) (valuesOf s.heap args)) s
      else match a.stubs off with
      | some stubs => rServe P (rCall P n) c s m a off stubs args
      | none =>
        if a.spied then rBody P (rCall P n c) c none args (P.fn ((P.cls a.cls).impl off) (valuesOf s.heap args)) s
        else if (P.cls a.cls).dtor = some off then some (.ret P.void, s)
        else some (unstubbed s)) = some (o, s')) (hm : s'.made < wrap32) (hl : s'.named.length < wrap32) {F : Nat} (hF : 3 * n ≤ F) :
    ∃ w', callSlot P (F + 2) w m off args = .done (o, w') ∧ Sim P nm ps s' w' := by
  have hk' : (patch ps w).mocks[m]? = some (patchM ps m k) := by rw [patch_mocks, hk]; rfl
  have MR := hS.rel.mocks.mock m _ a hk' ha
  have hcls : k.cls = a.cls := by rw [← MR.cls, patchM_cls]
  have hown : k.owner = !a.spied := by rw [← MR.owner, patchM_owner]
  have halv : k.alive = a.alive := by rw [← MR.alive, patchM_alive]
  have t := hS.wf.steady.1.1 m _ hk'
  have hcall : k.alive = true ∨ k.owner = false := by
    rcases hal with h | h
    · exact .inl (by rw [halv]; exact h)
    · exact .inr (by rw [hown, h]; rfl)
  have hcall' : (!k.alive && k.owner) = false := by rcases hcall with h | h <;> simp [h]
  have hrun : ∀ {s'' : AState V E}, s''.made < wrap32 → s''.named.length < wrap32 → k.vt[off]? = some (.native ((P.cls a.cls).impl off)) →
      rBody P (rCall P n c) c none args (P.fn ((P.cls a.cls).impl off) (valuesOf s.heap args)) s = some (o, s'') → ∃ w', callSlot P (F + 2) w m off args = .done (o, w') ∧ Sim P nm ps s'' w' := by
    intro s'' hm hl hv hr
    rw [native_call hk hcall hv, hS.heap]
    exact body_sim hc (hn c ps hc _ (Nat.le_succ_of_le hF)) (fun _ _ _ _ _ _ h => rCall_up n h) none args _ (ht _ _) hS hr hm hl
  by_cases hby : (m, off) ∈ c.bypass
  · rw [if_pos hby] at hs
    obtain ⟨y, x, hmem⟩ := (hc.bypass m off).1 hby
    obtain ⟨k0, b, hk0, -, -, hv, hx, -⟩ := hS.ok _ hmem
    rw [hk] at hk0; cases hk0
    rw [hx, hcls] at hv
    exact hrun hm hl hv hs
  · rw [if_neg hby] at hs
    have hvt : (patchM ps m k).vt[off]? = k.vt[off]? := patchM_vt ps m k fun y x hmem => hby ((hc.bypass m off).2 ⟨y, x, hmem⟩)
    cases hst : a.stubs off with
    | some stubs =>
      rw [hst] at hs
      obtain ⟨hkal, hlt, hnd, b', hb', hlive⟩ := stubs_live hS.wf hS.rel hk' ha hst
      obtain ⟨b, hb, rfl⟩ := body_of_patched hb'
      have hlive' : Live w m off b := by
        obtain ⟨k1, id, h1, h2, h3, h4, h5⟩ := hlive
        rw [hk'] at h1; cases h1
        exact ⟨k, id, hk, by rwa [patchM_alive] at h2, by rw [← hvt]; exact h3, by rwa [patchM_offsets] at h4, by simpa [World.body?, hk] using hb⟩
      rw [callSlot_live hlive']
      exact handle_sim ht hn hc hS ha hst hby hb hs hm hl hF
    | none =>
      rw [hst] at hs
      dsimp only at hs
      have hlo : off < (patchM ps m k).orig.length := by rw [t.orig_length, MR.cls]; exact hoff
      have hlv : off < (patchM ps m k).vt.length := by rw [t.vtlen]; exact hlo
      obtain ⟨x, hx⟩ : ∃ x, (patchM ps m k).vt[off]? = some x := ⟨_, List.getElem?_eq_getElem hlv⟩
      have hxo : (patchM ps m k).orig[off]? = some x := by
        rcases t.entry off x hx with ⟨id, rfl⟩ | rfl | h
        · obtain ⟨⟨b, hb⟩, -⟩ := t.proxy off id hx
          have hB := MR.body off
          rw [body?_of_get hb, hst] at hB
          exact hB.elim
        · obtain ⟨d, hd, rfl⟩ := t.thunk off hx
          rw [MR.cls] at hd
          have hc := hdel d hd rfl
          have := (MR.del d hd).2
          rw [hc.2] at this
          simp only [Option.isSome_none, Bool.false_eq_true, if_false] at this
          rw [← this]; exact hx
        · exact h
      rw [hvt] at hx
      cases hsp : a.spied with
      | true =>
        rw [hsp] at hs hown
        simp only [if_true] at hs
        have hnat : x = .native ((P.cls a.cls).impl off) := by
          rw [t.orig_eq, if_neg (by rw [patchM_owner, hown]; decide)] at hxo
          rw [← MR.cls]
          exact (getElem?_nativeVt _ _ _ hxo).1
        subst hnat
        exact hrun hm hl hx hs
      | false =>
        rw [hsp] at hs hown
        simp only [Bool.false_eq_true, if_false] at hs
        have hown : k.owner = true := by rw [hown]; rfl
        have hkal : k.alive = true := by
          rcases hcall with h | h
          · exact h
          · rw [hown] at h; cases h
        have hnd : ∀ d, (P.cls k.cls).dtor = some d → off ≠ d + 1 := by
          intro d hd e
          rw [hcls] at hd
          have := (hdel d hd e).1
          rw [hsp] at this; cases this
        by_cases hd : (P.cls a.cls).dtor = some off
        · rw [if_pos hd] at hs
          cases hs
          have : x = .unmockedDtor := by
            rw [t.orig_eq, if_pos (by rw [patchM_owner]; exact hown), MR.cls, fakeVt_dtor hd hoff] at hxo
            cases hxo; rfl
          subst this
          refine ⟨w, ?_, hS⟩
          simp only [callSlot, hk, hkal, hx, runCode, Bool.not_true, Bool.false_and, Bool.false_eq_true, if_false]
        · rw [if_neg hd] at hs
          have := (orig_code t hxo (by rw [patchM_cls]; exact hnd) (by rw [MR.cls]; exact hd)).1 (by rw [patchM_owner]; exact hown)
          subst this
          have hu := hS.unmocked
          rw [Option.some.injEq] at hs
          have h1 : (unstubbed s).1 = o := by rw [hs]
          have h2 : (unstubbed s).2 = s' := by rw [hs]
          refine ⟨(unmockedCall w).2, ?_, h2 ▸ hu.2⟩
          rw [orig_unmocked hk hkal hx, ← h1, ← hu.1]

theorem call_sim (ht : Tame P nm) (n : Nat) : Nested P nm n := by
  induction n with
  | zero => intro c ps _ F _ s w m off args o s' _ h; cases h
  | succ n hn =>
    intro c ps hc F hF s w m off args o s' hS hs hm hl
    obtain ⟨G, rfl⟩ : ∃ G, F = G + 3 := ⟨F - 3, by omega⟩
    have hG : 3 * n ≤ G := by omega
    unfold rCall at hs
    cases ha : s.mocks[m]? with
    | none => rw [ha] at hs; cases hs
    | some a =>
      rw [ha] at hs
      dsimp only at hs
      obtain ⟨k, hk, MR⟩ := mock_patched hS ha
      have hk' : (patch ps w).mocks[m]? = some (patchM ps m k) := by rw [patch_mocks, hk]; rfl
      have t := hS.wf.steady.1.1 m _ hk'
      split at hs
      · rename_i hcnd
        obtain ⟨hal, hoff⟩ := hcnd
        unfold arrives at hs
        cases hd : (P.cls a.cls).dtor with
        | none =>
          rw [hd] at hs
          dsimp only at hs
          exact slot_sim ht hn hc hS hk ha hal hoff (fun d hd' => by rw [hd] at hd'; cases hd') (by rw [hd]; exact hs) hm hl (Nat.le_succ_of_le hG)
        | some d =>
          rw [hd] at hs
          dsimp only at hs
          by_cases hdc : off = d + 1 ∧ (a.spied = false ∨ (a.stubs d).isSome = true)
          · simp only [if_pos hdc] at hs
            obtain ⟨rfl, hor⟩ := hdc
            have hthunk : (patchM ps m k).vt[d + 1]? = some .dtorThunk := by
              rw [(MR.del d hd).2]
              cases hso : (a.stubs d).isSome with
              | true => rfl
              | false =>
                simp only [Bool.false_eq_true, if_false]
                have hsp : a.spied = false := by
                  rcases hor with h | h
                  · exact h
                  · rw [hso] at h; cases h
                have hown : (patchM ps m k).owner = true := by rw [MR.owner, hsp]; rfl
                rw [t.orig_eq, if_pos hown, MR.cls]
                exact fakeVt_del hd hoff
            have hthunk' : k.vt[d + 1]? = some .dtorThunk := by
              rw [← hthunk]
              refine (patchM_vt ps m k fun y x hmem => ?_).symm
              obtain ⟨k0, b, hk0, -, -, -, -, hne⟩ := hS.ok _ hmem
              rw [hk] at hk0; cases hk0
              exact (hne d (by rw [← hd, ← MR.cls, patchM_cls])).2 rfl
            have hcall : (!k.alive && k.owner) = false := by
              have h1 := MR.alive; have h2 := MR.owner
              rw [patchM_alive] at h1; rw [patchM_owner] at h2
              rcases hal with h | h
              · rw [h1, h]; rfl
              · rw [h2, h]; simp
            have hcls : k.cls = a.cls := by rw [← MR.cls, patchM_cls]
            have he : callSlot P (G + 3) w m (d + 1) args = callSlot P (G + 2) w m d [] := by
              rw [callSlot]
              simp only [hk, hcall, hthunk', runCode, hcls, hd, Bool.false_eq_true, if_false]
            rw [he]
            refine slot_sim ht hn hc hS hk ha hal (by omega) (fun d' hd' e => by rw [hd] at hd'; cases hd'; omega) ?_ hm hl hG
            rw [hd]
            simp only [if_true] at hs ⊢
            exact hs
          · simp only [if_neg hdc] at hs
            refine slot_sim ht hn hc hS hk ha hal hoff (fun d' hd' e => ?_) (by rw [hd]; exact hs) hm hl (Nat.le_succ_of_le hG)
            rw [hd] at hd'; cases hd'
            have : ¬(a.spied = false ∨ (a.stubs d).isSome = true) := fun h => hdc ⟨e, h⟩
            simp only [not_or, Bool.not_eq_false, Bool.not_eq_true, Option.isSome_eq_false_iff, Option.isNone_iff_eq_none] at this
            exact this
      · cases hs

/-! ## Whole programs -/

theorem CtxRel.idle : CtxRel Ctx.idle ([] : List (Patch V E)) :=
  ⟨fun _ _ _ _ _ _ h => (nomatch h), fun _ _ _ _ _ h => (nomatch h), fun _ _ => ⟨fun h => (nomatch h), fun ⟨_, _, h⟩ => (nomatch h)⟩, fun _ h => (nomatch h)⟩

theorem rStep_up {fuel : Nat} {s s' : AState V E} {op : Op V E} {o : OpOut V E} (h : rStep P fuel s op = some (o, s')) : AUp s s' := by
  cases op with
  | call m off args =>
    simp only [rStep, Option.map_eq_some_iff] at h
    obtain ⟨r, h1, h2⟩ := h
    cases h2
    exact rCall_up fuel h1
  | api a =>
    simp only [rStep, Option.map_eq_some_iff] at h
    obtain ⟨r, h1, h2⟩ := h
    cases h2
    exact ⟨(aApi_grows h1).made, (aApi_grows h1).pre⟩

theorem rRun_up {fuel : Nat} {s s' : AState V E} {ops : List (Op V E)} {os : List (OpOut V E)} (h : rRun P fuel s ops = some (os, s')) : AUp s s' := by
  induction ops generalizing s os with
  | nil => cases h; exact .refl _
  | cons op ops ih =>
    simp only [rRun, Option.bind_eq_bind, Option.bind_eq_some_iff] at h
    obtain ⟨⟨o, s1⟩, h1, ⟨os1, s2⟩, h2, h3⟩ := h
    cases h3
    exact (rStep_up h1).trans (ih h2)

theorem step_sim (ht : Tame P nm) {fuel : Nat} {s s' : AState V E} {w : World V E} (hS : Sim P nm [] s w) {op : Op V E} (hop : op.Within (fun a => a.Named nm ∧ a.Writes) (fun _ _ => True))
    {o : OpOut V E} (hs : rStep P fuel s op = some (o, s')) (hm : s'.made < wrap32) (hl : s'.named.length < wrap32) {F : Nat} (hF : 3 * fuel ≤ F) :
    ∃ w', opStep P F w op = .done (o, w') ∧ Sim P nm [] s' w' := by
  cases op with
  | call m off args =>
    simp only [rStep, Option.map_eq_some_iff] at hs
    obtain ⟨⟨o1, s1⟩, h1, h2⟩ := hs
    cases h2
    obtain ⟨w', e, h⟩ := call_sim ht fuel _ _ .idle F hF _ _ _ _ _ _ _ hS h1 hm hl
    exact ⟨w', by simp only [opStep, e, R.bind_done], h⟩
  | api a =>
    simp only [rStep, Option.map_eq_some_iff] at hs
    obtain ⟨⟨s1, o1⟩, h1, h2⟩ := hs
    cases h2
    obtain ⟨w', e, h⟩ := hS.api .idle hop.1 hop.2 (by cases a <;> rfl) h1 hm hl
    exact ⟨w', by simp only [opStep, e, R.bind_done], h⟩

theorem run_sim (ht : Tame P nm) {fuel : Nat} {ops : List (Op V E)} : (∀ op ∈ ops, op.Within (fun a => a.Named nm ∧ a.Writes) (fun _ _ => True)) →
    ∀ {s s' : AState V E} {w : World V E} {os : List (OpOut V E)}, Sim P nm [] s w → rRun P fuel s ops = some (os, s') → s'.made < wrap32 → s'.named.length < wrap32 → ∀ {F : Nat}, 3 * fuel ≤ F →
    ∃ w', runOps P F w ops = .done (os, w') ∧ Sim P nm [] s' w' := by
  induction ops with
  | nil => intro _ s s' w os hS h _ _ F _; cases h; exact ⟨w, rfl, hS⟩
  | cons op ops ih =>
    intro hops s s' w os hS h hm hl F hF
    simp only [rRun, Option.bind_eq_bind, Option.bind_eq_some_iff] at h
    obtain ⟨⟨o, s1⟩, h1, ⟨os1, s2⟩, h2, h3⟩ := h
    cases h3
    have g := rRun_up h2
    obtain ⟨w1, e1, hS1⟩ := step_sim ht hS (hops _ (by simp)) h1 (Nat.lt_of_le_of_lt g.1 hm) (Nat.lt_of_le_of_lt g.2.length_le hl) hF
    obtain ⟨w2, e2, hS2⟩ := ih (fun op h => hops op (by simp [h])) hS1 h2 hm hl hF
    exact ⟨w2, by simp only [runOps, e1, R.bind_done, e2], hS2⟩

end FakeIt
