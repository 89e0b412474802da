import Verif.Lemmas.Serve
import Verif.Spec.Trace
/-!
# A stubbing along a whole program
-/
namespace FakeIt
variable {V E : Type} {P : Prog V E} {nm : MockId → Nat → Nat} {Φ : MatcherKind V → Prop}
open Spec

theorem Body.Within.mono {A A' : Api V E → Prop} {C C' : MockId → Nat → Prop} (hA : ∀ a, A a → A' a) (hC : ∀ m off, C m off → C' m off)
    {b : Body V E} (h : b.Within A C) : b.Within A' C' := by
  induction b with
  | done => trivial
  | setArg i v k ih => exact ih h
  | call m off args k ih => exact ⟨hC _ _ h.1, fun o => ih o (h.2 o)⟩
  | api a k ih => exact ⟨hA _ h.1, fun o => ih o (h.2 o)⟩

theorem Prog.NonReentrant.named {c : ClassDecl V} {m off : Nat} (h : P.NonReentrant nm c m off Φ) : P.Named nm :=
  fun f vs => (h f vs).mono (fun _ ha => ha.1) (fun _ _ _ => trivial)

theorem split_unique {α : Type} {l1 l2 r1 r2 : List α} {a : α} (h : l1 ++ a :: r1 = l2 ++ a :: r2) (hn : (l1 ++ a :: r1).Nodup) : l1 = l2 ∧ r1 = r2 := by
  induction l1 generalizing l2 with
  | nil =>
    cases l2 with
    | nil => simpa using h
    | cons x l2 =>
      simp only [List.nil_append, List.cons_append, List.cons.injEq] at h
      obtain ⟨rfl, rfl⟩ := h
      simp at hn
  | cons x l1 ih =>
    cases l2 with
    | nil =>
      simp only [List.nil_append, List.cons_append, List.cons.injEq] at h
      obtain ⟨rfl, rfl⟩ := h
      simp at hn
    | cons y l2 =>
      simp only [List.cons_append, List.cons.injEq] at h
      obtain ⟨rfl, h⟩ := h
      simp only [List.cons_append, List.nodup_cons] at hn
      obtain ⟨rfl, rfl⟩ := ih h hn.2
      exact ⟨rfl, rfl⟩

theorem nodup_of_map {α β : Type} (f : α → β) {l : List α} (h : (l.map f).Nodup) : l.Nodup := by
  induction l with
  | nil => simp
  | cons a l ih =>
    simp only [List.map_cons, List.nodup_cons] at h ⊢
    exact ⟨fun ha => h.1 (List.mem_map_of_mem ha), ih h.2⟩

/-- Handler addresses of one method are distinct. -/
theorem Inv2.nodup {w : World V E} (hI : Inv2 P nm w) {m off : Nat} {b : MBody V E} (hb : w.body? m off = some b) :
    (b.handlers.map (·.addr)).Nodup := by
  obtain ⟨k, hk, hkb⟩ := Option.bind_eq_some_iff.1 hb
  have := hI.1.2.nodup m off
  simp only [haddrs, hk, kaddrs] at this
  simpa [hkb, List.map_map, Function.comp_def] using this

theorem setSeq_of_ne {hs : List (Handler V E)} {a : Addr} {s : ActionSeq V E} (h : ∀ x ∈ hs, x.addr ≠ a) : setSeq hs a s = hs := by
  induction hs with
  | nil => rfl
  | cons x hs ih =>
    have h1 : (x.addr == a) = false := by simpa using h x (by simp)
    simp only [setSeq, List.map_cons, h1, Bool.false_eq_true, if_false, List.cons.injEq, true_and]
    exact ih fun y hy => h y (by simp [hy])

theorem setSeq_kind {hs : List (Handler V E)} {a : Addr} {s : ActionSeq V E} {x : Handler V E} (h : x ∈ setSeq hs a s) :
    ∃ y ∈ hs, x.matcher = y.matcher := by
  simp only [setSeq, List.mem_map] at h
  obtain ⟨y, hy, rfl⟩ := h
  exact ⟨y, hy, by split <;> rfl⟩

theorem stubbings_of {w : World V E} {m off : Nat} {b : MBody V E} (hb : w.body? m off = some b) : stubbings w m off = b.handlers := by
  simp [stubbings, hb]

/-- A call that no stubbing accepts. -/
theorem call_unmatched {w : World V E} {m off : Nat} {b : MBody V E} (hlive : Live w m off b) {args : List (Arg V)}
    (hn : NoneAccepts b.handlers (valuesOf w.heap args)) (fuel : Nat) :
    callSlot P (fuel + 1) w m off args = .done (.unexpected, w.bumpInv.fire (.unexpectedCall .unmatched (fresh w b args))) := by
  rw [callSlot_live hlive]
  have hfind : findHandler w.bumpInv.heap b.handlers (fresh w b args) = none := by
    rw [findHandler_none _ _ rfl]; exact hn
  simp only [handleCall]
  change (match findHandler w.bumpInv.heap b.handlers (fresh w b args) with
    | none => _
    | some h => _) = _
  rw [hfind]
  rfl

/-- Stubbing number `j` of the method, `n` calls after it was installed with `acts`. -/
structure AtStub (P : Prog V E) (nm : MockId → Nat → Nat) (c : ClassDecl V) (own : Bool) (m off : Nat) (Φ : MatcherKind V → Prop) (j : Nat)
    (kind : MatcherKind V) (acts : List (Act V E)) (w : World V E) (n : Nat) : Prop where
  wf : Wf P nm w
  mock : ∃ k, w.mocks[m]? = some k ∧ P.cls k.cls = c ∧ k.owner = own
  stub : ∃ b older h newer, w.body? m off = some b ∧ b.handlers = older ++ h :: newer ∧ older.length = j ∧ h.matcher.kind = kind ∧
    h.seq.Rep (afterActs acts n) ∧ ∀ g ∈ newer, Φ g.matcher.kind

section
variable {c : ClassDecl V} {own : Bool} {m off j : Nat} {kind : MatcherKind V} {acts : List (Act V E)}

theorem AtStub.keep {w w' : World V E} {n : Nat} (h : AtStub P nm c own m off Φ j kind acts w n) (hq : QF P nm Φ m off w w') :
    AtStub P nm c own m off Φ j kind acts w' n := by
  refine ⟨hq.1.wf h.wf, ?_, ?_⟩
  · obtain ⟨k, hk, hc, ho⟩ := h.mock
    obtain ⟨k', hk', hcls, hown, -⟩ := hq.1.1.1.2.stat m k hk
    exact ⟨k', hk', by rw [hcls]; exact hc, by rw [hown]; exact ho⟩
  · obtain ⟨b, older, hd, newer, hb, hh, hj, hkd, hrep, hΦ⟩ := h.stub
    obtain ⟨b', more, hb', -, hh', hmore⟩ := hq.2 b hb
    refine ⟨b', older, hd, newer ++ more, hb', by rw [hh', hh]; simp, hj, hkd, hrep, ?_⟩
    intro g hg
    rcases List.mem_append.1 hg with hg | hg
    · exact hΦ g hg
    · exact hmore g hg

theorem AtStub.inF {w : World V E} {n : Nat} (h : AtStub P nm c own m off Φ j kind acts w n) : IF P nm c m off w := by
  obtain ⟨k, hk, hc, -⟩ := h.mock
  obtain ⟨b, -, -, -, hb, -⟩ := h.stub
  exact ⟨h.wf.inv2, ⟨k, hk, hc⟩, b, hb⟩

theorem AtStub.live {w : World V E} {n : Nat} (h : AtStub P nm c own m off Φ j kind acts w n) (hd : Plain c off) {b : MBody V E}
    (hb : w.body? m off = some b) : Live w m off b := by
  obtain ⟨k, hk, hc, -⟩ := h.mock
  exact h.wf.steady.live hb hk (by rw [hc]; exact hd)

theorem AtStub.notDel {w : World V E} {n : Nat} (h : AtStub P nm c own m off Φ j kind acts w n) (hd : Plain c off) : NotDel P w m off := by
  obtain ⟨k, hk, hc, -⟩ := h.mock
  intro k' d hk' hd'
  rw [hk] at hk'; cases hk'
  rw [hc] at hd'
  exact (hd d hd').2

/-- The call served by the stubbing. -/
theorem AtStub.pick {w w' : World V E} {n fuel : Nat} {args : List (Arg V)} {o : Outcome V E} (hP : P.NonReentrant nm c m off Φ) (hd : Plain c off)
    (h : AtStub P nm c own m off Φ j kind acts w n) (hp : Picks w m off args j) (hcall : callSlot P fuel w m off args = .done (o, w')) :
    Answers P c (!own) off (valuesOf w.heap args) (headAct (afterActs acts n)).perf o ∧ AtStub P nm c own m off Φ j kind acts w' (n + 1) := by
  cases fuel with
  | zero => simp [callSlot] at hcall
  | succ fuel =>
    obtain ⟨k, hk, hc, ho⟩ := h.mock
    obtain ⟨b, older, hd1, newer, hb, hh, hj, hkd, hrep, hΦ⟩ := h.stub
    obtain ⟨older', hd', newer', hst, hj', hacc, hrej⟩ := hp
    rw [stubbings_of hb, hh] at hst
    have := List.append_inj hst (by rw [hj, hj'])
    obtain ⟨rfl, he⟩ := this
    simp only [List.cons.injEq] at he
    obtain ⟨rfl, rfl⟩ := he
    have hsel : Selected b.handlers (valuesOf w.heap args) hd1 := ⟨older, newer, hh, hacc, hrej⟩
    obtain ⟨hans, hq, b', s, more, hb', -, hrep', hh', hmore⟩ := serve hP h.wf.inv2 (h.live hd hb) hk hc (h.notDel hd) hsel hrep hcall
    refine ⟨by rw [← ho]; exact hans, hq.wf h.wf, ?_, ?_⟩
    · obtain ⟨k', hk', hcls, hown, -⟩ := hq.1.1.2.stat m k hk
      exact ⟨k', hk', by rw [hcls]; exact hc, by rw [hown]; exact ho⟩
    · refine ⟨b', setSeq older hd1.addr s, { hd1 with seq := s }, setSeq newer hd1.addr s ++ more, hb', ?_, ?_, hkd, ?_, ?_⟩
      · rw [hh', hh]; simp [setSeq]
      · simp [setSeq, hj]
      · rw [afterActs_succ]; exact hrep'
      · intro g hg
        rcases List.mem_append.1 hg with hg | hg
        · obtain ⟨y, hy, he⟩ := setSeq_kind hg
          rw [he]; exact hΦ y hy
        · exact hmore g hg

/-- A call of the method that is not served by the stubbing. -/
theorem AtStub.miss {w w' : World V E} {n fuel : Nat} {args : List (Arg V)} {o : Outcome V E} (hP : P.NonReentrant nm c m off Φ) (hd : Plain c off)
    (h : AtStub P nm c own m off Φ j kind acts w n) (hp : ¬ Picks w m off args j) (hcall : callSlot P fuel w m off args = .done (o, w')) :
    AtStub P nm c own m off Φ j kind acts w' n := by
  cases fuel with
  | zero => simp [callSlot] at hcall
  | succ fuel =>
    obtain ⟨k, hk, hc, ho⟩ := h.mock
    obtain ⟨b, older, hd1, newer, hb, hh, hj, hkd, hrep, hΦ⟩ := h.stub
    cases hf : findHandler w.heap b.handlers (fresh w b args) with
    | none =>
      rw [call_unmatched (args := args) (h.live hd hb) ((findHandler_none w.heap (fresh w b args) rfl _).1 hf)] at hcall
      simp only [R.done.injEq, Prod.mk.injEq] at hcall
      obtain ⟨-, rfl⟩ := hcall
      have S := stableF (P := P) (nm := nm) (Φ := Φ) c m off
      have hq := S.bump w h.inF
      exact h.keep (hq.trans (S.fire _ _ (hq.inv h.inF)))
    | some h2 =>
      have hsel : Selected b.handlers (valuesOf w.heap args) h2 := (findHandler_some w.heap (fresh w b args) rfl _ _).1 hf
      obtain ⟨i, act, s, -, -, -, hq, b', more, hb', -, hh', hmore⟩ := serveAny hP h.wf.inv2 (h.live hd hb) hk hc (h.notDel hd) hsel hcall
      have hnd := h.wf.inv2.nodup hb
      have hne : h2.addr ≠ hd1.addr := by
        intro he
        have hmem : hd1 ∈ b.handlers := by rw [hh]; simp
        have := eq_of_map_nodup hnd hsel.mem hmem he
        subst this
        obtain ⟨older', newer', hst, hacc, hrej⟩ := hsel
        have hnd' := nodup_of_map _ hnd
        rw [hst] at hnd'
        obtain ⟨rfl, rfl⟩ := split_unique (hst.symm.trans hh) hnd'
        exact hp ⟨older', h2, newer', by rw [stubbings_of hb]; exact hst, hj, hacc, hrej⟩
      refine ⟨hq.wf h.wf, ?_, ?_⟩
      · obtain ⟨k', hk', hcls, hown, -⟩ := hq.1.1.2.stat m k hk
        exact ⟨k', hk', by rw [hcls]; exact hc, by rw [hown]; exact ho⟩
      · refine ⟨b', setSeq older h2.addr s, hd1, setSeq newer h2.addr s ++ more, hb', ?_, by simp [setSeq, hj], hkd, hrep, ?_⟩
        · rw [hh', hh]
          have : hd1.addr ≠ h2.addr := Ne.symm hne
          simp [setSeq, this]
        · intro g hg
          rcases List.mem_append.1 hg with hg | hg
          · obtain ⟨y, hy, he⟩ := setSeq_kind hg
            rw [he]; exact hΦ y hy
          · exact hmore g hg

/-- Along a trace. -/
theorem AtStub.trace {w w' : World V E} {i n : Nat} (hP : P.NonReentrant nm c m off Φ) (hd : Plain c off)
    (h : AtStub P nm c own m off Φ j kind acts w i) (ht : Trace P nm c m off Φ j w n w') :
    AtStub P nm c own m off Φ j kind acts w' (i + n) := by
  induction ht with
  | nil => exact h
  | api _ ha hs ih => exact ih.keep (apiStep_stable (apiStableF c m off) ih.inF ha hs)
  | other _ ha hs ih => exact ih.keep (callSlot_stable (stableF c m off) hP _ _ _ _ _ _ _ ih.inF ha hs)
  | miss _ hp hs ih => exact ih.miss hP hd hp hs
  | pick _ hp hs ih => exact (ih.pick hP hd hp hs).2

end

/-- Mentioning a method creates its record, without stubbings, if there was none. -/
theorem touch_stubbings {w w' : World V E} {m : MockId} {slot : SlotRef} {k : Mock V E} {off : Nat} (hk : w.mock? m = some k)
    (hoff : slot.off (P.cls k.cls) = some off) (h : touch P w m slot = .done (some w')) :
    (∃ b, w'.body? m off = some b ∧ b.handlers = stubbings w m off) ∧ w'.alloc = w.alloc := by
  have hk' := (World.mock?_eq_some.1 hk).1
  unfold touch at h
  rw [hk] at h
  dsimp only at h
  cases slot with
  | meth off' ctr =>
    simp only [SlotRef.off, Option.some.injEq] at hoff
    subst hoff
    dsimp only at h
    split at h
    · simp at h
    · rename_i b hb
      simp only [R.done.injEq, Option.some.injEq] at h
      subst h
      have : w.body? m off' = some b := by simp [World.body?, Mock.body?, hk', hb]
      exact ⟨⟨b, this, by simp [stubbings, this]⟩, rfl⟩
    · rename_i hn
      simp only [R.done.injEq, Option.some.injEq] at h
      subst h
      refine ⟨⟨newBody w.methTotal, ?_, ?_⟩, rfl⟩
      · have := body?_bindAt w m k off' ctr hk' hn m off'
        rw [if_pos ⟨rfl, rfl⟩] at this
        exact this
      · simp [stubbings, body?_none_of hk' hn, newBody]
  | dtor =>
    simp only [SlotRef.off] at hoff
    dsimp only at h
    rw [hoff] at h
    dsimp only at h
    split at h
    · split at h
      · simp at h
      · rename_i b hb
        simp only [R.done.injEq, Option.some.injEq] at h
        subst h
        have : w.body? m off = some b := by simp [World.body?, Mock.body?, hk', hb]
        exact ⟨⟨b, this, by simp [stubbings, this]⟩, rfl⟩
      · rename_i hn
        simp only [R.done.injEq, Option.some.injEq] at h
        subst h
        refine ⟨⟨newBody w.methTotal, ?_, ?_⟩, rfl⟩
        · have := body?_bindDtorAt w m k off hk' hn m off
          rw [if_pos ⟨rfl, rfl⟩] at this
          exact this
        · simp [stubbings, body?_none_of hk' hn, newBody]
    · simp at h

theorem touch_none {w : World V E} {m : MockId} {slot : SlotRef} {k : Mock V E} {off : Nat} (hk : w.mock? m = some k)
    (hoff : slot.off (P.cls k.cls) = some off) : touch P w m slot ≠ .done none := by
  unfold touch
  rw [hk]
  dsimp only
  cases slot with
  | meth off' ctr =>
    dsimp only
    split <;> simp
  | dtor =>
    simp only [SlotRef.off] at hoff
    simp only [hoff]
    split
    · split <;> simp
    · simp

/-- Committing a stubbing appends it. -/
theorem commit_stubbings {w w' : World V E} {t : Target V} {acts : List (Act V E)} {k : Mock V E} {off : Nat} (hk : w.mock? t.m = some k)
    (hoff : t.slot.off (P.cls k.cls) = some off) {b : MBody V E} (hb : w.body? t.m off = some b) (h : commit P w t acts = .done w') :
    ∃ b' hd, w'.body? t.m off = some b' ∧ b'.handlers = b.handlers ++ [hd] ∧ hd.matcher.kind = t.kind ∧ hd.seq = ActionSeq.ofActs acts := by
  unfold commit at h
  simp only [hk, hoff, hb, R.done.injEq] at h
  subst h
  refine ⟨{ b with handlers := b.handlers ++ [_] }, { addr := w.alloc + 1, matcher := { addr := w.alloc, kind := t.kind }, seq := ActionSeq.ofActs acts },
    ?_, rfl, rfl, rfl⟩
  show (w.updBody _ _ _).body? _ _ = _
  rw [World.body?_updBody, if_pos ⟨rfl, rfl⟩, hb]
  rfl

/-- The effect of a stubbing statement on one method. -/
theorem install {w w' : World V E} {op : Api V E} {out : ApiOut} {t : Target V} {acts : List (Act V E)} {k : Mock V E} {off : Nat}
    (hst : op.stubs = [(t, acts)]) (hk : w.mock? t.m = some k) (hoff : t.slot.off (P.cls k.cls) = some off)
    (h : apiStep P w op = .done (w', out)) :
    ∃ b hd, w'.body? t.m off = some b ∧ b.handlers = stubbings w t.m off ++ [hd] ∧ hd.matcher.kind = t.kind ∧ hd.seq = ActionSeq.ofActs acts := by
  -- touch then commit
  have key : ∀ w1 w2, touch P w t.m t.slot = .done (some w1) → commit P w1 t acts = .done w2 →
      ∃ b hd, w2.body? t.m off = some b ∧ b.handlers = stubbings w t.m off ++ [hd] ∧ hd.matcher.kind = t.kind ∧ hd.seq = ActionSeq.ofActs acts := by
    intro w1 w2 h1 h2
    obtain ⟨⟨b, hb, hbh⟩, -⟩ := touch_stubbings hk hoff h1
    have hk1 : ∃ k1, w1.mock? t.m = some k1 ∧ k1.cls = k.cls := by
      cases hk1 : w1.mock? t.m with
      | none => simp [commit, hk1] at h2
      | some k1 =>
        refine ⟨k1, rfl, ?_⟩
        have hcls : ∀ w1 : World V E, touch P w t.m t.slot = .done (some w1) → ∀ k1, w1.mock? t.m = some k1 → k1.cls = k.cls := by
          intro w1 h1 k1 hk1
          have hk0 := (World.mock?_eq_some.1 hk).1
          have hk1' := (World.mock?_eq_some.1 hk1).1
          unfold touch at h1
          rw [hk] at h1
          dsimp only at h1
          have hbind : ∀ f : Mock V E → Mock V E, (∀ k, (f k).cls = k.cls) → (w.updMock t.m f).mocks[t.m]? = some k1 → k1.cls = k.cls := by
            intro f hf hx
            rw [World.mocks_updMock, if_pos rfl, hk0] at hx
            simp only [Option.map_some, Option.some.injEq] at hx
            rw [← hx]; exact hf k
          split at h1
          · split at h1
            · simp at h1
            · simp only [R.done.injEq, Option.some.injEq] at h1
              subst h1
              rw [hk0] at hk1'; cases hk1'; rfl
            · simp only [R.done.injEq, Option.some.injEq] at h1
              subst h1
              exact hbind (fun x => x.bind _ _ _) (fun _ => rfl) hk1'
          · split at h1
            · simp at h1
            · split at h1
              · split at h1
                · simp at h1
                · simp only [R.done.injEq, Option.some.injEq] at h1
                  subst h1
                  rw [hk0] at hk1'; cases hk1'; rfl
                · simp only [R.done.injEq, Option.some.injEq] at h1
                  subst h1
                  exact hbind (fun x => x.bindDtor _ _) (fun _ => rfl) hk1'
              · simp at h1
        exact hcls w1 h1 k1 hk1
    obtain ⟨k1, hk1, hcls⟩ := hk1
    obtain ⟨b', hd, hb', hh, hkd, hs⟩ := commit_stubbings hk1 (by rw [hcls]; exact hoff) hb h2
    exact ⟨b', hd, hb', by rw [hh, hbh], hkd, hs⟩
  have one : ∀ u o, u = false → stubOne P w t acts u = .done (w', o) →
      ∃ b hd, w'.body? t.m off = some b ∧ b.handlers = stubbings w t.m off ++ [hd] ∧ hd.matcher.kind = t.kind ∧ hd.seq = ActionSeq.ofActs acts := by
    intro u o hu h
    subst hu
    simp only [stubOne, R.bind_eq_done] at h
    obtain ⟨r, h1, h2⟩ := h
    cases r with
    | none => exact absurd h1 (touch_none hk hoff)
    | some w1 =>
      simp only [Bool.false_eq_true, if_false, R.bind_eq_done, R.done.injEq, Prod.mk.injEq] at h2
      obtain ⟨w2, h2, rfl, -⟩ := h2
      exact key w1 w2 h1 h2
  have many : ∀ a o, acts = [a] → stubMany P w [t] a = .done (w', o) →
      ∃ b hd, w'.body? t.m off = some b ∧ b.handlers = stubbings w t.m off ++ [hd] ∧ hd.matcher.kind = t.kind ∧ hd.seq = ActionSeq.ofActs acts := by
    intro a o ha h
    subst ha
    simp only [stubMany, List.map_cons, List.map_nil, touchAll, R.bind_eq_done] at h
    obtain ⟨⟨r, ok⟩, ⟨r1, h1, h1'⟩, h2⟩ := h
    cases r1 with
    | none => exact absurd h1 (touch_none hk hoff)
    | some w1 =>
      simp only [R.done.injEq, Prod.mk.injEq] at h1'
      obtain ⟨rfl, rfl⟩ := h1'
      simp only [commitAll, R.bind_eq_done, R.done.injEq, Prod.mk.injEq] at h2
      obtain ⟨w2, ⟨w3, h3, rfl⟩, rfl, -⟩ := h2
      exact key w1 _ h1 h3
  cases op with
  | when_ t' acts' u =>
    cases u with
    | true => simp [Api.stubs] at hst
    | false =>
      simp only [Api.stubs, List.cons.injEq, Prod.mk.injEq, and_true] at hst
      obtain ⟨rfl, rfl⟩ := hst
      exact one false out rfl h
  | assign t' f =>
    simp only [Api.stubs, List.cons.injEq, Prod.mk.injEq, and_true] at hst
    obtain ⟨rfl, rfl⟩ := hst
    exact one false out rfl h
  | fake ts =>
    cases ts with
    | nil => simp [Api.stubs] at hst
    | cons t' ts =>
      cases ts with
      | cons => simp [Api.stubs] at hst
      | nil =>
        simp only [Api.stubs, List.map_cons, List.map_nil, List.cons.injEq, Prod.mk.injEq, and_true] at hst
        obtain ⟨rfl, rfl⟩ := hst
        exact many _ out rfl h
  | spy mv ts =>
    cases ts with
    | nil => simp [Api.stubs] at hst
    | cons t' ts =>
      cases ts with
      | cons => simp [Api.stubs] at hst
      | nil =>
        simp only [Api.stubs, List.map_cons, List.map_nil, List.cons.injEq, Prod.mk.injEq, and_true] at hst
        obtain ⟨rfl, rfl⟩ := hst
        exact many _ out rfl h
  | _ => simp [Api.stubs] at hst

/-- The state right after a stubbing statement. -/
theorem Spec.Stubbed.atStub {c : ClassDecl V} {spied : Bool} {m off j : Nat} {kind : MatcherKind V} {acts : List (Act V E)} {w w' : World V E}
    (h : Stubbed P nm c spied m off kind acts j w w') (hP : P.Named nm) : AtStub P nm c (!spied) m off Φ j kind acts w' 0 := by
  obtain ⟨k, hk, hc, ho⟩ := h.mock
  obtain ⟨op, slot, out, hst, hop, hoff, hstep⟩ := h.stmt
  have hwf := h.reach.wf hP
  have hq : Q2 P nm w w' := apiStep_stable apiStable2 hwf.inv2 hop hstep
  obtain ⟨b, hd, hb, hh, hkd, hs⟩ := install hst hk (by rw [hc]; exact hoff) hstep
  refine ⟨hq.wf hwf, ?_, b, stubbings w m off, hd, [], hb, by simpa using hh, h.number, hkd, ?_, by simp⟩
  · obtain ⟨k', hk', hcls, hown, -⟩ := hq.1.1.2.stat m k (World.mock?_eq_some.1 hk).1
    exact ⟨k', hk', by rw [hcls]; exact hc, by rw [hown]; exact ho⟩
  · rw [hs]; exact rep_ofActs acts

end FakeIt
