import Verif.Lemmas.Frame
import Verif.Lemmas.Serve
import Verif.Lemmas.Answer
/-!
# Histories only grow
-/
namespace FakeIt
variable {V E : Type}
open Spec

/-- The history of method `off` of mock `m` grows at the end only (`strict`: not at all). -/
def Grows (strict : Prop) (m off : Nat) (w w' : World V E) : Prop :=
  ∀ b, w.body? m off = some b → ∃ b', w'.body? m off = some b' ∧ Extends b.invs b'.invs ∧ (strict → b'.invs.length = b.invs.length)

variable {strict : Prop}

theorem Grows.refl (m off : Nat) (w : World V E) : Grows strict m off w w := fun b hb => ⟨b, hb, .refl _, fun _ => rfl⟩

theorem Grows.trans {m off : Nat} {a b c : World V E} (h1 : Grows strict m off a b) (h2 : Grows strict m off b c) : Grows strict m off a c := by
  intro x hx
  obtain ⟨y, hy, e1, l1⟩ := h1 x hx
  obtain ⟨z, hz, e2, l2⟩ := h2 y hy
  exact ⟨z, hz, e1.trans e2, fun s => (l2 s).trans (l1 s)⟩

theorem Grows.same {m off : Nat} {w w' : World V E} (h : w'.body? m off = w.body? m off) : Grows strict m off w w' :=
  fun b hb => ⟨b, by rw [h, hb], .refl _, fun _ => rfl⟩

theorem Grows.map {m off : Nat} {w w' : World V E} (f : MBody V E → MBody V E) (h : w'.body? m off = (w.body? m off).map f)
    (hf : ∀ b, Extends b.invs (f b).invs ∧ (strict → (f b).invs.length = b.invs.length)) : Grows strict m off w w' := by
  intro b hb
  exact ⟨f b, by rw [h, hb]; rfl, (hf b).1, (hf b).2⟩

theorem Grows.updBody {m off : Nat} (w : World V E) (m' off' : Nat) (f : MBody V E → MBody V E)
    (hf : m' = m ∧ off' = off → ∀ b, Extends b.invs (f b).invs ∧ (strict → (f b).invs.length = b.invs.length)) :
    Grows strict m off w (w.updBody m' off' f) := by
  by_cases hc : m' = m ∧ off' = off
  · exact Grows.map f (by rw [World.body?_updBody, if_pos hc]) (hf hc)
  · exact Grows.same (by rw [World.body?_updBody, if_neg hc])

theorem Grows.updMock {m off : Nat} (w : World V E) (m' : Nat) (f : Mock V E → Mock V E)
    (hf : m' = m → ∀ k, w.mocks[m]? = some k → (f k).body? off = k.body? off) : Grows strict m off w (w.updMock m' f) := by
  apply Grows.same
  simp only [World.body?, World.mocks_updMock]
  by_cases hm : m' = m
  · subst hm
    simp only [if_true]
    cases hk : w.mocks[m']? with
    | none => rfl
    | some k => simp only [Option.map_some, Option.bind_some]; exact hf rfl k hk
  · rw [if_neg hm]

variable {P : Prog V E} {nm : MockId → Nat → Nat}

/-- Invariants kept and the history of (`m`, `off`) kept. -/
def QH (P : Prog V E) (nm : MockId → Nat → Nat) (strict : Prop) (m off : Nat) (w w' : World V E) : Prop := Q2 P nm w w' ∧ Grows strict m off w w'

theorem QH.inv {c : ClassDecl V} {m off : Nat} {w w' : World V E} (h : QH P nm strict m off w w') (hI : IF P nm c m off w) : IF P nm c m off w' := by
  obtain ⟨h1, ⟨k, hk, hc⟩, b, hb⟩ := hI
  obtain ⟨k', hk', hcls, -⟩ := h.1.1.1.2.stat m k hk
  obtain ⟨b', hb', -⟩ := h.2 b hb
  exact ⟨h.1.inv h1, ⟨k', hk', by rw [hcls]; exact hc⟩, b', hb'⟩

theorem QH.trans {m off : Nat} {a b c : World V E} (h1 : QH P nm strict m off a b) (h2 : QH P nm strict m off b c) : QH P nm strict m off a c :=
  ⟨h1.1.trans h2.1, h1.2.trans h2.2⟩

theorem apiStableH (strict : Prop) (c : ClassDecl V) (m off : Nat) : ApiStable P (fun a => a.Named nm ∧ a.KeepsHistory m) (fun m s => s.Named nm m)
    (IF P nm c m off) (QH P nm strict m off) where
  inv h hI := h.inv hI
  refl w := ⟨apiStable2.refl w, Grows.refl _ _ w⟩
  trans h1 h2 := h1.trans h2
  slots h := h.1
  newMock w cls own hI := ⟨apiStable2.newMock w cls own hI.1, Grows.same (body?_newMock w cls _ own m off)⟩
  destroy w m' k hI hA hk := ⟨apiStable2.destroy w m' k hI.1 hA.1 hk, Grows.updMock _ _ _ fun e => absurd e hA.2⟩
  reset w m' k hI hA hk := ⟨apiStable2.reset w m' k hI.1 hA.1 hk, Grows.updMock _ _ _ fun e => absurd e hA.2⟩
  clear w m' k hI hA hk := ⟨apiStable2.clear w m' k hI.1 hA.1 hk, Grows.updMock _ _ _ fun e => absurd e hA.2⟩
  stubData w m' k cell v hI hA hk hlt := ⟨apiStable2.stubData w m' k cell v hI.1 hA.1 hk hlt, Grows.updMock _ _ _ fun _ _ _ => rfl⟩
  writeData w m' k cell v hI hA hk hlt := ⟨apiStable2.writeData w m' k cell v hI.1 hA.1 hk hlt, Grows.updMock _ _ _ fun _ _ _ => rfl⟩
  bind w m' k off' ctr hI hB hk hn := by
    refine ⟨apiStable2.bind w m' k off' ctr hI.1 hB hk hn, Grows.same ?_⟩
    have hk' := (World.mock?_eq_some.1 hk).1
    rw [body?_bindAt w m' k off' ctr hk' hn, if_neg]
    rintro ⟨rfl, rfl⟩
    obtain ⟨b, hb⟩ := hI.2.2
    rw [body?_none_of hk' hn] at hb; cases hb
  bindDtor w m' k d hI hB hk hd hlt hn := by
    refine ⟨apiStable2.bindDtor w m' k d hI.1 hB hk hd hlt hn, Grows.same ?_⟩
    have hk' := (World.mock?_eq_some.1 hk).1
    rw [body?_bindDtorAt w m' k d hk' hn, if_neg]
    rintro ⟨rfl, rfl⟩
    obtain ⟨b, hb⟩ := hI.2.2
    rw [body?_none_of hk' hn] at hb; cases hb
  commit w m' k slot off' b kind acts hI hs hB hk hoff hb :=
    ⟨apiStable2.commit w m' k slot off' b kind acts hI.1 (hs.imp fun a h => ⟨h.1.1, h.2⟩) hB hk hoff hb,
      Grows.updBody w m' off' _ fun _ b => ⟨.refl _, fun _ => rfl⟩⟩
  write w a v hI := ⟨apiStable2.write w a v hI.1, Grows.same rfl⟩
  fire w e hI := ⟨apiStable2.fire w e hI.1, Grows.same rfl⟩
  mark w scope pat q mode actual count matched hI hA h := ⟨apiStable2.mark w scope pat q mode actual count matched hI.1 hA.1 h,
    Grows.map _ (World.body?_mark _ _ _ _) fun b => ⟨Extends.map _ (fun i => by
      split
      · exact ⟨rfl, rfl, rfl, rfl, fun _ => rfl⟩
      · exact .refl i) _, fun _ => by simp⟩⟩

theorem stableH (strict : Prop) (c : ClassDecl V) (m off : Nat) : Stable P (fun a => a.Named nm ∧ a.KeepsHistory m)
    (fun m' off' => strict → Apart c m off m' off') (fun m' off' => strict → Apart c m off m' off')
    (fun _ _ _ _ => True) (IF P nm c m off) (QH P nm strict m off) where
  inv h hI := h.inv hI
  dispatch hI hC hk hv hb := fun s => apart_dispatch hI (hC s) hk hv hb
  frame _ _ _ := trivial
  thunk hI hC hk hv hd := fun s => apart_thunk hI (hC s) hk hv hd
  deleg h := h
  swapIn {w m' k off' orig} hI hD hk ho := by
    obtain ⟨h1, ⟨k0, hk0, hc⟩, b, hb⟩ := hI
    refine ⟨stable2.swapIn h1 trivial hk ho, ?_, b, by rw [World.body?_setVt]; exact hb⟩
    obtain ⟨k1, hk1, hcls, -⟩ := (keep_setVt w m' off' orig).2.stat m k0 hk0
    exact ⟨k1, hk1, by rw [hcls]; exact hc⟩
  refl w := ⟨stable2.refl w, Grows.refl _ _ w⟩
  trans h1 h2 := h1.trans h2
  api hI hA h := apiStep_stable (apiStableH strict c m off) hI hA h
  write w a v hI := ⟨stable2.write w a v hI.1, Grows.same rfl⟩
  setArgs w m' off' uid args f hI hD hf := ⟨stable2.setArgs w m' off' uid args f hI.1 trivial hf,
    Grows.updBody w m' off' _ fun _ b => ⟨Extends.map _ (fun i => by
      split
      · exact ⟨rfl, rfl, rfl, rfl, id⟩
      · exact .refl i) _, fun _ => by simp⟩⟩
  bump w hI := ⟨stable2.bump w hI.1, Grows.same rfl⟩
  fire w e hI := ⟨stable2.fire w e hI.1, Grows.same rfl⟩
  push w m' off' b args h hI hD hb hf := ⟨stable2.push w m' off' b args h hI.1 trivial hb hf,
    (Grows.same (w' := w.bumpInv) rfl).trans (Grows.updBody _ m' off' _ fun e b =>
      ⟨.append _ _, fun s => absurd e.2 (hD s e.1).1⟩)⟩
  tick w m' off' h i hI hD := ⟨stable2.tick w m' off' h i hI.1 trivial, Grows.updBody w m' off' _ fun _ b => ⟨.refl _, fun _ => rfl⟩⟩
  fin w m' off' h hd i s hI hD hh hs := ⟨stable2.fin w m' off' h hd i s hI.1 trivial hh hs, Grows.updBody w m' off' _ fun _ b => ⟨.refl _, fun _ => rfl⟩⟩
  swap w w' m' off' h k fake orig hd0 hd i s hI hD hk hf ho hh hQ hh' hs :=
    ⟨stable2.swap w w' m' off' h k fake orig hd0 hd i s hI.1 trivial hk hf ho hh hQ.1 hh' hs,
     ((Grows.same (World.body?_setVt _ _ _ _ _ _)).trans (hQ.2.trans (Grows.same (World.body?_setVt _ _ _ _ _ _)))).trans
      (Grows.updBody _ m' off' _ fun _ b => ⟨.refl _, fun _ => rfl⟩)⟩

theorem history_of {w : World V E} {m off : Nat} {b : MBody V E} (h : w.body? m off = some b) : history w m off = b.invs := by
  simp [history, h]

/-- Code that answers a call of method `off` of mock `m` itself: its bookkeeping keeps the history too. -/
theorem runHandler_hist {c : ClassDecl V} {m off : Nat} (hP : P.Within (fun a => a.Named nm ∧ a.KeepsHistory m) (fun m' off' => strict → Apart c m off m' off'))
    {fuel : Nat} {w : World V E} (hI : IF P nm c m off w) (hd : ∀ d, c.dtor = some d → off ≠ d + 1)
    {uid : Nat} {h hd0 : Handler V E} {args : List (Arg V)} (hh : w.handler? m off h.addr = some hd0)
    {o : Outcome V E} {w' : World V E} (hr : runHandler P (callSlot P fuel) w ⟨m, off, uid⟩ h args = .done (o, w')) : QH P nm strict m off w w' := by
  have S := stableH (P := P) (nm := nm) strict c m off
  have hset : ∀ (w : World V E) off' x, Grows strict m off w (w.setVt m off' x) := fun w off' x => Grows.same (World.body?_setVt _ _ _ _ _ _)
  refine runHandler_gen S hP _ (callSlot_stable S hP fuel) w hI ⟨m, off, uid⟩ h args (fun _ _ _ _ => trivial) hd0 hh ?_ ?_ ?_ o w' hr
  · intro i act _
    exact ⟨stable2.tick w m off h.addr i hI.1 trivial, Grows.updBody w m off _ fun _ b => ⟨.refl _, fun _ => rfl⟩⟩
  · intro i act w1 hd s _ _ hI1 hhd hs
    exact ⟨stable2.fin w1 m off h.addr hd i s hI1.1 trivial hhd hs, Grows.updBody w1 m off _ fun _ b => ⟨.refl _, fun _ => rfl⟩⟩
  · intro i act w1 w2 k fake orig hd0 hd1 s _ _ hI1 hk hf ho hh0 hcall hhd hs
    obtain ⟨o2, hcall⟩ := hcall
    have hI2 : IF P nm c m off (w1.setVt m off orig) := by
      obtain ⟨h1, ⟨k0, hk0, hc⟩, b, hb⟩ := hI1
      refine ⟨stable2.swapIn h1 trivial hk ho, ?_, b, by rw [World.body?_setVt]; exact hb⟩
      obtain ⟨k1, hk1, hcls, -⟩ := (keep_setVt w1 m off orig).2.stat m k0 hk0
      exact ⟨k1, hk1, by rw [hcls]; exact hc⟩
    have hcode : orig = .unmocked ∨ orig = .unmockedDtor ∨ ∃ f, orig = .native f := by
      have t := hI1.1.1.1 m k hk
      obtain ⟨k0, hk0, hc⟩ := hI1.2.1
      rw [hk] at hk0; cases hk0
      by_cases hdd : c.dtor = some off
      · rw [t.orig_eq] at ho
        cases hown : k.owner with
        | true =>
          rw [hown, if_pos rfl, fakeVt, hc, hdd] at ho
          simp only at ho
          rw [List.getElem?_set_ne (by omega)] at ho
          rw [List.getElem?_set] at ho
          simp only [if_true] at ho
          split at ho
          · simp at ho; exact .inr (.inl ho.symm)
          · simp at ho
        | false =>
          rw [hown, if_neg (by simp), nativeVt, List.getElem?_map] at ho
          cases hx : (List.range (P.cls k.cls).size)[off]? with
          | none => simp [hx] at ho
          | some y => simp [hx] at ho; exact .inr (.inr ⟨_, ho.symm⟩)
      · have hx := orig_code t ho (by rw [hc]; exact hd) (by rw [hc]; exact hdd)
        cases hown : k.owner with
        | true => exact .inl (hx.1 hown)
        | false => exact .inr (.inr ⟨_, hx.2 hown⟩)
    have hv : ∃ k2, (w1.setVt m off orig).mocks[m]? = some k2 ∧ k2.vt[off]? = some orig := by
      refine ⟨{ k with vt := k.vt.set off orig }, by simp only [World.setVt, World.mocks_updMock, if_true, hk, Option.map_some], ?_⟩
      rw [List.getElem?_set_self]
      exact lt_of_getElem?_some hf
    obtain ⟨k2, hk2, hv⟩ := hv
    have hq := callCode_stable S hP fuel hI2 hk2 hv hcode hcall
    exact ⟨stable2.swap w1 w2 m off h.addr k fake orig hd0 hd1 i s hI1.1 trivial hk hf ho hh0 hq.1 hhd hs,
      (hset _ _ _).trans (hq.2.trans ((hset _ _ _).trans (Grows.updBody _ m off _ fun _ b => ⟨.refl _, fun _ => rfl⟩)))⟩

/-- A call that some stubbing accepts records exactly one invocation; what happens inside the call only adds to that. -/
theorem call_records {c : ClassDecl V} {m off : Nat} (hP : P.Within (fun a => a.Named nm ∧ a.KeepsHistory m) (fun m' off' => strict → Apart c m off m' off'))
    {w : World V E} (hI : Inv2 P nm w) {b : MBody V E} (hlive : Live w m off b) {k : Mock V E} (hk : w.mocks[m]? = some k)
    (hc : P.cls k.cls = c) (hd : ∀ d, c.dtor = some d → off ≠ d + 1) {args : List (Arg V)} {h : Handler V E}
    (hsel : Selected b.handlers (valuesOf w.heap args) h) {fuel : Nat} {o : Outcome V E} {w' : World V E}
    (hcall : callSlot P (fuel + 1) w m off args = .done (o, w')) :
    Q2 P nm w w' ∧ ∃ b', w'.body? m off = some b' ∧ Extends (b.invs ++ [recorded w b args h]) b'.invs ∧
      (strict → b'.invs.length = b.invs.length + 1) := by
  rw [callSlot_live hlive] at hcall
  have hb := hlive.body
  have hfind : findHandler w.heap b.handlers (fresh w b args) = some h := by
    rw [findHandler_some _ _ rfl]; exact hsel
  rw [handleCall_eq, hfind] at hcall
  simp only [R.bind_eq_done] at hcall
  obtain ⟨⟨o1, w1⟩, h1, h2⟩ := hcall
  have hq1 : Q2 P nm w (w.bumpInv.pushInv m off (recorded w b args h)) := stable2.push w m off b args h hI trivial hb hfind
  have hbp : (w.bumpInv.pushInv m off (recorded w b args h)).body? m off = some { b with invs := b.invs ++ [recorded w b args h] } := by
    simp only [World.pushInv, World.body?_updBody, and_self, if_true, World.body?_bumpInv, hb, Option.map_some]
  have hIF : IF P nm c m off (w.bumpInv.pushInv m off (recorded w b args h)) := by
    obtain ⟨k', hk', hcls, -⟩ := hq1.1.1.2.stat m k hk
    exact ⟨hq1.inv hI, ⟨k', hk', by rw [hcls]; exact hc⟩, _, hbp⟩
  obtain ⟨hd0, hhd⟩ := handler?_isSome (h := h) hbp (findHandler_mem hfind)
  have hq2 := runHandler_hist (strict := strict) hP hIF hd hhd h1
  obtain ⟨b', hb', he, hl⟩ := hq2.2 _ hbp
  have hfinal : ∀ w2, (w2 = w1 ∨ ∃ e, w2 = w1.fire e) → Q2 P nm w w2 ∧ ∃ b', w2.body? m off = some b' ∧
      Extends (b.invs ++ [recorded w b args h]) b'.invs ∧ (strict → b'.invs.length = b.invs.length + 1) := by
    intro w2 hw
    refine ⟨?_, b', ?_, he, fun s => by rw [hl s]; simp⟩
    · rcases hw with rfl | ⟨e, rfl⟩
      · exact hq1.trans hq2.1
      · exact hq1.trans (hq2.1.trans (stable2.fire _ e (hq2.1.inv hIF.1)))
    · rcases hw with rfl | ⟨e, rfl⟩ <;> exact hb'
  split at h2
  · rename_i heq
    cases heq
    simp only [unmatched, R.done.injEq, Prod.mk.injEq] at h2
    exact hfinal _ (.inr ⟨_, h2.2.symm⟩)
  · rename_i heq
    cases heq
    simp only [R.done.injEq, Prod.mk.injEq] at h2
    exact hfinal _ (.inl h2.2.symm)

end FakeIt
