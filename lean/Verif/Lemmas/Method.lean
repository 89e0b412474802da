import Verif.Lemmas.Isolate
import Verif.Lemmas.HistKeep
/-!
# Steps that do not concern a method leave it alone
-/
namespace FakeIt
variable {V E : Type} {P : Prog V E} {nm : MockId → Nat → Nat}
open Spec

/-- The operation does not name method `off` of mock `m` (of class `c`), and does not reset, clear, destroy or verify the mock. -/
def Spec.AvoidsMethod (c : ClassDecl V) (m : MockId) (off : Nat) (a : Api V E) : Prop :=
  (∀ x ∈ a.slots, x.1 = m → x.2.off c ≠ some off) ∧
  match a with
  | .destroy m' => m' ≠ m
  | .reset m' => m' ≠ m
  | .clear m' => m' ≠ m
  | .verify scope pat _ _ => m ∉ (scope.source pat).mocks
  | .verifyNoOther srcs _ => m ∉ (aggregate srcs).mocks
  | _ => True

/-- Everything there is about one method of a mock: its record and its entry in the virtual table; and that the mock exists. -/
def slotView (w : World V E) (m : MockId) (off : Nat) : Option (Option (MBody V E) × Option Code × Bool) :=
  (w.mocks[m]?).map fun k => (k.body? off, k.vt[off]?, k.alive)

theorem slotView_mocks {w w' : World V E} {m off : Nat} (h : w'.mocks[m]? = w.mocks[m]?) : slotView w' m off = slotView w m off := by
  simp only [slotView, h]

theorem slotView_updMock {w : World V E} {m m' off : Nat} (f : Mock V E → Mock V E)
    (h : m' = m → ∀ k, w.mocks[m]? = some k → (f k).body? off = k.body? off ∧ (f k).vt[off]? = k.vt[off]? ∧ (f k).alive = k.alive) : slotView (w.updMock m' f) m off = slotView w m off := by
  simp only [slotView, World.mocks_updMock]
  by_cases hm : m' = m
  · rw [if_pos hm, Option.map_map]
    cases hk : w.mocks[m]? with
    | none => rfl
    | some k => simp only [Option.map_some, Function.comp_apply, (h hm k hk).1, (h hm k hk).2.1, (h hm k hk).2.2]
  · rw [if_neg hm]

theorem Mock.body?_updBody_ne {k : Mock V E} {off off' : Nat} (h : off' ≠ off) (f : MBody V E → MBody V E) : (k.updBody off' f).body? off = k.body? off := by
  simp only [Mock.body?, Mock.updBody, List.getElem?_modify, if_neg h]
  cases k.mocks[off]? <;> rfl

theorem slotView_updBody {w : World V E} {m m' off off' : Nat} (h : m' = m → off' ≠ off) (f : MBody V E → MBody V E) :
    slotView (w.updBody m' off' f) m off = slotView w m off :=
  slotView_updMock _ fun e _ _ => ⟨Mock.body?_updBody_ne (h e) f, rfl, rfl⟩

theorem slotView_setVt {w : World V E} {m m' off off' : Nat} (h : m' = m → off' ≠ off) (c : Code) :
    slotView (w.setVt m' off' c) m off = slotView w m off :=
  slotView_updMock _ fun e _ _ => ⟨rfl, List.getElem?_set_ne (h e), rfl⟩

/-- Invariants kept and the method kept. -/
def QM (P : Prog V E) (nm : MockId → Nat → Nat) (m : MockId) (off : Nat) (w w' : World V E) : Prop :=
  Q2 P nm w w' ∧ (m < w.mocks.length → slotView w' m off = slotView w m off)

def IM (P : Prog V E) (nm : MockId → Nat → Nat) (c : ClassDecl V) (m : MockId) (w : World V E) : Prop := Inv2 P nm w ∧ ∃ k, w.mocks[m]? = some k ∧ P.cls k.cls = c

theorem QM.inv {c : ClassDecl V} {m off : Nat} {w w' : World V E} (h : QM P nm m off w w') (hI : IM P nm c m w) : IM P nm c m w' := by
  obtain ⟨h1, k, hk, hc⟩ := hI
  obtain ⟨k', hk', hcls, -⟩ := h.1.1.1.2.stat m k hk
  exact ⟨h.1.inv h1, k', hk', by rw [hcls]; exact hc⟩

theorem QM.trans {m off : Nat} {a b c : World V E} (h1 : QM P nm m off a b) (h2 : QM P nm m off b c) : QM P nm m off a c := by
  refine ⟨h1.1.trans h2.1, fun hm => ?_⟩
  rw [← h1.2 hm]
  refine h2.2 ?_
  obtain ⟨k', hk', -⟩ := h1.1.1.1.2.stat m _ (List.getElem?_eq_getElem hm)
  exact lt_of_getElem?_some hk'

theorem mark_other {c : ClassDecl V} {m : Nat} {w : World V E} (hI : IM P nm c m w) {scope : Scope V} {pat : List (Seq (Leaf V))} {actual matched : List (Invocation V)} {n : Nat}
    (hm : m ∉ (scope.source pat).mocks) (h : analyse P w scope pat = .done (actual, n, matched)) :
    (w.mark (matched.map (·.uid))).mocks[m]? = w.mocks[m]? := by
  refine mocks_mark_other hI.1.2 ?_
  intro u hu
  obtain ⟨i, hi, rfl⟩ := List.mem_map.1 hu
  obtain ⟨m', hm', off, hi'⟩ := mem_of_analyse h hi
  exact ⟨m', fun e => hm (e ▸ hm'), off, i, hi', rfl⟩

theorem apiStableM (c : ClassDecl V) (m off : Nat) (hoff : ∀ d, c.dtor = some d → off ≠ d + 1) :
    ApiStable P (fun a => a.Named nm ∧ AvoidsMethod c m off a) (fun m' s => s.Named nm m' ∧ (m' = m → s.off c ≠ some off)) (IM P nm c m) (QM P nm m off) where
  inv h hI := h.inv hI
  refl w := ⟨apiStable2.refl w, fun _ => rfl⟩
  trans h1 h2 := h1.trans h2
  slots h x hx := ⟨h.1 x hx, h.2.1 x hx⟩
  newMock w cls own hI := ⟨apiStable2.newMock w cls own hI.1, fun hm => slotView_mocks (List.getElem?_append_left hm)⟩
  destroy w m' k hI hA hk := ⟨apiStable2.destroy w m' k hI.1 hA.1 hk, fun _ => slotView_updMock _ fun e => absurd e hA.2.2⟩
  reset w m' k hI hA hk := ⟨apiStable2.reset w m' k hI.1 hA.1 hk, fun _ => slotView_updMock _ fun e => absurd e hA.2.2⟩
  clear w m' k hI hA hk := ⟨apiStable2.clear w m' k hI.1 hA.1 hk, fun _ => slotView_updMock _ fun e => absurd e hA.2.2⟩
  stubData w m' k cell v hI hA hk hlt := ⟨apiStable2.stubData w m' k cell v hI.1 hA.1 hk hlt, fun _ => slotView_updMock _ fun _ _ _ => ⟨rfl, rfl, rfl⟩⟩
  writeData w m' k cell v hI hA hk hlt := ⟨apiStable2.writeData w m' k cell v hI.1 hA.1 hk hlt, fun _ => slotView_updMock _ fun _ _ _ => ⟨rfl, rfl, rfl⟩⟩
  bind w m' k off' ctr hI hB hk hn := by
    refine ⟨apiStable2.bind w m' k off' ctr hI.1 hB.1 hk hn, fun _ => ?_⟩
    show slotView (w.updMock m' _) m off = _
    refine slotView_updMock _ fun e k' _ => ?_
    have hne : off' ≠ off := fun h => hB.2 e (by rw [h]; rfl)
    exact ⟨by simp only [Mock.body?, Mock.bind, List.getElem?_set_ne hne], by simp only [Mock.bind, List.getElem?_set_ne hne], rfl⟩
  bindDtor w m' k d hI hB hk hd hlt hn := by
    refine ⟨apiStable2.bindDtor w m' k d hI.1 hB.1 hk hd hlt hn, fun _ => ?_⟩
    show slotView (w.updMock m' _) m off = _
    refine slotView_updMock _ fun e k' hk' => ?_
    subst e
    obtain ⟨k0, hk0, hc⟩ := hI.2
    rw [(World.mock?_eq_some.1 hk).1] at hk0; cases hk0
    rw [hc] at hd
    have hne : d ≠ off := fun h => hB.2 rfl (by rw [← h]; exact hd)
    exact ⟨by simp only [Mock.body?, Mock.bindDtor, List.getElem?_set_ne hne],
      by simp only [Mock.bindDtor, List.getElem?_set_ne hne, List.getElem?_set_ne (hoff d hd).symm], rfl⟩
  commit w m' k slot off' b kind acts hI hs hB hk hoff' hb := by
    refine ⟨apiStable2.commit w m' k slot off' b kind acts hI.1 (hs.imp fun a h => ⟨h.1.1, h.2⟩) hB.1 hk hoff' hb, fun _ => ?_⟩
    show slotView (w.updBody m' off' _) m off = _
    refine slotView_updBody (fun e h => ?_) _
    subst e h
    obtain ⟨k0, hk0, hc⟩ := hI.2
    rw [(World.mock?_eq_some.1 hk).1] at hk0; cases hk0
    rw [hc] at hoff'
    exact hB.2 rfl hoff'
  write w a v hI := ⟨apiStable2.write w a v hI.1, fun _ => rfl⟩
  fire w e hI := ⟨apiStable2.fire w e hI.1, fun _ => rfl⟩
  mark w scope pat q mode actual count matched hI hA h :=
    ⟨apiStable2.mark w scope pat q mode actual count matched hI.1 hA.1 h, fun _ => slotView_mocks (mark_other hI hA.2.2 h)⟩

theorem apart_thunk' {c : ClassDecl V} {m off : Nat} {w : World V E} {m' : Nat} {k : Mock V E} {off' d : Nat}
    (hI : IM P nm c m w) (hC : Apart c m off m' off') (hk : w.mocks[m']? = some k) (hv : k.vt[off']? = some .dtorThunk)
    (hd : (P.cls k.cls).dtor = some d) : Apart c m off m' d := by
  have t := hI.1.1.1 m' k hk
  obtain ⟨d', hd', he⟩ := t.thunk off' hv
  rw [hd] at hd'; cases hd'
  rintro rfl
  obtain ⟨k0, hk0, hc⟩ := hI.2
  rw [hk] at hk0; cases hk0
  rw [hc] at hd
  obtain ⟨h1, h2⟩ := hC rfl
  constructor
  · rintro rfl
    exact h2 hd he
  · intro h
    rw [hd] at h; cases h
    omega

theorem stableM (c : ClassDecl V) (m off : Nat) (hoff : ∀ d, c.dtor = some d → off ≠ d + 1) :
    Stable P (fun a => a.Named nm ∧ AvoidsMethod c m off a) (Apart c m off) (Apart c m off) (fun m' off' _ _ => m' = m → off' ≠ off) (IM P nm c m) (QM P nm m off) where
  inv h hI := h.inv hI
  dispatch {w m' k off' id} hI hC hk hv hb := by
    obtain ⟨b, hb⟩ := hb
    rw [(hI.1.1.1 m' k hk).dispatch off' id hv b hb]
    exact hC
  frame _ _ h e := (h e).1
  thunk hI hC hk hv hd := apart_thunk' hI hC hk hv hd
  deleg h := h
  swapIn {w m' k off' orig} hI hD hk ho := by
    obtain ⟨h1, k0, hk0, hc⟩ := hI
    refine ⟨stable2.swapIn h1 trivial hk ho, ?_⟩
    obtain ⟨k1, hk1, hcls, -⟩ := (keep_setVt w m' off' orig).2.stat m k0 hk0
    exact ⟨k1, hk1, by rw [hcls]; exact hc⟩
  refl w := ⟨stable2.refl w, fun _ => rfl⟩
  trans h1 h2 := h1.trans h2
  api hI hA h := apiStep_stable (apiStableM c m off hoff) hI hA h
  write w a v hI := ⟨stable2.write w a v hI.1, fun _ => rfl⟩
  setArgs w m' off' uid args f hI hD hf := ⟨stable2.setArgs w m' off' uid args f hI.1 trivial hf, fun _ => slotView_updBody hD _⟩
  bump w hI := ⟨stable2.bump w hI.1, fun _ => rfl⟩
  fire w e hI := ⟨stable2.fire w e hI.1, fun _ => rfl⟩
  push w m' off' b args h hI hD hb hf := ⟨stable2.push w m' off' b args h hI.1 trivial hb hf, fun _ =>
    slotView_updBody (w := w.bumpInv) (fun e => (hD e).1) _⟩
  tick w m' off' h i hI hD := ⟨stable2.tick w m' off' h i hI.1 trivial, fun _ => slotView_updBody (fun e => (hD e).1) _⟩
  fin w m' off' h hd i s hI hD hh hs := ⟨stable2.fin w m' off' h hd i s hI.1 trivial hh hs, fun _ => slotView_updBody (fun e => (hD e).1) _⟩
  swap w w' m' off' h k fake orig hd0 hd i s hI hD hk hf ho hh hQ hh' hs := by
    refine ⟨stable2.swap w w' m' off' h k fake orig hd0 hd i s hI.1 trivial hk hf ho hh hQ.1 hh' hs, fun hm => ?_⟩
    have h1 : slotView (w.setVt m' off' orig) m off = slotView w m off := slotView_setVt (fun e => (hD e).1) _
    have h2 := hQ.2 (by simpa [World.setVt, World.updMock] using hm)
    rw [← h1, ← h2]
    exact (slotView_updBody (fun e => (hD e).1) _).trans (slotView_setVt (fun e => (hD e).1) _)

end FakeIt
