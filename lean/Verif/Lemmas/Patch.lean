import Verif.Lemmas.RefineRun
import Verif.Lemmas.Twin
/-!
# Worlds in the middle of calls, seen as if the calls had been finished

While a call is being answered, the script of its stubbing has not advanced yet, and the table entry of a method whose original is being run is not the proxy. `patch ps w` is
the world `w` with these things put right. It is this world that is related to the abstract mock. API operations neither look at nor change what is patched.
-/
namespace FakeIt
variable {V E : Type} {P : Prog V E} {nm : MockId → Nat → Nat}
open Spec

/-- Something that is going on: handler `h` of method `off` of mock `m` has script `q`, and will have `q'` when its action, number `i`, ends; an action `a` that cannot be
used up is being performed; an action `a` that has uses left and runs a function is being performed, perhaps of a stubbing that was destroyed meanwhile; the table entry of a method is
`x` instead of `c`. -/
inductive Patch (V E : Type) where
  | spare (m off : Nat) (h : Addr) (i : Nat) (a : Act V E)
  | seq (m off : Nat) (h : Addr) (i : Nat) (q q' : ActionSeq V E)
  | calm (m off : Nat) (h : Addr) (i : Nat) (a : Act V E)
  | vt (m off : Nat) (c x : Code)

/-- The action object `i` of the handler, in the stubbing or as a call still holds it. -/
def World.acting? (w : World V E) (m off : Nat) (h : Addr) (i : Nat) : Option (Act V E) :=
  match w.handler? m off h with
  | some hd => hd.seq.objs[i]?
  | none => w.orphan? m off h i

namespace Patch

/-- What is going on would be disturbed by destroying the stubbings of the mock. -/
def Frail : Patch V E → Prop
  | .spare .. => False
  | _ => True

/-- The mock. -/
def mock : Patch V E → Nat
  | .spare m .. => m
  | .seq m .. => m
  | .calm m .. => m
  | .vt m .. => m

/-- The handler as it will be. -/
def onH (p : Patch V E) (off : Nat) (x : Handler V E) : Handler V E :=
  match p with
  | .seq _ o h _ _ q' => if o = off ∧ x.addr = h then { x with seq := q' } else x
  | _ => x

/-- The record as it will be. -/
def onB (p : Patch V E) (off : Nat) (b : MBody V E) : MBody V E := { b with handlers := b.handlers.map (p.onH off) }

/-- The mock as it will be. -/
def onMock : Patch V E → Mock V E → Mock V E
  | .seq _ off h _ _ q', k => k.updBody off fun b => { b with handlers := setSeq b.handlers h q' }
  | .spare .., k => k
  | .calm .., k => k
  | .vt _ off c _, k => { k with vt := k.vt.set off c }

/-- The world as it will be. -/
def ap (p : Patch V E) (w : World V E) : World V E := w.updMock p.mock p.onMock

/-- What is going on really is. -/
def Ok (P : Prog V E) (w : World V E) : Patch V E → Prop
  | .spare m off h i a => m < w.mocks.length ∧ h ≤ w.alloc ∧ w.acting? m off h i = some a ∧ a.isDone = false
  | .seq m off h i q q' => h ≤ w.alloc ∧ (∃ hd, w.handler? m off h = some hd ∧ hd.seq = q) ∧ q.finallyClause i = .done q'
  | .calm m off h i a => (∃ hd, w.handler? m off h = some hd ∧ hd.seq.objs[i]? = some a) ∧ a.tick = a ∧ a.isDone = false
  | .vt m off _ x => ∃ k b, w.mocks[m]? = some k ∧ k.alive = true ∧ k.mocks[off]? = some (some b) ∧ k.vt[off]? = some x ∧
      x = .native ((P.cls k.cls).impl off) ∧ ∀ d, (P.cls k.cls).dtor = some d → off ≠ d ∧ off ≠ d + 1

end Patch

/-- Everything that is going on, innermost first. -/
def patch (ps : List (Patch V E)) (w : World V E) : World V E := ps.foldl (fun w p => p.ap w) w

@[simp] theorem patch_nil (w : World V E) : patch [] w = w := rfl
@[simp] theorem patch_cons (p : Patch V E) (ps : List (Patch V E)) (w : World V E) : patch (p :: ps) w = patch ps (p.ap w) := rfl

/-! ## What patches leave alone -/

section
variable (p : Patch V E) (k : Mock V E)
@[simp] theorem onMock_cls : (p.onMock k).cls = k.cls := by cases p <;> rfl
@[simp] theorem onMock_owner : (p.onMock k).owner = k.owner := by cases p <;> rfl
@[simp] theorem onMock_alive : (p.onMock k).alive = k.alive := by cases p <;> rfl
@[simp] theorem onMock_orig : (p.onMock k).orig = k.orig := by cases p <;> rfl
@[simp] theorem onMock_offsets : (p.onMock k).offsets = k.offsets := by cases p <;> rfl
@[simp] theorem onMock_data : (p.onMock k).data = k.data := by cases p <;> rfl
@[simp] theorem onMock_vtlen : (p.onMock k).vt.length = k.vt.length := by cases p <;> simp [Patch.onMock, Mock.updBody]
end

theorem setSeq_eq (p : Patch V E) (off : Nat) (hs : List (Handler V E)) {m h i q q'} (e : p = .seq m off h i q q') : hs.map (p.onH off) = setSeq hs h q' := by
  subst e
  apply List.map_congr_left
  intro x _
  simp only [Patch.onH, true_and]
  by_cases hx : x.addr = h <;> simp [hx]

theorem onH_other {p : Patch V E} {off : Nat} (h : ∀ m a i q q', p ≠ .seq m off a i q q') (x : Handler V E) : p.onH off x = x := by
  cases p with
  | seq m o a i q q' =>
    simp only [Patch.onH]
    rw [if_neg]
    rintro ⟨rfl, -⟩
    exact h m a i q q' rfl
  | _ => rfl

theorem onMock_mocks (p : Patch V E) (k : Mock V E) (off : Nat) : (p.onMock k).mocks[off]? = (k.mocks[off]?).map (Option.map (p.onB off)) := by
  have hid : ∀ p : Patch V E, (∀ x, p.onH off x = x) → Option.map (p.onB off) = id := by
    intro p hp
    have : p.onB off = id := by
      funext b
      simp only [Patch.onB, id]
      rw [show p.onH off = id from funext hp, List.map_id]
    rw [this, Option.map_id]
  cases p with
  | seq m o h i q q' =>
    simp only [Patch.onMock, Mock.updBody, List.getElem?_modify]
    by_cases ho : o = off
    · subst ho
      simp only [if_true, Option.map_eq_map]
      congr 1
      funext b
      cases b with
      | none => rfl
      | some b => simp only [Option.map_some, Patch.onB, setSeq_eq (.seq m o h i q q') o b.handlers rfl]
    · rw [hid _ (onH_other (by rintro m' a i' q1 q2 e; cases e; exact ho rfl))]
      simp [ho]
  | spare m o h i a => rw [hid _ (fun _ => rfl)]; simp [Patch.onMock]
  | calm m o h i a => rw [hid _ (fun _ => rfl)]; simp [Patch.onMock]
  | vt m o c x => rw [hid _ (fun _ => rfl)]; simp [Patch.onMock]

theorem onMock_body (p : Patch V E) (k : Mock V E) (off : Nat) : (p.onMock k).body? off = (k.body? off).map (p.onB off) := by
  simp only [Mock.body?, onMock_mocks]
  cases k.mocks[off]? with
  | none => rfl
  | some x => cases x <;> rfl

theorem onMock_mlen (p : Patch V E) (k : Mock V E) : (p.onMock k).mocks.length = k.mocks.length := by
  cases p <;> simp [Patch.onMock, Mock.updBody]

@[simp] theorem onH_addr (p : Patch V E) (off : Nat) (x : Handler V E) : (p.onH off x).addr = x.addr := by
  unfold Patch.onH; split
  · split <;> rfl
  · rfl

@[simp] theorem onH_matcher (p : Patch V E) (off : Nat) (x : Handler V E) : (p.onH off x).matcher = x.matcher := by
  unfold Patch.onH; split
  · split <;> rfl
  · rfl

@[simp] theorem onB_invs (p : Patch V E) (off : Nat) (b : MBody V E) : (p.onB off b).invs = b.invs := rfl
@[simp] theorem onB_method (p : Patch V E) (off : Nat) (b : MBody V E) : (p.onB off b).method = b.method := rfl

theorem ap_mocks (p : Patch V E) (w : World V E) (m : Nat) : (p.ap w).mocks[m]? = (w.mocks[m]?).map fun k => if p.mock = m then p.onMock k else k := by
  simp only [Patch.ap, World.mocks_updMock]
  by_cases h : p.mock = m
  · simp [h]
  · simp [h]

@[simp] theorem ap_heap (p : Patch V E) (w : World V E) : (p.ap w).heap = w.heap := rfl
@[simp] theorem ap_invTotal (p : Patch V E) (w : World V E) : (p.ap w).invTotal = w.invTotal := rfl
@[simp] theorem ap_methTotal (p : Patch V E) (w : World V E) : (p.ap w).methTotal = w.methTotal := rfl
@[simp] theorem ap_alloc (p : Patch V E) (w : World V E) : (p.ap w).alloc = w.alloc := rfl
@[simp] theorem ap_log (p : Patch V E) (w : World V E) : (p.ap w).log = w.log := rfl
@[simp] theorem ap_length (p : Patch V E) (w : World V E) : (p.ap w).mocks.length = w.mocks.length := by simp [Patch.ap, World.updMock]

/-- What is not frail is not seen at all. -/
theorem ap_sturdy {p : Patch V E} (hp : ¬ p.Frail) (w : World V E) : p.ap w = w := by
  cases p with
  | spare m off h i a =>
    simp only [Patch.ap, World.updMock]
    rw [show (Patch.spare m off h i a).onMock = id from rfl, List.modify_id]
  | _ => exact absurd trivial hp

/-! ## API operations do not see patches -/

/-- Both runs of an API operation end alike, and the patch is still what they differ by. -/
abbrev VeilA (p : Patch V E) (x y : R (World V E × ApiOut)) : Prop := RRel (fun a b => a.2 = b.2 ∧ b.1 = p.ap a.1) x y

theorem veil_mock? (p : Patch V E) (w : World V E) (m : Nat) : (w.mock? m = none ∧ (p.ap w).mock? m = none) ∨
    ∃ k, w.mock? m = some k ∧ (p.ap w).mock? m = some (if p.mock = m then p.onMock k else k) := by
  unfold World.mock?
  rw [ap_mocks]
  cases hk : w.mocks[m]? with
  | none => exact .inl ⟨rfl, rfl⟩
  | some k =>
    have ha : (if p.mock = m then p.onMock k else k).alive = k.alive := by split <;> simp
    simp only [Option.map_some, ha]
    by_cases hal : k.alive = true
    · exact .inr ⟨k, by simp [hal], by simp [hal]⟩
    · exact .inl (by simp [hal])

/-- A field of the mock that patches leave alone. -/
theorem veil_field {α : Type} (p : Patch V E) (m : Nat) (f : Mock V E → α) (hf : ∀ k, f (p.onMock k) = f k) (k : Mock V E) : f (if p.mock = m then p.onMock k else k) = f k := by
  split
  · exact hf k
  · rfl

theorem veil_updMock (p : Patch V E) (w : World V E) (m : Nat) (f : Mock V E → Mock V E)
    (hf : m = p.mock → ∀ k, w.mocks[m]? = some k → f (p.onMock k) = p.onMock (f k)) : (p.ap w).updMock m f = p.ap (w.updMock m f) := by
  simp only [Patch.ap, World.updMock, World.mk.injEq, and_true]
  apply List.ext_getElem?
  intro n
  simp only [List.getElem?_modify]
  by_cases h1 : p.mock = n <;> by_cases h2 : m = n
  · subst h1
    cases hk : w.mocks[p.mock]? with
    | none => rfl
    | some k =>
      subst h2
      have := hf rfl k hk
      simp [this]
  all_goals (cases w.mocks[n]? <;> simp [h1, h2])

theorem veil_updBody (p : Patch V E) (w : World V E) (m off : Nat) (f : MBody V E → MBody V E) (hf : m = p.mock → ∀ b, w.body? m off = some b → f (p.onB off b) = p.onB off (f b)) :
    (p.ap w).updBody m off f = p.ap (w.updBody m off f) := by
  refine veil_updMock p w m _ fun hm k hk => ?_
  have key : (p.onMock k).mocks.modify off (Option.map f) = (p.onMock (k.updBody off f)).mocks := by
    apply List.ext_getElem?
    intro o
    rw [List.getElem?_modify, onMock_mocks, onMock_mocks]
    simp only [Mock.updBody, List.getElem?_modify]
    by_cases ho : off = o
    · subst ho
      cases hx : k.mocks[off]? with
      | none => rfl
      | some x =>
        cases x with
        | none => simp
        | some b =>
          have := hf hm b (by simp [World.body?, hk, Mock.body?, hx])
          simp [this]
    · cases k.mocks[o]? <;> simp [ho]
  show ({ (p.onMock k) with mocks := (p.onMock k).mocks.modify off (Option.map f) } : Mock V E) = _
  rw [key]
  cases p <;> rfl

theorem ap_body (p : Patch V E) (w : World V E) (m off : Nat) : (p.ap w).body? m off = (w.body? m off).map fun b => if p.mock = m then p.onB off b else b := by
  simp only [World.body?, ap_mocks]
  cases w.mocks[m]? with
  | none => rfl
  | some k =>
    simp only [Option.map_some, Option.bind_some]
    by_cases h : p.mock = m
    · simp only [h, if_true, onMock_body]
    · simp [h]

theorem veil_write (p : Patch V E) (w : World V E) (a : Addr) (v : V) : (p.ap w).write a v = p.ap (w.write a v) := rfl
theorem veil_fire (p : Patch V E) (w : World V E) (e : Event V) : (p.ap w).fire e = p.ap (w.fire e) := rfl
theorem veil_bump (p : Patch V E) (w : World V E) : (p.ap w).bumpInv = p.ap w.bumpInv := rfl

theorem veil_new (p : Patch V E) (w : World V E) (hm : p.mock < w.mocks.length) (k : Mock V E) :
    ({ (p.ap w) with mocks := (p.ap w).mocks ++ [k] } : World V E) = p.ap { w with mocks := w.mocks ++ [k] } := by
  simp only [Patch.ap, World.updMock, World.mk.injEq, and_true]
  apply List.ext_getElem?
  intro n
  simp only [List.getElem?_append, List.getElem?_modify, List.length_modify]
  by_cases hn : p.mock = n
  · subst hn; simp [hm]
  · by_cases hl : n < w.mocks.length
    · simp [hl, hn]
    · simp [hl, hn]

theorem veil_mark (p : Patch V E) (w : World V E) (uids : List Nat) : (p.ap w).mark uids = p.ap (w.mark uids) := by
  simp only [World.mark, Patch.ap, World.updMock, World.mk.injEq, and_true]
  apply List.ext_getElem?
  intro n
  simp only [List.getElem?_map, List.getElem?_modify]
  by_cases hn : p.mock = n
  · subst hn
    cases w.mocks[p.mock]? with
    | none => rfl
    | some k =>
      simp only [if_true, Option.map_eq_map, Option.map_some, Option.some.injEq]
      have key : (p.onMock k).mocks.map (Option.map fun b : MBody V E => { b with invs := b.invs.map fun i => if uids.contains i.uid then { i with verified := true } else i }) =
          (p.onMock { k with mocks := k.mocks.map (Option.map fun b : MBody V E => { b with invs := b.invs.map fun i => if uids.contains i.uid then { i with verified := true } else i }) }).mocks := by
        apply List.ext_getElem?
        intro o
        rw [List.getElem?_map, onMock_mocks, onMock_mocks, List.getElem?_map]
        cases k.mocks[o]? with
        | none => rfl
        | some x => cases x <;> rfl
      rw [key]
      cases p <;> rfl
  · simp [hn]

/-- What API operations need to know of what is going on. -/
def Patch.Fit (P : Prog V E) (w : World V E) (p : Patch V E) : Prop :=
  p.mock < w.mocks.length ∧ match p with
  | .seq _ _ h _ _ _ => h ≤ w.alloc
  | .spare .. => True
  | .calm .. => True
  | .vt m off _ _ => ∃ k b, w.mocks[m]? = some k ∧ k.mocks[off]? = some (some b) ∧ ∀ d, (P.cls k.cls).dtor = some d → off ≠ d ∧ off ≠ d + 1

/-- `w'` has everything `w` has that matters to what is going on in mock `m`. -/
structure Goes (P : Prog V E) (m : Nat) (w w' : World V E) : Prop where
  len : w.mocks.length ≤ w'.mocks.length
  alloc : w.alloc ≤ w'.alloc
  mock : ∀ k, w.mocks[m]? = some k → ∃ k', w'.mocks[m]? = some k' ∧ k'.cls = k.cls ∧ k'.alive = k.alive ∧
    ∀ off b, k.mocks[off]? = some (some b) → (∃ b', k'.mocks[off]? = some (some b') ∧ ∀ h hd, b.handlers.find? (·.addr == h) = some hd → b'.handlers.find? (·.addr == h) = some hd) ∧
      ((∀ d, (P.cls k.cls).dtor = some d → off ≠ d ∧ off ≠ d + 1) → k'.vt[off]? = k.vt[off]?)

theorem Goes.refl (m : Nat) (w : World V E) : Goes P m w w :=
  ⟨Nat.le_refl _, Nat.le_refl _, fun k hk => ⟨k, hk, rfl, rfl, fun _ b hb => ⟨⟨b, hb, fun _ _ h => h⟩, fun _ => rfl⟩⟩⟩

theorem Goes.trans {m : Nat} {a b c : World V E} (h1 : Goes P m a b) (h2 : Goes P m b c) : Goes P m a c := by
  refine ⟨Nat.le_trans h1.len h2.len, Nat.le_trans h1.alloc h2.alloc, fun k hk => ?_⟩
  obtain ⟨k1, hk1, hc1, ha1, f1⟩ := h1.mock k hk
  obtain ⟨k2, hk2, hc2, ha2, f2⟩ := h2.mock k1 hk1
  refine ⟨k2, hk2, hc2.trans hc1, ha2.trans ha1, fun off b hb => ?_⟩
  obtain ⟨⟨b1, hb1, g1⟩, v1⟩ := f1 off b hb
  obtain ⟨⟨b2, hb2, g2⟩, v2⟩ := f2 off b1 hb1
  exact ⟨⟨b2, hb2, fun h hd e => g2 h hd (g1 h hd e)⟩, fun hd => (v2 (by rw [hc1]; exact hd)).trans (v1 hd)⟩

/-- One mock changes. -/
theorem Goes.updMock {m : Nat} {w : World V E} (m' : Nat) (f : Mock V E → Mock V E) {w' : World V E} (hw' : w'.mocks = (w.updMock m' f).mocks) (ha : w.alloc ≤ w'.alloc)
    (hf : m' = m → ∀ k, w.mocks[m]? = some k → (f k).cls = k.cls ∧ (f k).alive = k.alive ∧
      ∀ off b, k.mocks[off]? = some (some b) → (∃ b', (f k).mocks[off]? = some (some b') ∧ ∀ h hd, b.handlers.find? (·.addr == h) = some hd → b'.handlers.find? (·.addr == h) = some hd) ∧
        ((∀ d, (P.cls k.cls).dtor = some d → off ≠ d ∧ off ≠ d + 1) → (f k).vt[off]? = k.vt[off]?)) : Goes P m w w' := by
  refine ⟨by rw [hw']; simp [World.updMock], ha, fun k hk => ?_⟩
  rw [hw', World.mocks_updMock]
  by_cases hm : m' = m
  · obtain ⟨h1, h2, h3⟩ := hf hm k hk
    exact ⟨f k, by simp [hm, hk], h1, h2, h3⟩
  · exact ⟨k, by simp [hm, hk], rfl, rfl, fun _ b hb => ⟨⟨b, hb, fun _ _ h => h⟩, fun _ => rfl⟩⟩

theorem Goes.same {m : Nat} {w w' : World V E} (hw' : w'.mocks = w.mocks) (ha : w.alloc ≤ w'.alloc) : Goes P m w w' := by
  refine ⟨by rw [hw']; exact Nat.le_refl _, ha, fun k hk => ⟨k, by rw [hw']; exact hk, rfl, rfl, fun _ b hb => ⟨⟨b, hb, fun _ _ h => h⟩, fun _ => rfl⟩⟩⟩

theorem find_append {hs : List (Handler V E)} {a : Addr} {hd x : Handler V E} (h : hs.find? (·.addr == a) = some hd) : (hs ++ [x]).find? (·.addr == a) = some hd := by
  rw [List.find?_append, h]; rfl

theorem apiStableGoes (m : Nat) : ApiStable P (Api.Spares m) (fun _ _ => True) (fun _ => True) (Goes P m) where
  inv _ _ := trivial
  refl w := Goes.refl m w
  trans h1 h2 := h1.trans h2
  slots _ _ _ := trivial
  newMock w cls own _ := by
    refine ⟨by simp, Nat.le_refl _, fun k hk => ⟨k, ?_, rfl, rfl, fun _ b hb => ⟨⟨b, hb, fun _ _ h => h⟩, fun _ => rfl⟩⟩⟩
    show (w.mocks ++ _)[m]? = _
    rw [List.getElem?_append_left (List.getElem?_eq_some_iff.1 hk).1]; exact hk
  destroy w m' k _ hA _ := .updMock m' _ rfl (Nat.le_refl _) fun e => absurd e hA
  reset w m' k _ hA _ := .updMock m' _ rfl (Nat.le_refl _) fun e => absurd e hA
  clear w m' k _ _ _ := by
    refine .updMock m' _ rfl (Nat.le_refl _) fun _ k _ => ?_
    have e := initData_fields ({ k with mocks := k.mocks.map (Option.map MBody.clear) } : Mock V E)
    refine ⟨e.2.2.2.1, e.2.2.2.2.2.1, fun off b hb => ⟨⟨b.clear, ?_, fun _ _ h => h⟩, fun _ => ?_⟩⟩
    · show (Mock.initData _).mocks[off]? = _
      rw [e.1, List.getElem?_map, hb]; rfl
    · show (Mock.initData _).vt[off]? = _
      rw [e.2.1]
  stubData w m' k cell v _ _ _ _ := .updMock m' _ rfl (Nat.le_refl _) fun _ k _ => ⟨rfl, rfl, fun _ b hb => ⟨⟨b, hb, fun _ _ h => h⟩, fun _ => rfl⟩⟩
  writeData w m' k cell v _ _ _ _ := .updMock m' _ rfl (Nat.le_refl _) fun _ k _ => ⟨rfl, rfl, fun _ b hb => ⟨⟨b, hb, fun _ _ h => h⟩, fun _ => rfl⟩⟩
  bind w m' k off ctr _ _ hk hn := by
    refine .updMock m' _ rfl (Nat.le_refl _) fun e k' hk' => ⟨rfl, rfl, fun off' b hb => ?_⟩
    subst e
    rw [(World.mock?_eq_some.1 hk).1] at hk'; cases hk'
    have hne : off ≠ off' := by rintro rfl; rw [hn] at hb; cases hb
    exact ⟨⟨b, by simp only [Mock.bind, List.getElem?_set, hne, if_false]; exact hb, fun _ _ h => h⟩, fun _ => by simp [Mock.bind, hne]⟩
  bindDtor w m' k d _ _ hk hd _ hn := by
    refine .updMock m' _ rfl (Nat.le_refl _) fun e k' hk' => ⟨rfl, rfl, fun off' b hb => ?_⟩
    subst e
    rw [(World.mock?_eq_some.1 hk).1] at hk'; cases hk'
    have hne : d ≠ off' := by rintro rfl; rw [hn] at hb; cases hb
    refine ⟨⟨b, by simp only [Mock.bindDtor, List.getElem?_set, hne, if_false]; exact hb, fun _ _ h => h⟩, fun h => ?_⟩
    have := (h d hd).2
    simp [Mock.bindDtor, hne, Ne.symm this]
  commit w m' k slot off b kind acts _ _ _ hk _ hb := by
    refine .updMock m' _ rfl (Nat.le_add_right _ 2) fun e k' hk' => ⟨rfl, rfl, fun off' b' hb' => ⟨?_, fun _ => rfl⟩⟩
    simp only [Mock.updBody, List.getElem?_modify, hb']
    by_cases ho : off = off'
    · simp only [ho, if_true, Option.map_eq_map, Option.map_some]
      exact ⟨_, rfl, fun h hd e => find_append e⟩
    · simp only [ho, if_false]
      exact ⟨b', rfl, fun _ _ h => h⟩
  write w a v _ := .same rfl (Nat.le_refl _)
  fire w e _ := .same rfl (Nat.le_refl _)
  mark w scope pat q mode actual count matched _ _ _ := by
    refine ⟨by simp [World.mark], Nat.le_refl _, fun k hk => ⟨Mock.mark _ k, by rw [World.mocks_mark, hk]; rfl, rfl, rfl, fun off b hb =>
      ⟨⟨{ b with invs := b.invs.map fun i => if (matched.map (·.uid)).contains i.uid then { i with verified := true } else i }, ?_, fun _ _ h => h⟩, fun _ => rfl⟩⟩⟩
    simp only [Mock.mark, List.getElem?_map, hb]; rfl

theorem Goes.handler {m : Nat} {w w' : World V E} (h : Goes P m w w') {off : Nat} {a : Addr} {hd : Handler V E} (hh : w.handler? m off a = some hd) : w'.handler? m off a = some hd := by
  simp only [World.handler?, World.body?, Option.bind_eq_some_iff] at hh
  obtain ⟨b, ⟨k, hk, hb⟩, hf⟩ := hh
  have hb' : k.mocks[off]? = some (some b) := by
    unfold Mock.body? at hb
    cases hx : k.mocks[off]? with
    | none => rw [hx] at hb; cases hb
    | some x => rw [hx] at hb; simp at hb; rw [hb]
  obtain ⟨k', hk', -, -, f⟩ := h.mock k hk
  obtain ⟨⟨b', hb2, g⟩, -⟩ := f off b hb'
  simp [World.handler?, World.body?, hk', Mock.body?, hb2, g a hd hf]

theorem Goes.ok {p : Patch V E} {w w' : World V E} (h : Goes P p.mock w w') (hfr : p.Frail) (hp : p.Ok P w) : p.Ok P w' := by
  cases p with
  | spare => exact hfr.elim
  | seq m off a i q q' =>
    obtain ⟨h1, ⟨hd, h2, h3⟩, h4⟩ := hp
    exact ⟨Nat.le_trans h1 h.alloc, ⟨hd, h.handler h2, h3⟩, h4⟩
  | calm m off a i act =>
    obtain ⟨⟨hd, h2, h3⟩, h4⟩ := hp
    exact ⟨⟨hd, h.handler h2, h3⟩, h4⟩
  | vt m off c x =>
    obtain ⟨k, b, hk, hal, hb, hv, hx, hd⟩ := hp
    obtain ⟨k', hk', hc, ha, f⟩ := h.mock k hk
    obtain ⟨⟨b', hb', -⟩, hv'⟩ := f off b hb
    exact ⟨k', b', hk', by rw [ha]; exact hal, hb', by rw [hv' hd]; exact hv, by rw [hc]; exact hx, by rw [hc]; exact hd⟩

theorem Goes.fit {p : Patch V E} {w w' : World V E} (h : Goes P p.mock w w') (hp : p.Fit P w) : p.Fit P w' := by
  refine ⟨Nat.lt_of_lt_of_le hp.1 h.len, ?_⟩
  cases p with
  | seq m off a i q q' => exact Nat.le_trans hp.2 h.alloc
  | spare => trivial
  | calm => trivial
  | vt m off c x =>
    obtain ⟨k, b, hk, hb, hd⟩ := hp.2
    obtain ⟨k', hk', hc, -, f⟩ := h.mock k hk
    obtain ⟨⟨b', hb', -⟩, -⟩ := f off b hb
    exact ⟨k', b', hk', hb', by rw [hc]; exact hd⟩

theorem Patch.Ok.fit {p : Patch V E} {w : World V E} (hp : p.Ok P w) : p.Fit P w := by
  have key : ∀ {m off a hd}, w.handler? m off a = some hd → m < w.mocks.length := by
    intro m off a hd h
    simp only [World.handler?, World.body?, Option.bind_eq_some_iff] at h
    obtain ⟨b, ⟨k, hk, -⟩, -⟩ := h
    exact (List.getElem?_eq_some_iff.1 hk).1
  cases p with
  | seq m off a i q q' =>
    obtain ⟨h1, ⟨hd, h2, h3⟩, h4⟩ := hp
    exact ⟨key h2, h1⟩
  | spare m off a i act => exact ⟨hp.1, trivial⟩
  | calm m off a i act =>
    obtain ⟨⟨hd, h2, h3⟩, h4⟩ := hp
    exact ⟨key h2, trivial⟩
  | vt m off c x =>
    obtain ⟨k, b, hk, hal, hb, hv, hx, hd⟩ := hp
    exact ⟨(List.getElem?_eq_some_iff.1 hk).1, k, b, hk, hb, hd⟩

/-! ## Actions with uses left are still there when their stubbings have been destroyed -/

/-- Every action that a call can hold in `w` is in `w'`. -/
structure Holds (w w' : World V E) : Prop where
  len : w.mocks.length ≤ w'.mocks.length
  alloc : w.alloc ≤ w'.alloc
  acts : ∀ m off (h : Addr) i a, h ≤ w.alloc → w.acting? m off h i = some a → w'.acting? m off h i = some a

theorem Holds.refl (w : World V E) : Holds w w := ⟨Nat.le_refl _, Nat.le_refl _, fun _ _ _ _ _ _ h => h⟩

theorem Holds.trans {a b c : World V E} (h1 : Holds a b) (h2 : Holds b c) : Holds a c :=
  ⟨Nat.le_trans h1.len h2.len, Nat.le_trans h1.alloc h2.alloc, fun m off h i x hl e => h2.acts m off h i x (Nat.le_trans hl h1.alloc) (h1.acts m off h i x hl e)⟩

/-- The actions a mock's calls can hold. -/
def Mock.acting? (k : Mock V E) (off : Nat) (h : Addr) (i : Nat) : Option (Act V E) :=
  match (k.body? off).bind fun b => b.handlers.find? (·.addr == h) with
  | some hd => hd.seq.objs[i]?
  | none => (k.gone off h).bind fun s => s.objs[i]?

theorem World.acting?_eq (w : World V E) (m off : Nat) (h : Addr) (i : Nat) : w.acting? m off h i = (w.mocks[m]?).bind fun k => k.acting? off h i := by
  unfold World.acting? World.handler? World.body? World.orphan?
  cases w.mocks[m]? with
  | none => rfl
  | some k => rfl

/-- One mock changes. -/
theorem Holds.updMock {w : World V E} (m' : Nat) (f : Mock V E → Mock V E) {w' : World V E} (hw' : w'.mocks = (w.updMock m' f).mocks) (ha : w.alloc ≤ w'.alloc)
    (hf : ∀ k, w.mocks[m']? = some k → ∀ off (h : Addr) i a, h ≤ w.alloc → k.acting? off h i = some a → (f k).acting? off h i = some a) : Holds w w' := by
  refine ⟨by rw [hw']; simp [World.updMock], ha, fun m off h i a hl e => ?_⟩
  rw [World.acting?_eq] at e ⊢
  rw [hw', World.mocks_updMock]
  by_cases hm : m' = m
  · subst hm
    obtain ⟨k, hk, e⟩ := Option.bind_eq_some_iff.1 e
    simp only [if_true, hk, Option.map_some, Option.bind_some]
    exact hf k hk off h i a hl e
  · simp only [hm, if_false]; exact e

theorem Holds.same {w w' : World V E} (hw' : w'.mocks = w.mocks) (ha : w.alloc ≤ w'.alloc) : Holds w w' := by
  refine ⟨by rw [hw']; exact Nat.le_refl _, ha, fun m off h i a _ e => ?_⟩
  rw [World.acting?_eq] at e ⊢
  rw [hw']; exact e

/-- A mock whose handlers are the same. -/
theorem acting_same {k k' : Mock V E} {off : Nat} {h : Addr} {i : Nat} {x : Option (Act V E)} (hx : k.acting? off h i = x) (hg : k'.gone = k.gone)
    (hb : (k'.body? off).map (·.handlers) = (k.body? off).map (·.handlers)) : k'.acting? off h i = x := by
  subst hx
  have e : ((k'.body? off).bind fun b => b.handlers.find? (·.addr == h)) = (k.body? off).bind fun b => b.handlers.find? (·.addr == h) := by
    have : ∀ o : Option (MBody V E), (o.bind fun b => b.handlers.find? (·.addr == h)) = (o.map (·.handlers)).bind fun l => l.find? (·.addr == h) := by intro o; cases o <;> rfl
    rw [this, this, hb]
  unfold Mock.acting?
  rw [e, hg]

/-- A mock whose handlers have been destroyed. -/
theorem acting_buried {k k' : Mock V E} (hg : k'.gone = k.buried) (hb : ∀ off, k'.body? off = none) (off : Nat) (h : Addr) (i : Nat) : k'.acting? off h i = k.acting? off h i := by
  unfold Mock.acting?
  rw [hb, hg]
  simp only [Option.bind_none, Mock.buried]
  cases (k.body? off).bind fun b => b.handlers.find? (·.addr == h) <;> rfl

/-- A method gets a record without stubbings. -/
theorem acting_new {k k' : Mock V E} {off : Nat} {b0 : MBody V E} (hn : k.mocks[off]? = some none) (hg : k'.gone = k.gone) (hm : k'.mocks = k.mocks.set off (some b0)) (h0 : b0.handlers = [])
    {o : Nat} {h : Addr} {i : Nat} {x : Option (Act V E)} (hx : k.acting? o h i = x) : k'.acting? o h i = x := by
  subst hx
  have e : ((k'.body? o).bind fun b => b.handlers.find? (·.addr == h)) = (k.body? o).bind fun b => b.handlers.find? (·.addr == h) := by
    simp only [Mock.body?, hm, List.getElem?_set]
    by_cases ho : off = o
    · subst ho
      have hl := (List.getElem?_eq_some_iff.1 hn).1
      rw [hn]
      simp [hl, h0]
    · simp [ho]
  unfold Mock.acting?
  rw [e, hg]

/-- A record changes, not to the handler. -/
theorem acting_updBody {k : Mock V E} {off : Nat} {f : MBody V E → MBody V E} {o : Nat} {h : Addr} {i : Nat}
    (hf : ∀ b, k.body? off = some b → (f b).handlers.find? (·.addr == h) = b.handlers.find? (·.addr == h)) : (k.updBody off f).acting? o h i = k.acting? o h i := by
  have e : (((k.updBody off f).body? o).bind fun b => b.handlers.find? (·.addr == h)) = (k.body? o).bind fun b => b.handlers.find? (·.addr == h) := by
    rw [body?_updBody_mock]
    split
    · rename_i ho
      subst ho
      cases hb : k.body? off with
      | none => rfl
      | some b => exact hf b hb
    · rfl
  unfold Mock.acting?
  rw [e]; rfl

theorem proxyReset_body (k : Mock V E) (off : Nat) : k.proxyReset.body? off = none := by
  simp only [Mock.body?, Mock.proxyReset, List.getElem?_replicate]
  split <;> rfl

theorem initData_gone (k : Mock V E) : k.initData.gone = k.gone := by unfold Mock.initData; split <;> rfl

theorem initData_body (k : Mock V E) (off : Nat) : k.initData.body? off = k.body? off := by unfold Mock.initData; split <;> rfl

theorem apiStableHolds : ApiStable P (fun _ => True) (fun _ _ => True) (fun _ => True) (Holds (V := V) (E := E)) where
  inv _ _ := trivial
  refl w := Holds.refl w
  trans h1 h2 := h1.trans h2
  slots _ _ _ := trivial
  newMock w cls own _ := by
    refine ⟨by simp, Nat.le_refl _, fun m off h i a _ e => ?_⟩
    rw [World.acting?_eq] at e ⊢
    obtain ⟨k, hk, e⟩ := Option.bind_eq_some_iff.1 e
    show ((w.mocks ++ _)[m]?).bind _ = _
    rw [List.getElem?_append_left (List.getElem?_eq_some_iff.1 hk).1, hk]; exact e
  destroy w m' k _ _ _ := .updMock m' _ rfl (Nat.le_refl _) fun k _ off h i a _ e => by
    rw [acting_buried (k := k) rfl (fun _ => rfl)]; exact e
  reset w m' k _ _ _ := .updMock m' _ rfl (Nat.le_refl _) fun k _ off h i a _ e => by
    rw [acting_buried (k := k) (initData_gone _) (fun o => by rw [Mock.reset, initData_body, proxyReset_body])]; exact e
  clear w m' k _ _ _ := .updMock m' _ rfl (Nat.le_refl _) fun k _ off h i a _ e => by
    refine acting_same e (initData_gone _) ?_
    rw [Mock.clear, initData_body]
    simp only [Mock.body?, List.getElem?_map]
    cases k.mocks[off]? with
    | none => rfl
    | some x => cases x <;> rfl
  stubData w m' k cell v _ _ _ _ := .updMock m' _ rfl (Nat.le_refl _) fun k _ off h i a _ e => acting_same e rfl rfl
  writeData w m' k cell v _ _ _ _ := .updMock m' _ rfl (Nat.le_refl _) fun k _ off h i a _ e => acting_same e rfl rfl
  bind w m' k off ctr _ _ hk hn := .updMock m' _ rfl (Nat.le_refl _) fun k' hk' o h i a _ e => by
    rw [(World.mock?_eq_some.1 hk).1] at hk'; cases hk'
    exact acting_new (k' := k.bind off ctr (newBody w.methTotal)) (b0 := newBody w.methTotal) hn rfl rfl rfl e
  bindDtor w m' k d _ _ hk hd _ hn := .updMock m' _ rfl (Nat.le_refl _) fun k' hk' o h i a _ e => by
    rw [(World.mock?_eq_some.1 hk).1] at hk'; cases hk'
    exact acting_new (k' := k.bindDtor d (newBody w.methTotal)) (b0 := newBody w.methTotal) hn rfl rfl rfl e
  commit w m' k slot off b kind acts _ _ _ hk _ hb := .updMock m' _ rfl (Nat.le_add_right _ 2) fun k' hk' o h i a hl e => by
    rw [acting_updBody (k := k')]; · exact e
    intro b _
    rw [List.find?_append]
    cases b.handlers.find? (·.addr == h) with
    | some x => rfl
    | none =>
      rw [List.find?_cons_of_neg]; · rfl
      simp only [beq_iff_eq]
      intro e
      rw [← e] at hl
      exact absurd hl (Nat.not_succ_le_self _)
  write w a v _ := .same rfl (Nat.le_refl _)
  fire w e _ := .same rfl (Nat.le_refl _)
  mark w scope pat q mode actual count matched _ _ _ := by
    refine ⟨by simp [World.mark], Nat.le_refl _, fun m off h i a _ e => ?_⟩
    rw [World.acting?_eq] at e ⊢
    obtain ⟨k, hk, e⟩ := Option.bind_eq_some_iff.1 e
    rw [World.mocks_mark, hk]
    show (Mock.mark _ k).acting? off h i = _
    refine acting_same e rfl ?_
    simp only [Mock.body?, Mock.mark, List.getElem?_map]
    cases k.mocks[off]? with
    | none => rfl
    | some x => cases x <;> rfl

theorem Holds.ok {p : Patch V E} {w w' : World V E} (h : Holds w w') (hfr : ¬ p.Frail) (hp : p.Ok P w) : p.Ok P w' := by
  cases p with
  | spare m off a i act =>
    obtain ⟨h0, h1, h2, h3⟩ := hp
    exact ⟨Nat.lt_of_lt_of_le h0 h.len, Nat.le_trans h1 h.alloc, h.acts _ _ _ _ _ h1 h2, h3⟩
  | _ => exact absurd trivial hfr

section
variable {p : Patch V E} {w : World V E}

theorem veil_touch (hp : p.Fit P w) (m : Nat) (s : SlotRef) :
    RRel (fun a b => (a = none ∧ b = none) ∨ ∃ w' : World V E, a = some w' ∧ b = some (p.ap w')) (touch P w m s) (touch P (p.ap w) m s) := by
  unfold touch
  rcases veil_mock? p w m with ⟨h1, h2⟩ | ⟨k, h1, h2⟩
  · simp only [h1, h2]; trivial
  · simp only [h1, h2]
    have hmk : ∀ off, (if p.mock = m then p.onMock k else k).mocks[off]? = (k.mocks[off]?).map (Option.map fun b => if p.mock = m then p.onB off b else b) := by
      intro off
      by_cases hm : p.mock = m
      · simp only [hm, if_true, onMock_mocks]
      · simp [hm]
    have hk := (World.mock?_eq_some.1 h1).1
    have bindComm : ∀ (off : Nat) (f : Mock V E → Mock V E) (b0 : MBody V E), (∀ k, (f k).mocks = k.mocks.set off (some b0)) → b0.handlers = [] →
        (∀ k (q : Patch V E), (f (q.onMock k)).cls = (f k).cls ∧ True) →
        (∀ k, f (p.onMock k) = { p.onMock (f k) with mocks := (f (p.onMock k)).mocks, vt := (f (p.onMock k)).vt }) →
        (∀ k', w.mocks[p.mock]? = some k' → m = p.mock → (f (p.onMock k')).vt = (p.onMock (f k')).vt) →
        ({ (p.ap w).updMock m f with methTotal := w.methTotal + 1 } : World V E) = p.ap { w.updMock m f with methTotal := w.methTotal + 1 } := by
      intro off f b0 hf hb0 _ hrest hvt
      have := veil_updMock p w m f fun hm k' hk' => by
        rw [hrest k', hvt k' (hm ▸ hk') hm]
        have e : (f (p.onMock k')).mocks = (p.onMock (f k')).mocks := by
          apply List.ext_getElem?
          intro o
          rw [hf, onMock_mocks, hf, List.getElem?_set, List.getElem?_set, onMock_mocks, onMock_mlen]
          by_cases ho : off = o
          · subst ho
            by_cases hl : off < k'.mocks.length
            · have e0 : p.onB off b0 = b0 := by
                cases b0
                simp only at hb0
                subst hb0
                rfl
              simp [hl, e0]
            · simp [hl]
          · simp [ho]
        rw [e]
      rw [this]; rfl
    cases s with
    | meth off ctr =>
      dsimp only
      rw [hmk]
      cases hb : k.mocks[off]? with
      | none => trivial
      | some o =>
        cases o with
        | some b => exact .inr ⟨w, rfl, rfl⟩
        | none =>
          refine .inr ⟨_, rfl, ?_⟩
          congr 1
          refine bindComm off (·.bind off ctr (newBody w.methTotal)) (newBody w.methTotal) (fun _ => rfl) rfl (fun k q => ⟨by simp [Mock.bind], trivial⟩) (fun k => ?_) fun k' hk' hm => ?_
          · cases p <;> rfl
          · cases p with
            | spare => rfl
            | seq => rfl
            | calm => rfl
            | vt m1 o1 c x =>
              obtain ⟨k2, b2, hk2, hb2, -⟩ := hp.2
              simp only [Patch.mock] at hm hk'
              subst hm
              rw [hk2] at hk'; cases hk'
              rw [hk2] at hk; cases hk
              have hne : o1 ≠ off := by rintro rfl; rw [hb] at hb2; cases hb2
              simp only [Patch.onMock, Mock.bind]
              exact List.set_comm _ _ hne
    | dtor =>
      have hcls : (if p.mock = m then p.onMock k else k).cls = k.cls := veil_field p m (·.cls) (by simp) k
      have hvl : (if p.mock = m then p.onMock k else k).vt.length = k.vt.length := veil_field p m (·.vt.length) (by simp) k
      dsimp only
      rw [hcls]
      cases hd : (P.cls k.cls).dtor with
      | none => exact .inl ⟨rfl, rfl⟩
      | some d =>
        dsimp only
        rw [hvl]
        split
        · rw [hmk]
          cases hb : k.mocks[d]? with
          | none => trivial
          | some o =>
            cases o with
            | some b => exact .inr ⟨w, rfl, rfl⟩
            | none =>
              refine .inr ⟨_, rfl, ?_⟩
              congr 1
              refine bindComm d (·.bindDtor d (newBody w.methTotal)) (newBody w.methTotal) (fun _ => rfl) rfl (fun k q => ⟨by simp [Mock.bindDtor], trivial⟩) (fun k => ?_) fun k' hk' hm => ?_
              · cases p <;> rfl
              · cases p with
                | spare => rfl
                | seq => rfl
                | calm => rfl
                | vt m1 o1 c x =>
                  obtain ⟨k2, b2, hk2, hb2, hd2⟩ := hp.2
                  simp only [Patch.mock] at hm hk'
                  subst hm
                  rw [hk2] at hk'; cases hk'
                  rw [hk2] at hk; cases hk
                  have := hd2 d hd
                  simp only [Patch.onMock, Mock.bindDtor]
                  rw [List.set_comm _ _ this.1, List.set_comm _ _ this.2]
        · trivial

theorem goes_touch {m : Nat} {w w' : World V E} {m' : MockId} {slot : SlotRef} (h : touch P w m' slot = .done (some w')) : Goes P m w w' :=
  touch_stable (apiStableGoes m) trivial trivial h

theorem goes_touchAll {m : Nat} {w w' : World V E} {l ok} (h : touchAll P w l = .done (w', ok)) : Goes P m w w' :=
  touchAll_stable (apiStableGoes m) l (fun _ _ => trivial) trivial h

theorem goes_commit {m : Nat} {w w' : World V E} {t acts} (h : commit P w t acts = .done w') : Goes P m w w' :=
  commit_stable (apiStableGoes m) trivial trivial ⟨.when_ t acts false, trivial, by simp [Api.stubs]⟩ h

theorem veil_touchAll (hp : p.Fit P w) (l : List (MockId × SlotRef)) :
    RRel (fun a b => a.2 = b.2 ∧ b.1 = p.ap a.1) (touchAll P w l) (touchAll P (p.ap w) l) := by
  induction l generalizing w with
  | nil => exact ⟨rfl, rfl⟩
  | cons x l ih =>
    simp only [touchAll]
    refine RRel.bind (veil_touch hp x.1 x.2) fun a b ha _ hab => ?_
    rcases hab with ⟨rfl, rfl⟩ | ⟨w', rfl, rfl⟩
    · exact ⟨rfl, rfl⟩
    · exact ih ((goes_touch ha).fit hp)

theorem veil_commit (hp : p.Fit P w) (t : Target V) (acts : List (Act V E)) : RRel (fun a b => b = p.ap a) (commit P w t acts) (commit P (p.ap w) t acts) := by
  unfold commit
  rcases veil_mock? p w t.m with ⟨h1, h2⟩ | ⟨k, h1, h2⟩
  · simp only [h1, h2]; trivial
  · simp only [h1, h2]
    rw [veil_field p t.m (·.cls) (by simp) k]
    cases t.slot.off (P.cls k.cls) with
    | none => trivial
    | some off =>
      dsimp only
      rw [ap_body]
      cases w.body? t.m off with
      | none => trivial
      | some b =>
        show ({ (p.ap w).updBody t.m off _ with alloc := w.alloc + 2 } : World V E) = _
        rw [veil_updBody p w t.m off _ fun hm b hb => ?_]
        · rfl
        · simp only [Patch.onB, List.map_append, List.map_cons, List.map_nil]
          congr 3
          cases p with
          | seq m o h i q q' =>
            simp only [Patch.onH]
            rw [if_neg]
            rintro ⟨-, e⟩
            have := hp.2
            simp only [ap_alloc] at e
            rw [← e] at this
            exact Nat.not_succ_le_self _ this
          | spare => rfl
          | calm => rfl
          | vt => rfl

theorem veil_commitAll (hp : p.Fit P w) (acts : List (Act V E)) (ts : List (Target V)) : RRel (fun a b => b = p.ap a) (commitAll P acts w ts) (commitAll P acts (p.ap w) ts) := by
  induction ts generalizing w with
  | nil => exact rfl
  | cons t ts ih =>
    refine RRel.bind (veil_commit hp t acts) fun a b ha _ hab => ?_
    subst hab
    exact ih ((goes_commit ha).fit hp)

theorem veil_stubOne (hp : p.Fit P w) (t : Target V) (acts : List (Act V E)) (u : Bool) : VeilA p (stubOne P w t acts u) (stubOne P (p.ap w) t acts u) := by
  unfold stubOne
  refine RRel.bind (veil_touch hp t.m t.slot) fun a b ha _ hab => ?_
  rcases hab with ⟨rfl, rfl⟩ | ⟨w', rfl, rfl⟩
  · exact ⟨rfl, rfl⟩
  · cases u with
    | true => exact ⟨rfl, rfl⟩
    | false => exact RRel.bind (veil_commit ((goes_touch ha).fit hp) t acts) fun a b _ _ hab => ⟨rfl, hab⟩

theorem veil_stubMany (hp : p.Fit P w) (ts : List (Target V)) (a : Act V E) : VeilA p (stubMany P w ts a) (stubMany P (p.ap w) ts a) := by
  unfold stubMany
  refine RRel.bind (veil_touchAll hp _) fun x y hx _ hxy => ?_
  obtain ⟨w', ok⟩ := x
  obtain ⟨v', ok'⟩ := y
  obtain ⟨rfl, rfl⟩ := hxy
  cases ok with
  | false => exact ⟨rfl, rfl⟩
  | true => exact RRel.bind (veil_commitAll ((goes_touchAll hx).fit hp) _ _) fun a b _ _ hab => ⟨rfl, hab⟩

theorem onMock_allInvs (p : Patch V E) (k : Mock V E) : (p.onMock k).allInvs = k.allInvs := by
  have e : ∀ l l' : List (Option (MBody V E)), (∀ o : Nat, (l'[o]?).map (Option.map MBody.invs) = (l[o]?).map (Option.map MBody.invs)) →
      (l'.flatMap fun o => match o with | none => [] | some b => b.invs) = l.flatMap fun o => match o with | none => [] | some b => b.invs := by
    intro l l' h
    have h1 : l'.map (Option.map MBody.invs) = l.map (Option.map MBody.invs) := List.ext_getElem? fun o => by rw [List.getElem?_map, List.getElem?_map]; exact h o
    have h2 : ∀ l : List (Option (MBody V E)), (l.flatMap fun o => match o with | none => [] | some b => b.invs) = (l.map (Option.map MBody.invs)).flatMap fun o => o.getD [] := by
      intro l
      rw [List.flatMap_map]
      congr 1
      funext o
      cases o <;> rfl
    rw [h2, h2, h1]
  apply e
  intro o
  rw [onMock_mocks]
  cases k.mocks[o]? with
  | none => rfl
  | some x => cases x <;> rfl

theorem veil_collect (p : Patch V E) (w : World V E) (s : Source V) (into : List (Invocation V)) : s.collect P (p.ap w) into = s.collect P w into := by
  induction s generalizing into with
  | empty => rfl
  | mock m' =>
    simp only [Source.collect]
    rcases veil_mock? p w m' with ⟨h1, h2⟩ | ⟨k, h1, h2⟩
    · simp only [h1, h2]
    · simp only [h1, h2]
      rw [veil_field p m' (·.allInvs) (onMock_allInvs p) k]
  | ctx l =>
    simp only [Source.collect]
    rcases veil_mock? p w l.m with ⟨h1, h2⟩ | ⟨k, h1, h2⟩
    · simp only [h1, h2]
    · simp only [h1, h2, ap_heap]
      rw [veil_field p l.m (·.cls) (by simp) k]
      cases l.slot.off (P.cls k.cls) with
      | none => rfl
      | some off =>
        simp only [Option.bind_some]
        have : (if p.mock = l.m then p.onMock k else k).body? off = (k.body? off).map fun b => if p.mock = l.m then p.onB off b else b := by
          split
          · rw [onMock_body]
          · simp
        rw [this]
        cases k.body? off with
        | none => rfl
        | some b =>
          simp only [Option.map_some]
          split <;> rfl
  | unverified s ih => simp only [Source.collect, ih]
  | union s t ih1 ih2 => simp only [Source.collect, ih1, ih2]

theorem veil_leaf (p : Patch V E) (w : World V E) : leafMatches P (p.ap w) = leafMatches P w := by
  funext l i
  unfold leafMatches
  rcases veil_mock? p w l.m with ⟨h1, h2⟩ | ⟨k, h1, h2⟩
  · simp only [h1, h2]
  · simp only [h1, h2, ap_heap]
    rw [veil_field p l.m (·.cls) (by simp) k]
    cases l.slot.off (P.cls k.cls) with
    | none => rfl
    | some off =>
      dsimp only
      have : (if p.mock = l.m then p.onMock k else k).body? off = (k.body? off).map fun b => if p.mock = l.m then p.onB off b else b := by
        split
        · rw [onMock_body]
        · simp
      rw [this]
      cases k.body? off with
      | none => rfl
      | some b =>
        simp only [Option.map_some]
        split <;> rfl

theorem veil_analyse (p : Patch V E) (w : World V E) (scope : Scope V) (pat : List (Seq (Leaf V))) : analyse P (p.ap w) scope pat = analyse P w scope pat := by
  simp only [analyse, veil_collect, veil_leaf]

theorem veil_allAlive (p : Patch V E) (w : World V E) (ms : List MockId) : allAlive (p.ap w) ms = allAlive w ms := by
  unfold allAlive
  congr 1
  funext m'
  rcases veil_mock? p w m' with ⟨h1, h2⟩ | ⟨k, h1, h2⟩ <;> simp [h1, h2]

theorem veil_expect (p : Patch V E) (w : World V E) (scope : Scope V) (pat : List (Seq (Leaf V))) (e : Expectation) :
    RRel (fun a b => a.1 = b.1 ∧ a.2.2 = b.2.2 ∧ b.2.1 = p.ap a.2.1) (verifyExpectation P w scope pat e) (verifyExpectation P (p.ap w) scope pat e) := by
  unfold verifyExpectation
  split
  · exact ⟨rfl, rfl, rfl⟩
  · rw [veil_analyse]
    refine RRel.bind (RRel.refl (fun _ => rfl) _ : RRel Eq _ _) fun a b _ _ hab => ?_
    subst hab
    obtain ⟨actual, n, matched⟩ := a
    dsimp only
    split
    · exact ⟨rfl, rfl, rfl⟩
    · exact ⟨rfl, rfl, veil_mark p w _⟩

theorem veil_verify (hp : p.Fit P w) (scope : Scope V) (pat : List (Seq (Leaf V))) (q : Quant) (mode : VMode) :
    VeilA p (verifyStmt P w scope pat q mode) (verifyStmt P (p.ap w) scope pat q mode) := by
  unfold verifyStmt
  refine RRel.bind (veil_touchAll hp _) fun x y _ _ hxy => ?_
  obtain ⟨w', ok⟩ := x
  obtain ⟨v', ok'⟩ := y
  obtain ⟨rfl, rfl⟩ := hxy
  dsimp only
  cases ok with
  | false => exact ⟨rfl, rfl⟩
  | true =>
    dsimp only
    rw [veil_allAlive]
    split
    · trivial
    · split
      · exact ⟨rfl, rfl⟩
      · split
        · exact ⟨rfl, rfl⟩
        · refine RRel.bind (veil_expect p w' scope pat _) fun a b _ _ hab => ?_
          obtain ⟨e1, w2, ev⟩ := a
          obtain ⟨e2, v2, ev'⟩ := b
          obtain ⟨rfl, rfl, rfl⟩ := hab
          cases ev with
          | none => exact ⟨rfl, rfl⟩
          | some e => exact ⟨rfl, rfl⟩
        · refine RRel.bind (veil_expect p w' scope pat _) fun a b _ _ hab => ?_
          obtain ⟨e1, w2, ev⟩ := a
          obtain ⟨e2, v2, ev'⟩ := b
          obtain ⟨rfl, rfl, rfl⟩ := hab
          cases ev <;> exact ⟨rfl, rfl⟩

theorem veil_noOther (hp : p.Fit P w) (srcs : List (Source V)) (mode : VMode) : VeilA p (noOtherStmt P w srcs mode) (noOtherStmt P (p.ap w) srcs mode) := by
  unfold noOtherStmt
  refine RRel.bind (veil_touchAll hp _) fun x y _ _ hxy => ?_
  obtain ⟨w', ok⟩ := x
  obtain ⟨v', ok'⟩ := y
  obtain ⟨rfl, rfl⟩ := hxy
  dsimp only
  have hno : noOther P (p.ap w') srcs = noOther P w' srcs := by simp only [noOther, veil_collect]
  cases ok with
  | false => exact ⟨rfl, rfl⟩
  | true =>
    dsimp only
    rw [veil_allAlive, hno]
    split
    · trivial
    · split
      · exact ⟨rfl, rfl⟩
      · cases noOther P w' srcs with
        | none => exact ⟨rfl, rfl⟩
        | some e => exact ⟨rfl, rfl⟩
      · cases noOther P w' srcs <;> exact ⟨rfl, rfl⟩

theorem onMock_clear (p : Patch V E) (k : Mock V E) : (p.onMock k).clear = p.onMock k.clear := by
  have e : (p.onMock k).mocks.map (Option.map MBody.clear) = (p.onMock ({ k with mocks := k.mocks.map (Option.map MBody.clear) })).mocks := by
    apply List.ext_getElem?
    intro o
    rw [List.getElem?_map, onMock_mocks, onMock_mocks, List.getElem?_map]
    cases k.mocks[o]? with
    | none => rfl
    | some x => cases x <;> rfl
  have hid : ∀ k : Mock V E, (p.onMock k).initData = p.onMock k.initData := by
    intro k
    by_cases ho : k.owner = true <;> cases p <;> simp [Mock.initData, Patch.onMock, Mock.updBody, ho]
  unfold Mock.clear
  rw [← hid]
  congr 1
  rw [e]
  cases p <;> rfl

theorem veil_api (hp : p.Fit P w) {a : Api V E} (ha : p.Frail → a.Spares p.mock) : VeilA p (apiStep P w a) (apiStep P (p.ap w) a) := by
  by_cases hfr : p.Frail
  case neg =>
    rw [ap_sturdy hfr]
    exact RRel.refl (fun x => ⟨rfl, (ap_sturdy hfr x.1).symm⟩) _
  replace ha := ha hfr
  have hmk : ∀ (m' : MockId) (f : World V E → World V E), (∀ k, w.mock? m' = some k → f (p.ap w) = p.ap (f w)) → VeilA p (match w.mock? m' with
      | none => .ub
      | some _ => .done (f w, .unit)) (match (p.ap w).mock? m' with
      | none => .ub
      | some _ => .done (f (p.ap w), .unit)) := by
    intro m' f hf
    rcases veil_mock? p w m' with ⟨h1, h2⟩ | ⟨k, h1, h2⟩
    · simp only [h1, h2]; trivial
    · simp only [h1, h2]; exact ⟨rfl, hf k h1⟩
  cases a with
  | newMock cls => exact ⟨by simp only [ap_length], veil_new p w hp.1 _⟩
  | newSpy cls => exact ⟨by simp only [ap_length], veil_new p w hp.1 _⟩
  | destroy m' => exact hmk m' (·.updMock m' Mock.destroy) fun _ _ => veil_updMock p w m' _ fun e => absurd e ha
  | touch m' s =>
    refine RRel.bind (veil_touch hp m' s) fun a b _ _ hab => ?_
    rcases hab with ⟨rfl, rfl⟩ | ⟨w', rfl, rfl⟩
    · exact ⟨rfl, rfl⟩
    · exact ⟨rfl, rfl⟩
  | when_ t acts u => exact veil_stubOne hp t acts u
  | fake ts => exact veil_stubMany hp ts _
  | spy move ts => exact veil_stubMany hp ts _
  | assign t f => exact veil_stubOne hp t _ _
  | stubData m' cell x =>
    simp only [apiStep]
    rcases veil_mock? p w m' with ⟨h1, h2⟩ | ⟨k, h1, h2⟩
    · simp only [h1, h2]; trivial
    · simp only [h1, h2]
      rw [veil_field p m' (·.data.length) (by simp) k]
      split
      · exact ⟨rfl, veil_updMock p w m' _ fun _ k _ => by cases p <;> rfl⟩
      · trivial
  | writeData m' cell x =>
    simp only [apiStep]
    rcases veil_mock? p w m' with ⟨h1, h2⟩ | ⟨k, h1, h2⟩
    · simp only [h1, h2]; trivial
    · simp only [h1, h2]
      rw [veil_field p m' (·.data.length) (by simp) k]
      split
      · exact ⟨rfl, veil_updMock p w m' _ fun _ k _ => by cases p <;> rfl⟩
      · trivial
  | reset m' => exact hmk m' (·.updMock m' Mock.reset) fun _ _ => veil_updMock p w m' _ fun e => absurd e ha
  | clear m' => exact hmk m' (·.updMock m' Mock.clear) fun _ _ => veil_updMock p w m' _ fun _ k _ => onMock_clear p k
  | write a x => exact ⟨rfl, rfl⟩
  | verify scope pat q mode => exact veil_verify hp scope pat q mode
  | verifyNoOther srcs mode => exact veil_noOther hp srcs mode

end

/-! ## Several patches -/

theorem Patch.Fit.ap {p : Patch V E} (r : Patch V E) {w : World V E} (h : p.Fit P w) : p.Fit P (r.ap w) := by
  refine ⟨by rw [ap_length]; exact h.1, ?_⟩
  cases p with
  | spare => trivial
  | seq => exact h.2
  | calm => trivial
  | vt m off c x =>
    obtain ⟨k, b, hk, hb, hd⟩ := h.2
    refine ⟨if r.mock = m then r.onMock k else k, if r.mock = m then r.onB off b else b, by rw [ap_mocks, hk]; rfl, ?_, ?_⟩
    · split
      · rw [onMock_mocks, hb]; rfl
      · exact hb
    · rw [veil_field r m (·.cls) (by simp) k]; exact hd

/-- API operations do not see what is going on. -/
theorem patch_api {ps : List (Patch V E)} {w : World V E} (hp : ∀ p ∈ ps, p.Fit P w) {a : Api V E} (ha : ∀ p ∈ ps, p.Frail → a.Spares p.mock) :
    RRel (fun x y => x.2 = y.2 ∧ y.1 = patch ps x.1) (apiStep P w a) (apiStep P (patch ps w) a) := by
  induction ps generalizing w with
  | nil => exact RRel.refl (fun _ => ⟨rfl, rfl⟩) _
  | cons p ps ih =>
    have h1 := veil_api (hp p (by simp)) (ha p (by simp))
    have h2 := ih (w := p.ap w) (fun r hr => (hp r (by simp [hr])).ap p) (fun r hr => ha r (by simp [hr]))
    rw [patch_cons]
    cases e1 : apiStep P w a <;> cases e2 : apiStep P (p.ap w) a <;> rw [e1, e2] at h1 <;> first | exact h1.elim | skip
    · rw [e2] at h2
      cases e3 : apiStep P (patch ps (p.ap w)) a <;> rw [e3] at h2 <;> first | exact h2.elim | skip
      exact ⟨h1.1.trans h2.1, by rw [h2.2, h1.2]; rfl⟩
    · rw [e2] at h2
      cases e3 : apiStep P (patch ps (p.ap w)) a <;> rw [e3] at h2 <;> first | exact h2.elim | trivial
    · rw [e2] at h2
      cases e3 : apiStep P (patch ps (p.ap w)) a <;> rw [e3] at h2 <;> first | exact h2.elim | trivial

/-- A handler as it will be. -/
def patchH (ps : List (Patch V E)) (m off : Nat) (x : Handler V E) : Handler V E := ps.foldl (fun x p => if p.mock = m then p.onH off x else x) x

/-- A record as it will be. -/
def patchB (ps : List (Patch V E)) (m off : Nat) (b : MBody V E) : MBody V E := { b with handlers := b.handlers.map (patchH ps m off) }

/-- A mock as it will be. -/
def patchM (ps : List (Patch V E)) (m : Nat) (k : Mock V E) : Mock V E := ps.foldl (fun k p => if p.mock = m then p.onMock k else k) k

theorem patch_mocks (ps : List (Patch V E)) (w : World V E) (m : Nat) : (patch ps w).mocks[m]? = (w.mocks[m]?).map (patchM ps m) := by
  induction ps generalizing w with
  | nil => rw [patch_nil, show patchM ([] : List (Patch V E)) m = id from rfl, Option.map_id]; rfl
  | cons p ps ih =>
    rw [patch_cons, ih, ap_mocks, Option.map_map]; rfl

theorem patch_body (ps : List (Patch V E)) (w : World V E) (m off : Nat) : (patch ps w).body? m off = (w.body? m off).map (patchB ps m off) := by
  induction ps generalizing w with
  | nil =>
    rw [patch_nil, show patchB ([] : List (Patch V E)) m off = id from ?_, Option.map_id]; rfl
    funext b
    simp only [patchB, id]
    rw [show patchH ([] : List (Patch V E)) m off = id from rfl, List.map_id]
  | cons p ps ih =>
    rw [patch_cons, ih, ap_body, Option.map_map]
    congr 1
    funext b
    simp only [Function.comp_apply, patchB]
    by_cases h : p.mock = m
    · simp only [h, if_true, Patch.onB, List.map_map, MBody.mk.injEq, true_and, and_true]
      apply List.map_congr_left
      intro x _
      simp [patchH, h]
    · simp only [h, if_false, MBody.mk.injEq, true_and, and_true]
      apply List.map_congr_left
      intro x _
      simp [patchH, h]

section
variable (ps : List (Patch V E)) (m : Nat) (k : Mock V E) (w : World V E)

theorem patchM_field {α : Type} (f : Mock V E → α) (hf : ∀ (p : Patch V E) k, f (p.onMock k) = f k) : f (patchM ps m k) = f k := by
  induction ps generalizing k with
  | nil => rfl
  | cons p ps ih =>
    show f (patchM ps m (if p.mock = m then p.onMock k else k)) = _
    rw [ih, veil_field p m f (hf p)]

@[simp] theorem patchM_cls : (patchM ps m k).cls = k.cls := patchM_field ps m k (·.cls) (by simp)
@[simp] theorem patchM_owner : (patchM ps m k).owner = k.owner := patchM_field ps m k (·.owner) (by simp)
@[simp] theorem patchM_alive : (patchM ps m k).alive = k.alive := patchM_field ps m k (·.alive) (by simp)
@[simp] theorem patchM_orig : (patchM ps m k).orig = k.orig := patchM_field ps m k (·.orig) (by simp)
@[simp] theorem patchM_offsets : (patchM ps m k).offsets = k.offsets := patchM_field ps m k (·.offsets) (by simp)

@[simp] theorem patch_heap : (patch ps w).heap = w.heap := by
  induction ps generalizing w with
  | nil => rfl
  | cons p ps ih => rw [patch_cons, ih]; rfl

@[simp] theorem patch_invTotal : (patch ps w).invTotal = w.invTotal := by
  induction ps generalizing w with
  | nil => rfl
  | cons p ps ih => rw [patch_cons, ih]; rfl

@[simp] theorem patch_alloc : (patch ps w).alloc = w.alloc := by
  induction ps generalizing w with
  | nil => rfl
  | cons p ps ih => rw [patch_cons, ih]; rfl

@[simp] theorem patch_log : (patch ps w).log = w.log := by
  induction ps generalizing w with
  | nil => rfl
  | cons p ps ih => rw [patch_cons, ih]; rfl

theorem patchM_vt {off : Nat} (h : ∀ c x, Patch.vt m off c x ∉ ps) : (patchM ps m k).vt[off]? = k.vt[off]? := by
  induction ps generalizing k with
  | nil => rfl
  | cons p ps ih =>
    show (patchM ps m (if p.mock = m then p.onMock k else k)).vt[off]? = _
    rw [ih _ fun c x hm => h c x (by simp [hm])]
    split
    · rename_i hm
      cases p with
      | spare => rfl
      | seq => rfl
      | calm => rfl
      | vt m' o c x =>
        simp only [Patch.mock] at hm
        subst hm
        have : o ≠ off := by rintro rfl; exact h c x (by simp)
        simp [Patch.onMock, this]
    · rfl

theorem patch_with (heap : Addr → V) (n : Nat) (log : List (Event V)) : patch ps { w with heap := heap, invTotal := n, log := log } = { patch ps w with heap := heap, invTotal := n, log := log } := by
  induction ps generalizing w with
  | nil => rfl
  | cons p ps ih => rw [patch_cons, patch_cons, ← ih]; rfl

theorem patch_write (a : Addr) (v : V) : (patch ps w).write a v = patch ps (w.write a v) := by
  induction ps generalizing w with
  | nil => rfl
  | cons p ps ih => rw [patch_cons, patch_cons, ih]; rfl

theorem patch_fire (e : Event V) : (patch ps w).fire e = patch ps (w.fire e) := by
  induction ps generalizing w with
  | nil => rfl
  | cons p ps ih => rw [patch_cons, patch_cons, ih]; rfl

theorem patch_bump : (patch ps w).bumpInv = patch ps w.bumpInv := by
  induction ps generalizing w with
  | nil => rfl
  | cons p ps ih => rw [patch_cons, patch_cons, ih]; rfl

theorem patch_updBody (off : Nat) (f : MBody V E → MBody V E) (hf : ∀ p ∈ ps, p.mock = m → ∀ b, f (p.onB off b) = p.onB off (f b)) :
    (patch ps w).updBody m off f = patch ps (w.updBody m off f) := by
  induction ps generalizing w with
  | nil => rfl
  | cons p ps ih =>
    rw [patch_cons, patch_cons, ih _ fun r hr => hf r (by simp [hr]), veil_updBody p w m off f fun hm b _ => hf p (by simp) hm.symm b]

theorem patch_updInv (off uid : Nat) (f : Invocation V → Invocation V) : (patch ps w).updInv m off uid f = patch ps (w.updInv m off uid f) :=
  patch_updBody ps m w off _ fun _ _ _ _ => rfl

end

@[simp] theorem patchH_addr (ps : List (Patch V E)) (m off : Nat) (x : Handler V E) : (patchH ps m off x).addr = x.addr := by
  induction ps generalizing x with
  | nil => rfl
  | cons p ps ih =>
    show (patchH ps m off (if p.mock = m then p.onH off x else x)).addr = _
    rw [ih]; split <;> simp

@[simp] theorem patchH_matcher (ps : List (Patch V E)) (m off : Nat) (x : Handler V E) : (patchH ps m off x).matcher = x.matcher := by
  induction ps generalizing x with
  | nil => rfl
  | cons p ps ih =>
    show (patchH ps m off (if p.mock = m then p.onH off x else x)).matcher = _
    rw [ih]; split <;> simp

theorem patchH_self {ps : List (Patch V E)} {m off : Nat} {x : Handler V E} (h : ∀ i q q', Patch.seq m off x.addr i q q' ∉ ps) : patchH ps m off x = x := by
  induction ps with
  | nil => rfl
  | cons p ps ih =>
    show patchH ps m off (if p.mock = m then p.onH off x else x) = _
    have : (if p.mock = m then p.onH off x else x) = x := by
      split
      · rename_i hm
        cases p with
        | seq m' o a i q q' =>
          simp only [Patch.mock] at hm
          subst hm
          simp only [Patch.onH]
          rw [if_neg]
          rintro ⟨rfl, rfl⟩
          exact h i q q' (by simp)
        | spare => rfl
        | calm => rfl
        | vt => rfl
      · rfl
    rw [this]
    exact ih fun i q q' hm => h i q q' (by simp [hm])

theorem patch_srv (ps : List (Patch V E)) (w : World V E) (m off : Nat) (a : Addr) (h : ∀ i q q', Patch.seq m off a i q q' ∉ ps) (q : ActionSeq V E) (inv : Invocation V)
    (heap : Addr → V) (n : Nat) (log : List (Event V)) : srv (patch ps w) m off a q inv heap n log = patch ps (srv w m off a q inv heap n log) := by
  have e1 : ∀ w : World V E, srv w m off a q inv heap n log = { w.updBody m off (srvB a q inv) with heap := heap, invTotal := n, log := log } := fun _ => rfl
  rw [e1 w, patch_with ps (w.updBody m off (srvB a q inv)), ← patch_updBody]
  · rfl
  intro p hp hm b
  simp only [srvB, Patch.onB, MBody.mk.injEq, true_and, and_true, setSeq, List.map_map]
  apply List.map_congr_left
  intro x _
  simp only [Function.comp_apply, onH_addr]
  cases p with
  | seq m' o a' i q1 q2 =>
    simp only [Patch.mock] at hm
    subst hm
    simp only [Patch.onH]
    by_cases hx : x.addr = a
    · have hne : ¬ (o = off ∧ x.addr = a') := by
        rintro ⟨rfl, e⟩
        rw [hx] at e
        subst e
        exact h i q1 q2 hp
      simp [hx]
      rw [if_neg (by rw [← hx]; exact hne), if_neg (by rw [← hx]; exact hne)]
    · simp only [beq_iff_eq, hx, if_false]
  | spare => rfl
  | calm => rfl
  | vt => rfl

/-- The stubbing that answers is the one that will. -/
theorem find_patched (ps : List (Patch V E)) (m off : Nat) (heap : Addr → V) (inv : Invocation V) (hn : inv.matcher = none) (b : MBody V E) :
    findHandler heap (patchB ps m off b).handlers inv = (findHandler heap b.handlers inv).map (patchH ps m off) := by
  unfold findHandler
  rw [scan_find _ _ hn, scan_find _ _ hn, patchB, ← List.map_reverse, List.find?_map]
  congr 2
  funext x
  simp

end FakeIt
