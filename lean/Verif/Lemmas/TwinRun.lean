import Verif.Lemmas.Twin
/-!
# Programs run alike in worlds that differ in one `_offsets` array, if the destructor of that mock is not mentioned
-/
namespace FakeIt
variable {V E : Type} {P : Prog V E} {nm : MockId → Nat → Nat} {c : ClassDecl V}

/-- The operation has no `Dtor(mock m)`, unless the destructor is the first virtual function of the class. -/
def Spec.NoDtor (c : ClassDecl V) (m : MockId) (a : Api V E) : Prop := ∀ x ∈ a.slots, x.1 = m → x.2 = .dtor → c.dtor = some 0

/-- No entry of mock `m` but the first one is hooked under the destructor's id. -/
def Free0 (c : ClassDecl V) (P : Prog V E) (m : MockId) (w : World V E) : Prop :=
  ∀ (k : Mock V E) (off : Nat), w.mocks[m]? = some k → P.cls k.cls = c ∧ (k.vt[off]? = some (Code.proxy 0) → off = 0)

/-- Invariants kept, and no hook under the destructor's id appears. -/
def QN (c : ClassDecl V) (P : Prog V E) (nm : MockId → Nat → Nat) (m : MockId) (w w' : World V E) : Prop := Q2 P nm w w' ∧ (Inv2 P nm w → m < w.mocks.length → Free0 c P m w → Free0 c P m w')

def IN (c : ClassDecl V) (P : Prog V E) (nm : MockId → Nat → Nat) (m : MockId) (w : World V E) : Prop := Inv2 P nm w ∧ m < w.mocks.length ∧ Free0 c P m w

theorem Q2.length {m : MockId} {w w' : World V E} (h : Q2 P nm w w') (hm : m < w.mocks.length) : m < w'.mocks.length := by
  obtain ⟨k', hk', -⟩ := h.1.1.2.stat m _ (List.getElem?_eq_getElem hm)
  exact lt_of_getElem?_some hk'

theorem QN.inv {m : MockId} {w w' : World V E} (h : QN c P nm m w w') (hI : IN c P nm m w) : IN c P nm m w' :=
  ⟨h.1.inv hI.1, h.1.length hI.2.1, h.2 hI.1 hI.2.1 hI.2.2⟩

theorem QN.trans {m : MockId} {u v w : World V E} (h1 : QN c P nm m u v) (h2 : QN c P nm m v w) : QN c P nm m u w :=
  ⟨h1.1.trans h2.1, fun hI hm hf => h2.2 (h1.1.inv hI) (h1.1.length hm) (h1.2 hI hm hf)⟩

theorem Free0.updMock {m m' : MockId} {w : World V E} (h : Free0 c P m w) (f : Mock V E → Mock V E)
    (hf : m' = m → ∀ (k : Mock V E) (off : Nat), w.mocks[m]? = some k → (f k).cls = k.cls ∧ ((f k).vt[off]? = some (Code.proxy 0) → off = 0 ∨ k.vt[off]? = some (Code.proxy 0))) : Free0 c P m (w.updMock m' f) := by
  intro k off hk
  rw [World.mocks_updMock] at hk
  by_cases hm : m' = m
  · rw [if_pos hm] at hk
    obtain ⟨k0, hk0, rfl⟩ := Option.map_eq_some_iff.1 hk
    obtain ⟨h1, h2⟩ := hf hm k0 off hk0
    refine ⟨by rw [h1]; exact (h k0 off hk0).1, fun hv => ?_⟩
    rcases h2 hv with h' | h'
    · exact h'
    · exact (h k0 off hk0).2 h'
  · rw [if_neg hm] at hk
    exact h k off hk

theorem Free0.same {m : MockId} {w w' : World V E} (h : Free0 c P m w) (he : w'.mocks[m]? = w.mocks[m]?) : Free0 c P m w' := by
  intro k off hk; rw [he] at hk; exact h k off hk

theorem Free0.setVt {m m' off : Nat} {w : World V E} (h : Free0 c P m w) {x : Code} (hc : m' = m → x = .proxy 0 → off = 0) : Free0 c P m (w.setVt m' off x) := by
  refine h.updMock _ fun e k off' hk => ⟨rfl, fun hv => ?_⟩
  rw [List.getElem?_set] at hv
  split at hv
  · rename_i he
    split at hv
    · exact .inl (he ▸ hc e (Option.some.inj hv))
    · cases hv
  · exact .inr hv

theorem orig_free {m : MockId} {w : World V E} (hI : Inv2 P nm w) {k : Mock V E} (hk : w.mocks[m]? = some k) (off : Nat) : k.orig[off]? ≠ some (Code.proxy 0) := by
  intro h
  exact ((hI.1.1 m k hk).orig_entry off _ h).1 0 rfl

theorem apiStableN (m : MockId) : ApiStable P (fun a => a.Named nm ∧ Spec.NoDtor c m a) (fun m' s => s.Named nm m' ∧ (m' = m → s = .dtor → c.dtor = some 0)) (IN c P nm m) (QN c P nm m) where
  inv h hI := h.inv hI
  refl w := ⟨apiStable2.refl w, fun _ _ => id⟩
  trans h1 h2 := h1.trans h2
  slots h x hx := ⟨h.1 x hx, h.2 x hx⟩
  newMock w cls own hI := ⟨apiStable2.newMock w cls own hI.1, fun _ hm h => h.same (List.getElem?_append_left hm)⟩
  destroy w m' k hI hA hk := ⟨apiStable2.destroy w m' k hI.1 hA.1 hk, fun hI _ h => h.updMock _ fun _ k off hk => ⟨rfl, fun hv => absurd hv (orig_free hI hk off)⟩⟩
  reset w m' k hI hA hk := ⟨apiStable2.reset w m' k hI.1 hA.1 hk, fun hI _ h => h.updMock _ fun _ k off hk => by
    refine ⟨by unfold Mock.reset Mock.initData; split <;> rfl, fun hv => absurd ?_ (orig_free hI hk off)⟩
    unfold Mock.reset Mock.initData at hv; split at hv <;> exact hv⟩
  clear w m' k hI hA hk := ⟨apiStable2.clear w m' k hI.1 hA.1 hk, fun hI _ h => h.updMock _ fun _ k off hk => by
    refine ⟨by unfold Mock.clear Mock.initData; split <;> rfl, fun hv => .inr ?_⟩
    unfold Mock.clear Mock.initData at hv; split at hv <;> exact hv⟩
  stubData w m' k cell v hI hA hk hlt := ⟨apiStable2.stubData w m' k cell v hI.1 hA.1 hk hlt, fun _ _ h => h.updMock _ fun _ _ _ _ => ⟨rfl, .inr⟩⟩
  writeData w m' k cell v hI hA hk hlt := ⟨apiStable2.writeData w m' k cell v hI.1 hA.1 hk hlt, fun _ _ h => h.updMock _ fun _ _ _ _ => ⟨rfl, .inr⟩⟩
  bind w m' k off ctr hI hB hk hn := ⟨apiStable2.bind w m' k off ctr hI.1 hB.1 hk hn, fun _ _ h => by
    refine Free0.same (w := w.updMock m' (·.bind off ctr (newBody w.methTotal))) (h.updMock _ fun e k off' hk => ⟨rfl, fun hv => .inr ?_⟩) rfl
    simp only [Mock.bind, List.getElem?_set] at hv
    split at hv
    · split at hv
      · cases hv
      · cases hv
    · exact hv⟩
  bindDtor w m' k d hI hB hk hd hlt hn := ⟨apiStable2.bindDtor w m' k d hI.1 hB.1 hk hd hlt hn, fun _ _ h => by
    refine Free0.same (w := w.updMock m' (·.bindDtor d (newBody w.methTotal))) (h.updMock _ fun e k' off' hk' => ⟨rfl, fun hv => ?_⟩) rfl
    have h0 := hB.2 e rfl
    have hc := (h k' off' hk').1
    subst e
    rw [(World.mock?_eq_some.1 hk).1] at hk'
    cases hk'
    rw [hc, h0] at hd
    cases hd
    simp only [Mock.bindDtor, List.getElem?_set] at hv
    split at hv
    · split at hv <;> cases hv
    · split at hv
      · rename_i h; exact .inl h.symm
      · exact .inr hv⟩
  commit w m' k slot off b kind acts hI hs hB hk hoff hb :=
    ⟨apiStable2.commit w m' k slot off b kind acts hI.1 (hs.imp fun a h => ⟨h.1.1, h.2⟩) hB.1 hk hoff hb, fun _ _ h =>
      Free0.same (w := w.updBody m' off _) (h.updMock _ fun _ _ _ _ => ⟨rfl, .inr⟩) rfl⟩
  write w a v hI := ⟨apiStable2.write w a v hI.1, fun _ _ h => h.same rfl⟩
  fire w e hI := ⟨apiStable2.fire w e hI.1, fun _ _ h => h.same rfl⟩
  mark w scope pat q mode actual count matched hI hA h := ⟨apiStable2.mark w scope pat q mode actual count matched hI.1 hA.1 h, fun _ _ hf => by
    intro k off hk
    rw [World.mocks_mark] at hk
    obtain ⟨k0, hk0, rfl⟩ := Option.map_eq_some_iff.1 hk
    exact hf k0 off hk0⟩

theorem stableN (m : MockId) : Stable P (fun a => a.Named nm ∧ Spec.NoDtor c m a) (fun _ _ => True) (fun _ _ => True) (fun _ _ _ _ => True) (IN c P nm m) (QN c P nm m) where
  inv h hI := h.inv hI
  dispatch _ _ _ _ _ := trivial
  frame _ _ _ := trivial
  thunk _ _ _ _ _ := trivial
  deleg _ := trivial
  swapIn {w m' k off orig} hI hD hk ho := ⟨stable2.swapIn hI.1 trivial hk ho, by simpa [World.setVt, World.updMock] using hI.2.1,
    hI.2.2.setVt fun _ h => absurd (by rw [ho, h]) (orig_free hI.1 hk off)⟩
  refl w := ⟨stable2.refl w, fun _ _ => id⟩
  trans h1 h2 := h1.trans h2
  api hI hA h := apiStep_stable (apiStableN m) hI hA h
  write w a v hI := ⟨stable2.write w a v hI.1, fun _ _ h => h.same rfl⟩
  setArgs w m' off' uid args f hI hD hf := ⟨stable2.setArgs w m' off' uid args f hI.1 trivial hf, fun _ _ h => h.updMock _ fun _ _ _ _ => ⟨rfl, .inr⟩⟩
  bump w hI := ⟨stable2.bump w hI.1, fun _ _ h => h.same rfl⟩
  fire w e hI := ⟨stable2.fire w e hI.1, fun _ _ h => h.same rfl⟩
  push w m' off' b args h hI hD hb hf := ⟨stable2.push w m' off' b args h hI.1 trivial hb hf, fun _ _ h => Free0.updMock (w := w.bumpInv) (h.same rfl) _ fun _ _ _ _ => ⟨rfl, .inr⟩⟩
  tick w m' off' h i hI hD := ⟨stable2.tick w m' off' h i hI.1 trivial, fun _ _ h => h.updMock _ fun _ _ _ _ => ⟨rfl, .inr⟩⟩
  fin w m' off' h hd i s hI hD hh hs := ⟨stable2.fin w m' off' h hd i s hI.1 trivial hh hs, fun _ _ h => h.updMock _ fun _ _ _ _ => ⟨rfl, .inr⟩⟩
  swap w w' m' off' h k fake orig hd0 hd i s hI hD hk hf ho hh hQ hh' hs := by
    refine ⟨stable2.swap w w' m' off' h k fake orig hd0 hd i s hI.1 trivial hk hf ho hh hQ.1 hh' hs, fun _ hm hfree => ?_⟩
    have hI' := (⟨stable2.swapIn hI.1 trivial hk ho, by simpa [World.setVt, World.updMock] using hI.2.1,
      hI.2.2.setVt fun _ h => absurd (by rw [ho, h]) (orig_free hI.1 hk off')⟩ : IN c P nm m (w.setVt m' off' orig))
    refine (Free0.setVt (hQ.inv hI').2.2 fun e h => ?_).updMock _ fun _ _ _ _ => ⟨rfl, .inr⟩
    subst e
    exact (hfree k off' hk).2 (by rw [hf, h])

/-! ## The two runs -/

variable {m : MockId} {w v : World V E}

theorem Twin.free0 (h : Twin m w v) (hf : Free0 c P m w) : Free0 c P m v := by
  obtain ⟨os, rfl⟩ := h
  exact hf.updMock _ fun _ _ _ _ => ⟨rfl, .inr⟩

/-- Both runs of a call end alike. -/
abbrev TwinC (m : MockId) (x y : R (Outcome V E × World V E)) : Prop := RRel (fun a b => a.1 = b.1 ∧ Twin m a.2 b.2) x y

/-- The inductive hypothesis about nested calls. -/
def CallTwin (c : ClassDecl V) (P : Prog V E) (nm : MockId → Nat → Nat) (m : MockId) (call : CallFn V E) : Prop :=
  ∀ w v m' off args, IN c P nm m w → IN c P nm m v → Twin m w v → TwinC m (call w m' off args) (call v m' off args)

theorem setArg_twin (h : Twin m w v) (fr : Option Frame) (args : List (Arg V)) (i : Nat) (x : V) : Twin m (setArg w fr args i x) (setArg v fr args i x) := by
  unfold setArg
  split
  · exact h
  · exact h.write _ _
  · cases fr with
    | none => exact h
    | some f => exact h.updBody _ _ _

variable {call : CallFn V E}

theorem runBody_twin (hc : CallTwin c P nm m call) (hok : CallOk (fun _ _ => True) (IN c P nm m) (QN c P nm m) call) (fr : Option Frame) (args : List (Arg V))
    (b : Body V E) (hb : b.Within (fun a => a.Named nm ∧ Spec.NoDtor c m a) (fun _ _ => True)) (hw : IN c P nm m w) (hv : IN c P nm m v) (h : Twin m w v) :
    TwinC m (runBody P call fr args b w) (runBody P call fr args b v) := by
  induction b generalizing w v with
  | done o => exact ⟨rfl, h⟩
  | setArg i x k ih =>
    exact ih hb ((setArg_stable (stableN m) w hw fr args i x fun _ _ => trivial).inv hw) ((setArg_stable (stableN m) v hv fr args i x fun _ _ => trivial).inv hv)
      (setArg_twin h fr args i x)
  | call m' off as k ih =>
    refine RRel.bind (hc w v m' off as hw hv h) fun a b' ha hb' hab => ?_
    obtain ⟨o, w'⟩ := a
    obtain ⟨o', v'⟩ := b'
    obtain ⟨rfl, h'⟩ := hab
    exact ih o (hb.2 o) ((hok _ _ _ _ _ _ hw trivial ha).inv hw) ((hok _ _ _ _ _ _ hv trivial hb').inv hv) h'
  | api a k ih =>
    refine RRel.bind (apiStep_twin h hw.2.1 a) fun x y hx hy hxy => ?_
    obtain ⟨w', o⟩ := x
    obtain ⟨v', o'⟩ := y
    obtain ⟨rfl, h'⟩ := hxy
    exact ih o (hb.2 o) ((apiStep_stable (apiStableN m) hw hb.1 hx).inv hw) ((apiStep_stable (apiStableN m) hv hb.1 hy).inv hv) h'

theorem runDelegate_twin (hc : CallTwin c P nm m call) (hw : IN c P nm m w) (hv : IN c P nm m v) (h : Twin m w v) (m' off : Nat) (args : List (Arg V)) :
    TwinC m (runDelegate P call w m' off args) (runDelegate P call v m' off args) := by
  unfold runDelegate
  rcases h.mock m' with ⟨h1, h2⟩ | ⟨k, os, h1, h2⟩
  · simp only [h1, h2]; trivial
  · simp only [h1, h2]
    split
    · exact ⟨rfl, h⟩
    · cases hf : k.vt[off]? with
      | none => trivial
      | some fake =>
        cases ho : k.orig[off]? with
        | none => trivial
        | some orig =>
          refine RRel.bind (hc _ _ m' off args ((stableN m).swapIn hw trivial h1 ho) ((stableN m).swapIn hv trivial h2 ho) (h.setVt m' off orig)) fun a b _ _ hab => ?_
          obtain ⟨o, w'⟩ := a
          obtain ⟨o', v'⟩ := b
          obtain ⟨rfl, h'⟩ := hab
          exact ⟨rfl, Twin.setVt h' m' off fake⟩

theorem invokeAct_twin (hP : P.Within (fun a => a.Named nm ∧ Spec.NoDtor c m a) (fun _ _ => True)) (hc : CallTwin c P nm m call) (hok : CallOk (fun _ _ => True) (IN c P nm m) (QN c P nm m) call)
    (hw : IN c P nm m w) (hv : IN c P nm m v) (h : Twin m w v) (fr : Frame) (args : List (Arg V)) (act : Act V E) :
    TwinC m (invokeAct P call w fr args act) (invokeAct P call v fr args act) := by
  cases act with
  | rep n f =>
    simp only [invokeAct, h.heap]
    exact runBody_twin hc hok _ _ _ (fnCode_within hP f _) hw hv h
  | forever f =>
    simp only [invokeAct, h.heap]
    exact runBody_twin hc hok _ _ _ (fnCode_within hP f _) hw hv h
  | dflt =>
    simp only [invokeAct]
    rcases h.mock fr.m with ⟨h1, h2⟩ | ⟨k, os, h1, h2⟩
    · simp only [h1, h2]; trivial
    · simp only [h1, h2]
      split
      · exact ⟨rfl, h⟩
      · exact ⟨rfl, h⟩
      · trivial
  | deleg move =>
    simp only [invokeAct]
    cases move with
    | false => exact runDelegate_twin hc hw hv h _ _ _
    | true =>
      exact runDelegate_twin hc (((stableN m).setArgs w fr.m fr.off fr.uid args (moveArgs P) hw trivial (keepsForm_move P args)).inv hw)
        (((stableN m).setArgs v fr.m fr.off fr.uid args (moveArgs P) hv trivial (keepsForm_move P args)).inv hv) (h.updBody _ _ _) _ _ _
  | noMore => exact ⟨rfl, h⟩

theorem Twin.orphan? (h : Twin m w v) (m' : MockId) (off : Nat) (a : Addr) (i : Nat) : v.orphan? m' off a i = w.orphan? m' off a i := by
  obtain ⟨os, rfl⟩ := h
  simp only [World.orphan?, World.setOff, World.mocks_updMock]
  split
  · cases w.mocks[m']? <;> rfl
  · rfl

theorem worldFinally_twin (h : Twin m w v) (m' off : Nat) (a : Addr) (i : Nat) (act : Act V E) (o : Outcome V E) :
    RRel (Twin m) (worldFinally w m' off a i act o) (worldFinally v m' off a i act o) := by
  unfold worldFinally
  rw [h.handler?]
  cases w.handler? m' off a with
  | none =>
    dsimp only
    rw [h.orphan?]
    cases w.orphan? m' off a i with
    | none => trivial
    | some x =>
      dsimp only
      unfold orphanEnd
      split
      · trivial
      · split
        · trivial
        · trivial
        · exact h
  | some hd =>
    refine RRel.bind (RRel.refl (fun _ => rfl) _ : RRel Eq _ _) fun a b _ _ hab => ?_
    subst hab
    exact h.updBody _ _ _

theorem runHandler_twin (hP : P.Within (fun a => a.Named nm ∧ Spec.NoDtor c m a) (fun _ _ => True)) (hc : CallTwin c P nm m call) (hok : CallOk (fun _ _ => True) (IN c P nm m) (QN c P nm m) call)
    (hw : IN c P nm m w) (hv : IN c P nm m v) (h : Twin m w v) (fr : Frame) (hd : Handler V E) (args : List (Arg V)) :
    TwinC m (runHandler P call w fr hd args) (runHandler P call v fr hd args) := by
  unfold runHandler
  refine RRel.bind (RRel.refl (fun _ => rfl) _ : RRel Eq _ _) fun a b _ _ hab => ?_
  subst hab
  obtain ⟨i, act⟩ := a
  refine RRel.bind (invokeAct_twin hP hc hok (((stableN m).tick w fr.m fr.off hd.addr i hw trivial).inv hw)
    (((stableN m).tick v fr.m fr.off hd.addr i hv trivial).inv hv) (h.updBody _ _ _) fr args act) fun a b _ _ hab => ?_
  obtain ⟨o, w'⟩ := a
  obtain ⟨o', v'⟩ := b
  obtain ⟨rfl, h'⟩ := hab
  exact RRel.bind (worldFinally_twin h' _ _ _ _ _ _) fun a b _ _ hab => ⟨rfl, hab⟩

theorem handleCall_twin (hP : P.Within (fun a => a.Named nm ∧ Spec.NoDtor c m a) (fun _ _ => True)) (hc : CallTwin c P nm m call) (hok : CallOk (fun _ _ => True) (IN c P nm m) (QN c P nm m) call)
    (hw : IN c P nm m w) (hv : IN c P nm m v) (h : Twin m w v) (m' off : Nat) (b : MBody V E) (hb : w.body? m' off = some b) (args : List (Arg V)) :
    TwinC m (handleCall P call w m' off b args) (handleCall P call v m' off b args) := by
  have hi : v.invTotal = w.invTotal := h.invTotal
  have hh : v.heap = w.heap := h.heap
  simp only [handleCall, World.lastOrdinal, World.invTotal_bumpInv, World.heap_bumpInv, hi, hh]
  split
  · exact ⟨rfl, Twin.fire h.bumpInv _⟩
  · rename_i hd hfind
    have hfind' : findHandler v.heap b.handlers (fresh v b args) = some hd := by
      unfold fresh; rw [hi, hh]; exact hfind
    have h1 := ((stableN m).push w m' off b args hd hw trivial hb hfind).inv hw
    have h2 := ((stableN m).push v m' off b args hd hv trivial (by rw [h.body]; exact hb) hfind').inv hv
    have e2 : recorded v b args hd = recorded w b args hd := by unfold recorded; rw [hi]
    rw [e2] at h2
    refine RRel.bind (runHandler_twin hP hc hok h1 h2 (h.bumpInv.updBody _ _ _) _ hd args) fun x y _ _ hxy => ?_
    obtain ⟨o, w'⟩ := x
    obtain ⟨o', v'⟩ := y
    obtain ⟨rfl, h'⟩ := hxy
    dsimp only at h'
    cases o <;> first | exact ⟨rfl, h'⟩ | exact ⟨rfl, Twin.fire h' _⟩

theorem callSlot_twin (hP : P.Within (fun a => a.Named nm ∧ Spec.NoDtor c m a) (fun _ _ => True)) (fuel : Nat) : CallTwin c P nm m (callSlot P fuel) := by
  induction fuel with
  | zero => intro w v m' off args _ _ _; trivial
  | succ fuel ih =>
    intro w v m' off args hw hv h
    have hok : CallOk (fun _ _ => True) (IN c P nm m) (QN c P nm m) (callSlot P fuel) := fun w m1 off args o w' => callSlot_stable (stableN m) hP fuel w m1 off args o w'
    simp only [callSlot]
    rcases h.mocks m' with he | ⟨rfl, k, os, h1, h2⟩
    · rw [he]
      cases hk : w.mocks[m']? with
      | none => trivial
      | some k =>
        dsimp only
        split
        · trivial
        · cases hvt : k.vt[off]? with
          | none => trivial
          | some c =>
            cases c with
            | unmocked => exact ⟨by rfl, by simpa only [unmockedCall, World.lastOrdinal, World.invTotal_bumpInv, h.invTotal] using h.bumpInv.fire _⟩
            | unmockedDtor => exact ⟨rfl, h⟩
            | dtorThunk =>
              simp only [runCode]
              cases (P.cls k.cls).dtor with
              | none => trivial
              | some d => exact ih w v m' d [] hw hv h
            | proxy id =>
              simp only [runCode]
              cases hb : k.body? (Mock.getOffset k.offsets id) with
              | none => trivial
              | some b => exact handleCall_twin hP ih hok hw hv h m' _ b (by simpa [World.body?, hk] using hb) args
            | native f =>
              simp only [runCode, h.heap]
              exact runBody_twin ih hok _ _ _ (hP f _) hw hv h
    · simp only [h1, h2]
      split
      · trivial
      · cases hvt : k.vt[off]? with
        | none => trivial
        | some c =>
          cases c with
          | unmocked => exact ⟨by rfl, by simpa only [unmockedCall, World.lastOrdinal, World.invTotal_bumpInv, h.invTotal] using h.bumpInv.fire _⟩
          | unmockedDtor => exact ⟨rfl, h⟩
          | dtorThunk =>
            simp only [runCode]
            cases (P.cls k.cls).dtor with
            | none => trivial
            | some d => exact ih w v m' d [] hw hv h
          | proxy id =>
            simp only [runCode]
            cases id with
            | zero =>
              obtain rfl := (hw.2.2 k off h1).2 hvt
              have g1 : ∀ os : List Nat, os[0]? = some 0 → Mock.getOffset os 0 = 0 := by
                intro os h
                cases os with
                | nil => cases h
                | cons a os => cases h; simp [Mock.getOffset, List.findIdx_cons]
              obtain ⟨⟨b, hb⟩, o1⟩ := (hw.1.1.1 m' k h1).proxy 0 0 hvt
              have o2 := ((hv.1.1.1 m' _ h2).proxy 0 0 hvt).2
              have hb' : k.body? 0 = some b := by simp [Mock.body?, hb]
              have hb2 : ({ k with offsets := os } : Mock V E).body? 0 = some b := hb'
              simp only [g1 _ o1, g1 _ o2, hb', hb2]
              exact handleCall_twin hP ih hok hw hv h m' _ b (by simpa [World.body?, h1] using hb') args
            | succ ctr =>
              have t1 := hw.1.1.1 m' k h1
              have t2 := hv.1.1.1 m' _ h2
              have ha : k.alive = true := by
                obtain ⟨⟨b0, hb0⟩, -⟩ := t1.proxy off _ hvt
                cases ha : k.alive with
                | true => rfl
                | false => rw [(t1.dead ha).2] at hb0; simp at hb0
              obtain ⟨g1, b, hb⟩ := t1.dispatch_meth ha off ctr hvt
              obtain ⟨g2, -⟩ := t2.dispatch_meth ha off ctr hvt
              dsimp only at g2
              rw [g1, g2]
              have : ({ k with offsets := os } : Mock V E).body? off = some b := hb
              simp only [this, hb]
              exact handleCall_twin hP ih hok hw hv h m' _ b (by simpa [World.body?, h1] using hb) args
          | native f =>
            simp only [runCode, h.heap]
            exact runBody_twin ih hok _ _ _ (hP f _) hw hv h

theorem runOps_twin (hP : P.Within (fun a => a.Named nm ∧ Spec.NoDtor c m a) (fun _ _ => True)) (fuel : Nat) (ops : List (Op V E))
    (hops : ∀ op ∈ ops, op.Within (fun a => a.Named nm ∧ Spec.NoDtor c m a) (fun _ _ => True)) (hw : IN c P nm m w) (hv : IN c P nm m v) (h : Twin m w v) :
    RRel (fun a b => a.1 = b.1 ∧ Twin m a.2 b.2) (runOps P fuel w ops) (runOps P fuel v ops) := by
  induction ops generalizing w v with
  | nil => exact ⟨rfl, h⟩
  | cons op ops ih =>
    simp only [runOps]
    have hstep : RRel (fun a b => a.1 = b.1 ∧ Twin m a.2 b.2) (opStep P fuel w op) (opStep P fuel v op) := by
      cases op with
      | call m' off args =>
        refine RRel.bind (callSlot_twin hP fuel w v m' off args hw hv h) fun a b _ _ hab => ⟨?_, hab.2⟩
        rw [hab.1]
      | api a =>
        refine RRel.bind (apiStep_twin h hw.2.1 a) fun a b _ _ hab => ⟨?_, hab.2⟩
        rw [hab.1]
    refine RRel.bind hstep fun a b ha hb hab => ?_
    obtain ⟨o, w'⟩ := a
    obtain ⟨o', v'⟩ := b
    obtain ⟨rfl, h'⟩ := hab
    refine RRel.bind (ih (fun op ho => hops op (List.mem_cons_of_mem _ ho))
      ((opStep_stable (stableN m) hP fuel op (hops op List.mem_cons_self) w _ w' hw ha).inv hw)
      ((opStep_stable (stableN m) hP fuel op (hops op List.mem_cons_self) v _ v' hv hb).inv hv) h') fun a b _ _ hab => ⟨?_, hab.2⟩
    rw [hab.1]

end FakeIt
