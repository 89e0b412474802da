import Verif.Model.Passing
/-!
# Lemmas on the transport of arguments
-/
namespace FakeIt.Passing

variable {V : Type}

@[simp] theorem Res.bind_ok {α β : Type} (a : α) (f : α → Res β) : (Res.ok a >>= f) = f a := rfl
@[simp] theorem Res.bind_ub {α β : Type} (f : α → Res β) : ((Res.ub : Res α) >>= f) = .ub := rfl
@[simp] theorem Res.bind_reject {α β : Type} (f : α → Res β) : ((Res.reject : Res α) >>= f) = .reject := rfl

theorem Res.bind_eq_ok {α β : Type} {x : Res α} {f : α → Res β} {b : β} : (x >>= f) = .ok b ↔ ∃ a, x = .ok a ∧ f a = .ok b := by
  cases x <;> simp

/-- The object at an address is alive and has this value. -/
theorem read_eq {m : Mem V} {a : Nat} {v : Option V} : m.read a = .ok v ↔ m.objs[a]? = some ⟨v, true⟩ := by
  unfold Mem.read
  cases h : m.objs[a]? with
  | none => simp
  | some o => obtain ⟨w, l⟩ := o; cases l <;> simp

theorem write_eq {m m' : Mem V} {a : Nat} {v : Option V} :
    m.write a v = .ok m' ↔ (∃ w, m.objs[a]? = some ⟨w, true⟩) ∧ m' = { m with objs := m.objs.set a ⟨v, true⟩ } := by
  unfold Mem.write
  cases h : m.objs[a]? with
  | none => simp
  | some o => obtain ⟨w, l⟩ := o; cases l <;> simp [eq_comm]

theorem kill_get {m : Mem V} {i j a : Nat} (h : ¬(i ≤ a ∧ a < j)) : (m.kill i j).objs[a]? = m.objs[a]? := by
  simp only [Mem.kill, List.getElem?_mapIdx, h, if_false]
  cases m.objs[a]? <;> rfl

@[simp] theorem kill_length {m : Mem V} {i j : Nat} : (m.kill i j).objs.length = m.objs.length := by simp [Mem.kill]
@[simp] theorem kill_log {m : Mem V} {i j : Nat} : (m.kill i j).log = m.log := rfl

/-- Variables of the declared types. -/
def Typed : List Param → List Expr → Prop
  | [], [] => True
  | p :: sig, x :: xs => x.cat = .lvalue ∧ x.cst = p.1.cst ∧ Typed sig xs
  | _, _ => False

/-- The addresses of values. -/
def vaddrs : List Param → List Nat → List Nat
  | p :: sig, d :: ds => if p.1.ref = .none then d :: vaddrs sig ds else vaddrs sig ds
  | _, _ => []

/-- Values are no other argument. -/
def Owned : List Param → List Nat → Prop
  | p :: sig, d :: ds => (p.1.ref = .none → d ∉ ds) ∧ d ∉ vaddrs sig ds ∧ Owned sig ds
  | _, _ => True

/-- `θ` says where the objects of `d` are in `m`. -/
structure Sim (θ : Nat → Nat) (d m : Mem V) : Prop where
  objs : ∀ a, a < d.objs.length → m.objs[θ a]? = d.objs[a]?
  inj : ∀ a b, a < d.objs.length → b < d.objs.length → θ a = θ b → a = b

theorem Sim.lt {θ : Nat → Nat} {d m : Mem V} (h : Sim θ d m) {a : Nat} (ha : a < d.objs.length) : θ a < m.objs.length := by
  have := h.objs a ha
  rw [List.getElem?_eq_getElem ha] at this
  exact (List.getElem?_eq_some_iff.mp this).1

theorem Sim.id (m : Mem V) : Sim id m m := ⟨fun _ _ => rfl, fun _ _ _ _ h => h⟩

/-- Memory after an object was made. -/
def made (op : Op) (a : Nat) (v : Option V) (m : Mem V) : Mem V :=
  { objs := (match op with | .move => m.objs.set a ⟨none, true⟩ | .copy => m.objs) ++ [⟨v, true⟩], log := m.log ++ [op] }

theorem made_length {op : Op} {a : Nat} {v : Option V} {m : Mem V} : (made op a v m).objs.length = m.objs.length + 1 := by
  cases op <;> simp [made]

/-- A way to initialise that keeps references and makes values by `op`. -/
structure Fits (ty : Ty → Ty) (how : Ty → Expr → Res Expr) (p : Param) (op : Op) : Prop where
  refs : p.1.ref ≠ .none → ∀ (a : Nat), ∃ e, how p.1 ⟨.lvalue, p.1.cst, a⟩ = .ok e ∧
    ∀ {V : Type} (m : Mem V), initVar (ty p.1) p.2 e m = .ok (⟨.lvalue, p.1.cst, a⟩, m)
  vals : p.1.ref = .none → ∀ (a : Nat), ∃ e, how p.1 ⟨.lvalue, p.1.cst, a⟩ = .ok e ∧
    ∀ {V : Type} (m : Mem V) (v : Option V), m.objs[a]? = some ⟨v, true⟩ → initVar (ty p.1) p.2 e m = .ok (⟨.lvalue, p.1.cst, m.objs.length⟩, made op a v m)

/-- The copies and moves of a parameter list. -/
def valueOps (ops : Param → Op) : List Param → List Op
  | [] => []
  | p :: sig => if p.1.ref = .none then ops p :: valueOps ops sig else valueOps ops sig

theorem map_congr_on {f g : Nat → Nat} {ds : List Nat} (h : ∀ a ∈ ds, f a = g a) : ds.map f = ds.map g := List.map_congr_left h

theorem initAll_refs {ty : Ty → Ty} {how : Ty → Expr → Res Expr} {m : Mem V}
    (hf : ∀ A tr a, ∃ e, how A ⟨.lvalue, A.cst, a⟩ = .ok e ∧ initVar (ty A) tr e m = .ok (⟨.lvalue, A.cst, a⟩, m)) :
    ∀ (sig : List Param) (xs : List Expr), Typed sig xs → initAll ty how sig xs m = .ok (xs, m)
  | [], [], _ => rfl
  | (A, tr) :: sig, ⟨c, k, a⟩ :: xs, ⟨hc, hk, ht⟩ => by
    simp only at hc hk
    subst hc hk
    obtain ⟨e, he, hi⟩ := hf A tr a
    have ih := initAll_refs hf sig xs ht
    rw [initAll, he, Res.bind_ok, hi, Res.bind_ok]
    simp [ih]
  | [], _ :: _, h => absurd h (by simp [Typed])
  | _ :: _, [], h => absurd h (by simp [Typed])

theorem hops_eq {sig : List Param} {xs : List Expr} {m : Mem V} (ht : Typed sig xs) : hops sig xs m = .ok (xs, m) := by
  have h : initAll productionArg (fun A => fwd (productionArg A)) sig xs m = .ok (xs, m) := by
    refine initAll_refs (fun A tr a => ?_) sig xs ht
    obtain ⟨c, r⟩ := A
    cases r <;> cases c <;> simp [productionArg, fwd, initVar]
  simp [hops, h]

theorem dispatch_eq {sig : List Param} {xs : List Expr} {m : Mem V} (ht : Typed sig xs) : dispatch sig xs m = .ok (xs, m) := by
  refine initAll_refs (fun A tr a => ?_) sig xs ht
  obtain ⟨c, r⟩ := A
  cases r <;> cases c <;> simp [testArg, initVar]

theorem initAll_sim {ty : Ty → Ty} {how : Ty → Expr → Res Expr} {ops : Param → Op} {d : Mem V} :
    ∀ (sig : List Param) (xs : List Expr) (ds : List Nat) (θ : Nat → Nat) (m : Mem V), (∀ p ∈ sig, Fits ty how p (ops p)) → Typed sig xs → Sim θ d m →
      xs.map (·.addr) = ds.map θ → (∀ a ∈ ds, ∃ v, d.objs[a]? = some ⟨v, true⟩) → Owned sig ds →
      ∃ ys m' θ', initAll ty how sig xs m = .ok (ys, m') ∧ Typed sig ys ∧ ys.map (·.addr) = ds.map θ' ∧ Sim θ' d m' ∧
        (∀ a, a ∉ vaddrs sig ds → θ' a = θ a) ∧ (∀ a ∈ vaddrs sig ds, m.objs.length ≤ θ' a) ∧ m'.log = m.log ++ valueOps ops sig ∧
        m.objs.length ≤ m'.objs.length
  | [], [], ds, θ, m, _, _, hs, hx, _, _ => by
    have : ds = [] := by simpa using hx.symm
    subst this
    exact ⟨[], m, θ, rfl, trivial, rfl, hs, fun _ _ => rfl, fun a h => absurd h (by simp [vaddrs]), by simp [valueOps], Nat.le_refl _⟩
  | p :: sig, ⟨c, k, a⟩ :: xs, [], θ, m, _, _, _, hx, _, _ => by simp at hx
  | p :: sig, ⟨c, k, a⟩ :: xs, d0 :: ds, θ, m, hf, ⟨hc, hk, ht⟩, hs, hx, hl, ho => by
    simp only at hc hk
    subst hc hk
    simp only [List.map_cons, List.cons.injEq] at hx
    obtain ⟨rfl, hx⟩ := hx
    obtain ⟨hn, hnv, ho⟩ := ho
    obtain ⟨v, hv⟩ := hl d0 (List.mem_cons_self ..)
    have hlt : d0 < d.objs.length := (List.getElem?_eq_some_iff.mp hv).1
    have hF := hf p (List.mem_cons_self ..)
    obtain ⟨A, tr⟩ := p
    by_cases hr : A.ref = .none
    · obtain ⟨e, he, hi⟩ := hF.vals hr (θ d0)
      have hm : m.objs[θ d0]? = some ⟨v, true⟩ := by rw [hs.objs d0 hlt, hv]
      have hi := hi m v hm
      have hs' : Sim (fun a => if a = d0 then m.objs.length else θ a) d (made (ops (A, tr)) (θ d0) v m) := by
        constructor
        · intro a ha
          by_cases hd : a = d0
          · subst hd
            cases ho : ops (A, tr) <;> simp [made, hv]
          · have hne : θ d0 ≠ θ a := fun h => hd (hs.inj _ _ hlt ha h).symm
            have hlm := hs.lt ha
            have := hs.objs a ha
            simp only [hd, if_false]
            cases ho : ops (A, tr)
            · simp only [made]
              rw [List.getElem?_append_left hlm, this]
            · simp only [made]
              rw [List.getElem?_append_left (by simpa using hlm), List.getElem?_set_ne hne, this]
        · intro a b ha hb h
          by_cases hda : a = d0 <;> by_cases hdb : b = d0
          · omega
          · simp only [hda, hdb, if_true, if_false] at h
            have := hs.lt hb
            omega
          · simp only [hda, hdb, if_true, if_false] at h
            have := hs.lt ha
            omega
          · simp only [hda, hdb, if_false] at h
            exact hs.inj _ _ ha hb h
      have hx' : xs.map (·.addr) = ds.map (fun a => if a = d0 then m.objs.length else θ a) := by
        rw [hx]
        refine map_congr_on fun a ha => ?_
        have : a ≠ d0 := fun h => hn hr (h ▸ ha)
        simp [this]
      obtain ⟨ys, m', θ', hia, hty, hya, hs', hθ, hθv, hlog, hlen⟩ := initAll_sim sig xs ds _ _ (fun p hp => hf p (List.mem_cons_of_mem _ hp)) ht hs' hx'
        (fun a ha => hl a (List.mem_cons_of_mem _ ha)) ho
      have hlen' := made_length (op := ops (A, tr)) (a := θ d0) (v := v) (m := m)
      have hθ0 : θ' d0 = m.objs.length := by rw [hθ d0 hnv]; simp
      refine ⟨⟨.lvalue, A.cst, m.objs.length⟩ :: ys, m', θ', ?_, ⟨rfl, rfl, hty⟩, ?_, hs', ?_, ?_, ?_, by omega⟩
      · rw [initAll, he, Res.bind_ok, hi, Res.bind_ok]
        simp [hia]
      · simp [hya, hθ0]
      · intro a ha
        simp only [vaddrs, hr, if_true, List.mem_cons, not_or] at ha
        rw [hθ a ha.2]
        simp [ha.1]
      · intro a ha
        simp only [vaddrs, hr, if_true, List.mem_cons] at ha
        rcases ha with rfl | ha
        · omega
        · have := hθv a ha; omega
      · rw [hlog]
        simp [made, valueOps, hr]
    · obtain ⟨e, he, hi⟩ := hF.refs hr (θ d0)
      obtain ⟨ys, m', θ', hia, hty, hya, hs', hθ, hθv, hlog, hlen⟩ := initAll_sim sig xs ds θ m (fun p hp => hf p (List.mem_cons_of_mem _ hp)) ht hs hx
        (fun a ha => hl a (List.mem_cons_of_mem _ ha)) ho
      refine ⟨⟨.lvalue, A.cst, θ d0⟩ :: ys, m', θ', ?_, ⟨rfl, rfl, hty⟩, ?_, hs', ?_, ?_, ?_, hlen⟩
      · rw [initAll, he, Res.bind_ok, hi, Res.bind_ok]
        simp [hia]
      · simp [hya, hθ d0 hnv]
      · intro a ha
        simp only [vaddrs, hr, if_false] at ha
        exact hθ a ha
      · intro a ha
        simp only [vaddrs, hr, if_false] at ha
        exact hθv a ha
      · rw [hlog]
        simp [valueOps, hr]

theorem readAll_sim {d m : Mem V} {θ : Nat → Nat} (hs : Sim θ d m) : ∀ (xs ys : List Expr) (vs : List (Option V)), ys.map (·.addr) = (xs.map (·.addr)).map θ →
    readAll xs d = .ok vs → readAll ys m = .ok vs
  | [], [], vs, _, h => h
  | x :: xs, y :: ys, vs, he, h => by
    simp only [List.map_cons, List.cons.injEq] at he
    simp only [readAll, Res.bind_eq_ok] at h
    obtain ⟨v, hv, ws, hw, h⟩ := h
    have hlt : x.addr < d.objs.length := (List.getElem?_eq_some_iff.mp (read_eq.mp hv)).1
    have hy : m.read y.addr = .ok v := by rw [read_eq, he.1, hs.objs _ hlt]; exact read_eq.mp hv
    simp [readAll, hy, readAll_sim hs xs ys ws he.2 hw, h]
  | [], _ :: _, _, he, _ => by simp at he
  | _ :: _, [], _, he, _ => by simp at he

theorem runBody_sim {θ : Nat → Nat} {xs ys : List Expr} (he : ys.map (·.addr) = (xs.map (·.addr)).map θ) (hc : ys.map (·.cst) = xs.map (·.cst)) :
    ∀ (fs : List (Effect V)) (d d' m : Mem V), Sim θ d m → runBody xs fs d = .ok d' →
      ∃ m', runBody ys fs m = .ok m' ∧ Sim θ d' m' ∧ d'.objs.length = d.objs.length ∧ m'.objs.length = m.objs.length ∧ d'.log = d.log ∧ m'.log = m.log
  | [], d, d', m, hs, h => by
    cases h
    exact ⟨m, rfl, hs, rfl, rfl, rfl, rfl⟩
  | f :: fs, d, d', m, hs, h => by
    simp only [runBody] at h
    cases hx : xs[f.index]? with
    | none => simp [hx] at h
    | some x =>
      simp only [hx] at h
      have hlen : ys.length = xs.length := by simpa using congrArg List.length hc
      have hi : f.index < xs.length := (List.getElem?_eq_some_iff.mp hx).1
      obtain ⟨y, hy⟩ : ∃ y, ys[f.index]? = some y := ⟨_, List.getElem?_eq_getElem (hlen ▸ hi)⟩
      have hya : y.addr = θ x.addr := by
        have := congrArg (·[f.index]?) he
        simpa [hx, hy] using this
      have hyc : y.cst = x.cst := by
        have := congrArg (·[f.index]?) hc
        simpa [hx, hy] using this
      split at h
      · exact absurd h (by simp)
      · rename_i hxc
        rw [Res.bind_eq_ok] at h
        obtain ⟨d1, hw1, h⟩ := h
        obtain ⟨⟨w, hw⟩, rfl⟩ := write_eq.mp hw1
        have hlt : x.addr < d.objs.length := (List.getElem?_eq_some_iff.mp hw).1
        have hmw : m.objs[θ x.addr]? = some ⟨w, true⟩ := by rw [hs.objs _ hlt, hw]
        have hs' : Sim θ { d with objs := d.objs.set x.addr ⟨f.result, true⟩ } { m with objs := m.objs.set (θ x.addr) ⟨f.result, true⟩ } := by
          constructor
          · intro a ha
            simp only [List.length_set] at ha
            by_cases hax : a = x.addr
            · subst hax
              rw [List.getElem?_set_self hlt, List.getElem?_set_self (hs.lt hlt)]
            · rw [List.getElem?_set_ne (Ne.symm hax), List.getElem?_set_ne (fun h => hax (hs.inj _ _ hlt ha h).symm), hs.objs a ha]
          · intro a b ha hb
            simp only [List.length_set] at ha hb
            exact hs.inj a b ha hb
        obtain ⟨m', hr, hs'', h1, h2, h3, h4⟩ := runBody_sim he hc fs _ _ _ hs' h
        refine ⟨m', ?_, hs'', by simpa using h1, by simpa using h2, h3, h4⟩
        have hwm : m.write (θ x.addr) f.result = .ok { m with objs := m.objs.set (θ x.addr) ⟨f.result, true⟩ } := write_eq.mpr ⟨⟨w, hmw⟩, rfl⟩
        simp [runBody, hy, hyc, hxc, hya, hwm, hr]

theorem Typed.cst : ∀ {sig : List Param} {xs : List Expr}, Typed sig xs → xs.map (·.cst) = sig.map (·.1.cst)
  | [], [], _ => rfl
  | _ :: _, _ :: _, ⟨_, h, ht⟩ => by simp [h, ht.cst]
  | [], _ :: _, h => absurd h (by simp [Typed])
  | _ :: _, [], h => absurd h (by simp [Typed])

theorem Typed.length : ∀ {sig : List Param} {xs : List Expr}, Typed sig xs → xs.length = sig.length
  | [], [], _ => rfl
  | _ :: _, _ :: _, ⟨_, _, ht⟩ => by simp [ht.length]
  | [], _ :: _, h => absurd h (by simp [Typed])
  | _ :: _, [], h => absurd h (by simp [Typed])

/-- The address an argument names is below `N`. -/
def Arg.below (N : Nat) : Arg V → Prop
  | .lval a => a < N
  | .xval a => a < N
  | .prv _ => True

/-- Live objects stay alive. -/
def Grows (m m' : Mem V) : Prop := m.objs.length ≤ m'.objs.length ∧ ∀ (a : Nat) (v : Option V), m.objs[a]? = some ⟨v, true⟩ → ∃ w : Option V, m'.objs[a]? = some ⟨w, true⟩

theorem Grows.refl (m : Mem V) : Grows m m := ⟨Nat.le_refl _, fun _ v h => ⟨v, h⟩⟩

theorem Grows.trans {m m' m'' : Mem V} (h : Grows m m') (h' : Grows m' m'') : Grows m m'' :=
  ⟨Nat.le_trans h.1 h'.1, fun a v hv => by obtain ⟨w, hw⟩ := h.2 a v hv; exact h'.2 a w hw⟩

theorem eval_facts {g : Arg V} {m m1 : Mem V} {e : Expr} {N : Nat} (hb : g.below N) (h : g.eval m = .ok (e, m1)) :
    Grows m m1 ∧ (∃ v, m1.objs[e.addr]? = some ⟨v, true⟩) ∧ (e.addr < N ∨ m.objs.length ≤ e.addr) ∧ (e.cat = .prvalue → m.objs.length ≤ e.addr) ∧ m1.log = m.log := by
  cases g with
  | lval a =>
    simp only [Arg.eval, Res.bind_eq_ok] at h
    obtain ⟨v, hv, h⟩ := h
    simp only [Res.ok.injEq, Prod.mk.injEq] at h
    obtain ⟨rfl, rfl⟩ := h
    exact ⟨Grows.refl _, ⟨v, read_eq.mp hv⟩, .inl hb, fun h => by simp at h, rfl⟩
  | xval a =>
    simp only [Arg.eval, Res.bind_eq_ok] at h
    obtain ⟨v, hv, h⟩ := h
    simp only [Res.ok.injEq, Prod.mk.injEq] at h
    obtain ⟨rfl, rfl⟩ := h
    exact ⟨Grows.refl _, ⟨v, read_eq.mp hv⟩, .inl hb, fun h => by simp at h, rfl⟩
  | prv v =>
    simp only [Arg.eval, Mem.new, Res.ok.injEq, Prod.mk.injEq] at h
    obtain ⟨rfl, rfl⟩ := h
    refine ⟨⟨by simp, fun a w hw => ⟨w, ?_⟩⟩, ⟨some v, by simp⟩, .inr (Nat.le_refl _), fun _ => Nat.le_refl _, rfl⟩
    have := (List.getElem?_eq_some_iff.mp hw).1
    simpa [List.getElem?_append_left this] using hw

theorem construct_facts {tr : Traits} {e : Expr} {m m' : Mem V} {a : Nat} (h : construct tr e m = .ok (a, m')) :
    ∃ v op, m.objs[e.addr]? = some ⟨v, true⟩ ∧ a = m.objs.length ∧ m' = made op e.addr v m := by
  simp only [construct, Res.bind_eq_ok] at h
  obtain ⟨v, hv, h⟩ := h
  have hv := read_eq.mp hv
  split at h
  · rw [Res.bind_eq_ok] at h
    obtain ⟨m1, hw, h⟩ := h
    obtain ⟨_, rfl⟩ := write_eq.mp hw
    simp only [Mem.new, List.length_set, Res.ok.injEq, Prod.mk.injEq] at h
    exact ⟨v, .move, hv, h.1.symm, by rw [← h.2]; rfl⟩
  · split at h
    · simp only [Mem.new, Res.ok.injEq, Prod.mk.injEq] at h
      exact ⟨v, .copy, hv, h.1.symm, by rw [← h.2]; rfl⟩
    · simp at h

theorem made_grows {op : Op} {a : Nat} {v : Option V} {m : Mem V} : Grows m (made op a v m) := by
  refine ⟨by rw [made_length]; omega, fun b w hw => ?_⟩
  have hb := (List.getElem?_eq_some_iff.mp hw).1
  cases op
  · exact ⟨w, by simpa [made, List.getElem?_append_left hb] using hw⟩
  · by_cases hab : a = b
    · subst hab
      exact ⟨none, by simp only [made]; rw [List.getElem?_append_left (by simpa using hb), List.getElem?_set_self hb]⟩
    · exact ⟨w, by simp only [made]; rw [List.getElem?_append_left (by simpa using hb), List.getElem?_set_ne hab]; exact hw⟩

theorem initVar_facts {X : Ty} {tr : Traits} {e x : Expr} {m m' : Mem V} (hl : ∃ v, m.objs[e.addr]? = some ⟨v, true⟩) (h : initVar X tr e m = .ok (x, m')) :
    x.cat = .lvalue ∧ x.cst = X.cst ∧ Grows m m' ∧ (∃ v, m'.objs[x.addr]? = some ⟨v, true⟩) ∧ (x.addr = e.addr ∧ m' = m ∨ x.addr = m.objs.length) ∧
      (X.ref = .none → x.addr = m.objs.length ∨ e.cat = .prvalue ∧ x.addr = e.addr) := by
  obtain ⟨c, r⟩ := X
  cases r with
  | none =>
    simp only [initVar] at h
    split at h
    · rename_i hp
      simp only [Res.ok.injEq, Prod.mk.injEq] at h
      obtain ⟨rfl, rfl⟩ := h
      exact ⟨rfl, rfl, Grows.refl _, hl, .inl ⟨rfl, rfl⟩, fun _ => .inr ⟨hp, rfl⟩⟩
    · rw [Res.bind_eq_ok] at h
      obtain ⟨⟨a, m1⟩, hc, h⟩ := h
      simp only [Res.ok.injEq, Prod.mk.injEq] at h
      obtain ⟨rfl, rfl⟩ := h
      obtain ⟨v, op, hv, rfl, rfl⟩ := construct_facts hc
      exact ⟨rfl, rfl, made_grows, ⟨v, by cases op <;> simp [made]⟩, .inr rfl, fun _ => .inl rfl⟩
  | lvalue =>
    simp only [initVar] at h
    split at h <;> split at h <;> simp only [Res.ok.injEq, Prod.mk.injEq, reduceCtorEq] at h
    all_goals
      obtain ⟨rfl, rfl⟩ := h
      exact ⟨rfl, rfl, Grows.refl _, hl, .inl ⟨rfl, rfl⟩, fun h => by simp at h⟩
  | rvalue =>
    simp only [initVar] at h
    split at h
    · simp at h
    split at h <;> simp only [Res.ok.injEq, Prod.mk.injEq, reduceCtorEq] at h
    obtain ⟨rfl, rfl⟩ := h
    exact ⟨rfl, rfl, Grows.refl _, hl, .inl ⟨rfl, rfl⟩, fun h => by simp at h⟩

theorem bindAll_facts {N : Nat} : ∀ (sig : List Param) (gs : List (Arg V)) (m m' : Mem V) (xs : List Expr), N ≤ m.objs.length → (∀ g ∈ gs, g.below N) →
    bindAll sig gs m = .ok (xs, m') → Typed sig xs ∧ Grows m m' ∧ (∀ x ∈ xs, ∃ v, m'.objs[x.addr]? = some ⟨v, true⟩) ∧ Owned sig (xs.map (·.addr)) ∧
      (∀ a ∈ vaddrs sig (xs.map (·.addr)), m.objs.length ≤ a) ∧ ∀ x ∈ xs, x.addr < N ∨ m.objs.length ≤ x.addr
  | [], [], m, m', xs, _, _, h => by
    simp only [bindAll, Res.ok.injEq, Prod.mk.injEq] at h
    obtain ⟨rfl, rfl⟩ := h
    exact ⟨trivial, Grows.refl _, by simp, trivial, by simp [vaddrs], by simp⟩
  | (A, tr) :: sig, g :: gs, m, m', xs, hN, hb, h => by
    simp only [bindAll, Res.bind_eq_ok] at h
    obtain ⟨⟨e, m1⟩, he, ⟨x, m2⟩, hx, ⟨ys, m3⟩, hy, h⟩ := h
    simp only [Res.ok.injEq, Prod.mk.injEq] at h
    obtain ⟨rfl, rfl⟩ := h
    obtain ⟨g1, l1, a1, p1, _⟩ := eval_facts (hb g (List.mem_cons_self ..)) he
    obtain ⟨c2, k2, g2, l2, a2, v2⟩ := initVar_facts l1 hx
    have hle1 := g1.1
    have hle2 := g2.1
    obtain ⟨t3, g3, l3, o3, v3, a3⟩ := bindAll_facts sig gs m2 m3 ys (by omega) (fun g hg => hb g (List.mem_cons_of_mem _ hg)) hy
    obtain ⟨v, hv⟩ := l2
    have hxlt : x.addr < m2.objs.length := (List.getElem?_eq_some_iff.mp hv).1
    refine ⟨⟨c2, k2, t3⟩, g1.trans (g2.trans g3), ?_, ⟨?_, ?_, o3⟩, ?_, ?_⟩
    · intro y hy'
      rcases List.mem_cons.mp hy' with rfl | hy'
      · exact g3.2 _ _ hv
      · exact l3 y hy'
    · intro hr hm
      obtain ⟨y, hy', hya⟩ := List.mem_map.mp hm
      have := a3 y hy'
      simp only at hya
      rcases v2 hr with h | ⟨hp, h⟩
      · omega
      · have := p1 hp; omega
    · intro hm
      have := v3 _ hm
      simp only at this
      omega
    · intro a ha
      simp only [List.map_cons, vaddrs] at ha
      split at ha
      · rename_i hr
        rcases List.mem_cons.mp ha with rfl | ha
        · show m.objs.length ≤ x.addr
          rcases v2 hr with h | ⟨hp, h⟩
          · omega
          · have := p1 hp; omega
        · have := v3 a ha; omega
      · have := v3 a ha; omega
    · intro y hy'
      rcases List.mem_cons.mp hy' with rfl | hy'
      · rcases a2 with ⟨h, _⟩ | h <;> omega
      · have := a3 y hy'; omega
  | [], _ :: _, _, _, _, _, _, h => by simp [bindAll] at h
  | _ :: _, [], _, _, _, _, _, h => by simp [bindAll] at h

theorem bindAll_refs : ∀ (sig : List Param) (gs : List (Arg V)) (m m' : Mem V) (xs : List Expr), bindAll sig gs m = .ok (xs, m') →
    ∀ (i : Nat) (p : Param) (a : Nat) (x : Expr), sig[i]? = some p → p.1.ref ≠ .none → (gs[i]? = some (.lval a) ∨ gs[i]? = some (.xval a)) → xs[i]? = some x → x.addr = a
  | [], [], m, m', xs, h, i, p, a, x, hp, _, _, _ => by simp at hp
  | (A, tr) :: sig, g :: gs, m, m', xs, h, i, p, a, x, hp, hr, hg, hx => by
    simp only [bindAll, Res.bind_eq_ok] at h
    obtain ⟨⟨e, m1⟩, he, ⟨y, m2⟩, hy, ⟨ys, m3⟩, hys, h⟩ := h
    simp only [Res.ok.injEq, Prod.mk.injEq] at h
    obtain ⟨rfl, rfl⟩ := h
    cases i with
    | succ i =>
      simp only [List.getElem?_cons_succ] at hp hg hx
      exact bindAll_refs sig gs m2 m3 ys hys i p a x hp hr hg hx
    | zero =>
      simp only [List.getElem?_cons_zero, Option.some.injEq] at hp hg hx
      subst hp hx
      have hea : e.addr = a := by
        rcases hg with rfl | rfl <;> simp only [Arg.eval, Res.bind_eq_ok] at he <;> obtain ⟨_, _, he⟩ := he <;>
          simp only [Res.ok.injEq, Prod.mk.injEq] at he <;> rw [← he.1]
      rw [← hea]
      obtain ⟨c, r⟩ := A
      cases r with
      | none => exact absurd rfl hr
      | lvalue =>
        simp only [initVar] at hy
        split at hy <;> split at hy <;> simp only [Res.ok.injEq, Prod.mk.injEq, reduceCtorEq] at hy <;> rw [← hy.1]
      | rvalue =>
        simp only [initVar] at hy
        split at hy
        · simp at hy
        split at hy <;> simp only [Res.ok.injEq, Prod.mk.injEq, reduceCtorEq] at hy
        rw [← hy.1]
  | [], _ :: _, _, _, _, h, _, _, _, _, _, _, _, _ => by simp [bindAll] at h
  | _ :: _, [], _, _, _, h, _, _, _, _, _, _, _, _ => by simp [bindAll] at h

/-- Values of `sig` satisfy `P`, references `Q`. -/
def Elems (P Q : Nat → Prop) : List Param → List Expr → Prop
  | [], [] => True
  | p :: sig, x :: xs => (if p.1.ref = .none then P x.addr else Q x.addr) ∧ Elems P Q sig xs
  | _, _ => False

theorem Elems.mono {P Q P' Q' : Nat → Prop} (hP : ∀ a, P a → P' a) (hQ : ∀ a, Q a → Q' a) : ∀ {sig : List Param} {xs : List Expr}, Elems P Q sig xs → Elems P' Q' sig xs
  | [], [], _ => trivial
  | p :: sig, x :: xs, ⟨h, ht⟩ => by
    refine ⟨?_, ht.mono hP hQ⟩
    split at h
    · rename_i hr; rw [if_pos hr]; exact hP _ h
    · rename_i hr; rw [if_neg hr]; exact hQ _ h
  | [], _ :: _, h => absurd h (by simp [Elems])
  | _ :: _, [], h => absurd h (by simp [Elems])

theorem Elems.get {P Q : Nat → Prop} : ∀ {sig : List Param} {xs : List Expr}, Elems P Q sig xs → ∀ (i : Nat) (p : Param) (x : Expr), sig[i]? = some p → xs[i]? = some x →
    if p.1.ref = .none then P x.addr else Q x.addr
  | [], [], _, i, p, x, hp, _ => by simp at hp
  | q :: sig, y :: xs, ⟨h, ht⟩, i, p, x, hp, hx => by
    cases i with
    | zero =>
      simp only [List.getElem?_cons_zero, Option.some.injEq] at hp hx
      subst hp hx
      exact h
    | succ i =>
      simp only [List.getElem?_cons_succ] at hp hx
      exact ht.get i p x hp hx
  | [], _ :: _, h, _, _, _, _, _ => absurd h (by simp [Elems])
  | _ :: _, [], h, _, _, _, _, _ => absurd h (by simp [Elems])

/-- The ways to initialise that keep the object named. -/
def Keeps (how : Ty → Expr → Res Expr) : Prop := ∀ A x e, how A x = .ok e → e.addr = x.addr ∧ e.cat ≠ .prvalue ∨ e = x

theorem keeps_fwd : Keeps fwd := by
  intro A x e h
  simp only [fwd] at h
  split at h
  · simp at h
  · simp only [Res.ok.injEq] at h
    subst h
    left
    refine ⟨rfl, ?_⟩
    simp only
    split <;> simp

theorem keeps_id : Keeps (fun _ e => .ok e) := by
  intro A x e h
  right
  simpa using h.symm

/-- Only `F` and what is new is changed. -/
def Touch (F : Nat → Prop) (m m' : Mem V) : Prop := m.objs.length ≤ m'.objs.length ∧ ∀ a, a < m.objs.length → ¬F a → m'.objs[a]? = m.objs[a]?

theorem Touch.refl (F : Nat → Prop) (m : Mem V) : Touch F m m := ⟨Nat.le_refl _, fun _ _ _ => rfl⟩

theorem Touch.trans {F : Nat → Prop} {m m' m'' : Mem V} (h : Touch F m m') (h' : Touch F m' m'') : Touch F m m'' :=
  ⟨Nat.le_trans h.1 h'.1, fun a ha hF => by rw [h'.2 a (Nat.lt_of_lt_of_le ha h.1) hF, h.2 a ha hF]⟩

theorem made_touch {F : Nat → Prop} {op : Op} {a : Nat} {v : Option V} {m : Mem V} (h : F a) : Touch F m (made op a v m) := by
  refine ⟨by rw [made_length]; omega, fun b hb hF => ?_⟩
  cases op
  · simp [made, List.getElem?_append_left hb]
  · have : a ≠ b := fun h' => hF (h' ▸ h)
    simp only [made]
    rw [List.getElem?_append_left (by simpa using hb), List.getElem?_set_ne this]

/-- Initialising a variable changes at most the source. -/
theorem initVar_touch {F : Nat → Prop} {X : Ty} {tr : Traits} {e x : Expr} {m m' : Mem V} (hF : F e.addr) (hn : ∀ a, m.objs.length ≤ a → F a)
    (h : initVar X tr e m = .ok (x, m')) : Touch F m m' ∧ F x.addr := by
  obtain ⟨c, r⟩ := X
  cases r with
  | none =>
    simp only [initVar] at h
    split at h
    · simp only [Res.ok.injEq, Prod.mk.injEq] at h
      obtain ⟨rfl, rfl⟩ := h
      exact ⟨Touch.refl _ _, hF⟩
    · rw [Res.bind_eq_ok] at h
      obtain ⟨⟨a, m1⟩, hc, h⟩ := h
      simp only [Res.ok.injEq, Prod.mk.injEq] at h
      obtain ⟨rfl, rfl⟩ := h
      obtain ⟨v, op, hv, rfl, rfl⟩ := construct_facts hc
      exact ⟨made_touch hF, hn _ (Nat.le_refl _)⟩
  | lvalue =>
    simp only [initVar] at h
    split at h <;> split at h <;> simp only [Res.ok.injEq, Prod.mk.injEq, reduceCtorEq] at h
    all_goals
      obtain ⟨rfl, rfl⟩ := h
      exact ⟨Touch.refl _ _, hF⟩
  | rvalue =>
    simp only [initVar] at h
    split at h
    · simp at h
    split at h <;> simp only [Res.ok.injEq, Prod.mk.injEq, reduceCtorEq] at h
    obtain ⟨rfl, rfl⟩ := h
    exact ⟨Touch.refl _ _, hF⟩

theorem initAll_touch {F : Nat → Prop} {ty : Ty → Ty} {how : Ty → Expr → Res Expr} (hk : Keeps how) :
    ∀ (sig : List Param) (xs ys : List Expr) (m m' : Mem V), (∀ x ∈ xs, F x.addr) → (∀ a, m.objs.length ≤ a → F a) → initAll ty how sig xs m = .ok (ys, m') →
      Touch F m m' ∧ ∀ y ∈ ys, F y.addr
  | [], [], ys, m, m', _, _, h => by
    simp only [initAll, Res.ok.injEq, Prod.mk.injEq] at h
    obtain ⟨rfl, rfl⟩ := h
    exact ⟨Touch.refl _ _, by simp⟩
  | (A, tr) :: sig, x :: xs, ys, m, m', hx, hn, h => by
    simp only [initAll, Res.bind_eq_ok] at h
    obtain ⟨e, he, ⟨y, m1⟩, hy, ⟨zs, m2⟩, hz, h⟩ := h
    simp only [Res.ok.injEq, Prod.mk.injEq] at h
    obtain ⟨rfl, rfl⟩ := h
    have hFe : F e.addr := by
      rcases hk _ _ _ he with h | h
      · rw [h.1]; exact hx x (List.mem_cons_self ..)
      · rw [h]; exact hx x (List.mem_cons_self ..)
    obtain ⟨t1, f1⟩ := initVar_touch hFe hn hy
    obtain ⟨t2, f2⟩ := initAll_touch hk sig xs zs m1 m2 (fun x h => hx x (List.mem_cons_of_mem _ h)) (fun a ha => hn a (Nat.le_trans t1.1 ha)) hz
    refine ⟨t1.trans t2, fun z hz => ?_⟩
    rcases List.mem_cons.mp hz with rfl | hz
    · exact f1
    · exact f2 z hz
  | [], _ :: _, _, _, _, _, _, h => by simp [initAll] at h
  | _ :: _, [], _, _, _, _, _, h => by simp [initAll] at h

theorem runBody_touch {F : Nat → Prop} {xs : List Expr} (hx : ∀ x ∈ xs, F x.addr) : ∀ (fs : List (Effect V)) (m m' : Mem V), runBody xs fs m = .ok m' →
    Touch F m m' ∧ Grows m m' ∧ m'.objs.length = m.objs.length
  | [], m, m', h => by
    cases h
    exact ⟨Touch.refl _ _, Grows.refl _, rfl⟩
  | f :: fs, m, m', h => by
    simp only [runBody] at h
    cases hi : xs[f.index]? with
    | none => simp [hi] at h
    | some x =>
      simp only [hi] at h
      split at h
      · simp at h
      · rw [Res.bind_eq_ok] at h
        obtain ⟨m1, hw1, h⟩ := h
        obtain ⟨⟨w, hw⟩, rfl⟩ := write_eq.mp hw1
        obtain ⟨t, g, l⟩ := runBody_touch hx fs _ _ h
        have hF := hx x (List.mem_of_getElem? hi)
        have hlt := (List.getElem?_eq_some_iff.mp hw).1
        refine ⟨Touch.trans ⟨by simp, fun a ha hn => ?_⟩ t, Grows.trans ⟨by simp, fun a v hv => ?_⟩ g, by simpa using l⟩
        · have : x.addr ≠ a := fun h => hn (h ▸ hF)
          simp [List.getElem?_set_ne this]
        · by_cases hax : x.addr = a
          · subst hax
            exact ⟨f.result, by simp only; rw [List.getElem?_set_self hlt]⟩
          · exact ⟨v, by simp only; rw [List.getElem?_set_ne hax]; exact hv⟩

theorem kill_touch {F : Nat → Prop} {m : Mem V} {i j : Nat} (h : ∀ a, i ≤ a → F a) : Touch F m (m.kill i j) :=
  ⟨by simp, fun a _ hF => kill_get fun hc => hF (h a hc.1)⟩

theorem Grows.kill {m m' : Mem V} {i j : Nat} (h : Grows m m') (hi : m.objs.length ≤ i) : Grows m (m'.kill i j) :=
  ⟨by simpa using h.1, fun a v hv => by
    obtain ⟨w, hw⟩ := h.2 a v hv
    have := (List.getElem?_eq_some_iff.mp hv).1
    exact ⟨w, by rw [kill_get (by omega)]; exact hw⟩⟩

/-- Initialising variables: values are new, references keep their object, all are alive. -/
theorem initAll_facts {how : Ty → Expr → Res Expr} (hk : Keeps how) :
    ∀ (sig : List Param) (xs ys : List Expr) (m m' : Mem V), Typed sig xs → (∀ x ∈ xs, ∃ v, m.objs[x.addr]? = some ⟨v, true⟩) → initAll (fun A => A) how sig xs m = .ok (ys, m') →
      Typed sig ys ∧ Grows m m' ∧ (∀ y ∈ ys, ∃ v, m'.objs[y.addr]? = some ⟨v, true⟩) ∧ Elems (fun a => m.objs.length ≤ a) (fun _ => True) sig ys ∧
      ∀ (i : Nat) (p : Param) (x y : Expr), sig[i]? = some p → p.1.ref ≠ .none → xs[i]? = some x → ys[i]? = some y → y.addr = x.addr
  | [], [], ys, m, m', _, _, h => by
    simp only [initAll, Res.ok.injEq, Prod.mk.injEq] at h
    obtain ⟨rfl, rfl⟩ := h
    exact ⟨trivial, Grows.refl _, by simp, trivial, by simp⟩
  | (A, tr) :: sig, x :: xs, ys, m, m', ⟨hc, _, ht⟩, hx, h => by
    simp only [initAll, Res.bind_eq_ok] at h
    obtain ⟨e, he, ⟨y, m1⟩, hy, ⟨zs, m2⟩, hz, h⟩ := h
    simp only [Res.ok.injEq, Prod.mk.injEq] at h
    obtain ⟨rfl, rfl⟩ := h
    have hea : e.addr = x.addr := by
      rcases hk _ _ _ he with h | h
      · exact h.1
      · rw [h]
    have hep : e.cat ≠ .prvalue := by
      rcases hk _ _ _ he with h | h
      · exact h.2
      · rw [h, hc]; simp
    have hl := hx x (List.mem_cons_self ..)
    rw [← hea] at hl
    obtain ⟨c1, k1, g1, l1, a1, v1⟩ := initVar_facts hl hy
    obtain ⟨t2, g2, l2, e2, r2⟩ := initAll_facts hk sig xs zs m1 m2 ht (fun x h => by obtain ⟨v, hv⟩ := hx x (List.mem_cons_of_mem _ h); exact g1.2 _ _ hv) hz
    refine ⟨⟨c1, k1, t2⟩, g1.trans g2, fun z hz => ?_, ⟨?_, e2.mono (fun a ha => Nat.le_trans g1.1 ha) (fun _ h => h)⟩, ?_⟩
    · rcases List.mem_cons.mp hz with rfl | hz
      · obtain ⟨v, hv⟩ := l1
        exact g2.2 _ _ hv
      · exact l2 z hz
    · split
      · rename_i hr
        rcases v1 hr with h | h
        · omega
        · exact absurd h.1 hep
      · trivial
    · intro i p x' y' hp hr hx' hy'
      cases i with
      | succ i =>
        simp only [List.getElem?_cons_succ] at hp hx' hy'
        exact r2 i p x' y' hp hr hx' hy'
      | zero =>
        simp only [List.getElem?_cons_zero, Option.some.injEq] at hp hx' hy'
        subst hp hx' hy'
        rw [← hea]
        obtain ⟨c, r⟩ := A
        cases r with
        | none => exact absurd rfl hr
        | lvalue =>
          simp only [initVar] at hy
          split at hy <;> split at hy <;> simp only [Res.ok.injEq, Prod.mk.injEq, reduceCtorEq] at hy <;> rw [← hy.1]
        | rvalue =>
          simp only [initVar] at hy
          split at hy
          · simp at hy
          split at hy <;> simp only [Res.ok.injEq, Prod.mk.injEq, reduceCtorEq] at hy
          rw [← hy.1]
  | [], _ :: _, _, _, _, h, _, _ => absurd h (by simp [Typed])
  | _ :: _, [], _, _, _, h, _, _ => absurd h (by simp [Typed])

theorem invoke_facts {F : Nat → Prop} {sig : List Param} {rec : List Expr} {m m' : Mem V} {act : Act V} {seen : List (Option V)} (ht : Typed sig rec)
    (hl : ∀ x ∈ rec, ∃ v, m.objs[x.addr]? = some ⟨v, true⟩) (hF : ∀ x ∈ rec, F x.addr) (hn : ∀ a, m.objs.length ≤ a → F a)
    (h : act.invoke sig rec m = .ok (seen, m')) : Grows m m' ∧ Touch F m m' := by
  cases act with
  | ret =>
    simp only [Act.invoke, dispatch_eq ht, Res.bind_ok, Res.bind_eq_ok] at h
    obtain ⟨vs, _, h⟩ := h
    simp only [Res.ok.injEq, Prod.mk.injEq] at h
    rw [← h.2]
    exact ⟨Grows.refl _, Touch.refl _ _⟩
  | run b =>
    simp only [Act.invoke, dispatch_eq ht, Res.bind_ok, Res.bind_eq_ok] at h
    obtain ⟨vs, _, m1, hb, h⟩ := h
    simp only [Res.ok.injEq, Prod.mk.injEq] at h
    rw [← h.2]
    obtain ⟨t, g, _⟩ := runBody_touch hF b _ _ hb
    exact ⟨g, t⟩
  | spy b =>
    simp only [Act.invoke, dispatch_eq ht, Res.bind_ok, Res.bind_eq_ok] at h
    obtain ⟨⟨ps, m1⟩, hi, vs, _, m2, hb, h⟩ := h
    simp only [Res.ok.injEq, Prod.mk.injEq] at h
    rw [← h.2]
    obtain ⟨t1, g1, l1, _⟩ := initAll_facts keeps_id _ _ _ _ _ ht hl hi
    obtain ⟨tc1, f1⟩ := initAll_touch keeps_id _ _ _ _ _ hF hn hi
    obtain ⟨tc2, g2, _⟩ := runBody_touch f1 b _ _ hb
    exact ⟨(g1.trans g2).kill (Nat.le_refl _), (tc1.trans tc2).trans (kill_touch hn)⟩
  | spyForward b =>
    simp only [Act.invoke, dispatch_eq ht, Res.bind_ok, Res.bind_eq_ok] at h
    obtain ⟨⟨ps, m1⟩, hi, vs, _, m2, hb, h⟩ := h
    simp only [Res.ok.injEq, Prod.mk.injEq] at h
    rw [← h.2]
    obtain ⟨t1, g1, l1, _⟩ := initAll_facts keeps_fwd _ _ _ _ _ ht hl hi
    obtain ⟨tc1, f1⟩ := initAll_touch keeps_fwd _ _ _ _ _ hF hn hi
    obtain ⟨tc2, g2, _⟩ := runBody_touch f1 b _ _ hb
    exact ⟨(g1.trans g2).kill (Nat.le_refl _), (tc1.trans tc2).trans (kill_touch hn)⟩

/-- The variable that an argument names. -/
def Arg.names (F : Nat → Prop) : Arg V → Prop
  | .lval a => F a
  | .xval a => F a
  | .prv _ => True

theorem bindAll_touch {F : Nat → Prop} : ∀ (sig : List Param) (gs : List (Arg V)) (m m' : Mem V) (xs : List Expr), (∀ g ∈ gs, g.names F) → (∀ a, m.objs.length ≤ a → F a) →
    bindAll sig gs m = .ok (xs, m') → Touch F m m' ∧ ∀ x ∈ xs, F x.addr
  | [], [], m, m', xs, _, _, h => by
    simp only [bindAll, Res.ok.injEq, Prod.mk.injEq] at h
    obtain ⟨rfl, rfl⟩ := h
    exact ⟨Touch.refl _ _, by simp⟩
  | (A, tr) :: sig, g :: gs, m, m', xs, hg, hn, h => by
    simp only [bindAll, Res.bind_eq_ok] at h
    obtain ⟨⟨e, m1⟩, he, ⟨y, m2⟩, hy, ⟨ys, m3⟩, hys, h⟩ := h
    simp only [Res.ok.injEq, Prod.mk.injEq] at h
    obtain ⟨rfl, rfl⟩ := h
    have h1 : Touch F m m1 ∧ F e.addr := by
      have hgF := hg g (List.mem_cons_self ..)
      cases g with
      | lval a =>
        simp only [Arg.eval, Res.bind_eq_ok] at he
        obtain ⟨_, _, he⟩ := he
        simp only [Res.ok.injEq, Prod.mk.injEq] at he
        rw [← he.1, ← he.2]
        exact ⟨Touch.refl _ _, hgF⟩
      | xval a =>
        simp only [Arg.eval, Res.bind_eq_ok] at he
        obtain ⟨_, _, he⟩ := he
        simp only [Res.ok.injEq, Prod.mk.injEq] at he
        rw [← he.1, ← he.2]
        exact ⟨Touch.refl _ _, hgF⟩
      | prv v =>
        simp only [Arg.eval, Mem.new, Res.ok.injEq, Prod.mk.injEq] at he
        rw [← he.1, ← he.2]
        exact ⟨⟨by simp, fun a ha _ => by simp [List.getElem?_append_left ha]⟩, hn _ (Nat.le_refl _)⟩
    obtain ⟨t2, f2⟩ := initVar_touch h1.2 (fun a ha => hn a (Nat.le_trans h1.1.1 ha)) hy
    obtain ⟨t3, f3⟩ := bindAll_touch sig gs m2 m3 ys (fun g h => hg g (List.mem_cons_of_mem _ h)) (fun a ha => hn a (Nat.le_trans (h1.1.trans t2).1 ha)) hys
    refine ⟨(h1.1.trans t2).trans t3, fun z hz => ?_⟩
    rcases List.mem_cons.mp hz with rfl | hz
    · exact f2
    · exact f3 z hz
  | [], _ :: _, _, _, _, _, _, h => by simp [bindAll] at h
  | _ :: _, [], _, _, _, _, _, h => by simp [bindAll] at h

/-- What a call does to memory and to the records. -/
theorem call_facts {sig : List Param} {stubs : List (Stub V)} {args : List (Arg V)} {s s' : State V} {out : Out V} (hb : ∀ g ∈ args, g.below s.mem.objs.length)
    (hv : ∀ g ∈ args, g.names (· ∈ s.vars)) (h : call sig stubs args s = .ok (out, s')) :
    s'.vars = s.vars ∧ Touch (fun a => a ∈ s.vars ∨ s.mem.objs.length ≤ a) s.mem s'.mem ∧ Grows s.mem s'.mem ∧
    (s'.hist = s.hist ∨ ∃ rec, s'.hist = s.hist ++ [rec] ∧
      Elems (fun a => s.mem.objs.length ≤ a ∧ ∃ v, s'.mem.objs[a]? = some ⟨v, true⟩) (fun _ => True) sig rec ∧
      ∀ (i : Nat) (p : Param) (a : Nat) (x : Expr), sig[i]? = some p → p.1.ref ≠ .none → (args[i]? = some (.lval a) ∨ args[i]? = some (.xval a)) → rec[i]? = some x → x.addr = a) := by
  simp only [call, Res.bind_eq_ok] at h
  obtain ⟨⟨xs, m1⟩, hbind, ⟨ys, m1'⟩, hhops, ⟨rec, m2⟩, hrec, c, hch, h⟩ := h
  obtain ⟨t1, g1, l1, o1, v1, a1⟩ := bindAll_facts sig args s.mem m1 xs (Nat.le_refl _) hb hbind
  rw [hops_eq t1] at hhops
  simp only [Res.ok.injEq, Prod.mk.injEq] at hhops
  obtain ⟨rfl, rfl⟩ := hhops
  have hF : ∀ g ∈ args, g.names (fun a => a ∈ s.vars ∨ s.mem.objs.length ≤ a) := fun g hg => by
    have := hv g hg
    cases g <;> first | exact .inl this | trivial
  obtain ⟨tc1, f1⟩ := bindAll_touch (F := fun a => a ∈ s.vars ∨ s.mem.objs.length ≤ a) sig args s.mem m1 xs hF (fun a ha => .inr ha) hbind
  have hle1 := g1.1
  obtain ⟨t2, g2, l2, e2, r2⟩ := initAll_facts keeps_fwd sig xs rec m1 m2 t1 l1 hrec
  obtain ⟨tc2, f2⟩ := initAll_touch (F := fun a => a ∈ s.vars ∨ s.mem.objs.length ≤ a) keeps_fwd sig xs rec m1 m2 f1 (fun a ha => .inr (by omega)) hrec
  have hle2 := g2.1
  cases c with
  | none =>
    simp only [Res.ok.injEq, Prod.mk.injEq] at h
    obtain ⟨-, rfl⟩ := h
    refine ⟨rfl, ?_, ?_, .inl rfl⟩
    · exact ((tc1.trans tc2).trans (kill_touch fun a ha => .inr (by omega))).trans (kill_touch fun a ha => .inr ha)
    · exact ((g1.trans g2).kill hle1).kill (Nat.le_refl _)
  | some act =>
    rw [Res.bind_eq_ok] at h
    obtain ⟨⟨seen, m3⟩, hinv, h⟩ := h
    simp only [Res.ok.injEq, Prod.mk.injEq] at h
    obtain ⟨-, rfl⟩ := h
    obtain ⟨g3, tc3⟩ := invoke_facts (F := fun a => a ∈ s.vars ∨ s.mem.objs.length ≤ a) t2 l2 f2 (fun a ha => .inr (by omega)) hinv
    refine ⟨rfl, ?_, ?_, .inr ⟨rec, rfl, ?_, ?_⟩⟩
    · exact ((tc1.trans tc2).trans tc3).trans (kill_touch fun a ha => .inr ha)
    · exact ((g1.trans g2).trans g3).kill (Nat.le_refl _)
    · have hlive : Elems (fun a => m1.objs.length ≤ a ∧ ∃ v, m2.objs[a]? = some ⟨v, true⟩) (fun _ => True) sig rec := by
        clear hrec hinv hch tc2 tc3 f2 t2 r2
        revert e2 l2
        clear t1 l1 o1 v1 a1 f1 hbind
        induction sig generalizing rec with
        | nil => cases rec <;> simp [Elems]
        | cons p sig ih =>
          cases rec with
          | nil => simp [Elems]
          | cons x rec =>
            rintro hl ⟨h1, h2⟩
            refine ⟨?_, ih rec (fun y hy => hl y (List.mem_cons_of_mem _ hy)) h2⟩
            split at h1
            · rename_i hr; rw [if_pos hr]; exact ⟨h1, hl x (List.mem_cons_self ..)⟩
            · rename_i hr; rw [if_neg hr]; trivial
      refine hlive.mono (fun a ⟨ha, v, hv⟩ => ⟨by omega, ?_⟩) (fun _ h => h)
      obtain ⟨w, hw⟩ := g3.2 a v hv
      exact ⟨w, by simp only; rw [kill_get (by omega)]; exact hw⟩
    · intro i p a x hp hr hg hx
      obtain ⟨y, hy⟩ : ∃ y, xs[i]? = some y := by
        have h1 := t1.length
        have h2 := (List.getElem?_eq_some_iff.mp hp).1
        exact ⟨_, List.getElem?_eq_getElem (h1 ▸ h2)⟩
      rw [r2 i p y x hp hr hy hx]
      exact bindAll_refs sig args _ _ _ hbind i p a y hp hr hg hy

/-- The values of a record decide. -/
theorem matchAll_eq : ∀ (ps : List (Option V → Bool)) (xs : List Expr) (m : Mem V) (vs : List (Option V)), ps.length = xs.length → readAll xs m = .ok vs →
    matchAll ps xs m = .ok ((ps.zip vs).all fun q => q.1 q.2)
  | [], [], m, vs, _, h => by cases h; rfl
  | p :: ps, x :: xs, m, vs, hl, h => by
    simp only [readAll, Res.bind_eq_ok] at h
    obtain ⟨v, hv, ws, hw, h⟩ := h
    simp only [Res.ok.injEq] at h
    subst h
    have := matchAll_eq ps xs m ws (by simpa using hl) hw
    simp only [matchAll, hv, Res.bind_ok, List.zip_cons_cons, List.all_cons]
    cases hp : p v <;> simp [this]
  | [], _ :: _, _, _, h, _ => by simp at h
  | _ :: _, [], _, _, h, _ => by simp at h

theorem choose_eq {xs : List Expr} {m : Mem V} {vs : List (Option V)} (hr : readAll xs m = .ok vs) : ∀ (stubs : List (Stub V)), (∀ st ∈ stubs, st.preds.length = xs.length) →
    choose xs m stubs = .ok ((stubs.find? fun st => (st.preds.zip vs).all fun q => q.1 q.2).map (·.act))
  | [], _ => rfl
  | st :: ss, h => by
    have ih := choose_eq hr ss (fun st hs => h st (List.mem_cons_of_mem _ hs))
    simp only [choose, matchAll_eq _ _ _ _ (h st (List.mem_cons_self ..)) hr, Res.bind_ok, List.find?_cons]
    cases (st.preds.zip vs).all fun q => q.1 q.2 <;> simp [ih]

theorem readAll_ok {m : Mem V} : ∀ (xs : List Expr), (∀ x ∈ xs, ∃ v, m.objs[x.addr]? = some ⟨v, true⟩) → ∃ vs, readAll xs m = .ok vs
  | [], _ => ⟨[], rfl⟩
  | x :: xs, h => by
    obtain ⟨v, hv⟩ := h x (List.mem_cons_self ..)
    obtain ⟨vs, hvs⟩ := readAll_ok xs fun y hy => h y (List.mem_cons_of_mem _ hy)
    exact ⟨v :: vs, by simp [readAll, read_eq.mpr hv, hvs]⟩

theorem fits_fwd {p : Param} (hc : p.1.ref = .none → p.1.cst = false ∧ (p.2.copy = true ∨ p.2.move = true)) :
    Fits (fun A => A) fwd p (if p.2.move then .move else .copy) := by
  obtain ⟨⟨c, r⟩, cp, mv⟩ := p
  constructor
  · intro hr a
    cases r
    · exact absurd rfl hr
    · exact ⟨⟨.lvalue, c, a⟩, by cases c <;> simp [fwd], fun m => by cases c <;> simp [initVar]⟩
    · exact ⟨⟨.xvalue, c, a⟩, by cases c <;> simp [fwd], fun m => by cases c <;> simp [initVar]⟩
  · intro hr a
    have hc := hc hr
    simp only at hr hc
    obtain ⟨rfl, hm⟩ := hc
    subst hr
    refine ⟨⟨.xvalue, false, a⟩, by simp [fwd], fun {V} m v hv => ?_⟩
    cases mv
    · simp only [Bool.false_eq_true, or_false] at hm
      subst hm
      simp [initVar, construct, read_eq.mpr hv, Mem.new, made]
    · have hw : m.write a none = .ok { m with objs := m.objs.set a ⟨none, true⟩ } := write_eq.mpr ⟨⟨v, hv⟩, rfl⟩
      simp [initVar, construct, read_eq.mpr hv, Mem.new, made, hw]

theorem fits_copy {p : Param} (hc : p.1.ref = .none → p.1.cst = false ∧ p.2.copy = true) (hn : p.1.ref ≠ .rvalue) :
    Fits (fun A => A) (fun _ e => .ok e) p .copy := by
  obtain ⟨⟨c, r⟩, cp, mv⟩ := p
  constructor
  · intro hr' a
    cases r
    · exact absurd rfl hr'
    · exact ⟨⟨.lvalue, c, a⟩, rfl, fun m => by cases c <;> simp [initVar]⟩
    · exact absurd rfl hn
  · intro hr a
    have hc := hc hr
    simp only at hr hc
    obtain ⟨rfl, rfl⟩ := hc
    subst hr
    exact ⟨⟨.lvalue, false, a⟩, rfl, fun {V} m v hv => by simp [initVar, construct, read_eq.mpr hv, Mem.new, made]⟩

end FakeIt.Passing
