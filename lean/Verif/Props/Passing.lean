import Verif.Lemmas.Passing
/-!
# C69: arguments arrive as they were passed
-/
namespace FakeIt.Passing

variable {V : Type}

/-! ## Specification -/

/-- A direct call of a function of this signature with some body: the caller initialises the parameters, the body runs, the parameters end (C++, no mock). The
result is what the body sees of its parameters at its start, and memory. -/
def directCall (sig : List Param) (args : List (Arg V)) (body : List (Effect V)) (m : Mem V) : Res (List (Option V) × Mem V) := do
  let (xs, m1) ← bindAll sig args m
  let seen ← readAll xs m1
  let m2 ← runBody xs body m1
  .ok (seen, m2.kill m.objs.length m1.objs.length)

/-- The stubbing in charge of a call with these values: the first that accepts them. -/
def inCharge (stubs : List (Stub V)) (vs : List (Option V)) : Option (Act V) :=
  (stubs.find? fun st => (st.preds.zip vs).all fun q => q.1 q.2).map (·.act)

/-- The code that answers. -/
def answering : Option (Act V) → List (Effect V)
  | none => []
  | some a => a.body

/-- Signatures of methods that can be mocked: value parameters can be moved or copied (top level `const` is not part of a signature). -/
def Mockable (sig : List Param) : Prop := ∀ p ∈ sig, p.1.ref = .none → p.1.cst = false ∧ (p.2.copy = true ∨ p.2.move = true)

/-- Signatures that `Spy` accepts: values can be copied, no rvalue references (include/fakeit/SpyFunctor.hpp 22). -/
def Spyable (sig : List Param) : Prop := ∀ p ∈ sig, p.1.ref ≠ .rvalue ∧ (p.1.ref = .none → p.2.copy = true)

/-- States that tests reach. -/
def Reached (sig : List Param) (stubs : List (Stub V)) (s : State V) : Prop := ∃ ts os, run sig stubs ts {} = .ok (os, s)

/-- Per value parameter: a move, or a copy if the class cannot be moved. -/
def oneEach (sig : List Param) : List Op := (sig.filter (·.1.ref = .none)).map fun p => if p.2.move then .move else .copy

/-- Per value parameter: a copy. -/
def copyEach (sig : List Param) : List Op := (sig.filter (·.1.ref = .none)).map fun _ => .copy

/-- What the action adds. -/
def spyingOps (sig : List Param) : Option (Act V) → List Op
  | some (.spy _) => copyEach sig
  | some (.spyForward _) => oneEach sig
  | _ => []

/-- Statements of tests that keep what they pass by reference: only variables of `S` are passed to reference parameters, and these do not end. -/
def Careful (S : Nat → Prop) (sig : List Param) : Stmt V → Prop
  | .endScope i => ¬S i
  | .call ws => ∀ (i : Nat) (p : Param), sig[i]? = some p → p.1.ref ≠ .none → ∃ k, S k ∧ (ws[i]? = some (.var k) ∨ ws[i]? = some (.moved k))
  | _ => True

/-- How many of the recorded calls a verification is about. -/
def matching (preds : List (Option V → Bool)) (calls : List (List (Option V))) : Nat := (calls.filter fun vs => (preds.zip vs).all fun q => q.1 q.2).length

/-- Does the argument name this variable? -/
def Names (a : Nat) : Arg V → Prop
  | .lval b => b = a
  | .xval b => b = a
  | .prv _ => False

/-- No variable that is given away by `std::move` is passed a second time. -/
def Apart (g g' : Arg V) : Prop := ∀ a, (g = .xval a → ¬Names a g') ∧ (g' = .xval a → ¬Names a g)

/-- The value of an argument before the call. -/
def given (m : Mem V) : Arg V → Option V
  | .lval a => (m.objs[a]?).bind Obj.val
  | .xval a => (m.objs[a]?).bind Obj.val
  | .prv v => some v

/-- The call gives the variable away: it is passed by `std::move` to a value parameter of a class that can be moved. -/
def GivenAway (sig : List Param) (args : List (Arg V)) (a : Nat) : Prop :=
  ∃ (i : Nat) (p : Param), sig[i]? = some p ∧ args[i]? = some (.xval a) ∧ p.1.ref = .none ∧ p.2.move = true

/-! ## Proofs -/

private theorem bindAll_given : ∀ (sig : List Param) (gs : List (Arg V)) (m m' : Mem V) (xs : List Expr), (∀ g ∈ gs, g.below m.objs.length) → gs.Pairwise Apart →
    bindAll sig gs m = .ok (xs, m') → readAll xs m' = .ok (gs.map (given m)) ∧
      ∀ a, a < m.objs.length → (GivenAway sig gs a → ∃ l, m'.objs[a]? = some ⟨none, l⟩) ∧ (¬GivenAway sig gs a → m'.objs[a]? = m.objs[a]?)
  | [], [], m, m', xs, _, _, h => by
    simp only [bindAll, Res.ok.injEq, Prod.mk.injEq] at h
    obtain ⟨rfl, rfl⟩ := h
    exact ⟨rfl, fun a _ => ⟨fun ⟨i, p, h, _⟩ => by simp at h, fun _ => rfl⟩⟩
  | (A, tr) :: sig, g :: gs, m, m', xs, hb, hp, h => by
    simp only [bindAll, Res.bind_eq_ok] at h
    obtain ⟨⟨e, m1⟩, he, ⟨y, m2⟩, hy, ⟨ys, m3⟩, hys, h⟩ := h
    simp only [Res.ok.injEq, Prod.mk.injEq] at h
    obtain ⟨rfl, rfl⟩ := h
    rw [List.pairwise_cons] at hp
    -- one argument
    have one : m.objs.length ≤ m2.objs.length ∧ y.addr < m2.objs.length ∧ m2.objs[y.addr]? = some ⟨given m g, true⟩ ∧
        (∀ a, a < m.objs.length → (g = .xval a ∧ A.ref = .none ∧ tr.move = true → m2.objs[a]? = some ⟨none, true⟩) ∧
          (¬(g = .xval a ∧ A.ref = .none ∧ tr.move = true) → m2.objs[a]? = m.objs[a]?)) ∧
        (y.addr < m.objs.length → Names y.addr g) := by
      have hm1 : (∃ a, Names a g ∧ m1 = m ∧ e.addr = a ∧ m.objs[a]? = some ⟨given m g, true⟩ ∧ e.cst = false ∧ (e.cat = .lvalue ∧ g = .lval a ∨ e.cat = .xvalue ∧ g = .xval a)) ∨
          (∃ v, g = .prv v ∧ e = { cat := .prvalue, cst := false, addr := m.objs.length } ∧ m1 = (m.new (some v)).2) := by
        cases g with
        | lval a =>
          simp only [Arg.eval, Res.bind_eq_ok] at he
          obtain ⟨v, hv, he⟩ := he
          simp only [Res.ok.injEq, Prod.mk.injEq] at he
          obtain ⟨rfl, rfl⟩ := he
          exact .inl ⟨a, rfl, rfl, rfl, by rw [read_eq.mp hv]; simp [given, read_eq.mp hv], rfl, .inl ⟨rfl, rfl⟩⟩
        | xval a =>
          simp only [Arg.eval, Res.bind_eq_ok] at he
          obtain ⟨v, hv, he⟩ := he
          simp only [Res.ok.injEq, Prod.mk.injEq] at he
          obtain ⟨rfl, rfl⟩ := he
          exact .inl ⟨a, rfl, rfl, rfl, by rw [read_eq.mp hv]; simp [given, read_eq.mp hv], rfl, .inr ⟨rfl, rfl⟩⟩
        | prv v =>
          simp only [Arg.eval, Mem.new, Res.ok.injEq, Prod.mk.injEq] at he
          obtain ⟨rfl, rfl⟩ := he
          exact .inr ⟨v, rfl, rfl, rfl⟩
      obtain ⟨c, r⟩ := A
      rcases hm1 with ⟨a, hna, rfl, rfl, hv, hcst, hcat⟩ | ⟨v, rfl, rfl, rfl⟩
      · have halt := (List.getElem?_eq_some_iff.mp hv).1
        cases r with
        | none =>
          have hnp : e.cat ≠ .prvalue := by rcases hcat with ⟨h, _⟩ | ⟨h, _⟩ <;> simp [h]
          simp only [initVar, if_neg hnp, Res.bind_eq_ok] at hy
          obtain ⟨⟨b, m2'⟩, hc, hy⟩ := hy
          simp only [Res.ok.injEq, Prod.mk.injEq] at hy
          obtain ⟨rfl, rfl⟩ := hy
          simp only [construct, read_eq.mpr hv, Res.bind_ok] at hc
          split at hc
          · rename_i hmv
            have hx : g = .xval e.addr := by rcases hcat with ⟨h, _⟩ | ⟨_, h⟩; exact absurd h hmv.1; exact h
            rw [Res.bind_eq_ok] at hc
            obtain ⟨mw, hw, hc⟩ := hc
            obtain ⟨-, rfl⟩ := write_eq.mp hw
            simp only [Mem.new, List.length_set, Res.ok.injEq, Prod.mk.injEq] at hc
            obtain ⟨rfl, rfl⟩ := hc
            refine ⟨by simp, by simp, by simp, fun a ha => ⟨fun hc => ?_, fun hc => ?_⟩, fun h => absurd h (Nat.lt_irrefl _)⟩
            · have : a = e.addr := by rw [hx] at hc; simpa [eq_comm] using hc.1
              subst this
              dsimp only
              rw [List.getElem?_append_left (by simpa using ha), List.getElem?_set_self ha]
            · have : e.addr ≠ a := fun h => hc ⟨by rw [hx, h], rfl, hmv.2.2⟩
              dsimp only
              rw [List.getElem?_append_left (by simpa using ha), List.getElem?_set_ne this]
          · rename_i hmv
            split at hc
            · simp only [Mem.new, Res.ok.injEq, Prod.mk.injEq] at hc
              obtain ⟨rfl, rfl⟩ := hc
              refine ⟨by simp, by simp, by simp, fun a ha => ⟨fun hc => ?_, fun _ => ?_⟩, fun h => absurd h (Nat.lt_irrefl _)⟩
              · refine absurd ⟨?_, hcst, hc.2.2⟩ hmv
                rcases hcat with ⟨_, h⟩ | ⟨h, _⟩
                · rw [h] at hc; cases hc.1
                · simp [h]
              · dsimp only
                rw [List.getElem?_append_left ha]
            · cases hc
        | lvalue | rvalue =>
          have : y.addr = e.addr ∧ m2 = m1 := by
            simp only [initVar] at hy
            repeat' split at hy
            all_goals first | (cases hy; done) | (simp only [Res.ok.injEq, Prod.mk.injEq] at hy; obtain ⟨rfl, rfl⟩ := hy; exact ⟨rfl, rfl⟩)
          obtain ⟨h1, rfl⟩ := this
          rw [h1]
          exact ⟨Nat.le_refl _, halt, hv, fun a _ => ⟨fun hc => by simp at hc, fun _ => rfl⟩, fun _ => hna⟩
      · have : y.addr = m.objs.length ∧ m2 = (m.new (some v)).2 := by
          cases r <;> simp only [initVar] at hy <;> (repeat' split at hy)
          all_goals first
            | (cases hy; done)
            | (simp only [Res.ok.injEq, Prod.mk.injEq] at hy; obtain ⟨rfl, rfl⟩ := hy; exact ⟨rfl, rfl⟩)
            | contradiction
        obtain ⟨h1, rfl⟩ := this
        rw [h1]
        refine ⟨by simp [Mem.new], by simp [Mem.new], by simp [Mem.new, given], fun a ha => ⟨fun hc => (nomatch hc.1), fun _ => ?_⟩, fun h => absurd h (Nat.lt_irrefl _)⟩
        simp [Mem.new, List.getElem?_append_left ha]
    obtain ⟨hle, hylt, hyv, hold, hname⟩ := one
    -- the others
    have hbelow : ∀ g' ∈ gs, g'.below m2.objs.length := fun g' h => by
      have := hb g' (List.mem_cons_of_mem _ h)
      cases g' with
      | lval a => exact Nat.lt_of_lt_of_le this hle
      | xval a => exact Nat.lt_of_lt_of_le this hle
      | prv v => trivial
    obtain ⟨hread, hmem⟩ := bindAll_given sig gs m2 m3 ys hbelow hp.2 hys
    have hgiven : ∀ g' ∈ gs, given m2 g' = given m g' := by
      intro g' hg'
      have hap := hp.1 g' hg'
      have hb' := hb g' (List.mem_cons_of_mem _ hg')
      cases g' with
      | lval a | xval a =>
        have : ¬(g = .xval a ∧ A.ref = .none ∧ tr.move = true) := fun hc => (hap a).1 hc.1 rfl
        simp only [given, (hold a hb').2 this]
      | prv v => rfl
    have hstay : m3.objs[y.addr]? = m2.objs[y.addr]? := by
      refine (hmem y.addr hylt).2 fun ⟨i, p, hpi, hgi, _⟩ => ?_
      have hg' := List.mem_of_getElem? hgi
      by_cases hlt : y.addr < m.objs.length
      · exact (hp.1 _ hg' y.addr).2 rfl (hname hlt)
      · exact hlt (hb _ (List.mem_cons_of_mem _ hg'))
    refine ⟨?_, fun a ha => ⟨fun ⟨i, p, hpi, hgi, hpr, hpm⟩ => ?_, fun hn => ?_⟩⟩
    · simp only [readAll, read_eq.mpr (hstay.trans hyv), hread, Res.bind_ok, List.map_cons]
      rw [List.map_congr_left hgiven]
    · cases i with
      | zero =>
        simp only [List.getElem?_cons_zero, Option.some.injEq] at hpi hgi
        subst hpi
        have h2 := (hold a ha).1 ⟨hgi, hpr, hpm⟩
        by_cases haw : GivenAway sig gs a
        · exact (hmem a (Nat.lt_of_lt_of_le ha hle)).1 haw
        · rw [(hmem a (Nat.lt_of_lt_of_le ha hle)).2 haw, h2]
          exact ⟨true, rfl⟩
      | succ i => exact (hmem a (Nat.lt_of_lt_of_le ha hle)).1 ⟨i, p, hpi, hgi, hpr, hpm⟩
    · have h1 : ¬GivenAway sig gs a := fun ⟨i, p, h1, h2, h3⟩ => hn ⟨i + 1, p, h1, h2, h3⟩
      have h2 : ¬(g = .xval a ∧ A.ref = .none ∧ tr.move = true) := fun hc => hn ⟨0, (A, tr), rfl, by rw [hc.1]; rfl, hc.2⟩
      rw [(hmem a (Nat.lt_of_lt_of_le ha hle)).2 h1, (hold a ha).2 h2]
  | [], _ :: _, _, _, _, _, _, h => by simp [bindAll] at h
  | _ :: _, [], _, _, _, _, _, h => by simp [bindAll] at h

private theorem valueOps_oneEach : ∀ (sig : List Param), valueOps (fun p => if p.2.move then .move else .copy) sig = oneEach sig
  | [] => rfl
  | p :: sig => by
    have := valueOps_oneEach sig
    unfold oneEach at this ⊢
    by_cases h : p.1.ref = .none <;> simp [valueOps, h, this]

private theorem valueOps_copyEach : ∀ (sig : List Param), valueOps (fun _ => .copy) sig = copyEach sig
  | [] => rfl
  | p :: sig => by
    have := valueOps_copyEach sig
    unfold copyEach at this ⊢
    by_cases h : p.1.ref = .none <;> simp [valueOps, h, this]

private structure VarsOk (s : State V) : Prop where
  lt : ∀ a ∈ s.vars, a < s.mem.objs.length
  nodup : s.vars.Nodup

private theorem arg_ok {vars : List Nat} {w : Written V} {g : Arg V} (h : w.arg vars = .ok g) : g.names (· ∈ vars) := by
  cases w with
  | var i =>
    simp only [Written.arg] at h
    cases hi : vars[i]? with
    | none => simp [hi] at h
    | some a => simp only [hi, Res.ok.injEq] at h; subst h; exact List.mem_of_getElem? hi
  | moved i =>
    simp only [Written.arg] at h
    cases hi : vars[i]? with
    | none => simp [hi] at h
    | some a => simp only [hi, Res.ok.injEq] at h; subst h; exact List.mem_of_getElem? hi
  | temp v => simp only [Written.arg, Res.ok.injEq] at h; subst h; trivial

private theorem argsOf_get {vars : List Nat} : ∀ {ws : List (Written V)} {gs : List (Arg V)}, argsOf vars ws = .ok gs → ∀ (i : Nat), ∀ w, ws[i]? = some w → ∃ g, gs[i]? = some g ∧ w.arg vars = .ok g
  | [], gs, h, i, w, hw => by simp at hw
  | w :: ws, gs, h, i, w', hw => by
    simp only [argsOf, Res.bind_eq_ok] at h
    obtain ⟨g, hg, gs', hgs, h⟩ := h
    simp only [Res.ok.injEq] at h
    subst h
    cases i with
    | zero => simp only [List.getElem?_cons_zero, Option.some.injEq] at hw; subst hw; exact ⟨g, rfl, hg⟩
    | succ i => simp only [List.getElem?_cons_succ] at hw ⊢; exact argsOf_get hgs i w' hw

private theorem argsOf_names {vars : List Nat} : ∀ {ws : List (Written V)} {gs : List (Arg V)}, argsOf vars ws = .ok gs → ∀ g ∈ gs, g.names (· ∈ vars)
  | [], gs, h => by cases h; simp
  | w :: ws, gs, h => by
    simp only [argsOf, Res.bind_eq_ok] at h
    obtain ⟨g, hg, gs', hgs, h⟩ := h
    simp only [Res.ok.injEq] at h
    subst h
    intro g' hg'
    rcases List.mem_cons.mp hg' with rfl | hg'
    · exact arg_ok hg
    · exact argsOf_names hgs g' hg'

private theorem below_of_names {s : State V} (hv : VarsOk s) {g : Arg V} (h : g.names (· ∈ s.vars)) : g.below s.mem.objs.length := by
  cases g with
  | lval a => exact hv.lt a h
  | xval a => exact hv.lt a h
  | prv v => trivial

/-- What a step does to the variables, to other objects and to the records. -/
private theorem step_facts {sig : List Param} {stubs : List (Stub V)} {s s' : State V} {t : Stmt V} {o : Out V} (hv : VarsOk s) (h : step sig stubs s t = .ok (o, s')) :
    VarsOk s' ∧ (∃ more, s'.vars = s.vars ++ more ∧ ∀ a ∈ more, s.mem.objs.length ≤ a) ∧
    Touch (fun a => a ∈ s.vars ∨ s.mem.objs.length ≤ a) s.mem s'.mem ∧
    (s'.hist = s.hist ∨ ∃ rec, s'.hist = s.hist ++ [rec] ∧ Elems (fun a => s.mem.objs.length ≤ a ∧ a ∉ s'.vars ∧ ∃ v, s'.mem.objs[a]? = some ⟨v, true⟩) (fun _ => True) sig rec) := by
  cases t with
  | declare v =>
    simp only [step, Mem.new, Res.ok.injEq, Prod.mk.injEq] at h
    obtain ⟨-, rfl⟩ := h
    refine ⟨⟨?_, ?_⟩, ⟨[s.mem.objs.length], rfl, by simp⟩, ⟨by simp, fun a ha _ => by simp [List.getElem?_append_left ha]⟩, .inl rfl⟩
    · intro a ha
      rcases List.mem_append.mp ha with ha | ha
      · have := hv.lt a ha; simp; omega
      · simp at ha; subst ha; simp
    · rw [List.nodup_append]
      refine ⟨hv.nodup, by simp, fun a ha b hb => ?_⟩
      have := hv.lt a ha
      simp at hb
      omega
  | assign i v =>
    simp only [step] at h
    cases hi : s.vars[i]? with
    | none => simp [hi] at h
    | some a =>
      simp only [hi, Res.bind_eq_ok] at h
      obtain ⟨m, hw, h⟩ := h
      simp only [Res.ok.injEq, Prod.mk.injEq] at h
      obtain ⟨-, rfl⟩ := h
      obtain ⟨-, rfl⟩ := write_eq.mp hw
      refine ⟨⟨fun b hb => by simpa using hv.lt b hb, hv.nodup⟩, ⟨[], by simp, by simp⟩, ⟨by simp, fun b hb hF => ?_⟩, .inl rfl⟩
      have : a ≠ b := fun h => hF (.inl (h ▸ List.mem_of_getElem? hi))
      simp [List.getElem?_set_ne this]
  | endScope i =>
    simp only [step] at h
    cases hi : s.vars[i]? with
    | none => simp [hi] at h
    | some a =>
      simp only [hi, Res.bind_eq_ok] at h
      obtain ⟨_, _, h⟩ := h
      simp only [Res.ok.injEq, Prod.mk.injEq] at h
      obtain ⟨-, rfl⟩ := h
      refine ⟨⟨fun b hb => by simpa using hv.lt b hb, hv.nodup⟩, ⟨[], by simp, by simp⟩, ⟨by simp, fun b hb hF => kill_get fun hc => hF (.inl ?_)⟩, .inl rfl⟩
      have : b = a := by omega
      exact this ▸ List.mem_of_getElem? hi
  | call ws =>
    simp only [step, Res.bind_eq_ok] at h
    obtain ⟨args, ha, h⟩ := h
    obtain ⟨h1, h2, h3, h4⟩ := call_facts (fun g hg => below_of_names hv (argsOf_names ha g hg)) (argsOf_names ha) h
    refine ⟨⟨fun a ha => ?_, h1 ▸ hv.nodup⟩, ⟨[], by simp [h1], by simp⟩, h2, ?_⟩
    · have := hv.lt a (h1 ▸ ha)
      have := h2.1
      omega
    · rcases h4 with h4 | ⟨rec, h4, h5, -⟩
      · exact .inl h4
      · refine .inr ⟨rec, h4, h5.mono (fun a ⟨h, hl⟩ => ⟨h, fun hm => ?_, hl⟩) (fun _ h => h)⟩
        have := hv.lt a (h1 ▸ hm)
        omega
  | verify ps k =>
    simp only [step, verify, Res.bind_eq_ok] at h
    obtain ⟨c, _, h⟩ := h
    have : s' = s := by
      split at h
      · simp only [Res.ok.injEq, Prod.mk.injEq] at h; exact h.2.symm
      · rw [Res.bind_eq_ok] at h
        obtain ⟨_, _, h⟩ := h
        simp only [Res.ok.injEq, Prod.mk.injEq] at h; exact h.2.symm
    subst this
    exact ⟨hv, ⟨[], by simp, by simp⟩, Touch.refl _ _, .inl rfl⟩

private structure Inv (sig : List Param) (s : State V) : Prop extends VarsOk s where
  recs : ∀ r ∈ s.hist, Elems (fun a => a ∉ s.vars ∧ ∃ v, s.mem.objs[a]? = some ⟨v, true⟩) (fun _ => True) sig r

private theorem step_inv {sig : List Param} {stubs : List (Stub V)} {s s' : State V} {t : Stmt V} {o : Out V} (hv : Inv sig s) (h : step sig stubs s t = .ok (o, s')) :
    Inv sig s' ∧ (∃ more, s'.hist = s.hist ++ more) ∧ ∀ a v, a ∉ s.vars → s.mem.objs[a]? = some ⟨v, true⟩ → a ∉ s'.vars ∧ s'.mem.objs[a]? = some ⟨v, true⟩ := by
  obtain ⟨h1, ⟨more, h2, h2'⟩, h3, h4⟩ := step_facts hv.toVarsOk h
  have key : ∀ a v, a ∉ s.vars → s.mem.objs[a]? = some ⟨v, true⟩ → a ∉ s'.vars ∧ s'.mem.objs[a]? = some ⟨v, true⟩ := by
    intro a v ha hv
    have hlt := (List.getElem?_eq_some_iff.mp hv).1
    refine ⟨fun hm => ?_, ?_⟩
    · rw [h2] at hm
      rcases List.mem_append.mp hm with hm | hm
      · exact ha hm
      · have := h2' a hm; omega
    · rw [h3.2 a hlt (fun hF => hF.elim ha (by omega)), hv]
  have old : ∀ r ∈ s.hist, Elems (fun a => a ∉ s'.vars ∧ ∃ v, s'.mem.objs[a]? = some ⟨v, true⟩) (fun _ => True) sig r := fun r hr =>
    (hv.recs r hr).mono (fun a ⟨ha, v, hv⟩ => ⟨(key a v ha hv).1, v, (key a v ha hv).2⟩) (fun _ h => h)
  rcases h4 with h4 | ⟨rec, h4, h5⟩
  · exact ⟨⟨h1, fun r hr => old r (h4 ▸ hr)⟩, ⟨[], by simp [h4]⟩, key⟩
  · refine ⟨⟨h1, fun r hr => ?_⟩, ⟨[rec], h4⟩, key⟩
    rw [h4] at hr
    rcases List.mem_append.mp hr with hr | hr
    · exact old r hr
    · simp at hr; subst hr
      exact h5.mono (fun a h => h.2) (fun _ h => h)

private theorem run_inv {sig : List Param} {stubs : List (Stub V)} : ∀ (ts : List (Stmt V)) {s s' : State V} {os : List (Out V)}, Inv sig s → run sig stubs ts s = .ok (os, s') →
    Inv sig s' ∧ (∃ more, s'.hist = s.hist ++ more) ∧ ∀ a v, a ∉ s.vars → s.mem.objs[a]? = some ⟨v, true⟩ → a ∉ s'.vars ∧ s'.mem.objs[a]? = some ⟨v, true⟩
  | [], s, s', os, hv, h => by
    simp only [run, Res.ok.injEq, Prod.mk.injEq] at h
    obtain ⟨-, rfl⟩ := h
    exact ⟨hv, ⟨[], by simp⟩, fun a v h1 h2 => ⟨h1, h2⟩⟩
  | t :: ts, s, s', os, hv, h => by
    simp only [run, Res.bind_eq_ok] at h
    obtain ⟨⟨o, s1⟩, hs, ⟨os', s2⟩, hr, h⟩ := h
    simp only [Res.ok.injEq, Prod.mk.injEq] at h
    obtain ⟨-, rfl⟩ := h
    obtain ⟨i1, ⟨m1, e1⟩, k1⟩ := step_inv hv hs
    obtain ⟨i2, ⟨m2, e2⟩, k2⟩ := run_inv ts i1 hr
    exact ⟨i2, ⟨m1 ++ m2, by rw [e2]; simp [e1]⟩, fun a v h1 h2 => by obtain ⟨h1, h2⟩ := k1 a v h1 h2; exact k2 a v h1 h2⟩

private theorem inv_start (sig : List Param) : Inv sig ({} : State V) := ⟨⟨by simp, by simp⟩, by simp⟩

private theorem Reached.inv {sig : List Param} {stubs : List (Stub V)} {s : State V} (h : Reached sig stubs s) : Inv sig s := by
  obtain ⟨ts, os, h⟩ := h
  exact (run_inv ts (inv_start sig) h).1

/-! ## C69 -/

/-- A call of a mocked method is, for the caller, like a direct call of a function whose body is the code that answers: whenever the direct call is accepted and
defined, the mocked call is; the answering code sees the same values (the same objects, if they are references: what it assigns is what the caller gets), and
everything that existed before the call is afterwards as after the direct call. In particular arguments passed to reference parameters, `std::move` or not, are
neither copied nor moved from. Copies and moves: those of the direct call, one move per value parameter for the record (a copy if the class cannot be moved), and
one copy (`Spy`) or move (`SpyWithoutVerify`) if an original is called. -/
theorem C69_a_mocked_call_is_like_a_direct_call {sig : List Param} {stubs : List (Stub V)} {s : State V} {ws : List (Written V)} {args : List (Arg V)} {seen : List (Option V)}
    {m : Mem V} (hs : Reached sig stubs s) (hsig : Mockable sig) (hst : ∀ st ∈ stubs, st.preds.length = sig.length) (hargs : argsOf s.vars ws = .ok args)
    (hd : directCall sig args (answering (inCharge stubs seen)) s.mem = .ok (seen, m)) (hspy : ∀ b, inCharge stubs seen = some (.spy b) → Spyable sig) :
    ∃ s', step sig stubs s (.call ws) = .ok (if (inCharge stubs seen).isSome then .answered seen else .unexpected, s') ∧
      (∀ a, a < s.mem.objs.length → s'.mem.objs[a]? = m.objs[a]?) ∧ s'.vars = s.vars ∧ s'.mem.log = m.log ++ oneEach sig ++ spyingOps sig (inCharge stubs seen) := by
  have hv := hs.inv.toVarsOk
  have hnames := argsOf_names hargs
  have hb : ∀ g ∈ args, g.below s.mem.objs.length := fun g hg => below_of_names hv (hnames g hg)
  simp only [directCall, Res.bind_eq_ok] at hd
  obtain ⟨⟨xs, m1⟩, hbind, vs, hseen, d', hbody, hd⟩ := hd
  simp only [Res.ok.injEq, Prod.mk.injEq] at hd
  obtain ⟨rfl, rfl⟩ := hd
  obtain ⟨t1, g1, l1, o1, v1, a1⟩ := bindAll_facts sig args s.mem m1 xs (Nat.le_refl _) hb hbind
  have hle1 := g1.1
  have hl1 : ∀ a ∈ xs.map (·.addr), ∃ v, m1.objs[a]? = some ⟨v, true⟩ := fun a ha => by
    obtain ⟨x, hx, rfl⟩ := List.mem_map.mp ha
    exact l1 x hx
  obtain ⟨rec, m2, θ, hrec, t2, ha2, s2, hθ, hθv, hlog2, hle2⟩ := initAll_sim (ty := fun A => A) (how := fwd) (ops := fun p => if p.2.move then .move else .copy) sig xs
    (xs.map (·.addr)) id m1 (fun p hp => fits_fwd (hsig p hp)) t1 (Sim.id m1) (by simp) hl1 o1
  have hread2 := readAll_sim s2 xs rec vs ha2 hseen
  have hch := choose_eq hread2 stubs (fun st h => by rw [hst st h, t2.length])
  have hchoose : choose rec m2 stubs = .ok (inCharge stubs vs) := hch
  have hθn : ∀ a, a < s.mem.objs.length → θ a = a := fun a ha => hθ a fun hm => by have := v1 a hm; omega
  rw [valueOps_oneEach] at hlog2
  have hlogd : d'.log = m1.log ∧ d'.objs.length = m1.objs.length := by
    obtain ⟨m3, _, _, h1, _, h3, _⟩ := runBody_sim (θ := id) (xs := xs) (ys := xs) (by simp) rfl _ _ _ _ (Sim.id m1) hbody
    exact ⟨h3, h1⟩
  have hstep : step sig stubs s (.call ws) = (match inCharge stubs vs with
      | none => .ok (.unexpected, { s with mem := (m2.kill m1.objs.length m2.objs.length).kill s.mem.objs.length m1.objs.length })
      | some act => do
        let (seen, m) ← act.invoke sig rec m2
        .ok (.answered seen, { s with mem := m.kill s.mem.objs.length m1.objs.length, hist := s.hist ++ [rec] })) := by
    have hrec' : record sig xs m1 = .ok (rec, m2) := hrec
    simp only [step, hargs, Res.bind_ok, call, hbind, hops_eq t1, hrec', hchoose]
    rfl
  rw [hstep]
  have hid : xs.map (·.addr) = (xs.map (·.addr)).map id := by simp
  cases hact : inCharge stubs vs with
  | none =>
    simp only [hact, answering, runBody, Res.ok.injEq] at hbody
    subst hbody
    refine ⟨_, rfl, fun a ha => ?_, rfl, ?_⟩
    · simp only
      rw [kill_get (by omega), kill_get (by omega), kill_get (by omega), ← s2.objs a (by omega), hθn a ha]
    · simp [hlog2, spyingOps]
  | some act =>
    rw [hact] at hbody
    cases act with
    | ret =>
      simp only [answering, Act.body, runBody, Res.ok.injEq] at hbody
      subst hbody
      refine ⟨{ s with mem := m2.kill s.mem.objs.length m1.objs.length, hist := s.hist ++ [rec] }, by simp [Act.invoke, dispatch_eq t2, hread2], fun a ha => ?_, rfl, ?_⟩
      · simp only
        rw [kill_get (by omega), kill_get (by omega), ← s2.objs a (by omega), hθn a ha]
      · simp [hlog2, spyingOps]
    | run b =>
      simp only [answering, Act.body] at hbody
      obtain ⟨m3, hb3, s3, _, hle3, _, hlog3⟩ := runBody_sim (ys := rec) ha2 (by rw [t2.cst, t1.cst]) b m1 d' m2 s2 hbody
      refine ⟨{ s with mem := m3.kill s.mem.objs.length m1.objs.length, hist := s.hist ++ [rec] }, by simp [Act.invoke, dispatch_eq t2, hread2, hb3], fun a ha => ?_, rfl, ?_⟩
      · simp only
        rw [kill_get (by omega), kill_get (by omega), ← s3.objs a (by omega), hθn a ha]
      · simp [hlog3, hlog2, hlogd.1, spyingOps]
    | spy b =>
      simp only [answering, Act.body] at hbody
      have hsp := hspy b hact
      obtain ⟨ps, m3, θ', hi3, t3, ha3, s3, hθ3, _, hlog3, hle3⟩ := initAll_sim (ty := fun A => A) (how := fun _ e => .ok e) (ops := fun _ => .copy) sig rec
        (xs.map (·.addr)) θ m2 (fun p hp => fits_copy (fun hr => ⟨(hsig p hp hr).1, (hsp p hp).2 hr⟩) (hsp p hp).1) t2 s2 ha2 hl1 o1
      have hread3 := readAll_sim s3 xs ps vs ha3 hseen
      obtain ⟨m4, hb4, s4, _, hle4, _, hlog4⟩ := runBody_sim (ys := ps) ha3 (by rw [t3.cst, t1.cst]) b m1 d' m3 s3 hbody
      have hθ3n : ∀ a, a < s.mem.objs.length → θ' a = a := fun a ha => by rw [hθ3 a fun hm => by have := v1 a hm; omega]; exact hθn a ha
      refine ⟨{ s with mem := (m4.kill m2.objs.length m3.objs.length).kill s.mem.objs.length m1.objs.length, hist := s.hist ++ [rec] },
        by simp [Act.invoke, dispatch_eq t2, hi3, hread3, hb4], fun a ha => ?_, rfl, ?_⟩
      · simp only
        rw [kill_get (by omega), kill_get (by omega), kill_get (by omega), ← s4.objs a (by omega), hθ3n a ha]
      · rw [valueOps_copyEach] at hlog3
        simp [hlog4, hlog3, hlog2, hlogd.1, spyingOps]
    | spyForward b =>
      simp only [answering, Act.body] at hbody
      obtain ⟨ps, m3, θ', hi3, t3, ha3, s3, hθ3, _, hlog3, hle3⟩ := initAll_sim (ty := fun A => A) (how := fwd) (ops := fun p => if p.2.move then .move else .copy) sig rec
        (xs.map (·.addr)) θ m2 (fun p hp => fits_fwd (hsig p hp)) t2 s2 ha2 hl1 o1
      have hread3 := readAll_sim s3 xs ps vs ha3 hseen
      obtain ⟨m4, hb4, s4, _, hle4, _, hlog4⟩ := runBody_sim (ys := ps) ha3 (by rw [t3.cst, t1.cst]) b m1 d' m3 s3 hbody
      have hθ3n : ∀ a, a < s.mem.objs.length → θ' a = a := fun a ha => by rw [hθ3 a fun hm => by have := v1 a hm; omega]; exact hθn a ha
      refine ⟨{ s with mem := (m4.kill m2.objs.length m3.objs.length).kill s.mem.objs.length m1.objs.length, hist := s.hist ++ [rec] },
        by simp [Act.invoke, dispatch_eq t2, hi3, hread3, hb4], fun a ha => ?_, rfl, ?_⟩
      · simp only
        rw [kill_get (by omega), kill_get (by omega), kill_get (by omega), ← s4.objs a (by omega), hθ3n a ha]
      · rw [valueOps_oneEach] at hlog3
        simp [hlog4, hlog3, hlog2, hlogd.1, spyingOps]

/-- What a direct call shows, and therefore (previous theorem) a mocked one: the code sees the values of the arguments before the call, and variables keep their values unless
they are passed by `std::move` to a value parameter of a class that can be moved (or the code assigns to them). -/
theorem C69_the_code_sees_what_was_passed {sig : List Param} {args : List (Arg V)} {m m' : Mem V} {seen : List (Option V)} (hb : ∀ g ∈ args, ∀ a, Names a g → a < m.objs.length)
    (ha : args.Pairwise Apart) {body : List (Effect V)} (h : directCall sig args body m = .ok (seen, m')) :
    seen = args.map (given m) ∧
      (body = [] → ∀ a, a < m.objs.length → (GivenAway sig args a → ∃ l, m'.objs[a]? = some ⟨none, l⟩) ∧ (¬GivenAway sig args a → m'.objs[a]? = m.objs[a]?)) := by
  simp only [directCall, Res.bind_eq_ok] at h
  obtain ⟨⟨xs, m1⟩, hbind, vs, hseen, d', hbody, hd⟩ := h
  simp only [Res.ok.injEq, Prod.mk.injEq] at hd
  obtain ⟨rfl, rfl⟩ := hd
  have hbelow : ∀ g ∈ args, g.below m.objs.length := fun g hg => by
    cases g with
    | lval a => exact hb _ hg a rfl
    | xval a => exact hb _ hg a rfl
    | prv v => trivial
  obtain ⟨h1, h2⟩ := bindAll_given sig args m m1 xs hbelow ha hbind
  rw [hseen] at h1
  cases h1
  refine ⟨rfl, fun hbd a hlt => ?_⟩
  subst hbd
  cases hbody
  rw [kill_get (by omega)]
  exact h2 a hlt

private theorem bindAll_at : ∀ (sig : List Param) (gs : List (Arg V)) (m m' : Mem V) (xs : List Expr), bindAll sig gs m = .ok (xs, m') →
    ∀ (i a : Nat) (p : Param) (g : Arg V), sig[i]? = some p → p.1.ref ≠ .none → gs[i]? = some g → Names a g → ∃ x, xs[i]? = some x ∧ x.addr = a
  | [], [], _, _, _, _, _, _, _, _, hp, _, _, _ => by simp at hp
  | (A, tr) :: sig, g :: gs, m, m', xs, h, i, a, p, g', hp, hr, hg, hn => by
    simp only [bindAll, Res.bind_eq_ok] at h
    obtain ⟨⟨e, m1⟩, he, ⟨y, m2⟩, hy, ⟨ys, m3⟩, hys, h⟩ := h
    simp only [Res.ok.injEq, Prod.mk.injEq] at h
    obtain ⟨rfl, rfl⟩ := h
    cases i with
    | succ i => exact bindAll_at sig gs m2 m3 ys hys i a p g' (by simpa using hp) hr (by simpa using hg) hn
    | zero =>
      simp only [List.getElem?_cons_zero, Option.some.injEq] at hp hg
      subst hp; subst hg
      refine ⟨y, rfl, ?_⟩
      have hea : e.addr = a := by
        cases g with
        | lval b =>
          simp only [Arg.eval, Res.bind_eq_ok] at he
          obtain ⟨_, _, he⟩ := he
          cases he; exact hn
        | xval b =>
          simp only [Arg.eval, Res.bind_eq_ok] at he
          obtain ⟨_, _, he⟩ := he
          cases he; exact hn
        | prv v => exact absurd hn id
      have hye : y.addr = e.addr := by
        simp only [initVar] at hy
        split at hy
        · exact absurd ‹A.ref = .none› hr
        · split at hy
          · split at hy
            · cases hy
            · cases hy; rfl
          · split at hy
            · cases hy; rfl
            · cases hy
        · split at hy
          · cases hy
          · split at hy
            · cases hy
            · cases hy; rfl
      rw [hye, hea]
  | [], _ :: _, _, _, _, h, _, _, _, _, _, _, _, _ => by simp [bindAll] at h
  | _ :: _, [], _, _, _, h, _, _, _, _, _, _, _, _ => by simp [bindAll] at h

/-- What the code does to its `i`-th parameter, a reference, happens to the variable that was passed there and to no other: assigning gives the variable the value,
moving from it leaves it empty; every other variable that is not given away keeps its value. -/
theorem C69_the_code_acts_on_the_variable_passed {sig : List Param} {args : List (Arg V)} {m m' : Mem V} {seen : List (Option V)} (hb : ∀ g ∈ args, ∀ a, Names a g → a < m.objs.length)
    (hap : args.Pairwise Apart) {i a : Nat} {p : Param} {g : Arg V} {new : Option V} (hp : sig[i]? = some p) (hr : p.1.ref ≠ .none) (hg : args[i]? = some g) (hn : Names a g)
    (h : directCall sig args [match new with | some v => .assign i v | none => .take i] m = .ok (seen, m')) :
    m'.objs[a]? = some ⟨new, true⟩ ∧ ∀ b, b < m.objs.length → b ≠ a → ¬GivenAway sig args b → m'.objs[b]? = m.objs[b]? := by
  simp only [directCall, Res.bind_eq_ok] at h
  obtain ⟨⟨xs, m1⟩, hbind, vs, hseen, d', hbody, hd⟩ := h
  simp only [Res.ok.injEq, Prod.mk.injEq] at hd
  obtain ⟨rfl, rfl⟩ := hd
  have hbelow : ∀ g ∈ args, g.below m.objs.length := fun g hg => by
    cases g with
    | lval a => exact hb _ hg a rfl
    | xval a => exact hb _ hg a rfl
    | prv v => trivial
  have hlt : a < m.objs.length := hb g (List.mem_of_getElem? hg) a hn
  obtain ⟨x, hx, rfl⟩ := bindAll_at sig args m m1 xs hbind i a p g hp hr hg hn
  have hw : m1.write x.addr new = .ok d' := by
    cases new with
    | none =>
      simp only [runBody, Effect.index, hx] at hbody
      split at hbody
      · cases hbody
      · obtain ⟨m2, h2, h3⟩ := Res.bind_eq_ok.mp hbody
        cases h3; exact h2
    | some v =>
      simp only [runBody, Effect.index, hx] at hbody
      split at hbody
      · cases hbody
      · obtain ⟨m2, h2, h3⟩ := Res.bind_eq_ok.mp hbody
        cases h3; exact h2
  obtain ⟨⟨w, hw0⟩, rfl⟩ := write_eq.mp hw
  have hlt1 := (List.getElem?_eq_some_iff.mp hw0).1
  refine ⟨?_, fun b hbl hne hga => ?_⟩
  · rw [kill_get (by omega)]
    simp [hlt1]
  · rw [kill_get (by omega)]
    simp only [List.getElem?_set_ne (Ne.symm hne)]
    exact ((bindAll_given sig args m m1 xs hbelow hap hbind).2 b hbl).2 hga

/-- Arguments recorded by value stay as they are, whatever the test does afterwards: assigning to its variables, ending them, further calls. -/
theorem C69_recorded_values_stay {sig : List Param} {stubs : List (Stub V)} {s s' : State V} {ts : List (Stmt V)} {os : List (Out V)} (hs : Reached sig stubs s)
    (h : run sig stubs ts s = .ok (os, s')) :
    (∃ more, s'.hist = s.hist ++ more) ∧ ∀ r ∈ s.hist, ∀ (i : Nat) (p : Param) (x : Expr), sig[i]? = some p → p.1.ref = .none → r[i]? = some x →
      ∃ v, s.mem.read x.addr = .ok v ∧ s'.mem.read x.addr = .ok v := by
  obtain ⟨-, h2, h3⟩ := run_inv ts hs.inv h
  refine ⟨h2, fun r hr i p x hp hn hx => ?_⟩
  have := (hs.inv.recs r hr).get i p x hp hx
  rw [if_pos hn] at this
  obtain ⟨ha, v, hv⟩ := this
  exact ⟨v, read_eq.mpr hv, read_eq.mpr (h3 _ _ ha hv).2⟩

/-- Arguments recorded by reference are the variables that were passed. -/
theorem C69_recorded_references_are_the_variables {sig : List Param} {stubs : List (Stub V)} {s s' : State V} {ws : List (Written V)} {seen : List (Option V)} (hs : Reached sig stubs s)
    (h : step sig stubs s (.call ws) = .ok (.answered seen, s')) :
    ∃ r, s'.hist = s.hist ++ [r] ∧ ∀ (i k : Nat) (p : Param) (x : Expr), sig[i]? = some p → p.1.ref ≠ .none → (ws[i]? = some (.var k) ∨ ws[i]? = some (.moved k)) → r[i]? = some x →
      s.vars[k]? = some x.addr := by
  have hv := hs.inv.toVarsOk
  simp only [step, Res.bind_eq_ok] at h
  obtain ⟨args, ha, h⟩ := h
  have hb : ∀ g ∈ args, g.below s.mem.objs.length := fun g hg => below_of_names hv (argsOf_names ha g hg)
  obtain ⟨-, -, -, h4⟩ := call_facts hb (argsOf_names ha) h
  rcases h4 with h4 | ⟨r, h4, -, h5⟩
  · simp only [call, Res.bind_eq_ok] at h
    obtain ⟨_, _, _, _, _, _, c, _, h⟩ := h
    cases c with
    | none => simp at h
    | some act =>
      rw [Res.bind_eq_ok] at h
      obtain ⟨_, _, h⟩ := h
      simp only [Res.ok.injEq, Prod.mk.injEq] at h
      rw [← h.2] at h4
      have := congrArg List.length h4
      simp at this
  · refine ⟨r, h4, fun i k p x hp hr hw hx => ?_⟩
    have key : ∀ w, ws[i]? = some w → (w = .var k ∨ w = .moved k) → s.vars[k]? = some x.addr := by
      intro w hw hk
      obtain ⟨g, hg, hga⟩ := argsOf_get ha i w hw
      cases hvk : s.vars[k]? with
      | none => rcases hk with rfl | rfl <;> simp [Written.arg, hvk] at hga
      | some a =>
        rcases hk with rfl | rfl <;> simp only [Written.arg, hvk, Res.ok.injEq] at hga <;> subst hga
        · rw [h5 i p a x hp hr (.inl hg) hx]
        · rw [h5 i p a x hp hr (.inr hg) hx]
    rcases hw with hw | hw
    · exact key _ hw (.inl rfl)
    · exact key _ hw (.inr rfl)

private structure Kept (S : Nat → Prop) (sig : List Param) (s : State V) : Prop extends Inv sig s where
  refs : ∀ r ∈ s.hist, Elems (fun _ => True) (fun a => ∃ k, S k ∧ s.vars[k]? = some a) sig r
  alive : ∀ k a, S k → s.vars[k]? = some a → ∃ v, s.mem.objs[a]? = some ⟨v, true⟩

private theorem elems_of_get {P Q : Nat → Prop} : ∀ {sig : List Param} {xs : List Expr}, xs.length = sig.length →
    (∀ (i : Nat) (p : Param) (x : Expr), sig[i]? = some p → xs[i]? = some x → if p.1.ref = .none then P x.addr else Q x.addr) → Elems P Q sig xs
  | [], [], _, _ => trivial
  | p :: sig, x :: xs, hl, h => ⟨h 0 p x rfl rfl, elems_of_get (by simpa using hl) fun i p x hp hx => h (i + 1) p x (by simpa using hp) (by simpa using hx)⟩
  | [], _ :: _, h, _ => by simp at h
  | _ :: _, [], h, _ => by simp at h

private theorem elems_length {P Q : Nat → Prop} : ∀ {sig : List Param} {xs : List Expr}, Elems P Q sig xs → xs.length = sig.length
  | [], [], _ => rfl
  | _ :: _, _ :: _, ⟨_, h⟩ => by simp [elems_length h]
  | [], _ :: _, h => absurd h (by simp [Elems])
  | _ :: _, [], h => absurd h (by simp [Elems])

private theorem step_kept {S : Nat → Prop} {sig : List Param} {stubs : List (Stub V)} {s s' : State V} {t : Stmt V} {o : Out V} (hk : Kept S sig s) (hc : Careful S sig t)
    (h : step sig stubs s t = .ok (o, s')) : Kept S sig s' := by
  have hi := (step_inv hk.toInv h).1
  obtain ⟨-, ⟨more, hvars, -⟩, -, -⟩ := step_facts hk.toVarsOk h
  have keep : ∀ r ∈ s.hist, Elems (fun _ => True) (fun a => ∃ k, S k ∧ s'.vars[k]? = some a) sig r := fun r hr =>
    (hk.refs r hr).mono (fun _ h => h) fun a ⟨k, hS, hka⟩ => ⟨k, hS, by
      rw [hvars, List.getElem?_append_left (List.getElem?_eq_some_iff.mp hka).1]; exact hka⟩
  cases t with
  | declare v =>
    simp only [step, Mem.new, Res.ok.injEq, Prod.mk.injEq] at h
    obtain ⟨-, rfl⟩ := h
    refine ⟨hi, keep, fun k a hS hka => ?_⟩
    rw [List.getElem?_append] at hka
    split at hka
    · obtain ⟨w, hw⟩ := hk.alive k a hS hka
      exact ⟨w, by simp only; rw [List.getElem?_append_left (List.getElem?_eq_some_iff.mp hw).1]; exact hw⟩
    · have : a = s.mem.objs.length := by
        rw [List.getElem?_singleton] at hka
        split at hka <;> simp at hka
        exact hka.symm
      subst this
      exact ⟨some v, by simp⟩
  | assign i v =>
    simp only [step] at h
    cases hi' : s.vars[i]? with
    | none => simp [hi'] at h
    | some b =>
      simp only [hi', Res.bind_eq_ok] at h
      obtain ⟨m, hw, h⟩ := h
      simp only [Res.ok.injEq, Prod.mk.injEq] at h
      obtain ⟨-, rfl⟩ := h
      obtain ⟨-, rfl⟩ := write_eq.mp hw
      refine ⟨hi, keep, fun k a hS hka => ?_⟩
      obtain ⟨w, hw⟩ := hk.alive k a hS hka
      have hlt := (List.getElem?_eq_some_iff.mp hw).1
      by_cases hab : b = a
      · subst hab
        exact ⟨some v, by simp only; rw [List.getElem?_set_self hlt]⟩
      · exact ⟨w, by simp only; rw [List.getElem?_set_ne hab]; exact hw⟩
  | endScope i =>
    simp only [step] at h
    cases hi' : s.vars[i]? with
    | none => simp [hi'] at h
    | some b =>
      simp only [hi', Res.bind_eq_ok] at h
      obtain ⟨_, _, h⟩ := h
      simp only [Res.ok.injEq, Prod.mk.injEq] at h
      obtain ⟨-, rfl⟩ := h
      refine ⟨hi, keep, fun k a hS hka => ?_⟩
      obtain ⟨w, hw⟩ := hk.alive k a hS hka
      refine ⟨w, ?_⟩
      have hne : a ≠ b := by
        rintro rfl
        have hki : k = i := (List.getElem?_inj (List.getElem?_eq_some_iff.mp hka).1 hk.nodup).mp (hka.trans hi'.symm)
        exact hc (hki ▸ hS)
      simp only
      rw [kill_get (by omega)]
      exact hw
  | call ws =>
    have hstep := h
    simp only [step, Res.bind_eq_ok] at h
    obtain ⟨args, ha, h⟩ := h
    obtain ⟨h1, h2, h3, h4⟩ := call_facts (fun g hg => below_of_names hk.toVarsOk (argsOf_names ha g hg)) (argsOf_names ha) h
    refine ⟨hi, fun r hr => ?_, fun k a hS hka => ?_⟩
    · rcases h4 with h4 | ⟨rec, h4, h5, h6⟩
      · exact keep r (h4 ▸ hr)
      · rw [h4] at hr
        rcases List.mem_append.mp hr with hr | hr
        · exact keep r hr
        · simp at hr
          subst hr
          refine elems_of_get (elems_length h5) fun i p x hp hx => ?_
          split
          · trivial
          · rename_i hr
            obtain ⟨k, hS, hw⟩ := hc i p hp hr
            refine ⟨k, hS, ?_⟩
            rw [h1]
            have key : ∀ w, ws[i]? = some w → (w = .var k ∨ w = .moved k) → s.vars[k]? = some x.addr := by
              intro w hw hkk
              obtain ⟨g, hg, hga⟩ := argsOf_get ha i w hw
              cases hvk : s.vars[k]? with
              | none => rcases hkk with rfl | rfl <;> simp [Written.arg, hvk] at hga
              | some a =>
                rcases hkk with rfl | rfl <;> simp only [Written.arg, hvk, Res.ok.injEq] at hga <;> subst hga
                · rw [h6 i p a x hp hr (.inl hg) hx]
                · rw [h6 i p a x hp hr (.inr hg) hx]
            rcases hw with hw | hw
            · exact key _ hw (.inl rfl)
            · exact key _ hw (.inr rfl)
    · rw [h1] at hka
      obtain ⟨w, hw⟩ := hk.alive k a hS hka
      exact h3.2 a w hw
  | verify ps k =>
    simp only [step, verify, Res.bind_eq_ok] at h
    obtain ⟨c, _, h⟩ := h
    have : s' = s := by
      split at h
      · simp only [Res.ok.injEq, Prod.mk.injEq] at h; exact h.2.symm
      · rw [Res.bind_eq_ok] at h
        obtain ⟨_, _, h⟩ := h
        simp only [Res.ok.injEq, Prod.mk.injEq] at h; exact h.2.symm
    subst this
    exact hk

private theorem run_kept {S : Nat → Prop} {sig : List Param} {stubs : List (Stub V)} : ∀ (ts : List (Stmt V)) {s s' : State V} {os : List (Out V)}, Kept S sig s →
    (∀ t ∈ ts, Careful S sig t) → run sig stubs ts s = .ok (os, s') → Kept S sig s'
  | [], s, s', os, hk, _, h => by
    simp only [run, Res.ok.injEq, Prod.mk.injEq] at h
    obtain ⟨-, rfl⟩ := h
    exact hk
  | t :: ts, s, s', os, hk, hc, h => by
    simp only [run, Res.bind_eq_ok] at h
    obtain ⟨⟨o, s1⟩, hs, ⟨os', s2⟩, hr, h⟩ := h
    simp only [Res.ok.injEq, Prod.mk.injEq] at h
    obtain ⟨-, rfl⟩ := h
    exact run_kept ts (step_kept hk (hc t (List.mem_cons_self ..)) hs) (fun t ht => hc t (List.mem_cons_of_mem _ ht)) hr

private theorem count_show {preds : List (Option V → Bool)} {m : Mem V} {sig : List Param} (hp : preds.length = sig.length) : ∀ (rs : List (List Expr)), (∀ r ∈ rs, r.length = sig.length) →
    (∀ r ∈ rs, ∀ x ∈ r, ∃ v, m.objs[x.addr]? = some ⟨v, true⟩) → ∃ vss, showAll m rs = .ok vss ∧ countMatching preds m rs = .ok (matching preds vss)
  | [], _, _ => ⟨[], rfl, rfl⟩
  | r :: rs, hl, hv => by
    obtain ⟨vss, h1, h2⟩ := count_show hp rs (fun r h => hl r (List.mem_cons_of_mem _ h)) (fun r h => hv r (List.mem_cons_of_mem _ h))
    obtain ⟨vs, h3⟩ := readAll_ok r (hv r (List.mem_cons_self ..))
    have h4 := matchAll_eq preds r m vs (by rw [hp, hl r (List.mem_cons_self ..)]) h3
    refine ⟨vs :: vss, by simp [showAll, h3, h1], ?_⟩
    simp only [countMatching, h4, h2, Res.bind_ok, matching, List.filter_cons]
    cases (preds.zip vs).all fun q => q.1 q.2 <;> simp

/-- In tests that keep what they pass by reference, verifications are always defined: they look at what the records hold, and pass if the number of matching calls
is the expected one. What is missing (see the next theorems): tests that pass temporaries, or variables that end before the verification. -/
theorem C69_verification_of_kept_arguments_is_defined_partial {S : Nat → Prop} {sig : List Param} {stubs : List (Stub V)} {ts : List (Stmt V)} {os : List (Out V)} {s : State V}
    (h : run sig stubs ts {} = .ok (os, s)) (hc : ∀ t ∈ ts, Careful S sig t) (preds : List (Option V → Bool)) (k : Nat) (hp : preds.length = sig.length) :
    ∃ vss, showAll s.mem s.hist = .ok vss ∧
      step sig stubs s (.verify preds k) = .ok (if matching preds vss = k then .verified true [] else .verified false vss, s) := by
  have hk : Kept S sig s := run_kept ts ⟨inv_start sig, by simp, by simp⟩ hc h
  have hl : ∀ r ∈ s.hist, r.length = sig.length := fun r hr => elems_length (hk.refs r hr)
  have hv : ∀ r ∈ s.hist, ∀ x ∈ r, ∃ v, s.mem.objs[x.addr]? = some ⟨v, true⟩ := fun r hr x hx => by
    obtain ⟨i, hi⟩ := List.mem_iff_getElem?.mp hx
    have hlt : i < sig.length := hl r hr ▸ (List.getElem?_eq_some_iff.mp hi).1
    have h1 := (hk.recs r hr).get i sig[i] x (List.getElem?_eq_getElem hlt) hi
    have h2 := (hk.refs r hr).get i sig[i] x (List.getElem?_eq_getElem hlt) hi
    split at h1
    · exact h1.2
    · rename_i hn
      rw [if_neg hn] at h2
      obtain ⟨k, hS, hka⟩ := h2
      exact hk.alive k _ hS hka
  obtain ⟨vss, h1, h2⟩ := count_show hp s.hist hl hv
  refine ⟨vss, h1, ?_⟩
  simp only [step, verify, h2, Res.bind_ok]
  split
  · rfl
  · simp [h1]

/-! ## Concrete cases -/

namespace Demo

/-- A string: can be copied and moved. -/
def str : Traits := ⟨true, true⟩
/-- `void foo(string, string&, const string&, string&&)`. -/
def sig4 : List Param := [(⟨false, .none⟩, str), (⟨false, .lvalue⟩, str), (⟨true, .lvalue⟩, str), (⟨false, .rvalue⟩, str)]
/-- Accepts everything of four arguments. -/
def any4 : List (Option Nat → Bool) := [fun _ => true, fun _ => true, fun _ => true, fun _ => true]
/-- Assigns to the value and the reference, moves the rvalue reference away. -/
def body4 : List (Effect Nat) := [.assign 0 100, .assign 1 101, .take 3]
/-- Three variables. -/
def vars3 : List (Stmt Nat) := [.declare 1, .declare 2, .declare 3]

/-- Non-triviality: `foo(x, x, y, std::move(z))` answered by `Do`: the action sees 1, 1, 2, 3; afterwards `x` is 101, `z` is moved from; the record has its own value. -/
example : ∃ s, run sig4 [⟨any4, .run body4⟩] (vars3 ++ [.call [.var 0, .var 0, .var 1, .moved 2]]) {} = .ok ([.unit, .unit, .unit, .answered [some 1, some 1, some 2, some 3]], s) ∧
    [0, 1, 2].map s.mem.read = [.ok (some 101), .ok (some 2), .ok none] ∧ showAll s.mem s.hist = .ok [[some 100, some 101, some 2, none]] ∧ s.mem.log = [.copy, .move] :=
  ⟨_, rfl, rfl, rfl, rfl⟩

/-- Non-triviality: the hypotheses of the first theorem hold for this call, by a direct call with the body. -/
example : ∃ s seen m, Reached sig4 [⟨any4, .run body4⟩] s ∧ Mockable sig4 ∧ directCall sig4 [.lval 0, .lval 0, .lval 1, .xval 2] (answering (inCharge [⟨any4, .run body4⟩] seen)) s.mem = .ok (seen, m) ∧
    argsOf s.vars ([.var 0, .var 0, .var 1, .moved 2] : List (Written Nat)) = .ok [.lval 0, .lval 0, .lval 1, .xval 2] ∧ m.log = [.copy] :=
  ⟨_, [some 1, some 1, some 2, some 3], _, ⟨vars3, _, rfl⟩, by intro p hp; simp [sig4, str] at hp; rcases hp with rfl | rfl | rfl | rfl <;> simp, rfl, rfl, rfl⟩

/-- Non-triviality: the code of `foo(string, string&, const string&, string&&)` assigns to its second parameter, or moves from its fourth. -/
example : (∃ seen m', directCall sig4 [.lval 2, .lval 0, .lval 1, .xval 3] [.assign 1 7] { objs := [1, 2, 3, 4].map fun v => ⟨some v, true⟩ } = .ok (seen, m') ∧
      [0, 1, 2, 3].map m'.read = [.ok (some 7), .ok (some 2), .ok (some 3), .ok (some 4)]) ∧
    ∃ seen m', directCall sig4 [.lval 2, .lval 0, .lval 1, .xval 3] [.take 3] { objs := [1, 2, 3, 4].map fun v => ⟨some v, true⟩ } = .ok (seen, m') ∧
      [0, 1, 2, 3].map m'.read = [.ok (some 1), .ok (some 2), .ok (some 3), .ok none] :=
  ⟨⟨_, _, rfl, rfl⟩, _, _, rfl, rfl⟩

/-- Non-triviality: `foo(std::move(z), x, y, std::move(u))` for `foo(string, string&, const string&, string&&)`: `z` is given away, `u` is not. -/
example : (∀ g ∈ ([.xval 2, .lval 0, .lval 1, .xval 3] : List (Arg Nat)), ∀ a, Names a g → a < 4) ∧ ([.xval 2, .lval 0, .lval 1, .xval 3] : List (Arg Nat)).Pairwise Apart ∧
    GivenAway sig4 ([.xval 2, .lval 0, .lval 1, .xval 3] : List (Arg Nat)) 2 ∧ ¬GivenAway sig4 ([.xval 2, .lval 0, .lval 1, .xval 3] : List (Arg Nat)) 3 ∧
    ∃ m', directCall sig4 [.xval 2, .lval 0, .lval 1, .xval 3] [] { objs := [1, 2, 3, 4].map fun v => ⟨some v, true⟩ } = .ok ([some 3, some 1, some 2, some 4], m') ∧
      [0, 1, 2, 3].map m'.read = [.ok (some 1), .ok (some 2), .ok none, .ok (some 4)] := by
  refine ⟨?_, ?_, ⟨0, _, rfl, rfl, rfl, rfl⟩, ?_, _, rfl, rfl⟩
  · intro g hg a ha
    simp only [List.mem_cons, List.not_mem_nil, or_false] at hg
    rcases hg with rfl | rfl | rfl | rfl <;> simp only [Names] at ha <;> omega
  · simp [Apart, Names]
    intro a
    omega
  · rintro ⟨i, p, hp, hg, hr, -⟩
    match i with
    | 0 | 1 | 2 => simp at hg
    | 3 => simp [sig4] at hp; subst hp; cases hr
    | i + 4 => simp [sig4] at hp

/-- Non-triviality: a careful test. -/
example : ∀ t ∈ vars3 ++ [Stmt.call [.temp 7, .var 0, .var 1, .moved 2], .assign 1 9], Careful (fun _ => True) sig4 t := by
  intro t ht
  simp only [vars3, List.cons_append, List.nil_append, List.mem_cons, List.not_mem_nil, or_false] at ht
  rcases ht with rfl | rfl | rfl | rfl | rfl <;> try trivial
  intro i p hp hr
  match i with
  | 0 => simp [sig4] at hp; subst hp; exact absurd rfl hr
  | 1 => exact ⟨0, trivial, .inl rfl⟩
  | 2 => exact ⟨1, trivial, .inl rfl⟩
  | 3 => exact ⟨2, trivial, .inr rfl⟩
  | i + 4 => simp [sig4] at hp

/-- `void foo(string)` etc. -/
def one (cst : Bool) (r : RefKind) : List Param := [(⟨cst, r⟩, str)]
/-- `When(Method(mock, foo)).AlwaysReturn()`. -/
def always (a : Act Nat) : List (Stub Nat) := [⟨[fun _ => true], a⟩]
/-- `Verify(Method(mock, foo).Using(v))`. -/
def using_ (v : Nat) : Stmt Nat := .verify [fun w => w == some v] 1

/-- What is missing: a method with parameter `const T&` or `T&&` that was called with a temporary cannot be verified by its argument, nor can a call with a variable
whose scope has ended: the record refers to an object whose life is over. By value all of it is fine. -/
theorem C69_arguments_may_be_gone :
    (∀ v, run (one true .lvalue) (always .ret) [.call [.temp v], using_ v] {} = .ub) ∧ (∀ v, run (one false .rvalue) (always .ret) [.call [.temp v], using_ v] {} = .ub) ∧
    (∀ v, run (one true .lvalue) (always .ret) [.declare v, .call [.var 0], .endScope 0, using_ v] {} = .ub) ∧
    (run (one false .none) (always .ret) [.call [.temp 5], .declare 6, .call [.var 0], .endScope 0, using_ 5, using_ 6] {} |> fun
      | .ok (os, _) => os = [.answered [some 5], .unit, .answered [some 6], .unit, .verified true [], .verified true []]
      | _ => False) :=
  ⟨fun _ => rfl, fun _ => rfl, fun _ => rfl, rfl⟩

/-- Even a verification that does not look at the arguments is undefined if it fails: its message shows them. -/
theorem C69_messages_may_show_arguments_that_are_gone :
    (∀ v, run (one true .lvalue) (always .ret) [.call [.temp v], .verify [fun _ => true] 2] {} = .ub) :=
  fun _ => rfl

/-- What is verified is not always what was passed: an action that assigns to or moves from a value parameter, and `SpyWithoutVerify`, change the record; `Spy` does
not, and costs one copy more. -/
theorem C69_records_show_what_the_action_left :
    (run (one false .none) (always (.run [.assign 0 7])) [.call [.temp 5], using_ 5, using_ 7] {} |> fun
      | .ok (os, _) => os = [.answered [some 5], .verified false [[some 7]], .verified true []]
      | _ => False) ∧
    (run (one false .none) (always (.spyForward [])) [.call [.temp 5], using_ 5] {} |> fun
      | .ok (os, s) => os = [.answered [some 5], .verified false [[none]]] ∧ s.mem.log = [.move, .move]
      | _ => False) ∧
    (run (one false .none) (always (.spy [.assign 0 7])) [.call [.temp 5], using_ 5] {} |> fun
      | .ok (os, s) => os = [.answered [some 5], .verified true []] ∧ s.mem.log = [.move, .copy]
      | _ => False) :=
  ⟨rfl, ⟨rfl, rfl⟩, ⟨rfl, rfl⟩⟩

/-- Signatures: move-only values can be mocked, stubbed and spied without verification, but not spied with it; a value that can be neither copied nor moved makes
the method unmockable though it can be called directly; `Spy` does not accept rvalue references. -/
theorem C69_which_signatures_are_accepted :
    (∀ a, (a = .ret ∨ a = .spyForward []) → (run [(⟨false, .none⟩, ⟨false, true⟩)] (always a) [.call [.temp 5]] {} |> fun | .ok (os, _) => os = [.answered [some 5]] | _ => False)) ∧
    run [(⟨false, .none⟩, ⟨false, true⟩)] (always (.spy [])) [.call [.temp 5]] {} = .reject ∧
    run [(⟨false, .none⟩, ⟨false, false⟩)] (always .ret) [.call [.temp 5]] {} = .reject ∧
    (∃ r, directCall [(⟨false, .none⟩, ⟨false, false⟩)] [.prv 5] [] ({} : Mem Nat) = .ok r) ∧
    run (one false .rvalue) (always (.spy [])) [.call [.temp 5]] {} = .reject :=
  ⟨fun a h => by rcases h with rfl | rfl <;> rfl, rfl, rfl, ⟨_, rfl⟩, rfl⟩

end Demo

end FakeIt.Passing
