import Verif.Spec.Trace
/-!
# A concrete program used in the examples

One class with four virtual table entries (0, 1: methods, 2, 3: complete and deleting destructor), `__COUNTER__` values equal to offsets.
-/
namespace FakeIt.Demo
open FakeIt Spec

/-- The mocked class. -/
def cls : ClassDecl Nat := { size := 4, dtor := some 2, dflt := fun _ => .value 0, impl := fun i => 10 + i, dataSize := 2 }

/-- Callables: 0 adds its arguments, 1 calls method 1 of mock 1, 2 throws 5, 3 increases its first argument, others (the original methods are 10, 11)
return their number. -/
def prog : Prog Nat Nat where
  fn f vs := match f with
    | 0 => .done (.ret vs.sum)
    | 1 => .call 1 1 [.val 7] fun o => .done o
    | 2 => .done (.exc 5)
    | 3 => .setArg 0 (vs.sum + 1) (.done (.ret 1))
    | f => .done (.ret f)
  cls _ := cls
  void := 0
  dfltExc := 99
  movedFrom _ := 0

/-- `__COUNTER__` value = offset. -/
def nm : MockId → Nat → Nat := fun _ ctr => ctr

/-- All variables start as 0. -/
def heap0 : Addr → Nat := fun _ => 0

/-- The world after running the given operations from the start (or the start, if that is undefined). -/
def after (ops : List (Op Nat Nat)) : World Nat Nat :=
  match runOps prog 5 (World.start heap0) ops with
  | .done (_, w) => w
  | _ => World.start heap0

/-- `Method(mock m, f)` with the given matcher. -/
def tgt (m off : Nat) (kind : MatcherKind Nat) : Target Nat := { m := m, slot := .meth off off, kind := kind }

/-- Matcher `Using(x)`. -/
def eq (x : Nat) : MatcherKind Nat := .args [fun v => v == x]

/-- The world after one more operation. -/
def next (w : World Nat Nat) (op : Op Nat Nat) : World Nat Nat :=
  match opStep prog 5 w op with
  | .done (_, w') => w'
  | _ => w

/-- The world after a call. -/
def called (w : World Nat Nat) (m off : Nat) (args : List (Arg Nat)) : World Nat Nat :=
  match callSlot prog 5 w m off args with
  | .done (_, w') => w'
  | _ => w

end FakeIt.Demo

namespace FakeIt
variable {V E : Type}

/-- Running a program from a reachable world leads to a reachable world. -/
theorem Reach.run {P : Prog V E} {nm : MockId → Nat → Nat} {w w' : World V E} {fuel : Nat} {outs : List (OpOut V E)} (ops : List (Op V E))
    (hops : ∀ op ∈ ops, op.Within (Api.Named nm) (fun _ _ => True)) (hw : Reach P nm w) (h : runOps P fuel w ops = .done (outs, w')) : Reach P nm w' := by
  induction ops generalizing w outs with
  | nil =>
    simp only [runOps, R.done.injEq, Prod.mk.injEq] at h
    rw [← h.2]; exact hw
  | cons op ops ih =>
    simp only [runOps, R.bind_eq_done] at h
    obtain ⟨⟨o, w1⟩, h1, ⟨os, w2⟩, h2, h3⟩ := h
    simp only [R.done.injEq, Prod.mk.injEq] at h3
    obtain ⟨-, rfl⟩ := h3
    exact ih (fun op h => hops op (by simp [h])) (.step hw (hops op (by simp)) h1) h2

end FakeIt

namespace FakeIt.Demo
open FakeIt Spec

theorem prog_nonReentrant (Φ : MatcherKind Nat → Prop) : prog.NonReentrant nm cls 0 0 Φ := by
  intro f vs
  match f with
  | 0 => trivial
  | 1 => exact ⟨(by intro h; cases h), fun _ => trivial⟩
  | 2 => trivial
  | 3 => trivial
  | _ + 4 => trivial

theorem prog_named : prog.Named nm := by
  intro f vs
  match f with
  | 0 => trivial
  | 1 => exact ⟨trivial, fun _ => trivial⟩
  | 2 => trivial
  | 3 => trivial
  | _ + 4 => trivial

/-- Two mocks; method 0 of mock 0 is stubbed for all arguments, and method 1 of mock 1. -/
def ops0 : List (Op Nat Nat) :=
  [.api (.newMock 0), .api (.newMock 0), .api (.when_ (tgt 0 0 .any) [.forever (.ret 1)] false), .api (.fake [tgt 1 1 .any])]

def w0 : World Nat Nat := after ops0

theorem reach_w0 : Reach prog nm w0 := by
  refine Reach.run (fuel := 5) (w' := w0) ops0 ?_ (.start heap0) rfl
  intro op h
  simp only [ops0, List.mem_cons, List.not_mem_nil, or_false] at h
  rcases h with rfl | rfl | rfl | rfl <;> simp [Op.Within, Api.Named, Api.slots, SlotRef.Named, tgt, nm, intMax]

/-- Then `When(Method(mock0, f0).Using(7))` with the script 5, 5, throw 9, call mock 1. -/
def acts1 : List (Act Nat Nat) := [.rep 2 (.ret 5), .rep 1 (.thr 9), .rep 1 (.user 1)]

def w1 (acts : List (Act Nat Nat)) : World Nat Nat := next w0 (.api (.when_ (tgt 0 0 (eq 7)) acts false))

theorem stubbed_w1 (acts : List (Act Nat Nat)) : Stubbed prog nm cls false 0 0 (eq 7) acts 1 w0 (w1 acts) where
  reach := reach_w0
  mock := ⟨_, rfl, rfl, rfl⟩
  plain := by intro d hd; cases hd; decide
  stmt := ⟨.when_ (tgt 0 0 (eq 7)) acts false, .meth 0 0, _, rfl, by simp [Api.Named, Api.slots, SlotRef.Named, tgt, nm, intMax], rfl, rfl⟩
  number := rfl


theorem reach_w1 (acts : List (Act Nat Nat)) : Reach prog nm (w1 acts) :=
  .step (fuel := 5) (op := .api (.when_ (tgt 0 0 (eq 7)) acts false)) reach_w0
    (by simp [Op.Within, Api.Named, Api.slots, SlotRef.Named, tgt, nm, intMax]) rfl

theorem writable : WritableActs acts1 := by
  intro a ha
  simp only [acts1, List.mem_cons, List.not_mem_nil, or_false] at ha
  rcases ha with rfl | rfl | rfl <;> decide

theorem accepts_eq {x v : Nat} : Accepts (eq x) [v] ↔ v = x := by
  constructor
  · rintro ⟨-, h⟩
    simpa using h 0 _ v rfl rfl
  · rintro rfl
    refine ⟨rfl, fun i m y hm hy => ?_⟩
    match i with
    | 0 => simp at hm hy; subst hm hy; simp
    | i + 1 => simp at hm

/-- The stubbing made by `w1`. -/
def h1 (acts : List (Act Nat Nat)) : Handler Nat Nat :=
  { addr := w0.alloc + 1, matcher := { addr := w0.alloc, kind := eq 7 }, seq := ActionSeq.ofActs acts }

theorem selected_w1 (acts : List (Act Nat Nat)) : Selected (stubbings (w1 acts) 0 0) (valuesOf (w1 acts).heap [.val 7]) (h1 acts) :=
  ⟨stubbings w0 0 0, [], rfl, accepts_eq.2 rfl, by simp⟩

/-- A call with 7, one with 3 (served by the older stubbing), one of mock 1, another one with 7. -/
def w2 : World Nat Nat := called (called (called (called (w1 acts1) 0 0 [.val 7]) 0 0 [.val 3]) 1 1 [.val 7]) 0 0 [.val 7]

theorem picks7 {w : World Nat Nat} {h0 h1 : Handler Nat Nat} (hs : stubbings w 0 0 = [h0, h1]) (hk : h1.matcher.kind = eq 7) :
    Picks w 0 0 [.val 7] 1 :=
  ⟨[h0], h1, [], hs, rfl, (by rw [hk]; exact accepts_eq.2 rfl), by simp⟩

theorem trace_w2 (Φ : MatcherKind Nat → Prop) : Trace prog nm cls 0 0 Φ 1 (w1 acts1) 2 w2 := by
  refine .pick (fuel := 5) (args := [.val 7]) (o := .ret 5) (.other (fuel := 5) (m' := 1) (off' := 1) (args := [.val 7]) (o := .ret 0)
    (.miss (fuel := 5) (args := [.val 3]) (o := .ret 1) (.pick (fuel := 5) (args := [.val 7]) (o := .ret 5) (.nil _) ?_ rfl) ?_ rfl) ?_ rfl) ?_ rfl
  · exact picks7 rfl rfl
  · rintro ⟨older, h, newer, hs, hl, ha, -⟩
    match older, hl with
    | [x], _ =>
      injection hs with _ hs
      injection hs with hs _
      rw [← hs] at ha
      have := accepts_eq.1 ha
      cases this
  · intro h; cases h
  · exact picks7 rfl rfl

theorem picks_w2 : Picks w2 0 0 [.val 7] 1 := picks7 rfl rfl

end FakeIt.Demo
