import Verif.Props.Lifecycle
import Verif.Props.Recording
/-!
# C35, C36: spying, and mentioning a method
-/
namespace FakeIt
variable {V E : Type} {P : Prog V E} {nm : MockId → Nat → Nat}
open Spec

/-! ## C35 -/

/-- What the library keeps of the arguments of a delegated call: `Spy` passes copies on, `SpyWithoutVerify` (`mv`) moves the by-value ones away. -/
def Spec.kept (P : Prog V E) (mv : Bool) (args : List (Arg V)) : List (Arg V) :=
  if mv then args.map fun a => match a with | .val v => .val (P.movedFrom v) | .ref r => .ref r else args

/-- The world in which the original method starts to run: the call has been recorded as the last one of the method, the rest of the world is as
it was when the call was made (only the stubbings and the table entry of the method itself may differ). -/
structure Spec.Starts (w w0 : World V E) (m off : Nat) (i : Invocation V) : Prop where
  heap : w0.heap = w.heap
  log : w0.log = w.log
  mocks : ∀ m', m' ≠ m → w0.mocks[m']? = w.mocks[m']?
  methods : ∀ off', off' ≠ off → stubbings w0 m off' = stubbings w m off' ∧ history w0 m off' = history w m off'
  recorded : history w0 m off = history w m off ++ [i]

/-- C35. A call of a spied method that its selected stubbing delegates (`Spy`, `SpyWithoutVerify`) runs the original implementation exactly once,
on the arguments of the call, in a world in which the call is already recorded; its outcome is the caller's; and afterwards, whatever the original
implementation did, the table entry of the method is what it was before, so that the next call is handled by the mock again. -/
theorem C35_spied_method_runs_the_original (hP : P.Named nm) {w w' : World V E} (hw : Reach P nm w) {m off : Nat} {k : Mock V E} (hk : w.mock? m = some k)
    (hspy : k.owner = false) (hoff : Plain (P.cls k.cls) off) {args : List (Arg V)} {h : Handler V E}
    (hsel : Selected (stubbings w m off) (valuesOf w.heap args) h) {i : Nat} {mv : Bool} (hfront : h.seq.front = .done (i, .deleg mv))
    {fuel : Nat} {o : Outcome V E} (hcall : callSlot P fuel w m off args = .done (o, w')) :
    ∃ fuel' w0 w1 x inv, Starts w w0 m off inv ∧ inv.uid = w.invTotal + 1 ∧ inv.args = kept P mv args ∧
      (∀ m' off', ∀ i ∈ history w' m' off', i.uid = w.invTotal + 1 → i.args = kept P mv args) ∧
      runBody P (callSlot P fuel') none args (P.fn ((P.cls k.cls).impl off) (valuesOf w.heap args)) w0 = .done (x, w1) ∧ o = seen x ∧
      w'.heap = w1.heap ∧ (∀ m', m' ≠ m → w'.mocks[m']? = w1.mocks[m']?) ∧ (∀ off', history w' m off' = history w1 m off') ∧
      ∃ k', w'.mocks[m]? = some k' ∧ k'.vt[off]? = k.vt[off]? := by
  cases fuel with
  | zero => simp [callSlot] at hcall
  | succ fuel =>
    have hcall0 := hcall
    obtain ⟨hk', hka⟩ := World.mock?_eq_some.1 hk
    cases hb : w.body? m off with
    | none => obtain ⟨older, newer, hst, -⟩ := hsel; simp [stubbings, hb] at hst
    | some b =>
      rw [stubbings_of hb] at hsel
      have hwf := hw.wf hP
      have t := hwf.steady.1.1 m k hk'
      rw [callSlot_live (hwf.steady.live hb hk' hoff)] at hcall
      have hfind : findHandler w.heap b.handlers (fresh w b args) = some h := by
        rw [findHandler_some _ _ rfl]; exact hsel
      rw [handleCall_eq, hfind] at hcall
      simp only [R.bind_eq_done] at hcall
      obtain ⟨⟨o1, w1⟩, hrun, hend⟩ := hcall
      simp only [runHandler, R.bind_eq_done] at hrun
      obtain ⟨⟨i', act'⟩, hfront', ⟨o2, w3⟩, hinv, w4, hfin, hend2⟩ := hrun
      rw [hfront] at hfront'
      simp only [R.done.injEq, Prod.mk.injEq] at hfront' hend2
      obtain ⟨rfl, rfl⟩ := hfront'
      obtain ⟨rfl, rfl⟩ := hend2
      generalize hwt : ((w.bumpInv.pushInv m off (recorded w b args h)).updSeq m off h.addr fun s => s.tick i) = wt at hinv
      have hbt : ∀ off', wt.body? m off' = if off = off' then (w.body? m off').map fun b' => { b' with invs := b'.invs ++ [recorded w b args h], handlers := b'.handlers.map (fun x => if x.addr == h.addr then { x with seq := x.seq.tick i } else x) }
          else w.body? m off' := by
        intro off'
        subst hwt
        simp only [World.updSeq, World.pushInv, World.body?_updBody, true_and]
        split
        · rw [Option.map_map]; rfl
        · rfl
      have hmt : ∀ m', m' ≠ m → wt.mocks[m']? = w.mocks[m']? := by
        intro m' hm'
        subst hwt
        simp only [World.updSeq, World.pushInv, World.updBody, World.mocks_updMock, if_neg (Ne.symm hm')]
        rfl
      obtain ⟨kt, hkt, hclst, hownt, hvtt, horit⟩ : ∃ kt, wt.mocks[m]? = some kt ∧ kt.cls = k.cls ∧ kt.owner = k.owner ∧ kt.vt = k.vt ∧ kt.orig = k.orig := by
        subst hwt
        refine ⟨_, mocks_updBody (mocks_updBody (w := w.bumpInv) hk' off _) off _, rfl, rfl, rfl, rfl⟩
      have hheapt : wt.heap = w.heap := by subst hwt; rfl
      have hlogt : wt.log = w.log := by subst hwt; rfl
      simp only [invokeAct] at hinv
      generalize hw0 : (if mv = true then wt.updInv m off (w.invTotal + 1) (fun i => { i with args := moveArgs P i.args }) else wt) = w0 at hinv
      obtain ⟨inv, huid, hargs, hhist, hoth⟩ : ∃ inv : Invocation V, inv.uid = w.invTotal + 1 ∧ inv.args = kept P mv args ∧ history w0 m off = history w m off ++ [inv] ∧
          ∀ off', off' ≠ off → w0.body? m off' = w.body? m off' := by
        subst hw0
        have hh : history wt m off = history w m off ++ [recorded w b args h] := by
          simp only [history, hbt, if_true, hb, Option.map_some]
        cases mv with
        | false => exact ⟨recorded w b args h, rfl, rfl, hh, fun off' ho => by rw [if_neg (by simp), hbt, if_neg (Ne.symm ho)]⟩
        | true =>
          refine ⟨{ recorded w b args h with args := moveArgs P args }, rfl, rfl, ?_, fun off' ho => ?_⟩
          · rw [if_pos rfl, history, World.updInv, World.body?_updBody, if_pos ⟨rfl, rfl⟩, hbt, if_pos rfl, hb]
            simp only [Option.map_some, history, hb, List.map_append, List.map_cons, List.map_nil]
            congr 1
            · conv => rhs; rw [← List.map_id b.invs]
              refine List.map_congr_left fun j hj => ?_
              have := (hwf.recs.ok m off b hb j hj).2.1
              rw [if_neg]
              · rfl
              · simp; omega
            · simp [recorded]
          · rw [if_pos rfl, World.updInv, World.body?_updBody, if_neg (by simp [Ne.symm ho]), hbt, if_neg (Ne.symm ho)]
      obtain ⟨k0, hk0, hcls0, hown0, hvt0, hori0⟩ : ∃ k0, w0.mocks[m]? = some k0 ∧ k0.cls = k.cls ∧ k0.owner = k.owner ∧ k0.vt = k.vt ∧ k0.orig = k.orig := by
        subst hw0
        split
        · exact ⟨_, mocks_updBody hkt off _, hclst, hownt, hvtt, horit⟩
        · exact ⟨kt, hkt, hclst, hownt, hvtt, horit⟩
      have hm0 : ∀ m', m' ≠ m → w0.mocks[m']? = w.mocks[m']? := by
        intro m' hm'
        rw [← hmt m' hm']
        subst hw0
        split
        · simp only [World.updInv, World.updBody, World.mocks_updMock, if_neg (Ne.symm hm')]
        · rfl
      have hheap0 : w0.heap = w.heap := by subst hw0; split <;> exact hheapt
      have hlog0 : w0.log = w.log := by subst hw0; split <;> exact hlogt
      have hdt : (P.cls k.cls).dtor ≠ some off := fun e => (hoff off e).1 rfl
      simp only [runDelegate, hk0, hcls0, if_neg hdt] at hinv
      split at hinv
      · rename_i fake orig hf ho
        simp only [R.bind_eq_done] at hinv
        obtain ⟨⟨o3, w5⟩, hc3, he3⟩ := hinv
        simp only [R.done.injEq, Prod.mk.injEq] at he3
        obtain ⟨rfl, rfl⟩ := he3
        have t0 : TableOk P (nm m) { k with vt := k.vt } := t
        have hgood : GoodArgs (fun _ _ uid l => uid = w.invTotal + 1 → l = kept P mv args) (w.invTotal + 1) w5 := by
          have S := stableX (P := P) (nm := nm) (fun _ _ uid l => uid = w.invTotal + 1 → l = kept P mv args) (w.invTotal + 1)
          have hq1 : Q2 P nm w (w.bumpInv.pushInv m off (recorded w b args h)) := stable2.push w m off b args h hwf.inv2 trivial hb hfind
          have hI1 := hq1.inv hwf.inv2
          have hIt : Inv2 P nm wt := by subst hwt; exact (stable2.tick _ m off h.addr i hI1 trivial).inv hI1
          have hI0 : Inv2 P nm w0 := by
            subst hw0
            split
            · exact (stable2.setArgs wt m off (w.invTotal + 1) args (moveArgs P) hIt trivial (keepsForm_move P args)).inv hIt
            · exact hIt
          have htot : w0.invTotal = w.invTotal + 1 := by
            subst hw0
            subst hwt
            split <;> rfl
          have hIX : IX P nm (w.invTotal + 1) w0 := ⟨hI0, Nat.le_of_eq htot.symm⟩
          refine (callSlot_stable S hP fuel _ _ _ _ _ _ (S.swapIn hIX trivial hk0 ho) trivial hc3).2 ?_
          intro m' off' b' hb' j hj _ hu
          rw [World.body?_setVt] at hb'
          by_cases hmm : m' = m
          · subst hmm
            by_cases hoo : off' = off
            · subst hoo
              have hj' : j ∈ history w0 m' off' := by rw [history_of hb']; exact hj
              rw [hhist] at hj'
              rcases List.mem_append.1 hj' with hj' | hj'
              · rw [history_of hb] at hj'
                have := (hwf.recs.ok m' off' b hb j hj').2.1
                omega
              · rw [List.mem_singleton.1 hj']; exact hargs
            · rw [hoth off' hoo] at hb'
              have := (hwf.recs.ok m' off' b' hb' j hj).2.1
              omega
          · have hb'' : w.body? m' off' = some b' := by
              rw [← hb']
              simp only [World.body?, hm0 m' hmm]
            have := (hwf.recs.ok m' off' b' hb'' j hj).2.1
            omega
        have hoc := (orig_code t (by rw [← hori0]; exact ho) (fun d hd => (hoff d hd).2) hdt).2 hspy
        subst hoc
        obtain ⟨fuel', rfl⟩ : ∃ fuel', fuel = fuel' + 1 := by
          cases fuel with
          | zero => simp [callSlot] at hc3
          | succ fuel => exact ⟨fuel, rfl⟩
        have hkin : (w0.setVt m off (.native ((P.cls k.cls).impl off))).mocks[m]? = some { k0 with vt := k0.vt.set off (.native ((P.cls k.cls).impl off)) } := by
          simp only [World.setVt, World.mocks_updMock, if_true, hk0, Option.map_some]
        have hvin : (k0.vt.set off (Code.native ((P.cls k.cls).impl off)))[off]? = some (.native ((P.cls k.cls).impl off)) := by
          rw [List.getElem?_set_self (lt_of_getElem?_some hf)]
        simp only [callSlot, hkin, hvin, runCode, derefAll_eq] at hc3
        rw [if_neg (by simp [hown0, hspy])] at hc3
        change runBody P _ none args (P.fn _ (valuesOf w0.heap args)) _ = _ at hc3
        rw [hheap0] at hc3
        have hrw' : w' = w4 ∨ ∃ e, w' = w4.fire e := by
          cases o3 with
          | noMore => simp only [unmatched, R.done.injEq, Prod.mk.injEq] at hend; exact .inr ⟨_, hend.2.symm⟩
          | _ => simp only [R.done.injEq, Prod.mk.injEq] at hend; exact .inl hend.2.symm
        have hos : o = seen o3 := by
          cases o3 with
          | noMore => simp only [unmatched, R.done.injEq, Prod.mk.injEq] at hend; exact hend.1.symm
          | _ => simp only [R.done.injEq, Prod.mk.injEq] at hend; exact hend.1.symm
        have hm' : w'.mocks = w4.mocks := by rcases hrw' with rfl | ⟨e, rfl⟩ <;> rfl
        have hh' : w'.heap = w4.heap := by rcases hrw' with rfl | ⟨e, rfl⟩ <;> rfl
        have hr' : Reach P nm w' := .step (fuel := fuel' + 1 + 1) (op := .call m off args) (out := .call o) hw trivial (by simp only [opStep, hcall0]; rfl)
        obtain ⟨s, rfl⟩ : ∃ s, w4 = (w5.setVt m off fake).updSeq m off h.addr (fun _ => s) := by
          exact worldFinally_updSeq hfin
        refine ⟨fuel', w0.setVt m off (.native ((P.cls k.cls).impl off)), w5, o3, inv, ⟨hheap0, hlog0, fun m' hm' => ?_, fun off' ho' => ?_, ?_⟩, huid, hargs, fun m1 off1 j hj hu => ?_, hc3, hos, hh', fun m1 hm1 => ?_, fun off1 => ?_, ?_⟩
        · simp only [World.setVt, World.mocks_updMock, if_neg (Ne.symm hm')]; exact hm0 m' hm'
        · have : (w0.setVt m off (.native ((P.cls k.cls).impl off))).body? m off' = w.body? m off' := by
            rw [← hoth off' ho']
            simp only [World.body?, hkin, hk0]; rfl
          simp only [stubbings, history, this, and_self]
        · rw [← hhist]
          have : (w0.setVt m off (.native ((P.cls k.cls).impl off))).body? m off = w0.body? m off := by
            simp only [World.body?, hkin, hk0]; rfl
          simp only [history, this]
        · have hb1 : w'.body? m1 off1 = ((w5.setVt m off fake).updSeq m off h.addr (fun _ => s)).body? m1 off1 := by simp only [World.body?, hm']
          obtain ⟨b', hb', hj'⟩ := mem_hist hj
          rw [hb1] at hb'
          have hg2 : GoodArgs (fun _ _ uid l => uid = w.invTotal + 1 → l = kept P mv args) (w.invTotal + 1) ((w5.setVt m off fake).updSeq m off h.addr (fun _ => s)) :=
            (hgood.same fun _ _ => World.body?_setVt _ _ _ _ _ _).updSeq _ _ _ _
          exact hg2 m1 off1 b' hb' j hj' (by omega) hu
        · rw [hm']; simp only [World.updSeq, World.updBody, World.setVt, World.mocks_updMock, if_neg (Ne.symm hm1)]
        · have hb1 : w'.body? m off1 = ((w5.setVt m off fake).updSeq m off h.addr (fun _ => s)).body? m off1 := by simp only [World.body?, hm']
          have hb2 : (w5.setVt m off fake).body? m off1 = w5.body? m off1 := by
            simp only [World.body?, World.setVt, World.mocks_updMock, if_true]
            cases w5.mocks[m]? <;> rfl
          simp only [history, hb1, World.updSeq, World.body?_updBody, hb2]
          by_cases ho1 : off = off1
          · subst ho1
            rw [if_pos ⟨trivial, rfl⟩]
            cases w5.body? m off <;> rfl
          · rw [if_neg (by simp [ho1])]
        · cases hk5 : w5.mocks[m]? with
          | none =>
            rcases worldFinally_done hfin with ⟨hd, _, hhd, -, -⟩ | ⟨-, ⟨x, hx, -⟩, -⟩
            · simp [World.handler?, World.body?, World.setVt, World.mocks_updMock, hk5] at hhd
            · simp [World.orphan?, World.setVt, World.mocks_updMock, hk5] at hx
          | some k5 =>
            have hk6 : w'.mocks[m]? = some (Mock.updBody { k5 with vt := k5.vt.set off fake } off fun b =>
                { b with handlers := b.handlers.map fun x => if x.addr == h.addr then { x with seq := s } else x }) := by
              rw [hm']
              exact mocks_updBody (by simp only [World.setVt, World.mocks_updMock, if_true, hk5, Option.map_some]) off _
            refine ⟨_, hk6, ?_⟩
            show (k5.vt.set off fake)[off]? = _
            have t' := (hr'.wf hP).steady.1.1 m _ hk6
            obtain ⟨k7, hk7, hc7, -⟩ := runOps_mono mono_dead (P := P) (fuel := fuel' + 1 + 1) (ops := [.call m off args]) (outs := [.call o]) (w := w) (w' := w')
              (by simp only [runOps, opStep, hcall0]; rfl) m k hk'
            have hlt : off < (k5.vt.set off fake).length := by
              have h1 := t'.vtlen
              rw [t'.orig_length, ← Option.some.inj (hk7.symm.trans hk6), hc7] at h1
              have h2 : off < (P.cls k.cls).size := by rw [← t.orig_length, ← t.vtlen, ← hvt0]; exact lt_of_getElem?_some hf
              have h3 : k7.vt = k5.vt.set off fake := by rw [Option.some.inj (hk7.symm.trans hk6)]; rfl
              rw [← h3, h1]; exact h2
            rw [← hvt0, hf]
            rw [List.length_set] at hlt
            rw [List.getElem?_set_self hlt]
      · cases hinv

namespace Demo

/-- Callables: 10 (the original method 0) calls method 0 of the same object again while its argument is positive; 11 throws. -/
def spyProg : Prog Nat Nat where
  fn f vs := match f with
    | 10 => if vs.sum = 0 then .done (.ret 100) else .call 0 0 [.val (vs.sum - 1)] fun o => .done o
    | 11 => .done (.exc 5)
    | f => .done (.ret f)
  cls _ := cls
  void := 0
  dfltExc := 99
  movedFrom _ := 0

theorem spyProg_named : spyProg.Named Demo.nm := by
  intro f vs
  simp only [spyProg]
  split
  · split
    · trivial
    · exact ⟨trivial, fun _ => trivial⟩
  · trivial
  · trivial

/-- A real object spied with `Spy(Method(mock, f0))` and `SpyWithoutVerify(Method(mock, f1))`. -/
def spy2Ops : List (Op Nat Nat) := [.api (.newSpy 0), .api (.spy false [tgt 0 0 .any]), .api (.spy true [tgt 0 1 .any])]

def spy2 : World Nat Nat := match runOps spyProg 5 (World.start heap0) spy2Ops with
  | .done (_, w) => w
  | _ => World.start heap0

theorem reach_spy2 : Reach spyProg Demo.nm spy2 := by
  refine Reach.run (fuel := 5) (w' := spy2) spy2Ops ?_ (.start heap0) rfl
  intro op h
  simp only [spy2Ops, List.mem_cons, List.not_mem_nil, or_false] at h
  rcases h with rfl | rfl | rfl <;> simp [Op.Within, Api.Named, Api.slots, SlotRef.Named, tgt, Demo.nm, intMax]

/-- The world after a call of the spied object. -/
def spyCalled (off x : Nat) : World Nat Nat := match callSlot spyProg 8 spy2 0 off [.val x] with
  | .done (_, w) => w
  | _ => World.start heap0

end Demo

/-- Case: the original of method 0 calls itself; the nested call runs the original too (and is not recorded: the method is not hooked while its
original runs). Afterwards the method is hooked again. -/
example : (history (Demo.spyCalled 0 2) 0 0).map (·.args) = [[.val 2]] ∧
    ∃ fuel' w0 w1 x inv, Starts Demo.spy2 w0 0 0 inv ∧ inv.uid = 1 ∧ inv.args = [.val 2] ∧
      (∀ m' off', ∀ i ∈ history (Demo.spyCalled 0 2) m' off', i.uid = 1 → i.args = [.val 2]) ∧
      runBody Demo.spyProg (callSlot Demo.spyProg fuel') none [.val 2] (Demo.spyProg.fn 10 [2]) w0 = .done (x, w1) ∧ .ret 100 = seen x ∧
      (Demo.spyCalled 0 2).heap = w1.heap ∧ (∀ m', m' ≠ 0 → (Demo.spyCalled 0 2).mocks[m']? = w1.mocks[m']?) ∧
      (∀ off', history (Demo.spyCalled 0 2) 0 off' = history w1 0 off') ∧
      ∃ k', (Demo.spyCalled 0 2).mocks[0]? = some k' ∧ k'.vt[0]? = some (Code.proxy 1) :=
  ⟨rfl, C35_spied_method_runs_the_original (w := Demo.spy2) Demo.spyProg_named Demo.reach_spy2 (m := 0) (off := 0) (k := Demo.spy2.mocks[0]) rfl rfl Demo.plain0 (args := [.val 2])
    (h := { addr := 1, matcher := { addr := 0, kind := .any }, seq := ActionSeq.ofActs [.deleg false] })
    ⟨[], [], rfl, trivial, by simp⟩ (i := 1) (mv := false) rfl (fuel := 8) (o := .ret 100) rfl⟩

/-- Case: the original of method 1 throws. -/
example : ∃ fuel' w0 w1 x inv, Starts Demo.spy2 w0 0 1 inv ∧ inv.uid = 1 ∧ inv.args = [.val (Demo.spyProg.movedFrom 2)] ∧
      (∀ m' off', ∀ i ∈ history (Demo.spyCalled 1 2) m' off', i.uid = 1 → i.args = [.val (Demo.spyProg.movedFrom 2)]) ∧
      runBody Demo.spyProg (callSlot Demo.spyProg fuel') none [.val 2] (Demo.spyProg.fn 11 [2]) w0 = .done (x, w1) ∧ .exc 5 = seen x ∧
      (Demo.spyCalled 1 2).heap = w1.heap ∧ (∀ m', m' ≠ 0 → (Demo.spyCalled 1 2).mocks[m']? = w1.mocks[m']?) ∧
      (∀ off', history (Demo.spyCalled 1 2) 0 off' = history w1 0 off') ∧
      ∃ k', (Demo.spyCalled 1 2).mocks[0]? = some k' ∧ k'.vt[1]? = some (Code.proxy 2) :=
  C35_spied_method_runs_the_original (w := Demo.spy2) Demo.spyProg_named Demo.reach_spy2 (m := 0) (off := 1) (k := Demo.spy2.mocks[0]) rfl rfl
    (by intro d hd; cases hd; decide) (args := [.val 2])
    (h := { addr := 3, matcher := { addr := 2, kind := .any }, seq := ActionSeq.ofActs [.deleg true] })
    ⟨[], [], rfl, trivial, by simp⟩ (i := 1) (mv := true) rfl (fuel := 8) (o := .exc 5) rfl

/-! ## C57 -/

/-- C57. A call of a spied method is recorded with the arguments it was made with, and whatever the original implementation does (calls of any mock,
assignments to its own parameters) they are still recorded when the call returns; with `SpyWithoutVerify` every by-value argument of the record has
been moved from. By-reference arguments are recorded as references in both cases. -/
theorem C57_spied_arguments_in_the_record (hP : P.Named nm) {w w' : World V E} (hw : Reach P nm w) {m off : Nat} {k : Mock V E} (hk : w.mock? m = some k)
    (hspy : k.owner = false) (hoff : Plain (P.cls k.cls) off) {args : List (Arg V)} {h : Handler V E}
    (hsel : Selected (stubbings w m off) (valuesOf w.heap args) h) {i : Nat} {mv : Bool} (hfront : h.seq.front = .done (i, .deleg mv))
    {fuel : Nat} {o : Outcome V E} (hcall : callSlot P fuel w m off args = .done (o, w')) :
    ∀ inv ∈ history w' m off, inv.uid = w.invTotal + 1 →
      inv.args.length = args.length ∧
      (mv = false → inv.args = args) ∧
      (mv = true → ∀ (j : Nat) v, args[j]? = some (Arg.val v) → inv.args[j]? = some (Arg.val (P.movedFrom v))) ∧
      (∀ (j : Nat) r, args[j]? = some (Arg.ref r) → inv.args[j]? = some (Arg.ref r)) := by
  obtain ⟨_, _, _, _, _, _, _, _, hall, _⟩ := C35_spied_method_runs_the_original hP hw hk hspy hoff hsel hfront hcall
  intro inv hi hu
  rw [hall m off inv hi hu]
  cases mv with
  | false => exact ⟨rfl, fun _ => rfl, by simp, fun _ _ hj => hj⟩
  | true =>
    refine ⟨by simp [kept], by simp, fun _ j v hj => ?_, fun j r hj => ?_⟩
    · simp [kept, hj]
    · simp [kept, hj]

/-- Case: after `SpyWithoutVerify`, the call made with 2 is recorded with the moved-from value; after `Spy`, with 2. -/
example : (history (Demo.spyCalled 1 2) 0 1).map (fun i => (i.uid, i.args)) = [(1, [.val (Demo.spyProg.movedFrom 2)])] ∧ Demo.spyProg.movedFrom 2 ≠ 2 ∧
    (history (Demo.spyCalled 0 2) 0 0).map (fun i => (i.uid, i.args)) = [(1, [.val 2])] ∧
    ∀ inv ∈ history (Demo.spyCalled 1 2) 0 1, inv.uid = 1 →
      inv.args.length = 1 ∧ (true = false → inv.args = [.val 2]) ∧
      (true = true → ∀ (j v : Nat), ([.val 2] : List (Arg Nat))[j]? = some (Arg.val v) → inv.args[j]? = some (Arg.val (Demo.spyProg.movedFrom v))) ∧
      (∀ (j : Nat) r, ([.val 2] : List (Arg Nat))[j]? = some (Arg.ref r) → inv.args[j]? = some (Arg.ref r)) :=
  ⟨rfl, by decide, rfl, C57_spied_arguments_in_the_record (w := Demo.spy2) Demo.spyProg_named Demo.reach_spy2 (m := 0) (off := 1) (k := Demo.spy2.mocks[0]) rfl rfl
    (by intro d hd; cases hd; decide) (args := [.val 2])
    (h := { addr := 3, matcher := { addr := 2, kind := .any }, seq := ActionSeq.ofActs [.deleg true] })
    ⟨[], [], rfl, trivial, by simp⟩ (i := 1) (mv := true) rfl (fuel := 8) (o := .exc 5) rfl⟩

/-! ## C36 -/

/-- Calls of an unmentioned method of a fake object are unexpected, of a spied object run the original. -/
theorem unmentioned_call {w : World V E} (hwf : Wf P nm w) {m off : Nat} {k : Mock V E} (hk : w.mock? m = some k) (hoff : Plain (P.cls k.cls) off)
    (hlt : off < (P.cls k.cls).size) (hb : w.body? m off = none) (args : List (Arg V)) (fuel : Nat) :
    (k.owner = true → ∃ w', callSlot P (fuel + 1) w m off args = .done (.unexpected, w')) ∧
    (k.owner = false → callSlot P (fuel + 1) w m off args = runBody P (callSlot P fuel) none args (P.fn ((P.cls k.cls).impl off) (valuesOf w.heap args)) w) := by
  have hk' := World.mock?_eq_some.1 hk
  have t := hwf.steady.1.1 m k hk'.1
  have hlv : off < k.vt.length := by rw [t.vtlen, t.orig_length]; exact hlt
  have hv := List.getElem?_eq_getElem hlv
  have hoc := orig_code t (t.unbound_entry hv (by simpa [World.body?, hk'.1] using hb) (fun d hd => (hoff d hd).2)) (fun d hd => (hoff d hd).2) (fun hd => (hoff _ hd).1 rfl)
  simp only [callSlot, hk'.1, hk'.2, hv]
  refine ⟨fun ho => ?_, fun ho => ?_⟩
  · rw [hoc.1 ho, if_neg (by simp)]
    exact ⟨_, rfl⟩
  · rw [hoc.2 ho, if_neg (by simp)]
    simp only [runCode, derefAll_eq]

/-- After mentioning an unmentioned method, every call of it is unexpected. -/
theorem mentioned_call (hP : P.Named nm) {w w1 : World V E} (hw : Reach P nm w) {m off ctr : Nat} {k : Mock V E} (hk : w.mock? m = some k)
    (hoff : Plain (P.cls k.cls) off) (hb : w.body? m off = none) (hnm : (SlotRef.meth off ctr).Named nm m) {out : ApiOut}
    (h : apiStep P w (.touch m (.meth off ctr)) = .done (w1, out)) (args : List (Arg V)) (fuel : Nat) :
    ∃ w2, callSlot P (fuel + 1) w1 m off args = .done (.unexpected, w2) := by
  have hw1 : Reach P nm w1 := .step (fuel := 0) (op := .api (.touch m (.meth off ctr))) (out := .api out) hw (by simpa [Op.Within, Api.Named, Api.slots] using hnm)
    (by simp only [opStep, h]; rfl)
  have hk' := World.mock?_eq_some.1 hk
  simp only [apiStep, touch, hk] at h
  cases hm : k.mocks[off]? with
  | none => simp [hm] at h
  | some o =>
    cases o with
    | some b => simp [World.body?, hk'.1, Mock.body?, hm] at hb
    | none =>
      simp only [hm] at h
      simp only [R.bind_eq_done] at h
      obtain ⟨r, hr, h⟩ := h
      simp only [R.done.injEq] at hr
      subst hr
      simp only [R.done.injEq, Prod.mk.injEq] at h
      obtain ⟨rfl, -⟩ := h
      have hk1 : ({ w.updMock m (·.bind off ctr (newBody w.methTotal)) with methTotal := w.methTotal + 1 } : World V E).mocks[m]? = some (k.bind off ctr (newBody w.methTotal)) := by
        show (w.updMock m _).mocks[m]? = _
        rw [World.mocks_updMock]; simp [hk'.1]
      have hb1 : ({ w.updMock m (·.bind off ctr (newBody w.methTotal)) with methTotal := w.methTotal + 1 } : World V E).body? m off = some (newBody w.methTotal) := by
        rw [World.body?, hk1]
        simp only [Option.bind_some, Mock.body?, Mock.bind]
        rw [List.getElem?_set_self (lt_of_getElem?_some hm)]; rfl
      exact ⟨_, call_unmatched ((hw1.wf hP).steady.live hb1 hk1 hoff) (by intro h hh; cases hh) fuel⟩

/-- C36 is false for spied objects: a method of a spied object that was never mentioned runs its original implementation; as soon as
`Method(spy, f)` has been written anywhere (for example `Verify(Method(spy, f)).Never()`), every call of it, whatever the arguments, is an
unexpected call. -/
theorem C36_mention_breaks_spied_method (hP : P.Named nm) {w w1 : World V E} (hw : Reach P nm w) {m off ctr : Nat} {k : Mock V E} (hk : w.mock? m = some k)
    (hspy : k.owner = false) (hoff : Plain (P.cls k.cls) off) (hb : w.body? m off = none) (hnm : (SlotRef.meth off ctr).Named nm m) {out : ApiOut}
    (h : apiStep P w (.touch m (.meth off ctr)) = .done (w1, out)) (args : List (Arg V)) (fuel : Nat) :
    callSlot P (fuel + 1) w m off args = runBody P (callSlot P fuel) none args (P.fn ((P.cls k.cls).impl off) (valuesOf w.heap args)) w ∧
    ∃ w2, callSlot P (fuel + 1) w1 m off args = .done (.unexpected, w2) := by
  refine ⟨(unmentioned_call (hw.wf hP) hk hoff ?_ hb args fuel).2 hspy, mentioned_call hP hw hk hoff hb hnm h args fuel⟩
  have t := (hw.wf hP).steady.1.1 m k (World.mock?_eq_some.1 hk).1
  simp only [apiStep, touch, hk] at h
  cases hm : k.mocks[off]? with
  | none => simp [hm] at h
  | some o => rw [← t.orig_length, ← (t.mlen (World.mock?_eq_some.1 hk).2).1]; exact lt_of_getElem?_some hm

/-- Case: the real object's method 1 returns 11; after it is mentioned, calls of it are unexpected. -/
example : Demo.outs (runOps Demo.prog 5 Demo.spied [.call 0 1 [.val 2], .api (.touch 0 (.meth 1 1)), .call 0 1 [.val 2]]) = [.call (.ret 11), .api .unit, .call .unexpected] ∧
    callSlot Demo.prog 5 Demo.spied 0 1 [.val 2] = runBody Demo.prog (callSlot Demo.prog 4) none [.val 2] (Demo.prog.fn 11 [2]) Demo.spied ∧
    ∃ w2, callSlot Demo.prog 5 (Demo.next Demo.spied (.api (.touch 0 (.meth 1 1)))) 0 1 [.val 2] = .done (.unexpected, w2) :=
  ⟨by decide +kernel, C36_mention_breaks_spied_method Demo.prog_named Demo.reach_spied (m := 0) (off := 1) (ctr := 1) (k := Demo.spied.mocks[0]) rfl rfl
    (by intro d hd; cases hd; decide) rfl (by simp [SlotRef.Named, Demo.nm, intMax]) (out := .unit) rfl [.val 2] 4⟩

/-- C36, partial: mentioning a method that was mentioned before (on whatever mock) changes nothing at all; and mentioning a method of a fake object for
the first time leaves its calls unexpected. -/
theorem C36_mention_keeps_behaviour_partial (hP : P.Named nm) {w w1 : World V E} (hw : Reach P nm w) {m off ctr : Nat} {k : Mock V E} (hk : w.mock? m = some k)
    (hoff : Plain (P.cls k.cls) off) (hnm : (SlotRef.meth off ctr).Named nm m) {out : ApiOut}
    (h : apiStep P w (.touch m (.meth off ctr)) = .done (w1, out)) :
    (w.body? m off ≠ none → w1 = w) ∧
    (w.body? m off = none → k.owner = true → ∀ args fuel, (∃ w2, callSlot P (fuel + 1) w m off args = .done (.unexpected, w2)) ∧
      ∃ w2, callSlot P (fuel + 1) w1 m off args = .done (.unexpected, w2)) := by
  have hk' := World.mock?_eq_some.1 hk
  have t := (hw.wf hP).steady.1.1 m k hk'.1
  have h0 := h
  simp only [apiStep, touch, hk] at h
  cases hm : k.mocks[off]? with
  | none => simp [hm] at h
  | some o =>
    refine ⟨fun hb => ?_, fun hb ho args fuel => ⟨(unmentioned_call (hw.wf hP) hk hoff ?_ hb args fuel).1 ho, mentioned_call hP hw hk hoff hb hnm h0 args fuel⟩⟩
    · cases o with
      | none => simp [World.body?, hk'.1, Mock.body?, hm] at hb
      | some b =>
        simp only [hm] at h
        simp only [R.bind_eq_done] at h
        obtain ⟨r, hr, h⟩ := h
        simp only [R.done.injEq] at hr
        subst hr
        simp only [R.done.injEq, Prod.mk.injEq] at h
        exact h.1.symm
    · rw [← t.orig_length, ← (t.mlen hk'.2).1]; exact lt_of_getElem?_some hm

/-- Case: method 0 of mock 0 was mentioned before, method 1 was not. -/
example : Demo.next Demo.w0 (.api (.touch 0 (.meth 0 0))) = Demo.w0 ∧ Demo.w0.body? 0 1 = none ∧
    (∃ w2, callSlot Demo.prog 5 Demo.w0 0 1 [.val 2] = .done (.unexpected, w2)) ∧
    ∃ w2, callSlot Demo.prog 5 (Demo.next Demo.w0 (.api (.touch 0 (.meth 1 1)))) 0 1 [.val 2] = .done (.unexpected, w2) :=
  ⟨(C36_mention_keeps_behaviour_partial Demo.prog_named Demo.reach_w0 (m := 0) (off := 0) (ctr := 0) (k := Demo.w0.mocks[0]) rfl Demo.plain0
      (by simp [SlotRef.Named, Demo.nm, intMax]) (out := .unit) rfl).1 (by rw [show Demo.w0.body? 0 0 = some _ from rfl]; simp), rfl,
    (C36_mention_keeps_behaviour_partial Demo.prog_named Demo.reach_w0 (m := 0) (off := 1) (ctr := 1) (k := Demo.w0.mocks[0]) rfl
      (by intro d hd; cases hd; decide) (by simp [SlotRef.Named, Demo.nm, intMax]) (out := .unit) rfl).2 rfl rfl [.val 2] 4⟩

end FakeIt
