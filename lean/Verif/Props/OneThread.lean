import Verif.Lemmas.OneThreadRun
import Verif.Lemmas.RefineTotal
import Verif.Props.Races
import Verif.Props.Refinement
/-!
# C90: threads see what single-threaded tests see

The operations as accesses to memory, on which the statements about threads (C87) rest, against the model of the whole library.
-/
namespace FakeIt.OneThread

open FakeIt.Spec

variable {V E : Type} {P : Prog V E} {cs : List (Nat × Bool)} {nm : MockId → Nat → Nat}

private theorem answers_append (orig : Nat → Nat → Races.Entry) (size : Nat → Nat) : ∀ (os os' : List (Races.Op V)) (s : Races.Spec.Mocks V),
    Races.Spec.answers orig size s (os ++ os') = ((Races.Spec.answers orig size s os).1 ++ (Races.Spec.answers orig size (Races.Spec.answers orig size s os).2 os').1,
      (Races.Spec.answers orig size (Races.Spec.answers orig size s os).2 os').2)
  | [], _, _ => rfl
  | o :: os, os', s => by
    simp only [List.cons_append, Races.Spec.answers]
    rw [answers_append orig size os os']

private theorem orig_ne (m k : Nat) : origOf cs m k ≠ .proxy := by
  rw [origOf]; split <;> simp

private theorem fits {st : Step V E} (h : st.Fit P cs) {μ : Races.Mem (List V)} (hμ : ∀ m, μ (.vecs m) = sizeOf P cs m) : Races.Spec.Fits μ (st.op P) := by
  obtain ⟨c, hc, hoff, _⟩ := h
  intro f hf
  rw [hμ, sizeOf]
  have h1 : Races.Spec.mockOf (st.op P) = st.mock := by cases st <;> rfl
  have h2 : st.meth = some f := by rw [← hf]; cases st <;> rfl
  rw [h1, hc]
  exact hoff f h2

private theorem fits_all {sts : List (Step V E)} (h : ∀ st ∈ sts, st.Fit P cs) {μ : Races.Mem (List V)} (hμ : ∀ m, μ (.vecs m) = sizeOf P cs m) :
    ∀ o, o ∈ sts.map (Step.op P) → Races.Spec.Fits μ o := by
  intro o ho
  obtain ⟨st, hst, rfl⟩ := List.mem_map.1 ho
  exact fits (h st hst) hμ

private theorem tame_plain (ht : Tame P cs) : P.Plain := by
  intro f vs
  obtain ⟨o, ho, _⟩ := ht.fn f vs
  generalize P.fn f vs = b at ho
  induction b with
  | done => trivial
  | setArg i v k ih => exact ih ho
  | call => cases ho
  | api => cases ho

private theorem fresh_view (orig : Nat → Nat → Races.Entry) (size : Nat → Nat) (a : List V) (s : AState V E) :
    Races.Spec.view (Races.Spec.fresh orig size a) = viewOf P (fun _ _ => none) s := by
  funext m k
  simp [Races.Spec.view, Races.Spec.fresh, viewOf]

private theorem whole (ht : Tame P cs) {sts : List (Step V E)} (hfit : ∀ st ∈ sts, st.Fit P cs)
    (hn : ∀ st ∈ sts, st.test.Within (Api.Named nm) fun _ _ => True) (hsm : 2 * (cs.length + sts.length) < wrap32) (heap : Addr → V) (fuel : Nat) (a : List V) :
    ∃ outs w, runOps P (fuel + 3) (World.start heap) (setup cs ++ sts.map Step.test) = .done (setupOuts cs ++ outs, w) ∧
      AllSame P cs (fun _ _ => []) sts (Races.Spec.answers (origOf cs) (sizeOf P cs) (Races.Spec.view (Races.Spec.fresh (origOf cs) (sizeOf P cs) a)) (sts.map (Step.op P))).1 outs ∧
      ∀ m off, recorded (Races.Spec.answers (origOf cs) (sizeOf P cs) (Races.Spec.view (Races.Spec.fresh (origOf cs) (sizeOf P cs) a)) (sts.map (Step.op P))).2 m off = recordedIn w m off := by
  obtain ⟨s0, h0, hh0, hI0⟩ := start_inv (P := P) (cs := cs) heap
  obtain ⟨T, s, outs, h1, hh, hI, h2, h3⟩ := steps_sim ht sts hI0 hfit
  have hrun := aRun_append (setup cs) (sts.map Step.test) h0 h1
  have hnamed : ∀ op ∈ setup cs ++ sts.map Step.test, op.Within (Api.Named nm) fun _ _ => True := by
    intro op hop
    rcases List.mem_append.1 hop with h | h
    · obtain ⟨c, _, rfl⟩ := List.mem_map.1 h
      by_cases hc : c.2 = true
      · simp [Op.Within, Api.Named, hc, Api.slots]
      · simp [Op.Within, Api.Named, hc, Api.slots]
    · obtain ⟨st, hst, rfl⟩ := List.mem_map.1 h
      exact hn st hst
  have hwr : ∀ op ∈ setup cs ++ sts.map Step.test, op.Within Api.Writes fun _ _ => True := by
    intro op hop
    rcases List.mem_append.1 hop with h | h
    · obtain ⟨c, _, rfl⟩ := List.mem_map.1 h
      by_cases hc : c.2 = true
      · simp [Op.Within, Api.Writes, hc]
      · simp [Op.Within, Api.Writes, hc]
    · obtain ⟨st, hst, rfl⟩ := List.mem_map.1 h
      cases st with
      | verify m off ctr kind q =>
        refine ⟨by simp, fun x hx => ?_⟩
        obtain rfl := List.mem_singleton.1 hx
        exact .method _
      | _ => trivial
  have hment : ∀ op ∈ (setup cs ++ sts.map Step.test : List (Op V E)), op.mentions ≤ 1 := by
    intro op hop
    rcases List.mem_append.1 hop with h | h
    · obtain ⟨c, _, rfl⟩ := List.mem_map.1 h
      by_cases hc : c.2 = true
      · simp [Op.mentions, hc, Api.slots]
      · simp [Op.mentions, hc, Api.slots]
    · obtain ⟨st, _, rfl⟩ := List.mem_map.1 h
      cases st <;> simp [Step.test, Op.mentions, Api.slots, verifyLeaves, aggregate, Source.leaves, Seq.expected]
  have hsum : ∀ l : List (Op V E), (∀ op ∈ l, op.mentions ≤ 1) → (l.map Op.mentions).sum ≤ l.length := by
    intro l
    induction l with
    | nil => simp
    | cons x l ih =>
      intro h
      have := h x (List.mem_cons_self ..)
      have := ih fun op hop => h op (List.mem_cons_of_mem _ hop)
      simp only [List.map_cons, List.sum_cons, List.length_cons]
      omega
  have hsmall : Small (setup cs ++ sts.map Step.test : List (Op V E)) := by
    have hlen : (setup cs ++ sts.map Step.test : List (Op V E)).length = cs.length + sts.length := by simp [setup]
    have := hsum _ hment
    refine ⟨by rw [hlen]; exact hsm, ?_⟩
    omega
  obtain ⟨w, hw, hag⟩ := C56_library_refines_abstract_mock (plain_named (tame_plain ht)) hnamed hwr hsmall hrun fuel
  rw [fresh_view (P := P) _ _ a s0]
  refine ⟨outs, w, hw, h3, fun m off => ?_⟩
  rw [h2, recordedIn, hag.heap]
  have hc := congrArg (List.map fun r : Rec V => (valuesOf s.heap r.args, r.verified)) (hag.calls m off)
  rw [List.map_map] at hc
  refine Eq.trans ?_ hc.symm
  rw [recorded, viewOf]
  cases hT : T m off with
  | none => rw [callsTo_nil hI hT]; rfl
  | some l => simp [callRec]

/-- One thread: what it does as accesses to memory can be done, and gives the results of the same steps in a single-threaded test, step by step: the same calls
are answered by the same stubbing's next action, by the object's own method, or are unexpected, the same verifications hold; and afterwards the same calls
are recorded, with the same arguments and the same marks. -/
theorem C90_one_thread_agrees (ht : Tame P cs) {sts : List (Step V E)} (hfit : ∀ st ∈ sts, st.Fit P cs)
    (hn : ∀ st ∈ sts, st.test.Within (Api.Named nm) fun _ _ => True) (hsm : 2 * (cs.length + sts.length) < wrap32) (heap : Addr → V) (fuel : Nat) (a : List V) :
    (∃ tr rs μ', Races.Spec.Alone (Races.thread (origOf cs) (sts.map (Step.op P))) (Races.Spec.fresh (origOf cs) (sizeOf P cs) a) tr (.ret rs) μ') ∧
    ∃ outs w, runOps P (fuel + 3) (World.start heap) (setup cs ++ sts.map Step.test) = .done (setupOuts cs ++ outs, w) ∧
      ∀ tr rs μ', Races.Spec.Alone (Races.thread (origOf cs) (sts.map (Step.op P))) (Races.Spec.fresh (origOf cs) (sizeOf P cs) a) tr (.ret rs) μ' →
        AllSame P cs (fun _ _ => []) sts rs outs ∧ ∀ m off, recorded (Races.Spec.view μ') m off = recordedIn w m off := by
  obtain ⟨outs, w, h1, h2, h3⟩ := whole ht hfit hn hsm heap fuel a
  have hs := (Races.C87_settled (orig := origOf cs) orig_ne (sizeOf P cs) a).1
  obtain ⟨hex, hall⟩ := Races.C87_alone_answers hs (fits_all hfit (μ := Races.Spec.fresh (origOf cs) (sizeOf P cs) a) fun _ => rfl)
  refine ⟨hex, outs, w, h1, fun tr rs μ' hal => ?_⟩
  have := hall tr rs μ' hal
  have e1 := congrArg Prod.fst this
  have e2 := congrArg Prod.snd this
  simp only at e1 e2
  exact ⟨by rw [e1]; exact h2, fun m off => by rw [e2]; exact h3 m off⟩

namespace Demo

/-- Classes with three methods; callable `0` assigns to its parameter. -/
def text : Prog Nat Nat where
  fn f _ := if f = 0 then .setArg 0 9 (.done (.ret 1)) else .done (.ret f)
  cls _ := { size := 3, dtor := none, dflt := fun _ => .value 0, impl := fun off => 100 + off, dataSize := 0 }
  void := 0
  dfltExc := 0
  movedFrom v := v

/-- Two mocks, the second one made for an object. -/
def two : List (Nat × Bool) := [(0, false), (0, true)]

theorem tame : Tame text two where
  dtor _ _ := rfl
  fn f vs := by
    by_cases h : f = 0
    · exact ⟨.ret 1, by simp [text, h, ends], .inl ⟨_, rfl⟩⟩
    · exact ⟨.ret f, by simp [text, h, ends], .inl ⟨_, rfl⟩⟩

def seven : MatcherKind Nat := .args [(· == 7)]

/-- First a method of each mock is stubbed. -/
def first : List (Step Nat Nat) := [.when_ 0 0 10 seven [.rep 2 (.ret 5), .rep 1 (.user 0)], .spy 1 1 21 .any]

/-- One thread uses up the actions. -/
def left : List (Step Nat Nat) := [.call 0 0 [7], .call 0 0 [7], .call 0 0 [7], .call 0 0 [7], .call 0 2 [7]]

/-- The other one calls the spy and a method nobody has named, verifies, stubs, resets. -/
def right : List (Step Nat Nat) :=
  [.call 1 1 [4], .call 1 0 [2], .verify 1 1 31 .any .once, .noOther 1, .fake 1 1 41 seven, .call 1 1 [7], .noOther 1, .clear 1, .noOther 1, .reset 1, .call 1 1 [4]]

theorem first_fit : ∀ st ∈ first, st.Fit text two := by
  intro st h
  simp only [first, List.mem_cons, List.not_mem_nil, or_false] at h
  rcases h with rfl | rfl
  · refine ⟨_, rfl, by simp [Step.meth, text], fun a ha => ?_⟩
    simp only [List.mem_cons, List.not_mem_nil, or_false] at ha
    rcases ha with rfl | rfl
    · exact .inl ⟨_, _, rfl, by decide⟩
    · exact .inl ⟨_, _, rfl, by decide⟩
  · exact ⟨_, rfl, by simp [Step.meth, text], rfl⟩

theorem left_fit : ∀ st ∈ left, st.Fit text two := by
  intro st h
  simp only [left, List.mem_cons, List.not_mem_nil, or_false] at h
  rcases h with rfl | rfl | rfl | rfl | rfl <;> exact ⟨_, rfl, by simp [Step.meth, text], trivial⟩

theorem right_fit : ∀ st ∈ right, st.Fit text two := by
  intro st h
  simp only [right, List.mem_cons, List.not_mem_nil, or_false] at h
  rcases h with rfl | rfl | rfl | rfl | rfl | rfl | rfl | rfl | rfl | rfl | rfl <;>
    exact ⟨_, rfl, by simp [Step.meth, text], by simp [text, expects]⟩

/-- Which method the places name. -/
def names (_ ctr : Nat) : Nat := ctr % 10

theorem first_named : ∀ st ∈ first, st.test.Within (Api.Named names) fun _ _ => True := by
  intro st h
  simp only [first, List.mem_cons, List.not_mem_nil, or_false] at h
  rcases h with rfl | rfl <;> simp [Step.test, Op.Within, Api.Named, Api.slots, SlotRef.Named, names, intMax]

theorem left_named : ∀ st ∈ left, st.test.Within (Api.Named names) fun _ _ => True := by
  intro st h
  simp only [left, List.mem_cons, List.not_mem_nil, or_false] at h
  rcases h with rfl | rfl | rfl | rfl | rfl <;> simp [Step.test, Op.Within]

theorem right_named : ∀ st ∈ right, st.test.Within (Api.Named names) fun _ _ => True := by
  intro st h
  simp only [right, List.mem_cons, List.not_mem_nil, or_false] at h
  rcases h with rfl | rfl | rfl | rfl | rfl | rfl | rfl | rfl | rfl | rfl | rfl <;>
    simp [Step.test, Op.Within, Api.Named, Api.slots, SlotRef.Named, names, intMax, verifyLeaves, aggregate, Source.leaves, Seq.expected]

theorem apart (known : Nat → Nat → Prop) : Races.Spec.Separate known ([left, right].map fun sts => sts.map (Step.op text)) := by
  intro i j os os' hij hi hj o ho o' ho'
  refine .inl ?_
  match i, j with
  | 0, 0 => exact absurd rfl hij
  | 1, 1 => exact absurd rfl hij
  | 0, 1 =>
    cases hi; cases hj
    simp only [left, right, List.map_cons, List.map_nil, List.mem_cons, List.not_mem_nil, or_false] at ho ho'
    rcases ho with rfl | rfl | rfl | rfl | rfl <;> rcases ho' with rfl | rfl | rfl | rfl | rfl | rfl | rfl | rfl | rfl | rfl | rfl <;>
      simp [Step.op, Races.Spec.mockOf]
  | 1, 0 =>
    cases hi; cases hj
    simp only [left, right, List.map_cons, List.map_nil, List.mem_cons, List.not_mem_nil, or_false] at ho ho'
    rcases ho' with rfl | rfl | rfl | rfl | rfl <;> rcases ho with rfl | rfl | rfl | rfl | rfl | rfl | rfl | rfl | rfl | rfl | rfl <;>
      simp [Step.op, Races.Spec.mockOf]
  | i + 2, _ => cases hi
  | _, j + 2 => cases hj

end Demo

/-- All the steps one after the other, in one thread. -/
example (heap : Addr → Nat) : ∃ outs w, runOps Demo.text 3 (World.start heap) (setup Demo.two ++ (Demo.first ++ Demo.left ++ Demo.right).map Step.test) =
    .done (setupOuts Demo.two ++ outs, w) :=
  let ⟨_, outs, w, h, _⟩ := C90_one_thread_agrees Demo.tame (sts := Demo.first ++ Demo.left ++ Demo.right)
    (fun st h => by
      rcases List.mem_append.1 h with h | h
      · exact (List.mem_append.1 h).elim (Demo.first_fit st) (Demo.left_fit st)
      · exact Demo.right_fit st h)
    (fun st h => by
      rcases List.mem_append.1 h with h | h
      · exact (List.mem_append.1 h).elim (Demo.first_named st) (Demo.left_named st)
      · exact Demo.right_named st h) (by decide) heap 0 []
  ⟨outs, w, h⟩

/-- Several threads: after steps made by one thread, threads start whose operations go together (C87).  Whatever the interleaving, a thread that has ended has the
results it has in a single-threaded test that makes the first steps and then this thread's; and the recorded calls of the methods the other threads leave
alone are those of that test. -/
theorem C90_threads_agree (ht : Tame P cs) {pre : List (Step V E)} {tss : List (List (Step V E))} (hpre : ∀ st ∈ pre, st.Fit P cs)
    (hfit : ∀ sts ∈ tss, ∀ st ∈ sts, st.Fit P cs) (hnp : ∀ st ∈ pre, st.test.Within (Api.Named nm) fun _ _ => True)
    (hn : ∀ sts ∈ tss, ∀ st ∈ sts, st.test.Within (Api.Named nm) fun _ _ => True) (hsm : ∀ sts ∈ tss, 2 * (cs.length + (pre.length + sts.length)) < wrap32)
    {a : List V} {tr : List Races.Spec.Access} {rs0 : List Races.Result} {μ : Races.Mem (List V)}
    (hal : Races.Spec.Alone (Races.thread (origOf cs) (pre.map (Step.op P))) (Races.Spec.fresh (origOf cs) (sizeOf P cs) a) tr (.ret rs0) μ)
    (hsep : Races.Spec.Separate (Races.Spec.Known μ) (tss.map fun sts => sts.map (Step.op P))) {c : Races.Spec.Config (List V) (List Races.Result)}
    (hc : Races.Spec.Steps (Races.Spec.start (origOf cs) μ (tss.map fun sts => sts.map (Step.op P))) c) (i : Nat) (sts : List (Step V E)) (hi : tss[i]? = some sts)
    (rs : List Races.Result) (hrs : c.ts[i]? = some (.ret rs)) (heap : Addr → V) (fuel : Nat) :
    ∃ outs w, runOps P (fuel + 3) (World.start heap) (setup cs ++ (pre ++ sts).map Step.test) = .done (setupOuts cs ++ outs, w) ∧
      AllSame P cs (fun _ _ => []) (pre ++ sts) (rs0 ++ rs) outs ∧
      ∀ m off, (∀ (j : Nat) sts', j ≠ i → tss[j]? = some sts' → ∀ st, st ∈ sts' → Races.Spec.Leaves m off (st.op P)) →
        recorded (Races.Spec.view c.mem) m off = recordedIn w m off := by
  have hmem := List.mem_of_getElem? hi
  obtain ⟨outs, w, h1, h2, h3⟩ := whole ht (sts := pre ++ sts)
    (fun st h => (List.mem_append.1 h).elim (hpre st) (hfit sts hmem st)) (fun st h => (List.mem_append.1 h).elim (hnp st) (hn sts hmem st))
    (by rw [List.length_append]; exact hsm sts hmem) heap fuel a
  have hs0 := (Races.C87_settled (orig := origOf cs) orig_ne (sizeOf P cs) a).1
  have hf0 := fits_all hpre (μ := Races.Spec.fresh (origOf cs) (sizeOf P cs) a) fun _ => rfl
  have hstl := ((Races.C87_settled (orig := origOf cs) orig_ne (sizeOf P cs) a).2 _ hs0 _ hf0 tr _ μ hal).2 rs0 rfl
  have hsize : ∀ m, μ (.vecs m) = sizeOf P cs m := fun m => hstl.2 m
  have hans := (Races.C87_alone_answers hs0 hf0).2 tr rs0 μ hal
  have hfits : ∀ os, os ∈ (tss.map fun sts => sts.map (Step.op P)) → ∀ o, o ∈ os → Races.Spec.Fits μ o := by
    intro os hos
    obtain ⟨sts', hm, rfl⟩ := List.mem_map.1 hos
    exact fits_all (hfit sts' hm) hsize
  have hthr := (Races.C87_as_if_alone_partial hstl.1 hfits hsep hc i (sts.map (Step.op P)) (by rw [List.getElem?_map, hi]; rfl)).2 rs hrs
  have hsz : (fun m => μ (.vecs m)) = sizeOf P cs := funext hsize
  have hfresh : (fun m => Races.Spec.fresh (origOf cs) (sizeOf P cs) a (.vecs m)) = sizeOf P cs := rfl
  rw [hsz] at hthr
  rw [hfresh] at hans
  rw [List.map_append, answers_append, ← hans] at h2 h3
  refine ⟨outs, w, h1, by rw [hthr.1]; exact h2, fun m off hl => ?_⟩
  rw [← h3 m off, recorded, recorded, hthr.2 m off ?_]
  intro j os' hji hj o ho
  rw [List.getElem?_map] at hj
  obtain ⟨sts', hs', rfl⟩ := Option.map_eq_some_iff.1 hj
  obtain ⟨st, hst, rfl⟩ := List.mem_map.1 ho
  exact hl j sts' hji hs' st hst

/-- The two threads above, however they are interleaved: the results of the first one are those of a single-threaded test. -/
example {tr : List Races.Spec.Access} {rs0 : List Races.Result} {μ : Races.Mem (List Nat)}
    (hal : Races.Spec.Alone (Races.thread (origOf Demo.two) (Demo.first.map (Step.op Demo.text))) (Races.Spec.fresh (origOf Demo.two) (sizeOf Demo.text Demo.two) []) tr (.ret rs0) μ)
    {c : Races.Spec.Config (List Nat) (List Races.Result)}
    (hc : Races.Spec.Steps (Races.Spec.start (origOf Demo.two) μ ([Demo.left, Demo.right].map fun sts => sts.map (Step.op Demo.text))) c)
    (rs : List Races.Result) (hrs : c.ts[0]? = some (.ret rs)) (heap : Addr → Nat) :
    ∃ outs w, runOps Demo.text 3 (World.start heap) (setup Demo.two ++ (Demo.first ++ Demo.left).map Step.test) = .done (setupOuts Demo.two ++ outs, w) ∧
      AllSame Demo.text Demo.two (fun _ _ => []) (Demo.first ++ Demo.left) (rs0 ++ rs) outs ∧
      recorded (Races.Spec.view c.mem) 0 0 = recordedIn w 0 0 := by
  obtain ⟨outs, w, h1, h2, h3⟩ := C90_threads_agree Demo.tame (tss := [Demo.left, Demo.right]) Demo.first_fit
    (fun sts h => by
      simp only [List.mem_cons, List.not_mem_nil, or_false] at h
      rcases h with rfl | rfl
      · exact Demo.left_fit
      · exact Demo.right_fit) Demo.first_named
    (fun sts h => by
      simp only [List.mem_cons, List.not_mem_nil, or_false] at h
      rcases h with rfl | rfl
      · exact Demo.left_named
      · exact Demo.right_named)
    (fun sts h => by
      simp only [List.mem_cons, List.not_mem_nil, or_false] at h
      rcases h with rfl | rfl <;> decide) hal (Demo.apart _) hc 0 _ rfl rs hrs heap 0
  refine ⟨outs, w, h1, h2, h3 0 0 fun j sts' hj hs st hst => ?_⟩
  match j with
  | 0 => exact absurd rfl hj
  | 1 =>
    cases hs
    simp only [Demo.right, List.mem_cons, List.not_mem_nil, or_false] at hst
    rcases hst with rfl | rfl | rfl | rfl | rfl | rfl | rfl | rfl | rfl | rfl | rfl <;> simp [Step.op, Races.Spec.Leaves]
  | j + 2 => cases hs

end FakeIt.OneThread
