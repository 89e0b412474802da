import Verif.Lemmas.HistKeep
import Verif.Lemmas.ArgsKeep
import Verif.Props.Demo
/-!
# C08 - C11: what is recorded
-/
namespace FakeIt
variable {V E : Type} {P : Prog V E} {nm : MockId → Nat → Nat}
open Spec

/-- The program's callables name methods consistently and never reset, clear or destroy mock `m`; apart from that they may do anything, in
particular call the mock again. -/
def Spec.KeepsHistory (P : Prog V E) (nm : MockId → Nat → Nat) (m : MockId) : Prop :=
  P.Within (fun a => a.Named nm ∧ a.KeepsHistory m) (fun _ _ => True)

/-- In addition the callables never call method `off` of mock `m`. -/
def Spec.KeepsHistoryStrictly (P : Prog V E) (nm : MockId → Nat → Nat) (c : ClassDecl V) (m : MockId) (off : Nat) : Prop :=
  P.Within (fun a => a.Named nm ∧ a.KeepsHistory m) (Apart c m off)

theorem Spec.KeepsHistory.named {m : MockId} (h : KeepsHistory P nm m) : P.Named nm :=
  fun f vs => (h f vs).mono (fun _ ha => ha.1) (fun _ _ _ => trivial)

theorem Spec.KeepsHistoryStrictly.named {c : ClassDecl V} {m : MockId} {off : Nat} (h : KeepsHistoryStrictly P nm c m off) : P.Named nm :=
  fun f vs => (h f vs).mono (fun _ ha => ha.1) (fun _ _ _ => trivial)

/-- The record of a call made in world `w` with `args`: number, arguments, not verified. -/
structure Spec.Records (w : World V E) (args : List (Arg V)) (i : Invocation V) : Prop where
  number : i.uid = w.invTotal + 1
  args : i.args = args
  unverified : i.verified = false

theorem call_hist {strict : Prop} {m off : Nat} {w w' : World V E} {k : Mock V E}
    (hP : P.Within (fun a => a.Named nm ∧ a.KeepsHistory m) (fun m' off' => strict → Apart (P.cls k.cls) m off m' off'))
    (hN : P.Named nm) (hw : Reach P nm w)
    (hk : w.mock? m = some k) (hoff : Plain (P.cls k.cls) off) {args : List (Arg V)} {h : Handler V E}
    (hsel : Selected (stubbings w m off) (valuesOf w.heap args) h) {fuel : Nat} {o : Outcome V E}
    (hcall : callSlot P fuel w m off args = .done (o, w')) :
    ∃ i, Records w args i ∧ Extends (history w m off ++ [i]) (history w' m off) ∧
      (strict → (history w' m off).length = (history w m off).length + 1) := by
  cases fuel with
  | zero => simp [callSlot] at hcall
  | succ fuel =>
    have hk' := (World.mock?_eq_some.1 hk).1
    cases hb : w.body? m off with
    | none => obtain ⟨older, newer, hst, -⟩ := hsel; simp [stubbings, hb] at hst
    | some b =>
      rw [show stubbings w m off = b.handlers by simp [stubbings, hb]] at hsel
      have hwf := hw.wf hN
      obtain ⟨-, b', hb', he, hl⟩ := call_records hP hwf.inv2 (hwf.steady.live hb hk' hoff) hk' rfl
        (fun d hd => (hoff d hd).2) hsel hcall
      rw [history_of hb, history_of hb']
      exact ⟨recorded w b args h, ⟨rfl, rfl, rfl⟩, he, hl⟩

/-! ## Demonstration programs -/
namespace Demo

/-- The original method 0, callable 20: calls method 0 of mock 0 again while the stub for 7 runs. -/
def reProg : Prog Nat Nat := { prog with fn := fun f vs => if f = 20 then .call 0 0 [.val 3] fun o => .done o else prog.fn f vs }

theorem prog_keeps : KeepsHistory prog nm 0 := by
  intro f vs
  match f with
  | 0 => trivial
  | 1 => exact ⟨trivial, fun _ => trivial⟩
  | 2 => trivial
  | 3 => trivial
  | _ + 4 => trivial

theorem prog_keepsStrictly : KeepsHistoryStrictly prog nm cls 0 0 := by
  intro f vs
  match f with
  | 0 => trivial
  | 1 => exact ⟨(by intro h; cases h), fun _ => trivial⟩
  | 2 => trivial
  | 3 => trivial
  | _ + 4 => trivial

theorem reProg_keeps : KeepsHistory reProg nm 0 := by
  intro f vs
  by_cases hf : f = 20
  · simp only [reProg, hf, if_true]; exact ⟨trivial, fun _ => trivial⟩
  · simp only [reProg, if_neg hf]; exact prog_keeps f vs

theorem plain0 : Plain cls 0 := by intro d hd; cases hd; decide

end Demo

theorem extends_last {l : List (Invocation V)} {i : Invocation V} {l' : List (Invocation V)} (h : Extends (l ++ [i]) l') :
    ∃ i', l'[l.length]? = some i' ∧ Same i i' := by
  induction l generalizing l' with
  | nil => cases h with | cons hs _ => exact ⟨_, rfl, hs⟩
  | cons x l ih =>
    cases h with
    | cons _ ht =>
      obtain ⟨i', h1, h2⟩ := ih ht
      exact ⟨i', by simpa using h1, h2⟩

/-! ## C08 -/

/-- C08: a call accepted by some stubbing is recorded, with its arguments and not verified, right after the calls recorded before it; whatever is
recorded while its action runs (nested, also re-entrant, calls) comes after it. This holds whether the action returns, throws or turns out to be
exhausted (`o` is arbitrary). -/
theorem C08_handled_call_is_recorded {m off : Nat} (hP : KeepsHistory P nm m) {w w' : World V E} (hw : Reach P nm w) {k : Mock V E}
    (hk : w.mock? m = some k) (hoff : Plain (P.cls k.cls) off) {args : List (Arg V)} {h : Handler V E}
    (hsel : Selected (stubbings w m off) (valuesOf w.heap args) h) {fuel : Nat} {o : Outcome V E}
    (hcall : callSlot P fuel w m off args = .done (o, w')) :
    ∃ i, Records w args i ∧ Extends (history w m off ++ [i]) (history w' m off) := by
  have hP' : P.Within (fun a => a.Named nm ∧ a.KeepsHistory m) (fun m' off' => False → Apart (P.cls k.cls) m off m' off') :=
    fun f vs => (hP f vs).mono (fun _ h => h) (fun _ _ _ h => h.elim)
  obtain ⟨i, hi, he, -⟩ := call_hist (strict := False) hP' hP.named hw hk hoff hsel hcall
  exact ⟨i, hi, he⟩

/-- Case: the stub for 7 calls the method again with 3; the outer call is recorded first, the nested one after it. -/
example : ∃ w w' o, callSlot Demo.reProg 5 w 0 0 [.val 7] = .done (o, w') ∧ (history w 0 0).map (·.args) = [] ∧
    (history w' 0 0).map (·.args) = [[.val 7], [.val 3]] ∧ ∃ i, Records w [.val 7] i ∧ Extends (history w 0 0 ++ [i]) (history w' 0 0) := by
  have hw : Reach Demo.reProg Demo.nm (Demo.next Demo.w0 (.api (.when_ (Demo.tgt 0 0 (Demo.eq 7)) [.rep 1 (.user 20)] false))) := by
    refine Reach.run (fuel := 5) (outs := _) (Demo.ops0 ++ [.api (.when_ (Demo.tgt 0 0 (Demo.eq 7)) [.rep 1 (.user 20)] false)]) ?_ (.start Demo.heap0) rfl
    intro op h
    simp only [Demo.ops0, List.cons_append, List.nil_append, List.mem_cons, List.not_mem_nil, or_false] at h
    rcases h with rfl | rfl | rfl | rfl | rfl <;> simp [Op.Within, Api.Named, Api.slots, SlotRef.Named, Demo.tgt, Demo.nm, intMax]
  exact ⟨_, _, .ret 1, rfl, rfl, rfl, C08_handled_call_is_recorded Demo.reProg_keeps hw rfl Demo.plain0 (h := _)
    ⟨[_], [], rfl, Demo.accepts_eq.2 rfl, by simp⟩ (fuel := 5) (o := .ret 1) rfl⟩

/-- C08: exactly one record, if the callables do not call the method themselves. -/
theorem C08_recorded_exactly_once {m off : Nat} {w w' : World V E} {k : Mock V E} (hP : KeepsHistoryStrictly P nm (P.cls k.cls) m off)
    (hw : Reach P nm w) (hk : w.mock? m = some k) (hoff : Plain (P.cls k.cls) off) {args : List (Arg V)} {h : Handler V E}
    (hsel : Selected (stubbings w m off) (valuesOf w.heap args) h) {fuel : Nat} {o : Outcome V E}
    (hcall : callSlot P fuel w m off args = .done (o, w')) :
    ∃ i, Records w args i ∧ Extends (history w m off ++ [i]) (history w' m off) ∧
      (history w' m off).length = (history w m off).length + 1 := by
  have hP' : P.Within (fun a => a.Named nm ∧ a.KeepsHistory m) (fun m' off' => True → Apart (P.cls k.cls) m off m' off') :=
    fun f vs => (hP f vs).mono (fun _ h => h) (fun _ _ h _ => h)
  obtain ⟨i, hi, he, hl⟩ := call_hist (strict := True) hP' hP.named hw hk hoff hsel hcall
  exact ⟨i, hi, he, hl trivial⟩

/-- Case: a call that is exhausted (empty script) is recorded all the same. -/
example : callSlot Demo.prog 5 (Demo.w1 []) 0 0 [.val 7] = .done (.unexpected, Demo.called (Demo.w1 []) 0 0 [.val 7]) ∧
    ∃ i, Records (Demo.w1 []) [.val 7] i ∧ Extends (history (Demo.w1 []) 0 0 ++ [i]) (history (Demo.called (Demo.w1 []) 0 0 [.val 7]) 0 0) ∧
      (history (Demo.called (Demo.w1 []) 0 0 [.val 7]) 0 0).length = (history (Demo.w1 []) 0 0).length + 1 :=
  ⟨rfl, C08_recorded_exactly_once (k := (Demo.w1 []).mocks[0]) Demo.prog_keepsStrictly (Demo.reach_w1 []) rfl Demo.plain0
    ⟨[_], [], rfl, Demo.accepts_eq.2 rfl, by simp⟩ (fuel := 5) (o := .unexpected) rfl⟩

/-- C08: a call no stubbing accepts (in particular a call of a method that was never mentioned) is recorded nowhere. -/
theorem C08_unaccepted_call_is_not_recorded (hP : P.Named nm) {m off : Nat} {w w' : World V E} (hw : Reach P nm w) {k : Mock V E}
    (hk : w.mock? m = some k) (hoff : Plain (P.cls k.cls) off) (hown : k.owner = true ∨ w.body? m off ≠ none) {args : List (Arg V)}
    (hn : NoneAccepts (stubbings w m off) (valuesOf w.heap args)) {fuel : Nat} {o : Outcome V E}
    (hcall : callSlot P fuel w m off args = .done (o, w')) : ∀ m' off', history w' m' off' = history w m' off' := by
  cases fuel with
  | zero => simp [callSlot] at hcall
  | succ fuel =>
    have hk' := World.mock?_eq_some.1 hk
    have hwf := hw.wf hP
    cases hb : w.body? m off with
    | some b =>
      rw [show stubbings w m off = b.handlers by simp [stubbings, hb]] at hn
      rw [call_unmatched (args := args) (hwf.steady.live hb hk'.1 hoff) hn] at hcall
      simp only [R.done.injEq, Prod.mk.injEq] at hcall
      intro m' off'
      rw [← hcall.2]; rfl
    | none =>
      have hown := hown.resolve_right (by simp [hb])
      have t := hwf.steady.1.1 m k hk'.1
      simp only [callSlot, hk'.1, hk'.2] at hcall
      cases hv : k.vt[off]? with
      | none => simp [hv] at hcall
      | some x =>
        have hx : x = .unmocked := (orig_code t
          (t.unbound_entry hv (by simpa [World.body?, hk'.1] using hb) (fun d hd => (hoff d hd).2))
          (fun d hd => (hoff d hd).2) (fun hd => (hoff _ hd).1 rfl)).1 hown
        subst hx
        simp only [hv, runCode, unmockedCall] at hcall
        simp at hcall
        intro m' off'
        rw [← hcall.2]; rfl

/-- Case: method 1 of mock 0 was never mentioned. -/
example : callSlot Demo.prog 5 Demo.w0 0 1 [] = .done (.unexpected, Demo.called Demo.w0 0 1 []) ∧
    ∀ m' off', history (Demo.called Demo.w0 0 1 []) m' off' = history Demo.w0 m' off' :=
  ⟨rfl, C08_unaccepted_call_is_not_recorded Demo.prog_named Demo.reach_w0 (m := 0) (off := 1) rfl (by intro d hd; cases hd; decide) (.inl rfl)
    (args := []) (fun h hh => by cases hh) (fuel := 5) (o := .unexpected) rfl⟩

/-! ## C09 -/

/-- C09: as long as neither the test nor its callables reset, clear or destroy the mock, the history of each of its methods only grows: nothing is
removed, reordered or un-verified. -/
theorem C09_history_append_only {m off : Nat} (hP : KeepsHistory P nm m) {w w' : World V E} (hw : Reach P nm w) {ops : List (Op V E)}
    (hops : ∀ op ∈ ops, op.Within (fun a => a.Named nm ∧ a.KeepsHistory m) (fun _ _ => True)) {fuel : Nat} {outs : List (OpOut V E)}
    (hrun : runOps P fuel w ops = .done (outs, w')) : Extends (history w m off) (history w' m off) := by
  cases hb : w.body? m off with
  | none => simp only [history, hb]; exact .nil _
  | some b =>
    obtain ⟨k, hk, -⟩ : ∃ k, w.mocks[m]? = some k ∧ True := by
      simp only [World.body?, Option.bind_eq_some_iff] at hb
      obtain ⟨k, hk, -⟩ := hb
      exact ⟨k, hk, trivial⟩
    have hwf := hw.wf hP.named
    have hP' : P.Within (fun a => a.Named nm ∧ a.KeepsHistory m) (fun m' off' => False → Apart (P.cls k.cls) m off m' off') :=
      fun f vs => (hP f vs).mono (fun _ h => h) (fun _ _ _ h => h.elim)
    have hq := runOps_stable (stableH (P := P) (nm := nm) False (P.cls k.cls) m off) hP' fuel ops
      (fun op hop => by
        have := hops op hop
        cases op with
        | call m' off' args => exact fun h => h.elim
        | api a => exact this) w outs w' ⟨hwf.inv2, ⟨k, hk, rfl⟩, b, hb⟩ hrun
    obtain ⟨b', hb', he, -⟩ := hq.2 b hb
    rw [history_of hb, history_of hb']
    exact he

/-- Case: three more calls and a verification. -/
example : Extends (history (Demo.called (Demo.w1 Demo.acts1) 0 0 [.val 7]) 0 0)
    (history (Demo.called (Demo.called (Demo.called (Demo.w1 Demo.acts1) 0 0 [.val 7]) 0 0 [.val 3]) 1 1 [.val 7]) 0 0) :=
  C09_history_append_only Demo.prog_keeps
    (.step (fuel := 5) (op := .call 0 0 [.val 7]) (out := .call (.ret 5)) (Demo.reach_w1 Demo.acts1) trivial rfl)
    (ops := [.call 0 0 [.val 3], .call 1 1 [.val 7]])
    (by intro op h; simp only [List.mem_cons, List.not_mem_nil, or_false] at h; rcases h with rfl | rfl <;> trivial)
    (fuel := 5) (outs := [.call (.ret 1), .call (.ret 0)]) rfl

/-! ## C10 -/

/-- Same number of arguments, by-reference arguments refer to the same objects; by-value ones may have other values. -/
def Spec.SameShape (a b : List (Arg V)) : Prop :=
  a.length = b.length ∧ ∀ i : Nat, ∀ r : Addr, a[i]? = some (.ref r) ↔ b[i]? = some (.ref r)

theorem sameShape_of_form {a b : List (Arg V)} (h : form a = form b) : SameShape a b := by
  have hl : a.length = b.length := by simpa [form] using congrArg List.length h
  refine ⟨hl, fun i r => ?_⟩
  have hi := congrArg (fun l => l[i]?) h
  simp only [form, List.getElem?_map] at hi
  cases ha : a[i]? with
  | none =>
    rw [ha] at hi
    cases hb : b[i]? with
    | none => simp
    | some y => simp [hb] at hi
  | some x =>
    rw [ha] at hi
    cases hb : b[i]? with
    | none => simp [hb] at hi
    | some y =>
      rw [hb] at hi
      cases x <;> cases y <;> simp at hi ⊢
      rw [hi]

/-- C10: once a call is over, nothing the test does - writing to its variables, further (re-entrant) calls, stubbing, verifying - changes the recorded
arguments of that call: by-value arguments keep their values, by-reference ones keep referring to the same objects. -/
theorem C10_recorded_arguments_are_fixed (hP : P.Named nm) {w w' : World V E} (hw : Reach P nm w) {ops : List (Op V E)}
    (hops : ∀ op ∈ ops, op.Within (Api.Named nm) (fun _ _ => True)) {fuel : Nat} {outs : List (OpOut V E)}
    (hrun : runOps P fuel w ops = .done (outs, w')) {m off m' off' : Nat} {i i' : Invocation V} (hi : i ∈ history w m off)
    (hi' : i' ∈ history w' m' off') (hu : i'.uid = i.uid) : i'.args = i.args := by
  have hwf := hw.wf hP
  have hwf' := (Reach.run ops hops hw hrun).wf hP
  let X : MockId → Nat → Nat → List (Arg V) → Prop := fun _ _ uid l => uid = i.uid → l = i.args
  have hq := runOps_stable (stableX (P := P) (nm := nm) X w.invTotal) hP fuel ops hops w outs w' ⟨hwf.inv2, Nat.le_refl _⟩ hrun
  have mem_hist : ∀ (w : World V E) m off (i : Invocation V), i ∈ history w m off → ∃ b, w.body? m off = some b ∧ i ∈ b.invs := by
    intro w m off i h
    unfold history at h
    split at h
    · cases h
    · exact ⟨_, by assumption, h⟩
  obtain ⟨b, hb, hib⟩ := mem_hist w m off i hi
  obtain ⟨b', hb', hib'⟩ := mem_hist w' m' off' i' hi'
  have hok := (hwf.recs.ok m off b hb i hib).2.1
  refine hq.2 ?_ m' off' b' hb' i' hib' (by omega) hu
  intro m2 off2 b2 hb2 j hj _ he
  obtain ⟨rfl, rfl⟩ := hwf.recs.cross m2 off2 b2 m off b j i hb2 hb hj hib he
  rw [hb] at hb2; cases hb2
  have hs := hwf.recs.sorted m2 off2 b hb
  -- equal numbers in one history: the same element
  have : j = i := by
    have hnd : (b.invs.map (·.uid)).Nodup := by
      rw [List.Nodup, List.pairwise_map]
      exact hs.imp fun h => Nat.ne_of_lt h
    exact eq_of_map_nodup hnd hj hib he
  rw [this]

/-- C10: when a later verification asks whether a matcher (other than the very object of the stubbing that served the call) accepts a recorded
invocation, by-value arguments have the recorded value, by-reference ones the value the object has at that time. -/
theorem C10_verified_against (hP : P.Named nm) {w w' : World V E} (hw : Reach P nm w) {ops : List (Op V E)}
    (hops : ∀ op ∈ ops, op.Within (Api.Named nm) (fun _ _ => True)) {fuel : Nat} {outs : List (OpOut V E)}
    (hrun : runOps P fuel w ops = .done (outs, w')) {m off m' off' : Nat} {i i' : Invocation V} (hi : i ∈ history w m off)
    (hi' : i' ∈ history w' m' off') (hu : i'.uid = i.uid) {addr : Option Addr} {kind : MatcherKind V} (ha : i'.matcher ≠ addr ∨ addr = none) :
    matcherMatches addr kind w'.heap i' = true ↔ Accepts kind (valuesOf w'.heap i.args) := by
  have he := C10_recorded_arguments_are_fixed hP hw hops hrun hi hi' hu
  rw [matcherMatches_iff, he]
  rintro ⟨h1, h2⟩
  rcases ha with h | h
  · exact h h2
  · simp [h] at h1

/-- C10: what is recorded when the call is over. By-reference arguments refer to the caller's objects; by-value arguments have the values passed,
unless the action is a user callable (which may change its own copies) or moves them away (`SpyWithoutVerify`). -/
theorem C10_call_records_arguments (hP : P.Named nm) {w w' : World V E} (hw : Reach P nm w) {m off : Nat} {k : Mock V E}
    (hk : w.mock? m = some k) (hoff : Plain (P.cls k.cls) off) {args : List (Arg V)} {h : Handler V E}
    (hsel : Selected (stubbings w m off) (valuesOf w.heap args) h) {fuel : Nat} {o : Outcome V E}
    (hcall : callSlot P fuel w m off args = .done (o, w')) {m' off' : Nat} {i : Invocation V} (hi : i ∈ history w' m' off')
    (hu : i.uid = w.invTotal + 1) :
    SameShape i.args args ∧ ((∀ j act, h.seq.front = .done (j, act) → ¬ act.Writes) → i.args = args) := by
  cases fuel with
  | zero => simp [callSlot] at hcall
  | succ fuel =>
    have hk' := (World.mock?_eq_some.1 hk).1
    cases hb : w.body? m off with
    | none => obtain ⟨older, newer, hst, -⟩ := hsel; simp [stubbings, hb] at hst
    | some b =>
      rw [show stubbings w m off = b.handlers by simp [stubbings, hb]] at hsel
      have hwf := hw.wf hP
      have hlive := hwf.steady.live hb hk' hoff
      obtain ⟨b', hb', hi'⟩ : ∃ b', w'.body? m' off' = some b' ∧ i ∈ b'.invs := by
        unfold history at hi
        split at hi
        · cases hi
        · exact ⟨_, by assumption, hi⟩
      constructor
      · apply sameShape_of_form
        exact call_args hP hwf.inv2 hlive hsel (fun l => form l = form args) rfl (fun _ _ _ _ l f hf hl => hf l hl) hcall m' off' b' hb' i hi' hu
      · intro hnw
        exact call_args hP hwf.inv2 hlive hsel (fun l => l = args) rfl (fun j act hfr hwr => absurd hwr (hnw j act hfr)) hcall m' off' b' hb' i hi' hu

/-- Case: variable 5 is passed by reference, 3 by value; afterwards the test writes 9 to the variable. The by-value argument is still 3, the other one
is now 9. -/
example : ∃ (w w' : World Nat Nat) (i : Invocation Nat), Reach Demo.prog Demo.nm w ∧ i ∈ history w 0 0 ∧ i.args = [.val 3, .ref 5] ∧
    runOps Demo.prog 5 w [.api (.write 5 9)] = .done ([.api .unit], w') ∧ valuesOf w.heap i.args = [3, 0] ∧ valuesOf w'.heap i.args = [3, 9] :=
  ⟨Demo.called Demo.w0 0 0 [.val 3, .ref 5], _, _, .step (fuel := 5) (op := .call 0 0 [.val 3, .ref 5]) (out := .call (.ret 1)) Demo.reach_w0 trivial rfl,
    List.mem_cons_self, rfl, rfl, rfl, rfl⟩

/-- Case: callable 3 increases its first argument, passed by value; the record shows the changed copy. With a plain `Return` it shows the value passed. -/
example : (∀ i ∈ history (Demo.called (Demo.w1 [.rep 1 (.user 3)]) 0 0 [.val 7]) 0 0, i.uid = (Demo.w1 [.rep 1 (.user 3)]).invTotal + 1 →
      SameShape i.args [.val 7]) ∧
    (history (Demo.called (Demo.w1 [.rep 1 (.user 3)]) 0 0 [.val 7]) 0 0).map (·.args) = [[.val 8]] ∧
    (∀ i ∈ history (Demo.called (Demo.w1 Demo.acts1) 0 0 [.val 7]) 0 0, i.uid = (Demo.w1 Demo.acts1).invTotal + 1 → i.args = [.val 7]) := by
  refine ⟨fun i hi hu => (C10_call_records_arguments Demo.prog_named (Demo.reach_w1 [.rep 1 (.user 3)]) (m := 0) rfl Demo.plain0
    (Demo.selected_w1 _) (fuel := 5) (o := .ret 1) rfl hi hu).1, rfl, fun i hi hu => ?_⟩
  refine (C10_call_records_arguments Demo.prog_named (Demo.reach_w1 Demo.acts1) (m := 0) rfl Demo.plain0
    (Demo.selected_w1 _) (fuel := 5) (o := .ret 5) rfl hi hu).2 ?_
  intro j act hf
  obtain ⟨-, rfl⟩ : 1 = j ∧ Act.rep 2 (.ret 5) = act := by simpa using (show R.done (1, Act.rep 2 (.ret 5)) = R.done (j, act) from hf)
  exact id

/-! ## C11 -/

theorem mem_hist {w : World V E} {m off : Nat} {i : Invocation V} (h : i ∈ history w m off) :
    ∃ b, w.body? m off = some b ∧ i ∈ b.invs := by
  unfold history at h
  split at h
  · cases h
  · exact ⟨_, by assumption, h⟩

/-- C11, as long as fewer than 2^32 calls have been started: two recorded invocations, of whatever methods and mocks, have the same ordinal only if
they are the same entry of the same history, and within a history ordinals increase. -/
theorem C11_ordinals_distinct_partial (hP : P.Named nm) {w : World V E} (hw : Reach P nm w) (hlt' : w.invTotal < 2 ^ 32) {m off m' off' i j : Nat}
    {x y : Invocation V} (hx : (history w m off)[i]? = some x) (hy : (history w m' off')[j]? = some y) :
    (x.ordinal = y.ordinal → m = m' ∧ off = off' ∧ i = j) ∧ (m = m' → off = off' → i < j → x.ordinal < y.ordinal) := by
  have hlt : w.invTotal < wrap32 := hlt'
  have hr := (hw.wf hP).recs
  obtain ⟨b, hb, hxb⟩ := mem_hist (List.mem_of_getElem? hx)
  obtain ⟨b', hb', hyb⟩ := mem_hist (List.mem_of_getElem? hy)
  rw [history_of hb] at hx
  rw [history_of hb'] at hy
  have ox := hr.ok m off b hb x hxb
  have oy := hr.ok m' off' b' hb' y hyb
  have ex : x.ordinal = x.uid := by rw [ox.2.2.1]; exact Nat.mod_eq_of_lt (by omega)
  have ey : y.ordinal = y.uid := by rw [oy.2.2.1]; exact Nat.mod_eq_of_lt (by omega)
  rw [ex, ey]
  have hinc : ∀ {b : MBody V E} {x y : Invocation V} {i j : Nat}, (b.invs.Pairwise fun i j => i.uid < j.uid) → b.invs[i]? = some x → b.invs[j]? = some y →
      i < j → x.uid < y.uid := by
    intro b x y i j hs hx hy hij
    rw [List.getElem?_eq_some_iff] at hx hy
    obtain ⟨h1, rfl⟩ := hx
    obtain ⟨h2, rfl⟩ := hy
    exact (List.pairwise_iff_getElem.1 hs) i j h1 h2 hij
  constructor
  · intro he
    obtain ⟨rfl, rfl⟩ := hr.cross m off b m' off' b' x y hb hb' hxb hyb he
    rw [hb] at hb'; cases hb'
    refine ⟨rfl, rfl, ?_⟩
    have hs := hr.sorted m off b hb
    rcases Nat.lt_trichotomy i j with h | h | h
    · have := hinc hs hx hy h; omega
    · exact h
    · have := hinc hs hy hx h; omega
  · rintro rfl rfl hij
    rw [hb] at hb'; cases hb'
    exact hinc (hr.sorted m off b hb) hx hy hij

/-- C11, as long as fewer than 2^32 calls have been started: a call that starts later gets a larger ordinal than everything recorded before, on all
mocks. -/
theorem C11_later_call_larger_ordinal_partial {m off : Nat} (hP : KeepsHistory P nm m) {w w' : World V E} (hw : Reach P nm w)
    (hlt' : w.invTotal + 1 < 2 ^ 32) {k : Mock V E} (hk : w.mock? m = some k) (hoff : Plain (P.cls k.cls) off) {args : List (Arg V)} {h : Handler V E}
    (hsel : Selected (stubbings w m off) (valuesOf w.heap args) h) {fuel : Nat} {o : Outcome V E}
    (hcall : callSlot P fuel w m off args = .done (o, w')) :
    ∃ i, (history w' m off)[(history w m off).length]? = some i ∧ ∀ m' off', ∀ j ∈ history w m' off', j.ordinal < i.ordinal := by
  have hlt : w.invTotal + 1 < wrap32 := hlt'
  obtain ⟨i, hi, he⟩ := C08_handled_call_is_recorded hP hw hk hoff hsel hcall
  obtain ⟨i', hi', hs⟩ := extends_last he
  refine ⟨i', hi', fun m' off' j hj => ?_⟩
  have hr := (hw.wf hP.named).recs
  have hw' : Reach P nm w' := .step (fuel := fuel) (op := .call m off args) (out := .call o) hw trivial (by simp only [opStep, hcall]; rfl)
  have hr' := (hw'.wf hP.named).recs
  obtain ⟨b, hb, hjb⟩ := mem_hist hj
  obtain ⟨b', hb', hib⟩ := mem_hist (List.mem_of_getElem? hi')
  have h1 := hr.ok m' off' b hb j hjb
  have h2 := hr'.ok m off b' hb' i' hib
  rw [h1.2.2.1, h2.2.2.1, hs.uid, hi.number, Nat.mod_eq_of_lt (by omega), Nat.mod_eq_of_lt (by omega)]
  omega

/-- Case. -/
example : ∃ i, (history (Demo.called (Demo.w1 Demo.acts1) 0 0 [.val 7]) 0 0)[(history (Demo.w1 Demo.acts1) 0 0).length]? = some i ∧
    ∀ m' off', ∀ j ∈ history (Demo.w1 Demo.acts1) m' off', j.ordinal < i.ordinal :=
  C11_later_call_larger_ordinal_partial Demo.prog_keeps (Demo.reach_w1 Demo.acts1) (by decide) rfl Demo.plain0
    (Demo.selected_w1 _) (fuel := 5) (o := .ret 5) rfl

/-- Case: two methods of two mocks. -/
example : Reach Demo.prog Demo.nm (Demo.called (Demo.called Demo.w0 0 0 [.val 7]) 1 1 [.val 7]) ∧
    ((history (Demo.called (Demo.called Demo.w0 0 0 [.val 7]) 1 1 [.val 7]) 0 0).map (·.ordinal),
     (history (Demo.called (Demo.called Demo.w0 0 0 [.val 7]) 1 1 [.val 7]) 1 1).map (·.ordinal)) = ([1], [2]) :=
  ⟨.step (fuel := 5) (op := .call 1 1 [.val 7]) (out := .call (.ret 0))
    (.step (fuel := 5) (op := .call 0 0 [.val 7]) (out := .call (.ret 1)) Demo.reach_w0 trivial rfl) trivial rfl, rfl⟩

namespace Demo

/-- One mock, method 0 stubbed for all arguments; `n` calls have been made, `l` is the history. -/
def many (l : List (Invocation Nat)) (n : Nat) : World Nat Nat :=
  let w := after [.api (.newMock 0), .api (.when_ (tgt 0 0 .any) [.forever (.ret 1)] false)]
  { w.updBody 0 0 fun b => { b with invs := l } with invTotal := n }

/-- The next recorded call. -/
def entry (n : Nat) : Invocation Nat := { uid := n + 1, ordinal := (n + 1) % wrap32, method := 1, args := [], verified := false, matcher := some 0 }

theorem many_call (l : List (Invocation Nat)) (n : Nat) :
    callSlot prog 5 (many l n) 0 0 [] = .done (.ret 1, many (l ++ [entry n]) (n + 1)) := rfl

theorem many_reach (n : Nat) : ∃ l : List (Invocation Nat), Reach prog Demo.nm (many l n) ∧ l.length = n ∧ ∀ i < n, l[i]? = some (entry i) := by
  induction n with
  | zero =>
    refine ⟨[], ?_, rfl, by intro i h; omega⟩
    refine Reach.run (fuel := 5) (outs := _) [.api (.newMock 0), .api (.when_ (tgt 0 0 .any) [.forever (.ret 1)] false)] ?_ (.start heap0) rfl
    intro op h
    simp only [List.mem_cons, List.not_mem_nil, or_false] at h
    rcases h with rfl | rfl <;> simp [Op.Within, Api.Named, Api.slots, SlotRef.Named, tgt, Demo.nm, intMax]
  | succ n ih =>
    obtain ⟨l, hw, hl, he⟩ := ih
    refine ⟨l ++ [entry n], .step (fuel := 5) (op := .call 0 0 []) (out := .call (.ret 1)) hw trivial (by simp only [opStep, many_call]; rfl), by simp [hl], ?_⟩
    intro i hi
    by_cases hin : i < n
    · rw [List.getElem?_append_left (by omega)]; exact he i hin
    · have : i = n := by omega
      subst this
      rw [List.getElem?_append_right (by omega)]; simp [hl]

end Demo

/-- C11 fails without the bound: after 2^32 + 1 calls the first and the last recorded invocation have the same ordinal. -/
theorem C11_ordinals_repeat : ∃ (w : World Nat Nat) (x y : Invocation Nat), Reach Demo.prog Demo.nm w ∧ (history w 0 0)[0]? = some x ∧
    (history w 0 0)[2 ^ 32]? = some y ∧ x.ordinal = y.ordinal := by
  obtain ⟨l, hw, -, he⟩ := Demo.many_reach (wrap32 + 1)
  refine ⟨_, Demo.entry 0, Demo.entry wrap32, hw, ?_, ?_, ?_⟩
  · exact he 0 (by simp [wrap32])
  · exact he wrap32 (by omega)
  · simp [Demo.entry, wrap32]

end FakeIt
