import Verif.Lemmas.Answer
import Verif.Lemmas.Trace
import Verif.Props.Demo
/-!
# C01 - C06: what a stubbed call does

`Stubbed`: the stubbing statement; `Trace`: everything the test does after it; `Picks`: the call is served by the stubbing (it is the newest
one accepting the arguments); `performed`: what the script says; `Answers`: what the caller may see.
-/
namespace FakeIt
variable {V E : Type} {P : Prog V E} {nm : MockId → Nat → Nat}
open Spec

/-- The call numbered `n` among those served by stubbing `j` does what the script says for number `n`, provided the callables do not re-enter the
method. -/
private theorem answered {c : ClassDecl V} {spied : Bool} {m off j n fuel : Nat} {kind : MatcherKind V} {acts : List (Act V E)}
    {w0 w1 w2 w3 : World V E} {args : List (Arg V)} {o : Outcome V E} {Φ : MatcherKind V → Prop}
    (hP : P.NonReentrant nm c m off Φ) (hs : Stubbed P nm c spied m off kind acts j w0 w1)
    (ht : Trace P nm c m off Φ j w1 n w2) (hp : Picks w2 m off args j) (hcall : callSlot P fuel w2 m off args = .done (o, w3)) :
    Answers P c spied off (valuesOf w2.heap args) (headAct (afterActs acts n)).perf o := by
  have h := ((hs.atStub hP.named).trace hP hs.plain ht).pick hP hs.plain hp hcall
  simpa using h.1

/-! ## C01 -/

/-- C01, in any reachable state and with arbitrary (also re-entrant) callables: if `h` is the most recently installed stubbing of the method whose
matcher accepts the arguments, then the caller sees a result of the first remaining action of `h`, whatever the other stubbings are. -/
theorem C01_latest_matching_stubbing_answers (hP : P.Named nm) {w w' : World V E} (hw : Reach P nm w) {m off : Nat} {k : Mock V E}
    (hk : w.mock? m = some k) (hoff : Plain (P.cls k.cls) off) {args : List (Arg V)} {h : Handler V E}
    (hsel : Selected (stubbings w m off) (valuesOf w.heap args) h) {fuel : Nat} {o : Outcome V E}
    (hcall : callSlot P fuel w m off args = .done (o, w')) :
    ∃ i act, h.seq.front = .done (i, act) ∧ Answers P (P.cls k.cls) (!k.owner) off (valuesOf w.heap args) act.perf o := by
  cases fuel with
  | zero => simp [callSlot] at hcall
  | succ fuel =>
    have hk' := (World.mock?_eq_some.1 hk).1
    cases hb : w.body? m off with
    | none => obtain ⟨older, newer, hst, -⟩ := hsel; simp [stubbings, hb] at hst
    | some b =>
      rw [stubbings_of hb] at hsel
      have hwf := hw.wf hP
      refine answerAny hwf.inv2.1 (hwf.steady.live hb hk' hoff) hk' ?_ hsel hcall
      intro k' d hk'' hd
      rw [hk'] at hk''; cases hk''
      exact (hoff d hd).2

/-- Case: two stubbings of the method, the call with 7 selects the newer one. -/
example : ∃ h o w', Selected (stubbings Demo.w2 0 0) (valuesOf Demo.w2.heap [.val 7]) h ∧ Reach Demo.prog Demo.nm Demo.w0 ∧
    callSlot Demo.prog 5 Demo.w2 0 0 [.val 7] = .done (o, w') ∧ o = .exc 9 :=
  ⟨_, _, _, ⟨[_], [], rfl, Demo.accepts_eq.2 rfl, by simp⟩, Demo.reach_w0, rfl, rfl⟩

/-- C01, for whole programs: a stubbing is installed and anything happens afterwards, except that no stubbing accepting the argument values `vs` is
installed for this method later. Then a call with values `vs` does what the script of this stubbing says: earlier stubbings and
later ones that reject the arguments have no influence. -/
theorem C01_latest_matching_stubbing_wins {c : ClassDecl V} {spied : Bool} {m off j n fuel : Nat} {kind : MatcherKind V} {acts : List (Act V E)}
    {w0 w1 w2 w3 : World V E} {args : List (Arg V)} {o : Outcome V E} {vs : List V}
    (hP : P.NonReentrant nm c m off (fun kd => ¬ Accepts kd vs)) (ha : WritableActs acts)
    (hs : Stubbed P nm c spied m off kind acts j w0 w1)
    (ht : Trace P nm c m off (fun kd => ¬ Accepts kd vs) j w1 n w2)
    (hv : valuesOf w2.heap args = vs) (hk : Accepts kind vs)
    (hcall : callSlot P fuel w2 m off args = .done (o, w3)) :
    Answers P c spied off vs (performed acts n) o := by
  have h := (hs.atStub hP.named).trace hP hs.plain ht
  obtain ⟨b, older, hd, newer, hb, hh, hj, hkd, -, hrej⟩ := h.stub
  have hp : Picks w2 m off args j :=
    ⟨older, hd, newer, by rw [stubbings_of hb, hh], hj, by rw [hv, hkd]; exact hk, by rw [hv]; exact hrej⟩
  have := answered hP hs ht hp hcall
  rw [performed_eq ha, hv] at this
  exact this

/-- Case: third call with 7, in between a call with other arguments and one of another mock; an older stubbing accepts everything. -/
example : Answers Demo.prog Demo.cls false 0 [7] (some (.fn (.thr 9))) (.exc 9) :=
  C01_latest_matching_stubbing_wins (Demo.prog_nonReentrant _) (acts := Demo.acts1) Demo.writable (Demo.stubbed_w1 _) (Demo.trace_w2 _)
    (args := [.val 7]) rfl (Demo.accepts_eq.2 rfl) (fuel := 5) rfl

/-! ## C02 -/

/-- C02: the `n`-th call (counting from 0) served by a stubbing performs the `n`-th action of its script, counted with multiplicities. -/
theorem C02_script_in_order {c : ClassDecl V} {spied : Bool} {m off j n fuel : Nat} {kind : MatcherKind V} {acts : List (Act V E)}
    {w0 w1 w2 w3 : World V E} {args : List (Arg V)} {o : Outcome V E}
    (hP : P.NonReentrant nm c m off (fun _ => True)) (ha : WritableActs acts) (hs : Stubbed P nm c spied m off kind acts j w0 w1)
    (ht : Trace P nm c m off (fun _ => True) j w1 n w2) (hp : Picks w2 m off args j)
    (hcall : callSlot P fuel w2 m off args = .done (o, w3)) :
    Answers P c spied off (valuesOf w2.heap args) (performed acts n) o := by
  have := answered hP hs ht hp hcall
  rwa [performed_eq ha] at this

example : Answers Demo.prog Demo.cls false 0 [7] (performed Demo.acts1 2) (.exc 9) :=
  C02_script_in_order (Demo.prog_nonReentrant _) Demo.writable (Demo.stubbed_w1 _) (Demo.trace_w2 _) Demo.picks_w2 (fuel := 5) rfl

/-- C02: once the script is used up, every further call served by the stubbing is unexpected; in particular no older stubbing answers it. -/
theorem C02_exhausted_is_unexpected {c : ClassDecl V} {spied : Bool} {m off j n k fuel : Nat} {kind : MatcherKind V} {acts : List (Act V E)}
    {w0 w1 w2 w3 : World V E} {args : List (Arg V)} {o : Outcome V E}
    (hP : P.NonReentrant nm c m off (fun _ => True)) (hu : uses acts = some k) (hs : Stubbed P nm c spied m off kind acts j w0 w1)
    (ht : Trace P nm c m off (fun _ => True) j w1 n w2) (hn : k ≤ n) (hp : Picks w2 m off args j)
    (hcall : callSlot P fuel w2 m off args = .done (o, w3)) : o = .unexpected := by
  have h := answered hP hs ht hp hcall
  obtain ⟨i, rfl⟩ : ∃ i, n = k + i := ⟨n - k, by omega⟩
  have h2 := afterActs_append hu [] i
  rw [List.append_nil] at h2
  rw [h2] at h
  have : ∀ i, afterActs ([] : List (Act V E)) i = [] := by
    intro i; induction i with
    | zero => rfl
    | succ i ih => rw [afterActs_succ, ih]; rfl
  rw [this] at h
  exact h

/-- Case: the script `5` is used up by the first call; the second one is unexpected although an older stubbing accepts it. -/
example : callSlot Demo.prog 5 (Demo.called (Demo.w1 [.rep 1 (.ret 5)]) 0 0 [.val 7]) 0 0 [.val 7] =
    .done (.unexpected, Demo.called (Demo.called (Demo.w1 [.rep 1 (.ret 5)]) 0 0 [.val 7]) 0 0 [.val 7]) ∧
    Trace Demo.prog Demo.nm Demo.cls 0 0 (fun _ => True) 1 (Demo.w1 [.rep 1 (.ret 5)]) 1 (Demo.called (Demo.w1 [.rep 1 (.ret 5)]) 0 0 [.val 7]) :=
  ⟨rfl, .pick (fuel := 5) (o := .ret 5) (.nil _) (Demo.picks7 rfl rfl) rfl⟩

/-- C02: such a call does complete (no undefined behaviour, no divergence in the library) if the action to perform does. -/
theorem C02_call_completes {c : ClassDecl V} {spied : Bool} {m off j n fuel : Nat} {kind : MatcherKind V} {acts : List (Act V E)}
    {w0 w1 w2 : World V E} {args : List (Arg V)}
    (hP : P.NonReentrant nm c m off (fun _ => True)) (ha : WritableActs acts) (hs : Stubbed P nm c spied m off kind acts j w0 w1)
    (ht : Trace P nm c m off (fun _ => True) j w1 n w2) (hp : Picks w2 m off args j)
    (hf : Finishes P c spied off (valuesOf w2.heap args) (performed acts n)) :
    ∃ o w3, callSlot P (fuel + 2) w2 m off args = .done (o, w3) := by
  have h := (hs.atStub hP.named).trace hP hs.plain ht
  obtain ⟨b, older, hd, newer, hb, hh, hj, hkd, hrep, -⟩ := h.stub
  obtain ⟨k, hk, hc, ho⟩ := h.mock
  obtain ⟨older', hd', newer', hst, hj', hacc, hrej⟩ := hp
  rw [stubbings_of hb, hh] at hst
  obtain ⟨rfl, h2⟩ := List.append_inj hst (by rw [hj, hj'])
  obtain ⟨rfl, rfl⟩ := List.cons.inj h2
  refine serve_done hP h.wf.inv2 (h.live hs.plain hb) hk hc (h.notDel hs.plain) ⟨older, newer, hh, hacc, hrej⟩ hrep ?_ fuel
  rw [Nat.zero_add, performed_eq ha, ho, Bool.not_not]
  exact hf

example : ∃ o w3, callSlot Demo.prog 2 Demo.w2 0 0 [.val 7] = .done (o, w3) :=
  C02_call_completes (Demo.prog_nonReentrant _) Demo.writable (Demo.stubbed_w1 _) (Demo.trace_w2 _) Demo.picks_w2 trivial

/-! ## C03 -/

/-- The full claim of C03 for one script position and quantity: of the calls served by the stubbing exactly those numbered
`k, ..., k + n - 1` are due to the action with quantity `n`, the following ones to what comes after it. -/
def Spec.ExactlyTimes (P : Prog V E) (nm : MockId → Nat → Nat) (n : Int) : Prop :=
  ∀ (c : ClassDecl V) (spied : Bool) (m off j i k fuel : Nat) (kind : MatcherKind V) (pre rest : List (Act V E)) (f : Fn V E)
    (w0 w1 w2 w3 : World V E) (args : List (Arg V)) (o : Outcome V E),
    P.NonReentrant nm c m off (fun _ => True) → uses pre = some k → WritableActs rest → Stubbed P nm c spied m off kind (pre ++ .rep n f :: rest) j w0 w1 →
    Trace P nm c m off (fun _ => True) j w1 (k + i) w2 → Picks w2 m off args j → callSlot P fuel w2 m off args = .done (o, w3) →
    if (i : Int) < n then Gives P (valuesOf w2.heap args) f o else Answers P c spied off (valuesOf w2.heap args) (performed rest (i - n.toNat)) o

/-- C03 holds for every quantity `n ≥ 1`. Missing from the full claim: `n ≤ 0`, where it is false (`C03_zero_times_is_violated`). -/
theorem C03_exactly_n_times_partial (n : Int) (hn : 1 ≤ n) : ExactlyTimes P nm n := by
  intro c spied m off j i k fuel kind pre rest f w0 w1 w2 w3 args o hP hu hr hs ht hp hcall
  have h := answered hP hs ht hp hcall
  rw [afterActs_append hu] at h
  have hw : WritableActs (.rep n f :: rest) := by
    intro a ha
    simp only [List.mem_cons] at ha
    rcases ha with rfl | ha
    · exact hn
    · exact hr a ha
  rw [performed_eq hw] at h
  simp only [performed] at h
  split
  · rename_i hi
    rw [if_pos hi] at h
    exact h
  · rename_i hi
    rw [if_neg hi] at h
    exact h

/-- Case: quantity 2 followed by an exception; call number 2 is the exception. -/
example : Answers Demo.prog Demo.cls false 0 [7] (performed Demo.acts1.tail 0) (.exc 9) := by
  have := C03_exactly_n_times_partial (P := Demo.prog) (nm := Demo.nm) 2 (by decide) Demo.cls false 0 0 1 2 0 5 (Demo.eq 7) [] Demo.acts1.tail (.ret 5) _ _ _ _ _ _
    (Demo.prog_nonReentrant _) rfl (by intro a ha; exact Demo.writable a (by simp [Demo.acts1] at ha ⊢; exact Or.inr ha)) (Demo.stubbed_w1 _) (Demo.trace_w2 _) Demo.picks_w2 rfl
  exact this

/-- What really happens for a quantity `n ≤ 0`: the action is performed by every call that reaches it, for ever. -/
theorem C03_nonpositive_times_repeats_forever {c : ClassDecl V} {spied : Bool} {m off j i k fuel : Nat} {kind : MatcherKind V}
    {pre rest : List (Act V E)} {n : Int} {f : Fn V E} {w0 w1 w2 w3 : World V E} {args : List (Arg V)} {o : Outcome V E}
    (hP : P.NonReentrant nm c m off (fun _ => True)) (hu : uses pre = some k) (hn : n ≤ 0)
    (hs : Stubbed P nm c spied m off kind (pre ++ .rep n f :: rest) j w0 w1)
    (ht : Trace P nm c m off (fun _ => True) j w1 (k + i) w2) (hp : Picks w2 m off args j)
    (hcall : callSlot P fuel w2 m off args = .done (o, w3)) : Gives P (valuesOf w2.heap args) f o := by
  have h := answered hP hs ht hp hcall
  rw [afterActs_append hu, afterActs_nonpos n hn] at h
  exact h

/-- C03 is violated by the code for quantity 0: `Return(0_Times(5), 6)` answers 5 instead of 6. -/
theorem C03_zero_times_is_violated : ¬ ExactlyTimes Demo.prog Demo.nm 0 := by
  intro h
  have := h Demo.cls false 0 0 1 0 0 5 (Demo.eq 7) [] [.rep 1 (.ret 6)] (.ret 5) _ _ _ _ [.val 7] _
    (Demo.prog_nonReentrant _) rfl (by intro a ha; simp at ha; subst ha; decide) (Demo.stubbed_w1 _) (.nil _) (Demo.picks7 rfl rfl) rfl
  cases this

/-! ## C04 -/

/-- C04: an action that is never exhausted answers every call from the one that reaches it on; the actions `rest` after it are never
performed, whatever they are. -/
theorem C04_always_actions_are_never_exhausted {c : ClassDecl V} {spied : Bool} {m off j n k fuel : Nat} {kind : MatcherKind V}
    {pre rest : List (Act V E)} {a : Act V E} {p : Perf V E} {w0 w1 w2 w3 : World V E} {args : List (Arg V)} {o : Outcome V E}
    (hP : P.NonReentrant nm c m off (fun _ => True)) (hu : uses pre = some k) (ha : Always a p)
    (hs : Stubbed P nm c spied m off kind (pre ++ a :: rest) j w0 w1)
    (ht : Trace P nm c m off (fun _ => True) j w1 n w2) (hn : k ≤ n) (hp : Picks w2 m off args j)
    (hcall : callSlot P fuel w2 m off args = .done (o, w3)) : Answers P c spied off (valuesOf w2.heap args) (some p) o := by
  have h := answered hP hs ht hp hcall
  obtain ⟨i, rfl⟩ : ∃ i, n = k + i := ⟨n - k, by omega⟩
  rw [afterActs_append hu, afterActs_always ha] at h
  have : (headAct (a :: rest)).perf = some p := by cases a <;> simp_all [Always, headAct, Act.perf]
  rwa [this] at h

/-- Case: `Return(4).AlwaysThrow(9).Return(6)`, second call. -/
example : Answers Demo.prog Demo.cls false 0 [7] (some (.fn (.thr 9))) (.exc 9) :=
  C04_always_actions_are_never_exhausted (pre := [.rep 1 (.ret 4)]) (a := .forever (.thr 9)) (rest := [.rep 1 (.ret 6)])
    (Demo.prog_nonReentrant _) rfl rfl (Demo.stubbed_w1 _) (.pick (fuel := 5) (args := [.val 7]) (o := .ret 4) (.nil _) (Demo.picks7 rfl rfl) rfl)
    (Nat.le_refl 1) (args := [.val 7]) (Demo.picks7 rfl rfl) (fuel := 5) rfl

/-! ## C05 -/

/-- C05: a call served by the stubbing uses up one performance of its script whatever its outcome `o` is (a value, an exception, unexpected): the
next call served by the stubbing, after anything else has happened, is number `n + 1`. -/
theorem C05_throwing_consumes_like_returning {c : ClassDecl V} {spied : Bool} {m off j n fuel fuel' : Nat} {kind : MatcherKind V} {acts : List (Act V E)}
    {w0 w1 w2 w3 w4 w5 : World V E} {args args' : List (Arg V)} {o o' : Outcome V E}
    (hP : P.NonReentrant nm c m off (fun _ => True)) (ha : WritableActs acts) (hs : Stubbed P nm c spied m off kind acts j w0 w1)
    (ht : Trace P nm c m off (fun _ => True) j w1 n w2) (hp : Picks w2 m off args j) (hcall : callSlot P fuel w2 m off args = .done (o, w3))
    (hmid : Trace P nm c m off (fun _ => True) j w3 0 w4)
    (hp' : Picks w4 m off args' j) (hcall' : callSlot P fuel' w4 m off args' = .done (o', w5)) :
    Answers P c spied off (valuesOf w4.heap args') (performed acts (n + 1)) o' := by
  have h1 := (((hs.atStub hP.named).trace hP hs.plain ht).pick hP hs.plain hp hcall).2
  have h2 := (h1.trace hP hs.plain hmid).pick hP hs.plain hp' hcall'
  have := h2.1
  rw [Bool.not_not, show 0 + n + 1 + 0 = n + 1 by omega, performed_eq ha] at this
  exact this

/-- Case: `Throw(9).Do(callable that calls mock 1)`, the throwing call and then the second one. -/
example : Answers Demo.prog Demo.cls false 0 [7] (some (.fn (.user 1))) (.ret 0) :=
  C05_throwing_consumes_like_returning (Demo.prog_nonReentrant _) (acts := [.rep 1 (.thr 9), .rep 1 (.user 1)])
    (by intro a ha; simp at ha; rcases ha with rfl | rfl <;> decide) (Demo.stubbed_w1 _) (.nil _) (Demo.picks7 rfl rfl)
    (w3 := Demo.called (Demo.w1 [.rep 1 (.thr 9), .rep 1 (.user 1)]) 0 0 [.val 7]) (o := .exc 9)
    (fuel := 5) rfl (.nil _) (args' := [.val 7]) (Demo.picks7 rfl rfl) (fuel' := 5)
    (w5 := Demo.called (Demo.called (Demo.w1 [.rep 1 (.thr 9), .rep 1 (.user 1)]) 0 0 [.val 7]) 0 0 [.val 7]) rfl

end FakeIt
