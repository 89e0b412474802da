import Verif.Lemmas.Agree
import Verif.Lemmas.Touch
import Verif.Props.Verification
import Verif.Props.Recording
/-!
# C26 - C29: what a verification depends on, and what it leaves alone
-/
namespace FakeIt
variable {V E : Type} {P : Prog V E} {nm : MockId → Nat → Nat}
open Spec

/-! ## C26 -/

/-- C26 for verifications: a `Verify` statement that ends because an exception propagates gives no verdict, marks nothing, reports nothing. -/
theorem C26_verify_while_unwinding {w w' : World V E} {scope : Scope V} {pat : List (Seq (Leaf V))} {q : Quant} {out : ApiOut}
    (h : apiStep P w (.verify scope pat q (.stmt true)) = .done (w', out)) : Inert w w' ∧ ∀ b, out ≠ .verdict b := by
  simp only [apiStep, verifyStmt, R.bind_eq_done] at h
  obtain ⟨⟨w1, ok⟩, h1, h2⟩ := h
  have hi := touchAll_inert _ h1
  cases ok with
  | false => simp at h2; obtain ⟨rfl, rfl⟩ := h2; exact ⟨hi, by simp⟩
  | true =>
    dsimp only at h2
    split at h2
    · cases h2
    · split at h2
      · simp at h2; obtain ⟨rfl, rfl⟩ := h2; exact ⟨hi, by simp⟩
      · simp at h2; obtain ⟨rfl, rfl⟩ := h2; exact ⟨hi, by simp⟩

/-- C26 for `VerifyNoOtherInvocations`. -/
theorem C26_verifyNoOther_while_unwinding {w w' : World V E} {srcs : List (Source V)} {out : ApiOut}
    (h : apiStep P w (.verifyNoOther srcs (.stmt true)) = .done (w', out)) : Inert w w' ∧ ∀ b, out ≠ .verdict b := by
  simp only [apiStep, noOtherStmt, R.bind_eq_done] at h
  obtain ⟨⟨w1, ok⟩, h1, h2⟩ := h
  have hi := touchAll_inert _ h1
  cases ok with
  | false => simp at h2; obtain ⟨rfl, rfl⟩ := h2; exact ⟨hi, by simp⟩
  | true =>
    dsimp only at h2
    split at h2
    · cases h2
    · simp at h2; obtain ⟨rfl, rfl⟩ := h2; exact ⟨hi, by simp⟩

/-- C26 for `When`: nothing is stubbed. -/
theorem C26_when_while_unwinding {w w' : World V E} {t : Target V} {acts : List (Act V E)} {out : ApiOut}
    (h : apiStep P w (.when_ t acts true) = .done (w', out)) : Inert w w' ∧ ∀ a, out ≠ .matcher a := by
  simp only [apiStep, stubOne, R.bind_eq_done] at h
  obtain ⟨r, h1, h2⟩ := h
  cases r with
  | none => simp at h2; obtain ⟨rfl, rfl⟩ := h2; exact ⟨.refl _, by simp⟩
  | some w1 => simp at h2; obtain ⟨rfl, rfl⟩ := h2; exact ⟨touch_inert h1, by simp⟩

/-- Cases: a `Verify(A)` that would fail, and a `When`, both with an exception propagating. -/
example : (∃ w', apiStep Demo.prog Demo.v (.verify .involved [Demo.A] .once (.stmt true)) = .done (w', .skipped)) ∧
    (∃ w', apiStep Demo.prog Demo.v (.verify .involved [Demo.A] .once (.stmt false)) = .done (w', .verdict false)) ∧
    (∃ w', apiStep Demo.prog Demo.v (.when_ (Demo.tgt 0 0 .any) [.rep 1 (.ret 8)] true) = .done (w', .skipped)) :=
  ⟨⟨Demo.next Demo.v (.api (.verify .involved [Demo.A] .once (.stmt true))), rfl⟩, ⟨Demo.next Demo.v (.api (.verify .involved [Demo.A] .once (.stmt false))), rfl⟩,
    ⟨Demo.next Demo.v (.api (.when_ (Demo.tgt 0 0 .any) [.rep 1 (.ret 8)] true)), rfl⟩⟩

/-! ## C28 -/

/-- Two states show a statement the same: the mocks it looks at have the same classes, the same recorded calls (up to verified marks if `marks`), with
the same current argument values. -/
structure Spec.LooksSame (marks : Bool) (S : MockId → Prop) (w v : World V E) : Prop where
  hist : ∀ m, S m → ∀ off, (history v m off).map (fun i => { i with verified := !marks && i.verified }) =
    (history w m off).map fun i => { i with verified := !marks && i.verified }
  cls : ∀ m, S m → (v.mock? m).map (·.cls) = (w.mock? m).map (·.cls)
  vals : ∀ m, S m → ∀ off, ∀ i ∈ history w m off, valuesOf v.heap i.args = valuesOf w.heap i.args

theorem Spec.LooksSame.agree {S : MockId → Prop} {w v : World V E} {marks : Bool} (h : LooksSame marks S w v) (hv : Recs v) :
    ∃ f, Agree f S w v ∧ (marks = false → ∀ i, (f i).verified = i.verified) := by
  cases marks with
  | false =>
    refine ⟨id, ⟨fun _ => rfl, ?_, h.cls, h.vals⟩, fun _ _ => rfl⟩
    intro m hm off
    simpa using h.hist m hm off
  | true =>
    classical
    refine ⟨fun i => { i with verified := decide (∃ j, Recorded v j ∧ j.uid = i.uid ∧ j.verified = true) }, ⟨fun _ => rfl, ?_, h.cls, h.vals⟩, by simp⟩
    intro m hm off
    have hh := h.hist m hm off
    refine List.ext_getElem? fun k => ?_
    have hk := congrArg (fun l => l[k]?) hh
    simp only [List.getElem?_map, Bool.not_true, Bool.false_and] at hk ⊢
    cases hvk : (history v m off)[k]? with
    | none =>
      rw [hvk] at hk
      cases hwk : (history w m off)[k]? with
      | none => rfl
      | some i => rw [hwk] at hk; cases hk
    | some j =>
      rw [hvk] at hk
      cases hwk : (history w m off)[k]? with
      | none => rw [hwk] at hk; cases hk
      | some i =>
        rw [hwk] at hk
        simp only [Option.map_some, Option.some.injEq] at hk ⊢
        have hj : Recorded v j := ⟨m, off, List.mem_of_getElem? hvk⟩
        obtain ⟨u1, o1, m1, a1, v1, t1⟩ := j
        obtain ⟨u2, o2, m2, a2, v2, t2⟩ := i
        simp only [Invocation.mk.injEq, true_and] at hk ⊢
        obtain ⟨rfl, rfl, rfl, rfl, rfl⟩ := hk
        refine ⟨rfl, rfl, rfl, rfl, ?_, rfl⟩
        cases v1 with
        | true => symm; rw [decide_eq_true_eq]; exact ⟨_, hj, rfl, rfl⟩
        | false =>
          symm; rw [decide_eq_false_iff_not]
          rintro ⟨j', hj', he, hvj⟩
          rw [hv.uniq hj' hj he] at hvj
          cases hvj

/-- The verdict of a statement is a function of the match count. -/
theorem verdict_by_count (hP : P.Named nm) {w w' : World V E} (hw : Reach P nm w) {scope : Scope V} {pat : List (Seq (Leaf V))} {q : Quant}
    {mode : VMode} {b : Bool} (hn : (Api.verify (E := E) scope pat q mode).Named nm) (hpat : WritablePattern pat)
    (h : apiStep P w (.verify scope pat q mode) = .done (w', .verdict b)) (hu : Unwrapped w') :
    ∃ n, MatchCount P w scope pat n ∧ (b = true ↔ Passes (if q = .atLeast 0 then .never else q) n) := by
  by_cases h0 : q = .atLeast 0
  · subst h0
    obtain ⟨n, h1, h2, -⟩ := C20_atLeast_zero_is_never hP hw hn hpat h hu
    exact ⟨n, h1, h2⟩
  · obtain ⟨n, h1, -, h2⟩ := C19_verdict_by_match_count_partial hP hw hn hpat h0 h hu
    rw [if_neg h0]
    exact ⟨n, h1, h2⟩

/-- C28. `Verify(p)` looks at the mocks named in `p`, `Using(sources).Verify(p)` at the sources: in two states, however different, in which those mocks
show the same recorded calls, the statement has the same verdict (marks included, in case the scope mentions `Unverified`). -/
theorem C28_only_the_mocks_in_scope_matter (hP : P.Named nm) {w v w' v' : World V E} (hw : Reach P nm w) (hv : Reach P nm v) {scope : Scope V}
    {pat : List (Seq (Leaf V))} {q : Quant} {mode mode' : VMode} {b b' : Bool} (hn : ∀ mode, (Api.verify (E := E) scope pat q mode).Named nm)
    (hpat : WritablePattern pat) (hsame : LooksSame false (Seen scope pat) w v)
    (h : apiStep P w (.verify scope pat q mode) = .done (w', .verdict b)) (hu : Unwrapped w')
    (h' : apiStep P v (.verify scope pat q mode') = .done (v', .verdict b')) (hu' : Unwrapped v') : b = b' := by
  obtain ⟨n, h1, h2⟩ := verdict_by_count hP hw (hn _) hpat h hu
  obtain ⟨n', h1', h2'⟩ := verdict_by_count hP hv (hn _) hpat h' hu'
  obtain ⟨f, hf, hfv⟩ := hsame.agree (hv.wf hP).recs
  have := (hf.matchCount (P := P) (fun _ h => h) (.inr (hfv rfl)) (hw.wf hP).recs (hv.wf hP).recs h1).unique h1'
  subst this
  cases b <;> cases b' <;> simp_all

/-- C27. Verified marks never influence a statement whose scope does not mention `Unverified`. -/
theorem C27_marks_never_matter (hP : P.Named nm) {w v w' v' : World V E} (hw : Reach P nm w) (hv : Reach P nm v) {scope : Scope V}
    {pat : List (Seq (Leaf V))} {q : Quant} {mode mode' : VMode} {b b' : Bool} (hn : ∀ mode, (Api.verify (E := E) scope pat q mode).Named nm)
    (hpat : WritablePattern pat) (him : IgnoresMarks scope) (hsame : LooksSame true (Seen scope pat) w v)
    (h : apiStep P w (.verify scope pat q mode) = .done (w', .verdict b)) (hu : Unwrapped w')
    (h' : apiStep P v (.verify scope pat q mode') = .done (v', .verdict b')) (hu' : Unwrapped v') : b = b' := by
  obtain ⟨n, h1, h2⟩ := verdict_by_count hP hw (hn _) hpat h hu
  obtain ⟨n', h1', h2'⟩ := verdict_by_count hP hv (hn _) hpat h' hu'
  obtain ⟨f, hf, -⟩ := hsame.agree (hv.wf hP).recs
  have := (hf.matchCount (P := P) (fun _ h => h) (.inl him) (hw.wf hP).recs (hv.wf hP).recs h1).unique h1'
  subst this
  cases b <;> cases b' <;> simp_all

/-- C27. A passing statement (without `Unverified`) counts the same matches and passes again right afterwards. -/
theorem C27_passes_again (hP : P.Named nm) {w w' : World V E} (hw : Reach P nm w) {scope : Scope V} {pat : List (Seq (Leaf V))} {q : Quant}
    {mode mode' : VMode} (hn : ∀ mode, (Api.verify (E := E) scope pat q mode).Named nm) (hpat : WritablePattern pat) (him : IgnoresMarks scope)
    (hl : ∀ l ∈ verifyLeaves scope pat, Mentionable P w l.m l.slot) (ha : ∀ m ∈ (scope.source pat).mocks, ∃ k, w.mock? m = some k)
    (h : apiStep P w (.verify scope pat q mode) = .done (w', .verdict true)) (hm' : mode' ≠ .stmt true)
    (hi : w'.invTotal < wrap32) (hmt : w'.methTotal + (verifyLeaves scope pat).length < wrap32) :
    (∀ n, MatchCount P w scope pat n → MatchCount P w' scope pat n) ∧
      ∃ w'', apiStep P w' (.verify scope pat q mode') = .done (w'', .verdict true) := by
  have hu : Unwrapped w' := ⟨hi, by omega⟩
  have hw' : Reach P nm w' := .step (fuel := 0) (op := .api (.verify scope pat q mode)) (out := .api (.verdict true)) hw (hn mode)
    (by simp only [opStep, h]; rfl)
  obtain ⟨w1, e, actual, c, matched, hsc, -, hwf, he, hf, hr⟩ := verify_parts (hw.wf hP) (hn _) hpat h hu
  rcases hr with ⟨-, -, rfl⟩ | ⟨evt, -, hb, -⟩
  · have hcls : ∀ m, ((w1.mark (matched.map (·.uid))).mock? m).map (·.cls) = (w.mock? m).map (·.cls) := fun m => by
      rw [mock?_mark, hsc.cls]
    have hag : Agree (markIf (matched.map (·.uid))) (fun _ => True) w (w1.mark (matched.map (·.uid))) := by
      refine ⟨?_, ?_, fun m _ => hcls m, ?_⟩
      · intro i; unfold markIf; split <;> rfl
      · intro m _ off; rw [history_mark, hsc.hist]
      · intro m _ off i hi
        show valuesOf (w1.mark _).heap _ = _
        rw [show (w1.mark (matched.map (·.uid))).heap = w1.heap from rfl, hsc.heap]
    have hcnt : ∀ n, MatchCount P w scope pat n → MatchCount P (w1.mark (matched.map (·.uid))) scope pat n := fun n hn =>
      hag.matchCount (fun _ _ => trivial) (.inl him) (hw.wf hP).recs (hw'.wf hP).recs hn
    refine ⟨hcnt, ?_⟩
    have hme : ∀ m slot, Mentionable P w m slot → Mentionable P (w1.mark (matched.map (·.uid))) m slot := by
      intro m slot hm
      have hc := hcls m
      cases slot with
      | meth off ctr =>
        obtain ⟨k, hk, hlt⟩ := hm
        rw [hk] at hc
        obtain ⟨k', hk', he⟩ := Option.map_eq_some_iff.1 hc
        exact ⟨k', hk', by rw [he]; exact hlt⟩
      | dtor =>
        obtain ⟨k, d, hk, hd⟩ := hm
        rw [hk] at hc
        obtain ⟨k', hk', he⟩ := Option.map_eq_some_iff.1 hc
        exact ⟨k', d, hk', by rw [he]; exact hd⟩
    obtain ⟨w2, b, h2, hu2⟩ := C19_verification_reaches_a_verdict_partial hP hw' (hn mode') hpat (legal_of_quant he) hm'
      (fun l hl' => hme _ _ (hl l hl')) (fun m hm => by
        obtain ⟨k, hk⟩ := ha m hm
        have hc := hcls m
        rw [hk] at hc
        obtain ⟨k', hk', -⟩ := Option.map_eq_some_iff.1 hc
        exact ⟨k', hk'⟩) hi hmt
    obtain ⟨n, h1, h1'⟩ := verdict_by_count hP hw (hn _) hpat h hu
    obtain ⟨n', h3, h3'⟩ := verdict_by_count hP hw' (hn _) hpat h2 hu2
    have := (hcnt n h1).unique h3
    subst this
    have : b = true := h3'.2 (h1'.1 rfl)
    subst this
    exact ⟨w2, h2⟩
  · cases hb

/-- The verdict of a statement. -/
def Demo.verdict (w : World Nat Nat) (a : Api Nat Nat) : Option Bool :=
  match apiStep Demo.prog w a with
  | .done (_, .verdict b) => some b
  | _ => none

/-- The demo state after `Verify(A).Twice()`. -/
def Demo.vA2 : World Nat Nat := Demo.next Demo.v (.api (.verify .involved [Demo.A] .twice (.stmt false)))

/-- The demo state after one more call of B. -/
def Demo.vB : World Nat Nat := Demo.called Demo.v 1 1 [.val 7]

/-- A case meeting the hypotheses of C27: `Verify(A).Twice()` passes, and passes again. -/
example : Demo.verdict Demo.v (.verify .involved [Demo.A] .twice (.stmt false)) = some true ∧
    Demo.verdict Demo.vA2 (.verify .involved [Demo.A] .twice (.stmt false)) = some true ∧ IgnoresMarks (V := Nat) .involved :=
  ⟨by decide +kernel, by decide +kernel, trivial⟩

/-- A case meeting the hypotheses of C28: one more call of mock 1, which `Verify(A)` does not look at. -/
example : (history Demo.vB 1 1).length = 2 ∧ Demo.verdict Demo.vB (.verify .involved [Demo.A] .twice (.stmt false)) = some true ∧
    ∀ off < 3, history Demo.vB 0 off = history Demo.v 0 off :=
  ⟨by decide +kernel, by decide +kernel, by decide +kernel⟩

/-! ## C29 -/

/-- C29. `Unverified.Verify(p)` counts matches among invocations that are not yet verified, and no others. -/
theorem C29_matches_only_unverified (hP : P.Named nm) {w w' : World V E} (hw : Reach P nm w) {pat : List (Seq (Leaf V))} {q : Quant}
    {mode : VMode} {b : Bool} (hn : (Api.verify (E := E) .unverified pat q mode).Named nm) (hpat : WritablePattern pat) (h0 : q ≠ .atLeast 0)
    (h : apiStep P w (.verify .unverified pat q mode) = .done (w', .verdict b)) (hu : Unwrapped w') :
    ∃ actual n, InCallOrder actual ∧ (∀ i, i ∈ actual ↔ Involved w pat i ∧ i.verified = false) ∧
      IsMaxCount (Denotes P w) actual (blocks pat) n ∧ (b = true ↔ Passes q n) := by
  obtain ⟨n, ⟨actual, ⟨h1, h2⟩, h3⟩, -, h4⟩ := C19_verdict_by_match_count_partial hP hw hn hpat h0 h hu
  exact ⟨actual, n, h1, h2, h3, h4⟩

/-- C29. The same for `Using(Unverified(sources)).Verify(p)`. -/
theorem C29_using_unverified_matches_only_unverified (hP : P.Named nm) {w w' : World V E} (hw : Reach P nm w) {s : Source V} {pat : List (Seq (Leaf V))}
    {q : Quant} {mode : VMode} {b : Bool} (hn : (Api.verify (E := E) (.using_ (.unverified s)) pat q mode).Named nm) (hpat : WritablePattern pat)
    (h0 : q ≠ .atLeast 0) (h : apiStep P w (.verify (.using_ (.unverified s)) pat q mode) = .done (w', .verdict b)) (hu : Unwrapped w') :
    ∃ actual n, InCallOrder actual ∧ (∀ i, i ∈ actual ↔ InSource P w s i ∧ i.verified = false) ∧
      IsMaxCount (Denotes P w) actual (blocks pat) n ∧ (b = true ↔ Passes q n) := by
  obtain ⟨n, ⟨actual, ⟨h1, h2⟩, h3⟩, -, h4⟩ := C19_verdict_by_match_count_partial hP hw hn hpat h0 h hu
  exact ⟨actual, n, h1, h2, h3, h4⟩

theorem extends_verified {l l' : List (Invocation V)} (h : Extends l l') {i : Invocation V} (hi : i ∈ l) (hv : i.verified = true) :
    ∃ j ∈ l', j.uid = i.uid ∧ j.verified = true := by
  induction h with
  | nil => cases hi
  | cons hs _ ih =>
    rcases List.mem_cons.1 hi with rfl | hi
    · exact ⟨_, List.mem_cons_self, hs.uid, hs.verified hv⟩
    · obtain ⟨j, hj, h1, h2⟩ := ih hi
      exact ⟨j, List.mem_cons_of_mem _ hj, h1, h2⟩

/-- C29. An invocation that a passing verification matched is not looked at again by a later `Unverified.Verify`, whatever the test and its callables do in
between (short of clearing the history of its mock). -/
theorem C29_never_recounts {m off : Nat} (hP : KeepsHistory P nm m) {w w' w'' : World V E} (hw : Reach P nm w) {scope : Scope V} {pat pat' : List (Seq (Leaf V))}
    {q : Quant} {mode : VMode} (hn : (Api.verify (E := E) scope pat q mode).Named nm) (hpat : WritablePattern pat)
    (h : apiStep P w (.verify scope pat q mode) = .done (w', .verdict true)) (hu : Unwrapped w')
    {ops : List (Op V E)} (hops : ∀ op ∈ ops, op.Within (fun a => a.Named nm ∧ a.KeepsHistory m) (fun _ _ => True)) {fuel : Nat} {outs : List (OpOut V E)}
    (hrun : runOps P fuel w' ops = .done (outs, w'')) :
    ∃ actual n stop idx, IsActual P w scope pat actual ∧ IsMaxCount (Denotes P w) actual (blocks pat) n ∧
      Occurs (Denotes P w) actual (blocks pat) n 0 stop idx ∧
      ∀ i, At actual idx i → i ∈ history w m off → ∀ actual', IsActual P w'' .unverified pat' actual' → ∀ j ∈ actual', j.uid ≠ i.uid := by
  obtain ⟨actual, n, stop, stop', idx, idx', pre, rest, h1, h2, h3, -, -, -, hm⟩ := C22_passing_marks_partial hP.named hw hn hpat h hu
  have hmax : IsMaxCount (Denotes P w) actual (blocks pat) n := by
    obtain ⟨a', ha', hx⟩ := h2
    rw [← ha'.unique h1]; exact hx
  refine ⟨actual, n, stop, idx, h1, hmax, h3, ?_⟩
  intro i hi him actual' ha' j hj he
  have hw' : Reach P nm w' := .step (fuel := 0) (op := .api (.verify scope pat q mode)) (out := .api (.verdict true)) hw hn
    (by simp only [opStep, h]; rfl)
  have hext := C09_history_append_only (off := off) hP hw' hops hrun
  obtain ⟨k, hk⟩ := List.mem_iff_getElem?.1 him
  have hmk : { i with verified := true } ∈ history w' m off := by
    rcases (hm m off).2 k i hk with ⟨-, hx⟩ | ⟨hno, -⟩
    · exact List.mem_of_getElem? hx
    · exact absurd (.inl hi) hno
  obtain ⟨j', hj', e1, e2⟩ := extends_verified hext hmk rfl
  have hw'' : Reach P nm w'' := Reach.run ops (fun op hop => by
      have := hops op hop
      cases op with
      | call m' off' args => trivial
      | api a => exact this.1) hw' hrun
  have hjs := (ha'.mem j).1 hj
  obtain ⟨⟨s, hs, l, hl, off', hjh⟩, hjv⟩ := hjs
  have := (hw''.wf hP.named).recs.uniq ⟨_, _, hjh⟩ ⟨_, _, hj'⟩ (by rw [e1, he])
  rw [this, e2] at hjv
  cases hjv

/-- A case meeting the hypotheses of C29: `Verify(A).Twice()`, another call A, then `Unverified.Verify(A).Once()`. -/
example : Demo.verdict Demo.v (.verify .involved [Demo.A] .twice (.stmt false)) = some true ∧ Unwrapped Demo.vA2 ∧
    (history (Demo.called Demo.vA2 0 0 [.val 1]) 0 0).map (·.verified) = [true, true, false] ∧
    Demo.verdict (Demo.called Demo.vA2 0 0 [.val 1]) (.verify .unverified [Demo.A] .once (.stmt false)) = some true :=
  ⟨by decide +kernel, by constructor <;> decide +kernel, by decide +kernel, by decide +kernel⟩

end FakeIt
