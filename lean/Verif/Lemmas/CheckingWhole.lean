import Verif.Lemmas.Checking
import Verif.Lemmas.Greedy
/-!
# Exceptions anywhere in a verification: the whole
-/
namespace FakeIt.Checking
open FakeIt.Checking.Spec
open FakeIt.Building (Res)

variable {V X α β : Type} {P : Nat → V → Bool} {recs : List (Rec V)}

/-- The steps of telling about a failure. -/
def reportOps : Handler → List Op
  | .context n => (List.range n).map .told ++ [.print]
  | .throwFalse => []

/-- What is thrown for a failure. -/
def raised : Handler → Exc X
  | .context _ => .failed
  | .throwFalse => .no

/-- The steps after the decision. -/
def tailOps (h : Handler) : Verdict → List Op
  | .failed => .memory .event :: reportOps h
  | _ => []

/-- How the verification ends. -/
def outcome (h : Handler) : Verdict → Res (Exc X) Unit
  | .failed => .exc (raised h)
  | _ => .ok ()

theorem report_plan (h : Handler) (s : St V) : Plan (X := X) (fun th => report th h) s (reportOps h) (fun _ s' => ∃ l, s' = { s with log := l }) fun r s' => r = .exc (raised h) ∧ ∃ l, s' = { s with log := l } := by
  cases h with
  | context n =>
    have e : reportOps (.context n) = (List.range n).map .told ++ ([.print] ++ []) := by simp [reportOps]
    rw [e]
    refine Plan.bind (Reads.ops _ s rfl) (fun a s1 _ hg => ?_) fun e s1 _ hg => absurd hg.1 (by simp)
    obtain ⟨-, l, rfl⟩ := hg
    refine Plan.bind ((Reads.op .print { s with log := l } rfl).mono (fun _ _ _ h => h) fun _ _ _ h => h) (fun a s1 _ hg => ?_) fun e s1 _ hg => absurd hg.1 (by simp)
    obtain ⟨-, l', rfl⟩ := hg
    exact (Plan.code (bad := fun _ _ => False) (r := .exc (raised (.context n))) rfl rfl).mono (fun _ _ _ h => h.elim) fun r s' _ ⟨h1, h2⟩ => ⟨h1, l', h2⟩
  | throwFalse => exact (Plan.code (bad := fun _ _ => False) (r := .exc (raised .throwFalse)) rfl rfl).mono (fun _ _ _ h => h.elim) fun r s' _ ⟨h1, h2⟩ => ⟨h1, s.log, h2⟩

theorem Marked.refl (recs : List (Rec V)) : Marked recs recs fun _ => False := ⟨rfl, fun a r h => ⟨r.verified, h, by simp⟩⟩

theorem mark_eq : ∀ (ids : List Nat) (s : St V), (∀ a ∈ ids, a < s.recs.length) → ∃ recs', mark (X := X) ids s = .done (.ok (), { s with recs := recs' }) ∧ Marked s.recs recs' (· ∈ ids)
  | [], s, _ => ⟨s.recs, rfl, by simpa using Marked.refl s.recs⟩
  | a :: ids, s, h => by
    have ha : a < s.recs.length := h a (by simp)
    obtain ⟨recs', h1, h2, h3⟩ := mark_eq ids { s with recs := s.recs.set a { s.recs[a] with verified := true } } fun b hb => by
      simp only [List.length_set]; exact h b (by simp [hb])
    refine ⟨recs', ?_, by simpa using h2, ?_⟩
    · show M.bind (record a) _ s = _
      simp only [M.bind, record, List.getElem?_eq_getElem ha, R.bind_done]
      show M.bind _ (fun _ => mark ids) s = _
      simp only [M.bind, R.bind_done, h1]
    · intro b r hr
      by_cases hab : a = b
      · subst hab
        rw [List.getElem?_eq_getElem ha] at hr
        cases hr
        obtain ⟨v, h4, h5⟩ := h3 a { s.recs[a] with verified := true } (by simp [ha])
        refine ⟨v, h4, ?_⟩
        simp at h5
        simp [h5]
      · obtain ⟨v, h4, h5⟩ := h3 b r (by simp [hab, hr])
        refine ⟨v, h4, h5.trans ?_⟩
        simp only [List.mem_cons]
        have : b ≠ a := fun h => hab h.symm
        simp [this]

theorem mem_involved1 {s : Seq Leaf} (hs : FakeIt.Spec.Writable s) {m : Nat} : m ∈ s.involved Leaf.mock ↔ ∃ l ∈ s.expected, l.mock = m := by
  induction hs with
  | method l => simp [Seq.involved, Seq.expected, eq_comm]
  | plus h1 h2 i1 i2 =>
    simp only [Seq.opPlus, Seq.involved, Seq.expected, List.mem_append, i1, i2]
    constructor
    · rintro (⟨l, h, e⟩ | ⟨l, h, e⟩)
      · exact ⟨l, .inl h, e⟩
      · exact ⟨l, .inr h, e⟩
    · rintro ⟨l, h | h, e⟩
      · exact .inl ⟨l, h, e⟩
      · exact .inr ⟨l, h, e⟩
  | @star s r n h1 h2 ih =>
    simp only [Seq.opStar] at h2
    split at h2
    · simp at h2
    · simp only [Option.some.injEq] at h2
      subst h2
      simp only [Seq.involved, Seq.expected, ih]
      obtain ⟨k, hk⟩ : ∃ k, n.toNat = k + 1 := ⟨n.toNat - 1, by omega⟩
      constructor
      · rintro ⟨l, h, e⟩
        exact ⟨l, by rw [hk, List.replicate_succ]; simp [h], e⟩
      · rintro ⟨l, h, e⟩
        rw [List.mem_flatten] at h
        obtain ⟨x, hx, hl⟩ := h
        rw [List.eq_of_mem_replicate hx] at hl
        exact ⟨l, hl, e⟩

theorem mem_involved {pat : List (Seq Leaf)} (hpat : FakeIt.Spec.WritablePattern pat) {m : Nat} : m ∈ involvedMocks pat ↔ ∃ l ∈ leaves pat, l.mock = m := by
  simp only [involvedMocks, leaves, List.mem_flatMap]
  constructor
  · rintro ⟨s, hs, hm⟩
    obtain ⟨l, hl, he⟩ := (mem_involved1 (hpat.2 s hs)).1 hm
    exact ⟨l, ⟨s, hs, hl⟩, he⟩
  · rintro ⟨l, ⟨s, hs, hl⟩, he⟩
    exact ⟨s, hs, (mem_involved1 (hpat.2 s hs)).2 ⟨l, hl, he⟩⟩

theorem inSrc_mocks {a : Nat} : ∀ {ms : List Nat}, InSrc P recs (.mocks ms) a ↔ ∃ r, recs[a]? = some r ∧ r.mock ∈ ms
  | [] => by simp [Src.mocks, InSrc]
  | m :: ms => by
    simp only [Src.mocks, InSrc, inSrc_mocks, List.mem_cons]
    constructor
    · rintro (⟨r, h, e⟩ | ⟨r, h, e⟩)
      · exact ⟨r, h, .inl e⟩
      · exact ⟨r, h, .inr e⟩
    · rintro ⟨r, h, e | e⟩
      · exact .inl ⟨r, h, e⟩
      · exact .inr ⟨r, h, e⟩

theorem inScope_iff {scope : Scope} {pat : List (Seq Leaf)} (hpat : FakeIt.Spec.WritablePattern pat) {a : Nat} : InSrc P recs (scope.src pat) a ↔ InScope P recs pat scope a := by
  cases scope with
  | involved => simp only [Scope.src, InSrc, InScope, inSrc_mocks, mem_involved hpat]
  | unverified =>
    simp only [Scope.src, InSrc, InScope, inSrc_mocks, mem_involved hpat]
    constructor
    · rintro ⟨⟨r, h, hl⟩, r', h', hv⟩
      rw [h] at h'
      cases h'
      exact ⟨r, h, hv, hl⟩
    · rintro ⟨r, h, hv, hl⟩
      exact ⟨⟨r, h, hl⟩, r, h, hv⟩
  | «using» src => simp only [Scope.src, InSrc, InScope]

theorem srcLeaves_mocks : ∀ (ms : List Nat), srcLeaves (.mocks ms) = []
  | [] => rfl
  | _ :: ms => by simp [Src.mocks, srcLeaves, srcLeaves_mocks ms]

theorem srcLeaves_scope {scope : Scope} {pat : List (Seq Leaf)} : ∀ l ∈ srcLeaves (scope.src pat) ++ leaves pat, l ∈ exprs (.pattern scope pat) := by
  cases scope <;> simp [Scope.src, srcLeaves, srcLeaves_mocks, exprs]

theorem Step.check {c : Check} {o : Op} (h : Step (exprs c) recs o) : CheckStep c recs o := by
  cases o with
  | memory w => cases w <;> exact h
  | _ => exact h

/-- What the verification itself leaves alone. -/
structure Kept (s s' : St V) : Prop where
  next : s'.next = s.next
  live : s'.live = s.live
  exp : s'.exp = s.exp

theorem analyse_pattern {scope : Scope} {pat : List (Seq Leaf)} (hpat : FakeIt.Spec.WritablePattern pat) (q : Quant) (hq : ¬ Refused q) :
    ∃ check v, (∀ o ∈ check, CheckStep (.pattern scope pat) recs o) ∧ Decides P recs (.pattern scope pat) q v ∧ v ≠ .refused ∧
      ∀ (h : Handler) (s : St V), s.recs = recs → (∀ n, missed s.exp n = true ↔ ¬ Accepts (wanted q) n) →
        Plan (X := X) (fun th => analyse th P h (.pattern scope pat)) s (check ++ tailOps h v) (fun _ s' => s'.recs = s.recs ∧ Kept s s')
          fun r s' => r = outcome h v ∧ Marked s.recs s'.recs (marks v) ∧ Kept s s' := by
  have hden : (fun l a => holds P recs l a = true) = Denotes P recs := by
    funext l a; exact propext holds_iff
  obtain ⟨p, set, hp, hset, hps⟩ := collect_reads (X := X) (P := P) (recs := recs) (ls := exprs (.pattern scope pat)) (scope.src pat) [] fun l hl => srcLeaves_scope l (by simp [hl])
  have hin : ∀ a, a ∈ set ↔ InSrc P recs (scope.src pat) a := fun a => by rw [hset]; simp
  have hlt : ∀ a ∈ set, a < recs.length := fun a ha => InSrc.lt ((hin a).1 ha)
  obtain ⟨p', hp', hps'⟩ := sorted_reads (X := X) (ls := exprs (.pattern scope pat)) hlt
  have hact : ∀ a ∈ Verifying.sortAddrs set, a < recs.length := fun a ha => hlt a (Verifying.mem_sortAddrs.1 ha)
  have hord : InOrder (InScope P recs pat scope) (Verifying.sortAddrs set) := ⟨Verifying.sortAddrs_sorted _, fun a => by rw [Verifying.mem_sortAddrs, hin, inScope_iff hpat]⟩
  obtain ⟨n, m, m', idx, idx', stop, hc, ho, hi, hmax, hi', pre, rest, stop', hp1, hp2, hp3⟩ :=
    MatchAnalysis.countMatches_spec (mt := holds P recs) (Verifying.sortAddrs set) pat (fun q hq => (hpat.2 q hq).expected_ne_nil) hpat.1
  obtain ⟨p'', hp'', hps''⟩ := countLoop_reads (X := X) (ls := exprs (.pattern scope pat)) hact (ps := pat) (fun l hl => srcLeaves_scope l (by simp [hl])) _ 0 0 [] _ hc
  rw [hden] at ho hmax hp3
  have htake : Takes P recs (Verifying.sortAddrs set) pat n (· ∈ m ++ m') := by
    intro mt hmt
    have e : mt = holds P recs := by
      funext l a
      rw [Bool.eq_iff_iff, hmt, holds_iff]
    have h1 := MatchAnalysis.countMatches_find (mt := holds P recs) (Verifying.sortAddrs set) pat (fun q hq => (hpat.2 q hq).expected_ne_nil) hpat.1
    rw [hc] at h1
    have h2 := R.done.inj h1
    rw [e, ← h2]
    exact ⟨rfl, fun _ => Iff.rfl⟩
  have hmem : ∀ a, a ∈ m ++ m' ↔ ∃ i ∈ idx ++ idx', (Verifying.sortAddrs set)[i]? = some a := by
    intro a
    have h1 : (m ++ m').map some = (idx ++ idx').map fun i => (Verifying.sortAddrs set)[i]? := by rw [List.map_append, List.map_append, hi, hi']
    have h2 : a ∈ m ++ m' ↔ some a ∈ (m ++ m').map some := by simp
    rw [h2, h1, List.mem_map]
  have hsteps : ∀ o ∈ p ++ (p' ++ p''), CheckStep (.pattern scope pat) recs o := fun o ho => by
    simp only [List.mem_append] at ho
    rcases ho with ho | ho | ho
    · exact (hps o ho).check
    · exact (hps' o ho).check
    · exact (hps'' o ho).check
  by_cases hac : Accepts (wanted q) n
  · refine ⟨p ++ (p' ++ p''), .passed (· ∈ m ++ m'), hsteps, ⟨hq, _, n, hord, ⟨⟨stop, idx, ho⟩, hmax⟩, hac, htake, stop, stop', idx, idx', pre, rest, ho, hp1, hp2, hp3, hmem⟩, by simp, fun h s hs he => ?_⟩
    have e : (p ++ (p' ++ p'')) ++ tailOps h (.passed (· ∈ m ++ m')) = p ++ (p' ++ (p'' ++ [])) := by simp [tailOps]
    rw [e]
    refine Plan.bind ((hp s hs).mono (bad' := fun _ s' => s'.recs = s.recs ∧ Kept s s') (fun _ _ _ ⟨l, h⟩ => by rw [h]; exact ⟨rfl, rfl, rfl, rfl⟩) fun _ _ _ h => h) (fun a s1 _ hg => ?_) fun e s1 _ hg => absurd hg.1 (by simp)
    obtain ⟨ha, l, rfl⟩ := hg
    cases ha
    refine Plan.bind ((hp' { s with log := l } hs).mono (fun _ _ _ ⟨l, h⟩ => by rw [h]; exact ⟨rfl, rfl, rfl, rfl⟩) fun _ _ _ h => h) (fun a s1 _ hg => ?_) fun e s1 _ hg => absurd hg.1 (by simp)
    obtain ⟨ha, l', rfl⟩ := hg
    cases ha
    refine Plan.bind ((hp'' { s with log := l' } hs).mono (fun _ _ _ ⟨l, h⟩ => by rw [h]; exact ⟨rfl, rfl, rfl, rfl⟩) fun _ _ _ h => h) (fun a s1 _ hg => ?_) fun e s1 _ hg => absurd hg.1 (by simp)
    obtain ⟨ha, l'', rfl⟩ := hg
    cases ha
    obtain ⟨recs', h1, h2⟩ := mark_eq (X := X) (m ++ m') { s with log := l'' } fun a ha => by
      obtain ⟨i, -, h⟩ := (hmem a).1 ha
      simp only [hs]
      exact hact a (List.mem_of_getElem? h)
    have hm : missed s.exp n = false := by
      cases hm : missed s.exp n with
      | false => rfl
      | true => exact absurd hac ((he n).1 hm)
    have e : ([] : List Op) = [] ++ [] := rfl
    rw [e]
    refine Plan.bind (Plan.code (x := expected) (r := .ok s.exp) (s' := { s with log := l'' }) rfl rfl) (fun a s1 _ hg => ?_) fun e s1 _ hg => absurd hg.1 (by simp)
    obtain ⟨ha, rfl⟩ := hg
    cases ha
    simp only [hm, Bool.false_eq_true, if_false]
    exact (Plan.code (bad := fun _ _ => False) h1 rfl).mono (fun _ _ _ h => h.elim) fun r s' _ h34 => by
      rw [h34.2]
      exact ⟨h34.1, h2, rfl, rfl, rfl⟩
  · refine ⟨p ++ (p' ++ p''), .failed, hsteps, ⟨hq, _, n, hord, ⟨⟨stop, idx, ho⟩, hmax⟩, hac, _, htake⟩, by simp, fun h s hs he => ?_⟩
    have e : (p ++ (p' ++ p'')) ++ tailOps h .failed = p ++ (p' ++ (p'' ++ ([] ++ ([.memory .event] ++ reportOps h)))) := by simp [tailOps]
    rw [e]
    refine Plan.bind ((hp s hs).mono (bad' := fun _ s' => s'.recs = s.recs ∧ Kept s s') (fun _ _ _ ⟨l, h⟩ => by rw [h]; exact ⟨rfl, rfl, rfl, rfl⟩) fun _ _ _ h => h) (fun a s1 _ hg => ?_) fun e s1 _ hg => absurd hg.1 (by simp)
    obtain ⟨ha, l, rfl⟩ := hg
    cases ha
    refine Plan.bind ((hp' { s with log := l } hs).mono (fun _ _ _ ⟨l, h⟩ => by rw [h]; exact ⟨rfl, rfl, rfl, rfl⟩) fun _ _ _ h => h) (fun a s1 _ hg => ?_) fun e s1 _ hg => absurd hg.1 (by simp)
    obtain ⟨ha, l', rfl⟩ := hg
    cases ha
    refine Plan.bind ((hp'' { s with log := l' } hs).mono (fun _ _ _ ⟨l, h⟩ => by rw [h]; exact ⟨rfl, rfl, rfl, rfl⟩) fun _ _ _ h => h) (fun a s1 _ hg => ?_) fun e s1 _ hg => absurd hg.1 (by simp)
    obtain ⟨ha, l'', rfl⟩ := hg
    cases ha
    refine Plan.bind (Plan.code (x := expected) (r := .ok s.exp) (s' := { s with log := l'' }) rfl rfl) (fun a s1 _ hg => ?_) fun e s1 _ hg => absurd hg.1 (by simp)
    obtain ⟨ha, rfl⟩ := hg
    cases ha
    simp only [(he n).2 hac, if_true]
    refine Plan.bind ((Plan.op (.memory .event) { s with log := l'' }).mono (fun _ _ _ h => by rw [h]; exact ⟨rfl, rfl, rfl, rfl⟩) fun _ _ _ h => h) (fun a s1 _ hg => ?_) fun e s1 _ hg => absurd hg.1 (by simp)
    obtain ⟨-, rfl⟩ := hg
    refine (report_plan h _).mono (fun _ _ _ ⟨l, h⟩ => by rw [h]; exact ⟨rfl, rfl, rfl, rfl⟩) fun r s' _ ⟨h1, l, h2⟩ => ?_
    rw [h2]
    exact ⟨h1, Marked.refl _, rfl, rfl, rfl⟩

theorem analyse_noOther (src : Src) (q : Quant) :
    ∃ check v, (∀ o ∈ check, CheckStep (.noOther src) recs o) ∧ Decides P recs (.noOther src) q v ∧ v ≠ .refused ∧
      ∀ (h : Handler) (s : St V), s.recs = recs →
        Plan (X := X) (fun th => analyse th P h (.noOther src)) s (check ++ tailOps h v) (fun _ s' => s'.recs = s.recs ∧ Kept s s')
          fun r s' => r = outcome h v ∧ Marked s.recs s'.recs (marks v) ∧ Kept s s' := by
  obtain ⟨p, set, hp, hset, hps⟩ := collect_reads (X := X) (P := P) (recs := recs) (ls := exprs (.noOther src)) src [] fun l hl => hl
  have hin : ∀ a, a ∈ set ↔ InSrc P recs src a := fun a => by rw [hset]; simp
  have hlt : ∀ a ∈ set, a < recs.length := fun a ha => InSrc.lt ((hin a).1 ha)
  have hlt' : ∀ a ∈ set.filter (open_ recs), a < recs.length := fun a ha => hlt a (List.mem_filter.1 ha).1
  obtain ⟨p', hp', hps'⟩ := insertAll_reads (X := X) (ls := exprs (.noOther src)) _ [] hlt'
  have hmem : ∀ a, a ∈ (set.filter (open_ recs)).foldl Verifying.insertAddr [] ↔ InSrc P recs src a ∧ ∃ r, recs[a]? = some r ∧ r.verified = false := fun a => by
    rw [Verifying.mem_foldl_insertAddr, List.mem_filter, hin]
    simp [open_, Option.any_eq_true]
  generalize (set.filter (open_ recs)).foldl Verifying.insertAddr [] = unv at hp' hmem
  have start : ∀ (s : St V) (h : Handler) {tl : List Op} {good : Res (Exc X) Unit → St V → Prop}, s.recs = recs →
      (∀ l, Plan (X := X) (fun th => if unv.isEmpty then (pure () : M V X Unit) else do
        let _ ← sorted th unv
        let _ ← sorted th set
        op th (.memory .event)
        report th h) { s with log := l } tl (fun _ s' => s'.recs = s.recs ∧ Kept s s') good) →
      Plan (X := X) (fun th => analyse th P h (.noOther src)) s (p ++ ([] ++ (p' ++ tl))) (fun _ s' => s'.recs = s.recs ∧ Kept s s') good := by
    intro s h tl good hs hrest
    refine Plan.bind ((hp s hs).mono (bad' := fun _ s' => s'.recs = s.recs ∧ Kept s s') (fun _ _ _ ⟨l, h⟩ => by rw [h]; exact ⟨rfl, rfl, rfl, rfl⟩) fun _ _ _ h => h) (fun a s1 _ hg => ?_) fun e s1 _ hg => absurd hg.1 (by simp)
    obtain ⟨ha, l, rfl⟩ := hg
    cases ha
    refine Plan.bind ((unverifiedOf_reads set hlt { s with log := l } hs).mono (fun _ _ _ ⟨l, h⟩ => by rw [h]; exact ⟨rfl, rfl, rfl, rfl⟩) fun _ _ _ h => h) (fun a s1 _ hg => ?_) fun e s1 _ hg => absurd hg.1 (by simp)
    obtain ⟨ha, l', rfl⟩ := hg
    cases ha
    refine Plan.bind ((hp' { s with log := l' } hs).mono (fun _ _ _ ⟨l, h⟩ => by rw [h]; exact ⟨rfl, rfl, rfl, rfl⟩) fun _ _ _ h => h) (fun a s1 _ hg => ?_) fun e s1 _ hg => absurd hg.1 (by simp)
    obtain ⟨ha, l'', rfl⟩ := hg
    cases ha
    exact hrest l''
  cases hu : unv with
  | nil =>
    refine ⟨p ++ p', .passed fun _ => False, ?_, ⟨fun a r ha hr => ?_, by simp⟩, by simp, fun h s hs => ?_⟩
    · intro o ho
      exact (List.mem_append.mp ho).elim (fun h => (hps o h).check) fun h => (hps' o h).check
    · cases hv : r.verified with
      | true => rfl
      | false =>
        have := (hmem a).2 ⟨ha, r, hr, hv⟩
        rw [hu] at this
        cases this
    · have e : (p ++ p') ++ tailOps h (.passed fun _ => False) = p ++ ([] ++ (p' ++ [])) := by simp [tailOps]
      rw [e]
      refine start s h hs fun l => ?_
      rw [hu]
      exact (Plan.code (bad := fun _ _ => False) (r := .ok ()) (s' := { s with log := l }) rfl rfl).mono (fun _ _ _ h => h.elim) fun r s' _ ⟨h1, h2⟩ => by
        rw [h2]
        exact ⟨h1, Marked.refl _, rfl, rfl, rfl⟩
  | cons x xs =>
    obtain ⟨q1, hq1, hqs1⟩ := sorted_reads (X := X) (ls := exprs (.noOther src)) (recs := recs) (set := unv) fun a ha => InSrc.lt ((hmem a).1 ha).1
    obtain ⟨q2, hq2, hqs2⟩ := sorted_reads (X := X) (ls := exprs (.noOther src)) hlt
    obtain ⟨hx, r, hr, hv⟩ := (hmem x).1 (by rw [hu]; simp)
    refine ⟨p ++ (p' ++ (q1 ++ q2)), .failed, ?_, ⟨x, r, hx, hr, hv⟩, by simp, fun h s hs => ?_⟩
    · intro o ho
      simp only [List.mem_append] at ho
      rcases ho with ho | ho | ho | ho
      · exact (hps o ho).check
      · exact (hps' o ho).check
      · exact (hqs1 o ho).check
      · exact (hqs2 o ho).check
    · have e : (p ++ (p' ++ (q1 ++ q2))) ++ tailOps h .failed = p ++ ([] ++ (p' ++ (q1 ++ (q2 ++ ([.memory .event] ++ reportOps h))))) := by simp [tailOps]
      rw [e]
      refine start s h hs fun l => ?_
      have hne : unv.isEmpty = false := by rw [hu]; rfl
      simp only [hne, Bool.false_eq_true, if_false]
      refine Plan.bind ((hq1 { s with log := l } hs).mono (fun _ _ _ ⟨l, h⟩ => by rw [h]; exact ⟨rfl, rfl, rfl, rfl⟩) fun _ _ _ h => h) (fun a s1 _ hg => ?_) fun e s1 _ hg => absurd hg.1 (by simp)
      obtain ⟨-, l', rfl⟩ := hg
      refine Plan.bind ((hq2 { s with log := l' } hs).mono (fun _ _ _ ⟨l, h⟩ => by rw [h]; exact ⟨rfl, rfl, rfl, rfl⟩) fun _ _ _ h => h) (fun a s1 _ hg => ?_) fun e s1 _ hg => absurd hg.1 (by simp)
      obtain ⟨-, l'', rfl⟩ := hg
      refine Plan.bind ((Plan.op (.memory .event) { s with log := l'' }).mono (fun _ _ _ h => by rw [h]; exact ⟨rfl, rfl, rfl, rfl⟩) fun _ _ _ h => h) (fun a s1 _ hg => ?_) fun e s1 _ hg => absurd hg.1 (by simp)
      obtain ⟨-, rfl⟩ := hg
      refine (report_plan h _).mono (fun _ _ _ ⟨l, h⟩ => by rw [h]; exact ⟨rfl, rfl, rfl, rfl⟩) fun r s' _ ⟨h1, l, h2⟩ => ?_
      rw [h2]
      exact ⟨h1, Marked.refl _, rfl, rfl, rfl⟩

/-! ## The expectation -/

/-- Nothing but the mark that the expectation has been verified. -/
structure Settled (s s' : St V) : Prop where
  next : s'.next = s.next
  live : s'.live = s.live
  isVerified : s'.exp.isVerified = true

theorem quant_iff {q : Quant} : (Expectation.init.quant q = none ↔ Refused q) ∧
    ∀ e, Expectation.init.quant q = some e → e.isVerified = false ∧ ∀ b n, missed { e with isVerified := b } n = true ↔ ¬ Accepts (wanted q) n := by
  have key : ∀ (k : Int) (b : Bool) (n : Nat), missed { count := k, anything := false, isVerified := b } n = true ↔ ¬ Accepts (some k) n := by
    intro k b n
    simp only [missed, Accepts, Bool.not_false, Bool.true_and, Bool.or_eq_true, Bool.and_eq_true, decide_eq_true_eq, Bool.not_eq_true', decide_eq_false_iff_not, Int.not_lt]
    split
    · omega
    · omega
  cases q with
  | dflt =>
    refine ⟨by simp [Expectation.quant, Refused], fun e h => ?_⟩
    cases h
    exact ⟨rfl, key (-1)⟩
  | any =>
    refine ⟨by simp [Expectation.quant, Refused], fun e h => ?_⟩
    cases h
    exact ⟨rfl, fun b n => by simp [missed, wanted, Accepts]⟩
  | never =>
    refine ⟨by simp [Expectation.quant, Expectation.exactly, Refused], fun e h => ?_⟩
    cases h
    exact ⟨rfl, key 0⟩
  | once =>
    refine ⟨by simp [Expectation.quant, Expectation.exactly, Refused], fun e h => ?_⟩
    cases h
    exact ⟨rfl, key 1⟩
  | twice =>
    refine ⟨by simp [Expectation.quant, Expectation.exactly, Refused], fun e h => ?_⟩
    cases h
    exact ⟨rfl, key 2⟩
  | atLeastOnce =>
    refine ⟨by simp [Expectation.quant, Refused], fun e h => ?_⟩
    cases h
    exact ⟨rfl, key (-1)⟩
  | exactly k =>
    refine ⟨by simp [Expectation.quant, Expectation.exactly, Refused], fun e h => ?_⟩
    simp only [Expectation.quant, Expectation.exactly] at h
    split at h
    · cases h
    · cases h
      exact ⟨rfl, key k⟩
  | atLeast k =>
    refine ⟨by simp [Expectation.quant, Expectation.atLeast, Refused], fun e h => ?_⟩
    simp only [Expectation.quant, Expectation.atLeast] at h
    split at h
    · cases h
    · cases h
      exact ⟨rfl, key (-k)⟩

/-- The quantifier has been applied to the expectation. -/
def Quantified (c : Check) (q : Quant) (e : Expectation) : Prop :=
  match c with
  | .pattern _ _ => Expectation.init.quant q = some e
  | .noOther _ => e = .init

theorem Quantified.fresh {c : Check} {q : Quant} {e : Expectation} (h : Quantified c q e) : e.isVerified = false := by
  cases c with
  | pattern scope pat => exact (quant_iff.2 e h).1
  | noOther src => rw [show e = .init from h]; rfl

/-- The statement is refused. -/
def Refuses (c : Check) (q : Quant) : Prop :=
  match c with
  | .pattern _ _ => Refused q
  | .noOther _ => False

theorem verify_plan {c : Check} (hc : Statable c) {q : Quant} (hq : ¬ Refuses c q) :
    ∃ check v, (∀ o ∈ check, CheckStep c recs o) ∧ Decides P recs c q v ∧ v ≠ .refused ∧
      ∀ (h : Handler) (s : St V), s.recs = recs → Quantified c q s.exp →
        Plan (X := X) (fun th => verify th P h c) s (check ++ tailOps h v) (fun _ s' => s'.recs = s.recs ∧ Settled s s')
          fun r s' => r = outcome h v ∧ Marked s.recs s'.recs (marks v) ∧ Settled s s' := by
  have lift : ∀ {check : List Op} {v : Verdict} (h : Handler) (s : St V), Quantified c q s.exp →
      Plan (X := X) (fun th => analyse th P h c) { s with exp := { s.exp with isVerified := true } } (check ++ tailOps h v) (fun _ s' => s'.recs = s.recs ∧ Kept { s with exp := { s.exp with isVerified := true } } s')
        (fun r s' => r = outcome h v ∧ Marked s.recs s'.recs (marks v) ∧ Kept { s with exp := { s.exp with isVerified := true } } s') →
      Plan (X := X) (fun th => verify th P h c) s (check ++ tailOps h v) (fun _ s' => s'.recs = s.recs ∧ Settled s s')
          fun r s' => r = outcome h v ∧ Marked s.recs s'.recs (marks v) ∧ Settled s s' := by
    intro check v h s he hp
    have hv : ∀ th, verify (X := X) th P h c s = analyse th P h c { s with exp := { s.exp with isVerified := true } } := fun th => by simp [verify, he.fresh]
    refine ⟨fun th hn => ?_, fun th b o e hf => ?_⟩
    · obtain ⟨r, s', h1, h2, h3, h4, h5⟩ := hp.fine th hn
      exact ⟨r, s', by rw [hv, h1], h2, h3, h4, h5.next, h5.live, by rw [h5.exp]⟩
    · obtain ⟨s', h1, h2, h3, h4⟩ := hp.broken th b o e hf
      exact ⟨s', by rw [hv, h1], h2, h3, h4.next, h4.live, by rw [h4.exp]⟩
  cases c with
  | pattern scope pat =>
    obtain ⟨check, v, h1, h2, h3, h4⟩ := analyse_pattern (X := X) (P := P) (recs := recs) (scope := scope) hc q hq
    exact ⟨check, v, h1, h2, h3, fun h s hs he => lift h s he (h4 h _ hs fun n => (quant_iff.2 _ he).2 true n)⟩
  | noOther src =>
    obtain ⟨check, v, h1, h2, h3, h4⟩ := analyse_noOther (X := X) (P := P) (recs := recs) src q
    exact ⟨check, v, h1, h2, h3, fun h s hs he => lift h s he (h4 h _ hs)⟩

/-! ## Objects -/

theorem destroyAll_eq : ∀ (js base ids : List Nat) (s : St V), s.live = base ++ ids → js.Perm ids → (∀ i ∈ ids, i ∉ base) → destroyAll js s = .done { s with live := base }
  | [], base, ids, s, hl, hp, _ => by
    obtain rfl : ids = [] := hp.nil_eq.symm
    rw [List.append_nil] at hl
    rw [← hl]
    rfl
  | j :: js, base, ids, s, hl, hp, hd => by
    have hj : j ∈ ids := hp.subset (by simp)
    have hmem : j ∈ s.live := by rw [hl]; simp [hj]
    have he : s.live.erase j = base ++ ids.erase j := by rw [hl, List.erase_append_right _ (hd j hj)]
    have hp' : js.Perm (ids.erase j) := by simpa using hp.erase j
    simp only [destroyAll, hmem, if_true]
    rw [destroyAll_eq js base (ids.erase j) { s with live := s.live.erase j } he hp' fun i hi => hd i (List.mem_of_mem_erase hi)]

/-- `k` objects more than in `s`. -/
structure Built (s : St V) (k : Nat) (s' : St V) : Prop where
  recs : s'.recs = s.recs
  live : s'.live = s.live ++ List.range' s.next k
  next : s'.next = s.next + k

/-- `k` objects more than in `s`, which are lost. -/
structure Left (s : St V) (k : Nat) (s' : St V) : Prop where
  next : s.next + k ≤ s'.next
  recs : s'.recs = s.recs
  live : s'.live = s.live ++ List.range' s.next k

theorem Built.left {s s' : St V} {k : Nat} (h : Built s k s') : Left s k s' := ⟨by rw [h.next]; exact Nat.le_refl _, h.recs, h.live⟩

theorem Built.log {s s' : St V} {k : Nat} (h : Built s k s') (l : List Op) : Built s k { s' with log := l } := ⟨h.recs, h.live, h.next⟩

theorem Left.destroy {s s1 : St V} (hw : Wf s) {k j : Nat} (h : Left s (j + k) s1) {js : List Nat} (hj : js.Perm (List.range' (s.next + j) k)) : destroyAll js s1 = .done { s1 with live := s.live ++ List.range' s.next j } := by
  refine destroyAll_eq js _ (List.range' (s.next + j) k) s1 ?_ hj fun i hi h => ?_
  · rw [h.live, List.append_assoc, List.range'_append_1]
  · simp only [List.mem_range'_1, List.mem_append] at hi h
    rcases h with h | h
    · have := hw i h
      omega
    · omega

theorem built_op {s s1 : St V} {k : Nat} (h : Built s k s1) (o : Op) : Plan (X := X) (fun th => op th o) s1 [o] (fun _ s' => Left s k s') fun r s' => r = .ok () ∧ Built s k s' :=
  (Plan.op o s1).mono (fun _ _ _ e => by rw [e]; exact (h.log _).left) fun _ _ _ ⟨h1, e⟩ => ⟨h1, by rw [e]; exact h.log _⟩

theorem built_ops {s : St V} {k : Nat} : ∀ (os : List Op) {s1 : St V}, Built s k s1 → Plan (X := X) (fun th => ops th os) s1 os (fun _ s' => Left s k s') fun r s' => r = .ok () ∧ Built s k s'
  | [], s1, h => (Plan.pure (bad := fun _ _ => False)).mono (fun _ _ _ h => h.elim) fun _ _ _ ⟨h1, e⟩ => ⟨h1, by rw [e]; exact h⟩
  | o :: os, s1, h => Plan.bind (p := [o]) (built_op h o) (fun _ _ _ hg => built_ops os hg.2) fun _ _ _ hg => absurd hg.1 (by simp)

theorem built_op_destroy {s s1 : St V} (hw : Wf s) {k : Nat} (h : Built s k s1) (o : Op) {js : List Nat} (hj : js.Perm (List.range' s.next k)) :
    Plan (X := X) (fun th => (op th o).unwinding (destroyAll js)) s1 [o] (fun _ s' => Left s 0 s') fun r s' => r = .ok () ∧ Built s k s' := by
  refine Plan.unwinding (built_op h o) (fun _ _ s2 h2 => ?_) (fun _ _ h => h) fun _ _ h => absurd h.1 (by simp)
  have h3 : Left s (0 + k) s2 := by simpa using h2
  refine ⟨_, h3.destroy hw (by simpa using hj), rfl, by have := h2.next; simp only; omega, h2.recs, rfl⟩

theorem built_fresh' {s s1 : St V} {k : Nat} (h : Built s k s1) {bad : Op → St V → Prop} : Plan (X := X) (fun _ => fresh) s1 [] bad fun r s' => r = .ok (s.next + k) ∧ Built s (k + 1) s' ∧ s'.exp = s1.exp := by
  have hf : fresh (X := X) s1 = .done (.ok (s.next + k), { s1 with live := s1.live ++ [s.next + k], next := s.next + k + 1 }) := by simp only [fresh, h.next]
  refine (Plan.code (bad := fun _ _ => False) hf rfl).mono (fun _ _ _ h => h.elim) fun _ _ _ he => ⟨he.1, ?_, by rw [he.2]⟩
  rw [he.2]
  exact ⟨h.recs, by rw [h.live, List.append_assoc, List.range'_concat]; simp, by simp; omega⟩

theorem built_fresh {s s1 : St V} {k : Nat} (h : Built s k s1) {bad : Op → St V → Prop} : Plan (X := X) (fun _ => fresh) s1 [] bad fun r s' => r = .ok (s.next + k) ∧ Built s (k + 1) s' :=
  (built_fresh' h).mono (fun _ _ _ h => h) fun _ _ _ h => ⟨h.1, h.2.1⟩

theorem aggregate_plan {s s1 : St V} (hw : Wf s) (h : Built s 0 s1) :
    Plan (X := X) (fun th => aggregate th) s1 [.memory .aggregate, .memory .sourcesCopy, .memory .count] (fun _ s' => Left s 0 s') fun r s' => r = .ok [s.next] ∧ Built s 1 s' := by
  refine Plan.bind (p := [_]) (built_op h _) (fun _ s2 _ hg => ?_) fun _ _ _ hg => absurd hg.1 (by simp)
  refine Plan.bind (p := [_]) (built_op hg.2 _) (fun _ s2 _ hg => ?_) fun _ _ _ hg => absurd hg.1 (by simp)
  refine Plan.bind (p := []) (built_fresh hg.2) (fun a s2 _ hg => ?_) fun _ _ _ hg => absurd hg.1 (by simp)
  obtain ⟨ha, hg⟩ := hg
  cases ha
  refine Plan.bind (p := [_]) (q := []) (built_op_destroy hw hg _ (by simp [List.range'])) (fun _ s2 _ hg => ?_) fun _ _ _ hg => absurd hg.1 (by simp)
  exact (Plan.pure (bad := fun _ _ => False)).mono (fun _ _ _ h => h.elim) fun _ _ _ ⟨h1, e⟩ => ⟨by rw [h1]; simp, by rw [e]; exact hg.2⟩

/-- The number of sources made. -/
def sourceCount : Scope → Nat
  | .unverified => 2
  | _ => 1

theorem sources_plan {s : St V} (hw : Wf s) (pat : List (Seq Leaf)) (scope : Scope) :
    Plan (X := X) (fun th => sources th pat scope) s (sourceSteps scope pat) (fun _ s' => Left s 0 s') fun r s' => ∃ js, r = .ok js ∧ js.Perm (List.range' s.next (sourceCount scope)) ∧ Built s (sourceCount scope) s' := by
  have h0 : Built s 0 s := ⟨rfl, by simp, rfl⟩
  cases scope with
  | involved =>
    have e : sourceSteps .involved pat = [.memory .sequences] ++ ((involvedMocks pat).map (fun m => .memory (.involved m)) ++ [.memory .aggregate, .memory .sourcesCopy, .memory .count]) := by
      simp [sourceSteps, involvedMocks]
    rw [e]
    refine Plan.bind (built_op h0 _) (fun _ s2 _ hg => ?_) fun _ _ _ hg => absurd hg.1 (by simp)
    refine Plan.bind (built_ops _ hg.2) (fun _ s2 _ hg => ?_) fun _ _ _ hg => absurd hg.1 (by simp)
    exact (aggregate_plan hw hg.2).mono (fun _ _ _ h => h) fun _ _ _ ⟨h1, h2⟩ => ⟨_, h1, by simp [sourceCount], h2⟩
  | unverified =>
    have e : sourceSteps .unverified pat = [.memory .sequences] ++ ((involvedMocks pat).map (fun m => .memory (.involved m)) ++ ([.memory .aggregate, .memory .sourcesCopy, .memory .count] ++ ([.memory .decorated] ++ ([] ++ ([.memory .count2] ++ []))))) := by
      simp [sourceSteps, involvedMocks]
    rw [e]
    refine Plan.bind (built_op h0 _) (fun _ s2 _ hg => ?_) fun _ _ _ hg => absurd hg.1 (by simp)
    refine Plan.bind (built_ops _ hg.2) (fun _ s2 _ hg => ?_) fun _ _ _ hg => absurd hg.1 (by simp)
    refine Plan.bind (aggregate_plan hw hg.2) (fun a s2 _ hg => ?_) fun _ _ _ hg => absurd hg.1 (by simp)
    obtain ⟨ha, hg⟩ := hg
    cases ha
    refine Plan.bind (built_op_destroy hw hg _ (by simp [List.range'])) (fun _ s2 _ hg => ?_) fun _ _ _ hg => absurd hg.1 (by simp)
    refine Plan.bind (built_fresh hg.2) (fun a s2 _ hg => ?_) fun _ _ _ hg => absurd hg.1 (by simp)
    obtain ⟨ha, hg⟩ := hg
    cases ha
    have hperm : [s.next + 1, s.next].Perm (List.range' s.next (1 + 1)) := by simp only [List.range']; exact List.Perm.swap _ _ _
    refine Plan.bind (built_op_destroy hw hg _ hperm) (fun _ s2 _ hg => ?_) fun _ _ _ hg => absurd hg.1 (by simp)
    exact (Plan.pure (bad := fun _ _ => False)).mono (fun _ _ _ h => h.elim) fun _ _ _ ⟨h1, e⟩ => ⟨_, h1, hperm, by rw [e]; exact hg.2⟩
  | «using» src =>
    refine Plan.bind (p := [.memory .sources]) (built_op h0 _) (fun _ s2 _ hg => ?_) fun _ _ _ hg => absurd hg.1 (by simp)
    exact (aggregate_plan hw hg.2).mono (fun _ _ _ h => h) fun _ _ _ ⟨h1, h2⟩ => ⟨_, h1, by simp [sourceCount], h2⟩

/-- A handle with its objects. -/
structure Held (s : St V) (k : Nat) (hd : Handle) (s' : St V) : Prop where
  built : Built s (k + 1) s'
  ref : hd.ref = s.next + k
  objects : hd.objects.Perm (List.range' s.next k)

theorem expectation_plan {s s1 : St V} (hw : Wf s) {k : Nat} (h : Built s k s1) {js : List Nat} (hj : js.Perm (List.range' s.next k)) :
    Plan (X := X) (fun th => expectation th js) s1 [.memory .expectation, .memory .patternCopy, .memory .ref] (fun o s' => Left s (if o = .memory .ref then k + 1 else 0) s')
      fun r s' => ∃ hd, r = .ok hd ∧ Held s (k + 1) hd s' ∧ s'.exp = .init := by
  have weaken : ∀ {o : Op} {x : (Nat → Option X) → M V X Unit} {s2 : St V} {g : Res (Exc X) Unit → St V → Prop}, o ≠ .memory .ref → Plan x s2 [o] (fun _ s' => Left s 0 s') g →
      Plan x s2 [o] (fun o s' => Left s (if o = .memory .ref then k + 1 else 0) s') g := by
    intro o x s2 g ho hp
    refine hp.mono (fun o' ho' s' hs' => ?_) fun _ _ _ h => h
    simp only [List.mem_singleton] at ho'
    subst ho'
    simpa [ho] using hs'
  refine Plan.bind (p := [_]) (weaken (by simp) (built_op_destroy hw h _ hj)) (fun _ s2 _ hg => ?_) fun _ _ _ hg => absurd hg.1 (by simp)
  refine Plan.bind (p := [_]) (weaken (by simp) (built_op_destroy hw hg.2 _ hj)) (fun _ s2 _ hg => ?_) fun _ _ _ hg => absurd hg.1 (by simp)
  refine Plan.bind (p := []) (built_fresh hg.2) (fun a s2 _ hg => ?_) fun _ _ _ hg => absurd hg.1 (by simp)
  obtain ⟨ha, hg⟩ := hg
  cases ha
  refine Plan.bind (p := []) (Plan.code (x := begin_) (r := .ok ()) (s' := { s2 with exp := .init }) rfl rfl) (fun a s3 _ hg' => ?_) fun _ _ _ hg => absurd hg.1 (by simp)
  obtain ⟨-, rfl⟩ := hg'
  have hb : Built s (k + 1) { s2 with exp := .init } := ⟨hg.recs, hg.live, hg.next⟩
  refine Plan.bind (p := [_]) (q := []) ((Plan.op (.memory .ref) { s2 with exp := .init }).mono (fun o ho s' e => ?_) fun _ _ _ h => h) (fun _ s3 _ hg' => ?_) fun _ _ _ hg => absurd hg.1 (by simp)
  · simp only [List.mem_singleton] at ho
    subst ho
    rw [e]
    simpa using (hb.log _).left
  · obtain ⟨-, rfl⟩ := hg'
    refine Plan.bind (p := []) (built_fresh' (hb.log _)) (fun a s4 _ hg' => ?_) fun _ _ _ hg => absurd hg.1 (by simp)
    obtain ⟨ha, hg'⟩ := hg'
    cases ha
    refine (Plan.pure (bad := fun _ _ => False)).mono (fun _ _ _ h => h.elim) fun _ _ _ h1 => ?_
    refine ⟨_, h1.1, ⟨?_, rfl, ?_⟩, ?_⟩
    · rw [h1.2]
      exact hg'.1
    · simp only [Handle.objects]
      rw [List.range'_concat]
      simpa using hj.append_right [s.next + k]
    · rw [h1.2, hg'.2]

/-- What is left if a step of the preparation throws. -/
def left (c : Check) (o : Op) : Nat := if o = .memory .ref then lostObjects c else 0

theorem construct_plan {s : St V} (hw : Wf s) (c : Check) :
    Plan (X := X) (fun th => construct th c) s (prepare c) (fun o s' => Left s (left c o) s') fun r s' => ∃ hd, r = .ok hd ∧ Held s (lostObjects c) hd s' ∧ s'.exp = .init := by
  have h0 : Built s 0 s := ⟨rfl, by simp, rfl⟩
  cases c with
  | pattern scope pat =>
    have hk : lostObjects (.pattern scope pat) = sourceCount scope + 1 := by cases scope <;> rfl
    have hsteps : ∀ o ∈ sourceSteps scope pat, o ≠ .memory .ref := by
      intro o ho e
      subst e
      cases scope <;> simp [sourceSteps] at ho
    refine Plan.bind ((sources_plan hw pat scope).mono (fun o ho s' h => by simpa [left, hsteps o ho] using h) fun _ _ _ h => h) (fun js s2 _ hg => ?_) fun _ _ _ ⟨_, h, _⟩ => absurd h (by simp)
    obtain ⟨js', hjs, hj, hb⟩ := hg
    cases hjs
    refine Plan.bind (p := [.memory .pattern]) ((built_op_destroy hw hb _ hj).mono (fun o ho s' h => ?_) fun _ _ _ h => h) (fun _ s3 _ hg => ?_) fun _ _ _ hg => absurd hg.1 (by simp)
    · simp only [List.mem_singleton] at ho
      subst ho
      simpa [left] using h
    · refine (expectation_plan hw hg.2 hj).mono (fun o _ s' h => ?_) fun _ _ _ h => ?_
      · simpa [left, hk] using h
      · rw [hk]; exact h
  | noOther src =>
    refine Plan.bind (p := [_]) ((built_op h0 _).mono (fun o ho s' h => ?_) fun _ _ _ h => h) (fun _ s2 _ hg => ?_) fun _ _ _ hg => absurd hg.1 (by simp)
    · simp only [List.mem_singleton] at ho
      subst ho
      simpa [left] using h
    refine Plan.bind (p := [_]) ((built_op hg.2 _).mono (fun o ho s' h => ?_) fun _ _ _ h => h) (fun _ s2 _ hg => ?_) fun _ _ _ hg => absurd hg.1 (by simp)
    · simp only [List.mem_singleton] at ho
      subst ho
      simpa [left] using h
    refine (expectation_plan hw hg.2 (js := []) (by simp)).mono (fun o _ s' h => ?_) fun _ _ _ h => h
    simpa [left, lostObjects] using h

theorem quantify_eq {c : Check} {q : Quant} {s : St V} (h : s.exp = .init) :
    (Refuses c q ∧ quantify (X := X) q c s = .done (.exc .invalid, s)) ∨ (¬ Refuses c q ∧ ∃ e, Quantified c q e ∧ quantify (X := X) q c s = .done (.ok (), { s with exp := e })) := by
  cases c with
  | pattern scope pat =>
    cases hq : Expectation.init.quant q with
    | none => exact .inl ⟨quant_iff.1.1 hq, by simp only [quantify, h, hq]⟩
    | some e => exact .inr ⟨fun hr => by simp [quant_iff.1.2 hr] at hq, e, hq, by simp only [quantify, h, hq]⟩
  | noOther src => exact .inr ⟨fun h => h, .init, rfl, by rw [← h]; rfl⟩

theorem Held.lost {s s1 : St V} (hw : Wf s) {k : Nat} {hd : Handle} (h : Held s k hd s1) {s2 : St V} (hl : s2.live = s1.live) : hd.lost s2 = .done { s2 with live := s.live } := by
  refine destroyAll_eq _ s.live (List.range' s.next (k + 1)) s2 (by rw [hl, h.built.live]) ?_ fun i hi hm => ?_
  · rw [List.range'_concat, h.ref]
    refine (List.Perm.cons _ h.objects).trans ?_
    rw [Nat.one_mul]
    exact List.perm_append_comm (l₁ := [s.next + k])
  · have := hw i hm
    simp only [List.mem_range'_1] at hi
    omega

theorem Held.destroyRef {s s1 : St V} (hw : Wf s) {k : Nat} {hd : Handle} (h : Held s k hd s1) {s2 : St V} (hl : s2.live = s1.live) : destroyAll [hd.ref] s2 = .done { s2 with live := s.live ++ List.range' s.next k } := by
  refine destroyAll_eq _ _ [s.next + k] s2 (by rw [hl, h.built.live, List.range'_concat]; simp) (by rw [h.ref]) fun i hi hm => ?_
  simp only [List.mem_singleton] at hi
  subst hi
  simp only [List.mem_append, List.mem_range'_1] at hm
  rcases hm with hm | hm
  · have := hw _ hm
    omega
  · omega

theorem Held.destroyObjects {s s1 : St V} (hw : Wf s) {k : Nat} {hd : Handle} (h : Held s k hd s1) {s2 : St V} (hl : s2.live = s.live ++ List.range' s.next k) : destroyAll hd.objects s2 = .done { s2 with live := s.live } := by
  refine destroyAll_eq _ s.live (List.range' s.next k) s2 hl h.objects fun i hi hm => ?_
  have := hw i hm
  simp only [List.mem_range'_1] at hi
  omega

/-- What a verification that is over leaves. -/
structure Over (s s' : St V) (p : Nat → Prop) : Prop where
  next : s.next ≤ s'.next
  marked : Marked s.recs s'.recs p
  live : s'.live = s.live

/-- What an interrupted verification leaves. -/
structure Stopped (s s' : St V) : Prop where
  next : s.next ≤ s'.next
  recs : s'.recs = s.recs
  live : s'.live = s.live

theorem drop_plan {s : St V} (hw : Wf s) {c : Check} {k : Nat} {hd : Handle} {s1 : St V} (hh : Held s k hd s1) {n : Nat} {pl : List Op} {o : Res (Exc X) Unit} {p : Nat → Prop}
    (hv : ∀ s2 : St V, s2.recs = s1.recs → s2.exp = s1.exp → Plan (X := X) (fun th => verify th P (.context n) c) s2 pl (fun _ s' => s'.recs = s2.recs ∧ Settled s2 s') fun r s' => r = o ∧ Marked s2.recs s'.recs p ∧ Settled s2 s') :
    Plan (X := X) (fun th => hd.drop th P n c) s1 pl (fun _ s' => Stopped s s') fun r s' => r = o ∧ Over s s' p := by
  have e : pl = [] ++ (pl ++ []) := by simp
  have hnx : s.next ≤ s1.next := by rw [hh.built.next]; omega
  rw [e]
  refine Plan.bind (Plan.code (x := quiet (destroyAll [hd.ref])) (r := .ok ()) (s' := { s1 with live := s.live ++ List.range' s.next k }) ?_ rfl) (fun _ s2 _ hg => ?_) fun _ _ _ hg => absurd hg.1 (by simp)
  · simp only [quiet, hh.destroyRef hw rfl, R.bind_done]
  obtain ⟨-, rfl⟩ := hg
  refine Plan.bind (g := fun r s' => r = o ∧ s.next ≤ s'.next ∧ Marked s.recs s'.recs p ∧ s'.live = match r with | .ok _ => s.live ++ List.range' s.next k | .exc _ => s.live)
    (Plan.unwinding (hv _ rfl rfl) (fun _ _ s3 h3 => ?_) (fun _ s3 h3 => ?_) fun e s3 h3 => ?_) (fun _ s3 _ h3 => ?_) fun e s3 _ h3 => ?_
  · exact ⟨_, hh.destroyObjects hw h3.2.live, rfl, by simp only [h3.2.next]; exact hnx, h3.1.trans hh.built.recs, rfl⟩
  · obtain ⟨h4, h5, h6⟩ := h3
    exact ⟨h4, by rw [h6.next]; exact hnx, by rw [← hh.built.recs]; exact h5, h6.live⟩
  · obtain ⟨h4, h5, h6⟩ := h3
    exact ⟨_, hh.destroyObjects hw h6.live, rfl, h4, by simp only [h6.next]; exact hnx, by rw [← hh.built.recs]; exact h5, rfl⟩
  · obtain ⟨h4, h0, h5, h6⟩ := h3
    have hq : quiet (X := X) (destroyAll hd.objects) s3 = .done (.ok (), { s3 with live := s.live }) := by simp only [quiet, hh.destroyObjects hw h6, R.bind_done]
    refine (Plan.code (bad := fun _ _ => False) hq rfl).mono (fun _ _ _ h => h.elim) fun _ _ _ h7 => ?_
    rw [h7.2, h7.1, ← h4]
    exact ⟨rfl, h0, h5, rfl⟩
  · obtain ⟨h4, h0, h5, h6⟩ := h3
    exact ⟨rfl, h4, h0, h5, h6⟩

/-- The steps of a whole statement. -/
theorem statement_plan {s : St V} (hw : Wf s) {c : Check} (hc : Statable c) (q : Quant) (n : Nat) :
    ∃ check v, (∀ o ∈ check, CheckStep c s.recs o) ∧ Decides P s.recs c q v ∧
      Plan (X := X) (fun th => statement th P n c q) s (plan n c check v) (fun o s' => Left s (left c o) s') fun r s' => r = says v ∧ Over s s' (marks v) := by
  by_cases hr : Refuses c q
  · refine ⟨[], .refused, by simp, by cases c with | pattern => exact hr | noOther => exact hr, ?_⟩
    have e : plan n c [] .refused = prepare c ++ ([] ++ []) := by simp [plan]
    rw [e]
    refine Plan.bind (construct_plan hw c) (fun hd s1 _ hg => ?_) fun _ _ _ ⟨_, h, _⟩ => absurd h (by simp)
    obtain ⟨hd', h1, hh, hi⟩ := hg
    cases h1
    have hq : quantify (X := X) q c s1 = .done (.exc .invalid, s1) := by
      rcases quantify_eq (X := X) (c := c) (q := q) hi with ⟨-, h⟩ | ⟨h, -⟩
      · exact h
      · exact absurd hr h
    have hu : (quantify (X := X) q c).unwinding hd.lost s1 = .done (.exc .invalid, { s1 with live := s.live }) := by
      simp only [M.unwinding, hq, R.bind_done, hh.lost hw rfl]
    refine Plan.bind (Plan.code hu rfl) (fun _ _ _ h => absurd h.1 (by simp)) fun e s2 _ h => ⟨rfl, ?_⟩
    rw [h.2, h.1]
    refine ⟨rfl, by simp only [hh.built.next]; omega, ?_, rfl⟩
    simp only [hh.built.recs]
    exact Marked.refl _
  · obtain ⟨check, v, h1, h2, h3, h4⟩ := verify_plan (X := X) (P := P) (recs := s.recs) hc hr
    refine ⟨check, v, h1, h2, ?_⟩
    have e : plan n c check v = prepare c ++ ([] ++ (check ++ tailOps (.context n) v)) := by
      cases v with
      | refused => exact absurd rfl h3
      | failed => simp [plan, tailOps, reportOps, reportSteps]
      | passed p => simp [plan, tailOps]
    have hs : outcome (X := X) (.context n) v = says v := by
      cases v with
      | refused => exact absurd rfl h3
      | failed => rfl
      | passed p => rfl
    have htail : ∀ o ∈ check ++ tailOps (.context n) v, o ≠ .memory .ref := by
      intro o ho hor
      subst hor
      rcases List.mem_append.mp ho with ho | ho
      · exact h1 _ ho
      · cases v <;> simp [tailOps, reportOps] at ho
    rw [e]
    refine Plan.bind (construct_plan hw c) (fun hd s1 _ hg => ?_) fun _ _ _ ⟨_, h, _⟩ => absurd h (by simp)
    obtain ⟨hd', h5, hh, hi⟩ := hg
    cases h5
    rcases quantify_eq (X := X) (c := c) (q := q) hi with ⟨h, -⟩ | ⟨-, ex, hqd, hq⟩
    · exact absurd h hr
    have hu : (quantify (X := X) q c).unwinding hd.lost s1 = .done (.ok (), { s1 with exp := ex }) := by
      simp only [M.unwinding, hq, R.bind_done]
    refine Plan.bind (Plan.code hu rfl) (fun _ s2 _ h => ?_) fun e s2 _ h => absurd h.1 (by simp)
    rw [h.2, ← hs]
    have hh' : Held s (lostObjects c) hd { s1 with exp := ex } := ⟨⟨hh.built.recs, hh.built.live, hh.built.next⟩, hh.ref, hh.objects⟩
    refine (drop_plan hw hh' fun s3 h6 h7 => h4 (.context n) s3 (h6.trans hh.built.recs) (by rw [h7]; exact hqd)).mono (fun o ho s' h => ?_) fun _ _ _ h => h
    simp only [left, htail o ho, if_false]
    exact ⟨h.next, h.recs, by simpa using h.live⟩

theorem convert_eq {th : Nat → Option X} {asBool : X → Option Bool} {c : Check} {s s' : St V} {r : Res (Exc X) Unit} (h : verify th P .throwFalse c s = .done (r, s')) : convert th P asBool c s = caught asBool (r, s') := by
  simp only [convert, h, R.bind_done]

theorem verified_plan (h : Handler) (c : Check) {s : St V} (hv : s.exp.isVerified = true) (bad : Op → St V → Prop) : Plan (X := X) (fun th => verify th P h c) s [] bad fun r s' => r = .ok () ∧ s' = s := by
  refine ⟨fun th _ => ⟨_, _, by simp only [verify, hv, if_true], by simp, rfl, rfl⟩, fun _ _ _ _ hf => (not_first_nil hf).elim⟩

/-- The handle of a verification that has been made goes. -/
theorem drop_settled {s : St V} (hw : Wf s) {c : Check} {k : Nat} {hd : Handle} {s1 s2 : St V} (hh : Held s k hd s1) (hs : Settled s1 s2) (th : Nat → Option X) (n : Nat) :
    hd.drop th P n c s2 = .done (.ok (), { s2 with live := s.live }) := by
  show M.bind (quiet (destroyAll [hd.ref])) _ s2 = _
  simp only [M.bind, quiet, hh.destroyRef hw hs.live, R.bind_done]
  show M.bind _ _ _ = _
  simp only [M.bind, M.unwinding, verify, hs.isVerified, if_true, R.bind_done]
  have := hh.destroyObjects hw (s2 := { s2 with live := s.live ++ List.range' s.next k }) rfl
  simp only [quiet, this, R.bind_done]

theorem question_plan {s : St V} (hw : Wf s) {c : Check} (hc : Statable c) (q : Quant) (n : Nat) {asBool : X → Option Bool} (hb : ∀ x, asBool x = none) :
    ∃ check v, (∀ o ∈ check, CheckStep c s.recs o) ∧ Decides P s.recs c q v ∧
      Plan (X := X) (fun th => question th P asBool n c q) s (questionPlan c check v) (fun o s' => Left s (left c o) s') fun r s' => r = answers v ∧ Over s s' (marks v) := by
  by_cases hr : Refuses c q
  · refine ⟨[], .refused, by simp, by cases c with | pattern => exact hr | noOther => exact hr, ?_⟩
    have e : questionPlan c [] .refused = prepare c ++ ([] ++ []) := by simp [questionPlan]
    rw [e]
    refine Plan.bind (construct_plan hw c) (fun hd s1 _ hg => ?_) fun _ _ _ ⟨_, h, _⟩ => absurd h (by simp)
    obtain ⟨hd', h1, hh, hi⟩ := hg
    cases h1
    have hq : quantify (X := X) q c s1 = .done (.exc .invalid, s1) := by
      rcases quantify_eq (X := X) (c := c) (q := q) hi with ⟨-, h⟩ | ⟨h, -⟩
      · exact h
      · exact absurd hr h
    have hu : (quantify (X := X) q c).unwinding hd.lost s1 = .done (.exc .invalid, { s1 with live := s.live }) := by
      simp only [M.unwinding, hq, R.bind_done, hh.lost hw rfl]
    refine Plan.bind (Plan.code hu rfl) (fun _ _ _ h => absurd h.1 (by simp)) fun e s2 _ h => ⟨rfl, ?_⟩
    obtain ⟨h5, h6⟩ := h
    cases h5
    rw [h6]
    refine ⟨rfl, by simp only [hh.built.next]; omega, ?_, rfl⟩
    simp only [hh.built.recs]
    exact Marked.refl _
  · obtain ⟨check, v, h1, h2, h3, h4⟩ := verify_plan (X := X) (P := P) (recs := s.recs) hc hr
    refine ⟨check, v, h1, h2, ?_⟩
    have e : questionPlan c check v = prepare c ++ ([] ++ ((check ++ tailOps .throwFalse v) ++ [])) := by
      cases v with
      | refused => exact absurd rfl h3
      | failed => simp [questionPlan, tailOps, reportOps]
      | passed p => simp [questionPlan, tailOps]
    have htail : ∀ o ∈ check ++ tailOps .throwFalse v, o ≠ .memory .ref := by
      intro o ho hor
      subst hor
      rcases List.mem_append.mp ho with ho | ho
      · exact h1 _ ho
      · cases v <;> simp [tailOps, reportOps] at ho
    rw [e]
    refine Plan.bind (construct_plan hw c) (fun hd s1 _ hg => ?_) fun _ _ _ ⟨_, h, _⟩ => absurd h (by simp)
    obtain ⟨hd', h5, hh, hi⟩ := hg
    cases h5
    rcases quantify_eq (X := X) (c := c) (q := q) hi with ⟨h, -⟩ | ⟨-, ex, hqd, hq⟩
    · exact absurd h hr
    have hu : (quantify (X := X) q c).unwinding hd.lost s1 = .done (.ok (), { s1 with exp := ex }) := by
      simp only [M.unwinding, hq, R.bind_done]
    refine Plan.bind (Plan.code hu rfl) (fun _ s2 _ h => ?_) fun e s2 _ h => absurd h.1 (by simp)
    rw [h.2]
    have hh' : Held s (lostObjects c) hd { s1 with exp := ex } := ⟨⟨hh.built.recs, hh.built.live, hh.built.next⟩, hh.ref, hh.objects⟩
    have hv := h4 .throwFalse { s1 with exp := ex } hh.built.recs hqd
    have hconv : Plan (X := X) (fun th => convert th P asBool c) { s1 with exp := ex } (check ++ tailOps .throwFalse v) (fun _ s' => s'.recs = s.recs ∧ Settled { s1 with exp := ex } s')
        fun r s' => r = answers v ∧ Marked s.recs s'.recs (marks v) ∧ Settled { s1 with exp := ex } s' := by
      refine ⟨fun th hn => ?_, fun th b o x hf => ?_⟩
      · obtain ⟨r, s', h6, h7, h8, h9, h10⟩ := hv.fine th hn
        refine ⟨answers v, s', ?_, h7, rfl, by rw [← hh.built.recs]; exact h9, h10⟩
        rw [convert_eq h6, h8]
        cases v with
        | refused => exact absurd rfl h3
        | failed => rfl
        | passed p => rfl
      · obtain ⟨s', h6, h7, h8, h9⟩ := hv.broken th b o x hf
        refine ⟨s', ?_, h7, h8.trans hh.built.recs, h9⟩
        rw [convert_eq h6]
        simp only [caught, hb]
    refine Plan.bind (g := fun r s' => r = answers v ∧ Over s { s' with live := s.live } (marks v) ∧ Settled { s1 with exp := ex } s')
      (Plan.unwinding hconv (fun o ho s3 h3 => ?_) (fun b s3 h3 => ?_) fun e s3 h6 => ?_) (fun b s3 _ h6 => ?_) fun e s3 _ h6 => ?_
    · refine ⟨_, hh'.lost hw h3.2.live, rfl, ?_⟩
      simp only [left, htail o ho, if_false]
      exact ⟨by simp only [h3.2.next, hh.built.next]; omega, h3.1, by simp⟩
    · exact ⟨h3.1, ⟨by simp only [h3.2.2.next, hh.built.next]; omega, h3.2.1, rfl⟩, h3.2.2⟩
    · exfalso
      have := h6.1
      cases v with
      | refused => exact h3 rfl
      | failed => cases this
      | passed p => cases this
    · have hd2 : ∀ th : Nat → Option X, (do hd.drop th P n c; pure b : M V X Bool) s3 = .done (.ok b, { s3 with live := s.live }) := by
        intro th
        show M.bind _ _ _ = _
        simp only [M.bind, drop_settled hw hh' h6.2.2, R.bind_done]
        rfl
      refine ⟨fun th _ => ⟨.ok b, { s3 with live := s.live }, hd2 th, by simp, h6.1, h6.2.1⟩, fun _ _ _ _ hf => (not_first_nil hf).elim⟩
    · exfalso
      have := h6.1
      cases v with
      | refused => exact h3 rfl
      | failed => cases this
      | passed p => cases this

theorem none_or_first (th : Nat → Option X) : ∀ (d : List Op) (n : Nat), NoneThrows th n d ∨ ∃ b o x, FirstThrows th n d b o x
  | [], n => .inl fun i hi => by simp at hi
  | o :: d, n => by
    cases h : th n with
    | some x => exact .inr ⟨[], o, x, ⟨d, rfl⟩, fun i hi => by simp at hi, by simpa using h⟩
    | none =>
      rcases none_or_first th d (n + 1) with h1 | ⟨b, o', x, ⟨r, hr⟩, h2, h3⟩
      · refine .inl fun i hi => ?_
        cases i with
        | zero => exact h
        | succ i =>
          have := h1 i (by simpa using hi)
          rwa [Nat.add_assoc, Nat.add_comm 1 i] at this
      · refine .inr ⟨o :: b, o', x, ⟨r, by simp [hr]⟩, fun i hi => ?_, ?_⟩
        · cases i with
          | zero => exact h
          | succ i =>
            have := h2 i (by simpa using hi)
            rwa [Nat.add_assoc, Nat.add_comm 1 i] at this
        · rw [Nat.add_assoc, Nat.add_comm 1] at h3
          exact h3

theorem keep_eq {th : Nat → Option X} {s s1 : St V} (hw : Wf s) {c : Check} {q : Quant} {hd : Handle} (h : keep th c q s = .done (.ok hd, s1)) :
    ¬ Refuses c q ∧ Held s (lostObjects c) hd s1 ∧ Quantified c q s1.exp := by
  have h : M.bind (construct th c) _ s = _ := h
  rcases none_or_first th (prepare c) s.log.length with hn | ⟨b, o, x, hf⟩
  · obtain ⟨r, s2, h1, -, hd', h2, hh, hi⟩ := (construct_plan hw c).fine th hn
    simp only [M.bind, h1, h2, R.bind_done] at h
    rcases quantify_eq (X := X) (c := c) (q := q) hi with ⟨-, hq⟩ | ⟨hr, e, hqd, hq⟩
    · have h : M.bind _ _ s2 = _ := h
      simp only [M.bind, M.unwinding, hq, R.bind_done, hh.lost hw rfl] at h
      cases h
    · have h : M.bind _ _ s2 = _ := h
      simp only [M.bind, M.unwinding, hq, R.bind_done] at h
      cases h
      exact ⟨hr, ⟨⟨hh.built.recs, hh.built.live, hh.built.next⟩, hh.ref, hh.objects⟩, hqd⟩
  · obtain ⟨s2, h1, -⟩ := (construct_plan hw c).broken th b o x hf
    simp only [M.bind, h1, R.bind_done] at h
    cases h

theorem conversions_verified {th : Nat → Option X} {asBool : X → Option Bool} {c : Check} : ∀ (k : Nat) {s : St V}, s.exp.isVerified = true → conversions th P asBool c k s = .done (List.replicate k (some true), s)
  | 0, _, _ => rfl
  | k + 1, s, h => by
    have hv : verify th P .throwFalse c s = .done (.ok (), s) := by simp only [verify, h, if_true]
    simp only [conversions, convert_eq hv, caught, R.bind_done, conversions_verified k h]
    rfl

/-- Exceptions of type `bool` matter only when they are thrown. -/
theorem question_asBool {th : Nat → Option X} {asBool : X → Option Bool} {c : Check} {q : Quant} {n : Nat} {s s' : St V} {r : Res (Exc X) Bool} (h : question th P (fun _ => none) n c q s = .done (r, s'))
    (hr : ∀ x, r = .exc (.user x) → asBool x = none) : question th P asBool n c q s = .done (r, s') := by
  have h : M.bind (construct th c) _ s = _ := h
  show M.bind (construct th c) _ s = _
  simp only [M.bind] at h ⊢
  obtain ⟨⟨r1, s1⟩, h1, h⟩ := R.bind_eq_done.1 h
  rw [h1, R.bind_done]
  cases r1 with
  | exc e => exact h
  | ok hd =>
    have h : M.bind _ _ s1 = _ := h
    show M.bind _ _ s1 = _
    simp only [M.bind] at h ⊢
    obtain ⟨⟨r2, s2⟩, h2, h⟩ := R.bind_eq_done.1 h
    rw [h2, R.bind_done]
    cases r2 with
    | exc e => exact h
    | ok _ =>
      have h : M.bind _ _ s2 = _ := h
      show M.bind _ _ s2 = _
      simp only [M.bind] at h ⊢
      obtain ⟨⟨r3, s3⟩, h3, h⟩ := R.bind_eq_done.1 h
      have hc : (convert th P asBool c).unwinding hd.lost s2 = .done (r3, s3) := by
        simp only [M.unwinding, convert] at h3 ⊢
        obtain ⟨y, h4, h3⟩ := R.bind_eq_done.1 h3
        obtain ⟨⟨r5, s5⟩, h5, h4⟩ := R.bind_eq_done.1 h4
        rw [h5, R.bind_done]
        have key : caught asBool (r5, s5) = caught (fun _ => none) (r5, s5) := by
          cases r5 with
          | ok _ => rfl
          | exc e =>
            cases e with
            | failed => rfl
            | no => rfl
            | invalid => rfl
            | user x =>
              simp only [caught, R.done.injEq] at h4
              subst h4
              simp only at h3
              obtain ⟨s6, -, h3⟩ := R.bind_eq_done.1 h3
              cases h3
              cases h
              simp only [caught, hr x rfl]
        rw [key, h4, R.bind_done]
        exact h3
      rw [hc, R.bind_done]
      exact h

end FakeIt.Checking
