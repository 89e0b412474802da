import Verif.Lemmas.Verifying
import Verif.Lemmas.SingleMatch
import Verif.Lemmas.VerifyingEnds
/-!
# C79: predicates in verifications
-/
namespace FakeIt.Verifying
open FakeIt.Verifying.Spec

variable {V : Type}

/-- **C79** (partial: predicates neither assign to the arguments nor clear the history; those of the sources only look). For every source, pattern and wanted number, whatever calls the predicates of the pattern make:
the verification is defined; it asks only about calls that were recorded when it began, each predicate only about calls of its method; it judges by the largest number of matches in the calls of the source as they
were when it began and shows these calls if it fails; the calls that the predicates make are recorded behind them, all of them and nothing else, and are not verified; an exception of a predicate comes out and nothing is marked. -/
theorem C79_verification_sees_the_history_as_it_was_partial {P : Nat → Code V} {s : St V} (hw : Wf s) {src : Src} (hsrc : ∀ l ∈ srcLeaves src, Still (P l.pred) ∧ l.meth < s.bodies.length)
    {pat : List (Seq Leaf)} (hpat : FakeIt.Spec.WritablePattern pat) (hq : ∀ l ∈ leaves pat, Quiet s.bodies.length (P l.pred)) (want : Option Int) :
    ∃ s' res, verify P src pat want s = .done (s', res) ∧ Asks P s s' (srcLeaves src ++ leaves pat) ∧
      ((∃ e, res = .threw e ∧ Throws P s (srcLeaves src ++ leaves pat) e ∧ After s s' fun _ => False) ∨
      ∃ actual n, History P s src actual ∧ FakeIt.Spec.IsMaxCount (Denotes P s) actual (pat.map Seq.expected) n ∧
        ((Accepts want n ∧ res = .val .passed ∧
            ∃ stop stop' idx idx' pre rest, FakeIt.Spec.Occurs (Denotes P s) actual (pat.map Seq.expected) n 0 stop idx ∧ pat = pre ++ rest ∧ rest ≠ [] ∧
              FakeIt.Spec.PatAt (Denotes P s) actual (pre.map Seq.expected) stop stop' idx' ∧ After s s' fun a => ∃ i ∈ idx ++ idx', actual[i]? = some a) ∨
          (¬ Accepts want n ∧ res = .val (.failed (shown s actual)) ∧ After s s' fun _ => False))) := by
  have hden : (fun l a => holds P s l a = true) = Denotes P s := by
    funext l a; exact propext holds_iff
  have hstart : Same P (srcLeaves src ++ leaves pat) s s := ⟨rfl, rfl, [], by simp, by simp, by simp⟩
  obtain ⟨s1, hs1, ⟨set, hset, hx⟩ | ⟨e, he, hx⟩⟩ := collect_runs (ls := srcLeaves src ++ leaves pat) hw src [] s (fun l hl => ⟨by simp [hl], hsrc l hl⟩) hstart
  · have hact : ∀ a ∈ sortAddrs set, Recorded s a := fun a ha => by
      have := (hset a).1 (mem_sortAddrs.1 ha)
      simp only [List.not_mem_nil, false_or] at this
      exact this.recorded
    have hhist : History P s src (sortAddrs set) := ⟨sortAddrs_sorted _, fun a => by rw [mem_sortAddrs, hset]; simp⟩
    have hlive : ∀ a ∈ sortAddrs set, ∃ r, s.heap[a]? = some r ∧ r.live = true := fun a ha => hw.recorded (hact a ha)
    obtain ⟨n, m, m', idx, idx', stop, hc, ho, hi, hmax, hi', pre, rest, stop', hp1, hp2, hp3⟩ :=
      MatchAnalysis.countMatches_spec (mt := holds P s) (sortAddrs set) pat (fun q hq => (hpat.2 q hq).expected_ne_nil) hpat.1
    have hrun := countLoop_runs (P := P) (ls := srcLeaves src ++ leaves pat) (p := fun _ => False) hw hact (ps := pat) (fun l hl => ⟨by simp [hl], hq l hl⟩) _ 0 0 [] s1 _ hs1.good hc
    rw [hden] at ho hmax hp3
    obtain ⟨s2, hg2, ⟨r, rfl, hx2⟩ | ⟨e, he, hx2⟩⟩ := hrun
    · have hmem : ∀ a, a ∈ m ++ m' ↔ ∃ i ∈ idx ++ idx', (sortAddrs set)[i]? = some a := by
        intro a
        have h1 : (m ++ m').map some = (idx ++ idx').map fun i => (sortAddrs set)[i]? := by rw [List.map_append, List.map_append, hi, hi']
        have h2 : a ∈ m ++ m' ↔ some a ∈ (m ++ m').map some := by simp
        rw [h2, h1, List.mem_map]
      by_cases hac : Accepts want n
      · obtain ⟨s3, h3, hg3⟩ := hg2.mark (m ++ m') fun a ha => by
          obtain ⟨i, -, h⟩ := (hmem a).1 ha
          exact hlive a (List.mem_of_getElem? h)
        refine ⟨s3, .val .passed, ?_, hg3.asks, .inr ⟨sortAddrs set, n, hhist, ⟨⟨stop, idx, ho⟩, hmax⟩, .inl ⟨hac, rfl, stop, stop', idx, idx', pre, rest, ho, hp1, hp2, hp3, ?_⟩⟩⟩
        · show M.bind (collect P src []) _ s = _
          simp only [M.bind, hx]
          show M.bind (countLoop P (sortAddrs set) pat _ 0 0 []) _ s1 = _
          simp only [M.bind, hx2, accepts_iff.2 hac, if_true]
          show M.bind (mark (m ++ m')) _ s2 = _
          simp only [M.bind, h3]
          rfl
        · have hp : (fun a => False ∨ a ∈ m ++ m') = fun a => ∃ i ∈ idx ++ idx', (sortAddrs set)[i]? = some a := by
            funext a
            rw [false_or]
            exact propext (hmem a)
          rw [← hp]
          exact hg3.after
      · refine ⟨s2, _, ?_, hg2.asks, .inr ⟨sortAddrs set, n, hhist, ⟨⟨stop, idx, ho⟩, hmax⟩, .inr ⟨hac, rfl, hg2.after⟩⟩⟩
        have hac' : accepts want n = false := by
          cases h : accepts want n with
          | false => rfl
          | true => exact absurd (accepts_iff.1 h) hac
        show M.bind (collect P src []) _ s = _
        simp only [M.bind, hx]
        show M.bind (countLoop P (sortAddrs set) pat _ 0 0 []) _ s1 = _
        simp only [M.bind, hx2, hac', Bool.false_eq_true, if_false]
        show M.bind (format (sortAddrs set)) _ s2 = _
        simp only [M.bind, hg2.format _ hlive]
        rfl
    · refine ⟨s2, .threw e, ?_, hg2.asks, .inl ⟨e, rfl, he, hg2.after⟩⟩
      show M.bind (collect P src []) _ s = _
      simp only [M.bind, hx]
      show M.bind (countLoop P (sortAddrs set) pat _ 0 0 []) _ s1 = _
      simp only [M.bind, hx2]
  · refine ⟨s1, .threw e, ?_, hs1.asks, .inl ⟨e, rfl, he, hs1.good.after⟩⟩
    show M.bind (collect P src []) _ s = _
    simp only [M.bind, hx]

/-- **C79** for `VerifyNoOtherInvocations` (partial: the predicates of the sources only look): it passes iff all calls of the sources are verified, otherwise it shows them and the unverified ones; nothing changes; an
exception of a predicate comes out. -/
theorem C79_no_other_invocations_partial {P : Nat → Code V} {s : St V} (hw : Wf s) {src : Src} (hsrc : ∀ l ∈ srcLeaves src, Still (P l.pred) ∧ l.meth < s.bodies.length) :
    ∃ s' res, verifyNoOther P src s = .done (s', res) ∧ s'.heap = s.heap ∧ s'.bodies = s.bodies ∧ Asks P s s' (srcLeaves src) ∧
      ((∃ e, res = .threw e ∧ Throws P s (srcLeaves src) e) ∨
      ∃ all unv, History P s src all ∧ History P s (.unverified src) unv ∧
        ((unv = [] ∧ res = .val .passed) ∨ (unv ≠ [] ∧ res = .val (.notVerified (shown s all) (shown s unv))))) := by
  have hstart : Same P (srcLeaves src) s s := ⟨rfl, rfl, [], by simp, by simp, by simp⟩
  obtain ⟨s1, hs1, ⟨set, hset, hx⟩ | ⟨e, he, hx⟩⟩ := collect_runs (ls := srcLeaves src) hw src [] s (fun l hl => ⟨hl, hsrc l hl⟩) hstart
  · have hin : ∀ a, a ∈ set ↔ InSrc P s src a := fun a => by rw [hset]; simp
    have hlive : ∀ a ∈ set, ∃ r, s.heap[a]? = some r ∧ r.live = true := fun a ha => hw.recorded ((hin a).1 ha).recorded
    obtain ⟨unv, h1, h2⟩ := selectUnverified_eq hs1 set hlive
    have hall : History P s src (sortAddrs set) := ⟨sortAddrs_sorted _, fun a => by rw [mem_sortAddrs, hin]⟩
    have hunv : History P s (.unverified src) (sortAddrs unv) := ⟨sortAddrs_sorted _, fun a => by rw [mem_sortAddrs, h2, hin]; rfl⟩
    have hempty : sortAddrs unv = [] ↔ unv = [] := by
      constructor
      · intro h
        cases unv with
        | nil => rfl
        | cons x xs =>
          have : x ∈ sortAddrs (x :: xs) := mem_sortAddrs.2 (by simp)
          rw [h] at this
          cases this
      · rintro rfl; rfl
    cases hu : unv with
    | nil =>
      refine ⟨s1, .val .passed, ?_, hs1.heap, hs1.bodies, hs1.asks, .inr ⟨_, _, hall, hunv, .inl ⟨hempty.2 hu, rfl⟩⟩⟩
      show M.bind (collect P src []) _ s = _
      simp only [M.bind, hx]
      show M.bind (selectUnverified set) _ s1 = _
      simp only [M.bind, h1, hu]
      rfl
    | cons x xs =>
      refine ⟨s1, _, ?_, hs1.heap, hs1.bodies, hs1.asks, .inr ⟨_, _, hall, hunv, .inr ⟨(by rw [Ne, hempty, hu]; simp), rfl⟩⟩⟩
      show M.bind (collect P src []) _ s = _
      simp only [M.bind, hx]
      show M.bind (selectUnverified set) _ s1 = _
      have hne : unv.isEmpty = false := by rw [hu]; rfl
      simp only [M.bind, h1, hne, Bool.false_eq_true, if_false]
      show M.bind (format (sortAddrs set)) _ s1 = _
      simp only [M.bind, hs1.good.format _ fun a ha => hlive a (mem_sortAddrs.1 ha)]
      show M.bind (format (sortAddrs unv)) _ s1 = _
      simp only [M.bind, hs1.good.format _ fun a ha => hlive a ((h2 a).1 (mem_sortAddrs.1 ha)).1]
      rfl
  · refine ⟨s1, .threw e, ?_, hs1.heap, hs1.bodies, hs1.asks, .inl ⟨e, rfl, he⟩⟩
    show M.bind (collect P src []) _ s = _
    simp only [M.bind, hx]

/-! ## States that programs reach -/

/-- A mock of a class with `n` methods before the first call. -/
def start (n : Nat) : St V := ⟨[], List.replicate n ⟨[], 0⟩, []⟩

theorem start_wf (n : Nat) : Wf (start n : St V) := by
  refine ⟨fun m b hb a ha => ?_⟩
  simp only [start, List.getElem?_replicate] at hb
  split at hb
  · simp only [Option.some.injEq] at hb
    subst hb
    cases ha
  · cases hb

/-- The state after calls made by the test. -/
theorem call_wf {s s' : St V} (hw : Wf s) {m : Nat} {v : V} (h : s.call m v = .done s') : Wf s' := by
  simp only [St.call] at h
  split at h
  · cases h
  rename_i b0 hb0
  simp only [R.done.injEq] at h
  subst h
  have hlt := (List.getElem?_eq_some_iff.1 hb0).1
  refine ⟨fun m' b hb a ha => ?_⟩
  have keep : ∀ {r : Rec V}, s.heap[a]? = some r → (s.heap ++ [⟨m, v, false, true⟩])[a]? = some r := fun h => by
    rw [List.getElem?_append_left (List.getElem?_eq_some_iff.1 h).1]; exact h
  by_cases e : m = m'
  · subst e
    simp only [List.getElem?_set_self hlt, Option.some.injEq] at hb
    subst hb
    rcases List.mem_append.1 ha with ha | ha
    · obtain ⟨r, h1, h2⟩ := hw.items m b0 hb0 a ha
      exact ⟨r, keep h1, h2⟩
    · rw [List.mem_singleton.1 ha]
      exact ⟨⟨m, v, false, true⟩, by simp, rfl, rfl⟩
  · simp only [List.getElem?_set_ne e] at hb
    obtain ⟨r, h1, h2⟩ := hw.items m' b hb a ha
    exact ⟨r, keep h1, h2⟩

namespace Demo

/-- Predicates: 0: more than 3; 1: calls method 1 and says whether more than 3; 2: throws for 5; 3: calls method 0; 4: assigns; 5: clears; 6: calls method 1, accepts; 7: accepts. -/
def preds : Nat → Code Nat
  | 0 => .look fun v => .answer (3 < v)
  | 1 => .call 1 9 (.look fun v => .answer (3 < v))
  | 2 => .look fun v => if v = 5 then .throw 77 else .answer true
  | 3 => .call 0 8 (.answer true)
  | 4 => .assign 6 (.answer false)
  | 5 => .clear (.answer true)
  | 6 => .call 1 9 (.answer true)
  | _ => .answer true

/-- Three calls of method 0. -/
def calls : R (St Nat) := do
  let s ← (start 2).call 0 2
  let s ← s.call 0 5
  s.call 0 7

/-- The state after them. -/
def three : St Nat := ⟨[⟨0, 2, false, true⟩, ⟨0, 5, false, true⟩, ⟨0, 7, false, true⟩], [⟨[0, 1, 2], 3⟩, ⟨[], 0⟩], []⟩

theorem calls_eq : calls = .done three := rfl

theorem three_wf : Wf three := by
  have h1 : (start 2).call 0 2 = .done (⟨[⟨0, 2, false, true⟩], [⟨[0], 1⟩, ⟨[], 0⟩], []⟩ : St Nat) := rfl
  have h2 : (⟨[⟨0, 2, false, true⟩], [⟨[0], 1⟩, ⟨[], 0⟩], []⟩ : St Nat).call 0 5 = .done ⟨[⟨0, 2, false, true⟩, ⟨0, 5, false, true⟩], [⟨[0, 1], 2⟩, ⟨[], 0⟩], []⟩ := rfl
  exact call_wf (call_wf (call_wf (start_wf 2) h1) h2) (s' := three) (m := 0) (v := 7) rfl

/-- A predicate that calls another method: the case of the theorem. -/
example : (∀ l ∈ leaves [Seq.leaf ⟨0, 1⟩], Quiet three.bodies.length (preds l.pred)) ∧ FakeIt.Spec.WritablePattern [Seq.leaf (⟨0, 1⟩ : Leaf)] := by
  refine ⟨fun l hl => ?_, by simp, fun q hq => ?_⟩
  · simp only [leaves, List.flatMap_cons, Seq.expected, List.flatMap_nil, List.append_nil, List.mem_singleton] at hl
    subst hl
    exact .call 1 9 _ (by decide) (.look _ fun v => .answer _)
  · rw [List.mem_singleton.1 hq]
    exact .method _

/-- `Verify(Method(mock, f).Matching(pred1)).Exactly(2)`: passes, marks the calls with 5 and 7; the three calls of `g` are recorded, not verified. -/
example : verify preds .mock [.leaf ⟨0, 1⟩] (some 2) three = .done (⟨[⟨0, 2, false, true⟩, ⟨0, 5, true, true⟩, ⟨0, 7, true, true⟩, ⟨1, 9, false, true⟩, ⟨1, 9, false, true⟩, ⟨1, 9, false, true⟩],
    [⟨[0, 1, 2], 3⟩, ⟨[3, 4, 5], 3⟩], [⟨1, 0⟩, ⟨1, 1⟩, ⟨1, 2⟩]⟩, .val .passed) := by decide +kernel

/-- A predicate that throws: nothing is marked, the third call is not asked about. -/
example : verify preds .mock [.leaf ⟨0, 2⟩] (some 2) three = .done ({ three with asks := [⟨2, 0⟩, ⟨2, 1⟩] }, .threw 77) := by decide +kernel

/-- Two sources, one restricted to more than 3, `VerifyNoOtherInvocations`. -/
example : verifyNoOther preds (.unverified (.method ⟨0, 0⟩)) three = .done ({ three with asks := [⟨0, 0⟩, ⟨0, 1⟩, ⟨0, 2⟩] }, .val (.notVerified [5, 7] [5, 7])) := by decide +kernel

end Demo

/-! ## What is missing -/

/-- Predicates that assign change the recorded calls, and with them what later verifications see: two calls had more than 3, after a verification that passes, all three have 6. -/
theorem C79_predicates_may_change_the_record : ∃ s' t t' : St Nat,
    verify Demo.preds .mock [.leaf ⟨0, 0⟩] (some 2) Demo.three = .done (s', .val .passed) ∧
    verify Demo.preds .mock [.leaf ⟨0, 4⟩] (some 0) Demo.three = .done (t, .val .passed) ∧
    verify Demo.preds .mock [.leaf ⟨0, 0⟩] (some 2) t = .done (t', .val (.failed [6, 6, 6])) :=
  ⟨⟨[⟨0, 2, false, true⟩, ⟨0, 5, true, true⟩, ⟨0, 7, true, true⟩], [⟨[0, 1, 2], 3⟩, ⟨[], 0⟩], [⟨0, 0⟩, ⟨0, 1⟩, ⟨0, 2⟩]⟩,
   ⟨[⟨0, 6, false, true⟩, ⟨0, 6, false, true⟩, ⟨0, 6, false, true⟩], [⟨[0, 1, 2], 3⟩, ⟨[], 0⟩], [⟨4, 0⟩, ⟨4, 1⟩, ⟨4, 2⟩]⟩,
   ⟨[⟨0, 6, false, true⟩, ⟨0, 6, false, true⟩, ⟨0, 6, false, true⟩], [⟨[0, 1, 2], 3⟩, ⟨[], 0⟩], [⟨4, 0⟩, ⟨4, 1⟩, ⟨4, 2⟩, ⟨0, 0⟩, ⟨0, 1⟩, ⟨0, 2⟩]⟩,
   by decide +kernel, by decide +kernel, by decide +kernel⟩

theorem sorted_unique : ∀ {l l' : List Nat}, l.Pairwise (· < ·) → l'.Pairwise (· < ·) → (∀ a, a ∈ l ↔ a ∈ l') → l = l'
  | [], [], _, _, _ => rfl
  | [], b :: l', _, _, h => by have := (h b).2 (by simp); cases this
  | a :: l, [], _, _, h => by have := (h a).1 (by simp); cases this
  | a :: l, b :: l', h1, h2, h => by
    rw [List.pairwise_cons] at h1 h2
    have hab : a = b := by
      have ha := (h a).1 (by simp)
      have hb := (h b).2 (by simp)
      rcases List.mem_cons.1 ha with h' | h'
      · exact h'
      · rcases List.mem_cons.1 hb with h'' | h''
        · exact h''.symm
        · have := h1.1 b h''; have := h2.1 a h'; omega
    subst hab
    have : l = l' := sorted_unique h1.2 h2.2 fun x => by
      have := h x
      simp only [List.mem_cons] at this
      constructor
      · intro hx
        rcases this.1 (.inr hx) with e | e
        · have := h1.1 x hx; omega
        · exact e
      · intro hx
        rcases this.2 (.inr hx) with e | e
        · have := h2.1 x hx; omega
        · exact e
    rw [this]

/-- A predicate that clears the history and accepts makes every verification of its method undefined that looks at the mock when the first recorded call is of this method, whatever the wanted number. -/
theorem C79_predicates_cannot_clear {P : Nat → Code V} {l : Leaf} (hP : P l.pred = .clear (.answer true)) {s : St V} (hw : Wf s) {a : Nat} {rest : List Nat} {r : Rec V}
    (hh : History P s .mock (a :: rest)) (hr : s.heap[a]? = some r) (hm : r.meth = l.meth) (want : Option Int) : verify P .mock [.leaf l] want s = .ub := by
  have hset : sortAddrs ((s.bodies.flatMap Vec.items).foldl insertAddr []) = a :: rest := by
    refine sorted_unique (sortAddrs_sorted _) hh.order fun x => ?_
    rw [hh.mem, mem_sortAddrs, mem_foldl_insertAddr, List.mem_flatMap]
    simp only [List.not_mem_nil, false_or]
    constructor
    · rintro ⟨b, hb, hx⟩
      obtain ⟨m, h⟩ := List.getElem?_of_mem hb
      exact ⟨m, b, h, hx⟩
    · rintro ⟨m, b, h, hx⟩
      exact ⟨b, List.mem_of_getElem? h, hx⟩
  have hrec : ∀ x ∈ a :: rest, Recorded s x := fun x hx => (hh.mem x).1 hx
  have hlive : s.fetch a = .done r := by
    obtain ⟨r', h1, h2⟩ := hw.recorded (hrec a (by simp))
    rw [hr, Option.some.injEq] at h1
    subst h1
    simp [St.fetch, hr, h2]
  have hdead : ∀ x ∈ a :: rest, (St.clear { s with asks := s.asks ++ [⟨l.pred, a⟩] } none).fetch x = .ub := by
    intro x hx
    obtain ⟨m, b, hb, hxb⟩ := hrec x hx
    obtain ⟨r', h1, h2, -⟩ := hw.items m b hb x hxb
    have hin : (s.bodies.any fun b => b.items.contains x) = true := List.any_eq_true.2 ⟨b, List.mem_of_getElem? hb, by simpa using hxb⟩
    simp only [St.fetch, St.clear, List.getElem?_mapIdx, h1, Option.map_some, hin]
    rfl
  have hask : ask P l a s = .done (St.clear { s with asks := s.asks ++ [⟨l.pred, a⟩] } none, .val true) := by
    show M.bind (record a) _ s = _
    simp only [M.bind, record, hlive, hm, if_true]
    show M.bind (note ⟨l.pred, a⟩) _ s = _
    simp only [M.bind, note, hP]
    rfl
  generalize (St.clear { s with asks := s.asks ++ [⟨l.pred, a⟩] } none) = t at hdead hask
  have hask' : ∀ x ∈ a :: rest, ask P l x t = .ub := fun x hx => by
    show M.bind (record x) _ t = _
    simp only [M.bind, record, hdead x hx]
  have him : isMatchFrom P (a :: rest) 0 0 [l] s = .done (t, .val true) := by
    show M.bind (ask P l a) _ s = _
    simp only [M.bind, hask]
    rfl
  have hf1 : findNext1 P (a :: rest) [l] 0 s = .done (t, .val (some 0)) := by
    have : (((a :: rest).length : Int) - ([l].length : Int) + 1 - ((0 : Nat) : Int)).toNat = rest.length + 1 := by simp only [List.length_cons, List.length_nil]; omega
    rw [findNext1, this]
    show M.bind (isMatchFrom P (a :: rest) 0 0 [l]) _ s = _
    simp only [M.bind, him]
    rfl
  have hfp : findNextP P (a :: rest) [.leaf l] 0 [] s = .done (t, .val (some 1, [a])) := by
    show M.bind (findNext1 P (a :: rest) [l] 0) _ s = _
    simp only [M.bind, hf1]
    rfl
  have hloop : countLoop P (a :: rest) [.leaf l] ((a :: rest).length + 1) 0 0 [] s = countLoop P (a :: rest) [.leaf l] (rest.length + 1) 1 1 [a] t := by
    show M.bind (findNextP P (a :: rest) [.leaf l] 0 []) _ s = _
    simp only [M.bind, hfp]
    rfl
  have hv : verify P .mock [.leaf l] want s = M.bind (countLoop P (a :: rest) [.leaf l] ((a :: rest).length + 1) 0 0 []) (fun r => if accepts want r.1 then (do
    mark r.2
    pure .passed) else (do
    let shown ← format (a :: rest)
    pure (.failed shown))) s := by
    rw [← hset]
    rfl
  rw [hv]
  unfold M.bind
  rw [hloop]
  cases rest with
  | nil =>
    have : countLoop P [a] [.leaf l] (([] : List Nat).length + 1) 1 1 [a] t = .done (t, .val (1, [a])) := rfl
    rw [this]
    simp only
    split
    · show M.bind (M.bind (record a) _) _ t = _
      simp only [M.bind, record, hdead a (by simp)]
    · show M.bind (M.bind (record a) _) _ t = _
      simp only [M.bind, record, hdead a (by simp)]
  | cons x rest =>
    have h1 : isMatchFrom P (a :: x :: rest) 1 0 [l] t = .ub := by
      show M.bind (ask P l x) _ t = _
      simp only [M.bind, hask' x (by simp)]
    have h2 : findNext1 P (a :: x :: rest) [l] 1 t = .ub := by
      have : (((a :: x :: rest).length : Int) - ([l].length : Int) + 1 - ((1 : Nat) : Int)).toNat = rest.length + 1 := by simp only [List.length_cons, List.length_nil]; omega
      rw [findNext1, this]
      show M.bind (isMatchFrom P (a :: x :: rest) 1 0 [l]) _ t = _
      simp only [M.bind, h1]
    have h3 : countLoop P (a :: x :: rest) [.leaf l] ((x :: rest).length + 1) 1 1 [a] t = .ub := by
      show M.bind (M.bind (findNext1 P (a :: x :: rest) [l] 1) _) _ t = _
      simp only [M.bind, h2]
    rw [h3]

example : verify Demo.preds .mock [.leaf ⟨0, 5⟩] none Demo.three = .ub := by decide +kernel

/-- Predicates of a source cannot call the method whose calls they look through, whatever they say: the loop goes on with an invalid iterator. -/
theorem C79_source_predicates_cannot_call_their_method {P : Nat → Code V} {l : Leaf} {v : V} {b : Bool} (hP : P l.pred = .call l.meth v (.answer b)) {s : St V} {vec : Vec} (hb : s.bodies[l.meth]? = some vec)
    (hne : vec.items ≠ []) (pat : List (Seq Leaf)) (want : Option Int) : verify P (.method l) pat want s = .ub ∧ verifyNoOther P (.method l) s = .ub := by
  have hlt := (List.getElem?_eq_some_iff.1 hb).1
  have hc : collect P (.method l) [] s = .ub := by
    cases hi : vec.items with
    | nil => exact absurd hi hne
    | cons a rest =>
      show M.bind (Verifying.vec l.meth) _ s = _
      simp only [M.bind, Verifying.vec, hb, hi]
      rw [scan]
      show M.bind (note ⟨l.pred, a⟩) _ s = _
      simp only [M.bind, note]
      show M.bind (exec (some a) a (P l.pred)) _ _ = _
      simp only [M.bind, hP, exec, St.call, hb]
      show M.bind (unmodified l.meth vec.ver) _ _ = _
      simp [M.bind, unmodified, List.getElem?_set_self hlt]
  constructor
  · show M.bind (collect P (.method l) []) _ s = _
    simp only [M.bind, hc]
  · show M.bind (collect P (.method l) []) _ s = _
    simp only [M.bind, hc]

example : verify Demo.preds (.method ⟨0, 3⟩) [.leaf ⟨0, 7⟩] none Demo.three = .ub := by decide +kernel

/-- Calls that predicates of a source make to other methods are seen by the sources behind it: method 1 was never called before `Using(Method(mock, f).Matching(pred), mock).Verify(Method(mock, g)).Exactly(3)`. -/
theorem C79_source_predicates_may_add_calls : ∃ s' : St Nat, Demo.three.bodies[1]? = some ⟨[], 0⟩ ∧
    verify Demo.preds (.both (.method ⟨0, 6⟩) .mock) [.leaf ⟨1, 7⟩] (some 3) Demo.three = .done (s', .val .passed) :=
  ⟨⟨[⟨0, 2, false, true⟩, ⟨0, 5, false, true⟩, ⟨0, 7, false, true⟩, ⟨1, 9, true, true⟩, ⟨1, 9, true, true⟩, ⟨1, 9, true, true⟩], [⟨[0, 1, 2], 3⟩, ⟨[3, 4, 5], 3⟩],
    [⟨6, 0⟩, ⟨6, 1⟩, ⟨6, 2⟩, ⟨7, 3⟩, ⟨7, 4⟩, ⟨7, 5⟩]⟩, rfl, by decide +kernel⟩

/-- Where the loop over a method's recorded calls asks the predicate, the loop holds the call: a predicate that clears the history may still look at its arguments, and may leave by throwing. -/
theorem C79_source_predicates_may_clear_and_throw {P : Nat → Code V} {l : Leaf} {g : V → Nat} (hP : P l.pred = .clear (.look fun v => .throw (g v))) {s : St V} (hw : Wf s) {vec : Vec} {a : Nat} {rest : List Nat}
    {r : Rec V} (hb : s.bodies[l.meth]? = some vec) (hi : vec.items = a :: rest) (hr : s.heap[a]? = some r) (pat : List (Seq Leaf)) (want : Option Int) :
    ∃ s', verify P (.method l) pat want s = .done (s', .threw (g r.arg)) ∧ ∀ b ∈ s'.bodies, b.items = [] := by
  obtain ⟨r', h1, h2⟩ := hw.recorded (a := a) ⟨l.meth, vec, hb, by rw [hi]; simp⟩
  rw [hr, Option.some.injEq] at h1
  subst h1
  have hf : (St.clear { s with asks := s.asks ++ [⟨l.pred, a⟩] } (some a)).fetch a = .done r := by
    simp only [St.fetch, St.clear, List.getElem?_mapIdx, hr, Option.map_some, bne_self_eq_false, Bool.and_false, Bool.false_eq_true, if_false, h2, if_true]
  refine ⟨St.clear { s with asks := s.asks ++ [⟨l.pred, a⟩] } (some a), ?_, ?_⟩
  · have hc : collect P (.method l) [] s = .done (St.clear { s with asks := s.asks ++ [⟨l.pred, a⟩] } (some a), .threw (g r.arg)) := by
      show M.bind (Verifying.vec l.meth) _ s = _
      simp only [M.bind, Verifying.vec, hb, hi]
      rw [scan]
      show M.bind (note ⟨l.pred, a⟩) _ s = _
      simp only [M.bind, note]
      show M.bind (exec (some a) a (P l.pred)) _ _ = _
      simp only [M.bind, hP, exec, hf]
    show M.bind (collect P (.method l) []) _ s = _
    simp only [M.bind, hc]
  · intro b hb'
    simp only [St.clear, List.mem_map] at hb'
    obtain ⟨x, -, rfl⟩ := hb'
    rfl

/-- Where calls are compared with what is expected, nothing holds the call: the same predicate is undefined behaviour there. -/
theorem C79_predicates_cannot_clear_and_look {P : Nat → Code V} {l : Leaf} {k : V → Code V} (hP : P l.pred = .clear (.look k)) {s : St V} (hw : Wf s) {a : Nat} {rest : List Nat} {r : Rec V}
    (hh : History P s .mock (a :: rest)) (hr : s.heap[a]? = some r) (hm : r.meth = l.meth) : ask P l a s = .ub := by
  obtain ⟨m, b, hb, hxb⟩ := (hh.mem a).1 (by simp)
  obtain ⟨r', h1, h2, -⟩ := hw.items m b hb a hxb
  rw [hr, Option.some.injEq] at h1
  subst h1
  have hin : (s.bodies.any fun b => b.items.contains a) = true := List.any_eq_true.2 ⟨b, List.mem_of_getElem? hb, by simpa using hxb⟩
  have hlive : s.fetch a = .done r := by simp [St.fetch, hr, h2]
  have hdead : (St.clear { s with asks := s.asks ++ [⟨l.pred, a⟩] } none).fetch a = .ub := by
    simp only [St.fetch, St.clear, List.getElem?_mapIdx, hr, Option.map_some, hin]
    rfl
  show M.bind (record a) _ s = _
  simp only [M.bind, record, hlive, hm, if_true]
  show M.bind (note ⟨l.pred, a⟩) _ s = _
  simp only [M.bind, note, hP, exec, hdead]

example : ask (fun _ => .clear (.look fun v => .throw v)) ⟨0, 9⟩ 0 Demo.three = .ub := by decide +kernel

/-- Case: the predicate clears the history of three calls and throws what the first one was called with. -/
example : ∃ s' : St Nat, verify (fun _ => .clear (.look fun v => .throw v)) (.method ⟨0, 9⟩) [.leaf ⟨1, 7⟩] (some 3) Demo.three = .done (s', .threw 2) ∧ ∀ b ∈ s'.bodies, b.items = [] :=
  C79_source_predicates_may_clear_and_throw (l := ⟨0, 9⟩) (g := id) (r := ⟨0, 2, false, true⟩) rfl Demo.three_wf (vec := ⟨[0, 1, 2], 3⟩) rfl rfl rfl _ _

/-- **C79**: every verification ends, whatever the predicates do (calls, assignments, clearing, exceptions) and in whatever state: it never searches for ever. -/
theorem C79_verifications_end (P : Nat → Code V) (s : St V) (src : Src) {pat : List (Seq Leaf)} (hpat : FakeIt.Spec.WritablePattern pat) (want : Option Int) :
    verify P src pat want s ≠ .oof ∧ verifyNoOther P src s ≠ .oof := by
  have hpos : 0 < (pat.map Seq.size).sum := by
    obtain ⟨h1, h2⟩ := hpat
    cases pat with
    | nil => exact absurd rfl h1
    | cons p ps =>
      have := (h2 p (by simp)).expected_ne_nil
      rw [← List.length_pos_iff, Seq.length_expected] at this
      simp only [List.map_cons, List.sum_cons]
      omega
  constructor
  · refine (Ends.bind (Q' := fun _ => True) (collect_ends P src []) fun set _ => ?_ : Ends (verify P src pat want) _) s |>.1
    refine (countLoop_ends P _ hpat.1 hpos _ _ _ _ (Nat.zero_le _) (by omega)).bind fun r _ => ?_
    split
    · exact (mark_ends _).bind fun _ _ => .pure trivial
    · exact (format_ends _).bind fun _ _ => .pure trivial
  · refine (Ends.bind (Q' := fun _ => True) (collect_ends P src []) fun set _ => ?_ : Ends (verifyNoOther P src) _) s |>.1
    refine (selectUnverified_ends _).bind fun unv _ => ?_
    split
    · exact .pure trivial
    · exact (format_ends _).bind fun _ _ => (format_ends _).bind fun _ _ => .pure trivial

/-- Case: a predicate that calls the method it is asked about each time it is asked. -/
example : verify (fun _ => .call 0 7 (.answer true)) .mock [.leaf ⟨0, 0⟩] (some 3) Demo.three ≠ .oof :=
  (C79_verifications_end _ _ _ ⟨by simp, by intro s hs; simp only [List.mem_singleton] at hs; subst hs; exact .method _⟩ _).1

end FakeIt.Verifying
