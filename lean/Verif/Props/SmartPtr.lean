import Verif.Model.SmartPtr
/-!
# C46: shared statement objects are destroyed exactly once
-/
namespace FakeIt

/-! ## Specification: who shares what -/

/-- Which statement object each handle shares (objects numbered in order of creation), and how many were created. -/
structure Spec.Shares where
  of : Nat → Option Nat := fun _ => none
  made : Nat := 0

/-- What the operations mean for sharing. -/
def Spec.Shares.step (a : Spec.Shares) : SPOp → Spec.Shares
  | .make h => { of := fun x => if x = h then some a.made else a.of x, made := a.made + 1 }
  | .copy h g => { a with of := fun x => if x = h then a.of g else a.of x }
  | .assign h g => { a with of := fun x => if x = h then a.of g else a.of x }
  | .destroy h => { a with of := fun x => if x = h then none else a.of x }
  | .use _ => a

/-- The operations a C++ program can perform: a handle is created where there is none, and only existing handles are named. -/
def Spec.Shares.Legal (a : Spec.Shares) : SPOp → Prop
  | .make h => a.of h = none
  | .copy h g => a.of h = none ∧ a.of g ≠ none
  | .assign h g => a.of h ≠ none ∧ a.of g ≠ none
  | .destroy h => a.of h ≠ none
  | .use h => a.of h ≠ none

/-- A whole program of legal operations. -/
def Spec.Shares.LegalAll : Spec.Shares → List SPOp → Prop
  | _, [] => True
  | a, o :: os => a.Legal o ∧ LegalAll (a.step o) os

/-- Sharing after a program. -/
def Spec.Shares.steps (a : Spec.Shares) (os : List SPOp) : Spec.Shares := os.foldl Spec.Shares.step a

open Spec

/-! ## Invariant -/

private def cnt (l : List (Nat × SPtr)) (r : Nat) : Nat := l.countP (fun p => p.2.ref = r)

private structure SPInv (s : SPState) (a : Shares) : Prop where
  nodup : (s.handles.map (·.1)).Nodup
  of : ∀ h, (s.handle? h).map (·.data) = a.of h
  next : s.next = a.made
  same : ∀ p ∈ s.handles, p.2.data = p.2.ref ∧ p.2.ref < s.next
  refs : ∀ r, s.refs r = if cnt s.handles r = 0 then none else some (cnt s.handles r : Int)
  live : ∀ r, r < s.next → (s.objs r = true ↔ cnt s.handles r ≠ 0)
  gone : ∀ r, r < s.next → cnt s.handles r = 0 → s.destroyed.count r = 1
  kept : ∀ r, (r < s.next → cnt s.handles r ≠ 0) → s.destroyed.count r = 0

private theorem cnt_cons (x : Nat × SPtr) (l : List (Nat × SPtr)) (r : Nat) : cnt (x :: l) r = cnt l r + if x.2.ref = r then 1 else 0 := by
  simp only [cnt, List.countP_cons, decide_eq_true_eq]

private theorem handle_mem {s : SPState} {h : Nat} {p : SPtr} (hh : s.handle? h = some p) : (h, p) ∈ s.handles := by
  unfold SPState.handle? at hh
  cases hf : s.handles.find? (·.1 = h) with
  | none => rw [hf] at hh; simp at hh
  | some x =>
    rw [hf] at hh
    have h1 := List.mem_of_find?_eq_some hf
    have h2 := List.find?_some hf
    simp at hh h2
    rw [← hh, ← h2]; exact h1

private theorem filter_other {l : List (Nat × SPtr)} {h : Nat} (hn : ∀ q ∈ l, q.1 ≠ h) : l.filter (·.1 ≠ h) = l := by
  rw [List.filter_eq_self]
  intro q hq; simpa using hn q hq

private theorem cnt_filter {l : List (Nat × SPtr)} (hn : (l.map (·.1)).Nodup) {h : Nat} {p : SPtr} (hm : (h, p) ∈ l) (r : Nat) :
    cnt l r = cnt (l.filter (·.1 ≠ h)) r + if p.ref = r then 1 else 0 := by
  induction l with
  | nil => simp at hm
  | cons x l ih =>
    simp only [List.map_cons, List.nodup_cons] at hn
    rcases List.mem_cons.1 hm with e | hm'
    · subst e
      have hno : ∀ q ∈ l, q.1 ≠ h := by
        intro q hq e
        exact hn.1 (List.mem_map.2 ⟨q, hq, e⟩)
      rw [List.filter_cons_of_neg (by simp), filter_other hno, cnt_cons]
    · have hx : x.1 ≠ h := by
        intro e
        exact hn.1 (List.mem_map.2 ⟨(h, p), hm', e.symm⟩)
      rw [List.filter_cons_of_pos (by simpa using hx), cnt_cons, cnt_cons, ih hn.2 hm']
      omega

private theorem find_filter (l : List (Nat × SPtr)) (h x : Nat) :
    (l.filter (·.1 ≠ h)).find? (·.1 = x) = if x = h then none else l.find? (·.1 = x) := by
  induction l with
  | nil => simp
  | cons q l ih =>
    by_cases hq : q.1 = h
    · rw [List.filter_cons_of_neg (by simpa using hq), ih]
      by_cases hx : x = h
      · simp [hx]
      · have : ¬ q.1 = x := by intro e; exact hx (e.symm.trans hq)
        simp [hx, this]
    · rw [List.filter_cons_of_pos (by simpa using hq), List.find?_cons, ih, List.find?_cons]
      by_cases hqx : q.1 = x
      · have : ¬ x = h := by intro e; exact hq (hqx.trans e)
        simp [hqx, this]
      · simp [hqx]

private theorem cnt_pos {l : List (Nat × SPtr)} {h : Nat} {p : SPtr} (hm : (h, p) ∈ l) : cnt l p.ref ≠ 0 := by
  unfold cnt
  intro h0
  rw [List.countP_eq_zero] at h0
  exact h0 _ hm (by simp)

/-- Giving up one handle: release, then remove it from the list. -/
private theorem release_inv {throws : Nat → Bool} {s : SPState} {a : Shares} (hi : SPInv s a) {h : Nat} {p : SPtr} (hh : s.handle? h = some p) :
    ∃ s' b, s.release throws p = .done (s', b) ∧ s'.handles = s.handles ∧ (b = true → throws p.data = true) ∧
      SPInv (s'.drop h) { a with of := fun x => if x = h then none else a.of x } := by
  have hm := handle_mem hh
  have hc := cnt_pos hm
  obtain ⟨hsame, hlt⟩ := hi.same _ hm
  simp only at hsame hlt
  have hof : ∀ (s' : SPState), s'.handles = s.handles → ∀ x, ((s'.drop h).handle? x).map (·.data) = if x = h then none else a.of x := by
    intro s' he x
    simp only [SPState.drop, SPState.handle?, he, find_filter]
    by_cases e : x = h
    · simp [e]
    · simp only [if_neg e]; exact hi.of x
  have hnd : ((s.handles.filter (·.1 ≠ h)).map (·.1)).Nodup := hi.nodup.sublist (List.Sublist.map _ List.filter_sublist)
  have hsm : ∀ q ∈ s.handles.filter (·.1 ≠ h), q.2.data = q.2.ref ∧ q.2.ref < s.next := fun q hq => hi.same q (List.mem_filter.1 hq).1
  have hcf : ∀ r, cnt s.handles r = cnt (s.handles.filter (·.1 ≠ h)) r + if p.ref = r then 1 else 0 := cnt_filter hi.nodup hm
  have hcp : cnt s.handles p.ref = cnt (s.handles.filter (·.1 ≠ h)) p.ref + 1 := by have := hcf p.ref; rwa [if_pos rfl] at this
  have hco : ∀ r, r ≠ p.ref → cnt s.handles r = cnt (s.handles.filter (·.1 ≠ h)) r := by
    intro r e; have := hcf r; rwa [if_neg (Ne.symm e)] at this
  have hr := hi.refs p.ref
  rw [if_neg hc] at hr
  simp only [SPState.release, hr, R.ofOption_some, R.bind_done]
  by_cases h1 : (cnt s.handles p.ref : Int) - 1 = 0
  · have hobj : s.objs p.data = true := by rw [hsame]; exact (hi.live _ hlt).2 hc
    have h0 : cnt (s.handles.filter (·.1 ≠ h)) p.ref = 0 := by omega
    rw [if_pos h1]
    simp only [SPState.setRef, hobj, if_true]
    refine ⟨_, _, rfl, rfl, fun h => h, ⟨hnd, hof _ rfl, hi.next, hsm, ?_, ?_, ?_, ?_⟩⟩
    · intro r
      show (if r = p.ref then none else s.refs r) = if cnt (s.handles.filter (·.1 ≠ h)) r = 0 then none else some ((cnt (s.handles.filter (·.1 ≠ h)) r : Nat) : Int)
      by_cases e : r = p.ref
      · rw [if_pos e, e, if_pos h0]
      · rw [if_neg e, ← hco r e]; exact hi.refs r
    · intro r hlr
      show (if r = p.data then false else s.objs r) = true ↔ cnt (s.handles.filter (·.1 ≠ h)) r ≠ 0
      rw [hsame]
      by_cases e : r = p.ref
      · rw [if_pos e, e, h0]; simp
      · rw [if_neg e, ← hco r e]; exact hi.live r hlr
    · intro r hlr hz
      show (s.destroyed ++ [p.data]).count r = 1
      have hz' : cnt (s.handles.filter (·.1 ≠ h)) r = 0 := hz
      rw [List.count_append, hsame]
      by_cases e : r = p.ref
      · rw [e, hi.kept p.ref fun _ => hc]; simp
      · rw [hi.gone r hlr (by rw [hco r e, hz']), List.count_eq_zero.2 (by simp [e])]
    · intro r hk
      show (s.destroyed ++ [p.data]).count r = 0
      have hk' : r < s.next → cnt (s.handles.filter (·.1 ≠ h)) r ≠ 0 := hk
      have e : r ≠ p.ref := by intro e; subst e; exact hk' hlt h0
      rw [List.count_append, hsame, hi.kept r (fun hl => by rw [hco r e]; exact hk' hl), List.count_eq_zero.2 (by simp [e])]
  · rw [if_neg h1]
    refine ⟨_, _, rfl, rfl, by simp, ⟨hnd, hof _ rfl, hi.next, hsm, ?_, ?_, ?_, ?_⟩⟩
    · intro r
      show (if r = p.ref then some ((cnt s.handles p.ref : Int) - 1) else s.refs r) = if cnt (s.handles.filter (·.1 ≠ h)) r = 0 then none else some ((cnt (s.handles.filter (·.1 ≠ h)) r : Nat) : Int)
      by_cases e : r = p.ref
      · subst e
        rw [if_pos rfl, if_neg (by omega)]
        congr 1; omega
      · rw [if_neg e, ← hco r e]; exact hi.refs r
    · intro r hlr
      show s.objs r = true ↔ cnt (s.handles.filter (·.1 ≠ h)) r ≠ 0
      rw [hi.live r hlr]
      by_cases e : r = p.ref
      · subst e; constructor <;> intro _ <;> omega
      · rw [hco r e]
    · intro r hlr hz
      have hz' : cnt (s.handles.filter (·.1 ≠ h)) r = 0 := hz
      have e : r ≠ p.ref := by intro e; subst e; omega
      exact hi.gone r hlr (by rw [hco r e, hz'])
    · intro r hk
      have hk' : r < s.next → cnt (s.handles.filter (·.1 ≠ h)) r ≠ 0 := hk
      exact hi.kept r fun hl => by have := hcf r; have := hk' hl; omega

private theorem fits {c n : Nat} (h : c ≤ n) (hn : n < 2147483647) : (c : Int) + 1 ≤ 2147483647 := by omega

private theorem find_mem {l : List (Nat × SPtr)} (hnd : (l.map (·.1)).Nodup) {q : Nat × SPtr} (hq : q ∈ l) : l.find? (·.1 = q.1) = some q := by
  induction l with
  | nil => simp at hq
  | cons x l ih =>
    simp only [List.map_cons, List.nodup_cons] at hnd
    rcases List.mem_cons.1 hq with rfl | hq'
    · simp
    · have : x.1 ≠ q.1 := fun e => hnd.1 (List.mem_map.2 ⟨q, hq', e.symm⟩)
      rw [List.find?_cons]
      simp only [this, decide_false]
      exact ih hnd.2 hq'

/-- Adding a handle that shares what `g` shares. -/
private theorem share_inv {s : SPState} {a : Shares} (hi : SPInv s a) {h g : Nat} {p : SPtr} (hg : s.handle? g = some p) (hn : a.of h = none)
    (hb : s.handles.length < 2147483647) :
    ∃ s', s.addRef p.ref = .done s' ∧ s'.handles = s.handles ∧
      SPInv { s' with handles := (h, p) :: s.handles } { a with of := fun x => if x = h then a.of g else a.of x } := by
  have hm := handle_mem hg
  have hc := cnt_pos hm
  have hr := hi.refs p.ref
  rw [if_neg hc] at hr
  have hle : cnt s.handles p.ref ≤ s.handles.length := List.countP_le_length
  refine ⟨s.setRef p.ref (some ((cnt s.handles p.ref : Int) + 1)), ?_, rfl, ?_⟩
  · unfold SPState.addRef
    rw [hr, R.ofOption_some, R.bind_done, if_pos (fits hle hb)]
  · have hnm : ∀ q ∈ s.handles, q.1 ≠ h := by
      intro q hq e
      have h1 := hi.of h
      rw [hn] at h1
      simp only [Option.map_eq_none_iff, SPState.handle?, List.find?_eq_none] at h1
      exact h1 q hq (by simp [e])
    refine ⟨?_, ?_, hi.next, ?_, ?_, ?_, ?_, ?_⟩
    · simp only [List.map_cons, List.nodup_cons]
      refine ⟨fun hmem => ?_, hi.nodup⟩
      obtain ⟨q, hq, e⟩ := List.mem_map.1 hmem
      exact hnm q hq e
    · intro x
      by_cases e : h = x
      · subst e
        simp only [SPState.handle?, List.find?_cons, decide_true, if_true]
        have := hi.of g
        rw [hg] at this; simpa using this
      · have e' : ¬ x = h := fun e' => e e'.symm
        simp only [SPState.handle?, List.find?_cons, e, decide_false, if_neg e']
        exact hi.of x
    · intro q hq
      rcases List.mem_cons.1 hq with rfl | hq
      · have := hi.same _ hm; exact this
      · exact hi.same q hq
    · intro r
      rw [show ({ s.setRef p.ref (some ((cnt s.handles p.ref : Int) + 1)) with handles := (h, p) :: s.handles } : SPState).handles =
        (h, p) :: s.handles from rfl, cnt_cons]
      by_cases e : r = p.ref
      · subst e
        simp [SPState.setRef]
      · simp only [SPState.setRef, if_neg e, if_neg (Ne.symm e), Nat.add_zero]
        exact hi.refs r
    · intro r hlr
      have h3 := hi.live r hlr
      rw [show ({ s.setRef p.ref (some ((cnt s.handles p.ref : Int) + 1)) with handles := (h, p) :: s.handles } : SPState).handles =
        (h, p) :: s.handles from rfl, cnt_cons]
      simp only [SPState.setRef]
      rw [h3]
      by_cases e : p.ref = r
      · subst e; simp [hc]
      · simp [e]
    · intro r hlr hz
      have hz' : cnt ((h, p) :: s.handles) r = 0 := hz
      rw [cnt_cons] at hz'
      exact hi.gone r hlr (by omega)
    · intro r hk
      have hk' : r < s.next → cnt ((h, p) :: s.handles) r ≠ 0 := hk
      refine hi.kept r fun hl => ?_
      have h3 := hk' hl
      rw [cnt_cons] at h3
      by_cases e : p.ref = r
      · rw [← e]; exact hc
      · simpa [e] using h3

private theorem handle_of {s : SPState} {a : Shares} (hi : SPInv s a) {h : Nat} (hh : a.of h ≠ none) : ∃ p, s.handle? h = some p := by
  have := hi.of h
  cases e : s.handle? h with
  | none => rw [e] at this; exact absurd this.symm hh
  | some p => exact ⟨p, rfl⟩

/-- No statement object destroyed by an assignment throws: either nothing throws, or nothing is assigned. -/
def Spec.NoThrowInAssign (throws : Nat → Bool) (os : List SPOp) : Prop := (∀ o, throws o = false) ∨ ∀ h g, SPOp.assign h g ∈ os → h = g

private theorem step_inv {throws : Nat → Bool} {s : SPState} {a : Shares} (hi : SPInv s a) (op : SPOp) (hl : a.Legal op)
    (ht : NoThrowInAssign throws [op]) (hb : s.handles.length < 2147483647) :
    ∃ s' b, s.step throws op = .done (s', b) ∧ SPInv s' (a.step op) ∧ s'.handles.length ≤ s.handles.length + 1 := by
  cases op with
  | make h =>
    have hz : cnt s.handles s.next = 0 := by
      unfold cnt; rw [List.countP_eq_zero]
      intro q hq; have := (hi.same q hq).2; simp; omega
    have hnm : ∀ q ∈ s.handles, q.1 ≠ h := by
      intro q hq e
      have h1 := hi.of h
      rw [show a.of h = none from hl] at h1
      simp only [Option.map_eq_none_iff, SPState.handle?, List.find?_eq_none] at h1
      exact h1 q hq (by simp [e])
    refine ⟨_, _, rfl, ⟨?_, ?_, ?_, ?_, ?_, ?_, ?_, ?_⟩, by simp⟩
    · simp only [List.map_cons, List.nodup_cons]
      refine ⟨fun hmem => ?_, hi.nodup⟩
      obtain ⟨q, hq, e⟩ := List.mem_map.1 hmem
      exact hnm q hq e
    · intro x
      by_cases e : h = x
      · subst e
        simp [SPState.handle?, Shares.step, hi.next]
      · have e' : ¬ x = h := fun e' => e e'.symm
        simp only [SPState.handle?, List.find?_cons, e, decide_false, Shares.step, if_neg e']
        exact hi.of x
    · simp [Shares.step, hi.next]
    · intro q hq
      rcases List.mem_cons.1 hq with rfl | hq
      · exact ⟨rfl, Nat.lt_succ_self _⟩
      · exact ⟨(hi.same q hq).1, Nat.lt_succ_of_lt (hi.same q hq).2⟩
    · intro r
      simp only [cnt_cons]
      by_cases e : r = s.next
      · subst e; simp [hz]
      · simp only [if_neg e, if_neg (Ne.symm e), Nat.add_zero]; exact hi.refs r
    · intro r hlr
      simp only [cnt_cons]
      by_cases e : r = s.next
      · subst e; simp
      · simp only [if_neg e, if_neg (Ne.symm e), Nat.add_zero]
        exact hi.live r (by simp only at hlr; omega)
    · intro r hlr hz
      simp only [cnt_cons] at hz hlr
      have e : r ≠ s.next := by intro e; subst e; simp at hz
      exact hi.gone r (by omega) (by omega)
    · intro r hk
      simp only [cnt_cons] at hk
      refine hi.kept r fun hl => ?_
      have := hk (by omega)
      rwa [if_neg (by omega), Nat.add_zero] at this
  | copy h g =>
    obtain ⟨p, hp⟩ := handle_of hi hl.2
    obtain ⟨s1, h1, h2, h3⟩ := share_inv hi hp hl.1 hb
    refine ⟨_, _, by simp only [SPState.step, hp, R.ofOption_some, R.bind_done, h1]; rfl, ?_, by simp [h2]⟩
    rw [h2]; exact h3
  | assign h g =>
    by_cases e : h = g
    · subst e
      refine ⟨s, false, by simp [SPState.step], ?_, by simp⟩
      have : (a.step (.assign h h)) = a := by
        simp only [Shares.step]
        have : (fun x => if x = h then a.of h else a.of x) = a.of := by
          funext x; by_cases e : x = h <;> simp [e]
        rw [this]
      rw [this]; exact hi
    · obtain ⟨p, hp⟩ := handle_of hi hl.1
      obtain ⟨q, hq⟩ := handle_of hi hl.2
      obtain ⟨s1, b, h1, h2, h3, h4⟩ := release_inv (throws := throws) hi hp
      have hb0 : b = false := by
        cases b with
        | false => rfl
        | true =>
          have h5 := h3 rfl
          rcases ht with ht | ht
          · rw [ht] at h5; exact absurd h5 (by simp)
          · exact absurd (ht h g (by simp)) e
      subst hb0
      have hg1 : s1.handle? g = some q := by rw [SPState.handle?, h2]; exact hq
      have hg2 : (s1.drop h).handle? g = some q := by
        have := find_filter s1.handles h g
        rw [if_neg (Ne.symm e)] at this
        simp only [SPState.handle?, SPState.drop, this]; exact hg1
      have hlen : (s1.drop h).handles.length ≤ s.handles.length := by
        simp only [SPState.drop, h2]; exact List.length_filter_le _ _
      obtain ⟨s2, h5, h6, h7⟩ := share_inv h4 (h := h) hg2 (by simp) (Nat.lt_of_le_of_lt hlen hb)
      have h8 : s1.addRef q.ref = .done { s2 with handles := s1.handles } := by
        unfold SPState.addRef at h5 ⊢
        rw [show (s1.drop h).refs = s1.refs from rfl] at h5
        cases hr : s1.refs q.ref with
        | none => rw [hr] at h5; cases h5
        | some c =>
          rw [hr] at h5
          rw [R.ofOption_some, R.bind_done] at h5 ⊢
          split at h5
          · rename_i hc
            rw [if_pos hc]
            simp only [R.done.injEq] at h5
            rw [← h5]; rfl
          · simp at h5
      refine ⟨_, _, by simp only [SPState.step, if_neg e, hp, R.ofOption_some, R.bind_done, h1, Bool.false_eq_true, if_false, hg1, h8]; rfl, ?_, ?_⟩
      · have hst : (a.step (.assign h g)).of = fun x => if x = h then (if g = h then none else a.of g) else if x = h then none else a.of x := by
          funext x
          by_cases hx : x = h <;> simp [Shares.step, hx, Ne.symm e]
        have : a.step (.assign h g) = { a with of := fun x => if x = h then (if g = h then none else a.of g) else if x = h then none else a.of x } := by
          rw [← hst]; rfl
        rw [this]
        exact h7
      · simp only [List.length_cons]
        have : (s1.handles.filter (·.1 ≠ h)).length ≤ s.handles.length := hlen
        omega
  | destroy h =>
    obtain ⟨p, hp⟩ := handle_of hi hl
    obtain ⟨s1, b, h1, h2, _, h4⟩ := release_inv (throws := throws) hi hp
    refine ⟨_, _, by simp only [SPState.step, hp, R.ofOption_some, R.bind_done, h1]; rfl, h4, ?_⟩
    simp only [SPState.drop, h2]
    exact Nat.le_succ_of_le (List.length_filter_le _ _)
  | use h =>
    obtain ⟨p, hp⟩ := handle_of hi hl
    have hm := handle_mem hp
    obtain ⟨hs, hlt⟩ := hi.same _ hm
    have hobj : s.objs p.data = true := by rw [hs]; exact (hi.live _ hlt).2 (cnt_pos hm)
    exact ⟨s, false, by simp [SPState.step, hp, hobj], hi, by simp⟩

private theorem run_inv {throws : Nat → Bool} (os : List SPOp) {s : SPState} {a : Shares} (hi : SPInv s a) (hl : a.LegalAll os)
    (ht : NoThrowInAssign throws os) (hb : s.handles.length + os.length < 2147483648) :
    ∃ s', s.run throws os = .done s' ∧ SPInv s' (a.steps os) := by
  induction os generalizing s a with
  | nil => exact ⟨s, rfl, hi⟩
  | cons o os ih =>
    simp only [List.length_cons] at hb
    have ht1 : NoThrowInAssign throws [o] := by
      rcases ht with h | h
      · exact Or.inl h
      · exact Or.inr fun x y hxy => h x y (by simp at hxy; simp [hxy])
    have ht2 : NoThrowInAssign throws os := by
      rcases ht with h | h
      · exact Or.inl h
      · exact Or.inr fun x y hxy => h x y (by simp [hxy])
    obtain ⟨s1, b, h1, h2, h3⟩ := step_inv hi o hl.1 ht1 (by omega)
    obtain ⟨s2, h4, h5⟩ := ih h2 hl.2 ht2 (by omega)
    exact ⟨s2, by simp only [SPState.run, h1, R.bind_done, h4], h5⟩

/-- Handles still sharing object `o`. -/
def Spec.Shares.Shared (a : Shares) (o : Nat) : Prop := ∃ h, a.of h = some o

/-- **C46**, for programs in which no statement object that an assignment destroys throws from its destructor (otherwise see
`C46_throwing_assignment_is_undefined`), with fewer than `2^31` operations (the counter is an `int`). Whatever is copied, assigned (to itself too),
destroyed and used, in any legal order: there is no undefined behaviour; as long as a handle shares an object the object is alive and has not been
destroyed; once no handle shares it, it has been destroyed exactly once. (Applied to every prefix of a program this says that the destruction
happens when the last handle goes.) -/
theorem C46_destroyed_exactly_once_after_the_last_handle_partial (throws : Nat → Bool) (os : List SPOp) (hl : ({} : Shares).LegalAll os)
    (ht : NoThrowInAssign throws os) (hb : os.length < 2147483648) :
    ∃ s, ({} : SPState).run throws os = .done s ∧ ∀ o, o < (({} : Shares).steps os).made →
      ((({} : Shares).steps os).Shared o → s.objs o = true ∧ o ∉ s.destroyed) ∧
      (¬ (({} : Shares).steps os).Shared o → s.objs o = false ∧ s.destroyed.count o = 1) := by
  have h0 : SPInv {} {} := by
    refine ⟨List.nodup_nil, fun _ => rfl, rfl, by simp, fun _ => rfl, fun r h => absurd h (Nat.not_lt_zero _), fun r h => absurd h (Nat.not_lt_zero _), fun r _ => rfl⟩
  obtain ⟨s, h1, hi⟩ := run_inv (throws := throws) os h0 hl ht (by simpa using hb)
  refine ⟨s, h1, fun o ho => ?_⟩
  have hshare : (({} : Shares).steps os).Shared o ↔ cnt s.handles o ≠ 0 := by
    constructor
    · rintro ⟨h, hh⟩
      rw [← hi.of h] at hh
      cases e : s.handle? h with
      | none => rw [e] at hh; simp at hh
      | some p =>
        rw [e] at hh
        have hm := handle_mem e
        have := (hi.same _ hm).1
        simp only [Option.map_some, Option.some.injEq] at hh
        rw [← hh, this]; exact cnt_pos hm
    · intro hc
      unfold cnt at hc
      obtain ⟨q, hq, he⟩ := List.countP_pos_iff.1 (Nat.pos_of_ne_zero hc)
      simp at he
      refine ⟨q.1, ?_⟩
      have hmem : q ∈ s.handles := hq
      have hfind : s.handle? q.1 = some q.2 := by
        rw [SPState.handle?, find_mem hi.nodup hmem]; rfl
      have := hi.of q.1
      rw [hfind] at this
      rw [← this]
      simp [(hi.same _ hmem).1, he]
  have hlt : o < s.next := by rw [hi.next]; exact ho
  constructor
  · intro hs
    have hc := hshare.1 hs
    refine ⟨(hi.live o hlt).2 hc, ?_⟩
    exact List.count_eq_zero.1 (hi.kept o fun _ => hc)
  · intro hs
    have hc : cnt s.handles o = 0 := Classical.byContradiction fun h => hs (hshare.2 h)
    constructor
    · cases e : s.objs o with
      | false => rfl
      | true => exact absurd hc ((hi.live o hlt).1 e)
    · exact hi.gone o hlt hc

/-- **C46**: an operation on handles ends with an exception exactly if it destroys a statement object whose destructor throws, and it never destroys more than one. -/
theorem C46_exceptions_of_operations {throws : Nat → Bool} {s s' : SPState} {op : SPOp} {threw : Bool} (h : s.step throws op = .done (s', threw)) :
    (s'.destroyed = s.destroyed ∧ threw = false) ∨ ∃ o, s'.destroyed = s.destroyed ++ [o] ∧ threw = throws o := by
  have release : ∀ {s s' : SPState} {p : SPtr} {threw : Bool}, s.release throws p = .done (s', threw) →
      (s'.destroyed = s.destroyed ∧ threw = false) ∨ ∃ o, s'.destroyed = s.destroyed ++ [o] ∧ threw = throws o := by
    intro s s' p threw h
    simp only [SPState.release, R.bind_eq_done] at h
    obtain ⟨c, -, h⟩ := h
    split at h
    · split at h
      · cases h; exact .inr ⟨_, rfl, rfl⟩
      · cases h
    · cases h; exact .inl ⟨rfl, rfl⟩
  have addRef : ∀ {s s' : SPState} {r : Nat}, s.addRef r = .done s' → s'.destroyed = s.destroyed := by
    intro s s' r h
    simp only [SPState.addRef, R.bind_eq_done] at h
    obtain ⟨c, -, h⟩ := h
    split at h
    · cases h; rfl
    · cases h
  cases op with
  | make n => simp only [SPState.step] at h; cases h; exact .inl ⟨rfl, rfl⟩
  | copy n g =>
    simp only [SPState.step, R.bind_eq_done] at h
    obtain ⟨p, -, s1, h1, h⟩ := h
    have h2 := addRef h1
    cases h; exact .inl ⟨h2, rfl⟩
  | use n =>
    simp only [SPState.step, R.bind_eq_done] at h
    obtain ⟨p, -, h⟩ := h
    split at h
    · cases h; exact .inl ⟨rfl, rfl⟩
    · cases h
  | destroy n =>
    simp only [SPState.step, R.bind_eq_done] at h
    obtain ⟨p, -, ⟨s1, t⟩, h1, h⟩ := h
    have h2 := release h1
    cases h; exact h2
  | assign n g =>
    simp only [SPState.step] at h
    split at h
    · cases h; exact .inl ⟨rfl, rfl⟩
    · simp only [R.bind_eq_done] at h
      obtain ⟨p, -, ⟨s1, t⟩, h1, h⟩ := h
      cases t with
      | true => simp only [if_true] at h; cases h; exact release h1
      | false =>
        simp only [Bool.false_eq_true, if_false, R.bind_eq_done] at h
        obtain ⟨q, -, s2, h2, h⟩ := h
        cases h
        have := release h1
        simp only [addRef h2] at this ⊢
        exact this

/-- The handle is the last one and the destructor throws. -/
example : ∃ s s', ({} : SPState).run (fun _ => true) [.make 0] = .done s ∧ s.step (fun _ => true) (.destroy 0) = .done (s', true) ∧ s'.destroyed = s.destroyed ++ [0] :=
  ⟨_, _, rfl, rfl, rfl⟩

/-- The full claim of C46 is false: when the destructor of a statement object throws (a failing `Verify`) while the last handle to it is being assigned
to, that handle is left referring to freed memory, and destroying it later is undefined behaviour. -/
theorem C46_throwing_assignment_is_undefined (throws : Nat → Bool) (h0 : throws 0 = true) :
    ({} : Shares).LegalAll [.make 0, .make 1, .assign 0 1, .destroy 0] ∧
    ({} : SPState).run throws [.make 0, .make 1, .assign 0 1, .destroy 0] = .ub := by
  constructor
  · simp [Shares.LegalAll, Shares.Legal, Shares.step]
  · simp [SPState.run, SPState.step, SPState.handle?, SPState.release, SPState.setRef, h0]

namespace Demo

/-- Three handles to one object and one to another, self-assignment, assignment, destruction of all. -/
def spOps : List SPOp := [.make 0, .copy 1 0, .make 2, .assign 1 1, .assign 2 0, .use 2, .destroy 0, .destroy 1, .use 2, .destroy 2]

theorem spOps_legal : ({} : Shares).LegalAll spOps := by simp [spOps, Shares.LegalAll, Shares.Legal, Shares.step]

example : ∃ s, ({} : SPState).run (fun _ => false) spOps = .done s ∧ s.destroyed = [1, 0] := ⟨_, rfl, by decide +kernel⟩
example : NoThrowInAssign (fun _ => false) spOps := Or.inl fun _ => rfl
/-- Throwing destructors are fine without assignment. -/
example : NoThrowInAssign (fun _ => true) [.make 0, .copy 1 0, .destroy 0, .destroy 1] := Or.inr (by intro h g hm; simp at hm)

end Demo
end FakeIt
