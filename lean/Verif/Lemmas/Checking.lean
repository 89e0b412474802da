import Verif.Spec.Checking
import Verif.Lemmas.Verifying
import Verif.Lemmas.SingleMatch
/-!
# Exceptions anywhere in a verification: the parts
-/
namespace FakeIt.Checking
open FakeIt.Checking.Spec
open FakeIt.Building (Res)

variable {V X α β : Type}

theorem first_append {th : Nat → Option X} {n : Nat} {p q b : List Op} {o : Op} {e : X} (h : FirstThrows th n (p ++ q) b o e) :
    FirstThrows th n p b o e ∨ (NoneThrows th n p ∧ ∃ b', b = p ++ b' ∧ FirstThrows th (n + p.length) q b' o e) := by
  obtain ⟨⟨rest, hr⟩, hn, ht⟩ := h
  rcases List.append_eq_append_iff.mp hr with ⟨c, hb, hq⟩ | ⟨c, hp, hq⟩
  · right
    refine ⟨fun i hi => hn i (by rw [hb, List.length_append]; omega), c, hb, ⟨rest, hq⟩, ?_, ?_⟩
    · intro i hi
      have := hn (p.length + i) (by rw [hb, List.length_append]; omega)
      rwa [← Nat.add_assoc] at this
    · rw [hb, List.length_append, ← Nat.add_assoc] at ht; exact ht
  · cases c with
    | nil =>
      right
      rw [List.append_nil] at hp
      simp only [List.nil_append] at hq
      refine ⟨fun i hi => hn i (by rw [← hp]; exact hi), [], by simp [hp], ⟨rest, by simp [← hq]⟩, by intro i hi; simp at hi, ?_⟩
      rw [hp]; simpa using ht
    | cons c cs =>
      left
      rw [List.cons_append, List.cons.injEq] at hq
      exact ⟨⟨cs, by rw [hp, hq.1]⟩, hn, ht⟩

theorem none_append {th : Nat → Option X} {n : Nat} {p q : List Op} (h : NoneThrows th n (p ++ q)) : NoneThrows th n p ∧ NoneThrows th (n + p.length) q := by
  refine ⟨fun i hi => h i (by rw [List.length_append]; omega), fun i hi => ?_⟩
  have := h (p.length + i) (by rw [List.length_append]; omega)
  rwa [← Nat.add_assoc] at this

theorem not_first_nil {th : Nat → Option X} {n : Nat} {b : List Op} {o : Op} {e : X} (h : FirstThrows th n [] b o e) : False := by
  obtain ⟨⟨rest, hr⟩, -⟩ := h
  simp at hr

/-- The steps of a piece of code are `ops`, whatever throws; `bad`: what is left if the step `o` threw; `good`: how it ends if none threw. -/
structure Plan (x : (Nat → Option X) → M V X α) (s : St V) (ops : List Op) (bad : Op → St V → Prop) (good : Res (Exc X) α → St V → Prop) : Prop where
  fine : ∀ th, NoneThrows th s.log.length ops → ∃ r s', x th s = .done (r, s') ∧ s'.log = s.log ++ ops ∧ good r s'
  broken : ∀ th b o e, FirstThrows th s.log.length ops b o e → ∃ s', x th s = .done (.exc (.user e), s') ∧ s'.log = s.log ++ (b ++ [o]) ∧ bad o s'

theorem Plan.mono {x : (Nat → Option X) → M V X α} {s : St V} {ops : List Op} {bad bad' : Op → St V → Prop} {good good' : Res (Exc X) α → St V → Prop} (h : Plan x s ops bad good)
    (hb : ∀ o ∈ ops, ∀ s', bad o s' → bad' o s') (hg : ∀ r s', s'.log = s.log ++ ops → good r s' → good' r s') : Plan x s ops bad' good' := by
  refine ⟨fun th hn => ?_, fun th b o e hf => ?_⟩
  · obtain ⟨r, s', h1, h2, h3⟩ := h.fine th hn
    exact ⟨r, s', h1, h2, hg r s' h2 h3⟩
  · obtain ⟨s', h1, h2, h3⟩ := h.broken th b o e hf
    obtain ⟨⟨rest, hr⟩, -⟩ := hf
    exact ⟨s', h1, h2, hb o (by rw [hr]; simp) s' h3⟩

theorem Plan.pure {s : St V} {v : α} {bad : Op → St V → Prop} : Plan (X := X) (fun _ => (Pure.pure v : M V X α)) s [] bad fun r s' => r = .ok v ∧ s' = s :=
  ⟨fun _ _ => ⟨_, _, rfl, by simp, rfl, rfl⟩, fun _ _ _ _ hf => (not_first_nil hf).elim⟩

/-- Code without steps. -/
theorem Plan.code {x : M V X α} {s s' : St V} {r : Res (Exc X) α} {bad : Op → St V → Prop} (h : x s = .done (r, s')) (hl : s'.log = s.log) :
    Plan (fun _ => x) s [] bad fun r' s'' => r' = r ∧ s'' = s' :=
  ⟨fun _ _ => ⟨_, _, h, by simp [hl], rfl, rfl⟩, fun _ _ _ _ hf => (not_first_nil hf).elim⟩

theorem Plan.bind {x : (Nat → Option X) → M V X α} {f : (Nat → Option X) → α → M V X β} {s : St V} {p q : List Op} {bad : Op → St V → Prop} {g : Res (Exc X) α → St V → Prop} {g' : Res (Exc X) β → St V → Prop}
    (hx : Plan x s p bad g) (hf : ∀ a s1, s1.log = s.log ++ p → g (.ok a) s1 → Plan (fun th => f th a) s1 q bad g')
    (he : ∀ e s1, s1.log = s.log ++ p → g (.exc e) s1 → q = [] ∧ g' (.exc e) s1) : Plan (fun th => x th >>= f th) s (p ++ q) bad g' := by
  refine ⟨fun th hn => ?_, fun th b o e hb => ?_⟩
  · obtain ⟨h1, h2⟩ := none_append hn
    obtain ⟨r, s1, hr, hl, hg⟩ := hx.fine th h1
    cases r with
    | ok a =>
      obtain ⟨r', s2, hr', hl', hg'⟩ := (hf a s1 hl hg).fine th (by rw [hl, List.length_append]; exact h2)
      refine ⟨r', s2, ?_, by rw [hl', hl]; simp, hg'⟩
      show M.bind (x th) (f th) s = _
      simp only [M.bind, hr, R.bind_done, hr']
    | exc e =>
      obtain ⟨rfl, hg'⟩ := he e s1 hl hg
      refine ⟨.exc e, s1, ?_, by rw [hl]; simp, hg'⟩
      show M.bind (x th) (f th) s = _
      simp only [M.bind, hr, R.bind_done]
  · rcases first_append hb with hb | ⟨hn, b', rfl, hb2⟩
    · obtain ⟨s1, hr, hl, hg⟩ := hx.broken th b o e hb
      refine ⟨s1, ?_, hl, hg⟩
      show M.bind (x th) (f th) s = _
      simp only [M.bind, hr, R.bind_done]
    · obtain ⟨r, s1, hr, hl, hg⟩ := hx.fine th hn
      cases r with
      | ok a =>
        obtain ⟨s2, hr', hl', hg'⟩ := (hf a s1 hl hg).broken th b' o e (by rw [hl, List.length_append]; exact hb2)
        refine ⟨s2, ?_, by rw [hl', hl]; simp, hg'⟩
        show M.bind (x th) (f th) s = _
        simp only [M.bind, hr, R.bind_done, hr']
      | exc e' =>
        obtain ⟨rfl, -⟩ := he e' s1 hl hg
        exact (not_first_nil hb2).elim

theorem Plan.unwinding {x : (Nat → Option X) → M V X α} {f : St V → R (St V)} {s : St V} {p : List Op} {bad bad' : Op → St V → Prop} {g g' : Res (Exc X) α → St V → Prop} (hx : Plan x s p bad g)
    (hb : ∀ o ∈ p, ∀ s1, bad o s1 → ∃ s2, f s1 = .done s2 ∧ s2.log = s1.log ∧ bad' o s2)
    (hok : ∀ a s1, g (.ok a) s1 → g' (.ok a) s1)
    (hex : ∀ e s1, g (.exc e) s1 → ∃ s2, f s1 = .done s2 ∧ s2.log = s1.log ∧ g' (.exc e) s2) : Plan (fun th => (x th).unwinding f) s p bad' g' := by
  refine ⟨fun th hn => ?_, fun th b o e hf => ?_⟩
  · obtain ⟨r, s1, hr, hl, hg⟩ := hx.fine th hn
    cases r with
    | ok a => exact ⟨.ok a, s1, by simp only [M.unwinding, hr, R.bind_done], hl, hok a s1 hg⟩
    | exc e =>
      obtain ⟨s2, h1, h2, h3⟩ := hex e s1 hg
      exact ⟨.exc e, s2, by simp only [M.unwinding, hr, R.bind_done, h1], by rw [h2, hl], h3⟩
  · obtain ⟨s1, hr, hl, hg⟩ := hx.broken th b o e hf
    obtain ⟨⟨rest, hrest⟩, -⟩ := hf
    obtain ⟨s2, h1, h2, h3⟩ := hb o (by rw [hrest]; simp) s1 hg
    exact ⟨s2, by simp only [M.unwinding, hr, R.bind_done, h1], by rw [h2, hl], h3⟩

theorem Plan.op (o : Op) (s : St V) : Plan (X := X) (fun th => op th o) s [o] (fun _ s' => s' = { s with log := s.log ++ [o] }) fun r s' => r = .ok () ∧ s' = { s with log := s.log ++ [o] } := by
  refine ⟨fun th hn => ?_, fun th b o' e hf => ?_⟩
  · have h0 : th s.log.length = none := by simpa using hn 0 (by simp)
    exact ⟨.ok (), _, by simp only [Checking.op, h0], rfl, rfl, rfl⟩
  · obtain ⟨⟨rest, hr⟩, -, ht⟩ := hf
    cases b with
    | nil =>
      simp only [List.nil_append, List.cons.injEq] at hr
      rw [List.length_nil, Nat.add_zero] at ht
      refine ⟨{ s with log := s.log ++ [o] }, ?_, by simp [hr.1], rfl⟩
      simp only [Checking.op, ht]
    | cons c cs => simp at hr

/-! ## Code that only reads -/

/-- Code that only reads the recorded calls: its steps and its value. -/
def Reads (recs : List (Rec V)) (x : (Nat → Option X) → M V X α) (ops : List Op) (v : α) : Prop :=
  ∀ s, s.recs = recs → Plan x s ops (fun _ s' => ∃ l, s' = { s with log := l }) fun r s' => r = .ok v ∧ ∃ l, s' = { s with log := l }

theorem Reads.pure {recs : List (Rec V)} {v : α} : Reads (X := X) recs (fun _ => (Pure.pure v : M V X α)) [] v := fun s _ =>
  (Plan.pure (bad := fun _ _ => False)).mono (fun _ _ _ h => h.elim) fun r s' _ ⟨h1, h2⟩ => ⟨h1, s.log, by rw [h2]⟩

theorem Reads.bind {recs : List (Rec V)} {x : (Nat → Option X) → M V X α} {f : (Nat → Option X) → α → M V X β} {p q : List Op} {v : α} {w : β} (hx : Reads recs x p v) (hf : Reads recs (fun th => f th v) q w) :
    Reads recs (fun th => x th >>= f th) (p ++ q) w := by
  intro s hs
  refine Plan.bind (hx s hs) (fun a s1 _ hg => ?_) (fun e s1 _ hg => absurd hg.1 (by simp))
  obtain ⟨ha, l, rfl⟩ := hg
  cases ha
  exact (hf { s with log := l } hs).mono (fun o _ s' ⟨l', h⟩ => ⟨l', h⟩) fun r s' _ ⟨h1, l', h⟩ => ⟨h1, l', h⟩

theorem Reads.op {recs : List (Rec V)} (o : Op) : Reads (X := X) recs (fun th => Checking.op th o) [o] () := fun s _ =>
  (Plan.op o s).mono (fun _ _ _ h => ⟨_, h⟩) fun _ _ _ ⟨h1, h2⟩ => ⟨h1, _, h2⟩

theorem Reads.ops {recs : List (Rec V)} : ∀ (os : List Op), Reads (X := X) recs (fun th => Checking.ops th os) os ()
  | [] => Reads.pure
  | o :: os => Reads.bind (Reads.op o) (Reads.ops os)

theorem Reads.record {recs : List (Rec V)} {a : Nat} {r : Rec V} (h : recs[a]? = some r) : Reads (X := X) recs (fun _ => Checking.record a) [] r := fun s hs =>
  (Plan.code (bad := fun _ _ => False) (r := .ok r) (s' := s) (by simp only [Checking.record, hs, h]) rfl).mono (fun _ _ _ h => h.elim) fun r s' _ ⟨h1, h2⟩ => ⟨h1, s.log, by rw [h2]⟩

theorem Reads.those {recs : List (Rec V)} (f : Rec V → Bool) : Reads (X := X) recs (fun _ => Checking.those f) [] (named f recs) := fun s hs =>
  (Plan.code (bad := fun _ _ => False) (r := .ok (named f recs)) (s' := s) (by simp only [Checking.those, hs]) rfl).mono (fun _ _ _ h => h.elim) fun r s' _ ⟨h1, h2⟩ => ⟨h1, s.log, by rw [h2]⟩

/-- What the expression says about the recorded call. -/
def holds (P : Nat → V → Bool) (recs : List (Rec V)) (l : Leaf) (a : Nat) : Bool :=
  match recs[a]? with
  | some r => decide (r.mock = l.mock ∧ r.meth = l.meth) && P l.pred r.arg
  | none => false

theorem holds_iff {P : Nat → V → Bool} {recs : List (Rec V)} {l : Leaf} {a : Nat} : holds P recs l a = true ↔ Denotes P recs l a := by
  unfold holds Denotes
  cases h : recs[a]? with
  | none => simp
  | some r => simp [and_assoc]

/-- A step that looks at calls: `ls` are the method expressions that are asked. -/
def Step (ls : List Leaf) (recs : List (Rec V)) : Op → Prop
  | .memory (.insert a) => a < recs.length
  | .memory (.order a) => a < recs.length
  | .memory (.place a) => a < recs.length
  | .memory (.matched a) => a < recs.length
  | .memory (.methods _) => True
  | .memory .expand => True
  | .ask p a => ∃ l ∈ ls, l.pred = p ∧ ∃ r, recs[a]? = some r ∧ r.mock = l.mock ∧ r.meth = l.meth
  | _ => False

theorem Step.mono {ls ls' : List Leaf} {recs : List (Rec V)} {o : Op} (h : Step ls recs o) (hl : ∀ l ∈ ls, l ∈ ls') : Step ls' recs o := by
  cases o with
  | ask p a => obtain ⟨l, h1, h2⟩ := h; exact ⟨l, hl l h1, h2⟩
  | told l => exact h
  | print => exact h
  | memory w => cases w <;> exact h

variable {P : Nat → V → Bool} {recs : List (Rec V)} {ls : List Leaf}

theorem ask_reads {l : Leaf} (hl : l ∈ ls) {a : Nat} (ha : a < recs.length) :
    ∃ ops, Reads (X := X) recs (fun th => ask th P l a) ops (holds P recs l a) ∧ ∀ o ∈ ops, Step ls recs o := by
  have hr : recs[a]? = some recs[a] := List.getElem?_eq_getElem ha
  by_cases hm : recs[a].mock = l.mock ∧ recs[a].meth = l.meth
  · refine ⟨[] ++ ([.ask l.pred a] ++ []), ?_, ?_⟩
    · refine Reads.bind (Reads.record hr) ?_
      simp only [hm, and_self, if_true]
      refine Reads.bind (Reads.op _) ?_
      have : holds P recs l a = P l.pred recs[a].arg := by simp [holds, hr, hm]
      rw [this]
      exact Reads.pure
    · intro o ho
      simp at ho
      subst ho
      exact ⟨l, hl, rfl, _, hr, hm.1, hm.2⟩
  · refine ⟨[] ++ [], ?_, by simp⟩
    refine Reads.bind (Reads.record hr) ?_
    simp only [hm, if_false]
    have : holds P recs l a = false := by simp only [holds, hr]; simp [hm]
    rw [this]
    exact Reads.pure

theorem insertAll_reads : ∀ (as into : List Nat), (∀ a ∈ as, a < recs.length) →
    ∃ ops, Reads (X := X) recs (fun th => insertAll th as into) ops (as.foldl Verifying.insertAddr into) ∧ ∀ o ∈ ops, Step ls recs o
  | [], into, _ => ⟨[], Reads.pure, by simp⟩
  | a :: as, into, h => by
    obtain ⟨ops, h1, h2⟩ := insertAll_reads as (Verifying.insertAddr into a) fun b hb => h b (by simp [hb])
    refine ⟨[.memory (.insert a)] ++ ops, Reads.bind (Reads.op _) h1, ?_⟩
    intro o ho
    rcases List.mem_append.mp ho with ho | ho
    · simp at ho; subst ho; exact h a (by simp)
    · exact h2 o ho

theorem scan_reads {l : Leaf} (hl : l ∈ ls) : ∀ (as into : List Nat), (∀ a ∈ as, a < recs.length) →
    ∃ ops, Reads (X := X) recs (fun th => scan th P l as into) ops ((as.filter (holds P recs l)).foldl Verifying.insertAddr into) ∧ ∀ o ∈ ops, Step ls recs o
  | [], into, _ => ⟨[], Reads.pure, by simp⟩
  | a :: as, into, h => by
    obtain ⟨p, hp, hps⟩ := ask_reads (X := X) (P := P) hl (h a (by simp))
    have h' : ∀ b ∈ as, b < recs.length := fun b hb => h b (by simp [hb])
    cases hb : holds P recs l a with
    | true =>
      obtain ⟨q, hq, hqs⟩ := insertAll_reads (X := X) (ls := ls) (recs := recs) [a] into (by simpa using h a (by simp))
      obtain ⟨r, hr, hrs⟩ := scan_reads hl as (Verifying.insertAddr into a) h'
      rw [hb] at hp
      refine ⟨p ++ (q ++ r), ?_, ?_⟩
      · have e : ((a :: as).filter (holds P recs l)).foldl Verifying.insertAddr into = (as.filter (holds P recs l)).foldl Verifying.insertAddr (Verifying.insertAddr into a) := by
          rw [List.filter_cons_of_pos hb]; rfl
        rw [e]
        refine Reads.bind hp ?_
        simp only [if_true]
        exact Reads.bind hq hr
      · intro o ho
        simp only [List.mem_append] at ho
        rcases ho with ho | ho | ho
        · exact hps o ho
        · exact hqs o ho
        · exact hrs o ho
    | false =>
      obtain ⟨r, hr, hrs⟩ := scan_reads hl as into h'
      rw [hb] at hp
      refine ⟨p ++ r, ?_, ?_⟩
      · rw [List.filter_cons_of_neg (by simp [hb])]
        refine Reads.bind hp ?_
        simpa only [Bool.false_eq_true, if_false] using hr
      · intro o ho
        rcases List.mem_append.mp ho with ho | ho
        · exact hps o ho
        · exact hrs o ho

/-- The call is recorded and not verified. -/
def open_ (recs : List (Rec V)) (a : Nat) : Bool := (recs[a]?).any fun r => !r.verified

theorem unverifiedOf_reads : ∀ (as : List Nat), (∀ a ∈ as, a < recs.length) → Reads (X := X) recs (fun _ => unverifiedOf as) [] (as.filter (open_ recs))
  | [], _ => Reads.pure
  | a :: as, h => by
    have ha : a < recs.length := h a (by simp)
    have hr : recs[a]? = some recs[a] := List.getElem?_eq_getElem ha
    refine Reads.bind (p := []) (q := []) (Reads.record hr) ?_
    refine Reads.bind (p := []) (q := []) (unverifiedOf_reads as fun b hb => h b (by simp [hb])) ?_
    cases hv : recs[a].verified with
    | true =>
      rw [List.filter_cons_of_neg (by simp [open_, hr, hv])]
      simp only [if_true]
      exact Reads.pure
    | false =>
      rw [List.filter_cons_of_pos (by simp [open_, hr, hv])]
      simp only [Bool.false_eq_true, if_false]
      exact Reads.pure

theorem mem_named {f : Rec V → Bool} {a : Nat} : a ∈ named f recs ↔ ∃ r, recs[a]? = some r ∧ f r = true := by
  unfold named
  simp only [List.mem_filter, List.mem_range, Option.any_eq_true]
  constructor
  · rintro ⟨-, r, h⟩; exact ⟨r, h⟩
  · rintro ⟨r, h1, h2⟩
    exact ⟨(List.getElem?_eq_some_iff.mp h1).1, r, h1, h2⟩

theorem InSrc.lt : ∀ {src : Src} {a : Nat}, InSrc P recs src a → a < recs.length
  | .nothing, _, h => h.elim
  | .mock _, _, ⟨_, h, _⟩ => (List.getElem?_eq_some_iff.mp h).1
  | .method _, _, ⟨_, h, _⟩ => (List.getElem?_eq_some_iff.mp h).1
  | .unverified s, _, h => InSrc.lt (src := s) h.1
  | .group s, _, h => InSrc.lt (src := s) h
  | .also s t, _, h => h.elim (InSrc.lt (src := s)) (InSrc.lt (src := t))

theorem collect_reads : ∀ (src : Src) (into : List Nat), (∀ l ∈ srcLeaves src, l ∈ ls) →
    ∃ ops set, Reads (X := X) recs (fun th => collect th P src into) ops set ∧ (∀ a, a ∈ set ↔ a ∈ into ∨ InSrc P recs src a) ∧ ∀ o ∈ ops, Step ls recs o
  | .nothing, into, _ => ⟨[], into, Reads.pure, fun a => by simp [InSrc], by simp⟩
  | .mock m, into, _ => by
    have hmem : ∀ a, a ∈ named (fun r => r.mock == m) recs ↔ InSrc P recs (.mock m) a := fun a => by rw [mem_named]; simp [InSrc]
    obtain ⟨q, hq, hqs⟩ := insertAll_reads (X := X) (ls := ls) (named (fun r => r.mock == m) recs) into fun a ha => InSrc.lt (src := .mock m) ((hmem a).1 ha)
    refine ⟨[.memory (.methods m)] ++ ([] ++ q), _, Reads.bind (Reads.op _) (Reads.bind (Reads.those _) hq), fun a => ?_, ?_⟩
    · rw [Verifying.mem_foldl_insertAddr, hmem]
    · intro o ho
      simp only [List.nil_append, List.mem_append, List.mem_singleton] at ho
      rcases ho with rfl | ho
      · trivial
      · exact hqs o ho
  | .method l, into, hl => by
    have hlt : ∀ a ∈ named (fun r => r.mock == l.mock && r.meth == l.meth) recs, a < recs.length := fun a ha => by
      obtain ⟨r, h, -⟩ := mem_named.1 ha
      exact (List.getElem?_eq_some_iff.mp h).1
    obtain ⟨q, hq, hqs⟩ := scan_reads (X := X) (P := P) (hl l (by simp [srcLeaves])) (named (fun r => r.mock == l.mock && r.meth == l.meth) recs) into hlt
    refine ⟨[] ++ q, _, Reads.bind (Reads.those _) hq, fun a => ?_, by simpa using hqs⟩
    rw [Verifying.mem_foldl_insertAddr, List.mem_filter, holds_iff, mem_named]
    refine or_congr Iff.rfl ⟨fun h => h.2, fun h => ⟨?_, h⟩⟩
    obtain ⟨r, h1, h2, h3, -⟩ := h
    exact ⟨r, h1, by simp [h2, h3]⟩
  | .unverified s, into, hl => by
    obtain ⟨p, set, hp, hset, hps⟩ := collect_reads s [] hl
    have hlt : ∀ a ∈ set, a < recs.length := fun a ha => InSrc.lt (src := s) (by simpa using (hset a).1 ha)
    obtain ⟨q, hq, hqs⟩ := insertAll_reads (X := X) (ls := ls) (set.filter (open_ recs)) into fun a ha => hlt a (List.mem_filter.1 ha).1
    refine ⟨p ++ ([] ++ q), _, Reads.bind hp (Reads.bind (unverifiedOf_reads set hlt) hq), fun a => ?_, ?_⟩
    · rw [Verifying.mem_foldl_insertAddr, List.mem_filter, hset]
      simp [InSrc, open_, Option.any_eq_true]
    · intro o ho
      simp only [List.nil_append, List.mem_append] at ho
      exact ho.elim (hps o) (hqs o)
  | .group s, into, hl => by
    obtain ⟨p, set, hp, hset, hps⟩ := collect_reads s [] hl
    obtain ⟨q, hq, hqs⟩ := insertAll_reads (X := X) (ls := ls) set into fun a ha => InSrc.lt (src := s) (by simpa using (hset a).1 ha)
    refine ⟨p ++ q, _, Reads.bind hp hq, fun a => ?_, ?_⟩
    · rw [Verifying.mem_foldl_insertAddr, hset]
      simp [InSrc]
    · intro o ho
      exact (List.mem_append.mp ho).elim (hps o) (hqs o)
  | .also s t, into, hl => by
    obtain ⟨p, set, hp, hset, hps⟩ := collect_reads s into fun l h => hl l (by simp [srcLeaves, h])
    obtain ⟨q, set', hq, hset', hqs⟩ := collect_reads t set fun l h => hl l (by simp [srcLeaves, h])
    refine ⟨p ++ q, set', Reads.bind hp hq, fun a => ?_, ?_⟩
    · rw [hset', hset]
      simp [InSrc, or_assoc]
    · intro o ho
      exact (List.mem_append.mp ho).elim (hps o) (hqs o)

theorem sorted_reads {set : List Nat} (h : ∀ a ∈ set, a < recs.length) :
    ∃ ops, Reads (X := X) recs (fun th => sorted th set) ops (Verifying.sortAddrs set) ∧ ∀ o ∈ ops, Step ls recs o := by
  refine ⟨_, Reads.bind (Reads.ops _) (Reads.bind (Reads.ops _) Reads.pure), ?_⟩
  intro o ho
  simp only [List.append_nil, List.mem_append, List.mem_map] at ho
  rcases ho with ⟨a, ha, rfl⟩ | ⟨a, ha, rfl⟩
  · exact h a ha
  · exact h a (Verifying.mem_sortAddrs.1 ha)

/-! ## Matching -/

theorem isMatchFrom_reads {actual : List Nat} (hact : ∀ a ∈ actual, a < recs.length) (start : Nat) : ∀ (es : List Leaf) (j : Nat) (r : Bool), (∀ l ∈ es, l ∈ ls) →
    MatchAnalysis.isMatchFrom (holds P recs) actual start j es = .done r →
    ∃ ops, Reads (X := X) recs (fun th => isMatchFrom th P actual start j es) ops r ∧ ∀ o ∈ ops, Step ls recs o
  | [], j, r, _, h => by
    cases h
    exact ⟨[], Reads.pure, by simp⟩
  | e :: es, j, r, hl, h => by
    unfold MatchAnalysis.isMatchFrom at h
    cases ha : actual[start + j]? with
    | none => rw [ha] at h; cases h
    | some a =>
      rw [ha] at h
      simp only at h
      obtain ⟨p, hp, hps⟩ := ask_reads (X := X) (P := P) (recs := recs) (hl e (by simp)) (hact a (List.mem_of_getElem? ha))
      cases hb : holds P recs e a with
      | true =>
        rw [hb] at h hp
        obtain ⟨q, hq, hqs⟩ := isMatchFrom_reads hact start es (j + 1) r (fun l h => hl l (by simp [h])) h
        refine ⟨p ++ q, ?_, fun o ho => (List.mem_append.mp ho).elim (hps o) (hqs o)⟩
        simp only [isMatchFrom, ha]
        refine Reads.bind hp ?_
        simpa only [if_true] using hq
      | false =>
        rw [hb] at h hp
        cases h
        refine ⟨p ++ [], ?_, by simpa using hps⟩
        simp only [isMatchFrom, ha]
        refine Reads.bind hp ?_
        simp only [Bool.false_eq_true, if_false]
        exact Reads.pure

theorem search_reads {actual : List Nat} (hact : ∀ a ∈ actual, a < recs.length) {es : List Leaf} (hes : ∀ l ∈ es, l ∈ ls) : ∀ (n i : Nat) (r : Option Nat),
    MatchAnalysis.scan (holds P recs) actual es n i = .done r →
    ∃ ops, Reads (X := X) recs (fun th => search th P actual es n i) ops r ∧ ∀ o ∈ ops, Step ls recs o
  | 0, i, r, h => by
    cases h
    exact ⟨[], Reads.pure, by simp⟩
  | n + 1, i, r, h => by
    unfold MatchAnalysis.scan at h
    obtain ⟨b, hb, h⟩ := R.bind_eq_done.1 h
    obtain ⟨p, hp, hps⟩ := isMatchFrom_reads (X := X) hact i es 0 b hes hb
    cases b with
    | true =>
      simp only [if_true] at h
      cases h
      refine ⟨p ++ [], ?_, by simpa using hps⟩
      refine Reads.bind hp ?_
      simp only [if_true]
      exact Reads.pure
    | false =>
      simp only [Bool.false_eq_true, if_false] at h
      obtain ⟨q, hq, hqs⟩ := search_reads hact hes n (i + 1) r h
      refine ⟨p ++ q, ?_, fun o ho => (List.mem_append.mp ho).elim (hps o) (hqs o)⟩
      refine Reads.bind hp ?_
      simpa only [Bool.false_eq_true, if_false] using hq

theorem collectMatched_reads {actual : List Nat} (hact : ∀ a ∈ actual, a < recs.length) : ∀ (len start : Nat) (r : List Nat),
    MatchAnalysis.collect actual start len = .done r →
    ∃ ops, Reads (X := X) recs (fun th => collectMatched th actual start len) ops r ∧ ∀ o ∈ ops, Step ls recs o
  | 0, start, r, h => by
    simp only [MatchAnalysis.collect, R.done.injEq] at h
    subst h
    exact ⟨[], by simpa only [collectMatched] using Reads.pure, by simp⟩
  | len + 1, start, r, h => by
    unfold MatchAnalysis.collect at h
    cases ha : actual[start]? with
    | none => rw [ha] at h; cases h
    | some a =>
      rw [ha] at h
      simp only at h
      obtain ⟨b, hb, h⟩ := R.bind_eq_done.1 h
      cases h
      obtain ⟨q, hq, hqs⟩ := collectMatched_reads hact len (start + 1) b hb
      refine ⟨[.memory (.matched a)] ++ (q ++ []), ?_, ?_⟩
      · simp only [collectMatched, ha]
        exact Reads.bind (Reads.op _) (Reads.bind hq Reads.pure)
      · intro o ho
        simp only [List.append_nil, List.mem_append, List.mem_singleton] at ho
        rcases ho with rfl | ho
        · exact hact a (List.mem_of_getElem? ha)
        · exact hqs o ho

theorem findNext1_reads {actual : List Nat} (hact : ∀ a ∈ actual, a < recs.length) {es : List Leaf} (hes : ∀ l ∈ es, l ∈ ls) {start : Nat} {r : Option Nat}
    (h : MatchAnalysis.findNext1 (holds P recs) actual es start = .done r) :
    ∃ ops, Reads (X := X) recs (fun th => findNext1 th P actual es start) ops r ∧ ∀ o ∈ ops, Step ls recs o := by
  obtain ⟨q, hq, hqs⟩ := search_reads (X := X) hact hes _ _ _ h
  refine ⟨_ ++ q, Reads.bind (Reads.ops _) hq, ?_⟩
  intro o ho
  rcases List.mem_append.mp ho with ho | ho
  · obtain ⟨_, -, rfl⟩ := List.mem_map.mp ho
    trivial
  · exact hqs o ho

theorem findNextP_reads {actual : List Nat} (hact : ∀ a ∈ actual, a < recs.length) : ∀ (ps : List (Seq Leaf)) (start : Nat) (matched : List Nat) (r : Option Nat × List Nat), (∀ l ∈ leaves ps, l ∈ ls) →
    MatchAnalysis.findNextP (holds P recs) actual ps start matched = .done r →
    ∃ ops, Reads (X := X) recs (fun th => findNextP th P actual ps start matched) ops r ∧ ∀ o ∈ ops, Step ls recs o
  | [], start, matched, r, _, h => by
    cases h
    exact ⟨[], Reads.pure, by simp⟩
  | s :: ps, start, matched, r, hl, h => by
    unfold MatchAnalysis.findNextP at h
    obtain ⟨f, hf, h⟩ := R.bind_eq_done.1 h
    obtain ⟨p, hp, hps⟩ := findNext1_reads (X := X) hact (fun l h => hl l (by simp only [leaves, List.flatMap_cons, List.mem_append]; exact .inl h)) hf
    cases f with
    | none =>
      cases h
      refine ⟨p ++ [], ?_, by simpa using hps⟩
      exact Reads.bind hp Reads.pure
    | some i =>
      simp only at h
      obtain ⟨c, hc, h⟩ := R.bind_eq_done.1 h
      obtain ⟨q, hq, hqs⟩ := collectMatched_reads (X := X) (ls := ls) hact _ _ _ hc
      obtain ⟨t, ht, hts⟩ := findNextP_reads hact ps _ _ r (fun l h => hl l (by simp only [leaves, List.flatMap_cons, List.mem_append]; exact .inr h)) h
      refine ⟨p ++ (q ++ t), Reads.bind hp (Reads.bind hq ht), ?_⟩
      intro o ho
      simp only [List.mem_append] at ho
      rcases ho with ho | ho | ho
      · exact hps o ho
      · exact hqs o ho
      · exact hts o ho

theorem countLoop_reads {actual : List Nat} (hact : ∀ a ∈ actual, a < recs.length) {ps : List (Seq Leaf)} (hl : ∀ l ∈ leaves ps, l ∈ ls) : ∀ (fuel start count : Nat) (matched : List Nat) (r : Nat × List Nat),
    MatchAnalysis.countLoop (holds P recs) actual ps fuel start count matched = .done r →
    ∃ ops, Reads (X := X) recs (fun th => countLoop th P actual ps fuel start count matched) ops r ∧ ∀ o ∈ ops, Step ls recs o
  | 0, _, _, _, _, h => by cases h
  | fuel + 1, start, count, matched, r, h => by
    unfold MatchAnalysis.countLoop at h
    obtain ⟨f, hf, h⟩ := R.bind_eq_done.1 h
    obtain ⟨p, hp, hps⟩ := findNextP_reads (X := X) hact ps start matched f hl hf
    obtain ⟨f1, f2⟩ := f
    cases f1 with
    | none =>
      cases h
      refine ⟨p ++ [], Reads.bind hp Reads.pure, by simpa using hps⟩
    | some i =>
      obtain ⟨q, hq, hqs⟩ := countLoop_reads hact hl fuel _ _ _ r h
      exact ⟨p ++ q, Reads.bind hp hq, fun o ho => (List.mem_append.mp ho).elim (hps o) (hqs o)⟩

end FakeIt.Checking
