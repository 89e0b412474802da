import Verif.Spec.Several
import Verif.Lemmas.Building
/-!
# Lemmas about `Fake(...)` and `Spy(...)` of several methods that fail in the middle
-/
namespace FakeIt.Several
open FakeIt.Building FakeIt.Spec.Building FakeIt.Spec.Several

variable {X : Type} {th : Nat → Option X}

/-! ## One part after the other -/

theorem holds_trans {s s1 s2 : St} {a b : List Nat} (h : Holds s a s1) (h' : Holds s1 b s2) : Holds s (a ++ b) s2 := by
  refine ⟨?_, ?_, ?_, Nat.le_trans h.2.2.2 h'.2.2.2⟩
  · rw [← List.append_assoc]
    exact h'.1.trans (List.Perm.append_right _ h.1)
  · refine List.nodup_append.mpr ⟨h.2.1, h'.2.1, fun i hi j hj he => ?_⟩
    have := (h.2.2.1 i hi).2
    have := (h'.2.2.1 j hj).1
    omega
  · intro i hi
    rcases List.mem_append.mp hi with hi | hi
    · have := h.2.2.1 i hi
      exact ⟨this.1, Nat.lt_of_lt_of_le this.2 h'.2.2.2⟩
    · have := h'.2.2.1 i hi
      exact ⟨Nat.le_trans h.2.2.2 this.1, this.2⟩

theorem at_trans {s0 s s' : St} {m more : List Nat} {g g' : List Op} (h : At s0 m g s) (h' : At s more g' s') : At s0 (m ++ more) g' s' :=
  ⟨holds_trans h.1 h'.1, h'.2.1.trans h.2.1, h'.2.2⟩

theorem none_trans {s0 s : St} {d d' : List Op} (hl : s.log = s0.log ++ d) (h : NoneThrows th s0.log.length d) (h' : NoneThrows th s.log.length d') :
    NoneThrows th s0.log.length (d ++ d') := by
  intro i hi
  rw [List.length_append] at hi
  rcases Nat.lt_or_ge i d.length with hlt | hge
  · exact h i hlt
  · have := h' (i - d.length) (by omega)
    rw [hl, List.length_append] at this
    have e : s0.log.length + d.length + (i - d.length) = s0.log.length + i := by omega
    rwa [e] at this

theorem ran_trans {s0 s s' : St} {d d' : List Op} {m more : List Nat} (h : Ran th s0 d m s) (h' : Ran th s d' more s') : Ran th s0 (d ++ d') (m ++ more) s' := by
  refine ⟨?_, none_trans h.1.2.2 h.2 h'.2⟩
  have := at_trans h.1 h'.1
  rwa [h.1.2.2, List.append_assoc] at this

theorem broke_trans {s0 s s' : St} {d now : List Op} {m : List Nat} {k : Op → Nat} {x : X} (h : Ran th s0 d m s) (h' : Broke th s [] now [] k x s') :
    Broke th s0 d now m k x s' := by
  obtain ⟨p, o, r, left, hn, ht, hq, hat, hl⟩ := h'
  rw [List.nil_append] at ht hq hat
  rw [List.nil_append] at hat
  refine ⟨p, o, r, left, hn, ?_, none_trans h.1.2.2 h.2 hq, ?_, hl⟩
  · rw [h.1.2.2, List.length_append] at ht
    rw [List.length_append, ← Nat.add_assoc]; exact ht
  · have := at_trans h.1 hat
    rw [h.1.2.2] at this
    simpa using this

theorem ran_self (s : St) : Ran th s [] [] s :=
  ⟨⟨⟨by simp, List.nodup_nil, by simp, Nat.le_refl _⟩, rfl, by simp⟩, by intro i hi; simp at hi⟩

/-! ## The arguments -/

/-- The objects of several expressions. -/
def objectsAll (es : List Expr) : List Nat := es.flatMap Expr.objects

/-- The objects of expressions that are committed. -/
def shells (es : List Expr) : List Nat := es.flatMap fun e => [e.ctx, e.impl]

theorem dropAll_at {s0 : St} {g : List Op} {U : Prop} : ∀ (es : List Expr) {l : List Nat} {s : St}, At s0 (objectsAll es ++ l) g s → after (dropAll false es) s (At s0 l g) U
  | [], l, s, h => h
  | e :: es, l, s, h => by
    have h : At s0 (objectsAll es ++ (e.objects ++ l)) g s := h.perm (by
      show ((e.objects ++ objectsAll es) ++ l).Perm _
      rw [List.append_assoc]; exact List.perm_append_comm_assoc _ _ _)
    exact after_bind (after_mono (dropAll_at es h) (fun s' h' => drop_at h') id)

theorem dropDone_at {s0 : St} {g : List Op} {U : Prop} : ∀ (es : List Expr) {l : List Nat} {s : St}, At s0 (shells es ++ l) g s → after (dropAll true es) s (At s0 l g) U
  | [], l, s, h => h
  | e :: es, l, s, h => by
    have h : At s0 (shells es ++ ([e.ctx, e.impl] ++ l)) g s := h.perm (by
      show (([e.ctx, e.impl] ++ shells es) ++ l).Perm _
      rw [List.append_assoc]; exact List.perm_append_comm_assoc _ _ _)
    exact after_bind (after_mono (dropDone_at es h) (fun s' h' => dropCommitted_at h') id)

theorem argument_run {s : St} {U : Prop} (c : Crit) :
    wp (argument th c) s (fun e s' => Ran th s (argumentSteps c) e.objects s' ∧ e.acts = [] ∧ e.parts.length = arity c) (Broke th s [] (argumentSteps c) [] (lost c)) U := by
  unfold argument argumentSteps
  refine part_then _ _ (expression_run (ran_self s) rfl rfl rfl rfl rfl rfl) fun e s1 h1 => ?_
  refine wp_mono (narrow_run c e (d := [] ++ methodSteps) h1.1 h1.2.1) (fun e' s2 h2 => ⟨by simpa using h2.1, h2.2.1, ?_⟩) (fun _ _ h => h) id
  by_cases hc : c = .all
  · rw [h2.2.2.2 hc, h1.2.2, hc]; rfl
  · exact h2.2.2.1 hc

theorem arguments_run {s0 : St} {U : Prop} : ∀ (cs : List Crit) (es : List Expr) (d : List Op) (s : St), Ran th s0 d (objectsAll es) s →
    wp (arguments th es cs) s
      (fun es' s' => ∃ more, es' = es ++ more ∧ Ran th s0 (d ++ prepareSteps cs) (objectsAll es') s' ∧ more.map (fun e => (e.acts, e.parts.length)) = cs.map (fun c => ([], arity c)))
      (fun x s' => ∃ n c, cs[n]? = some c ∧ Broke th s0 (d ++ prepareSteps (cs.take n)) (argumentSteps c) [] (lost c) x s') U
  | [], es, d, s, h => wp_pure ⟨[], by simp, by simpa [prepareSteps] using h, rfl⟩
  | c :: cs, es, d, s, h => by
    refine wp_bind (wp_unwinding (wp_mono (argument_run (U := U) c) (fun e s1 h1 => ?_) (fun x s1 h1 => ?_) id))
    · have h1' : Ran th s0 (d ++ argumentSteps c) (objectsAll (es ++ [e])) s1 := by
        have := ran_trans h h1.1
        simpa [objectsAll] using this
      refine wp_mono (arguments_run (U := U) cs (es ++ [e]) _ s1 h1') (fun es' s2 h2 => ?_) (fun x s2 h2 => ?_) id
      · obtain ⟨more, he, hr, hm⟩ := h2
        refine ⟨e :: more, by simp [he], by simpa [prepareSteps] using hr, ?_⟩
        simp only [List.map_cons, hm, h1.2.1, h1.2.2]
      · obtain ⟨n, c', hc, hb⟩ := h2
        exact ⟨n + 1, c', by simpa using hc, by simpa [prepareSteps] using hb⟩
    · have hb := broke_trans h h1
      refine after_mono (hb.cleaned (U := U) (l := []) fun left g s' h' => dropAll_at es h') (fun s2 h2 => ?_) id
      exact ⟨0, c, rfl, by simpa [prepareSteps] using h2⟩

/-! ## The actions -/

/-- This step, for a spy. -/
def spyOnly (o : Op) : Kind → List Op
  | .fake => []
  | .spy => [o]

theorem wp_original {s0 : St} {d : List Op} {m : List Nat} {s : St} {U : Prop} {α : Type} {f : Unit → M X α} {Q : α → St → Prop} {k : Op → Nat} (j : Nat) (kind : Kind) (rest : Kind → List Op) (h : Ran th s0 d m s)
    (w : Nat → Why) (g : Kind → M X Unit) (hf : g .fake = pure ()) (hs : g .spy = op th (.memory (w j))) (hk : k (.memory (w j)) = 0)
    (hn : ∀ s', Ran th s0 (d ++ spyOnly (.memory (w j)) kind) m s' → wp (f ()) s' Q (Broke th s0 (d ++ spyOnly (.memory (w j)) kind) (rest kind) m k) U) :
    wp (g kind >>= f) s Q (Broke th s0 d (spyOnly (.memory (w j)) kind ++ rest kind) m k) U := by
  cases kind with
  | fake =>
    rw [hf]
    refine wp_bind (wp_pure ?_)
    simpa [spyOnly] using hn s (by simpa [spyOnly] using h)
  | spy =>
    rw [hs]
    have h : Ran th s0 d (m ++ []) s := by rwa [List.append_nil]
    exact op_then _ _ h hk fun s' h' => hn s' (by rwa [List.append_nil] at h')

theorem action_run {s0 : St} {d : List Op} {s : St} {U : Prop} {m : List Nat} (kind : Kind) (j : Nat) (h : Ran th s0 d m s) :
    wp (action th kind j) s (fun a s' => Ran th s0 (d ++ makeSteps j kind) (a :: m) s') (Broke th s0 d (makeSteps j kind) m (fun _ => 0)) U := by
  have e : ∀ kind, makeSteps j kind = spyOnly (.memory (.function j)) kind ++
      (.memory (.action j) :: (spyOnly (.memory (.delegate j)) kind ++ [.memory (.owner j), .memory (.insert j)])) := by
    intro kind; cases kind <;> rfl
  rw [e kind]
  unfold action
  refine wp_original (k := fun _ => 0) j kind (fun kind => .memory (.action j) :: (spyOnly (.memory (.delegate j)) kind ++ [.memory (.owner j), .memory (.insert j)])) h .function (original th j) rfl rfl rfl fun s1 h1 => ?_
  refine op_then (l := []) _ _ (by rwa [List.append_nil]) rfl fun s2 h2 => ?_
  rw [List.append_nil] at h2
  refine wp_original (k := fun _ => 0) j kind (fun _ => [.memory (.owner j), .memory (.insert j)]) h2 .delegate (delegate th j) rfl rfl rfl fun s3 h3 => ?_
  refine wp_bind (wp_mono (fresh_at (U := U) (E := fun _ _ => False) h3.1) (fun a s5 h5 => ?_) (fun _ _ h => h.elim) id)
  have h5 : Ran th s0 _ (a :: m) s5 := ⟨h5, h3.2⟩
  refine opUnwinding_then [] _ [_] h5 (fun g s' h' => destroy_at (by rwa [List.append_nil])) rfl fun s6 h6 => ?_
  refine opUnwinding_then [] _ [] h6 (fun g s' h' => destroy_at (by rwa [List.append_nil])) rfl fun s7 h7 => ?_
  exact wp_pure (by simpa using h7)

/-! ## The methods one after the other -/

theorem drop_cases (e : Expr) (b : Bool) (s : St) : e.drop b s = .ub ∨ ∃ s', e.drop b s = .done s' ∧ ∀ i, i ∉ s.live → i ∉ s'.live := by
  have two : ∀ {f g : St → R St}, (∀ s, f s = .ub ∨ ∃ s', f s = .done s' ∧ ∀ i, i ∉ s.live → i ∉ s'.live) → (∀ s, g s = .ub ∨ ∃ s', g s = .done s' ∧ ∀ i, i ∉ s.live → i ∉ s'.live) →
      ∀ s, (f s >>= g) = .ub ∨ ∃ s', (f s >>= g) = .done s' ∧ ∀ i, i ∉ s.live → i ∉ s'.live := by
    intro f g hf hg s
    rcases hf s with h | ⟨s1, h, hs⟩ <;> rw [h]
    · exact .inl rfl
    · rw [R.bind_done]
      rcases hg s1 with h' | ⟨s2, h', hs'⟩
      · exact .inl h'
      · exact .inr ⟨s2, h', fun i hi => hs' i (hs i hi)⟩
  cases b with
  | true => exact two (destroy_cases e.ctx) (destroy_cases e.impl) s
  | false =>
    exact two (destroy_cases e.ctx) (two (destroyAll_cases _) (two (destroyAll_cases _) (destroy_cases e.impl))) s

theorem dropAll_cases (b : Bool) : ∀ (es : List Expr) (s : St), dropAll b es s = .ub ∨ ∃ s', dropAll b es s = .done s' ∧ ∀ i, i ∉ s.live → i ∉ s'.live
  | [], s => .inr ⟨s, rfl, fun _ h => h⟩
  | e :: es, s => by
    unfold dropAll
    rcases dropAll_cases b es s with h | ⟨s1, h, hs⟩ <;> rw [h]
    · exact .inl rfl
    · rw [R.bind_done]
      rcases drop_cases e b s1 with h' | ⟨s2, h', hs'⟩
      · exact .inl h'
      · exact .inr ⟨s2, h', fun i hi => hs' i (hs i hi)⟩

theorem abandon_ub (done : List Expr) (e : Expr) (todo : List Expr) (s : St) (h : e.seq ∉ s.live ∨ e.matcher ∉ s.live) : abandon done e todo s = .ub := by
  unfold abandon
  rcases dropAll_cases false todo s with h1 | ⟨s1, h1, hs1⟩ <;> rw [h1]
  · rfl
  · rw [R.bind_done, drop_ub e s1 (h.imp (hs1 _) (hs1 _))]; rfl

theorem abandon_at {s0 : St} {g : List Op} {l : List Nat} {U : Prop} (done : List Expr) (e : Expr) (todo : List Expr) {s : St} (h : At s0 (objectsAll todo ++ (e.objects ++ (shells done ++ l))) g s) :
    after (abandon done e todo) s (At s0 l g) U :=
  after_bind (after_mono (dropAll_at todo h) (fun _ h' => after_bind (after_mono (drop_at h') (fun _ h'' => dropDone_at done h'') id)) id)

theorem objects_append (e : Expr) (a : Nat) : (a :: e.objects).Perm (Expr.objects { e with acts := e.acts ++ [a] }) := by
  simp only [Expr.objects, List.append_assoc]
  refine (List.Perm.swap _ _ _).trans (List.Perm.cons _ ?_)
  exact List.perm_middle.symm

theorem objects_owned (e : Expr) (a : Nat) : (a :: e.objects).Perm ([e.ctx, e.impl] ++ owned (e.stub a)) := by
  refine (List.Perm.swap _ _ _).trans (List.Perm.cons _ ?_)
  show (a :: ((e.acts ++ [e.seq]) ++ ((e.parts ++ [e.matcher]) ++ [e.impl]))).Perm (e.impl :: e.matcher :: e.seq :: a :: (e.parts ++ e.acts))
  rw [List.perm_iff_count]
  intro i
  simp only [List.count_cons, List.count_append, List.count_nil]
  omega

/-- The state with these stubbings. -/
def withStubs (s : St) (ts : List Stub) : St := { s with stubs := s.stubs ++ ts }

theorem each_run {s0 : St} (kind : Kind) (hw : Wf s0) : ∀ (todo : List Expr) (k : Nat) (done : List Expr) (ts : List Stub) (d : List Op) (s : St),
    Ran th (withStubs s0 ts) d (objectsAll todo ++ (shells done ++ ownedAll ts)) s → (∀ e ∈ todo, e.acts = []) →
    wp (each th kind k done todo) s
      (fun _ s' => ∃ more, Ran th (withStubs s0 (ts ++ more)) (d ++ stubSteps kind k todo.length) (ownedAll (ts ++ more)) s' ∧ more.map (fun t => (t.parts.length, t.acts.length)) = todo.map (fun e => (e.parts.length, 1)))
      (fun x s' => ∃ n more, n < todo.length ∧ more.map (fun t => (t.parts.length, t.acts.length)) = (todo.take n).map (fun e => (e.parts.length, 1)) ∧
        Broke th (withStubs s0 (ts ++ more)) (d ++ stubSteps kind k n) (makeSteps (k + n) kind ++ [.memory .handler]) (ownedAll (ts ++ more)) (fun _ => 0) x s')
      (∃ n, n < todo.length ∧ Twice th s0 (d ++ (stubSteps kind k n ++ makeSteps (k + n) kind)) endSteps)
  | [], k, done, ts, d, s, h, _ => by
    refine wp_quiet (after_mono (dropDone_at done (l := ownedAll ts) h.1) (fun s' h' => ⟨[], ?_, rfl⟩) (fun h => h))
    rw [List.append_nil]
    exact ⟨by simpa [stubSteps] using h', by simpa [stubSteps] using h.2⟩
  | e :: todo, k, done, ts, d, s, h, ha => by
    have h0 : Ran th (withStubs s0 ts) d (objectsAll todo ++ (e.objects ++ (shells done ++ ownedAll ts))) s := h.perm (by
      show ((e.objects ++ objectsAll todo) ++ _).Perm _
      rw [List.append_assoc]; exact List.perm_append_comm_assoc _ _ _)
    have hacts : e.acts = [] := ha e (by simp)
    refine wp_bind (wp_unwinding (wp_mono (action_run kind k h0) (fun a s1 h1 => ?_) (fun x s1 h1 => ?_) id))
    · -- the action is there
      have h1 : Ran th (withStubs s0 ts) (d ++ makeSteps k kind) ((objectsAll todo ++ (shells done ++ ownedAll ts)) ++ Expr.objects { e with acts := e.acts ++ [a] }) s1 := h1.perm (by
        refine List.Perm.trans ?_ (List.Perm.append_left _ (objects_append e a))
        rw [List.perm_iff_count]; intro i
        simp only [List.count_cons, List.count_append]; omega)
      refine wp_bind (wp_unwinding (wp_mono (commit_run (U := False) (s0 := withStubs s0 ts) (fun _ => 0) { e with acts := e.acts ++ [a] } _ hw h1 rfl) (fun _ s2 h2 => ?_) (fun x s2 h2 => ?_) False.elim))
      · obtain ⟨hd, h2, hn⟩ := h2
        have e1 : ({ withStubs s0 ts with stubs := (withStubs s0 ts).stubs ++ [Expr.stub { e with acts := e.acts ++ [a] } hd] } : St) = withStubs s0 (ts ++ [Expr.stub { e with acts := e.acts ++ [a] } hd]) := by
          simp [withStubs]
        rw [e1] at h2
        have h2 : Ran th (withStubs s0 (ts ++ [Expr.stub { e with acts := e.acts ++ [a] } hd])) (d ++ makeSteps k kind ++ endSteps)
            (objectsAll todo ++ (shells (done ++ [{ e with acts := e.acts ++ [a] }]) ++ ownedAll (ts ++ [Expr.stub { e with acts := e.acts ++ [a] } hd]))) s2 := by
          refine ⟨h2.perm ?_, hn⟩
          have p := objects_owned { e with acts := e.acts ++ [a] } hd
          rw [List.perm_iff_count] at p ⊢
          intro i
          have := p i
          simp only [shells, ownedAll, List.flatMap_append, List.flatMap_cons, List.flatMap_nil, List.append_nil, List.count_cons, List.count_append, List.count_nil] at this ⊢
          omega
        refine wp_mono (each_run kind hw todo (k + 1) _ _ _ s2 h2 (fun e he => ha e (by simp [he]))) (fun _ s3 h3 => ?_) (fun x s3 h3 => ?_) (fun h3 => ?_)
        · obtain ⟨more, hr, hm⟩ := h3
          refine ⟨Expr.stub { e with acts := e.acts ++ [a] } hd :: more, ?_, ?_⟩
          · simpa [stubSteps] using hr
          · simp only [List.map_cons, hm]
            simp [Expr.stub, hacts]
        · obtain ⟨n, more, hn, hm, hb⟩ := h3
          refine ⟨n + 1, Expr.stub { e with acts := e.acts ++ [a] } hd :: more, by simpa using hn, ?_, ?_⟩
          · simp only [List.map_cons, List.take_succ_cons, hm]
            simp [Expr.stub, hacts]
          · have e2 : k + (n + 1) = k + 1 + n := by omega
            rw [e2]
            simpa [stubSteps] using hb
        · obtain ⟨n, hn, ht⟩ := h3
          refine ⟨n + 1, by simpa using hn, ?_⟩
          have e2 : k + (n + 1) = k + 1 + n := by omega
          rw [e2]
          simpa [stubSteps] using ht
      · rcases h2 with h2 | ⟨ht, hg⟩
        · refine after_mono (h2.cleaned (l := ownedAll ts) fun left g s3 h3 => abandon_at (l := ownedAll ts ++ left) done { e with acts := e.acts ++ [a] } todo (h3.perm ?_)) (fun s3 h3 => ⟨0, [], by simp, rfl, ?_⟩) (fun h => h)
          · rw [List.perm_iff_count]; intro i
            simp only [List.count_append]; omega
          · rw [List.append_nil]
            simpa [stubSteps] using h3.later
        · unfold after
          simp only [abandon_ub done { e with acts := e.acts ++ [a] } todo s2 hg]
          exact ⟨0, by simp, (by simpa [stubSteps] using ht : Twice th (withStubs s0 ts) _ endSteps)⟩
    · refine after_mono (h1.cleaned (l := ownedAll ts) fun left g s3 h3 => abandon_at (l := ownedAll ts ++ left) done e todo (h3.perm ?_)) (fun s3 h3 => ⟨0, [], by simp, rfl, ?_⟩) (fun h => h)
      · rw [List.perm_iff_count]; intro i
        simp only [List.count_append]; omega
      · rw [List.append_nil]
        simpa [stubSteps] using h3.more [.memory .handler]

/-- What a whole statement does. -/
theorem statement_run {s : St} (kind : Kind) (cs : List Crit) (hw : Wf s) :
    wp (statement th kind cs) s
      (fun _ s' => ∃ ts, Ran th (withStubs s ts) (steps kind cs) (ownedAll ts) s' ∧ Made cs ts)
      (fun x s' => (∃ n c, cs[n]? = some c ∧ Broke th s (prepareSteps (cs.take n)) (argumentSteps c) [] (lost c) x s') ∨
        ∃ n ts, n < cs.length ∧ Made (cs.take n) ts ∧ Broke th (withStubs s ts) (prepareSteps cs ++ stubSteps kind 0 n) (makeSteps n kind ++ [.memory .handler]) (ownedAll ts) (fun _ => 0) x s')
      (∃ n, n < cs.length ∧ Twice th s (prepareSteps cs ++ (stubSteps kind 0 n ++ makeSteps n kind)) endSteps) := by
  unfold statement
  refine wp_bind (wp_mono (arguments_run cs [] [] s (ran_self s)) (fun es s1 h1 => ?_) (fun x s1 h1 => .inl (by simpa using h1)) (fun h => h))
  obtain ⟨more, he, hr, hm⟩ := h1
  rw [List.nil_append] at he hr
  subst he
  have hlen : es.length = cs.length := by simpa using congrArg List.length hm
  have hacts : ∀ e ∈ es, e.acts = [] := by
    intro e he
    have : (e.acts, e.parts.length) ∈ es.map (fun e => (e.acts, e.parts.length)) := List.mem_map_of_mem he
    rw [hm] at this
    obtain ⟨c, -, hc⟩ := List.mem_map.mp this
    exact (Prod.mk.inj hc).1.symm
  have hparts : es.map (fun e => (e.parts.length, 1)) = cs.map (fun c => (arity c, 1)) := by
    have := congrArg (List.map fun p : List Nat × Nat => (p.2, 1)) hm
    simpa [List.map_map, Function.comp_def] using this
  have hr : Ran th (withStubs s []) (prepareSteps cs) (objectsAll es ++ (shells [] ++ ownedAll [])) s1 := by
    have e : withStubs s [] = s := by simp [withStubs]
    rw [e]
    simpa [shells, ownedAll] using hr
  refine wp_mono (each_run kind hw es 0 [] [] _ s1 hr hacts) (fun _ s2 h2 => ?_) (fun x s2 h2 => .inr ?_) (fun h2 => ?_)
  · obtain ⟨ts, hr, hm⟩ := h2
    rw [hlen] at hr
    exact ⟨ts, by simpa [Spec.Several.steps] using hr, hm.trans hparts⟩
  · obtain ⟨n, ts, hn, hm, hb⟩ := h2
    refine ⟨n, ts, hlen ▸ hn, ?_, by simpa using hb⟩
    have := congrArg (List.take n) hparts
    rw [← List.map_take, ← List.map_take] at this
    exact hm.trans this
  · obtain ⟨n, hn, ht⟩ := h2
    exact ⟨n, hlen ▸ hn, by simpa using ht⟩

end FakeIt.Several
