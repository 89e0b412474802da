import Verif.Spec.RacesMock
import Verif.Lemmas.RacesClash
/-! The operations answer as mocks without memory locations do (helpers). -/
namespace FakeIt.Races.Spec

variable {V : Type} {α : Type}

theorem set_set (μ : Mem V) (l : Loc) (v v' : Val V l) : (μ.set l v).set l v' = μ.set l v' := by
  funext x
  by_cases hx : x = l
  · subst hx; rw [set_same, set_same]
  · rw [set_other _ _ hx, set_other _ _ hx, set_other _ _ hx]

theorem set_self (μ : Mem V) (l : Loc) : μ.set l (μ l) = μ := by
  funext x
  by_cases hx : x = l
  · subst hx; rw [set_same]
  · rw [set_other _ _ hx]

/-- Whatever it accesses, the program ends as `Q` says. -/
def Does (p : Prog V α) (μ : Mem V) (Q : α → Mem V → Prop) : Prop := Safe (fun _ => True) p μ Q

theorem does_bind {β : Type} {p : Prog V α} {f : α → Prog V β} {Q : β → Mem V → Prop} {μ : Mem V} :
    Does (p >>= f) μ Q ↔ Does p μ (fun a μ' => Does (f a) μ' Q) := safe_bind

theorem does_get {l : Loc} {Q : Val V l → Mem V → Prop} {μ : Mem V} (h : Q (μ l) μ) : Does (get l) μ Q := ⟨trivial, h⟩

theorem does_put {l : Loc} {v : Val V l} {Q : Unit → Mem V → Prop} {μ : Mem V} (h : Q () (μ.set l v)) : Does (put l v) μ Q := ⟨trivial, h⟩

theorem does_pure {a : α} {Q : α → Mem V → Prop} {μ : Mem V} (h : Q a μ) : Does (pure a : Prog V α) μ Q := h

theorem Does.mono {p : Prog V α} {Q R : α → Mem V → Prop} {μ : Mem V} (h : Does p μ Q) (hQR : ∀ a μ, Q a μ → R a μ) : Does p μ R :=
  Safe.mono (fun _ h => h) hQR h

theorem does_of_safe {F : Access → Prop} {p : Prog V α} {Q : α → Mem V → Prop} {μ : Mem V} (h : Safe F p μ Q) : Does p μ Q :=
  h.mono (fun _ _ => trivial) fun _ _ h => h

theorem Does.and {p : Prog V α} {Q R : α → Mem V → Prop} {μ : Mem V} (h : Does p μ Q) (h' : Does p μ R) : Does p μ (fun a μ' => Q a μ' ∧ R a μ') :=
  Safe.and h h'

/-! ## What is seen -/

/-- The memory of a method is the same. -/
structure SameMethod (μ μ' : Mem V) (m k : Nat) : Prop where
  body : μ' (.body m k) = μ (.body m k)
  stubs : μ' (.stubs m k) = μ (.stubs m k)
  recs : μ' (.recs m k) = μ (.recs m k)
  seq : ∀ h, μ' (.seq m k h) = μ (.seq m k h)
  args : ∀ j, μ' (.args m k j) = μ (.args m k j)
  flag : ∀ j, μ' (.flag m k j) = μ (.flag m k j)

theorem SameMethod.refl (μ : Mem V) (m k : Nat) : SameMethod μ μ m k := ⟨rfl, rfl, rfl, fun _ => rfl, fun _ => rfl, fun _ => rfl⟩

theorem SameMethod.trans {μ μ' μ'' : Mem V} {m k : Nat} (h : SameMethod μ μ' m k) (h' : SameMethod μ' μ'' m k) : SameMethod μ μ'' m k :=
  ⟨h'.body.trans h.body, h'.stubs.trans h.stubs, h'.recs.trans h.recs, fun x => (h'.seq x).trans (h.seq x), fun x => (h'.args x).trans (h.args x),
   fun x => (h'.flag x).trans (h.flag x)⟩

theorem SameMethod.view {μ μ' : Mem V} {m k : Nat} (h : SameMethod μ μ' m k) : view μ' m k = view μ m k := by
  simp only [Spec.view, h.body, h.stubs, h.recs, h.seq, h.args, h.flag]

/-- The method a location belongs to, if it is seen there. -/
def ofMethod : Loc → Option (Nat × Nat)
  | .body m k => some (m, k)
  | .stubs m k => some (m, k)
  | .recs m k => some (m, k)
  | .seq m k _ => some (m, k)
  | .args m k _ => some (m, k)
  | .flag m k _ => some (m, k)
  | _ => none

theorem SameMethod.set {μ μ' : Mem V} {m k : Nat} (h : SameMethod μ μ' m k) (l : Loc) (v : Val V l) (hl : ofMethod l ≠ some (m, k)) :
    SameMethod μ (μ'.set l v) m k := by
  refine h.trans ⟨?_, ?_, ?_, fun _ => ?_, fun _ => ?_, fun _ => ?_⟩ <;>
    exact set_other _ _ (fun he => hl (he ▸ rfl))

theorem view_upd {μ μ' : Mem V} {m f : Nat} {M : Method V} (h1 : ∀ m' k, ¬ (m' = m ∧ k = f) → SameMethod μ μ' m' k) (h2 : view μ' m f = some M) :
    view μ' = (view μ).upd m f M := by
  funext m' k
  by_cases h : m' = m ∧ k = f
  · obtain ⟨rfl, rfl⟩ := h
    rw [h2]
    simp [Mocks.upd]
  · rw [(h1 m' k h).view]
    simp [Mocks.upd, h]

theorem view_known {μ : Mem V} {m k : Nat} (h : Known μ m k) : view μ m k = some
    ⟨(μ (.stubs m k)).zipIdx.map fun x => ⟨x.1, μ (.seq m k x.2)⟩, (List.range (μ (.recs m k))).map fun j => ⟨μ (.args m k j), μ (.flag m k j)⟩⟩ := by
  rw [view, if_pos (show μ (.body m k) = true from h)]

theorem view_unknown {μ : Mem V} {m k : Nat} (h : ¬ Known μ m k) : view μ m k = none := by
  rw [view, if_neg (show ¬ μ (.body m k) = true from h)]

/-! ## Calls -/

theorem newest_append (a : V) (s : Stubbing V) : ∀ ss : List (Stubbing V), newest a (ss ++ [s]) = if s.accepts a then some ss.length else newest a ss
  | [] => by simp [newest]
  | t :: ss => by
    rw [List.cons_append, newest, newest_append a s ss]
    by_cases h : s.accepts a = true
    · simp [h]
    · simp only [h, newest]
      rfl

theorem findStub_append (a : V) (p : V → Bool) (ss : List (V → Bool)) : findStub a (ss ++ [p]) = if p a then some ss.length else findStub a ss := by
  unfold findStub
  rw [List.length_append, List.length_singleton, List.range_succ, List.reverse_append, List.reverse_singleton, List.singleton_append, List.find?_cons]
  simp only [List.getElem?_concat_length]
  cases hp : p a with
  | true => rfl
  | false =>
    simp only
    have : ∀ l : List Nat, (∀ h, h ∈ l → h < ss.length) →
        l.find? (fun h => match (ss ++ [p])[h]? with | some p => p a | none => false) = l.find? (fun h => match ss[h]? with | some p => p a | none => false) := by
      intro l
      induction l with
      | nil => intro _; rfl
      | cons x l ih =>
        intro hl
        have hx := hl x (List.mem_cons_self ..)
        rw [List.find?_cons, List.find?_cons, List.getElem?_append_left hx, ih fun h hh => hl h (List.mem_cons_of_mem _ hh)]
    exact this _ fun h hh => List.mem_range.1 (List.mem_reverse.1 hh)

theorem findStub_eq (a : V) (g : Nat → List (Action V)) (ss : List (V → Bool)) :
    findStub a ss = newest a (ss.zipIdx.map fun x => (⟨x.1, g x.2⟩ : Stubbing V)) := by
  have : ∀ n (ss : List (V → Bool)), ss.length = n → findStub a ss = newest a (ss.zipIdx.map fun x => (⟨x.1, g x.2⟩ : Stubbing V)) := by
    intro n
    induction n with
    | zero =>
      intro ss h
      rw [List.length_eq_zero_iff.1 h]
      rfl
    | succ n ih =>
      intro ss h
      have hne : ss ≠ [] := by intro he; subst he; cases h
      rw [← List.dropLast_concat_getLast hne, findStub_append, List.zipIdx_append, List.map_append]
      simp only [List.zipIdx_singleton, List.map_cons, List.map_nil]
      rw [newest_append, ih _ (by rw [List.length_dropLast, h]; rfl)]
      simp
  exact this _ ss rfl

theorem findStub_lt {a : V} {ss : List (V → Bool)} {h : Nat} (hh : findStub a ss = some h) : h < ss.length :=
  List.mem_range.1 (List.mem_reverse.1 (List.mem_of_find?_eq_some hh))

/-- The memory after an action. -/
def acted (μ : Mem V) (m f k : Nat) : Kind V → Mem V
  | .sets g => μ.set (.args m f k) (g (μ (.args m f k)))
  | _ => μ

theorem act_does (μ : Mem V) (m f k : Nat) (o : Entry) (kd : Kind V) : Does (act m f k o kd) μ (fun _ μ' => μ' = acted μ m f k kd) := by
  cases kd with
  | gives => rfl
  | sets g => exact ⟨trivial, trivial, rfl⟩
  | spies =>
    rw [act, does_bind]
    refine does_get ?_
    rw [does_bind]
    refine does_put ?_
    rw [does_bind]
    refine does_get ?_
    rw [set_same, if_pos rfl]
    refine does_put ?_
    rw [set_set, set_self]
    rfl

theorem acted_set (μ : Mem V) (m f k h : Nat) (q : List (Action V)) (kd : Kind V) :
    acted (μ.set (.seq m f h) q) m f k kd = (acted μ m f k kd).set (.seq m f h) q := by
  cases kd with
  | gives => rfl
  | spies => rfl
  | sets g =>
    simp only [acted]
    rw [set_other _ _ (by simp), set_comm _ _ _ (by simp)]

theorem handle_does (μ : Mem V) (m f h k : Nat) (o : Entry) : Does (handle m f h k o) μ (fun r μ' =>
    match use (μ (.seq m f h)) with
    | none => r = false ∧ μ' = μ
    | some (kd, left) => r = true ∧ μ' = (acted μ m f k kd).set (.seq m f h) left) := by
  rw [handle, does_bind]
  refine does_get ?_
  cases hq : μ (.seq m f h) with
  | nil => exact does_pure ⟨rfl, rfl⟩
  | cons x rest =>
    obtain ⟨t, kd⟩ := x
    cases t with
    | none =>
      simp only [use]
      rw [does_bind]
      refine (act_does μ m f k o kd).mono fun _ μ' he => does_pure ⟨rfl, ?_⟩
      subst he
      rw [← acted_set, ← hq, set_self]
    | some t =>
      simp only [use]
      rw [does_bind]
      refine does_put ?_
      rw [does_bind]
      refine (act_does _ m f k o kd).mono fun _ μ' he => ?_
      rw [acted_set] at he
      subst he
      rw [does_bind]
      refine does_get ?_
      rw [set_same]
      simp only
      by_cases ht : t = 1
      · subst ht
        rw [if_pos (by rfl), does_bind]
        refine does_put (does_pure ⟨rfl, ?_⟩)
        rw [set_set, if_pos rfl]
      · have ht' : ¬ (some (t - 1) : Option Int) = some 0 := by
          intro h
          have := Option.some.inj h
          omega
        rw [if_neg ht']
        refine does_pure ⟨rfl, ?_⟩
        rw [if_neg ht]

theorem unexpected_does (μ : Mem V) (m f : Nat) : Does (unexpected m f) μ (fun r μ' => r = .unexpected ∧ μ' = μ) :=
  ⟨trivial, trivial, rfl, rfl⟩

theorem range_map_succ {β : Type} (g g' : Nat → β) (n : Nat) (h : ∀ j, j < n → g' j = g j) :
    (List.range (n + 1)).map g' = (List.range n).map g ++ [g' n] := by
  rw [List.range_succ, List.map_append, List.map_singleton]
  congr 1
  exact List.map_congr_left fun j hj => h j (List.mem_range.1 hj)

theorem zipIdx_modify (ss : List (V → Bool)) (g g' : Nat → List (Action V)) (h : Nat) (left : List (Action V)) (h1 : g' h = left)
    (h2 : ∀ j, j ≠ h → g' j = g j) :
    (ss.zipIdx.map fun x => (⟨x.1, g' x.2⟩ : Stubbing V)) = (ss.zipIdx.map fun x => (⟨x.1, g x.2⟩ : Stubbing V)).modify h fun t => ⟨t.accepts, left⟩ := by
  refine List.ext_getElem? fun i => ?_
  rw [List.getElem?_modify, List.getElem?_map, List.getElem?_map, List.getElem?_zipIdx]
  cases ss[i]? with
  | none => rfl
  | some p =>
    simp only [Option.map_some, Nat.zero_add]
    by_cases hi : h = i
    · subst hi
      simp [h1]
    · have := h2 i (fun he => hi he.symm)
      simp [hi, this]

theorem view_called {μ μ' : Mem V} {m f : Nat} {a : V} (hk : Known μ m f) (h1 : μ' (.body m f) = μ (.body m f)) (h2 : μ' (.stubs m f) = μ (.stubs m f))
    (h3 : μ' (.recs m f) = μ (.recs m f) + 1) (h4 : ∀ j, j < μ (.recs m f) → μ' (.args m f j) = μ (.args m f j) ∧ μ' (.flag m f j) = μ (.flag m f j))
    (h5 : μ' (.args m f (μ (.recs m f))) = a) (h6 : μ' (.flag m f (μ (.recs m f))) = false) :
    view μ' m f = some ⟨(μ (.stubs m f)).zipIdx.map fun x => ⟨x.1, μ' (.seq m f x.2)⟩,
      ((List.range (μ (.recs m f))).map fun j => ⟨μ (.args m f j), μ (.flag m f j)⟩) ++ [⟨a, false⟩]⟩ := by
  have hk' : Known μ' m f := by rw [Known, h1]; exact hk
  rw [view_known hk', h2, h3, range_map_succ (fun j => (⟨μ (.args m f j), μ (.flag m f j)⟩ : Rec V)) _ _ fun j hj => by rw [(h4 j hj).1, (h4 j hj).2],
    h5, h6]

theorem invoke_does {orig : Nat → Nat → Entry} {μ : Mem V} {m f : Nat} (hk : Known μ m f) (o : Entry) (a : V) :
    Does (invoke m f o a) μ (fun r μ' => (r, view μ') = callOf orig (view μ) m f a) := by
  rw [invoke, does_bind]
  intro _
  refine does_pure (Q := fun _ μ' => _) ?_
  rw [does_bind]
  refine does_get ?_
  rw [callOf, view_known hk]
  simp only
  rw [← findStub_eq a fun h => μ (.seq m f h)]
  cases hfs : findStub a (μ (.stubs m f)) with
  | none => exact (unexpected_does μ m f).mono fun r μ' h => by rw [h.1, h.2]
  | some h =>
    have hlt := findStub_lt hfs
    simp only
    rw [List.getElem?_map, List.getElem?_zipIdx, List.getElem?_eq_getElem hlt]
    simp only [Option.map_some, Option.bind_some, Nat.zero_add]
    rw [does_bind]
    refine does_get ?_
    rw [does_bind]
    refine does_put ?_
    rw [does_bind]
    refine does_put ?_
    rw [does_bind]
    refine does_put ?_
    rw [does_bind]
    have hseq : ∀ j, (((μ.set (.args m f (μ (.recs m f))) a).set (.flag m f (μ (.recs m f))) false).set (.recs m f) (μ (.recs m f) + 1)) (.seq m f j)
        = μ (.seq m f j) := fun j => by
      rw [set_other _ _ (by simp), set_other _ _ (by simp), set_other _ _ (by simp)]
    have hothers : ∀ m' k, ¬ (m' = m ∧ k = f) → SameMethod μ
        (((μ.set (.args m f (μ (.recs m f))) a).set (.flag m f (μ (.recs m f))) false).set (.recs m f) (μ (.recs m f) + 1)) m' k := by
      intro m' k hne
      have : ∀ l, ofMethod l = some (m, f) → ofMethod l ≠ some (m', k) := by
        intro l hl he
        rw [hl] at he
        cases he
        exact hne ⟨rfl, rfl⟩
      exact (((SameMethod.refl μ m' k).set _ _ (this _ rfl)).set _ _ (this _ rfl)).set _ _ (this _ rfl)
    refine (handle_does _ m f h (μ (.recs m f)) o).mono fun ok μ' hh => ?_
    rw [hseq] at hh
    cases hu : use (μ (.seq m f h)) with
    | none =>
      rw [hu] at hh
      obtain ⟨rfl, rfl⟩ := hh
      simp only
      refine (unexpected_does _ m f).mono fun r μ' hr => ?_
      rw [hr.1, hr.2]
      congr 1
      refine view_upd hothers ?_
      rw [view_called (a := a) hk]
      · congr 3
      · rw [set_other _ _ (by simp), set_other _ _ (by simp), set_other _ _ (by simp)]
      · rw [set_other _ _ (by simp), set_other _ _ (by simp), set_other _ _ (by simp)]
      · rw [set_same]
      · intro j hj
        have hj' : j ≠ μ (.recs m f) := Nat.ne_of_lt hj
        refine ⟨?_, ?_⟩ <;> rw [set_other _ _ (by simp), set_other _ _ (by simp [hj']), set_other _ _ (by simp [hj'])]
      · rw [set_other _ _ (by simp), set_other _ _ (by simp), set_same]
      · rw [set_other _ _ (by simp), set_same]
    | some x =>
      obtain ⟨kd, left⟩ := x
      rw [hu] at hh
      obtain ⟨rfl, rfl⟩ := hh
      rw [if_pos rfl]
      refine does_pure ?_
      simp only
      congr 1
      refine view_upd ?_ ?_
      · intro m' k hne
        have : ∀ l, ofMethod l = some (m, f) → ofMethod l ≠ some (m', k) := by
          intro l hl he
          rw [hl] at he
          cases he
          exact hne ⟨rfl, rfl⟩
        refine SameMethod.set ?_ _ _ (this _ rfl)
        cases kd with
        | gives => exact hothers m' k hne
        | spies => exact hothers m' k hne
        | sets g => exact (hothers m' k hne).set _ _ (this _ rfl)
      · have hac : ∀ l, l ≠ .args m f (μ (.recs m f)) → ∀ μ0 : Mem V, acted μ0 m f (μ (.recs m f)) kd l = μ0 l := by
          intro l hl μ0
          cases kd with
          | gives => rfl
          | spies => rfl
          | sets g => exact set_other _ _ hl
        rw [view_called (a := effect a kd) hk]
        · refine congrArg some ((Method.mk.injEq ..).mpr ⟨?_, rfl⟩)
          refine zipIdx_modify (μ (.stubs m f)) (fun j => μ (.seq m f j)) (fun j => Mem.set _ (.seq m f h) left (.seq m f j)) h left ?_ ?_
          · rw [set_same]
          · intro j hj
            rw [set_other _ _ (by simp [hj]), hac _ (by simp), hseq]
        · rw [set_other _ _ (by simp), hac _ (by simp), set_other _ _ (by simp), set_other _ _ (by simp), set_other _ _ (by simp)]
        · rw [set_other _ _ (by simp), hac _ (by simp), set_other _ _ (by simp), set_other _ _ (by simp), set_other _ _ (by simp)]
        · rw [set_other _ _ (by simp), hac _ (by simp), set_same]
        · intro j hj
          have hj' : j ≠ μ (.recs m f) := Nat.ne_of_lt hj
          refine ⟨?_, ?_⟩ <;> rw [set_other _ _ (by simp), hac _ (by simp [hj']), set_other _ _ (by simp), set_other _ _ (by simp [hj']),
            set_other _ _ (by simp [hj'])]
        · rw [set_other _ _ (by simp)]
          have hn : (((μ.set (.args m f (μ (.recs m f))) a).set (.flag m f (μ (.recs m f))) false).set (.recs m f) (μ (.recs m f) + 1))
              (.args m f (μ (.recs m f))) = a := by rw [set_other _ _ (by simp), set_other _ _ (by simp), set_same]
          cases kd with
          | gives => exact hn
          | spies => exact hn
          | sets g =>
            simp only [acted, effect]
            rw [set_same, hn]
        · rw [set_other _ _ (by simp), hac _ (by simp), set_other _ _ (by simp), set_same]

theorem call_does {orig : Nat → Nat → Entry} {μ : Mem V} (hs : Settled orig μ) (m f : Nat) (a : V) :
    Does (call orig m f a) μ (fun r μ' => (r, view μ') = callOf orig (view μ) m f a) := by
  rw [call, does_bind]
  refine does_get ?_
  by_cases hk : Known μ m f
  · rw [(hs.known m f hk).1]
    simp only
    rw [does_bind]
    refine does_get ?_
    rw [does_bind]
    refine (does_of_safe (getOffset_safe (F := fun _ => True) (hs.known m f hk).2 (hs.own m) _ 0 (Nat.zero_le _)
      (by rw [Nat.zero_add]; exact hs.inside m f hk) fun _ _ _ => trivial)).mono fun r μ' ⟨h1, h2⟩ => ?_
    subst h1 h2
    simp only
    rw [does_bind]
    refine does_get ?_
    rw [if_pos (show μ' (.body m f) = true from hk)]
    exact invoke_does hk _ a
  · rw [hs.unknown m f hk, callOf, view_unknown hk]
    cases ho : orig m f with
    | original => exact does_pure (by simp)
    | unmocked => exact fun _ => ⟨trivial, does_pure (by simp)⟩
    | proxy => exact absurd ho (hs.orig m f)

/-! ## Stubbings -/

theorem upd_self {s : Mocks V} {m f : Nat} {M : Method V} (h : s m f = some M) : s.upd m f M = s := by
  funext m' k
  by_cases hmk : m' = m ∧ k = f
  · obtain ⟨rfl, rfl⟩ := hmk
    simp [Mocks.upd, h]
  · simp [Mocks.upd, hmk]

theorem upd_upd (s : Mocks V) (m f : Nat) (M M' : Method V) : (s.upd m f M).upd m f M' = s.upd m f M' := by
  funext m' k
  by_cases hmk : m' = m ∧ k = f <;> simp [Mocks.upd, hmk]

theorem upd_same (s : Mocks V) (m f : Nat) (M : Method V) : (s.upd m f M) m f = some M := by simp [Mocks.upd]

theorem ofMethod_ne {m f m' k : Nat} (hne : ¬ (m' = m ∧ k = f)) {l : Loc} (hl : ofMethod l = some (m, f) ∨ ofMethod l = none) :
    ofMethod l ≠ some (m', k) := by
  intro he
  rcases hl with hl | hl <;> rw [hl] at he
  · cases he
    exact hne ⟨rfl, rfl⟩
  · cases he

theorem recordedBody_does {orig : Nat → Nat → Entry} {μ : Mem V} (hs : Settled orig μ) (m f : Nat) (hf : f < μ (.vecs m)) :
    Does (recordedBody m f) μ (fun _ μ' => (Keeps orig μ μ' ∧ Known μ' m f ∧ (Known μ m f → μ' = μ)) ∧
      view μ' = (view μ).upd m f (ofName (view μ) m f)) := by
  have h1 := recordedBody_safe (F := fun _ => True) hs m f hf trivial trivial fun _ => ⟨trivial, trivial, trivial, trivial, trivial, trivial⟩
  by_cases hk : Known μ m f
  · refine Does.mono h1 fun _ μ' h => ⟨h, ?_⟩
    rw [h.2.2 hk]
    have hv := view_known hk
    rw [ofName, hv, Option.getD_some, upd_self hv]
  · refine Does.and h1 ?_
    have hb : ¬ μ (.body m f) = true := hk
    rw [recordedBody, does_bind]
    refine does_get ?_
    rw [if_pos hf, does_bind]
    refine does_get ?_
    rw [if_neg hb]
    simp only [does_bind, bindMethod]
    refine fun _ => ⟨trivial, trivial, trivial, trivial, trivial, trivial, ?_⟩
    refine does_get (l := .body m f) ?_
    have hbt : (((((((μ.set (.name m f) 0).set (.stubs m f) []).set (.recs m f) 0).set (.entry m f) Entry.proxy).set (.body m f) true).set
        (.ident m f) (some f)) : Mem V) (.body m f) = true := by simp [Mem.set]
    rw [if_pos hbt]
    refine does_pure ?_
    have : ofName (view μ) m f = ⟨[], []⟩ := by rw [ofName, view_unknown hk]; rfl
    rw [this]
    refine view_upd ?_ ?_
    · intro m' k hne
      refine SameMethod.set (SameMethod.set (SameMethod.set (SameMethod.set (SameMethod.set (SameMethod.set (.refl _ _ _) _ _ ?_) _ _ ?_) _ _ ?_)
        _ _ ?_) _ _ ?_) _ _ ?_ <;> first | exact ofMethod_ne hne (.inl rfl) | exact ofMethod_ne hne (.inr rfl)
    · rw [view_known hbt]
      simp [Mem.set]

theorem methodExpr_does {orig : Nat → Nat → Entry} {μ : Mem V} (hs : Settled orig μ) (m f txt : Nat) (hf : f < μ (.vecs m)) :
    Does (methodExpr m f txt) μ (fun _ μ' => (Keeps orig μ μ' ∧ Known μ' m f) ∧ view μ' = (view μ).upd m f (ofName (view μ) m f)) := by
  have h1 := methodExpr_safe (F := fun _ => True) hs m f txt hf trivial trivial trivial fun _ => ⟨trivial, trivial, trivial, trivial, trivial⟩
  refine Does.and (Does.mono h1 fun _ _ h => ⟨h.1, h.2.1⟩) ?_
  rw [methodExpr, does_bind]
  refine (recordedBody_does hs m f hf).mono fun _ μ' ⟨_, h⟩ => does_put ?_
  rw [← h]
  funext m' k
  exact ((SameMethod.refl μ' m' k).set _ _ (by simp [ofMethod])).view

theorem ofName_seen {μ0 μ : Mem V} {m k : Nat} (hkn : Known μ m k) (hv : view μ = (view μ0).upd m k (ofName (view μ0) m k)) : ofName (view μ0) m k =
    ⟨(μ (.stubs m k)).zipIdx.map fun x => ⟨x.1, μ (.seq m k x.2)⟩, (List.range (μ (.recs m k))).map fun j => ⟨μ (.args m k j), μ (.flag m k j)⟩⟩ := by
  have h := view_known hkn
  rw [hv, upd_same] at h
  exact Option.some.inj h

theorem stub_does {orig : Nat → Nat → Entry} {μ : Mem V} (hs : Settled orig μ) (m f txt : Nat) (p : V → Bool) (q : List (Action V))
    (hf : f < μ (.vecs m)) : Does (stub m f txt p q) μ (fun r μ' =>
      r = .done ∧ view μ' = (view μ).upd m f ⟨(ofName (view μ) m f).stubbings ++ [⟨p, q⟩], (ofName (view μ) m f).calls⟩) := by
  rw [stub, does_bind]
  refine (methodExpr_does hs m f txt hf).mono fun _ μ' ⟨⟨hk, hkn⟩, hv⟩ => ?_
  rw [does_bind]
  refine (recordedBody_does hk.settled m f (by rw [hk.vecs]; exact hf)).mono fun _ μ'' ⟨⟨_, _, he⟩, _⟩ => ?_
  have he := he hkn
  subst he
  rw [does_bind]
  refine does_get ?_
  rw [does_bind]
  refine does_put ?_
  rw [does_bind]
  refine does_put (does_pure ⟨rfl, ?_⟩)
  rw [ofName_seen hkn hv, ← upd_upd _ m f (ofName (view μ) m f), ← hv]
  refine view_upd ?_ ?_
  · intro m' k hne
    refine SameMethod.set (SameMethod.set (.refl _ _ _) _ _ ?_) _ _ ?_ <;> exact ofMethod_ne hne (.inl rfl)
  · have hkn' : Known ((μ''.set (.seq m f (μ'' (.stubs m f)).length) q).set (.stubs m f) (μ'' (.stubs m f) ++ [p])) m f := by
      rw [Known, set_other _ _ (by simp), set_other _ _ (by simp)]
      exact hkn
    rw [view_known hkn', set_same]
    refine congrArg some ((Method.mk.injEq ..).mpr ⟨?_, ?_⟩)
    · rw [List.zipIdx_append, List.map_append]
      simp only [List.zipIdx_singleton, List.map_cons, List.map_nil, Nat.zero_add]
      rw [set_other _ _ (by simp), set_same]
      congr 1
      refine List.map_congr_left fun x hx => ?_
      have hlt := List.snd_lt_of_mem_zipIdx hx
      rw [set_other _ _ (by simp), set_other _ _ (by simp; omega)]
    · rw [set_other _ _ (by simp), set_other _ _ (by simp)]
      refine List.map_congr_left fun j _ => ?_
      rw [set_other _ _ (by simp), set_other _ _ (by simp), set_other _ _ (by simp), set_other _ _ (by simp)]

/-! ## Verifications -/

theorem markAll_does (m f : Nat) : ∀ (l : List Nat) (μ : Mem V), Does (markAll m f l) μ (fun _ μ' =>
    (∀ x, (∀ j, x ≠ .flag m f j) → μ' x = μ x) ∧ ∀ j, μ' (.flag m f j) = (μ (.flag m f j) || l.contains j))
  | [], μ => ⟨fun _ _ => rfl, fun _ => by simp⟩
  | k :: l, μ => by
    rw [markAll, does_bind]
    refine does_put ((markAll_does m f l _).mono fun _ μ' ⟨h1, h2⟩ => ⟨fun x hx => ?_, fun j => ?_⟩)
    · rw [h1 x hx, set_other _ _ (hx k)]
    · rw [h2]
      by_cases hj : j = k
      · subst hj
        rw [set_same]
        simp
      · rw [set_other _ _ (by simp [hj])]
        simp [hj]

theorem verify_does {orig : Nat → Nat → Entry} {μ : Mem V} (hs : Settled orig μ) (m f txt : Nat) (p : V → Bool) (e : Nat → Bool)
    (hf : f < μ (.vecs m)) (size : Nat → Nat) : Does (verify m f txt p e) μ (fun r μ' => (r, view μ') = answer orig size (view μ) (.verify m f txt p e)) := by
  rw [verify, does_bind]
  refine (methodExpr_does hs m f txt hf).mono fun _ μ1 ⟨⟨hk, hkn⟩, hv⟩ => ?_
  rw [does_bind]
  refine does_get ?_
  rw [does_bind]
  refine Does.mono (gather_safe (fun _ => trivial) (fun _ _ => trivial) _) fun all μ2 ⟨e1, e2⟩ => ?_
  subst e2
  rw [does_bind]
  refine Does.mono (search_safe hk.settled m f p hkn trivial trivial all fun _ _ _ _ => trivial) fun fnd μ3 ⟨e3, e4⟩ => ?_
  subst e4
  have hfnd : fnd = found μ3 m f p := by
    rw [e3, e1, recorded_filter hkn, if_pos (hk.settled.inside m f hkn)]
    simp only [each, List.flatMap_cons, List.flatMap_nil, List.append_nil, List.filterMap_map, found]
    rw [← List.filterMap_eq_filter]
    congr 1
  have hM := ofName_seen hkn hv
  have hcount : (ofName (view μ) m f).calls.countP (fun c => p c.args) = fnd.length := by
    rw [hM, hfnd, found, List.countP_map, List.countP_eq_length_filter]
    rfl
  rw [answer, hcount]
  split
  · rw [does_bind]
    refine (markAll_does m f fnd μ3).mono fun _ μ4 ⟨h1, h2⟩ => does_pure ?_
    congr 1
    rw [← upd_upd _ m f (ofName (view μ) m f), ← hv, hM]
    refine view_upd ?_ ?_
    · intro m' k hne
      refine ⟨h1 _ (by simp), h1 _ (by simp), h1 _ (by simp), fun _ => h1 _ (by simp), fun _ => h1 _ (by simp), fun j => h1 _ ?_⟩
      intro j' he
      cases he
      exact hne ⟨rfl, rfl⟩
    · have hkn' : Known μ4 m f := by
        rw [Known, h1 _ (by simp)]
        exact hkn
      rw [view_known hkn', h1 _ (by simp), h1 _ (by simp)]
      refine congrArg some ((Method.mk.injEq ..).mpr ⟨?_, ?_⟩)
      · refine List.map_congr_left fun x _ => ?_
        rw [h1 _ (by simp)]
      · simp only [List.map_map]
        refine List.map_congr_left fun j hj => ?_
        simp only [Function.comp]
        rw [h1 _ (by simp), h2]
        congr 2
        rw [hfnd, found, Bool.eq_iff_iff]
        simp only [List.contains_iff_mem, List.mem_filter, List.mem_range]
        exact ⟨fun h => h.2, fun h => ⟨List.mem_range.1 hj, h⟩⟩
  · rw [does_bind]
    refine does_get ?_
    rw [does_bind]
    refine (recordedBody_does hk.settled m f (hk.settled.inside m f hkn)).mono fun _ μ4 ⟨⟨_, _, he4⟩, _⟩ => ?_
    have he4 := he4 hkn
    subst he4
    rw [does_bind]
    refine does_get ?_
    rw [does_bind]
    exact Does.mono (printAll_safe _ fun x _ => ⟨trivial, trivial⟩) fun _ μ5 h5 => does_pure (by rw [h5, hv])

theorem allVerified (μ : Mem V) (m : Nat) : ∀ n, (each (recorded μ m n)).all (fun x => μ (.flag m x.1 x.2)) =
    (List.range n).all (fun k => (ofName (view μ) m k).calls.all Rec.verified)
  | 0 => rfl
  | n + 1 => by
    rw [List.range_succ, List.all_append, ← allVerified μ m n, recorded]
    by_cases hk : Known μ m n
    · rw [if_pos (show μ (.body m n) = true from hk)]
      simp only [each, List.flatMap_append, List.all_append, List.flatMap_cons, List.flatMap_nil, List.append_nil, List.all_cons, List.all_nil,
        Bool.and_true]
      rw [ofName, view_known hk]
      simp only [Option.getD_some, List.all_map]
      rfl
    · rw [if_neg (show ¬ μ (.body m n) = true from hk)]
      simp [ofName, view_unknown hk]

theorem noOther_does {orig : Nat → Nat → Entry} {μ : Mem V} (m : Nat) (size : Nat → Nat) (hsize : size m = μ (.vecs m)) :
    Does (noOther m) μ (fun r μ' => (r, view μ') = answer orig size (view μ) (.noOther m)) := by
  rw [noOther, does_bind]
  refine does_get ?_
  rw [does_bind]
  refine Does.mono (gather_safe (fun _ => trivial) (fun _ _ => trivial) _) fun all μ2 ⟨e1, e2⟩ => ?_
  subst e2
  rw [does_bind]
  refine Does.mono (openOf_safe _ fun x _ => trivial) fun rest μ3 ⟨e3, e4⟩ => ?_
  subst e4
  have hrest : rest = [] ↔ (List.range (size m)).all (fun k => (ofName (view μ3) m k).calls.all Rec.verified) = true := by
    rw [hsize, ← allVerified, e3, e1, List.filter_eq_nil_iff, List.all_eq_true]
    simp
  rw [answer]
  by_cases h : rest = []
  · rw [if_pos h, if_pos (hrest.1 h)]
    exact does_pure rfl
  · rw [if_neg h, if_neg (fun h' => h (hrest.2 h')), does_bind]
    refine does_get ?_
    rw [does_bind]
    exact Does.mono (printAll_safe _ fun x _ => ⟨trivial, trivial⟩) fun _ μ5 h5 => does_pure (by rw [h5])

/-! ## Reset and clear -/

theorem reset_does {orig : Nat → Nat → Entry} {μ : Mem V} (hs : Settled orig μ) (m : Nat) (size : Nat → Nat) :
    Does (reset orig m) μ (fun r μ' => (r, view μ') = answer orig size (view μ) (.reset m)) := by
  have h1 := reset_safe (F := fun _ => True) hs m (fun _ => trivial) fun _ => ⟨trivial, trivial, trivial, trivial, trivial, trivial⟩
  have h2 : Does (reset orig m) μ (fun r μ' => r = .done ∧ ∀ m' k, m' ≠ m → SameMethod μ μ' m' k) := by
    rw [reset, does_bind]
    refine does_get ?_
    rw [does_bind]
    refine does_put ?_
    rw [set_self, does_bind]
    refine Does.mono (loop_safe (I := fun μ' => ∀ m' k, m' ≠ m → SameMethod μ μ' m' k) _ (fun _ _ _ => .refl _ _ _) fun k μ' _ hI => ?_)
      fun _ μ' h => does_pure ⟨rfl, h⟩
    refine ⟨trivial, trivial, trivial, trivial, trivial, trivial, fun m' k' hm => ?_⟩
    have hne : ¬ (m' = m ∧ k' = k) := fun h => hm h.1
    refine SameMethod.set (SameMethod.set (SameMethod.set (SameMethod.set (SameMethod.set (SameMethod.set (hI m' k' hm) _ _ ?_) _ _ ?_) _ _ ?_)
        _ _ ?_) _ _ ?_) _ _ ?_ <;> first | exact ofMethod_ne hne (.inl rfl) | exact ofMethod_ne hne (.inr rfl)
  refine Does.mono (Does.and h1 h2) fun r μ' ⟨⟨_, _, hgone, _⟩, hr, hsame⟩ => ?_
  rw [hr, answer]
  congr 1
  funext m' k
  by_cases hm : m' = m
  · subst hm
    rw [if_pos rfl, view_unknown (hgone k)]
  · rw [if_neg hm, (hsame m' k hm).view]

/-- In the middle of clearing. -/
structure Clearing (m : Nat) (μ : Mem V) (n : Nat) (μ' : Mem V) : Prop where
  same : ∀ l, (∀ k, l ≠ .recs m k) → μ' l = μ l
  below : ∀ k, k < n → Known μ m k → μ' (.recs m k) = 0
  above : ∀ k, n ≤ k → μ' (.recs m k) = μ (.recs m k)

theorem clearing_does (m : Nat) (μ : Mem V) : ∀ n, Does (loop n fun k => do
      let b ← get (.body m k)
      if b then put (.recs m k) 0 else pure ()) μ (fun _ μ' => Clearing m μ n μ')
  | 0 => ⟨fun _ _ => rfl, fun k hk => absurd hk (by omega), fun _ _ => rfl⟩
  | n + 1 => by
    rw [loop, does_bind]
    refine (clearing_does m μ n).mono fun _ μ' h => ?_
    rw [does_bind]
    refine does_get ?_
    rw [h.same _ (by simp)]
    by_cases hk : Known μ m n
    · rw [if_pos (show μ (.body m n) = true from hk)]
      refine does_put ⟨fun l hl => ?_, fun k hk' hkn => ?_, fun k hk' => ?_⟩
      · rw [set_other _ _ (hl n), h.same l hl]
      · by_cases hn : k = n
        · subst hn
          rw [set_same]
        · rw [set_other _ _ (by simp [hn]), h.below k (by omega) hkn]
      · rw [set_other _ _ (by simp; omega), h.above k (by omega)]
    · rw [if_neg (show ¬ μ (.body m n) = true from hk)]
      refine does_pure ⟨h.same, fun k hk' hkn => ?_, fun k hk' => h.above k (by omega)⟩
      by_cases hn : k = n
      · subst hn
        exact absurd hkn hk
      · exact h.below k (by omega) hkn

theorem clear_does {orig : Nat → Nat → Entry} {μ : Mem V} (hs : Settled orig μ) (m : Nat) (size : Nat → Nat) :
    Does (clear m) μ (fun r μ' => (r, view μ') = answer orig size (view μ) (.clear m)) := by
  rw [clear, does_bind]
  refine does_get ?_
  rw [does_bind]
  refine (clearing_does m μ _).mono fun _ μ' h => does_pure ?_
  rw [answer]
  congr 1
  funext m' k
  by_cases hm : m' = m
  · subst hm
    rw [if_pos rfl]
    by_cases hk : Known μ m' k
    · have hk' : Known μ' m' k := by
        rw [Known, h.same _ (by simp)]
        exact hk
      rw [view_known hk, view_known hk', h.below k (hs.inside m' k hk) hk, h.same _ (by simp)]
      simp only [Option.map_some]
      refine congrArg some ((Method.mk.injEq ..).mpr ⟨List.map_congr_left fun x _ => ?_, rfl⟩)
      rw [h.same _ (by simp)]
    · have hk' : ¬ Known μ' m' k := by
        rw [Known, h.same _ (by simp)]
        exact hk
      rw [view_unknown hk, view_unknown hk']
      rfl
  · rw [if_neg hm]
    refine SameMethod.view ⟨h.same _ (by simp), h.same _ (by simp), h.same _ ?_, fun _ => h.same _ (by simp), fun _ => h.same _ (by simp),
      fun _ => h.same _ (by simp)⟩
    intro k' he
    cases he
    exact hm rfl

/-! ## Threads -/

theorem op_does {orig : Nat → Nat → Entry} {μ : Mem V} (hs : Settled orig μ) (o : Op V) (hfit : Fits μ o) (size : Nat → Nat)
    (hsize : ∀ m, size m = μ (.vecs m)) : Does (o.prog orig) μ (fun r μ' => (r, view μ') = answer orig size (view μ) o) := by
  cases o with
  | call m f a => exact call_does hs m f a
  | stub m f txt p q => exact (stub_does hs m f txt p q (hfit f rfl)).mono fun r μ' h => by rw [h.1, h.2, answer]
  | verify m f txt p e => exact verify_does hs m f txt p e (hfit f rfl) size
  | noOther m => exact noOther_does m size (hsize m)
  | reset m => exact reset_does hs m size
  | clear m => exact clear_does hs m size

theorem thread_does {orig : Nat → Nat → Entry} (size : Nat → Nat) : ∀ (os : List (Op V)) {μ : Mem V}, Settled orig μ → (∀ o, o ∈ os → Fits μ o) →
    (∀ m, size m = μ (.vecs m)) → Does (thread orig os) μ (fun rs μ' => (rs, view μ') = answers orig size (view μ) os)
  | [], _, _, _, _ => rfl
  | o :: os, μ, hs, hfit, hsize => by
    rw [thread, does_bind]
    have h1 := op_does hs o (hfit o (List.mem_cons_self ..)) size hsize
    have h2 := does_of_safe (op_safe hs (Known μ) o (hfit o (List.mem_cons_self ..)) fun _ h => h)
    refine (h1.and h2).mono fun r μ' ⟨hr, hkeep⟩ => ?_
    rw [does_bind]
    refine (thread_does size os hkeep.settled (fun o' ho' f hf => by rw [hkeep.vecs]; exact hfit o' (List.mem_cons_of_mem _ ho') f hf)
      fun m => by rw [hkeep.vecs]; exact hsize m).mono fun rs μ'' hrs => does_pure ?_
    rw [answers, ← hr]
    simp only
    rw [← hrs]

theorem thread_answers {orig : Nat → Nat → Entry} {μ : Mem V} (hs : Settled orig μ) {os : List (Op V)} (hfit : ∀ o, o ∈ os → Fits μ o)
    {tr : List Access} {rs : List Result} {μ' : Mem V} (hal : Alone (thread orig os) μ tr (.ret rs) μ') :
    (rs, view μ') = answers orig (fun m => μ (.vecs m)) (view μ) os :=
  (Safe.alone (thread_does (fun m => μ (.vecs m)) os hs hfit fun _ => rfl) hal).2

theorem thread_vecs {orig : Nat → Nat → Entry} : ∀ (os : List (Op V)) {μ : Mem V}, Settled orig μ → (∀ o, o ∈ os → Fits μ o) →
    Does (thread orig os) μ (fun _ μ' => ∀ m, μ' (.vecs m) = μ (.vecs m))
  | [], _, _, _ => fun _ => rfl
  | o :: os, μ, hs, hfit => by
    rw [thread, does_bind]
    have h2 := does_of_safe (op_safe hs (Known μ) o (hfit o (List.mem_cons_self ..)) fun _ h => h)
    refine h2.mono fun r μ' hkeep => ?_
    rw [does_bind]
    exact (thread_vecs os hkeep.settled (fun o' ho' f hf => by rw [hkeep.vecs]; exact hfit o' (List.mem_cons_of_mem _ ho') f hf)).mono
      fun rs μ'' h => does_pure fun m => (h m).trans (hkeep.vecs m)

theorem thread_sizes {orig : Nat → Nat → Entry} {μ : Mem V} (hs : Settled orig μ) {os : List (Op V)} (hfit : ∀ o, o ∈ os → Fits μ o)
    {tr : List Access} {rs : List Result} {μ' : Mem V} (hal : Alone (thread orig os) μ tr (.ret rs) μ') (m : Nat) : μ' (.vecs m) = μ (.vecs m) :=
  (Safe.alone (thread_vecs os hs hfit) hal).2 m

theorem leaves_may {K : Nat → Nat → Prop} {o : Op V} {m k : Nat} (h : Leaves m k o) {l : Loc} (hl : ofMethod l = some (m, k)) :
    ¬ may K o ⟨l, true⟩ := by
  intro hm
  cases o <;> cases l <;> simp_all [may, mockOf, Leaves, ofMethod]

theorem separate_answers {orig : Nat → Nat → Entry} {μ : Mem V} (hs : Settled orig μ) {tss : List (List (Op V))}
    (hfit : ∀ os, os ∈ tss → ∀ o, o ∈ os → Fits μ o) (hsep : Separate (Known μ) tss) {c : Config V (List Result)} (hc : Steps (start orig μ tss) c)
    (i : Nat) (os : List (Op V)) (hi : tss[i]? = some os) : c.ts[i]? ≠ some .ub ∧
      ∀ rs, c.ts[i]? = some (.ret rs) → rs = (answers orig (fun m => μ (.vecs m)) (view μ) os).1 ∧
        ∀ m k, (∀ (j : Nat) os', j ≠ i → tss[j]? = some os' → ∀ o, o ∈ os' → Leaves m k o) →
          view c.mem m k = (answers orig (fun m => μ (.vecs m)) (view μ) os).2 m k := by
  have hpar := Parallel.steps (separate_apart hs hfit hsep) hc
  have hfi := hfit os (List.mem_of_getElem? hi)
  obtain ⟨p', μi, tr, h1, h2, h3⟩ := hpar.each i (thread orig os) (by rw [List.getElem?_map, hi]; rfl)
  rw [h1]
  refine ⟨fun h => ?_, fun rs h => ?_⟩
  · cases h
    exact ((thread_may hs os hfi).alone h2).2
  · cases h
    have ha := thread_answers hs hfi h2
    rw [← ha]
    refine ⟨rfl, fun m k hl => ?_⟩
    have key : ∀ l, ofMethod l = some (m, k) → c.mem l = μi l := by
      intro l hm
      by_cases hw : ∃ w, Makes (thread orig os) μ ⟨l, w⟩
      · obtain ⟨w, hw⟩ := hw
        exact h3 l w hw
      · rw [h2.frame l fun hin => hw ⟨true, tr, _, μi, h2, hin⟩]
        refine hpar.rest l ?_
        intro j p hj hmk
        rw [List.getElem?_map] at hj
        obtain ⟨os', hos', rfl⟩ := Option.map_eq_some_iff.1 hj
        by_cases hji : j = i
        · subst hji
          rw [hi] at hos'
          cases hos'
          exact hw ⟨true, hmk⟩
        · obtain ⟨o, ho, hma⟩ := (thread_may hs os' (hfit os' (List.mem_of_getElem? hos'))).makes hmk
          exact leaves_may (hl j os' hji hos' o ho) hm hma
    exact SameMethod.view ⟨key _ rfl, key _ rfl, key _ rfl, fun _ => key _ rfl, fun _ => key _ rfl, fun _ => key _ rfl⟩

end FakeIt.Races.Spec
