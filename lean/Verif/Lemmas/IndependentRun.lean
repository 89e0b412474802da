import Verif.Lemmas.Independent
/-!
# The abstract mock: our steps give the same answers whatever the others do
-/
namespace FakeIt.Independent
open Spec
variable {V E : Type} {P : Prog V E} {mine : MockId → Bool} {vars : Addr → Bool}

/-! ## The relation -/

/-- Corresponding numbers (of calls or of stubbings) in two runs: a bijection between numbers below `b` and numbers below `b'`. -/
structure Bij (K : Nat → Nat → Prop) (b b' : Nat) : Prop where
  inj : ∀ {n n' m m'}, K n n' → K m m' → (n = m ↔ n' = m')
  bound : ∀ {n n'}, K n n' → n < b ∧ n' < b'

/-- One more pair. -/
def More (K : Nat → Nat → Prop) (b b' : Nat) : Nat → Nat → Prop := fun n n' => K n n' ∨ (n = b ∧ n' = b')

theorem Bij.more {K : Nat → Nat → Prop} {b b' c c' : Nat} (h : Bij K b b') (hc : b < c) (hc' : b' < c') : Bij (More K b b') c c' := by
  constructor
  · intro n n' m m' h1 h2
    rcases h1 with h1 | ⟨rfl, rfl⟩ <;> rcases h2 with h2 | ⟨rfl, rfl⟩
    · exact h.inj h1 h2
    · have := h.bound h1; omega
    · have := h.bound h2; omega
    · simp
  · intro n n' h1
    rcases h1 with h1 | ⟨rfl, rfl⟩
    · have := h.bound h1; omega
    · exact ⟨hc, hc'⟩

theorem Bij.mono {K : Nat → Nat → Prop} {b b' c c' : Nat} (h : Bij K b b') (hc : b ≤ c) (hc' : b' ≤ c') : Bij K c c' :=
  ⟨h.inj, fun hk => by have := h.bound hk; omega⟩

/-- Corresponding stubbings. -/
structure StubSim (K : Nat → Nat → Prop) (x x' : Stub V E) : Prop where
  name : K x.name x'.name
  kind : x.kind = x'.kind
  script : x.script = x'.script

/-- Corresponding mocks. -/
structure MockSim (K : Nat → Nat → Prop) (k k' : AMock V E) : Prop where
  cls : k.cls = k'.cls
  spied : k.spied = k'.spied
  alive : k.alive = k'.alive
  wasReset : k.wasReset = k'.wasReset
  data : k.data = k'.data
  stubs : ∀ off, All2.Opt (All2 (StubSim K)) (k.stubs off) (k'.stubs off)

/-- Corresponding calls. -/
structure CallSim (vars : Addr → Bool) (K : Nat → Nat → Prop) (r r' : Rec V) : Prop where
  number : K r.number r'.number
  plain : r.plain = r'.plain
  refs : refsIn vars r.args

/-- Our parts of the two states correspond. -/
structure Sim (mine : MockId → Bool) (vars : Addr → Bool) (s s' : AState V E) : Prop where
  len : s.mocks.length = s'.mocks.length
  mocks : ∃ K, Bij K (2 * s.installed) (2 * s'.installed) ∧ ∀ m, mine m = true → All2.Opt (MockSim K) s.mocks[m]? s'.mocks[m]?
  calls : ∃ K, Bij K (s.made + 1) (s'.made + 1) ∧ All2 (CallSim vars K) (s.calls.filter (ours mine)) (s'.calls.filter (ours mine))
  heap : ∀ a, vars a = true → s.heap a = s'.heap a

/-- A step of the others. -/
theorem Sim.frame {s s' t : AState V E} (h : Sim mine vars s s') (f : Frame mine vars s t) : Sim mine vars t s' := by
  obtain ⟨K, hK, hm⟩ := h.mocks
  obtain ⟨K', hK', hc⟩ := h.calls
  have := f.installed
  have := f.made
  exact ⟨f.len.trans h.len, ⟨K, hK.mono (by omega) (Nat.le_refl _), fun m hmi => by rw [f.mock m hmi]; exact hm m hmi⟩,
    ⟨K', hK'.mono (by omega) (Nat.le_refl _), by rw [f.calls]; exact hc⟩, fun a ha => (f.heap a ha).trans (h.heap a ha)⟩

/-- From `s`, `s'` to `t`, `t'`: the states still correspond and the same has been reported. -/
structure Steps (mine : MockId → Bool) (vars : Addr → Bool) (s s' t t' : AState V E) : Prop where
  sim : Sim mine vars t t'
  log : ∃ d d', t.log = s.log ++ d ∧ t'.log = s'.log ++ d' ∧ d.map Report.told = d'.map Report.told

theorem Steps.quiet {s s' t t' : AState V E} (h : Sim mine vars t t') (e : t.log = s.log) (e' : t'.log = s'.log) : Steps mine vars s s' t t' :=
  ⟨h, [], [], by simp [e], by simp [e'], rfl⟩

theorem Steps.trans {s s' t t' u u' : AState V E} (h : Steps mine vars s s' t t') (h' : Steps mine vars t t' u u') : Steps mine vars s s' u u' := by
  obtain ⟨d, d', e1, e2, e3⟩ := h.log
  obtain ⟨c, c', g1, g2, g3⟩ := h'.log
  exact ⟨h'.sim, d ++ c, d' ++ c', by rw [g1, e1, List.append_assoc], by rw [g2, e2, List.append_assoc], by simp [e3, g3]⟩

theorem Steps.report {s s' : AState V E} (h : Sim mine vars s s') {r r' : Report V} (e : r.told = r'.told) :
    Steps mine vars s s' { s with log := s.log ++ [r] } { s' with log := s'.log ++ [r'] } :=
  ⟨⟨h.len, h.mocks, h.calls, h.heap⟩, [r], [r'], rfl, rfl, by simp [e]⟩

/-- A call nobody has stubbed. -/
theorem unstubbed_sim {s s' : AState V E} (h : Sim mine vars s s') : Steps mine vars s s' (unstubbed s).2 (unstubbed s').2 := by
  obtain ⟨K, hK, hc⟩ := h.calls
  have h1 : Sim mine vars { s with made := s.made + 1 } { s' with made := s'.made + 1 } :=
    ⟨h.len, h.mocks, ⟨K, hK.mono (by dsimp only; omega) (by dsimp only; omega), hc⟩, h.heap⟩
  exact (Steps.quiet (s := s) (s' := s') h1 rfl rfl).trans (Steps.report h1 rfl)

theorem Sim.get {s s' : AState V E} (h : Sim mine vars s s') {m : MockId} (hm : mine m = true) {k : AMock V E} (hk : s.mocks[m]? = some k) :
    ∃ K k', s'.mocks[m]? = some k' ∧ MockSim K k k' ∧ Bij K (2 * s.installed) (2 * s'.installed) ∧
      ∀ m, mine m = true → All2.Opt (MockSim K) s.mocks[m]? s'.mocks[m]? := by
  obtain ⟨K, hK, hs⟩ := h.mocks
  have := hs m hm
  rw [hk] at this
  cases hk' : s'.mocks[m]? with
  | none => rw [hk'] at this; exact this.elim
  | some k' => rw [hk'] at this; exact ⟨K, k', rfl, this, hK, hs⟩

/-- One of our mocks is changed in the same way. -/
theorem opt_modify {K : Nat → Nat → Prop} {l l' : List (AMock V E)} (h : ∀ m, mine m = true → All2.Opt (MockSim K) l[m]? l'[m]?) (m : MockId)
    {f f' : AMock V E → AMock V E} (hf : ∀ k k', l[m]? = some k → l'[m]? = some k' → MockSim K k k' → MockSim K (f k) (f' k')) :
    ∀ m', mine m' = true → All2.Opt (MockSim K) (l.modify m f)[m']? (l'.modify m f')[m']? := by
  intro m' hm'
  have := h m' hm'
  rw [List.getElem?_modify, List.getElem?_modify]
  cases h1 : l[m']? <;> cases h2 : l'[m']? <;> rw [h1, h2] at this
  · trivial
  · exact this.elim
  · exact this.elim
  · rename_i k k'
    by_cases e : m = m'
    · subst e
      simpa [All2.Opt] using hf k k' h1 h2 this
    · simpa [All2.Opt, e] using this

theorem Sim.getNone {s s' : AState V E} (h : Sim mine vars s s') {m : MockId} (hk : s.mocks[m]? = none) : s'.mocks[m]? = none := by
  rw [List.getElem?_eq_none_iff] at hk ⊢
  rw [← h.len]
  exact hk

theorem MockSim.mono {K K' : Nat → Nat → Prop} (hK : ∀ n n', K n n' → K' n n') {k k' : AMock V E} (h : MockSim K k k') : MockSim K' k k' := by
  refine ⟨h.cls, h.spied, h.alive, h.wasReset, h.data, fun off => ?_⟩
  have := h.stubs off
  cases h1 : k.stubs off <;> cases h2 : k'.stubs off <;> rw [h1, h2] at this
  · trivial
  · exact this.elim
  · exact this.elim
  · exact All2.mono (fun a b h => ⟨hK _ _ h.name, h.kind, h.script⟩) this

theorem MockSim.isSome {K : Nat → Nat → Prop} {k k' : AMock V E} (h : MockSim K k k') (off : Nat) : (k.stubs off).isSome = (k'.stubs off).isSome := by
  have := h.stubs off
  revert this
  cases k.stubs off <;> cases k'.stubs off <;> intro this
  · rfl
  · exact this.elim
  · exact this.elim
  · rfl

/-! ## Mentioning -/

theorem hook_sim {s s' : AState V E} (h : Sim mine vars s s') {m : MockId} {K : Nat → Nat → Prop} {k k' : AMock V E} (hk : MockSim K k k')
    (off : Nat) : Steps mine vars s s' (hook s m k off) (hook s' m k' off) := by
  unfold hook
  rw [hk.isSome off]
  split
  · exact .quiet h rfl rfl
  · refine .quiet ?_ rfl rfl
    obtain ⟨K, hK, hs⟩ := h.mocks
    refine ⟨by simp [h.len], ⟨K, hK, ?_⟩, h.calls, h.heap⟩
    refine opt_modify hs m fun k k' _ _ hk => ⟨hk.cls, hk.spied, hk.alive, hk.wasReset, hk.data, fun o => ?_⟩
    dsimp only
    split
    · exact .nil
    · exact hk.stubs o

theorem mention_sim {s s' : AState V E} (h : Sim mine vars s s') {m : MockId} (hm : mine m = true) {slot : SlotRef} {r : Option (AState V E)}
    (hr : mention P s m slot = some r) : ∃ r', mention P s' m slot = some r' ∧ All2.Opt (Steps mine vars s s') r r' := by
  unfold mention at hr ⊢
  cases hk : s.mocks[m]? with
  | none => rw [hk] at hr; cases hr
  | some k =>
    obtain ⟨K, k', hk', hks, -, -⟩ := h.get hm hk
    rw [hk] at hr
    rw [hk']
    dsimp only at hr ⊢
    rw [hks.alive, hks.cls, hks.wasReset] at hr
    split at hr
    · rename_i hal
      rw [if_pos hal]
      cases slot with
      | meth off ctr =>
        dsimp only at hr ⊢
        split at hr
        · rename_i hc
          cases hr
          exact ⟨some (hook s' m k' off), if_pos hc, hook_sim h hks off⟩
        · cases hr
      | dtor =>
        dsimp only at hr ⊢
        cases e : (P.cls k'.cls).dtor with
        | none =>
          rw [e] at hr
          cases hr
          exact ⟨none, rfl, trivial⟩
        | some d =>
          rw [e] at hr
          dsimp only at hr ⊢
          split at hr
          · rename_i hc
            cases hr
            exact ⟨some (hook s' m k' d), if_pos hc, hook_sim h hks d⟩
          · cases hr
    · cases hr

theorem mentionAll_sim {l : List (MockId × SlotRef)} {s s' : AState V E} (h : Sim mine vars s s') (hm : ∀ x ∈ l, mine x.1 = true) {t : AState V E} {ok : Bool}
    (hr : mentionAll P s l = some (t, ok)) : ∃ t', mentionAll P s' l = some (t', ok) ∧ Steps mine vars s s' t t' := by
  induction l generalizing s s' with
  | nil => cases hr; exact ⟨s', rfl, .quiet h rfl rfl⟩
  | cons x l ih =>
    obtain ⟨m, slot⟩ := x
    simp only [mentionAll, Option.bind_eq_bind, Option.bind_eq_some_iff] at hr ⊢
    obtain ⟨r, h1, h2⟩ := hr
    obtain ⟨r', g1, g2⟩ := mention_sim h (hm _ List.mem_cons_self) h1
    cases r <;> cases r'
    · cases h2; exact ⟨s', ⟨none, g1, rfl⟩, .quiet h rfl rfl⟩
    · exact g2.elim
    · exact g2.elim
    · rename_i u u'
      obtain ⟨t', g3, g4⟩ := ih g2.sim (fun x hx => hm x (List.mem_cons_of_mem _ hx)) h2
      exact ⟨t', ⟨some u', g1, g3⟩, g2.trans g4⟩

/-! ## Stubbing -/

theorem install_sim {s s' : AState V E} (h : Sim mine vars s s') {x : Target V} (hm : mine x.m = true) {acts : List (Act V E)} {t : AState V E}
    (hr : Spec.install P s x acts = some t) : ∃ t', Spec.install P s' x acts = some t' ∧ Steps mine vars s s' t t' := by
  unfold Spec.install at hr ⊢
  cases hk : s.mocks[x.m]? with
  | none => rw [hk] at hr; cases hr
  | some k =>
    obtain ⟨K, k', hk', hks, hK, hs⟩ := h.get hm hk
    rw [hk] at hr
    rw [hk']
    dsimp only at hr ⊢
    rw [hks.cls] at hr
    split at hr
    · cases hr
    · rename_i off e
      rw [hks.alive, hks.isSome off] at hr
      split at hr
      · rename_i hc
        cases hr
        refine ⟨_, if_pos hc, .quiet ?_ rfl rfl⟩
        refine ⟨by simp [h.len], ⟨More K (2 * s.installed) (2 * s'.installed), hK.more (by dsimp only; omega) (by dsimp only; omega), ?_⟩, h.calls, h.heap⟩
        have hs' : ∀ m, mine m = true → All2.Opt (MockSim (More K (2 * s.installed) (2 * s'.installed))) s.mocks[m]? s'.mocks[m]? := by
          intro m hm
          have := hs m hm
          cases h1 : s.mocks[m]? <;> cases h2 : s'.mocks[m]? <;> rw [h1, h2] at this
          · trivial
          · exact this.elim
          · exact this.elim
          · exact MockSim.mono (fun _ _ h => .inl h) this
        refine opt_modify hs' x.m fun k k' _ _ hk => ⟨hk.cls, hk.spied, hk.alive, hk.wasReset, hk.data, fun o => ?_⟩
        simp only [AMock.onStubs]
        have := hk.stubs o
        cases h1 : k.stubs o <;> cases h2 : k'.stubs o <;> rw [h1, h2] at this
        · split <;> trivial
        · exact this.elim
        · exact this.elim
        · split
          · exact .cons ⟨.inr ⟨rfl, rfl⟩, rfl, rfl⟩ this
          · exact this
      · cases hr

theorem installAll_sim {ts : List (Target V)} {s s' : AState V E} (h : Sim mine vars s s') (hm : ∀ x ∈ ts, mine x.m = true) {acts : List (Act V E)} {t : AState V E}
    (hr : installAll P acts s ts = some t) : ∃ t', installAll P acts s' ts = some t' ∧ Steps mine vars s s' t t' := by
  induction ts generalizing s s' with
  | nil => cases hr; exact ⟨s', rfl, .quiet h rfl rfl⟩
  | cons x ts ih =>
    simp only [installAll, Option.bind_eq_bind, Option.bind_eq_some_iff] at hr ⊢
    obtain ⟨u, h1, h2⟩ := hr
    obtain ⟨u', g1, g2⟩ := install_sim h (hm _ List.mem_cons_self) h1
    obtain ⟨t', g3, g4⟩ := ih g2.sim (fun x hx => hm x (List.mem_cons_of_mem _ hx)) h2
    exact ⟨t', ⟨u', g1, g3⟩, g2.trans g4⟩

theorem aStubOne_sim {s s' : AState V E} (h : Sim mine vars s s') {x : Target V} (hm : mine x.m = true) {acts : List (Act V E)} {u : Bool} {t : AState V E}
    {o : ApiOut} (hr : aStubOne P s x acts u = some (t, o)) :
    ∃ t' o', aStubOne P s' x acts u = some (t', o') ∧ unnamed (.api o : OpOut V E) = unnamed (.api o') ∧ Steps mine vars s s' t t' := by
  simp only [aStubOne, Option.bind_eq_bind, Option.bind_eq_some_iff] at hr ⊢
  obtain ⟨r, h1, h2⟩ := hr
  obtain ⟨r', g1, g2⟩ := mention_sim h hm h1
  cases r <;> cases r'
  · cases h2; exact ⟨s', _, ⟨none, g1, rfl⟩, rfl, .quiet h rfl rfl⟩
  · exact g2.elim
  · exact g2.elim
  · rename_i v v'
    dsimp only at h2
    split at h2
    · rename_i hu
      cases h2; exact ⟨v', _, ⟨some v', g1, by dsimp only; rw [if_pos hu]⟩, rfl, g2⟩
    · rename_i hu
      obtain ⟨w, h3, h4⟩ := Option.bind_eq_some_iff.1 h2
      cases h4
      obtain ⟨w', g3, g4⟩ := install_sim g2.sim hm h3
      exact ⟨w', .matcher (nameOf v'), ⟨some v', g1, by dsimp only; rw [if_neg hu, g3]; rfl⟩, rfl, g2.trans g4⟩

theorem aStubMany_sim {s s' : AState V E} (h : Sim mine vars s s') {ts : List (Target V)} (hm : ∀ x ∈ ts, mine x.m = true) {act : Act V E} {t : AState V E}
    {o : ApiOut} (hr : aStubMany P s ts act = some (t, o)) : ∃ t', aStubMany P s' ts act = some (t', o) ∧ Steps mine vars s s' t t' := by
  simp only [aStubMany, Option.bind_eq_bind, Option.bind_eq_some_iff] at hr ⊢
  obtain ⟨⟨s1, ok⟩, h1, h2⟩ := hr
  obtain ⟨s1', g1, g2⟩ := mentionAll_sim h (l := ts.map fun t => (t.m, t.slot)) (fun x hx => by
    obtain ⟨y, hy, rfl⟩ := List.mem_map.1 hx
    exact hm y hy) h1
  cases ok with
  | false => cases h2; exact ⟨s1', ⟨_, g1, rfl⟩, g2⟩
  | true =>
    obtain ⟨s2, h3, h4⟩ := Option.bind_eq_some_iff.1 h2
    cases h4
    obtain ⟨s2', g3, g4⟩ := installAll_sim g2.sim hm h3
    exact ⟨s2', ⟨_, g1, by dsimp only; rw [g3]; rfl⟩, g2.trans g4⟩

/-! ## Calls -/

theorem values_eq {heap heap' : Addr → V} (h : ∀ a, vars a = true → heap a = heap' a) {args : List (Arg V)} (ha : refsIn vars args) :
    valuesOf heap args = valuesOf heap' args := by
  unfold valuesOf
  refine List.map_congr_left fun a hm => ?_
  cases a with
  | val v => rfl
  | ref r => exact h r (ha r hm)

theorem plain_sim {b : Body V E} {args as : List (Arg V)} {heap heap' g : Addr → V} {o : Outcome V E} (h : ∀ a, vars a = true → heap a = heap' a)
    (hr : plain b args heap = some (o, as, g)) : ∃ g', plain b args heap' = some (o, as, g') ∧ ∀ a, vars a = true → g a = g' a := by
  induction b generalizing args heap heap' with
  | done o => cases hr; exact ⟨heap', rfl, h⟩
  | setArg i v k ih =>
    simp only [plain] at hr ⊢
    cases he : args[i]? with
    | none => rw [he] at hr; exact ih h hr
    | some x =>
      rw [he] at hr
      cases x with
      | ref a => exact ih (fun c hc => by split; · rfl
                                          · exact h c hc) hr
      | val w => exact ih h hr
  | call => cases hr
  | api => cases hr

/-- Performing a script entry. -/
theorem perform_sim {c : ClassDecl V} {spied : Bool} {off : Nat} {args as : List (Arg V)} {s s' t : AState V E} {acts : List (Act V E)} {o : Outcome V E}
    (h : Sim mine vars s s') (ha : refsIn vars args) (hr : perform P c spied off args s acts = some (o, as, t)) :
    refsIn vars as ∧ ∃ t', perform P c spied off args s' acts = some (o, as, t') ∧ Steps mine vars s s' t t' := by
  have hv := values_eq h.heap ha
  have hheap : ∀ g g' : Addr → V, (∀ a, vars a = true → g a = g' a) → Sim mine vars { s with heap := g } { s' with heap := g' } :=
    fun g g' hg => ⟨h.len, h.mocks, h.calls, hg⟩
  have hfn : ∀ f, runFn P s args f = some (o, as, t) → refsIn vars as ∧ ∃ t', runFn P s' args f = some (o, as, t') ∧ Steps mine vars s s' t t' := by
    intro f hf
    cases f with
    | ret v => cases hf; exact ⟨ha, s', rfl, .quiet h rfl rfl⟩
    | thr e => cases hf; exact ⟨ha, s', rfl, .quiet h rfl rfl⟩
    | user f =>
      simp only [runFn, Option.map_eq_some_iff] at hf ⊢
      obtain ⟨⟨o1, a1, h1⟩, h2, h3⟩ := hf
      cases h3
      rw [hv] at h2
      obtain ⟨g', e1, e2⟩ := plain_sim h.heap h2
      exact ⟨fun a hx => ha a ((plain_frame h2).1 a hx), _, ⟨_, e1, rfl⟩, .quiet (hheap _ _ e2) rfl rfl⟩
  have hmoved : ∀ mv : Bool, refsIn vars (if mv then moved P args else args) := by
    intro mv
    cases mv with
    | false => exact ha
    | true =>
      intro a hx
      simp only [if_true, moved, List.mem_map] at hx
      obtain ⟨y, hy, e⟩ := hx
      cases y with
      | val v => cases e
      | ref r => cases e; exact ha _ hy
  unfold perform at hr ⊢
  split at hr
  · cases hr; exact ⟨ha, s', rfl, .quiet h rfl rfl⟩
  · exact hfn _ hr
  · exact hfn _ hr
  · split at hr
    · cases hr; exact ⟨ha, s', rfl, .quiet h rfl rfl⟩
    · cases hr; exact ⟨ha, s', rfl, .quiet h rfl rfl⟩
    · cases hr
  · dsimp only at hr ⊢
    split at hr
    · rename_i hd
      cases hr; exact ⟨hmoved _, s', by rw [if_pos hd], .quiet h rfl rfl⟩
    · rename_i hd
      split at hr
      · rename_i hsp
        simp only [Option.map_eq_some_iff] at hr
        obtain ⟨⟨o1, a1, h1⟩, h2, h3⟩ := hr
        cases h3
        rw [hv] at h2
        obtain ⟨g', e1, e2⟩ := plain_sim h.heap h2
        exact ⟨hmoved _, _, by rw [if_neg hd, if_pos hsp, e1]; rfl, .quiet (hheap _ _ e2) rfl rfl⟩
      · rename_i hsp
        cases hr
        exact ⟨hmoved _, (unstubbed s').2, by rw [if_neg hd, if_neg hsp]; rfl, unstubbed_sim h⟩
  · cases hr

theorem serve_sim {s s' t : AState V E} (h : Sim mine vars s s') {m : MockId} (hm : mine m = true) {k k' : AMock V E} (hcls : k.cls = k'.cls)
    (hsp : k.spied = k'.spied) {off : Nat} {K : Nat → Nat → Prop} (hK : Bij K (2 * s.installed) (2 * s'.installed))
    (hs : ∀ m, mine m = true → All2.Opt (MockSim K) s.mocks[m]? s'.mocks[m]?) {stubs stubs' : List (Stub V E)} (hst : All2 (StubSim K) stubs stubs')
    {args : List (Arg V)} (ha : refsIn vars args) {o : Outcome V E} (hr : Spec.serve P s m k off stubs args = some (o, t)) :
    ∃ t', Spec.serve P s' m k' off stubs' args = some (o, t') ∧ Steps mine vars s s' t t' := by
  have hv := values_eq h.heap ha
  obtain ⟨C, hC, hc⟩ := h.calls
  have h1 : Sim mine vars { s with made := s.made + 1 } { s' with made := s'.made + 1 } :=
    ⟨h.len, h.mocks, ⟨C, hC.mono (by dsimp only; omega) (by dsimp only; omega), hc⟩, h.heap⟩
  have q1 : Steps mine vars s s' { s with made := s.made + 1 } { s' with made := s'.made + 1 } := .quiet h1 rfl rfl
  unfold Spec.serve at hr ⊢
  dsimp only at hr ⊢
  have hf := All2.find? (p := fun st : Stub V E => accepts st.kind (valuesOf s.heap args)) (q := fun st => accepts st.kind (valuesOf s'.heap args))
    (fun a b h => by rw [h.kind, hv]) hst
  cases e1 : stubs.find? (fun st : Stub V E => accepts st.kind (valuesOf s.heap args)) <;>
    cases e2 : stubs'.find? (fun st : Stub V E => accepts st.kind (valuesOf s'.heap args)) <;> rw [e1, e2] at hf
  · rw [e1] at hr
    cases hr
    exact ⟨_, rfl, q1.trans (.report h1 rfl)⟩
  · exact hf.elim
  · exact hf.elim
  · rename_i st st'
    rw [e1] at hr
    dsimp only at hr ⊢
    simp only [Option.bind_eq_bind, Option.bind_eq_some_iff] at hr ⊢
    obtain ⟨⟨o1, as, s2⟩, g1, g2⟩ := hr
    obtain ⟨hra, s2', g3, g4⟩ := perform_sim h1 ha g1
    obtain ⟨p1, p2, p3, p4, -⟩ := perform_keeps g1
    obtain ⟨p1', p2', p3', p4', -⟩ := perform_keeps g3
    dsimp only at p1 p2 p3 p4 p1' p2' p3' p4'
    have hr' : ours mine (⟨some (m, off), s.made + 1, as, some st.name, false⟩ : Rec V) = true := hm
    have hr'' : ours mine (⟨some (m, off), s'.made + 1, as, some st'.name, false⟩ : Rec V) = true := hm
    have step : Steps mine vars s2 s2'
        { s2 with
          calls := s2.calls ++ [⟨some (m, off), s.made + 1, as, some st.name, false⟩]
          mocks := s2.mocks.modify m fun k => k.onStubs off fun l => l.map fun x => if x.name = st.name then { x with script := rest x.script } else x }
        { s2' with
          calls := s2'.calls ++ [⟨some (m, off), s'.made + 1, as, some st'.name, false⟩]
          mocks := s2'.mocks.modify m fun k => k.onStubs off fun l => l.map fun x => if x.name = st'.name then { x with script := rest x.script } else x } := by
      refine .quiet ⟨by simp [p1, p1', h.len], ⟨K, by dsimp only; rw [p4, p4']; exact hK, ?_⟩, ?_, g4.sim.heap⟩ rfl rfl
      · dsimp only
        rw [p1, p1']
        refine opt_modify hs m fun k k' _ _ hk => ⟨hk.cls, hk.spied, hk.alive, hk.wasReset, hk.data, fun o => ?_⟩
        simp only [AMock.onStubs]
        have := hk.stubs o
        cases i1 : k.stubs o <;> cases i2 : k'.stubs o <;> rw [i1, i2] at this
        · split <;> trivial
        · exact this.elim
        · exact this.elim
        · split
          · refine All2.map (fun a b hab => ?_) this
            have := hK.inj hab.name hf.name
            by_cases e : a.name = st.name
            · rw [if_pos e, if_pos (this.1 e)]
              exact ⟨hab.name, hab.kind, by dsimp only; rw [hab.script]⟩
            · rw [if_neg e, if_neg fun x => e (this.2 x)]
              exact hab
          · exact this
      · refine ⟨More C (s.made + 1) (s'.made + 1), hC.more (by dsimp only; omega) (by dsimp only; omega), ?_⟩
        dsimp only
        rw [List.filter_append, List.filter_append, p2, p2']
        refine All2.append (hc.mono fun a b h => ⟨.inl h.number, h.plain, h.refs⟩) ?_
        simp only [List.filter_cons, hr', hr'', if_true, List.filter_nil]
        exact .cons ⟨.inr ⟨rfl, rfl⟩, rfl, hra⟩ .nil
    have all := q1.trans (g4.trans step)
    cases o1 <;> dsimp only at g2 <;> cases g2
    rotate_left 3
    · refine ⟨_, ⟨_, by rw [← hcls, ← hsp, ← hf.script]; exact g3, rfl⟩, ?_⟩
      exact all.trans (.report all.sim rfl)
    all_goals
      refine ⟨_, ⟨_, by rw [← hcls, ← hsp, ← hf.script]; exact g3, rfl⟩, ?_⟩
      exact all

theorem arrives_sim {K : Nat → Nat → Prop} {k k' : AMock V E} (hk : MockSim K k k') (c : ClassDecl V) (off : Nat) (args : List (Arg V)) :
    arrives c k off args = arrives c k' off args := by
  unfold arrives
  split
  · rfl
  · rw [hk.spied, hk.isSome]

theorem aCall_sim {s s' t : AState V E} (h : Sim mine vars s s') {m : MockId} (hm : mine m = true) {off : Nat} {args : List (Arg V)} (ha : refsIn vars args)
    {o : Outcome V E} (hr : aCall P s m off args = some (o, t)) : ∃ t', aCall P s' m off args = some (o, t') ∧ Steps mine vars s s' t t' := by
  unfold aCall at hr ⊢
  cases hk : s.mocks[m]? with
  | none => rw [hk] at hr; cases hr
  | some k =>
    obtain ⟨K, k', hk', hks, hK, hs⟩ := h.get hm hk
    rw [hk] at hr
    rw [hk']
    dsimp only at hr ⊢
    rw [hks.alive, hks.cls, arrives_sim hks] at hr
    have ha' : refsIn vars (arrives (P.cls k'.cls) k' off args).2 := fun a hx => ha a (arrives_refs hx)
    generalize hg : arrives (P.cls k'.cls) k' off args = g at hr ha' ⊢
    obtain ⟨off', args'⟩ := g
    dsimp only at hr ha' ⊢
    split at hr
    · rename_i hc
      rw [if_pos (by rw [hks.spied] at hc; exact hc)]
      have hso := hks.stubs off'
      cases i1 : k.stubs off' <;> cases i2 : k'.stubs off' <;> rw [i1, i2] at hso
      · rw [i1] at hr
        dsimp only at hr ⊢
        split at hr
        · rename_i hsp
          rw [if_pos (by rw [hks.spied] at hsp; exact hsp)]
          simp only [Option.map_eq_some_iff] at hr
          obtain ⟨⟨o1, a1, h1⟩, h2, h3⟩ := hr
          cases h3
          rw [values_eq h.heap ha'] at h2
          obtain ⟨g', e1, e2⟩ := plain_sim h.heap h2
          exact ⟨{ s' with heap := g' }, by rw [e1]; rfl, .quiet ⟨h.len, h.mocks, h.calls, e2⟩ rfl rfl⟩
        · rename_i hsp
          rw [if_neg (by rw [hks.spied] at hsp; exact hsp)]
          split at hr
          · rename_i hd
            cases hr
            exact ⟨s', by rw [if_pos hd], .quiet h rfl rfl⟩
          · rename_i hd
            cases hr
            exact ⟨(unstubbed s').2, by rw [if_neg hd]; rfl, unstubbed_sim h⟩
      · exact hso.elim
      · exact hso.elim
      · rw [i1] at hr
        exact serve_sim h hm hks.cls hks.spied hK hs hso ha' hr
    · cases hr

/-! ## Verification -/

theorem denotes_sim {s s' : AState V E} (h : Sim mine vars s s') {l : Leaf V} (hl : mine l.m = true) (hn : l.addr = none) {K : Nat → Nat → Prop} {r r' : Rec V}
    (hr : CallSim vars K r r') : denotes P s l r = denotes P s' l r' := by
  have e := hr.plain
  simp only [Rec.plain, Prod.mk.injEq] at e
  unfold denotes
  cases hk : s.mocks[l.m]? with
  | none => rw [h.getNone hk]
  | some k =>
    obtain ⟨K, k', hk', hks, -, -⟩ := h.get hl hk
    rw [hk']
    dsimp only
    rw [hks.cls]
    split
    · rfl
    · rw [hn, e.1, ← e.2.1, values_eq h.heap hr.refs]
      simp

theorem ofMock_sim {K : Nat → Nat → Prop} {r r' : Rec V} (hr : CallSim vars K r r') (m : MockId) : ofMock m r = ofMock m r' := by
  have e := hr.plain
  simp only [Rec.plain, Prod.mk.injEq] at e
  unfold ofMock
  rw [e.1]

theorem inSource_sim {s s' : AState V E} (h : Sim mine vars s s') {src : Source V} (hs : ∀ m ∈ mocksOf src, mine m = true) (hn : ∀ l ∈ leavesOf src, l.addr = none)
    {K : Nat → Nat → Prop} {r r' : Rec V} (hr : CallSim vars K r r') : inSource P s src r = inSource P s' src r' := by
  have e := hr.plain
  simp only [Rec.plain, Prod.mk.injEq] at e
  induction src with
  | empty => rfl
  | mock m => exact ofMock_sim hr m
  | ctx l => exact denotes_sim h (hs l.m (by simp [mocksOf])) (hn l (by simp [leavesOf])) hr
  | unverified src ih => simp only [inSource, ih hs hn, e.2.2]
  | union a b iha ihb =>
    simp only [mocksOf, leavesOf, List.mem_append] at hs hn
    simp only [inSource, iha (fun m hm => hs m (.inl hm)) (fun l hl => hn l (.inl hl)), ihb (fun m hm => hs m (.inr hm)) (fun l hl => hn l (.inr hl))]

theorem inScope_sim {s s' : AState V E} (h : Sim mine vars s s') {scope : Scope V} {pat : List (Seq (Leaf V))} (h2 : ∀ m ∈ looksAt pat scope, mine m = true)
    (hn : ∀ l ∈ mentionedBy scope pat, l.addr = none) {K : Nat → Nat → Prop} {r r' : Rec V} (hr : CallSim vars K r r') :
    inScope P s pat scope r = inScope P s' pat scope r' := by
  have e := hr.plain
  simp only [Rec.plain, Prod.mk.injEq] at e
  have hany : ((mocksIn pat).any fun m => ofMock m r) = (mocksIn pat).any fun m => ofMock m r' := by
    simp only [ofMock_sim hr]
  cases scope with
  | involved => exact hany
  | using_ src => exact inSource_sim h h2 (fun l hl => hn l (by simp [mentionedBy, hl])) hr
  | unverified => simp only [inScope, hany, e.2.2]

/-- A filter that lets only our calls through. -/
theorem filter_ours {p : Rec V → Bool} (hp : ∀ r, p r = true → ours mine r = true) (l : List (Rec V)) : l.filter p = (l.filter (ours mine)).filter p := by
  rw [List.filter_filter]
  refine List.filter_congr fun r _ => ?_
  cases h : p r with
  | false => rfl
  | true => rw [hp r h]; rfl

theorem ours_of {r : Rec V} (h : ∃ m off, r.meth = some (m, off) ∧ mine m = true) : ours mine r = true := by
  obtain ⟨m, off, e, hm⟩ := h
  simp only [ours, e, hm]

theorem live_sim {s s' : AState V E} (h : Sim mine vars s s') {ms : List MockId} (hm : ∀ m ∈ ms, mine m = true) : live s ms = live s' ms := by
  unfold live
  induction ms with
  | nil => rfl
  | cons m ms ih =>
    simp only [List.all_cons]
    rw [ih fun m hx => hm m (List.mem_cons_of_mem _ hx)]
    cases hk : s.mocks[m]? with
    | none => rw [h.getNone hk]
    | some k =>
      obtain ⟨K, k', hk', hks, -, -⟩ := h.get (hm m List.mem_cons_self) hk
      rw [hk']
      dsimp only
      rw [hks.alive]

/-- Corresponding calls are marked. -/
theorem marked_sim {K : Nat → Nat → Prop} {b b' : Nat} (hK : Bij K b b') {ts ts' : List (Rec V)} (ht : All2 (CallSim vars K) ts ts') {r r' : Rec V}
    (hr : CallSim vars K r r') : CallSim vars K (marked (ts.map Rec.number) r) (marked (ts'.map Rec.number) r') := by
  have hiff : (ts.map Rec.number).contains r.number = (ts'.map Rec.number).contains r'.number := by
    rw [Bool.eq_iff_iff, List.contains_iff_mem, List.contains_iff_mem]
    constructor
    · intro h
      obtain ⟨q, hq, e⟩ := List.mem_map.1 h
      obtain ⟨q', hq', hqq⟩ := ht.left hq
      exact List.mem_map.2 ⟨q', hq', (hK.inj hqq.number hr.number).1 e⟩
    · intro h
      obtain ⟨q', hq', e⟩ := List.mem_map.1 h
      obtain ⟨q, hq, hqq⟩ := ht.right hq'
      exact List.mem_map.2 ⟨q, hq, (hK.inj hqq.number hr.number).2 e⟩
  have e := hr.plain
  simp only [Rec.plain, Prod.mk.injEq] at e
  unfold marked
  rw [hiff]
  split
  · exact ⟨hr.number, by simp [Rec.plain, e.1, e.2.1], hr.refs⟩
  · exact hr

theorem plain_map {K : Nat → Nat → Prop} {l l' : List (Rec V)} (h : All2 (CallSim vars K) l l') : l.map Rec.plain = l'.map Rec.plain :=
  h.map_eq fun _ _ h => h.plain

theorem mem_mentioned {scope : Scope V} {pat : List (Seq (Leaf V))} {es : List (Leaf V)} (he : es ∈ patternOf pat) {l : Leaf V} (hl : l ∈ es) :
    l ∈ mentionedBy scope pat := by
  simp only [mentionedBy, List.mem_append, List.mem_flatten]
  exact .inr ⟨es, he, hl⟩

/-- The search only uses the method expressions of the pattern. -/
theorem takeBlock_congr {L I : Type} {mt mt' : L → I → Bool} {e : List L} (h : ∀ l ∈ e, ∀ c, mt l c = mt' l c) (cs : List I) : takeBlock mt e cs = takeBlock mt' e cs := by
  induction e generalizing cs with
  | nil => rfl
  | cons l e ih =>
    cases cs with
    | nil => rfl
    | cons c cs => simp only [takeBlock, h l List.mem_cons_self, ih fun l hl => h l (List.mem_cons_of_mem _ hl)]

theorem findBlock_congr {L I : Type} {mt mt' : L → I → Bool} {e : List L} (h : ∀ l ∈ e, ∀ c, mt l c = mt' l c) (cs : List I) : findBlock mt e cs = findBlock mt' e cs := by
  induction cs with
  | nil => exact takeBlock_congr h []
  | cons c cs ih => simp only [findBlock, takeBlock_congr h, ih]

theorem findPattern_congr {L I : Type} {mt mt' : L → I → Bool} {pat : List (List L)} (h : ∀ e ∈ pat, ∀ l ∈ e, ∀ c, mt l c = mt' l c) (cs : List I) :
    findPattern mt pat cs = findPattern mt' pat cs := by
  induction pat generalizing cs with
  | nil => rfl
  | cons e pat ih =>
    simp only [findPattern, findBlock_congr (h e List.mem_cons_self), ih fun e he => h e (List.mem_cons_of_mem _ he)]

theorem findAll_congr {L I : Type} {mt mt' : L → I → Bool} {pat : List (List L)} (h : ∀ e ∈ pat, ∀ l ∈ e, ∀ c, mt l c = mt' l c) (fuel : Nat) (cs : List I) :
    findAll mt pat fuel cs = findAll mt' pat fuel cs := by
  induction fuel generalizing cs with
  | zero => rfl
  | succ fuel ih => simp only [findAll, findPattern_congr h, ih]

/-- Matching restricted to our method expressions. -/
def onlyOurs (mine : MockId → Bool) (mt : Leaf V → Rec V → Bool) (l : Leaf V) (r : Rec V) : Bool := (mine l.m && l.addr.isNone) && mt l r

theorem findAll_sim {s s' : AState V E} (h : Sim mine vars s s') {pat : List (List (Leaf V))} (hp : ∀ e ∈ pat, ∀ l ∈ e, mine l.m = true ∧ l.addr = none)
    {K : Nat → Nat → Prop} {cs cs' : List (Rec V)} (hc : All2 (CallSim vars K) cs cs') (fuel : Nat) :
    (findAll (denotes P s) pat fuel cs).1 = (findAll (denotes P s') pat fuel cs').1 ∧
      All2 (CallSim vars K) (findAll (denotes P s) pat fuel cs).2 (findAll (denotes P s') pat fuel cs').2 := by
  have e : ∀ u : AState V E, ∀ e ∈ pat, ∀ l ∈ e, ∀ c, denotes P u l c = onlyOurs mine (denotes P u) l c := by
    intro u e he l hl c
    simp [onlyOurs, (hp e he l hl).1, (hp e he l hl).2]
  rw [findAll_congr (e s), findAll_congr (e s')]
  refine findAll_all2 (fun a b hab l => ?_) pat fuel hc
  unfold onlyOurs
  cases hm : mine l.m with
  | false => rfl
  | true =>
    cases ha : l.addr with
    | none => rw [denotes_sim h hm ha hab]
    | some x => rfl

theorem aVerify_sim {s s' t : AState V E} (h : Sim mine vars s s') {scope : Scope V} {pat : List (Seq (Leaf V))} {q : Quant} {mode : VMode} {o : ApiOut}
    (h1 : ∀ l ∈ mentionedBy scope pat, mine l.m = true) (h2 : ∀ m ∈ looksAt pat scope, mine m = true) (hn : ∀ l ∈ mentionedBy scope pat, l.addr = none)
    (hr : aVerify P s scope pat q mode = some (t, o)) : ∃ t', aVerify P s' scope pat q mode = some (t', o) ∧ Steps mine vars s s' t t' := by
  simp only [aVerify, Option.bind_eq_bind, Option.bind_eq_some_iff] at hr ⊢
  obtain ⟨⟨s1, ok⟩, g1, g2⟩ := hr
  obtain ⟨s1', g3, g4⟩ := mentionAll_sim h (l := (mentionedBy scope pat).map fun l => (l.m, l.slot)) (fun x hx => by
    obtain ⟨y, hy, rfl⟩ := List.mem_map.1 hx
    exact h1 y hy) g1
  cases ok with
  | false => cases g2; exact ⟨s1', ⟨_, g3, rfl⟩, g4⟩
  | true =>
    dsimp only at g2
    have hs := g4.sim
    obtain ⟨K, hK, hc⟩ := hs.calls
    have hseq : All2 (CallSim vars K) (s1.calls.filter (inScope P s1 pat scope)) (s1'.calls.filter (inScope P s1' pat scope)) := by
      rw [filter_ours (fun r hr => ours_of (inScope_ours h2 hr)), filter_ours (l := s1'.calls) (fun r hr => ours_of (inScope_ours h2 hr))]
      exact hc.filter fun a b hab => inScope_sim hs h2 hn hab
    have hfa := findAll_sim (P := P) hs (pat := patternOf pat) (fun e he l hl => ⟨h1 l (mem_mentioned he hl), hn l (mem_mentioned he hl)⟩) hseq
      ((s1.calls.filter (inScope P s1 pat scope)).length + 1)
    rw [live_sim hs h2] at g2
    suffices ∃ t', (if live s1' (looksAt pat scope) = true then
        match expects q with
        | none => some (s1', ApiOut.threw)
        | some ex =>
          if mode = .stmt true then some (s1', .skipped)
          else
            let seq := s1'.calls.filter (inScope P s1' pat scope)
            let r := findAll (denotes P s1') (patternOf pat) (seq.length + 1) seq
            if fulfils ex r.1 then some ({ s1' with calls := s1'.calls.map (marked (r.2.map Rec.number)) }, .verdict true)
            else if mode = .asBool then some (s1', .verdict false)
            else some ({ s1' with log := s1'.log ++ [.mismatch ex.1 ex.2 r.1 seq] }, .verdict false)
        else none) = some (t', o) ∧ Steps mine vars s s' t t' by
      obtain ⟨t', e1, e2⟩ := this
      exact ⟨t', ⟨_, g3, e1⟩, e2⟩
    split at g2
    · rename_i hl
      rw [if_pos hl]
      cases hx : expects q with
      | none => rw [hx] at g2; cases g2; exact ⟨s1', rfl, g4⟩
      | some ex =>
        rw [hx] at g2
        dsimp only at g2 ⊢
        split at g2
        · rename_i hmo
          rw [if_pos hmo]
          cases g2; exact ⟨s1', rfl, g4⟩
        · rename_i hmo
          rw [if_neg hmo, ← hseq.length, ← hfa.1]
          split at g2
          · rename_i hfu
            rw [if_pos hfu]
            cases g2
            refine ⟨_, rfl, g4.trans (.quiet ⟨hs.len, hs.mocks, ⟨K, hK, ?_⟩, hs.heap⟩ rfl rfl)⟩
            dsimp only
            rw [filter_marked, filter_marked]
            exact All2.map (fun a b hab => marked_sim hK hfa.2 hab) hc
          · rename_i hfu
            rw [if_neg hfu]
            split at g2
            · rename_i hb
              rw [if_pos hb]
              cases g2; exact ⟨s1', rfl, g4⟩
            · rename_i hb
              rw [if_neg hb]
              cases g2
              exact ⟨_, rfl, g4.trans (.report hs (by simp only [Report.told, plain_map hseq]))⟩
    · cases g2

theorem aNoOther_sim {s s' t : AState V E} (h : Sim mine vars s s') {srcs : List (Source V)} {mode : VMode} {o : ApiOut}
    (h1 : ∀ m ∈ mocksOf (allOf srcs), mine m = true) (hn : ∀ l ∈ leavesOf (allOf srcs), l.addr = none)
    (hr : aNoOther P s srcs mode = some (t, o)) : ∃ t', aNoOther P s' srcs mode = some (t', o) ∧ Steps mine vars s s' t t' := by
  simp only [aNoOther, Option.bind_eq_bind, Option.bind_eq_some_iff] at hr ⊢
  obtain ⟨⟨s1, ok⟩, g1, g2⟩ := hr
  obtain ⟨s1', g3, g4⟩ := mentionAll_sim h (l := (leavesOf (allOf srcs)).map fun l => (l.m, l.slot)) (fun x hx => by
    obtain ⟨y, hy, rfl⟩ := List.mem_map.1 hx
    exact h1 _ (leaves_mocks hy)) g1
  cases ok with
  | false => cases g2; exact ⟨s1', ⟨_, g3, rfl⟩, g4⟩
  | true =>
    dsimp only at g2
    have hs := g4.sim
    obtain ⟨K, hK, hc⟩ := hs.calls
    have hall : All2 (CallSim vars K) (s1.calls.filter (inSource P s1 (allOf srcs))) (s1'.calls.filter (inSource P s1' (allOf srcs))) := by
      rw [filter_ours (fun r hr => ours_of (inSource_ours h1 hr)), filter_ours (l := s1'.calls) (fun r hr => ours_of (inSource_ours h1 hr))]
      exact hc.filter fun a b hab => inSource_sim hs h1 hn hab
    have hopen : All2 (CallSim vars K) ((s1.calls.filter (inSource P s1 (allOf srcs))).filter fun r => !r.verified)
        ((s1'.calls.filter (inSource P s1' (allOf srcs))).filter fun r => !r.verified) :=
      hall.filter fun a b hab => by
        have e := hab.plain
        simp only [Rec.plain, Prod.mk.injEq] at e
        rw [e.2.2]
    have hemp : ((s1.calls.filter (inSource P s1 (allOf srcs))).filter fun r => !r.verified).isEmpty =
        ((s1'.calls.filter (inSource P s1' (allOf srcs))).filter fun r => !r.verified).isEmpty := by
      have := hopen.length
      rw [Bool.eq_iff_iff, List.isEmpty_iff_length_eq_zero, List.isEmpty_iff_length_eq_zero, this]
    rw [live_sim hs h1, hemp] at g2
    suffices ∃ t', (if live s1' (mocksOf (allOf srcs)) = true then
      if mode = .stmt true then some (s1', ApiOut.skipped)
      else
        let all := s1'.calls.filter (inSource P s1' (allOf srcs))
        let open_ := all.filter fun r => !r.verified
        if open_.isEmpty then some (s1', .verdict true)
        else if mode = .asBool then some (s1', .verdict false)
        else some ({ s1' with log := s1'.log ++ [.others all open_] }, .verdict false)
      else none) = some (t', o) ∧ Steps mine vars s s' t t' by
      obtain ⟨t', e1, e2⟩ := this
      exact ⟨t', ⟨_, g3, e1⟩, e2⟩
    split at g2
    · rename_i hl
      rw [if_pos hl]
      split at g2
      · rename_i hmo
        rw [if_pos hmo]
        cases g2; exact ⟨s1', rfl, g4⟩
      · rename_i hmo
        rw [if_neg hmo]
        dsimp only
        split at g2
        · rename_i he
          rw [if_pos he]
          cases g2; exact ⟨s1', rfl, g4⟩
        · rename_i he
          rw [if_neg he]
          split at g2
          · rename_i hb
            rw [if_pos hb]
            cases g2; exact ⟨s1', rfl, g4⟩
          · rename_i hb
            rw [if_neg hb]
            cases g2
            exact ⟨_, rfl, g4.trans (.report hs (by simp only [Report.told, plain_map hall, plain_map hopen]))⟩
    · cases g2

/-! ## Steps and programs -/

theorem onMock_sim {s s' t : AState V E} (h : Sim mine vars s s') {m : MockId} (hm : mine m = true) {f : AMock V E → Option (AMock V E)}
    (hf : ∀ K k k' l, MockSim K k k' → f k = some l → ∃ l', f k' = some l' ∧ MockSim K l l') (hr : onMock s m f = some t) :
    ∃ t', onMock s' m f = some t' ∧ Steps mine vars s s' t t' := by
  obtain ⟨k, l, hk, hal, hfk, rfl⟩ := onMock_spec hr
  obtain ⟨K, k', hk', hks, hK, hs⟩ := h.get hm hk
  obtain ⟨l', hfk', hl⟩ := hf K k k' l hks hfk
  refine ⟨{ s' with mocks := s'.mocks.set m l' }, ?_, .quiet ⟨by simp [h.len], ⟨K, hK, fun m' hm' => ?_⟩, h.calls, h.heap⟩ rfl rfl⟩
  · unfold onMock
    rw [hk']
    dsimp only
    rw [if_pos (by rw [← hks.alive]; exact hal), hfk']
    rfl
  · dsimp only
    by_cases e : m = m'
    · subst e
      rw [List.getElem?_set_self (List.getElem?_eq_some_iff.1 hk).1, List.getElem?_set_self (List.getElem?_eq_some_iff.1 hk').1]
      exact hl
    · rw [List.getElem?_set_ne e, List.getElem?_set_ne e]
      exact hs m' hm'

theorem forget_sim {s s' : AState V E} (h : Sim mine vars s s') (m : MockId) : Steps mine vars s s' (forget s m) (forget s' m) := by
  obtain ⟨K, hK, hc⟩ := h.calls
  refine .quiet ⟨h.len, h.mocks, ⟨K, hK, ?_⟩, h.heap⟩ rfl rfl
  have e : ∀ l : List (Rec V), (l.filter fun r => !ofMock m r).filter (ours mine) = (l.filter (ours mine)).filter fun r => !ofMock m r := by
    intro l
    rw [List.filter_filter, List.filter_filter]
    exact List.filter_congr fun r _ => Bool.and_comm _ _
  simp only [forget, e]
  exact hc.filter fun a b hab => by rw [ofMock_sim hab]

theorem aApi_sim {s s' t : AState V E} (h : Sim mine vars s s') {a : Api V E} (ha : a.On mine vars) (hu : (Op.api a : Op V E).Unsaved) {o : ApiOut}
    (hr : aApi P s a = some (t, o)) :
    ∃ t' o', aApi P s' a = some (t', o') ∧ unnamed (.api o : OpOut V E) = unnamed (.api o') ∧ Steps mine vars s s' t t' := by
  have plainly : (∃ t', aApi P s' a = some (t', o) ∧ Steps mine vars s s' t t') →
      ∃ t' o', aApi P s' a = some (t', o') ∧ unnamed (.api o : OpOut V E) = unnamed (.api o') ∧ Steps mine vars s s' t t' :=
    fun ⟨t', e1, e2⟩ => ⟨t', o, e1, rfl, e2⟩
  cases a with
  | newMock cls => exact ha.elim
  | newSpy cls => exact ha.elim
  | touch m slot =>
    refine plainly ?_
    simp only [aApi, Option.map_eq_some_iff] at hr ⊢
    obtain ⟨r, h1, h2⟩ := hr
    obtain ⟨r', g1, g2⟩ := mention_sim h ha h1
    cases r <;> cases r'
    · cases h2; exact ⟨s', ⟨_, g1, rfl⟩, .quiet h rfl rfl⟩
    · exact g2.elim
    · exact g2.elim
    · rename_i u u'
      cases h2
      exact ⟨u', ⟨_, g1, rfl⟩, g2⟩
  | when_ t acts u => exact aStubOne_sim h ha hr
  | fake ts => exact plainly (aStubMany_sim h ha hr)
  | spy mv ts => exact plainly (aStubMany_sim h ha hr)
  | assign t f => exact aStubOne_sim h ha hr
  | write x v =>
    refine plainly ?_
    cases hr
    refine ⟨_, rfl, .quiet ⟨h.len, h.mocks, h.calls, fun b hb => ?_⟩ rfl rfl⟩
    dsimp only
    split
    · rfl
    · exact h.heap b hb
  | verify scope pat q mode => exact plainly (aVerify_sim h ha.1 ha.2 hu hr)
  | verifyNoOther srcs mode => exact plainly (aNoOther_sim h ha hu hr)
  | stubData m cell v | writeData m cell v =>
    refine plainly ?_
    simp only [aApi, Option.map_eq_some_iff] at hr ⊢
    obtain ⟨s1, h1, h2⟩ := hr
    cases h2
    obtain ⟨t', g1, g2⟩ := onMock_sim h ha (fun K k k' l hk hl => by
      unfold setCell at hl ⊢
      rw [hk.data] at hl
      split at hl
      · rename_i hc
        cases hl
        exact ⟨_, if_pos hc, hk.cls, hk.spied, hk.alive, hk.wasReset, rfl, hk.stubs⟩
      · cases hl) h1
    exact ⟨t', ⟨_, g1, rfl⟩, g2⟩
  | destroy m =>
    refine plainly ?_
    simp only [aApi, Option.map_eq_some_iff] at hr ⊢
    obtain ⟨s1, h1, h2⟩ := hr
    cases h2
    have g0 := forget_sim h m
    obtain ⟨t', g1, g2⟩ := onMock_sim g0.sim ha (fun K k k' l hk hl => by
      cases hl
      exact ⟨_, rfl, hk.cls, hk.spied, rfl, hk.wasReset, hk.data, fun _ => trivial⟩) h1
    exact ⟨t', ⟨_, g1, rfl⟩, g0.trans g2⟩
  | reset m =>
    refine plainly ?_
    simp only [aApi, Option.map_eq_some_iff] at hr ⊢
    obtain ⟨s1, h1, h2⟩ := hr
    cases h2
    have g0 := forget_sim h m
    obtain ⟨t', g1, g2⟩ := onMock_sim g0.sim ha (fun K k k' l hk hl => by
      cases hl
      exact ⟨_, rfl, hk.cls, hk.spied, hk.alive, rfl, by simp only [zeroed, hk.spied, hk.data], fun _ => trivial⟩) h1
    exact ⟨t', ⟨_, g1, rfl⟩, g0.trans g2⟩
  | clear m =>
    refine plainly ?_
    simp only [aApi, Option.map_eq_some_iff] at hr ⊢
    obtain ⟨s1, h1, h2⟩ := hr
    cases h2
    have g0 := forget_sim h m
    obtain ⟨t', g1, g2⟩ := onMock_sim g0.sim ha (fun K k k' l hk hl => by
      cases hl
      exact ⟨_, rfl, hk.cls, hk.spied, hk.alive, hk.wasReset, by simp only [zeroed, hk.spied, hk.data], hk.stubs⟩) h1
    exact ⟨t', ⟨_, g1, rfl⟩, g0.trans g2⟩

/-- A step of ours. -/
theorem aStep_sim {s s' t : AState V E} (h : Sim mine vars s s') {op : Op V E} (ha : op.On mine vars) (hu : op.Unsaved) {o : OpOut V E}
    (hr : aStep P s op = some (o, t)) : ∃ t' o', aStep P s' op = some (o', t') ∧ unnamed o = unnamed o' ∧ Steps mine vars s s' t t' := by
  cases op with
  | call m off args =>
    simp only [aStep, Option.map_eq_some_iff] at hr ⊢
    obtain ⟨r, h1, h2⟩ := hr
    cases h2
    obtain ⟨t', g1, g2⟩ := aCall_sim h ha.1 ha.2 h1
    exact ⟨t', _, ⟨_, g1, rfl⟩, rfl, g2⟩
  | api a =>
    simp only [aStep, Option.map_eq_some_iff] at hr ⊢
    obtain ⟨r, h1, h2⟩ := hr
    cases h2
    obtain ⟨t', o', g1, g2, g3⟩ := aApi_sim h ha hu h1
    exact ⟨t', _, ⟨_, g1, rfl⟩, g2, g3⟩

/-- A mock is created. -/
theorem create_sim {s s' t : AState V E} (h : Sim mine vars s s') {op : Op V E} (hc : op.Creates) {o : OpOut V E} (hr : aStep P s op = some (o, t)) :
    ∃ t', aStep P s' op = some (o, t') ∧ Steps mine vars s s' t t' := by
  have hnew : ∀ cls spied, Steps mine vars s s' (aNew P s cls spied) (aNew P s' cls spied) := by
    intro cls spied
    obtain ⟨K, hK, hs⟩ := h.mocks
    refine .quiet ⟨by simp [aNew, h.len], ⟨K, hK, fun m hm => ?_⟩, h.calls, h.heap⟩ rfl rfl
    simp only [aNew]
    by_cases e : m < s.mocks.length
    · rw [List.getElem?_append_left e, List.getElem?_append_left (by rw [← h.len]; exact e)]
      exact hs m hm
    · rw [List.getElem?_append_right (Nat.le_of_not_lt e), List.getElem?_append_right (by rw [← h.len]; exact Nat.le_of_not_lt e), h.len]
      cases hx : m - s'.mocks.length with
      | zero => exact ⟨rfl, rfl, rfl, rfl, rfl, fun _ => trivial⟩
      | succ n => trivial
  cases op with
  | call m off args => exact hc.elim
  | api a =>
    cases a with
    | newMock cls => cases hr; exact ⟨_, by simp only [aStep, aApi, h.len]; rfl, hnew cls false⟩
    | newSpy cls => cases hr; exact ⟨_, by simp only [aStep, aApi, h.len]; rfl, hnew cls true⟩
    | _ => exact hc.elim

/-- Our part of the results. -/
def ourOuts : List (Bool × Op V E) → List (OpOut V E × List (Report V)) → List (OpOut V E × List (Told V))
  | (true, _) :: ops, x :: xs => (unnamed x.1, x.2.map Report.told) :: ourOuts ops xs
  | (false, _) :: ops, _ :: xs => ourOuts ops xs
  | _, _ => []

theorem run_sim {ops : List (Bool × Op V E)} {s s' t : AState V E} (hN : Numbers s) (h : Sim mine vars s s') (hsep : Separate mine vars ops)
    {outs : List (OpOut V E × List (Report V))} (hr : aTraced P s (ops.map Prod.snd) = some (outs, t)) :
    ∃ outs' t', aTraced P s' (Spec.keep ops) = some (outs', t') ∧ ourOuts ops outs = outs'.map (fun x => (unnamed x.1, x.2.map Report.told)) ∧ Sim mine vars t t' := by
  induction ops generalizing s s' outs with
  | nil => cases hr; exact ⟨[], s', rfl, rfl, h⟩
  | cons x ops ih =>
    obtain ⟨b, op⟩ := x
    simp only [List.map_cons, aTraced, Option.bind_eq_bind, Option.bind_eq_some_iff] at hr
    obtain ⟨⟨o, s1⟩, h1, ⟨os, s2⟩, h2, h3⟩ := hr
    cases h3
    dsimp only at h2
    have hsep' : Separate mine vars ops := fun x hx => hsep x (List.mem_cons_of_mem _ hx)
    have hN1 := aStep_numbers hN h1
    have hx := hsep _ List.mem_cons_self
    cases b with
    | false =>
      obtain ⟨outs', t', e1, e2, e3⟩ := ih hN1 (h.frame (aStep_frame hN hx h1)) hsep' h2
      exact ⟨outs', t', e1, e2, e3⟩
    | true =>
      have : ∃ s1' o', aStep P s' op = some (o', s1') ∧ unnamed o = unnamed o' ∧ Steps mine vars s s' s1 s1' := by
        rcases hx with hx | hx
        · obtain ⟨s1', e1, e2⟩ := create_sim h hx h1
          exact ⟨s1', o, e1, rfl, e2⟩
        · exact aStep_sim h hx.1 hx.2 h1
      obtain ⟨s1', o', e1, e2, e3⟩ := this
      obtain ⟨outs', t', g1, g2, g3⟩ := ih hN1 e3.sim hsep' h2
      obtain ⟨d, d', l1, l2, l3⟩ := e3.log
      refine ⟨(o', s1'.log.drop s'.log.length) :: outs', t', ?_, ?_, g3⟩
      · simp only [Spec.keep, aTraced, e1, g1, Option.bind_eq_bind, Option.bind_some]
      · simp only [ourOuts, List.map_cons, e2, l1, l2, List.drop_left, l3, g2]

end FakeIt.Independent
