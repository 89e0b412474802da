import Verif.Lemmas.RacesUse
/-!
# Helper lemmas for races: accesses the operations surely make
-/
namespace FakeIt.Races.Spec

variable {V α β : Type}

theorem surely_get {a : Access} {l : Loc} {f : Val V l → Prog V β} {μ : Mem V} (h : Surely a (f (μ l)) μ) : Surely a (get l >>= f) μ := .inr h

theorem surely_get_here {l : Loc} {f : Val V l → Prog V β} {μ : Mem V} : Surely ⟨l, false⟩ (get l >>= f) μ := .inl rfl

theorem surely_put {a : Access} {l : Loc} {v : Val V l} {f : Unit → Prog V β} {μ : Mem V} (h : Surely a (f ()) (μ.set l v)) :
    Surely a (put l v >>= f) μ := .inr h

theorem surely_put_here {l : Loc} {v : Val V l} {f : Unit → Prog V β} {μ : Mem V} : Surely ⟨l, true⟩ (put l v >>= f) μ := .inl rfl

theorem surely_next {a : Access} {f : Nat → Prog V β} {μ : Mem V} (h : Surely a (f 0) μ) : Surely a (next >>= f) μ := ⟨0, h⟩

theorem findStub_some {a : V} {ss : List (V → Bool)} (h : ∃ p, p ∈ ss ∧ p a = true) : ∃ k, findStub a ss = some k := by
  obtain ⟨p, hp, hpa⟩ := h
  obtain ⟨k, hk, rfl⟩ := List.getElem_of_mem hp
  cases hf : findStub a ss with
  | some k => exact ⟨k, rfl⟩
  | none =>
    rw [findStub, List.find?_eq_none] at hf
    have := hf k (by simp [hk])
    simp [hk, hpa] at this

theorem getOffset_reads {m off j : Nat} {μ : Mem V} (hid : μ (.ident m off) = some off) (hown : ∀ k i, μ (.ident m k) = some i → i = k) :
    ∀ (n k : Nat), k ≤ j → j ≤ off → off < k + n → Surely ⟨.ident m j, false⟩ (getOffset m off k n) μ
  | 0, k, h1, h2, h3 => by omega
  | n + 1, k, h1, h2, h3 => by
    rw [getOffset]
    by_cases hkj : k = j
    · subst hkj
      exact surely_get_here
    · apply surely_get
      have hne : ¬ μ (.ident m k) = some off := fun h => by
        have := hown k off h
        omega
      rw [if_neg hne]
      exact getOffset_reads hid hown n (k + 1) (by omega) h2 (by omega)

theorem call_surely {orig : Nat → Nat → Entry} {μ : Mem V} (hs : Settled orig μ) {m f : Nat} (hk : Known μ m f) {a : V} {x : Access}
    (h : (∃ j, j ≤ f ∧ x = ⟨.ident m j, false⟩) ∨ Surely x (invoke m f (orig m f) a) μ) : Surely x (call orig m f a) μ := by
  rw [call]
  apply surely_get
  rw [(hs.known m f hk).1]
  apply surely_get
  have hlt := hs.inside m f hk
  rcases h with ⟨j, hj, rfl⟩ | h
  · apply surely_bind_left
    exact getOffset_reads (hs.known m f hk).2 (hs.own m) _ 0 (Nat.zero_le _) hj (by simpa using hlt)
  · refine surely_bind_right (F := fun _ => True)
      (getOffset_safe (hs.known m f hk).2 (hs.own m) _ 0 (Nat.zero_le _) (by simpa using hlt) fun _ _ _ => trivial) fun r μ' ⟨h1, h2⟩ => ?_
    subst h1 h2
    apply surely_get
    have : μ' (.body m f) = true := hk
    rw [if_pos this]
    exact h

theorem call_reads_stubs {orig : Nat → Nat → Entry} {μ : Mem V} (hs : Settled orig μ) {m f : Nat} (hk : Known μ m f) (a : V) :
    Surely ⟨.stubs m f, false⟩ (call orig m f a) μ :=
  call_surely hs hk (.inr (surely_next surely_get_here))

theorem call_records {orig : Nat → Nat → Entry} {μ : Mem V} (hs : Settled orig μ) {m f : Nat} {a : V} (h : Recorded μ m f a) :
    Surely ⟨.recs m f, true⟩ (call orig m f a) μ := by
  refine call_surely hs h.1 (.inr ?_)
  obtain ⟨k, hk⟩ := findStub_some h.2
  rw [invoke]
  apply surely_next
  apply surely_get
  rw [hk]
  apply surely_get
  apply surely_put
  apply surely_put
  exact surely_put_here

theorem methodExpr_ends {orig : Nat → Nat → Entry} {μ : Mem V} (hs : Settled orig μ) (m f txt : Nat) (hf : f < μ (.vecs m)) :
    Safe (fun _ => True) (methodExpr m f txt) μ (fun _ μ' => Keeps orig μ μ' ∧ Known μ' m f ∧ (Known μ m f → μ' = μ.set (.name m f) txt)) :=
  methodExpr_safe hs m f txt hf trivial trivial trivial fun _ => ⟨trivial, trivial, trivial, trivial, trivial⟩

theorem methodExpr_names {orig : Nat → Nat → Entry} {μ : Mem V} (hs : Settled orig μ) (m f txt : Nat) (hf : f < μ (.vecs m)) :
    Surely ⟨.name m f, true⟩ (methodExpr m f txt : Prog V Unit) μ := by
  rw [methodExpr]
  refine surely_bind_right (F := fun _ => True) (recordedBody_safe hs m f hf trivial trivial fun _ => ⟨trivial, trivial, trivial, trivial, trivial, trivial⟩)
    fun _ μ' _ => .inl rfl

theorem methodExpr_binds {μ : Mem V} (m f txt : Nat) (hf : f < μ (.vecs m)) (hk : ¬ Known μ m f) :
    Surely ⟨.ident m f, true⟩ (methodExpr m f txt : Prog V Unit) μ := by
  rw [methodExpr]
  apply surely_bind_left
  rw [recordedBody]
  apply surely_get
  rw [if_pos hf]
  apply surely_get
  apply surely_bind_left
  rw [if_neg (show ¬ μ (.body m f) = true from hk)]
  rw [bindMethod]
  apply surely_next
  apply surely_put
  apply surely_put
  apply surely_put
  apply surely_put
  apply surely_put
  exact .inl rfl

theorem stub_surely {orig : Nat → Nat → Entry} {μ : Mem V} (hs : Settled orig μ) (m f txt : Nat) (p : V → Bool) (q : List (Action V))
    (hf : f < μ (.vecs m)) : Surely ⟨.stubs m f, true⟩ (stub m f txt p q) μ := by
  rw [stub]
  refine surely_bind_right (methodExpr_ends hs m f txt hf) fun _ μ' ⟨hk, hkn, _⟩ => ?_
  refine surely_bind_right (F := fun _ => True)
    (recordedBody_safe hk.settled m f (by rw [hk.vecs]; exact hf) trivial trivial fun h => absurd hkn h) fun _ μ'' _ => ?_
  apply surely_get
  apply surely_put
  exact surely_put_here

theorem gather_reads {m k : Nat} {μ : Mem V} (hk : Known μ m k) : ∀ n, k < n → Surely ⟨.recs m k, false⟩ (gather m n : Prog V _) μ
  | 0, h => by omega
  | n + 1, h => by
    rw [gather]
    by_cases he : k = n
    · subst he
      refine surely_bind_right (F := fun _ => True) (gather_safe (fun _ => trivial) (fun _ _ => trivial) k) fun r μ' ⟨_, h2⟩ => ?_
      subst h2
      apply surely_get
      have : μ' (.body m k) = true := hk
      rw [if_pos this]
      exact surely_get_here
    · exact surely_bind_left (gather_reads hk n (by omega))

theorem verify_reads {orig : Nat → Nat → Entry} {μ : Mem V} (hs : Settled orig μ) (m f txt : Nat) (p : V → Bool) (e : Nat → Bool)
    (hf : f < μ (.vecs m)) {k : Nat} (hk : Known μ m k) : Surely ⟨.recs m k, false⟩ (verify m f txt p e) μ := by
  rw [verify]
  refine surely_bind_right (methodExpr_ends hs m f txt hf) fun _ μ' ⟨hkp, hkn, _⟩ => ?_
  apply surely_get
  apply surely_bind_left
  exact gather_reads (hkp.known m k hk) _ (hkp.settled.inside m k (hkp.known m k hk))

theorem noOther_reads {orig : Nat → Nat → Entry} {μ : Mem V} (hs : Settled orig μ) {m k : Nat} (hk : Known μ m k) :
    Surely ⟨.recs m k, false⟩ (noOther m) μ := by
  rw [noOther]
  apply surely_get
  apply surely_bind_left
  exact gather_reads hk _ (hs.inside m k hk)

theorem loop_surely {a : Access} {I : Mem V → Prop} {g : Nat → Prog V Unit} (k : Nat) :
    ∀ (n : Nat) {μ : Mem V}, I μ → (∀ k μ', I μ' → Safe (fun _ => True) (g k) μ' (fun _ μ'' => I μ'')) → k < n → (∀ μ', I μ' → Surely a (g k) μ') →
    Surely a (loop n g) μ
  | 0, _, _, _, h, _ => by omega
  | n + 1, μ, hI, hg, h, hk => by
    rw [loop]
    by_cases he : k = n
    · subst he
      exact surely_bind_right (loop_safe k hI fun k μ' _ => hg k μ') fun _ μ' h' => hk μ' h'
    · exact surely_bind_left (loop_surely k n hI hg (by omega) hk)

theorem clear_writes {orig : Nat → Nat → Entry} {μ : Mem V} (hs : Settled orig μ) {m k : Nat} (hk : Known μ m k) :
    Surely ⟨.recs m k, true⟩ (clear m : Prog V Result) μ := by
  rw [clear]
  apply surely_get
  apply surely_bind_left
  refine loop_surely (I := fun μ' => Quiet μ μ') k _ (.refl μ) ?_ (hs.inside m k hk) ?_
  · intro j μ' hq
    rw [safe_bind]
    refine ⟨trivial, ?_⟩
    rw [safe_ret]
    split
    · rw [safe_put]
      refine ⟨trivial, hq.set _ _ ?_ ?_ ?_ ?_⟩ <;> simp
    · exact hq
  · intro μ' hq
    apply surely_get
    have : μ' (.body m k) = true := by rw [hq.body]; exact hk
    rw [if_pos this]
    exact .inl rfl

theorem reset_writes_entry {orig : Nat → Nat → Entry} {μ : Mem V} {m k : Nat} (hk : k < μ (.vecs m)) :
    Surely ⟨.entry m k, true⟩ (reset orig m : Prog V Result) μ := by
  rw [reset]
  apply surely_get
  apply surely_put
  apply surely_bind_left
  refine loop_surely (I := fun _ => True) k _ trivial (fun j μ' _ => ⟨trivial, trivial, trivial, trivial, trivial, trivial, trivial⟩) hk fun μ' _ => ?_
  exact .inr (.inr (.inr (.inr (.inr (.inl rfl)))))

theorem canRace_of_surely {orig : Nat → Nat → Entry} {μ : Mem V} {o o' : Op V} {a b : Access} (ha : Surely a (o.prog orig) μ)
    (hb : Surely b (o'.prog orig) μ) (hab : Conflict a b) (tss : List (List (Op V))) (i j : Nat) (hij : i ≠ j) (os os' : List (Op V))
    (hi : tss[i]? = some (o :: os)) (hj : tss[j]? = some (o' :: os')) : CanRace (start orig μ tss) i j := by
  refine canRace_of_makes (p := thread orig (o :: os)) (q := thread orig (o' :: os')) (a := a) (b := b) ?_ ?_ hab _ i j hij ?_ ?_
  · exact (surely_bind_left ha).makes
  · exact (surely_bind_left hb).makes
  · simp [hi]
  · simp [hj]

theorem clashes_race {orig : Nat → Nat → Entry} {μ : Mem V} (hs : Settled orig μ) {o o' : Op V} (hfit : Fits μ o) (hfit' : Fits μ o')
    (h : Clashes μ o o') : ∃ a b, Surely a (o.prog orig) μ ∧ Surely b (o'.prog orig) μ ∧ Conflict a b := by
  cases h with
  | sameMethod h h' => exact ⟨_, _, call_records hs h, call_records hs h', rfl, .inl rfl⟩
  | callVerify h g txt p e => exact ⟨_, _, call_records hs h, verify_reads hs _ g txt p e (hfit' g rfl) h.1, rfl, .inl rfl⟩
  | callNoOther h => exact ⟨_, _, call_records hs h, noOther_reads hs h.1, rfl, .inl rfl⟩
  | callClear h => exact ⟨_, _, call_records hs h, clear_writes hs h.1, rfl, .inl rfl⟩
  | @callStub m f h a txt p q => exact ⟨_, _, call_reads_stubs hs h a, stub_surely hs _ _ txt p q (hfit' f rfl), rfl, .inr rfl⟩
  | @callFirst m f g h h' hlt a txt p q =>
    exact ⟨⟨.ident m g, false⟩, _, call_surely hs h (.inl ⟨g, by omega, rfl⟩), surely_bind_left (methodExpr_binds m g txt (hfit' g rfl) h'), rfl, .inr rfl⟩
  | stubStub m f txt txt' p p' q q' =>
    exact ⟨_, _, surely_bind_left (methodExpr_names hs m f txt (hfit f rfl)), surely_bind_left (methodExpr_names hs m f txt' (hfit' f rfl)), rfl, .inl rfl⟩
  | stubVerify m f txt txt' p p' q e =>
    exact ⟨_, _, surely_bind_left (methodExpr_names hs m f txt (hfit f rfl)), surely_bind_left (methodExpr_names hs m f txt' (hfit' f rfl)), rfl, .inl rfl⟩
  | verifyVerify m f txt txt' p p' e e' =>
    exact ⟨_, _, surely_bind_left (methodExpr_names hs m f txt (hfit f rfl)), surely_bind_left (methodExpr_names hs m f txt' (hfit' f rfl)), rfl, .inl rfl⟩
  | reset =>
    have hw : ∀ m, Surely ⟨.vecs m, true⟩ ((Op.reset m : Op V).prog orig) μ := fun m => .inr (.inl rfl)
    cases o' with
    | call m f a => exact ⟨_, _, reset_writes_entry (hfit' f rfl), surely_get_here, rfl, .inl rfl⟩
    | stub m f txt p q => exact ⟨_, ⟨.vecs m, false⟩, hw m, .inl rfl, rfl, .inl rfl⟩
    | verify m f txt p e => exact ⟨_, ⟨.vecs m, false⟩, hw m, .inl rfl, rfl, .inl rfl⟩
    | noOther m => exact ⟨_, ⟨.vecs m, false⟩, hw m, .inl rfl, rfl, .inl rfl⟩
    | reset m => exact ⟨_, ⟨.vecs m, false⟩, hw m, .inl rfl, rfl, .inl rfl⟩
    | clear m => exact ⟨_, ⟨.vecs m, false⟩, hw m, .inl rfl, rfl, .inl rfl⟩
  | clearVerify h f txt p e => exact ⟨_, _, clear_writes hs h, verify_reads hs _ f txt p e (hfit' f rfl) h, rfl, .inl rfl⟩
  | clearNoOther h => exact ⟨_, _, clear_writes hs h, noOther_reads hs h, rfl, .inl rfl⟩
  | clearClear h => exact ⟨_, _, clear_writes hs h, clear_writes hs h, rfl, .inl rfl⟩

/-! ## Threads -/

theorem thread_may {orig : Nat → Nat → Entry} {μ : Mem V} (hs : Settled orig μ) (os : List (Op V)) (hfit : ∀ o, o ∈ os → Fits μ o) :
    Safe (mayAll (Known μ) os) (thread orig os) μ (fun _ μ' => Settled orig μ') :=
  thread_safe (Known μ) os os (fun _ h => h) hs hfit fun _ _ _ h => h

theorem separate_apart {orig : Nat → Nat → Entry} {μ : Mem V} (hs : Settled orig μ) {tss : List (List (Op V))}
    (hfit : ∀ os, os ∈ tss → ∀ o, o ∈ os → Fits μ o) (hsep : Separate (Known μ) tss) : Apart μ (tss.map (thread orig)) := by
  intro i j p q hij hi hj a b ha hb
  rw [List.getElem?_map] at hi hj
  obtain ⟨os, hos, rfl⟩ := Option.map_eq_some_iff.1 hi
  obtain ⟨os', hos', rfl⟩ := Option.map_eq_some_iff.1 hj
  obtain ⟨o, ho, hma⟩ := (thread_may hs os (hfit os (List.mem_of_getElem? hos))).makes ha
  obtain ⟨o', ho', hmb⟩ := (thread_may hs os' (hfit os' (List.mem_of_getElem? hos'))).makes hb
  refine compatible_apart hma hmb (hsep i j os os' hij hos hos' o ho o' ho') fun k hm hk => ⟨⟨hk, ?_⟩, hk, ?_⟩
  · intro hr
    rcases hsep i j os os' hij hos hos' _ hr o' ho' with h | h
    · exact h hm
    · cases o' <;> exact h.elim
  · intro hr
    rcases hsep i j os os' hij hos hos' o ho _ hr with h | h
    · exact h rfl
    · cases o <;> exact h.elim

theorem separate_alone {orig : Nat → Nat → Entry} {μ : Mem V} (hs : Settled orig μ) {tss : List (List (Op V))}
    (hfit : ∀ os, os ∈ tss → ∀ o, o ∈ os → Fits μ o) (hsep : Separate (Known μ) tss) {c : Config V (List Result)} (hc : Steps (start orig μ tss) c) :
    (∀ (i : Nat) os, tss[i]? = some os → c.ts[i]? ≠ some .ub ∧
      ∀ rs, c.ts[i]? = some (.ret rs) → ∃ tr μ', Alone (thread orig os) μ tr (.ret rs) μ' ∧ Settled orig μ' ∧
        ∀ l w, Makes (thread orig os) μ ⟨l, w⟩ → c.mem l = μ' l) ∧
    ∀ l, (∀ os, os ∈ tss → ¬ Makes (thread orig os) μ ⟨l, true⟩) → c.mem l = μ l := by
  have hpar := Parallel.steps (separate_apart hs hfit hsep) hc
  refine ⟨?_, ?_⟩
  · intro i os hos
    obtain ⟨p', μi, tr, h1, h2, h3⟩ := hpar.each i (thread orig os) (by rw [List.getElem?_map, hos]; rfl)
    have hsafe := ((thread_may hs os (hfit os (List.mem_of_getElem? hos))).alone h2).2
    rw [h1]
    refine ⟨?_, ?_⟩
    · intro h
      cases h
      exact hsafe
    · intro rs h
      cases h
      exact ⟨tr, μi, h2, hsafe, h3⟩
  · intro l hl
    refine hpar.rest l ?_
    intro i p hi
    rw [List.getElem?_map] at hi
    obtain ⟨os, hos, rfl⟩ := Option.map_eq_some_iff.1 hi
    exact hl os (List.mem_of_getElem? hos)

/-- The accesses of a verification that holds. -/
def verifyUse (m f : Nat) (a : Access) : Prop :=
  match a.loc with
  | .vecs _ => a.write = false
  | .body _ _ => a.write = false
  | .recs _ _ => a.write = false
  | .args _ _ _ => a.write = false
  | .name m' k => m' = m ∧ k = f
  | .flag m' k _ => m' = m ∧ k = f
  | _ => False

theorem verify_use {orig : Nat → Nat → Entry} {μ : Mem V} (hs : Settled orig μ) {m f : Nat} (hf : Known μ m f) {p : V → Bool} {e : Nat → Bool}
    (hp : Holds μ m f p e) (txt : Nat) : Safe (verifyUse m f) (thread orig [.verify m f txt p e]) μ (fun _ _ => True) := by
  rw [thread, safe_bind]
  refine (verify_safe (F := verifyUse m f) hs m f txt p e (hs.inside m f hf) rfl (fun _ => rfl) ⟨rfl, rfl⟩ (fun h => absurd hf h) (fun _ => rfl) (fun _ => rfl)
    (fun _ => ⟨rfl, rfl⟩) (fun h => absurd ⟨hf, hp⟩ h)).mono (fun _ h => h) fun _ _ _ => trivial

theorem verifications_apart {orig : Nat → Nat → Entry} {μ : Mem V} (hs : Settled orig μ) {m f g : Nat} (hfg : f ≠ g)
    (hf : Known μ m f) (hg : Known μ m g) {p p' : V → Bool} {e e' : Nat → Bool} (hp : Holds μ m f p e) (hp' : Holds μ m g p' e') (txt txt' : Nat) :
    Apart μ ([[.verify m f txt p e], [.verify m g txt' p' e']].map (thread orig)) := by
  have key : ∀ {f g : Nat}, f ≠ g → ∀ {a b : Access}, verifyUse m f a → verifyUse m g b → ¬ Conflict a b := by
    rintro f g hfg ⟨l, w⟩ ⟨l', w'⟩ ha hb ⟨hl, hw⟩
    simp only at hl hw
    subst hl
    cases l <;> simp only [verifyUse] at ha hb <;> first | omega | (simp_all; done)
  intro i j x y hij hi hj a b ha hb
  match i, j with
  | 0, 0 => exact absurd rfl hij
  | 1, 1 => exact absurd rfl hij
  | i + 2, _ => simp at hi
  | 0, j + 2 => simp at hj
  | 1, j + 2 => simp at hj
  | 0, 1 =>
    cases hi
    cases hj
    exact key hfg ((verify_use hs hf hp txt).makes ha) ((verify_use hs hg hp' txt').makes hb)
  | 1, 0 =>
    cases hi
    cases hj
    exact key (fun h => hfg h.symm) ((verify_use hs hg hp' txt').makes ha) ((verify_use hs hf hp txt).makes hb)

theorem fresh_settled {orig : Nat → Nat → Entry} (horig : ∀ m k, orig m k ≠ .proxy) (size : Nat → Nat) (a : V) : Settled orig (fresh orig size a) :=
  ⟨fun m k h => by simp [Known, fresh] at h, fun m k h => by simp [Known, fresh] at h, fun _ _ _ => rfl,
   fun m k j h => by simp [fresh] at h, horig⟩

theorem settled_alone {orig : Nat → Nat → Entry} {μ : Mem V} (hs : Settled orig μ) (os : List (Op V)) (hfit : ∀ o, o ∈ os → Fits μ o)
    {tr : List Access} {p' : Prog V (List Result)} {μ' : Mem V} (hal : Alone (thread orig os) μ tr p' μ') :
    p' ≠ .ub ∧ ∀ rs, p' = .ret rs → Settled orig μ' := by
  have h := ((thread_may hs os hfit).alone hal).2
  refine ⟨?_, ?_⟩
  · intro he
    subst he
    exact h
  · intro rs he
    subst he
    exact h

end FakeIt.Races.Spec
