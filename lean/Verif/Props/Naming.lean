import Verif.Model.Naming
/-!
# C74: a method expression stands for the method it names

The macros with a prototype do; `Method` is not always refused when the name is overloaded, and some methods cannot be named at all.
-/
namespace FakeIt.Naming

/-! ### What the user means -/

/-- Two declarations of the same function: one of them overrides the other, or the compiler refuses them. -/
def Same (d e : Decl) : Prop := d.name = e.name ∧ d.params = e.params ∧ d.ellipsis = e.ellipsis ∧ d.qual = e.qual

instance (d e : Decl) : Decidable (Same d e) := inferInstanceAs (Decidable (_ ∧ _))

/-- The entry of the virtual table is that of `d`. -/
def Names (k : Key) (d : Decl) : Prop := k.name = d.name ∧ k.params = d.params ∧ k.ellipsis = d.ellipsis ∧ k.qual = d.qual

/-- `d` is one of the functions called `f` an object of the class has: it is declared in one of the classes, and no class in between declares functions called `f`,
unless it repeats the inherited ones and has none of this kind itself. -/
def Visible (c : List Cls) (f : Nat) (d : Decl) : Prop :=
  ∃ (i : Nat) (k : Cls), c[i]? = some k ∧ d ∈ k.decls ∧ d.name = f ∧
    ∀ (j : Nat) (k' : Cls), j < i → c[j]? = some k' → ∀ e ∈ k'.decls, e.name = f → f ∈ k'.usings ∧ ¬ Same e d

/-- `d` is declared `virtual`, here or in a class below that has the same function. -/
def Virtual (c : List Cls) (d : Decl) : Prop := ∃ k ∈ c, ∃ e ∈ k.decls, Same e d ∧ e.virt = true

/-- No class declares the same function twice (the compiler checks this). -/
def Proper (c : List Cls) : Prop := ∀ k ∈ c, k.decls.Pairwise fun d e => ¬ Same d e

/-- The expression `n` stands for the method `d`: a slot, which is that of `d` and of no other method; void is void. -/
def StandsFor (c : List Cls) (n : Named) (d : Decl) : Prop :=
  ∃ s r, n = .slot s r ∧ (∃ k, (slots c)[s]? = some k ∧ Names k d) ∧ (∀ (t : Nat) k, (slots c)[t]? = some k → Names k d → t = s) ∧
    ((∃ x y, d.ret = .void x y) → r = .void false false) ∧ (∀ t, d.ret = .val t → r = .val t)

/-- Qualifiers the macros know: `volatile` together with `&` or `&&` is not among them. -/
def Known (q : Qual) : Prop := q.isVolatile = false ∨ q.ref = .none

/-- Among the functions called `f`, `d` is the only one with its qualifiers. -/
def Alone (c : List Cls) (f : Nat) (d : Decl) : Prop :=
  Visible c f d ∧ d.ellipsis = false ∧ Known d.qual ∧ ∀ e, Visible c f e → e.ellipsis = false → e.qual = d.qual → e = d

/-! ### Helper lemmas -/

theorem same_iff (d e : Decl) : Same d e ↔ d.key = e.key := by
  unfold Same Decl.key
  rw [Key.mk.injEq]

theorem names_iff (k : Key) (d : Decl) : Names k d ↔ k = d.key := by
  obtain ⟨a, b, c, q⟩ := k
  unfold Names Decl.key
  rw [Key.mk.injEq]

/-- `Visible`, by keys. -/
def VisibleK (c : List Cls) (f : Nat) (d : Decl) : Prop :=
  ∃ (i : Nat) (k : Cls), c[i]? = some k ∧ d ∈ k.decls ∧ d.name = f ∧
    ∀ (j : Nat) (k' : Cls), j < i → c[j]? = some k' → ∀ e ∈ k'.decls, e.name = f → f ∈ k'.usings ∧ e.key ≠ d.key

theorem visible_iff (c : List Cls) (f : Nat) (d : Decl) : Visible c f d ↔ VisibleK c f d := by simp only [Visible, VisibleK, same_iff, ne_eq]

theorem virtual_iff (c : List Cls) (d : Decl) : Virtual c d ↔ ∃ k ∈ c, ∃ e ∈ k.decls, e.key = d.key ∧ e.virt = true := by simp only [Virtual, same_iff]

theorem proper_keys {c : List Cls} (hp : Proper c) (k : Cls) (hk : k ∈ c) : (k.decls.map Decl.key).Nodup := by
  have := hp k hk
  simp only [same_iff] at this
  rw [List.Nodup, List.pairwise_map]
  exact this

theorem standsFor_iff (c : List Cls) (n : Named) (d : Decl) : StandsFor c n d ↔ ∃ s r, n = .slot s r ∧ (slots c)[s]? = some d.key ∧ (∀ t : Nat, (slots c)[t]? = some d.key → t = s) ∧
    ((∃ x y, d.ret = .void x y) → r = .void false false) ∧ (∀ t, d.ret = .val t → r = .val t) := by
  simp only [StandsFor, names_iff, exists_eq_right, and_imp, forall_eq]
  constructor
  · rintro ⟨s, r, h1, h2, h3, h4⟩; exact ⟨s, r, h1, h2, fun t ht => h3 t _ ht rfl, h4⟩
  · rintro ⟨s, r, h1, h2, h3, h4⟩; exact ⟨s, r, h1, h2, fun t k ht e => h3 t (e ▸ ht), h4⟩

theorem mem_lookupK (c : List Cls) (f : Nat) (d : Decl) : d ∈ lookup c f ↔ VisibleK c f d := by
  induction c with
  | nil => exact ⟨(nomatch ·), fun ⟨i, k, h, _⟩ => by simp at h⟩
  | cons a bs ih =>
    have step : VisibleK (a :: bs) f d ↔ (d ∈ a.decls ∧ d.name = f) ∨
        (VisibleK bs f d ∧ ∀ e ∈ a.decls, e.name = f → f ∈ a.usings ∧ e.key ≠ d.key) := by
      constructor
      · rintro ⟨i, k, hi, hd, hn, hall⟩
        cases i with
        | zero => simp at hi; subst hi; exact .inl ⟨hd, hn⟩
        | succ i =>
          refine .inr ⟨⟨i, k, by simpa using hi, hd, hn, fun j k' hj hk' => hall (j + 1) k' (by omega) (by simpa using hk')⟩, ?_⟩
          exact hall 0 a (by omega) rfl
      · rintro (⟨hd, hn⟩ | ⟨⟨i, k, hi, hd, hn, hall⟩, h0⟩)
        · exact ⟨0, a, rfl, hd, hn, fun j _ hj => by omega⟩
        · refine ⟨i + 1, k, by simpa using hi, hd, hn, fun j k' hj hk' => ?_⟩
          cases j with
          | zero => simp at hk'; subst hk'; exact h0
          | succ j => exact hall j k' (by omega) (by simpa using hk')
    rw [step, ← ih]
    simp only [lookup]
    by_cases hu : a.usings.contains f
    · simp only [hu, if_true, List.mem_append, List.mem_filter, beq_iff_eq, List.all_eq_true, bne_iff_ne, and_imp]
      have hf : f ∈ a.usings := by simpa using hu
      constructor
      · rintro (h | ⟨h, h'⟩)
        · exact .inl h
        · exact .inr ⟨h, fun e he hn => ⟨hf, h' e he hn⟩⟩
      · rintro (h | ⟨h, h'⟩)
        · exact .inl h
        · exact .inr ⟨h, fun e he hn => (h' e he hn).2⟩
    · have hf : f ∉ a.usings := by simpa using hu
      simp only [hu]
      by_cases he : (a.decls.filter fun d => d.name == f).isEmpty
      · simp only [he, if_true, if_false, Bool.false_eq_true]
        have he' : ∀ e ∈ a.decls, e.name ≠ f := by simpa [List.filter_eq_nil_iff] using he
        exact ⟨fun h => .inr ⟨h, fun e h1 h2 => absurd h2 (he' e h1)⟩, fun h => h.elim (fun h => absurd h.2 (he' d h.1)) (·.1)⟩
      · simp only [he, if_false, Bool.false_eq_true, List.mem_filter, beq_iff_eq]
        constructor
        · exact .inl
        · rintro (h | ⟨_, h⟩)
          · exact h
          · exfalso
            have : ∃ e ∈ a.decls, e.name = f := by
              have h1 : ¬ (a.decls.filter fun d => d.name == f) = [] := by simpa using he
              obtain ⟨e, he⟩ := List.exists_mem_of_ne_nil _ h1
              simp only [List.mem_filter, beq_iff_eq] at he
              exact ⟨e, he⟩
            obtain ⟨e, h1, h2⟩ := this
            exact hf (h e h1 h2).1

theorem mem_lookup (c : List Cls) (f : Nat) (d : Decl) : d ∈ lookup c f ↔ Visible c f d := (mem_lookupK c f d).trans (visible_iff c f d).symm

theorem lookup_nodup (c : List Cls) (f : Nat) (hp : Proper c) : ((lookup c f).map Decl.key).Nodup := by
  induction c with
  | nil => exact List.nodup_nil
  | cons a bs ih =>
    have ih := ih fun k hk => hp k (.tail _ hk)
    have hown : ((a.decls.filter fun d => d.name == f).map Decl.key).Nodup :=
      ((List.filter_sublist).map Decl.key).nodup (proper_keys hp a (.head _))
    simp only [lookup]
    split
    · rw [List.map_append, List.nodup_append]
      refine ⟨hown, ((List.filter_sublist).map Decl.key).nodup ih, ?_⟩
      intro x hx y hy
      simp only [List.mem_map, List.mem_filter, List.all_eq_true, bne_iff_ne] at hx hy
      obtain ⟨e, he, rfl⟩ := hx
      obtain ⟨e', ⟨-, he'⟩, rfl⟩ := hy
      exact he' e he
    · split
      · exact ih
      · exact hown

theorem nodup_of_keys {l : List Decl} (h : (l.map Decl.key).Nodup) : l.Nodup := by
  induction l with
  | nil => exact List.nodup_nil
  | cons a l ih =>
    simp only [List.map_cons, List.nodup_cons] at h ⊢
    exact ⟨fun hm => h.1 (List.mem_map_of_mem hm), ih h.2⟩

theorem key_inj {l : List Decl} (h : (l.map Decl.key).Nodup) {d e : Decl} (hd : d ∈ l) (he : e ∈ l) (hk : d.key = e.key) : d = e := by
  induction l with
  | nil => cases hd
  | cons a l ih =>
    simp only [List.map_cons, List.nodup_cons] at h
    cases hd with
    | head => cases he with
      | head => rfl
      | tail _ he => exact absurd (List.mem_map_of_mem he) (hk ▸ h.1)
    | tail _ hd => cases he with
      | head => exact absurd (List.mem_map_of_mem hd) (hk.symm ▸ h.1)
      | tail _ he => exact ih h.2 hd he

theorem single_filter {l : List Decl} (hn : l.Nodup) (p : Decl → Bool) (d : Decl) :
    only (l.filter p) = some d ↔ (d ∈ l ∧ p d = true) ∧ ∀ e ∈ l, p e = true → e = d := by
  have hmem : ∀ e, e ∈ l.filter p ↔ e ∈ l ∧ p e = true := fun e => List.mem_filter
  have hnf : (l.filter p).Nodup := List.filter_sublist.nodup hn
  generalize l.filter p = fl at hmem hnf
  match fl with
  | [] =>
    simp only [only, reduceCtorEq, false_iff]
    exact fun h => by simpa using (hmem d).2 h.1
  | [x] =>
    simp only [only, Option.some.injEq]
    constructor
    · rintro rfl
      exact ⟨(hmem x).1 (.head _), fun e h1 h2 => by simpa using (hmem e).2 ⟨h1, h2⟩⟩
    · rintro ⟨h1, h2⟩
      have := (hmem x).1 (.head _)
      exact h2 x this.1 this.2
  | x :: y :: zs =>
    simp only [only, reduceCtorEq, false_iff]
    rintro ⟨_, h2⟩
    have h3 := (hmem x).1 (.head _)
    have h4 := (hmem y).1 (.tail _ (.head _))
    have : x = y := (h2 x h3.1 h3.2).trans (h2 y h4.1 h4.2).symm
    subst this
    simp at hnf

theorem slots_nodup (c : List Cls) (hp : Proper c) : (slots c).Nodup := by
  induction c with
  | nil => exact List.nodup_nil
  | cons a bs ih =>
    simp only [slots]
    rw [List.nodup_append]
    refine ⟨ih fun k hk => hp k (.tail _ hk), ((List.filter_sublist).map Decl.key).nodup (proper_keys hp a (.head _)), ?_⟩
    intro x hx y hy
    simp only [List.mem_map, List.mem_filter, Bool.and_eq_true, Bool.not_eq_true', List.contains_eq_mem, decide_eq_false_iff_not] at hy
    obtain ⟨e, ⟨-, -, he⟩, rfl⟩ := hy
    exact fun h => he (h ▸ hx)

theorem mem_slotsK (c : List Cls) (d : Decl) : d.key ∈ slots c ↔ ∃ k ∈ c, ∃ e ∈ k.decls, e.key = d.key ∧ e.virt = true := by
  induction c with
  | nil => exact ⟨(nomatch ·), fun ⟨k, h, _⟩ => (nomatch h)⟩
  | cons a bs ih =>
    simp only [slots, List.mem_append, List.mem_map, List.mem_filter, Bool.and_eq_true, Bool.not_eq_true', List.contains_eq_mem, decide_eq_false_iff_not]
    constructor
    · rintro (h | ⟨e, ⟨h1, h2, _⟩, h3⟩)
      · obtain ⟨k, hk, r⟩ := ih.1 h
        exact ⟨k, .tail _ hk, r⟩
      · exact ⟨a, .head _, e, h1, h3, h2⟩
    · rintro ⟨k, hk, e, h1, h2, h3⟩
      cases hk with
      | head =>
        by_cases hs : d.key ∈ slots bs
        · exact .inl hs
        · exact .inr ⟨e, ⟨h1, h3, h2 ▸ hs⟩, h2⟩
      | tail _ hk => exact .inl (ih.2 ⟨k, hk, e, h1, h2, h3⟩)

theorem mem_slots (c : List Cls) (d : Decl) : d.key ∈ slots c ↔ Virtual c d := (mem_slotsK c d).trans (virtual_iff c d).symm

theorem known_iff (q : Qual) : q ∈ stubQuals ↔ Known q := by
  obtain ⟨c, v, r⟩ := q
  cases c <;> cases v <;> cases r <;> simp [stubQuals, Known]

theorem stubQuals_nodup : stubQuals.Nodup := by decide

theorem standsFor_toSlot (c : List Cls) (d : Decl) (o : Option Decl) :
    StandsFor c (toSlot c o) d → ∃ e, o = some e ∧ e.key = d.key ∧ Virtual c d := by
  intro h0
  obtain ⟨s, r, h, hs, -, -⟩ := (standsFor_iff ..).1 h0
  cases o with
  | none => cases h
  | some e =>
    refine ⟨e, rfl, ?_⟩
    simp only [toSlot, offset] at h
    by_cases hm : (slots c).contains e.key
    · simp only [hm, if_true, Named.slot.injEq] at h
      have hm' : e.key ∈ slots c := by simpa using hm
      have hk : e.key = d.key := by
        have h1 := List.getElem_idxOf (List.idxOf_lt_length_iff.2 hm')
        have h2 : (slots c)[(slots c).idxOf e.key]? = some e.key := by
          rw [List.getElem?_eq_getElem (List.idxOf_lt_length_iff.2 hm'), h1]
        rw [h.1] at h2
        exact Option.some.inj (h2.symm.trans hs)
      exact ⟨hk, (mem_slots c d).1 (hk ▸ hm')⟩
    · simp only [hm, if_false, Bool.false_eq_true] at h
      cases h

theorem getElem_inj {l : List Key} (hn : l.Nodup) {i j : Nat} (hi : i < l.length) (hj : j < l.length) (h : l[i] = l[j]) : i = j := by
  have hp := List.pairwise_iff_getElem.1 hn
  rcases Nat.lt_trichotomy i j with hlt | heq | hgt
  · exact absurd h (hp i j hi hj hlt)
  · exact heq
  · exact absurd h.symm (hp j i hj hi hgt)

theorem toSlot_standsFor (c : List Cls) (hp : Proper c) (d : Decl) (hv : Virtual c d) : StandsFor c (toSlot c (some d)) d := by
  have hm : d.key ∈ slots c := (mem_slots c d).2 hv
  have hlt := List.idxOf_lt_length_iff.2 hm
  have hget : (slots c)[(slots c).idxOf d.key]? = some d.key := by rw [List.getElem?_eq_getElem hlt, List.getElem_idxOf hlt]
  refine (standsFor_iff ..).2 ⟨(slots c).idxOf d.key, commonVoid d.ret, ?_, hget, ?_, ?_, ?_⟩
  · simp [toSlot, offset, hm]
  · intro t ht
    obtain ⟨h1, h2⟩ := List.getElem?_eq_some_iff.1 ht
    have h3 : (slots c)[t] = (slots c)[(slots c).idxOf d.key] := by rw [h2, List.getElem_idxOf hlt]
    exact getElem_inj (slots_nodup c hp) h1 hlt h3
  · rintro ⟨x, y, h⟩; rw [h]; rfl
  · intro t h; rw [h]; rfl

theorem viable_iff (c : List Cls) (f : Nat) (hp : Proper c) (q : Qual) (d : Decl) :
    viable (lookup c f) q = some d ↔
      Visible c f d ∧ d.qual = q ∧ d.ellipsis = false ∧ ∀ e, Visible c f e → e.qual = q → e.ellipsis = false → e = d := by
  have := single_filter (nodup_of_keys (lookup_nodup c f hp)) (deduces q) d
  rw [viable, this]
  simp only [mem_lookup, deduces, Bool.and_eq_true, beq_iff_eq, Bool.not_eq_true', and_imp, and_assoc]

theorem filterMap_single {α β} [DecidableEq α] (g : α → Option β) (l : List α) (hn : l.Nodup) (d : β)
    (hinj : ∀ x ∈ l, ∀ y ∈ l, g x = g y → g x ≠ none → x = y) :
    only (l.filterMap g) = some d ↔
      (∃ x ∈ l, g x = some d) ∧ ∀ x ∈ l, ∀ e, g x = some e → e = d := by
  have hmem : ∀ e, e ∈ l.filterMap g ↔ ∃ x ∈ l, g x = some e := fun e => by simp [List.mem_filterMap]
  have hnf : (l.filterMap g).Nodup := by
    clear hmem
    induction l with
    | nil => exact List.nodup_nil
    | cons a l ih =>
      have ih := ih (List.nodup_cons.1 hn).2 fun x hx y hy => hinj x (.tail _ hx) y (.tail _ hy)
      cases hg : g a with
      | none => simp only [List.filterMap_cons, hg]; exact ih
      | some b =>
        simp only [List.filterMap_cons, hg, List.nodup_cons]
        refine ⟨fun hm => ?_, ih⟩
        obtain ⟨x, hx, hgx⟩ := List.mem_filterMap.1 hm
        have := hinj a (.head _) x (.tail _ hx) (hg.trans hgx.symm) (by simp [hg])
        exact (List.nodup_cons.1 hn).1 (this ▸ hx)
  generalize l.filterMap g = fl at hmem hnf
  match fl with
  | [] =>
    simp only [only, reduceCtorEq, false_iff]
    exact fun h => by simpa using (hmem d).2 h.1
  | [x] =>
    simp only [only, Option.some.injEq]
    constructor
    · rintro rfl
      exact ⟨(hmem x).1 (.head _), fun y hy e h => by simpa using (hmem e).2 ⟨y, hy, h⟩⟩
    · rintro ⟨h1, h2⟩
      obtain ⟨y, hy, h⟩ := (hmem x).1 (.head _)
      exact h2 y hy x h
  | x :: y :: zs =>
    simp only [only, reduceCtorEq, false_iff]
    rintro ⟨_, h2⟩
    obtain ⟨a, ha, h3⟩ := (hmem x).1 (.head _)
    obtain ⟨b, hb, h4⟩ := (hmem y).1 (.tail _ (.head _))
    have : x = y := (h2 a ha x h3).trans (h2 b hb y h4).symm
    subst this
    simp at hnf

theorem pick_iff (c : List Cls) (f : Nat) (hp : Proper c) (d : Decl) :
    pick (lookup c f) = some d ↔ Alone c f d ∧ ∀ e, Alone c f e → e = d := by
  rw [pick, filterMap_single _ _ stubQuals_nodup d]
  · have hal : ∀ e, Alone c f e ↔ ∃ q ∈ stubQuals, viable (lookup c f) q = some e := by
      intro e
      constructor
      · rintro ⟨h1, h2, h3, h4⟩
        exact ⟨e.qual, (known_iff _).2 h3, (viable_iff c f hp _ _).2 ⟨h1, rfl, h2, fun x hx hq he => h4 x hx he hq⟩⟩
      · rintro ⟨q, hq, h⟩
        obtain ⟨h1, h2, h3, h4⟩ := (viable_iff c f hp _ _).1 h
        exact ⟨h1, h3, (known_iff _).1 (h2 ▸ hq), fun x hx he hq' => h4 x hx (hq'.trans h2) he⟩
    rw [hal d]
    exact ⟨fun ⟨h1, h2⟩ => ⟨h1, fun e he => let ⟨q, hq, h⟩ := (hal e).1 he; h2 q hq e h⟩,
      fun ⟨h1, h2⟩ => ⟨h1, fun q hq e h => h2 e ((hal e).2 ⟨q, hq, h⟩)⟩⟩
  · intro x _ y _ hxy hne
    cases hv : viable (lookup c f) x with
    | none => exact absurd hv hne
    | some d =>
      have h1 := ((viable_iff c f hp _ _).1 hv).2.1
      have h2 := ((viable_iff c f hp _ _).1 (hxy ▸ hv)).2.1
      exact h1.symm.trans h2

theorem proto_known (p : Proto) : p.qual ∈ stubQuals := by cases p <;> decide

theorem pick_self (d : Decl) (hq : d.qual ∈ stubQuals) (he : d.ellipsis = false) : pick [d] = some d := by
  obtain ⟨n, ps, el, q, r, v⟩ := d
  simp only at he hq
  subst he
  simp only [stubQuals, List.mem_cons, List.not_mem_nil, or_false] at hq
  rcases hq with rfl | rfl | rfl | rfl | rfl | rfl | rfl | rfl <;> rfl

theorem select_iff (c : List Cls) (f : Nat) (hp : Proper c) (p : Proto) (r : Ret) (ps : List Nat) (d : Decl) :
    select (lookup c f) p r ps = some d ↔ Visible c f d ∧ d.qual = p.qual ∧ d.ret = r ∧ d.params = ps ∧ d.ellipsis = false := by
  rw [select, single_filter (nodup_of_keys (lookup_nodup c f hp))]
  simp only [mem_lookup, Bool.and_eq_true, beq_iff_eq, Bool.not_eq_true', and_imp, and_assoc]
  constructor
  · exact fun h => ⟨h.1, h.2.1, h.2.2.1, h.2.2.2.1, h.2.2.2.2.1⟩
  · rintro ⟨h1, h2, h3, h4, h5⟩
    refine ⟨h1, h2, h3, h4, h5, fun e he e1 _ e3 e4 => ?_⟩
    refine key_inj (lookup_nodup c f hp) ((mem_lookup c f e).2 he) ((mem_lookup c f d).2 h1) ?_
    have n1 : e.name = f := by obtain ⟨_, _, _, _, h, _⟩ := he; exact h
    have n2 : d.name = f := by obtain ⟨_, _, _, _, h, _⟩ := h1; exact h
    simp only [Decl.key, n1, n2, e1, e3, e4, h2, h4, h5]

theorem overloaded_eq (c : List Cls) (f : Nat) (hp : Proper c) (p : Proto) (r : Ret) (ps : List Nat) :
    overloaded c f p r ps = toSlot c (select (lookup c f) p r ps) := by
  simp only [overloaded]
  cases h : select (lookup c f) p r ps with
  | none => rfl
  | some d =>
    obtain ⟨_, h2, _, _, h5⟩ := (select_iff c f hp p r ps d).1 h
    simp only [Option.bind_some, pick_self d (h2 ▸ proto_known p) h5]

theorem name_of_visible {c : List Cls} {f : Nat} {d : Decl} (h : Visible c f d) : d.name = f := by obtain ⟨_, _, _, _, h, _⟩ := h; exact h

theorem eq_of_key {c : List Cls} {f : Nat} (hp : Proper c) {d e : Decl} (hd : Visible c f d) (he : Visible c f e) (hk : d.key = e.key) : d = e :=
  key_inj (lookup_nodup c f hp) ((mem_lookup c f d).2 hd) ((mem_lookup c f e).2 he) hk

/-! ### Concrete classes -/

namespace Demo

/-- No qualifier, const, volatile. -/
def qn : Qual := ⟨false, false, .none⟩
def qc : Qual := ⟨true, false, .none⟩
def qv : Qual := ⟨false, true, .none⟩

/-- `virtual void f(int); virtual int f(int, int); virtual int f(int) const; virtual int g();` -/
def base : Cls :=
  { decls := [ { name := 0, params := [1], ellipsis := false, qual := qn, ret := .void false false, virt := true },
               { name := 0, params := [1, 1], ellipsis := false, qual := qn, ret := .val 1, virt := true },
               { name := 0, params := [1], ellipsis := false, qual := qc, ret := .val 1, virt := true },
               { name := 1, params := [], ellipsis := false, qual := qn, ret := .val 1, virt := true } ], usings := [] }

/-- `using Base::f; int f(int, int) override; virtual const void h(); virtual int v(int) volatile; virtual int v(char) volatile; void n();` -/
def derived : Cls :=
  { decls := [ { name := 0, params := [1, 1], ellipsis := false, qual := qn, ret := .val 1, virt := false },
               { name := 2, params := [], ellipsis := false, qual := qn, ret := .void true false, virt := true },
               { name := 3, params := [1], ellipsis := false, qual := qv, ret := .val 1, virt := true },
               { name := 3, params := [2], ellipsis := false, qual := qv, ret := .val 1, virt := true },
               { name := 4, params := [], ellipsis := false, qual := qn, ret := .void false false, virt := false } ], usings := [0] }

def classes : List Cls := [derived, base]

theorem proper : Proper classes := by
  intro k hk
  simp only [classes, List.mem_cons, List.not_mem_nil, or_false] at hk
  rcases hk with rfl | rfl <;> decide

end Demo
open Demo

/-! ### C74 -/

/-- C74: `OverloadedMethod(mock, f, R(params))` and its five relatives stand for a method exactly if it is a virtual one called `f`, with these parameters, this return type
and these qualifiers; and there is at most one. -/
theorem C74_prototype_names_the_method (c : List Cls) (hp : Proper c) (f : Nat) (p : Proto) (r : Ret) (ps : List Nat) (d : Decl) (hd : Visible c f d) :
    StandsFor c (overloaded c f p r ps) d ↔ Virtual c d ∧ d.qual = p.qual ∧ d.ret = r ∧ d.params = ps ∧ d.ellipsis = false := by
  rw [overloaded_eq c f hp]
  constructor
  · intro h
    obtain ⟨e, he, hk, hv⟩ := standsFor_toSlot c d _ h
    have h2 := (select_iff c f hp p r ps e).1 he
    have := eq_of_key hp h2.1 hd hk
    subst this
    exact ⟨hv, h2.2⟩
  · rintro ⟨hv, h⟩
    rw [(select_iff c f hp p r ps d).2 ⟨hd, h⟩]
    exact toSlot_standsFor c hp d hv

/-- C74: if there is no such function, the compiler refuses the expression. -/
theorem C74_prototype_refused (c : List Cls) (hp : Proper c) (f : Nat) (p : Proto) (r : Ret) (ps : List Nat) :
    overloaded c f p r ps = .refused ↔
      ¬ ∃ d, Visible c f d ∧ d.qual = p.qual ∧ d.ret = r ∧ d.params = ps ∧ d.ellipsis = false := by
  rw [overloaded_eq c f hp]
  cases h : select (lookup c f) p r ps with
  | none =>
    refine ⟨fun _ ⟨d, hd⟩ => ?_, fun _ => rfl⟩
    exact nomatch h.symm.trans ((select_iff c f hp p r ps d).2 hd)
  | some d =>
    refine ⟨fun h' => ?_, fun hn => absurd ⟨d, (select_iff c f hp p r ps d).1 h⟩ hn⟩
    simp only [toSlot] at h'
    split at h' <;> cases h'

/-- C74, part: `Method(mock, f)` stands for `d` exactly if `d` is virtual and, among the functions called `f`, the only one of its qualifiers - and there is no other such function.
In particular it is right whenever there is only one function called `f`. Missing from the full claim (`Method` stands for the only method of that name, and is refused if there are
several): see `C74_method_guesses`. -/
theorem C74_method_names_the_method_partial (c : List Cls) (hp : Proper c) (f : Nat) (d : Decl) (hd : Visible c f d) :
    StandsFor c (method c f) d ↔ Virtual c d ∧ Alone c f d ∧ ∀ e, Alone c f e → e = d := by
  constructor
  · intro h
    obtain ⟨e, he, hk, hv⟩ := standsFor_toSlot c d _ h
    have h2 := (pick_iff c f hp e).1 he
    have := eq_of_key hp h2.1.1 hd hk
    subst this
    exact ⟨hv, h2⟩
  · rintro ⟨hv, h⟩
    rw [method, (pick_iff c f hp d).2 h]
    exact toSlot_standsFor c hp d hv

/-- C74: a method that is the only one of its name can be named by `Method`, unless it is `volatile &` or `volatile &&` or has C-style variable arguments. -/
theorem C74_single_method_named (c : List Cls) (hp : Proper c) (f : Nat) (d : Decl) (hd : Visible c f d) (h1 : ∀ e, Visible c f e → e = d) :
    StandsFor c (method c f) d ↔ Virtual c d ∧ Known d.qual ∧ d.ellipsis = false := by
  rw [C74_method_names_the_method_partial c hp f d hd]
  exact ⟨fun ⟨hv, ha, _⟩ => ⟨hv, ha.2.2.1, ha.2.1⟩, fun ⟨hv, hk, he⟩ => ⟨hv, ⟨hd, he, hk, fun e h _ _ => h1 e h⟩, fun e h => h1 e h.1⟩⟩

/-- C74: `Method` is not always refused if the name is overloaded: with `f(int)`, `f(int, int)` and `f(int) const` it means the last. -/
theorem C74_method_guesses :
    ¬ ∀ (c : List Cls) (_ : Proper c) (f : Nat) (d e : Decl), Visible c f d → Visible c f e → d ≠ e → method c f = .refused := by
  intro h
  have := h classes proper 0 { name := 0, params := [1], ellipsis := false, qual := qn, ret := .void false false, virt := true }
    { name := 0, params := [1], ellipsis := false, qual := qc, ret := .val 1, virt := true }
    ((mem_lookup _ _ _).1 (by decide)) ((mem_lookup _ _ _).1 (by decide)) (by decide)
  exact absurd this (by decide)

/-- C74: which methods can be named at all: with a prototype those without `volatile`; by `Method` those it picks. -/
theorem C74_nameable (c : List Cls) (hp : Proper c) (f : Nat) (d : Decl) (hd : Visible c f d) :
    (StandsFor c (method c f) d ∨ ∃ p r ps, StandsFor c (overloaded c f p r ps) d) ↔
      Virtual c d ∧ d.ellipsis = false ∧
        (d.qual.isVolatile = false ∨ (d.qual.ref = .none ∧ Alone c f d ∧ ∀ e, Alone c f e → e = d)) := by
  constructor
  · rintro (h | ⟨p, r, ps, h⟩)
    · obtain ⟨hv, ha, hu⟩ := (C74_method_names_the_method_partial c hp f d hd).1 h
      refine ⟨hv, ha.2.1, ?_⟩
      rcases ha.2.2.1 with h | h
      · exact .inl h
      · exact .inr ⟨h, ha, hu⟩
    · obtain ⟨hv, hq, _, _, he⟩ := (C74_prototype_names_the_method c hp f p r ps d hd).1 h
      refine ⟨hv, he, .inl ?_⟩
      rw [hq]; cases p <;> rfl
  · rintro ⟨hv, he, h | ⟨_, ha, hu⟩⟩
    · have : ∃ p : Proto, d.qual = p.qual := by
        obtain ⟨n, ps, el, ⟨a, b, r⟩, rt, v⟩ := d
        simp only at h
        subst h
        cases a <;> cases r
        · exact ⟨.plain, rfl⟩
        · exact ⟨.ref, rfl⟩
        · exact ⟨.rvalRef, rfl⟩
        · exact ⟨.const_, rfl⟩
        · exact ⟨.constRef, rfl⟩
        · exact ⟨.constRvalRef, rfl⟩
      obtain ⟨p, hq⟩ := this
      exact .inr ⟨p, d.ret, d.params, (C74_prototype_names_the_method c hp f p _ _ d hd).2 ⟨hv, hq, rfl, rfl, he⟩⟩
    · exact .inl ((C74_method_names_the_method_partial c hp f d hd).2 ⟨hv, ha, hu⟩)

/-- C74: not every visible virtual method can be named: two volatile overloads exclude each other, and no macro with a prototype is for volatile methods. -/
theorem C74_volatile_overloads_not_nameable :
    ¬ ∀ (c : List Cls) (_ : Proper c) (f : Nat) (d : Decl), Visible c f d → Virtual c d → d.ellipsis = false →
      StandsFor c (method c f) d ∨ ∃ p r ps, StandsFor c (overloaded c f p r ps) d := by
  intro h
  let d1 : Decl := { name := 3, params := [1], ellipsis := false, qual := qv, ret := .val 1, virt := true }
  let d2 : Decl := { name := 3, params := [2], ellipsis := false, qual := qv, ret := .val 1, virt := true }
  have v1 : Visible classes 3 d1 := (mem_lookup _ _ _).1 (by decide)
  have v2 : Visible classes 3 d2 := (mem_lookup _ _ _).1 (by decide)
  have := (C74_nameable classes proper 3 d1 v1).1 (h classes proper 3 d1 v1 ((mem_slots _ _).1 (by decide)) rfl)
  rcases this.2.2 with hq | ⟨_, ha, _⟩
  · exact absurd hq (by decide)
  · exact absurd (ha.2.2.2 d2 v2 rfl rfl) (by decide)

/-- C74: different methods have different slots, so an expression stands for one method only. -/
theorem C74_stands_for_one (c : List Cls) (hp : Proper c) (f g : Nat) (n : Named) (d e : Decl) (hd : Visible c f d) (he : Visible c g e)
    (h1 : StandsFor c n d) (h2 : StandsFor c n e) : d = e := by
  obtain ⟨s, r, hn, hs, -⟩ := (standsFor_iff ..).1 h1
  obtain ⟨s', r', hn', hs', -⟩ := (standsFor_iff ..).1 h2
  rw [hn] at hn'
  cases hn'
  have hk : d.key = e.key := Option.some.inj (hs.symm.trans hs')
  have hf : f = g := by
    rw [← name_of_visible hd, ← name_of_visible he]
    exact congrArg Key.name hk
  subst hf
  exact eq_of_key hp hd he hk

/-! ### Concrete cases -/

/-- The overriding `f(int, int)` of the derived class has the slot of the base's; the other overloads come in through the using declaration. -/
example : overloaded classes 0 .plain (.val 1) [1, 1] = .slot 1 (.val 1) ∧ overloaded classes 0 .plain (.void false false) [1] = .slot 0 (.void false false) ∧
    overloaded classes 0 .const_ (.val 1) [1] = .slot 2 (.val 1) := by decide

/-- A wrong return type or a missing const is refused. -/
example : overloaded classes 0 .plain (.val 2) [1, 1] = .refused ∧ overloaded classes 0 .const_ (.val 1) [1, 1] = .refused := by decide

/-- `Method` on a single function; `const void` becomes `void`; on an overloaded name it guesses; two volatile overloads; a method that is not virtual. -/
example : method classes 1 = .slot 3 (.val 1) ∧ method classes 2 = .slot 4 (.void false false) ∧ method classes 0 = .slot 2 (.val 1) ∧
    method classes 3 = .refused ∧ method classes 4 = .undefined := by decide

/-- The hypotheses of `C74_single_method_named` hold for `g`. -/
example : Visible classes 1 { name := 1, params := [], ellipsis := false, qual := qn, ret := .val 1, virt := true } ∧
    ∀ e, Visible classes 1 e → e = { name := 1, params := [], ellipsis := false, qual := qn, ret := .val 1, virt := true } := by
  refine ⟨(mem_lookup _ _ _).1 (by decide), fun e he => ?_⟩
  have := (mem_lookup _ _ _).2 he
  have hl : lookup classes 1 = [{ name := 1, params := [], ellipsis := false, qual := qn, ret := .val 1, virt := true }] := by decide
  rw [hl] at this
  simpa using this

end FakeIt.Naming
