import Verif.Spec.OneThread
/-!
# Lemmas for C90: the abstract mock and mocks without memory locations
-/
namespace FakeIt.OneThread

open FakeIt.Spec

variable {V E : Type} {P : Prog V E} {cs : List (Nat × Bool)}

/-! ## Callables -/

theorem valuesOf_val (heap : Addr → V) (vs : List V) : valuesOf heap (vs.map .val) = vs := by
  simp [valuesOf, List.map_map, Function.comp_def]

theorem plain_val {b : Body V E} {o : Outcome V E} (h : ends b = some o) (vs : List V) (heap : Addr → V) :
    plain b (vs.map .val) heap = some (o, (after b vs).map .val, heap) := by
  induction b generalizing vs with
  | done o' => cases h; rfl
  | setArg i v k ih =>
    rw [plain, after]
    have h' : ends k = some o := h
    cases hi : (vs.map Arg.val)[i]? with
    | none =>
      rw [List.getElem?_map, Option.map_eq_none_iff] at hi
      have hle : vs.length ≤ i := List.getElem?_eq_none_iff.1 hi
      simp only
      rw [List.set_eq_of_length_le hle]
      exact ih h' vs
    | some a =>
      rw [List.getElem?_map, Option.map_eq_some_iff] at hi
      obtain ⟨v', _, rfl⟩ := hi
      simp only
      rw [← List.map_set]
      exact ih h' _
  | call => cases h
  | api => cases h

theorem ends_total (ht : Tame P cs) (f : FnId) (vs : List V) : ∃ o, ends (P.fn f vs) = some o ∧ o ≠ .noMore ∧ o ≠ .unexpected := by
  obtain ⟨o, h, hn⟩ := ht.fn f vs
  refine ⟨o, h, ?_⟩
  rcases hn with ⟨v, rfl⟩ | ⟨e, rfl⟩ <;> simp

/-! ## Scripts -/

/-- Actions that scripts can contain. -/
def Good (P : Prog V E) (c : Nat × Bool) (off : Nat) : Act V E → Prop
  | .rep n _ => 1 ≤ n
  | .forever _ => True
  | .dflt => (P.cls c.1).dflt off ≠ .nullRef
  | .deleg mv => mv = false ∧ c.2 = true
  | .noMore => False

theorem rest_good {c : Nat × Bool} {off : Nat} {l : List (Act V E)} (h : ∀ a ∈ l, Good P c off a) : ∀ a ∈ rest l, Good P c off a := by
  intro a ha
  unfold rest at ha
  split at ha
  · rename_i n f l
    split at ha
    · exact h a (List.mem_cons_of_mem _ ha)
    · rcases List.mem_cons.1 ha with rfl | ha
      · show (1 : Int) ≤ n - 1; omega
      · exact h a (List.mem_cons_of_mem _ ha)
  · exact h a ha

theorem use_eq {c : Nat × Bool} {off : Nat} {l : List (Act V E)} (h : ∀ a ∈ l, Good P c off a) :
    Races.Spec.use (l.map (actionOf P)) = l.head?.map fun a => ((actionOf P a).kind, (rest l).map (actionOf P)) := by
  cases l with
  | nil => rfl
  | cons a l =>
    have ha := h a (List.mem_cons_self ..)
    cases a with
    | rep n f =>
      have hn : (1 : Int) ≤ n := ha
      simp only [List.map_cons, Races.Spec.use, actionOf, List.head?_cons, Option.map_some, rest]
      by_cases h1 : n = 1
      · subst h1; simp
      · rw [if_neg h1, if_neg (by omega)]; simp [actionOf]
    | forever f => rfl
    | dflt => rfl
    | deleg mv => rfl
    | noMore => exact ha.elim

theorem perform_eq (ht : Tame P cs) {c : Nat × Bool} (hc : c ∈ cs) {off : Nat} {l : List (Act V E)} (h : ∀ a ∈ l, Good P c off a) (vs : List V) (s : AState V E)
    {a : Act V E} (ha : l.head? = some a) : ∃ o, gives P (P.cls c.1) off vs a = some o ∧ o ≠ .noMore ∧
      perform P (P.cls c.1) c.2 off (vs.map .val) s l = some (o, (Races.Spec.effect vs (actionOf P a).kind).map .val, s) := by
  cases l with
  | nil => cases ha
  | cons b l =>
    cases ha
    have hg := h a (List.mem_cons_self ..)
    have hfn : ∀ f : Fn V E, ∃ o, (match f with | .ret v => some (Outcome.ret v) | .thr e => some (.exc e) | .user f => ends (P.fn f vs)) = some o ∧ o ≠ .noMore ∧
        runFn P s (vs.map .val) f = some (o, (Races.Spec.effect vs (effectOf P f)).map .val, s) := by
      intro f
      cases f with
      | ret v => exact ⟨.ret v, rfl, by simp, rfl⟩
      | thr e => exact ⟨.exc e, rfl, by simp, rfl⟩
      | user f =>
        obtain ⟨o, ho, hn, -⟩ := ends_total ht f vs
        refine ⟨o, ho, hn, ?_⟩
        simp only [runFn, valuesOf_val, plain_val ho, Option.map_some]
        rfl
    cases a with
    | rep n f => obtain ⟨o, h1, h2, h3⟩ := hfn f; exact ⟨o, by rw [← h1]; cases f <;> rfl, h2, h3⟩
    | forever f => obtain ⟨o, h1, h2, h3⟩ := hfn f; exact ⟨o, by rw [← h1]; cases f <;> rfl, h2, h3⟩
    | dflt =>
      have hg' : (P.cls c.1).dflt off ≠ .nullRef := hg
      cases hd : (P.cls c.1).dflt off with
      | value v => exact ⟨.ret v, by simp [gives, hd], by simp, by simp [perform, hd, actionOf, Races.Spec.effect]⟩
      | throws => exact ⟨.exc P.dfltExc, by simp [gives, hd], by simp, by simp [perform, hd, actionOf, Races.Spec.effect]⟩
      | nullRef => exact absurd hd hg'
    | deleg mv =>
      obtain ⟨rfl, hsp⟩ : mv = false ∧ c.2 = true := hg
      obtain ⟨o, ho, hn, -⟩ := ends_total ht ((P.cls c.1).impl off) vs
      refine ⟨o, ho, hn, ?_⟩
      simp only [perform, ht.dtor c hc, hsp, valuesOf_val, plain_val ho, Option.map_some]
      rfl
    | noMore => exact hg.elim

/-! ## Stubbings and recorded calls -/

/-- The stubbings of each method named so far, oldest first. -/
abbrev Table (V E : Type) : Type := Nat → Nat → Option (List (Stub V E))

/-- With another method. -/
def Table.upd (T : Table V E) (m off : Nat) (l : List (Stub V E)) : Table V E := fun m' k => if m' = m ∧ k = off then some l else T m' k

/-- A stubbing. -/
def stubbing (P : Prog V E) (st : Stub V E) : Races.Spec.Stubbing (List V) := ⟨accepts st.kind, st.script.map (actionOf P)⟩

/-- A recorded call. -/
def callRec (heap : Addr → V) (r : Rec V) : Races.Spec.Rec (List V) := ⟨valuesOf heap r.args, r.verified⟩

/-- The mocks without memory locations. -/
def viewOf (P : Prog V E) (T : Table V E) (s : AState V E) : Races.Spec.Mocks (List V) := fun m k =>
  (T m k).map fun l => ⟨l.map (stubbing P), (callsTo s m k).map (callRec s.heap)⟩

/-- What is left of the actions. -/
def givenBy (T : Table V E) : Given V E := fun m k => ((T m k).getD []).map Stub.script

structure Inv (P : Prog V E) (cs : List (Nat × Bool)) (T : Table V E) (s : AState V E) : Prop where
  mocks : ∀ m c, cs[m]? = some c → ∃ k, s.mocks[m]? = some k ∧ k.cls = c.1 ∧ k.spied = c.2 ∧ k.alive = true ∧
    ∀ off, k.stubs off = (T m off).map List.reverse
  inside : ∀ m off, (T m off).isSome → ∃ c, cs[m]? = some c ∧ off < (P.cls c.1).size
  calls : ∀ r ∈ s.calls, ∃ m off, ∃ vs : List V, r.meth = some (m, off) ∧ r.args = vs.map .val ∧ (T m off).isSome
  numbers : (s.calls.map Rec.number).Nodup
  made : ∀ r ∈ s.calls, r.number ≤ s.made
  names : ∀ m off l, T m off = some l → (l.map Stub.name).Nodup ∧ ∀ x ∈ l, x.name < nameOf s
  good : ∀ m off l c, T m off = some l → cs[m]? = some c → ∀ x ∈ l, ∀ a ∈ x.script, Good P c off a

theorem Table.upd_same (T : Table V E) (m off : Nat) (l : List (Stub V E)) : T.upd m off l m off = some l := by simp [Table.upd]

theorem Table.upd_ne (T : Table V E) {m off m' k : Nat} (l : List (Stub V E)) (h : ¬ (m' = m ∧ k = off)) : T.upd m off l m' k = T m' k := by
  rw [Table.upd, if_neg h]

theorem Table.upd_self {T : Table V E} {m off : Nat} {l : List (Stub V E)} (h : T m off = some l) : T.upd m off l = T := by
  funext m' k
  by_cases hne : m' = m ∧ k = off
  · obtain ⟨rfl, rfl⟩ := hne; rw [Table.upd_same, h]
  · rw [Table.upd_ne _ _ hne]

theorem callsTo_nil {T : Table V E} {s : AState V E} (h : Inv P cs T s) {m off : Nat} (hT : T m off = none) : callsTo s m off = [] := by
  rw [callsTo, List.filter_eq_nil_iff]
  intro r hr he
  obtain ⟨m', off', vs, hm, _, hs⟩ := h.calls r hr
  rw [hm] at he
  simp only [beq_iff_eq, Option.some.injEq, Prod.mk.injEq] at he
  obtain ⟨rfl, rfl⟩ := he
  rw [hT] at hs
  cases hs

theorem ofName_view {T : Table V E} {s : AState V E} (h : Inv P cs T s) (m off : Nat) : Races.Spec.ofName (viewOf P T s) m off =
    ⟨((T m off).getD []).map (stubbing P), (callsTo s m off).map (callRec s.heap)⟩ := by
  rw [Races.Spec.ofName, viewOf]
  cases hT : T m off with
  | none => simp [callsTo_nil h hT]
  | some l => rfl

theorem newest_find (heap : Addr → V) (vs : List V) (l : List (Stub V E)) :
    match Races.Spec.newest vs (l.map (stubbing P)) with
    | none => (l.reverse.find? fun st => accepts st.kind (valuesOf heap (vs.map .val))) = none
    | some h => ∃ st, l[h]? = some st ∧ (l.reverse.find? fun st => accepts st.kind (valuesOf heap (vs.map .val))) = some st := by
  rw [valuesOf_val]
  induction l with
  | nil => rfl
  | cons x l ih =>
    rw [List.map_cons, Races.Spec.newest, List.reverse_cons, List.find?_append]
    cases hn : Races.Spec.newest vs (l.map (stubbing P)) with
    | none =>
      rw [hn] at ih
      simp only at ih
      rw [ih]
      by_cases hx : accepts x.kind vs = true
      · simp [stubbing, hx]
      · simp [stubbing, hx]
    | some h =>
      rw [hn] at ih
      obtain ⟨st, h1, h2⟩ := ih
      exact ⟨st, by simpa using h1, by rw [h2]; rfl⟩

theorem byName {l : List (Stub V E)} (hnd : (l.map Stub.name).Nodup) {h : Nat} {st : Stub V E} (hst : l[h]? = some st) (f : Stub V E → Stub V E) :
    (l.map fun x => if x.name = st.name then f x else x) = l.modify h f := by
  apply List.ext_getElem?
  intro i
  rw [List.getElem?_map, List.getElem?_modify]
  cases hi : l[i]? with
  | none => rfl
  | some x =>
    simp only [Option.map_some, Option.map_eq_map]
    by_cases hih : h = i
    · subst hih; rw [hst] at hi; cases hi; simp
    · have hne : x.name ≠ st.name := by
        intro he
        apply hih
        obtain ⟨h1, h1'⟩ := List.getElem?_eq_some_iff.1 hst
        obtain ⟨h2, h2'⟩ := List.getElem?_eq_some_iff.1 hi
        refine (List.getElem_inj (h₀ := by simpa using h1) (h₁ := by simpa using h2) hnd).1 ?_
        simp [h1', h2', he]
      simp [hih, hne]

theorem serveView {T : Table V E} {s : AState V E} {m off : Nat} {l' : List (Stub V E)} (r : Rec V) (hr : r.meth = some (m, off))
    (mocks : List (AMock V E)) (made : Nat) (log : List (Report V)) :
    viewOf P (T.upd m off l') { s with calls := s.calls ++ [r], mocks := mocks, made := made, log := log } =
      (viewOf P T s).upd m off ⟨l'.map (stubbing P), (callsTo s m off).map (callRec s.heap) ++ [callRec s.heap r]⟩ := by
  funext m' k
  rw [Races.Spec.Mocks.upd, viewOf]
  by_cases hne : m' = m ∧ k = off
  · obtain ⟨rfl, rfl⟩ := hne
    rw [Table.upd_same]
    simp [callsTo, List.filter_append, hr]
  · rw [Table.upd_ne _ _ hne, if_neg hne, viewOf]
    have : (r.meth == some (m', k)) = false := by
      rw [hr]
      simp only [beq_eq_false_iff_ne, ne_eq, Option.some.injEq, Prod.mk.injEq]
      exact fun ⟨a, b⟩ => hne ⟨a.symm, b.symm⟩
    simp [callsTo, List.filter_append, this]

theorem modify_names {l : List (Stub V E)} (h : Nat) (f : List (Act V E) → List (Act V E)) :
    (l.modify h fun x => { x with script := f x.script }).map Stub.name = l.map Stub.name := by
  apply List.ext_getElem?
  intro i
  rw [List.getElem?_map, List.getElem?_map, List.getElem?_modify]
  cases l[i]? with
  | none => rfl
  | some x => by_cases hi : h = i <;> simp [hi]

theorem mem_modify {l : List (Stub V E)} {h : Nat} {f : Stub V E → Stub V E} {x : Stub V E} (hx : x ∈ l.modify h f) : ∃ y ∈ l, x = y ∨ x = f y := by
  obtain ⟨i, hi⟩ := List.mem_iff_getElem?.1 hx
  rw [List.getElem?_modify] at hi
  cases hy : l[i]? with
  | none => rw [hy] at hi; cases hi
  | some y =>
    rw [hy] at hi
    refine ⟨y, List.mem_of_getElem? hy, ?_⟩
    simp only [Option.map_some, Option.some.injEq, Option.map_eq_map] at hi
    by_cases h1 : h = i
    · rw [if_pos h1] at hi; exact .inr hi.symm
    · rw [if_neg h1] at hi; exact .inl hi.symm

theorem map_reverse_name {l : List (Stub V E)} (hnd : (l.map Stub.name).Nodup) {h : Nat} {st : Stub V E} (hst : l[h]? = some st) (f : Stub V E → Stub V E) :
    (l.reverse.map fun x => if x.name = st.name then f x else x) = (l.modify h f).reverse := by
  rw [List.map_reverse, byName hnd hst]

theorem Inv.after {T : Table V E} {s : AState V E} (hI : Inv P cs T s) {m off : Nat} {c : Nat × Bool} (hc : cs[m]? = some c) (hoff : off < (P.cls c.1).size)
    {l : List (Stub V E)} (hT : T m off = some l) {h : Nat} {st : Stub V E} (hst : l[h]? = some st) (r : Rec V) (hr : r.meth = some (m, off))
    {vs : List V} (hra : r.args = vs.map .val) (hrn : r.number = s.made + 1) (log : List (Report V)) :
    Inv P cs (T.upd m off (l.modify h fun x => { x with script := rest x.script })) { s with
      made := s.made + 1
      log := log
      calls := s.calls ++ [r]
      mocks := s.mocks.modify m fun k => k.onStubs off fun l => l.map fun x => if x.name = st.name then { x with script := rest x.script } else x } := by
  have hnm := hI.names m off l hT
  refine ⟨?_, ?_, ?_, ?_, ?_, ?_, ?_⟩
  · intro m' c' hc'
    obtain ⟨k, hk, h1, h2, h3, h4⟩ := hI.mocks m' c' hc'
    by_cases hm : m' = m
    · subst hm
      refine ⟨k.onStubs off fun l => l.map fun x => if x.name = st.name then { x with script := rest x.script } else x, by simp [hk], h1, h2, h3, fun o => ?_⟩
      by_cases ho : o = off
      · subst ho
        rw [Table.upd_same]
        simp only [AMock.onStubs, if_true]
        rw [h4, hT]
        simp only [Option.map_some]
        rw [map_reverse_name hnm.1 hst]
      · rw [Table.upd_ne _ _ (fun x => ho x.2)]
        simp only [AMock.onStubs, if_neg ho]
        exact h4 o
    · refine ⟨k, by simp only [List.getElem?_modify, hk]; simp [Ne.symm hm], h1, h2, h3, fun o => ?_⟩
      rw [Table.upd_ne _ _ (fun x => hm x.1)]
      exact h4 o
  · intro m' k hk
    by_cases hne : m' = m ∧ k = off
    · obtain ⟨rfl, rfl⟩ := hne; exact ⟨c, hc, hoff⟩
    · rw [Table.upd_ne _ _ hne] at hk; exact hI.inside m' k hk
  · intro r' hr'
    rcases List.mem_append.1 hr' with h' | h'
    · obtain ⟨m', o', vs', a, b, d⟩ := hI.calls r' h'
      refine ⟨m', o', vs', a, b, ?_⟩
      by_cases hne : m' = m ∧ o' = off
      · obtain ⟨rfl, rfl⟩ := hne; rw [Table.upd_same]; rfl
      · rw [Table.upd_ne _ _ hne]; exact d
    · obtain rfl := List.mem_singleton.1 h'
      exact ⟨m, off, vs, hr, hra, by rw [Table.upd_same]; rfl⟩
  · simp only [List.map_append, List.map_cons, List.map_nil]
    rw [List.nodup_append]
    refine ⟨hI.numbers, by simp, fun a ha b hb => ?_⟩
    obtain ⟨r', hr', rfl⟩ := List.mem_map.1 ha
    obtain rfl := List.mem_singleton.1 hb
    have := hI.made r' hr'
    omega
  · intro r' hr'
    rcases List.mem_append.1 hr' with h' | h'
    · have := hI.made r' h'; show _ ≤ s.made + 1; omega
    · obtain rfl := List.mem_singleton.1 h'; show _ ≤ s.made + 1; omega
  · intro m' o' l' hl'
    by_cases hne : m' = m ∧ o' = off
    · obtain ⟨rfl, rfl⟩ := hne
      rw [Table.upd_same] at hl'
      cases hl'
      refine ⟨by rw [modify_names]; exact hnm.1, fun x hx => ?_⟩
      obtain ⟨y, hy, h'⟩ := mem_modify hx
      have := hnm.2 y hy
      rcases h' with rfl | rfl <;> exact this
    · rw [Table.upd_ne _ _ hne] at hl'; exact hI.names m' o' l' hl'
  · intro m' o' l' c' hl' hc'
    by_cases hne : m' = m ∧ o' = off
    · obtain ⟨rfl, rfl⟩ := hne
      rw [Table.upd_same] at hl'
      cases hl'
      intro x hx
      obtain ⟨y, hy, h'⟩ := mem_modify hx
      have hg := hI.good m' o' l c' hT hc' y hy
      rcases h' with rfl | rfl
      · exact hg
      · exact rest_good hg
    · rw [Table.upd_ne _ _ hne] at hl'; exact hI.good m' o' l' c' hl' hc'

theorem Inv.same {T : Table V E} {s : AState V E} (hI : Inv P cs T s) {made : Nat} (hm : s.made ≤ made) (log : List (Report V)) :
    Inv P cs T { s with made := made, log := log } :=
  ⟨hI.mocks, hI.inside, hI.calls, hI.numbers, fun r hr => Nat.le_trans (hI.made r hr) hm, hI.names, hI.good⟩

/-- What one step is shown to do. -/
def Simulates (P : Prog V E) (cs : List (Nat × Bool)) (T : Table V E) (s : AState V E) (st : Step V E) : Prop :=
  ∃ T' s' o r, aStep P s st.test = some (o, s') ∧ s'.heap = s.heap ∧ Inv P cs T' s' ∧
    Races.Spec.answer (origOf cs) (sizeOf P cs) (viewOf P T s) (st.op P) = (r, viewOf P T' s') ∧ Same P cs (givenBy T) st r o ∧
    givenBy T' = (givenBy T).step st r

theorem modify_scripts (l : List (Stub V E)) (h : Nat) : (l.modify h fun x => { x with script := rest x.script }).map Stub.script =
    (l.map Stub.script).modify h rest := by
  apply List.ext_getElem?
  intro i
  rw [List.getElem?_map, List.getElem?_modify, List.getElem?_modify, List.getElem?_map]
  cases l[i]? with
  | none => rfl
  | some x => by_cases hi : h = i <;> simp [hi]

theorem modify_stubbings (l : List (Stub V E)) (h : Nat) {st : Stub V E} (hst : l[h]? = some st) :
    (l.modify h fun x => { x with script := rest x.script }).map (stubbing P) =
    (l.map (stubbing P)).modify h fun t => ⟨t.accepts, (rest st.script).map (actionOf P)⟩ := by
  apply List.ext_getElem?
  intro i
  rw [List.getElem?_map, List.getElem?_modify, List.getElem?_modify, List.getElem?_map]
  by_cases hi : h = i
  · subst hi; rw [hst]; simp [stubbing]
  · cases l[i]? <;> simp [hi]

theorem modify_id {α : Type} {l : List α} {h : Nat} {x : α} (hx : l[h]? = some x) {f : α → α} (hf : f x = x) : l.modify h f = l := by
  apply List.ext_getElem?
  intro i
  rw [List.getElem?_modify]
  by_cases hi : h = i
  · subst hi; rw [hx]; simp [hf]
  · cases l[i]? <;> simp [hi]

theorem call_sim (ht : Tame P cs) {T : Table V E} {s : AState V E} (hI : Inv P cs T s) {m off : Nat} {vs : List V} {c : Nat × Bool}
    (hc : cs[m]? = some c) (hoff : off < (P.cls c.1).size) : Simulates P cs T s (.call m off vs) := by
  obtain ⟨k, hk, h1, h2, h3, h4⟩ := hI.mocks m c hc
  have hcm : c ∈ cs := List.mem_of_getElem? hc
  have hd := ht.dtor c hcm
  have hcall : aStep P s (Step.call m off vs).test = (aCall P s m off (vs.map .val)).map fun r => (.call r.1, r.2) := rfl
  have hstep : aCall P s m off (vs.map .val) = match T m off with
      | some l => serve P s m k off l.reverse (vs.map .val)
      | none => if c.2 then (plain (P.fn ((P.cls c.1).impl off) vs) (vs.map .val) s.heap).map fun r => (r.1, { s with heap := r.2.2 })
          else some (unstubbed s) := by
    rw [aCall, hk]
    simp only [h3, true_or, true_and, h1, hoff, if_true, arrives, hd, h4, h2, valuesOf_val]
    cases T m off <;> simp
  have hans : Races.Spec.answer (origOf cs) (sizeOf P cs) (viewOf P T s) ((Step.call (E := E) m off vs).op P) =
      Races.Spec.callOf (origOf cs) (viewOf P T s) m off vs := rfl
  cases hT : T m off with
  | none =>
    rw [hT] at hstep
    by_cases hsp : c.2 = true
    · obtain ⟨o, ho, _⟩ := ends_total ht ((P.cls c.1).impl off) vs
      refine ⟨T, s, .call o, .original, ?_, rfl, hI, ?_, ⟨m, off, vs, c, rfl, hc, ho⟩, rfl⟩
      · rw [hcall, hstep, if_pos hsp, plain_val ho]; rfl
      · rw [hans, Races.Spec.callOf, viewOf, hT]
        have : origOf cs m off = .original := by rw [origOf, hc]; obtain ⟨c1, c2⟩ := c; cases hsp; rfl
        simp [this]
    · refine ⟨T, (unstubbed s).2, .call .unexpected, .unexpected, ?_, rfl, hI.same (Nat.le_succ _) _, ?_, rfl, rfl⟩
      · rw [hcall, hstep]; simp [hsp, unstubbed]
      · rw [hans, Races.Spec.callOf, viewOf, hT]
        have : origOf cs m off = .unmocked := by rw [origOf, hc]; obtain ⟨c1, c2⟩ := c; cases c2 <;> simp_all
        simp [this]
        rfl
  | some l =>
    rw [hT] at hstep
    simp only at hstep
    have hn := newest_find (P := P) s.heap vs l
    have hview : viewOf P T s m off = some ⟨l.map (stubbing P), (callsTo s m off).map (callRec s.heap)⟩ := by rw [viewOf, hT]; rfl
    cases hnw : Races.Spec.newest vs (l.map (stubbing P)) with
    | none =>
      rw [hnw] at hn
      refine ⟨T, _, .call .unexpected, .unexpected, ?_, ?_, hI.same (made := s.made + 1) (Nat.le_succ _) (s.log ++ [.unexpected .unmatched ⟨some (m, off), s.made + 1, vs.map .val, none, false⟩]), ?_, rfl, rfl⟩
      · rw [hcall, hstep, serve, hn]; rfl
      · rfl
      · rw [hans, Races.Spec.callOf, hview]
        simp only [hnw]
        rfl
    | some h =>
      rw [hnw] at hn
      obtain ⟨st, hst, hfind⟩ := hn
      have hgood := hI.good m off l c hT hc st (List.mem_of_getElem? hst)
      have huse : ((l.map (stubbing P))[h]?).bind (fun t => Races.Spec.use t.acts) = st.script.head?.map fun a => ((actionOf P a).kind, (rest st.script).map (actionOf P)) := by
        rw [List.getElem?_map, hst]
        exact use_eq hgood
      have hserve : ∀ o as, perform P (P.cls c.1) c.2 off (vs.map .val) { s with made := s.made + 1 } st.script = some (o, as, { s with made := s.made + 1 }) →
          serve P s m k off l.reverse (vs.map .val) =
            match o with
            | .noMore => some (.unexpected, { s with
                made := s.made + 1
                log := s.log ++ [.unexpected .unmatched ⟨some (m, off), s.made + 1, vs.map .val, some st.name, false⟩]
                calls := s.calls ++ [⟨some (m, off), s.made + 1, as, some st.name, false⟩]
                mocks := s.mocks.modify m fun k => k.onStubs off fun l => l.map fun x => if x.name = st.name then { x with script := rest x.script } else x })
            | o => some (o, { s with
                made := s.made + 1
                log := s.log
                calls := s.calls ++ [⟨some (m, off), s.made + 1, as, some st.name, false⟩]
                mocks := s.mocks.modify m fun k => k.onStubs off fun l => l.map fun x => if x.name = st.name then { x with script := rest x.script } else x }) := by
        intro o as hp
        rw [serve, hfind]
        simp only [h1, h2, hp]
        rfl
      cases hsc : st.script.head? with
      | none =>
        have hnil : st.script = [] := by cases hs : st.script with | nil => rfl | cons a l => rw [hs] at hsc; cases hsc
        have hp : perform P (P.cls c.1) c.2 off (vs.map .val) { s with made := s.made + 1 } st.script = some (.noMore, vs.map .val, { s with made := s.made + 1 }) := by
          rw [hnil]; rfl
        have hmod : (l.modify h fun x => { x with script := rest x.script }) = l := modify_id hst (by rw [hnil]; cases st; cases hnil; rfl)
        refine ⟨T.upd m off (l.modify h fun x => { x with script := rest x.script }), _, .call .unexpected, .unexpected, ?_, ?_,
          hI.after hc hoff hT hst ⟨some (m, off), s.made + 1, vs.map .val, some st.name, false⟩ rfl (vs := vs) rfl rfl
            (s.log ++ [.unexpected .unmatched ⟨some (m, off), s.made + 1, vs.map .val, some st.name, false⟩]), ?_, rfl, ?_⟩
        · rw [hcall, hstep, hserve _ _ hp]; rfl
        · rfl
        · rw [hans, Races.Spec.callOf, hview]
          simp only [hnw, huse, hsc, Option.map_none]
          rw [serveView _ rfl, hmod]
          simp [callRec, valuesOf_val]
        · rw [hmod, Table.upd_self hT]; rfl
      | some a =>
        obtain ⟨o, hg, hne, hp⟩ := perform_eq ht hcm hgood vs { s with made := s.made + 1 } hsc
        refine ⟨T.upd m off (l.modify h fun x => { x with script := rest x.script }), _, .call o, .served h, ?_, ?_,
          hI.after hc hoff hT hst ⟨some (m, off), s.made + 1, (Races.Spec.effect vs (actionOf P a).kind).map .val, some st.name, false⟩ rfl
            (vs := Races.Spec.effect vs (actionOf P a).kind) rfl rfl s.log, ?_, ?_, ?_⟩
        · rw [hcall, hstep, hserve _ _ hp]
          cases o <;> first | rfl | exact absurd rfl hne
        · rfl
        · rw [hans, Races.Spec.callOf, hview]
          simp only [hnw, huse, hsc, Option.map_some]
          rw [serveView _ rfl, modify_stubbings l h hst]
          simp [callRec, valuesOf_val]
        · have hl : ∃ l', st.script = a :: l' := by
            cases hs : st.script with
            | nil => rw [hs] at hsc; cases hsc
            | cons b l' => rw [hs] at hsc; cases hsc; exact ⟨l', rfl⟩
          obtain ⟨l', hl'⟩ := hl
          refine ⟨m, off, vs, c, a, l', rfl, hc, ?_, hg⟩
          rw [givenBy, hT]
          simp [hst, hl']
        · funext m' k'
          simp only [givenBy, Given.step]
          by_cases hne : m' = m ∧ k' = off
          · obtain ⟨rfl, rfl⟩ := hne
            rw [Table.upd_same, hT]
            simp [modify_scripts]
          · rw [Table.upd_ne _ _ hne, if_neg hne]

end FakeIt.OneThread
