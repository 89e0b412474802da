import Verif.Lemmas.OneThread
/-!
# Lemmas for C90: stubbing, verifying, resetting and clearing
-/
namespace FakeIt.OneThread

open FakeIt.Spec

variable {V E : Type} {P : Prog V E} {cs : List (Nat × Bool)}

/-- The method is named. -/
def Table.name (T : Table V E) (m off : Nat) : Table V E := T.upd m off ((T m off).getD [])

theorem given_name (T : Table V E) (m off : Nat) : givenBy (T.name m off) = givenBy T := by
  funext m' k
  by_cases hne : m' = m ∧ k = off
  · obtain ⟨rfl, rfl⟩ := hne
    simp [givenBy, Table.name, Table.upd_same]
  · simp only [givenBy, Table.name, Table.upd_ne _ _ hne]

theorem hook_sim (ht : Tame P cs) {T : Table V E} {s : AState V E} (hI : Inv P cs T s) {m off : Nat} {c : Nat × Bool} (hc : cs[m]? = some c)
    (hoff : off < (P.cls c.1).size) (ctr : Nat) : ∃ s1, mention P s m (.meth off ctr) = some (some s1) ∧ s1.heap = s.heap ∧ s1.calls = s.calls ∧ Inv P cs (T.name m off) s1 ∧
      viewOf P (T.name m off) s1 = (viewOf P T s).upd m off (Races.Spec.ofName (viewOf P T s) m off) := by
  obtain ⟨k, hk, h1, h2, h3, h4⟩ := hI.mocks m c hc
  have hd := ht.dtor c (List.mem_of_getElem? hc)
  have hm : mention P s m (.meth off ctr) = some (some (hook s m k off)) := by
    rw [mention, hk]
    simp [h3, h1, hd, hoff]
  cases hT : T m off with
  | some l =>
    have hn : T.name m off = T := by rw [Table.name, hT]; exact Table.upd_self hT
    have hh : hook s m k off = s := by rw [hook, h4, hT]; simp
    refine ⟨s, by rw [hm, hh], rfl, rfl, by rw [hn]; exact hI, ?_⟩
    rw [hn]
    funext m' k'
    rw [Races.Spec.Mocks.upd]
    by_cases hne : m' = m ∧ k' = off
    · obtain ⟨rfl, rfl⟩ := hne
      rw [if_pos ⟨rfl, rfl⟩, ofName_view hI, viewOf, hT]
      rfl
    · rw [if_neg hne]
  | none =>
    have hh : hook s m k off = { s with
        mocks := s.mocks.modify m fun k => { k with stubs := fun o => if o = off then some [] else k.stubs o }
        named := s.named ++ [(m, off)] } := by rw [hook, h4, hT]; simp
    have hn : T.name m off = T.upd m off [] := by rw [Table.name, hT]; rfl
    refine ⟨{ s with
        mocks := s.mocks.modify m fun k => { k with stubs := fun o => if o = off then some [] else k.stubs o }
        named := s.named ++ [(m, off)] }, by rw [hm, hh], rfl, rfl, ?_, ?_⟩
    · rw [hn]
      refine ⟨?_, ?_, ?_, hI.numbers, hI.made, ?_, ?_⟩
      · intro m' c' hc'
        obtain ⟨k', hk', h1', h2', h3', h4'⟩ := hI.mocks m' c' hc'
        by_cases hmm : m' = m
        · subst hmm
          refine ⟨{ k' with stubs := fun o => if o = off then some [] else k'.stubs o }, by simp [hk'], h1', h2', h3', fun o => ?_⟩
          by_cases ho : o = off
          · subst ho; rw [Table.upd_same]; simp
          · rw [Table.upd_ne _ _ (fun x => ho x.2)]
            simp only [if_neg ho]
            exact h4' o
        · refine ⟨k', by simp only [List.getElem?_modify, hk']; simp [Ne.symm hmm], h1', h2', h3', fun o => ?_⟩
          rw [Table.upd_ne _ _ (fun x => hmm x.1)]
          exact h4' o
      · intro m' k' hk'
        by_cases hne : m' = m ∧ k' = off
        · obtain ⟨rfl, rfl⟩ := hne; exact ⟨c, hc, hoff⟩
        · rw [Table.upd_ne _ _ hne] at hk'; exact hI.inside m' k' hk'
      · intro r hr
        obtain ⟨m', o', vs', a, b, d⟩ := hI.calls r hr
        refine ⟨m', o', vs', a, b, ?_⟩
        by_cases hne : m' = m ∧ o' = off
        · obtain ⟨rfl, rfl⟩ := hne; rw [Table.upd_same]; rfl
        · rw [Table.upd_ne _ _ hne]; exact d
      · intro m' o' l' hl'
        by_cases hne : m' = m ∧ o' = off
        · obtain ⟨rfl, rfl⟩ := hne
          rw [Table.upd_same] at hl'
          cases hl'
          simp
        · rw [Table.upd_ne _ _ hne] at hl'; exact hI.names m' o' l' hl'
      · intro m' o' l' c' hl' hc'
        by_cases hne : m' = m ∧ o' = off
        · obtain ⟨rfl, rfl⟩ := hne
          rw [Table.upd_same] at hl'
          cases hl'
          simp
        · rw [Table.upd_ne _ _ hne] at hl'; exact hI.good m' o' l' c' hl' hc'
    · rw [hn, ofName_view hI, hT]
      funext m' k'
      rw [Races.Spec.Mocks.upd, viewOf]
      by_cases hne : m' = m ∧ k' = off
      · obtain ⟨rfl, rfl⟩ := hne
        rw [Table.upd_same, if_pos ⟨rfl, rfl⟩]
        rfl
      · rw [Table.upd_ne _ _ hne, if_neg hne]
        rfl

theorem install_sim {T : Table V E} {s : AState V E} (hI : Inv P cs T s) {m off : Nat} {c : Nat × Bool} (hc : cs[m]? = some c)
    {l : List (Stub V E)} (hT : T m off = some l) (ctr : Nat) (kind : MatcherKind V) {acts : List (Act V E)} (ha : ∀ a ∈ acts, Good P c off a) :
    ∃ s1, install P s ⟨m, .meth off ctr, kind⟩ acts = some s1 ∧ s1.heap = s.heap ∧ Inv P cs (T.upd m off (l ++ [⟨nameOf s, kind, acts⟩])) s1 ∧
      viewOf P (T.upd m off (l ++ [⟨nameOf s, kind, acts⟩])) s1 =
        (viewOf P T s).upd m off ⟨l.map (stubbing P) ++ [⟨accepts kind, acts.map (actionOf P)⟩], (callsTo s m off).map (callRec s.heap)⟩ := by
  obtain ⟨k, hk, h1, h2, h3, h4⟩ := hI.mocks m c hc
  have hw : writable acts = true := by
    rw [writable, List.all_eq_true]
    intro a haa
    have := ha a haa
    cases a <;> simp_all [Good]
  refine ⟨{ s with
      mocks := s.mocks.modify m fun k => k.onStubs off fun l => ⟨nameOf s, kind, acts⟩ :: l
      installed := s.installed + 1 }, ?_, rfl, ?_, ?_⟩
  · simp only [install, hk, methodOf, h3, hw, h4, hT]
    rfl
  · have hnames : ∀ m' o' l', T m' o' = some l' → (l'.map Stub.name).Nodup ∧ ∀ x ∈ l', x.name < 2 * (s.installed + 1) := by
      intro m' o' l' h
      refine ⟨(hI.names m' o' l' h).1, fun x hx => ?_⟩
      have := (hI.names m' o' l' h).2 x hx
      rw [nameOf] at this
      omega
    refine ⟨?_, ?_, ?_, hI.numbers, hI.made, ?_, ?_⟩
    · intro m' c' hc'
      obtain ⟨k', hk', h1', h2', h3', h4'⟩ := hI.mocks m' c' hc'
      by_cases hmm : m' = m
      · subst hmm
        refine ⟨k'.onStubs off fun l => ⟨nameOf s, kind, acts⟩ :: l, by simp [hk'], h1', h2', h3', fun o => ?_⟩
        by_cases ho : o = off
        · subst ho
          rw [Table.upd_same]
          simp only [AMock.onStubs, if_true]
          rw [h4', hT]
          simp
        · rw [Table.upd_ne _ _ (fun x => ho x.2)]
          simp only [AMock.onStubs, if_neg ho]
          exact h4' o
      · refine ⟨k', by simp only [List.getElem?_modify, hk']; simp [Ne.symm hmm], h1', h2', h3', fun o => ?_⟩
        rw [Table.upd_ne _ _ (fun x => hmm x.1)]
        exact h4' o
    · intro m' k' hk'
      by_cases hne : m' = m ∧ k' = off
      · obtain ⟨rfl, rfl⟩ := hne; exact hI.inside m' k' (by rw [hT]; rfl)
      · rw [Table.upd_ne _ _ hne] at hk'; exact hI.inside m' k' hk'
    · intro r hr
      obtain ⟨m', o', vs', a, b, d⟩ := hI.calls r hr
      refine ⟨m', o', vs', a, b, ?_⟩
      by_cases hne : m' = m ∧ o' = off
      · obtain ⟨rfl, rfl⟩ := hne; rw [Table.upd_same]; rfl
      · rw [Table.upd_ne _ _ hne]; exact d
    · intro m' o' l' hl'
      by_cases hne : m' = m ∧ o' = off
      · obtain ⟨rfl, rfl⟩ := hne
        rw [Table.upd_same] at hl'
        cases hl'
        have hn := hI.names m' o' l hT
        refine ⟨?_, fun x hx => ?_⟩
        · rw [List.map_append, List.nodup_append]
          refine ⟨hn.1, by simp, fun a haa b hb => ?_⟩
          obtain ⟨x, hx, rfl⟩ := List.mem_map.1 haa
          obtain rfl : b = nameOf s := by simpa using hb
          exact Nat.ne_of_lt (hn.2 x hx)
        · rcases List.mem_append.1 hx with h | h
          · exact (hnames m' o' l hT).2 x h
          · obtain rfl := List.mem_singleton.1 h
            show 2 * s.installed < 2 * (s.installed + 1)
            omega
      · rw [Table.upd_ne _ _ hne] at hl'; exact hnames m' o' l' hl'
    · intro m' o' l' c' hl' hc'
      by_cases hne : m' = m ∧ o' = off
      · obtain ⟨rfl, rfl⟩ := hne
        rw [Table.upd_same] at hl'
        cases hl'
        intro x hx
        rcases List.mem_append.1 hx with h | h
        · exact hI.good m' o' l c' hT hc' x h
        · obtain rfl := List.mem_singleton.1 h
          rw [hc] at hc'
          cases hc'
          exact ha
      · rw [Table.upd_ne _ _ hne] at hl'; exact hI.good m' o' l' c' hl' hc'
  · funext m' k'
    rw [Races.Spec.Mocks.upd, viewOf]
    by_cases hne : m' = m ∧ k' = off
    · obtain ⟨rfl, rfl⟩ := hne
      rw [Table.upd_same, if_pos ⟨rfl, rfl⟩]
      simp [stubbing]
      rfl
    · rw [Table.upd_ne _ _ hne, if_neg hne]
      rfl

/-- Naming a method and adding a stubbing. -/
theorem stub_sim (ht : Tame P cs) {T : Table V E} {s : AState V E} (hI : Inv P cs T s) {m off : Nat} {c : Nat × Bool} (hc : cs[m]? = some c)
    (hoff : off < (P.cls c.1).size) (ctr : Nat) (kind : MatcherKind V) {acts : List (Act V E)} (ha : ∀ a ∈ acts, Good P c off a) :
    ∃ s1 s2 T', mention P s m (.meth off ctr) = some (some s1) ∧ install P s1 ⟨m, .meth off ctr, kind⟩ acts = some s2 ∧ s2.heap = s.heap ∧ Inv P cs T' s2 ∧
      viewOf P T' s2 = (Races.Spec.answer (origOf cs) (sizeOf P cs) (viewOf P T s) (.stub m off ctr (accepts kind) (acts.map (actionOf P)))).2 ∧
      givenBy T' = (givenBy T).add m off acts := by
  obtain ⟨s1, h1, h2, h2', h3, h4⟩ := hook_sim ht hI hc hoff ctr
  obtain ⟨s2, h5, h6, h7, h8⟩ := install_sim h3 hc (Table.upd_same T m off _) ctr kind ha
  refine ⟨s1, s2, _, h1, h5, h6.trans h2, h7, ?_, ?_⟩
  · rw [h8, h4]
    have hcalls : callsTo s1 m off = callsTo s m off := by rw [callsTo, callsTo, h2']
    simp only [Races.Spec.answer, ofName_view hI, hcalls, h2]
    funext m' k'
    simp only [Races.Spec.Mocks.upd]
    by_cases hne : m' = m ∧ k' = off
    · rw [if_pos hne, if_pos hne]
    · rw [if_neg hne, if_neg hne, if_neg hne]
  · funext m' k'
    simp only [givenBy, Given.add]
    by_cases hne : m' = m ∧ k' = off
    · obtain ⟨rfl, rfl⟩ := hne
      rw [Table.upd_same, if_pos ⟨rfl, rfl⟩]
      simp
    · rw [Table.upd_ne _ _ hne, if_neg hne, Table.name, Table.upd_ne _ _ hne]

theorem when_sim (ht : Tame P cs) {T : Table V E} {s : AState V E} (hI : Inv P cs T s) {m off : Nat} {c : Nat × Bool} (hc : cs[m]? = some c)
    (hoff : off < (P.cls c.1).size) (ctr : Nat) (kind : MatcherKind V) {acts : List (Act V E)} (ha : Scripted acts) :
    Simulates P cs T s (.when_ m off ctr kind acts) := by
  obtain ⟨s1, s2, T', h1, h2, h3, h4, h5, h6⟩ := stub_sim ht hI hc hoff ctr kind (acts := acts) (fun a haa => by
    rcases ha a haa with ⟨n, f, rfl, hn⟩ | ⟨f, rfl⟩
    · exact hn
    · trivial)
  refine ⟨T', s2, .api (.matcher (nameOf s1)), .done, ?_, h3, h4, by rw [h5]; rfl, .inr ⟨_, rfl⟩, h6⟩
  simp [Step.test, aStep, aApi, aStubOne, h1, h2]

theorem fake_sim (ht : Tame P cs) {T : Table V E} {s : AState V E} (hI : Inv P cs T s) {m off : Nat} {c : Nat × Bool} (hc : cs[m]? = some c)
    (hoff : off < (P.cls c.1).size) (ctr : Nat) (kind : MatcherKind V) (ha : (P.cls c.1).dflt off ≠ .nullRef) : Simulates P cs T s (.fake m off ctr kind) := by
  obtain ⟨s1, s2, T', h1, h2, h3, h4, h5, h6⟩ := stub_sim ht hI hc hoff ctr kind (acts := [.dflt]) (fun a haa => by
    obtain rfl := List.mem_singleton.1 haa; exact ha)
  refine ⟨T', s2, .api .unit, .done, ?_, h3, h4, by rw [h5]; rfl, .inl rfl, h6⟩
  simp [Step.test, aStep, aApi, aStubMany, mentionAll, installAll, h1, h2]

theorem spy_sim (ht : Tame P cs) {T : Table V E} {s : AState V E} (hI : Inv P cs T s) {m off : Nat} {c : Nat × Bool} (hc : cs[m]? = some c)
    (hoff : off < (P.cls c.1).size) (ctr : Nat) (kind : MatcherKind V) (ha : c.2 = true) : Simulates P cs T s (.spy m off ctr kind) := by
  obtain ⟨s1, s2, T', h1, h2, h3, h4, h5, h6⟩ := stub_sim ht hI hc hoff ctr kind (acts := [.deleg false]) (fun a haa => by
    obtain rfl := List.mem_singleton.1 haa; exact ⟨rfl, ha⟩)
  refine ⟨T', s2, .api .unit, .done, ?_, h3, h4, by rw [h5]; rfl, .inl rfl, h6⟩
  simp [Step.test, aStep, aApi, aStubMany, mentionAll, installAll, h1, h2]

/-! ## Verification -/

theorem findAll_one {L I : Type} (mt : L → I → Bool) (l : L) : ∀ (cs : List I) (fuel : Nat), cs.length < fuel →
    findAll mt [[l]] fuel cs = (cs.countP (mt l), cs.filter (mt l)) := by
  have hp : ∀ cs : List I, findPattern mt [[l]] cs = match findBlock mt [l] cs with | none => ([], none) | some (t, cs') => (t, some cs') := by
    intro cs
    rw [findPattern]
    cases findBlock mt [l] cs with
    | none => rfl
    | some x => simp [findPattern]
  intro cs
  induction cs with
  | nil =>
    intro fuel hf
    cases fuel with
    | zero => omega
    | succ fuel => simp [findAll, hp, findBlock, takeBlock]
  | cons c cs ih =>
    intro fuel hf
    cases fuel with
    | zero => omega
    | succ fuel =>
      have hf' : cs.length < fuel := by simpa using hf
      by_cases hm : mt l c = true
      · have hb : findBlock mt [l] (c :: cs) = some ([c], cs) := by simp [findBlock, takeBlock, hm]
        rw [findAll, hp, hb]
        simp [ih fuel hf', hm]
      · have hb : findBlock mt [l] (c :: cs) = findBlock mt [l] cs := by simp [findBlock, takeBlock, hm]
        have h1 := ih (fuel + 1) (by omega)
        rw [findAll, hp] at h1
        rw [findAll, hp, hb, List.countP_cons_of_neg hm, List.filter_cons_of_neg hm]
        exact h1

theorem number_inj {calls : List (Rec V)} (hn : (calls.map Rec.number).Nodup) {r r' : Rec V} (hr : r ∈ calls) (hr' : r' ∈ calls) (h : r.number = r'.number) :
    r = r' := by
  obtain ⟨i, hi⟩ := List.mem_iff_getElem?.1 hr
  obtain ⟨j, hj⟩ := List.mem_iff_getElem?.1 hr'
  obtain ⟨h1, h1'⟩ := List.getElem?_eq_some_iff.1 hi
  obtain ⟨h2, h2'⟩ := List.getElem?_eq_some_iff.1 hj
  have : i = j := (List.getElem_inj (h₀ := by simpa using h1) (h₁ := by simpa using h2) hn).1 (by simp [h1', h2', h])
  subst this
  rw [hi] at hj
  exact Option.some.inj hj

theorem Inv.marked {T : Table V E} {s : AState V E} (hI : Inv P cs T s) (f : Rec V → Bool) :
    Inv P cs T { s with calls := s.calls.map fun r => { r with verified := f r } } := by
  have hmap : (s.calls.map fun r => { r with verified := f r }).map Rec.number = s.calls.map Rec.number := by
    rw [List.map_map]; rfl
  refine ⟨hI.mocks, hI.inside, ?_, by simp only [hmap]; exact hI.numbers, ?_, hI.names, hI.good⟩
  · intro r hr
    obtain ⟨r', hr', rfl⟩ := List.mem_map.1 hr
    exact hI.calls r' hr'
  · intro r hr
    obtain ⟨r', hr', rfl⟩ := List.mem_map.1 hr
    exact hI.made r' hr'

theorem ofMock_callsTo {s : AState V E} {m off : Nat} (p : Rec V → Bool) :
    (s.calls.filter (ofMock m)).filter (fun r => r.meth == some (m, off) && p r) = (callsTo s m off).filter p := by
  rw [callsTo, List.filter_filter, List.filter_filter]
  apply List.filter_congr
  intro r _
  cases hm : r.meth with
  | none => simp
  | some x =>
    by_cases hx : x = (m, off)
    · subst hx; simp [ofMock, hm]
    · have : (x == (m, off)) = false := beq_eq_false_iff_ne.2 hx
      simp [this]

theorem verify_sim (ht : Tame P cs) {T : Table V E} {s : AState V E} (hI : Inv P cs T s) {m off : Nat} {c : Nat × Bool} (hc : cs[m]? = some c)
    (hoff : off < (P.cls c.1).size) (ctr : Nat) (kind : MatcherKind V) {q : Quant} (hq : expects q ≠ none) :
    Simulates P cs T s (.verify m off ctr kind q) := by
  obtain ⟨s1, h1, h2, h3, h4, h5⟩ := hook_sim ht hI hc hoff ctr
  obtain ⟨ex, hex⟩ := Option.ne_none_iff_exists'.1 hq
  obtain ⟨k, hk, k1, k2, k3, k4⟩ := h4.mocks m c hc
  let leaf : Leaf V := ⟨m, .meth off ctr, kind, none⟩
  have hden : ∀ r : Rec V, denotes P s1 leaf r = (r.meth == some (m, off) && accepts kind (valuesOf s.heap r.args)) := by
    intro r
    simp [denotes, leaf, hk, methodOf, h2]
  have hseq : s1.calls.filter (inScope P s1 [.leaf leaf] .involved) = s.calls.filter (ofMock m) := by
    rw [h3]
    apply List.filter_congr
    intro r _
    simp [inScope, mocksIn, patternOf, Seq.expected, leaf]
  have hfil : (s.calls.filter (ofMock m)).filter (denotes P s1 leaf) = (callsTo s m off).filter fun r => accepts kind (valuesOf s.heap r.args) := by
    rw [← ofMock_callsTo]
    exact List.filter_congr fun r _ => hden r
  have hcount : (s.calls.filter (ofMock m)).countP (denotes P s1 leaf) = ((callsTo s m off).map (callRec s.heap)).countP fun c => accepts kind c.args := by
    rw [List.countP_eq_length_filter, hfil, ← List.countP_eq_length_filter, List.countP_map]
    rfl
  have hall : findAll (denotes P s1) (patternOf [.leaf leaf]) ((s.calls.filter (ofMock m)).length + 1) (s.calls.filter (ofMock m)) =
      (((callsTo s m off).map (callRec s.heap)).countP (fun c => accepts kind c.args), (callsTo s m off).filter fun r => accepts kind (valuesOf s.heap r.args)) := by
    have : patternOf [.leaf leaf] = [[leaf]] := rfl
    rw [this, findAll_one _ _ _ _ (Nat.lt_succ_self _), hcount, hfil]
  have hlive : live s1 (looksAt [.leaf leaf] .involved) = true := by
    simp [live, looksAt, mocksIn, patternOf, Seq.expected, leaf, hk, k3]
  have hstep : aStep P s (Step.verify (E := E) m off ctr kind q).test =
      if fulfils ex (((callsTo s m off).map (callRec s.heap)).countP fun c => accepts kind c.args) then
        some (.api (.verdict true), { s1 with calls := s1.calls.map (marked (((callsTo s m off).filter fun r => accepts kind (valuesOf s.heap r.args)).map Rec.number)) })
      else some (.api (.verdict false), { s1 with log := s1.log ++ [Report.mismatch ex.1 ex.2 (((callsTo s m off).map (callRec s.heap)).countP fun c => accepts kind c.args) (s.calls.filter (ofMock m))] }) := by
    have hmen : mentionAll P s ((mentionedBy .involved [.leaf leaf]).map fun l => (l.m, l.slot)) = some (s1, true) := by
      simp [mentionedBy, patternOf, Seq.expected, leaf, mentionAll, h1]
    simp only [Step.test, aStep, aApi, aVerify]
    show Option.map _ ((mentionAll P s ((mentionedBy .involved [.leaf leaf]).map fun l => (l.m, l.slot))).bind _) = _
    rw [hmen]
    simp only [Option.bind_some]
    show Option.map _ (if live s1 (looksAt [.leaf leaf] .involved) = true then _ else none) = _
    rw [hlive]
    simp only [if_true, hex]
    show Option.map _ (if fulfils ex (findAll (denotes P s1) (patternOf [.leaf leaf]) ((s1.calls.filter (inScope P s1 [.leaf leaf] .involved)).length + 1)
      (s1.calls.filter (inScope P s1 [.leaf leaf] .involved))).1 = true then _ else _) = _
    simp only [hseq, hall]
    by_cases hfu : fulfils ex (((callsTo s m off).map (callRec s.heap)).countP fun c => accepts kind c.args) = true
    · rw [if_pos hfu, if_pos hfu]
      show some (OpOut.api (.verdict true), { s1 with calls := s1.calls.map (marked ((findAll (denotes P s1) (patternOf [.leaf leaf]) ((s1.calls.filter (inScope P s1 [.leaf leaf] .involved)).length + 1)
        (s1.calls.filter (inScope P s1 [.leaf leaf] .involved))).2.map Rec.number)) }) = _
      rw [hseq, hall]
    · rw [if_neg hfu, if_neg hfu]
      show some (OpOut.api (.verdict false), { s1 with log := s1.log ++ [Report.mismatch ex.1 ex.2 (findAll (denotes P s1) (patternOf [.leaf leaf]) ((s1.calls.filter (inScope P s1 [.leaf leaf] .involved)).length + 1)
        (s1.calls.filter (inScope P s1 [.leaf leaf] .involved))).1 (s1.calls.filter (inScope P s1 [.leaf leaf] .involved))] }) = _
      rw [hseq, hall]
  have hans : ∀ X : Races.Spec.Mocks (List V), X = viewOf P T s → Races.Spec.answer (origOf cs) (sizeOf P cs) X ((Step.verify (E := E) m off ctr kind q).op P) =
      if fulfils ex (((callsTo s m off).map (callRec s.heap)).countP fun c => accepts kind c.args) then
        (.held, X.upd m off ⟨((T m off).getD []).map (stubbing P), ((callsTo s m off).map (callRec s.heap)).map fun c => ⟨c.args, c.verified || accepts kind c.args⟩⟩)
      else (.failed, X.upd m off (Races.Spec.ofName X m off)) := by
    rintro X rfl
    simp only [Step.op, Races.Spec.answer, ofName_view hI, asExpected, hex]
  by_cases hfu : fulfils ex (((callsTo s m off).map (callRec s.heap)).countP fun c => accepts kind c.args) = true
  · rw [if_pos hfu] at hstep
    have hmark : s1.calls.map (marked (((callsTo s m off).filter fun r => accepts kind (valuesOf s.heap r.args)).map Rec.number)) =
        s1.calls.map fun r => { r with verified := r.verified || (r.meth == some (m, off) && accepts kind (valuesOf s.heap r.args)) } := by
      rw [h3]
      apply List.map_congr_left
      intro r hr
      rw [marked]
      by_cases hd : (r.meth == some (m, off) && accepts kind (valuesOf s.heap r.args)) = true
      · have hmem : r ∈ (callsTo s m off).filter fun r => accepts kind (valuesOf s.heap r.args) := by
          rw [Bool.and_eq_true] at hd
          exact List.mem_filter.2 ⟨List.mem_filter.2 ⟨hr, hd.1⟩, hd.2⟩
        have : (((callsTo s m off).filter fun r => accepts kind (valuesOf s.heap r.args)).map Rec.number).contains r.number = true :=
          List.contains_iff_mem.2 (List.mem_map.2 ⟨r, hmem, rfl⟩)
        rw [if_pos this, hd, Bool.or_true]
      · have : ¬ (((callsTo s m off).filter fun r => accepts kind (valuesOf s.heap r.args)).map Rec.number).contains r.number = true := by
          intro hcon
          obtain ⟨r', hr', hnum⟩ := List.mem_map.1 (List.contains_iff_mem.1 hcon)
          obtain ⟨hr1, hr2⟩ := List.mem_filter.1 hr'
          obtain ⟨hr3, hr4⟩ := List.mem_filter.1 hr1
          obtain rfl := number_inj hI.numbers hr3 hr hnum
          exact hd (by rw [Bool.and_eq_true]; exact ⟨hr4, hr2⟩)
        rw [if_neg this, Bool.eq_false_iff.2 hd, Bool.or_false]
    refine ⟨T.name m off, _, .api (.verdict true), .held, hstep, h2, by rw [hmark]; exact h4.marked _, ?_, rfl, given_name T m off⟩
    rw [hans _ rfl, if_pos hfu, hmark]
    refine congrArg (Prod.mk _) ?_
    funext m' k'
    have h5' := congrFun (congrFun h5 m') k'
    rw [ofName_view hI] at h5'
    simp only [Races.Spec.Mocks.upd] at h5' ⊢
    by_cases hne : m' = m ∧ k' = off
    · obtain ⟨rfl, rfl⟩ := hne
      rw [if_pos ⟨rfl, rfl⟩, viewOf, Table.name, Table.upd_same]
      simp only [Option.map_some, callsTo, h3, h2, List.filter_map, List.map_map]
      congr 2
      have hfc : (fun r : Rec V => r.meth == some (m', k')) ∘ (fun r : Rec V => ({ r with verified := r.verified || (r.meth == some (m', k') && accepts kind (valuesOf s.heap r.args)) } : Rec V)) =
          fun r => r.meth == some (m', k') := rfl
      rw [hfc]
      apply List.map_congr_left
      intro r hr
      have := (List.mem_filter.1 hr).2
      simp [callRec, this]
    · rw [if_neg hne] at h5' ⊢
      rw [← h5', viewOf, viewOf]
      congr 1
      funext l
      congr 1
      simp only [callsTo, h3, List.filter_map, List.map_map]
      have hfc : (fun r : Rec V => r.meth == some (m', k')) ∘ (fun r : Rec V => ({ r with verified := r.verified || (r.meth == some (m, off) && accepts kind (valuesOf s.heap r.args)) } : Rec V)) =
          fun r => r.meth == some (m', k') := rfl
      rw [hfc]
      apply List.map_congr_left
      intro r hr
      have hme := beq_iff_eq.1 (List.mem_filter.1 hr).2
      have hf : (some (m', k') == some (m, off)) = false := by
        simp only [beq_eq_false_iff_ne, ne_eq, Option.some.injEq, Prod.mk.injEq]
        exact hne
      simp [callRec, hme, hf]
  · rw [if_neg hfu] at hstep
    refine ⟨T.name m off, _, .api (.verdict false), .failed, hstep, h2, h4.same (Nat.le_refl _) _, ?_, rfl, given_name T m off⟩
    rw [hans _ rfl, if_neg hfu, ← h5]
    rfl

end FakeIt.OneThread
