import Verif.Spec.Verifying
import Verif.Lemmas.MatchAnalysis
/-!
# Lemmas for C79
-/
namespace FakeIt.Verifying
open FakeIt.Verifying.Spec

variable {V : Type}

/-- The code ends in a state with `I`, with a value with `Q`, or with an exception with `T`. -/
def Runs {α : Type} (I : St V → Prop) (T : Nat → Prop) (x : M V α) (s : St V) (Q : α → Prop) : Prop :=
  ∃ s', I s' ∧ ((∃ a, Q a ∧ x s = .done (s', .val a)) ∨ ∃ e, T e ∧ x s = .done (s', .threw e))

theorem Runs.pure {α : Type} {I : St V → Prop} {T : Nat → Prop} {Q : α → Prop} {s : St V} {a : α} (hi : I s) (hq : Q a) : Runs I T (pure a) s Q :=
  ⟨s, hi, .inl ⟨a, hq, rfl⟩⟩

theorem Runs.bind {α β : Type} {I J : St V → Prop} {T : Nat → Prop} {Q : α → Prop} {Q' : β → Prop} {x : M V α} {f : α → M V β} {s : St V}
    (h : Runs I T x s Q) (hIJ : ∀ s', I s' → J s') (hf : ∀ a s', Q a → I s' → Runs J T (f a) s' Q') : Runs J T (x >>= f) s Q' := by
  obtain ⟨s', hi, ⟨a, ha, hx⟩ | ⟨e, he, hx⟩⟩ := h
  · obtain ⟨s2, hj, h2⟩ := hf a s' ha hi
    refine ⟨s2, hj, ?_⟩
    have : (x >>= f) s = f a s' := by
      show M.bind x f s = _
      simp only [M.bind, hx]
    rw [this]
    exact h2
  · refine ⟨s', hIJ s' hi, .inr ⟨e, he, ?_⟩⟩
    show M.bind x f s = _
    simp only [M.bind, hx]

theorem Runs.weaken {α : Type} {I J : St V → Prop} {T T' : Nat → Prop} {Q Q' : α → Prop} {x : M V α} {s : St V} (h : Runs I T x s Q)
    (hi : ∀ s', I s' → J s') (ht : ∀ e, T e → T' e) (hq : ∀ a, Q a → Q' a) : Runs J T' x s Q' := by
  obtain ⟨s', h1, ⟨a, ha, hx⟩ | ⟨e, he, hx⟩⟩ := h
  · exact ⟨s', hi s' h1, .inl ⟨a, hq a ha, hx⟩⟩
  · exact ⟨s', hi s' h1, .inr ⟨e, ht e he, hx⟩⟩

/-! ## The relation of states -/

/-- What holds during a verification that began in `s0`, leaving aside the questions. -/
structure Base (s0 : St V) (p : Nat → Prop) (s : St V) : Prop where
  after : After s0 s p
  len : s0.heap.length ≤ s.heap.length

/-- The invariant of a verification that began in `s0`. -/
structure Good (P : Nat → Code V) (ls : List Leaf) (s0 : St V) (p : Nat → Prop) (s : St V) : Prop extends Base s0 p s where
  asks : Asks P s0 s ls

theorem Base.start (s : St V) : Base s (fun _ => False) s := by
  refine ⟨⟨fun a r h => ⟨r.verified, h, by simp⟩, fun a r h h' => ?_, fun m b h => ⟨b, [], h, by simp, by simp⟩, rfl⟩, Nat.le_refl _⟩
  have := (List.getElem?_eq_some_iff.1 h').1
  omega

theorem Base.fetch {s0 s : St V} {p : Nat → Prop} (h : Base s0 p s) {a : Nat} {r : Rec V} (h0 : s0.heap[a]? = some r) (hl : r.live = true) :
    ∃ b, s.fetch a = .done { r with verified := b } ∧ (b = true ↔ r.verified = true ∨ p a) := by
  obtain ⟨b, h1, h2⟩ := h.after.old a r h0
  exact ⟨b, by simp [St.fetch, h1, hl], h2⟩

theorem Base.call {s0 s : St V} {p : Nat → Prop} (h : Base s0 p s) {m : Nat} (hm : m < s0.bodies.length) (v : V) :
    ∃ s', s.call m v = .done s' ∧ Base s0 p s' ∧ s'.asks = s.asks ∧ calls s' = calls s ++ [(m, v)] := by
  have hm' : m < s.bodies.length := by rw [h.after.methods]; exact hm
  refine ⟨{ s with heap := s.heap ++ [⟨m, v, false, true⟩], bodies := s.bodies.set m ⟨s.bodies[m].items ++ [s.heap.length], s.bodies[m].ver + 1⟩ },
    by simp only [St.call, List.getElem?_eq_getElem hm'], ⟨⟨fun a r h0 => ?_, fun a r h0 h1 => ?_, fun m' b hb => ?_, by simp [h.after.methods]⟩, by simp; have := h.len; omega⟩, rfl, by simp [calls]⟩
  · obtain ⟨b, h1, h2⟩ := h.after.old a r h0
    exact ⟨b, by rw [List.getElem?_append_left (List.getElem?_eq_some_iff.1 h1).1]; exact h1, h2⟩
  · simp only at h1
    by_cases ha : a < s.heap.length
    · rw [List.getElem?_append_left ha] at h1
      obtain ⟨h2, h3, b, h4, h5⟩ := h.after.new a r h0 h1
      refine ⟨h2, h3, ?_⟩
      by_cases e : m = r.meth
      · subst e
        refine ⟨_, List.getElem?_set_self hm', ?_⟩
        rw [List.getElem?_eq_getElem hm', Option.some.injEq] at h4
        rw [h4]
        exact List.mem_append_left _ h5
      · exact ⟨b, by simp only [List.getElem?_set_ne e]; exact h4, h5⟩
    · rw [List.getElem?_append_right (by omega)] at h1
      obtain ⟨hlt, hx⟩ := List.getElem?_eq_some_iff.1 h1
      simp only [List.length_singleton] at hlt
      have : a - s.heap.length = 0 := by omega
      simp only [this, List.getElem_cons_zero] at hx
      have ha' : a = s.heap.length := by omega
      rw [← hx]
      exact ⟨rfl, rfl, _, List.getElem?_set_self hm', by simp [ha']⟩
  · obtain ⟨b', more, h1, h2, h3⟩ := h.after.bodies m' b hb
    by_cases e : m = m'
    · subst e
      simp only [List.getElem?_set_self hm']
      have hb' : s.bodies[m] = b' := by
        rw [List.getElem?_eq_getElem hm', Option.some.injEq] at h1; exact h1
      refine ⟨_, more ++ [s.heap.length], rfl, by rw [hb', h2, List.append_assoc], fun a ha => ?_⟩
      rcases List.mem_append.1 ha with ha | ha
      · exact h3 a ha
      · have := h.len
        simp only [List.mem_singleton] at ha
        omega
    · simp only [List.getElem?_set_ne e]
      exact ⟨b', more, h1, h2, h3⟩

/-! ## Predicates -/

theorem exec_quiet {s0 : St V} {p : Nat → Prop} {a : Nat} {r : Rec V} (h0 : s0.heap[a]? = some r) (hl : r.live = true) (held : Option Nat) {c : Code V} (hc : Quiet s0.bodies.length c) :
    ∀ {s : St V}, Base s0 p s → ∃ s', Base s0 p s' ∧ s'.asks = s.asks ∧ calls s' = calls s ++ made c r.arg ∧ exec held a c s = .done (s', meaning c r.arg) := by
  induction hc with
  | answer b => intro s hg; exact ⟨s, hg, rfl, by simp [made], rfl⟩
  | throw e => intro s hg; exact ⟨s, hg, rfl, by simp [made], rfl⟩
  | look k _ ih =>
    intro s hg
    obtain ⟨b, hb, -⟩ := hg.fetch h0 hl
    obtain ⟨s', h1, h2, h3, h4⟩ := ih r.arg hg
    refine ⟨s', h1, h2, h3, ?_⟩
    simp only [exec, hb]
    exact h4
  | call m v k hm _ ih =>
    intro s hg
    obtain ⟨s1, h1, h2, ha, hc⟩ := hg.call hm v
    obtain ⟨s', h3, ha', hc', h4⟩ := ih h2
    refine ⟨s', h3, by rw [ha', ha], by rw [hc', hc]; simp [made], ?_⟩
    simp only [exec, h1]
    exact h4

theorem made_still {c : Code V} (hc : Still c) (v : V) : made c v = [] := by
  induction hc with
  | answer b => rfl
  | throw e => rfl
  | look k _ ih => exact ih v

theorem exec_still {held : Option Nat} {a : Nat} {s : St V} {r : Rec V} (hf : s.fetch a = .done r) {c : Code V} (hc : Still c) : exec held a c s = .done (s, meaning c r.arg) := by
  induction hc with
  | answer b => rfl
  | throw e => rfl
  | look k _ ih =>
    simp only [exec, hf]
    exact ih r.arg

/-- The test of the pure analysis. -/
def holds (P : Nat → Code V) (s : St V) (l : Leaf) (a : Nat) : Bool :=
  match s.heap[a]? with
  | some r => decide (r.meth = l.meth) && (match meaning (P l.pred) r.arg with | .val b => b | .threw _ => false)
  | none => false

theorem holds_iff {P : Nat → Code V} {s : St V} {l : Leaf} {a : Nat} : holds P s l a = true ↔ Denotes P s l a := by
  unfold holds Denotes
  cases h : s.heap[a]? with
  | none => simp
  | some r =>
    simp only [Bool.and_eq_true, decide_eq_true_eq, Option.some.injEq, exists_eq_left']
    constructor
    · rintro ⟨h1, h2⟩
      refine ⟨h1, ?_⟩
      split at h2
      · rename_i b hb; rw [hb, h2]
      · cases h2
    · rintro ⟨h1, h2⟩
      exact ⟨h1, by rw [h2]⟩

theorem ask_runs {P : Nat → Code V} {ls : List Leaf} {s0 s : St V} {p : Nat → Prop} (hw : Wf s0) {l : Leaf} (hl : l ∈ ls) (hq : Quiet s0.bodies.length (P l.pred)) {a : Nat} (ha : Recorded s0 a)
    (hg : Good P ls s0 p s) : Runs (Good P ls s0 p) (Throws P s0 ls) (ask P l a) s (· = holds P s0 l a) := by
  obtain ⟨m, b, hb, hab⟩ := id ha
  obtain ⟨r, hr, hlive, hm⟩ := hw.items m b hb a hab
  obtain ⟨vb, hf, -⟩ := hg.fetch hr hlive
  by_cases hmeth : r.meth = l.meth
  · have hb' : Base s0 p { s with asks := s.asks ++ [⟨l.pred, a⟩] } := ⟨⟨hg.after.old, hg.after.new, hg.after.bodies, hg.after.methods⟩, hg.len⟩
    obtain ⟨s', h1, ha1, hc1, h2⟩ := exec_quiet hr hlive none hq hb'
    have hg' : Good P ls s0 p s' := by
      obtain ⟨qs, h3, h4, h5⟩ := hg.asks
      refine ⟨h1, qs ++ [⟨l.pred, a⟩], by rw [ha1]; simp [h3], fun q hq => ?_, ?_⟩
      · rcases List.mem_append.1 hq with hq | hq
        · exact h4 q hq
        · rw [List.mem_singleton.1 hq]
          exact ⟨l, hl, rfl, r, ha, hr, hmeth⟩
      · have : calls { s with asks := s.asks ++ [⟨l.pred, a⟩] } = calls s := rfl
        rw [hc1, this, h5]
        simp [madeFor, hr]
    have hx : ask P l a s = .done (s', meaning (P l.pred) r.arg) := by
      show M.bind (record a) _ s = _
      simp only [M.bind, record, hf, hmeth, if_true]
      show M.bind (note ⟨l.pred, a⟩) _ s = _
      simp only [M.bind, note]
      exact h2
    refine ⟨s', hg', ?_⟩
    cases hmn : meaning (P l.pred) r.arg with
    | val b => exact .inl ⟨b, by simp [holds, hr, hmeth, hmn], by rw [hx, hmn]⟩
    | threw e => exact .inr ⟨e, ⟨l, hl, a, r, ha, hr, hmeth, hmn⟩, by rw [hx, hmn]⟩
  · refine ⟨s, hg, .inl ⟨false, by simp [holds, hr, hmeth], ?_⟩⟩
    show M.bind (record a) _ s = _
    simp only [M.bind, record, hf, hmeth, if_false]
    rfl

/-! ## The analysis -/

section Analysis
variable {P : Nat → Code V} {ls : List Leaf} {s0 : St V} {p : Nat → Prop} {actual : List Nat}

theorem isMatchFrom_runs (hw : Wf s0) (hact : ∀ a ∈ actual, Recorded s0 a) (start : Nat) : ∀ (es : List Leaf) (j : Nat) (s : St V) (r : Bool), (∀ l ∈ es, l ∈ ls ∧ Quiet s0.bodies.length (P l.pred)) →
    Good P ls s0 p s → MatchAnalysis.isMatchFrom (holds P s0) actual start j es = .done r → Runs (Good P ls s0 p) (Throws P s0 ls) (isMatchFrom P actual start j es) s (· = r) := by
  intro es
  induction es with
  | nil =>
    intro j s r _ hg h
    simp only [MatchAnalysis.isMatchFrom, R.done.injEq] at h
    exact Runs.pure hg h
  | cons e es ih =>
    intro j s r hes hg h
    simp only [MatchAnalysis.isMatchFrom, isMatchFrom] at h ⊢
    cases ha : actual[start + j]? with
    | none => simp [ha] at h
    | some a =>
      simp only [ha] at h ⊢
      have he := hes e (by simp)
      refine (ask_runs hw he.1 he.2 (hact a (List.mem_of_getElem? ha)) hg).bind (fun _ h => h) fun b s' hb hg' => ?_
      subst hb
      cases hh : holds P s0 e a with
      | true =>
        simp only [hh, if_true] at h ⊢
        exact ih (j + 1) s' r (fun l hl => hes l (by simp [hl])) hg' h
      | false =>
        simp only [hh, Bool.false_eq_true, if_false, R.done.injEq] at h ⊢
        exact Runs.pure hg' h

theorem search_runs (hw : Wf s0) (hact : ∀ a ∈ actual, Recorded s0 a) {es : List Leaf} (hes : ∀ l ∈ es, l ∈ ls ∧ Quiet s0.bodies.length (P l.pred)) : ∀ (n i : Nat) (s : St V) (r : Option Nat),
    Good P ls s0 p s → MatchAnalysis.scan (holds P s0) actual es n i = .done r → Runs (Good P ls s0 p) (Throws P s0 ls) (search P actual es n i) s (· = r) := by
  intro n
  induction n with
  | zero =>
    intro i s r hg h
    simp only [MatchAnalysis.scan, R.done.injEq] at h
    exact Runs.pure hg h
  | succ n ih =>
    intro i s r hg h
    simp only [MatchAnalysis.scan, R.bind_eq_done, MatchAnalysis.isMatch] at h
    obtain ⟨b, hb, h⟩ := h
    refine (isMatchFrom_runs hw hact i es 0 s b hes hg hb).bind (fun _ h => h) fun b' s' hb' hg' => ?_
    subst hb'
    cases b' with
    | true =>
      simp only [if_true, R.done.injEq] at h ⊢
      exact Runs.pure hg' h
    | false =>
      simp only [Bool.false_eq_true, if_false] at h ⊢
      exact ih (i + 1) s' r hg' h

theorem findNextP_runs (hw : Wf s0) (hact : ∀ a ∈ actual, Recorded s0 a) : ∀ (ps : List (Seq Leaf)) (start : Nat) (matched : List Nat) (s : St V) (r : Option Nat × List Nat),
    (∀ l ∈ leaves ps, l ∈ ls ∧ Quiet s0.bodies.length (P l.pred)) →
    Good P ls s0 p s → MatchAnalysis.findNextP (holds P s0) actual ps start matched = .done r → Runs (Good P ls s0 p) (Throws P s0 ls) (findNextP P actual ps start matched) s (· = r) := by
  intro ps
  induction ps with
  | nil =>
    intro start matched s r _ hg h
    simp only [MatchAnalysis.findNextP, R.done.injEq] at h
    exact Runs.pure hg h
  | cons q ps ih =>
    intro start matched s r hes hg h
    simp only [MatchAnalysis.findNextP, R.bind_eq_done] at h
    obtain ⟨o, ho, h⟩ := h
    have h1 := search_runs (p := p) hw hact (es := q.expected) (fun l hl => hes l (by simp [leaves, hl])) _ start s o hg ho
    refine h1.bind (fun _ h => h) fun o' s' ho' hg' => ?_
    subst ho'
    cases o' with
    | none =>
      simp only [R.done.injEq] at h ⊢
      exact Runs.pure hg' h
    | some i =>
      simp only [R.bind_eq_done] at h ⊢
      obtain ⟨c, hc, h⟩ := h
      have h2 : Runs (Good P ls s0 p) (Throws P s0 ls) (collectMatched actual i q.size) s' (· = c) := ⟨s', hg', .inl ⟨c, rfl, by simp [collectMatched, hc]⟩⟩
      refine h2.bind (fun _ h => h) fun c' s2 hc' hg2 => ?_
      subst hc'
      exact ih _ _ s2 r (fun l hl => hes l (by simp only [leaves, List.flatMap_cons, List.mem_append]; exact .inr hl)) hg2 h

theorem countLoop_runs (hw : Wf s0) (hact : ∀ a ∈ actual, Recorded s0 a) {ps : List (Seq Leaf)} (hes : ∀ l ∈ leaves ps, l ∈ ls ∧ Quiet s0.bodies.length (P l.pred)) :
    ∀ (fuel start count : Nat) (matched : List Nat) (s : St V) (r : Nat × List Nat),
    Good P ls s0 p s → MatchAnalysis.countLoop (holds P s0) actual ps fuel start count matched = .done r →
    Runs (Good P ls s0 p) (Throws P s0 ls) (countLoop P actual ps fuel start count matched) s (· = r) := by
  intro fuel
  induction fuel with
  | zero => intro start count matched s r _ h; simp [MatchAnalysis.countLoop] at h
  | succ fuel ih =>
    intro start count matched s r hg h
    simp only [MatchAnalysis.countLoop, R.bind_eq_done] at h
    obtain ⟨⟨o, m⟩, ho, h⟩ := h
    refine (findNextP_runs hw hact ps start matched s _ hes hg ho).bind (fun _ h => h) fun o' s' ho' hg' => ?_
    subst ho'
    cases o with
    | none =>
      simp only [R.done.injEq] at h ⊢
      exact Runs.pure hg' h
    | some e => exact ih e (count + 1) m s' r hg' h

end Analysis

/-! ## Collecting -/

theorem mem_insertAddr {set : List Nat} {a x : Nat} : x ∈ insertAddr set a ↔ x ∈ set ∨ x = a := by
  unfold insertAddr
  split
  · rename_i h
    constructor
    · exact .inl
    · rintro (h1 | rfl)
      · exact h1
      · simpa using h
  · simp

theorem mem_foldl_insertAddr {l : List Nat} : ∀ {set : List Nat} {x : Nat}, x ∈ l.foldl insertAddr set ↔ x ∈ set ∨ x ∈ l := by
  induction l with
  | nil => simp
  | cons a l ih =>
    intro set x
    rw [List.foldl_cons, ih, mem_insertAddr]
    simp [or_assoc]

/-- Nothing but questions happened. -/
structure Same (P : Nat → Code V) (ls : List Leaf) (s0 s : St V) : Prop where
  heap : s.heap = s0.heap
  bodies : s.bodies = s0.bodies
  asks : Asks P s0 s ls

theorem Same.good {ls : List Leaf} {s0 s : St V} (h : Same P ls s0 s) : Good P ls s0 (fun _ => False) s := by
  have hg := Base.start s0
  refine ⟨⟨⟨?_, ?_, ?_, ?_⟩, ?_⟩, h.asks⟩
  · rw [h.heap]; exact hg.after.old
  · rw [h.heap, h.bodies]; exact hg.after.new
  · rw [h.bodies]; exact hg.after.bodies
  · rw [h.bodies]
  · rw [h.heap]; exact Nat.le_refl _

theorem Same.fetch {ls : List Leaf} {s0 s : St V} (h : Same P ls s0 s) {a : Nat} {r : Rec V} (h0 : s0.heap[a]? = some r) (hl : r.live = true) : s.fetch a = .done r := by
  simp [St.fetch, h.heap, h0, hl]

theorem scan_runs {P : Nat → Code V} {ls : List Leaf} {s0 : St V} (hw : Wf s0) {l : Leaf} (hl : l ∈ ls) (hst : Still (P l.pred)) {v : Vec} (hv : s0.bodies[l.meth]? = some v) :
    ∀ (items into : List Nat) (s : St V), (∀ a ∈ items, a ∈ v.items) → Same P ls s0 s →
      Runs (Same P ls s0) (Throws P s0 ls) (scan P l v.ver items into) s (fun out => ∀ a, a ∈ out ↔ a ∈ into ∨ a ∈ items ∧ Denotes P s0 l a) := by
  intro items
  induction items with
  | nil => intro into s _ hs; exact Runs.pure hs (by simp)
  | cons a rest ih =>
    intro into s hit hs
    obtain ⟨r, hr, hlive, hm⟩ := hw.items l.meth v hv a (hit a (by simp))
    have hrec : Recorded s0 a := ⟨l.meth, v, hv, hit a (by simp)⟩
    have hs' : Same P ls s0 { s with asks := s.asks ++ [⟨l.pred, a⟩] } := by
      refine ⟨hs.heap, hs.bodies, ?_⟩
      obtain ⟨qs, h1, h2, h3⟩ := hs.asks
      refine ⟨qs ++ [⟨l.pred, a⟩], by simp [h1], fun q hq => ?_, ?_⟩
      · rcases List.mem_append.1 hq with hq | hq
        · exact h2 q hq
        · rw [List.mem_singleton.1 hq]
          exact ⟨l, hl, rfl, r, hrec, hr, hm⟩
      · have : calls { s with asks := s.asks ++ [⟨l.pred, a⟩] } = calls s := rfl
        rw [this, h3]
        simp [madeFor, hr, made_still hst]
    have hx := exec_still (held := some a) (hs'.fetch hr hlive) hst
    have h1 : Runs (Same P ls s0) (Throws P s0 ls) (note ⟨l.pred, a⟩) s (fun _ => True) := ⟨_, hs', .inl ⟨(), trivial, rfl⟩⟩
    have key : scan P l v.ver (a :: rest) into s = (do let b ← exec (some a) a (P l.pred); unmodified l.meth v.ver; scan P l v.ver rest (if b then insertAddr into a else into) : M V (List Nat))
        { s with asks := s.asks ++ [⟨l.pred, a⟩] } := rfl
    unfold Runs
    rw [key]
    have h2 : Runs (Same P ls s0) (Throws P s0 ls) (exec (some a) a (P l.pred)) { s with asks := s.asks ++ [⟨l.pred, a⟩] } (fun b => b = true ↔ Denotes P s0 l a) := by
      refine ⟨_, hs', ?_⟩
      cases hmn : meaning (P l.pred) r.arg with
      | val b =>
        refine .inl ⟨b, ?_, by rw [hx, hmn]⟩
        constructor
        · intro hb; subst hb; exact ⟨r, hr, hm, hmn⟩
        · rintro ⟨r', hr', -, h⟩
          rw [hr, Option.some.injEq] at hr'
          subst hr'
          rw [hmn] at h
          simpa using h
      | threw e => exact .inr ⟨e, ⟨l, hl, a, r, hrec, hr, hm, hmn⟩, by rw [hx, hmn]⟩
    refine h2.bind (fun _ h => h) fun b s1 hb hs1 => ?_
    have h3 : Runs (Same P ls s0) (Throws P s0 ls) (unmodified l.meth v.ver) s1 (fun _ => True) := ⟨s1, hs1, .inl ⟨(), trivial, by simp [unmodified, hs1.bodies, hv]⟩⟩
    refine h3.bind (fun _ h => h) fun _ s2 _ hs2 => ?_
    refine (ih _ s2 (fun x hx => hit x (by simp [hx])) hs2).weaken (fun _ h => h) (fun _ h => h) fun out ho x => ?_
    rw [ho]
    cases b with
    | true =>
      have hd : Denotes P s0 l a := hb.1 rfl
      simp only [if_true, mem_insertAddr, List.mem_cons]
      constructor
      · rintro ((h | rfl) | h)
        · exact .inl h
        · exact .inr ⟨.inl rfl, hd⟩
        · exact .inr ⟨.inr h.1, h.2⟩
      · rintro (h | ⟨rfl | h, h'⟩)
        · exact .inl (.inl h)
        · exact .inl (.inr rfl)
        · exact .inr ⟨h, h'⟩
    | false =>
      have hd : ¬ Denotes P s0 l a := fun h => by cases hb.2 h
      simp only [Bool.false_eq_true, if_false, List.mem_cons]
      constructor
      · rintro (h | h)
        · exact .inl h
        · exact .inr ⟨.inr h.1, h.2⟩
      · rintro (h | ⟨rfl | h, h'⟩)
        · exact .inl h
        · exact absurd h' hd
        · exact .inr ⟨h, h'⟩

theorem selectUnverified_eq {ls : List Leaf} {s0 s : St V} (hs : Same P ls s0 s) : ∀ (l : List Nat), (∀ a ∈ l, ∃ r, s0.heap[a]? = some r ∧ r.live = true) →
    ∃ out, selectUnverified l s = .done (s, .val out) ∧ ∀ a, a ∈ out ↔ a ∈ l ∧ ∃ r, s0.heap[a]? = some r ∧ r.verified = false := by
  intro l
  induction l with
  | nil => intro _; exact ⟨[], rfl, by simp⟩
  | cons a l ih =>
    intro h
    obtain ⟨out, h1, h2⟩ := ih fun x hx => h x (by simp [hx])
    obtain ⟨r, hr, hl⟩ := h a (by simp)
    refine ⟨if r.verified then out else a :: out, ?_, fun x => ?_⟩
    · show M.bind (record a) _ s = _
      simp only [M.bind, record, hs.fetch hr hl]
      show M.bind (selectUnverified l) _ s = _
      simp only [M.bind, h1]
      rfl
    · cases hv : r.verified with
      | true =>
        simp only [if_true, h2, List.mem_cons]
        constructor
        · rintro ⟨h3, h4⟩; exact ⟨.inr h3, h4⟩
        · rintro ⟨rfl | h3, h4⟩
          · obtain ⟨r', h5, h6⟩ := h4
            rw [hr, Option.some.injEq] at h5
            subst h5
            rw [hv] at h6; cases h6
          · exact ⟨h3, h4⟩
      | false =>
        simp only [Bool.false_eq_true, if_false, List.mem_cons, h2]
        constructor
        · rintro (rfl | h3)
          · exact ⟨.inl rfl, r, hr, hv⟩
          · exact ⟨.inr h3.1, h3.2⟩
        · rintro ⟨rfl | h3, h4⟩
          · exact .inl rfl
          · exact .inr ⟨h3, h4⟩

theorem Spec.InSrc.recorded {P : Nat → Code V} {s : St V} : ∀ {src : Src} {a : Nat}, InSrc P s src a → Recorded s a
  | .mock, _, h => h
  | .method _, _, h => h.1
  | .unverified src, _, h => InSrc.recorded (src := src) h.1
  | .both s1 s2, _, h => h.elim (InSrc.recorded (src := s1)) (InSrc.recorded (src := s2))

theorem Spec.Wf.recorded {s : St V} (hw : Wf s) {a : Nat} (h : Recorded s a) : ∃ r, s.heap[a]? = some r ∧ r.live = true := by
  obtain ⟨m, b, hb, hab⟩ := h
  obtain ⟨r, h1, h2, -⟩ := hw.items m b hb a hab
  exact ⟨r, h1, h2⟩

theorem collect_runs {P : Nat → Code V} {ls : List Leaf} {s0 : St V} (hw : Wf s0) : ∀ (src : Src) (into : List Nat) (s : St V),
    (∀ l ∈ srcLeaves src, l ∈ ls ∧ Still (P l.pred) ∧ l.meth < s0.bodies.length) → Same P ls s0 s →
    Runs (Same P ls s0) (Throws P s0 ls) (collect P src into) s (fun out => ∀ a, a ∈ out ↔ a ∈ into ∨ InSrc P s0 src a) := by
  intro src
  induction src with
  | mock =>
    intro into s _ hs
    refine ⟨s, hs, .inl ⟨_, ?_, rfl⟩⟩
    intro a
    rw [mem_foldl_insertAddr, hs.bodies, List.mem_flatMap]
    refine or_congr Iff.rfl ?_
    constructor
    · rintro ⟨b, hb, ha⟩
      obtain ⟨m, hm⟩ := List.getElem?_of_mem hb
      exact ⟨m, b, hm, ha⟩
    · rintro ⟨m, b, hm, ha⟩
      exact ⟨b, List.mem_of_getElem? hm, ha⟩
  | method l =>
    intro into s hls hs
    obtain ⟨h1, h2, h3⟩ := hls l (by simp [srcLeaves])
    have hv : s0.bodies[l.meth]? = some s0.bodies[l.meth] := List.getElem?_eq_getElem h3
    have h4 : Runs (Same P ls s0) (Throws P s0 ls) (vec l.meth) s (· = s0.bodies[l.meth]) := ⟨s, hs, .inl ⟨_, rfl, by simp [vec, hs.bodies, hv]⟩⟩
    refine h4.bind (fun _ h => h) fun v s1 hv' hs1 => ?_
    subst hv'
    refine (scan_runs hw h1 h2 hv _ into s1 (fun _ h => h) hs1).weaken (fun _ h => h) (fun _ h => h) fun out ho a => ?_
    rw [ho]
    refine or_congr Iff.rfl ?_
    constructor
    · rintro ⟨ha, hd⟩; exact ⟨⟨_, _, hv, ha⟩, hd⟩
    · rintro ⟨⟨m, b, hm, ha⟩, hd⟩
      refine ⟨?_, hd⟩
      obtain ⟨r, hr, -, hrm⟩ := hw.items m b hm a ha
      obtain ⟨r', hr', hrm', -⟩ := hd
      rw [hr, Option.some.injEq] at hr'
      subst hr'
      have : m = l.meth := by rw [← hrm, hrm']
      subst this
      rw [hv, Option.some.injEq] at hm
      rw [hm]; exact ha
  | unverified src ih =>
    intro into s hls hs
    refine (ih [] s hls hs).bind (fun _ h => h) fun all s1 hall hs1 => ?_
    obtain ⟨out, h1, h2⟩ := selectUnverified_eq hs1 all fun a ha => hw.recorded (by
      have := (hall a).1 ha
      simp only [List.not_mem_nil, false_or] at this
      exact this.recorded)
    have h3 : Runs (Same P ls s0) (Throws P s0 ls) (selectUnverified all) s1 (· = out) := ⟨s1, hs1, .inl ⟨out, rfl, h1⟩⟩
    refine h3.bind (fun _ h => h) fun out' s2 ho hs2 => ?_
    subst ho
    refine Runs.pure hs2 fun a => ?_
    rw [mem_foldl_insertAddr, h2, hall]
    simp [InSrc]
  | both s1 s2 ih1 ih2 =>
    intro into s hls hs
    refine (ih1 into s (fun l hl => hls l (by simp [srcLeaves, hl])) hs).bind (fun _ h => h) fun mid s' hmid hs' => ?_
    refine (ih2 mid s' (fun l hl => hls l (by simp [srcLeaves, hl])) hs').weaken (fun _ h => h) (fun _ h => h) fun out ho a => ?_
    rw [ho, hmid]
    simp [InSrc, or_assoc]

/-! ## Sorting -/

theorem mem_insertSorted {a x : Nat} : ∀ {l : List Nat}, x ∈ insertSorted a l ↔ x = a ∨ x ∈ l
  | [] => by simp [insertSorted]
  | b :: bs => by
    unfold insertSorted
    split
    · simp
    · split
      · simp only [List.mem_cons, mem_insertSorted (l := bs)]
        constructor
        · rintro (h | h | h)
          · exact .inr (.inl h)
          · exact .inl h
          · exact .inr (.inr h)
        · rintro (h | h | h)
          · exact .inr (.inl h)
          · exact .inl h
          · exact .inr (.inr h)
      · have : a = b := by omega
        subst this
        simp

theorem insertSorted_sorted {a : Nat} : ∀ {l : List Nat}, l.Pairwise (· < ·) → (insertSorted a l).Pairwise (· < ·)
  | [], _ => by simp [insertSorted]
  | b :: bs, h => by
    rw [List.pairwise_cons] at h
    unfold insertSorted
    split
    · rename_i hab
      rw [List.pairwise_cons, List.pairwise_cons]
      refine ⟨fun x hx => ?_, h⟩
      rcases List.mem_cons.1 hx with rfl | hx
      · exact hab
      · have := h.1 x hx; omega
    · split
      · rename_i hab
        rw [List.pairwise_cons]
        refine ⟨fun x hx => ?_, insertSorted_sorted h.2⟩
        rcases mem_insertSorted.1 hx with rfl | hx
        · exact hab
        · exact h.1 x hx
      · rw [List.pairwise_cons]; exact h

theorem sort_aux : ∀ (set acc : List Nat), acc.Pairwise (· < ·) →
    (set.foldl (fun acc a => insertSorted a acc) acc).Pairwise (· < ·) ∧ ∀ a, a ∈ set.foldl (fun acc a => insertSorted a acc) acc ↔ a ∈ acc ∨ a ∈ set
  | [], acc, h => ⟨h, by simp⟩
  | x :: set, acc, h => by
    obtain ⟨h1, h2⟩ := sort_aux set (insertSorted x acc) (insertSorted_sorted h)
    refine ⟨h1, fun a => ?_⟩
    rw [List.foldl_cons, h2, mem_insertSorted, List.mem_cons]
    constructor
    · rintro ((h | h) | h)
      · exact .inr (.inl h)
      · exact .inl h
      · exact .inr (.inr h)
    · rintro (h | h | h)
      · exact .inl (.inr h)
      · exact .inl (.inl h)
      · exact .inr h

theorem sortAddrs_sorted (set : List Nat) : (sortAddrs set).Pairwise (· < ·) := (sort_aux set [] .nil).1

theorem mem_sortAddrs {set : List Nat} {a : Nat} : a ∈ sortAddrs set ↔ a ∈ set := by
  have := (sort_aux set [] .nil).2 a
  simpa [sortAddrs] using this

/-! ## Marking and showing -/

theorem Good.mark {ls : List Leaf} {s0 : St V} : ∀ (l : List Nat) {p : Nat → Prop} {s : St V}, (∀ a ∈ l, ∃ r, s0.heap[a]? = some r ∧ r.live = true) → Good P ls s0 p s →
    ∃ s', Verifying.mark l s = .done (s', .val ()) ∧ Good P ls s0 (fun a => p a ∨ a ∈ l) s'
  | [], p, s, _, h => ⟨s, rfl, by simpa using h⟩
  | a :: l, p, s, hl, h => by
    obtain ⟨r, hr, hlive⟩ := hl a (by simp)
    obtain ⟨b, hb, hbv⟩ := h.fetch hr hlive
    obtain ⟨bb, hold, -⟩ := h.after.old a r hr
    have halt : a < s.heap.length := (List.getElem?_eq_some_iff.1 hold).1
    have hg : Good P ls s0 (fun x => p x ∨ x = a) { s with heap := s.heap.set a { r with verified := true } } := by
      have hcalls : calls { s with heap := s.heap.set a { r with verified := true } } = calls s := by
        refine List.ext_getElem? fun x => ?_
        simp only [calls, List.map_set]
        by_cases e : a = x
        · subst e
          rw [List.getElem?_set_self (by simpa using halt), List.getElem?_map, hold]
          rfl
        · rw [List.getElem?_set_ne e]
      obtain ⟨qs, hq1, hq2, hq3⟩ := h.asks
      refine ⟨⟨⟨fun x rx hx => ?_, fun x rx hx h1 => ?_, h.after.bodies, h.after.methods⟩, by simpa using h.len⟩, qs, hq1, hq2, by rw [hcalls, hq3]⟩
      · by_cases e : a = x
        · subst e
          rw [hr, Option.some.injEq] at hx
          subst hx
          exact ⟨true, by simp [List.getElem?_set_self halt], by simp⟩
        · obtain ⟨b, h1, h2⟩ := h.after.old x rx hx
          exact ⟨b, by simp only [List.getElem?_set_ne e]; exact h1, by rw [h2]; simp [Ne.symm e]⟩
      · have : a ≠ x := by
          have := (List.getElem?_eq_some_iff.1 hr).1
          omega
        simp only [List.getElem?_set_ne this] at h1
        exact h.after.new x rx hx h1
    obtain ⟨s', h1, h2⟩ := Good.mark l (fun x hx => hl x (by simp [hx])) hg
    refine ⟨s', ?_, ?_⟩
    · show M.bind (record a) _ s = _
      simp only [M.bind, record, hb]
      exact h1
    · have : (fun x => (p x ∨ x = a) ∨ x ∈ l) = fun x => p x ∨ x ∈ a :: l := by
        funext x
        simp [or_assoc]
      rw [this] at h2
      exact h2

theorem Good.format {ls : List Leaf} {s0 : St V} {p : Nat → Prop} {s : St V} (h : Good P ls s0 p s) : ∀ (l : List Nat), (∀ a ∈ l, ∃ r, s0.heap[a]? = some r ∧ r.live = true) →
    Verifying.format l s = .done (s, .val (shown s0 l))
  | [], _ => rfl
  | a :: l, hl => by
    obtain ⟨r, hr, hlive⟩ := hl a (by simp)
    obtain ⟨b, hb, -⟩ := h.fetch hr hlive
    have ih := Good.format h l fun x hx => hl x (by simp [hx])
    show M.bind (record a) _ s = _
    simp only [M.bind, record, hb]
    show M.bind (Verifying.format l) _ s = _
    simp only [M.bind, ih]
    simp [shown, hr]
    rfl

theorem accepts_iff {want : Option Int} {n : Nat} : accepts want n = true ↔ Accepts want n := by
  cases want with
  | none => simp [accepts, Accepts]
  | some k =>
    simp only [accepts, Accepts]
    by_cases h : k < 0
    · have : ¬ 0 ≤ k := by omega
      simp only [h, this, if_true, if_false, Bool.not_eq_true', decide_eq_false_iff_not]
      omega
    · have : 0 ≤ k := by omega
      simp [h, this]

end FakeIt.Verifying
