import Verif.Spec.Independent
import Verif.Lemmas.RefineTotal
/-!
# The abstract mock: steps on other mocks do not matter
-/
namespace FakeIt.Independent
open Spec
variable {V E : Type} {P : Prog V E} {mine : MockId → Bool} {vars : Addr → Bool}

/-- The call is one of ours. -/
def ours (mine : MockId → Bool) (r : Rec V) : Bool := match r.meth with | none => false | some p => mine p.1

theorem modify_ne {α : Type} (l : List α) (f : α → α) {i j : Nat} (h : j ≠ i) : (l.modify i f)[j]? = l[j]? := by
  rw [List.getElem?_modify]
  cases l[j]? with
  | none => rfl
  | some a => simp; intro e; exact absurd e.symm h

/-! ## Numbers of calls -/

/-- Running numbers are bounded, and calls with the same number are calls of the same method. -/
structure Numbers (s : AState V E) : Prop where
  bound : ∀ r ∈ s.calls, r.number ≤ s.made
  apart : ∀ r ∈ s.calls, ∀ q ∈ s.calls, r.number = q.number → r.meth = q.meth

theorem Numbers.of_sub {s t : AState V E} (h : Numbers s) (hm : s.made ≤ t.made)
    (hc : ∀ r ∈ t.calls, ∃ q ∈ s.calls, r.number = q.number ∧ r.meth = q.meth) : Numbers t := by
  constructor
  · intro r hr
    obtain ⟨q, hq, e, -⟩ := hc r hr
    have := h.bound q hq
    omega
  · intro r hr r' hr' e
    obtain ⟨q, hq, e1, e2⟩ := hc r hr
    obtain ⟨q', hq', e1', e2'⟩ := hc r' hr'
    rw [e2, e2']
    exact h.apart q hq q' hq' (by omega)

theorem Numbers.same {s t : AState V E} (h : Numbers s) (hm : s.made ≤ t.made) (hc : t.calls = s.calls) : Numbers t :=
  h.of_sub hm fun r hr => ⟨r, hc ▸ hr, rfl, rfl⟩

theorem Numbers.filter {s t : AState V E} (h : Numbers s) (hm : s.made ≤ t.made) {p : Rec V → Bool} (hc : t.calls = s.calls.filter p) : Numbers t :=
  h.of_sub hm fun r hr => ⟨r, (List.mem_filter.1 (hc ▸ hr)).1, rfl, rfl⟩

theorem Numbers.push {s t : AState V E} (h : Numbers s) {r : Rec V} (hn : r.number = s.made + 1) (hm : s.made + 1 ≤ t.made) (hc : t.calls = s.calls ++ [r]) :
    Numbers t := by
  constructor
  · intro q hq
    rw [hc, List.mem_append, List.mem_singleton] at hq
    rcases hq with hq | rfl
    · have := h.bound q hq; omega
    · omega
  · intro q hq q' hq' e
    rw [hc, List.mem_append, List.mem_singleton] at hq hq'
    rcases hq with hq | rfl <;> rcases hq' with hq' | rfl
    · exact h.apart q hq q' hq' e
    · have := h.bound q hq; omega
    · have := h.bound q' hq'; omega
    · rfl

theorem mention_keeps {s s' : AState V E} {m : MockId} {slot : SlotRef} (h : mention P s m slot = some (some s')) :
    s'.calls = s.calls ∧ s'.made = s.made ∧ s'.heap = s.heap ∧ s'.log = s.log ∧ s'.installed = s.installed ∧ s'.mocks.length = s.mocks.length ∧
      ∀ m', m' ≠ m → s'.mocks[m']? = s.mocks[m']? := by
  have hook_keeps : ∀ (k : AMock V E) (off : Nat), (hook s m k off).calls = s.calls ∧ (hook s m k off).made = s.made ∧ (hook s m k off).heap = s.heap ∧
      (hook s m k off).log = s.log ∧ (hook s m k off).installed = s.installed ∧ (hook s m k off).mocks.length = s.mocks.length ∧
      ∀ m', m' ≠ m → (hook s m k off).mocks[m']? = s.mocks[m']? := by
    intro k off
    unfold hook
    split
    · simp
    · refine ⟨rfl, rfl, rfl, rfl, rfl, by simp, fun m' hm' => ?_⟩
      exact modify_ne _ _ hm'
  unfold mention at h
  split at h
  · cases h
  · dsimp only at h
    split at h
    · split at h
      · split at h
        · cases h; exact hook_keeps _ _
        · cases h
      · split at h
        · cases h
        · split at h
          · cases h; exact hook_keeps _ _
          · cases h
    · cases h

theorem mentionAll_keeps {l : List (MockId × SlotRef)} {s s' : AState V E} {ok : Bool} (h : mentionAll P s l = some (s', ok)) :
    s'.calls = s.calls ∧ s'.made = s.made ∧ s'.heap = s.heap ∧ s'.log = s.log ∧ s'.installed = s.installed ∧ s'.mocks.length = s.mocks.length ∧
      ∀ m', (∀ x ∈ l, m' ≠ x.1) → s'.mocks[m']? = s.mocks[m']? := by
  induction l generalizing s with
  | nil => cases h; simp
  | cons x l ih =>
    obtain ⟨m, slot⟩ := x
    simp only [mentionAll, Option.bind_eq_bind, Option.bind_eq_some_iff] at h
    obtain ⟨r, h1, h2⟩ := h
    cases r with
    | none => cases h2; exact ⟨rfl, rfl, rfl, rfl, rfl, rfl, fun _ _ => rfl⟩
    | some s1 =>
      obtain ⟨a1, a2, a3, a4, a5, a6, a7⟩ := mention_keeps h1
      obtain ⟨b1, b2, b3, b4, b5, b6, b7⟩ := ih h2
      refine ⟨b1.trans a1, b2.trans a2, b3.trans a3, b4.trans a4, b5.trans a5, b6.trans a6, fun m' hm' => ?_⟩
      rw [b7 m' fun x hx => hm' x (List.mem_cons_of_mem _ hx), a7 m' (hm' _ List.mem_cons_self)]

theorem install_keeps {s s' : AState V E} {t : Target V} {acts : List (Act V E)} (h : Spec.install P s t acts = some s') :
    s'.calls = s.calls ∧ s'.made = s.made ∧ s'.heap = s.heap ∧ s'.log = s.log ∧ s.installed ≤ s'.installed ∧ s'.mocks.length = s.mocks.length ∧
      ∀ m', m' ≠ t.m → s'.mocks[m']? = s.mocks[m']? := by
  unfold Spec.install at h
  split at h
  · cases h
  · split at h
    · cases h
    · split at h
      · cases h
        refine ⟨rfl, rfl, rfl, rfl, by dsimp only; omega, by simp, fun m' hm' => ?_⟩
        exact modify_ne _ _ hm'
      · cases h

theorem installAll_keeps {ts : List (Target V)} {s s' : AState V E} {acts : List (Act V E)} (h : installAll P acts s ts = some s') :
    s'.calls = s.calls ∧ s'.made = s.made ∧ s'.heap = s.heap ∧ s'.log = s.log ∧ s.installed ≤ s'.installed ∧ s'.mocks.length = s.mocks.length ∧
      ∀ m', (∀ t ∈ ts, m' ≠ t.m) → s'.mocks[m']? = s.mocks[m']? := by
  induction ts generalizing s with
  | nil => cases h; simp
  | cons t ts ih =>
    simp only [installAll, Option.bind_eq_bind, Option.bind_eq_some_iff] at h
    obtain ⟨s1, h1, h2⟩ := h
    obtain ⟨a1, a2, a3, a4, a5, a6, a7⟩ := install_keeps h1
    obtain ⟨b1, b2, b3, b4, b5, b6, b7⟩ := ih h2
    refine ⟨b1.trans a1, b2.trans a2, b3.trans a3, b4.trans a4, Nat.le_trans a5 b5, b6.trans a6, fun m' hm' => ?_⟩
    rw [b7 m' fun x hx => hm' x (List.mem_cons_of_mem _ hx), a7 m' (hm' _ List.mem_cons_self)]

/-! ## A step on other mocks -/

/-- From `s` to `t` nothing of ours has changed. -/
structure Frame (mine : MockId → Bool) (vars : Addr → Bool) (s t : AState V E) : Prop where
  len : t.mocks.length = s.mocks.length
  mock : ∀ m, mine m = true → t.mocks[m]? = s.mocks[m]?
  installed : s.installed ≤ t.installed
  made : s.made ≤ t.made
  calls : t.calls.filter (ours mine) = s.calls.filter (ours mine)
  heap : ∀ a, vars a = true → t.heap a = s.heap a

theorem Frame.refl (s : AState V E) : Frame mine vars s s := ⟨rfl, fun _ _ => rfl, Nat.le_refl _, Nat.le_refl _, rfl, fun _ _ => rfl⟩

theorem Frame.trans {s t u : AState V E} (h : Frame mine vars s t) (h' : Frame mine vars t u) : Frame mine vars s u :=
  ⟨h'.len.trans h.len, fun m hm => (h'.mock m hm).trans (h.mock m hm), Nat.le_trans h.installed h'.installed, Nat.le_trans h.made h'.made,
   h'.calls.trans h.calls, fun a ha => (h'.heap a ha).trans (h.heap a ha)⟩

/-- Code without mocks changes only the variables its arguments refer to. -/
theorem plain_frame {b : Body V E} {args as : List (Arg V)} {heap heap' : Addr → V} {o : Outcome V E} (h : plain b args heap = some (o, as, heap')) :
    (∀ a, Arg.ref a ∈ as → Arg.ref a ∈ args) ∧ ∀ a, Arg.ref a ∉ args → heap' a = heap a := by
  induction b generalizing args heap with
  | done o => cases h; exact ⟨fun _ h => h, fun _ _ => rfl⟩
  | setArg i v k ih =>
    simp only [plain] at h
    split at h
    · exact ih h
    · rename_i a ha
      have := ih h
      refine ⟨this.1, fun b hb => ?_⟩
      rw [this.2 b hb, if_neg]
      rintro rfl
      exact hb (List.mem_of_getElem? ha)
    · rename_i x hx
      have := ih h
      have hset : ∀ a, Arg.ref a ∈ args.set i (.val v) → Arg.ref a ∈ args := by
        intro a ha
        rcases List.mem_or_eq_of_mem_set ha with h | h
        · exact h
        · cases h
      refine ⟨fun a ha => hset a (this.1 a ha), fun b hb => this.2 b fun h => hb (hset b h)⟩
  | call => cases h
  | api => cases h

/-- What performing a script entry changes. -/
theorem perform_keeps {c : ClassDecl V} {spied : Bool} {off : Nat} {args as : List (Arg V)} {s s2 : AState V E} {acts : List (Act V E)} {o : Outcome V E}
    (h : perform P c spied off args s acts = some (o, as, s2)) :
    s2.mocks = s.mocks ∧ s2.calls = s.calls ∧ s.made ≤ s2.made ∧ s2.installed = s.installed ∧ ∀ a, Arg.ref a ∉ args → s2.heap a = s.heap a := by
  have hfn : ∀ f, runFn P s args f = some (o, as, s2) →
      s2.mocks = s.mocks ∧ s2.calls = s.calls ∧ s.made ≤ s2.made ∧ s2.installed = s.installed ∧ ∀ a, Arg.ref a ∉ args → s2.heap a = s.heap a := by
    intro f hf
    cases f with
    | ret v => cases hf; simp
    | thr e => cases hf; simp
    | user f =>
      simp only [runFn, Option.map_eq_some_iff] at hf
      obtain ⟨⟨o1, a1, h1⟩, h2, h3⟩ := hf
      cases h3
      exact ⟨rfl, rfl, Nat.le_refl _, rfl, (plain_frame h2).2⟩
  unfold perform at h
  split at h
  · cases h; simp
  · exact hfn _ h
  · exact hfn _ h
  · split at h
    · cases h; simp
    · cases h; simp
    · cases h
  · dsimp only at h
    split at h
    · cases h; simp
    · split at h
      · simp only [Option.map_eq_some_iff] at h
        obtain ⟨⟨o1, a1, h1⟩, h2, h3⟩ := h
        cases h3
        exact ⟨rfl, rfl, Nat.le_refl _, rfl, (plain_frame h2).2⟩
      · cases h; simp [unstubbed]
  · cases h

theorem filter_push {s : List (Rec V)} {r : Rec V} (h : ours mine r = false) : (s ++ [r]).filter (ours mine) = s.filter (ours mine) := by
  simp [List.filter_append, h]

theorem serve_numbers {s t : AState V E} {m : MockId} {k : AMock V E} {off : Nat} {stubs : List (Stub V E)} {args : List (Arg V)} {o : Outcome V E}
    (hN : Numbers s) (h : Spec.serve P s m k off stubs args = some (o, t)) : Numbers t := by
  unfold Spec.serve at h
  dsimp only at h
  split at h
  · cases h; exact hN.same (by simp) rfl
  · rename_i st _
    simp only [Option.bind_eq_bind, Option.bind_eq_some_iff] at h
    obtain ⟨⟨o1, as, s2⟩, h1, h2⟩ := h
    obtain ⟨-, e2, e3, -, -⟩ := perform_keeps h1
    dsimp only at h2 e2 e3
    split at h2 <;> cases h2 <;> exact hN.push (r := ⟨some (m, off), s.made + 1, as, some st.name, false⟩) rfl e3 (by simp [e2])

theorem serve_frame {s t : AState V E} {m : MockId} {k : AMock V E} {off : Nat} {stubs : List (Stub V E)} {args : List (Arg V)} {o : Outcome V E}
    (hm : mine m = false) (ha : ∀ a, Arg.ref a ∈ args → vars a = false) (h : Spec.serve P s m k off stubs args = some (o, t)) : Frame mine vars s t := by
  unfold Spec.serve at h
  dsimp only at h
  split at h
  · cases h; exact ⟨rfl, fun _ _ => rfl, Nat.le_refl _, by simp, rfl, fun _ _ => rfl⟩
  · rename_i st _
    simp only [Option.bind_eq_bind, Option.bind_eq_some_iff] at h
    obtain ⟨⟨o1, as, s2⟩, h1, h2⟩ := h
    obtain ⟨e1, e2, e3, e4, e5⟩ := perform_keeps h1
    dsimp only at h2 e1 e2 e3 e4 e5
    have hr : ours mine (⟨some (m, off), s.made + 1, as, some st.name, false⟩ : Rec V) = false := hm
    have hmock : ∀ (f : AMock V E → AMock V E) m', mine m' = true → (s2.mocks.modify m f)[m']? = s.mocks[m']? := by
      intro f m' hm'
      rw [modify_ne _ _ (by rintro rfl; rw [hm] at hm'; cases hm'), e1]
    have hheap : ∀ a, vars a = true → s2.heap a = s.heap a := fun a h => e5 a fun hr => by rw [ha a hr] at h; cases h
    split at h2 <;> cases h2 <;>
      exact ⟨by simp [e1], hmock _, by simp [e4], by dsimp only; omega, by dsimp only; rw [filter_push hr, e2], hheap⟩

theorem arrives_refs {c : ClassDecl V} {k : AMock V E} {off : Nat} {args : List (Arg V)} {a : Addr} (h : Arg.ref a ∈ (arrives c k off args).2) : Arg.ref a ∈ args := by
  unfold arrives at h
  split at h
  · exact h
  · split at h
    · cases h
    · exact h

theorem aCall_numbers {s t : AState V E} {m : MockId} {off : Nat} {args : List (Arg V)} {o : Outcome V E} (hN : Numbers s)
    (h : aCall P s m off args = some (o, t)) : Numbers t := by
  unfold aCall at h
  split at h
  · cases h
  · dsimp only at h
    split at h
    · split at h
      · exact serve_numbers hN h
      · split at h
        · obtain ⟨r, -, h⟩ := Option.map_eq_some_iff.1 h
          cases h; exact hN.same (Nat.le_refl _) rfl
        · split at h
          · cases h; exact hN
          · cases h; exact hN.same (by simp [unstubbed]) rfl
    · cases h

theorem aCall_frame {s t : AState V E} {m : MockId} {off : Nat} {args : List (Arg V)} {o : Outcome V E} (hm : mine m = false)
    (ha : ∀ a, Arg.ref a ∈ args → vars a = false) (h : aCall P s m off args = some (o, t)) : Frame mine vars s t := by
  unfold aCall at h
  split at h
  · cases h
  · dsimp only at h
    split at h
    · split at h
      · exact serve_frame hm (fun a h => ha a (arrives_refs h)) h
      · split at h
        · obtain ⟨⟨o1, as, h1⟩, h2, h⟩ := Option.map_eq_some_iff.1 h
          cases h
          exact ⟨rfl, fun _ _ => rfl, Nat.le_refl _, Nat.le_refl _, rfl, fun a hv => (plain_frame h2).2 a fun hr => by
            rw [ha a (arrives_refs hr)] at hv; cases hv⟩
        · split at h
          · cases h; exact .refl _
          · cases h; exact ⟨rfl, fun _ _ => rfl, Nat.le_refl _, by simp [unstubbed], rfl, fun _ _ => rfl⟩
    · cases h

/-! Verification marks only calls in its scope. -/

theorem findAll_mem {L I : Type} {mt : L → I → Bool} {pat : List (List L)} {fuel : Nat} {cs : List I} {c : I} (h : c ∈ (findAll mt pat fuel cs).2) : c ∈ cs := by
  have hx := (findAll_all2 (R := fun a b => a = b ∧ b ∈ cs) (mt := mt) (mt' := mt) (fun a b h l => by rw [h.1]) pat fuel (cs := cs) (ds := cs) (by
    have : ∀ l : List I, (∀ x ∈ l, x ∈ cs) → All2 (fun a b => a = b ∧ b ∈ cs) l l := by
      intro l
      induction l with
      | nil => intro _; exact .nil
      | cons x l ih => intro h; exact .cons ⟨rfl, h x (by simp)⟩ (ih fun y hy => h y (by simp [hy]))
    exact this cs fun _ h => h)).2
  obtain ⟨b, hb, rfl, hc⟩ := hx.left h
  exact hc

theorem inSource_ours {s : AState V E} {src : Source V} {b : Bool} (hs : ∀ m ∈ mocksOf src, mine m = b) {r : Rec V} (h : inSource P s src r = true) :
    ∃ m off, r.meth = some (m, off) ∧ mine m = b := by
  induction src with
  | empty => cases h
  | mock m =>
    simp only [inSource, ofMock] at h
    split at h
    · cases h
    · rename_i p hp
      exact ⟨p.1, p.2, hp, by rw [beq_iff_eq.1 h]; exact hs m (by simp [mocksOf])⟩
  | ctx l =>
    simp only [inSource, denotes] at h
    split at h
    · cases h
    · split at h
      · cases h
      · rename_i off _
        simp only [Bool.and_eq_true, beq_iff_eq] at h
        exact ⟨l.m, off, h.1, hs l.m (by simp [mocksOf])⟩
  | unverified src ih =>
    simp only [inSource, Bool.and_eq_true] at h
    exact ih hs h.1
  | union a c iha ihc =>
    simp only [inSource, Bool.or_eq_true] at h
    simp only [mocksOf, List.mem_append] at hs
    rcases h with h | h
    · exact iha (fun m hm => hs m (.inl hm)) h
    · exact ihc (fun m hm => hs m (.inr hm)) h

theorem inScope_ours {s : AState V E} {pat : List (Seq (Leaf V))} {scope : Scope V} {b : Bool} (hs : ∀ m ∈ looksAt pat scope, mine m = b) {r : Rec V}
    (h : inScope P s pat scope r = true) : ∃ m off, r.meth = some (m, off) ∧ mine m = b := by
  have hinv : (∀ m ∈ mocksIn pat, mine m = b) → ((mocksIn pat).any fun m => ofMock m r) = true → ∃ m off, r.meth = some (m, off) ∧ mine m = b := by
    intro hs h
    obtain ⟨m, hm, h⟩ := List.any_eq_true.1 h
    unfold ofMock at h
    split at h
    · cases h
    · rename_i p hp
      exact ⟨p.1, p.2, hp, by rw [beq_iff_eq.1 h]; exact hs m hm⟩
  cases scope with
  | involved => exact hinv hs h
  | using_ src => exact inSource_ours hs h
  | unverified =>
    simp only [inScope, Bool.and_eq_true] at h
    exact hinv hs h.1

theorem marked_plain (ns : List Nat) (r : Rec V) : (marked ns r).number = r.number ∧ (marked ns r).meth = r.meth ∧ (marked ns r).args = r.args := by
  unfold marked; split <;> simp

theorem ours_marked (ns : List Nat) (r : Rec V) : ours mine (marked ns r) = ours mine r := by
  unfold ours; rw [(marked_plain ns r).2.1]

theorem filter_marked (ns : List Nat) (l : List (Rec V)) : (l.map (marked ns)).filter (ours mine) = (l.filter (ours mine)).map (marked ns) := by
  induction l with
  | nil => rfl
  | cons r l ih =>
    simp only [List.map_cons, List.filter_cons, ours_marked, ih]
    split <;> rfl

theorem aVerify_cases {s t : AState V E} {scope : Scope V} {pat : List (Seq (Leaf V))} {q : Quant} {mode : VMode} {o : ApiOut}
    (h : aVerify P s scope pat q mode = some (t, o)) : ∃ s1 ok, mentionAll P s ((mentionedBy scope pat).map fun l => (l.m, l.slot)) = some (s1, ok) ∧
      (t = s1 ∨ (∃ rs : List (Rec V), (∀ r ∈ rs, r ∈ s1.calls ∧ inScope P s1 pat scope r = true) ∧ t = { s1 with calls := s1.calls.map (marked (rs.map Rec.number)) }) ∨
        ∃ rep, t = { s1 with log := s1.log ++ [rep] }) := by
  simp only [aVerify, Option.bind_eq_bind, Option.bind_eq_some_iff] at h
  obtain ⟨⟨s1, ok⟩, h1, h2⟩ := h
  refine ⟨s1, ok, h1, ?_⟩
  cases ok with
  | false => cases h2; exact .inl rfl
  | true =>
    dsimp only at h2
    split at h2
    · split at h2
      · cases h2; exact .inl rfl
      · split at h2
        · cases h2; exact .inl rfl
        · split at h2
          · cases h2
            refine .inr (.inl ⟨_, fun r hr => ?_, rfl⟩)
            have := List.mem_filter.1 (findAll_mem hr)
            exact this
          · split at h2
            · cases h2; exact .inl rfl
            · cases h2; exact .inr (.inr ⟨_, rfl⟩)
    · cases h2

theorem aVerify_numbers {s t : AState V E} {scope : Scope V} {pat : List (Seq (Leaf V))} {q : Quant} {mode : VMode} {o : ApiOut} (hN : Numbers s)
    (h : aVerify P s scope pat q mode = some (t, o)) : Numbers t := by
  obtain ⟨s1, ok, h1, h2⟩ := aVerify_cases h
  obtain ⟨a1, a2, -⟩ := mentionAll_keeps h1
  rcases h2 with rfl | ⟨rs, -, rfl⟩ | ⟨rep, rfl⟩
  · exact hN.same (by omega) a1
  · refine hN.of_sub (by dsimp only; omega) fun r hr => ?_
    obtain ⟨q, hq, rfl⟩ := List.mem_map.1 hr
    exact ⟨q, a1 ▸ hq, (marked_plain _ q).1, (marked_plain _ q).2.1⟩
  · exact hN.same (by dsimp only; omega) a1

theorem ne_of_mine {m m' : MockId} (h : mine m = false) (h' : mine m' = true) : m' ≠ m := by rintro rfl; rw [h] at h'; cases h'

theorem aVerify_frame {s t : AState V E} {scope : Scope V} {pat : List (Seq (Leaf V))} {q : Quant} {mode : VMode} {o : ApiOut} (hN : Numbers s)
    (h1 : ∀ l ∈ mentionedBy scope pat, mine l.m = false) (h2 : ∀ m ∈ looksAt pat scope, mine m = false)
    (h : aVerify P s scope pat q mode = some (t, o)) : Frame mine vars s t := by
  obtain ⟨s1, ok, g1, g2⟩ := aVerify_cases h
  obtain ⟨a1, a2, a3, a4, a5, a6, a7⟩ := mentionAll_keeps g1
  have f : Frame mine vars s s1 := ⟨a6, fun m hm => a7 m fun x hx => by
    obtain ⟨l, hl, rfl⟩ := List.mem_map.1 hx
    exact ne_of_mine (h1 l hl) hm, by omega, by omega, by rw [a1], fun a _ => by rw [a3]⟩
  rcases g2 with rfl | ⟨rs, hrs, rfl⟩ | ⟨rep, rfl⟩
  · exact f
  · refine f.trans ⟨rfl, fun _ _ => rfl, Nat.le_refl _, Nat.le_refl _, ?_, fun _ _ => rfl⟩
    dsimp only
    rw [filter_marked]
    have : ∀ r ∈ s1.calls.filter (ours mine), marked (rs.map Rec.number) r = r := by
      intro r hr
      obtain ⟨hr, ho⟩ := List.mem_filter.1 hr
      unfold marked
      split
      · rename_i hc
        obtain ⟨q, hq, e⟩ := List.mem_map.1 (List.contains_iff_mem.1 hc)
        obtain ⟨hq1, hq2⟩ := hrs q hq
        obtain ⟨m, off, e1, e2⟩ := inScope_ours h2 hq2
        have := hN.apart q (a1 ▸ hq1) r (a1 ▸ hr) e
        simp only [ours, ← this, e1, e2] at ho
        cases ho
      · rfl
    rw [List.map_congr_left this, List.map_id']
  · exact f.trans ⟨rfl, fun _ _ => rfl, Nat.le_refl _, Nat.le_refl _, rfl, fun _ _ => rfl⟩

theorem aNoOther_cases {s t : AState V E} {srcs : List (Source V)} {mode : VMode} {o : ApiOut} (h : aNoOther P s srcs mode = some (t, o)) :
    ∃ s1 ok, mentionAll P s ((leavesOf (allOf srcs)).map fun l => (l.m, l.slot)) = some (s1, ok) ∧ (t = s1 ∨ ∃ rep, t = { s1 with log := s1.log ++ [rep] }) := by
  simp only [aNoOther, Option.bind_eq_bind, Option.bind_eq_some_iff] at h
  obtain ⟨⟨s1, ok⟩, h1, h2⟩ := h
  refine ⟨s1, ok, h1, ?_⟩
  cases ok with
  | false => cases h2; exact .inl rfl
  | true =>
    dsimp only at h2
    split at h2
    · split at h2
      · cases h2; exact .inl rfl
      · split at h2
        · cases h2; exact .inl rfl
        · split at h2
          · cases h2; exact .inl rfl
          · cases h2; exact .inr ⟨_, rfl⟩
    · cases h2

theorem leaves_mocks {src : Source V} {l : Leaf V} (h : l ∈ leavesOf src) : l.m ∈ mocksOf src := by
  induction src with
  | empty => cases h
  | mock m => cases h
  | ctx k => simp only [leavesOf, List.mem_singleton] at h; subst h; simp [mocksOf]
  | unverified s ih => exact ih h
  | union a b iha ihb =>
    simp only [leavesOf, List.mem_append] at h
    simp only [mocksOf, List.mem_append]
    rcases h with h | h
    · exact .inl (iha h)
    · exact .inr (ihb h)

theorem aApi_numbers {s t : AState V E} {a : Api V E} {o : ApiOut} (hN : Numbers s) (h : aApi P s a = some (t, o)) : Numbers t := by
  have hone : ∀ {tg : Target V} {acts : List (Act V E)} {u : Bool}, aStubOne P s tg acts u = some (t, o) → Numbers t := by
    intro tg acts u h
    simp only [aStubOne, Option.bind_eq_bind, Option.bind_eq_some_iff] at h
    obtain ⟨r, h1, h2⟩ := h
    cases r with
    | none => cases h2; exact hN
    | some s1 =>
      obtain ⟨a1, a2, -⟩ := mention_keeps h1
      dsimp only at h2
      split at h2
      · cases h2; exact hN.same (by omega) a1
      · obtain ⟨s2, h3, h4⟩ := Option.bind_eq_some_iff.1 h2
        cases h4
        obtain ⟨b1, b2, -⟩ := install_keeps h3
        exact hN.same (by omega) (b1.trans a1)
  have hmany : ∀ {ts : List (Target V)} {act : Act V E}, aStubMany P s ts act = some (t, o) → Numbers t := by
    intro ts act h
    simp only [aStubMany, Option.bind_eq_bind, Option.bind_eq_some_iff] at h
    obtain ⟨⟨s1, ok⟩, h1, h2⟩ := h
    obtain ⟨a1, a2, -⟩ := mentionAll_keeps h1
    cases ok with
    | false => cases h2; exact hN.same (by omega) a1
    | true =>
      obtain ⟨s2, h3, h4⟩ := Option.bind_eq_some_iff.1 h2
      cases h4
      obtain ⟨b1, b2, -⟩ := installAll_keeps h3
      exact hN.same (by omega) (b1.trans a1)
  cases a with
  | newMock cls => cases h; exact hN.same (Nat.le_refl _) rfl
  | newSpy cls => cases h; exact hN.same (Nat.le_refl _) rfl
  | touch m slot =>
    simp only [aApi, Option.map_eq_some_iff] at h
    obtain ⟨r, h1, h2⟩ := h
    cases r with
    | none => cases h2; exact hN
    | some s1 =>
      cases h2
      obtain ⟨a1, a2, -⟩ := mention_keeps h1
      exact hN.same (by omega) a1
  | when_ t acts u => exact hone h
  | fake ts => exact hmany h
  | spy mv ts => exact hmany h
  | assign t f => exact hone h
  | write a v => cases h; exact hN.same (Nat.le_refl _) rfl
  | verify scope pat q mode => exact aVerify_numbers hN h
  | verifyNoOther srcs mode =>
    obtain ⟨s1, ok, h1, h2⟩ := aNoOther_cases h
    obtain ⟨a1, a2, -⟩ := mentionAll_keeps h1
    rcases h2 with rfl | ⟨rep, rfl⟩
    · exact hN.same (by omega) a1
    · exact hN.same (by dsimp only; omega) a1
  | stubData m cell v | writeData m cell v =>
    simp only [aApi, Option.map_eq_some_iff] at h
    obtain ⟨s1, h1, h2⟩ := h
    cases h2
    obtain ⟨a, a', _, _, _, rfl⟩ := onMock_spec h1
    exact hN.same (Nat.le_refl _) rfl
  | destroy m | reset m | clear m =>
    simp only [aApi, Option.map_eq_some_iff] at h
    obtain ⟨s1, h1, h2⟩ := h
    cases h2
    obtain ⟨a, a', _, _, _, rfl⟩ := onMock_spec h1
    exact hN.filter (Nat.le_refl _) rfl

theorem aStep_numbers {s t : AState V E} {op : Op V E} {o : OpOut V E} (hN : Numbers s) (h : aStep P s op = some (o, t)) : Numbers t := by
  cases op with
  | call m off args =>
    simp only [aStep, Option.map_eq_some_iff] at h
    obtain ⟨r, h1, h2⟩ := h
    cases h2
    exact aCall_numbers hN h1
  | api a =>
    simp only [aStep, Option.map_eq_some_iff] at h
    obtain ⟨r, h1, h2⟩ := h
    cases h2
    exact aApi_numbers hN h1

theorem forget_ours {s : AState V E} {m : MockId} (hm : mine m = false) : (forget s m).calls.filter (ours mine) = s.calls.filter (ours mine) := by
  simp only [forget, List.filter_filter]
  refine List.filter_congr fun r _ => ?_
  unfold ours ofMock
  split
  · rfl
  · rename_i p hp
    simp only [hp]
    by_cases h : p.1 = m
    · simp [h, hm]
    · simp [h]

theorem aApi_frame {s t : AState V E} {a : Api V E} {o : ApiOut} (hN : Numbers s) (ha : a.On (fun m => !mine m) fun x => !vars x)
    (h : aApi P s a = some (t, o)) : Frame mine vars s t := by
  have hone : ∀ {tg : Target V} {acts : List (Act V E)} {u : Bool}, mine tg.m = false → aStubOne P s tg acts u = some (t, o) → Frame mine vars s t := by
    intro tg acts u hm h
    simp only [aStubOne, Option.bind_eq_bind, Option.bind_eq_some_iff] at h
    obtain ⟨r, h1, h2⟩ := h
    cases r with
    | none => cases h2; exact .refl _
    | some s1 =>
      obtain ⟨a1, a2, a3, a4, a5, a6, a7⟩ := mention_keeps h1
      have f : Frame mine vars s s1 := ⟨a6, fun m hm' => a7 m (ne_of_mine hm hm'), by omega, by omega, by rw [a1], fun _ _ => by rw [a3]⟩
      dsimp only at h2
      split at h2
      · cases h2; exact f
      · obtain ⟨s2, h3, h4⟩ := Option.bind_eq_some_iff.1 h2
        cases h4
        obtain ⟨b1, b2, b3, b4, b5, b6, b7⟩ := install_keeps h3
        exact f.trans ⟨b6, fun m hm' => b7 m (ne_of_mine hm hm'), b5, by omega, by rw [b1], fun _ _ => by rw [b3]⟩
  have hmany : ∀ {ts : List (Target V)} {act : Act V E}, (∀ x ∈ ts, mine x.m = false) → aStubMany P s ts act = some (t, o) → Frame mine vars s t := by
    intro ts act hm h
    simp only [aStubMany, Option.bind_eq_bind, Option.bind_eq_some_iff] at h
    obtain ⟨⟨s1, ok⟩, h1, h2⟩ := h
    obtain ⟨a1, a2, a3, a4, a5, a6, a7⟩ := mentionAll_keeps h1
    have f : Frame mine vars s s1 := ⟨a6, fun m hm' => a7 m (fun x hx => by
      obtain ⟨y, hy, rfl⟩ := List.mem_map.1 hx
      exact ne_of_mine (hm y hy) hm'), by omega, by omega, by rw [a1], fun _ _ => by rw [a3]⟩
    cases ok with
    | false => cases h2; exact f
    | true =>
      obtain ⟨s2, h3, h4⟩ := Option.bind_eq_some_iff.1 h2
      cases h4
      obtain ⟨b1, b2, b3, b4, b5, b6, b7⟩ := installAll_keeps h3
      exact f.trans ⟨b6, fun m hm' => b7 m (fun x hx => ne_of_mine (hm x hx) hm'), b5, by omega, by rw [b1], fun _ _ => by rw [b3]⟩
  have hset : ∀ {s0 : AState V E} {m : MockId} {k : AMock V E}, mine m = false → s0.mocks = s.mocks → ∀ m', mine m' = true → (s0.mocks.set m k)[m']? = s.mocks[m']? := by
    intro s0 m k hm e m' hm'
    rw [List.getElem?_set_ne (fun e => ne_of_mine hm hm' e.symm), e]
  cases a with
  | newMock cls => exact ha.elim
  | newSpy cls => exact ha.elim
  | touch m slot =>
    simp only [aApi, Option.map_eq_some_iff] at h
    obtain ⟨r, h1, h2⟩ := h
    cases r with
    | none => cases h2; exact .refl _
    | some s1 =>
      cases h2
      obtain ⟨a1, a2, a3, a4, a5, a6, a7⟩ := mention_keeps h1
      exact ⟨a6, fun m hm' => a7 m (ne_of_mine (by simpa [Api.On] using ha) hm'), by omega, by omega, by rw [a1], fun _ _ => by rw [a3]⟩
  | when_ t acts u => exact hone (by simpa [Api.On] using ha) h
  | fake ts => exact hmany (by simpa [Api.On] using ha) h
  | spy mv ts => exact hmany (by simpa [Api.On] using ha) h
  | assign t f => exact hone (by simpa [Api.On] using ha) h
  | write a v =>
    cases h
    refine ⟨rfl, fun _ _ => rfl, Nat.le_refl _, Nat.le_refl _, rfl, fun b hb => ?_⟩
    dsimp only
    rw [if_neg]
    rintro rfl
    simp [Api.On, hb] at ha
  | verify scope pat q mode =>
    refine aVerify_frame hN (fun l hl => ?_) (fun m hm => ?_) h
    · simpa using ha.1 l hl
    · simpa using ha.2 m hm
  | verifyNoOther srcs mode =>
    obtain ⟨s1, ok, h1, h2⟩ := aNoOther_cases h
    obtain ⟨a1, a2, a3, a4, a5, a6, a7⟩ := mentionAll_keeps h1
    have f : Frame mine vars s s1 := ⟨a6, fun m hm' => a7 m (fun x hx => by
      obtain ⟨y, hy, rfl⟩ := List.mem_map.1 hx
      exact ne_of_mine (by simpa using ha y.m (leaves_mocks hy)) hm'), by omega, by omega, by rw [a1], fun _ _ => by rw [a3]⟩
    rcases h2 with rfl | ⟨rep, rfl⟩
    · exact f
    · exact f.trans ⟨rfl, fun _ _ => rfl, Nat.le_refl _, Nat.le_refl _, rfl, fun _ _ => rfl⟩
  | stubData m cell v | writeData m cell v =>
    simp only [aApi, Option.map_eq_some_iff] at h
    obtain ⟨s1, h1, h2⟩ := h
    cases h2
    obtain ⟨a, a', _, _, _, rfl⟩ := onMock_spec h1
    exact ⟨by simp, hset (by simpa [Api.On] using ha) rfl, Nat.le_refl _, Nat.le_refl _, rfl, fun _ _ => rfl⟩
  | destroy m | reset m | clear m =>
    simp only [aApi, Option.map_eq_some_iff] at h
    obtain ⟨s1, h1, h2⟩ := h
    cases h2
    obtain ⟨a, a', _, _, _, rfl⟩ := onMock_spec h1
    have hm : mine m = false := by simpa [Api.On] using ha
    exact ⟨by simp [forget], hset hm rfl, Nat.le_refl _, Nat.le_refl _, forget_ours hm, fun _ _ => rfl⟩

/-- A step on other mocks changes nothing of ours. -/
theorem aStep_frame {s t : AState V E} {op : Op V E} {o : OpOut V E} (hN : Numbers s) (ha : op.On (fun m => !mine m) fun x => !vars x)
    (h : aStep P s op = some (o, t)) : Frame mine vars s t := by
  cases op with
  | call m off args =>
    simp only [aStep, Option.map_eq_some_iff] at h
    obtain ⟨r, h1, h2⟩ := h
    cases h2
    exact aCall_frame (by simpa using ha.1) (fun a hr => by simpa using ha.2 a hr) h1
  | api a =>
    simp only [aStep, Option.map_eq_some_iff] at h
    obtain ⟨r, h1, h2⟩ := h
    cases h2
    exact aApi_frame hN ha h1

end FakeIt.Independent
