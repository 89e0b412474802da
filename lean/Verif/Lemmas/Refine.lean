import Verif.Lemmas.Greedy
import Verif.Lemmas.Dtor
import Verif.Lemmas.Verify
import Verif.Lemmas.Answer
/-!
# The relation between the library's state and the abstract mock's state; mentioning and stubbing methods
-/
namespace FakeIt
variable {V E : Type} {P : Prog V E} {nm : MockId → Nat → Nat}
open Spec

/-! ## The relation -/

/-- A handler object and a stubbing. -/
structure StubRel (h : Handler V E) (st : Stub V E) : Prop where
  addr : h.addr = h.matcher.addr + 1
  name : st.name = h.matcher.addr
  kind : st.kind = h.matcher.kind
  rep : h.seq.Rep st.script
  writable : WritableActs st.script

/-- A method's record and its stubbings. -/
def BRel : Option (MBody V E) → Option (List (Stub V E)) → Prop
  | none, none => True
  | some b, some stubs => All2 StubRel b.handlers.reverse stubs
  | _, _ => False

/-- A mock object and an abstract mock. -/
structure MRel (P : Prog V E) (a : AMock V E) (k : Mock V E) : Prop where
  cls : k.cls = a.cls
  owner : k.owner = !a.spied
  alive : k.alive = a.alive
  data : k.data = a.data
  body : ∀ off, BRel (k.body? off) (a.stubs off)
  fresh : a.wasReset = false → ∀ off : Nat, k.mocks[off]? = some none → k.offsets[off]? = some intMax
  reset : a.wasReset = true → ∀ d : Nat, (P.cls a.cls).dtor = some d → a.stubs d = none
  del : ∀ d : Nat, (P.cls a.cls).dtor = some d → a.stubs (d + 1) = none ∧
    k.vt[d + 1]? = if (a.stubs d).isSome then some .dtorThunk else k.orig[d + 1]?

/-- All mocks. -/
structure MocksRel (P : Prog V E) (ks : List (Mock V E)) (as : List (AMock V E)) : Prop where
  len : ks.length = as.length
  mock : ∀ (m : Nat) k a, ks[m]? = some k → as[m]? = some a → MRel P a k

/-- A method id and a method. -/
def MethRel (names : List (MockId × Nat)) (id : Nat) : Option (MockId × Nat) → Prop
  | none => id = 0
  | some p => ∃ j, id = j + 1 ∧ names[j]? = some p

/-- An invocation object and a recorded call. -/
structure RecRel (names : List (MockId × Nat)) (i : Invocation V) (r : Rec V) : Prop where
  number : r.number = i.uid
  args : r.args = i.args
  served : r.served = i.matcher
  verified : r.verified = i.verified
  meth : MethRel names i.method r.meth

/-- An event and a report. -/
inductive EvRel (names : List (MockId × Nat)) : Event V → Report V → Prop where
  | unexpected {ty i r} : RecRel names i r → EvRel names (.unexpectedCall ty i) (.unexpected ty r)
  | mismatch {ty ex n l l'} : All2 (RecRel names) l l' → EvRel names (.sequence ty ex n l) (.mismatch ty ex n l')
  | others {l l' k k'} : All2 (RecRel names) l l' → All2 (RecRel names) k k' → EvRel names (.noMoreInvocations l k) (.others l' k')

/-- The recorded calls of one method. -/
def callsOf (calls : List (Rec V)) (m off : Nat) : List (Rec V) := calls.filter fun r => r.meth == some (m, off)

/-- The library's state and the abstract mock's state. -/
structure Rel (P : Prog V E) (s : AState V E) (w : World V E) : Prop where
  mocks : MocksRel P w.mocks s.mocks
  hist : ∀ m off, All2 (RecRel s.named) (history w m off) (callsOf s.calls m off)
  known : ∀ r ∈ s.calls, ∃ m off, r.meth = some (m, off)
  sorted : s.calls.Pairwise fun r r' => r.number < r'.number
  bound : ∀ r ∈ s.calls, r.number ≤ s.made
  heap : w.heap = s.heap
  made : w.invTotal = s.made
  named : w.methTotal = s.named.length
  alloc : w.alloc = 2 * s.installed
  meths : ∀ m off b, w.body? m off = some b → MethRel s.named b.method (some (m, off))
  log : All2 (EvRel s.named) w.log s.log

/-! ## Basic facts -/

theorem MethRel.mono {names more : List (MockId × Nat)} {id : Nat} {p : Option (MockId × Nat)} (h : MethRel names id p) : MethRel (names ++ more) id p := by
  cases p with
  | none => exact h
  | some p =>
    obtain ⟨j, h1, h2⟩ := h
    exact ⟨j, h1, by rw [List.getElem?_append_left (List.getElem?_eq_some_iff.1 h2).1]; exact h2⟩

theorem RecRel.mono {names more : List (MockId × Nat)} {i : Invocation V} {r : Rec V} (h : RecRel names i r) : RecRel (names ++ more) i r :=
  ⟨h.number, h.args, h.served, h.verified, h.meth.mono⟩

theorem EvRel.mono {names more : List (MockId × Nat)} {e : Event V} {r : Report V} (h : EvRel names e r) : EvRel (names ++ more) e r := by
  cases h with
  | unexpected h => exact .unexpected h.mono
  | mismatch h => exact .mismatch (h.mono fun _ _ => RecRel.mono)
  | others h h' => exact .others (h.mono fun _ _ => RecRel.mono) (h'.mono fun _ _ => RecRel.mono)

theorem MocksRel.get {ks : List (Mock V E)} {as : List (AMock V E)} (h : MocksRel P ks as) {m : Nat} {a : AMock V E} (ha : as[m]? = some a) :
    ∃ k, ks[m]? = some k ∧ MRel P a k := by
  have hlt := (List.getElem?_eq_some_iff.1 ha).1
  have hk := List.getElem?_eq_getElem (l := ks) (i := m) (by rw [h.len]; exact hlt)
  exact ⟨_, hk, h.mock m _ a hk ha⟩

theorem MocksRel.none {ks : List (Mock V E)} {as : List (AMock V E)} (h : MocksRel P ks as) {m : Nat} (ha : as[m]? = none) : ks[m]? = none := by
  rw [List.getElem?_eq_none_iff] at ha ⊢
  rw [h.len]; exact ha

theorem MocksRel.modify {ks : List (Mock V E)} {as : List (AMock V E)} (h : MocksRel P ks as) (m : Nat) {g : Mock V E → Mock V E}
    {f : AMock V E → AMock V E} (hfg : ∀ k a, ks[m]? = some k → as[m]? = some a → MRel P (f a) (g k)) : MocksRel P (ks.modify m g) (as.modify m f) := by
  refine ⟨by simp [h.len], ?_⟩
  intro m' k a hk ha
  rw [List.getElem?_modify] at hk ha
  by_cases hm : m = m'
  · subst hm
    simp only [if_true] at hk ha
    obtain ⟨k0, hk0, rfl⟩ := Option.map_eq_some_iff.1 hk
    obtain ⟨a0, ha0, rfl⟩ := Option.map_eq_some_iff.1 ha
    exact hfg k0 a0 hk0 ha0
  · simp only [hm, if_false, id, Option.map_eq_map, Option.map_id'] at hk ha
    exact h.mock m' k a (by simpa using hk) (by simpa using ha)

theorem set_eq_modify {α : Type} (l : List α) (m : Nat) (x : α) : l.set m x = l.modify m fun _ => x := by
  apply List.ext_getElem?
  intro i
  rw [List.getElem?_set, List.getElem?_modify]
  by_cases h : m = i
  · subst h
    by_cases hl : m < l.length
    · simp [hl]
    · simp [hl]
  · simp [h]

theorem modify_congr {α : Type} {l : List α} {m : Nat} {f g : α → α} (h : ∀ x, l[m]? = some x → f x = g x) : l.modify m f = l.modify m g := by
  apply List.ext_getElem?
  intro i
  rw [List.getElem?_modify, List.getElem?_modify]
  by_cases hi : m = i
  · subst hi
    cases hx : l[m]? with
    | none => rfl
    | some x => simp [h x hx]
  · simp [hi]

theorem acceptsB_iff {k : MatcherKind V} {vs : List V} : accepts k vs = true ↔ Accepts k vs := by
  cases k with
  | any => simp [accepts, Accepts]
  | user p => simp [accepts, Accepts]
  | args ms =>
    simp only [accepts, Accepts, Bool.and_eq_true, beq_iff_eq, List.all_eq_true]
    constructor
    · rintro ⟨hl, h⟩
      refine ⟨hl, fun i m v hm hv => ?_⟩
      have : (ms.zip vs)[i]? = some (m, v) := by rw [List.getElem?_zip_eq_some]; exact ⟨hm, hv⟩
      exact h _ (List.mem_of_getElem? this)
    · rintro ⟨hl, h⟩
      refine ⟨hl, fun x hx => ?_⟩
      obtain ⟨i, hi⟩ := List.mem_iff_getElem?.1 hx
      rw [List.getElem?_zip_eq_some] at hi
      exact h i _ _ hi.1 hi.2

theorem methodOf_eq (c : ClassDecl V) (s : SlotRef) : methodOf c s = s.off c := by cases s <;> rfl

theorem writable_iff {acts : List (Act V E)} : writable acts = true ↔ WritableActs acts := by
  simp only [writable, WritableActs, List.all_eq_true]
  constructor
  · intro h a ha
    have := h a ha
    cases a <;> simp_all
  · intro h a ha
    have := h a ha
    cases a <;> simp_all

theorem rest_eq {acts : List (Act V E)} (h : WritableActs acts) : rest acts = nextActs acts := by
  cases acts with
  | nil => rfl
  | cons a l =>
    cases a with
    | rep n f =>
      have hn : 1 ≤ n := h (Act.rep n f) (by simp)
      simp only [rest, nextActs]
      by_cases h1 : n ≤ 1
      · rw [if_pos h1, if_pos (by omega)]
      · rw [if_neg h1, if_neg (by omega)]
    | _ => rfl

theorem history_body {w w' : World V E} {m off : Nat} (h : w'.body? m off = w.body? m off) : history w' m off = history w m off := by
  unfold history; rw [h]

/-- Equal states except for the mocks, which stay related, and nothing recorded is changed. -/
theorem Rel.withMocks {s s' : AState V E} {w w' : World V E} (h : Rel P s w) (hm : MocksRel P w'.mocks s'.mocks) (hb : ∀ m off, w'.body? m off = w.body? m off)
    (hw : w' = { w with mocks := w'.mocks }) (hs : s' = { s with mocks := s'.mocks }) : Rel P s' w' := by
  rw [hw, hs]
  refine ⟨hm, fun m off => ?_, h.known, h.sorted, h.bound, h.heap, h.made, h.named, h.alloc, fun m off b hb' => ?_, h.log⟩
  · have := h.hist m off
    rw [← history_body (hb m off)] at this
    rw [hw] at this
    exact this
  · have : w'.body? m off = some b := by rw [hw]; exact hb'
    rw [hb] at this
    exact h.meths m off b this

/-! ## Mentioning a method -/

theorem BRel.isSome {b : Option (MBody V E)} {l : Option (List (Stub V E))} (h : BRel b l) : b.isSome = l.isSome := by
  cases b <;> cases l <;> first | rfl | exact h.elim

theorem body?_of_get {k : Mock V E} {off : Nat} {x : Option (MBody V E)} (h : k.mocks[off]? = some x) : k.body? off = x := by
  simp [Mock.body?, h]

theorem lt_mocks {w : World V E} (hw : Wf P nm w) {m : MockId} {k : Mock V E} (hk : w.mocks[m]? = some k) (ha : k.alive = true) {off : Nat}
    (h : off < (P.cls k.cls).size) : off < k.mocks.length ∧ off < k.vt.length ∧ off < k.orig.length := by
  have t := hw.steady.1.1 m k hk
  rw [(t.mlen ha).1, t.vtlen, t.orig_length]
  exact ⟨h, h, h⟩

/-- The state after a new record has been made. -/
theorem rel_hook {s : AState V E} {w : World V E} (h : Rel P s w) {m off : Nat} {a : AMock V E} {k : Mock V E} (hk : w.mocks[m]? = some k)
    (hnone : k.mocks[off]? = some none) (hlt : s.named.length + 1 < wrap32) (g : Mock V E → Mock V E)
    (hg : (g k).mocks = k.mocks.set off (some (newBody w.methTotal)))
    (hrel : MRel P { a with stubs := fun o => if o = off then some [] else a.stubs o } (g k))
    (ha : s.mocks[m]? = some a) :
    Rel P { s with mocks := s.mocks.modify m fun k => { k with stubs := fun o => if o = off then some [] else k.stubs o }, named := s.named ++ [(m, off)] }
      { w.updMock m g with methTotal := w.methTotal + 1 } := by
  have hoff : off < k.mocks.length := (List.getElem?_eq_some_iff.1 hnone).1
  have hbody : ∀ m' off', ({ w.updMock m g with methTotal := w.methTotal + 1 } : World V E).body? m' off' =
      if m' = m ∧ off' = off then some (newBody w.methTotal) else w.body? m' off' := by
    intro m' off'
    simp only [World.body?, World.mocks_updMock]
    by_cases hm : m = m'
    · subst hm
      simp only [if_true, hk, Option.map_some, Option.bind_some, Mock.body?, hg, List.getElem?_set, true_and]
      by_cases ho : off = off'
      · subst ho; simp [hoff]
      · simp [ho, Ne.symm ho]
    · simp [hm, Ne.symm hm]
  have hold : w.body? m off = none := by simp [World.body?, hk, body?_of_get hnone]
  refine ⟨?_, fun m' off' => ?_, h.known, h.sorted, h.bound, h.heap, h.made, by simp [h.named], h.alloc, ?_, h.log.mono fun _ _ => EvRel.mono⟩
  · refine h.mocks.modify m ?_
    intro k' a' hk' ha'
    rw [hk] at hk'; cases hk'
    rw [ha] at ha'; cases ha'
    exact hrel
  · have hh : history ({ w.updMock m g with methTotal := w.methTotal + 1 } : World V E) m' off' = history w m' off' := by
      simp only [history, hbody]
      by_cases hc : m' = m ∧ off' = off
      · obtain ⟨rfl, rfl⟩ := hc
        simp [hold, newBody]
      · rw [if_neg hc]
    rw [hh]
    exact (h.hist m' off').mono fun _ _ => RecRel.mono
  · intro m' off' b hb
    rw [hbody] at hb
    by_cases hc : m' = m ∧ off' = off
    · rw [if_pos hc] at hb
      cases hb
      obtain ⟨rfl, rfl⟩ := hc
      refine ⟨s.named.length, ?_, by simp⟩
      simp only [newBody, h.named]
      exact Nat.mod_eq_of_lt hlt
    · rw [if_neg hc] at hb
      exact (h.meths m' off' b hb).mono

theorem body?_set (k k' : Mock V E) {off : Nat} {b : MBody V E} (hoff : off < k.mocks.length) (h : k'.mocks = k.mocks.set off (some b)) (o : Nat) :
    k'.body? o = if o = off then some b else k.body? o := by
  simp only [Mock.body?, h, List.getElem?_set]
  by_cases ho : off = o
  · subst ho; simp [hoff]
  · simp [ho, Ne.symm ho]

theorem hook_named {s : AState V E} {m : MockId} {a : AMock V E} {off : Nat} (h : (a.stubs off).isSome = false) : (hook s m a off).named = s.named ++ [(m, off)] := by
  simp [hook, h]

/-- Evaluating a method expression. -/
theorem touch_refines {s : AState V E} {w : World V E} (hw : Wf P nm w) (h : Rel P s w) {m : MockId} {slot : SlotRef} {r : Option (AState V E)}
    (hm : mention P s m slot = some r) (hb : ∀ s', r = some s' → s'.named.length < wrap32) :
    match r with
    | none => touch P w m slot = .done none
    | some s' => ∃ w', touch P w m slot = .done (some w') ∧ Rel P s' w' := by
  unfold mention at hm
  cases ha : s.mocks[m]? with
  | none => rw [ha] at hm; cases hm
  | some a =>
    rw [ha] at hm
    dsimp only at hm
    obtain ⟨k, hk, R⟩ := h.mocks.get ha
    split at hm
    · rename_i hal
      have hka : k.alive = true := by rw [R.alive]; exact hal
      have hmock : w.mock? m = some k := World.mock?_eq_some.2 ⟨hk, hka⟩
      cases slot with
      | meth off ctr =>
        dsimp only at hm
        split at hm
        · rename_i hc
          cases hm
          have hl := lt_mocks hw hk hka (off := off) (by rw [R.cls]; exact hc.1)
          simp only [touch, hmock, List.getElem?_eq_getElem hl.1]
          have hget := List.getElem?_eq_getElem hl.1
          have hB := R.body off
          rw [body?_of_get hget] at hB
          cases hx : k.mocks[off] with
          | some b =>
            rw [hx] at hB
            have : (a.stubs off).isSome = true := hB.isSome.symm
            refine ⟨w, rfl, ?_⟩
            rw [hook, if_pos this]; exact h
          | none =>
            rw [hx] at hB hget
            have hnone : (a.stubs off).isSome = false := hB.isSome.symm
            have hlen := hb _ rfl
            rw [hook_named hnone] at hlen
            refine ⟨_, rfl, ?_⟩
            rw [hook, if_neg (by simp [hnone])]
            refine rel_hook h hk hget (by simpa using hlen) _ rfl ?_ ha
            refine ⟨R.cls, R.owner, R.alive, R.data, fun o => ?_, fun hr o ho => ?_, fun hr d hd => ?_, fun d hd => ?_⟩
            · rw [body?_set k _ hl.1 (b := newBody w.methTotal) rfl]
              by_cases ho : o = off
              · simp only [ho, if_true]; exact .nil
              · simp only [ho, if_false]; exact R.body o
            · simp only [Mock.bind, List.getElem?_set] at ho ⊢
              by_cases hoo : off = o
              · subst hoo; simp [hl.1] at ho
              · simp only [hoo, if_false] at ho ⊢; exact R.fresh hr o ho
            · have hne := hc.2 d hd
              simp only [Ne.symm hne.1, if_false]
              exact R.reset hr d hd
            · have hne := hc.2 d hd
              have hdel := R.del d hd
              simp only [Ne.symm hne.1, Ne.symm hne.2, if_false, Mock.bind, List.getElem?_set, hne.2]
              exact hdel
        · cases hm
      | dtor =>
        dsimp only at hm
        cases hd : (P.cls a.cls).dtor with
        | none =>
          rw [hd] at hm
          cases hm
          simp only [touch, hmock, R.cls, hd]
        | some d =>
          rw [hd] at hm
          dsimp only at hm
          split at hm
          · rename_i hc
            cases hm
            have hl := lt_mocks hw hk hka (off := d) (by rw [R.cls]; omega)
            have hl' := lt_mocks hw hk hka (off := d + 1) (by rw [R.cls]; omega)
            simp only [touch, hmock, R.cls, hd, hl'.2.1, if_true, List.getElem?_eq_getElem hl.1]
            have hget := List.getElem?_eq_getElem hl.1
            have hB := R.body d
            rw [body?_of_get hget] at hB
            cases hx : k.mocks[d] with
            | some b =>
              rw [hx] at hB
              have : (a.stubs d).isSome = true := hB.isSome.symm
              refine ⟨w, rfl, ?_⟩
              rw [hook, if_pos this]; exact h
            | none =>
              rw [hx] at hB hget
              have hnone : (a.stubs d).isSome = false := hB.isSome.symm
              have hlen := hb _ rfl
              rw [hook_named hnone] at hlen
              refine ⟨_, rfl, ?_⟩
              rw [hook, if_neg (by simp [hnone])]
              refine rel_hook h hk hget (by simpa using hlen) _ rfl ?_ ha
              refine ⟨R.cls, R.owner, R.alive, R.data, fun o => ?_, fun hr o ho => ?_, fun hr => ?_, fun d' hd' => ?_⟩
              · rw [body?_set k _ hl.1 (b := newBody w.methTotal) rfl]
                by_cases ho : o = d
                · simp only [ho, if_true]; exact .nil
                · simp only [ho, if_false]; exact R.body o
              · simp only [Mock.bindDtor, List.getElem?_set] at ho ⊢
                by_cases hoo : d = o
                · subst hoo; simp [hl.1] at ho
                · simp only [hoo, if_false] at ho ⊢; exact R.fresh hr o ho
              · rw [hc.2] at hr; cases hr
              · have : d' = d := by
                  have e : (P.cls a.cls).dtor = some d' := hd'
                  rw [hd] at e; cases e; rfl
                subst this
                have hdel := R.del d' hd
                refine ⟨by simp [hdel.1], ?_⟩
                simp [Mock.bindDtor, List.getElem?_set, hl'.2.1]
          · cases hm
    · cases hm

theorem mention_len {s s' : AState V E} {m : MockId} {slot : SlotRef} (h : mention P s m slot = some (some s')) : s.named.length ≤ s'.named.length := by
  have hh : ∀ (a : AMock V E) off, s.named.length ≤ (hook s m a off).named.length := by
    intro a off
    unfold hook
    split <;> simp
  unfold mention at h
  repeat' (first | (dsimp only at h; split at h) | split at h)
  all_goals first
    | (simp at h; done)
    | (cases h; exact hh _ _)

theorem mentionAll_len {s s' : AState V E} {ok : Bool} (l : List (MockId × SlotRef)) (h : mentionAll P s l = some (s', ok)) : s.named.length ≤ s'.named.length := by
  induction l generalizing s with
  | nil => simp [mentionAll] at h; rw [h.1]; exact Nat.le_refl _
  | cons x l ih =>
    simp only [mentionAll, Option.bind_eq_bind, Option.bind_eq_some_iff] at h
    obtain ⟨r, h1, h2⟩ := h
    cases r with
    | none => simp at h2; rw [h2.1]; exact Nat.le_refl _
    | some s1 => exact Nat.le_trans (mention_len h1) (ih h2)

theorem touchAll_refines {s s' : AState V E} {w : World V E} (hw : Wf P nm w) (h : Rel P s w) (l : List (MockId × SlotRef))
    (hn : ∀ x ∈ l, SlotRef.Named nm x.1 x.2) {ok : Bool} (hm : mentionAll P s l = some (s', ok)) (hb : s'.named.length < wrap32) :
    ∃ w', touchAll P w l = .done (w', ok) ∧ Rel P s' w' ∧ Wf P nm w' := by
  induction l generalizing s w with
  | nil =>
    simp only [mentionAll, Option.some.injEq, Prod.mk.injEq] at hm
    obtain ⟨rfl, rfl⟩ := hm
    exact ⟨w, rfl, h, hw⟩
  | cons x l ih =>
    simp only [mentionAll, Option.bind_eq_bind, Option.bind_eq_some_iff] at hm
    obtain ⟨r, h1, h2⟩ := hm
    have hb1 : ∀ s1, r = some s1 → s1.named.length < wrap32 := by
      intro s1 hr
      subst hr
      exact Nat.lt_of_le_of_lt (mentionAll_len l h2) hb
    have ht := touch_refines hw h h1 hb1
    cases r with
    | none =>
      simp only [Option.some.injEq, Prod.mk.injEq] at h2
      obtain ⟨rfl, rfl⟩ := h2
      exact ⟨w, by simp only [touchAll, ht, R.bind_done], h, hw⟩
    | some s1 =>
      obtain ⟨w1, g1, g2⟩ := ht
      have hwf := (touch_stable apiStable2 hw.inv2 (hn x (by simp)) g1).wf hw
      obtain ⟨w2, k1, k2, k3⟩ := ih hwf g2 (fun x hx => hn x (by simp [hx])) h2
      exact ⟨w2, by simp only [touchAll, g1, R.bind_done]; exact k1, k2, k3⟩

/-! ## Stubbing -/

theorem install_len {s s' : AState V E} {t : Target V} {acts : List (Act V E)} (h : Spec.install P s t acts = some s') : s'.named = s.named ∧ s'.made = s.made := by
  unfold Spec.install at h
  repeat' (first | (dsimp only at h; split at h) | split at h)
  all_goals first
    | (simp at h; done)
    | (simp only [Option.some.injEq] at h; subst h; exact ⟨rfl, rfl⟩)

theorem onStubs_none {a : AMock V E} {off o : Nat} {f : List (Stub V E) → List (Stub V E)} (h : a.stubs o = none) : (a.onStubs off f).stubs o = none := by
  simp only [AMock.onStubs]
  split <;> simp_all

theorem onStubs_isSome {a : AMock V E} {off o : Nat} {f : List (Stub V E) → List (Stub V E)} : ((a.onStubs off f).stubs o).isSome = (a.stubs o).isSome := by
  simp only [AMock.onStubs]
  split <;> simp

theorem commit_refines {s s' : AState V E} {w : World V E} (h : Rel P s w) {t : Target V} {acts : List (Act V E)}
    (hi : Spec.install P s t acts = some s') : ∃ w', commit P w t acts = .done w' ∧ Rel P s' w' := by
  unfold Spec.install at hi
  cases ha : s.mocks[t.m]? with
  | none => rw [ha] at hi; cases hi
  | some a =>
    rw [ha] at hi
    dsimp only at hi
    obtain ⟨k, hk, R⟩ := h.mocks.get ha
    cases ho : methodOf (P.cls a.cls) t.slot with
    | none => rw [ho] at hi; cases hi
    | some off =>
      rw [ho] at hi
      dsimp only at hi
      split at hi
      · rename_i hc
        obtain ⟨hal, hwr, hst⟩ := hc
        cases hi
        have hka : k.alive = true := by rw [R.alive]; exact hal
        have hmock : w.mock? t.m = some k := World.mock?_eq_some.2 ⟨hk, hka⟩
        rw [methodOf_eq] at ho
        have hbs : (k.body? off).isSome = true := by rw [(R.body off).isSome]; exact hst
        obtain ⟨b, hb⟩ := Option.isSome_iff_exists.1 hbs
        have hwb : w.body? t.m off = some b := by simp [World.body?, hk, hb]
        simp only [commit, hmock, R.cls, ho, hwb]
        refine ⟨_, rfl, ?_⟩
        have hbody : ∀ m' off', ({ w.updBody t.m off (fun b => { b with handlers := b.handlers ++ [⟨w.alloc + 1, ⟨w.alloc, t.kind⟩, ActionSeq.ofActs acts⟩] }) with alloc := w.alloc + 2 } : World V E).body? m' off' =
            if t.m = m' ∧ off = off' then (w.body? m' off').map (fun b => { b with handlers := b.handlers ++ [⟨w.alloc + 1, ⟨w.alloc, t.kind⟩, ActionSeq.ofActs acts⟩] }) else w.body? m' off' :=
          fun m' off' => World.body?_updBody _ _ _ _ _ _
        refine ⟨?_, fun m off' => ?_, h.known, h.sorted, h.bound, h.heap, h.made, h.named, by simp [h.alloc, Nat.mul_add], fun m off' b' hb' => ?_, h.log⟩
        · refine h.mocks.modify t.m ?_
          intro k' a' hk' ha'
          rw [hk] at hk'; cases hk'
          rw [ha] at ha'; cases ha'
          refine ⟨R.cls, R.owner, R.alive, R.data, fun o => ?_, fun hr o hoo => ?_, fun hr d hd => ?_, fun d hd => ?_⟩
          · rw [body?_updBody_mock]
            simp only [AMock.onStubs]
            by_cases hoo : o = off
            · subst hoo
              have hB := R.body o
              rw [hb] at hB
              simp only [if_true, hb, Option.map_some]
              cases hso : a.stubs o with
              | none => rw [hso] at hB; exact hB.elim
              | some l =>
                rw [hso] at hB
                show All2 StubRel _ _
                rw [List.reverse_append]
                exact .cons ⟨rfl, by simp [nameOf, h.alloc], rfl, rep_ofActs acts, writable_iff.1 hwr⟩ hB
            · simp only [hoo, Ne.symm hoo, if_false]; exact R.body o
          · simp only [Mock.updBody, List.getElem?_modify] at hoo
            refine R.fresh hr o ?_
            by_cases hof : off = o
            · subst hof
              simp only [if_true] at hoo
              obtain ⟨x, hx, hxe⟩ := Option.map_eq_some_iff.1 hoo
              cases x with
              | none => exact hx
              | some x => cases hxe
            · simpa [hof] using hoo
          · exact onStubs_none (R.reset hr d hd)
          · have := R.del d hd
            exact ⟨onStubs_none this.1, by simp only [onStubs_isSome]; exact this.2⟩
        · have hh : history ({ w.updBody t.m off (fun b => { b with handlers := b.handlers ++ [⟨w.alloc + 1, ⟨w.alloc, t.kind⟩, ActionSeq.ofActs acts⟩] }) with alloc := w.alloc + 2 } : World V E) m off' = history w m off' := by
            simp only [history, hbody]
            by_cases hc : t.m = m ∧ off = off'
            · rw [if_pos hc]; cases w.body? m off' <;> rfl
            · rw [if_neg hc]
          rw [hh]; exact h.hist m off'
        · rw [hbody] at hb'
          split at hb'
          · obtain ⟨b0, hb0, rfl⟩ := Option.map_eq_some_iff.1 hb'
            exact h.meths m off' b0 hb0
          · exact h.meths m off' b' hb'
      · cases hi

theorem commitAll_refines {s s' : AState V E} {w : World V E} (h : Rel P s w) {ts : List (Target V)} {acts : List (Act V E)}
    (hi : installAll P acts s ts = some s') : ∃ w', commitAll P acts w ts = .done w' ∧ Rel P s' w' := by
  induction ts generalizing s w with
  | nil => simp only [installAll, Option.some.injEq] at hi; subst hi; exact ⟨w, rfl, h⟩
  | cons t ts ih =>
    simp only [installAll, Option.bind_eq_bind, Option.bind_eq_some_iff] at hi
    obtain ⟨s1, h1, h2⟩ := hi
    obtain ⟨w1, g1, g2⟩ := commit_refines h h1
    obtain ⟨w2, k1, k2⟩ := ih g2 h2
    exact ⟨w2, by simp only [commitAll, g1, R.bind_done]; exact k1, k2⟩

theorem installAll_len {s s' : AState V E} {ts : List (Target V)} {acts : List (Act V E)} (h : installAll P acts s ts = some s') :
    s'.named = s.named ∧ s'.made = s.made := by
  induction ts generalizing s with
  | nil => simp only [installAll, Option.some.injEq] at h; subst h; exact ⟨rfl, rfl⟩
  | cons t ts ih =>
    simp only [installAll, Option.bind_eq_bind, Option.bind_eq_some_iff] at h
    obtain ⟨s1, h1, h2⟩ := h
    have := install_len h1
    have := ih h2
    simp_all

theorem stubOne_refines {s s' : AState V E} {w : World V E} (hw : Wf P nm w) (h : Rel P s w) {t : Target V} {acts : List (Act V E)} {u : Bool} {o : ApiOut}
    (hs : aStubOne P s t acts u = some (s', o)) (hb : s'.named.length < wrap32) : ∃ w', stubOne P w t acts u = .done (w', o) ∧ Rel P s' w' := by
  simp only [aStubOne, Option.bind_eq_bind, Option.bind_eq_some_iff] at hs
  obtain ⟨r, h1, h2⟩ := hs
  cases r with
  | none =>
    simp only [Option.some.injEq, Prod.mk.injEq] at h2
    obtain ⟨rfl, rfl⟩ := h2
    have ht := touch_refines hw h h1 (by simp)
    exact ⟨w, by simp only [stubOne, ht, R.bind_done], h⟩
  | some s1 =>
    dsimp only at h2
    cases u with
    | true =>
      simp only [if_true, Option.some.injEq, Prod.mk.injEq] at h2
      obtain ⟨rfl, rfl⟩ := h2
      obtain ⟨w1, g1, g2⟩ := touch_refines hw h h1 (by intro s2 e; cases e; exact hb)
      exact ⟨w1, by simp only [stubOne, g1, R.bind_done, if_true], g2⟩
    | false =>
      simp only [Bool.false_eq_true, if_false, Option.bind_eq_some_iff] at h2
      obtain ⟨s2, h2, h3⟩ := h2
      simp only [Option.some.injEq, Prod.mk.injEq] at h3
      obtain ⟨rfl, rfl⟩ := h3
      obtain ⟨w1, g1, g2⟩ := touch_refines hw h h1 (by intro s2 e; cases e; rw [← (install_len h2).1]; exact hb)
      obtain ⟨w2, g3, g4⟩ := commit_refines g2 h2
      refine ⟨w2, ?_, g4⟩
      simp only [stubOne, g1, R.bind_done, Bool.false_eq_true, if_false, g3, nameOf, g2.alloc]

theorem stubMany_refines {s s' : AState V E} {w : World V E} (hw : Wf P nm w) (h : Rel P s w) {ts : List (Target V)} {act : Act V E} {o : ApiOut}
    (hn : ∀ t ∈ ts, SlotRef.Named nm t.m t.slot)
    (hs : aStubMany P s ts act = some (s', o)) (hb : s'.named.length < wrap32) : ∃ w', stubMany P w ts act = .done (w', o) ∧ Rel P s' w' := by
  simp only [aStubMany, Option.bind_eq_bind, Option.bind_eq_some_iff] at hs
  obtain ⟨⟨s1, ok⟩, h1, h2⟩ := hs
  have hn' : ∀ x ∈ ts.map (fun t => (t.m, t.slot)), SlotRef.Named nm x.1 x.2 := by
    intro x hx
    obtain ⟨t, ht, rfl⟩ := List.mem_map.1 hx
    exact hn t ht
  cases ok with
  | false =>
    simp only [Option.some.injEq, Prod.mk.injEq] at h2
    obtain ⟨rfl, rfl⟩ := h2
    obtain ⟨w1, g1, g2, -⟩ := touchAll_refines hw h _ hn' h1 hb
    exact ⟨w1, by simp only [stubMany, g1, R.bind_done], g2⟩
  | true =>
    simp only [Option.bind_eq_some_iff] at h2
    obtain ⟨s2, h2, h3⟩ := h2
    simp only [Option.some.injEq, Prod.mk.injEq] at h3
    obtain ⟨rfl, rfl⟩ := h3
    obtain ⟨w1, g1, g2, -⟩ := touchAll_refines hw h _ hn' h1 (by rw [← (installAll_len h2).1]; exact hb)
    obtain ⟨w2, g3, g4⟩ := commitAll_refines g2 h2
    exact ⟨w2, by simp only [stubMany, g1, R.bind_done, g3], g4⟩

end FakeIt
