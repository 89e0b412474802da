import Verif.Lemmas.Throwing
/-!
# C82: exceptions anywhere in a call

Whatever throws during a call (copies of arguments, matchers, returned values, callbacks, original methods, event handlers, printing), the first exception reaches the caller, and the call either left no trace
or was recorded and used its action once.  Nothing leaks, nothing is destroyed twice.  If memory runs out this is not so: two allocations come at places where their failure terminates the program or leaves the
method without its fake.
-/
namespace FakeIt
open FakeIt.Throwing FakeIt.Spec.Throwing

variable {X : Type} {th : Nat → Option X}

namespace Throwing.Demo

/-- Two stubbings of a method with two arguments: the newer one returns a value once and then calls the original method for ever, the older one calls a function twice. -/
def start : St := { live := [100], next := 101, blocks := 0, hist := [], stubs := [[⟨.ret, some 1⟩, ⟨.spy [0, 1], none⟩], [⟨.fn, some 2⟩]], faked := true, ordinal := 7, log := [] }

/-- A call that the newer stubbing accepts. -/
def newer : Call := { args := [0, 1], accepts := fun _ => true }

/-- A call that only the older one accepts. -/
def older : Call := { args := [0, 1], accepts := fun h => h == 1 }

/-- Only the `k`-th of all things throws. -/
def only (k : Nat) (n : Nat) : Option String := if n = k then some "x" else none

theorem start_wf : Wf start := ⟨by simp [start], by simp [start]⟩

end Throwing.Demo

/-- **C82.** Every call ends in one of the ways of the specification, whatever throws; in particular nothing undefined happens. -/
theorem C82_every_call_ends {s : St} (hw : Wf s) (c : Call) : ∃ o s', call th c s = .done (o, s') ∧ Ends th c s o s' := call_ends hw c

/-- Nothing throws: a value is returned and the record kept. -/
example : call (fun _ => (none : Option String)) Demo.newer Demo.start = .done (.ok (some 103),
    { live := [100, 101, 102, 103], next := 104, blocks := 1, hist := [[101, 102]], stubs := [[⟨.spy [0, 1], none⟩], [⟨.fn, some 2⟩]], faked := true, ordinal := 8,
      log := [.memory .record, .arg 0, .arg 1, .memory .count, .ask 0, .memory .place, .memory .clause, .memory .clauseCopy, .result, .memory .used] }) := rfl

/-- The copy of the second argument throws: no trace. -/
example : call (Demo.only 2) Demo.newer Demo.start = .done (.exc (.user "x"),
    { Demo.start with next := 102, ordinal := 8, log := [.memory .record, .arg 0, .arg 1] }) := rfl

/-- The copy of the returned value throws: recorded, and the action is used up. -/
example : call (Demo.only 8) Demo.newer Demo.start = .done (.exc (.user "x"),
    { live := [100, 101, 102], next := 103, blocks := 1, hist := [[101, 102]], stubs := [[⟨.spy [0, 1], none⟩], [⟨.fn, some 2⟩]], faked := true, ordinal := 8,
      log := [.memory .record, .arg 0, .arg 1, .memory .count, .ask 0, .memory .place, .memory .clause, .memory .clauseCopy, .result, .memory .used] }) := rfl

theorem ends_of {s s' : St} {o} (hw : Wf s) {c : Call} (h : call th c s = .done (o, s')) : Ends th c s o s' := by
  obtain ⟨o₁, s₁, h₁, he⟩ := C82_every_call_ends (th := th) hw c
  rw [h] at h₁
  injection h₁ with h₁
  injection h₁ with h₁ h₂
  subst h₁ h₂
  exact he

theorem cut_first {os d : List Op} {x : X} : ∀ {n}, cut th n os = (d, some x) →
    ∃ k, d.length = k + 1 ∧ th (n + k) = some x ∧ ∀ m, n ≤ m → m < n + k → th m = none := by
  induction os generalizing d with
  | nil => intro n h; simp [cut] at h
  | cons o os ih =>
    intro n h
    cases ht : th n with
    | some y =>
      rw [cut_cons_some ht] at h
      simp at h
      obtain ⟨rfl, rfl⟩ := h
      exact ⟨0, rfl, ht, fun m h1 h2 => by omega⟩
    | none =>
      rw [cut_cons_none ht] at h
      simp only [Prod.mk.injEq] at h
      obtain ⟨k, hk, hx, hall⟩ := ih (n := n + 1) (Prod.ext rfl h.2)
      refine ⟨k + 1, by rw [← h.1]; simp [hk], by rw [← hx]; congr 1; omega, fun m h1 h2 => ?_⟩
      by_cases hm : m = n
      · rw [hm]; exact ht
      · exact hall m (by omega) (by omega)

private theorem cut_none {os d : List Op} : ∀ {n}, cut th n os = (d, none) → ∀ m, n ≤ m → m < n + d.length → th m = none := by
  induction os generalizing d with
  | nil => intro n h m h1 h2; simp [cut] at h; subst h; simp at h2; omega
  | cons o os ih =>
    intro n h m h1 h2
    cases ht : th n with
    | some y => rw [cut_cons_some ht] at h; simp at h
    | none =>
      rw [cut_cons_none ht] at h
      simp only [Prod.mk.injEq] at h
      by_cases hm : m = n
      · rw [hm]; exact ht
      · have hd : (cut th (n + 1) os).1.length + 1 = d.length := by rw [← h.1]; rfl
        exact ih (d := (cut th (n + 1) os).1) (n := n + 1) (Prod.ext rfl h.2) m (by omega) (by omega)

/-- **C82.** The exception that leaves a call is the first one that was thrown during it (unless the library's own). -/
theorem C82_first_exception_reaches_the_caller {s s' : St} {c : Call} {x : X} (hw : Wf s) (h : call th c s = .done (.exc (.user x), s')) :
    ∃ n, s.log.length ≤ n ∧ n < s'.log.length ∧ th n = some x ∧ ∀ m, s.log.length ≤ m → m < n → th m = none := by
  have he := ends_of hw h
  generalize ho : (Res.exc (.user x) : Res X (Option Nat)) = o at he
  cases he with
  | @early d y s' hc hu =>
    injection ho with ho; injection ho with ho; subst ho
    obtain ⟨k, hk, hx, hall⟩ := cut_first hc
    obtain ⟨_, _, rfl⟩ := hu
    exact ⟨_, Nat.le_add_right _ _, by simp [hk], hx, hall⟩
  | nobody => simp at ho
  | @unprepared h d d' y s' hch hc hp hr =>
    injection ho with ho; injection ho with ho; subst ho
    obtain ⟨k, hk, hx, hall⟩ := cut_first hp
    obtain ⟨_, _, _, rfl⟩ := hr
    refine ⟨_, by omega, by simp [hk]; omega, hx, fun m h1 h2 => ?_⟩
    by_cases hm : m < s.log.length + d.length
    · exact cut_none hc m h1 hm
    · exact hall m (by omega) h2
  | @exhausted h d d' e s' hch hc hs hp ht hr =>
    cases e with
    | none => simp at ho
    | some y =>
      injection ho with ho; injection ho with ho; subst ho
      obtain ⟨k, hk, hx, hall⟩ := cut_first ht
      obtain ⟨_, _, _, rfl⟩ := hr
      refine ⟨_, by omega, by simp [hk, prepare]; omega, hx, fun m h1 h2 => ?_⟩
      by_cases hm : m < s.log.length + d.length
      · exact cut_none hc m h1 hm
      · by_cases hm : m < s.log.length + d.length + 2
        · exact cut_none hp m (by omega) (by simp [prepare]; omega)
        · exact hall m (by omega) h2
  | @answered h d a rest d' e r s' hch hc hs hp ht hi hn hr =>
    cases e with
    | none => simp at ho
    | some y =>
      injection ho with ho; injection ho with ho; subst ho
      obtain ⟨k, hk, hx, hall⟩ := cut_first ht
      obtain ⟨_, _, _, rfl⟩ := hr
      refine ⟨_, by omega, by simp [hk, prepare]; omega, hx, fun m h1 h2 => ?_⟩
      by_cases hm : m < s.log.length + d.length
      · exact cut_none hc m h1 hm
      · by_cases hm : m < s.log.length + d.length + 2
        · exact cut_none hp m (by omega) (by simp [prepare]; omega)
        · exact hall m (by omega) h2
  | terminated => simp at ho

/-- Two things would throw: the older stubbing's matchers are never asked again after the newer one's threw. -/
example : call (fun n => if n = 4 then some "first" else if n = 5 then some "second" else none) Demo.older Demo.start = .done (.exc (.user "first"),
    { Demo.start with next := 103, ordinal := 8, log := [.memory .record, .arg 0, .arg 1, .memory .count, .ask 0] }) := rfl

/-- **C82.** If nothing throws, a call returns exactly if the newest stubbing that accepts it has an action left, and is reported otherwise. -/
theorem C82_without_exceptions {s s' : St} {c : Call} {o} (hw : Wf s) (h : call th c s = .done (o, s')) (hno : ∀ n, th n = none) :
    (∃ r, o = .ok r ∧ ∃ h a rest, chosen c.accepts s.stubs.length 0 = some h ∧ s.stubs[h]? = some (a :: rest) ∧ (r = none ↔ a.kind = .plain)) ∨
    (o = .exc .unexpected ∧ ∀ h, chosen c.accepts s.stubs.length 0 = some h → s.stubs[h]? = some []) := by
  have hcut : ∀ {n os d x}, cut th n os = (d, some x) → False := by
    intro n os d x hc
    obtain ⟨k, -, hx, -⟩ := cut_first hc
    rw [hno] at hx; simp at hx
  cases ends_of hw h with
  | early hc => exact (hcut hc).elim
  | nobody hch => exact .inr ⟨rfl, fun h hh => by rw [hch] at hh; simp at hh⟩
  | unprepared _ _ hp => exact (hcut hp).elim
  | @exhausted j d d' e s' hch hc hs hp ht hr =>
    cases e with
    | some x => exact (hcut ht).elim
    | none => exact .inr ⟨rfl, fun i hi => by rw [hch] at hi; injection hi with hi; subst hi; exact hs⟩
  | @answered j d a rest d' e r s' hch hc hs hp ht hi hn hr =>
    cases e with
    | some x => exact (hcut ht).elim
    | none => exact .inl ⟨r, rfl, j, a, rest, hch, hs, by simpa using hi⟩
  | @terminated j d a rest d' e x s' hch hc hs hp ht hu hx => rw [hno] at hx; simp at hx

/-- The older stubbing accepts, the newer one does not. -/
example : (call (fun _ => (none : Option String)) Demo.older Demo.start) = .done (.ok (some 103),
    { live := [100, 101, 102, 103], next := 104, blocks := 1, hist := [[101, 102]], stubs := [[⟨.ret, some 1⟩, ⟨.spy [0, 1], none⟩], [⟨.fn, some 1⟩]], faked := true, ordinal := 8,
      log := [.memory .record, .arg 0, .arg 1, .memory .count, .ask 0, .ask 1, .memory .place, .memory .clause, .memory .clauseCopy, .body] }) := rfl

/-- **C82.** A call that is not in the list of calls afterwards left no trace at all: nothing leaks, no action was used, the method is still faked. -/
theorem C82_unrecorded_calls_leave_no_trace {s s' : St} {c : Call} {o} (hw : Wf s) (h : call th c s = .done (o, s')) (ho : o ≠ .dead) (hh : s'.hist = s.hist) :
    s'.live = s.live ∧ s'.blocks = s.blocks ∧ s'.stubs = s.stubs ∧ s'.faked = s.faked := by
  cases ends_of hw h with
  | early _ hu => obtain ⟨_, _, rfl⟩ := hu; exact ⟨rfl, rfl, rfl, rfl⟩
  | nobody _ _ hu => obtain ⟨_, _, rfl⟩ := hu; exact ⟨rfl, rfl, rfl, rfl⟩
  | unprepared _ _ _ hr => obtain ⟨_, _, _, rfl⟩ := hr; simp at hh
  | exhausted _ _ _ _ _ hr => obtain ⟨_, _, _, rfl⟩ := hr; simp at hh
  | answered _ _ _ _ _ _ _ hr => obtain ⟨_, _, _, rfl⟩ := hr; simp at hh
  | terminated => simp at ho

private theorem mem_at {l : List Op} {n : Nat} (pre mid post : List Op) (o : Op) (h : l = pre ++ (mid ++ o :: post)) (hn : n = pre.length + mid.length) : l[n]? = some o := by
  subst h hn
  rw [List.getElem?_append_right (by omega)]
  simp

/-- **C82 (partial).** If only code of the user throws, the program is not terminated and the method stays faked; the call left no trace, or was recorded with the action used once (whether it threw or not). The
claim for everything that may throw is false, see below. -/
theorem C82_exceptions_of_the_user_are_safe_partial {s s' : St} {c : Call} {o} (hw : Wf s) (h : call th c s = .done (o, s')) (hm : Enough th s s') :
    o ≠ .dead ∧ s'.faked = s.faked ∧
      (∃ d, Untouched s d s' ∨ ∃ h res, chosen c.accepts s.stubs.length 0 = some h ∧ Recorded c s d res (s.stubs.modify h advance) s.faked s') := by
  cases ends_of hw h with
  | early _ hu => exact ⟨by simp, by obtain ⟨_, _, rfl⟩ := hu; rfl, _, .inl hu⟩
  | nobody _ _ hu => exact ⟨by simp, by obtain ⟨_, _, rfl⟩ := hu; rfl, _, .inl hu⟩
  | @unprepared h d d' x s' hch hc hp hr =>
    exfalso
    obtain ⟨_, _, _, rfl⟩ := hr
    cases h1 : th (s.log.length + d.length) with
    | some y =>
      have := hm (s.log.length + d.length) .clause (by omega) (by
        rw [prepare, cut_cons_some h1] at hp
        obtain ⟨rfl, _⟩ := Prod.mk.inj hp
        exact mem_at s.log d [] _ rfl rfl)
      rw [h1] at this; simp at this
    | none =>
      rw [prepare, cut_cons_none h1] at hp
      cases h2 : th (s.log.length + d.length + 1) with
      | none => rw [cut_one_none h2] at hp; simp at hp
      | some y =>
        rw [cut_one_some h2] at hp
        obtain ⟨rfl, _⟩ := Prod.mk.inj hp
        have := hm (s.log.length + d.length + 1) .clauseCopy (by omega) (mem_at s.log (d ++ [.memory .clause]) [] _ (by simp) (by simp [Nat.add_assoc]))
        rw [h2] at this; simp at this
  | @exhausted j d d' e s' hch hc hs hp ht hr =>
    refine ⟨by cases e <;> simp, by obtain ⟨_, _, _, rfl⟩ := hr; rfl, d ++ prepare ++ d', .inr ⟨j, none, hch, ?_⟩⟩
    rw [modify_eq_set hs]
    have : s.stubs.set j (advance []) = s.stubs := by
      obtain ⟨hl, hs⟩ := List.getElem?_eq_some_iff.mp hs
      simp only [advance, ← hs, List.set_getElem_self]
    rw [this]
    exact hr
  | @answered j d a rest d' e r s' hch hc hs hp ht hi hn hr =>
    have hf : (s.faked && !(e.isSome && (d' == [.memory .swapper] || d' == [.memory .swapper, .memory .swapperCopy]))) = s.faked := by
      cases e with
      | none => simp
      | some x =>
        obtain ⟨_, _, _, rfl⟩ := hr
        by_cases h1 : d' = [.memory .swapper]
        · exfalso
          subst h1
          obtain ⟨k, hk, hx, -⟩ := cut_first ht
          simp at hk; subst hk
          have := hm (s.log.length + d.length + 2) .swapper (by omega) (mem_at s.log (d ++ prepare) (if usedUp a then [.memory .used] else []) _ (by simp) (by simp [prepare, Nat.add_assoc]))
          simp [this] at hx
        · by_cases h2 : d' = [.memory .swapper, .memory .swapperCopy]
          · exfalso
            subst h2
            obtain ⟨k, hk, hx, -⟩ := cut_first ht
            simp at hk; subst hk
            have := hm (s.log.length + d.length + 3) .swapperCopy (by omega)
              (mem_at s.log (d ++ prepare ++ [.memory .swapper]) (if usedUp a then [.memory .used] else []) _ (by simp) (by simp [prepare, Nat.add_assoc]))
            rw [show s.log.length + d.length + 2 + 1 = s.log.length + d.length + 3 by omega, this] at hx
            simp at hx
          · simp [h1, h2]
    rw [hf] at hr
    refine ⟨by cases e <;> simp, by obtain ⟨_, _, _, rfl⟩ := hr; rfl, _, .inr ⟨j, r, hch, hr⟩⟩
  | @terminated h d a rest d' e x s' hch hc hs hp ht hu hx hl =>
    exfalso
    have := hm (s.log.length + d.length + 2 + d'.length) .used (by omega) (by
      rw [hl]
      exact mem_at s.log (d ++ prepare ++ d') [] _ (by simp) (by simp [prepare, Nat.add_assoc]; omega))
    rw [this] at hx; simp at hx

/-- The original method, called by a spy, throws: recorded, the copies of the parameters are gone, the method is faked again. -/
example : call (Demo.only 12) Demo.newer { Demo.start with stubs := [[⟨.spy [0, 1], none⟩]] } = .done (.exc (.user "x"),
    { live := [100, 101, 102], next := 105, blocks := 1, hist := [[101, 102]], stubs := [[⟨.spy [0, 1], none⟩]], faked := true, ordinal := 8,
      log := [.memory .record, .arg 0, .arg 1, .memory .count, .ask 0, .memory .place, .memory .clause, .memory .clauseCopy, .memory .swapper, .memory .swapperCopy, .param 0, .param 1,
        .original] }) := rfl

/-- **C82.** The claim that every exception leaves the method faked is false: a spy sets the entry of the table to the original method before the object that sets it back has its memory; if there is none, the
exception leaves the method without its fake for good. -/
theorem C82_out_of_memory_may_unfake : ¬ ∀ (th : Nat → Option String) (c : Call) (s s' : St) (o), Wf s → call th c s = .done (o, s') → o ≠ .dead → s'.faked = s.faked := by
  intro h
  have := h (Demo.only 8) Demo.newer { Demo.start with stubs := [[⟨.spy [0, 1], none⟩]] } _ _ Demo.start_wf rfl (by simp)
  exact absurd this (by decide)

/-- **C82.** The claim that no exception terminates the program is false: the memory for the used action is allocated in a destructor. -/
theorem C82_out_of_memory_may_terminate : ∃ (th : Nat → Option String) (c : Call) (s s' : St), Wf s ∧ call th c s = .done (.dead, s') :=
  ⟨Demo.only 9, Demo.newer, Demo.start, _, Demo.start_wf, rfl⟩

theorem wf_next {s : St} (hw : Wf s) {c : Call} {o} {s' : St} (he : Ends th c s o s') (ho : o ≠ .dead) :
    Wf s' ∧ ∃ new : List (List Nat), s'.hist = s.hist ++ new ∧ s'.blocks = s.blocks + new.length ∧
      s'.live = s.live ++ new.flatten ++ returned o := by
  have hu : ∀ {d}, Untouched s d s' → returned o = [] → Wf s' ∧ ∃ new : List (List Nat), s'.hist = s.hist ++ new ∧ s'.blocks = s.blocks + new.length ∧
      s'.live = s.live ++ new.flatten ++ returned o := by
    intro d hu hn
    obtain ⟨k, hk, rfl⟩ := hu
    refine ⟨⟨hw.1, fun id hid => Nat.lt_of_lt_of_le (hw.2 id hid) hk⟩, [], by simp, by simp, ?_⟩
    rw [hn]; simp
  have hr : ∀ {d res stubs faked}, Recorded c s d res stubs faked s' → returned o = res.toList → Wf s' ∧ ∃ new : List (List Nat), s'.hist = s.hist ++ new ∧
      s'.blocks = s.blocks + new.length ∧ s'.live = s.live ++ new.flatten ++ returned o := by
    intro d res stubs faked hr hn
    obtain ⟨k, hk, hi, rfl⟩ := hr
    have hb := wf_range hw c.args.length
    refine ⟨?_, [List.range' s.next c.args.length], by simp, by simp, by rw [hn]; simp⟩
    cases res with
    | none =>
      refine ⟨by simpa using hb.1, fun id hid => ?_⟩
      have := hb.2 id (by simpa using hid)
      simp only; omega
    | some r =>
      have hri := hi r rfl
      refine ⟨?_, fun id hid => ?_⟩
      · refine List.nodup_append.mpr ⟨hb.1, by simp, ?_⟩
        intro a ha b hbm hab
        have := hb.2 a ha
        simp at hbm
        omega
      · simp only [List.mem_append, Option.mem_toList, Option.some.injEq] at hid
        rcases hid with hid | hid
        · have := hb.2 id (by simpa using hid)
          simp only; omega
        · simp only; omega
  cases he with
  | early _ h => exact hu h rfl
  | nobody _ _ h => exact hu h rfl
  | unprepared _ _ _ h => exact hr h rfl
  | exhausted _ _ _ _ _ h => exact hr h rfl
  | @answered _ _ _ _ _ e r _ _ _ _ _ _ hi _ h =>
    refine hr h ?_
    cases e with
    | none => rfl
    | some x =>
      have : r = none := hi.mpr (.inl (by simp))
      subst this; rfl
  | terminated => simp at ho

private theorem calls_wf : ∀ (cs : List Call) (out : List Nat) (s : St), Wf s → ∃ r, calls th cs out s = .done r ∧ ∀ out' s', r = some (out', s') →
    Wf s' ∧ ∃ (new : List (List Nat)) (got : List Nat), s'.hist = s.hist ++ new ∧ s'.blocks = s.blocks + new.length ∧ out' = out ++ got ∧ s'.live.Perm (s.live ++ (new.flatten ++ got))
  | [], out, s, hw => ⟨_, rfl, fun out' s' h => by
      simp only [Option.some.injEq, Prod.mk.injEq] at h
      obtain ⟨rfl, rfl⟩ := h
      exact ⟨hw, [], [], by simp, by simp, by simp, by simp⟩⟩
  | c :: cs, out, s, hw => by
    unfold calls
    by_cases hf : s.faked = true
    · rw [if_pos hf]
      obtain ⟨o, s₁, hc, he⟩ := C82_every_call_ends (th := th) hw c
      rw [hc]
      cases o with
      | dead => exact ⟨none, rfl, by simp⟩
      | ok r =>
        obtain ⟨hw₁, new, hh, hb, hl⟩ := wf_next hw he (by simp)
        obtain ⟨R, hR, hall⟩ := calls_wf cs (out ++ r.toList) s₁ hw₁
        refine ⟨R, hR, fun out' s' h => ?_⟩
        obtain ⟨hw', new', got, hh', hb', ho', hl'⟩ := hall out' s' h
        refine ⟨hw', new ++ new', r.toList ++ got, by rw [hh', hh]; simp, by rw [hb', hb]; simp; omega, by rw [ho']; simp, hl'.trans ?_⟩
        rw [hl]
        simp only [List.append_assoc, List.flatten_append]
        refine List.Perm.append_left _ (List.Perm.append_left _ ?_)
        rw [← List.append_assoc, ← List.append_assoc]
        exact List.Perm.append_right _ List.perm_append_comm
      | exc e =>
        obtain ⟨hw₁, new, hh, hb, hl⟩ := wf_next hw he (by simp)
        obtain ⟨R, hR, hall⟩ := calls_wf cs out s₁ hw₁
        refine ⟨R, hR, fun out' s' h => ?_⟩
        obtain ⟨hw', new', got, hh', hb', ho', hl'⟩ := hall out' s' h
        refine ⟨hw', new ++ new', got, by rw [hh', hh]; simp, by rw [hb', hb]; simp; omega, ho', hl'.trans ?_⟩
        rw [hl]
        simp [returned]
    · rw [if_neg hf]
      exact calls_wf cs out s hw

private theorem destroyAll_perm : ∀ (ids : List Nat) (s : St) (rest : List Nat), s.live.Perm (ids ++ rest) → ∃ l, destroyAll ids s = .done { s with live := l } ∧ l.Perm rest
  | [], s, rest, h => ⟨s.live, rfl, h⟩
  | id :: ids, s, rest, h => by
    have hm : id ∈ s.live := h.mem_iff.mpr (by simp)
    have he : (s.live.erase id).Perm (ids ++ rest) := by
      have := h.erase id
      simpa using this
    obtain ⟨l, hd, hl⟩ := destroyAll_perm ids { s with live := s.live.erase id } rest he
    refine ⟨l, ?_, hl⟩
    simp only [destroyAll, destroy, if_pos hm, R.bind_done]
    exact hd

private theorem forget_perm : ∀ (hs : List (List Nat)) (s : St) (rest : List Nat), s.live.Perm (hs.flatten ++ rest) → s.blocks = hs.length →
    ∃ l, forget hs s = .done { s with live := l, blocks := 0 } ∧ l.Perm rest
  | [], s, rest, h, hb => ⟨s.live, by simp at hb; simp [forget, ← hb], h⟩
  | ids :: hs, s, rest, h, hb => by
    have hp : s.live.Perm (ids.reverse ++ (hs.flatten ++ rest)) := by
      refine h.trans ?_
      simp only [List.flatten_cons, List.append_assoc]
      exact List.Perm.append_right _ (List.reverse_perm ids).symm
    obtain ⟨l, hd, hl⟩ := destroyAll_perm ids.reverse s _ hp
    obtain ⟨l', hf, hl'⟩ := forget_perm hs { s with live := l, blocks := hs.length } rest hl rfl
    refine ⟨l', ?_, hl'⟩
    simp only [forget, release, hd, R.bind_done, free, hb, List.length_cons]
    exact hf

/-- **C82.** Nothing leaks and nothing is destroyed twice, however many calls are made and whatever throws during them: apart from what existed before and what was returned, exactly the arguments of the
recorded calls exist, and with the records they go. -/
theorem C82_nothing_leaks {s : St} (hw : Wf s) (h0 : s.hist = []) (hb : s.blocks = 0) (cs : List Call) :
    ∃ r, calls th cs [] s = .done r ∧ ∀ out s', r = some (out, s') →
      s'.live.Perm (s.live ++ (s'.hist.flatten ++ out)) ∧ s'.blocks = s'.hist.length ∧
      ∃ s'', clear s' = .done s'' ∧ s''.live.Perm (s.live ++ out) ∧ s''.blocks = 0 ∧ s''.hist = [] := by
  obtain ⟨r, hr, hall⟩ := calls_wf (th := th) cs [] s hw
  refine ⟨r, hr, fun out s' h => ?_⟩
  obtain ⟨-, new, got, hh, hb', ho, hl⟩ := hall out s' h
  rw [h0, List.nil_append] at hh
  rw [List.nil_append] at ho
  subst hh ho
  rw [hb, Nat.zero_add] at hb'
  refine ⟨hl, hb', ?_⟩
  obtain ⟨l, hf, hp⟩ := forget_perm s'.hist { s' with hist := [] } (s.live ++ out) (hl.trans (by
    rw [← List.append_assoc, ← List.append_assoc]
    exact List.Perm.append_right _ List.perm_append_comm)) hb'
  exact ⟨_, hf, hp, rfl, rfl⟩

/-- Three calls; the second one's first copy throws, and the third one's second parameter of the original method. -/
example : calls (fun n => if n = 11 ∨ n = 23 then some "x" else none) [Demo.newer, Demo.newer, Demo.newer] [] Demo.start = .done (some ([103],
    { live := [100, 101, 102, 103, 104, 105], next := 107, blocks := 2, hist := [[101, 102], [104, 105]], stubs := [[⟨.spy [0, 1], none⟩], [⟨.fn, some 2⟩]], faked := true, ordinal := 10,
      log := [.memory .record, .arg 0, .arg 1, .memory .count, .ask 0, .memory .place, .memory .clause, .memory .clauseCopy, .result, .memory .used,
        .memory .record, .arg 0,
        .memory .record, .arg 0, .arg 1, .memory .count, .ask 0, .memory .place, .memory .clause, .memory .clauseCopy, .memory .swapper, .memory .swapperCopy, .param 0, .param 1] })) := rfl

end FakeIt
