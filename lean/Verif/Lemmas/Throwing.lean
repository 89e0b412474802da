import Verif.Spec.Throwing
/-!
# Exceptions anywhere in a call: the phases
-/
namespace FakeIt.Throwing
open FakeIt.Spec.Throwing

variable {X : Type} {th : Nat → Option X}

theorem cut_done {os : List Op} : ∀ {n d}, cut th n os = (d, none) → d = os := by
  induction os with
  | nil => intro n d h; simp [cut] at h; simp [h]
  | cons o os ih =>
    intro n d h
    unfold cut at h
    split at h
    · simp at h
    · simp only [Prod.mk.injEq] at h
      rw [← h.1, ih (Prod.ext rfl h.2 : cut th (n + 1) os = ((cut th (n + 1) os).1, none))]

theorem cut_append_some {a b : List Op} {d : List Op} {x : X} : ∀ {n}, cut th n a = (d, some x) → cut th n (a ++ b) = (d, some x) := by
  induction a generalizing d with
  | nil => intro n h; simp [cut] at h
  | cons o os ih =>
    intro n h
    rw [List.cons_append]
    unfold cut at h ⊢
    split at h
    · simpa using h
    · simp only [Prod.mk.injEq] at h
      have := ih (n := n + 1) (d := (cut th (n + 1) os).1) (Prod.ext rfl h.2)
      simp [this, h.1]

theorem cut_cons_none {n : Nat} {o : Op} {os : List Op} (h : th n = none) : cut th n (o :: os) = (o :: (cut th (n + 1) os).1, (cut th (n + 1) os).2) := by
  simp [cut, h]

theorem cut_cons_some {n : Nat} {o : Op} {os : List Op} {x : X} (h : th n = some x) : cut th n (o :: os) = ([o], some x) := by
  simp [cut, h]

theorem cut_some_ne {n : Nat} {os d : List Op} {x : X} (h : cut th n os = (d, some x)) : d ≠ [] := by
  cases os with
  | nil => simp [cut] at h
  | cons o os =>
    cases ht : th n with
    | some y => rw [cut_cons_some ht] at h; simp at h; simp [← h.1]
    | none => rw [cut_cons_none ht] at h; simp at h; simp [← h.1]

theorem cut_append_none {a b : List Op} : ∀ {n}, cut th n a = (a, none) →
    cut th n (a ++ b) = (a ++ (cut th (n + a.length) b).1, (cut th (n + a.length) b).2) := by
  induction a with
  | nil => intro n _; simp
  | cons o os ih =>
    intro n h
    cases ht : th n with
    | some x => rw [cut_cons_some ht] at h; simp at h
    | none =>
      rw [cut_cons_none ht] at h
      simp only [Prod.mk.injEq, List.cons.injEq, true_and] at h
      have := ih (n := n + 1) (Prod.ext h.1 h.2)
      rw [List.cons_append, cut_cons_none ht, this]
      simp [Nat.add_assoc, Nat.add_comm 1]

theorem cut_one_none {n : Nat} {o : Op} (h : th n = none) : cut th n [o] = ([o], none) := by simp [cut, h]

theorem cut_one_some {n : Nat} {o : Op} {x : X} (h : th n = some x) : cut th n [o] = ([o], some x) := by simp [cut, h]

theorem op_none {o : Op} {s : St} (h : th s.log.length = none) : op th o s = (.ok (), { s with log := s.log ++ [o] }) := by simp [op, h]

theorem op_some {o : Op} {s : St} {x : X} (h : th s.log.length = some x) : op th o s = (.exc (.user x), { s with log := s.log ++ [o] }) := by simp [op, h]

theorem destroyAll_reverse {base tail : List Nat} : ∀ (acc : List Nat) (s : St), s.live = base ++ acc.reverse ++ tail → s.live.Nodup →
    destroyAll acc s = .done { s with live := base ++ tail }
  | [], s, h, _ => by simp [destroyAll]; cases s; simp_all
  | id :: acc, s, h, hn => by
    have hl : s.live = (base ++ acc.reverse) ++ id :: tail := by rw [h]; simp
    have hm : id ∈ s.live := by rw [hl]; simp
    have hno : id ∉ base ++ acc.reverse := by
      rw [hl] at hn
      intro hi
      exact (List.nodup_append.mp hn).2.2 _ hi _ (List.mem_cons_self ..) rfl
    have he : s.live.erase id = base ++ acc.reverse ++ tail := by
      rw [hl, List.erase_append_right _ hno]; simp
    rw [destroyAll, destroy, if_pos hm]
    simp only [R.bind_done]
    rw [destroyAll_reverse acc { s with live := s.live.erase id } he (hn.erase _)]

theorem wf_log {s : St} (h : Wf s) (l : List Op) : Wf { s with log := l } := h

theorem wf_push {s : St} (h : Wf s) : ({ s with live := s.live ++ [s.next], next := s.next + 1 } : St) |> Wf := by
  refine ⟨?_, ?_⟩
  · refine List.nodup_append.mpr ⟨h.1, by simp, ?_⟩
    intro a ha b hb hab
    have := h.2 a ha
    simp at hb
    omega
  · intro id hid
    simp only [List.mem_append, List.mem_singleton] at hid
    rcases hid with hid | hid
    · have := h.2 id hid; simp only; omega
    · simp only; omega

theorem make_none {o : Op} {s : St} (h : th s.log.length = none) :
    make th o s = (.ok s.next, { s with live := s.live ++ [s.next], next := s.next + 1, log := s.log ++ [o] }) := by simp [make, op_none h]

theorem make_some {o : Op} {s : St} {x : X} (h : th s.log.length = some x) : make th o s = (.exc (.user x), { s with log := s.log ++ [o] }) := by
  simp [make, op_some h]

theorem makeAll_run {mk : Nat → Op} {base : List Nat} : ∀ (is acc : List Nat) (s : St), s.live = base ++ acc.reverse → Wf s →
    (∃ d x k, cut th s.log.length (is.map mk) = (d, some x) ∧ s.next ≤ k ∧
      makeAll th mk is acc s = .done (.exc (.user x), { s with live := base, next := k, log := s.log ++ d })) ∨
    (cut th s.log.length (is.map mk) = (is.map mk, none) ∧
      makeAll th mk is acc s = .done (.ok (acc.reverse ++ List.range' s.next is.length),
        { s with live := s.live ++ List.range' s.next is.length, next := s.next + is.length, log := s.log ++ is.map mk }))
  | [], acc, s, h, hw => by right; simp [cut, makeAll]
  | i :: is, acc, s, h, hw => by
    cases ht : th s.log.length with
    | some x =>
      left
      refine ⟨[mk i], x, s.next, by simp [cut, ht], Nat.le_refl _, ?_⟩
      simp only [makeAll, make_some ht]
      rw [destroyAll_reverse (base := base) (tail := []) acc { s with log := s.log ++ [mk i] } (by simp [h]) hw.1]
      simp
    | none =>
      simp only [makeAll, make_none ht]
      rcases makeAll_run (mk := mk) (base := base) is (s.next :: acc) { s with live := s.live ++ [s.next], next := s.next + 1, log := s.log ++ [mk i] }
        (by simp [h]) (wf_log (wf_push hw) _) with ⟨d, x, k, hc, hk, hm⟩ | ⟨hc, hm⟩
      · left
        refine ⟨mk i :: d, x, k, ?_, by simp only at hk; omega, ?_⟩
        · simp only [List.length_append, List.length_singleton] at hc
          simp [cut, ht, hc]
        · rw [hm]; simp
      · right
        refine ⟨?_, ?_⟩
        · simp only [List.length_append, List.length_singleton] at hc
          simp [cut, ht, hc]
        · rw [hm]
          simp [List.range'_succ, Nat.add_assoc, Nat.add_comm 1]

theorem wf_range {s : St} (h : Wf s) (n : Nat) : (s.live ++ List.range' s.next n).Nodup ∧ ∀ id ∈ s.live ++ List.range' s.next n, id < s.next + n := by
  refine ⟨List.nodup_append.mpr ⟨h.1, List.nodup_range', ?_⟩, ?_⟩
  · intro a ha b hb hab
    have := h.2 a ha
    simp at hb
    omega
  · intro id hid
    simp only [List.mem_append, List.mem_range'_1] at hid
    rcases hid with hid | hid
    · have := h.2 id hid; omega
    · omega

theorem pick_run {accepts : Nat → Bool} : ∀ (n h : Nat) (s : St),
    (∃ d x, cut th s.log.length (asked accepts n h) = (d, some x) ∧ pick th accepts n h s = (.exc (.user x), { s with log := s.log ++ d })) ∨
    (cut th s.log.length (asked accepts n h) = (asked accepts n h, none) ∧
      pick th accepts n h s = (.ok (chosen accepts n h), { s with log := s.log ++ asked accepts n h }))
  | 0, h, s => by right; simp [asked, cut, pick, chosen]
  | n + 1, h, s => by
    cases ht : th s.log.length with
    | some x => left; exact ⟨[.ask h], x, by simp [asked, cut, ht], by simp [pick, op_some ht]⟩
    | none =>
      by_cases ha : accepts h = true
      · right; simp [asked, cut, ht, ha, pick, op_none ht, chosen]
      · simp only [asked, chosen, pick, op_none ht, ha, if_false, Bool.false_eq_true]
        rcases pick_run (accepts := accepts) n (h + 1) { s with log := s.log ++ [.ask h] } with ⟨d, x, hc, hp⟩ | ⟨hc, hp⟩
        · left
          simp only [List.length_append, List.length_singleton] at hc
          exact ⟨.ask h :: d, x, by simp [cut, ht, hc], by rw [hp]; simp⟩
        · right
          simp only [List.length_append, List.length_singleton] at hc
          exact ⟨by simp [cut, ht, hc], by rw [hp]; simp⟩

theorem chosen_lt {accepts : Nat → Bool} : ∀ {n h k : Nat}, chosen accepts n h = some k → k < h + n
  | 0, _, _, h => by simp [chosen] at h
  | n + 1, h, k, hc => by
    unfold chosen at hc
    split at hc
    · simp at hc; omega
    · have := chosen_lt hc; omega

theorem release_run {base : List Nat} {s : St} {ids : List Nat} {n : Nat} (h : s.live = base ++ ids) (hn : s.live.Nodup) (hb : s.blocks = n + 1) :
    release ids s = .done { s with live := base, blocks := n } := by
  unfold release
  rw [destroyAll_reverse (base := base) (tail := []) ids.reverse s (by simp [h]) hn]
  simp [free, hb]

/-- How a run that was cut ends. -/
def ending (r : Option Nat) (e : Option X) : Res X (Option Nat) := e.elim (.ok r) fun x => .exc (.user x)

/-- The entry of the table after the action did `d` and ended with `e`. -/
def stays (d : List Op) (e : Option X) : Bool := !(e.isSome && (d == [.memory .swapper] || d == [.memory .swapper, .memory .swapperCopy]))

theorem original_run {s : St} (hw : Wf s) (params : List Nat) :
    ∃ d e r k, cut th s.log.length (params.map .param ++ [.original]) = (d, e) ∧ d ≠ [] ∧ (r = none ↔ e ≠ none) ∧ s.next ≤ k ∧ (∀ id ∈ r, s.next ≤ id ∧ id < k) ∧
      original th params s = .done (ending r e, { s with live := s.live ++ r.toList, next := k, log := s.log ++ d }) := by
  unfold original
  rcases makeAll_run (th := th) (mk := .param) (base := s.live) params [] s (by simp) hw with ⟨d, x, k, hc, hk, hm⟩ | ⟨hc, hm⟩
  · refine ⟨d, some x, none, k, cut_append_some hc, cut_some_ne hc, by simp, hk, by simp, ?_⟩
    rw [hm]; simp [ending]
  · rw [hm]
    simp only [R.bind_done, List.reverse_nil, List.nil_append]
    have hr := wf_range hw params.length
    cases ht : th (s.log.length + params.length) with
    | some x =>
      refine ⟨_, _, none, s.next + params.length, cut_append_none hc, by simp [cut, ht], ?_, by omega, by simp, ?_⟩
      · simp [cut, ht]
      · rw [make_some (x := x) (by simpa using ht)]
        rw [destroyAll_reverse (base := s.live) (tail := []) (List.range' s.next params.length).reverse
          { s with live := s.live ++ List.range' s.next params.length, next := s.next + params.length, log := s.log ++ params.map .param ++ [.original] } (by simp) hr.1]
        simp [some', cut, ht, ending]
    | none =>
      refine ⟨_, _, some (s.next + params.length), s.next + params.length + 1, cut_append_none hc, by simp [cut, ht], ?_, by omega, by simp, ?_⟩
      · simp [cut, ht]
      · rw [make_none (by simpa using ht)]
        rw [destroyAll_reverse (base := s.live) (tail := [s.next + params.length]) (List.range' s.next params.length).reverse
          { s with live := s.live ++ List.range' s.next params.length ++ [s.next + params.length], next := s.next + params.length + 1,
                   log := s.log ++ params.map .param ++ [.original] } (by simp) ?_]
        · simp [some', cut, ht, ending]
        · have := (wf_push (s := { s with live := s.live ++ List.range' s.next params.length, next := s.next + params.length }) hr).1
          simpa using this

theorem viaOriginal_run {s : St} (hw : Wf s) (params : List Nat) :
    ∃ d e r k, cut th s.log.length (does (.spy params)) = (d, e) ∧ (r = none ↔ e ≠ none) ∧ s.next ≤ k ∧ (∀ id ∈ r, s.next ≤ id ∧ id < k) ∧
      viaOriginal th params s = .done (ending r e, { s with live := s.live ++ r.toList, next := k, log := s.log ++ d, faked := s.faked && stays d e }) := by
  unfold viaOriginal
  simp only [does, List.cons_append, List.nil_append]
  cases h1 : th s.log.length with
  | some x =>
    refine ⟨_, _, none, s.next, cut_cons_some h1, by simp, Nat.le_refl _, by simp, ?_⟩
    simp [op_some (s := { s with faked := false }) h1, ending, stays]
  | none =>
    simp only [op_none (s := { s with faked := false }) h1]
    cases h2 : th (s.log.length + 1) with
    | some x =>
      refine ⟨_, _, none, s.next, cut_cons_none h1, by simp [cut, h2], Nat.le_refl _, by simp, ?_⟩
      rw [op_some (x := x) (by simpa using h2)]
      simp [cut, h2, ending, stays]
    | none =>
      rw [op_none (by simpa using h2)]
      obtain ⟨d, e, r, k, hc, hd, hr, hk, hi, ho⟩ := original_run (th := th) (s := { s with faked := false, log := s.log ++ [.memory .swapper] ++ [.memory .swapperCopy] }) hw params
      simp only [List.length_append, List.length_singleton, Nat.add_assoc] at hc
      refine ⟨.memory .swapper :: .memory .swapperCopy :: d, e, r, k, ?_, hr, hk, hi, ?_⟩
      · rw [cut_cons_none h1, cut_cons_none h2, Nat.add_assoc, hc]
      · simp only
        rw [ho]
        have : stays (.memory .swapper :: .memory .swapperCopy :: d) e = true := by
          cases d with
          | nil => exact absurd rfl hd
          | cons o os => simp [stays]
        simp [this]

theorem invoke_run {s : St} (hw : Wf s) (kind : Kind) :
    ∃ d e r k, cut th s.log.length (does kind) = (d, e) ∧ (r = none ↔ e ≠ none ∨ kind = .plain) ∧ s.next ≤ k ∧ (∀ id ∈ r, s.next ≤ id ∧ id < k) ∧
      invoke th kind s = .done (ending r e, { s with live := s.live ++ r.toList, next := k, log := s.log ++ d, faked := s.faked && stays d e }) := by
  cases kind with
  | plain => exact ⟨[], none, none, s.next, rfl, by simp, Nat.le_refl _, by simp, by simp [invoke, ending, stays]⟩
  | ret =>
    cases h : th s.log.length with
    | some x => exact ⟨_, _, none, s.next, cut_one_some h, by simp, Nat.le_refl _, by simp, by simp [invoke, make_some h, some', ending, stays]⟩
    | none => exact ⟨_, _, some s.next, s.next + 1, cut_one_none h, by simp, by omega, by simp, by simp [invoke, make_none h, some', ending, stays]⟩
  | fn =>
    cases h : th s.log.length with
    | some x => exact ⟨_, _, none, s.next, cut_one_some h, by simp, Nat.le_refl _, by simp, by simp [invoke, make_some h, some', ending, stays]⟩
    | none => exact ⟨_, _, some s.next, s.next + 1, cut_one_none h, by simp, by omega, by simp, by simp [invoke, make_none h, some', ending, stays]⟩
  | spy params =>
    obtain ⟨d, e, r, k, hc, hr, hk, hi, ho⟩ := viaOriginal_run (th := th) hw params
    exact ⟨d, e, r, k, hc, by simpa using hr, hk, hi, ho⟩

theorem isDone_tick (a : Act) : a.tick.isDone = usedUp a := by
  obtain ⟨k, t⟩ := a
  cases t with
  | none => rfl
  | some t =>
    simp only [Act.tick, Act.isDone, usedUp, Option.map_some]
    by_cases h : t = 1
    · subst h; rfl
    · have h' : t - 1 ≠ 0 := by omega
      have e : (some (t - 1) == some (0 : Int)) = false := by simpa using h'
      have e' : (some t == some (1 : Int)) = false := by simpa using h
      rw [e, e']

theorem advance_eq (a : Act) (rest : List Act) : advance (a :: rest) = if usedUp a then rest else a.tick :: rest := by
  obtain ⟨k, t⟩ := a
  cases t with
  | none => rfl
  | some t => by_cases h : t = 1 <;> simp [advance, usedUp, Act.tick, h]

theorem modify_eq_set {α : Type} {f : α → α} {l : List α} {h : Nat} {x : α} (hx : l[h]? = some x) : l.modify h f = l.set h (f x) := by
  apply List.ext_getElem?
  intro j
  rw [List.getElem?_modify, List.getElem?_set]
  by_cases hj : h = j
  · subst hj
    obtain ⟨hl, hx⟩ := List.getElem?_eq_some_iff.mp hx
    simp [hx, hl]
  · simp [hj]

theorem set_modify {α : Type} {f : α → α} {l : List α} {h : Nat} (x : α) (hh : h < l.length) : (l.set h x).modify h f = l.set h (f x) := by
  rw [modify_eq_set (x := x) (by simp [hh])]
  simp

/-- The answer of the stubbing, in the four ways it may end. -/
theorem answer_run {s : St} (hw : Wf s) {h : Nat} {script : List Act} (hs : s.stubs[h]? = some script) :
    (∃ d x, cut th s.log.length prepare = (d, some x) ∧ answer th h s = .done (.exc (.user x), { s with log := s.log ++ d })) ∨
    (cut th s.log.length prepare = (prepare, none) ∧ script = [] ∧ answer th h s = .done (.exc .noMore, { s with log := s.log ++ prepare })) ∨
    (∃ a rest d e r k, cut th s.log.length prepare = (prepare, none) ∧ script = a :: rest ∧ cut th (s.log.length + 2) (does a.kind) = (d, e) ∧
      (r = none ↔ e ≠ none ∨ a.kind = .plain) ∧ s.next ≤ k ∧ (∀ id ∈ r, s.next ≤ id ∧ id < k) ∧
      ((usedUp a = true → th (s.log.length + 2 + d.length) = none) ∧
        answer th h s = .done (ending r e, { s with live := s.live ++ r.toList, next := k, stubs := s.stubs.modify h advance, faked := s.faked && stays d e,
                                                    log := s.log ++ (prepare ++ d ++ if usedUp a then [.memory .used] else []) }) ∨
       ∃ x s', usedUp a = true ∧ th (s.log.length + 2 + d.length) = some x ∧ answer th h s = .done (.dead, s') ∧
        s'.log = s.log ++ (prepare ++ d ++ [.memory .used]))) := by
  have hlt := (List.getElem?_eq_some_iff.mp hs).1
  unfold answer
  simp only [hs, prepare]
  cases h1 : th s.log.length with
  | some x =>
    left
    exact ⟨_, x, cut_cons_some h1, by simp [op_some h1]⟩
  | none =>
    simp only [op_none h1]
    cases h2 : th (s.log.length + 1) with
    | some x =>
      left
      refine ⟨[.memory .clause, .memory .clauseCopy], x, by rw [cut_cons_none h1, cut_cons_some h2], ?_⟩
      rw [op_some (x := x) (by simpa using h2)]
      simp
    | none =>
      right
      rw [op_none (by simpa using h2)]
      have hp : cut th s.log.length [.memory .clause, .memory .clauseCopy] = ([.memory .clause, .memory .clauseCopy], none) := by
        rw [cut_cons_none h1, cut_cons_none h2]; simp [cut]
      cases script with
      | nil => left; exact ⟨hp, rfl, by simp⟩
      | cons a rest =>
        right
        obtain ⟨d, e, r, k, hc, hr, hk, hi, ho⟩ := invoke_run (th := th)
          (s := { s with stubs := s.stubs.set h (a.tick :: rest), log := s.log ++ [.memory .clause] ++ [.memory .clauseCopy] }) hw a.kind
        simp only [List.length_append, List.length_singleton, Nat.add_assoc] at hc
        refine ⟨a, rest, d, e, r, k, hp, rfl, hc, hr, hk, hi, ?_⟩
        have hadv : s.stubs.modify h advance = s.stubs.set h (advance (a :: rest)) := modify_eq_set hs
        have hrun : (invoke th a.kind { s with stubs := s.stubs.set h (a.tick :: rest), log := s.log ++ [.memory .clause] ++ [.memory .clauseCopy] } >>= leave th h a.tick) =
            .done (cleanUp th h a.tick (ending r e) { s with live := s.live ++ r.toList, next := k, stubs := s.stubs.set h (a.tick :: rest), faked := s.faked && stays d e, log := s.log ++ [.memory .clause] ++ [.memory .clauseCopy] ++ d }) := by
          rw [ho]; cases e <;> rfl
        simp only [hrun]
        unfold cleanUp
        rw [isDone_tick, hadv, advance_eq]
        by_cases hu : usedUp a = true
        · simp only [hu, if_pos]
          cases h3 : th (s.log.length + 2 + d.length) with
          | none =>
            left
            refine ⟨by simp, ?_⟩
            rw [op_none (by simpa [Nat.add_assoc, Nat.add_comm, Nat.add_left_comm] using h3)]
            simp [set_modify _ hlt]
          | some x =>
            right
            rw [op_some (x := x) (by simpa [Nat.add_assoc, Nat.add_comm, Nat.add_left_comm] using h3)]
            exact ⟨x, _, trivial, rfl, rfl, by simp⟩
        · left
          refine ⟨by simp [hu], ?_⟩
          simp [hu]

theorem unexpected_run (s : St) : ∃ d e, cut th s.log.length [.told, .print] = (d, e) ∧
    unexpected th s = (.exc (e.elim .unexpected .user), { s with log := s.log ++ d }) := by
  unfold unexpected
  cases h1 : th s.log.length with
  | some x => exact ⟨_, _, cut_cons_some h1, by simp [op_some h1]⟩
  | none =>
    simp only [op_none h1]
    cases h2 : th (s.log.length + 1) with
    | some x =>
      refine ⟨[.told, .print], some x, by rw [cut_cons_none h1, cut_cons_some h2], ?_⟩
      rw [op_some (x := x) (by simpa using h2)]; simp
    | none =>
      refine ⟨[.told, .print], none, by rw [cut_cons_none h1, cut_cons_none h2]; simp [cut], ?_⟩
      rw [op_none (by simpa using h2)]; simp

/-- The part of a call after the record was made. `s`: the world before the call, `p`: what was done so far. -/
theorem recorded_ends {s : St} (hw : Wf s) (c : Call) (hp : cut th s.log.length ([.memory .record] ++ c.args.map .arg) = ([.memory .record] ++ c.args.map .arg, none)) :
    ∃ o s', recorded th c (List.range' s.next c.args.length)
        { s with live := s.live ++ List.range' s.next c.args.length, next := s.next + c.args.length, blocks := s.blocks + 1, ordinal := s.ordinal + 1,
                 log := s.log ++ ([.memory .record] ++ c.args.map .arg) } = .done (o, s') ∧ Ends th c s o s' := by
  generalize hq : [Op.memory .record] ++ c.args.map .arg = q at hp ⊢
  generalize hids : List.range' s.next c.args.length = ids
  have hn : (s.live ++ ids).Nodup := hids ▸ (wf_range hw c.args.length).1
  have hlt : ∀ id ∈ s.live ++ ids, id < s.next + c.args.length := hids ▸ (wf_range hw c.args.length).2
  have hq' : Spec.Throwing.early c s = q ++ ([.memory .count] ++ (asked c.accepts s.stubs.length 0 ++ then_ (chosen c.accepts s.stubs.length 0))) := by
    rw [← hq]; simp [Spec.Throwing.early]
  have hcut := cut_append_none (b := [.memory .count] ++ (asked c.accepts s.stubs.length 0 ++ then_ (chosen c.accepts s.stubs.length 0))) hp
  rw [← hq'] at hcut
  have hdrop : ∀ (x : X) (l : List Op), dropping ids (Res.exc (.user x), { s with live := s.live ++ ids, next := s.next + c.args.length, blocks := s.blocks + 1, ordinal := s.ordinal + 1, log := l }) =
      .done (.exc (.user x), { s with next := s.next + c.args.length, ordinal := s.ordinal + 1, log := l }) := by
    intro x l
    simp only [dropping]
    rw [release_run (base := s.live) (n := s.blocks) rfl hn rfl]
    rfl
  unfold recorded
  cases h1 : th (s.log.length + q.length) with
  | some x =>
    rw [op_some (x := x) (by simpa using h1)]
    simp only
    rw [hdrop]
    refine ⟨_, _, rfl, .early (d := q ++ [.memory .count]) ?_ ⟨s.next + c.args.length, Nat.le_add_right _ _, ?_⟩⟩
    · rw [hcut, List.cons_append, cut_cons_some h1]
    · simp
  | none =>
    rw [op_none (by simpa using h1)]
    simp only
    rw [List.cons_append, cut_cons_none h1, List.nil_append] at hcut
    rcases pick_run (th := th) (accepts := c.accepts) s.stubs.length 0
      { s with live := s.live ++ ids, next := s.next + c.args.length, blocks := s.blocks + 1, ordinal := s.ordinal + 1, log := s.log ++ q ++ [.memory .count] } with ⟨d, x, hc, hk⟩ | ⟨hc, hk⟩
    · simp only [hk]
      rw [hdrop]
      simp only [List.length_append, List.length_singleton] at hc
      rw [cut_append_some hc] at hcut
      exact ⟨_, _, rfl, .early hcut ⟨s.next + c.args.length, Nat.le_add_right _ _, by simp⟩⟩
    · simp only [hk]
      simp only [List.length_append, List.length_singleton] at hc
      rw [cut_append_none hc] at hcut
      cases hch : chosen c.accepts s.stubs.length 0 with
      | none =>
        simp only [hch, then_] at hcut ⊢
        obtain ⟨d, e, hcu, hu⟩ := unexpected_run (th := th) { s with live := s.live ++ ids, next := s.next + c.args.length, blocks := s.blocks + 1, ordinal := s.ordinal + 1, log := s.log ++ q ++ [.memory .count] ++ asked c.accepts s.stubs.length 0 }
        simp only [List.length_append, List.length_singleton] at hcu
        rw [hcu] at hcut
        rw [hu]
        simp only [dropping]
        rw [release_run (base := s.live) (n := s.blocks) rfl hn rfl]
        refine ⟨_, _, rfl, ?_⟩
        cases e with
        | none => exact .nobody hch hcut ⟨s.next + c.args.length, Nat.le_add_right _ _, by simp⟩
        | some x => exact .early hcut ⟨s.next + c.args.length, Nat.le_add_right _ _, by simp⟩
      | some h =>
        simp only [hch, then_] at hcut ⊢
        unfold matched
        cases h2 : th (s.log.length + q.length + 1 + (asked c.accepts s.stubs.length 0).length) with
        | some x =>
          rw [op_some (x := x) (by simpa [Nat.add_assoc, Nat.add_comm 1] using h2)]
          simp only
          rw [hdrop]
          rw [cut_cons_some h2] at hcut
          exact ⟨_, _, rfl, .early hcut ⟨s.next + c.args.length, Nat.le_add_right _ _, by simp⟩⟩
        | none =>
          rw [op_none (by simpa [Nat.add_assoc, Nat.add_comm 1] using h2)]
          simp only
          rw [cut_one_none h2] at hcut
          have hlt2 := chosen_lt hch
          obtain ⟨script, hs⟩ : ∃ script, s.stubs[h]? = some script := ⟨s.stubs[h]'(by omega), List.getElem?_eq_getElem (by omega)⟩
          generalize hD : q ++ Op.memory Why.count :: (asked c.accepts s.stubs.length 0 ++ [Op.memory Why.place]) = D at hcut
          have hlog : s.log ++ q ++ [Op.memory Why.count] ++ asked c.accepts s.stubs.length 0 ++ [Op.memory Why.place] = s.log ++ D := by rw [← hD]; simp
          rw [hlog]
          rcases answer_run (th := th) (s := { s with live := s.live ++ ids, next := s.next + c.args.length, blocks := s.blocks + 1, hist := s.hist ++ [ids], ordinal := s.ordinal + 1, log := s.log ++ D })
            ⟨hn, hlt⟩ (h := h) (script := script) hs with ⟨d, x, hc1, ha⟩ | ⟨hc1, rfl, ha⟩ | ⟨a, rest, d, e, r, k, hc1, rfl, hc2, hr, hk2, hi, ha⟩
          · rw [ha]
            simp only [List.length_append] at hc1
            exact ⟨_, _, rfl, .unprepared hch hcut hc1 ⟨s.next + c.args.length, Nat.le_refl _, by simp, by simp [hids]⟩⟩
          · rw [ha]
            simp only [List.length_append] at hc1
            obtain ⟨d, e, hcu, hu⟩ := unexpected_run (th := th) { s with live := s.live ++ ids, next := s.next + c.args.length, blocks := s.blocks + 1, hist := s.hist ++ [ids], ordinal := s.ordinal + 1, log := s.log ++ D ++ prepare }
            simp only [R.bind_done, caught]
            rw [hu]
            have hl2 : (s.log ++ D ++ prepare).length = s.log.length + D.length + 2 := by simp [prepare, Nat.add_assoc]
            simp only [hl2] at hcu
            exact ⟨_, _, rfl, .exhausted hch hcut hs hc1 hcu ⟨s.next + c.args.length, Nat.le_refl _, by simp, by simp [hids]⟩⟩
          · simp only [List.length_append] at hc1 hc2 ha
            rcases ha with ⟨hno, ha⟩ | ⟨x, s', hu, hx, ha, hl⟩
            · rw [ha]
              refine ⟨_, _, ?_, .answered hch hcut hs hc1 hc2 hr hno ⟨k, hk2, hi, rfl⟩⟩
              cases e <;> simp [ending, caught, hids, stays]
            · rw [ha]
              exact ⟨_, _, rfl, .terminated hch hcut hs hc1 hc2 hu hx (by rw [hl]; simp)⟩

theorem call_ends {s : St} (hw : Wf s) (c : Call) : ∃ o s', call th c s = .done (o, s') ∧ Ends th c s o s' := by
  unfold call
  cases h1 : th s.log.length with
  | some x =>
    simp only [op_some (s := { s with ordinal := s.ordinal + 1 }) h1]
    refine ⟨_, _, rfl, .early (d := [.memory .record]) ?_ ⟨s.next, Nat.le_refl _, rfl⟩⟩
    simp only [Spec.Throwing.early, List.append_assoc, List.cons_append]
    rw [cut_cons_some h1]
  | none =>
    simp only [op_none (s := { s with ordinal := s.ordinal + 1 }) h1]
    rcases makeAll_run (th := th) (mk := .arg) (base := s.live) c.args []
      { s with ordinal := s.ordinal + 1, blocks := s.blocks + 1, log := s.log ++ [.memory .record] } (by simp) hw with ⟨d, x, k, hc, hk, hm⟩ | ⟨hc, hm⟩
    · rw [hm]
      simp only [List.length_append, List.length_singleton] at hc
      refine ⟨_, _, rfl, .early (d := .memory .record :: d) (x := x) ?_ ⟨k, hk, by simp⟩⟩
      simp only [Spec.Throwing.early, List.append_assoc, List.cons_append, List.nil_append]
      rw [cut_cons_none h1, cut_append_some hc]
    · rw [hm]
      simp only [List.length_append, List.length_singleton] at hc
      simp only [R.bind_done, constructed, List.reverse_nil, List.nil_append]
      have := recorded_ends (th := th) hw c (by rw [List.cons_append, List.nil_append, cut_cons_none h1, hc])
      simpa using this

end FakeIt.Throwing
