import Verif.Spec.Building
/-!
# Lemmas about stubbing statements that fail in the middle
-/
namespace FakeIt.Building
open FakeIt.Spec.Building

variable {X α β : Type}

/-- What holds after code: `Q` if it ends normally, `E` if with an exception, `U` if it is undefined. -/
def wp (m : M X α) (s : St) (Q : α → St → Prop) (E : X → St → Prop) (U : Prop) : Prop :=
  match m s with
  | .done (.ok a, s') => Q a s'
  | .done (.exc x, s') => E x s'
  | .ub => U
  | .oof => False

/-- What holds after a destructor. -/
def after (f : St → R St) (s : St) (P : St → Prop) (U : Prop) : Prop :=
  match f s with
  | .done s' => P s'
  | .ub => U
  | .oof => False

theorem wp_pure {a : α} {s : St} {Q : α → St → Prop} {E : X → St → Prop} {U : Prop} (h : Q a s) : wp (pure a) s Q E U := h

theorem wp_bind {m : M X α} {f : α → M X β} {s : St} {Q : β → St → Prop} {E : X → St → Prop} {U : Prop}
    (h : wp m s (fun a s' => wp (f a) s' Q E U) E U) : wp (m >>= f) s Q E U := by
  unfold wp at h
  show wp (M.bind m f) s Q E U
  unfold wp M.bind
  split at h <;> rename_i hm <;> rw [hm]
  · exact h
  · exact h
  · exact h
  · exact h.elim

theorem wp_mono {m : M X α} {s : St} {Q Q' : α → St → Prop} {E E' : X → St → Prop} {U U' : Prop} (h : wp m s Q E U)
    (hq : ∀ a s', Q a s' → Q' a s') (he : ∀ x s', E x s' → E' x s') (hu : U → U') : wp m s Q' E' U' := by
  unfold wp at h ⊢
  split at h
  · exact hq _ _ h
  · exact he _ _ h
  · exact hu h
  · exact h.elim

theorem wp_unwinding {m : M X α} {f : St → R St} {s : St} {Q : α → St → Prop} {E : X → St → Prop} {U : Prop}
    (h : wp m s Q (fun x s' => after f s' (E x) U) U) : wp (m.unwinding f) s Q E U := by
  unfold wp at h ⊢
  unfold M.unwinding
  split at h <;> rename_i hm <;> rw [hm]
  · exact h
  · unfold after at h
    show wp (fun s => f s >>= fun s => .done (.exc _, s)) _ Q E U
    unfold wp
    split at h <;> rename_i hf
    · simp only [hf, R.bind_done]; exact h
    · simp only [hf, R.bind_ub]; exact h
    · exact h.elim
  · exact h
  · exact h.elim

theorem wp_quiet {f : St → R St} {s : St} {Q : Unit → St → Prop} {E : X → St → Prop} {U : Prop}
    (h : after f s (Q ()) U) : wp (quiet f) s Q E U := by
  unfold after at h
  unfold wp quiet
  split at h <;> rename_i hf <;> rw [hf]
  · exact h
  · exact h
  · exact h.elim

theorem after_bind {f g : St → R St} {s : St} {P : St → Prop} {U : Prop} (h : after f s (fun s' => after g s' P U) U) :
    after (fun s => f s >>= g) s P U := by
  unfold after at h
  unfold after
  simp only
  split at h <;> rename_i hf <;> rw [hf]
  · exact h
  · exact h
  · exact h.elim

theorem after_mono {f : St → R St} {s : St} {P P' : St → Prop} {U U' : Prop} (h : after f s P U) (hp : ∀ s', P s' → P' s') (hu : U → U') :
    after f s P' U' := by
  unfold after at h ⊢
  split at h
  · exact hp _ h
  · exact hu h
  · exact h.elim

/-! ## The objects -/

/-- The stubbings are those of `s0`, the objects those of `s0` and `more`; this was begun. -/
def At (s0 : St) (more : List Nat) (log : List Op) (s : St) : Prop :=
  Holds s0 more s ∧ s.stubs = s0.stubs ∧ s.log = log

theorem At.perm {s0 : St} {l l' : List Nat} {g : List Op} {s : St} (h : At s0 l g s) (p : l.Perm l') : At s0 l' g s :=
  ⟨⟨h.1.1.trans (List.Perm.append_left _ p), p.nodup_iff.mp h.1.2.1, fun id hi => h.1.2.2.1 id (p.mem_iff.mpr hi), h.1.2.2.2⟩, h.2⟩

theorem destroy_at {s0 : St} {id : Nat} {l : List Nat} {g : List Op} {s : St} {U : Prop} (h : At s0 (id :: l) g s) :
    after (destroy id) s (At s0 l g) U := by
  have hp : s.live.Perm (id :: (s0.live ++ l)) := h.1.1.trans List.perm_middle
  have hm : id ∈ s.live := hp.mem_iff.mpr (by simp)
  unfold after destroy
  rw [if_pos hm]
  refine ⟨⟨?_, (List.nodup_cons.mp h.1.2.1).2, fun i hi => h.1.2.2.1 i (by simp [hi]), h.1.2.2.2⟩, h.2⟩
  have := hp.erase id
  rwa [List.erase_cons_head] at this

theorem destroyAll_at {s0 : St} {l : List Nat} {g : List Op} {U : Prop} : ∀ (ids : List Nat) {s : St}, At s0 (ids ++ l) g s →
    after (destroyAll ids) s (At s0 l g) U
  | [], s, h => h
  | i :: ids, s, h => by
    show after (fun s => destroy i s >>= destroyAll ids) s _ _
    exact after_bind (after_mono (destroy_at h) (fun s' h' => destroyAll_at ids h') id)

theorem destroyAll_ub {id : Nat} : ∀ (ids : List Nat) {s : St}, id ∈ ids → id ∉ s.live → destroyAll ids s = .ub
  | [], s, h, _ => by simp at h
  | i :: ids, s, h, hn => by
    unfold destroyAll destroy
    by_cases hi : i ∈ s.live
    · rw [if_pos hi]
      have hne : id ≠ i := fun e => hn (e ▸ hi)
      exact destroyAll_ub ids (by simpa [hne] using h) (fun hm => hn (List.mem_of_mem_erase hm))
    · rw [if_neg hi]; rfl

theorem fresh_at {s0 : St} {l : List Nat} {g : List Op} {s : St} {E : X → St → Prop} {U : Prop} (h : At s0 l g s) :
    wp fresh s (fun a s' => At s0 (a :: l) g s') E U := by
  show At s0 (s.next :: l) g _
  refine ⟨⟨?_, ?_, ?_, Nat.le_succ_of_le h.1.2.2.2⟩, h.2⟩
  · show (s.live ++ [s.next]).Perm _
    refine (List.Perm.append_right _ h.1.1).trans ?_
    rw [List.append_assoc]
    exact List.Perm.append_left _ (List.perm_append_singleton _ _)
  · exact List.nodup_cons.mpr ⟨fun hm => Nat.lt_irrefl _ (h.1.2.2.1 _ hm).2, h.1.2.1⟩
  · intro i hi
    rcases List.mem_cons.mp hi with rfl | hi
    · exact ⟨h.1.2.2.2, Nat.lt_succ_self _⟩
    · exact ⟨(h.1.2.2.1 i hi).1, Nat.lt_succ_of_lt (h.1.2.2.1 i hi).2⟩

/-- The objects of an expression. -/
def Expr.objects (e : Expr) : List Nat := e.ctx :: ((e.acts ++ [e.seq]) ++ ((e.parts ++ [e.matcher]) ++ [e.impl]))

theorem drop_at {s0 : St} {e : Expr} {l : List Nat} {g : List Op} {s : St} {U : Prop} (h : At s0 (e.objects ++ l) g s) :
    after (e.drop false) s (At s0 l g) U := by
  have e1 : e.objects ++ l = e.ctx :: ((e.acts ++ [e.seq]) ++ ((e.parts ++ [e.matcher]) ++ (e.impl :: l))) := by
    simp [Expr.objects]
  rw [e1] at h
  show after (fun s => destroy e.ctx s >>= fun s => dropSeq e.seq e.acts s >>= fun s => dropMatcher e.matcher e.parts s >>= destroy e.impl) s _ _
  refine after_bind (after_mono (destroy_at h) (fun s1 h1 => ?_) id)
  refine after_bind (after_mono (destroyAll_at _ h1) (fun s2 h2 => ?_) id)
  exact after_bind (after_mono (destroyAll_at _ h2) (fun s3 h3 => destroy_at h3) id)

theorem dropCommitted_at {s0 : St} {e : Expr} {l : List Nat} {g : List Op} {s : St} {U : Prop} (h : At s0 (e.ctx :: e.impl :: l) g s) :
    after (e.drop true) s (At s0 l g) U := by
  show after (fun s => destroy e.ctx s >>= destroy e.impl) s _ _
  exact after_bind (after_mono (destroy_at h) (fun s1 h1 => destroy_at h1) id)

theorem dropChange_at {s0 : St} {c : Option Nat} {l : List Nat} {g : List Op} {s : St} {U : Prop} (h : At s0 (c.toList ++ l) g s) :
    after (dropChange c) s (At s0 l g) U := by
  cases c with
  | none => exact h
  | some c => exact destroy_at h

/-! ## Steps -/

section
variable (th : Nat → Option X)

/-- After the steps `done` of the statement begun in `s0`. -/
def Ran (s0 : St) (done : List Op) (more : List Nat) (s : St) : Prop :=
  At s0 more (s0.log ++ done) s ∧ NoneThrows th s0.log.length done

/-- One of the steps `now`, after the steps `done`, threw `x`; objects left: those of `s0`, `more`, and as many as `k` says. -/
def Broke (s0 : St) (done now : List Op) (more : List Nat) (k : Op → Nat) (x : X) (s : St) : Prop :=
  ∃ before o rest left, now = before ++ o :: rest ∧ th (s0.log.length + (done ++ before).length) = some x ∧
    NoneThrows th s0.log.length (done ++ before) ∧ At s0 (more ++ left) (s0.log ++ (done ++ before) ++ [o]) s ∧ left.length = k o

variable {th}

theorem Ran.perm {s0 : St} {d : List Op} {l l' : List Nat} {s : St} (h : Ran th s0 d l s) (p : l.Perm l') : Ran th s0 d l' s :=
  ⟨h.1.perm p, h.2⟩

theorem Broke.more {s0 : St} {d a : List Op} {m : List Nat} {k : Op → Nat} {x : X} {s : St} (b : List Op)
    (h : Broke th s0 d a m k x s) : Broke th s0 d (a ++ b) m k x s := by
  obtain ⟨p, o, r, left, rfl, h⟩ := h
  exact ⟨p, o, r ++ b, left, by simp, h⟩

theorem Broke.later {s0 : St} {d a b : List Op} {m : List Nat} {k : Op → Nat} {x : X} {s : St}
    (h : Broke th s0 (d ++ a) b m k x s) : Broke th s0 d (a ++ b) m k x s := by
  obtain ⟨p, o, r, left, rfl, h⟩ := h
  exact ⟨a ++ p, o, r, left, by simp, by simpa only [List.append_assoc] using h⟩

theorem Broke.cleaned {s0 : St} {d a : List Op} {m : List Nat} {k : Op → Nat} {x : X} {s : St} {f : St → R St} {l : List Nat} {U : Prop}
    (h : Broke th s0 d a m k x s) (hf : ∀ left g s', At s0 (m ++ left) g s' → after f s' (At s0 (l ++ left) g) U) :
    after f s (Broke th s0 d a l k x) U := by
  obtain ⟨p, o, r, left, hn, ht, hq, hat, hk⟩ := h
  exact after_mono (hf left _ s hat) (fun s' h' => ⟨p, o, r, left, hn, ht, hq, h', hk⟩) id

theorem Broke.weaken {s0 : St} {d a : List Op} {m l : List Nat} {k k' : Op → Nat} {x : X} {s : St} (h : Broke th s0 d a (l ++ m) k x s)
    (hk : ∀ o ∈ a, m.length + k o = k' o) : Broke th s0 d a l k' x s := by
  obtain ⟨p, o, r, left, hn, ht, hq, hat, hl⟩ := h
  refine ⟨p, o, r, m ++ left, hn, ht, hq, by simpa using hat, ?_⟩
  rw [List.length_append, hl]; exact hk o (by simp [hn])

theorem op_run {s0 : St} {d : List Op} {l : List Nat} {s : St} {U : Prop} (o : Op) (k : Op → Nat) (hk : k o = 0) (h : Ran th s0 d l s) :
    wp (op th o) s (fun _ s' => Ran th s0 (d ++ [o]) l s') (Broke th s0 d [o] l k) U := by
  have hlen : s.log.length = s0.log.length + d.length := by rw [h.1.2.2]; simp
  unfold wp op
  cases ht : th s.log.length with
  | none =>
    simp only
    refine ⟨⟨h.1.1, h.1.2.1, by simp [h.1.2.2]⟩, ?_⟩
    intro i hi
    rw [List.length_append, List.length_singleton] at hi
    rcases Nat.lt_or_ge i d.length with hl | hl
    · exact h.2 i hl
    · have : i = d.length := by omega
      rw [this, ← hlen]; exact ht
  | some x =>
    simp only
    refine ⟨[], o, [], [], rfl, ?_, ?_, ?_, by simp [hk]⟩
    · rw [List.append_nil, ← hlen]; exact ht
    · rw [List.append_nil]; exact h.2
    · exact ⟨by rw [List.append_nil]; exact h.1.1, h.1.2.1, by simp [h.1.2.2]⟩

/-- A step, in front of others. -/
theorem op_then {s0 : St} {d : List Op} {l m : List Nat} {s : St} {U : Prop} {f : Unit → M X α} {Q : α → St → Prop} (o : Op) (rest : List Op) {k : Op → Nat} (h : Ran th s0 d (m ++ l) s)
    (hk : k o = l.length) (hn : ∀ s', Ran th s0 (d ++ [o]) (m ++ l) s' → wp (f ()) s' Q (Broke th s0 (d ++ [o]) rest m k) U) :
    wp (op th o >>= f) s Q (Broke th s0 d (o :: rest) m k) U := by
  refine wp_bind (wp_mono (op_run o (fun _ => 0) rfl h) (fun _ s' h' => ?_) (fun x s' h' => ?_) id)
  · exact wp_mono (hn s' h') (fun _ _ h => h) (fun x s'' h'' => Broke.later h'') id
  · refine Broke.more rest (Broke.weaken (l := m) (m := l) h' ?_)
    intro o' ho'
    rw [List.mem_singleton] at ho'
    rw [ho', hk]; rfl

/-- A step whose exception destroys something, in front of others. -/
theorem opUnwinding_then {s0 : St} {d : List Op} {l m : List Nat} {s : St} {U : Prop} {f : Unit → M X α} {Q : α → St → Prop} {c : St → R St} (left : List Nat) (o : Op) (rest : List Op) {k : Op → Nat} (h : Ran th s0 d l s)
    (hc : ∀ g s', At s0 l g s' → after c s' (At s0 (m ++ left) g) U) (hk : k o = left.length)
    (hn : ∀ s', Ran th s0 (d ++ [o]) l s' → wp (f ()) s' Q (Broke th s0 (d ++ [o]) rest m k) U) :
    wp ((op th o).unwinding c >>= f) s Q (Broke th s0 d (o :: rest) m k) U := by
  refine wp_bind (wp_mono (Q := fun _ s' => Ran th s0 (d ++ [o]) l s') (E := Broke th s0 d [o] (m ++ left) (fun _ => 0)) (U := U) (wp_unwinding ?_) (fun _ s' h' => ?_) (fun x s' h' => ?_) id)
  · refine wp_mono (op_run o (fun _ => 0) rfl h) (fun _ _ h => h) (fun x s' h' => ?_) (fun h => h)
    obtain ⟨p, o', r, lf, hp, ht, hq, hat, hl⟩ := h'
    rw [List.length_eq_zero_iff.mp hl, List.append_nil] at hat
    exact after_mono (hc _ s' hat) (fun s'' h'' => ⟨p, o', r, [], hp, ht, hq, by rw [List.append_nil]; exact h'', rfl⟩) id
  · exact wp_mono (hn s' h') (fun _ _ h => h) (fun x s'' h'' => Broke.later h'') id
  · refine Broke.more rest (Broke.weaken (l := m) (m := left) h' ?_)
    intro o' ho'
    rw [List.mem_singleton] at ho'
    rw [ho', hk]; rfl

/-- A part of the statement, in front of others. -/
theorem part_then {s0 : St} {d : List Op} {m : List Nat} {s : St} {U : Prop} {p : M X β} {f : β → M X α} {Q : α → St → Prop} {P : β → St → Prop} {k : Op → Nat} (now rest : List Op)
    (h : wp p s P (Broke th s0 d now m k) U) (hn : ∀ b s', P b s' → wp (f b) s' Q (Broke th s0 (d ++ now) rest m k) U) :
    wp (p >>= f) s Q (Broke th s0 d (now ++ rest) m k) U :=
  wp_bind (wp_mono h (fun b s' h' => wp_mono (hn b s' h') (fun _ _ h => h) (fun _ _ h'' => Broke.later h'') id) (fun _ _ h' => Broke.more rest h') id)

/-- A step that makes an object, and destroys something if it throws. -/
theorem newUnwinding_run {s0 : St} {d : List Op} {l m : List Nat} {s : St} {U : Prop} {c : St → R St} (left : List Nat) (w : Why) {k : Op → Nat} (h : Ran th s0 d l s)
    (hc : ∀ g s', At s0 l g s' → after c s' (At s0 (m ++ left) g) U) (hk : k (.memory w) = left.length) :
    wp ((new th w).unwinding c) s (fun a s' => Ran th s0 (d ++ [.memory w]) (a :: l) s') (Broke th s0 d [.memory w] m k) U := by
  refine wp_unwinding (wp_bind (wp_mono (op_run (.memory w) (fun _ => 0) rfl h) (fun _ s' h' => ?_) (fun x s' h' => ?_) id))
  · exact wp_mono (fresh_at (U := U) (E := fun _ _ => False) h'.1) (fun a s'' h'' => ⟨h'', h'.2⟩) (fun _ _ h => h.elim) id
  · obtain ⟨p, o', r, lf, hp, ht, hq, hat, hl⟩ := h'
    rw [List.length_eq_zero_iff.mp hl, List.append_nil] at hat
    refine after_mono (hc _ s' hat) (fun s'' h'' => ⟨p, o', r, left, hp, ht, hq, h'', ?_⟩) id
    have : o' ∈ [Op.memory w] := by rw [hp]; simp
    rw [List.mem_singleton.mp this, hk]

/-- A step that makes an object. -/
theorem new_run {s0 : St} {d : List Op} {l m : List Nat} {s : St} {U : Prop} (w : Why) {k : Op → Nat} (h : Ran th s0 d (m ++ l) s) (hk : k (.memory w) = l.length) :
    wp (new th w) s (fun a s' => Ran th s0 (d ++ [.memory w]) (a :: (m ++ l)) s') (Broke th s0 d [.memory w] m k) U := by
  have := newUnwinding_run (U := U) (c := R.done) l w h (fun g s' h' => (h' : after R.done s' (At s0 (m ++ l) g) U)) hk
  unfold wp M.unwinding at this
  unfold wp
  cases hm : new th w s with
  | done r => rw [hm] at this; obtain ⟨r, s'⟩ := r; cases r <;> exact this
  | ub => rw [hm] at this; exact this
  | oof => rw [hm] at this; exact this

theorem expression_run {s0 s : St} {U : Prop} {k : Op → Nat} (h : Ran th s0 [] [] s)
    (k1 : k (.memory .context) = 0) (k2 : k (.memory .impl) = 1) (k3 : k (.memory .sequence) = 1) (k4 : k (.memory .default) = 2) (k5 : k (.memory .count) = 0) (k6 : k (.memory .details) = 0) :
    wp (expression th) s (fun e s' => Ran th s0 methodSteps e.objects s' ∧ e.acts = [] ∧ e.parts = []) (Broke th s0 [] methodSteps [] k) U := by
  unfold expression
  refine part_then [_] [_, _, _, _, _] (new_run (l := []) (m := []) _ h k1) fun ctx s1 h1 => ?_
  refine part_then [_] [_, _, _, _] (new_run (m := []) _ h1 k2) fun impl s2 h2 => ?_
  refine part_then [_] [_, _, _] (newUnwinding_run [ctx] _ h2 (fun g s' h' => destroy_at h') k3) fun seq s3 h3 => ?_
  refine part_then [_] [_, _] (newUnwinding_run [ctx, seq] _ h3 (fun g s' h' => destroy_at (h'.perm ?_)) k4) fun mat s4 h4 => ?_
  · exact (List.Perm.swap impl seq [ctx]).trans (List.Perm.cons impl (List.Perm.swap ctx seq []))
  have hp : [mat, seq, impl, ctx].Perm (Expr.objects ⟨ctx, impl, seq, [], mat, []⟩) := by
    show [mat, seq, impl, ctx].Perm [ctx, seq, mat, impl]
    refine (List.reverse_perm _).symm.trans (List.Perm.cons ctx ?_)
    exact List.perm_append_comm (l₁ := [impl]) (l₂ := [seq, mat])
  have h4 := h4.perm hp
  refine opUnwinding_then [] _ [_] h4 (fun g s' h' => drop_at (l := []) (by rwa [List.append_nil])) k5 fun s5 h5 => ?_
  refine opUnwinding_then [] _ [] h5 (fun g s' h' => drop_at (l := []) (by rwa [List.append_nil])) k6 fun s6 h6 => ?_
  exact wp_pure ⟨h6, rfl, rfl⟩

theorem collect_run {s0 : St} {m : List Nat} {U : Prop} {k : Op → Nat} : ∀ (n i : Nat) (d : List Op) (l : List Nat) (s : St), Ran th s0 d (m ++ l) s → l.length = i →
    (∀ j, i ≤ j → k (.memory (.matcher j)) = j ∧ k (.expected j) = j ∧ k (.memory (.push j)) = j + 1) →
    wp (collect th n i) s (fun ms s' => Ran th s0 (d ++ argSteps n i) (m ++ (l ++ ms)) s' ∧ ms.length = n) (Broke th s0 d (argSteps n i) m k) U
  | 0, i, d, l, s, h, hl, hk => wp_pure ⟨by simpa [argSteps] using h, rfl⟩
  | n + 1, i, d, l, s, h, hl, hk => by
    obtain ⟨k1, k2, k3⟩ := hk i (Nat.le_refl _)
    refine op_then _ _ h (by rw [k1, hl]) fun s1 h1 => ?_
    refine op_then _ _ h1 (by rw [k2, hl]) fun s2 h2 => ?_
    refine wp_bind (wp_mono (fresh_at (U := U) (E := fun _ _ => False) h2.1) (fun a s3 h3 => ?_) (fun _ _ h => h.elim) id)
    have h3 : Ran th s0 _ (m ++ (l ++ [a])) s3 := Ran.perm ⟨h3, h2.2⟩ (by
      rw [← List.append_assoc]; exact (List.perm_append_singleton _ _).symm)
    refine op_then _ _ h3 (by rw [k3]; simp [hl]) fun s4 h4 => ?_
    refine wp_bind (wp_mono (collect_run (U := U) n (i + 1) _ (l ++ [a]) s4 h4 (by simp [hl]) (fun j hj => hk j (by omega))) (fun ms s5 h5 => ?_) (fun _ _ h => h) id)
    refine wp_pure ⟨?_, by simp [h5.2]⟩
    simpa [argSteps] using h5.1

/-- The objects of an expression, but for its matcher. -/
def Expr.bare (e : Expr) : List Nat := e.ctx :: ((e.acts ++ [e.seq]) ++ [e.impl])

theorem Expr.objects_perm (e : Expr) : e.objects.Perm ((e.parts ++ [e.matcher]) ++ e.bare) := by
  unfold Expr.objects Expr.bare
  refine List.Perm.trans ?_ List.perm_middle.symm
  refine List.Perm.cons _ ?_
  exact List.perm_append_comm_assoc _ _ _

theorem narrow_run {s0 : St} {d : List Op} {s : St} {U : Prop} (c : Crit) (e : Expr) (h : Ran th s0 d e.objects s) (ha : e.acts = []) :
    wp (narrow th c e) s (fun e' s' => Ran th s0 (d ++ critSteps c) e'.objects s' ∧ e'.acts = [] ∧ (c ≠ .all → e'.parts.length = arity c) ∧ (c = .all → e' = e)) (Broke th s0 d (critSteps c) [] (lost c)) U := by
  refine wp_unwinding (wp_mono (Q := fun e' s' => Ran th s0 (d ++ critSteps c) e'.objects s' ∧ e'.acts = [] ∧ (c ≠ .all → e'.parts.length = arity c) ∧ (c = .all → e' = e))
    (E := Broke th s0 d (critSteps c) e.objects (lost c)) (U := U) ?_ (fun _ _ h => h) (fun x s' h' => h'.cleaned (fun left g s' h' => drop_at h')) id)
  cases c with
  | all => exact wp_pure ⟨by simpa [critSteps] using h, ha, by simp, by simp⟩
  | «using» n =>
    refine part_then (argSteps n 0) [_] (collect_run n 0 d [] s (by rwa [List.append_nil]) rfl (fun j _ => ⟨rfl, rfl, rfl⟩)) fun ms s1 h1 => ?_
    refine part_then [_] [] (new_run _ h1.1 (by simp [lost, arity, h1.2])) fun w s2 h2 => ?_
    have h2 : Ran th s0 _ ((e.parts ++ [e.matcher]) ++ (w :: (e.bare ++ ms))) s2 := h2.perm (by
      refine (List.Perm.cons w (List.Perm.append_right _ e.objects_perm)).trans ?_
      rw [List.nil_append, List.append_assoc]; exact List.perm_middle.symm)
    refine wp_bind (wp_quiet (after_mono (destroyAll_at (U := U) _ h2.1) (fun s3 h3 => ?_) (fun h => h)))
    refine wp_pure ⟨?_, ha, fun _ => h1.2, by simp⟩
    refine Ran.perm (l := w :: (e.bare ++ ms)) ⟨by simpa [critSteps] using h3, by simpa [critSteps] using h2.2⟩ ?_
    refine List.Perm.trans ?_ (Expr.objects_perm _).symm
    show (w :: (e.bare ++ ms)).Perm ((ms ++ [w]) ++ e.bare)
    rw [List.append_assoc]
    exact (List.Perm.cons w List.perm_append_comm).trans List.perm_middle.symm
  | matching =>
    refine op_then _ [_] (l := []) (m := e.objects) (by rwa [List.append_nil]) rfl fun s1 h1 => ?_
    refine part_then [_] [] (new_run _ h1 rfl) fun w s2 h2 => ?_
    have h2 : Ran th s0 _ ((e.parts ++ [e.matcher]) ++ (w :: e.bare)) s2 := h2.perm (by
      rw [List.append_nil]
      exact (List.Perm.cons w e.objects_perm).trans List.perm_middle.symm)
    refine wp_bind (wp_quiet (after_mono (destroyAll_at (U := U) _ h2.1) (fun s3 h3 => ?_) (fun h => h)))
    refine wp_pure ⟨?_, ha, fun _ => rfl, by simp⟩
    exact Ran.perm (l := w :: e.bare) ⟨by simpa [critSteps] using h3, by simpa [critSteps] using h2.2⟩ (Expr.objects_perm { e with matcher := w, parts := [] }).symm

theorem begin_run {s0 : St} {d : List Op} {s : St} {U : Prop} {k : Op → Nat} (f : Form) (e : Expr) (h : Ran th s0 d e.objects s) (k1 : k (.memory .change) = 0) (k2 : k (.memory .ref) = 1) :
    wp (begin_ th f e) s (fun c s' => Ran th s0 (d ++ formSteps f) (c.toList ++ e.objects) s') (Broke th s0 d (formSteps f) [] k) U := by
  cases f with
  | assign => exact wp_pure (by simpa [formSteps] using h)
  | when n =>
    refine part_then [_, _] [] (wp_unwinding (wp_mono (Q := fun c s' => Ran th s0 (d ++ [.memory .change, .memory .ref]) (c :: e.objects) s')
      (E := Broke th s0 d [.memory .change, .memory .ref] e.objects k) (U := U) ?_ (fun _ _ h => h) (fun x s' h' => h'.cleaned (fun left g s' h' => drop_at h')) id)) fun c s1 h1 => wp_pure h1
    refine part_then [_] [_] (new_run (l := []) _ (by rwa [List.append_nil]) k1) fun c s1 h1 => ?_
    refine op_then (l := [c]) (m := e.objects) _ [] (h1.perm (by rw [List.append_nil]; exact (List.perm_append_singleton _ _).symm)) k2 fun s2 h2 => ?_
    exact wp_pure (by simpa using h2.perm (List.perm_append_singleton _ _))

theorem made_run {s0 : St} {d : List Op} {s : St} {U : Prop} {m : List Nat} {k : Op → Nat} (j : Nat) (h : Ran th s0 d m s) (hk : ∀ o ∈ actionSteps j, k o = 0) :
    wp (made th j) s (fun a s' => Ran th s0 (d ++ actionSteps j) (a :: m) s') (Broke th s0 d (actionSteps j) m k) U := by
  have h : Ran th s0 d (m ++ []) s := by rwa [List.append_nil]
  refine op_then _ _ h (hk _ (by simp [actionSteps])) fun s1 h1 => ?_
  refine op_then _ _ h1 (hk _ (by simp [actionSteps])) fun s2 h2 => ?_
  refine op_then _ _ h2 (hk _ (by simp [actionSteps])) fun s3 h3 => ?_
  refine op_then _ [_, _] h3 (hk _ (by simp [actionSteps])) fun s4 h4 => ?_
  refine wp_bind (wp_mono (fresh_at (U := U) (E := fun _ _ => False) h4.1) (fun a s5 h5 => ?_) (fun _ _ h => h.elim) id)
  have h5 : Ran th s0 _ (a :: (m ++ [])) s5 := ⟨h5, h4.2⟩
  refine opUnwinding_then [] _ [_] h5 (fun g s' h' => destroy_at h') (hk _ (by simp [actionSteps])) fun s6 h6 => ?_
  refine opUnwinding_then [] _ [] h6 (fun g s' h' => destroy_at h') (hk _ (by simp [actionSteps])) fun s7 h7 => ?_
  exact wp_pure (by simpa [actionSteps] using h7)

theorem act_run {s0 : St} {U : Prop} {k : Op → Nat} (c : Option Nat) (hk : ∀ j, ∀ o ∈ actionSteps j, k o = 0) : ∀ (n j : Nat) (e : Expr) (d : List Op) (s : St), Ran th s0 d (c.toList ++ e.objects) s →
    wp (act th n j e c) s (fun e' s' => Ran th s0 (d ++ actSteps n j) (c.toList ++ e'.objects) s' ∧ e'.acts.length = e.acts.length + n ∧ e'.parts = e.parts) (Broke th s0 d (actSteps n j) [] k) U
  | 0, j, e, d, s, h => wp_pure ⟨by simpa [actSteps] using h, rfl, rfl⟩
  | n + 1, j, e, d, s, h => by
    refine part_then (actionSteps j) (actSteps n (j + 1)) (wp_unwinding (wp_mono (made_run (U := U) j h (hk j)) (fun _ _ h => h) (fun x s' h' => h'.cleaned fun left g s'' h'' => ?_) id)) fun a s1 h1 => ?_
    · rw [List.append_assoc] at h''
      exact after_bind (after_mono (dropChange_at h'') (fun s3 h3 => drop_at h3) id)
    · have h1 : Ran th s0 (d ++ actionSteps j) (c.toList ++ Expr.objects { e with acts := e.acts ++ [a] }) s1 := h1.perm (by
        refine List.perm_middle.symm.trans (List.Perm.append_left _ ?_)
        show (a :: e.objects).Perm (Expr.objects { e with acts := e.acts ++ [a] })
        simp only [Expr.objects, List.append_assoc]
        refine (List.Perm.swap _ _ _).trans (List.Perm.cons _ ?_)
        exact List.perm_middle.symm)
      exact wp_mono (act_run (U := U) c hk n (j + 1) _ _ s1 h1) (fun e' s2 h2 => ⟨by simpa [actSteps] using h2.1, by rw [h2.2.1]; simp; omega, h2.2.2⟩) (fun _ _ h => h) id

/-! ## The end of the statement -/

theorem destroy_cases (id : Nat) (s : St) : destroy id s = .ub ∨ ∃ s', destroy id s = .done s' ∧ ∀ i, i ∉ s.live → i ∉ s'.live := by
  unfold destroy
  by_cases h : id ∈ s.live
  · rw [if_pos h]; exact .inr ⟨_, rfl, fun i hi hm => hi (List.mem_of_mem_erase hm)⟩
  · rw [if_neg h]; exact .inl rfl

theorem destroyAll_cases : ∀ (ids : List Nat) (s : St), destroyAll ids s = .ub ∨ ∃ s', destroyAll ids s = .done s' ∧ ∀ i, i ∉ s.live → i ∉ s'.live
  | [], s => .inr ⟨s, rfl, fun _ h => h⟩
  | id :: ids, s => by
    unfold destroyAll
    rcases destroy_cases id s with h | ⟨s', h, hs⟩ <;> rw [h]
    · exact .inl rfl
    · rcases destroyAll_cases ids s' with h' | ⟨s'', h', hs'⟩
      · exact .inl (by simp [h'])
      · exact .inr ⟨s'', by simp [h'], fun i hi => hs' i (hs i hi)⟩

theorem drop_ub (e : Expr) (s : St) (h : e.seq ∉ s.live ∨ e.matcher ∉ s.live) : e.drop false s = .ub := by
  show (destroy e.ctx s >>= fun s => dropSeq e.seq e.acts s >>= fun s => dropMatcher e.matcher e.parts s >>= destroy e.impl) = .ub
  rcases destroy_cases e.ctx s with h1 | ⟨s1, h1, hs1⟩ <;> rw [h1]
  · rfl
  rw [R.bind_done]
  rcases h with h | h
  · have : dropSeq e.seq e.acts s1 = .ub := destroyAll_ub (id := e.seq) _ (by simp) (hs1 _ h)
    rw [this]; rfl
  · rcases destroyAll_cases (e.acts ++ [e.seq]) s1 with h2 | ⟨s2, h2, hs2⟩
    · have : dropSeq e.seq e.acts s1 = .ub := h2
      rw [this]; rfl
    · have h2 : dropSeq e.seq e.acts s1 = .done s2 := h2
      rw [h2, R.bind_done]
      have : dropMatcher e.matcher e.parts s2 = .ub := destroyAll_ub (id := e.matcher) _ (by simp) (hs2 _ (hs1 _ h))
      rw [this]; rfl

theorem dropBoth_ub (c : Option Nat) (e : Expr) (s : St) (h : e.seq ∉ s.live ∨ e.matcher ∉ s.live) : (dropChange c s >>= e.drop false) = .ub := by
  cases c with
  | none => exact drop_ub e s h
  | some c =>
    show (destroy c s >>= e.drop false) = .ub
    rcases destroy_cases c s with h1 | ⟨s1, h1, hs1⟩ <;> rw [h1]
    · rfl
    · exact drop_ub e s1 (h.imp (hs1 _) (hs1 _))

theorem At.gone {s0 : St} {id : Nat} {l r : List Nat} {g g' : List Op} {s s' : St} (hw : Wf s0) (h : At s0 (l ++ r) g s) (hl : id ∈ l) (h' : At s0 r g' s') : id ∉ s'.live := by
  intro hm
  rcases List.mem_append.mp (h'.1.1.mem_iff.mp hm) with hs | hr
  · exact Nat.lt_irrefl _ (Nat.lt_of_lt_of_le (hw _ hs) (h.1.2.2.1 _ (List.mem_append_left _ hl)).1)
  · exact (List.nodup_append.mp h.1.2.1).2.2 _ hl _ hr rfl

/-- The step at which something is deleted twice threw. -/
def Twice (th : Nat → Option X) (s0 : St) (d : List Op) (now : List Op) : Prop :=
  ∃ before o rest x, now = before ++ o :: rest ∧ deletesTwice o ∧ th (s0.log.length + (d ++ before).length) = some x ∧ NoneThrows th s0.log.length (d ++ before)

theorem Twice.later {s0 : St} {d a b : List Op} (h : Twice th s0 (d ++ a) b) : Twice th s0 d (a ++ b) := by
  obtain ⟨p, o, r, x, rfl, ho, h⟩ := h
  exact ⟨a ++ p, o, r, x, by simp, ho, by simpa only [List.append_assoc] using h⟩

/-- A step at the end of the statement. -/
theorem twice_then {s0 : St} {d : List Op} {l r q : List Nat} {s : St} {f : Unit → M X α} {Q : α → St → Prop} {c : St → R St} {E : X → St → Prop} {U : Prop} (i : Nat) (w : Why) (hw : Wf s0) (h : Ran th s0 d l s) (hp : l.Perm (q ++ r))
    (hid : i ∈ q) (hc : ∀ g s', At s0 (q ++ r) g s' → after c s' (At s0 r g) U) (hd : deletesTwice (.memory w)) (hE : ∀ x s', Twice th s0 d [.memory w] → i ∉ s'.live → E x s')
    (hn : ∀ s', Ran th s0 (d ++ [.memory w]) l s' → wp (f ()) s' Q E U) :
    wp ((op th (.memory w)).unwinding c >>= f) s Q E U := by
  refine wp_bind (wp_unwinding (wp_mono (op_run (.memory w) (fun _ => 0) rfl h) (fun _ s' h' => hn s' h') (fun x s' h' => ?_) id))
  obtain ⟨p, o, rest, lf, hpe, ht, hq, hat, hl⟩ := h'
  rw [List.length_eq_zero_iff.mp hl, List.append_nil] at hat
  have ho : o = .memory w := by
    have : o ∈ [Op.memory w] := by rw [hpe]; simp
    exact List.mem_singleton.mp this
  have hat := hat.perm hp
  exact after_mono (hc _ s' hat) (fun s'' h'' => hE x s'' ⟨p, o, rest, x, hpe, ho ▸ hd, ht, hq⟩ (hat.gone hw hid h'')) id

/-- The stubbing of an expression. -/
def Expr.stub (e : Expr) (h : Nat) : Stub := ⟨e.matcher, e.parts, e.seq, e.acts, h⟩

theorem commit_run {s0 : St} {d : List Op} {s : St} {U : Prop} (k : Op → Nat) (e : Expr) (c : List Nat) (hw : Wf s0) (h : Ran th s0 d (c ++ e.objects) s) (hk : k (.memory .handler) = 0) :
    wp (commit th e) s (fun _ s' => ∃ h, At { s0 with stubs := s0.stubs ++ [e.stub h] } (h :: (c ++ e.objects)) (s0.log ++ (d ++ endSteps)) s' ∧ NoneThrows th s0.log.length (d ++ endSteps))
      (fun x s' => Broke th s0 d [.memory .handler] (c ++ e.objects) k x s' ∨ (Twice th s0 d endSteps ∧ (e.seq ∉ s'.live ∨ e.matcher ∉ s'.live))) U := by
  unfold commit
  refine wp_bind (wp_mono (new_run (U := U) (l := []) (m := c ++ e.objects) (k := k) .handler (by rwa [List.append_nil]) hk) (fun a s1 h1 => ?_) (fun x s' h' => .inl h') (fun h => h))
  rw [List.append_nil] at h1
  have later : ∀ (p r : List Op), endSteps = p ++ r → Twice th s0 (d ++ p) r → Twice th s0 d endSteps := fun p r hp ht => hp ▸ ht.later
  have more : ∀ (p r q : List Op), Twice th s0 p r → Twice th s0 p (r ++ q) := fun p r q ⟨b, o, rest, x, hr, ho⟩ => ⟨b, o, rest ++ q, x, by simp [hr], ho⟩
  have p1 : (a :: (c ++ e.objects)).Perm ((e.parts ++ [e.matcher]) ++ (a :: (c ++ e.bare))) := by
    refine List.Perm.trans (List.Perm.cons a ?_) List.perm_middle.symm
    refine (List.Perm.append_left _ e.objects_perm).trans ?_
    exact List.perm_append_comm_assoc _ _ _
  have p2 : (a :: (c ++ e.objects)).Perm (((e.acts ++ [e.seq]) ++ ((e.parts ++ [e.matcher]) ++ [a])) ++ (c ++ [e.ctx, e.impl])) := by
    refine p1.trans ?_
    rw [List.append_assoc (e.acts ++ [e.seq]), List.append_assoc (e.parts ++ [e.matcher])]
    refine List.Perm.trans (List.Perm.append_left _ ?_) (List.perm_append_comm_assoc _ _ _)
    show (a :: (c ++ e.bare)).Perm ((e.acts ++ [e.seq]) ++ (a :: (c ++ [e.ctx, e.impl])))
    refine List.Perm.trans (List.Perm.cons a ?_) List.perm_middle.symm
    refine List.Perm.trans (List.Perm.append_left _ ?_) (List.perm_append_comm_assoc _ _ _)
    exact List.perm_middle.symm
  have c1 : ∀ g s', At s0 ((e.parts ++ [e.matcher]) ++ (a :: (c ++ e.bare))) g s' → after (fun s => dropMatcher e.matcher e.parts s >>= destroy a) s' (At s0 (c ++ e.bare) g) U := fun g s' h' =>
    after_bind (after_mono (destroyAll_at _ h') (fun s'' h'' => destroy_at h'') id)
  have c2 : ∀ g s', At s0 (((e.acts ++ [e.seq]) ++ ((e.parts ++ [e.matcher]) ++ [a])) ++ (c ++ [e.ctx, e.impl])) g s' → after (dropOwned e a) s' (At s0 (c ++ [e.ctx, e.impl]) g) U := fun g s' h' => by
    rw [List.append_assoc (e.acts ++ [e.seq]), List.append_assoc (e.parts ++ [e.matcher])] at h'
    exact after_bind (after_mono (destroyAll_at _ h') (fun s'' h'' => after_bind (after_mono (destroyAll_at _ h'') (fun s3 h3 => destroy_at h3) id)) id)
  have i2 : e.seq ∈ (e.acts ++ [e.seq]) ++ ((e.parts ++ [e.matcher]) ++ [a]) := by simp
  have p1' : (a :: (c ++ e.objects)).Perm (((e.parts ++ [e.matcher]) ++ [a]) ++ (c ++ e.bare)) := by
    rw [List.append_assoc (e.parts ++ [e.matcher])]; exact p1
  refine twice_then (q := (e.parts ++ [e.matcher]) ++ [a]) e.matcher .count1 hw h1 p1' (by simp) (fun g s' h' => c1 g s' (by rw [List.append_assoc (e.parts ++ [e.matcher])] at h'; exact h')) trivial
    (fun x s' ht hi => .inr ⟨later [_] _ rfl (more _ [_] _ ht), .inr hi⟩) fun s2 h2 => ?_
  refine twice_then e.seq .count2 hw h2 p2 i2 c2 trivial (fun x s' ht hi => .inr ⟨later [_, _] _ rfl (more _ [_] _ (by simpa using ht)), .inl hi⟩) fun s3 h3 => ?_
  refine twice_then e.seq .count3 hw h3 p2 i2 c2 trivial (fun x s' ht hi => .inr ⟨later [_, _, _] _ rfl (more _ [_] _ (by simpa using ht)), .inl hi⟩) fun s4 h4 => ?_
  refine twice_then e.seq .place hw h4 p2 i2 c2 trivial (fun x s' ht hi => .inr ⟨later [_, _, _, _] _ rfl (by simpa using ht), .inl hi⟩) fun s5 h5 => ?_
  refine wp_quiet ?_
  refine ⟨a, ⟨h5.1.1, ?_, ?_⟩, ?_⟩
  · show s5.stubs ++ _ = _
    rw [h5.1.2.1]; rfl
  · show s5.log = _
    rw [h5.1.2.2]; simp [endSteps]
  · simpa [endSteps] using h5.2

theorem finish_run {s0 : St} {d : List Op} {s : St} (k : Op → Nat) (e : Expr) (c : Option Nat) (hw : Wf s0) (h : Ran th s0 d (c.toList ++ e.objects) s) (hk : k (.memory .handler) = 0) :
    wp (finish th e c) s (fun _ s' => ∃ h, At { s0 with stubs := s0.stubs ++ [e.stub h] } (owned (e.stub h)) (s0.log ++ (d ++ endSteps)) s' ∧ NoneThrows th s0.log.length (d ++ endSteps))
      (Broke th s0 d [.memory .handler] [] k) (Twice th s0 d endSteps) := by
  unfold finish
  refine wp_bind (wp_unwinding (wp_mono (commit_run (U := Twice th s0 d endSteps) k e c.toList hw h hk) (fun _ s1 h1 => ?_) (fun x s1 h1 => ?_) id))
  · obtain ⟨a, h1, hn⟩ := h1
    refine wp_quiet ?_
    have p : (a :: (c.toList ++ e.objects)).Perm (c.toList ++ (e.ctx :: e.impl :: owned (e.stub a))) := by
      refine List.perm_middle.symm.trans (List.Perm.append_left _ ?_)
      refine (List.Perm.swap _ _ _).trans (List.Perm.cons _ ?_)
      show (a :: ((e.acts ++ [e.seq]) ++ ((e.parts ++ [e.matcher]) ++ [e.impl]))).Perm (e.impl :: e.matcher :: e.seq :: a :: (e.parts ++ e.acts))
      have q1 : ((e.acts ++ [e.seq]) ++ ((e.parts ++ [e.matcher]) ++ [e.impl])).Perm (e.impl :: e.matcher :: e.seq :: (e.parts ++ e.acts)) := by
        rw [← List.append_assoc]
        refine (List.perm_append_singleton _ _).trans (List.Perm.cons _ ?_)
        rw [← List.append_assoc]
        refine (List.perm_append_singleton _ _).trans (List.Perm.cons _ ?_)
        rw [List.append_assoc]
        refine List.perm_middle.trans (List.Perm.cons _ ?_)
        exact List.perm_append_comm
      refine (List.Perm.cons a q1).trans ?_
      exact (List.perm_middle (l₁ := [e.impl, e.matcher, e.seq])).symm
    refine after_bind (after_mono (dropChange_at (h1.perm p)) (fun s2 h2 => ?_) id)
    exact after_mono (dropCommitted_at h2) (fun s3 h3 => ⟨a, h3, hn⟩) id
  · rcases h1 with h1 | ⟨ht, hg⟩
    · exact h1.cleaned fun left g s2 h2 => by
        rw [List.append_assoc] at h2
        exact after_bind (after_mono (dropChange_at h2) (fun s3 h3 => drop_at h3) id)
    · unfold after
      simp only [dropBoth_ub c e s1 hg]
      exact ht

theorem statement_run {s : St} (c : Crit) (f : Form) (hw : Wf s) :
    wp (statement th c f) s (fun _ s' => ∃ t, At { s with stubs := s.stubs ++ [t] } (owned t) (s.log ++ steps c f) s' ∧ NoneThrows th s.log.length (steps c f) ∧ t.parts.length = arity c ∧ t.acts.length = actions f)
      (Broke th s [] (buildSteps c f ++ [.memory .handler]) [] (lost c)) (Twice th s [] (steps c f)) := by
  have h : Ran th s [] [] s := ⟨⟨⟨by simp, List.nodup_nil, by simp, Nat.le_refl _⟩, rfl, by simp⟩, by intro i hi; simp at hi⟩
  have hf : f.actions = actions f := by cases f <;> rfl
  unfold statement
  have e1 : buildSteps c f ++ [.memory .handler] = methodSteps ++ (critSteps c ++ (formSteps f ++ (actSteps (actions f) 0 ++ [.memory .handler]))) := by simp [buildSteps]
  rw [e1]
  refine part_then _ _ (expression_run h rfl rfl rfl rfl rfl rfl) fun e s1 h1 => ?_
  refine part_then _ _ (narrow_run c e h1.1 h1.2.1) fun e' s2 h2 => ?_
  refine part_then _ _ (begin_run f e' h2.1 rfl rfl) fun ch s3 h3 => ?_
  rw [hf]
  have hz : ∀ j, ∀ o ∈ actionSteps j, lost c o = 0 := by
    intro j o ho
    simp only [actionSteps, List.mem_cons, List.not_mem_nil, or_false] at ho
    rcases ho with rfl | rfl | rfl | rfl | rfl | rfl <;> rfl
  refine part_then _ _ (act_run ch hz (actions f) 0 e' _ s3 h3) fun e'' s4 h4 => ?_
  refine wp_mono (finish_run (lost c) e'' ch hw h4.1 rfl) (fun _ s5 h5 => ?_) (fun _ _ h => h) (fun ht => ?_)
  · obtain ⟨a, h5, hn⟩ := h5
    refine ⟨e''.stub a, by simpa [steps, buildSteps] using h5, by simpa [steps, buildSteps] using hn, ?_, ?_⟩
    · show e''.parts.length = _
      rw [h4.2.2]
      by_cases hc : c = .all
      · rw [h2.2.2.2 hc, h1.2.2, hc]; rfl
      · exact h2.2.2.1 hc
    · show e''.acts.length = _
      rw [h4.2.1, h2.2.1]; simp
  · have := Twice.later (d := []) (a := buildSteps c f) (b := endSteps) (th := th) (s0 := s) (by simpa [buildSteps] using ht)
    exact this

end
end FakeIt.Building
