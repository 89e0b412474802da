import Verif.Lemmas.Interrupted
/-!
# Calls that exceptions interrupt: a call and several calls in both models
-/
namespace FakeIt.Spec.Interrupted
open FakeIt.Throwing (Kind St Call Res Exc call calls)
open FakeIt.Spec.Throwing (chosen advance Untouched Recorded Enough cut)

variable {V E X : Type} {P : Prog V E} {d : Doing V E} {th : Nat → Option X}

theorem chosen_of {l : List (Stub V E)} (copied : List Nat) (vs : List V) :
    (∀ x, l.find? (fun x => accepts x.kind vs) = some x → ∃ j, chosen (callOf l copied vs).accepts l.length 0 = some j ∧ l[j]? = some x) ∧
    (l.find? (fun x => accepts x.kind vs) = none → chosen (callOf l copied vs).accepts l.length 0 = none) := by
  have := chosen_find (fun x : Stub V E => accepts x.kind vs) l []
  simp only [List.nil_append, List.length_nil, Nat.zero_add] at this
  exact this

/-- The states that `Shows` speaks of. -/
theorem shows_ready {s : AState V E} {m off : Nat} {k : AMock V E} {l : List (Stub V E)} (h : Ready P s m off k l) {st : St} (hst : Shows d s m off st) : st.stubs = l.map fun x => x.script.map (actOf d) := by
  obtain ⟨⟨k', l', h1, h2, h3⟩, -⟩ := hst
  rw [h.mock] at h1
  cases h1
  rw [h.stubs] at h2
  cases h2
  exact h3

theorem shows_recorded {s s' : AState V E} {m off : Nat} {k : AMock V E} {l : List (Stub V E)} (h : Ready P s m off k l) {st st' : St} (hst : Shows d s m off st) {copied : List Nat} {vs : List V} (hs : Served P s s' m off k l vs)
    {j : Nat} (hj : chosen (callOf l copied vs).accepts st.stubs.length 0 = some j) (h1 : st'.stubs = st.stubs.modify j advance) (h2 : st'.hist.length = st.hist.length + 1) : Shows d s' m off st' := by
  have he := shows_ready h hst
  rw [he, List.length_map] at hj
  cases hf : l.find? (fun x => accepts x.kind vs) with
  | none => rw [(chosen_of copied vs).2 hf] at hj; cases hj
  | some x =>
    obtain ⟨i, h3, h4⟩ := (chosen_of copied vs).1 x hf
    rw [h3] at hj
    cases hj
    obtain ⟨k', hr, -, -, -, hcl, -⟩ := hs.someone j x hf h4
    refine ⟨⟨k', used l j, hr.mock, hr.stubs, ?_⟩, ?_⟩
    · rw [h1, he, modify_map h4 (h.acts x (List.mem_of_getElem? h4))]
      rfl
    · rw [h2, hst.2, hcl]

theorem step_shows {s s' : AState V E} {m off : Nat} {k : AMock V E} {l : List (Stub V E)} (h : Ready P s m off k l) {st st' : St} (hw : FakeIt.Spec.Throwing.Wf st) (hst : Shows d s m off st) {copied : List Nat} {vs : List V}
    (hs : Served P s s' m off k l vs) {o : Res X (Option Nat)} (hcall : call th (callOf l copied vs) st = .done (o, st')) (hm : Enough th st st') :
    o ≠ .dead ∧ st'.faked = st.faked ∧ ((st'.hist = st.hist ∧ Shows d s m off st') ∨ (st'.hist ≠ st.hist ∧ Shows d s' m off st')) := by
  obtain ⟨h1, h2, d', h3⟩ := C82_exceptions_of_the_user_are_safe_partial hw hcall hm
  refine ⟨h1, h2, ?_⟩
  rcases h3 with ⟨nx, -, rfl⟩ | ⟨j, res, hj, nx, -, -, rfl⟩
  · exact .inl ⟨rfl, hst⟩
  · exact .inr ⟨by simp, shows_recorded h hst hs hj rfl (by simp)⟩

/-- What is begun comes after what was begun before. -/
theorem ends_log {c : Call} {st st' : St} {o : Res X (Option Nat)} (h : FakeIt.Spec.Throwing.Ends th c st o st') : ∃ e, st'.log = st.log ++ e := by
  cases h with
  | early _ h => obtain ⟨_, _, rfl⟩ := h; exact ⟨_, rfl⟩
  | nobody _ _ h => obtain ⟨_, _, rfl⟩ := h; exact ⟨_, rfl⟩
  | unprepared _ _ _ h => obtain ⟨_, _, _, rfl⟩ := h; exact ⟨_, rfl⟩
  | exhausted _ _ _ _ _ h => obtain ⟨_, _, _, rfl⟩ := h; exact ⟨_, rfl⟩
  | answered _ _ _ _ _ _ _ h => obtain ⟨_, _, _, rfl⟩ := h; exact ⟨_, rfl⟩
  | terminated _ _ _ _ _ _ _ h => exact ⟨_, h⟩

theorem calls_log {cs : List Call} : ∀ {out : List Nat} {st st' : St} {r : List Nat}, FakeIt.Spec.Throwing.Wf st → calls th cs out st = .done (some (r, st')) → ∃ e, st'.log = st.log ++ e := by
  induction cs with
  | nil => intro out st st' r _ h; cases h; exact ⟨[], by simp⟩
  | cons c cs ih =>
    intro out st st' r hw h
    unfold calls at h
    split at h
    · obtain ⟨o, s1, hc, he⟩ := C82_every_call_ends (th := th) hw c
      rw [hc] at h
      obtain ⟨e, h1⟩ := ends_log he
      cases o with
      | dead => cases h
      | ok r =>
        obtain ⟨e', h2⟩ := ih (wf_next hw he (by simp)).1 h
        exact ⟨e ++ e', by rw [h2, h1, List.append_assoc]⟩
      | exc r =>
        obtain ⟨e', h2⟩ := ih (wf_next hw he (by simp)).1 h
        exact ⟨e ++ e', by rw [h2, h1, List.append_assoc]⟩
    · exact ih hw h

theorem enough_left {st s1 st' : St} {e : List FakeIt.Throwing.Op} (h : st'.log = s1.log ++ e) (hm : Enough th st st') : Enough th st s1 := by
  intro n w h1 h2
  refine hm n w h1 ?_
  rw [h, List.getElem?_append_left (List.getElem?_eq_some_iff.1 h2).1]
  exact h2

theorem enough_right {st s1 st' : St} {e : List FakeIt.Throwing.Op} (h : s1.log = st.log ++ e) (hm : Enough th st st') : Enough th s1 st' := by
  intro n w h1 h2
  refine hm n w ?_ h2
  rw [h, List.length_append] at h1
  omega

/-- Several calls. -/
theorem run_shows (hP : P.Plain) {m off : Nat} {l0 : List (Stub V E)} : ∀ (cs : List (List Nat × List V)) {s : AState V E} {k : AMock V E} {l : List (Stub V E)} (_ : Ready P s m off k l) (_ : Callable P k off)
    (_ : l.map Stub.kind = l0.map Stub.kind) {out r : List Nat} {st st' : St} (_ : FakeIt.Spec.Throwing.Wf st) (_ : st.faked = true) (_ : Shows d s m off st) (_ : Enough th st st')
    (_ : calls th (cs.map fun c => callOf l0 c.1 c.2) out st = .done (some (r, st'))),
    ∃ (made : List (List V)) (outs : List (OpOut V E)) (s' : AState V E), made.Sublist (cs.map Prod.snd) ∧ aRun P s (made.map (callOp m off)) = some (outs, s') ∧ Shows d s' m off st' ∧ st'.faked = true := by
  intro cs
  induction cs with
  | nil =>
    intro s k l _ _ _ out r st st' _ hf hst _ h
    cases h
    exact ⟨[], [], s, .slnil, rfl, hst, hf⟩
  | cons c cs ih =>
    intro s k l hr hc hk out r st st' hw hf hst hm h
    rw [List.map_cons] at h
    unfold calls at h
    rw [if_pos hf, ← callOf_kinds hk] at h
    obtain ⟨o, s1, hcall, he⟩ := C82_every_call_ends (th := th) hw (callOf l c.1 c.2)
    rw [hcall] at h
    obtain ⟨e, hlog⟩ := ends_log he
    obtain ⟨out1, t, ha⟩ := call_total hP hr hc c.2
    have hs := call_served hr hc ha
    have go : ∀ out', FakeIt.Spec.Throwing.Wf s1 → calls th (cs.map fun c => callOf l0 c.1 c.2) out' s1 = .done (some (r, st')) →
        ∃ (made : List (List V)) (outs : List (OpOut V E)) (s' : AState V E), made.Sublist ((c :: cs).map Prod.snd) ∧ aRun P s (made.map (callOp m off)) = some (outs, s') ∧ Shows d s' m off st' ∧ st'.faked = true := by
      intro out' hw1 h
      obtain ⟨e', hlog'⟩ := calls_log hw1 h
      have hm1 := enough_left hlog' hm
      have hm2 := enough_right hlog hm
      obtain ⟨-, h2, h3⟩ := step_shows hr hw hst hs hcall hm1
      rcases h3 with ⟨-, h3⟩ | ⟨hne, h3⟩
      · obtain ⟨made, outs, s', i1, i2, i3⟩ := ih hr hc hk hw1 (h2.trans hf) h3 hm2 h
        exact ⟨made, outs, s', .cons _ i1, i2, i3⟩
      · cases hfi : l.find? (fun x => accepts x.kind c.2) with
        | none =>
          have hch := (chosen_of c.1 c.2).2 hfi
          have hlen : st.stubs.length = l.length := by rw [shows_ready hr hst, List.length_map]
          obtain ⟨-, -, d', h4⟩ := C82_exceptions_of_the_user_are_safe_partial hw hcall hm1
          rcases h4 with ⟨nx, -, rfl⟩ | ⟨j, res, hj, -⟩
          · exact (hne rfl).elim
          · rw [hlen, hch] at hj; cases hj
        | some x =>
          obtain ⟨j, -, h4⟩ := (chosen_of c.1 c.2).1 x hfi
          obtain ⟨k', hr', e1, e2, e3, -⟩ := hs.someone j x hfi h4
          have hc' : Callable P k' off := by
            unfold Callable
            rw [e1, e2, e3]
            exact hc
          obtain ⟨made, outs, s', i1, i2, i3⟩ := ih hr' hc' ((used_kinds l j).trans hk) hw1 (h2.trans hf) h3 hm2 h
          refine ⟨c.2 :: made, .call out1 :: outs, s', .cons₂ _ i1, ?_, i3⟩
          simp only [List.map_cons, aRun, callOp, aStep, ha, Option.map_some, Option.bind_eq_bind, Option.bind_some]
          rw [i2]
          rfl
    cases o with
    | dead => cases h
    | ok r' => exact go _ (wf_next hw he (by simp)).1 h
    | exc x => exact go _ (wf_next hw he (by simp)).1 h

/-! ## Only the action throws -/

theorem cut_last {os e : List FakeIt.Throwing.Op} {x : X} : ∀ {n}, cut th n os = (e, some x) → ∃ pre o, e = pre ++ [o] ∧ o ∈ os ∧ th (n + pre.length) = some x := by
  induction os generalizing e with
  | nil => intro n h; cases h
  | cons o os ih =>
    intro n h
    cases ht : th n with
    | some y =>
      rw [FakeIt.Throwing.cut_cons_some ht] at h
      cases h
      exact ⟨[], o, rfl, by simp, ht⟩
    | none =>
      rw [FakeIt.Throwing.cut_cons_none ht] at h
      cases hc : cut th (n + 1) os with
      | mk e' x' =>
        rw [hc] at h
        cases h
        obtain ⟨pre, o', h1, h2, h3⟩ := ih hc
        exact ⟨o :: pre, o', by simp [h1], by simp [h2], by rw [← h3]; congr 1; simp; omega⟩

theorem only_enough {st st' : St} (h : OnlyTheAction th st st') : Enough th st st' := by
  intro n w h1 h2
  cases ht : th n with
  | none => rfl
  | some x =>
    rcases h n _ h1 h2 (by simp [ht]) with h | h | h <;> cases h

theorem only_cut {st st' : St} (h : OnlyTheAction th st st') {os e a b : List FakeIt.Throwing.Op} {x : X} (hc : cut th (st.log.length + a.length) os = (e, some x)) (hl : st'.log = st.log ++ (a ++ e ++ b)) :
    ∃ o ∈ os, o = .result ∨ o = .body ∨ o = .original := by
  obtain ⟨pre, o, h1, h2, h3⟩ := cut_last hc
  refine ⟨o, h2, h (st.log.length + a.length + pre.length) o (by omega) ?_ (by simp [h3])⟩
  rw [hl, h1, List.getElem?_append_right (by omega)]
  simp only [List.append_assoc]
  rw [List.getElem?_append_right (by omega), List.getElem?_append_right (by omega)]
  simp [Nat.add_assoc, Nat.add_sub_add_left]

theorem early_ops {c : Call} {st : St} : ∀ o ∈ FakeIt.Spec.Throwing.early c st, ¬(o = .result ∨ o = .body ∨ o = .original) := by
  have hask : ∀ (acc : Nat → Bool) (n h : Nat), ∀ o ∈ FakeIt.Spec.Throwing.asked acc n h, ∃ i, o = .ask i := by
    intro acc n
    induction n with
    | zero => intro h o ho; cases ho
    | succ n ih =>
      intro h o ho
      simp only [FakeIt.Spec.Throwing.asked, List.mem_cons] at ho
      rcases ho with rfl | ho
      · exact ⟨_, rfl⟩
      · split at ho
        · cases ho
        · exact ih _ o ho
  intro o ho
  simp only [FakeIt.Spec.Throwing.early, List.mem_append, List.mem_map, List.mem_singleton] at ho
  rcases ho with (((rfl | ⟨i, -, rfl⟩) | rfl) | ho) | ho
  · simp
  · simp
  · simp
  · obtain ⟨i, rfl⟩ := hask _ _ _ o ho; simp
  · cases hch : chosen c.accepts st.stubs.length 0 with
    | none => rw [hch] at ho; simp [FakeIt.Spec.Throwing.then_] at ho; rcases ho with rfl | rfl <;> simp
    | some j => rw [hch] at ho; simp [FakeIt.Spec.Throwing.then_] at ho; subst ho; simp

/-- A call in which only the action throws. -/
theorem whole_shows {s s' : AState V E} {m off : Nat} {k : AMock V E} {l : List (Stub V E)} (h : Ready P s m off k l) {st st' : St} (hw : FakeIt.Spec.Throwing.Wf st) (hst : Shows d s m off st) {copied : List Nat} {vs : List V}
    (hs : Served P s s' m off k l vs) {o : Res X (Option Nat)} (hcall : call th (callOf l copied vs) st = .done (o, st')) (hm : OnlyTheAction th st st') :
    Shows d s' m off st' ∧ st'.faked = st.faked ∧ (o = .exc .unexpected → ∃ r, s'.log = s.log ++ [.unexpected .unmatched r]) ∧
      (o ≠ .exc .unexpected → ∃ x, l.find? (fun x => accepts x.kind vs) = some x ∧ x.script ≠ []) := by
  obtain ⟨-, hfk, hsh⟩ := step_shows h hw hst hs hcall (only_enough hm)
  have he := shows_ready h hst
  have hlen : st.stubs.length = l.length := by rw [he, List.length_map]
  have hat : ∀ {j}, chosen (callOf l copied vs).accepts st.stubs.length 0 = some j → ∃ x, l.find? (fun x => accepts x.kind vs) = some x ∧ l[j]? = some x := by
    intro j hj
    rw [hlen] at hj
    cases hf : l.find? (fun x => accepts x.kind vs) with
    | none => rw [(chosen_of copied vs).2 hf] at hj; cases hj
    | some x =>
      obtain ⟨i, h3, h4⟩ := (chosen_of copied vs).1 x hf
      rw [h3] at hj
      cases hj
      exact ⟨x, rfl, h4⟩
  have hnob : chosen (callOf l copied vs).accepts st.stubs.length 0 = none → l.find? (fun x => accepts x.kind vs) = none := by
    intro hj
    cases hf : l.find? (fun x => accepts x.kind vs) with
    | none => rfl
    | some x =>
      obtain ⟨i, h3, -⟩ := (chosen_of copied vs).1 x hf
      rw [hlen, h3] at hj
      cases hj
  cases ends_of hw hcall with
  | @early e x _ hc hu =>
    exfalso
    obtain ⟨_, _, rfl⟩ := hu
    obtain ⟨o, h1, h2⟩ := only_cut hm (a := []) (b := []) hc (by simp)
    exact early_ops o h1 h2
  | @nobody e _ hch hc hu =>
    obtain ⟨_, _, rfl⟩ := hu
    obtain ⟨hr', hcl, hlg⟩ := hs.nobody (hnob hch)
    refine ⟨⟨⟨k, l, hr'.mock, hr'.stubs, he⟩, by rw [hcl]; exact hst.2⟩, rfl, fun _ => hlg, fun hne => (hne rfl).elim⟩
  | @unprepared j e e' x _ hch hc hp hr =>
    exfalso
    obtain ⟨_, _, _, rfl⟩ := hr
    obtain ⟨o, h1, h2⟩ := only_cut hm (a := e) (b := []) hp (by simp)
    simp only [FakeIt.Spec.Throwing.prepare, List.mem_cons, List.not_mem_nil, or_false] at h1
    rcases h1 with rfl | rfl <;> simp at h2
  | @exhausted j e e' y _ hch hc hsj hp ht hr =>
    obtain ⟨_, _, _, rfl⟩ := hr
    have hsh' := hsh.resolve_left fun hh => by simp at hh
    obtain ⟨x, hf, hx⟩ := hat hch
    have hnil : x.script = [] := by
      rw [he, List.getElem?_map, hx] at hsj
      simpa using hsj
    obtain ⟨-, -, -, -, -, -, hlg⟩ := hs.someone j x hf hx
    cases y with
    | none => exact ⟨hsh'.2, hfk, fun _ => hlg hnil, fun hne => (hne rfl).elim⟩
    | some y =>
      exfalso
      obtain ⟨o, h1, h2⟩ := only_cut hm (a := e ++ FakeIt.Spec.Throwing.prepare) (b := []) (by simpa [FakeIt.Spec.Throwing.prepare, Nat.add_assoc] using ht) (by simp)
      simp only [List.mem_cons, List.not_mem_nil, or_false] at h1
      rcases h1 with rfl | rfl <;> simp at h2
  | @answered j e a rst e' y r _ hch hc hsj hp ht hi hn hr =>
    obtain ⟨_, _, _, rfl⟩ := hr
    have hsh' := hsh.resolve_left fun hh => by simp at hh
    obtain ⟨x, hf, hx⟩ := hat hch
    refine ⟨hsh'.2, hfk, fun ho => by cases y <;> simp at ho, fun _ => ⟨x, hf, fun hnil => ?_⟩⟩
    rw [he, List.getElem?_map, hx] at hsj
    simp [hnil] at hsj
  | terminated hch hc hsj hp ht hu hx hl =>
    exfalso
    obtain ⟨h1, -⟩ := C82_exceptions_of_the_user_are_safe_partial hw hcall (only_enough hm)
    exact h1 rfl

end FakeIt.Spec.Interrupted
