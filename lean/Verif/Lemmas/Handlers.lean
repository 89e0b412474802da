import Verif.Spec.Handlers
/-!
# Auxiliary facts about handlers of events that use the library
-/
namespace FakeIt.Handlers
open FakeIt.Spec.Handlers
variable {Ev X : Type}

/-- What has been asked of a context. -/
def Ctx.settings (c : Ctx) : Settings := ⟨c.listeners, c.custom, c.customFormatter⟩

theorem Ctx.settings_apply (c : Ctx) (o : Op) : (c.apply o).settings = c.settings.set o := by cases o <;> rfl

theorem Ctx.adapter_eq (c : Ctx) : c.adapter = c.settings.adapter.getD c.builtin := by
  show c.adapter = c.custom.getD c.builtin
  unfold Ctx.adapter
  cases c.custom <;> rfl

theorem Ctx.formatter_eq (c : Ctx) : c.formatter = c.settings.formatter.getD c.builtinFormatter := by
  show c.formatter = c.customFormatter.getD c.builtinFormatter
  unfold Ctx.formatter
  cases c.customFormatter <;> rfl

/-- What every piece of the delivery does to the context: the library's own adapter and formatter stay; the counter only grows, and stays exactly if nobody changed who listens. -/
structure Moves (c : Ctx) (log : List (Note Ev)) (c' : Ctx) : Prop where
  builtin : c'.builtin = c.builtin
  builtinFormatter : c'.builtinFormatter = c.builtinFormatter
  grows : c.ver ≤ c'.ver
  same : c'.ver = c.ver ↔ Unregistered log
  listeners : c'.ver = c.ver → c'.listeners = c.listeners

theorem unregistered_nil : Unregistered ([] : List (Note Ev)) := nofun

theorem unregistered_append {l₁ l₂ : List (Note Ev)} : Unregistered (l₁ ++ l₂) ↔ Unregistered l₁ ∧ Unregistered l₂ :=
  ⟨fun h => ⟨fun o ho => h o (by simp [ho]), fun o ho => h o (by simp [ho])⟩,
    fun h o ho => (List.mem_append.1 ho).elim (h.1 o) (h.2 o)⟩

theorem unregistered_told {d : Nat} {w : Told} {e : Ev} {log : List (Note Ev)} : Unregistered (.told d w e :: log) ↔ Unregistered log :=
  ⟨fun h o ho => h o (by simp [ho]), fun h o ho => h o (by simpa using ho)⟩

theorem unregistered_did {o : Op} {log : List (Note Ev)} : Unregistered (.did o :: log) ↔ registers o = false ∧ Unregistered log :=
  ⟨fun h => ⟨h o (by simp), fun o' ho => h o' (by simp [ho])⟩, fun h o' ho => by
    rcases List.mem_cons.1 ho with h' | h'
    · cases h'; exact h.1
    · exact h.2 o' h'⟩

theorem Moves.refl (c : Ctx) : Moves c ([] : List (Note Ev)) c := ⟨rfl, rfl, Nat.le_refl _, ⟨fun _ => unregistered_nil, fun _ => rfl⟩, fun _ => rfl⟩

theorem Moves.trans {c₁ c₂ c₃ : Ctx} {l₁ l₂ : List (Note Ev)} (h₁ : Moves c₁ l₁ c₂) (h₂ : Moves c₂ l₂ c₃) : Moves c₁ (l₁ ++ l₂) c₃ := by
  refine ⟨h₂.builtin.trans h₁.builtin, h₂.builtinFormatter.trans h₁.builtinFormatter, Nat.le_trans h₁.grows h₂.grows, ?_, ?_⟩
  · rw [unregistered_append, ← h₁.same, ← h₂.same]
    have := h₁.grows
    have := h₂.grows
    omega
  · intro h
    have := h₁.grows
    have := h₂.grows
    rw [h₂.listeners (by omega), h₁.listeners (by omega)]

theorem Moves.told {c c' : Ctx} {log : List (Note Ev)} (h : Moves c log c') (d : Nat) (w : Told) (e : Ev) : Moves c (.told d w e :: log) c' :=
  ⟨h.builtin, h.builtinFormatter, h.grows, by rw [unregistered_told]; exact h.same, h.listeners⟩

theorem Moves.did {c c' : Ctx} {o : Op} {log : List (Note Ev)} (h : Moves (c.apply o) log c') : Moves c (.did o :: log) c' := by
  have h1 : Moves c ([.did o] : List (Note Ev)) (c.apply o) := by
    cases o <;> refine ⟨rfl, rfl, by simp [Ctx.apply], ?_, by simp [Ctx.apply]⟩ <;>
      simp [unregistered_did, registers, Ctx.apply, unregistered_nil]
  exact h1.trans h

/-- A handler of events as in the model follows the specification. -/
def Good (react : Nat → Ev → Code Ev X) (d : Nat) (hd : Ev → Ctx → R (Option X × Ctx × List (Note Ev))) : Prop :=
  ∀ e c x c' log, hd e c = .done (x, c', log) → Moves c log c' ∧ Delivers react c.builtin c.builtinFormatter d e c.settings log x c'.settings

theorem run_good {react : Nat → Ev → Code Ev X} {d : Nat} {hd : Ev → Ctx → R (Option X × Ctx × List (Note Ev))} (h : Good react d hd) (k : Code Ev X) :
    ∀ c x c' log, run hd k c = .done (x, c', log) → Moves c log c' ∧ Runs react c.builtin c.builtinFormatter d k c.settings log x c'.settings := by
  induction k with
  | done => intro c x c' log hr; cases hr; exact ⟨.refl c, .done⟩
  | throw y => intro c x c' log hr; cases hr; exact ⟨.refl c, .throw⟩
  | op o k ih =>
    intro c x c' log hr
    obtain ⟨⟨x', c₁, log'⟩, h1, h2⟩ := R.bind_eq_done.1 hr
    cases h2
    have hi := ih _ _ _ _ h1
    refine ⟨hi.1.did, .op ?_⟩
    have hb : (c.apply o).builtin = c.builtin ∧ (c.apply o).builtinFormatter = c.builtinFormatter := by cases o <;> exact ⟨rfl, rfl⟩
    rw [← Ctx.settings_apply, ← hb.1, ← hb.2]
    exact hi.2
  | format k ih =>
    intro c x c' log hr
    have hi := ih c.formatter _ _ _ _ hr
    exact ⟨hi.1, .format (by rw [← Ctx.formatter_eq]; exact hi.2)⟩
  | fire e k ih =>
    intro c x c' log hr
    obtain ⟨⟨y, c₁, log₁⟩, h1, h2⟩ := R.bind_eq_done.1 hr
    obtain ⟨⟨z, c₂, log₂⟩, h3, h4⟩ := R.bind_eq_done.1 h2
    cases h4
    have hf := h _ _ _ _ _ h1
    have hi := ih _ _ _ _ _ h3
    refine ⟨hf.1.trans hi.1, .fire hf.2 ?_⟩
    rw [← hf.1.builtin, ← hf.1.builtinFormatter]
    exact hi.2

theorem loop_good {react : Nat → Ev → Code Ev X} {d : Nat} {hd : Ev → Ctx → R (Option X × Ctx × List (Note Ev))} (h : Good react (d + 1) hd) (e : Ev) (ls : List Nat) :
    ∀ c x c' log, loop (fun h c => run hd (react h e) c) d e c.ver ls c = .done (x, c', log) → Moves c log c' ∧
      match x with
      | none => Tells react c.builtin c.builtinFormatter d e ls c.settings log c'.settings ∧ c'.ver = c.ver
      | some x => ∃ pre l post log₁ s log₂, ls = pre ++ l :: post ∧ log = log₁ ++ .told d (.listener l) e :: log₂ ∧
          Tells react c.builtin c.builtinFormatter d e pre c.settings log₁ s ∧ Runs react c.builtin c.builtinFormatter (d + 1) (react l e) s log₂ (some x) c'.settings := by
  induction ls with
  | nil => intro c x c' log hr; cases hr; exact ⟨.refl c, .nil, rfl⟩
  | cons l ls ih =>
    intro c x c' log hr
    obtain ⟨⟨y, c₁, log₁⟩, h1, h2⟩ := R.bind_eq_done.1 hr
    have hi := run_good h (react l e) _ _ _ _ h1
    cases y with
    | some y =>
      cases h2
      exact ⟨hi.1.told .., [], l, ls, [], c.settings, log₁, rfl, rfl, .nil, hi.2⟩
    | none =>
      simp only at h2
      split at h2
      · rename_i hv
        obtain ⟨⟨z, c₂, log₂⟩, h3, h4⟩ := R.bind_eq_done.1 h2
        cases h4
        rw [← hv] at h3
        have hr := ih _ _ _ _ h3
        rw [hi.1.builtin, hi.1.builtinFormatter] at hr
        have hu := hi.1.same.1 hv
        refine ⟨(hi.1.told d (.listener l) e).trans hr.1, ?_⟩
        cases z with
        | none => exact ⟨.cons hi.2 hu hr.2.1, hr.2.2.trans hv⟩
        | some x =>
          obtain ⟨pre, l', post, log₃, s, log₄, e1, e2, e3, e4⟩ := hr.2
          exact ⟨l :: pre, l', post, .told d (.listener l) e :: log₁ ++ log₃, s, log₄, by rw [e1]; rfl, by rw [e2]; simp, .cons hi.2 hu e3, e4⟩
      · cases h2

theorem handle_good (react : Nat → Ev → Code Ev X) (fuel : Nat) : ∀ d, Good react d (handle react fuel d) := by
  induction fuel with
  | zero => intro d e c x c' log h; cases h
  | succ n ih =>
    intro d e c x c' log h
    obtain ⟨⟨y, c₁, log₁⟩, h1, h2⟩ := R.bind_eq_done.1 h
    have hl := loop_good (ih (d + 1)) e _ _ _ _ _ h1
    cases y with
    | some y =>
      cases h2
      obtain ⟨hm, pre, l, post, log₂, s, log₃, e1, e2, e3, e4⟩ := hl
      refine ⟨hm, ?_⟩
      rw [e2]
      exact .cut e1 e3 e4
    | none =>
      obtain ⟨⟨z, c₂, log₂⟩, h3, h4⟩ := R.bind_eq_done.1 h2
      cases h4
      obtain ⟨⟨z', c₃, log₃⟩, h5, h6⟩ := R.bind_eq_done.1 h3
      cases h6
      have hr := run_good (ih (d + 1)) _ _ _ _ _ h5
      have hb := hl.1
      refine ⟨hb.trans (hr.1.told ..), ?_⟩
      have hr2 := hr.2
      rw [Ctx.adapter_eq, hb.builtin, hb.builtinFormatter] at hr2
      rw [Ctx.adapter_eq, hb.builtin]
      exact .all hl.2.1 hr2

/-! ## Deeper nesting allowed -/

/-- `hd'` handles whatever `hd` handles. -/
def Covers (hd hd' : Ev → Ctx → R (Option X × Ctx × List (Note Ev))) : Prop := ∀ e c r, hd e c = .done r → hd' e c = .done r

theorem run_covers {hd hd' : Ev → Ctx → R (Option X × Ctx × List (Note Ev))} (h : Covers hd hd') (k : Code Ev X) :
    ∀ c r, run hd k c = .done r → run hd' k c = .done r := by
  induction k with
  | done => exact fun _ _ h => h
  | throw y => exact fun _ _ h => h
  | op o k ih =>
    intro c r hr
    obtain ⟨r', h1, h2⟩ := R.bind_eq_done.1 hr
    exact R.bind_eq_done.2 ⟨r', ih _ _ h1, h2⟩
  | format k ih => exact fun c r hr => ih c.formatter c r hr
  | fire e k ih =>
    intro c r hr
    obtain ⟨r', h1, h2⟩ := R.bind_eq_done.1 hr
    obtain ⟨r'', h3, h4⟩ := R.bind_eq_done.1 h2
    exact R.bind_eq_done.2 ⟨r', h _ _ _ h1, R.bind_eq_done.2 ⟨r'', ih _ _ _ h3, h4⟩⟩

theorem loop_covers {tell tell' : Nat → Ctx → R (Option X × Ctx × List (Note Ev))} (h : ∀ l c r, tell l c = .done r → tell' l c = .done r) (d : Nat) (e : Ev) (v : Nat)
    (ls : List Nat) : ∀ c r, loop tell d e v ls c = .done r → loop tell' d e v ls c = .done r := by
  induction ls with
  | nil => exact fun _ _ h => h
  | cons l ls ih =>
    intro c r hr
    obtain ⟨⟨x, c₁, log⟩, h1, h2⟩ := R.bind_eq_done.1 hr
    refine R.bind_eq_done.2 ⟨_, h _ _ _ h1, ?_⟩
    cases x with
    | some x => exact h2
    | none =>
      simp only at h2 ⊢
      split at h2
      · rename_i hv
        rw [if_pos hv]
        obtain ⟨r', h3, h4⟩ := R.bind_eq_done.1 h2
        exact R.bind_eq_done.2 ⟨r', ih _ _ h3, h4⟩
      · cases h2

theorem handle_succ (react : Nat → Ev → Code Ev X) (n : Nat) : ∀ d, Covers (handle react n d) (handle react (n + 1) d) := by
  induction n with
  | zero => intro d e c r h; cases h
  | succ n ih =>
    intro d e c r h
    obtain ⟨⟨x, c₁, log⟩, h1, h2⟩ := R.bind_eq_done.1 h
    refine R.bind_eq_done.2 ⟨_, loop_covers (fun l c r => run_covers (ih (d + 1)) _ c r) d e _ _ _ _ h1, ?_⟩
    cases x with
    | some x => exact h2
    | none =>
      obtain ⟨r', h3, h4⟩ := R.bind_eq_done.1 h2
      obtain ⟨r'', h5, h6⟩ := R.bind_eq_done.1 h3
      exact R.bind_eq_done.2 ⟨r', R.bind_eq_done.2 ⟨r'', run_covers (ih (d + 1)) _ _ _ h5, h6⟩, h4⟩

theorem handle_mono (react : Nat → Ev → Code Ev X) {n m : Nat} (h : n ≤ m) (d : Nat) : Covers (handle react n d) (handle react m d) := by
  induction h with
  | refl => exact fun _ _ _ h => h
  | step _ ih => exact fun e c r h => handle_succ react _ d e c r (ih e c r h)

/-! ## Whatever the specification allows happens -/

section
variable {react : Nat → Ev → Code Ev X} {a f : Nat}

mutual
theorem runs_complete {d k s log x s'} (h : Runs react a f d k s log x s') : ∀ c : Ctx, c.settings = s → c.builtin = a → c.builtinFormatter = f →
    ∃ n c', run (handle react n d) k c = .done (x, c', log) ∧ c'.settings = s' := by
  intro c hs ha hf
  match h with
  | .done => exact ⟨0, c, rfl, hs⟩
  | .throw => exact ⟨0, c, rfl, hs⟩
  | .op (o := o) h =>
    obtain ⟨n, c', h1, h2⟩ := runs_complete h (c.apply o) (by rw [Ctx.settings_apply, hs]) (by cases o <;> exact ha) (by cases o <;> exact hf)
    exact ⟨n, c', R.bind_eq_done.2 ⟨_, h1, rfl⟩, h2⟩
  | .format h =>
    obtain ⟨n, c', h1, h2⟩ := runs_complete h c hs ha hf
    refine ⟨n, c', ?_, h2⟩
    rw [run, Ctx.formatter_eq, hs, hf]
    exact h1
  | .fire hd h =>
    obtain ⟨n, c₁, h1, h2⟩ := delivers_complete hd c hs ha hf
    have hm := (handle_good react n _ _ _ _ _ _ h1).1
    obtain ⟨m, c₂, h3, h4⟩ := runs_complete h c₁ h2 (hm.builtin.trans ha) (hm.builtinFormatter.trans hf)
    refine ⟨max n m, c₂, R.bind_eq_done.2 ⟨_, handle_mono react (Nat.le_max_left ..) _ _ _ _ h1, ?_⟩, h4⟩
    exact R.bind_eq_done.2 ⟨_, run_covers (handle_mono react (Nat.le_max_right n m) _) _ _ _ h3, rfl⟩

theorem delivers_complete {d e s log x s'} (h : Delivers react a f d e s log x s') : ∀ c : Ctx, c.settings = s → c.builtin = a → c.builtinFormatter = f →
    ∃ n c', handle react n d e c = .done (x, c', log) ∧ c'.settings = s' := by
  intro c hs ha hf
  have hc : s.listeners = c.listeners := by rw [← hs]; rfl
  match h with
  | .all (log := log₁) ht h =>
    obtain ⟨n, c₁, h1, h2, hm, hv⟩ := tells_complete ht c hs ha hf
    obtain ⟨m, c₂, h3, h4⟩ := runs_complete h c₁ h2 (hm.builtin.trans ha) (hm.builtinFormatter.trans hf)
    refine ⟨max n m + 1, c₂, R.bind_eq_done.2 ⟨(none, c₁, log₁), ?_, ?_⟩, h4⟩
    · have := h1 _ (Nat.le_max_left n m) [] none c₁ [] rfl
      rw [hc, List.append_nil, List.append_nil] at this
      exact this
    · have h3 := run_covers (handle_mono react (Nat.le_max_right n m) (d + 1)) _ _ _ h3
      have ha' : c₁.adapter = c₁.settings.adapter.getD a := by rw [Ctx.adapter_eq, hm.builtin, ha]
      rw [← h2] at h3 ⊢
      rw [← ha'] at h3 ⊢
      exact R.bind_eq_done.2 ⟨_, R.bind_eq_done.2 ⟨_, h3, rfl⟩, rfl⟩
  | .cut (l := l) (post := post) (log := log₁) (log' := log₂) (x := x) hl ht h =>
    obtain ⟨n, c₁, h1, h2, hm, hv⟩ := tells_complete ht c hs ha hf
    obtain ⟨m, c₂, h3, h4⟩ := runs_complete h c₁ h2 (hm.builtin.trans ha) (hm.builtinFormatter.trans hf)
    refine ⟨max n m + 1, c₂, R.bind_eq_done.2 ⟨(some x, c₂, log₁ ++ .told d (.listener l) e :: log₂), ?_, rfl⟩, h4⟩
    rw [← hc, hl]
    refine h1 _ (Nat.le_max_left n m) (l :: post) (some x) c₂ _ ?_
    exact R.bind_eq_done.2 ⟨_, run_covers (handle_mono react (Nat.le_max_right n m) (d + 1)) _ _ _ h3, rfl⟩

theorem tells_complete {d e ls s log s'} (h : Tells react a f d e ls s log s') : ∀ (c : Ctx), c.settings = s → c.builtin = a → c.builtinFormatter = f →
    ∃ n c', (∀ m, n ≤ m → ∀ (rest : List Nat) x c'' log', loop (fun h c => run (handle react m (d + 1)) (react h e) c) d e c.ver rest c' = .done (x, c'', log') →
      loop (fun h c => run (handle react m (d + 1)) (react h e) c) d e c.ver (ls ++ rest) c = .done (x, c'', log ++ log')) ∧ c'.settings = s' ∧ Moves c log c' ∧ c'.ver = c.ver := by
  intro c hs ha hf
  match h with
  | .nil => exact ⟨0, c, fun m _ rest x c'' log' h => h, hs, .refl c, rfl⟩
  | .cons (l := l) (ls := ls) (log := log₁) (log' := log₂) hr hu ht =>
    obtain ⟨n, c₁, h1, h2⟩ := runs_complete hr c hs ha hf
    have hm := (run_good (handle_good react n (d + 1)) _ _ _ _ _ h1).1
    have hv := hm.same.2 hu
    obtain ⟨n', c₂, h3, h4, hm', hv'⟩ := tells_complete ht c₁ h2 (hm.builtin.trans ha) (hm.builtinFormatter.trans hf)
    refine ⟨max n n', c₂, ?_, h4, (hm.told d (.listener l) e).trans hm', hv'.trans hv⟩
    intro m hle rest x c'' log' hl
    rw [← hv] at hl
    have h5 := h3 m (by omega) rest x c'' log' hl
    refine R.bind_eq_done.2 ⟨_, run_covers (handle_mono react (show n ≤ m by omega) (d + 1)) _ _ _ h1, ?_⟩
    simp only
    rw [if_pos hv, ← hv]
    refine R.bind_eq_done.2 ⟨_, h5, ?_⟩
    simp [List.append_assoc]
end
end

end FakeIt.Handlers
