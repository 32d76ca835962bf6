import Verif.Lemmas.Timed
import Verif.Props.Shutdown

/-!
# C79: cover traffic in time

When the background sender acts, how often, how much it can send in a given time, how long `drop` waits for it, and
what its timing shows.
-/

namespace Bip324

variable {P : Prims} {prof : Profile} {R : Rng}

/-! ## What a schedule with times is without them -/

/-- The step of the system, if it is one. -/
def Timed.label {L : Type} : Timed L → Option L
  | .wait _ => none
  | .step l => some l

/-- C79, thread: a run with a clock is a run without one in which the decoy thread may have been given fewer
steps.  So what was proved of all runs holds of those with a clock. -/
theorem C79_refines (t : TimedSys R) (ls : List (Timed SysLabel)) :
    ∃ ls', (t.run P prof ls).sys = t.sys.run P prof ls' ∧ ls'.Sublist (ls.filterMap Timed.label) ∧
      ls'.filter (· ≠ .bg) = (ls.filterMap Timed.label).filter (· ≠ .bg) := by
  induction ls generalizing t with
  | nil => exact ⟨[], rfl, List.Sublist.refl _, rfl⟩
  | cons l ls ih =>
    obtain ⟨ls', h1, h2, h3⟩ := ih (t.step P prof l)
    have keep : ∀ l', (t.step P prof (.step l')).sys = t.sys.step P prof l' → l = .step l' →
        ∃ ls', (t.run P prof (l :: ls)).sys = t.sys.run P prof ls' ∧
          ls'.Sublist ((l :: ls).filterMap Timed.label) ∧
          ls'.filter (· ≠ .bg) = ((l :: ls).filterMap Timed.label).filter (· ≠ .bg) := by
      intro l' he hl
      subst hl
      refine ⟨l' :: ls', ?_, ?_, ?_⟩
      · show ((t.step P prof (.step l')).run P prof ls).sys = (t.sys.step P prof l').run P prof ls'
        rw [h1, he]
      · simpa [Timed.label] using h2
      · simp only [List.filterMap_cons, Timed.label, List.filter_cons, h3]
    cases l with
    | wait ms => exact ⟨ls', h1, h2, h3⟩
    | step l' =>
      cases l' with
      | bg =>
        by_cases hs : t.sys.bg = .sleeping ∧ ¬ t.wake ≤ t.now
        · have : t.step P prof (.step .bg) = t := by simp [TimedSys.step, hs.1, hs.2]
          rw [this] at h1
          refine ⟨ls', ?_, ?_, ?_⟩
          · show ((t.step P prof (.step .bg)).run P prof ls).sys = _
            rw [this]; exact h1
          · exact h2.trans (by simp [Timed.label])
          · simpa [Timed.label] using h3
        · refine keep .bg ?_ rfl
          cases hb : t.sys.bg with
          | sleeping =>
            have : t.wake ≤ t.now := Decidable.not_not.1 fun hn => hs ⟨hb, hn⟩
            simp [TimedSys.step, hb, this]
          | _ => simp [TimedSys.step, hb]
      | _ => exact keep _ rfl rfl

/-- The time `l` takes is time in which the thread sleeps. -/
def TimedSys.prompt (t : TimedSys R) : Timed SysLabel → Bool
  | .wait ms => t.sys.bg == .sleeping && decide (t.now + ms ≤ t.wake)
  | .step _ => true

/-- Nothing takes time but the sleep, which ends on time: threads run at once and the transport does not block. -/
def TimedSys.Prompt (P : Prims) (prof : Profile) : TimedSys R → List (Timed SysLabel) → Bool
  | _, [] => true
  | t, l :: ls => t.prompt l && TimedSys.Prompt P prof (t.step P prof l) ls

/-- C79, thread: every run without a clock is one with a clock, in which moreover nothing takes time but the
sleep. -/
theorem C79_complete (t : TimedSys R) (ls : List SysLabel) :
    ∃ ls', ls'.filterMap Timed.label = ls ∧ (t.run P prof ls').sys = t.sys.run P prof ls ∧
      t.Prompt P prof ls' = true := by
  induction ls generalizing t with
  | nil => exact ⟨[], rfl, rfl, rfl⟩
  | cons l ls ih =>
    have plain : (t.step P prof (.step l)).sys = t.sys.step P prof l →
        ∃ ls', ls'.filterMap Timed.label = l :: ls ∧ (t.run P prof ls').sys = t.sys.run P prof (l :: ls) ∧
          t.Prompt P prof ls' = true := by
      intro he
      obtain ⟨ls', h1, h2, h3⟩ := ih (t.step P prof (.step l))
      refine ⟨.step l :: ls', by simp [Timed.label, h1], ?_, by simp [TimedSys.Prompt, TimedSys.prompt, h3]⟩
      show ((t.step P prof (.step l)).run P prof ls').sys = (t.sys.step P prof l).run P prof ls
      rw [h2, he]
    cases l with
    | bg =>
      cases hb : t.sys.bg with
      | sleeping =>
        by_cases hw : t.wake ≤ t.now
        · exact plain (by simp [TimedSys.step, hb, hw])
        · have h0 : (t.step P prof (.wait (t.wake - t.now))).step P prof (.step .bg) =
              { t with now := t.wake, sys := t.sys.step P prof .bg } := by
            have : t.now + (t.wake - t.now) = t.wake := by omega
            simp [TimedSys.step, hb, this]
          obtain ⟨ls', h1, h2, h3⟩ := ih { t with now := t.wake, sys := t.sys.step P prof .bg }
          refine ⟨.wait (t.wake - t.now) :: .step .bg :: ls', by exact congrArg (SysLabel.bg :: ·) h1, ?_, ?_⟩
          · show (((t.step P prof (.wait (t.wake - t.now))).step P prof (.step .bg)).run P prof ls').sys = _
            rw [h0, h2]
            rfl
          · simp only [TimedSys.Prompt, h0, h3, TimedSys.prompt, hb, Bool.and_true]
            have : t.now + (t.wake - t.now) ≤ t.wake := by omega
            simp [this]
      | _ => exact plain (by simp [TimedSys.step, hb])
    | _ => exact plain rfl

/-- C79, task: the same. -/
theorem C79_task_refines (t : AsyncTimedSys R) (ls : List (Timed AsyncLabel)) :
    ∃ ls', (t.run P prof ls).sys = t.sys.run P prof ls' ∧ ls'.Sublist (ls.filterMap Timed.label) ∧
      ls'.filter (· ≠ .tick) = (ls.filterMap Timed.label).filter (· ≠ .tick) := by
  induction ls generalizing t with
  | nil => exact ⟨[], rfl, List.Sublist.refl _, rfl⟩
  | cons l ls ih =>
    obtain ⟨ls', h1, h2, h3⟩ := ih (t.step P prof l)
    cases l with
    | wait ms => exact ⟨ls', h1, h2, h3⟩
    | step l' =>
      by_cases he : (t.step P prof (.step l')).sys = t.sys.step P prof l'
      · refine ⟨l' :: ls', ?_, ?_, ?_⟩
        · show ((t.step P prof (.step l')).run P prof ls).sys = (t.sys.step P prof l').run P prof ls'
          rw [h1, he]
        · simpa [Timed.label] using h2
        · simp only [List.filterMap_cons, Timed.label, List.filter_cons, h3]
      · have hl : l' = .tick := by
          cases l' with
          | tick => rfl
          | _ => exact absurd rfl he
        subst hl
        have hs : t.step P prof (.step .tick) = t := by
          revert he
          simp only [AsyncTimedSys.step]
          split
          · split
            · intro he; exact absurd rfl he
            · intro _; rfl
          · intro _; rfl
        refine ⟨ls', ?_, ?_, ?_⟩
        · show ((t.step P prof (.step .tick)).run P prof ls).sys = _
          rw [h1, hs]
        · exact h2.trans (by simp [Timed.label])
        · simpa [Timed.label] using h3

/-- The time `l` takes is time in which the task waits for a tick. -/
def AsyncTimedSys.prompt (t : AsyncTimedSys R) : Timed AsyncLabel → Bool
  | .wait ms =>
    (match t.sys.task with
      | .select _ _ => true
      | _ => false) && decide (t.now + ms ≤ t.deadline)
  | .step _ => true

/-- Nothing takes time but the wait for a tick: the task is woken on time and the transport is always ready. -/
def AsyncTimedSys.Prompt (P : Prims) (prof : Profile) : AsyncTimedSys R → List (Timed AsyncLabel) → Bool
  | _, [] => true
  | t, l :: ls => t.prompt l && AsyncTimedSys.Prompt P prof (t.step P prof l) ls

/-- C79, task: every run without a clock is one with a clock. -/
theorem C79_task_complete (t : AsyncTimedSys R) (ls : List AsyncLabel) :
    ∃ ls', ls'.filterMap Timed.label = ls ∧ (t.run P prof ls').sys = t.sys.run P prof ls := by
  induction ls generalizing t with
  | nil => exact ⟨[], rfl, rfl⟩
  | cons l ls ih =>
    obtain ⟨ls', h1, h2⟩ := ih ((t.step P prof (.wait t.deadline)).step P prof (.step l))
    refine ⟨.wait t.deadline :: .step l :: ls', congrArg (l :: ·) h1, ?_⟩
    show (((t.step P prof (.wait t.deadline)).step P prof (.step l)).run P prof ls').sys =
      (t.sys.step P prof l).run P prof ls
    rw [h2]
    congr 1
    cases l with
    | tick =>
      simp only [AsyncTimedSys.step]
      cases ht : t.sys.task with
      | select a b => cases b <;> simp [AsyncShapedSys.step, ht]
      | _ => simp [AsyncShapedSys.step, ht]
    | _ => rfl

/-! ## Steps of the thread -/

theorem ShapedSys.other_bg {s : ShapedSys R} {l : SysLabel} (hl : l ≠ .bg) : (s.step P prof l).bg = s.bg := by
  cases l with
  | bg => exact absurd rfl hl
  | call p => simp only [ShapedSys.step]; split <;> rfl
  | drop => simp only [ShapedSys.step]; split <;> rfl
  | read => rfl
  | app =>
    show (s.appStep P prof).bg = s.bg
    unfold ShapedSys.appStep
    split
    · rfl
    · split
      · rfl
      · split <;> rfl
    · rfl
    · rfl
    · split <;> rfl
    · rfl

theorem ShapedSys.trying_bg {s : ShapedSys R} (hb : s.bg = .trying) :
    (s.step P prof .bg).bg = .checking ∨ ∃ pc, (s.step P prof .bg).bg = .covering pc := by
  show (s.bgStep P prof).bg = .checking ∨ ∃ pc, (s.bgStep P prof).bg = .covering pc
  cases ho : s.owner with
  | some t => rw [bg_blocked hb ho]; exact .inl rfl
  | none =>
    cases hp : s.poisoned with
    | true => rw [bg_poisoned hb ho hp]; exact .inl rfl
    | false => rw [bg_locks hb ho hp]; exact .inr ⟨_, rfl⟩

theorem ShapedSys.covering_bg {s : ShapedSys R} {pc : JobPc} (hb : s.bg = .covering pc) :
    (s.step P prof .bg).bg = .checking ∨ (s.step P prof .bg).bg = .panicked ∨
      ∃ pc, (s.step P prof .bg).bg = .covering pc := by
  show (s.bgStep P prof).bg = .checking ∨ (s.bgStep P prof).bg = .panicked ∨ ∃ pc, (s.bgStep P prof).bg = .covering pc
  rcases pc.done_or with ⟨r, rfl⟩ | hd
  · rw [bg_unlocks hb]
    by_cases hr : r = .panic
    · exact .inr (.inl (by simp [hr]))
    · exact .inl (by simp [hr])
  · rw [bg_writes hb hd]; exact .inr (.inr ⟨_, rfl⟩)

theorem ShapedSys.checking_bg {s : ShapedSys R} (hb : s.bg = .checking) :
    (s.step P prof .bg).bg = if s.shutdown then .finished else .sleeping := by
  show (s.bgStep P prof).bg = _
  simp [ShapedSys.bgStep, hb]

theorem ShapedSys.sleeping_bg {s : ShapedSys R} (hb : s.bg = .sleeping) :
    (s.step P prof .bg).bg = .trying := by
  show (s.bgStep P prof).bg = _
  simp [ShapedSys.bgStep, hb]

/-! ## How often the thread tries -/

/-- The attempts lie a period apart, the first a period after the start. -/
structure TimedSys.Spaced (now0 : Nat) (t : TimedSys R) : Prop where
  apart : t.tries.Pairwise (fun a b => a + 100 ≤ b)
  first : ∀ x ∈ t.tries, now0 + 100 ≤ x
  past : ∀ x ∈ t.tries, x ≤ t.now
  start : now0 ≤ t.now
  sleeping : t.sys.bg = .sleeping ∨ t.sys.bg = .trying → now0 + 100 ≤ t.wake ∧ ∀ x ∈ t.tries, x + 100 ≤ t.wake
  trying : t.sys.bg = .trying → t.wake ≤ t.now

theorem TimedSys.Spaced.step {now0 : Nat} {t : TimedSys R} (h : t.Spaced now0) (l : Timed SysLabel) :
    (t.step P prof l).Spaced now0 := by
  obtain ⟨h1, h2, h3, h4, h5, h6⟩ := h
  cases l with
  | wait ms =>
    exact ⟨h1, h2, fun x hx => Nat.le_trans (h3 x hx) (Nat.le_add_right _ _), Nat.le_trans h4 (Nat.le_add_right _ _),
      h5, fun hb => Nat.le_trans (h6 hb) (Nat.le_add_right _ _)⟩
  | step l =>
    by_cases hl : l = .bg
    · subst hl
      cases hb : t.sys.bg with
      | checking =>
        have he : t.step P prof (.step .bg) =
            { t with sys := t.sys.step P prof .bg, wake := t.now + 100 } := by simp [TimedSys.step, hb]
        have hn := ShapedSys.checking_bg (P := P) (prof := prof) hb
        rw [he]
        refine ⟨h1, h2, h3, h4, fun _ => ⟨Nat.add_le_add_right h4 _, fun x hx => Nat.add_le_add_right (h3 x hx) _⟩, ?_⟩
        intro h
        rw [hn] at h
        split at h <;> cases h
      | sleeping =>
        by_cases hw : t.wake ≤ t.now
        · have he : t.step P prof (.step .bg) = { t with sys := t.sys.step P prof .bg } := by
            simp [TimedSys.step, hb, hw]
          rw [he]
          exact ⟨h1, h2, h3, h4, fun _ => h5 (.inl hb), fun _ => hw⟩
        · have he : t.step P prof (.step .bg) = t := by simp [TimedSys.step, hb, hw]
          rw [he]
          exact ⟨h1, h2, h3, h4, h5, h6⟩
      | trying =>
        have he : t.step P prof (.step .bg) =
            { t with sys := t.sys.step P prof .bg, tries := t.tries ++ [t.now] } := by simp [TimedSys.step, hb]
        have hw := h6 hb
        obtain ⟨h5, h5'⟩ := h5 (.inr hb)
        have hn := ShapedSys.trying_bg (P := P) (prof := prof) hb
        rw [he]
        refine ⟨?_, ?_, ?_, h4, ?_, ?_⟩
        · rw [List.pairwise_append]
          refine ⟨h1, List.pairwise_singleton _ _, ?_⟩
          intro a ha b hb'
          simp only [List.mem_singleton] at hb'
          subst hb'
          exact Nat.le_trans (h5' a ha) hw
        · intro x hx
          rcases List.mem_append.1 hx with hx | hx
          · exact h2 x hx
          · rw [List.mem_singleton.1 hx]; exact Nat.le_trans h5 hw
        · intro x hx
          rcases List.mem_append.1 hx with hx | hx
          · exact h3 x hx
          · rw [List.mem_singleton.1 hx]; exact Nat.le_refl _
        · intro h
          rcases hn with hn | ⟨pc, hn⟩ <;> rcases h with h | h <;> rw [hn] at h <;> cases h
        · intro h
          rcases hn with hn | ⟨pc, hn⟩ <;> rw [hn] at h <;> cases h
      | covering pc =>
        have he : t.step P prof (.step .bg) = { t with sys := t.sys.step P prof .bg } := by
          simp [TimedSys.step, hb]
        have hn := ShapedSys.covering_bg (P := P) (prof := prof) hb
        rw [he]
        refine ⟨h1, h2, h3, h4, ?_, ?_⟩
        · intro h
          rcases hn with hn | hn | ⟨pc, hn⟩ <;> rcases h with h | h <;> rw [hn] at h <;> cases h
        · intro h
          rcases hn with hn | hn | ⟨pc, hn⟩ <;> rw [hn] at h <;> cases h
      | finished =>
        have he : t.step P prof (.step .bg) = t := by
          simp [TimedSys.step, ShapedSys.step, ShapedSys.bgStep, hb]
        rw [he]; exact ⟨h1, h2, h3, h4, h5, h6⟩
      | panicked =>
        have he : t.step P prof (.step .bg) = t := by
          simp [TimedSys.step, ShapedSys.step, ShapedSys.bgStep, hb]
        rw [he]; exact ⟨h1, h2, h3, h4, h5, h6⟩
    · have he : t.step P prof (.step l) = { t with sys := t.sys.step P prof l } := by
        cases l with
        | bg => exact absurd rfl hl
        | _ => rfl
      have hn := ShapedSys.other_bg (P := P) (prof := prof) (s := t.sys) hl
      rw [he]
      exact ⟨h1, h2, h3, h4, by simp only [hn]; exact h5, by simp only [hn]; exact h6⟩

theorem TimedSys.Spaced.run {now0 : Nat} (ls : List (Timed SysLabel)) {t : TimedSys R} (h : t.Spaced now0) :
    (t.run P prof ls).Spaced now0 := by
  induction ls generalizing t with
  | nil => exact h
  | cons l ls ih => exact ih (h.step l)

/-- A system at its start, at the time `now0`. -/
def TimedSys.start (s : ShapedSys R) (now0 : Nat) : TimedSys R := ⟨s, now0, 0, []⟩

theorem TimedSys.start_spaced {s0 : ShapedSys R} (h0 : s0.Fresh) (now0 : Nat) :
    (TimedSys.start s0 now0).Spaced now0 :=
  ⟨List.Pairwise.nil, by simp [start], by simp [start], Nat.le_refl _, by simp [start, h0.bg], by simp [start, h0.bg]⟩

/-- C79, thread: the attempts to send a cover decoy lie at least 100 ms apart and the first is at least 100 ms
after the start, whatever happens. -/
theorem C79_spacing {s0 : ShapedSys R} (h0 : s0.Fresh) (now0 : Nat) (ls : List (Timed SysLabel)) :
    ((TimedSys.start s0 now0).run P prof ls).tries.Pairwise (fun a b => a + 100 ≤ b) ∧
      ∀ x ∈ ((TimedSys.start s0 now0).run P prof ls).tries,
        now0 + 100 ≤ x ∧ x ≤ ((TimedSys.start s0 now0).run P prof ls).now :=
  have h := (TimedSys.start_spaced h0 now0).run (P := P) (prof := prof) ls
  ⟨h.apart, fun x hx => ⟨h.first x hx, h.past x hx⟩⟩

/-- C79, thread: in an interval of `T` milliseconds there are at most `T / 100 + 1` attempts; from the start, at
most one for each 100 ms. -/
theorem C79_rate {s0 : ShapedSys R} (h0 : s0.Fresh) (now0 : Nat) (ls : List (Timed SysLabel)) :
    (∀ a T, (((TimedSys.start s0 now0).run P prof ls).tries.filter
        (fun x => decide (a ≤ x ∧ x ≤ a + T))).length ≤ T / 100 + 1) ∧
      ((TimedSys.start s0 now0).run P prof ls).tries.length ≤
        (((TimedSys.start s0 now0).run P prof ls).now - now0) / 100 := by
  obtain ⟨h1, h2⟩ := C79_spacing (P := P) (prof := prof) h0 now0 ls
  have h4 := ((TimedSys.start_spaced h0 now0).run (P := P) (prof := prof) ls).start
  generalize ((TimedSys.start s0 now0).run P prof ls) = t at *
  refine ⟨?_, ?_⟩
  · intro a T
    have := apart_count (t.tries.filter (fun x => decide (a ≤ x ∧ x ≤ a + T))) (d := 100) (a := a) (T := T)
      (h1.sublist List.filter_sublist) (by
        intro x hx
        have := (List.mem_filter.1 hx).2
        simpa using this)
    omega
  · cases ht : t.tries with
    | nil => simp
    | cons x xs =>
      have hx := h2 x (by simp [ht])
      have := apart_count t.tries (d := 100) (a := now0 + 100) (T := t.now - (now0 + 100)) h1
        (fun y hy => by have := h2 y hy; omega)
      rw [ht] at this
      omega

/-! ## How much can be sent -/

/-- C79, thread: in the time since the start no more is sent than the application's packets, a padding decoy for
each, and a cover decoy for each 100 ms. -/
theorem C79_bytes (hP : Lawful P) {s0 : ShapedSys R} (h0 : s0.Fresh) (now0 : Nat) (ls : List (Timed SysLabel)) :
    ((TimedSys.start s0 now0).run P prof ls).sys.ws.writer.writer.out.length ≤
      s0.ws.writer.writer.out.length +
        writtenMax s0.ws.shaper.config ((TimedSys.start s0 now0).run P prof ls).sys.called +
        coverMax s0.ws.shaper.config * ((((TimedSys.start s0 now0).run P prof ls).now - now0) / 100) := by
  have main : ∀ (ls : List (Timed SysLabel)) (t : TimedSys R), t.sys.ws.shaper.config = s0.ws.shaper.config →
      t.sys.space s0.ws.shaper.config ≤ s0.ws.writer.writer.out.length +
        writtenMax s0.ws.shaper.config t.sys.called + coverMax s0.ws.shaper.config * t.tries.length →
      (t.run P prof ls).sys.space s0.ws.shaper.config ≤ s0.ws.writer.writer.out.length +
        writtenMax s0.ws.shaper.config (t.run P prof ls).sys.called +
          coverMax s0.ws.shaper.config * (t.run P prof ls).tries.length := by
    intro ls
    induction ls with
    | nil => intro t _ h; exact h
    | cons l ls ih =>
      intro t hc h
      cases l with
      | wait ms => exact ih _ hc h
      | step l =>
        have hs := ShapedSys.step_space (prof := prof) hP hc l
        have go : ∀ t' : TimedSys R, t'.sys = t.sys.step P prof l →
            t'.tries.length = t.tries.length + (if l = .bg ∧ t.sys.bg = .trying then 1 else 0) →
            t'.sys.ws.shaper.config = s0.ws.shaper.config ∧
            t'.sys.space s0.ws.shaper.config ≤ s0.ws.writer.writer.out.length +
              writtenMax s0.ws.shaper.config t'.sys.called + coverMax s0.ws.shaper.config * t'.tries.length := by
          intro t' h1 h2
          rw [h1, h2]
          refine ⟨hs.1, ?_⟩
          have := hs.2
          by_cases hx : l = .bg ∧ t.sys.bg = .trying
          · simp only [hx, and_self, if_true, Nat.mul_succ] at this ⊢
            omega
          · simp only [hx, if_false, Nat.add_zero] at this ⊢
            omega
        have hok : (t.step P prof (.step l)).sys.ws.shaper.config = s0.ws.shaper.config ∧
            (t.step P prof (.step l)).sys.space s0.ws.shaper.config ≤ s0.ws.writer.writer.out.length +
              writtenMax s0.ws.shaper.config (t.step P prof (.step l)).sys.called +
                coverMax s0.ws.shaper.config * (t.step P prof (.step l)).tries.length := by
          cases l with
          | bg =>
            cases hb : t.sys.bg with
            | sleeping =>
              by_cases hw : t.wake ≤ t.now
              · exact go _ (by simp [TimedSys.step, hb, hw]) (by simp [TimedSys.step, hb, hw])
              · have : t.step P prof (.step .bg) = t := by simp [TimedSys.step, hb, hw]
                rw [this]; exact ⟨hc, h⟩
            | _ => exact go _ (by simp [TimedSys.step, hb]) (by simp [TimedSys.step, hb])
          | _ => exact go _ rfl (by simp [TimedSys.step])
        exact ih _ hok.1 hok.2
  have h := main ls (TimedSys.start s0 now0) rfl (by
    simp [TimedSys.start, ShapedSys.space, h0.app, h0.bg, AppPc.space, BgPc.space, h0.called, writtenMax])
  have hr := (C79_rate (P := P) (prof := prof) h0 now0 ls).2
  have := Nat.mul_le_mul_left (coverMax s0.ws.shaper.config) hr
  unfold ShapedSys.space at h
  omega

/-- Non-vacuity: 450 ms in which the application writes one packet and the thread sends all four decoys it may. -/
example :
    let s0 : ShapedSys greedyRng := .init
      ⟨⟨sampleIn, ⟨[], false, []⟩⟩, ⟨sampleOut, ⟨[], [], []⟩⟩⟩ ⟨⟨.random, .random⟩, ()⟩ []
    let round := Timed.step SysLabel.bg :: .wait 100 :: List.replicate 10 (Timed.step SysLabel.bg)
    let t := (TimedSys.start s0 7).run toy .debug
      (round ++ [.step (.call (.genuine [1, 2, 3]))] ++ List.replicate 16 (.step .app) ++ round ++ round ++ round ++
        [.wait 50])
    t.now = 457 ∧ t.tries = [107, 207, 307, 407] ∧ t.sys.ws.writer.writer.out.length = 23 + 1044 + 4 * 1044 ∧
      writtenMax ⟨.random, .random⟩ t.sys.called = 23 + 1044 := by
  decide +kernel

/-! ## What the timing shows -/

/-- Everything is on the grid. -/
def TimedSys.OnGrid (now0 : Nat) (t : TimedSys R) : Prop :=
  t.tries = (List.range t.tries.length).map (fun i => now0 + 100 * (i + 1)) ∧
    match t.sys.bg with
    | .checking => t.now = now0 + 100 * t.tries.length
    | .sleeping => t.wake = now0 + 100 * (t.tries.length + 1) ∧ t.now ≤ t.wake
    | .trying => t.now = now0 + 100 * (t.tries.length + 1)
    | .covering _ => t.now = now0 + 100 * t.tries.length
    | .finished => True
    | .panicked => True

theorem TimedSys.OnGrid.step {now0 : Nat} {t : TimedSys R} (h : t.OnGrid now0) {l : Timed SysLabel}
    (hl : t.prompt l = true) : (t.step P prof l).OnGrid now0 := by
  obtain ⟨h1, h2⟩ := h
  cases l with
  | wait ms =>
    simp only [TimedSys.prompt, Bool.and_eq_true, beq_iff_eq, decide_eq_true_eq] at hl
    refine ⟨h1, ?_⟩
    simp only [TimedSys.step, hl.1] at h2 ⊢
    exact ⟨h2.1, hl.2⟩
  | step l =>
    by_cases hlb : l = .bg
    · subst hlb
      cases hb : t.sys.bg with
      | checking =>
        have he : t.step P prof (.step .bg) =
            { t with sys := t.sys.step P prof .bg, wake := t.now + 100 } := by simp [TimedSys.step, hb]
        have hn := ShapedSys.checking_bg (P := P) (prof := prof) hb
        rw [he]
        refine ⟨h1, ?_⟩
        simp only [hb] at h2
        simp only [hn]
        cases t.sys.shutdown with
        | true => trivial
        | false =>
          show t.now + 100 = now0 + 100 * (t.tries.length + 1) ∧ t.now ≤ t.now + 100
          omega
      | sleeping =>
        simp only [hb] at h2
        by_cases hw : t.wake ≤ t.now
        · have he : t.step P prof (.step .bg) = { t with sys := t.sys.step P prof .bg } := by
            simp [TimedSys.step, hb, hw]
          rw [he]
          refine ⟨h1, ?_⟩
          simp only [ShapedSys.sleeping_bg hb]
          omega
        · have he : t.step P prof (.step .bg) = t := by simp [TimedSys.step, hb, hw]
          rw [he]
          exact ⟨h1, by simp only [hb]; exact h2⟩
      | trying =>
        have he : t.step P prof (.step .bg) =
            { t with sys := t.sys.step P prof .bg, tries := t.tries ++ [t.now] } := by simp [TimedSys.step, hb]
        simp only [hb] at h2
        have hn := ShapedSys.trying_bg (P := P) (prof := prof) hb
        rw [he]
        refine ⟨?_, ?_⟩
        · simp only [List.length_append, List.length_singleton, List.range_succ, List.map_append, List.map_cons,
            List.map_nil, ← h1]
          rw [← h2]
        · rcases hn with hn | ⟨pc, hn⟩
          · simp only [hn, List.length_append, List.length_singleton]; exact h2
          · simp only [hn, List.length_append, List.length_singleton]; exact h2
      | covering pc =>
        have he : t.step P prof (.step .bg) = { t with sys := t.sys.step P prof .bg } := by
          simp [TimedSys.step, hb]
        simp only [hb] at h2
        have hn := ShapedSys.covering_bg (P := P) (prof := prof) hb
        rw [he]
        refine ⟨h1, ?_⟩
        rcases hn with hn | hn | ⟨pc, hn⟩
        · simp only [hn]; exact h2
        · simp only [hn]
        · simp only [hn]; exact h2
      | finished =>
        have he : t.step P prof (.step .bg) = t := by
          simp [TimedSys.step, ShapedSys.step, ShapedSys.bgStep, hb]
        rw [he]; exact ⟨h1, h2⟩
      | panicked =>
        have he : t.step P prof (.step .bg) = t := by
          simp [TimedSys.step, ShapedSys.step, ShapedSys.bgStep, hb]
        rw [he]; exact ⟨h1, h2⟩
    · have he : t.step P prof (.step l) = { t with sys := t.sys.step P prof l } := by
        cases l with
        | bg => exact absurd rfl hlb
        | _ => rfl
      have hn := ShapedSys.other_bg (P := P) (prof := prof) (s := t.sys) hlb
      rw [he]
      exact ⟨h1, by simp only [hn]; exact h2⟩

theorem TimedSys.OnGrid.run {now0 : Nat} (ls : List (Timed SysLabel)) {t : TimedSys R} (h : t.OnGrid now0)
    (hl : t.Prompt P prof ls = true) : (t.run P prof ls).OnGrid now0 := by
  induction ls generalizing t with
  | nil => exact h
  | cons l ls ih =>
    simp only [TimedSys.Prompt, Bool.and_eq_true] at hl
    exact ih (h.step hl.1) hl.2

/-- A cover decoy is sent only after an attempt. -/
def TimedSys.CoverTried (t : TimedSys R) : Prop := ∀ pc, t.sys.bg = .covering pc → t.tries ≠ []

theorem TimedSys.CoverTried.step {t : TimedSys R} (h : t.CoverTried) (l : Timed SysLabel) :
    (t.step P prof l).CoverTried := by
  cases l with
  | wait ms => exact h
  | step l =>
    by_cases hl : l = .bg
    · subst hl
      intro pc hc
      cases hb : t.sys.bg with
      | trying => simp [TimedSys.step, hb]
      | covering pc' =>
        have : (t.step P prof (.step .bg)).tries = t.tries := by simp [TimedSys.step, hb]
        rw [this]
        exact h _ hb
      | checking =>
        have : (t.step P prof (.step .bg)).sys = t.sys.step P prof .bg := by simp [TimedSys.step, hb]
        rw [this, ShapedSys.checking_bg hb] at hc
        split at hc <;> cases hc
      | sleeping =>
        by_cases hw : t.wake ≤ t.now
        · have : (t.step P prof (.step .bg)).sys = t.sys.step P prof .bg := by simp [TimedSys.step, hb, hw]
          rw [this, ShapedSys.sleeping_bg hb] at hc
          cases hc
        · have : t.step P prof (.step .bg) = t := by simp [TimedSys.step, hb, hw]
          rw [this, hb] at hc
          cases hc
      | finished =>
        have he : t.step P prof (.step .bg) = t := by
          simp [TimedSys.step, ShapedSys.step, ShapedSys.bgStep, hb]
        rw [he, hb] at hc; cases hc
      | panicked =>
        have he : t.step P prof (.step .bg) = t := by
          simp [TimedSys.step, ShapedSys.step, ShapedSys.bgStep, hb]
        rw [he, hb] at hc; cases hc
    · have he : t.step P prof (.step l) = { t with sys := t.sys.step P prof l } := by
        cases l with
        | bg => exact absurd rfl hl
        | _ => rfl
      have hn := ShapedSys.other_bg (P := P) (prof := prof) (s := t.sys) hl
      rw [he]
      intro pc hc
      simp only [hn] at hc
      exact h pc hc

theorem TimedSys.CoverTried.run (ls : List (Timed SysLabel)) {t : TimedSys R} (h : t.CoverTried) :
    (t.run P prof ls).CoverTried := by
  induction ls generalizing t with
  | nil => exact h
  | cons l ls ih => exact ih (h.step l)

theorem TimedSys.start_tried {s0 : ShapedSys R} (h0 : s0.Fresh) (now0 : Nat) :
    (TimedSys.start s0 now0).CoverTried := by
  intro pc h
  simp [TimedSys.start, h0.bg] at h

theorem TimedSys.start_grid {s0 : ShapedSys R} (h0 : s0.Fresh) (now0 : Nat) : (TimedSys.start s0 now0).OnGrid now0 :=
  ⟨rfl, by simp [TimedSys.start, h0.bg]⟩

theorem TimedSys.OnGrid.covering {now0 : Nat} {t : TimedSys R} (h : t.OnGrid now0) (hs : t.CoverTried) {pc : JobPc}
    (hb : t.sys.bg = .covering pc) : t.now ∈ t.tries := by
  obtain ⟨h1, h2⟩ := h
  simp only [hb] at h2
  have hn : t.tries ≠ [] := hs pc hb
  have hk : 0 < t.tries.length := List.length_pos_iff.2 hn
  rw [h1, List.mem_map]
  exact ⟨t.tries.length - 1, List.mem_range.2 (by omega), by omega⟩

/-- C79, thread: if nothing takes time but the sleep, the attempts are at 100, 200, 300, … ms after the start, and the
thread puts bytes on the wire at no other times: what is sent off this grid is sent by the application. -/
theorem C79_grid {s0 : ShapedSys R} (h0 : s0.Fresh) (now0 : Nat) (ls : List (Timed SysLabel))
    (hp : (TimedSys.start s0 now0).Prompt P prof ls = true) :
    let t := (TimedSys.start s0 now0).run P prof ls
    t.tries = (List.range t.tries.length).map (fun i => now0 + 100 * (i + 1)) ∧
      ∀ l, (t.step P prof l).sys.ws.writer.writer.out ≠ t.sys.ws.writer.writer.out →
        l = .step .app ∨ (l = .step .bg ∧ t.now ∈ t.tries) := by
  have hg := (TimedSys.start_grid h0 now0).run ls hp
  have hs := (TimedSys.start_tried h0 now0).run (P := P) (prof := prof) ls
  refine ⟨hg.1, ?_⟩
  generalize (TimedSys.start s0 now0).run P prof ls = t at *
  intro l hl
  cases l with
  | wait ms => exact absurd rfl hl
  | step l =>
    cases l with
    | app => exact .inl rfl
    | call p =>
      refine absurd ?_ hl
      simp only [TimedSys.step, ShapedSys.step]
      split <;> rfl
    | drop =>
      refine absurd ?_ hl
      simp only [TimedSys.step, ShapedSys.step]
      split <;> rfl
    | read => exact absurd rfl hl
    | bg =>
      refine .inr ⟨rfl, ?_⟩
      cases hb : t.sys.bg with
      | covering pc => exact hg.covering hs hb
      | sleeping =>
        refine absurd ?_ hl
        by_cases hw : t.wake ≤ t.now <;> simp [TimedSys.step, ShapedSys.step, ShapedSys.bgStep, hb, hw]
      | trying =>
        refine absurd ?_ hl
        simp only [TimedSys.step, ShapedSys.step, ShapedSys.bgStep, hb]
        split
        · rfl
        · split <;> rfl
      | _ =>
        refine absurd ?_ hl
        simp [TimedSys.step, ShapedSys.step, ShapedSys.bgStep, hb]

/-- Non-vacuity, and what it shows: nothing but the sleep takes time, the application writes 30 ms after an attempt;
the writes of the thread are on the grid and that of the application is not. -/
example :
    let s0 : ShapedSys greedyRng := .init
      ⟨⟨sampleIn, ⟨[], false, []⟩⟩, ⟨sampleOut, ⟨[], [], []⟩⟩⟩ ⟨⟨.disabled, .random⟩, ()⟩ []
    let ls := Timed.step SysLabel.bg :: .wait 100 :: List.replicate 10 (Timed.step SysLabel.bg) ++
      [.wait 30, .step (.call (.genuine [1, 2, 3])), .step .app, .step .app, .step .app]
    let t := (TimedSys.start s0 7).run toy .debug ls
    (TimedSys.start s0 7).Prompt toy .debug ls = true ∧ t.now = 137 ∧ t.tries = [107] ∧
      t.sys.ws.writer.writer.out.length = 1044 ∧
      (t.step toy .debug (.step .app)).sys.ws.writer.writer.out.length = 1044 + 23 ∧
      ((TimedSys.start s0 7).run toy .debug (ls.take 5)).now = 107 ∧
      ((TimedSys.start s0 7).run toy .debug (ls.take 5)).sys.ws.writer.writer.out.length = 0 ∧
      ((TimedSys.start s0 7).run toy .debug (ls.take 9)).sys.ws.writer.writer.out.length = 1044 := by
  decide +kernel

/-! ## How long `drop` takes -/

theorem ShapedSys.shutdown_stays {s : ShapedSys R} (h : s.shutdown = true) (l : SysLabel) :
    (s.step P prof l).shutdown = true := by
  cases l with
  | call p => simp only [ShapedSys.step]; split <;> exact h
  | drop => simp only [ShapedSys.step]; split <;> first | rfl | exact h
  | read => exact h
  | app =>
    show (s.appStep P prof).shutdown = true
    unfold ShapedSys.appStep
    split
    · exact h
    · split
      · exact h
      · split <;> exact h
    · exact h
    · exact h
    · split <;> exact h
    · exact h
  | bg =>
    show (s.bgStep P prof).shutdown = true
    unfold ShapedSys.bgStep
    split
    · exact h
    · exact h
    · split
      · exact h
      · split <;> exact h
    · exact h
    · exact h
    · exact h
    · exact h

/-- The thread never sleeps for longer than a period. -/
def TimedSys.Short (t : TimedSys R) : Prop := t.sys.bg = .sleeping → t.wake ≤ t.now + 100

theorem TimedSys.Short.step {t : TimedSys R} (h : t.Short) (l : Timed SysLabel) : (t.step P prof l).Short := by
  cases l with
  | wait ms => exact fun hb => Nat.le_trans (h hb) (by simp [TimedSys.step])
  | step l =>
    by_cases hl : l = .bg
    · subst hl
      intro hb'
      cases hb : t.sys.bg with
      | checking => simp [TimedSys.step, hb]
      | sleeping =>
        by_cases hw : t.wake ≤ t.now
        · have he : t.step P prof (.step .bg) = { t with sys := t.sys.step P prof .bg } := by
            simp [TimedSys.step, hb, hw]
          rw [he]
          exact Nat.le_trans hw (Nat.le_add_right _ _)
        · have he : t.step P prof (.step .bg) = t := by simp [TimedSys.step, hb, hw]
          rw [he]; exact h hb
      | trying =>
        have : (t.step P prof (.step .bg)).sys = t.sys.step P prof .bg := by simp [TimedSys.step, hb]
        rw [this] at hb'
        rcases ShapedSys.trying_bg (P := P) (prof := prof) hb with hn | ⟨pc, hn⟩ <;> rw [hn] at hb' <;> cases hb'
      | covering pc =>
        have : (t.step P prof (.step .bg)).sys = t.sys.step P prof .bg := by simp [TimedSys.step, hb]
        rw [this] at hb'
        rcases ShapedSys.covering_bg (P := P) (prof := prof) hb with hn | hn | ⟨pc, hn⟩ <;> rw [hn] at hb' <;> cases hb'
      | finished =>
        have he : t.step P prof (.step .bg) = t := by
          simp [TimedSys.step, ShapedSys.step, ShapedSys.bgStep, hb]
        rw [he, hb] at hb'; cases hb'
      | panicked =>
        have he : t.step P prof (.step .bg) = t := by
          simp [TimedSys.step, ShapedSys.step, ShapedSys.bgStep, hb]
        rw [he, hb] at hb'; cases hb'
    · have he : t.step P prof (.step l) = { t with sys := t.sys.step P prof l } := by
        cases l with
        | bg => exact absurd rfl hl
        | _ => rfl
      have hn := ShapedSys.other_bg (P := P) (prof := prof) (s := t.sys) hl
      rw [he]
      intro hb
      simp only [hn] at hb
      exact h hb

theorem TimedSys.Short.run (ls : List (Timed SysLabel)) {t : TimedSys R} (h : t.Short) : (t.run P prof ls).Short := by
  induction ls generalizing t with
  | nil => exact h
  | cons l ls ih => exact ih (h.step l)

/-- The thread was told to stop at or after the time `T`. -/
structure TimedSys.Stopping (T : Nat) (t : TimedSys R) : Prop where
  shutdown : t.sys.shutdown = true
  now : t.now ≤ T + 100
  sleeping : t.sys.bg = .sleeping → t.wake ≤ T + 100

theorem TimedSys.Stopping.step {T : Nat} {t : TimedSys R} (h : t.Stopping T) {l : Timed SysLabel}
    (hl : t.prompt l = true) : (t.step P prof l).Stopping T := by
  obtain ⟨h1, h2, h3⟩ := h
  cases l with
  | wait ms =>
    simp only [TimedSys.prompt, Bool.and_eq_true, beq_iff_eq, decide_eq_true_eq] at hl
    exact ⟨h1, Nat.le_trans hl.2 (h3 hl.1), h3⟩
  | step l =>
    by_cases hlb : l = .bg
    · subst hlb
      have hsd := ShapedSys.shutdown_stays (P := P) (prof := prof) h1 .bg
      cases hb : t.sys.bg with
      | checking =>
        have he : t.step P prof (.step .bg) =
            { t with sys := t.sys.step P prof .bg, wake := t.now + 100 } := by simp [TimedSys.step, hb]
        have hn := ShapedSys.checking_bg (P := P) (prof := prof) hb
        rw [h1] at hn
        rw [he]
        exact ⟨hsd, h2, fun h => by simp only [hn, if_true] at h; cases h⟩
      | sleeping =>
        by_cases hw : t.wake ≤ t.now
        · have he : t.step P prof (.step .bg) = { t with sys := t.sys.step P prof .bg } := by
            simp [TimedSys.step, hb, hw]
          rw [he]
          exact ⟨hsd, h2, fun _ => h3 hb⟩
        · have he : t.step P prof (.step .bg) = t := by simp [TimedSys.step, hb, hw]
          rw [he]; exact ⟨h1, h2, h3⟩
      | trying =>
        have he : t.step P prof (.step .bg) =
            { t with sys := t.sys.step P prof .bg, tries := t.tries ++ [t.now] } := by simp [TimedSys.step, hb]
        rw [he]
        refine ⟨hsd, h2, fun h => ?_⟩
        rcases ShapedSys.trying_bg (P := P) (prof := prof) hb with hn | ⟨pc, hn⟩ <;> simp only [hn] at h <;> cases h
      | covering pc =>
        have he : t.step P prof (.step .bg) = { t with sys := t.sys.step P prof .bg } := by
          simp [TimedSys.step, hb]
        rw [he]
        refine ⟨hsd, h2, fun h => ?_⟩
        rcases ShapedSys.covering_bg (P := P) (prof := prof) hb with hn | hn | ⟨pc, hn⟩ <;> simp only [hn] at h <;> cases h
      | finished =>
        have he : t.step P prof (.step .bg) = t := by
          simp [TimedSys.step, ShapedSys.step, ShapedSys.bgStep, hb]
        rw [he]; exact ⟨h1, h2, h3⟩
      | panicked =>
        have he : t.step P prof (.step .bg) = t := by
          simp [TimedSys.step, ShapedSys.step, ShapedSys.bgStep, hb]
        rw [he]; exact ⟨h1, h2, h3⟩
    · have he : t.step P prof (.step l) = { t with sys := t.sys.step P prof l } := by
        cases l with
        | bg => exact absurd rfl hlb
        | _ => rfl
      have hn := ShapedSys.other_bg (P := P) (prof := prof) (s := t.sys) hlb
      rw [he]
      exact ⟨ShapedSys.shutdown_stays h1 l, h2, by simp only [hn]; exact h3⟩

theorem TimedSys.Stopping.run {T : Nat} (ls : List (Timed SysLabel)) {t : TimedSys R} (h : t.Stopping T)
    (hl : t.Prompt P prof ls = true) : (t.run P prof ls).Stopping T := by
  induction ls generalizing t with
  | nil => exact h
  | cons l ls ih =>
    simp only [TimedSys.Prompt, Bool.and_eq_true] at hl
    exact ih (h.step hl.1) hl.2

/-- C79, thread: `drop` waits no more than 100 ms in all of the sleep: if from then on nothing else takes time, the
clock does not pass that limit before the thread has ended and `drop` has returned, which can always happen. -/
theorem C79_drop {s0 : ShapedSys R} (h0 : s0.Fresh) (now0 : Nat) (ls1 : List (Timed SysLabel)) :
    let t1 := (TimedSys.start s0 now0).run P prof ls1
    t1.sys.app = .idle →
    (∀ ls2, (t1.step P prof (.step .drop)).Prompt P prof ls2 = true →
      ((t1.step P prof (.step .drop)).run P prof ls2).now ≤ t1.now + 100) ∧
    ∃ ls2, (t1.step P prof (.step .drop)).Prompt P prof ls2 = true ∧
      ((t1.step P prof (.step .drop)).run P prof ls2).sys.app = .gone := by
  intro t1 hidle
  have hshort : t1.Short :=
    TimedSys.Short.run ls1 (fun h => by simp [TimedSys.start, h0.bg] at h)
  have hd : t1.step P prof (.step .drop) = { t1 with sys := { t1.sys with app := .joining, shutdown := true } } := by
    simp [TimedSys.step, ShapedSys.step, hidle]
  refine ⟨?_, ?_⟩
  · intro ls2 hp
    refine (TimedSys.Stopping.run (T := t1.now) ls2 ?_ hp).now
    rw [hd]
    exact ⟨rfl, Nat.le_add_right _ _, hshort⟩
  · obtain ⟨n, hn⟩ := C40_threads_terminates (P := P) (prof := prof) (s0 := t1.sys) [] hidle
    obtain ⟨-, hn⟩ := hn (List.replicate n .bg) (by simp)
    obtain ⟨ls2, -, h2, h3⟩ := C79_complete (P := P) (prof := prof) (t1.step P prof (.step .drop))
      (List.replicate n .bg ++ [.app])
    refine ⟨ls2, h3, ?_⟩
    rw [h2]
    exact hn

/-- Non-vacuity, and the limit is reached: the writer is dropped just after the thread went to sleep. -/
example :
    let s0 : ShapedSys greedyRng := .init
      ⟨⟨sampleIn, ⟨[], false, []⟩⟩, ⟨sampleOut, ⟨[], [], []⟩⟩⟩ ⟨⟨.disabled, .random⟩, ()⟩ []
    let t1 := (TimedSys.start s0 7).run toy .debug [.step .bg]
    let ls2 := Timed.wait 100 :: List.replicate 10 (Timed.step SysLabel.bg) ++ [.step .app]
    t1.sys.app = .idle ∧ (t1.step toy .debug (.step .drop)).Prompt toy .debug ls2 = true ∧
      ((t1.step toy .debug (.step .drop)).run toy .debug ls2).sys.app = .gone ∧
      ((t1.step toy .debug (.step .drop)).run toy .debug ls2).now = 107 ∧
      ((t1.step toy .debug (.step .drop)).run toy .debug ls2).sys.ws.writer.writer.out.length = 1044 := by
  decide +kernel

/-! ## The task -/

theorem AsyncTimedSys.step_cases (t : AsyncTimedSys R) (l : AsyncLabel) :
    (l ≠ .tick ∧ t.step P prof (.step l) = { t with sys := t.sys.step P prof l }) ∨
    (l = .tick ∧ t.step P prof (.step l) = t ∧ ((∀ a, t.sys.task ≠ .select a false) ∨ t.now < t.deadline)) ∨
    (l = .tick ∧ t.deadline ≤ t.now ∧ (∃ a, t.sys.task = .select a false) ∧
      t.step P prof (.step l) = { t with sys := t.sys.step P prof .tick, deadline := t.deadline + 100,
                                         ticks := t.ticks ++ [t.now] }) := by
  cases l with
  | tick =>
    refine .inr ?_
    show (_ ∧ t.step P prof (.step .tick) = _ ∧ _) ∨ (_ ∧ _ ∧ _ ∧ t.step P prof (.step .tick) = _)
    unfold AsyncTimedSys.step
    cases ht : t.sys.task with
    | select a b =>
      cases b with
      | true => exact .inl ⟨rfl, rfl, .inl (by simp)⟩
      | false =>
        by_cases hd : t.deadline ≤ t.now
        · exact .inr ⟨rfl, hd, ⟨a, rfl⟩, by simp [hd]⟩
        · exact .inl ⟨rfl, by simp [hd], .inr (by omega)⟩
    | _ => exact .inl ⟨rfl, rfl, .inl (by simp)⟩
  | _ => exact .inl ⟨by simp, rfl⟩

/-- C79, task: the ticks are counted: the `i`-th is not before `100 * i` ms after the start, so that there are at most
`T / 100 + 1` in the first `T` ms.  (No bound holds of other intervals: `C79_burst`.) -/
theorem C79_task_rate (s0 : AsyncShapedSys R) (now0 : Nat) (ls : List (Timed AsyncLabel)) :
    let t := (AsyncTimedSys.start s0 now0).run P prof ls
    (∀ i x, t.ticks[i]? = some x → now0 + 100 * i ≤ x ∧ x ≤ t.now) ∧
      t.ticks.Pairwise (· ≤ ·) ∧ t.ticks.length ≤ (t.now - now0) / 100 + 1 := by
  have main : ∀ (ls : List (Timed AsyncLabel)) (t : AsyncTimedSys R),
      (t.deadline = now0 + 100 * t.ticks.length ∧ now0 ≤ t.now ∧
        (∀ i x, t.ticks[i]? = some x → now0 + 100 * i ≤ x ∧ x ≤ t.now) ∧ t.ticks.Pairwise (· ≤ ·) ∧
        t.deadline ≤ t.now + 100) →
      ((t.run P prof ls).deadline = now0 + 100 * (t.run P prof ls).ticks.length ∧ now0 ≤ (t.run P prof ls).now ∧
        (∀ i x, (t.run P prof ls).ticks[i]? = some x → now0 + 100 * i ≤ x ∧ x ≤ (t.run P prof ls).now) ∧
        (t.run P prof ls).ticks.Pairwise (· ≤ ·) ∧ (t.run P prof ls).deadline ≤ (t.run P prof ls).now + 100) := by
    intro ls
    induction ls with
    | nil => intro t h; exact h
    | cons l ls ih =>
      intro t h
      refine ih _ ?_
      obtain ⟨h1, h2, h3, h4, h5⟩ := h
      cases l with
      | wait ms =>
        refine ⟨h1, Nat.le_trans h2 (Nat.le_add_right _ _), ?_, h4, ?_⟩
        · intro i x hx
          have := h3 i x hx
          simp only [AsyncTimedSys.step]; omega
        · simp only [AsyncTimedSys.step]; omega
      | step l =>
        rcases t.step_cases (P := P) (prof := prof) l with ⟨-, he⟩ | ⟨-, he, -⟩ | ⟨-, hd, -, he⟩
        · rw [he]; exact ⟨h1, h2, h3, h4, h5⟩
        · rw [he]; exact ⟨h1, h2, h3, h4, h5⟩
        · rw [he]
          refine ⟨?_, h2, ?_, ?_, ?_⟩
          · simp only [List.length_append, List.length_singleton]; omega
          · intro i x hx
            simp only at hx
            rcases Nat.lt_or_ge i t.ticks.length with hi | hi
            · rw [List.getElem?_append_left hi] at hx
              exact h3 i x hx
            · rw [List.getElem?_append_right hi] at hx
              have hi' : i - t.ticks.length = 0 := by
                rcases Nat.eq_zero_or_pos (i - t.ticks.length) with e | e
                · exact e
                · rw [List.getElem?_eq_none (by simp; omega)] at hx; cases hx
              rw [hi'] at hx
              simp only [List.getElem?_cons_zero, Option.some.injEq] at hx
              subst hx
              simp only
              omega
          · rw [List.pairwise_append]
            refine ⟨h4, List.pairwise_singleton _ _, ?_⟩
            intro a ha b hb
            obtain ⟨i, hi⟩ := List.mem_iff_getElem?.1 ha
            rw [List.mem_singleton.1 hb]
            exact (h3 i a hi).2
          · simp only; omega
  obtain ⟨h1, h2, h3, h4, h5⟩ := main ls (AsyncTimedSys.start s0 now0)
    ⟨by simp [AsyncTimedSys.start], by simp [AsyncTimedSys.start], by simp [AsyncTimedSys.start],
      by simp [AsyncTimedSys.start], by simp [AsyncTimedSys.start]⟩
  exact ⟨h3, h4, by omega⟩

/-- C79, task: in the time since the start no more is sent than the application's packets, a padding decoy for
each, and a cover decoy for each 100 ms and one more. -/
theorem C79_task_bytes (hP : Lawful P) {s0 : AsyncShapedSys R} (h0 : s0.Fresh) (now0 : Nat)
    (ls : List (Timed AsyncLabel)) :
    ((AsyncTimedSys.start s0 now0).run P prof ls).sys.ws.writer.writer.out.length ≤
      s0.ws.writer.writer.out.length +
        writtenMax s0.ws.shaper.config ((AsyncTimedSys.start s0 now0).run P prof ls).sys.called +
        coverMax s0.ws.shaper.config * ((((AsyncTimedSys.start s0 now0).run P prof ls).now - now0) / 100 + 1) := by
  have main : ∀ (ls : List (Timed AsyncLabel)) (t : AsyncTimedSys R), t.sys.ws.shaper.config = s0.ws.shaper.config →
      t.sys.space s0.ws.shaper.config ≤ s0.ws.writer.writer.out.length +
        writtenMax s0.ws.shaper.config t.sys.called + coverMax s0.ws.shaper.config * t.ticks.length →
      (t.run P prof ls).sys.space s0.ws.shaper.config ≤ s0.ws.writer.writer.out.length +
        writtenMax s0.ws.shaper.config (t.run P prof ls).sys.called +
          coverMax s0.ws.shaper.config * (t.run P prof ls).ticks.length := by
    intro ls
    induction ls with
    | nil => intro t _ h; exact h
    | cons l ls ih =>
      intro t hc h
      cases l with
      | wait ms => exact ih _ hc h
      | step l =>
        have hs := AsyncShapedSys.step_space (prof := prof) hP hc l
        have hok : (t.step P prof (.step l)).sys.ws.shaper.config = s0.ws.shaper.config ∧
            (t.step P prof (.step l)).sys.space s0.ws.shaper.config ≤ s0.ws.writer.writer.out.length +
              writtenMax s0.ws.shaper.config (t.step P prof (.step l)).sys.called +
                coverMax s0.ws.shaper.config * (t.step P prof (.step l)).ticks.length := by
          rcases t.step_cases (P := P) (prof := prof) l with ⟨hl, he⟩ | ⟨-, he, -⟩ | ⟨rfl, -, -, he⟩
          · rw [he]
            refine ⟨hs.1, ?_⟩
            have := hs.2
            simp only [hl, if_false] at this ⊢
            omega
          · rw [he]; exact ⟨hc, h⟩
          · rw [he]
            refine ⟨hs.1, ?_⟩
            have := hs.2
            simp only [if_true, List.length_append, List.length_singleton, Nat.mul_succ] at this ⊢
            omega
        exact ih _ hok.1 hok.2
  have h := main ls (AsyncTimedSys.start s0 now0) rfl (by
    simp [AsyncTimedSys.start, AsyncShapedSys.space, h0.task, h0.queue, TaskPc.space, h0.called, writtenMax])
  have hr := (C79_task_rate (P := P) (prof := prof) s0 now0 ls).2.2
  have := Nat.mul_le_mul_left (coverMax s0.ws.shaper.config) hr
  unfold AsyncShapedSys.space at h
  omega

/-- The deadline of the next tick is always a multiple of the period after the start; if nothing takes time but the
wait for it, it is met. -/
structure AsyncTimedSys.OnGrid (now0 : Nat) (t : AsyncTimedSys R) : Prop where
  ticks : t.ticks = (List.range t.ticks.length).map (fun i => now0 + 100 * i)
  deadline : t.deadline = now0 + 100 * t.ticks.length
  now : t.now ≤ t.deadline
  covering : ∀ pc, t.sys.task = .covering pc → t.ticks ≠ [] ∧ t.now + 100 = t.deadline

theorem AsyncShapedSys.covering_from {s : AsyncShapedSys R} {l : AsyncLabel} (hl : l ≠ .tick) {pc : JobPc}
    (h : (s.step P prof l).task = .covering pc) : ∃ pc', s.task = .covering pc' := by
  cases l with
  | tick => exact absurd rfl hl
  | call p =>
    simp only [AsyncShapedSys.step] at h
    split at h
    · split at h <;> exact ⟨pc, h⟩
    · exact ⟨pc, h⟩
  | resume =>
    simp only [AsyncShapedSys.step] at h
    split at h
    · split at h
      · exact ⟨pc, h⟩
      · split at h <;> exact ⟨pc, h⟩
    · exact ⟨pc, h⟩
  | cancel =>
    simp only [AsyncShapedSys.step] at h
    split at h <;> exact ⟨pc, h⟩
  | drop =>
    simp only [AsyncShapedSys.step] at h
    split at h <;> exact ⟨pc, h⟩
  | read => exact ⟨pc, h⟩
  | recv =>
    simp only [AsyncShapedSys.step] at h
    split at h
    · split at h
      · cases h
      · split at h
        · cases h
        · exact ⟨pc, h⟩
    · exact ⟨pc, h⟩
  | otherwise =>
    simp only [AsyncShapedSys.step] at h
    split at h
    · cases h
    · exact ⟨pc, h⟩
  | task =>
    have h : (s.taskStep P prof).task = .covering pc := h
    unfold AsyncShapedSys.taskStep at h
    split at h
    · split at h <;> cases h
    · cases h
    · split at h <;> cases h
    · rename_i pc' _ ht
      exact ⟨pc', ht⟩
    · exact ⟨pc, h⟩

theorem AsyncTimedSys.OnGrid.step {now0 : Nat} {t : AsyncTimedSys R} (h : t.OnGrid now0) {l : Timed AsyncLabel}
    (hl : t.prompt l = true) : (t.step P prof l).OnGrid now0 := by
  obtain ⟨h1, h2, h3, h4⟩ := h
  cases l with
  | wait ms =>
    simp only [AsyncTimedSys.prompt, Bool.and_eq_true, decide_eq_true_eq] at hl
    refine ⟨h1, h2, hl.2, ?_⟩
    intro pc hc
    have hc : t.sys.task = .covering pc := hc
    rw [hc] at hl
    exact absurd hl.1 (by simp)
  | step l =>
    rcases t.step_cases (P := P) (prof := prof) l with ⟨hn, he⟩ | ⟨-, he, -⟩ | ⟨-, hd, -, he⟩
    · rw [he]
      refine ⟨h1, h2, h3, ?_⟩
      intro pc hc
      obtain ⟨pc', hc'⟩ := AsyncShapedSys.covering_from hn hc
      exact h4 pc' hc'
    · rw [he]; exact ⟨h1, h2, h3, h4⟩
    · have hnow : t.now = now0 + 100 * t.ticks.length := by omega
      rw [he]
      refine ⟨?_, ?_, ?_, ?_⟩
      · simp only [List.length_append, List.length_singleton, List.range_succ, List.map_append, List.map_cons,
          List.map_nil, ← h1]
        rw [← hnow]
      · simp only [List.length_append, List.length_singleton]; omega
      · simp only; omega
      · intro _ _
        exact ⟨by simp, by simp only; omega⟩

/-- C79, task: if nothing takes time but the wait for a tick, the ticks are at 0, 100, 200, … ms after the start, and
cover decoys are put on the wire at no other times. -/
theorem C79_task_grid {s0 : AsyncShapedSys R} (h0 : s0.Fresh) (now0 : Nat) (ls : List (Timed AsyncLabel))
    (hp : (AsyncTimedSys.start s0 now0).Prompt P prof ls = true) :
    let t := (AsyncTimedSys.start s0 now0).run P prof ls
    t.ticks = (List.range t.ticks.length).map (fun i => now0 + 100 * i) ∧
      ∀ pc, t.sys.task = .covering pc → t.now ∈ t.ticks := by
  have main : ∀ (ls : List (Timed AsyncLabel)) (t : AsyncTimedSys R), t.OnGrid now0 → t.Prompt P prof ls = true →
      (t.run P prof ls).OnGrid now0 := by
    intro ls
    induction ls with
    | nil => intro t h _; exact h
    | cons l ls ih =>
      intro t h hl
      simp only [AsyncTimedSys.Prompt, Bool.and_eq_true] at hl
      exact ih _ (h.step hl.1) hl.2
  obtain ⟨h1, h2, h3, h4⟩ := main ls (AsyncTimedSys.start s0 now0)
    ⟨rfl, by simp [AsyncTimedSys.start], Nat.le_refl _, by simp [AsyncTimedSys.start, h0.task]⟩ hp
  refine ⟨h1, ?_⟩
  intro pc hc
  obtain ⟨h5, h6⟩ := h4 pc hc
  have hk := List.length_pos_iff.2 h5
  rw [h1, List.mem_map]
  exact ⟨_, List.mem_range.2 (Nat.sub_lt hk Nat.one_pos), by omega⟩

/-- Non-vacuity: three ticks; the decoy of each goes out at once. -/
example :
    let s0 : AsyncShapedSys greedyRng := .init
      ⟨⟨sampleIn, ⟨[], 0, []⟩, .initReadingLength⟩, ⟨sampleOut, ⟨[], [], []⟩⟩⟩ ⟨⟨.disabled, .random⟩, ()⟩ []
    let round := Timed.step AsyncLabel.tick :: List.replicate 8 (Timed.step AsyncLabel.task)
    let ls := round ++ [.wait 60, .wait 40] ++ round ++ .wait 100 :: round
    (AsyncTimedSys.start s0 7).Prompt toy .debug ls = true ∧
      ((AsyncTimedSys.start s0 7).run toy .debug ls).ticks = [7, 107, 207] ∧
      ((AsyncTimedSys.start s0 7).run toy .debug ls).sys.ws.writer.writer.out.length = 3 * 1044 := by
  decide +kernel

/-- Ticks that are due can all be taken at once. -/
theorem AsyncTimedSys.due_run {t : AsyncTimedSys R} {ls : List AsyncLabel}
    (h : t.deadline + 100 * ls.count .tick ≤ t.now + 100) :
    (t.run P prof (ls.map .step)).sys = t.sys.run P prof ls ∧ (t.run P prof (ls.map .step)).now = t.now := by
  induction ls generalizing t with
  | nil => exact ⟨rfl, rfl⟩
  | cons l ls ih =>
    show ((t.step P prof (.step l)).run P prof (ls.map .step)).sys = (t.sys.step P prof l).run P prof ls ∧
      ((t.step P prof (.step l)).run P prof (ls.map .step)).now = t.now
    rw [List.count_cons] at h
    rcases t.step_cases (P := P) (prof := prof) l with ⟨hn, he⟩ | ⟨rfl, he, hx⟩ | ⟨rfl, hd, -, he⟩
    · rw [he]
      exact ih (by simp only; omega)
    · rw [he]
      have hs : t.sys.step P prof .tick = t.sys := by
        rcases hx with hx | hx
        · simp only [AsyncShapedSys.step]
        · simp at h; omega
      rw [hs]
      exact ih (by simp only [beq_self_eq_true, if_true] at h; omega)
    · rw [he]
      exact ih (by simp only [beq_self_eq_true, if_true] at h ⊢; omega)

/-- C79 for the task, what is not so: decoys are not spaced.  When the task has been kept from its `select!` for long
enough that `n` ticks are due, it can send `n` cover decoys within the same millisecond. -/
theorem C79_burst (hP : Lawful P) {t : AsyncTimedSys greedyRng} (ht : t.sys.task = .select false false)
    (hcfg : t.sys.ws.shaper.config.decoy = .random) (hw : t.sys.ws.writer.writer.Reliable false)
    {kL kP : Bytes} {c : Nat} (hat : OutboundCipher.At P kL kP c t.sys.ws.writer.cipher) (n : Nat)
    (hn : c + n < 2 ^ 32) (hdue : t.deadline + 100 * n ≤ t.now + 100) :
    ∃ (ls : List AsyncLabel) (o : OutboundCipher) (pkts : Bytes), (∀ l ∈ ls, l = .tick ∨ l = .task) ∧
      Sent P prof t.sys.ws.writer.cipher (List.replicate n (.decoy (zeros 1024))) o pkts ∧
      (t.run P prof (ls.map .step)).now = t.now ∧
      (t.run P prof (ls.map .step)).sys.ws.writer.writer.out = t.sys.ws.writer.writer.out ++ pkts := by
  obtain ⟨ls, o, pkts, h1, h2, h3, -, h5⟩ := AsyncShapedSys.decoys_in_row (prof := prof) hP n ht hcfg hw hat hn
  obtain ⟨h6, h7⟩ := AsyncTimedSys.due_run (P := P) (prof := prof) (t := t) (ls := ls) (by rw [h2]; exact hdue)
  exact ⟨ls, o, pkts, h1, h3, h7, by rw [h6]; exact h5⟩

/-- Non-vacuity: the transport was not ready for 950 ms during a write of the application.  When the write is done ten
ticks are due, and ten cover decoys of 1044 bytes go out in the same millisecond. -/
example :
    let s0 : AsyncShapedSys greedyRng := .init
      ⟨⟨sampleIn, ⟨[], 0, []⟩, .initReadingLength⟩, ⟨sampleOut, ⟨[.pending], [], []⟩⟩⟩ ⟨⟨.disabled, .random⟩, ()⟩ []
    let t := (AsyncTimedSys.start s0 7).run toy .debug
      ([.step (.call (.genuine [1, 2])), .step .recv, .step .task, .step .task, .step .task, .wait 950] ++
        List.replicate 8 (.step .task))
    let round := Timed.step AsyncLabel.tick :: List.replicate 8 (Timed.step AsyncLabel.task)
    t.sys.task = .select false false ∧ t.now = 957 ∧ t.deadline + 100 * 10 ≤ t.now + 100 ∧
      t.sys.ws.writer.writer.out.length = 22 ∧
      (t.run toy .debug (List.replicate 10 round).flatten).now = 957 ∧
      (t.run toy .debug (List.replicate 10 round).flatten).ticks = List.replicate 10 957 ∧
      (t.run toy .debug (List.replicate 10 round).flatten).sys.ws.writer.writer.out.length = 22 + 10 * 1044 := by
  decide +kernel

end Bip324
