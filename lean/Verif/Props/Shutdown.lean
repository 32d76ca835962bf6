import Verif.Props.ShapedWrite

/-!
# C40: the decoy sender after the writer was dropped

For the thread of `traffic/src/io.rs` the property holds.  For the task of `traffic/src/futures.rs` it is
false: the `else` branch of its `select!` is never taken.
-/

namespace Bip324

variable {P : Prims} {prof : Profile} {R : Rng}

/-! ## The thread -/

/-- The thread has ended. -/
def BgPc.ended : BgPc → Prop
  | .finished => True
  | .panicked => True
  | _ => False

/-- The writer is being dropped or has been. -/
def ShapedSys.Closing (s : ShapedSys R) : Prop :=
  s.shutdown = true ∧ (s.app = .joining ∨ s.app = .gone)

theorem ShapedSys.bgStep_app (s : ShapedSys R) :
    (s.bgStep P prof).app = s.app ∧ (s.bgStep P prof).shutdown = s.shutdown := by
  obtain ⟨ws, owner, poisoned, shutdown, app, bg, reader, called, returned, reads0⟩ := s
  cases bg with
  | trying =>
    cases owner with
    | some t => exact ⟨rfl, rfl⟩
    | none => cases poisoned <;> exact ⟨rfl, rfl⟩
  | covering pc => cases pc <;> exact ⟨rfl, rfl⟩
  | _ => exact ⟨rfl, rfl⟩

/-- What a step other than of the decoy thread changes. -/
theorem ShapedSys.Closing.other {s : ShapedSys R} (h : s.Closing) {l : SysLabel} (hl : l ≠ .bg) :
    (s.step P prof l).ws = s.ws ∧ (s.step P prof l).bg = s.bg ∧ (s.step P prof l).owner = s.owner ∧
      (s.step P prof l).poisoned = s.poisoned ∧ (s.step P prof l).Closing := by
  obtain ⟨ws, owner, poisoned, shutdown, app, bg, reader, called, returned, reads0⟩ := s
  obtain ⟨h1, h2⟩ := h
  simp only at h1 h2
  subst h1
  cases l with
  | bg => exact absurd rfl hl
  | call p => rcases h2 with rfl | rfl <;> exact ⟨rfl, rfl, rfl, rfl, rfl, by simp [ShapedSys.step]⟩
  | drop => rcases h2 with rfl | rfl <;> exact ⟨rfl, rfl, rfl, rfl, rfl, by simp [ShapedSys.step]⟩
  | read => exact ⟨rfl, rfl, rfl, rfl, rfl, h2⟩
  | app =>
    rcases h2 with rfl | rfl
    · cases bg <;> exact ⟨rfl, rfl, rfl, rfl, rfl, by simp [ShapedSys.step, ShapedSys.appStep]⟩
    · exact ⟨rfl, rfl, rfl, rfl, rfl, .inr rfl⟩

theorem ShapedSys.Closing.step {s : ShapedSys R} (h : s.Closing) (l : SysLabel) :
    (s.step P prof l).Closing := by
  by_cases hl : l = .bg
  · subst hl
    obtain ⟨h1, h2⟩ := ShapedSys.bgStep_app (P := P) (prof := prof) s
    show (s.bgStep P prof).Closing
    unfold ShapedSys.Closing
    rw [h1, h2]
    exact h
  · exact (h.other hl).2.2.2.2

/-- Nothing beyond `last` will be sent. -/
def ShapedSys.Bound (P : Prims) (prof : Profile) (last : Bytes) (s : ShapedSys R) : Prop :=
  match s.bg with
  | .covering pc => (pc.finish .sync P prof s.ws).1.writer.writer.out = last
  | .sleeping => (s.ws.cover .sync P prof).1.writer.writer.out = last
  | .trying => (s.ws.cover .sync P prof).1.writer.writer.out = last
  | _ => s.ws.writer.writer.out <+: last

theorem ShapedSys.Bound.out {last : Bytes} {s : ShapedSys R} (h : s.Bound P prof last) :
    s.ws.writer.writer.out <+: last := by
  unfold ShapedSys.Bound at h
  split at h
  · rw [← h]; exact JobPc.finish_out .sync s.ws _
  · rw [← h]; exact exec_out .sync s.ws .cover
  · rw [← h]; exact exec_out .sync s.ws .cover
  · exact h

theorem ShapedSys.Bound.step {last : Bytes} {s : ShapedSys R} (hc : s.Closing) (h : s.Bound P prof last)
    (l : SysLabel) : (s.step P prof l).Bound P prof last := by
  have hout := h.out
  by_cases hl : l = .bg
  · subst hl
    show (s.bgStep P prof).Bound P prof last
    cases hb : s.bg with
    | checking =>
      have : s.bgStep P prof = { s with bg := .finished } := by simp [ShapedSys.bgStep, hb, hc.1]
      rw [this]; exact hout
    | sleeping =>
      have : s.bgStep P prof = { s with bg := .trying } := by simp [ShapedSys.bgStep, hb]
      rw [this]
      unfold ShapedSys.Bound at h
      rw [hb] at h
      exact h
    | finished =>
      have : s.bgStep P prof = s := by simp [ShapedSys.bgStep, hb]
      rw [this]; exact h
    | panicked =>
      have : s.bgStep P prof = s := by simp [ShapedSys.bgStep, hb]
      rw [this]; exact h
    | trying =>
      cases ho : s.owner with
      | some t => rw [ShapedSys.bg_blocked hb ho]; exact hout
      | none =>
        cases hp : s.poisoned with
        | true => rw [ShapedSys.bg_poisoned hb ho hp]; exact hout
        | false =>
          rw [ShapedSys.bg_locks hb ho hp]
          unfold ShapedSys.Bound at h
          rw [hb] at h
          exact h
    | covering pc =>
      rcases pc.done_or with ⟨r, rfl⟩ | hd
      · rw [ShapedSys.bg_unlocks hb]
        cases r <;> exact hout
      · rw [ShapedSys.bg_writes hb hd]
        unfold ShapedSys.Bound at h ⊢
        rw [hb] at h
        simp only [JobPc.step_finish]
        exact h
  · obtain ⟨h1, h2, -⟩ := hc.other (P := P) (prof := prof) hl
    unfold ShapedSys.Bound at h ⊢
    rw [h1, h2]
    exact h

theorem ShapedSys.Bound.run {last : Bytes} (ls : List SysLabel) {s : ShapedSys R} (hc : s.Closing)
    (h : s.Bound P prof last) : (s.run P prof ls).Bound P prof last ∧ (s.run P prof ls).Closing := by
  induction ls generalizing s with
  | nil => exact ⟨h, hc⟩
  | cons l ls ih => exact ih (hc.step l) (h.step hc l)

/-- What a cover job sends: nothing, or (a beginning of) the packet of one decoy. -/
theorem cover_sends (f : Flavour) (ws : WriterState R) :
    ∃ part, (ws.cover f P prof).1.writer.writer.out = ws.writer.writer.out ++ part ∧
      (part = [] ∨ ∃ d o pkt, ShaperDecoy d ∧ Sent P prof ws.writer.cipher [d] o pkt ∧ part <+: pkt) := by
  unfold WriterState.cover
  cases hp : ws.shaper.decoy with
  | mk sh x =>
  obtain ⟨d, rec⟩ := x
  obtain ⟨-, -, hd⟩ := decoy_some hp
  cases d with
  | none => exact ⟨[], by simp, .inl rfl⟩
  | some q =>
    have hq := hd q rfl
    have hv : ∃ v, q.view = some v := by
      obtain ⟨n, -, h⟩ := shaper_decoy_view hq; exact ⟨_, h⟩
    obtain ⟨v, hv⟩ := hv
    obtain ⟨t, c⟩ := v
    simp only
    rw [Writer.write_eq f ws.writer hv]
    cases he : ws.writer.cipher.encryptToVec P prof c t none with
    | mk o x =>
    cases x with
    | panic => exact ⟨[], by simp, .inl rfl⟩
    | err e => exact ⟨[], by simp, .inl rfl⟩
    | ok pkt =>
      obtain ⟨pre, h1, h2, -⟩ := send_out ws.writer.writer f.retry pkt
      cases hs : ws.writer.writer.send f.retry pkt with
      | mk w y =>
      rw [hs] at h2
      refine ⟨pre, ?_, .inr ⟨q, o, pkt ++ [], hq, .cons hv he (.nil _), by simpa using h1⟩⟩
      cases y <;> simpa only [hs] using h2

/-- C40, thread: at most one more decoy.  The writer is dropped after the schedule `ls1`, anything may
happen in `ls2`.  Then everything sent since lies within the packet of one decoy: the thread was, or will
be, busy with one decoy (after the whole jobs `tr`), of which `before` had been sent when the writer was
dropped, and `after` was sent since. -/
theorem C40_threads_one_more {s0 : ShapedSys R} (h0 : s0.Fresh) (ls1 ls2 : List SysLabel)
    (hidle : (s0.run P prof ls1).app = .idle) :
    (s0.run P prof (ls1 ++ .drop :: ls2)).ws.writer.writer.out = (s0.run P prof ls1).ws.writer.writer.out ∨
    ∃ tr ws d o pkt before after, Serial .sync P prof s0.ws tr ws ∧ ShaperDecoy d ∧
      Sent P prof ws.writer.cipher [d] o pkt ∧ before ++ after <+: pkt ∧
      (s0.run P prof ls1).ws.writer.writer.out = ws.writer.writer.out ++ before ∧
      (s0.run P prof (ls1 ++ .drop :: ls2)).ws.writer.writer.out =
        ws.writer.writer.out ++ before ++ after := by
  rw [ShapedSys.run_append]
  have hI := (h0.inv (P := P) (prof := prof)).run ls1
  generalize s0.run P prof ls1 = s at hI hidle ⊢
  have hdrop : s.step P prof .drop = { s with app := .joining, shutdown := true } := by
    simp [ShapedSys.step, hidle]
  have hcl : (s.step P prof .drop).Closing := by rw [hdrop]; exact ⟨rfl, .inl rfl⟩
  show (((s.step P prof .drop).run P prof ls2).ws.writer.writer.out = _) ∨ _
  -- from a bound to the conclusion
  have one : ∀ tr ws, Serial .sync P prof s0.ws tr ws → ws.writer.writer.out <+: s.ws.writer.writer.out →
      (s.step P prof .drop).Bound P prof (ws.cover .sync P prof).1.writer.writer.out →
      ((s.step P prof .drop).run P prof ls2).ws.writer.writer.out = s.ws.writer.writer.out ∨
      ∃ tr ws d o pkt before after, Serial .sync P prof s0.ws tr ws ∧ ShaperDecoy d ∧
        Sent P prof ws.writer.cipher [d] o pkt ∧ before ++ after <+: pkt ∧
        s.ws.writer.writer.out = ws.writer.writer.out ++ before ∧
        ((s.step P prof .drop).run P prof ls2).ws.writer.writer.out =
          ws.writer.writer.out ++ before ++ after := by
    intro tr ws k1 ⟨before, k2⟩ k3
    obtain ⟨part, k4, k5⟩ := cover_sends (P := P) (prof := prof) .sync ws
    have hfin := (k3.run ls2 hcl).1.out
    have hgrow : s.ws.writer.writer.out <+:
        ((s.step P prof .drop).run P prof ls2).ws.writer.writer.out := by
      have grow : ∀ (ls : List SysLabel) (t : ShapedSys R),
          t.ws.writer.writer.out <+: (t.run P prof ls).ws.writer.writer.out := by
        intro ls
        induction ls with
        | nil => intro t; exact List.prefix_rfl
        | cons l ls ih =>
          intro t
          exact (ShapedSys.step_grows t l).1.trans (ih (t.step P prof l))
      have := grow ls2 (s.step P prof .drop)
      rwa [show (s.step P prof .drop).ws = s.ws by rw [hdrop]] at this
    obtain ⟨after, hafter⟩ := hgrow
    rw [k4, ← hafter, ← k2, List.append_assoc] at hfin
    have hpart : before ++ after <+: part := (List.prefix_append_right_inj _).1 hfin
    rcases k5 with rfl | ⟨d, o, pkt, l1, l2, l3⟩
    · left
      have : after = [] := by
        have := List.prefix_nil.1 hpart
        simp_all
      rw [← hafter, this, List.append_nil]
    · right
      exact ⟨tr, ws, d, o, pkt, before, after, k1, l1, l2, hpart.trans l3, k2.symm, by
        rw [← hafter, ← k2]⟩
  have still : s.ws.writer.writer.out <+: s.ws.writer.writer.out → (∀ pc, s.bg ≠ .covering pc) →
      s.bg ≠ .sleeping → s.bg ≠ .trying →
      ((s.step P prof .drop).run P prof ls2).ws.writer.writer.out = s.ws.writer.writer.out := by
    intro _ h1 h2 h3
    have hb : (s.step P prof .drop).Bound P prof s.ws.writer.writer.out := by
      rw [hdrop]
      unfold ShapedSys.Bound
      simp only
      cases hb : s.bg with
      | covering pc => exact absurd hb (h1 pc)
      | sleeping => exact absurd hb h2
      | trying => exact absurd hb h3
      | _ => exact List.prefix_rfl
    have hfin := (hb.run ls2 hcl).1.out
    have grow : ∀ (ls : List SysLabel) (t : ShapedSys R),
        t.ws.writer.writer.out <+: (t.run P prof ls).ws.writer.writer.out := by
      intro ls
      induction ls with
      | nil => intro t; exact List.prefix_rfl
      | cons l ls ih =>
        intro t
        exact (ShapedSys.step_grows t l).1.trans (ih (t.step P prof l))
    have hgrow := grow ls2 (s.step P prof .drop)
    rw [show (s.step P prof .drop).ws = s.ws by rw [hdrop]] at hgrow
    exact hfin.eq_of_length (Nat.le_antisymm hfin.length_le hgrow.length_le)
  obtain ⟨-, hI⟩ := hI
  rcases hI with ⟨tr, qs, h1, h2, h3, h4, -⟩ | ⟨tr, p, pc, h1, h2, -⟩ | ⟨tr, pc, h1, h2, h3, h4, h5, h6, h7, ws, k1, k2⟩
  · cases hb : s.bg with
    | covering pc => rw [hb] at h3; exact h3.elim
    | sleeping =>
      refine one tr s.ws h4 List.prefix_rfl ?_
      rw [hdrop]; unfold ShapedSys.Bound; simp only [hb]
    | trying =>
      refine one tr s.ws h4 List.prefix_rfl ?_
      rw [hdrop]; unfold ShapedSys.Bound; simp only [hb]
    | checking => exact .inl (still List.prefix_rfl (by simp [hb]) (by simp [hb]) (by simp [hb]))
    | finished => exact .inl (still List.prefix_rfl (by simp [hb]) (by simp [hb]) (by simp [hb]))
    | panicked => exact .inl (still List.prefix_rfl (by simp [hb]) (by simp [hb]) (by simp [hb]))
  · rw [hidle] at h2; cases h2
  · refine one tr ws k1 k2 ?_
    rw [hdrop]; unfold ShapedSys.Bound; simp only [h2]
    obtain ⟨ws', l1, l2⟩ := h6.append_inv
    obtain ⟨ws2, l3, l4⟩ := l2.cons_inv
    have e1 : ws' = ws := by
      unfold Serial at l1 k1
      rw [l1] at k1
      exact (Prod.mk.inj k1).1
    subst e1
    have l3 : (ws'.cover .sync P prof).1 = ws2 := congrArg Prod.fst l3
    unfold Serial at l4
    simp only [List.map_nil, runOne, Prod.mk.injEq, and_true] at l4
    rw [l3, l4]

/-- The parts of a state on which the decoy thread depends. -/
def ShapedSys.core (s : ShapedSys R) : WriterState R × Option Tid × Bool × Bool × BgPc :=
  (s.ws, s.owner, s.poisoned, s.shutdown, s.bg)

theorem ShapedSys.core_step {s t : ShapedSys R} (h : s.core = t.core) :
    (s.step P prof .bg).core = (t.step P prof .bg).core := by
  obtain ⟨ws, owner, poisoned, shutdown, app, bg, reader, called, returned, reads0⟩ := s
  obtain ⟨ws', owner', poisoned', shutdown', app', bg', reader', called', returned', reads0'⟩ := t
  simp only [ShapedSys.core, Prod.mk.injEq] at h
  obtain ⟨rfl, rfl, rfl, rfl, rfl⟩ := h
  cases bg with
  | trying =>
    cases owner with
    | some t => rfl
    | none => cases poisoned <;> rfl
  | covering pc => cases pc <;> rfl
  | _ => rfl

theorem ShapedSys.core_run (ls : List SysLabel) {s t : ShapedSys R} (hc : s.Closing)
    (h : s.core = t.core) :
    (s.run P prof ls).core = (t.run P prof (List.replicate (ls.count .bg) .bg)).core := by
  induction ls generalizing s t with
  | nil => exact h
  | cons l ls ih =>
    by_cases hl : l = .bg
    · subst hl
      rw [List.count_cons_self, List.replicate_succ]
      exact ih (hc.step .bg) (ShapedSys.core_step h)
    · rw [List.count_cons_of_ne (by simpa using hl)]
      refine ih (hc.step l) ?_
      rw [← h]
      obtain ⟨h1, h2, h3, h4, h5⟩ := hc.other (P := P) (prof := prof) hl
      simp only [ShapedSys.core, h1, h2, h3, h4, h5.1, hc.1]

theorem ShapedSys.ended_bg {s : ShapedSys R} (h : s.bg.ended) : s.step P prof .bg = s := by
  show s.bgStep P prof = s
  cases hb : s.bg with
  | finished => simp [ShapedSys.bgStep, hb]
  | panicked => simp [ShapedSys.bgStep, hb]
  | _ => rw [hb] at h; exact h.elim

theorem ShapedSys.ended_run {s : ShapedSys R} (h : s.bg.ended) (n : Nat) :
    s.run P prof (List.replicate n .bg) = s := by
  induction n with
  | zero => rfl
  | succ n ih =>
    rw [List.replicate_succ]
    show (s.step P prof .bg).run P prof _ = s
    rw [ShapedSys.ended_bg h]; exact ih

/-- The thread ends when it is given enough steps. -/
theorem ShapedSys.Closing.ends {s : ShapedSys R} (h : s.Closing) :
    ∃ n, (s.run P prof (List.replicate n .bg)).bg.ended := by
  have check : ∀ t : ShapedSys R, t.Closing → t.bg = .checking →
      ∃ n, (t.run P prof (List.replicate n .bg)).bg.ended := by
    intro t ht hb
    refine ⟨1, ?_⟩
    show (t.bgStep P prof).bg.ended
    simp [ShapedSys.bgStep, hb, ht.1, BgPc.ended]
  have cover : ∀ (t : ShapedSys R) pc, t.Closing → t.bg = .covering pc →
      ∃ n, (t.run P prof (List.replicate n .bg)).bg.ended := by
    intro t pc ht hb
    obtain ⟨n, hn⟩ := JobPc.ends (P := P) (prof := prof) .sync t.ws pc
    obtain ⟨m, -, hm⟩ := ShapedSys.bg_finishes n t pc _ _ hb hn
    generalize ht1 : t.run P prof (List.replicate m .bg) = t1 at hm
    have hc1 : t1.Closing := by rw [hm]; exact ht
    have hstep : t1.step P prof .bg = _ := ShapedSys.bg_unlocks (s := t1) (P := P) (prof := prof)
      (r := (pc.finish .sync P prof t.ws).2) (by rw [hm])
    have hrun : ∀ k, t.run P prof (List.replicate (m + (k + 1)) .bg) =
        (t1.step P prof .bg).run P prof (List.replicate k .bg) := by
      intro k
      rw [← List.replicate_append_replicate, ShapedSys.run_append, ht1]
      rfl
    by_cases hr : (pc.finish .sync P prof t.ws).2 = .panic
    · refine ⟨m + 1, ?_⟩
      rw [hrun 0, hstep]
      simp [ShapedSys.run, hr, BgPc.ended]
    · obtain ⟨k, hk⟩ := check (t1.step P prof .bg) (hc1.step .bg) (by rw [hstep]; simp [hr])
      exact ⟨m + (k + 1), by rw [hrun k]; exact hk⟩
  have later : ∀ t : ShapedSys R, (∃ n, ((t.step P prof .bg).run P prof (List.replicate n .bg)).bg.ended) →
      ∃ n, (t.run P prof (List.replicate n .bg)).bg.ended := by
    rintro t ⟨n, hn⟩
    exact ⟨n + 1, by rw [List.replicate_succ]; exact hn⟩
  have trying : ∀ t : ShapedSys R, t.Closing → t.bg = .trying →
      ∃ n, (t.run P prof (List.replicate n .bg)).bg.ended := by
    intro t ht hb
    refine later t ?_
    have hc := ht.step (P := P) (prof := prof) .bg
    cases ho : t.owner with
    | some x =>
      have : t.step P prof .bg = { t with bg := .checking } := ShapedSys.bg_blocked hb ho
      exact check _ hc (by rw [this])
    | none =>
      cases hp : t.poisoned with
      | true =>
        have : t.step P prof .bg = { t with bg := .checking } := ShapedSys.bg_poisoned hb ho hp
        exact check _ hc (by rw [this])
      | false =>
        have : t.step P prof .bg = _ := ShapedSys.bg_locks (P := P) (prof := prof) hb ho hp
        exact cover _ (.start .cover) hc (by rw [this])
  cases hb : s.bg with
  | checking => exact check s h hb
  | sleeping =>
    refine later s (trying _ (h.step .bg) ?_)
    show (s.bgStep P prof).bg = .trying
    simp [ShapedSys.bgStep, hb]
  | trying => exact trying s h hb
  | covering pc => exact cover s pc h hb
  | finished => exact ⟨0, by simp [ShapedSys.run, hb, BgPc.ended]⟩
  | panicked => exact ⟨0, by simp [ShapedSys.run, hb, BgPc.ended]⟩

/-- C40, thread: it terminates.  After the drop there is a number `n` such that whatever else happens, the
thread has ended once it has been given `n` steps; and then `drop` returns. -/
theorem C40_threads_terminates {s0 : ShapedSys R} (ls1 : List SysLabel)
    (hidle : (s0.run P prof ls1).app = .idle) :
    ∃ n, ∀ ls2, n ≤ ls2.count .bg →
      ((s0.run P prof (ls1 ++ .drop :: ls2)).bg = .finished ∨
        (s0.run P prof (ls1 ++ .drop :: ls2)).bg = .panicked) ∧
      (s0.run P prof (ls1 ++ .drop :: (ls2 ++ [.app]))).app = .gone := by
  simp only [ShapedSys.run_append]
  generalize s0.run P prof ls1 = s at hidle ⊢
  have hcl : (s.step P prof .drop).Closing := by
    have : s.step P prof .drop = { s with app := .joining, shutdown := true } := by
      simp [ShapedSys.step, hidle]
    rw [this]; exact ⟨rfl, .inl rfl⟩
  obtain ⟨n, hn⟩ := hcl.ends (P := P) (prof := prof)
  refine ⟨n, ?_⟩
  intro ls2 hle
  have hbg : ((s.step P prof .drop).run P prof ls2).bg.ended := by
    have h1 := ShapedSys.core_run (P := P) (prof := prof) ls2 hcl rfl
    have h2 : ((s.step P prof .drop).run P prof ls2).bg =
        ((s.step P prof .drop).run P prof (List.replicate (ls2.count .bg) .bg)).bg := by
      simp only [ShapedSys.core, Prod.mk.injEq] at h1
      exact h1.2.2.2.2
    obtain ⟨k, hk⟩ := Nat.exists_eq_add_of_le hle
    rw [h2, hk, ← List.replicate_append_replicate, ShapedSys.run_append, ShapedSys.ended_run hn]
    exact hn
  have hcl2 : ((s.step P prof .drop).run P prof ls2).Closing := by
    have : ∀ (ls : List SysLabel) (t : ShapedSys R), t.Closing → (t.run P prof ls).Closing := by
      intro ls
      induction ls with
      | nil => intro t ht; exact ht
      | cons l ls ih => intro t ht; exact ih _ (ht.step l)
    exact this ls2 _ hcl
  have hend : ((s.step P prof .drop).run P prof ls2).bg = .finished ∨
      ((s.step P prof .drop).run P prof ls2).bg = .panicked := by
    cases hb : ((s.step P prof .drop).run P prof ls2).bg with
    | finished => exact .inl rfl
    | panicked => exact .inr rfl
    | _ => rw [hb] at hbg; exact hbg.elim
  refine ⟨hend, ?_⟩
  show ((s.step P prof .drop).run P prof (ls2 ++ [.app])).app = .gone
  rw [ShapedSys.run_append]
  generalize (s.step P prof .drop).run P prof ls2 = t at hend hcl2
  show (t.appStep P prof).app = .gone
  rcases hcl2.2 with ha | ha
  · simp [ShapedSys.appStep, ha, hend]
  · simp [ShapedSys.appStep, ha]

/-- Non-vacuity: the writer is dropped while the thread is in the middle of a decoy's packet; 22 bytes
are on the wire when `drop` returns, 5 of them from before. -/
example :
    let s0 : ShapedSys listRng := .init
      ⟨⟨sampleIn, ⟨[], false, []⟩⟩, ⟨sampleOut, ⟨[.accept 5], [], []⟩⟩⟩ ⟨⟨.random, .random⟩, [99, 2, 99, 2, 99, 2]⟩ []
    let ls1 := List.replicate 6 SysLabel.bg
    let ls2 := [SysLabel.app, .bg, .bg, .read, .bg, .bg, .bg, .app, .bg, .bg]
    (s0.run toy .debug ls1).app = .idle ∧
      (s0.run toy .debug ls1).ws.writer.writer.out.length = 5 ∧
      (s0.run toy .debug (ls1 ++ .drop :: ls2)).ws.writer.writer.out.length = 22 ∧
      (s0.run toy .debug (ls1 ++ .drop :: ls2)).bg = .finished ∧
      (s0.run toy .debug (ls1 ++ .drop :: (ls2 ++ [.app]))).app = .gone := by
  decide +kernel

/-! ## The task -/

/-- C40 is false for the task: it never ends (except by a panic), whatever happens. -/
theorem C40_task_never_ends {s0 : AsyncShapedSys R} (h0 : s0.Fresh) (ls : List AsyncLabel) :
    (s0.run P prof ls).task ≠ .finished :=
  (h0.inv.run ls).not_finished

/-- A tick and enough steps: one cover job. -/
theorem AsyncShapedSys.tick_job {s : AsyncShapedSys R} {a : Bool} {ws : WriterState R}
    (ht : s.task = .select a false) (hx : s.ws.cover .async P prof = (ws, .ok ())) :
    ∃ m, s.run P prof (.tick :: List.replicate m .task) = { s with ws, task := .select false false } := by
  have h1 : s.step P prof .tick = { s with task := .covering (.start .cover) } := by
    simp [AsyncShapedSys.step, ht]
  obtain ⟨n, hn⟩ := JobPc.ends (P := P) (prof := prof) .async s.ws (.start .cover)
  have hf : (JobPc.start .cover).finish .async P prof s.ws = (ws, .ok ()) := hx
  rw [hf] at hn
  obtain ⟨m, -, hm⟩ := AsyncShapedSys.task_finishes n { s with task := .covering (.start .cover) }
    .covering (.inl rfl) (.start .cover) ws (.ok ()) rfl hn
  refine ⟨m + 1, ?_⟩
  show (s.step P prof .tick).run P prof (List.replicate (m + 1) .task) = _
  rw [h1, List.replicate_succ', AsyncShapedSys.run_append, hm]
  rfl

/-- A random number generator that always gives the largest value. -/
def greedyRng : Rng where
  State := Unit
  range s lo hi := (s, max lo hi)
  range_mem s lo hi h := by simp only; omega
  fill s n := (s, zeros n)
  fill_length s n := by simp [zeros]

/-- The task sends `n` decoys in a row with `n` ticks, if nobody else does anything. -/
theorem AsyncShapedSys.decoys_in_row (hP : Lawful P) {kL kP : Bytes} (n : Nat) {c : Nat}
    {s : AsyncShapedSys greedyRng} (ht : s.task = .select false false)
    (hcfg : s.ws.shaper.config.decoy = .random) (hw : s.ws.writer.writer.Reliable false)
    (hat : OutboundCipher.At P kL kP c s.ws.writer.cipher) (hn : c + n < 2 ^ 32) :
    ∃ ls o pkts, (∀ l ∈ ls, l = AsyncLabel.tick ∨ l = .task) ∧ ls.count .tick = n ∧
      Sent P prof s.ws.writer.cipher (List.replicate n (.decoy (zeros 1024))) o pkts ∧
      (s.run P prof ls).caller = s.caller ∧
      (s.run P prof ls).ws.writer.writer.out = s.ws.writer.writer.out ++ pkts := by
  induction n generalizing c s with
  | zero =>
    exact ⟨[], s.ws.writer.cipher, [], by simp, rfl, .nil _, rfl, by simp [AsyncShapedSys.run]⟩
  | succ n ih =>
    have hdecoy : s.ws.shaper.decoy = (s.ws.shaper, some (.decoy (zeros 1024)), [1024]) := by
      unfold Shaper.decoy
      rw [hcfg]
      rfl
    have hv : (Payload.decoy (zeros 1024)).view = some (.decoy, zeros 1024) := rfl
    obtain ⟨o', pk, h1, h2⟩ : ∃ o' pk, OutboundCipher.At P kL kP (c + 1) o' ∧
        s.ws.writer.cipher.encryptToVec P prof (zeros 1024) .decoy none = (o', .ok pk) := by
      obtain ⟨o', h1, h2⟩ := hat.encryptToVec (prof := prof) hP (by omega) (zeros 1024) .decoy none
      exact ⟨o', _, h1, h2⟩
    cases hx : s.ws.writer.write .async P prof (.decoy (zeros 1024)) with
    | mk w r =>
    have hr := (write_reliable (f := .async) hw hx)
    have hok : r = .ok () ∧ w.cipher = o' := by
      have hx' := hx
      rw [Writer.write_eq .async s.ws.writer hv, h2] at hx'
      cases hs : s.ws.writer.writer.send Flavour.async.retry pk with
      | mk w' y =>
      simp only [hs] at hx'
      cases y with
      | error k =>
        simp only [Prod.mk.injEq] at hx'
        rcases hr.1 with e | e <;> rw [← hx'.2] at e <;> cases e
      | ok u =>
        simp only [Prod.mk.injEq] at hx'
        exact ⟨hx'.2.symm, by rw [← hx'.1]⟩
    obtain ⟨rfl, hcw⟩ := hok
    obtain ⟨b, k1, k2⟩ := write_sent hx
    have hcov : s.ws.cover .async P prof = (⟨w, s.ws.shaper, s.ws.recorded ++ [1024]⟩, .ok ()) := by
      unfold WriterState.cover
      rw [hdecoy]
      simp only [hx]
    obtain ⟨m, hm⟩ := AsyncShapedSys.tick_job ht hcov
    obtain ⟨ls, o, pkts, l1, l0, l2, l3, l4⟩ := ih (c := c + 1)
      (s := { s with ws := ⟨w, s.ws.shaper, s.ws.recorded ++ [1024]⟩, task := .select false false })
      rfl hcfg hr.2 (by simp only; rw [hcw]; exact h1) (by omega)
    refine ⟨(.tick :: List.replicate m .task) ++ ls, o, b ++ pkts, ?_, ?_, ?_, ?_, ?_⟩
    · intro l hl
      rcases List.mem_append.1 hl with hl | hl
      · rcases List.mem_cons.1 hl with rfl | hl
        · exact .inl rfl
        · exact .inr (List.eq_of_mem_replicate hl)
      · exact l1 l hl
    · rw [List.count_append, l0, List.count_cons, List.count_replicate]
      simp; omega
    · rw [List.replicate_succ]
      exact k1.append l2
    · rw [AsyncShapedSys.run_append, hm]; exact l3
    · rw [AsyncShapedSys.run_append, hm, l4]
      simp only [k2, List.append_assoc]

/-- C40 is false for the task: after the drop it goes on sending decoys without end.  For every number
`n` (of packets the cipher can still send) it can send `n` more whole decoys. -/
theorem C40_task_counterexample (hP : Lawful P) {s0 : AsyncShapedSys greedyRng} (h0 : s0.Fresh)
    (hcfg : s0.ws.shaper.config.decoy = .random) (hw : s0.ws.writer.writer.Reliable false)
    {kL kP : Bytes} {c : Nat} (hat : OutboundCipher.At P kL kP c s0.ws.writer.cipher) (n : Nat)
    (hn : c + n < 2 ^ 32) :
    ∃ ls o pkts, (∀ l ∈ ls, l = AsyncLabel.tick ∨ l = .task) ∧ ls.count .tick = n ∧
      Sent P prof s0.ws.writer.cipher (List.replicate n (.decoy (zeros 1024))) o pkts ∧
      (s0.run P prof (.drop :: ls)).caller = .gone ∧
      (s0.run P prof (.drop :: ls)).ws.writer.writer.out = s0.ws.writer.writer.out ++ pkts := by
  have hdrop : s0.step P prof .drop = { s0 with caller := .gone, closed := true } := by
    simp [AsyncShapedSys.step, h0.caller]
  obtain ⟨ls, o, pkts, l1, l0, l2, l3, l4⟩ := AsyncShapedSys.decoys_in_row (prof := prof) hP n
    (s := s0.step P prof .drop) (by rw [hdrop]; exact h0.task)
    (by rw [hdrop]; exact hcfg) (by rw [hdrop]; exact hw) (by rw [hdrop]; exact hat) hn
  rw [hdrop] at l2
  refine ⟨ls, o, pkts, l1, l0, l2, ?_, ?_⟩
  · show ((s0.step P prof .drop).run P prof ls).caller = .gone
    rw [l3, hdrop]
  · show ((s0.step P prof .drop).run P prof ls).ws.writer.writer.out = _
    rw [l4, hdrop]

/-- Non-vacuity: three more decoys of 1044 bytes each. -/
example : ∃ ls, (∀ l ∈ ls, l = AsyncLabel.tick ∨ l = .task) ∧
    let s0 : AsyncShapedSys greedyRng := .init
      ⟨⟨sampleIn, ⟨[], 0, []⟩, .initReadingLength⟩, ⟨sampleOut, ⟨[], [], []⟩⟩⟩ ⟨⟨.disabled, .random⟩, ()⟩ []
    (s0.run toy .debug (.drop :: ls)).caller = .gone ∧
      (s0.run toy .debug (.drop :: ls)).ws.writer.writer.out.length = 3132 := by
  refine ⟨.tick :: List.replicate 8 .task ++ .tick :: List.replicate 8 .task ++
    .tick :: List.replicate 8 .task, by decide +kernel, by decide +kernel, by decide +kernel⟩

/-- After the drop, without decoys and without queued writes, the task only waits. -/
def AsyncShapedSys.Idling (last : Bytes) (s : AsyncShapedSys R) : Prop :=
  s.ws.writer.writer.out = last ∧ s.ws.shaper.config.decoy = .disabled ∧ s.queue = [] ∧ s.caller = .gone ∧
    ((∃ a b, s.task = .select a b) ∨ s.task = .covering (.start .cover) ∨
      s.task = .covering (.done (.ok ())) ∨ s.task = .finished)

theorem AsyncShapedSys.Idling.step {last : Bytes} {s : AsyncShapedSys R} (h : s.Idling last)
    (l : AsyncLabel) : (s.step P prof l).Idling last := by
  obtain ⟨⟨w, ⟨cfg, rng⟩, rec⟩, queue, closed, answers, task, caller, reader, called, returned, reads⟩ := s
  obtain ⟨h1, h2, h3, h4, h5⟩ := h
  simp only at h1 h2 h3 h4 h5
  obtain ⟨pd, dc⟩ := cfg
  simp only at h2
  subst h2 h3 h4
  cases l with
  | call p => exact ⟨h1, rfl, rfl, rfl, h5⟩
  | resume => exact ⟨h1, rfl, rfl, rfl, h5⟩
  | cancel => exact ⟨h1, rfl, rfl, rfl, h5⟩
  | drop => exact ⟨h1, rfl, rfl, rfl, h5⟩
  | read => exact ⟨h1, rfl, rfl, rfl, h5⟩
  | recv =>
    rcases h5 with ⟨a, b, rfl⟩ | rfl | rfl | rfl
    · cases a
      · cases closed <;> exact ⟨h1, rfl, rfl, rfl, .inl ⟨_, _, rfl⟩⟩
      · exact ⟨h1, rfl, rfl, rfl, .inl ⟨_, _, rfl⟩⟩
    · exact ⟨h1, rfl, rfl, rfl, .inr (.inl rfl)⟩
    · exact ⟨h1, rfl, rfl, rfl, .inr (.inr (.inl rfl))⟩
    · exact ⟨h1, rfl, rfl, rfl, .inr (.inr (.inr rfl))⟩
  | tick =>
    rcases h5 with ⟨a, b, rfl⟩ | rfl | rfl | rfl
    · cases b
      · exact ⟨h1, rfl, rfl, rfl, .inr (.inl rfl)⟩
      · exact ⟨h1, rfl, rfl, rfl, .inl ⟨_, _, rfl⟩⟩
    · exact ⟨h1, rfl, rfl, rfl, .inr (.inl rfl)⟩
    · exact ⟨h1, rfl, rfl, rfl, .inr (.inr (.inl rfl))⟩
    · exact ⟨h1, rfl, rfl, rfl, .inr (.inr (.inr rfl))⟩
  | otherwise =>
    rcases h5 with ⟨a, b, rfl⟩ | rfl | rfl | rfl
    · cases a <;> cases b
      · exact ⟨h1, rfl, rfl, rfl, .inl ⟨_, _, rfl⟩⟩
      · exact ⟨h1, rfl, rfl, rfl, .inl ⟨_, _, rfl⟩⟩
      · exact ⟨h1, rfl, rfl, rfl, .inl ⟨_, _, rfl⟩⟩
      · exact ⟨h1, rfl, rfl, rfl, .inr (.inr (.inr rfl))⟩
    · exact ⟨h1, rfl, rfl, rfl, .inr (.inl rfl)⟩
    · exact ⟨h1, rfl, rfl, rfl, .inr (.inr (.inl rfl))⟩
    · exact ⟨h1, rfl, rfl, rfl, .inr (.inr (.inr rfl))⟩
  | task =>
    rcases h5 with ⟨a, b, rfl⟩ | rfl | rfl | rfl
    · exact ⟨h1, rfl, rfl, rfl, .inl ⟨_, _, rfl⟩⟩
    · exact ⟨h1, rfl, rfl, rfl, .inr (.inr (.inl rfl))⟩
    · exact ⟨h1, rfl, rfl, rfl, .inl ⟨_, _, rfl⟩⟩
    · exact ⟨h1, rfl, rfl, rfl, .inr (.inr (.inr rfl))⟩

/-- C40, task, what is left of it: a writer without decoys, dropped when nothing is queued and the task is
not in the middle of a job, sends nothing more.  (The task still does not end: `C40_task_never_ends`.) -/
theorem C40_task_partial {s0 : AsyncShapedSys R} (ls1 ls2 : List AsyncLabel) {a b : Bool}
    (hcfg : (s0.run P prof ls1).ws.shaper.config.decoy = .disabled)
    (hq : (s0.run P prof ls1).queue = []) (hidle : (s0.run P prof ls1).caller = .idle)
    (ht : (s0.run P prof ls1).task = .select a b) :
    (s0.run P prof (ls1 ++ .drop :: ls2)).ws.writer.writer.out =
      (s0.run P prof ls1).ws.writer.writer.out := by
  rw [AsyncShapedSys.run_append]
  generalize s0.run P prof ls1 = s at *
  have hdrop : s.step P prof .drop = { s with caller := .gone, closed := true } := by
    simp [AsyncShapedSys.step, hidle]
  have h : (s.step P prof .drop).Idling s.ws.writer.writer.out := by
    rw [hdrop]
    exact ⟨rfl, hcfg, hq, rfl, .inl ⟨a, b, ht⟩⟩
  have main : ∀ (ls : List AsyncLabel) (t : AsyncShapedSys R), t.Idling s.ws.writer.writer.out →
      (t.run P prof ls).ws.writer.writer.out = s.ws.writer.writer.out := by
    intro ls
    induction ls with
    | nil => intro t ht; exact ht.1
    | cons l ls ih => intro t ht; exact ih _ (ht.step l)
  exact main ls2 _ h

/-- Non-vacuity of `C40_task_partial`: a write, then the drop. -/
example :
    let s0 : AsyncShapedSys listRng := .init
      ⟨⟨sampleIn, ⟨[], 0, []⟩, .initReadingLength⟩, ⟨sampleOut, ⟨[], [], []⟩⟩⟩ ⟨⟨.disabled, .disabled⟩, []⟩ []
    let s := s0.run toy .debug ([.call (.genuine [1, 2]), .recv] ++ List.replicate 12 .task ++ [.resume])
    s.ws.shaper.config.decoy = .disabled ∧ s.queue = [] ∧ s.caller = .idle ∧ s.task = .select false false ∧
      s.ws.writer.writer.out.length = 22 := by
  exact ⟨by decide +kernel, by decide +kernel, by decide +kernel, by decide +kernel, by decide +kernel⟩

end Bip324
