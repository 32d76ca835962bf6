import Verif.Lemmas.Traffic

/-! # The threads of `traffic/src/io.rs`: every schedule is a sequence of whole jobs -/

namespace Bip324

variable {P : Prims} {prof : Profile} {R : Rng}

/-- The jobs of `tr`, executed one after the other without interruption, lead from `ws0` to `ws1` and
have the results noted in `tr`. -/
def Serial (f : Flavour) (P : Prims) (prof : Profile) (ws0 : WriterState R)
    (tr : List (Job × Outcome ProtocolError Unit)) (ws1 : WriterState R) : Prop :=
  runOne (WriterState.exec f P prof) ws0 (tr.map (·.1)) = (ws1, tr.map (·.2))

/-- The application's writes among the jobs. -/
def writesOf : List (Job × Outcome ProtocolError Unit) → List (Payload × Outcome ProtocolError Unit)
  | [] => []
  | (.write p, r) :: tr => (p, r) :: writesOf tr
  | (.cover, _) :: tr => writesOf tr

theorem writesOf_append (a b : List (Job × Outcome ProtocolError Unit)) :
    writesOf (a ++ b) = writesOf a ++ writesOf b := by
  induction a with
  | nil => rfl
  | cons x a ih =>
    obtain ⟨j, r⟩ := x
    cases j <;> simp [writesOf, ih]

theorem Serial.nil (f : Flavour) (ws : WriterState R) : Serial f P prof ws [] ws := rfl

theorem Serial.snoc {f : Flavour} {ws0 ws : WriterState R} {tr : List (Job × Outcome ProtocolError Unit)}
    (h : Serial f P prof ws0 tr ws) (job : Job) :
    Serial f P prof ws0 (tr ++ [(job, (ws.exec f P prof job).2)]) (ws.exec f P prof job).1 := by
  unfold Serial at h ⊢
  simp only [List.map_append, List.map_cons, List.map_nil, runOne_append, h, runOne]

/-- Not holding the lock. -/
def AppPc.free : AppPc → Prop
  | .writing _ _ => False
  | _ => True

/-- Not holding the lock. -/
def BgPc.free : BgPc → Prop
  | .covering _ => False
  | _ => True

/-- The payload of a call that has not returned. -/
def AppPc.inflight : AppPc → List Payload
  | .locking p => [p]
  | .writing p _ => [p]
  | _ => []

/-- Nobody holds the lock. -/
def ShapedSys.Quiet (P : Prims) (prof : Profile) (ws0 : WriterState R) (s : ShapedSys R)
    (tr : List (Job × Outcome ProtocolError Unit)) (qs : List Payload) : Prop :=
  s.owner = none ∧ s.app.free ∧ s.bg.free ∧ Serial .sync P prof ws0 tr s.ws ∧
    s.returned = writesOf tr ++ qs.map (fun q => (q, .panic)) ∧
    (s.poisoned = true ↔ ∃ x ∈ tr, x.2 = .panic) ∧ (s.poisoned = false → qs = []) ∧
    (s.bg = .panicked → s.poisoned = true)

/-- The application holds the lock. -/
def ShapedSys.AppBusy (P : Prims) (prof : Profile) (ws0 : WriterState R) (s : ShapedSys R)
    (tr : List (Job × Outcome ProtocolError Unit)) (p : Payload) (pc : JobPc) : Prop :=
  s.owner = some .app ∧ s.app = .writing p pc ∧ s.bg.free ∧ s.poisoned = false ∧
    (∀ x ∈ tr, x.2 ≠ .panic) ∧
    Serial .sync P prof ws0 (tr ++ [(.write p, (pc.finish .sync P prof s.ws).2)])
      (pc.finish .sync P prof s.ws).1 ∧
    s.returned = writesOf tr ∧ s.bg ≠ .panicked

/-- The decoy thread holds the lock. -/
def ShapedSys.BgBusy (P : Prims) (prof : Profile) (ws0 : WriterState R) (s : ShapedSys R)
    (tr : List (Job × Outcome ProtocolError Unit)) (pc : JobPc) : Prop :=
  s.owner = some .bg ∧ s.bg = .covering pc ∧ s.app.free ∧ s.poisoned = false ∧
    (∀ x ∈ tr, x.2 ≠ .panic) ∧
    Serial .sync P prof ws0 (tr ++ [(.cover, (pc.finish .sync P prof s.ws).2)])
      (pc.finish .sync P prof s.ws).1 ∧
    s.returned = writesOf tr ∧
    ∃ ws, Serial .sync P prof ws0 tr ws ∧ ws.writer.writer.out <+: s.ws.writer.writer.out

/-- The invariant. -/
def ShapedSys.Inv (P : Prims) (prof : Profile) (ws0 : WriterState R) (s : ShapedSys R) : Prop :=
  s.called = s.returned.map (·.1) ++ s.app.inflight ∧
  ((∃ tr qs, s.Quiet P prof ws0 tr qs) ∨ (∃ tr p pc, s.AppBusy P prof ws0 tr p pc) ∨
    ∃ tr pc, s.BgBusy P prof ws0 tr pc)

/-- A system on which nothing has been done. -/
structure ShapedSys.Fresh (s : ShapedSys R) : Prop where
  owner : s.owner = none
  poisoned : s.poisoned = false
  app : s.app = .idle
  bg : s.bg = .checking
  called : s.called = []
  returned : s.returned = []

theorem ShapedSys.init_fresh (p : SyncProtocol) (sh : Shaper R) (rec : List Nat) :
    (ShapedSys.init p sh rec).Fresh := ⟨rfl, rfl, rfl, rfl, rfl, rfl⟩

theorem ShapedSys.Fresh.inv {s : ShapedSys R} (h : s.Fresh) : s.Inv P prof s.ws := by
  obtain ⟨h1, h2, h3, h4, h5, h6⟩ := h
  refine ⟨by simp [h5, h6, h3, AppPc.inflight], .inl ⟨[], [], h1, ?_, ?_, .nil _ _, ?_, ?_, ?_, ?_⟩⟩
  · simp [h3, AppPc.free]
  · simp [h4, BgPc.free]
  · simp [h6, writesOf]
  · simp [h2]
  · simp
  · simp [h4]

theorem ShapedSys.Inv.call {ws0 : WriterState R} {s : ShapedSys R} (h : s.Inv P prof ws0) (p : Payload) :
    (s.step P prof (.call p)).Inv P prof ws0 := by
  obtain ⟨hc, h⟩ := h
  unfold ShapedSys.step
  cases ha : s.app with
  | idle =>
    refine ⟨by simp [hc, ha, AppPc.inflight], ?_⟩
    rcases h with ⟨tr, qs, h1, h2, h3⟩ | ⟨tr, p, pc, -, h2, -⟩ | ⟨tr, pc, h1, h2, h3, h4⟩
    · exact .inl ⟨tr, qs, h1, trivial, h3⟩
    · rw [ha] at h2; cases h2
    · exact .inr (.inr ⟨tr, pc, h1, h2, trivial, h4⟩)
  | locking q => exact ⟨hc, h⟩
  | writing q pc => exact ⟨hc, h⟩
  | joining => exact ⟨hc, h⟩
  | gone => exact ⟨hc, h⟩

theorem ShapedSys.Inv.drop {ws0 : WriterState R} {s : ShapedSys R} (h : s.Inv P prof ws0) :
    (s.step P prof .drop).Inv P prof ws0 := by
  obtain ⟨hc, h⟩ := h
  unfold ShapedSys.step
  cases ha : s.app with
  | idle =>
    refine ⟨by simp [hc, ha, AppPc.inflight], ?_⟩
    rcases h with ⟨tr, qs, h1, h2, h3⟩ | ⟨tr, p, pc, -, h2, -⟩ | ⟨tr, pc, h1, h2, h3, h4⟩
    · exact .inl ⟨tr, qs, h1, trivial, h3⟩
    · rw [ha] at h2; cases h2
    · exact .inr (.inr ⟨tr, pc, h1, h2, trivial, h4⟩)
  | locking q => exact ⟨hc, h⟩
  | writing q pc => exact ⟨hc, h⟩
  | joining => exact ⟨hc, h⟩
  | gone => exact ⟨hc, h⟩

theorem ShapedSys.Inv.read {ws0 : WriterState R} {s : ShapedSys R} (h : s.Inv P prof ws0) :
    (s.step P prof .read).Inv P prof ws0 := by
  obtain ⟨hc, h⟩ := h
  exact ⟨hc, h⟩

theorem JobPc.done_or (pc : JobPc) : (∃ r, pc = .done r) ∨ ∀ r, pc ≠ .done r := by
  cases pc <;> simp

theorem flush_out (w : Sink) : w.flush.1.out = w.out := by
  unfold Sink.flush
  cases w.flushes with
  | nil => rfl
  | cons x fs => cases x <;> rfl

theorem WProc.step_out (f : Flavour) (w : Writer) (pc : WProc) :
    w.writer.out <+: (pc.step f P prof w).1.writer.out := by
  cases pc with
  | start p =>
    simp only [WProc.step]
    split
    · split <;> exact List.prefix_rfl
    · exact List.prefix_rfl
  | sending rest =>
    cases rest with
    | nil => exact List.prefix_rfl
    | cons b bs =>
      simp only [WProc.step]
      split
      · exact List.prefix_append _ _
      · exact List.prefix_rfl
      · split <;> exact List.prefix_rfl
      · exact List.prefix_rfl
      · exact List.prefix_append _ _
  | flushing =>
    have := flush_out w.writer
    simp only [WProc.step]
    cases hs : w.writer.flush with
    | mk s x =>
    rw [hs] at this
    cases x <;> exact ⟨[], by simp only [List.append_nil]; exact this.symm⟩
  | done r => exact List.prefix_rfl

theorem JobPc.step_out (f : Flavour) (ws : WriterState R) (pc : JobPc) :
    ws.writer.writer.out <+: (pc.step f P prof ws).1.writer.writer.out := by
  have hw := fun w => WProc.step_out (P := P) (prof := prof) f ws.writer w
  cases pc with
  | start job =>
    cases job with
    | write p =>
      simp only [JobPc.step]
      split <;> exact List.prefix_rfl
    | cover =>
      simp only [JobPc.step]
      split <;> exact List.prefix_rfl
  | padding w p =>
    cases w with
    | done r => cases r <;> exact List.prefix_rfl
    | start q => exact hw (.start q)
    | sending b => exact hw (.sending b)
    | flushing => exact hw .flushing
  | payload w =>
    cases w with
    | done r => exact List.prefix_rfl
    | start q => exact hw (.start q)
    | sending b => exact hw (.sending b)
    | flushing => exact hw .flushing
  | cover w =>
    cases w with
    | done r => exact List.prefix_rfl
    | start q => exact hw (.start q)
    | sending b => exact hw (.sending b)
    | flushing => exact hw .flushing
  | done r => exact List.prefix_rfl

/-! Equations of the steps. -/

theorem ShapedSys.app_blocked {s : ShapedSys R} {p : Payload} {t : Tid} (ha : s.app = .locking p)
    (ho : s.owner = some t) : s.appStep P prof = s := by
  simp [ShapedSys.appStep, ha, ho]

theorem ShapedSys.app_poisoned {s : ShapedSys R} {p : Payload} (ha : s.app = .locking p)
    (ho : s.owner = none) (hp : s.poisoned = true) :
    s.appStep P prof = { s with app := .idle, returned := s.returned ++ [(p, .panic)] } := by
  simp [ShapedSys.appStep, ha, ho, hp]

theorem ShapedSys.app_locks {s : ShapedSys R} {p : Payload} (ha : s.app = .locking p)
    (ho : s.owner = none) (hp : s.poisoned = false) :
    s.appStep P prof = { s with owner := some .app, app := .writing p (.start (.write p)) } := by
  simp [ShapedSys.appStep, ha, ho, hp]

theorem ShapedSys.app_returns {s : ShapedSys R} {p : Payload} {r : Outcome ProtocolError Unit}
    (ha : s.app = .writing p (.done r)) :
    s.appStep P prof = { s with
      owner := none, poisoned := s.poisoned || r == .panic, app := .idle,
      returned := s.returned ++ [(p, r)] } := by
  simp [ShapedSys.appStep, ha]

theorem ShapedSys.app_writes {s : ShapedSys R} {p : Payload} {pc : JobPc}
    (ha : s.app = .writing p pc) (hd : ∀ r, pc ≠ .done r) :
    s.appStep P prof = { s with
      ws := (pc.step .sync P prof s.ws).1,
      app := .writing p (pc.step .sync P prof s.ws).2 } := by
  cases pc with
  | done r => exact absurd rfl (hd r)
  | _ => simp [ShapedSys.appStep, ha]

theorem ShapedSys.app_joins {s : ShapedSys R} (ha : s.app = .joining) :
    s.appStep P prof = s ∨ (s.appStep P prof = { s with app := .gone } ∧
      (s.bg = .finished ∨ s.bg = .panicked)) := by
  by_cases h : s.bg = .finished ∨ s.bg = .panicked
  · exact .inr ⟨by simp [ShapedSys.appStep, ha, h], h⟩
  · exact .inl (by simp [ShapedSys.appStep, ha, h])

theorem ShapedSys.bg_blocked {s : ShapedSys R} {t : Tid} (hb : s.bg = .trying)
    (ho : s.owner = some t) : s.bgStep P prof = { s with bg := .checking } := by
  simp [ShapedSys.bgStep, hb, ho]

theorem ShapedSys.bg_poisoned {s : ShapedSys R} (hb : s.bg = .trying)
    (ho : s.owner = none) (hp : s.poisoned = true) : s.bgStep P prof = { s with bg := .checking } := by
  simp [ShapedSys.bgStep, hb, ho, hp]

theorem ShapedSys.bg_locks {s : ShapedSys R} (hb : s.bg = .trying)
    (ho : s.owner = none) (hp : s.poisoned = false) :
    s.bgStep P prof = { s with owner := some .bg, bg := .covering (.start .cover) } := by
  simp [ShapedSys.bgStep, hb, ho, hp]

theorem ShapedSys.bg_unlocks {s : ShapedSys R} {r : Outcome ProtocolError Unit}
    (hb : s.bg = .covering (.done r)) :
    s.bgStep P prof = { s with
      owner := none, poisoned := s.poisoned || r == .panic,
      bg := if r = .panic then .panicked else .checking } := by
  simp [ShapedSys.bgStep, hb]

theorem ShapedSys.bg_writes {s : ShapedSys R} {pc : JobPc} (hb : s.bg = .covering pc)
    (hd : ∀ r, pc ≠ .done r) :
    s.bgStep P prof = { s with
      ws := (pc.step .sync P prof s.ws).1,
      bg := .covering (pc.step .sync P prof s.ws).2 } := by
  cases pc with
  | done r => exact absurd rfl (hd r)
  | _ => simp [ShapedSys.bgStep, hb]

theorem ShapedSys.Inv.app {ws0 : WriterState R} {s : ShapedSys R} (h : s.Inv P prof ws0) :
    (s.step P prof .app).Inv P prof ws0 := by
  obtain ⟨hc, h⟩ := h
  show (s.appStep P prof).Inv P prof ws0
  cases ha : s.app with
  | idle =>
    have : s.appStep P prof = s := by simp [ShapedSys.appStep, ha]
    rw [this]; exact ⟨hc, h⟩
  | gone =>
    have : s.appStep P prof = s := by simp [ShapedSys.appStep, ha]
    rw [this]; exact ⟨hc, h⟩
  | joining =>
    rcases ShapedSys.app_joins (P := P) (prof := prof) ha with he | ⟨he, -⟩
    · rw [he]; exact ⟨hc, h⟩
    · rw [he]
      refine ⟨by simp [hc, ha, AppPc.inflight], ?_⟩
      rcases h with ⟨tr, qs, h1, h2, h3⟩ | ⟨tr, p, pc, -, h2, -⟩ | ⟨tr, pc, h1, h2, h3, h4⟩
      · exact .inl ⟨tr, qs, h1, trivial, h3⟩
      · rw [ha] at h2; cases h2
      · exact .inr (.inr ⟨tr, pc, h1, h2, trivial, h4⟩)
  | locking p =>
    cases ho : s.owner with
    | some t => rw [ShapedSys.app_blocked ha ho]; exact ⟨hc, h⟩
    | none =>
      rcases h with ⟨tr, qs, h1, h2, h3, h4, h5, h6, h7, h8⟩ | ⟨tr, p, pc, -, h2, -⟩ | ⟨tr, pc, h1, -⟩
      · cases hp : s.poisoned with
        | true =>
          rw [ShapedSys.app_poisoned ha ho hp]
          refine ⟨by simp [hc, ha, AppPc.inflight], .inl ⟨tr, qs ++ [p], ho, trivial, h3, h4, ?_, h6, ?_, h8⟩⟩
          · simp [h5]
          · intro h; simp only at h; rw [hp] at h; cases h
        | false =>
          rw [ShapedSys.app_locks ha ho hp]
          refine ⟨by simp [hc, ha, AppPc.inflight], .inr (.inl ⟨tr, p, .start (.write p), rfl, rfl, h3, hp, ?_, ?_, ?_, ?_⟩)⟩
          · intro x hx hp'
            have := h6.2 ⟨x, hx, hp'⟩
            rw [hp] at this; cases this
          · exact h4.snoc (.write p)
          · simp only [h5, h7 hp, List.map_nil, List.append_nil]
          · intro hb
            have := h8 hb
            rw [hp] at this; cases this
      · rw [ha] at h2; cases h2
      · rw [ho] at h1; cases h1
  | writing p pc =>
    rcases h with ⟨tr, qs, h1, h2, -⟩ | ⟨tr, p', pc', h1, h2, h3, h4, h5, h6, h7, h8⟩ | ⟨tr, pc', h1, h2, h3, -⟩
    · rw [ha] at h2; exact h2.elim
    · rw [ha] at h2
      cases h2
      rcases pc.done_or with ⟨r, rfl⟩ | hd
      · rw [ShapedSys.app_returns ha]
        refine ⟨by simp [hc, ha, AppPc.inflight], .inl ⟨tr ++ [(.write p, r)], [], rfl, trivial, h3, h6, ?_, ?_, fun _ => rfl, fun hb => absurd hb h8⟩⟩
        · simp [h7, writesOf_append, writesOf]
        · simp only [h4, Bool.false_or, beq_iff_eq, List.mem_append, List.mem_singleton]
          constructor
          · intro h; exact ⟨_, .inr rfl, h⟩
          · rintro ⟨x, hx | rfl, hr⟩
            · exact absurd hr (h5 x hx)
            · exact hr
      · rw [ShapedSys.app_writes ha hd]
        refine ⟨by simp [hc, ha, AppPc.inflight], .inr (.inl ⟨tr, p, _, h1, rfl, h3, h4, h5, ?_, h7, h8⟩)⟩
        simp only [JobPc.step_finish]
        exact h6
    · rw [ha] at h3; exact h3.elim

theorem ShapedSys.Inv.bg {ws0 : WriterState R} {s : ShapedSys R} (h : s.Inv P prof ws0) :
    (s.step P prof .bg).Inv P prof ws0 := by
  obtain ⟨hc, h⟩ := h
  show (s.bgStep P prof).Inv P prof ws0
  -- a step that moves the decoy thread to a place where it holds nothing and is not dead
  have move : ∀ b : BgPc, b.free → b ≠ .panicked → (∀ pc, s.bg ≠ .covering pc) →
      ShapedSys.Inv P prof ws0 { s with bg := b } := by
    intro b hb hnp hnc
    refine ⟨hc, ?_⟩
    rcases h with ⟨tr, qs, h1, h2, h3, h4, h5, h6, h7, h8⟩ | ⟨tr, p, pc, h1, h2, h3, h4, h5, h6, h7, h8⟩ |
      ⟨tr, pc, h1, h2, -⟩
    · exact .inl ⟨tr, qs, h1, h2, hb, h4, h5, h6, h7, fun h => absurd h hnp⟩
    · exact .inr (.inl ⟨tr, p, pc, h1, h2, hb, h4, h5, h6, h7, hnp⟩)
    · exact absurd h2 (hnc pc)
  cases hb : s.bg with
  | checking =>
    have : s.bgStep P prof = { s with bg := if s.shutdown then .finished else .sleeping } := by
      simp [ShapedSys.bgStep, hb]
    rw [this]
    cases s.shutdown
    · exact move .sleeping trivial (by simp) (by simp [hb])
    · exact move .finished trivial (by simp) (by simp [hb])
  | sleeping =>
    have : s.bgStep P prof = { s with bg := .trying } := by simp [ShapedSys.bgStep, hb]
    rw [this]
    exact move .trying trivial (by simp) (by simp [hb])
  | finished =>
    have : s.bgStep P prof = s := by simp [ShapedSys.bgStep, hb]
    rw [this]; exact ⟨hc, h⟩
  | panicked =>
    have : s.bgStep P prof = s := by simp [ShapedSys.bgStep, hb]
    rw [this]; exact ⟨hc, h⟩
  | trying =>
    cases ho : s.owner with
    | some t => rw [ShapedSys.bg_blocked hb ho]; exact move .checking trivial (by simp) (by simp [hb])
    | none =>
      cases hp : s.poisoned with
      | true => rw [ShapedSys.bg_poisoned hb ho hp]; exact move .checking trivial (by simp) (by simp [hb])
      | false =>
        rw [ShapedSys.bg_locks hb ho hp]
        rcases h with ⟨tr, qs, h1, h2, h3, h4, h5, h6, h7, h8⟩ | ⟨tr, p, pc, h1, -⟩ | ⟨tr, pc, h1, -⟩
        · refine ⟨hc, .inr (.inr ⟨tr, .start .cover, rfl, rfl, h2, hp, ?_, h4.snoc .cover, ?_, s.ws, h4, List.prefix_rfl⟩)⟩
          · intro x hx hp'
            have := h6.2 ⟨x, hx, hp'⟩
            rw [hp] at this; cases this
          · simp only [h5, h7 hp, List.map_nil, List.append_nil]
        · rw [ho] at h1; cases h1
        · rw [ho] at h1; cases h1
  | covering pc =>
    rcases h with ⟨tr, qs, h1, -, h2, -⟩ | ⟨tr, p', pc', h1, -, h2, -⟩ | ⟨tr, pc', h1, h2, h3, h4, h5, h6, h7, h8⟩
    · rw [hb] at h2; exact h2.elim
    · rw [hb] at h2; exact h2.elim
    · rw [hb] at h2
      cases h2
      rcases pc.done_or with ⟨r, rfl⟩ | hd
      · rw [ShapedSys.bg_unlocks hb]
        refine ⟨hc, .inl ⟨tr ++ [(.cover, r)], [], rfl, h3, ?_, h6, ?_, ?_, fun _ => rfl, ?_⟩⟩
        · simp only; split <;> trivial
        · simp [h7, writesOf_append, writesOf]
        · simp only [h4, Bool.false_or, beq_iff_eq, List.mem_append, List.mem_singleton]
          constructor
          · intro h; exact ⟨_, .inr rfl, h⟩
          · rintro ⟨x, hx | rfl, hr⟩
            · exact absurd hr (h5 x hx)
            · exact hr
        · simp only
          split
          · rename_i h; simp [h]
          · intro h; cases h
      · rw [ShapedSys.bg_writes hb hd]
        refine ⟨hc, .inr (.inr ⟨tr, _, h1, rfl, h3, h4, h5, ?_, h7, ?_⟩)⟩
        · simp only [JobPc.step_finish]
          exact h6
        · obtain ⟨ws, k1, k2⟩ := h8
          exact ⟨ws, k1, k2.trans (JobPc.step_out .sync s.ws pc)⟩

theorem ShapedSys.Inv.step {ws0 : WriterState R} {s : ShapedSys R} (h : s.Inv P prof ws0)
    (l : SysLabel) : (s.step P prof l).Inv P prof ws0 := by
  cases l with
  | call p => exact h.call p
  | drop => exact h.drop
  | app => exact h.app
  | bg => exact h.bg
  | read => exact h.read

theorem ShapedSys.Inv.run {ws0 : WriterState R} {s : ShapedSys R} (h : s.Inv P prof ws0)
    (ls : List SysLabel) : (s.run P prof ls).Inv P prof ws0 := by
  induction ls generalizing s with
  | nil => exact h
  | cons l ls ih => exact ih (h.step l)

end Bip324
