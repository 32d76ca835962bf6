import Verif.Props.Shutdown

/-!
# C51: the lock of the shaped writer (`traffic/src/io.rs`)

Mutual exclusion, poisoning, and progress of a `write` that competes with the decoy thread.
-/

namespace Bip324

variable {P : Prims} {prof : Profile} {R : Rng}

/-! ## Mutual exclusion -/

theorem ShapedSys.Inv.owners {ws0 : WriterState R} {s : ShapedSys R} (h : s.Inv P prof ws0) :
    (s.owner = some .app ↔ ∃ p pc, s.app = .writing p pc) ∧
    (s.owner = some .bg ↔ ∃ pc, s.bg = .covering pc) := by
  have af : s.app.free → ¬ ∃ p pc, s.app = .writing p pc := by
    rintro h ⟨p, pc, e⟩; rw [e] at h; exact h
  have bf : s.bg.free → ¬ ∃ pc, s.bg = .covering pc := by
    rintro h ⟨pc, e⟩; rw [e] at h; exact h
  rcases h.2 with ⟨tr, qs, h1, h2, h3, -⟩ | ⟨tr, p, pc, h1, h2, h3, -⟩ | ⟨tr, pc, h1, h2, h3, -⟩
  · exact ⟨⟨fun h => (by rw [h1] at h; cases h), fun h => absurd h (af h2)⟩,
      ⟨fun h => (by rw [h1] at h; cases h), fun h => absurd h (bf h3)⟩⟩
  · exact ⟨⟨fun _ => ⟨p, pc, h2⟩, fun _ => h1⟩,
      ⟨fun h => (by rw [h1] at h; cases h), fun h => absurd h (bf h3)⟩⟩
  · exact ⟨⟨fun h => (by rw [h1] at h; cases h), fun h => absurd h (af h3)⟩,
      ⟨fun _ => ⟨pc, h2⟩, fun _ => h1⟩⟩

/-- A step that changes the writer or the shaper is one of a thread inside its critical section. -/
theorem ShapedSys.step_ws (s : ShapedSys R) (l : SysLabel) :
    (s.step P prof l).ws = s.ws ∨ (l = .app ∧ ∃ p pc, s.app = .writing p pc) ∨
      (l = .bg ∧ ∃ pc, s.bg = .covering pc) := by
  obtain ⟨ws, owner, poisoned, shutdown, app, bg, reader, called, returned, reads0⟩ := s
  cases l with
  | call p => cases app <;> exact .inl rfl
  | drop => cases app <;> exact .inl rfl
  | read => exact .inl rfl
  | app =>
    cases app with
    | idle => exact .inl rfl
    | locking p =>
      cases owner with
      | some t => exact .inl rfl
      | none => cases poisoned <;> exact .inl rfl
    | writing p pc => exact .inr (.inl ⟨rfl, p, pc, rfl⟩)
    | joining => cases bg <;> exact .inl rfl
    | gone => exact .inl rfl
  | bg =>
    cases bg with
    | covering pc => exact .inr (.inr ⟨rfl, pc, rfl⟩)
    | trying =>
      cases owner with
      | some t => exact .inl rfl
      | none => cases poisoned <;> exact .inl rfl
    | _ => exact .inl rfl

/-- C51: the two threads are never in their critical sections together, the mutex says who is, and only
the thread that holds it changes the writer or the shaper. -/
theorem C51_exclusion {s0 : ShapedSys R} (h0 : s0.Fresh) (ls : List SysLabel) :
    ((s0.run P prof ls).owner = some .app ↔ ∃ p pc, (s0.run P prof ls).app = .writing p pc) ∧
    ((s0.run P prof ls).owner = some .bg ↔ ∃ pc, (s0.run P prof ls).bg = .covering pc) ∧
    ¬ ((∃ p pc, (s0.run P prof ls).app = .writing p pc) ∧ ∃ pc, (s0.run P prof ls).bg = .covering pc) ∧
    ∀ l, ((s0.run P prof ls).step P prof l).ws ≠ (s0.run P prof ls).ws →
      (l = .app ∧ (s0.run P prof ls).owner = some .app) ∨ (l = .bg ∧ (s0.run P prof ls).owner = some .bg) := by
  obtain ⟨ha, hb⟩ := (h0.inv.run (P := P) (prof := prof) ls).owners
  refine ⟨ha, hb, ?_, ?_⟩
  · rintro ⟨h1, h2⟩
    have := ha.2 h1
    rw [hb.2 h2] at this
    cases this
  · intro l hl
    rcases ShapedSys.step_ws (P := P) (prof := prof) (s0.run P prof ls) l with h | ⟨rfl, h⟩ | ⟨rfl, h⟩
    · exact absurd h hl
    · exact .inl ⟨rfl, ha.2 h⟩
    · exact .inr ⟨rfl, hb.2 h⟩

/-! ## Poisoning -/

/-- Poisoned and not held. -/
def ShapedSys.Poisoned (s : ShapedSys R) : Prop :=
  s.poisoned = true ∧ s.owner = none ∧ s.app.free ∧ s.bg.free

theorem ShapedSys.Inv.poisoned {ws0 : WriterState R} {s : ShapedSys R} (h : s.Inv P prof ws0)
    (hp : s.poisoned = true) : s.Poisoned := by
  rcases h.2 with ⟨tr, qs, h1, h2, h3, -⟩ | ⟨tr, p, pc, -, -, -, h4, -⟩ | ⟨tr, pc, -, -, -, h4, -⟩
  · exact ⟨hp, h1, h2, h3⟩
  · rw [hp] at h4; cases h4
  · rw [hp] at h4; cases h4

theorem ShapedSys.Poisoned.step {s : ShapedSys R} (h : s.Poisoned) (l : SysLabel) :
    (s.step P prof l).Poisoned ∧ (s.step P prof l).ws = s.ws ∧
      ∃ more, (s.step P prof l).returned = s.returned ++ more ∧ ∀ x ∈ more, x.2 = .panic := by
  obtain ⟨ws, owner, poisoned, shutdown, app, bg, reader, called, returned, reads0⟩ := s
  obtain ⟨h1, h2, h3, h4⟩ := h
  simp only at h1 h2 h3 h4
  subst h1 h2
  have same : returned = returned ++ [] ∧ ∀ x ∈ ([] : List (Payload × Outcome ProtocolError Unit)),
      x.2 = .panic := by simp
  cases l with
  | call p => cases app <;> exact ⟨⟨rfl, rfl, h3, h4⟩, rfl, [], same⟩
  | drop => cases app <;> exact ⟨⟨rfl, rfl, h3, h4⟩, rfl, [], same⟩
  | read => exact ⟨⟨rfl, rfl, h3, h4⟩, rfl, [], same⟩
  | app =>
    cases app with
    | idle => exact ⟨⟨rfl, rfl, h3, h4⟩, rfl, [], same⟩
    | locking p => exact ⟨⟨rfl, rfl, trivial, h4⟩, rfl, [(p, .panic)], rfl, by simp⟩
    | writing p pc => exact h3.elim
    | joining => cases bg <;> exact ⟨⟨rfl, rfl, h3, h4⟩, rfl, [], same⟩
    | gone => exact ⟨⟨rfl, rfl, h3, h4⟩, rfl, [], same⟩
  | bg =>
    cases bg with
    | covering pc => exact h4.elim
    | checking => cases shutdown <;> exact ⟨⟨rfl, rfl, h3, trivial⟩, rfl, [], same⟩
    | _ => exact ⟨⟨rfl, rfl, h3, h4⟩, rfl, [], same⟩

theorem ShapedSys.Poisoned.run (ls : List SysLabel) : ∀ {s : ShapedSys R}, s.Poisoned →
    (s.run P prof ls).Poisoned ∧ (s.run P prof ls).ws = s.ws ∧
      ∃ more, (s.run P prof ls).returned = s.returned ++ more ∧ ∀ x ∈ more, x.2 = .panic := by
  induction ls with
  | nil => intro s h; exact ⟨h, rfl, [], by simp [ShapedSys.run], by simp⟩
  | cons l ls ih =>
    intro s h
    obtain ⟨h1, h2, m1, h3, h4⟩ := h.step (P := P) (prof := prof) l
    obtain ⟨k1, k2, m2, k3, k4⟩ := ih h1
    refine ⟨k1, k2.trans h2, m1 ++ m2, ?_, ?_⟩
    · show (ShapedSys.run P prof (s.step P prof l) ls).returned = _
      rw [k3, h3, List.append_assoc]
    · intro x hx
      rcases List.mem_append.1 hx with hx | hx
      · exact h4 x hx
      · exact k4 x hx

/-- C51: the mutex is poisoned exactly when a `write` or a decoy has panicked inside the critical section.
From then on nothing is ever written or drawn from the shaper, by either thread, and every `write` that
returns panics. -/
theorem C51_poisoned {s0 : ShapedSys R} (h0 : s0.Fresh) (ls ls' : List SysLabel)
    (hp : (s0.run P prof ls).poisoned = true) :
    (s0.run P prof (ls ++ ls')).poisoned = true ∧
    (s0.run P prof (ls ++ ls')).ws = (s0.run P prof ls).ws ∧
    ∃ more, (s0.run P prof (ls ++ ls')).returned = (s0.run P prof ls).returned ++ more ∧
      ∀ x ∈ more, x.2 = .panic := by
  obtain ⟨h1, h2, h3⟩ := ShapedSys.Poisoned.run (P := P) (prof := prof) ls' ((h0.inv.run ls).poisoned hp)
  have e : s0.run P prof (ls ++ ls') = (s0.run P prof ls).run P prof ls' := by
    simp [ShapedSys.run, List.foldl_append]
  rw [e]
  exact ⟨h1.1, h2, h3⟩

/-- C51: why the mutex is poisoned: with the lock free, what happened is a sequence of writes and decoys, one
of which has panicked if and only if the mutex is poisoned; the calls beyond that sequence are those that found it
poisoned. -/
theorem C51_poison_cause {s0 : ShapedSys R} (h0 : s0.Fresh) (ls : List SysLabel)
    (hfree : (s0.run P prof ls).owner = none) :
    ∃ tr dead, Serial .sync P prof s0.ws tr (s0.run P prof ls).ws ∧
      (s0.run P prof ls).returned = writesOf tr ++ List.map (fun p => (p, Outcome.panic)) dead ∧
      ((s0.run P prof ls).poisoned = true ↔ ∃ x ∈ tr, x.2 = .panic) ∧
      ((s0.run P prof ls).poisoned = false → dead = []) := by
  rcases (h0.inv.run (P := P) (prof := prof) ls).2 with
    ⟨tr, qs, h1, h2, h3, h4, h5, h6, h7, -⟩ | ⟨tr, p, pc, h1, -⟩ | ⟨tr, pc, h1, -⟩
  · exact ⟨tr, qs, h4, h5, h6, h7⟩
  · rw [hfree] at h1; cases h1
  · rw [hfree] at h1; cases h1

/-- C51: in a poisoned state a `write` does not hang: it panics at once. -/
theorem C51_poisoned_call {s0 : ShapedSys R} (h0 : s0.Fresh) (ls : List SysLabel) (p : Payload)
    (hp : (s0.run P prof ls).poisoned = true) (hi : (s0.run P prof ls).app = .idle) :
    (s0.run P prof (ls ++ [.call p, .app])).returned = (s0.run P prof ls).returned ++ [(p, .panic)] ∧
    (s0.run P prof (ls ++ [.call p, .app])).app = .idle := by
  have h := (h0.inv.run (P := P) (prof := prof) ls).poisoned hp
  have e : s0.run P prof (ls ++ [.call p, .app]) =
      ((s0.run P prof ls).step P prof (.call p)).step P prof .app := by
    simp [ShapedSys.run, List.foldl_append]
  rw [e]
  generalize s0.run P prof ls = s at h hi
  obtain ⟨ws, owner, poisoned, shutdown, app, bg, reader, called, returned, reads0⟩ := s
  obtain ⟨h1, h2, h3, h4⟩ := h
  simp only at h1 h2 hi
  subst h1 h2 hi
  exact ⟨rfl, rfl⟩

/-! ## Progress -/

theorem ShapedSys.step_returned (s : ShapedSys R) (l : SysLabel) :
    ∃ more, (s.step P prof l).returned = s.returned ++ more := by
  obtain ⟨ws, owner, poisoned, shutdown, app, bg, reader, called, returned, reads0⟩ := s
  have same : ∃ more, returned = returned ++ more := ⟨[], by simp⟩
  cases l with
  | call p => cases app <;> exact same
  | drop => cases app <;> exact same
  | read => exact same
  | app =>
    cases app with
    | idle => exact same
    | locking p =>
      cases owner with
      | some t => exact same
      | none => cases poisoned <;> first | exact same | exact ⟨_, rfl⟩
    | writing p pc => cases pc <;> first | exact same | exact ⟨_, rfl⟩
    | joining => cases bg <;> exact same
    | gone => exact same
  | bg =>
    cases bg with
    | covering pc => cases pc <;> exact same
    | trying =>
      cases owner with
      | some t => exact same
      | none => cases poisoned <;> exact same
    | _ => exact same

theorem ShapedSys.run_returned (ls : List SysLabel) : ∀ (s : ShapedSys R),
    ∃ more, (s.run P prof ls).returned = s.returned ++ more := by
  induction ls with
  | nil => intro s; exact ⟨[], by simp [ShapedSys.run]⟩
  | cons l ls ih =>
    intro s
    obtain ⟨m1, h1⟩ := ShapedSys.step_returned (P := P) (prof := prof) s l
    obtain ⟨m2, h2⟩ := ih (s.step P prof l)
    exact ⟨m1 ++ m2, by
      show (ShapedSys.run P prof (s.step P prof l) ls).returned = _
      rw [h2, h1, List.append_assoc]⟩

/-- The application is in its critical section with that much done. -/
def ShapedSys.AppAt (s : ShapedSys R) (p : Payload) (x : WriterState R × JobPc) : Prop :=
  s.owner = some .app ∧ s.app = .writing p x.2 ∧ s.ws = x.1 ∧ s.bg.free

/-- Other steps change nothing for the application while it holds the lock. -/
theorem ShapedSys.AppAt.other {s : ShapedSys R} {p : Payload} {x : WriterState R × JobPc} (h : s.AppAt p x)
    {l : SysLabel} (hl : l ≠ .app) :
    (s.step P prof l).AppAt p x ∧ (s.step P prof l).returned = s.returned := by
  obtain ⟨ws, owner, poisoned, shutdown, app, bg, reader, called, returned, reads0⟩ := s
  obtain ⟨h1, h2, h3, h4⟩ := h
  simp only at h1 h2 h3 h4
  subst h1 h2 h3
  cases l with
  | app => exact absurd rfl hl
  | call p => exact ⟨⟨rfl, rfl, rfl, h4⟩, rfl⟩
  | drop => exact ⟨⟨rfl, rfl, rfl, h4⟩, rfl⟩
  | read => exact ⟨⟨rfl, rfl, rfl, h4⟩, rfl⟩
  | bg =>
    cases bg with
    | covering pc => exact h4.elim
    | checking => cases shutdown <;> exact ⟨⟨rfl, rfl, rfl, trivial⟩, rfl⟩
    | _ => exact ⟨⟨rfl, rfl, rfl, trivial⟩, rfl⟩

theorem ShapedSys.AppAt.app {s : ShapedSys R} {p : Payload} {x : WriterState R × JobPc} (h : s.AppAt p x) :
    (∃ r, x.2 = .done r ∧ (s.step P prof .app).returned = s.returned ++ [(p, r)]) ∨
    ((s.step P prof .app).AppAt p (x.2.step .sync P prof x.1) ∧ (s.step P prof .app).returned = s.returned) := by
  obtain ⟨h1, h2, h3, h4⟩ := h
  obtain ⟨ws, pc⟩ := x
  simp only at h2 h3
  rcases pc.done_or with ⟨r, rfl⟩ | hd
  · refine .inl ⟨r, rfl, ?_⟩
    show (s.appStep P prof).returned = _
    rw [ShapedSys.app_returns h2]
  · refine .inr ?_
    show (s.appStep P prof).AppAt _ _ ∧ (s.appStep P prof).returned = _
    rw [ShapedSys.app_writes h2 hd]
    exact ⟨⟨h1, by rw [h3], by rw [h3], h4⟩, rfl⟩

theorem ShapedSys.AppAt.completes (r : Outcome ProtocolError Unit) (ls : List SysLabel) :
    ∀ (n : Nat) {s : ShapedSys R} {p : Payload} {x : WriterState R × JobPc}, s.AppAt p x →
    (JobPc.steps .sync P prof n x).2 = .done r → n + 1 ≤ ls.count .app →
    ∃ more, (s.run P prof ls).returned = s.returned ++ (p, r) :: more := by
  induction ls with
  | nil => intro n s p x h hd hn; simp at hn
  | cons l ls ih =>
    intro n s p x h hd hn
    by_cases hl : l = .app
    · subst hl
      rw [List.count_cons_self] at hn
      rcases h.app (P := P) (prof := prof) with ⟨r', hr, he⟩ | ⟨h', he⟩
      · -- it returns now
        have : r' = r := by
          have : ∀ (n : Nat) (x : WriterState R × JobPc), x.2 = .done r' →
              (JobPc.steps .sync P prof n x).2 = .done r' := by
            intro n
            induction n with
            | zero => intro x hx; exact hx
            | succ n ih => intro x hx; rw [JobPc.steps]; exact ih _ (by rw [hx]; rfl)
          rw [this n x hr] at hd
          cases hd; rfl
        subst this
        obtain ⟨more, hm⟩ := ShapedSys.run_returned (P := P) (prof := prof) ls (s.step P prof .app)
        exact ⟨more, by
          show (ShapedSys.run P prof (s.step P prof .app) ls).returned = _
          rw [hm, he, List.append_assoc]; rfl⟩
      · cases n with
        | zero =>
          exfalso
          have hx : x.2 = .done r := hd
          have h2 := h'.2.1
          -- a finished job does not go on
          have : (s.step P prof .app).app = .idle := by
            show (s.appStep P prof).app = _
            rw [ShapedSys.app_returns (by rw [h.2.1, hx])]
          rw [this] at h2; cases h2
        | succ n =>
          obtain ⟨more, hm⟩ := ih n h' hd (by omega)
          exact ⟨more, by
            show (ShapedSys.run P prof (s.step P prof .app) ls).returned = _
            rw [hm, he]⟩
    · have hc : (l :: ls).count SysLabel.app = ls.count .app := by
        rw [List.count_cons]; simp [hl]
      rw [hc] at hn
      obtain ⟨h', he⟩ := h.other (P := P) (prof := prof) hl
      obtain ⟨more, hm⟩ := ih n h' hd hn
      exact ⟨more, by
        show (ShapedSys.run P prof (s.step P prof l) ls).returned = _
        rw [hm, he]⟩

/-- C51: a `write` that has the lock returns after finitely many steps of its own thread, whatever the
other threads do in between, and with the result of the undisturbed write. -/
theorem C51_completes {s0 : ShapedSys R} (h0 : s0.Fresh) (ls : List SysLabel) {p : Payload} {pc : JobPc}
    (ha : (s0.run P prof ls).app = .writing p pc) :
    ∃ n, ∀ ls', n ≤ ls'.count .app → ∃ more, (s0.run P prof (ls ++ ls')).returned =
      (s0.run P prof ls).returned ++ (p, (pc.finish .sync P prof (s0.run P prof ls).ws).2) :: more := by
  have hi := h0.inv.run (P := P) (prof := prof) ls
  have e : ∀ ls', s0.run P prof (ls ++ ls') = (s0.run P prof ls).run P prof ls' := by
    intro ls'; simp [ShapedSys.run, List.foldl_append]
  simp only [e]
  generalize s0.run P prof ls = s at ha hi
  have hat : s.AppAt p (s.ws, pc) := by
    rcases hi.2 with ⟨tr, qs, h1, h2, -⟩ | ⟨tr, p', pc', h1, h2, h3, -⟩ | ⟨tr, pc', -, -, h3, -⟩
    · rw [ha] at h2; exact h2.elim
    · rw [ha] at h2; cases h2; exact ⟨h1, ha, rfl, h3⟩
    · rw [ha] at h3; exact h3.elim
  obtain ⟨n, hn⟩ := JobPc.ends (P := P) (prof := prof) .sync s.ws pc
  exact ⟨n + 1, fun ls' hc => hat.completes _ ls' n (by rw [hn]) hc⟩

/-- The decoy thread is in its critical section with that much done. -/
def ShapedSys.BgAt (s : ShapedSys R) (x : WriterState R × JobPc) : Prop :=
  s.owner = some .bg ∧ s.bg = .covering x.2 ∧ s.ws = x.1

/-- While the decoy thread holds the lock, a waiting application keeps waiting. -/
theorem ShapedSys.BgAt.other {s : ShapedSys R} {x : WriterState R × JobPc} {p : Payload} (h : s.BgAt x)
    (ha : s.app = .locking p) {l : SysLabel} (hl : l ≠ .bg) :
    (s.step P prof l).BgAt x ∧ (s.step P prof l).app = .locking p := by
  obtain ⟨ws, owner, poisoned, shutdown, app, bg, reader, called, returned, reads0⟩ := s
  obtain ⟨h1, h2, h3⟩ := h
  simp only at h1 h2 h3 ha
  subst h1 h2 h3 ha
  cases l with
  | bg => exact absurd rfl hl
  | _ => exact ⟨⟨rfl, rfl, rfl⟩, rfl⟩

theorem ShapedSys.BgAt.releases (ls : List SysLabel) : ∀ (n : Nat) {s : ShapedSys R}
    {x : WriterState R × JobPc} {p : Payload} {r : Outcome ProtocolError Unit}, s.BgAt x →
    s.app = .locking p → (JobPc.steps .sync P prof n x).2 = .done r → n + 1 ≤ ls.count .bg →
    ∃ a b, ls = a ++ b ∧ (s.run P prof a).owner = none ∧ (s.run P prof a).app = .locking p := by
  induction ls with
  | nil => intro n s x p r h ha hd hn; simp at hn
  | cons l ls ih =>
    intro n s x p r h ha hd hn
    have step : ∀ {s' : ShapedSys R}, s' = s.step P prof l →
        (∃ a b, ls = a ++ b ∧ (s'.run P prof a).owner = none ∧ (s'.run P prof a).app = .locking p) →
        ∃ a b, l :: ls = a ++ b ∧ (s.run P prof a).owner = none ∧ (s.run P prof a).app = .locking p := by
      rintro s' rfl ⟨a, b, h1, h2, h3⟩
      exact ⟨l :: a, b, by rw [h1]; rfl, h2, h3⟩
    by_cases hl : l = .bg
    · subst hl
      rw [List.count_cons_self] at hn
      obtain ⟨h1, h2, h3⟩ := h
      obtain ⟨ws, pc⟩ := x
      simp only at h2 h3
      rcases pc.done_or with ⟨r', rfl⟩ | hnd
      · refine ⟨[.bg], ls, rfl, ?_, ?_⟩
        · show (s.bgStep P prof).owner = none
          rw [ShapedSys.bg_unlocks h2]
        · show (s.bgStep P prof).app = _
          rw [ShapedSys.bg_unlocks h2]; exact ha
      · have hs : s.step P prof .bg = s.bgStep P prof := rfl
        rw [ShapedSys.bg_writes h2 hnd] at hs
        cases n with
        | zero => exact absurd hd (hnd r)
        | succ n =>
          exact step hs.symm (ih n (x := pc.step .sync P prof ws) (r := r)
            ⟨h1, by rw [h3], by rw [h3]⟩ ha hd (by omega))
    · have hc : (l :: ls).count SysLabel.bg = ls.count .bg := by
        rw [List.count_cons]; simp [hl]
      rw [hc] at hn
      obtain ⟨h', ha'⟩ := h.other (P := P) (prof := prof) ha hl
      exact step rfl (ih n h' ha' hd hn)

/-- C51: when the decoy thread has the lock and the application waits for it, the lock is free again, with
the application still first in line, after finitely many steps of the decoy thread, in every schedule. -/
theorem C51_releases {s0 : ShapedSys R} (h0 : s0.Fresh) (ls : List SysLabel) {p : Payload} {pc : JobPc}
    (hb : (s0.run P prof ls).bg = .covering pc) (ha : (s0.run P prof ls).app = .locking p) :
    ∃ n, ∀ ls', n ≤ ls'.count .bg → ∃ a b, ls' = a ++ b ∧ (s0.run P prof (ls ++ a)).owner = none ∧
      (s0.run P prof (ls ++ a)).app = .locking p := by
  have ho := ((h0.inv.run (P := P) (prof := prof) ls).owners.2).2 ⟨pc, hb⟩
  have e : ∀ ls', s0.run P prof (ls ++ ls') = (s0.run P prof ls).run P prof ls' := by
    intro ls'; simp [ShapedSys.run, List.foldl_append]
  simp only [e]
  generalize s0.run P prof ls = s at ha hb ho
  obtain ⟨n, hn⟩ := JobPc.ends (P := P) (prof := prof) .sync s.ws pc
  exact ⟨n + 1, fun ls' hc => ShapedSys.BgAt.releases ls' n ⟨ho, hb, rfl⟩ ha (by rw [hn]) hc⟩

/-- C51: no deadlock.  From every state in which a `write` has begun, steps of the decoy thread followed
by steps of the application's thread make it return. -/
theorem C51_no_deadlock {s0 : ShapedSys R} (h0 : s0.Fresh) (ls : List SysLabel) {p : Payload}
    (ha : (s0.run P prof ls).app.inflight = [p]) :
    ∃ m n r, (s0.run P prof (ls ++ List.replicate m .bg ++ List.replicate n .app)).returned =
      (s0.run P prof ls).returned ++ [(p, r)] := by
  have hi := h0.inv.run (P := P) (prof := prof) ls
  have e : ∀ a b, s0.run P prof (ls ++ a ++ b) = ((s0.run P prof ls).run P prof a).run P prof b := by
    intro a b; simp [ShapedSys.run, List.foldl_append]
  simp only [e]
  generalize s0.run P prof ls = s at ha hi
  -- with the lock in hand
  have held : ∀ {t : ShapedSys R} {x : WriterState R × JobPc} (n : Nat) {r : Outcome ProtocolError Unit},
      t.AppAt p x → (JobPc.steps .sync P prof n x).2 = .done r →
      ∃ k r, (t.run P prof (List.replicate k .app)).returned = t.returned ++ [(p, r)] := by
    intro t x n
    induction n generalizing t x with
    | zero =>
      intro r h hd
      refine ⟨1, r, ?_⟩
      show (t.appStep P prof).returned = _
      rw [ShapedSys.app_returns (by rw [h.2.1]; exact congrArg _ hd)]
    | succ n ih =>
      intro r h hd
      rcases h.app (P := P) (prof := prof) with ⟨r', hr, he⟩ | ⟨h', he⟩
      · exact ⟨1, r', he⟩
      · obtain ⟨k, r, hk⟩ := ih h' hd
        exact ⟨k + 1, r, by rw [← he, ← hk]; rfl⟩
  -- with the lock free
  have free : ∀ {t : ShapedSys R}, t.app = .locking p → t.owner = none → t.bg.free →
      ∃ k r, (t.run P prof (List.replicate k .app)).returned = t.returned ++ [(p, r)] := by
    intro t h1 h2 h3
    cases hp : t.poisoned with
    | true =>
      refine ⟨1, .panic, ?_⟩
      show (t.appStep P prof).returned = _
      rw [ShapedSys.app_poisoned h1 h2 hp]
    | false =>
      obtain ⟨n, hn⟩ := JobPc.ends (P := P) (prof := prof) .sync t.ws (.start (.write p))
      have hl := ShapedSys.app_locks (P := P) (prof := prof) h1 h2 hp
      obtain ⟨k, r, hk⟩ := held (t := t.appStep P prof) (x := (t.ws, .start (.write p))) n
        (by rw [hl]; exact ⟨rfl, rfl, rfl, h3⟩) (by rw [hn])
      refine ⟨k + 1, r, ?_⟩
      show ((t.appStep P prof).run P prof (List.replicate k .app)).returned = _
      rw [hk, hl]
  cases hap : s.app with
  | idle => rw [hap] at ha; cases ha
  | joining => rw [hap] at ha; cases ha
  | gone => rw [hap] at ha; cases ha
  | writing p' pc =>
    rw [hap] at ha
    cases ha
    refine ⟨0, ?_⟩
    obtain ⟨n, hn⟩ := JobPc.ends (P := P) (prof := prof) .sync s.ws pc
    refine held (x := (s.ws, pc)) n ?_ (by rw [hn])
    rcases hi.2 with ⟨tr, qs, -, h2, -⟩ | ⟨tr, p', pc', h1, h2, h3, -⟩ | ⟨tr, pc', -, -, h3, -⟩
    · rw [hap] at h2; exact h2.elim
    · rw [hap] at h2; cases h2; exact ⟨h1, hap, rfl, h3⟩
    · rw [hap] at h3; exact h3.elim
  | locking p' =>
    rw [hap] at ha
    cases ha
    rcases hi.2 with ⟨tr, qs, h1, -, h3, -⟩ | ⟨tr, p', pc', -, h2, -⟩ | ⟨tr, pc, h1, h2, -⟩
    · exact ⟨0, free hap h1 h3⟩
    · rw [hap] at h2; cases h2
    · have rel : ∀ (n : Nat) {t : ShapedSys R} {x : WriterState R × JobPc} {r : Outcome ProtocolError Unit},
          t.BgAt x → t.app = .locking p → (JobPc.steps .sync P prof n x).2 = .done r →
          ∃ m, (t.run P prof (List.replicate m .bg)).owner = none ∧
            (t.run P prof (List.replicate m .bg)).bg.free ∧
            (t.run P prof (List.replicate m .bg)).app = .locking p ∧
            (t.run P prof (List.replicate m .bg)).returned = t.returned := by
        intro n
        induction n with
        | zero =>
          intro t x r h h' hd
          have hd' : x.2 = .done r := hd
          have hb := h.2.1
          rw [hd'] at hb
          refine ⟨1, ?_, ?_, ?_, ?_⟩
          · show (t.bgStep P prof).owner = _
            rw [ShapedSys.bg_unlocks hb]
          · show (t.bgStep P prof).bg.free
            rw [ShapedSys.bg_unlocks hb]
            by_cases hr : r = .panic <;> simp [hr, BgPc.free]
          · show (t.bgStep P prof).app = _
            rw [ShapedSys.bg_unlocks hb]; exact h'
          · show (t.bgStep P prof).returned = _
            rw [ShapedSys.bg_unlocks hb]
        | succ n ih =>
          intro t x r h h' hd
          rcases x.2.done_or with ⟨r', hr⟩ | hnd
          · have hb := h.2.1
            rw [hr] at hb
            refine ⟨1, ?_, ?_, ?_, ?_⟩
            · show (t.bgStep P prof).owner = _
              rw [ShapedSys.bg_unlocks hb]
            · show (t.bgStep P prof).bg.free
              rw [ShapedSys.bg_unlocks hb]
              by_cases hr : r' = .panic <;> simp [hr, BgPc.free]
            · show (t.bgStep P prof).app = _
              rw [ShapedSys.bg_unlocks hb]; exact h'
            · show (t.bgStep P prof).returned = _
              rw [ShapedSys.bg_unlocks hb]
          · have hw := ShapedSys.bg_writes (P := P) (prof := prof) h.2.1 hnd
            obtain ⟨m, k1, k2, k3, k4⟩ := ih (t := t.bgStep P prof) (x := x.2.step .sync P prof x.1) (r := r)
              (by rw [hw]; exact ⟨h.1, by rw [h.2.2], by rw [h.2.2]⟩) (by rw [hw]; exact h') hd
            refine ⟨m + 1, k1, k2, k3, ?_⟩
            show ((t.bgStep P prof).run P prof (List.replicate m .bg)).returned = _
            rw [k4, hw]
      obtain ⟨n, hn⟩ := JobPc.ends (P := P) (prof := prof) .sync s.ws pc
      obtain ⟨m, k1, k2, k3, k4⟩ := rel n (t := s) (x := (s.ws, pc)) ⟨h1, h2, rfl⟩ hap (by rw [hn])
      obtain ⟨k, r, hk⟩ := free k3 k1 k2
      exact ⟨m, k, r, by rw [hk, k4]⟩

/-- C51: a `write` may have to wait for the lock as long as the scheduler wants: the decoy thread can take it
again and again, even if it never has a decoy to send.  (In the code it sleeps in between.) -/
theorem C51_starvation_counterexample {s0 : ShapedSys R} (h0 : s0.Fresh) (hs : s0.shutdown = false)
    (hc : s0.ws.shaper.config.decoy = .disabled) (p : Payload) (n : Nat) :
    ∃ ls, n ≤ ls.count SysLabel.app ∧ n ≤ ls.count .bg ∧ (∀ l ∈ ls, l = .app ∨ l = .bg) ∧
      (s0.run P prof (.call p :: ls)).returned = [] ∧ (s0.run P prof (.call p :: ls)).app = .locking p := by
  have round : ∀ t : ShapedSys R, t.app = .locking p → t.owner = none → t.poisoned = false → t.bg = .checking →
      t.shutdown = false → t.ws.shaper.config.decoy = .disabled →
      let u := t.run P prof [.bg, .bg, .bg, .app, .bg, .bg]
      u.app = .locking p ∧ u.owner = none ∧ u.poisoned = false ∧ u.bg = .checking ∧ u.shutdown = false ∧
        u.ws.shaper.config.decoy = .disabled ∧ u.returned = t.returned := by
    intro t h1 h2 h3 h4 h5 h6
    obtain ⟨⟨writer, ⟨⟨pad, dec⟩, g⟩, rec⟩, owner, poisoned, shutdown, app, bg, reader, called, returned, reads0⟩ := t
    simp only at h1 h2 h3 h4 h5 h6
    subst h1 h2 h3 h4 h5 h6
    exact ⟨rfl, rfl, rfl, rfl, rfl, rfl, rfl⟩
  have rounds : ∀ (n : Nat) (t : ShapedSys R), t.app = .locking p → t.owner = none → t.poisoned = false →
      t.bg = .checking → t.shutdown = false → t.ws.shaper.config.decoy = .disabled →
      ∃ ls, n ≤ ls.count SysLabel.app ∧ n ≤ ls.count .bg ∧ (∀ l ∈ ls, l = .app ∨ l = .bg) ∧
        (t.run P prof ls).returned = t.returned ∧ (t.run P prof ls).app = .locking p := by
    intro n
    induction n with
    | zero => intro t h1 _ _ _ _ _; exact ⟨[], by simp, by simp, by simp, rfl, h1⟩
    | succ n ih =>
      intro t h1 h2 h3 h4 h5 h6
      obtain ⟨k1, k2, k3, k4, k5, k6, k7⟩ := round t h1 h2 h3 h4 h5 h6
      obtain ⟨ls, m1, m2, m3, m4, m5⟩ := ih _ k1 k2 k3 k4 k5 k6
      refine ⟨[.bg, .bg, .bg, .app, .bg, .bg] ++ ls, ?_, ?_, ?_, ?_, ?_⟩
      · rw [List.count_append, show List.count SysLabel.app [.bg, .bg, .bg, .app, .bg, .bg] = 1 from rfl]; omega
      · rw [List.count_append, show List.count SysLabel.bg [.bg, .bg, .bg, .app, .bg, .bg] = 5 from rfl]; omega
      · intro l hl
        rcases List.mem_append.1 hl with hl | hl
        · simp at hl; rcases hl with rfl | h
          · simp
          · exact h
        · exact m3 l hl
      · show (ShapedSys.run P prof (t.run P prof [.bg, .bg, .bg, .app, .bg, .bg]) ls).returned = _
        rw [m4, k7]
      · exact m5
  have hcall : s0.step P prof (.call p) = { s0 with app := .locking p, called := s0.called ++ [p] } := by
    simp only [ShapedSys.step, h0.app]
  obtain ⟨ls, m1, m2, m3, m4, m5⟩ := rounds n (s0.step P prof (.call p)) (by rw [hcall])
    (by rw [hcall]; exact h0.owner) (by rw [hcall]; exact h0.poisoned) (by rw [hcall]; exact h0.bg)
    (by rw [hcall]; exact hs) (by rw [hcall]; exact hc)
  refine ⟨ls, m1, m2, m3, ?_, m5⟩
  show (ShapedSys.run P prof (s0.step P prof (.call p)) ls).returned = _
  rw [m4, hcall]
  exact h0.returned

/-! ## Non-vacuity -/

/-- Who is in the critical section. -/
def ShapedSys.inside (s : ShapedSys R) : Bool × Bool :=
  (match s.app with | .writing _ _ => true | _ => false, match s.bg with | .covering _ => true | _ => false)

/-- The application waits while the decoy thread has the lock; later it has the lock itself. -/
example :
    sampleSys.Fresh ∧
    (sampleSys.run toy .debug (sampleSchedule.take 6)).app = .locking (.genuine [1, 2, 3]) ∧
    (sampleSys.run toy .debug (sampleSchedule.take 6)).inside = (false, true) ∧
    (sampleSys.run toy .debug (sampleSchedule.take 20)).app.inflight = [.genuine [1, 2, 3]] ∧
    (sampleSys.run toy .debug (sampleSchedule.take 20)).inside = (true, false) :=
  ⟨ShapedSys.init_fresh _ _ _, by decide +kernel, by decide +kernel, by decide +kernel, by decide +kernel⟩

/-- A writer that has sent `2^32 - 1` packets: the next one makes the length cipher panic while the lock is
held.  The `write` after that panics too, with nothing sent, and the writer can still be dropped. -/
example :
    let s0 : ShapedSys listRng := .init ⟨⟨sampleIn, ⟨[], false, []⟩⟩,
      ⟨⟨⟨leBytes 32 77, 0, 2 ^ 32 - 1⟩, FSAead.new (leBytes 32 99)⟩, ⟨[], [], [9]⟩⟩⟩ ⟨⟨.disabled, .disabled⟩, []⟩ []
    let s := s0.run toy .debug ([.call (.genuine [1])] ++ List.replicate 6 .app ++ [.call (.genuine [7]), .app])
    s0.Fresh ∧ s.poisoned = true ∧ s.returned = [(.genuine [1], .panic), (.genuine [7], .panic)] ∧ s.app = .idle ∧
      s.ws.writer.writer.out = [9] ∧ (s.run toy .debug [.drop, .bg, .app]).app = .gone :=
  ⟨ShapedSys.init_fresh _ _ _, by decide +kernel, by decide +kernel, by decide +kernel, by decide +kernel,
    by decide +kernel⟩

end Bip324
