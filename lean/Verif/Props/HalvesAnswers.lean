import Verif.Props.Halves

/-!
# What a write makes of the answers of the transport: the rest of C69

C69 finds scripts with which the writes give the results that they gave.  Here: these results are what the transport said, call
by call.  An error of `write` or `flush` ends the call with this error; only a `flush` that succeeded makes it succeed.
-/

namespace Bip324

variable {P : Prims} {prof : Profile} {σ : Type} {fuel : Nat}

/-! ## Specification -/

/-- What a write at `w` becomes when the transport is in the state `net`, and what the transport becomes.  `retry`: an
interrupted call is made again. -/
def Answered (N : Conn σ) (retry : Bool) (net net' : σ) (w w' : WProc) : Prop :=
  (w = .flushing →
    (N.flush net = none → net' = net ∧ w' = w) ∧
    (∀ s, N.flush net = some (s, .ok ()) → net' = s ∧ w' = .done (.ok ())) ∧
    (∀ s k, N.flush net = some (s, .error k) → net' = s ∧ w' = .done (.err (.fromIo k)))) ∧
  (∀ rest, w = .sending rest → rest ≠ [] →
    (N.write net rest = none → net' = net ∧ w' = w) ∧
    (∀ s, N.write net rest = some (s, .ok 0) → net' = s ∧ w' = .done (.err (.fromIo .writeZero))) ∧
    (∀ s n, N.write net rest = some (s, .ok (n + 1)) → net' = s ∧ w' = .sending (rest.drop (n + 1))) ∧
    (∀ s k, N.write net rest = some (s, .error k) →
      net' = s ∧ w' = if retry = true ∧ k = .interrupted then w else .done (.err (.fromIo k))))

/-- The write that a job is at. -/
def JobPc.proc : JobPc → Option WProc
  | .padding w _ => some w
  | .payload w => some w
  | .cover w => some w
  | _ => none

/-- The write that a thread is at. -/
def ShapedSys.proc {R : Rng} (s : ShapedSys R) : SysLabel → Option WProc
  | .app => match s.app with
    | .writing _ pc => pc.proc
    | _ => none
  | .bg => match s.bg with
    | .covering pc => pc.proc
    | _ => none
  | _ => none

/-- The write that the task is at. -/
def AsyncShapedSys.proc {R : Rng} (s : AsyncShapedSys R) : Option WProc :=
  match s.task with
  | .writing _ pc => pc.proc
  | .covering pc => pc.proc
  | _ => none

/-! ## Lemmas -/

theorem Answered.of_none {N : Conn σ} {retry : Bool} {w : WProc} {r : ConnRun σ} (h : N.ask w.asks r = none) :
    Answered N retry r.net r.net w w := by
  constructor
  · rintro rfl
    simp only [WProc.asks, Conn.ask, Conn.flushRun] at h
    cases hf : N.flush r.net with
    | none => exact ⟨fun _ => ⟨rfl, rfl⟩, (by intro _ h; cases h), (by intro _ _ h; cases h)⟩
    | some y =>
      obtain ⟨s, y⟩ := y
      rw [hf] at h
      cases y <;> simp at h
  · rintro rest rfl hne
    cases rest with
    | nil => exact absurd rfl hne
    | cons b bs =>
    simp only [WProc.asks, Conn.ask, Conn.writeRun] at h
    cases hf : N.write r.net (b :: bs) with
    | none => exact ⟨fun _ => ⟨rfl, rfl⟩, (by intro _ h; cases h), (by intro _ _ h; cases h), (by intro _ _ h; cases h)⟩
    | some y =>
      obtain ⟨s, y⟩ := y
      rw [hf] at h
      cases y <;> simp at h

theorem Answered.of_some {N : Conn σ} {f : Flavour} {w : WProc} {r r' : ConnRun σ} {k : Sink} (c : OutboundCipher)
    (h : N.ask w.asks r = some (r', k)) :
    Answered N f.retry r.net r'.net w (w.step f P prof ⟨c, k⟩).2 := by
  constructor
  · rintro rfl
    simp only [WProc.asks, Conn.ask, Conn.flushRun] at h
    cases hf : N.flush r.net with
    | none => rw [hf] at h; simp at h
    | some y =>
      obtain ⟨s, y⟩ := y
      rw [hf] at h
      cases y with
      | ok u =>
        simp only [Option.some.injEq, Prod.mk.injEq] at h
        obtain ⟨rfl, rfl⟩ := h
        refine ⟨(by intro h; cases h), fun s' h => ?_, (by intro s' n h; cases h)⟩
        cases h
        exact ⟨rfl, rfl⟩
      | error k =>
        simp only [Option.some.injEq, Prod.mk.injEq] at h
        obtain ⟨rfl, rfl⟩ := h
        refine ⟨(by intro h; cases h), (by intro s' h; cases h), fun s' k' h => ?_⟩
        cases h
        exact ⟨rfl, rfl⟩
  · rintro rest rfl hne
    cases rest with
    | nil => exact absurd rfl hne
    | cons b bs =>
    simp only [WProc.asks, Conn.ask, Conn.writeRun] at h
    cases hf : N.write r.net (b :: bs) with
    | none => rw [hf] at h; simp at h
    | some y =>
      obtain ⟨s, y⟩ := y
      rw [hf] at h
      cases y with
      | ok n =>
        simp only [Option.some.injEq, Prod.mk.injEq] at h
        obtain ⟨rfl, rfl⟩ := h
        cases n with
        | zero =>
          refine ⟨(by intro h; cases h), fun s' h => ?_, (by intro s' n h; cases h), (by intro s' n h; cases h)⟩
          cases h
          exact ⟨rfl, rfl⟩
        | succ n =>
          refine ⟨(by intro h; cases h), (by intro s' h; cases h), fun s' n' h => ?_, (by intro s' n h; cases h)⟩
          cases h
          exact ⟨rfl, rfl⟩
      | error k =>
        simp only [Option.some.injEq, Prod.mk.injEq] at h
        obtain ⟨rfl, rfl⟩ := h
        refine ⟨(by intro h; cases h), (by intro s' h; cases h), (by intro s' n h; cases h), fun s' k' h => ?_⟩
        cases h
        refine ⟨rfl, ?_⟩
        by_cases hc : f.retry = true ∧ k = .interrupted
        · rw [if_pos hc]
          simp [WProc.step, hc.1, hc.2]
        · rw [if_neg hc]
          have : (f.retry && k == .interrupted) = false := by
            rw [Bool.and_eq_false_iff]
            by_cases h1 : f.retry = true
            · exact .inr (by simpa using fun h => hc ⟨h1, h⟩)
            · exact .inl (by simpa using h1)
          simp [WProc.step, this]

theorem Answered.done {N : Conn σ} {retry : Bool} {net net' : σ} {x : Outcome ProtocolError Unit} {w' : WProc} :
    Answered N retry net net' (.done x) w' :=
  ⟨(by intro h; cases h), (by intro _ h; cases h)⟩

/-- `o'` is where the write `o` got to, unless it had returned already. -/
theorem JobPc.step_answered {R : Rng} {N : Conn σ} {f : Flavour} {pc : JobPc} {w : WProc} {r r' : ConnRun σ} {k : Sink}
    {ws : WriterState R} (hp : pc.proc = some w) (h : N.ask pc.asks r = some (r', k)) :
    ∃ o, ((∃ x, w = .done x) ∨ (pc.step f P prof (ws.over k)).2.proc = some o) ∧ Answered N f.retry r.net r'.net w o := by
  have ha : pc.asks = w.asks := by
    cases pc <;> simp only [JobPc.proc, Option.some.injEq, reduceCtorEq] at hp <;> subst hp <;> rfl
  rw [ha] at h
  refine ⟨_, ?_, Answered.of_some (P := P) (prof := prof) (f := f) ws.writer.cipher h⟩
  cases pc with
  | start j => cases hp
  | done x => cases hp
  | padding v p =>
    cases hp
    cases w <;> first
      | exact .inl ⟨_, rfl⟩
      | exact .inr rfl
  | payload v =>
    cases hp
    cases w <;> first
      | exact .inl ⟨_, rfl⟩
      | exact .inr rfl
  | cover v =>
    cases hp
    cases w <;> first
      | exact .inl ⟨_, rfl⟩
      | exact .inr rfl

/-! ## The theorems -/

/-- C69: the writer half goes on as the transport answers. -/
theorem C69_answers {H Res : Type} {A : HalfApi σ H Res} {f : Flavour} {N : Conn σ} {d : Halves σ H Res} {p : Payload} {w : WProc}
    (hw : d.wr = some (p, w)) (hd : ∀ x, w ≠ .done x) :
    ∃ w', (d.step A f N P prof .writing).wr = some (p, w') ∧
      Answered N f.retry d.run.net (d.step A f N P prof .writing).run.net w w' := by
  have hs : d.step A f N P prof .writing = match N.ask w.asks d.run with
      | none => d
      | some (r, sink) => { d with out := (w.step f P prof ⟨d.out, sink⟩).1.cipher,
                                   wr := some (p, (w.step f P prof ⟨d.out, sink⟩).2), run := r } := by
    simp only [Halves.step, hw]
    cases w with
    | done x => exact absurd rfl (hd x)
    | start q => rfl
    | sending b => rfl
    | flushing => rfl
  rw [hs]
  cases h : N.ask w.asks d.run with
  | none => exact ⟨w, hw, .of_none h⟩
  | some y =>
    obtain ⟨r, k⟩ := y
    exact ⟨_, rfl, .of_some d.out h⟩

/-- C69: so does each thread of the shaped protocol. -/
theorem C69_answers_threads {R : Rng} {N : Conn σ} {s : ShapedN σ R} {l : SysLabel} {w : WProc} (hw : s.sys.proc l = some w)
    (hd : ∀ x, w ≠ .done x) :
    ∃ w', (s.step N P prof (.sys l)).sys.proc l = some w' ∧
      Answered N true s.run.net (s.step N P prof (.sys l)).run.net w w' := by
  have key : ∀ pc : JobPc, pc.proc = some w → s.sys.asks l = pc.asks →
      (∀ k, (({ s.sys with ws := s.sys.ws.over k } : ShapedSys R).step P prof l).proc l =
        (pc.step .sync P prof (s.sys.ws.over k)).2.proc) → l ≠ .read →
      ∃ w', (s.step N P prof (.sys l)).sys.proc l = some w' ∧
        Answered N true s.run.net (s.step N P prof (.sys l)).run.net w w' := by
    intro pc hp ha hst hl
    have hs : s.step N P prof (.sys l) = match N.ask pc.asks s.run with
      | none => s
      | some (r, sink) =>
        { s with sys := ({ s.sys with ws := s.sys.ws.over sink } : ShapedSys R).step P prof l, run := r } := by
      rw [← ha]
      cases l <;> first
        | exact absurd rfl hl
        | rfl
    rw [hs]
    cases h : N.ask pc.asks s.run with
    | none =>
      refine ⟨w, hw, .of_none ?_⟩
      have : pc.asks = w.asks := by
        cases pc <;> simp only [JobPc.proc, Option.some.injEq, reduceCtorEq] at hp <;> subst hp <;> rfl
      rw [← this]; exact h
    | some y =>
      obtain ⟨r, k⟩ := y
      obtain ⟨o, h1, h2⟩ := JobPc.step_answered (P := P) (prof := prof) (f := .sync) (ws := s.sys.ws) hp h
      refine ⟨o, ?_, h2⟩
      show (({ s.sys with ws := s.sys.ws.over k } : ShapedSys R).step P prof l).proc l = some o
      rw [hst k]
      rcases h1 with ⟨x, h1⟩ | h1
      · exact absurd h1 (hd x)
      · exact h1
  cases l with
  | call q => simp [ShapedSys.proc] at hw
  | drop => simp [ShapedSys.proc] at hw
  | read => simp [ShapedSys.proc] at hw
  | app =>
    cases happ : s.sys.app with
    | writing p pc =>
      simp only [ShapedSys.proc, happ] at hw
      refine key pc hw (by simp only [ShapedSys.asks, happ]) (fun k => ?_) (by simp)
      cases pc with
      | done x => cases hw
      | _ => simp only [ShapedSys.step, ShapedSys.appStep, happ, ShapedSys.proc]
    | _ => simp [ShapedSys.proc, happ] at hw
  | bg =>
    cases hbg : s.sys.bg with
    | covering pc =>
      simp only [ShapedSys.proc, hbg] at hw
      refine key pc hw (by simp only [ShapedSys.asks, hbg]) (fun k => ?_) (by simp)
      cases pc with
      | done x => cases hw
      | _ => simp only [ShapedSys.step, ShapedSys.bgStep, hbg, ShapedSys.proc]
    | _ => simp [ShapedSys.proc, hbg] at hw

/-- C69: and so does the task (tokio's `write_all` makes no call again). -/
theorem C69_answers_task {R : Rng} {N : PollConn σ} {s : AsyncShapedN σ R} {w : WProc} (hw : s.sys.proc = some w)
    (hd : ∀ x, w ≠ .done x) :
    ∃ w', (s.step N P prof (.sys .task)).sys.proc = some w' ∧
      Answered N.toConn false s.run.net (s.step N P prof (.sys .task)).run.net w w' := by
  have key : ∀ pc : JobPc, pc.proc = some w → s.sys.asks .task = pc.asks →
      (∀ k, (({ s.sys with ws := s.sys.ws.over k } : AsyncShapedSys R).step P prof .task).proc =
        (pc.step .async P prof (s.sys.ws.over k)).2.proc) →
      ∃ w', (s.step N P prof (.sys .task)).sys.proc = some w' ∧
        Answered N.toConn false s.run.net (s.step N P prof (.sys .task)).run.net w w' := by
    intro pc hp ha hst
    have hs : s.step N P prof (.sys .task) = match N.toConn.ask pc.asks s.run with
      | none => s
      | some (r, sink) =>
        { s with sys := ({ s.sys with ws := s.sys.ws.over sink } : AsyncShapedSys R).step P prof .task, run := r } := by
      rw [← ha]; rfl
    rw [hs]
    cases h : N.toConn.ask pc.asks s.run with
    | none =>
      refine ⟨w, hw, .of_none ?_⟩
      have : pc.asks = w.asks := by
        cases pc <;> simp only [JobPc.proc, Option.some.injEq, reduceCtorEq] at hp <;> subst hp <;> rfl
      rw [← this]; exact h
    | some y =>
      obtain ⟨r, k⟩ := y
      obtain ⟨o, h1, h2⟩ := JobPc.step_answered (P := P) (prof := prof) (f := .async) (ws := s.sys.ws) hp h
      refine ⟨o, ?_, h2⟩
      show (({ s.sys with ws := s.sys.ws.over k } : AsyncShapedSys R).step P prof .task).proc = some o
      rw [hst k]
      rcases h1 with ⟨x, h1⟩ | h1
      · exact absurd h1 (hd x)
      · exact h1
  cases ht : s.sys.task with
  | writing cmd pc =>
    simp only [AsyncShapedSys.proc, ht] at hw
    refine key pc hw (by simp only [AsyncShapedSys.asks, ht]) (fun k => ?_)
    cases pc with
    | done x => cases hw
    | _ => simp only [AsyncShapedSys.step, AsyncShapedSys.taskStep, ht, AsyncShapedSys.proc]
  | covering pc =>
    simp only [AsyncShapedSys.proc, ht] at hw
    refine key pc hw (by simp only [AsyncShapedSys.asks, ht]) (fun k => ?_)
    cases pc with
    | done x => cases hw
    | _ => simp only [AsyncShapedSys.step, AsyncShapedSys.taskStep, ht, AsyncShapedSys.proc]
  | _ => simp [AsyncShapedSys.proc, ht] at hw

/-! ## Non-vacuity -/

/-- A transport that takes two bytes at a time, and fails to flush. -/
def noFlush : Conn Nat where
  read := fun n _ => some (n, .ok [])
  write := fun n buf => some (n + 1, .ok (min 2 buf.length))
  flush := fun n => some (n, .error .brokenPipe)

/-- The write is at `flush`, and then fails with the transport's error. -/
example :
    let d0 : Halves Nat SyncHalf (Outcome ProtocolError Payload) :=
      ⟨⟨sampleIn, ([], false), .idle⟩, sampleOut, none, ⟨0, [], []⟩, [], []⟩
    let d := d0.runs (syncHalf noFlush toy .debug) .sync noFlush toy .debug
      (.write (.genuine [4, 5, 6]) :: List.replicate 14 .writing)
    d.wr.map (·.2) = some .flushing ∧
      (d.step (syncHalf noFlush toy .debug) .sync noFlush toy .debug .writing).wr.map (·.2) =
        some (.done (.err (.fromIo .brokenPipe))) := by
  decide +kernel

end Bip324
