import Verif.Props.Shutdown

/-!
# C52: shaped asynchronous writes that are cancelled, or still queued when the writer is dropped

`ShapedProtocolWriter::write` of `traffic/src/futures.rs` hands the payload to the task at its first poll.  From
then on the payload is sent, once and in its turn, whether or not the caller waits for the answer.
-/

namespace Bip324

variable {P : Prims} {prof : Profile} {R : Rng}

/-! ## The task does not see a cancellation -/

/-- Steps of the task and of the reader half. -/
def AsyncLabel.notCaller : AsyncLabel → Prop
  | .recv | .tick | .otherwise | .task | .read => True
  | _ => False

theorem AsyncShapedSys.step_caller (s : AsyncShapedSys R) (c : CallerPc) {l : AsyncLabel} (hl : l.notCaller) :
    ({ s with caller := c } : AsyncShapedSys R).step P prof l = { s.step P prof l with caller := c } := by
  obtain ⟨ws, queue, closed, answers, task, caller, reader, called, returned, reads0⟩ := s
  cases l with
  | call p => exact hl.elim
  | resume => exact hl.elim
  | cancel => exact hl.elim
  | drop => exact hl.elim
  | read => rfl
  | otherwise =>
    cases task with
    | select a b => cases a <;> cases b <;> rfl
    | _ => rfl
  | tick =>
    cases task with
    | select a b => cases b <;> rfl
    | _ => rfl
  | recv =>
    cases task with
    | select a b =>
      cases a with
      | true => rfl
      | false =>
        cases queue with
        | nil => cases closed <;> rfl
        | cons x q => rfl
    | _ => rfl
  | task =>
    show AsyncShapedSys.taskStep P prof _ = { AsyncShapedSys.taskStep P prof _ with caller := c }
    cases task with
    | writing cmd pc =>
      cases pc with
      | done r => simp only [AsyncShapedSys.taskStep]; split <;> rfl
      | _ => rfl
    | covering pc =>
      cases pc with
      | done r => simp only [AsyncShapedSys.taskStep]; split <;> rfl
      | _ => rfl
    | _ => rfl

theorem AsyncShapedSys.run_caller (c : CallerPc) (ls : List AsyncLabel) : ∀ (s : AsyncShapedSys R),
    (∀ l ∈ ls, l.notCaller) →
    ({ s with caller := c } : AsyncShapedSys R).run P prof ls = { s.run P prof ls with caller := c } := by
  induction ls with
  | nil => intro s _; rfl
  | cons l ls ih =>
    intro s h
    show AsyncShapedSys.run P prof (AsyncShapedSys.step P prof _ l) ls = _
    rw [AsyncShapedSys.step_caller s c (h l (by simp))]
    exact ih (s.step P prof l) (fun l hl => h l (by simp [hl]))

/-- C52: dropping the future of a pending `write` changes nothing but what the caller waits for: whatever the
task does afterwards, the state of the writer, the queue, the wire and the statistics are as if the caller had
kept waiting. -/
theorem C52_cancel_invisible (s : AsyncShapedSys R) {p : Payload} {rx : Nat} (hc : s.caller = .waiting p rx)
    (ls : List AsyncLabel) (hl : ∀ l ∈ ls, l.notCaller) :
    (s.step P prof .cancel).run P prof ls = { s.run P prof ls with caller := .idle } := by
  have : s.step P prof .cancel = { s with caller := .idle } := by simp only [AsyncShapedSys.step, hc]
  rw [this]
  exact AsyncShapedSys.run_caller .idle ls s hl

/-! ## Nothing accepted is forgotten -/

theorem AsyncShapedSys.step_called (s : AsyncShapedSys R) (l : AsyncLabel) :
    ∃ more, (s.step P prof l).called = s.called ++ more := by
  obtain ⟨ws, queue, closed, answers, task, caller, reader, called, returned, reads0⟩ := s
  have same : ∃ more, called = called ++ more := ⟨[], by simp⟩
  cases l with
  | call p =>
    cases caller with
    | idle => cases task <;> first | exact same | exact ⟨_, rfl⟩
    | _ => exact same
  | resume =>
    cases caller with
    | waiting p rx =>
      simp only [AsyncShapedSys.step]
      split
      · exact same
      · split <;> exact same
    | _ => exact same
  | cancel => cases caller <;> exact same
  | drop => cases caller <;> exact same
  | recv =>
    simp only [AsyncShapedSys.step]
    split
    · split
      · exact same
      · split <;> exact same
    · exact same
  | tick => simp only [AsyncShapedSys.step]; split <;> exact same
  | otherwise => simp only [AsyncShapedSys.step]; split <;> exact same
  | task =>
    simp only [AsyncShapedSys.step, AsyncShapedSys.taskStep]
    split
    · split <;> exact same
    · exact same
    · split <;> exact same
    · exact same
    · exact same
  | read => exact same

theorem AsyncShapedSys.run_called (ls : List AsyncLabel) : ∀ (s : AsyncShapedSys R),
    ∃ more, (s.run P prof ls).called = s.called ++ more := by
  induction ls with
  | nil => intro s; exact ⟨[], by simp [AsyncShapedSys.run]⟩
  | cons l ls ih =>
    intro s
    obtain ⟨m1, h1⟩ := AsyncShapedSys.step_called (P := P) (prof := prof) s l
    obtain ⟨m2, h2⟩ := ih (s.step P prof l)
    exact ⟨m1 ++ m2, by
      show (AsyncShapedSys.run P prof (s.step P prof l) ls).called = _
      rw [h2, h1, List.append_assoc]⟩

/-- C52: a call made while the task lives is accepted at its first poll, and stays in its place among the
accepted calls for ever, whatever happens to its future. -/
theorem C52_accepted (s : AsyncShapedSys R) (p : Payload) (hc : s.caller = .idle) (ht : s.task.ended = false)
    (ls : List AsyncLabel) : ∃ more, (s.run P prof (.call p :: ls)).called = s.called ++ p :: more := by
  have : (s.step P prof (.call p)).called = s.called ++ [p] := by
    simp only [AsyncShapedSys.step, hc, ht]; rfl
  obtain ⟨more, h⟩ := AsyncShapedSys.run_called (P := P) (prof := prof) ls (s.step P prof (.call p))
  exact ⟨more, by
    show (AsyncShapedSys.run P prof (s.step P prof (.call p)) ls).called = _
    rw [h, this, List.append_assoc]; rfl⟩

/-! ## The queue is emptied -/

/-- `recv` is only ever disabled when the channel is closed and empty. -/
def AsyncShapedSys.Open (s : AsyncShapedSys R) : Prop :=
  (s.closed = true → s.caller = .gone) ∧ ∀ b, s.task = .select true b → s.queue = [] ∧ s.closed = true

theorem AsyncShapedSys.Open.step {s : AsyncShapedSys R} (h : s.Open) (l : AsyncLabel) : (s.step P prof l).Open := by
  obtain ⟨ws, queue, closed, answers, task, caller, reader, called, returned, reads0⟩ := s
  obtain ⟨h1, h2⟩ := h
  simp only at h1 h2
  cases l with
  | call p =>
    cases caller with
    | idle =>
      have hcl : closed = false := by
        cases closed with
        | false => rfl
        | true => have := h1 rfl; cases this
      subst hcl
      have ht : ∀ b, task ≠ .select true b := fun b hb => by
        have := (h2 b hb).2; cases this
      cases task with
      | select a b =>
        cases a with
        | true => exact absurd rfl (ht b)
        | false => exact ⟨fun h => (by cases h), fun b h => (by cases h)⟩
      | _ => exact ⟨fun h => (by cases h), fun b h => (by cases h)⟩
    | waiting q rx => exact ⟨h1, h2⟩
    | gone => exact ⟨h1, h2⟩
  | resume =>
    cases caller with
    | waiting p rx =>
      have hcl : closed = false := by
        cases closed with
        | false => rfl
        | true => have := h1 rfl; cases this
      subst hcl
      simp only [AsyncShapedSys.step]
      split
      · exact ⟨fun h => (by cases h), h2⟩
      · split
        · exact ⟨fun h => (by cases h), h2⟩
        · exact ⟨h1, h2⟩
    | _ => exact ⟨h1, h2⟩
  | cancel =>
    cases caller with
    | waiting p rx =>
      have hcl : closed = false := by
        cases closed with
        | false => rfl
        | true => have := h1 rfl; cases this
      subst hcl
      exact ⟨fun h => (by cases h), h2⟩
    | _ => exact ⟨h1, h2⟩
  | drop =>
    cases caller with
    | idle => exact ⟨fun _ => rfl, fun b hb => ⟨(h2 b hb).1, rfl⟩⟩
    | _ => exact ⟨h1, h2⟩
  | read => exact ⟨h1, h2⟩
  | recv =>
    cases task with
    | select a b =>
      cases a with
      | true => exact ⟨h1, h2⟩
      | false =>
        cases queue with
        | nil =>
          cases closed with
          | true => exact ⟨h1, fun _ _ => ⟨rfl, rfl⟩⟩
          | false => exact ⟨h1, h2⟩
        | cons x q => exact ⟨h1, fun b h => (by cases h)⟩
    | _ => exact ⟨h1, h2⟩
  | tick =>
    cases task with
    | select a b =>
      cases b with
      | true => exact ⟨h1, h2⟩
      | false => exact ⟨h1, fun b h => (by cases h)⟩
    | _ => exact ⟨h1, h2⟩
  | otherwise =>
    cases task with
    | select a b =>
      cases a <;> cases b <;> first | exact ⟨h1, h2⟩ | exact ⟨h1, fun b h => (by cases h)⟩
    | _ => exact ⟨h1, h2⟩
  | task =>
    cases task with
    | writing cmd pc =>
      cases pc with
      | done r =>
        simp only [AsyncShapedSys.step, AsyncShapedSys.taskStep]
        split <;> exact ⟨h1, fun b h => (by cases h)⟩
      | _ => exact ⟨h1, fun b h => (by cases h)⟩
    | covering pc =>
      cases pc with
      | done r =>
        simp only [AsyncShapedSys.step, AsyncShapedSys.taskStep]
        split <;> exact ⟨h1, fun b h => (by cases h)⟩
      | _ => exact ⟨h1, fun b h => (by cases h)⟩
    | _ => exact ⟨h1, h2⟩

theorem AsyncShapedSys.Open.run (ls : List AsyncLabel) : ∀ {s : AsyncShapedSys R}, s.Open → (s.run P prof ls).Open := by
  induction ls with
  | nil => intro s h; exact h
  | cons l ls ih => intro s h; exact ih (h.step l)

/-- The task has nothing to do, or is dead. -/
def AsyncShapedSys.Settled (s : AsyncShapedSys R) : Prop :=
  s.task = .panicked ∨ ∃ a, s.task = .select a false ∧ s.queue = []

/-- The job at hand is finished. -/
theorem AsyncShapedSys.settle {ws0 : WriterState R} {s : AsyncShapedSys R} (h : s.Inv P prof ws0) :
    ∃ m, ∀ t, t = s.run P prof (List.replicate m .task) →
      (t.task = .panicked ∨ ∃ a, t.task = .select a false ∧ t.queue = s.queue) ∧
      t.called = s.called ∧ t.caller = s.caller ∧ t.returned = s.returned := by
  have fin : ∀ C pc, (C = TaskPc.covering ∨ ∃ cmd, C = .writing cmd) → s.task = C pc →
      ∃ m, ∀ t, t = s.run P prof (List.replicate m .task) →
        (t.task = .panicked ∨ ∃ a, t.task = .select a false ∧ t.queue = s.queue) ∧
        t.called = s.called ∧ t.caller = s.caller ∧ t.returned = s.returned := by
    intro C pc hC ht
    obtain ⟨n, hn⟩ := JobPc.ends (P := P) (prof := prof) .async s.ws pc
    obtain ⟨m, -, hm⟩ := AsyncShapedSys.task_finishes n s C hC pc _ _ ht hn
    refine ⟨m + 1, ?_⟩
    rintro t rfl
    have hr : s.run P prof (List.replicate (m + 1) .task) =
        (s.run P prof (List.replicate m .task)).taskStep P prof := by
      rw [List.replicate_succ', AsyncShapedSys.run_append]; rfl
    rw [hr, hm]
    rcases hC with rfl | ⟨cmd, rfl⟩
    · simp only [AsyncShapedSys.taskStep]
      split
      · exact ⟨.inl rfl, rfl, rfl, rfl⟩
      · exact ⟨.inr ⟨_, rfl, rfl⟩, rfl, rfl, rfl⟩
    · simp only [AsyncShapedSys.taskStep]
      split
      · exact ⟨.inl rfl, rfl, rfl, rfl⟩
      · exact ⟨.inr ⟨_, rfl, rfl⟩, rfl, rfl, rfl⟩
  obtain ⟨tr, -, -, -, hI⟩ := h
  rcases hI with ⟨off, rest, h1, -⟩ | ⟨cmd, pc, _, h1, -⟩ | ⟨pc, _, h1, -⟩ | ⟨_, _, h1, -⟩
  · exact ⟨0, by rintro t rfl; exact ⟨.inr ⟨off, h1, rfl⟩, rfl, rfl, rfl⟩⟩
  · exact fin _ pc (.inr ⟨cmd, rfl⟩) h1
  · exact fin _ pc (.inl rfl) h1
  · exact ⟨0, by rintro t rfl; exact ⟨.inl h1, rfl, rfl, rfl⟩⟩

theorem AsyncShapedSys.drain {ws0 : WriterState R} (n : Nat) : ∀ {s : AsyncShapedSys R}, s.Inv P prof ws0 →
    s.Open → s.queue.length ≤ n → ∃ ls, (∀ l ∈ ls, l = .recv ∨ l = .task) ∧ ∀ t, t = s.run P prof ls →
      t.Settled ∧ t.called = s.called ∧ t.caller = s.caller ∧ t.returned = s.returned := by
  induction n with
  | zero =>
    intro s h ho hq
    obtain ⟨m, hm⟩ := AsyncShapedSys.settle h
    refine ⟨List.replicate m .task, fun l hl => .inr (List.eq_of_mem_replicate hl), ?_⟩
    intro t ht
    obtain ⟨h1, h2⟩ := hm t ht
    refine ⟨?_, h2⟩
    rcases h1 with h1 | ⟨a, h1, h3⟩
    · exact .inl h1
    · exact .inr ⟨a, h1, by rw [h3]; exact List.length_eq_zero_iff.1 (by omega)⟩
  | succ n ih =>
    intro s h ho hq
    obtain ⟨m, hm⟩ := AsyncShapedSys.settle h
    obtain ⟨h1, h2, h3, h4⟩ := hm _ rfl
    have hi := h.run (List.replicate m .task)
    have ho' := ho.run (P := P) (prof := prof) (List.replicate m .task)
    have hrep : ∀ l ∈ List.replicate m AsyncLabel.task, l = .recv ∨ l = .task :=
      fun l hl => .inr (List.eq_of_mem_replicate hl)
    generalize hs1 : s.run P prof (List.replicate m .task) = s1 at h1 h2 h3 h4 hi ho'
    have stop : s1.Settled → ∃ ls, (∀ l ∈ ls, l = .recv ∨ l = .task) ∧ ∀ t, t = s.run P prof ls →
        t.Settled ∧ t.called = s.called ∧ t.caller = s.caller ∧ t.returned = s.returned := by
      intro hset
      exact ⟨_, hrep, by rintro t rfl; rw [hs1]; exact ⟨hset, h2, h3, h4⟩⟩
    rcases h1 with h1 | ⟨a, h1, hq1⟩
    · exact stop (.inl h1)
    cases hq2 : s1.queue with
    | nil => exact stop (.inr ⟨a, h1, hq2⟩)
    | cons cmd q =>
      have ha : a = false := by
        cases a with
        | false => rfl
        | true => have := (ho'.2 false h1).1; rw [hq2] at this; cases this
      subst ha
      have hr : s1.step P prof .recv =
          { s1 with queue := q, task := .writing cmd (.start (.write cmd.payload)) } := by
        simp only [AsyncShapedSys.step, h1, hq2]
      obtain ⟨ls, k1, k2⟩ := ih (hi.step .recv) (ho'.step .recv) (by
        rw [hr]
        have : s.queue.length = q.length + 1 := by rw [← hq1, hq2]; rfl
        show q.length ≤ n
        omega)
      refine ⟨List.replicate m .task ++ .recv :: ls, ?_, ?_⟩
      · intro l hl
        rcases List.mem_append.1 hl with hl | hl
        · exact hrep l hl
        · rcases List.mem_cons.1 hl with hl | hl
          · exact .inl hl
          · exact k1 l hl
      · rintro t rfl
        rw [AsyncShapedSys.run_append, hs1]
        show ((s1.step P prof .recv).run P prof ls).Settled ∧ _
        obtain ⟨j1, j2, j3, j4⟩ := k2 _ rfl
        refine ⟨j1, ?_, ?_, ?_⟩
        · exact j2.trans (by rw [hr]; exact h2)
        · exact j3.trans (by rw [hr]; exact h3)
        · exact j4.trans (by rw [hr]; exact h4)

/-- C52: a pending `write` is answered.  From every state in which the caller waits, the task only has to go on
(receiving and writing; no tick and no help of the application is needed), and the caller's next poll returns. -/
theorem C52_answered {s0 : AsyncShapedSys R} (h0 : s0.Fresh) (hc0 : s0.closed = false) (ls : List AsyncLabel)
    {p : Payload} {rx : Nat} (hc : (s0.run P prof ls).caller = .waiting p rx) :
    ∃ ls' r, (∀ l ∈ ls', l = .recv ∨ l = .task) ∧
      (s0.run P prof (ls ++ ls' ++ [.resume])).returned = (s0.run P prof ls).returned ++ [(p, r)] ∧
      (s0.run P prof (ls ++ ls' ++ [.resume])).caller = .idle := by
  have hi := h0.inv.run (P := P) (prof := prof) ls
  have ho : (s0.run P prof ls).Open := AsyncShapedSys.Open.run ls
    ⟨fun h => (by rw [hc0] at h; cases h), fun b h => (by rw [h0.task] at h; cases h)⟩
  simp only [AsyncShapedSys.run_append]
  generalize s0.run P prof ls = s at hc hi ho
  obtain ⟨ls', h1, h2⟩ := AsyncShapedSys.drain s.queue.length hi ho (Nat.le_refl _)
  obtain ⟨k1, k2, k3, k4⟩ := h2 _ rfl
  have hi' := hi.run ls'
  refine ⟨ls', ?_⟩
  generalize s.run P prof ls' = t at k1 k2 k3 k4 hi'
  rw [← k4]
  rw [← k3] at hc
  have step : ∃ r, t.step P prof .resume = { t with caller := .idle, returned := t.returned ++ [(p, r)] } := by
    cases hl : t.answers.lookup rx with
    | some r => exact ⟨r, by simp only [AsyncShapedSys.step, hc, hl]⟩
    | none =>
      rcases k1 with k1 | ⟨a, k1, kq⟩
      · exact ⟨.err taskGone, by simp only [AsyncShapedSys.step, hc, hl, k1, TaskPc.ended]; rfl⟩
      · exfalso
        obtain ⟨tr, -, ha, ⟨ret, gone, -, -, hcall⟩, hw⟩ := hi'
        rcases hcall with ⟨hn, -⟩ | ⟨q, c, hq, hcl, -⟩
        · exact hn p rx hc
        rw [hc] at hq
        cases hq
        rcases hw with ⟨off, rest, w1, -, w3, w4⟩ | ⟨_, _, _, w1, -⟩ | ⟨_, _, w1, -⟩ | ⟨_, _, w1, -⟩
        · rw [kq] at w4
          have hrest : rest = [] := by
            cases rest with
            | nil => rfl
            | cons x rest => simp [cmdsOf, number] at w4
          subst hrest
          rw [List.append_nil] at w3
          have hlen : c.length < (writesOf tr).length := by
            have : (writtenBy tr).length = c.length + 1 := by rw [← w3, hcl]; simp
            simp [writtenBy] at this
            omega
          have hlk := number_lookup ((writesOf tr).map (·.2)) 0 c.length
          rw [Nat.zero_add, ← ha, hl, List.getElem?_map, List.getElem?_eq_getElem hlen] at hlk
          simp at hlk
        all_goals · rw [k1] at w1; cases w1
  obtain ⟨r, hr⟩ := step
  refine ⟨r, h1, ?_, ?_⟩
  · show (t.step P prof .resume).returned = _
    rw [hr]
  · show (t.step P prof .resume).caller = _
    rw [hr]

/-- C52: everything that was accepted is sent.  At every moment - also after calls were cancelled and after the
writer was dropped - the task only has to go on, and unless it panics (only possible after `2^32 - 1` packets, or
for a payload that has no contents) all accepted payloads, cancelled ones included, are on the wire, once and in the
order of the calls, and are read by every peer. -/
theorem C52_all_sent (hP : Lawful P) {s0 : AsyncShapedSys R} (h0 : s0.Fresh) (hc0 : s0.closed = false)
    (hw : s0.ws.writer.writer.Reliable false) (ls : List AsyncLabel) :
    ∃ ls', (∀ l ∈ ls', l = .recv ∨ l = .task) ∧ ∀ t, t = s0.run P prof (ls ++ ls') →
      t.called = (s0.run P prof ls).called ∧
      (t.task = .panicked ∨ ∃ sent, t.ws.writer.writer.out = s0.ws.writer.writer.out ++ sent ∧
        ReadAs P prof s0.ws.writer.cipher sent (s0.run P prof ls).called) := by
  have ho : (s0.run P prof ls).Open := AsyncShapedSys.Open.run ls
    ⟨fun h => (by rw [hc0] at h; cases h), fun b h => (by rw [h0.task] at h; cases h)⟩
  obtain ⟨ls', h1, h2⟩ := AsyncShapedSys.drain _ (h0.inv.run (P := P) (prof := prof) ls) ho (Nat.le_refl _)
  refine ⟨ls', h1, ?_⟩
  rintro t rfl
  obtain ⟨k1, k2, -, -⟩ := h2 _ rfl
  rw [← AsyncShapedSys.run_append] at k1 k2
  refine ⟨k2, ?_⟩
  rcases k1 with k1 | ⟨a, k1, kq⟩
  · exact .inl k1
  · obtain ⟨written, w1, -, -, sent, w2, w3⟩ := C36_task hP h0 hw (ls ++ ls') k1
    rw [kq, List.map_nil, List.append_nil] at w1
    exact .inr ⟨sent, w2, by rw [← k2, w1]; exact w3⟩

/-! ## Non-vacuity -/

/-- Two calls, both cancelled, then the writer is dropped: both payloads are still in the queue, and the task
sends them; the peer reads them, between decoys. -/
example :
    let ls : List AsyncLabel := [.call (.genuine [1, 2]), .cancel, .call (.genuine [3]), .cancel, .drop]
    let s := sampleTask.run toy .debug ls
    let t := s.run toy .debug (.recv :: (List.replicate 20 .task ++ .recv :: List.replicate 20 .task))
    sampleTask.Fresh ∧ sampleTask.closed = false ∧ sampleTask.ws.writer.writer.Reliable false ∧
    s.caller = .gone ∧ s.queue.map (·.payload) = [.genuine [1, 2], .genuine [3]] ∧ s.ws.writer.writer.out = [] ∧
    t.task = .select false false ∧ t.queue = [] ∧
    ((SyncReader.readMany toy .debug ⟨sampleIn, ⟨[], false, [.data t.ws.writer.writer.out]⟩⟩ 4).2).filterMap
      (fun x => genuineContents (seen x)) = [[1, 2], [3]] := by
  refine ⟨AsyncShapedSys.init_fresh _ _ _, rfl, ⟨?_, ?_⟩, by decide +kernel, by decide +kernel, by decide +kernel,
    by decide +kernel, by decide +kernel, by decide +kernel⟩
  · simp [sampleTask, AsyncShapedSys.init]
  · simp [sampleTask, AsyncShapedSys.init]

/-- A caller that waits, with a command before its own in the queue. -/
example :
    let s := sampleTask.run toy .debug [.tick, .task, .call (.genuine [1, 2]), .cancel, .call (.genuine [3])]
    s.caller = .waiting (.genuine [3]) 1 ∧ s.queue.length = 2 ∧
    ((s.run toy .debug (List.replicate 20 .task ++ .recv :: (List.replicate 20 .task ++
      .recv :: (List.replicate 20 .task ++ [.resume])))).returned = [(.genuine [3], .ok ())]) := by
  decide +kernel

end Bip324
