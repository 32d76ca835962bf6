import Verif.Lemmas.AsyncLane

/-!
# An asynchronous shaped party whose channel is full
-/

namespace Bip324

variable {P : Prims} {prof : Profile} {R RA RB : Rng}

/-- A step of the writing side leaves alone what the peer has sent, and does not overfill the channel. -/
theorem async_sys_net (s : AsyncShapedN (Bytes × Bytes) R) (cap k : Nat) (l : AsyncLabel) :
    (s.step (pollEnd cap k) P prof (.sys l)).run.net.2 = s.run.net.2 ∧
    ((s.step (pollEnd cap k) P prof (.sys l)).run.net.1 = s.run.net.1 ∨ (s.step (pollEnd cap k) P prof (.sys l)).run.net.1.length ≤ cap) := by
  cases l with
  | read => exact ⟨rfl, .inl rfl⟩
  | _ =>
    simp only [AsyncShapedN.step]
    split
    · exact ⟨rfl, .inl rfl⟩
    · rename_i h
      exact ask_net h

/-- A step of the reader leaves alone what this side has sent. -/
theorem async_reading_net (s : AsyncShapedN (Bytes × Bytes) R) (cap k : Nat) :
    (s.step (pollEnd cap k) P prof .reading).run.net.1 = s.run.net.1 := by
  have rd : ∀ {x : Bytes × Nat} {r : ConnRun (Bytes × Bytes)} {n : Nat} {y : Bytes × Nat} {r' : ConnRun (Bytes × Bytes)} {e : PollRead},
      n ≠ 0 → sessPollN (pollEnd cap k) (x, r) n = ((y, r'), e) → r'.net.1 = r.net.1 := by
    intro x r n y r' e hn h
    rcases sess_poll (cap := cap) (k := k) (s := x) (r := r) hn with ⟨-, r1, h2, h3⟩ | ⟨s', r1, b, bs, h2, -, h3, -⟩
    · rw [h2] at h; cases h; rw [h3]
    · rw [h2] at h; cases h; exact h3
  have key : ∀ {h' : AsyncHalf} {r' : ConnRun (Bytes × Bytes)} {o : Option PollResult},
      s.half.step (pollEnd cap k) P prof s.run = some (h', r', o) → r'.net.1 = s.run.net.1 := by
    intro h' r' o h
    unfold AsyncHalf.step at h
    split at h
    · split at h
      · split at h
        · rename_i hn
          split at h <;> (rename_i g; cases h; exact rd (by omega) g)
        · split at h <;> cases h <;> rfl
      · split at h
        · rename_i hn
          split at h <;> (rename_i g; cases h; exact rd (by omega) g)
        · split at h
          · cases h; rfl
          · split at h
            · cases h; rfl
            · cases h; rfl
            · split at h <;> cases h <;> rfl
    · cases h
  simp only [AsyncShapedN.step]
  split
  · rfl
  · rename_i h; exact key h
  · rename_i h; exact key h

/-- The task is within a tick and waits for the peer to read; no call has been answered. -/
structure AsyncJammed (cap : Nat) (s : AsyncShapedN (Bytes × Bytes) R) : Prop where
  task : ∃ pc b bs, s.sys.task = .covering pc ∧ (∀ r, pc ≠ .done r) ∧ pc.asks = some (.write (b :: bs))
  answers : s.sys.answers = []
  queue : s.sys.queue.map (·.payload) = s.sys.called
  full : cap ≤ s.run.net.1.length

/-- What the application can still do. -/
def CallerPc.jammedStep (caller : CallerPc) (n : Nat) : AsyncAct → CallerPc
  | .sys (.call p) => if caller = .idle then .waiting p n else caller
  | .sys .cancel => match caller with | .waiting _ _ => .idle | c => c
  | .sys .drop => if caller = .idle then .gone else caller
  | _ => caller

/-- Whatever this party does, it stays so. -/
theorem AsyncJammed.step {cap : Nat} {s : AsyncShapedN (Bytes × Bytes) R} (h : AsyncJammed cap s) (k : Nat) (act : AsyncAct) :
    AsyncJammed cap (s.step (pollEnd cap k) P prof act.label) ∧
    (s.step (pollEnd cap k) P prof act.label).sys.returned = s.sys.returned ∧
    (s.step (pollEnd cap k) P prof act.label).sys.caller = s.sys.caller.jammedStep s.sys.called.length act ∧
    (s.step (pollEnd cap k) P prof act.label).sys.called = s.sys.called ++ (match act with | .sys (.call p) => if s.sys.caller = .idle then [p] else [] | _ => []) ∧
    (s.step (pollEnd cap k) P prof act.label).run.net.1 = s.run.net.1 := by
  obtain ⟨⟨pc, b, bs, h3, h4, h5⟩, h1, h2, h6⟩ := h
  have hblock : ∀ k, (endConn cap k).ask pc.asks s.run = none := by
    intro k
    simp only [h5, Conn.ask, Conn.writeRun, endConn, reduceCtorEq, if_false, if_pos h6]
  have stays : AsyncJammed cap s := ⟨⟨pc, b, bs, h3, h4, h5⟩, h1, h2, h6⟩
  cases act with
  | reading =>
    have hn := async_reading_net (P := P) (prof := prof) s cap k
    have hs : (s.step (pollEnd cap k) P prof .reading).sys.task = s.sys.task ∧ (s.step (pollEnd cap k) P prof .reading).sys.answers = s.sys.answers ∧
        (s.step (pollEnd cap k) P prof .reading).sys.queue = s.sys.queue ∧ (s.step (pollEnd cap k) P prof .reading).sys.called = s.sys.called ∧
        (s.step (pollEnd cap k) P prof .reading).sys.returned = s.sys.returned ∧ (s.step (pollEnd cap k) P prof .reading).sys.caller = s.sys.caller := by
      simp only [AsyncShapedN.step]
      split <;> exact ⟨rfl, rfl, rfl, rfl, rfl, rfl⟩
    obtain ⟨e1, e2, e3, e4, e5, e6⟩ := hs
    refine ⟨⟨⟨pc, b, bs, by rw [AsyncAct.label, e1, h3], h4, h5⟩, by rw [AsyncAct.label, e2, h1], by rw [AsyncAct.label, e3, e4, h2],
      by rw [AsyncAct.label, hn]; exact h6⟩, e5, e6, ?_, hn⟩
    simp only [AsyncAct.label, List.append_nil]
    exact e4
  | sys l =>
    cases l with
    | read => exact ⟨⟨⟨pc, b, bs, h3, h4, h5⟩, h1, h2, h6⟩, rfl, rfl, (List.append_nil _).symm, rfl⟩
    | task =>
      have : s.step (pollEnd cap k) P prof (.sys .task) = s := by
        rw [task_covering h3 h4, show (pollEnd cap k).toConn = endConn cap k from rfl, hblock]
      simp only [AsyncAct.label]
      rw [this]
      exact ⟨stays, rfl, rfl, (List.append_nil _).symm, rfl⟩
    | call p =>
      simp only [AsyncAct.label]
      rw [silent_async (by simp) rfl]
      simp only [AsyncShapedSys.step, CallerPc.jammedStep]
      cases hc : s.sys.caller with
      | idle =>
        simp only [h3, TaskPc.ended, Bool.false_eq_true, if_false, if_true]
        refine ⟨⟨⟨pc, b, bs, rfl, h4, h5⟩, h1, ?_, h6⟩, trivial, trivial, trivial, trivial⟩
        simp only [List.map_append, h2, List.map_cons, List.map_nil]
      | waiting q rx =>
        simp only [reduceCtorEq, if_false, List.append_nil]
        refine ⟨⟨⟨pc, b, bs, by first | exact h3 | rfl, h4, h5⟩, by first | exact h1 | rfl, h2, h6⟩, ?_, ?_, ?_, ?_⟩ <;> first | trivial | rfl | exact hc
      | gone =>
        simp only [reduceCtorEq, if_false, List.append_nil]
        refine ⟨⟨⟨pc, b, bs, by first | exact h3 | rfl, h4, h5⟩, by first | exact h1 | rfl, h2, h6⟩, ?_, ?_, ?_, ?_⟩ <;> first | trivial | rfl | exact hc
    | cancel =>
      simp only [AsyncAct.label]
      rw [silent_async (by simp) rfl]
      simp only [AsyncShapedSys.step, CallerPc.jammedStep, List.append_nil]
      cases hc : s.sys.caller with
      | waiting q rx => refine ⟨⟨⟨pc, b, bs, by first | exact h3 | rfl, h4, h5⟩, by first | exact h1 | rfl, h2, h6⟩, ?_, ?_, ?_, ?_⟩ <;> first | trivial | rfl | exact hc
      | idle => refine ⟨⟨⟨pc, b, bs, by first | exact h3 | rfl, h4, h5⟩, by first | exact h1 | rfl, h2, h6⟩, ?_, ?_, ?_, ?_⟩ <;> first | trivial | rfl | exact hc
      | gone => refine ⟨⟨⟨pc, b, bs, by first | exact h3 | rfl, h4, h5⟩, by first | exact h1 | rfl, h2, h6⟩, ?_, ?_, ?_, ?_⟩ <;> first | trivial | rfl | exact hc
    | drop =>
      simp only [AsyncAct.label]
      rw [silent_async (by simp) rfl]
      simp only [AsyncShapedSys.step, CallerPc.jammedStep, List.append_nil]
      cases hc : s.sys.caller with
      | idle =>
        simp only [if_true]
        refine ⟨⟨⟨pc, b, bs, by first | exact h3 | rfl, h4, h5⟩, by first | exact h1 | rfl, h2, h6⟩, ?_, ?_, ?_, ?_⟩ <;> first | trivial | rfl | exact hc
      | waiting q rx =>
        simp only [reduceCtorEq, if_false]
        refine ⟨⟨⟨pc, b, bs, by first | exact h3 | rfl, h4, h5⟩, by first | exact h1 | rfl, h2, h6⟩, ?_, ?_, ?_, ?_⟩ <;> first | trivial | rfl | exact hc
      | gone =>
        simp only [reduceCtorEq, if_false]
        refine ⟨⟨⟨pc, b, bs, by first | exact h3 | rfl, h4, h5⟩, by first | exact h1 | rfl, h2, h6⟩, ?_, ?_, ?_, ?_⟩ <;> first | trivial | rfl | exact hc
    | resume =>
      simp only [AsyncAct.label]
      rw [silent_async (by simp) rfl]
      simp only [AsyncShapedSys.step, CallerPc.jammedStep, List.append_nil]
      cases hc : s.sys.caller with
      | waiting q rx =>
        simp only [h1, List.lookup_nil, h3, TaskPc.ended, Bool.false_eq_true, if_false]
        refine ⟨⟨⟨pc, b, bs, by first | exact h3 | rfl, h4, h5⟩, by first | exact h1 | rfl, h2, h6⟩, ?_, ?_, ?_, ?_⟩ <;> first | trivial | rfl | exact hc
      | idle => refine ⟨⟨⟨pc, b, bs, by first | exact h3 | rfl, h4, h5⟩, by first | exact h1 | rfl, h2, h6⟩, ?_, ?_, ?_, ?_⟩ <;> first | trivial | rfl | exact hc
      | gone => refine ⟨⟨⟨pc, b, bs, by first | exact h3 | rfl, h4, h5⟩, by first | exact h1 | rfl, h2, h6⟩, ?_, ?_, ?_, ?_⟩ <;> first | trivial | rfl | exact hc
    | recv =>
      simp only [AsyncAct.label]
      rw [silent_async (by simp) rfl]
      simp only [AsyncShapedSys.step, h3, CallerPc.jammedStep, List.append_nil]
      refine ⟨⟨⟨pc, b, bs, by first | exact h3 | rfl, h4, h5⟩, by first | exact h1 | rfl, h2, h6⟩, ?_, ?_, ?_, ?_⟩ <;> first | trivial | rfl | exact hc
    | tick =>
      simp only [AsyncAct.label]
      rw [silent_async (by simp) rfl]
      simp only [AsyncShapedSys.step, h3, CallerPc.jammedStep, List.append_nil]
      refine ⟨⟨⟨pc, b, bs, by first | exact h3 | rfl, h4, h5⟩, by first | exact h1 | rfl, h2, h6⟩, ?_, ?_, ?_, ?_⟩ <;> first | trivial | rfl | exact hc
    | otherwise =>
      simp only [AsyncAct.label]
      rw [silent_async (by simp) rfl]
      simp only [AsyncShapedSys.step, h3, CallerPc.jammedStep, List.append_nil]
      refine ⟨⟨⟨pc, b, bs, by first | exact h3 | rfl, h4, h5⟩, by first | exact h1 | rfl, h2, h6⟩, ?_, ?_, ?_, ?_⟩ <;> first | trivial | rfl | exact hc

/-- The peer does anything but read. -/
theorem AsyncJammed.peer {cap : Nat} {a : AsyncShapedN (Bytes × Bytes) RA} {b : AsyncShapedN (Bytes × Bytes) RB} (h : AsyncJammed cap a)
    (hnet : b.run.net.2 = a.run.net.1) (N : PollConn (Bytes × Bytes)) (cap' k : Nat) {act : AsyncAct} (hact : act ≠ .reading) :
    AsyncJammed cap (a.step N P prof (.peer (b.step (pollEnd cap' k) P prof act.label).run.net.swap)) := by
  refine ⟨h.task, h.answers, h.queue, ?_⟩
  cases act with
  | reading => exact absurd rfl hact
  | sys l =>
    show cap ≤ (b.step (pollEnd cap' k) P prof (.sys l)).run.net.2.length
    rw [(async_sys_net b cap' k l).1, hnet]
    exact h.full

/-! ## Filling the channel with decoys -/

/-- Steps of the task: ticks, and what follows. -/
def tickSteps (cap : Nat) (P : Prims) (prof : Profile) (s : AsyncShapedN (Bytes × Bytes) R) (bs : List Bool) : AsyncShapedN (Bytes × Bytes) R :=
  bs.foldl (fun s b => s.step (pollEnd cap 0) P prof (.sys (if b then .tick else .task))) s

theorem tickSteps_append (cap : Nat) (s : AsyncShapedN (Bytes × Bytes) R) (bs bs' : List Bool) :
    tickSteps cap P prof s (bs ++ bs') = tickSteps cap P prof (tickSteps cap P prof s bs) bs' := List.foldl_append

/-- What the task leaves alone. -/
def SameCalls (s s' : AsyncShapedN (Bytes × Bytes) R) : Prop :=
  s'.sys.caller = s.sys.caller ∧ s'.sys.returned = s.sys.returned ∧ s'.sys.called = s.sys.called ∧ s'.sys.closed = s.sys.closed ∧
  s'.sys.ws.shaper.config = s.sys.ws.shaper.config ∧ s'.sys.queue = s.sys.queue ∧ s'.sys.answers = s.sys.answers ∧
  s'.half = s.half ∧ s'.sys.reads = s.sys.reads ∧ s'.run.net.2 = s.run.net.2

theorem SameCalls.rfl' (s : AsyncShapedN (Bytes × Bytes) R) : SameCalls s s := ⟨rfl, rfl, rfl, rfl, rfl, rfl, rfl, rfl, rfl, rfl⟩

theorem SameCalls.trans {s s' s'' : AsyncShapedN (Bytes × Bytes) R} (h : SameCalls s s') (h' : SameCalls s' s'') : SameCalls s s'' := by
  obtain ⟨a1, a2, a3, a4, a5, a6, a7, a8, a9, a10⟩ := h
  obtain ⟨b1, b2, b3, b4, b5, b6, b7, b8, b9, b10⟩ := h'
  exact ⟨b1.trans a1, b2.trans a2, b3.trans a3, b4.trans a4, b5.trans a5, b6.trans a6, b7.trans a7, b8.trans a8, b9.trans a9, b10.trans a10⟩

variable {kL kP : Bytes}

/-- A tick, once it has drawn a decoy: the channel gets full, or the tick ends. -/
theorem tick_runs (hP : Lawful P) {cap m d : Nat} {log : List Payload} {rest : Bytes} {s : AsyncShapedN (Bytes × Bytes) R}
    (h : TaskAt P kL kP m d log s.sys rest) {pc : JobPc} (hb : s.sys.task = .covering pc) (hst : ∀ j, pc ≠ .start j)
    (ha : s.sys.answers = []) (hq : s.sys.queue.map (·.payload) = s.sys.called) (hm : m + pc.packets + 1 < 2 ^ 32) :
    ∃ bs, SameCalls s (tickSteps cap P prof s bs) ∧ (AsyncJammed cap (tickSteps cap P prof s bs) ∨
      (∃ d' log', TaskAt P kL kP (m + pc.packets) d' log' (tickSteps cap P prof s bs).sys [] ∧
        (tickSteps cap P prof s bs).sys.task = .select false false ∧
        ((tickSteps cap P prof s bs).run.net.1 = s.run.net.1 ∨ (tickSteps cap P prof s bs).run.net.1.length ≤ cap) ∧
        s.run.net.1.length + rest.length + pc.packets ≤ (tickSteps cap P prof s bs).run.net.1.length)) := by
  generalize hC : pc.cost = C
  induction C using Nat.strongRecOn generalizing s pc m d log rest with
  | _ C ih =>
    have hj : s.sys.task.job? = some (.cover, pc) := by rw [hb]; rfl
    by_cases hd : ∃ r, pc = .done r
    · obtain ⟨r, rfl⟩ := hd
      obtain ⟨d', new, rest', hs, he⟩ := tasker_step (prof := prof) (l := .task) hP (by omega) h (by simp) (by simp) cap 0
      obtain ⟨rfl, rfl⟩ := he (fun _ job' pc' h' => by rw [hj] at h'; cases h'; exact ⟨r, rfl⟩)
      have hrr : r = .ok () := by
        have := h.2.2.2.2.2.2
        rw [hb] at this
        exact this.2.1
      subst hrr
      have e0 := silent_async (N := pollEnd cap 0) (P := P) (prof := prof) (s := s) (l := .task) (by simp) (by simp [AsyncShapedSys.asks, hb, JobPc.asks])
      simp only [AsyncShapedSys.step, AsyncShapedSys.taskStep, hb, reduceCtorEq, if_false] at e0
      have hsd := hs.2.2.1
      rw [List.append_nil] at hsd
      have ht : (s.step (pollEnd cap 0) P prof (.sys .task)).sys.task = .select false false := by rw [e0]
      have hrest : rest' = [] := by
        have := hsd.2.2.2.2.2.2
        rw [ht] at this
        exact this.2.1
      subst hrest
      refine ⟨[false], ?_, .inr ⟨d', log, hsd, ht, .inl ?_, ?_⟩⟩
      · show SameCalls s (s.step (pollEnd cap 0) P prof (.sys .task))
        rw [e0]; exact ⟨rfl, rfl, rfl, rfl, rfl, rfl, rfl, rfl, rfl, rfl⟩
      · show (s.step (pollEnd cap 0) P prof (.sys .task)).run.net.1 = _
        rw [e0]
      · show _ ≤ (s.step (pollEnd cap 0) P prof (.sys .task)).run.net.1.length
        rw [e0]; simp [JobPc.packets]
    · have hnd : ∀ r, pc ≠ .done r := fun r h => hd ⟨r, h⟩
      rcases task_goes (prof := prof) hP (by omega) h hj hnd cap 0 with ⟨-, g2, g3⟩ |
        ⟨s', pc', new, rest', g1, g2, g3, g4, g5, g6, g7, g8, g9, g10, g11, g12, g13, g14⟩
      · have hs := h.2.2.2.2.2.2
        rw [hb] at hs
        obtain ⟨-, -, rfl, -⟩ := hs
        obtain ⟨b, bs, hask⟩ := (rest_asks g3).2
        exact ⟨[], SameCalls.rfl' s, .inl ⟨⟨pc, b, bs, hb, hnd, hask⟩, ha, hq, g2⟩⟩
      · have hp := g12 hst
        have hsame : SameCalls s s' := ⟨g7, g10, g9, g8, g13, g5, g6, g2.2.2.2.1.1, g2.2.2.2.1.2.1, g2.2.2.2.1.2.2.2⟩
        rw [hb] at g3
        obtain ⟨bs, i1, i2⟩ := ih pc'.cost (by omega) g2.2.2.1 g3 (g14 hst) (by rw [g6]; exact ha) (by rw [g5, g9]; exact hq) (by omega) rfl
        have en : tickSteps cap P prof s (false :: bs) = tickSteps cap P prof s' bs := by
          show tickSteps cap P prof (s.step (pollEnd cap 0) P prof (.sys .task)) bs = _
          rw [g1]
        refine ⟨false :: bs, ?_, ?_⟩
        · rw [en]; exact hsame.trans i1
        · rw [en]
          rcases i2 with i2 | ⟨d', log', j1, j3, j4, j5⟩
          · exact .inl i2
          · right
            have hn := (async_sys_net (P := P) (prof := prof) s cap 0 .task).2
            rw [g1] at hn
            have hl := congrArg List.length g2.2.2.2.2
            simp only [List.length_append, payloadStream_length hP] at hl
            have hw := length_le_wireSize new
            refine ⟨d', log', by rw [← hp, ← Nat.add_assoc]; exact j1, j3, ?_, by omega⟩
            rcases j4 with j4 | j4
            · rw [j4]; exact hn
            · exact .inr j4

/-- The task waits in `select!`, and no command has been answered. -/
structure Ticks (P : Prims) (kL kP : Bytes) (m : Nat) (s : AsyncShapedN (Bytes × Bytes) R) : Prop where
  sender : ∃ d log, TaskAt P kL kP m d log s.sys []
  task : ∃ a, s.sys.task = .select a false
  answers : s.sys.answers = []
  queue : s.sys.queue.map (·.payload) = s.sys.called
  decoys : s.sys.ws.shaper.config.decoy = .random

/-- One tick: it draws no decoy, or the channel gets full, or there is more in the channel. -/
theorem one_tick (hP : Lawful P) {cap m : Nat} {s : AsyncShapedN (Bytes × Bytes) R} (h : Ticks P kL kP m s) (hm : m + 2 < 2 ^ 32) :
    ∃ bs, SameCalls s (tickSteps cap P prof s bs) ∧
      (((R.range s.sys.ws.shaper.rng 0 99).2 < 85 ∧ Ticks P kL kP m (tickSteps cap P prof s bs) ∧
          (tickSteps cap P prof s bs).run.net.1 = s.run.net.1 ∧
          (tickSteps cap P prof s bs).sys.ws.shaper.rng = (R.range s.sys.ws.shaper.rng 0 99).1) ∨
        AsyncJammed cap (tickSteps cap P prof s bs) ∨
        (Ticks P kL kP (m + 1) (tickSteps cap P prof s bs) ∧ s.run.net.1.length < (tickSteps cap P prof s bs).run.net.1.length ∧
          (tickSteps cap P prof s bs).run.net.1.length ≤ cap)) := by
  obtain ⟨⟨d, log, hs⟩, ⟨a, ht⟩, han, hqu, hdec⟩ := h
  obtain ⟨c1, c2, c3, c4, c5, c6, c7⟩ := hs
  rw [ht] at c7
  obtain ⟨-, -, c8, c9⟩ := c7
  have e1 : s.step (pollEnd cap 0) P prof (.sys .tick) =
      { s with sys := { s.sys with ws := s.sys.ws.over ⟨[], [], []⟩, task := .covering (.start .cover) } } := by
    rw [silent_async (by simp) rfl]
    simp only [AsyncShapedSys.step, ht]
  by_cases hroll : (R.range s.sys.ws.shaper.rng 0 99).2 < 85
  · have e2 : tickSteps cap P prof s [true, false] = { s with sys := { s.sys with
        ws := { s.sys.ws.over ⟨[], [], []⟩ with shaper := ⟨s.sys.ws.shaper.config, (R.range s.sys.ws.shaper.rng 0 99).1⟩, recorded := s.sys.ws.recorded ++ [] },
        task := .covering (.done (.ok ())) } } := by
      show (s.step (pollEnd cap 0) P prof (.sys .tick)).step (pollEnd cap 0) P prof (.sys .task) = _
      rw [e1, task_covering (pc := .start .cover) rfl (by simp)]
      simp only [JobPc.asks, Conn.ask, JobPc.step, WriterState.over, Shaper.decoy_random hdec]
      rw [if_pos hroll]
    have e3 : tickSteps cap P prof s [true, false, false] = { s with sys := { s.sys with
        ws := { s.sys.ws.over ⟨[], [], []⟩ with shaper := ⟨s.sys.ws.shaper.config, (R.range s.sys.ws.shaper.rng 0 99).1⟩, recorded := s.sys.ws.recorded ++ [] },
        task := .select false false } } := by
      rw [show [true, false, false] = [true, false] ++ [false] from rfl, tickSteps_append, e2]
      simp only [tickSteps, List.foldl_cons, List.foldl_nil, Bool.false_eq_true, if_false]
      rw [silent_async (by simp) rfl]
      simp only [AsyncShapedSys.step, AsyncShapedSys.taskStep, WriterState.over, reduceCtorEq, if_false]
    refine ⟨[true, false, false], ?_, .inl ⟨hroll, ?_, ?_, ?_⟩⟩
    · rw [e3]; exact ⟨rfl, rfl, rfl, rfl, rfl, rfl, rfl, rfl, rfl, rfl⟩
    · rw [e3]
      exact ⟨⟨d, log, c1, c2, c3, c4, c5, c6, ⟨rfl, fun h => (by cases h)⟩, rfl, c8, c9⟩, ⟨false, rfl⟩, han, hqu, hdec⟩
    · rw [e3]
    · rw [e3]
  · obtain ⟨r1, r2⟩ := R.range_mem (R.range s.sys.ws.shaper.rng 0 99).1 1 MAX_DECOY_SIZE_BYTES (by decide)
    obtain ⟨d1, d2, d3⟩ := readable_decoy r2
    have e2 : tickSteps cap P prof s [true, false] = { s with sys := { s.sys with
        ws := { s.sys.ws.over ⟨[], [], []⟩ with
          shaper := ⟨s.sys.ws.shaper.config, (R.range (R.range s.sys.ws.shaper.rng 0 99).1 1 MAX_DECOY_SIZE_BYTES).1⟩,
          recorded := s.sys.ws.recorded ++ [(R.range (R.range s.sys.ws.shaper.rng 0 99).1 1 MAX_DECOY_SIZE_BYTES).2] },
        task := .covering (.cover (.start (.decoy (zeros (R.range (R.range s.sys.ws.shaper.rng 0 99).1 1 MAX_DECOY_SIZE_BYTES).2)))) } } := by
      show (s.step (pollEnd cap 0) P prof (.sys .tick)).step (pollEnd cap 0) P prof (.sys .task) = _
      rw [e1, task_covering (pc := .start .cover) rfl (by simp)]
      simp only [JobPc.asks, Conn.ask, JobPc.step, WriterState.over, Shaper.decoy_random hdec]
      rw [if_neg hroll]
    generalize hs4 : tickSteps cap P prof s [true, false] = s4 at e2
    have hsame : SameCalls s s4 := by rw [e2]; exact ⟨rfl, rfl, rfl, rfl, rfl, rfl, rfl, rfl, rfl, rfl⟩
    have hnet : s4.run = s.run := by rw [e2]
    have hbg : s4.sys.task = .covering (.cover (.start (.decoy (zeros (R.range (R.range s.sys.ws.shaper.rng 0 99).1 1 MAX_DECOY_SIZE_BYTES).2)))) := by
      rw [e2]
    have hsd : TaskAt P kL kP m d log s4.sys [] := by
      rw [e2]
      exact ⟨c1, c2, c3, c4, c5, c6, c8, ⟨rfl, d2, d1⟩, rfl, c9⟩
    obtain ⟨bs, i1, i2⟩ := tick_runs (cap := cap) (prof := prof) hP hsd hbg (by simp) (by rw [e2]; exact han) (by rw [e2]; exact hqu)
      (by simp only [JobPc.packets, WProc.packets]; omega)
    have en : tickSteps cap P prof s ([true, false] ++ bs) = tickSteps cap P prof s4 bs := by rw [tickSteps_append, hs4]
    refine ⟨[true, false] ++ bs, by rw [en]; exact hsame.trans i1, .inr ?_⟩
    rw [en]
    rcases i2 with i2 | ⟨d', log', j1, j3, j4, j5⟩
    · exact .inl i2
    · simp only [JobPc.packets, WProc.packets] at j1 j5
      obtain ⟨a1, a2, a3, a4, a5, a6, a7, -⟩ := hsame.trans i1
      rw [hnet] at j4 j5
      refine .inr ⟨⟨⟨d', log', j1⟩, ⟨false, j3⟩, by rw [a7]; exact han, by rw [a6, a3]; exact hqu, by rw [a5]; exact hdec⟩, by omega, ?_⟩
      rcases j4 with j4 | j4
      · rw [j4] at j5; omega
      · exact j4

/-- The task can fill the channel. -/
theorem ticks_fill (hP : Lawful P) (hR : ∀ x, R.Rolls x) {cap m : Nat} {s : AsyncShapedN (Bytes × Bytes) R} (h : Ticks P kL kP m s)
    (hm : m + (cap - s.run.net.1.length) + 2 < 2 ^ 32) :
    ∃ bs, SameCalls s (tickSteps cap P prof s bs) ∧ AsyncJammed cap (tickSteps cap P prof s bs) := by
  generalize hD : cap - s.run.net.1.length = D
  induction D using Nat.strongRecOn generalizing s m with
  | _ D ih =>
    generalize hx : s.sys.ws.shaper.rng = x
    have hroll := hR x
    induction hroll generalizing s with
    | now x hx' =>
      obtain ⟨bs, g1, g2⟩ := one_tick (cap := cap) (prof := prof) hP h (by omega)
      rcases g2 with ⟨g2, -⟩ | g2 | ⟨g2, g3, g4⟩
      · rw [hx] at g2; omega
      · exact ⟨bs, g1, g2⟩
      · obtain ⟨bs', i1, i2⟩ := ih (cap - (tickSteps cap P prof s bs).run.net.1.length) (by omega) g2 (by omega) rfl
        exact ⟨bs ++ bs', by rw [tickSteps_append]; exact g1.trans i1, by rw [tickSteps_append]; exact i2⟩
    | later x _ ihx =>
      obtain ⟨bs, g1, g2⟩ := one_tick (cap := cap) (prof := prof) hP h (by omega)
      rcases g2 with ⟨-, g2, g3, g4⟩ | g2 | ⟨g2, g3, g4⟩
      · obtain ⟨bs', i1, i2⟩ := ihx g2 (by rw [g3]; exact hm) (by rw [g3]; exact hD) (by rw [g4, hx])
        exact ⟨bs ++ bs', by rw [tickSteps_append]; exact g1.trans i1, by rw [tickSteps_append]; exact i2⟩
      · exact ⟨bs, g1, g2⟩
      · obtain ⟨bs', i1, i2⟩ := ih (cap - (tickSteps cap P prof s bs).run.net.1.length) (by omega) g2 (by omega) rfl
        exact ⟨bs ++ bs', by rw [tickSteps_append]; exact g1.trans i1, by rw [tickSteps_append]; exact i2⟩

end Bip324
