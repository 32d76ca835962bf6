import Verif.Lemmas.AsyncJam
import Verif.Props.ShapedLink
import Verif.Props.Shaping

/-!
# C75: two asynchronous shaped parties over channels of limited capacity

As C72, for `ShapedProtocol` of `traffic/src/futures.rs` (`Verif/Spec/AsyncLink.lean`): each party has an application that
calls `write`, polls it, drops its future or drops the writer, a task that writes, and a reader that is polled.  Whatever the
capacities, the sizes in which bytes are moved and the order in which the tasks are polled:

* What is read as genuine is a prefix of what was given to `write` as genuine, calls whose future was dropped included, and
  no call fails (`C75_reads`).
* As long as the peer reads, the task can work off its queue: then the pending `write` has returned and all that was given to
  `write` has been read, also after the writer was dropped (`C75_live`).
* If the peer does not read, the decoys fill the channel, whatever its capacity, and the task blocks within a tick: then no
  `write` returns, and whatever is given to `write` stays in the queue, which has no bound (`C75_blocked`, `C75_queue`).
* Unlike in the synchronous API the drop of the writer returns at once, and leaves the task behind (`C75_blocked_drop`).
* So two parties that write before they read can wait for each other for ever (`C75_exchange_deadlock`).
-/

namespace Bip324

variable {P : Prims} {prof : Profile} {RA RB : Rng}

/-! ## The statement -/

/-- Before the first call: the ciphers are those of the direction, and nothing is on the way. -/
structure AsyncBegins (P : Prims) (kL kP : Bytes) (n : Nat) (w : AsyncShapedN (Bytes × Bytes) RA) (r : AsyncShapedN (Bytes × Bytes) RB) : Prop where
  writer : w.sys.ws.writer.cipher.At P kL kP n
  reader : ∃ o : OutboundCipher, o.At P kL kP n ∧ Matching o r.half.cipher
  empty : r.half.sess.1.drop r.half.sess.2 ++ w.run.net.1 = []
  noRead : r.half.state = .initReadingLength
  reads : r.sys.reads = []
  task : w.sys.task = .select false false
  queue : w.sys.queue = []
  caller : w.sys.caller = .idle
  closed : w.sys.closed = false
  answers : w.sys.answers = []
  called : w.sys.called = []
  returned : w.sys.returned = []

/-- Both directions; `kA`: the keys with which `a` writes. -/
structure AsyncLink.Begins (P : Prims) (kA kB : Bytes × Bytes) (nA nB : Nat) (s : AsyncLink RA RB) : Prop where
  ab : AsyncBegins P kA.1 kA.2 nA s.a s.b
  ba : AsyncBegins P kB.1 kB.2 nB s.b s.a
  net : s.b.run.net = s.a.run.net.swap

/-- The payloads that the programs write are such as the peer's `read` takes. -/
def ReadableWrites (ms : List AsyncMove) : Prop := ∀ m ∈ ms, ∀ p, m.act = .sys (.call p) → p.Readable

theorem AsyncBegins.taskAt {kL kP : Bytes} {n : Nat} {w : AsyncShapedN (Bytes × Bytes) RA} {r : AsyncShapedN (Bytes × Bytes) RB}
    (h : AsyncBegins P kL kP n w r) : TaskAt P kL kP n 0 [] w.sys [] := by
  refine ⟨h.writer, h.answers, ?_, ?_, ⟨?_, ?_⟩, ?_, ?_⟩
  · rw [h.returned]; simp
  · rw [h.called]; simp
  · rw [h.caller]; simp
  · rw [h.closed]; simp
  · rw [h.returned, h.caller, h.called]; exact .slnil
  · rw [h.task, h.called, h.queue]
    exact ⟨⟨rfl, fun h => (by cases h)⟩, rfl, ⟨rfl, rfl, rfl⟩, rfl⟩

theorem AsyncBegins.lane {kL kP : Bytes} {n : Nat} {w : AsyncShapedN (Bytes × Bytes) RA} {r : AsyncShapedN (Bytes × Bytes) RB}
    (h : AsyncBegins P kL kP n w r) : AsyncLane P prof kL kP n [] [] w r := by
  refine ⟨by simp, ⟨0, h.taskAt⟩, 0, Nat.le_refl _, by rw [h.reads]; rfl, ?_⟩
  unfold AsyncReaderAt
  rw [h.noRead]
  obtain ⟨o, h1, h2⟩ := h.reader
  refine ⟨o, h1, h2, rfl, by omega, ?_⟩
  have := h.empty
  simp only [AsyncHalf.held, List.append_nil, List.take_zero, List.nil_append]
  rw [this]; rfl

theorem AsyncLink.Begins.inv {kA kB : Bytes × Bytes} {nA nB : Nat} {s : AsyncLink RA RB} (h : s.Begins P kA kB nA nB) :
    s.Inv P prof kA kB nA nB 0 :=
  ⟨h.net, ⟨[], [], Nat.le_refl _, h.ab.lane⟩, ⟨[], [], Nat.le_refl _, h.ba.lane⟩, by rw [h.ab.called]; exact Nat.le_refl _,
    by rw [h.ba.called]; exact Nat.le_refl _⟩

/-! ## Safety -/

/-- What one direction looks like at every point. -/
structure AsyncFlowOk (w : AsyncShapedN (Bytes × Bytes) RA) (r : AsyncShapedN (Bytes × Bytes) RB) : Prop where
  /-- No read has failed. -/
  readsOk : readyReads r.sys.reads = (okOf (readyReads r.sys.reads)).map .ok
  /-- What has been read as genuine is a prefix of what has been given to `write` as genuine. -/
  genuine : genuineOf (okOf (readyReads r.sys.reads)) <+: genuineOf w.sys.called
  /-- No write has failed. -/
  writesOk : ∀ x ∈ w.sys.returned, x.2 = .ok ()
  /-- The calls return in the order in which they are made; those whose future was dropped do not return. -/
  returned : (w.sys.returned.map (·.1)).Sublist w.sys.called
  /-- The task is there. -/
  task : w.sys.task ≠ .finished ∧ w.sys.task ≠ .panicked
  /-- What is in the queue has not been read: it comes after all that has been read. -/
  queue : ∃ begun, w.sys.called = begun ++ w.sys.queue.map (·.payload) ∧ genuineOf (okOf (readyReads r.sys.reads)) <+: genuineOf begun

theorem AsyncLane.reads {kL kP : Bytes} {n : Nat} {log : List Payload} {rest : Bytes} {w : AsyncShapedN (Bytes × Bytes) RA}
    {r : AsyncShapedN (Bytes × Bytes) RB} (h : AsyncLane P prof kL kP n log rest w r) :
    readyReads r.sys.reads = (okOf (readyReads r.sys.reads)).map .ok ∧
      genuineOf (okOf (readyReads r.sys.reads)) = genuineOf (log.take (readyReads r.sys.reads).length) := by
  obtain ⟨j, h1, h2, -⟩ := h.reader
  have hlen : (readyReads r.sys.reads).length = j := by rw [h2, List.length_map, List.length_take]; omega
  rw [hlen, h2, okOf_map]
  refine ⟨by rw [List.map_map]; rfl, ?_⟩
  exact genuineOf_map_received fun p hp => h.readable p (List.mem_of_mem_take hp)

theorem AsyncLane.begun {kL kP : Bytes} {n : Nat} {log : List Payload} {rest : Bytes} {w : AsyncShapedN (Bytes × Bytes) RA}
    {r : AsyncShapedN (Bytes × Bytes) RB} (h : AsyncLane P prof kL kP n log rest w r) :
    ∃ begun, w.sys.called = begun ++ w.sys.queue.map (·.payload) ∧ genuineOf log <+: genuineOf begun := by
  obtain ⟨d, -, -, -, -, -, -, hs⟩ := h.sender
  cases ht : w.sys.task with
  | select a t =>
    rw [ht] at hs
    exact ⟨w.sys.called.take d, by rw [hs.2.2.1.1, List.take_append_drop], by rw [hs.2.2.2]; exact List.prefix_rfl⟩
  | covering pc =>
    rw [ht] at hs
    exact ⟨w.sys.called.take d, by rw [hs.1.1, List.take_append_drop], by rw [hs.2.2.2]; exact List.prefix_rfl⟩
  | writing cmd pc =>
    rw [ht] at hs
    obtain ⟨⟨c1, -, -⟩, -, -, hl⟩ := hs
    refine ⟨w.sys.called.take d ++ [cmd.payload], ?_, ?_⟩
    · rw [List.append_assoc]
      show _ = _ ++ (cmd :: w.sys.queue).map (·.payload)
      rw [c1, List.take_append_drop]
    · rw [hl, genuineOf_append]
      refine List.prefix_append_right_inj _ |>.2 ?_
      have : pc.begun (.write cmd.payload) = [] ∨ pc.begun (.write cmd.payload) = [cmd.payload] := by
        cases pc with
        | payload w => cases w <;> simp [JobPc.begun]
        | _ => simp [JobPc.begun]
      rcases this with h | h
      · rw [h]; exact List.nil_prefix
      · rw [h]; exact List.prefix_rfl
  | _ => rw [ht] at hs; exact hs.elim

theorem AsyncLane.flow {kL kP : Bytes} {n : Nat} {log : List Payload} {rest : Bytes} {w : AsyncShapedN (Bytes × Bytes) RA}
    {r : AsyncShapedN (Bytes × Bytes) RB} (h : AsyncLane P prof kL kP n log rest w r) : AsyncFlowOk w r := by
  obtain ⟨h1, h2⟩ := h.reads
  obtain ⟨begun, b1, b2⟩ := h.begun
  have hp : genuineOf (okOf (readyReads r.sys.reads)) <+: genuineOf begun := by
    rw [h2]
    refine List.IsPrefix.trans ?_ b2
    have := List.take_append_drop (readyReads r.sys.reads).length log
    conv => rhs; rw [← this, genuineOf_append]
    exact List.prefix_append _ _
  obtain ⟨d, -, -, g2, -, -, g5, g6⟩ := h.sender
  refine ⟨h1, ?_, g2, (List.sublist_append_left _ _).trans g5, ?_, begun, b1, hp⟩
  · rw [b1, genuineOf_append]
    exact hp.trans (List.prefix_append _ _)
  · constructor <;> (intro ht; rw [ht] at g6; exact g6)

/-- **C75_reads.**  At every point of every run of two asynchronous shaped parties: no call has failed and no task has ended;
what a party has read as genuine is a prefix of what the other has given to `write` as genuine, in the order of the calls,
whether or not their futures were dropped, and whatever decoys and padding are between. -/
theorem C75_reads (hP : Lawful P) {kA kB : Bytes × Bytes} {nA nB : Nat} {s : AsyncLink RA RB} (h : s.Begins P kA kB nA nB)
    {capA capB : Nat} {ms : List AsyncMove} (hms : ReadableWrites ms) (hA : nA + ms.length < 2 ^ 32) (hB : nB + ms.length < 2 ^ 32)
    {s' : AsyncLink RA RB} (hs : s.run capA capB P prof ms = s') : AsyncFlowOk s'.a s'.b ∧ AsyncFlowOk s'.b s'.a := by
  subst hs
  have hi := (h.inv (prof := prof)).run hP capA capB ms hms (by omega) (by omega)
  obtain ⟨logA, restA, -, hab⟩ := hi.ab
  obtain ⟨logB, restB, -, hba⟩ := hi.ba
  exact ⟨hab.flow, hba.flow⟩

/-! ## Liveness -/

/-- What it means that all is done in one direction. -/
structure AsyncSettled (called : List Payload) (w : AsyncShapedN (Bytes × Bytes) RA) (r : AsyncShapedN (Bytes × Bytes) RB) : Prop where
  /-- No call is in progress, and the task waits for something to do. -/
  rest : w.sys.caller = .idle ∨ w.sys.caller = .gone
  task : ∃ a, w.sys.task = .select a false
  queue : w.sys.queue = []
  /-- All has been read. -/
  reads : genuineOf (okOf (readyReads r.sys.reads)) = genuineOf called
  empty : w.run.net.1 = []

/-- **C75_live.**  Wherever two asynchronous shaped parties are: if the peer reads, then a party can go on to a point at
which its pending `write` has returned without an error and the peer has read all of the genuine payloads that were given to
`write`, those whose future was dropped included.  The schedule has steps of the task, polls of the pending `write` and steps
of the reader of the other only; one byte of capacity is enough.  It holds also if the writer has been dropped. -/
theorem C75_live (hP : Lawful P) {kA kB : Bytes × Bytes} {nA nB : Nat} {s : AsyncLink RA RB} (h : s.Begins P kA kB nA nB)
    {capA capB : Nat} (hcap : 0 < capA) {ms : List AsyncMove} (hms : ReadableWrites ms) (hA : nA + 3 * ms.length + 5 < 2 ^ 32)
    (hB : nB + ms.length < 2 ^ 32) {s' : AsyncLink RA RB} (hs : s.run capA capB P prof ms = s') :
    ∃ more : List AsyncMove,
      (∀ m ∈ more, if m.ofA then m.act = .sys .resume ∨ m.act = .sys .recv ∨ m.act = .sys .task else m.act = .sys .read ∨ m.act = .reading) ∧
      ∀ t, s'.run capA capB P prof more = t → AsyncSettled s'.a.sys.called t.a t.b ∧
      t.a.sys.returned = s'.a.sys.returned ++ (match s'.a.sys.caller with | .waiting p _ => [(p, .ok ())] | _ => []) ∧
      (s'.a.sys.caller = .gone → t.a.sys.caller = .gone) := by
  subst hs
  have hi := (h.inv (prof := prof)).run hP capA capB ms hms (by omega) (by omega)
  generalize hst : s.run capA capB P prof ms = s' at hi
  obtain ⟨log, rest, hl, hab⟩ := hi.ab
  have hq : s'.a.sys.queue.length ≤ ms.length := by
    obtain ⟨begun, b1, -⟩ := hab.begun
    have := congrArg List.length b1
    rw [List.length_append, List.length_map] at this
    have := hi.callsA
    omega
  obtain ⟨s1, log1, ⟨more, m1, rfl⟩, g2, g3, g4, g5, g6, g7, g8, g9, g10, g11⟩ := async_settle (capB := capB) hP hcap hi.net hab (by omega)
  refine ⟨more, fun m hm => m1 m hm, fun t ht => ?_⟩
  subst ht
  refine ⟨⟨?_, g4, g5, ?_, g9⟩, ?_, ?_⟩
  · rw [g7]
    cases s'.a.sys.caller with
    | idle => exact .inl rfl
    | gone => exact .inr rfl
    | waiting p rx => exact .inl rfl
  · rw [g3.reads.2, g10, List.take_length, g11]
  · rw [g8]
    cases s'.a.sys.caller <;> rfl
  · intro hg
    rw [g7, hg]

/-- **C75_swap.**  The two parties are in the same position: what holds of one holds of the other. -/
theorem C75_swap (s : AsyncLink RA RB) (capA capB : Nat) (m : AsyncMove) :
    (⟨s.b, s.a⟩ : AsyncLink RB RA).step capB capA P prof ⟨!m.ofA, m.act, m.k⟩ =
      ⟨(s.step capA capB P prof m).b, (s.step capA capB P prof m).a⟩ := by
  unfold AsyncLink.step
  cases m.ofA <;> rfl

/-! ## A peer that does not read -/

/-- A tick of the interval, or a step of the task. -/
def tickMove (ofA : Bool) (b : Bool) : AsyncMove := ⟨ofA, .sys (if b then .tick else .task), 0⟩

theorem run_ticks (capA capB : Nat) (bs : List Bool) (s : AsyncLink RA RB) (hnet : s.b.run.net = s.a.run.net.swap) :
    (s.run capA capB P prof (bs.map (tickMove true))).a = tickSteps capA P prof s.a bs ∧
    (s.run capA capB P prof (bs.map (tickMove true))).b.sys = s.b.sys ∧
    (s.run capA capB P prof (bs.map (tickMove true))).b.run.net = (tickSteps capA P prof s.a bs).run.net.swap := by
  induction bs generalizing s with
  | nil => exact ⟨rfl, rfl, hnet⟩
  | cons b bs ih =>
    have := ih (s.step capA capB P prof (tickMove true b)) rfl
    exact this

theorem run_ticks' (capA capB : Nat) (bs : List Bool) (s : AsyncLink RA RB) (hnet : s.b.run.net = s.a.run.net.swap) :
    (s.run capA capB P prof (bs.map (tickMove false))).b = tickSteps capB P prof s.b bs ∧
    (s.run capA capB P prof (bs.map (tickMove false))).a.sys = s.a.sys ∧
    (s.run capA capB P prof (bs.map (tickMove false))).a.run.net = (tickSteps capB P prof s.b bs).run.net.swap := by
  induction bs generalizing s with
  | nil => exact ⟨rfl, rfl, by rw [List.map_nil]; show s.a.run.net = s.b.run.net.swap; rw [hnet]; rfl⟩
  | cons b bs ih =>
    have := ih (s.step capA capB P prof (tickMove false b)) rfl
    exact this

/-- No reader of `b` makes a step. -/
def NoPollsOfB (ms : List AsyncMove) : Prop := ∀ m ∈ ms, m.ofA = false → m.act ≠ .reading

/-- What the application of `a` does. -/
def callerAfter : List AsyncMove → Nat → CallerPc → CallerPc
  | [], _, c => c
  | m :: ms, n, c =>
    if m.ofA then
      callerAfter ms (n + (match m.act with | .sys (.call _) => if c = .idle then 1 else 0 | _ => 0)) (c.jammedStep n m.act)
    else callerAfter ms n c

/-- A party that waits goes on waiting. -/
theorem async_jam_run {capA capB : Nat} (ms : List AsyncMove) (hms : NoPollsOfB ms) {s : AsyncLink RA RB} (hnet : s.b.run.net = s.a.run.net.swap)
    (hj : AsyncJammed capA s.a) :
    (s.run capA capB P prof ms).b.run.net = (s.run capA capB P prof ms).a.run.net.swap ∧ AsyncJammed capA (s.run capA capB P prof ms).a ∧
    (s.run capA capB P prof ms).a.sys.returned = s.a.sys.returned ∧
    (s.run capA capB P prof ms).a.sys.caller = callerAfter ms s.a.sys.called.length s.a.sys.caller := by
  induction ms generalizing s with
  | nil => exact ⟨hnet, hj, rfl, rfl⟩
  | cons m ms ih =>
    have hm := hms m (by simp)
    show ((s.step capA capB P prof m).run capA capB P prof ms).b.run.net = ((s.step capA capB P prof m).run capA capB P prof ms).a.run.net.swap ∧
      AsyncJammed capA ((s.step capA capB P prof m).run capA capB P prof ms).a ∧
      ((s.step capA capB P prof m).run capA capB P prof ms).a.sys.returned = s.a.sys.returned ∧
      ((s.step capA capB P prof m).run capA capB P prof ms).a.sys.caller = callerAfter (m :: ms) s.a.sys.called.length s.a.sys.caller
    unfold callerAfter
    cases hc : m.ofA with
    | true =>
      obtain ⟨j1, j2, j3, j4, -⟩ := hj.step (P := P) (prof := prof) m.k m.act
      have e : s.step capA capB P prof m = ⟨s.a.step (pollEnd capA m.k) P prof m.act.label,
          s.b.step (pollEnd capB m.k) P prof (.peer (s.a.step (pollEnd capA m.k) P prof m.act.label).run.net.swap)⟩ := by
        unfold AsyncLink.step; rw [if_pos hc]
      rw [e]
      obtain ⟨i1, i2, i3, i4⟩ := ih (fun x hx => hms x (by simp [hx])) (s := ⟨s.a.step (pollEnd capA m.k) P prof m.act.label,
          s.b.step (pollEnd capB m.k) P prof (.peer (s.a.step (pollEnd capA m.k) P prof m.act.label).run.net.swap)⟩) rfl j1
      refine ⟨i1, i2, i3.trans j2, ?_⟩
      rw [i4, j3, j4, if_pos rfl]
      congr 1
      rw [List.length_append]
      congr 1
      cases m.act with
      | reading => rfl
      | sys l =>
        cases l with
        | call p =>
          simp only
          by_cases hi : s.a.sys.caller = .idle
          · rw [if_pos hi, if_pos hi]; rfl
          · rw [if_neg hi, if_neg hi]; rfl
        | _ => rfl
    | false =>
      have e : s.step capA capB P prof m = ⟨s.a.step (pollEnd capA m.k) P prof (.peer (s.b.step (pollEnd capB m.k) P prof m.act.label).run.net.swap),
          s.b.step (pollEnd capB m.k) P prof m.act.label⟩ := by
        unfold AsyncLink.step; rw [if_neg (by rw [hc]; simp)]
      rw [e]
      have := ih (fun x hx => hms x (by simp [hx])) (s := ⟨s.a.step (pollEnd capA m.k) P prof (.peer (s.b.step (pollEnd capB m.k) P prof m.act.label).run.net.swap),
          s.b.step (pollEnd capB m.k) P prof m.act.label⟩) rfl (hj.peer (by rw [hnet]; rfl) (pollEnd capA m.k) capB m.k (hm hc))
      exact this

theorem AsyncBegins.ticks {kL kP : Bytes} {n : Nat} {w : AsyncShapedN (Bytes × Bytes) RA} {r : AsyncShapedN (Bytes × Bytes) RB}
    (h : AsyncBegins P kL kP n w r) (hd : w.sys.ws.shaper.config.decoy = .random) : Ticks P kL kP n w :=
  ⟨⟨0, [], h.taskAt⟩, ⟨false, h.task⟩, h.answers, by rw [h.queue, h.called]; rfl, hd⟩

/-- The task of `a` fills the channel, and then anything happens but that `b` reads. -/
theorem async_jam (hP : Lawful P) (hR : ∀ x, RA.Rolls x) {kA kB : Bytes × Bytes} {nA nB : Nat} {s : AsyncLink RA RB}
    (h : s.Begins P kA kB nA nB) (hd : s.a.sys.ws.shaper.config.decoy = .random) {capA capB : Nat} (hn : nA + capA + 2 < 2 ^ 32) :
    ∃ bs : List Bool, ∀ more, NoPollsOfB more → ∀ s', s.run capA capB P prof (bs.map (tickMove true) ++ more) = s' →
      s'.b.run.net = s'.a.run.net.swap ∧ AsyncJammed capA s'.a ∧ s'.a.sys.returned = [] ∧ s'.a.sys.caller = callerAfter more 0 .idle := by
  obtain ⟨bs, hsame, hj⟩ := ticks_fill (prof := prof) hP hR (h.ab.ticks hd) (cap := capA) (by omega)
  refine ⟨bs, fun more hm s' hs => ?_⟩
  subst hs
  obtain ⟨e1, e2, e3⟩ := run_ticks (P := P) (prof := prof) capA capB bs s h.net
  have hrun : s.run capA capB P prof (bs.map (tickMove true) ++ more) =
      (s.run capA capB P prof (bs.map (tickMove true))).run capA capB P prof more := by
    unfold AsyncLink.run; rw [List.foldl_append]
  rw [hrun]
  generalize s.run capA capB P prof (bs.map (tickMove true)) = t at *
  rw [← e1] at hsame hj e3
  obtain ⟨r1, r2, r3, r4⟩ := async_jam_run (P := P) (prof := prof) (capA := capA) (capB := capB) more hm e3 hj
  refine ⟨r1, r2, ?_, ?_⟩
  · rw [r3, hsame.2.1, h.ab.returned]
  · rw [r4, hsame.2.2.1, hsame.1, h.ab.called, h.ab.caller]; rfl

/-- **C75_blocked.**  An asynchronous shaped party with decoys, whose peer does not read: whatever the capacity of the
channel, ticks of its interval alone can fill it, and its task blocks within a tick.  From then on, until the peer reads, no
`write` returns, and every payload that is given to `write` is in the queue: nothing of it is sent.  Not even if the party
itself reads, or drops the futures, or the writer. -/
theorem C75_blocked (hP : Lawful P) (hR : ∀ x, RA.Rolls x) {kA kB : Bytes × Bytes} {nA nB : Nat} {s : AsyncLink RA RB}
    (h : s.Begins P kA kB nA nB) (hd : s.a.sys.ws.shaper.config.decoy = .random) {capA capB : Nat} (hn : nA + capA + 2 < 2 ^ 32) :
    ∃ bs : List Bool, ∀ more, NoPollsOfB more → ∀ s', s.run capA capB P prof (bs.map (tickMove true) ++ more) = s' →
      (∃ pc, s'.a.sys.task = .covering pc) ∧ s'.a.sys.returned = [] ∧ s'.a.sys.queue.map (·.payload) = s'.a.sys.called := by
  obtain ⟨bs, hb⟩ := async_jam (prof := prof) (capB := capB) hP hR h hd hn
  refine ⟨bs, fun more hm s' hs => ?_⟩
  obtain ⟨-, h2, h3, -⟩ := hb more hm s' hs
  obtain ⟨pc, b, bs', h5, -⟩ := h2.task
  exact ⟨⟨pc, h5⟩, h3, h2.queue⟩

/-- **C75_queue.**  The queue has no bound: an application that gives up its calls of `write` after a while (for instance
with a timeout) and calls again puts one payload after the other into it. -/
theorem C75_queue (hP : Lawful P) (hR : ∀ x, RA.Rolls x) {kA kB : Bytes × Bytes} {nA nB : Nat} {s : AsyncLink RA RB}
    (h : s.Begins P kA kB nA nB) (hd : s.a.sys.ws.shaper.config.decoy = .random) {capA capB : Nat} (hn : nA + capA + 2 < 2 ^ 32) :
    ∃ bs : List Bool, ∀ (ps : List Payload) s',
      s.run capA capB P prof (bs.map (tickMove true) ++ ps.flatMap fun p => [⟨true, .sys (.call p), 0⟩, ⟨true, .sys .cancel, 0⟩]) = s' →
      s'.a.sys.queue.map (·.payload) = ps := by
  obtain ⟨bs, hsame, hj⟩ := ticks_fill (prof := prof) hP hR (h.ab.ticks hd) (cap := capA) (by omega)
  refine ⟨bs, fun ps s' hs => ?_⟩
  subst hs
  obtain ⟨e1, e2, e3⟩ := run_ticks (P := P) (prof := prof) capA capB bs s h.net
  rw [show ∀ l l', s.run capA capB P prof (l ++ l') = (s.run capA capB P prof l).run capA capB P prof l' from fun l l' => List.foldl_append]
  generalize s.run capA capB P prof (bs.map (tickMove true)) = t at *
  rw [← e1] at hsame hj e3
  have hcal : t.a.sys.called = [] := hsame.2.2.1.trans h.ab.called
  have hidle : t.a.sys.caller = .idle := hsame.1.trans h.ab.caller
  have key : ∀ (ps : List Payload) (t : AsyncLink RA RB), AsyncJammed capA t.a → t.a.sys.caller = .idle →
      AsyncJammed capA (t.run capA capB P prof (ps.flatMap fun p => [⟨true, .sys (.call p), 0⟩, ⟨true, .sys .cancel, 0⟩])).a ∧
      (t.run capA capB P prof (ps.flatMap fun p => [⟨true, .sys (.call p), 0⟩, ⟨true, .sys .cancel, 0⟩])).a.sys.called = t.a.sys.called ++ ps := by
    intro ps
    induction ps with
    | nil => intro t hj _; exact ⟨hj, (List.append_nil _).symm⟩
    | cons p ps ih =>
      intro t hj hi
      obtain ⟨j1, -, j3, j4, -⟩ := hj.step (P := P) (prof := prof) 0 (.sys (.call p))
      obtain ⟨k1, -, k3, k4, -⟩ := j1.step (P := P) (prof := prof) 0 (.sys .cancel)
      rw [j3, hi] at k3
      rw [j4] at k4
      simp only [hi, if_true, List.append_nil] at k4
      obtain ⟨i1, i2⟩ := ih ((t.step capA capB P prof ⟨true, .sys (.call p), 0⟩).step capA capB P prof ⟨true, .sys .cancel, 0⟩) k1 k3
      refine ⟨i1, ?_⟩
      refine i2.trans ?_
      show (((t.a.step (pollEnd capA 0) P prof (AsyncAct.sys (.call p)).label).step (pollEnd capA 0) P prof (AsyncAct.sys .cancel).label).sys.called) ++ ps = _
      rw [k4, List.append_assoc]; rfl
  obtain ⟨r1, r2⟩ := key ps t hj hidle
  rw [r1.queue, r2, hcal, List.nil_append]

/-- **C75_blocked_drop.**  The drop of the writer returns at once, unlike that of the synchronous API (`C72_blocked_drop`);
the task stays behind with all that was given to `write`. -/
theorem C75_blocked_drop (hP : Lawful P) (hR : ∀ x, RA.Rolls x) {kA kB : Bytes × Bytes} {nA nB : Nat} {s : AsyncLink RA RB}
    (h : s.Begins P kA kB nA nB) (hd : s.a.sys.ws.shaper.config.decoy = .random) {capA capB : Nat} (hn : nA + capA + 2 < 2 ^ 32) :
    ∃ bs : List Bool, ∀ p k k' k'' more, NoPollsOfB more → ∀ s',
      s.run capA capB P prof (bs.map (tickMove true) ++
        ⟨true, .sys (.call p), k⟩ :: ⟨true, .sys .cancel, k'⟩ :: ⟨true, .sys .drop, k''⟩ :: more) = s' →
      s'.a.sys.caller = .gone ∧ (∃ pc, s'.a.sys.task = .covering pc) ∧ s'.a.sys.queue.map (·.payload) = s'.a.sys.called := by
  obtain ⟨bs, hb⟩ := async_jam (prof := prof) (capB := capB) hP hR h hd hn
  refine ⟨bs, fun p k k' k'' more hm s' hs => ?_⟩
  have hm' : NoPollsOfB (⟨true, .sys (.call p), k⟩ :: ⟨true, .sys .cancel, k'⟩ :: ⟨true, .sys .drop, k''⟩ :: more) := by
    intro m hm'
    simp only [List.mem_cons] at hm'
    rcases hm' with rfl | rfl | rfl | hm'
    · simp
    · simp
    · simp
    · exact hm m hm'
  obtain ⟨-, h2, -, h4⟩ := hb _ hm' s' hs
  obtain ⟨pc, b, bs', h5, -⟩ := h2.task
  refine ⟨?_, ⟨pc, h5⟩, h2.queue⟩
  rw [h4]
  simp only [callerAfter, if_true, CallerPc.jammedStep]
  have stays : ∀ (ms : List AsyncMove) n, callerAfter ms n .gone = .gone := by
    intro ms
    induction ms with
    | nil => intro n; rfl
    | cons m ms ih =>
      intro n
      unfold callerAfter
      have e : CallerPc.jammedStep .gone n m.act = .gone := by
        cases m.act with
        | reading => rfl
        | sys l => cases l <;> rfl
      rw [e]
      split <;> exact ih _
  exact stays _ _

/-! ## Two parties that write first -/

theorem async_writeFirst_eq {capA capB : Nat} (ms : List AsyncMove)
    (h : ∀ m ∈ ms, m.act ≠ .sys .read ∧ m.act ≠ .reading ∧ m.act ≠ .sys .cancel) (s : AsyncLink RA RB) :
    s.runWriteFirst capA capB P prof ms = s.run capA capB P prof ms := by
  induction ms generalizing s with
  | nil => rfl
  | cons m ms ih =>
    unfold AsyncLink.runWriteFirst AsyncLink.run at *
    rw [List.foldl_cons, List.foldl_cons]
    have := h m (by simp)
    rw [if_neg (by rintro ⟨-, h1⟩; exact h1.elim this.1 fun h1 => h1.elim this.2.1 this.2.2)]
    exact ih (fun x hx => h x (by simp [hx])) _

theorem AsyncJammed.rest {capA capB : Nat} {p q : Payload} {i j : Nat} {s : AsyncLink RA RB} (hnet : s.b.run.net = s.a.run.net.swap)
    (ha : AsyncJammed capA s.a) (hb : AsyncJammed capB s.b) (h1 : s.a.sys.caller = .waiting p i) (h2 : s.b.sys.caller = .waiting q j)
    (h3 : s.a.sys.returned = []) (h4 : s.b.sys.returned = []) (more : List AsyncMove) {s' : AsyncLink RA RB}
    (hs : s.runWriteFirst capA capB P prof more = s') :
    s'.a.sys.caller = .waiting p i ∧ s'.b.sys.caller = .waiting q j ∧ s'.a.sys.returned = [] ∧ s'.b.sys.returned = [] := by
  have stays : ∀ {p : Payload} {i n : Nat} {act : AsyncAct}, act ≠ .sys .cancel → CallerPc.jammedStep (.waiting p i) n act = .waiting p i := by
    intro p i n act ha
    cases act with
    | reading => rfl
    | sys l =>
      cases l with
      | cancel => exact absurd rfl ha
      | call r => simp [CallerPc.jammedStep]
      | drop => simp [CallerPc.jammedStep]
      | _ => rfl
  induction more generalizing s with
  | nil => subst hs; exact ⟨h1, h2, h3, h4⟩
  | cons m more ih =>
    have hs : (if (if m.ofA then s.a.sys.returned else s.b.sys.returned) = [] ∧ (m.act = .sys .read ∨ m.act = .reading ∨ m.act = .sys .cancel) then s
        else s.step capA capB P prof m).runWriteFirst capA capB P prof more = s' := hs
    by_cases hc : (if m.ofA then s.a.sys.returned else s.b.sys.returned) = [] ∧ (m.act = .sys .read ∨ m.act = .reading ∨ m.act = .sys .cancel)
    · rw [if_pos hc] at hs
      exact ih hnet ha hb h1 h2 h3 h4 hs
    · rw [if_neg hc] at hs
      unfold AsyncLink.step at hs
      cases hm : m.ofA with
      | true =>
        rw [hm] at hs hc
        simp only [if_true] at hs hc
        obtain ⟨j1, j2, j3, -⟩ := ha.step (P := P) (prof := prof) m.k m.act
        rw [h1, stays fun h => hc ⟨h3, .inr (.inr h)⟩] at j3
        exact ih (s := ⟨_, _⟩) rfl j1 (hb.peer (by rw [hnet]; rfl) (pollEnd capB m.k) capA m.k fun h => hc ⟨h3, .inr (.inl h)⟩)
          j3 h2 (j2.trans h3) h4 hs
      | false =>
        rw [hm] at hs hc
        simp only [Bool.false_eq_true, if_false] at hs hc
        obtain ⟨j1, j2, j3, -⟩ := hb.step (P := P) (prof := prof) m.k m.act
        rw [h2, stays fun h => hc ⟨h4, .inr (.inr h)⟩] at j3
        exact ih (s := ⟨_, _⟩) rfl (ha.peer (by rw [hnet]; rfl) (pollEnd capA m.k) capB m.k fun h => hc ⟨h4, .inr (.inl h)⟩) j1
          h1 j3 h3 (j2.trans h4) hs

theorem tickMove_quiet (ofA : Bool) (bs : List Bool) :
    ∀ m ∈ bs.map (tickMove ofA), m.act ≠ .sys .read ∧ m.act ≠ .reading ∧ m.act ≠ .sys .cancel := by
  intro m hm
  obtain ⟨b, -, rfl⟩ := List.mem_map.1 hm
  cases b <;> simp [tickMove]

/-- **C75_exchange_deadlock.**  Two asynchronous shaped parties with decoys, each of which awaits its first `write` before it
reads: whatever the channels hold and whatever they write, they can get to a point from which neither call ever returns. -/
theorem C75_exchange_deadlock (hP : Lawful P) (hRA : ∀ x, RA.Rolls x) (hRB : ∀ x, RB.Rolls x) {kA kB : Bytes × Bytes} {nA nB : Nat}
    {s : AsyncLink RA RB} (h : s.Begins P kA kB nA nB) (hdA : s.a.sys.ws.shaper.config.decoy = .random)
    (hdB : s.b.sys.ws.shaper.config.decoy = .random) {capA capB : Nat} (hnA : nA + capA + 2 < 2 ^ 32) (hnB : nB + capB + 2 < 2 ^ 32)
    (p q : Payload) :
    ∃ ms, ∀ more s', s.runWriteFirst capA capB P prof (ms ++ more) = s' →
      s'.a.sys.caller = .waiting p 0 ∧ s'.b.sys.caller = .waiting q 0 ∧ s'.a.sys.returned = [] ∧ s'.b.sys.returned = [] := by
  -- a fills its channel
  obtain ⟨bs, hsame, hj⟩ := ticks_fill (prof := prof) hP hRA (h.ab.ticks hdA) (cap := capA) (by omega)
  obtain ⟨e1, e2, e3⟩ := run_ticks (P := P) (prof := prof) capA capB bs s h.net
  have w1 := async_writeFirst_eq (P := P) (prof := prof) (capA := capA) (capB := capB) _ (tickMove_quiet true bs) s
  generalize hms1 : bs.map (tickMove true) = ms1 at *
  generalize ht : s.run capA capB P prof ms1 = t at *
  rw [← e1] at hsame hj e3
  -- so does b
  have hrB : Ticks P kB.1 kB.2 nB t.b := by
    obtain ⟨r1, r2, r3, r4, r5⟩ := h.ba.ticks hdB
    exact ⟨by rw [e2]; exact r1, by rw [e2]; exact r2, by rw [e2]; exact r3, by rw [e2]; exact r4, by rw [e2]; exact r5⟩
  obtain ⟨bs', hsame', hj'⟩ := ticks_fill (prof := prof) hP hRB hrB (cap := capB) (by omega)
  obtain ⟨f1, f2, f3⟩ := run_ticks' (P := P) (prof := prof) capA capB bs' t e3
  have w2 := async_writeFirst_eq (P := P) (prof := prof) (capA := capA) (capB := capB) _ (tickMove_quiet false bs') t
  have hnr : NoPollsOfB (bs'.map (tickMove false)) := fun m hm _ => (tickMove_quiet false bs' m hm).2.1
  obtain ⟨d1, d2, d3, -⟩ := async_jam_run (P := P) (prof := prof) (capA := capA) (capB := capB) _ hnr e3 hj
  generalize hms2 : bs'.map (tickMove false) = ms2 at *
  generalize hu : t.run capA capB P prof ms2 = u at *
  rw [← f1] at hsame' hj'
  -- both call
  obtain ⟨g1, g2, g3, -, -⟩ := d2.step (P := P) (prof := prof) 0 (.sys (.call p))
  have hv : AsyncJammed capB (u.step capA capB P prof ⟨true, .sys (.call p), 0⟩).b :=
    hj'.peer (by rw [d1]; rfl) (pollEnd capB 0) capA 0 (by simp)
  obtain ⟨k1, k2, k3, -, -⟩ := hv.step (P := P) (prof := prof) 0 (.sys (.call q))
  have w3 := async_writeFirst_eq (P := P) (prof := prof) (capA := capA) (capB := capB)
    [⟨true, .sys (.call p), 0⟩, ⟨false, .sys (.call q), 0⟩] (by simp) u
  have hca : u.a.sys.caller = .idle := by rw [f2, hsame.1]; exact h.ab.caller
  have hla : u.a.sys.called.length = 0 := by rw [f2, hsame.2.2.1, h.ab.called]; rfl
  have hcb : u.b.sys.caller = .idle := by rw [hsame'.1, e2]; exact h.ba.caller
  have hlb : u.b.sys.called.length = 0 := by rw [hsame'.2.2.1, e2, h.ba.called]; rfl
  refine ⟨ms1 ++ ms2 ++ [⟨true, .sys (.call p), 0⟩, ⟨false, .sys (.call q), 0⟩], fun more s' hs => ?_⟩
  have happ : ∀ (x : AsyncLink RA RB) l l', x.runWriteFirst capA capB P prof (l ++ l') = (x.runWriteFirst capA capB P prof l).runWriteFirst capA capB P prof l' :=
    fun x l l' => List.foldl_append
  rw [happ, happ, happ, w1, w2, w3] at hs
  refine AsyncJammed.rest (s := (u.step capA capB P prof ⟨true, .sys (.call p), 0⟩).step capA capB P prof ⟨false, .sys (.call q), 0⟩) rfl
    (AsyncJammed.peer (a := (u.step capA capB P prof ⟨true, .sys (.call p), 0⟩).a) g1 rfl (pollEnd capA 0) capB 0 (by simp)) k1 ?_ ?_ ?_ ?_ more hs
  · refine g3.trans ?_
    rw [hca, hla]; rfl
  · refine k3.trans ?_
    show CallerPc.jammedStep u.b.sys.caller u.b.sys.called.length _ = _
    rw [hcb, hlb]; rfl
  · refine g2.trans ?_
    rw [d3, hsame.2.1, h.ab.returned]
  · refine k2.trans ?_
    show u.b.sys.returned = []
    rw [hsame'.2.1, e2, h.ba.returned]

/-! ## From the beginning of the connection -/

/-- A shaped party just after `ShapedProtocol::new` and `into_split`, with nothing on the way. -/
def AsyncShapedSys.connected (sys : AsyncShapedSys RA) : AsyncShapedN (Bytes × Bytes) RA :=
  ⟨sys, ⟨sys.reader.reader.cipher, (sys.reader.reader.reader.leftover, sys.reader.reader.reader.leftoverPos), sys.reader.reader.state, false⟩,
    ⟨([], []), [], []⟩⟩

theorem shaper_handshake_config {R : Rng} (s : Shaper R) : s.handshake.1.config = s.config := by
  unfold Shaper.handshake
  cases s.config.padding <;> cases s.config.decoy <;> rfl

/-- **C75_connection.**  Two honest shaped peers connect, each with the garbage and the decoys that its shaper draws for the
handshake: both calls of `ShapedProtocol::new` succeed, in whatever pieces and with whatever delays the bytes arrive, and what
follows is as in the theorems above, for each the configuration that it was given. -/
theorem C75_connection (hP : Lawful P) {magic rngI rngR : Bytes} {cI cR : TrafficConfig} {xI : RA.State} {xR : RB.State}
    {gI gR : Option Bytes} {dI dR : Option (List Bytes)}
    (hI : (Shaper.handshake (R := RA) ⟨cI, xI⟩).2.1 = gI ∧ (Shaper.handshake (R := RA) ⟨cI, xI⟩).2.2.1 = dI)
    (hR : (Shaper.handshake (R := RB) ⟨cR, xR⟩).2.1 = gR ∧ (Shaper.handshake (R := RB) ⟨cR, xR⟩).2.2.1 = dR)
    (H : HonestPair P prof magic rngI rngR gI gR dI dR) {wI wR : Sink} (hwI : wI.Reliable false) (hwR : wR.Reliable false)
    {srcI srcR : Source} (hsI : Streams false srcI (wireR P magic rngI rngR gR dR) [])
    (hsR : Streams false srcR (wireI P magic rngI rngR gI dI) []) :
    ∃ (sI : AsyncShapedSys RA) (sR : AsyncShapedSys RB), AsyncShapedSys.new P prof magic .initiator rngI cI xI srcI wI = .ok sI ∧
      AsyncShapedSys.new P prof magic .responder rngR cR xR srcR wR = .ok sR ∧
      sI.ws.shaper.config = cI ∧ sR.ws.shaper.config = cR ∧
      ∃ kI kR, (AsyncLink.mk sI.connected sR.connected).Begins P kI kR ((dI.getD []).length + 1) ((dR.getD []).length + 1) := by
  obtain ⟨rfl, rfl⟩ := hI
  obtain ⟨rfl, rfl⟩ := hR
  obtain ⟨iI, iR, oI, oR, hm1, hm2, fI, fR, ⟨kL, kP, atI⟩, kL', kP', atR⟩ := honest_sessions hP H
  have heof : EndsWith false [] .unexpectedEof := .inl ⟨rfl, rfl⟩
  rw [← List.append_nil (wireR _ _ _ _ _ _)] at hsI
  rw [← List.append_nil (wireI _ _ _ _ _ _)] at hsR
  obtain ⟨w1, log1, s1, h1, -, -, st1⟩ := fI asyncApi asyncAbs wI srcI [] _ [] hwI heof hsI
  obtain ⟨w2, log2, s2, h2, -, -, st2⟩ := fR asyncApi asyncAbs wR srcR [] _ [] hwR heof hsR
  have hcI := shaper_handshake_config (R := RA) ⟨cI, xI⟩
  have hcR := shaper_handshake_config (R := RB) ⟨cR, xR⟩
  have hold : ∀ {s : AsyncSession}, SessStreams asyncAbs s [] [] → s.leftover.drop s.leftoverPos = [] := by
    intro s hs
    have := async_remaining hs
    unfold AsyncSession.remaining at this
    simp only [Source.bytes, List.append_nil, List.append_eq_nil_iff] at this
    exact this.1
  unfold AsyncShapedSys.new
  generalize Shaper.handshake (R := RA) ⟨cI, xI⟩ = hsI at *
  generalize Shaper.handshake (R := RB) ⟨cR, xR⟩ = hsR at *
  obtain ⟨shI, gI, dI, recI⟩ := hsI
  obtain ⟨shR, gR, dR, recR⟩ := hsR
  simp only [AsyncProtocol.new, h1, h2]
  refine ⟨_, _, rfl, rfl, hcI, hcR, (kL, kP), (kL', kP'), ⟨?_, ?_, rfl⟩⟩
  · refine ⟨atI, ⟨oI, atI, hm1⟩, ?_, rfl, rfl, rfl, rfl, rfl, rfl, rfl, rfl, rfl⟩
    simp only [AsyncShapedSys.connected, AsyncShapedSys.init, List.append_nil]
    exact hold st2
  · refine ⟨atR, ⟨oR, atR, hm2⟩, ?_, rfl, rfl, rfl, rfl, rfl, rfl, rfl, rfl, rfl⟩
    simp only [AsyncShapedSys.connected, AsyncShapedSys.init, List.append_nil]
    exact hold st1

/-! ## Examples -/

namespace AsyncLinkExample

open LinkExample (kL kP kL' kP')
open ShapedLinkExample (both rolls smallRng)

/-- Two parties that pad and send decoys, before their first calls. -/
def fresh (c : TrafficConfig) : AsyncLink greedyRng greedyRng :=
  ⟨(AsyncShapedSys.init ⟨⟨⟨FSStream.new kL', FSAead.new kP'⟩, ⟨[], 0, []⟩, .initReadingLength⟩, ⟨⟨FSStream.new kL, FSAead.new kP⟩, ⟨[], [], []⟩⟩⟩ ⟨c, ()⟩ []).connected,
   (AsyncShapedSys.init ⟨⟨⟨FSStream.new kL, FSAead.new kP⟩, ⟨[], 0, []⟩, .initReadingLength⟩, ⟨⟨FSStream.new kL', FSAead.new kP'⟩, ⟨[], [], []⟩⟩⟩ ⟨c, ()⟩ []).connected⟩

/-- The hypotheses of the theorems above are met. -/
theorem begins (c : TrafficConfig) : (fresh c).Begins toy (kL, kP) (kL', kP') 0 0 := by
  refine ⟨⟨?_, ⟨⟨FSStream.new kL, FSAead.new kP⟩, ?_, ?_⟩, rfl, rfl, rfl, rfl, rfl, rfl, rfl, rfl, rfl, rfl⟩,
    ⟨?_, ⟨⟨FSStream.new kL', FSAead.new kP'⟩, ?_, ?_⟩, rfl, rfl, rfl, rfl, rfl, rfl, rfl, rfl, rfl, rfl⟩, rfl⟩
  all_goals first | exact ⟨FSStream.at_new _, FSAead.at_new _⟩ | exact ⟨rfl, rfl⟩

/-- B polls `read`. -/
def polls (n : Nat) : List AsyncMove := ⟨false, .sys .read, 0⟩ :: List.replicate n ⟨false, .reading, 5000⟩

/-- A write that is given up and a write that returns. -/
def sampleWrites : List AsyncMove :=
  [⟨true, .sys (.call (.genuine [7])), 0⟩, ⟨true, .sys .cancel, 0⟩, ⟨true, .sys (.call (.genuine [1, 2, 3])), 0⟩, ⟨true, .sys .recv, 0⟩] ++
  List.replicate 20 ⟨true, .sys .task, 9999⟩ ++ [⟨true, .sys .recv, 0⟩] ++ List.replicate 20 ⟨true, .sys .task, 9999⟩ ++
  [⟨true, .sys .resume, 0⟩] ++ polls 5 ++ polls 5 ++ polls 5 ++ polls 5 ++ polls 5

/-- Both are delivered, behind their padding; the last poll is pending. -/
example : ReadableWrites sampleWrites ∧
    (let s := (fresh both).run 20000 5 toy .debug sampleWrites
     s.a.sys.returned = [(.genuine [1, 2, 3], .ok ())] ∧ (readyReads s.b.sys.reads).length = 4 ∧ s.b.sys.reads.length = 5 ∧
     genuineOf (okOf (readyReads s.b.sys.reads)) = [[7], [1, 2, 3]]) := by
  refine ⟨?_, by decide +kernel⟩
  intro m hm p hp
  simp only [sampleWrites, polls, List.mem_append, List.mem_cons, List.mem_replicate, List.not_mem_nil, or_false] at hm
  have key : m = ⟨true, .sys (.call (.genuine [7])), 0⟩ ∨ m = ⟨true, .sys (.call (.genuine [1, 2, 3])), 0⟩ ∨ m.act ≠ .sys (.call p) := by
    rcases hm with ((((((((( rfl | rfl | rfl | rfl) | ⟨-, rfl⟩) | rfl) | ⟨-, rfl⟩) | rfl) | rfl | ⟨-, rfl⟩) | rfl | ⟨-, rfl⟩) | rfl | ⟨-, rfl⟩) | rfl | ⟨-, rfl⟩) | rfl | ⟨-, rfl⟩ <;> simp
  rcases key with rfl | rfl | key
  · cases hp; exact ⟨.genuine, [7], rfl, rfl, by decide⟩
  · cases hp; exact ⟨.genuine, [1, 2, 3], rfl, rfl, by decide⟩
  · exact absurd hp key

/-- A channel of ten bytes that a decoy fills; then `write` does not return, although A reads and B writes. -/
example : NoPollsOfB [⟨true, .sys (.call (.genuine [1])), 0⟩, ⟨true, .sys .recv, 7⟩, ⟨true, .sys .read, 7⟩, ⟨true, .reading, 7⟩,
      ⟨false, .sys .tick, 7⟩, ⟨false, .sys .task, 7⟩, ⟨true, .sys .task, 7⟩, ⟨true, .sys .resume, 7⟩] ∧
    (let s := (fresh both).run 10 5 toy .debug ((true :: List.replicate 20 false).map (tickMove true) ++
        [⟨true, .sys (.call (.genuine [1])), 0⟩, ⟨true, .sys .recv, 7⟩, ⟨true, .sys .read, 7⟩, ⟨true, .reading, 7⟩,
      ⟨false, .sys .tick, 7⟩, ⟨false, .sys .task, 7⟩, ⟨true, .sys .task, 7⟩, ⟨true, .sys .resume, 7⟩])
     s.a.sys.caller = .waiting (.genuine [1]) 0 ∧ s.a.sys.queue = [⟨.genuine [1], 0⟩] ∧ s.a.run.net.1.length = 10) := by
  refine ⟨?_, by decide +kernel⟩
  intro m hm hA
  simp only [List.mem_cons, List.not_mem_nil, or_false] at hm
  rcases hm with rfl | rfl | rfl | rfl | rfl | rfl | rfl | rfl <;> simp at hA ⊢

/-- The hypotheses of `C75_blocked`, `C75_queue`, `C75_blocked_drop` and `C75_exchange_deadlock`. -/
example : (∀ x, greedyRng.Rolls x) ∧ (fresh both).Begins toy (kL, kP) (kL', kP') 0 0 ∧
    (fresh both).a.sys.ws.shaper.config.decoy = .random ∧ (fresh both).b.sys.ws.shaper.config.decoy = .random ∧
    0 + 1000000 + 2 < 2 ^ 32 := ⟨rolls, begins both, rfl, rfl, by decide⟩

/-- Bytes that arrive after a poll that is pending. -/
theorem late {bs : Bytes} (h : bs ≠ []) : Streams false [.pending, .data bs] bs [] :=
  ⟨[.pending, .data bs], by
      intro e he
      simp only [List.mem_cons, List.not_mem_nil, or_false] at he
      rcases he with rfl | rfl
      · exact .inl rfl
      · cases bs with
        | nil => exact absurd rfl h
        | cons b bs => exact .inr (.inl ⟨b, bs, rfl⟩), by simp, by simp [Source.bytes]⟩

/-- The hypotheses of `C75_connection`: the shapers draw two bytes of garbage and two decoys, and nothing. -/
example : (Shaper.handshake (R := smallRng 2) ⟨both, ()⟩).2.1 = some [42, 42] ∧
    (Shaper.handshake (R := smallRng 2) ⟨both, ()⟩).2.2.1 = some [[42, 42], [42, 42]] ∧
    (Shaper.handshake (R := smallRng 0) ⟨both, ()⟩).2.1 = some [] ∧ (Shaper.handshake (R := smallRng 0) ⟨both, ()⟩).2.2.1 = some [] ∧
    HonestPair toy .debug [1, 2, 3, 4] (leBytes 32 77) (leBytes 32 99) (some [42, 42]) (some []) (some [[42, 42], [42, 42]]) (some []) ∧
    (∃ src, Streams false src (wireR toy [1, 2, 3, 4] (leBytes 32 77) (leBytes 32 99) (some []) (some [])) []) ∧
    (∃ src, Streams false src (wireI toy [1, 2, 3, 4] (leBytes 32 77) (leBytes 32 99) (some [42, 42]) (some [[42, 42], [42, 42]])) []) ∧
    (⟨[], [], []⟩ : Sink).Reliable false :=
  ⟨rfl, rfl, rfl, rfl, ShapedLinkExample.honest, ⟨_, late (by decide +kernel)⟩, ⟨_, late (by decide +kernel)⟩, ⟨by simp, by simp⟩⟩

end AsyncLinkExample

end Bip324
