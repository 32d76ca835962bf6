import Verif.Lemmas.ShapedLive
import Verif.Lemmas.ShapedJam
import Verif.Props.Link
import Verif.Props.Shutdown

/-!
# C72: two shaped parties over channels of limited capacity

As C71, for `ShapedProtocol` of `traffic/src/io.rs` (`Verif/Spec/ShapedLink.lean`): each party has the thread of the
application, the decoy thread and a reader, and the two writing threads share a lock.  Whatever the capacities, the sizes in
which bytes are moved and the order in which the threads run:

* What is read as genuine is a prefix of what was given to `write` as genuine, and no call fails (`C72_reads`).
* As long as the peer reads, every call of `write` can return, and so can the drop of the writer, and then all that was
  written can be read (`C72_live`).
* If the peer does not read, the decoys fill the channel, whatever its capacity, and the decoy thread blocks with the lock
  held: then neither `write` nor the drop of the writer ever returns (`C72_blocked`, `C72_blocked_drop`).
* So two parties that write before they read can wait for each other for ever, whatever they write and whatever the
  channels hold (`C72_exchange_deadlock`).  Without decoys enough capacity prevents this (`C71_exchange`).
-/

namespace Bip324

variable {P : Prims} {prof : Profile} {RA RB : Rng}

/-! ## The statement -/

/-- Before the first call: the ciphers are those of the direction, and nothing is on the way. -/
structure ShapedBegins (P : Prims) (kL kP : Bytes) (n : Nat) (w : ShapedN (Bytes × Bytes) RA) (r : ShapedN (Bytes × Bytes) RB) : Prop where
  writer : w.sys.ws.writer.cipher.At P kL kP n
  reader : ∃ o : OutboundCipher, o.At P kL kP n ∧ Matching o r.half.cipher
  empty : r.half.held ++ w.run.net.1 = []
  noRead : r.half.pc = .idle
  reads : r.sys.reads = []
  app : w.sys.app = .idle
  bg : w.sys.bg = .checking
  owner : w.sys.owner = none
  poisoned : w.sys.poisoned = false
  shutdown : w.sys.shutdown = false
  called : w.sys.called = []
  returned : w.sys.returned = []

/-- Both directions; `kA`: the keys with which `a` writes. -/
structure ShapedLink.Begins (P : Prims) (kA kB : Bytes × Bytes) (nA nB : Nat) (s : ShapedLink RA RB) : Prop where
  ab : ShapedBegins P kA.1 kA.2 nA s.a s.b
  ba : ShapedBegins P kB.1 kB.2 nB s.b s.a
  net : s.b.run.net = s.a.run.net.swap

/-- The payloads that the programs write are such as the peer's `read` takes. -/
def ReadableCalls (ms : List ShapedMove) : Prop := ∀ m ∈ ms, ∀ p, m.act = .sys (.call p) → p.Readable

theorem ShapedBegins.lane {kL kP : Bytes} {n : Nat} {w : ShapedN (Bytes × Bytes) RA} {r : ShapedN (Bytes × Bytes) RB}
    (h : ShapedBegins P kL kP n w r) : ShapedLane P prof kL kP n [] [] w r := by
  refine ⟨by simp, ⟨h.writer, h.poisoned, ?_, ?_, ?_, ⟨?_, ?_⟩, ?_⟩, ?_⟩
  · rw [h.returned]; simp
  · rw [h.called, h.returned, h.app]; rfl
  · rw [h.called]; simp
  · rw [h.bg]; simp
  · rw [h.app]; simp
  · rw [h.owner, h.app, h.bg, h.returned]; exact ⟨trivial, trivial, rfl, rfl⟩
  · refine ⟨0, Nat.le_refl _, by rw [h.reads]; rfl, .inl ?_⟩
    unfold ReaderAt
    rw [h.noRead]
    obtain ⟨o, h1, h2⟩ := h.reader
    exact ⟨o, h1, h2, by rw [h.empty]; rfl⟩

theorem ShapedLink.Begins.inv {kA kB : Bytes × Bytes} {nA nB : Nat} {s : ShapedLink RA RB} (h : s.Begins P kA kB nA nB) :
    s.Inv P prof kA kB nA nB 0 :=
  ⟨h.net, ⟨[], [], Nat.le_refl _, h.ab.lane⟩, ⟨[], [], Nat.le_refl _, h.ba.lane⟩⟩

/-! ## Safety -/

/-- What one direction looks like at every point. -/
structure ShapedFlowOk (w : ShapedN (Bytes × Bytes) RA) (r : ShapedN (Bytes × Bytes) RB) : Prop where
  /-- No read has failed. -/
  readsOk : r.sys.reads = (okOf r.sys.reads).map .ok
  /-- What has been read as genuine is a prefix of what has been given to `write` as genuine. -/
  genuine : genuineOf (okOf r.sys.reads) <+: genuineOf w.sys.called
  /-- No write has failed. -/
  writesOk : ∀ x ∈ w.sys.returned, x.2 = .ok ()
  /-- The calls return in the order in which they are made, one at a time. -/
  returned : w.sys.returned.map (·.1) <+: w.sys.called
  inflight : w.sys.called.length ≤ w.sys.returned.length + 1
  /-- The lock is not poisoned, and the decoy thread has not panicked. -/
  poisoned : w.sys.poisoned = false
  panicked : w.sys.bg ≠ .panicked

theorem okOf_map (ps : List Payload) : okOf (ps.map fun p => .ok p.received) = ps.map Payload.received := by
  induction ps with
  | nil => rfl
  | cons p ps ih => simpa [okOf] using ih

theorem ShapedLane.reads {kL kP : Bytes} {n : Nat} {log : List Payload} {rest : Bytes} {w : ShapedN (Bytes × Bytes) RA}
    {r : ShapedN (Bytes × Bytes) RB} (h : ShapedLane P prof kL kP n log rest w r) :
    r.sys.reads = (okOf r.sys.reads).map .ok ∧ genuineOf (okOf r.sys.reads) = genuineOf (log.take r.sys.reads.length) := by
  obtain ⟨j, h1, h2, -⟩ := h.reader
  have hlen : r.sys.reads.length = j := by rw [h2, List.length_map, List.length_take]; omega
  rw [hlen, h2, okOf_map]
  refine ⟨by rw [List.map_map]; rfl, ?_⟩
  exact genuineOf_map_received fun p hp => h.readable p (List.mem_of_mem_take hp)

theorem ShapedLane.begun {kL kP : Bytes} {n : Nat} {log : List Payload} {rest : Bytes} {w : ShapedN (Bytes × Bytes) RA}
    {r : ShapedN (Bytes × Bytes) RB} (h : ShapedLane P prof kL kP n log rest w r) : genuineOf log <+: genuineOf w.sys.called := by
  obtain ⟨-, -, -, hc, -, -, hs⟩ := h.sender
  rw [hc, genuineOf_append]
  cases ho : w.sys.owner with
  | none => rw [ho] at hs; rw [hs.2.2.2]; exact List.prefix_append _ _
  | some t =>
    rw [ho] at hs
    cases t with
    | bg => obtain ⟨pc, -, -, -, -, hl⟩ := hs; rw [hl]; exact List.prefix_append _ _
    | app =>
      obtain ⟨p, pc, ha, -, hg, -, hl⟩ := hs
      rw [hl, ha]
      refine List.prefix_append_right_inj _ |>.2 ?_
      show genuineOf (pc.begun (.write p)) <+: genuineOf [p]
      have : pc.begun (.write p) = [] ∨ pc.begun (.write p) = [p] := by
        cases pc with
        | payload w => cases w <;> simp [JobPc.begun]
        | _ => simp [JobPc.begun]
      rcases this with h | h
      · rw [h]; exact List.nil_prefix
      · rw [h]; exact List.prefix_rfl

theorem ShapedLane.flow {kL kP : Bytes} {n : Nat} {log : List Payload} {rest : Bytes} {w : ShapedN (Bytes × Bytes) RA}
    {r : ShapedN (Bytes × Bytes) RB} (h : ShapedLane P prof kL kP n log rest w r) : ShapedFlowOk w r := by
  obtain ⟨h1, h2⟩ := h.reads
  have hb := h.begun
  obtain ⟨-, g1, g2, g3, -, ⟨g4, -⟩, -⟩ := h.sender
  refine ⟨h1, ?_, g2, by rw [g3]; exact List.prefix_append _ _, ?_, g1, g4⟩
  · rw [h2]
    refine List.IsPrefix.trans ?_ hb
    have := List.take_append_drop r.sys.reads.length log
    conv => rhs; rw [← this, genuineOf_append]
    exact List.prefix_append _ _
  · rw [g3, List.length_append, List.length_map]
    have : w.sys.app.inflight.length ≤ 1 := by cases w.sys.app <;> simp [AppPc.inflight]
    omega

/-- **C72_reads.**  At every point of every run of two shaped parties: no call has failed and no lock is poisoned; what a
party has read as genuine is a prefix of what the other has given to `write` as genuine, whatever decoys and padding are
between. -/
theorem C72_reads (hP : Lawful P) {kA kB : Bytes × Bytes} {nA nB : Nat} {s : ShapedLink RA RB} (h : s.Begins P kA kB nA nB)
    {capA capB : Nat} {ms : List ShapedMove} (hms : ReadableCalls ms) (hA : nA + ms.length < 2 ^ 32) (hB : nB + ms.length < 2 ^ 32)
    {s' : ShapedLink RA RB} (hs : s.run capA capB P prof ms = s') : ShapedFlowOk s'.a s'.b ∧ ShapedFlowOk s'.b s'.a := by
  subst hs
  have hi := (h.inv (prof := prof)).run hP capA capB ms hms (by omega) (by omega)
  obtain ⟨logA, restA, -, hab⟩ := hi.ab
  obtain ⟨logB, restB, -, hba⟩ := hi.ba
  exact ⟨hab.flow, hba.flow⟩

/-! ## Liveness -/

/-- What it means that all is done in one direction. -/
structure ShapedSettled (called : List Payload) (w : ShapedN (Bytes × Bytes) RA) (r : ShapedN (Bytes × Bytes) RB) : Prop where
  /-- No call is in progress: every call of `write` has returned without an error. -/
  rest : w.sys.app = .idle ∨ w.sys.app = .gone
  returned : w.sys.returned = called.map fun p => (p, .ok ())
  lock : w.sys.owner = none
  /-- All has been read. -/
  reads : genuineOf (okOf r.sys.reads) = genuineOf called
  empty : w.run.net.1 = []

/-- **C72_live.**  Wherever two shaped parties are: if the peer reads, then the threads of a party can go on to a point at
which its calls of `write` have all returned without an error and the peer has read all of the genuine payloads; if the
writer is being dropped, it is gone.  The schedule has steps of the two threads of the writing party and of the reader of
the other only; one byte of capacity is enough. -/
theorem C72_live (hP : Lawful P) {kA kB : Bytes × Bytes} {nA nB : Nat} {s : ShapedLink RA RB} (h : s.Begins P kA kB nA nB)
    {capA capB : Nat} (hcap : 0 < capA) {ms : List ShapedMove} (hms : ReadableCalls ms) (hA : nA + ms.length + 5 < 2 ^ 32)
    (hB : nB + ms.length < 2 ^ 32) {s' : ShapedLink RA RB} (hs : s.run capA capB P prof ms = s') :
    ∃ more : List ShapedMove,
      (∀ m ∈ more, if m.ofA then m.act = .sys .app ∨ m.act = .sys .bg else m.act = .sys .read ∨ m.act = .reading) ∧
      ShapedSettled s'.a.sys.called (s'.run capA capB P prof more).a (s'.run capA capB P prof more).b ∧
      (s'.a.sys.app = .joining → (s'.run capA capB P prof more).a.sys.app = .gone) := by
  subst hs
  have hi := (h.inv (prof := prof)).run hP capA capB ms hms (by omega) (by omega)
  generalize hst : s.run capA capB P prof ms = s' at hi
  obtain ⟨log, rest, hl, hab⟩ := hi.ab
  obtain ⟨s1, log1, rest1, g1, g2, g3, g4, g5, g6, g7, g8⟩ := settle (capB := capB) hP hcap hi.net hab (by omega)
  obtain ⟨s2, d1, -, d3, d4, d5, d6⟩ := drain (capA := capA) (capB := capB) hP g2 g3 (by omega)
  obtain ⟨more, m1, rfl⟩ := g1.trans d1
  have ho : (s'.run capA capB P prof more).a.sys.owner = none := by rw [d4]; exact g4
  have hsend := d3.sender
  obtain ⟨-, -, c2, c3, -, -, c6⟩ := hsend
  rw [ho] at c6
  obtain ⟨-, -, hrest, hlog⟩ := c6
  have hr := d6 hrest
  have happ : (s'.run capA capB P prof more).a.sys.app = .idle ∨ (s'.run capA capB P prof more).a.sys.app = .gone := by
    rw [d4]
    cases ha : s1.a.sys.app with
    | idle => exact .inl rfl
    | gone => exact .inr rfl
    | _ => rw [ha] at g6; exact g6.elim
  have hcalled : (s'.run capA capB P prof more).a.sys.called = s'.a.sys.called := by rw [d4]; exact g5
  have hin : (s'.run capA capB P prof more).a.sys.app.inflight = [] := by
    rcases happ with h | h <;> rw [h] <;> rfl
  rw [hin, List.append_nil, hcalled] at c3
  refine ⟨more, fun m hm => m1 m hm, ⟨happ, ?_, ho, ?_, d5⟩, ?_⟩
  · rw [c3, List.map_map]
    refine ((List.map_congr_left fun x hx => ?_).trans (List.map_id _)).symm
    show (x.1, Outcome.ok ()) = x
    rw [← c2 x hx]
  · rw [d3.reads.2, hr, List.take_length, hlog, ← c3]
  · intro hj
    rw [d4]
    exact g7 hj

/-- **C72_swap.**  The two parties are in the same position: what holds of one holds of the other. -/
theorem C72_swap (s : ShapedLink RA RB) (capA capB : Nat) (m : ShapedMove) :
    (⟨s.b, s.a⟩ : ShapedLink RB RA).step capB capA P prof ⟨!m.ofA, m.act, m.k⟩ =
      ⟨(s.step capA capB P prof m).b, (s.step capA capB P prof m).a⟩ := by
  unfold ShapedLink.step
  cases m.ofA <;> rfl

/-! ## A peer that does not read -/

theorem run_bg (capA capB : Nat) (n : Nat) (s : ShapedLink RA RB) (hnet : s.b.run.net = s.a.run.net.swap) :
    (s.run capA capB P prof (List.replicate n ⟨true, .sys .bg, 0⟩)).a = bgSteps capA P prof n s.a ∧
    (s.run capA capB P prof (List.replicate n ⟨true, .sys .bg, 0⟩)).b = { s.b with run := { s.b.run with net := (bgSteps capA P prof n s.a).run.net.swap } } := by
  induction n generalizing s with
  | zero =>
    refine ⟨rfl, ?_⟩
    show s.b = _
    rw [bgSteps, ← hnet]
  | succ n ih =>
    have := ih (s.step capA capB P prof ⟨true, .sys .bg, 0⟩) rfl
    exact this

/-- No reader of `b` makes a step. -/
def NoReadsOfB (ms : List ShapedMove) : Prop := ∀ m ∈ ms, m.ofA = false → m.act ≠ .reading

/-- A party that waits goes on waiting. -/
theorem jam_run {capA capB : Nat} (ms : List ShapedMove) (hms : NoReadsOfB ms) {s : ShapedLink RA RB} (hnet : s.b.run.net = s.a.run.net.swap)
    (hj : Jammed capA s.a) :
    (s.run capA capB P prof ms).b.run.net = (s.run capA capB P prof ms).a.run.net.swap ∧ Jammed capA (s.run capA capB P prof ms).a ∧
    (s.run capA capB P prof ms).a.sys.returned = s.a.sys.returned ∧
    (s.a.sys.app ≠ .idle → (s.run capA capB P prof ms).a.sys.app = s.a.sys.app) := by
  induction ms generalizing s with
  | nil => exact ⟨hnet, hj, rfl, fun _ => rfl⟩
  | cons m ms ih =>
    have hm := hms m (by simp)
    have step : (s.step capA capB P prof m).b.run.net = (s.step capA capB P prof m).a.run.net.swap ∧ Jammed capA (s.step capA capB P prof m).a ∧
        (s.step capA capB P prof m).a.sys.returned = s.a.sys.returned ∧
        (s.a.sys.app ≠ .idle → (s.step capA capB P prof m).a.sys.app = s.a.sys.app) := by
      unfold ShapedLink.step
      cases hc : m.ofA with
      | true =>
        simp only [if_true]
        obtain ⟨j1, j2, j3, -⟩ := hj.step (P := P) (prof := prof) m.k m.act
        exact ⟨rfl, j1, j2, j3⟩
      | false =>
        simp only [Bool.false_eq_true, if_false]
        exact ⟨rfl, hj.peer (by rw [hnet]; rfl) _ capB m.k (hm hc), rfl, fun _ => rfl⟩
    obtain ⟨s1, s2, s3, s4⟩ := step
    obtain ⟨i1, i2, i3, i4⟩ := ih (fun x hx => hms x (by simp [hx])) s1 s2
    refine ⟨i1, i2, i3.trans s3, fun ha => ?_⟩
    have := s4 ha
    exact (i4 (by rw [this]; exact ha)).trans this

theorem ShapedBegins.rounds {kL kP : Bytes} {n : Nat} {w : ShapedN (Bytes × Bytes) RA} {r : ShapedN (Bytes × Bytes) RB}
    (h : ShapedBegins P kL kP n w r) (hd : w.sys.ws.shaper.config.decoy = .random) : Rounds P kL kP n [] w :=
  ⟨(h.lane (prof := .debug)).sender, h.owner, h.bg, h.shutdown, hd⟩

theorem Jammed.called {cap : Nat} {w : ShapedN (Bytes × Bytes) RA} (_ : Jammed cap w) (ha : w.sys.app = .idle) (k : Nat) (p : Payload) :
    (w.step (endConn cap k) P prof (ShapedAct.sys (.call p)).label).sys.app = .locking p := by
  show (w.step (endConn cap k) P prof (.sys (.call p))).sys.app = .locking p
  rw [silent_step (by simp) rfl]
  simp only [ShapedSys.step, ha]

theorem Jammed.dropped {cap : Nat} {w : ShapedN (Bytes × Bytes) RA} (_ : Jammed cap w) (ha : w.sys.app = .idle) (k : Nat) :
    (w.step (endConn cap k) P prof (ShapedAct.sys .drop).label).sys.app = .joining := by
  show (w.step (endConn cap k) P prof (.sys .drop)).sys.app = .joining
  rw [silent_step (by simp) rfl]
  simp only [ShapedSys.step, ha]

/-- The decoy thread of `a` fills the channel, and the application makes a call. -/
theorem jam_call (hP : Lawful P) (hR : ∀ x, RA.Rolls x) {kA kB : Bytes × Bytes} {nA nB : Nat} {s : ShapedLink RA RB}
    (h : s.Begins P kA kB nA nB) (hd : s.a.sys.ws.shaper.config.decoy = .random) {capA capB : Nat} (hn : nA + capA + 2 < 2 ^ 32) :
    ∃ n, ∀ l k app more, (∀ w : ShapedN (Bytes × Bytes) RA, Jammed capA w → w.sys.app = .idle → (w.step (endConn capA k) P prof (ShapedAct.sys l).label).sys.app = app) →
      app ≠ .idle → NoReadsOfB more → ∀ s',
      s.run capA capB P prof (List.replicate n ⟨true, .sys .bg, 0⟩ ++ ⟨true, .sys l, k⟩ :: more) = s' →
      s'.a.sys.app = app ∧ s'.a.sys.returned = [] ∧ Jammed capA s'.a := by
  obtain ⟨n, hsame, hj⟩ := fills (prof := prof) hP hR (h.ab.rounds hd) (cap := capA) (by omega)
  refine ⟨n, fun l k app more happ hni hm s' hs => ?_⟩
  subst hs
  obtain ⟨e1, e2⟩ := run_bg (P := P) (prof := prof) capA capB n s h.net
  have hrun : s.run capA capB P prof (List.replicate n ⟨true, .sys .bg, 0⟩ ++ ⟨true, .sys l, k⟩ :: more) =
      ((s.run capA capB P prof (List.replicate n ⟨true, .sys .bg, 0⟩)).step capA capB P prof ⟨true, .sys l, k⟩).run capA capB P prof more := by
    unfold ShapedLink.run
    rw [List.foldl_append, List.foldl_cons]
  rw [hrun]
  generalize hst : s.run capA capB P prof (List.replicate n ⟨true, .sys .bg, 0⟩) = t at *
  rw [← e1] at hsame hj
  have hidle : t.a.sys.app = .idle := hsame.1.trans h.ab.app
  obtain ⟨j1, j2, -, -⟩ := hj.step (P := P) (prof := prof) k (.sys l)
  have ha := happ t.a hj hidle
  obtain ⟨-, r2, r3, r4⟩ := jam_run (P := P) (prof := prof) (capA := capA) (capB := capB) more hm
    (s := t.step capA capB P prof ⟨true, .sys l, k⟩) rfl j1
  have ha' : (t.step capA capB P prof ⟨true, .sys l, k⟩).a.sys.app = app := ha
  have hr' : (t.step capA capB P prof ⟨true, .sys l, k⟩).a.sys.returned = t.a.sys.returned := j2
  refine ⟨(r4 (by rw [ha']; exact hni)).trans ha', ?_, r2⟩
  rw [r3, hr', hsame.2.1, h.ab.returned]

/-- **C72_blocked.**  A shaped party with decoys, whose peer does not read: whatever the capacity of the channel, its decoy
thread alone can fill it and block within the call of `write` of the plain protocol, with the lock held.  A call of `write`
made then never returns, whatever else happens, until the peer reads; not even if the party itself reads. -/
theorem C72_blocked (hP : Lawful P) (hR : ∀ x, RA.Rolls x) {kA kB : Bytes × Bytes} {nA nB : Nat} {s : ShapedLink RA RB}
    (h : s.Begins P kA kB nA nB) (hd : s.a.sys.ws.shaper.config.decoy = .random) {capA capB : Nat} (hn : nA + capA + 2 < 2 ^ 32) :
    ∃ n, ∀ p k more, NoReadsOfB more → ∀ s',
      s.run capA capB P prof (List.replicate n ⟨true, .sys .bg, 0⟩ ++ ⟨true, .sys (.call p), k⟩ :: more) = s' →
      s'.a.sys.app = .locking p ∧ s'.a.sys.returned = [] ∧ s'.a.sys.owner = some .bg := by
  obtain ⟨n, hn⟩ := jam_call (prof := prof) (capB := capB) hP hR h hd hn
  refine ⟨n, fun p k more hm s' hs => ?_⟩
  obtain ⟨h1, h2, h3⟩ := hn (.call p) k (.locking p) more (fun w hw ha => hw.called ha k p) (by simp) hm s' hs
  exact ⟨h1, h2, h3.owner⟩

/-- **C72_blocked_drop.**  In the same way the drop of the writer never ends: it waits for the decoy thread, which waits for
the peer. -/
theorem C72_blocked_drop (hP : Lawful P) (hR : ∀ x, RA.Rolls x) {kA kB : Bytes × Bytes} {nA nB : Nat} {s : ShapedLink RA RB}
    (h : s.Begins P kA kB nA nB) (hd : s.a.sys.ws.shaper.config.decoy = .random) {capA capB : Nat} (hn : nA + capA + 2 < 2 ^ 32) :
    ∃ n, ∀ k more, NoReadsOfB more → ∀ s',
      s.run capA capB P prof (List.replicate n ⟨true, .sys .bg, 0⟩ ++ ⟨true, .sys .drop, k⟩ :: more) = s' →
      s'.a.sys.app = .joining := by
  obtain ⟨n, hn⟩ := jam_call (prof := prof) (capB := capB) hP hR h hd hn
  refine ⟨n, fun k more hm s' hs => ?_⟩
  exact (hn .drop k .joining more (fun w hw ha => hw.dropped ha k) (by simp) hm s' hs).1

/-! ## Two parties that write first -/

theorem run_bg' (capA capB : Nat) (n : Nat) (s : ShapedLink RA RB) (hnet : s.b.run.net = s.a.run.net.swap) :
    (s.run capA capB P prof (List.replicate n ⟨false, .sys .bg, 0⟩)).b = bgSteps capB P prof n s.b ∧
    (s.run capA capB P prof (List.replicate n ⟨false, .sys .bg, 0⟩)).a.run.net = (bgSteps capB P prof n s.b).run.net.swap ∧
    (s.run capA capB P prof (List.replicate n ⟨false, .sys .bg, 0⟩)).a.sys = s.a.sys := by
  induction n generalizing s with
  | zero => exact ⟨rfl, by rw [bgSteps, hnet]; rfl, rfl⟩
  | succ n ih => exact ih (s.step capA capB P prof ⟨false, .sys .bg, 0⟩) rfl

theorem run_a_only (capA capB : Nat) (ms : List ShapedMove) (hms : ∀ m ∈ ms, m.ofA = true) (s : ShapedLink RA RB) (hnet : s.b.run.net = s.a.run.net.swap) :
    (s.run capA capB P prof ms).b.sys = s.b.sys ∧ (s.run capA capB P prof ms).b.run.net = (s.run capA capB P prof ms).a.run.net.swap := by
  induction ms generalizing s with
  | nil => exact ⟨rfl, hnet⟩
  | cons m ms ih =>
    have e : s.step capA capB P prof m = ⟨s.a.step (endConn capA m.k) P prof m.act.label,
        s.b.step (endConn capB m.k) P prof (.peer (s.a.step (endConn capA m.k) P prof m.act.label).run.net.swap)⟩ := by
      unfold ShapedLink.step
      rw [if_pos (hms m (by simp))]
    have := ih (fun x hx => hms x (by simp [hx])) (s.step capA capB P prof m) (by rw [e]; rfl)
    refine ⟨this.1.trans ?_, this.2⟩
    rw [e]; rfl

theorem writeFirst_eq {capA capB : Nat} (ms : List ShapedMove) (h : ∀ m ∈ ms, m.act ≠ .sys .read ∧ m.act ≠ .reading) (s : ShapedLink RA RB) :
    s.runWriteFirst capA capB P prof ms = s.run capA capB P prof ms := by
  induction ms generalizing s with
  | nil => rfl
  | cons m ms ih =>
    unfold ShapedLink.runWriteFirst ShapedLink.run at *
    rw [List.foldl_cons, List.foldl_cons]
    have := h m (by simp)
    rw [if_neg (by rintro ⟨-, h1⟩; exact h1.elim this.1 this.2)]
    exact ih (fun x hx => h x (by simp [hx])) _

theorem Jammed.rest {capA capB : Nat} {p q : Payload} {s : ShapedLink RA RB} (hnet : s.b.run.net = s.a.run.net.swap) (ha : Jammed capA s.a)
    (hb : Jammed capB s.b) (h1 : s.a.sys.app = .locking p) (h2 : s.b.sys.app = .locking q) (h3 : s.a.sys.returned = []) (h4 : s.b.sys.returned = [])
    (more : List ShapedMove) {s' : ShapedLink RA RB} (hs : s.runWriteFirst capA capB P prof more = s') :
    s'.a.sys.app = .locking p ∧ s'.b.sys.app = .locking q ∧ s'.a.sys.returned = [] ∧ s'.b.sys.returned = [] := by
  induction more generalizing s with
  | nil => subst hs; exact ⟨h1, h2, h3, h4⟩
  | cons m more ih =>
    have hs : (if (if m.ofA then s.a.sys.returned else s.b.sys.returned) = [] ∧ (m.act = .sys .read ∨ m.act = .reading) then s
        else s.step capA capB P prof m).runWriteFirst capA capB P prof more = s' := hs
    by_cases hc : (if m.ofA then s.a.sys.returned else s.b.sys.returned) = [] ∧ (m.act = .sys .read ∨ m.act = .reading)
    · rw [if_pos hc] at hs
      exact ih hnet ha hb h1 h2 h3 h4 hs
    · rw [if_neg hc] at hs
      unfold ShapedLink.step at hs
      cases hm : m.ofA with
      | true =>
        rw [hm] at hs hc
        simp only [if_true] at hs hc
        obtain ⟨j1, j2, j3, -⟩ := ha.step (P := P) (prof := prof) m.k m.act
        exact ih (s := ⟨_, _⟩) rfl j1 (hb.peer (by rw [hnet]; rfl) (endConn capB m.k) capA m.k fun h => hc ⟨h3, .inr h⟩)
          ((j3 (by rw [h1]; simp)).trans h1) h2 (j2.trans h3) h4 hs
      | false =>
        rw [hm] at hs hc
        simp only [Bool.false_eq_true, if_false] at hs hc
        obtain ⟨j1, j2, j3, -⟩ := hb.step (P := P) (prof := prof) m.k m.act
        exact ih (s := ⟨_, _⟩) rfl (ha.peer (by rw [hnet]; rfl) (endConn capA m.k) capB m.k fun h => hc ⟨h4, .inr h⟩) j1
          h1 ((j3 (by rw [h2]; simp)).trans h2) h3 (j2.trans h4) hs

/-- **C72_exchange_deadlock.**  Two shaped parties with decoys, each of which reads only when its first `write` has
returned: whatever the channels hold and whatever they write, they can get to a point from which neither call ever
returns. -/
theorem C72_exchange_deadlock (hP : Lawful P) (hRA : ∀ x, RA.Rolls x) (hRB : ∀ x, RB.Rolls x) {kA kB : Bytes × Bytes} {nA nB : Nat}
    {s : ShapedLink RA RB} (h : s.Begins P kA kB nA nB) (hdA : s.a.sys.ws.shaper.config.decoy = .random)
    (hdB : s.b.sys.ws.shaper.config.decoy = .random) {capA capB : Nat} (hnA : nA + capA + 2 < 2 ^ 32) (hnB : nB + capB + 2 < 2 ^ 32)
    (p q : Payload) :
    ∃ ms, ∀ more s', s.runWriteFirst capA capB P prof (ms ++ more) = s' →
      s'.a.sys.app = .locking p ∧ s'.b.sys.app = .locking q ∧ s'.a.sys.returned = [] ∧ s'.b.sys.returned = [] := by
  obtain ⟨n, hn⟩ := jam_call (prof := prof) (capB := capB) hP hRA h hdA hnA
  obtain ⟨a1, a2, a3⟩ := hn (.call p) 0 (.locking p) [] (fun w hw ha => hw.called ha 0 p) (by simp) (by simp [NoReadsOfB]) _ rfl
  obtain ⟨b1, b2⟩ := run_a_only (P := P) (prof := prof) capA capB (List.replicate n ⟨true, .sys .bg, 0⟩ ++ [⟨true, .sys (.call p), 0⟩])
    (by intro m hm; simp only [List.mem_append, List.mem_replicate, List.mem_singleton] at hm; rcases hm with ⟨-, rfl⟩ | rfl <;> rfl) s h.net
  have hwf : ∀ m ∈ List.replicate n ⟨true, .sys .bg, 0⟩ ++ [(⟨true, .sys (.call p), 0⟩ : ShapedMove)], m.act ≠ .sys .read ∧ m.act ≠ .reading := by
    intro m hm
    simp only [List.mem_append, List.mem_replicate, List.mem_singleton] at hm
    rcases hm with ⟨-, rfl⟩ | rfl <;> simp
  have e0 := writeFirst_eq (P := P) (prof := prof) (capA := capA) (capB := capB) _ hwf s
  generalize hms1 : (List.replicate n ⟨true, .sys .bg, 0⟩ ++ [(⟨true, .sys (.call p), 0⟩ : ShapedMove)]) = ms1 at *
  generalize ht : s.run capA capB P prof ms1 = t at *
  have hrB : Rounds P kB.1 kB.2 nB [] t.b := by
    have := h.ba.rounds hdB
    obtain ⟨r1, r2, r3, r4, r5⟩ := this
    exact ⟨by rw [b1]; exact r1, by rw [b1]; exact r2, by rw [b1]; exact r3, by rw [b1]; exact r4, by rw [b1]; exact r5⟩
  obtain ⟨n', hsame, hj⟩ := fills (prof := prof) hP hRB hrB (cap := capB) (by omega)
  obtain ⟨c1, c2, c3⟩ := run_bg' (P := P) (prof := prof) capA capB n' t b2
  have hnr : NoReadsOfB (List.replicate n' ⟨false, .sys .bg, 0⟩) := by
    intro m hm _; rw [(List.mem_replicate.1 hm).2]; simp
  obtain ⟨d1, d2, d3, d4⟩ := jam_run (P := P) (prof := prof) (capA := capA) (capB := capB) _ hnr b2 a3
  have e1 := writeFirst_eq (P := P) (prof := prof) (capA := capA) (capB := capB) (List.replicate n' ⟨false, .sys .bg, 0⟩)
    (by intro m hm; rw [(List.mem_replicate.1 hm).2]; simp) t
  generalize hms2 : List.replicate n' (⟨false, .sys .bg, 0⟩ : ShapedMove) = ms2 at *
  generalize hu : t.run capA capB P prof ms2 = u at *
  rw [← c1] at hsame hj
  have hidle : u.b.sys.app = .idle := by rw [hsame.1, b1]; exact h.ba.app
  have hret : u.b.sys.returned = [] := by rw [hsame.2.1, b1]; exact h.ba.returned
  obtain ⟨f1, f2, -, -⟩ := hj.step (P := P) (prof := prof) 0 (.sys (.call q))
  have e2 := writeFirst_eq (P := P) (prof := prof) (capA := capA) (capB := capB) [⟨false, .sys (.call q), 0⟩] (by simp) u
  refine ⟨ms1 ++ ms2 ++ [⟨false, .sys (.call q), 0⟩], fun more s' hs => ?_⟩
  have happ : ∀ (x : ShapedLink RA RB) l l', x.runWriteFirst capA capB P prof (l ++ l') = (x.runWriteFirst capA capB P prof l).runWriteFirst capA capB P prof l' :=
    fun x l l' => List.foldl_append
  rw [happ, happ, happ, e0, e1, e2] at hs
  exact Jammed.rest (s := u.step capA capB P prof ⟨false, .sys (.call q), 0⟩) rfl (d2.peer (by rw [d1]; rfl) (endConn capA 0) capB 0 (by simp)) f1
    ((d4 (by rw [a1]; simp)).trans a1) (hj.called hidle 0 q) (d3.trans a2) (f2.trans hret) more hs

/-! ## From the beginning of the connection -/

/-- A shaped party just after `ShapedProtocol::new` and `into_split`, with nothing on the way. -/
def ShapedSys.connected (sys : ShapedSys RA) : ShapedN (Bytes × Bytes) RA :=
  ⟨sys, ⟨sys.reader.reader.cipher, (sys.reader.reader.reader.leftover, sys.reader.reader.reader.doneFirst), .idle⟩, ⟨([], []), [], []⟩⟩

/-- **C72_connection.**  Two honest shaped peers connect, each with the garbage and the decoys that its shaper draws for the
handshake: both calls of `ShapedProtocol::new` succeed, in whatever pieces the bytes arrive, and what follows is as in the
theorems above, for each the configuration that it was given. -/
theorem C72_connection (hP : Lawful P) {magic rngI rngR : Bytes} {cI cR : TrafficConfig} {xI : RA.State} {xR : RB.State}
    {gI gR : Option Bytes} {dI dR : Option (List Bytes)}
    (hI : (Shaper.handshake (R := RA) ⟨cI, xI⟩).2.1 = gI ∧ (Shaper.handshake (R := RA) ⟨cI, xI⟩).2.2.1 = dI)
    (hR : (Shaper.handshake (R := RB) ⟨cR, xR⟩).2.1 = gR ∧ (Shaper.handshake (R := RB) ⟨cR, xR⟩).2.2.1 = dR)
    (H : HonestPair P prof magic rngI rngR gI gR dI dR) {toI toR : List Bytes} (nI : ∀ c ∈ toI, c ≠ []) (nR : ∀ c ∈ toR, c ≠ [])
    (hwI : toI.flatten = wireR P magic rngI rngR gR dR) (hwR : toR.flatten = wireI P magic rngI rngR gI dI)
    (w : Sink) (hw : w.Reliable true) :
    ∃ (sI : ShapedSys RA) (sR : ShapedSys RB), ShapedSys.new P prof magic .initiator rngI cI xI (pipe toI) w = .ok sI ∧
      ShapedSys.new P prof magic .responder rngR cR xR (pipe toR) w = .ok sR ∧
      sI.ws.shaper.config = cI ∧ sR.ws.shaper.config = cR ∧
      ∃ kI kR, (ShapedLink.mk sI.connected sR.connected).Begins P kI kR ((dI.getD []).length + 1) ((dR.getD []).length + 1) := by
  obtain ⟨rfl, rfl⟩ := hI
  obtain ⟨rfl, rfl⟩ := hR
  obtain ⟨iI, iR, oI, oR, hm1, hm2, fI, fR, ⟨kL, kP, atI⟩, kL', kP', atR⟩ := honest_pair hP H
  have hcfg : ∀ {R : Rng} (s : Shaper R), s.handshake.1.config = s.config := by
    intro R s
    unfold Shaper.handshake
    cases s.config.padding <;> cases s.config.decoy <;> rfl
  have hcI := hcfg (R := RA) ⟨cI, xI⟩
  have hcR := hcfg (R := RB) ⟨cR, xR⟩
  unfold ShapedSys.new
  generalize Shaper.handshake (R := RA) ⟨cI, xI⟩ = hsI at *
  generalize Shaper.handshake (R := RB) ⟨cR, xR⟩ = hsR at *
  obtain ⟨shI, gI, dI, recI⟩ := hsI
  obtain ⟨shR, gR, dR, recR⟩ := hsR
  have runI : ∃ s, (handshake syncApi P prof magic .initiator rngI gI dI (pipe toI) w).2.2 = .ok (iI, oI, s) ∧
      SessStreams syncAbs s [] [.fail .wouldBlock] := by
    obtain ⟨a, f⟩ := handshake_flat (prof := prof) syncAbs hP (pipe_ends syncApi.retry)
      ⟨magic, .initiator, rngI, P.ellswift rngI⟩ gI dI (pipe toI) _ (pipe_streams nI) w
    obtain ⟨w', -, -, hf⟩ := (fI syncApi.retry w hw).1 []
    rw [List.append_nil, ← hwI] at hf
    unfold handshake
    rw [newWithRng_ok H.newI]
    simp only
    rw [hf] at f
    exact f
  have runR : ∃ s, (handshake syncApi P prof magic .responder rngR gR dR (pipe toR) w).2.2 = .ok (iR, oR, s) ∧
      SessStreams syncAbs s [] [.fail .wouldBlock] := by
    obtain ⟨a, f⟩ := handshake_flat (prof := prof) syncAbs hP (pipe_ends syncApi.retry)
      ⟨magic, .responder, rngR, P.ellswift rngR⟩ gR dR (pipe toR) _ (pipe_streams nR) w
    obtain ⟨w', -, -, hf⟩ := (fR syncApi.retry w hw).1 []
    rw [List.append_nil, ← hwR] at hf
    unfold handshake
    rw [newWithRng_ok H.newR]
    simp only
    rw [hf] at f
    exact f
  obtain ⟨sI, eI, tI⟩ := runI
  obtain ⟨sR, eR, tR⟩ := runR
  unfold SyncProtocol.new
  simp only
  generalize handshake syncApi P prof magic .initiator rngI gI dI (pipe toI) w = rI at eI ⊢
  generalize handshake syncApi P prof magic .responder rngR gR dR (pipe toR) w = rR at eR ⊢
  obtain ⟨wI, aI, rI⟩ := rI
  obtain ⟨wR, aR, rR⟩ := rR
  simp only at eI eR
  subst eI eR
  refine ⟨_, _, rfl, rfl, ?_, ?_, (kL, kP), (kL', kP'), ⟨?_, ?_, rfl⟩⟩
  · exact hcI
  · exact hcR
  · refine ⟨atI, ⟨oI, atI, hm1⟩, ?_, rfl, rfl, rfl, rfl, rfl, rfl, rfl, rfl, rfl⟩
    simp only [ShapedSys.connected, ShapedSys.init, SyncHalf.held, List.append_nil]
    exact held_of_streams rfl tR
  · refine ⟨atR, ⟨oR, atR, hm2⟩, ?_, rfl, rfl, rfl, rfl, rfl, rfl, rfl, rfl, rfl⟩
    simp only [ShapedSys.connected, ShapedSys.init, SyncHalf.held, List.append_nil]
    exact held_of_streams rfl tI

/-! ## Examples -/

namespace ShapedLinkExample

open LinkExample (kL kP kL' kP')

/-- Two parties that pad and send decoys, before their first calls. -/
def start (c : TrafficConfig) : ShapedLink greedyRng greedyRng :=
  ⟨(ShapedSys.init ⟨⟨⟨FSStream.new kL', FSAead.new kP'⟩, ⟨[], true, []⟩⟩, ⟨⟨FSStream.new kL, FSAead.new kP⟩, ⟨[], [], []⟩⟩⟩ ⟨c, ()⟩ []).connected,
   (ShapedSys.init ⟨⟨⟨FSStream.new kL, FSAead.new kP⟩, ⟨[], true, []⟩⟩, ⟨⟨FSStream.new kL', FSAead.new kP'⟩, ⟨[], [], []⟩⟩⟩ ⟨c, ()⟩ []).connected⟩

/-- The hypotheses of the theorems above are met. -/
theorem begins (c : TrafficConfig) : (start c).Begins toy (kL, kP) (kL', kP') 0 0 := by
  refine ⟨⟨?_, ⟨⟨FSStream.new kL, FSAead.new kP⟩, ?_, ?_⟩, rfl, rfl, rfl, rfl, rfl, rfl, rfl, rfl, rfl, rfl⟩,
    ⟨?_, ⟨⟨FSStream.new kL', FSAead.new kP'⟩, ?_, ?_⟩, rfl, rfl, rfl, rfl, rfl, rfl, rfl, rfl, rfl, rfl⟩, rfl⟩
  all_goals first | exact ⟨FSStream.at_new _, FSAead.at_new _⟩ | exact ⟨rfl, rfl⟩

theorem rolls (x : greedyRng.State) : greedyRng.Rolls x := .now x (by show 85 ≤ max 0 99; decide)

def both : TrafficConfig := ⟨.random, .random⟩

/-- B reads. -/
def reads (n : Nat) : List ShapedMove := ⟨false, .sys .read, 0⟩ :: List.replicate n ⟨false, .reading, 5000⟩

def sampleMoves : List ShapedMove :=
  ⟨true, .sys (.call (.genuine [1, 2, 3])), 0⟩ :: List.replicate 20 ⟨true, .sys .app, 9999⟩ ++ reads 4 ++ reads 4 ++ reads 4

/-- A call that is delivered, behind a decoy. -/
example : ReadableCalls sampleMoves ∧
    (let s := (start both).run 5000 5 toy .debug sampleMoves
     s.a.sys.returned = [(.genuine [1, 2, 3], .ok ())] ∧ s.b.sys.reads.length = 2 ∧ genuineOf (okOf s.b.sys.reads) = [[1, 2, 3]]) := by
  refine ⟨?_, by decide +kernel⟩
  intro m hm p hp
  simp only [sampleMoves, reads, List.mem_append, List.mem_cons, List.mem_replicate] at hm
  rcases hm with (((rfl | ⟨-, rfl⟩) | rfl | ⟨-, rfl⟩) | rfl | ⟨-, rfl⟩) | rfl | ⟨-, rfl⟩ <;> cases hp
  exact ⟨.genuine, [1, 2, 3], rfl, rfl, by decide⟩

/-- A channel of ten bytes that a decoy fills; then `write` does not return, although A reads and B writes. -/
example : NoReadsOfB [⟨true, .sys .app, 7⟩, ⟨true, .sys .read, 7⟩, ⟨true, .reading, 7⟩, ⟨false, .sys .bg, 7⟩, ⟨true, .sys .bg, 7⟩] ∧
    (let s := (start both).run 10 5 toy .debug (List.replicate 20 ⟨true, .sys .bg, 0⟩ ++ ⟨true, .sys (.call (.genuine [1])), 0⟩ ::
        [⟨true, .sys .app, 7⟩, ⟨true, .sys .read, 7⟩, ⟨true, .reading, 7⟩, ⟨false, .sys .bg, 7⟩, ⟨true, .sys .bg, 7⟩])
     s.a.sys.app = .locking (.genuine [1]) ∧ s.a.run.net.1.length = 10) := by
  refine ⟨?_, by decide +kernel⟩
  intro m hm hA
  simp only [List.mem_cons, List.not_mem_nil, or_false] at hm
  rcases hm with rfl | rfl | rfl | rfl | rfl <;> simp at hA ⊢

/-- The hypotheses of `C72_blocked` and `C72_exchange_deadlock`. -/
example : (∀ x, greedyRng.Rolls x) ∧ (start both).Begins toy (kL, kP) (kL', kP') 0 0 ∧
    (start both).a.sys.ws.shaper.config.decoy = .random ∧ (start both).b.sys.ws.shaper.config.decoy = .random ∧
    0 + 1000000 + 2 < 2 ^ 32 := ⟨rolls, begins both, rfl, rfl, by decide⟩

/-- A generator that sends no decoys for a while. -/
def slowRng : Rng where
  State := Nat
  range s lo hi := (s - 1, if s = 0 then max lo hi else lo)
  range_mem s lo hi h := by simp only; split <;> omega
  fill s n := (s, zeros n)
  fill_length s n := by simp [zeros]

example : ∀ x, slowRng.Rolls x := by
  intro x
  have : ∀ n : Nat, slowRng.Rolls n := by
    intro n
    induction n with
    | zero => exact .now (R := slowRng) (0 : Nat) (by decide)
    | succ n ih => exact .later (R := slowRng) (n + 1 : Nat) ih
  exact this x

/-- A generator of small numbers. -/
def smallRng (d : Nat) : Rng where
  State := Unit
  range _ lo hi := ((), max lo (min d hi))
  range_mem := by intro _ lo hi h; simp only; omega
  fill _ n := ((), List.replicate n 42)
  fill_length := by intro _ n; simp

/-- A pair of honest peers. -/
theorem honest : HonestPair toy .debug [1, 2, 3, 4] (leBytes 32 77) (leBytes 32 99) (some [42, 42]) (some []) (some [[42, 42], [42, 42]]) (some []) :=
  { newI := by decide +kernel
    newR := by decide +kernel
    magicI := by decide +kernel
    magicR := by decide +kernel
    garbageI := by decide +kernel
    garbageR := by decide +kernel
    decoysI := by decide +kernel
    decoysR := by decide +kernel
    countI := by decide +kernel
    countR := by decide +kernel
    earlyI := by
      generalize ht : List.take 16 _ = t
      refine noEarly_of_head (b := t.headD 0) ?_ ?_
      · rw [← ht]; decide +kernel
      · rw [← ht]; decide +kernel
    earlyR := by intro j hj; simp at hj }

/-- The hypotheses of `C72_connection`: the shapers draw two bytes of garbage and two decoys, and nothing. -/
example : (Shaper.handshake (R := smallRng 2) ⟨both, ()⟩).2.1 = some [42, 42] ∧
    (Shaper.handshake (R := smallRng 2) ⟨both, ()⟩).2.2.1 = some [[42, 42], [42, 42]] ∧
    (Shaper.handshake (R := smallRng 0) ⟨both, ()⟩).2.1 = some [] ∧ (Shaper.handshake (R := smallRng 0) ⟨both, ()⟩).2.2.1 = some [] ∧
    HonestPair toy .debug [1, 2, 3, 4] (leBytes 32 77) (leBytes 32 99) (some [42, 42]) (some []) (some [[42, 42], [42, 42]]) (some []) ∧
    (⟨[], [], []⟩ : Sink).Reliable true := by
  exact ⟨rfl, rfl, rfl, rfl, honest, ⟨by simp, by simp⟩⟩

end ShapedLinkExample

end Bip324
