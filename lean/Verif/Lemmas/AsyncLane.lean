import Verif.Lemmas.AsyncLink

/-!
# Both sides of one direction between two asynchronous shaped parties
-/

namespace Bip324

variable {P : Prims} {prof : Profile} {RA RB : Rng}

/-! ## The side that reads -/

/-- The reader has read the first packets of `log`, which begins at number `n0`, and `avail` is what it has not used. -/
def PolledUpTo (P : Prims) (prof : Profile) (kL kP : Bytes) (n0 : Nat) (log : List Payload)
    (reads : List PollResult) (h : AsyncHalf) (avail : Bytes) : Prop :=
  ∃ j, j ≤ log.length ∧ readyReads reads = (log.take j).map (fun p => .ok p.received) ∧
    AsyncReaderAt P prof kL kP (n0 + j) h (log.drop j) avail

theorem AsyncReaderAt.extend {kL kP : Bytes} {j : Nat} {h : AsyncHalf} {ps : List Payload} {avail : Bytes} (new : List Payload)
    (hr : AsyncReaderAt P prof kL kP j h ps avail) :
    AsyncReaderAt P prof kL kP j h (ps ++ new) (avail ++ payloadStream P kL kP (j + ps.length) new) := by
  unfold AsyncReaderAt at hr ⊢
  cases hst : h.state with
  | readingLength buf n =>
    rw [hst] at hr
    simp only at hr ⊢
    obtain ⟨o, h1, h2, h3, h4, h5⟩ := hr
    exact ⟨o, h1, h2, h3, h4, by rw [← List.append_assoc, h5, ← payloadStream_append]⟩
  | readingPayload buf n =>
    rw [hst] at hr
    simp only at hr ⊢
    obtain ⟨p, ps', w, o, i, rfl, h1, h2, h3, h4, h5, h6, h7⟩ := hr
    refine ⟨p, ps' ++ new, w, o, i, rfl, h1, h2, h3, h4, h5, h6, ?_⟩
    rw [← List.append_assoc, h7, List.append_assoc, payloadStream_append, List.length_cons, Nat.add_right_comm j 1, Nat.add_assoc j]

theorem PolledUpTo.extend {kL kP : Bytes} {n0 : Nat} {log : List Payload} {reads : List PollResult} {h : AsyncHalf}
    {avail : Bytes} (new : List Payload) (hr : PolledUpTo P prof kL kP n0 log reads h avail) :
    PolledUpTo P prof kL kP n0 (log ++ new) reads h (avail ++ payloadStream P kL kP (n0 + log.length) new) := by
  obtain ⟨j, h1, h2, h3⟩ := hr
  have e : n0 + j + (log.drop j).length = n0 + log.length := by rw [List.length_drop]; omega
  refine ⟨j, by simp; omega, ?_, ?_⟩
  · rw [List.take_append_of_le_length h1]; exact h2
  · rw [List.drop_append_of_le_length h1]
    have := h3.extend new
    rw [e] at this
    exact this

/-- What is left to be done by a reader of `log`. -/
def pollWork (log : List Payload) (r : AsyncShapedN (Bytes × Bytes) RB) : Nat :=
  2 * (r.half.held ++ r.run.net.2).length + 3 * (log.length - (readyReads r.sys.reads).length) +
    (if r.half.inPayload then 0 else 1) + (if r.half.busy then 0 else 1)

/-- The parts of a party that a step of its reader leaves alone. -/
def SameTask (r r' : AsyncShapedN (Bytes × Bytes) RB) : Prop :=
  (∃ reader reads, r'.sys = { r.sys with reader := reader, reads := reads }) ∧ r'.run.net.1 = r.run.net.1

theorem readyReads_append (a b : List PollResult) : readyReads (a ++ b) = readyReads a ++ readyReads b := by simp [readyReads]

/-- A step of the reader: it has nothing to do, or it goes on. -/
theorem polling_step (hP : Lawful P) {kL kP : Bytes} {n0 : Nat} {log : List Payload} {r : AsyncShapedN (Bytes × Bytes) RB} {later : Bytes}
    (hlog : ∀ p ∈ log, p.Readable) (hn : n0 + log.length < 2 ^ 32)
    (hr : PolledUpTo P prof kL kP n0 log r.sys.reads r.half (r.half.held ++ r.run.net.2 ++ later)) (cap k : Nat) {r' : AsyncShapedN (Bytes × Bytes) RB}
    (hs : r.step (pollEnd cap k) P prof .reading = r') :
    SameTask r r' ∧ PolledUpTo P prof kL kP n0 log r'.sys.reads r'.half (r'.half.held ++ r'.run.net.2 ++ later) ∧
    (r.half.busy = false ∨ (r.half.held ++ r.run.net.2 = [] ∧ (later = [] → (readyReads r.sys.reads).length = log.length)) ∨
      pollWork log r' < pollWork log r) := by
  have hr0 := hr
  obtain ⟨j, h1, h2, h3⟩ := hr
  have hlen : (readyReads r.sys.reads).length = j := by rw [h2, List.length_map, List.length_take]; omega
  cases hb : r.half.busy with
  | false =>
    have : r' = r := by
      rw [← hs]
      simp only [AsyncShapedN.step, AsyncHalf.step, hb, Bool.false_eq_true, if_false]
    subst this
    exact ⟨⟨⟨_, _, rfl⟩, rfl⟩, hr0, .inl rfl⟩
  | true =>
    rcases async_reader_step (cap := cap) (k := k) hP hb (fun p hp => hlog p (List.mem_of_mem_drop hp)) (by rw [List.length_drop]; omega) h3 with
      ⟨h', run', g1, g2, g3, -, g4, g5, g6⟩ | ⟨h', run', g1, g2, g3, g4, g5⟩ | ⟨h', p, ps', g1, g2, g3, g4⟩
    · have hsys : r' = { r with half := h', run := run', sys := { r.sys with
          reader := { r.sys.reader with recorded := r.sys.reader.recorded }, reads := r.sys.reads ++ [.pending] } } := by
        rw [← hs]
        simp only [AsyncShapedN.step, g1, recordPoll]
      subst hsys
      refine ⟨⟨⟨_, _, rfl⟩, by simp only [g3]⟩, ⟨j, h1, ?_, g4⟩, .inr (.inl ⟨g5, fun hl => ?_⟩)⟩
      · simp only [readyReads_append, h2]; simp [readyReads]
      · rw [hl, List.length_nil] at g6
        by_cases hd : log.drop j = []
        · have := congrArg List.length hd
          rw [List.length_drop, List.length_nil] at this
          omega
        · have := g6 hd; omega
    · have : r' = { r with half := h', run := run' } := by
        rw [← hs]
        simp only [AsyncShapedN.step, g1]
      subst this
      refine ⟨⟨⟨_, _, rfl⟩, g3⟩, ⟨j, h1, h2, g4⟩, .inr (.inr ?_)⟩
      unfold pollWork
      simp only [g2, hb, if_true]
      rcases g5 with g5 | ⟨g5, g6, g7⟩
      · generalize (h'.held ++ run'.net.2).length = x at g5 ⊢
        generalize (r.half.held ++ r.run.net.2).length = y at g5 ⊢
        cases h'.inPayload <;> cases r.half.inPayload <;> simp <;> omega
      · rw [g5, g6, g7]; simp
    · have hp : p.Readable := hlog p (List.mem_of_mem_drop (i := j) (by rw [g1]; simp))
      have hjl : j < log.length := by
        have := congrArg List.length g1
        rw [List.length_drop, List.length_cons] at this
        omega
      have hsys : r' = { r with half := h', sys := { r.sys with
          reader := { r.sys.reader with recorded := (recordRead r.sys.reader.recorded (.ok p.received)).1 },
          reads := r.sys.reads ++ [.ready (.ok p.received)] } } := by
        rw [← hs]
        simp only [AsyncShapedN.step, g2, recordPoll, received_recorded hp]
      subst hsys
      refine ⟨⟨⟨_, _, rfl⟩, rfl⟩, ⟨j + 1, by omega, ?_, ?_⟩, .inr (.inr ?_)⟩
      · simp only [readyReads_append, h2]
        have : log[j] = p := by
          have := List.drop_eq_getElem_cons hjl
          rw [g1] at this
          exact (List.cons.inj this).1.symm
        rw [← List.take_append_getElem hjl, List.map_append, List.map_singleton, this]
        rfl
      · have : log.drop (j + 1) = ps' := by
          rw [← List.drop_drop, g1]; rfl
        simp only [this]
        exact g4
      · unfold pollWork
        simp only [g3, hb, if_true, readyReads_append, List.length_append, hlen]
        have : (readyReads [PollResult.ready (.ok p.received)]).length = 1 := rfl
        rw [this]
        cases h'.inPayload <;> cases h'.busy <;> simp <;> omega

/-! ## The two sides together -/

/-- One direction: the packets of `log` have been written, of which `rest` is not sent yet. -/
structure AsyncLane (P : Prims) (prof : Profile) (kL kP : Bytes) (n0 : Nat) (log : List Payload) (rest : Bytes)
    (w : AsyncShapedN (Bytes × Bytes) RA) (r : AsyncShapedN (Bytes × Bytes) RB) : Prop where
  readable : ∀ p ∈ log, p.Readable
  sender : ∃ d, TaskAt P kL kP (n0 + log.length) d log w.sys rest
  reader : PolledUpTo P prof kL kP n0 log r.sys.reads r.half (r.half.held ++ w.run.net.1 ++ rest)

theorem TaskAt.of_sameTask {kL kP : Bytes} {m d : Nat} {log : List Payload} {rest : Bytes} {w w' : AsyncShapedN (Bytes × Bytes) RA}
    (h : TaskAt P kL kP m d log w.sys rest) (h' : SameTask w w') : TaskAt P kL kP m d log w'.sys rest := by
  obtain ⟨⟨reader, reads, h'⟩, -⟩ := h'
  rw [h']
  exact h

variable {kL kP : Bytes} {n0 : Nat} {log : List Payload} {rest : Bytes} {w : AsyncShapedN (Bytes × Bytes) RA} {r : AsyncShapedN (Bytes × Bytes) RB}

/-- The writing side writes. -/
theorem AsyncLane.send (h : AsyncLane P prof kL kP n0 log rest w r) {w' : AsyncShapedN (Bytes × Bytes) RA} {d : Nat} {new : List Payload}
    {rest' : Bytes} (hs : TaskSends P kL kP (n0 + log.length) d log rest w w' new rest') (N : PollConn (Bytes × Bytes)) (x : Bytes × Bytes) :
    AsyncLane P prof kL kP n0 (log ++ new) rest' w' (r.step N P prof (.peer x)) := by
  obtain ⟨h1, h2, h3, h4, h5⟩ := hs
  refine ⟨?_, ⟨d, ?_⟩, ?_⟩
  · intro p hp
    rcases List.mem_append.1 hp with hp | hp
    · exact h.readable p hp
    · exact h2 p hp
  · rw [List.length_append, ← Nat.add_assoc]; exact h3
  · have := h.reader.extend new
    rw [List.append_assoc, List.append_assoc, ← List.append_assoc w.run.net.1, ← h5, ← List.append_assoc] at this
    exact this

/-- The writing side reads. -/
theorem AsyncLane.other (h : AsyncLane P prof kL kP n0 log rest w r) {w' : AsyncShapedN (Bytes × Bytes) RA}
    (hs : SameTask w w') (N : PollConn (Bytes × Bytes)) (x : Bytes × Bytes) :
    AsyncLane P prof kL kP n0 log rest w' (r.step N P prof (.peer x)) :=
  ⟨h.readable, h.sender.imp fun _ hd => hd.of_sameTask hs, by rw [hs.2]; exact h.reader⟩

/-- The reading side writes. -/
theorem AsyncLane.other' (h : AsyncLane P prof kL kP n0 log rest w r) {r' : AsyncShapedN (Bytes × Bytes) RB}
    (hs : SameReads r r') (hn : r.run.net.2 = w.run.net.1) (N : PollConn (Bytes × Bytes)) :
    AsyncLane P prof kL kP n0 log rest (w.step N P prof (.peer r'.run.net.swap)) r' :=
  ⟨h.readable, h.sender, by
    obtain ⟨h1, h2, -, h4⟩ := hs
    rw [h1, h2]
    show PolledUpTo P prof kL kP n0 log r.sys.reads r.half (r.half.held ++ r'.run.net.2 ++ rest)
    rw [h4, hn]
    exact h.reader⟩

/-- The reading side begins to read. -/
theorem AsyncLane.begin (h : AsyncLane P prof kL kP n0 log rest w r) (hn : r.run.net.2 = w.run.net.1) (N N' : PollConn (Bytes × Bytes)) :
    AsyncLane P prof kL kP n0 log rest (w.step N P prof (.peer (r.step N' P prof (.sys .read)).run.net.swap)) (r.step N' P prof (.sys .read)) :=
  ⟨h.readable, h.sender, by
    show PolledUpTo P prof kL kP n0 log r.sys.reads { r.half with busy := true } (r.half.held ++ r.run.net.2 ++ rest)
    rw [hn]
    exact h.reader⟩

/-- The reading side reads. -/
theorem AsyncLane.read (hP : Lawful P) (h : AsyncLane P prof kL kP n0 log rest w r) (hn : r.run.net.2 = w.run.net.1)
    (hlen : n0 + log.length < 2 ^ 32) (N : PollConn (Bytes × Bytes)) (cap k : Nat) {r' : AsyncShapedN (Bytes × Bytes) RB}
    (hs : r.step (pollEnd cap k) P prof .reading = r') :
    AsyncLane P prof kL kP n0 log rest (w.step N P prof (.peer r'.run.net.swap)) r' ∧ SameTask r r' ∧
    (r.half.busy = false ∨ (r.half.held ++ r.run.net.2 = [] ∧ (rest = [] → (readyReads r.sys.reads).length = log.length)) ∨
      pollWork log r' < pollWork log r) := by
  have hr := h.reader
  rw [← hn] at hr
  obtain ⟨g1, g2, g3⟩ := polling_step hP h.readable hlen hr cap k hs
  exact ⟨⟨h.readable, h.sender, g2⟩, g1, g3⟩

theorem SameTask.read (N : PollConn (Bytes × Bytes)) (w : AsyncShapedN (Bytes × Bytes) RA) : SameTask w (w.step N P prof (.sys .read)) :=
  ⟨⟨_, _, rfl⟩, rfl⟩

/-- A step makes one call at most. -/
theorem called_step (N : PollConn (Bytes × Bytes)) (s : AsyncShapedN (Bytes × Bytes) RA) (l : ShapedLabel (Bytes × Bytes) AsyncLabel) :
    (s.step N P prof l).sys.called.length ≤ s.sys.called.length + 1 := by
  cases l with
  | peer x => exact Nat.le_succ _
  | reading =>
    simp only [AsyncShapedN.step]
    split <;> exact Nat.le_succ _
  | sys l =>
    have key : ∀ x : AsyncShapedSys RA, (x.step P prof l).called.length ≤ x.called.length + 1 := by
      intro x
      cases l <;> simp only [AsyncShapedSys.step, AsyncShapedSys.taskStep]
      all_goals (repeat' split)
      all_goals simp
    cases l with
    | read => exact Nat.le_succ _
    | _ =>
      simp only [AsyncShapedN.step]
      split
      · exact Nat.le_succ _
      · exact key _

/-- The whole system. -/
structure AsyncLink.Inv (P : Prims) (prof : Profile) (kA kB : Bytes × Bytes) (nA nB N : Nat) (s : AsyncLink RA RB) : Prop where
  net : s.b.run.net = s.a.run.net.swap
  ab : ∃ log rest, log.length ≤ N ∧ AsyncLane P prof kA.1 kA.2 nA log rest s.a s.b
  ba : ∃ log rest, log.length ≤ N ∧ AsyncLane P prof kB.1 kB.2 nB log rest s.b s.a
  callsA : s.a.sys.called.length ≤ N
  callsB : s.b.sys.called.length ≤ N

/-- A party makes a step, and the other sees what it did to the channels. -/
theorem async_party_step (hP : Lawful P) {kA kB : Bytes × Bytes} {nA nB N : Nat} (hA : nA + N + 1 < 2 ^ 32) (hB : nB + N + 1 < 2 ^ 32)
    {a : AsyncShapedN (Bytes × Bytes) RA} {b : AsyncShapedN (Bytes × Bytes) RB} (hnet : b.run.net = a.run.net.swap)
    (hab : ∃ log rest, log.length ≤ N ∧ AsyncLane P prof kA.1 kA.2 nA log rest a b)
    (hba : ∃ log rest, log.length ≤ N ∧ AsyncLane P prof kB.1 kB.2 nB log rest b a) (cap k : Nat) (N' : PollConn (Bytes × Bytes))
    {act : AsyncAct} (hact : ∀ p, act = .sys (.call p) → p.Readable) {a' : AsyncShapedN (Bytes × Bytes) RA}
    (ha : a.step (pollEnd cap k) P prof act.label = a') :
    (∃ log rest, log.length ≤ N + 1 ∧ AsyncLane P prof kA.1 kA.2 nA log rest a' (b.step N' P prof (.peer a'.run.net.swap))) ∧
    (∃ log rest, log.length ≤ N + 1 ∧ AsyncLane P prof kB.1 kB.2 nB log rest (b.step N' P prof (.peer a'.run.net.swap)) a') := by
  obtain ⟨logA, restA, lA, hab⟩ := hab
  obtain ⟨logB, restB, lB, hba⟩ := hba
  have hn2 : a.run.net.2 = b.run.net.1 := by rw [hnet]; rfl
  subst ha
  cases act with
  | reading =>
    obtain ⟨h1, h2, -⟩ := hba.read hP hn2 (by omega) N' cap k (r' := a.step (pollEnd cap k) P prof .reading) rfl
    exact ⟨⟨logA, restA, by omega, hab.other h2 N' _⟩, ⟨logB, restB, by omega, h1⟩⟩
  | sys l =>
    by_cases hl : l = .read
    · subst hl
      exact ⟨⟨logA, restA, by omega, hab.other (SameTask.read _ _) N' _⟩, ⟨logB, restB, by omega, hba.begin hn2 N' _⟩⟩
    · obtain ⟨d, hd⟩ := hab.sender
      obtain ⟨d', new, rest', hs, -⟩ := tasker_step (prof := prof) hP (by omega) hd hl (fun p hp => hact p (by rw [hp])) cap k
      refine ⟨⟨logA ++ new, rest', ?_, hab.send hs N' _⟩, ⟨logB, restB, by omega, hba.other' hs.2.2.2.1 hn2 N'⟩⟩
      have := hs.1
      rw [List.length_append]; omega

theorem AsyncLink.Inv.step (hP : Lawful P) {kA kB : Bytes × Bytes} {nA nB N : Nat} (hA : nA + N + 1 < 2 ^ 32) (hB : nB + N + 1 < 2 ^ 32)
    {s : AsyncLink RA RB} (h : s.Inv P prof kA kB nA nB N) (capA capB : Nat) {m : AsyncMove} (hm : ∀ p, m.act = .sys (.call p) → p.Readable) :
    (s.step capA capB P prof m).Inv P prof kA kB nA nB (N + 1) := by
  have hcA := h.callsA
  have hcB := h.callsB
  unfold AsyncLink.step
  cases hc : m.ofA with
  | true =>
    simp only [if_true]
    obtain ⟨h1, h2⟩ := async_party_step hP hA hB h.net h.ab h.ba capA m.k (pollEnd capB m.k) hm rfl
    have := called_step (P := P) (prof := prof) (pollEnd capA m.k) s.a m.act.label
    exact ⟨rfl, h1, h2, by simp only; omega, Nat.le_succ_of_le hcB⟩
  | false =>
    simp only [Bool.false_eq_true, if_false]
    obtain ⟨h1, h2⟩ := async_party_step hP hB hA (by rw [h.net]; rfl) h.ba h.ab capB m.k (pollEnd capA m.k) hm rfl
    have := called_step (P := P) (prof := prof) (pollEnd capB m.k) s.b m.act.label
    exact ⟨rfl, h2, h1, Nat.le_succ_of_le hcA, by simp only; omega⟩

theorem AsyncLink.Inv.run (hP : Lawful P) {kA kB : Bytes × Bytes} {nA nB : Nat} (capA capB : Nat) (ms : List AsyncMove)
    (hm : ∀ m ∈ ms, ∀ p, m.act = .sys (.call p) → p.Readable) {N : Nat} (hA : nA + N + ms.length < 2 ^ 32) (hB : nB + N + ms.length < 2 ^ 32)
    {s : AsyncLink RA RB} (h : s.Inv P prof kA kB nA nB N) :
    (s.run capA capB P prof ms).Inv P prof kA kB nA nB (N + ms.length) := by
  induction ms generalizing s N with
  | nil => exact h
  | cons m ms ih =>
    rw [List.length_cons] at hA hB ⊢
    have := ih (fun x hx => hm x (by simp [hx])) (by omega) (by omega) (h.step hP (by omega) (by omega) capA capB (hm m (by simp)))
    rw [show N + (ms.length + 1) = N + 1 + ms.length by omega]
    exact this

/-! ## What a party can still do -/

variable {capA capB : Nat}

/-- The application of `a` polls its call, the task of `a` goes on, or `b` reads. -/
def AsyncMove.Helps (m : AsyncMove) : Prop :=
  if m.ofA then m.act = .sys .resume ∨ m.act = .sys .recv ∨ m.act = .sys .task else m.act = .sys .read ∨ m.act = .reading

/-- There is a schedule of such steps. -/
def CanGo (capA capB : Nat) (P : Prims) (prof : Profile) (s s' : AsyncLink RA RB) : Prop :=
  ∃ ms : List AsyncMove, (∀ m ∈ ms, m.Helps) ∧ s.run capA capB P prof ms = s'

theorem CanGo.refl (s : AsyncLink RA RB) : CanGo capA capB P prof s s := ⟨[], by simp, rfl⟩

theorem CanGo.trans {s s' s'' : AsyncLink RA RB} (h : CanGo capA capB P prof s s') (h' : CanGo capA capB P prof s' s'') :
    CanGo capA capB P prof s s'' := by
  obtain ⟨ms, h1, rfl⟩ := h
  obtain ⟨ms', h2, rfl⟩ := h'
  refine ⟨ms ++ ms', ?_, by simp [AsyncLink.run]⟩
  intro m hm
  rcases List.mem_append.1 hm with hm | hm
  · exact h1 m hm
  · exact h2 m hm

theorem CanGo.one {s : AsyncLink RA RB} {m : AsyncMove} (h : m.Helps) : CanGo capA capB P prof s (s.step capA capB P prof m) :=
  ⟨[m], by simpa using h, rfl⟩

/-- The reader can read until nothing is there. -/
theorem async_drain (hP : Lawful P) {s : AsyncLink RA RB} (hnet : s.b.run.net = s.a.run.net.swap)
    (h : AsyncLane P prof kL kP n0 log rest s.a s.b) (hlen : n0 + log.length < 2 ^ 32) :
    ∃ s', CanGo capA capB P prof s s' ∧ s'.b.run.net = s'.a.run.net.swap ∧ AsyncLane P prof kL kP n0 log rest s'.a s'.b ∧
      s'.a.sys = s.a.sys ∧ s'.a.run.net.1 = [] ∧ (rest = [] → (readyReads s'.b.sys.reads).length = log.length) := by
  generalize hW : pollWork log s.b = W
  induction W using Nat.strongRecOn generalizing s with
  | _ W ih =>
    have hn2 : s.b.run.net.2 = s.a.run.net.1 := by rw [hnet]; rfl
    cases hi : s.b.half.busy with
    | false =>
      have hb := h.begin hn2 (pollEnd capA 0) (pollEnd capB 0)
      have hstep : s.step capA capB P prof ⟨false, .sys .read, 0⟩ = ⟨s.a.step (pollEnd capA 0) P prof (.peer (s.b.step (pollEnd capB 0) P prof (.sys .read)).run.net.swap), s.b.step (pollEnd capB 0) P prof (.sys .read)⟩ := rfl
      obtain ⟨s', g1, g2, g3, g4, g5⟩ := ih (pollWork log (s.step capA capB P prof ⟨false, .sys .read, 0⟩).b) (by
        rw [← hW, hstep]
        have e : (s.b.step (pollEnd capB 0) P prof (.sys .read)).half = { s.b.half with busy := true } := rfl
        have e1 : (s.b.step (pollEnd capB 0) P prof (.sys .read)).sys = s.b.sys := rfl
        have e2 : (s.b.step (pollEnd capB 0) P prof (.sys .read)).run = s.b.run := rfl
        have e3 : ({ s.b.half with busy := true } : AsyncHalf).held = s.b.half.held := rfl
        have e4 : ({ s.b.half with busy := true } : AsyncHalf).inPayload = s.b.half.inPayload := rfl
        unfold pollWork
        simp only [e, e1, e2, e3, e4, hi, if_true, Bool.false_eq_true, if_false]
        omega) (s := s.step capA capB P prof ⟨false, .sys .read, 0⟩) rfl hb rfl
      exact ⟨s', (CanGo.one (by simp [AsyncMove.Helps])).trans g1, g2, g3, g4, g5⟩
    | true =>
      obtain ⟨h1, -, h2⟩ := h.read hP hn2 hlen (pollEnd capA 0) capB 0 (r' := s.b.step (pollEnd capB 0) P prof .reading) rfl
      rcases h2 with h2 | ⟨h2, h3⟩ | h2
      · rw [hi] at h2; cases h2
      · exact ⟨s, .refl s, hnet, h, rfl, by rw [← hn2]; exact (List.append_eq_nil_iff.1 h2).2, h3⟩
      · obtain ⟨s', g1, g2, g3, g4, g5⟩ := ih _ (by rw [← hW]; exact h2) (s := s.step capA capB P prof ⟨false, .reading, 0⟩) rfl h1 rfl
        exact ⟨s', (CanGo.one (by simp [AsyncMove.Helps])).trans g1, g2, g3, g4, g5⟩

/-- What the task leaves alone. -/
def SameCaller (s s' : AsyncShapedSys RA) : Prop :=
  s'.caller = s.caller ∧ s'.returned = s.returned ∧ s'.called = s.called

/-- A step that makes no packet. -/
theorem async_between (hP : Lawful P) {s : AsyncLink RA RB} (h : AsyncLane P prof kL kP n0 log rest s.a s.b)
    (hlen : n0 + log.length + 1 < 2 ^ 32) {l : AsyncLabel} (hl : l = .resume ∨ l = .recv ∨ l = .task) (hb : s.a.sys.Between l)
    (hq : s.a.sys.asks l = none) :
    ∃ s', CanGo capA capB P prof s s' ∧ s'.b.run.net = s'.a.run.net.swap ∧ AsyncLane P prof kL kP n0 log rest s'.a s'.b ∧
      s'.a.sys = ({ s.a.sys with ws := s.a.sys.ws.over ⟨[], [], []⟩ } : AsyncShapedSys RA).step P prof l ∧
      s'.a.run = s.a.run ∧ s'.b.sys = s.b.sys := by
  have hl' : l ≠ .read := by rcases hl with rfl | rfl | rfl <;> simp
  obtain ⟨d, hd⟩ := h.sender
  obtain ⟨d', new, rest', hs, he⟩ := tasker_step (prof := prof) (l := l) hP hlen hd hl' (by rcases hl with rfl | rfl | rfl <;> simp) capA 0
  obtain ⟨rfl, rfl⟩ := he hb
  have := h.send hs (pollEnd capB 0) (s.a.step (pollEnd capA 0) P prof (.sys l)).run.net.swap
  rw [List.append_nil] at this
  refine ⟨s.step capA capB P prof ⟨true, .sys l, 0⟩, CanGo.one ?_, rfl, this, ?_, ?_, rfl⟩
  · rcases hl with rfl | rfl | rfl <;> simp [AsyncMove.Helps]
  · show (s.a.step (pollEnd capA 0) P prof (.sys l)).sys = _
    rw [silent_async hl' hq]
  · show (s.a.step (pollEnd capA 0) P prof (.sys l)).run = _
    rw [silent_async hl' hq]

/-- The task is within a branch and can finish it. -/
theorem finish_task (hP : Lawful P) (hcap : 0 < capA) {s : AsyncLink RA RB} (hnet : s.b.run.net = s.a.run.net.swap)
    (h : AsyncLane P prof kL kP n0 log rest s.a s.b) {job : Job} {pc : JobPc} (ha : s.a.sys.task.job? = some (job, pc))
    (hlen : n0 + log.length + pc.packets + 1 < 2 ^ 32) :
    ∃ s' log' rest', CanGo capA capB P prof s s' ∧ s'.b.run.net = s'.a.run.net.swap ∧
      AsyncLane P prof kL kP n0 log' rest' s'.a s'.b ∧ log'.length ≤ log.length + pc.packets ∧
      s'.a.sys.task = .select false false ∧ s'.a.sys.queue = s.a.sys.queue ∧ SameCaller s.a.sys s'.a.sys := by
  generalize hC : pc.cost = C
  induction C using Nat.strongRecOn generalizing s log rest pc with
  | _ C ih =>
    by_cases hd : ∃ r, pc = .done r
    · obtain ⟨r, rfl⟩ := hd
      have hq : s.a.sys.asks .task = none := by
        cases ht : s.a.sys.task with
        | writing cmd pc => rw [ht] at ha; cases ha; simp [AsyncShapedSys.asks, ht, JobPc.asks]
        | covering pc => rw [ht] at ha; cases ha; simp [AsyncShapedSys.asks, ht, JobPc.asks]
        | _ => rw [ht] at ha; cases ha
      obtain ⟨s', g1, g2, g3, g4, -⟩ := async_between (capA := capA) (capB := capB) (prof := prof) (l := .task) hP h (by omega) (.inr (.inr rfl))
        (fun _ job' pc' h' => by rw [ha] at h'; cases h'; exact ⟨r, rfl⟩) hq
      obtain ⟨d, hs⟩ := h.sender
      have hs := hs.2.2.2.2.2.2
      have hr : r = .ok () := by
        cases ht : s.a.sys.task with
        | writing cmd pc => rw [ht] at ha hs; cases ha; exact hs.2.1
        | covering pc => rw [ht] at ha hs; cases ha; exact hs.2.1
        | _ => rw [ht] at ha; cases ha
      subst hr
      have g5 : s'.a.sys.task = .select false false ∧ s'.a.sys.queue = s.a.sys.queue ∧ SameCaller s.a.sys s'.a.sys := by
        cases ht : s.a.sys.task with
        | writing cmd pc =>
          rw [ht] at ha
          cases ha
          simp only [AsyncShapedSys.step, AsyncShapedSys.taskStep, ht, reduceCtorEq, if_false] at g4
          rw [g4]
          exact ⟨rfl, rfl, rfl, rfl, rfl⟩
        | covering pc =>
          rw [ht] at ha
          cases ha
          simp only [AsyncShapedSys.step, AsyncShapedSys.taskStep, ht, reduceCtorEq, if_false] at g4
          rw [g4]
          exact ⟨rfl, rfl, rfl, rfl, rfl⟩
        | _ => rw [ht] at ha; cases ha
      exact ⟨s', log, rest, g1, g2, g3, by omega, g5⟩
    · have hnd : ∀ r, pc ≠ .done r := fun r h => hd ⟨r, h⟩
      obtain ⟨s1, d1, d2, d3, d4, d5, -⟩ := async_drain (capA := capA) (capB := capB) hP hnet h (by omega)
      have ha1 : s1.a.sys.task.job? = some (job, pc) := by rw [d4]; exact ha
      obtain ⟨d, hsd⟩ := d3.sender
      rcases task_goes (prof := prof) hP (by omega) hsd ha1 hnd capA 0 with ⟨-, g2, -⟩ |
        ⟨a', pc', new, rest', g1, g2, g3, g4, g5, g6, g7, g8, g9, g10, g11, -⟩
      · rw [d5, List.length_nil] at g2; omega
      · have hl := d3.send g2 (pollEnd capB 0) a'.run.net.swap
        have hstep : s1.step capA capB P prof ⟨true, .sys .task, 0⟩ = ⟨a', s1.b.step (pollEnd capB 0) P prof (.peer a'.run.net.swap)⟩ := by
          show (⟨s1.a.step (pollEnd capA 0) P prof (.sys .task), s1.b.step (pollEnd capB 0) P prof (.peer (s1.a.step (pollEnd capA 0) P prof (.sys .task)).run.net.swap)⟩ : AsyncLink RA RB) = _
          rw [g1]
        have hll := g2.1
        obtain ⟨s', log', rest'', e1, e2, e3, e4, e5, e6, e7⟩ := ih pc'.cost (by omega) (s := s1.step capA capB P prof ⟨true, .sys .task, 0⟩)
          (log := log ++ new) (rest := rest') (pc := pc') (by rw [hstep]; rfl) (by rw [hstep]; exact hl)
          (by rw [hstep]; show a'.sys.task.job? = _; rw [g3]; exact TaskPc.job?_setPc ha1)
          (by rw [List.length_append]; omega) rfl
        refine ⟨s', log', rest'', (d1.trans (CanGo.one (by simp [AsyncMove.Helps]))).trans e1, e2, e3, ?_, e5, ?_, ?_⟩
        · rw [List.length_append] at e4; omega
        · rw [e6, hstep]
          show a'.sys.queue = _
          rw [g5, d4]
        · rw [hstep] at e7
          obtain ⟨x1, x2, x3⟩ := e7
          exact ⟨by rw [x1]; show a'.sys.caller = _; rw [g7, d4], by rw [x2]; show a'.sys.returned = _; rw [g10, d4],
            by rw [x3]; show a'.sys.called = _; rw [g9, d4]⟩

/-- The task can come to wait in `select!`. -/
theorem to_select (hP : Lawful P) (hcap : 0 < capA) {s : AsyncLink RA RB} (hnet : s.b.run.net = s.a.run.net.swap)
    (h : AsyncLane P prof kL kP n0 log rest s.a s.b) (hlen : n0 + log.length + 3 < 2 ^ 32) :
    ∃ s' log' rest', CanGo capA capB P prof s s' ∧ s'.b.run.net = s'.a.run.net.swap ∧
      AsyncLane P prof kL kP n0 log' rest' s'.a s'.b ∧ log'.length ≤ log.length + 2 ∧
      (∃ a, s'.a.sys.task = .select a false) ∧ s'.a.sys.queue = s.a.sys.queue ∧ SameCaller s.a.sys s'.a.sys := by
  obtain ⟨d, hs⟩ := h.sender
  have hs := hs.2.2.2.2.2.2
  have go : ∀ job pc, s.a.sys.task.job? = some (job, pc) → ∃ s' log' rest', CanGo capA capB P prof s s' ∧ s'.b.run.net = s'.a.run.net.swap ∧
      AsyncLane P prof kL kP n0 log' rest' s'.a s'.b ∧ log'.length ≤ log.length + 2 ∧
      (∃ a, s'.a.sys.task = .select a false) ∧ s'.a.sys.queue = s.a.sys.queue ∧ SameCaller s.a.sys s'.a.sys := by
    intro job pc hj
    have hp := packets_le (pc := pc)
    obtain ⟨s', log', rest', g1, g2, g3, g4, g5, g6, g7⟩ := finish_task (capB := capB) hP hcap hnet h hj (by omega)
    exact ⟨s', log', rest', g1, g2, g3, by omega, ⟨_, g5⟩, g6, g7⟩
  cases ht : s.a.sys.task with
  | select a t =>
    rw [ht] at hs
    obtain ⟨⟨rfl, -⟩, -⟩ := hs
    exact ⟨s, log, rest, .refl s, hnet, h, by omega, ⟨a, ht⟩, rfl, rfl, rfl, rfl⟩
  | writing cmd pc => exact go _ pc (by rw [ht]; rfl)
  | covering pc => exact go _ pc (by rw [ht]; rfl)
  | _ => rw [ht] at hs; exact hs.elim

/-- The task can work off the queue. -/
theorem work_off (hP : Lawful P) (hcap : 0 < capA) {s : AsyncLink RA RB} (hnet : s.b.run.net = s.a.run.net.swap)
    (h : AsyncLane P prof kL kP n0 log rest s.a s.b) (hlen : n0 + log.length + 2 * s.a.sys.queue.length + 5 < 2 ^ 32) :
    ∃ s' log' rest', CanGo capA capB P prof s s' ∧ s'.b.run.net = s'.a.run.net.swap ∧
      AsyncLane P prof kL kP n0 log' rest' s'.a s'.b ∧ log'.length ≤ log.length + 2 * s.a.sys.queue.length + 2 ∧
      (∃ a, s'.a.sys.task = .select a false) ∧ s'.a.sys.queue = [] ∧ SameCaller s.a.sys s'.a.sys := by
  generalize hq : s.a.sys.queue.length = q
  induction q generalizing s log rest with
  | zero =>
    obtain ⟨s', log', rest', g1, g2, g3, g4, g5, g6, g7⟩ := to_select (capB := capB) hP hcap hnet h (by omega)
    exact ⟨s', log', rest', g1, g2, g3, by omega, g5, by rw [g6]; exact List.length_eq_zero_iff.1 hq, g7⟩
  | succ q ih =>
    obtain ⟨s1, log1, rest1, g1, g2, g3, g4, ⟨a, g5⟩, g6, g7⟩ := to_select (capB := capB) hP hcap hnet h (by omega)
    obtain ⟨cmd, rq, hcq⟩ : ∃ cmd rq, s.a.sys.queue = cmd :: rq := by
      cases hx : s.a.sys.queue with
      | nil => rw [hx] at hq; cases hq
      | cons cmd rq => exact ⟨cmd, rq, rfl⟩
    rw [hcq] at g6
    have ha : a = false := by
      obtain ⟨d, hs⟩ := g3.sender
      have hs := hs.2.2.2.2.2.2
      rw [g5] at hs
      cases a with
      | false => rfl
      | true => have := (hs.1.2 rfl).1; rw [g6] at this; cases this
    subst ha
    obtain ⟨s2, i1, i2, i3, i4, -⟩ := async_between (capA := capA) (capB := capB) (prof := prof) (l := .recv) hP g3 (by omega) (.inr (.inl rfl))
      (fun h => (by cases h)) rfl
    simp only [AsyncShapedSys.step, g5, g6] at i4
    obtain ⟨s3, log3, rest3, j1, j2, j3, j4, j5, j6, j7⟩ := ih i2 i3 (by
        rw [i4]; simp only; rw [hcq, List.length_cons] at hlen; omega) (by rw [i4]; rw [hcq, List.length_cons] at hq; simp only; omega)
    refine ⟨s3, log3, rest3, (g1.trans i1).trans j1, j2, j3, by omega, j5, j6, ?_⟩
    obtain ⟨x1, x2, x3⟩ := j7
    rw [i4] at x1 x2 x3
    exact ⟨x1.trans g7.1, x2.trans g7.2.1, x3.trans g7.2.2⟩

/-- Whatever has happened, what is in progress can come to an end, if the peer reads. -/
theorem async_settle (hP : Lawful P) (hcap : 0 < capA) {s : AsyncLink RA RB} (hnet : s.b.run.net = s.a.run.net.swap)
    (h : AsyncLane P prof kL kP n0 log rest s.a s.b) (hlen : n0 + log.length + 2 * s.a.sys.queue.length + 5 < 2 ^ 32) :
    ∃ s' log', CanGo capA capB P prof s s' ∧ s'.b.run.net = s'.a.run.net.swap ∧
      AsyncLane P prof kL kP n0 log' [] s'.a s'.b ∧ (∃ a, s'.a.sys.task = .select a false) ∧ s'.a.sys.queue = [] ∧
      s'.a.sys.called = s.a.sys.called ∧ (s'.a.sys.caller = match s.a.sys.caller with | .waiting _ _ => .idle | c => c) ∧
      s'.a.sys.returned = s.a.sys.returned ++ s.a.sys.caller.inflight.map (fun p => (p, .ok ())) ∧
      s'.a.run.net.1 = [] ∧ (readyReads s'.b.sys.reads).length = log'.length ∧ genuineOf log' = genuineOf s.a.sys.called := by
  obtain ⟨s1, log1, rest1, g1, g2, g3, g4, ⟨a, g5⟩, g6, g7, g8, g9⟩ := work_off (capB := capB) hP hcap hnet h hlen
  obtain ⟨d, hd⟩ := g3.sender
  obtain ⟨-, h1, -, -, ⟨h4, -⟩, -, h6⟩ := hd
  rw [g5, g6] at h6
  obtain ⟨-, rfl, ⟨-, -, hdl⟩, hlog⟩ := h6
  simp only [List.length_nil, Nat.add_zero] at hdl
  rw [hdl, List.take_length, g9] at hlog
  obtain ⟨s2, d1, d2, d3, d4, d5, d6⟩ := async_drain (capA := capA) (capB := capB) hP g2 g3 (by omega)
  have d6 := d6 rfl
  cases hca : s.a.sys.caller with
  | waiting p rx =>
    rw [hca] at g7
    obtain ⟨s3, i1, i2, i3, i4, i5, i6⟩ := async_between (capA := capA) (capB := capB) (prof := prof) (l := .resume) hP d3 (by omega) (.inl rfl)
      (fun h => (by cases h)) rfl
    have hlk : s1.a.sys.answers.lookup rx = some (.ok ()) := by
      rw [h1, lookup_range, if_pos]
      have := h4 p rx g7
      omega
    simp only [AsyncShapedSys.step, d4, g7, hlk] at i4
    refine ⟨s3, log1, (g1.trans d1).trans i1, i2, i3, ⟨a, by rw [i4]; exact g5⟩, by rw [i4]; exact g6, by rw [i4]; exact g9, by rw [i4], ?_,
      by rw [i5]; exact d5, by rw [i6]; exact d6, hlog⟩
    rw [i4]
    simp only [g8, CallerPc.inflight, List.map_cons, List.map_nil]
  | idle =>
    refine ⟨s2, log1, g1.trans d1, d2, d3, ⟨a, by rw [d4]; exact g5⟩, by rw [d4]; exact g6, by rw [d4]; exact g9, by rw [d4, g7, hca], ?_, d5, d6, hlog⟩
    rw [d4, g8]; simp [CallerPc.inflight]
  | gone =>
    refine ⟨s2, log1, g1.trans d1, d2, d3, ⟨a, by rw [d4]; exact g5⟩, by rw [d4]; exact g6, by rw [d4]; exact g9, by rw [d4, g7, hca], ?_, d5, d6, hlog⟩
    rw [d4, g8]; simp [CallerPc.inflight]

end Bip324
