import Verif.Lemmas.ShapedLink

/-!
# Both sides of one direction between two shaped parties
-/

namespace Bip324

variable {P : Prims} {prof : Profile} {RA RB : Rng}

/-! ## The side that reads -/

/-- The reader has read the first packets of `log`, which begins at number `n0`, and `avail` is what it has not used. -/
def ReadUpTo (P : Prims) (prof : Profile) (kL kP : Bytes) (n0 : Nat) (log : List Payload)
    (reads : List (Outcome ProtocolError Payload)) (h : SyncHalf) (avail : Bytes) : Prop :=
  ∃ j, j ≤ log.length ∧ reads = (log.take j).map (fun p => .ok p.received) ∧
    (ReaderAt P prof kL kP (n0 + j) h (log.drop j) avail ∨
      (h.pc = .length [] ∧ log.drop j = [] ∧ avail = [] ∧
        ∃ o : OutboundCipher, o.At P kL kP (n0 + j) ∧ Matching o h.cipher))

theorem ReaderAt.extend {kL kP : Bytes} {j : Nat} {h : SyncHalf} {ps : List Payload} {avail : Bytes} (new : List Payload)
    (hr : ReaderAt P prof kL kP j h ps avail) :
    ReaderAt P prof kL kP j h (ps ++ new) (avail ++ payloadStream P kL kP (j + ps.length) new) := by
  unfold ReaderAt at hr ⊢
  cases hpc : h.pc with
  | idle =>
    rw [hpc] at hr
    simp only at hr ⊢
    obtain ⟨o, h1, h2, rfl⟩ := hr
    exact ⟨o, h1, h2, (payloadStream_append ..).symm⟩
  | length acc =>
    rw [hpc] at hr
    simp only at hr ⊢
    obtain ⟨hne, o, h1, h2, h3, h4⟩ := hr
    exact ⟨by simp [hne], o, h1, h2, h3, by rw [← List.append_assoc, h4, ← payloadStream_append]⟩
  | packet need acc =>
    rw [hpc] at hr
    simp only at hr ⊢
    obtain ⟨p, ps', w, o, i, rfl, h1, h2, h3, h4, h5, h6, h7⟩ := hr
    refine ⟨p, ps' ++ new, w, o, i, rfl, h1, h2, h3, h4, h5, h6, ?_⟩
    rw [← List.append_assoc, h7, List.append_assoc, payloadStream_append, List.length_cons, Nat.add_right_comm j 1, Nat.add_assoc j]

theorem ReadUpTo.extend {kL kP : Bytes} {n0 : Nat} {log : List Payload} {reads : List (Outcome ProtocolError Payload)} {h : SyncHalf}
    {avail : Bytes} (new : List Payload) (hr : ReadUpTo P prof kL kP n0 log reads h avail) :
    ReadUpTo P prof kL kP n0 (log ++ new) reads h (avail ++ payloadStream P kL kP (n0 + log.length) new) := by
  obtain ⟨j, h1, h2, h3⟩ := hr
  have e : n0 + j + (log.drop j).length = n0 + log.length := by rw [List.length_drop]; omega
  refine ⟨j, by simp; omega, ?_, ?_⟩
  · rw [List.take_append_of_le_length h1]; exact h2
  · rw [List.drop_append_of_le_length h1]
    rcases h3 with h3 | ⟨h4, h5, rfl, o, h6, h7⟩
    · left
      have := h3.extend new
      rw [e] at this
      exact this
    · cases hn : new with
      | nil => right; exact ⟨h4, by simp [h5], by simp [payloadStream], o, h6, h7⟩
      | cons p ps =>
        left
        rw [h5] at e
        simp only [List.length_nil, Nat.add_zero] at e
        unfold ReaderAt
        rw [h4]
        exact ⟨by simp, o, h6, h7, by simp, by rw [h5, e]; rfl⟩

/-- A call of `read` begins. -/
theorem ReadUpTo.start {kL kP : Bytes} {n0 : Nat} {log : List Payload} {reads : List (Outcome ProtocolError Payload)} {h : SyncHalf}
    {avail : Bytes} (N : Conn (Bytes × Bytes)) (hr : ReadUpTo P prof kL kP n0 log reads h avail) :
    ReadUpTo P prof kL kP n0 log reads ((syncHalf N P prof).start h) avail ∧ ((syncHalf N P prof).start h).held = h.held := by
  unfold syncHalf
  by_cases hi : h.pc = .idle
  · simp only [if_pos hi]
    refine ⟨?_, rfl⟩
    obtain ⟨j, h1, h2, h3⟩ := hr
    refine ⟨j, h1, h2, ?_⟩
    rcases h3 with h3 | ⟨h4, -⟩
    · unfold ReaderAt at h3
      rw [hi] at h3
      obtain ⟨o, h5, h6, h7⟩ := h3
      cases hd : log.drop j with
      | nil => right; exact ⟨rfl, rfl, by rw [h7, hd]; rfl, o, h5, h6⟩
      | cons p ps =>
        left
        unfold ReaderAt
        exact ⟨by simp, o, h5, h6, by simp, by rw [h7, hd]; rfl⟩
    · rw [hi] at h4; cases h4
  · simp only [if_neg hi]
    exact ⟨hr, trivial⟩

/-- The weight of where a reader is. -/
def ReadPc.weight : ReadPc → Nat
  | .idle => 2
  | .length _ => 1
  | .packet _ _ => 0

/-- What is left to be done by a reader of `log`. -/
def readWork (log : List Payload) (r : ShapedN (Bytes × Bytes) RB) : Nat :=
  2 * (r.half.held ++ r.run.net.2).length + 3 * (log.length - r.sys.reads.length) + r.half.pc.weight

/-- The parts of a party that a step of its reader leaves alone. -/
def SameWriter (r r' : ShapedN (Bytes × Bytes) RB) : Prop :=
  (∃ reader reads, r'.sys = { r.sys with reader := reader, reads := reads }) ∧ r'.run.net.1 = r.run.net.1

theorem received_recorded {p : Payload} (h : p.Readable) (rec : List Nat) : (recordRead rec (.ok p.received)).2 = .ok p.received := by
  obtain ⟨t, c, ht, hc, -⟩ := h
  have hr : p.received = .decrypted (t.toByte :: c) := by simp [Payload.received, ht, hc]
  have h3 : (Payload.decrypted (t.toByte :: c)).contents = some c := rfl
  rw [hr]
  simp only [recordRead, h3]

/-- A step of the reader: it has nothing to do, or it goes on. -/
theorem reading_step (hP : Lawful P) {kL kP : Bytes} {n0 : Nat} {log : List Payload} {r : ShapedN (Bytes × Bytes) RB} {later : Bytes}
    (hlog : ∀ p ∈ log, p.Readable) (hn : n0 + log.length < 2 ^ 32)
    (hr : ReadUpTo P prof kL kP n0 log r.sys.reads r.half (r.half.held ++ r.run.net.2 ++ later)) (cap k : Nat) {r' : ShapedN (Bytes × Bytes) RB}
    (hs : r.step (endConn cap k) P prof .reading = r') :
    SameWriter r r' ∧ ReadUpTo P prof kL kP n0 log r'.sys.reads r'.half (r'.half.held ++ r'.run.net.2 ++ later) ∧
    r'.run.net.2.length ≤ r.run.net.2.length ∧
    (r.half.pc = .idle ∨ (r.half.held ++ r.run.net.2 = [] ∧ (later = [] → r.sys.reads.length = log.length)) ∨ readWork log r' < readWork log r) := by
  obtain ⟨j, h1, h2, h3⟩ := hr
  have hlen : r.sys.reads.length = j := by rw [h2, List.length_map, List.length_take]; omega
  by_cases hpc : r.half.pc = .idle
  · have : r' = r := by
      rw [← hs]
      simp only [ShapedN.step, SyncHalf.step, hpc]
    subst this
    exact ⟨⟨⟨_, _, rfl⟩, rfl⟩, ⟨j, h1, h2, h3⟩, Nat.le_refl _, .inl hpc⟩
  · rcases h3 with h3 | ⟨h4, h5, h6, o, h7, h8⟩
    · rcases reader_step (cap := cap) (k := k) hP hpc (fun p hp => hlog p (List.mem_of_mem_drop hp)) (by rw [List.length_drop]; omega) h3 with
        ⟨g1, g2, g3⟩ | ⟨h', run', g1, g2, g3, g4, g5, g6, g7, g8⟩ | ⟨h', p, ps', g1, g2, g3, g4, g5⟩
      · have : r' = r := by
          rw [← hs]
          simp only [ShapedN.step, g1]
        subst this
        refine ⟨⟨⟨_, _, rfl⟩, rfl⟩, ⟨j, h1, h2, .inl h3⟩, Nat.le_refl _, .inr (.inl ⟨g2, fun hl => ?_⟩)⟩
        rw [hl, List.length_nil] at g3
        omega
      · have : r' = { r with half := h', run := run' } := by
          rw [← hs]
          simp only [ShapedN.step, g1]
        subst this
        refine ⟨⟨⟨_, _, rfl⟩, g3⟩, ⟨j, h1, h2, .inl g5⟩, g8, .inr (.inr ?_)⟩
        unfold readWork
        simp only
        have w : h'.pc.weight ≤ 1 := by
          cases hw : h'.pc with
          | idle => exact absurd hw g2
          | _ => simp [ReadPc.weight]
        rcases g6 with g6 | ⟨g6, ⟨acc, ha⟩, need, acc', hb⟩
        · omega
        · rw [g6, ha, hb]
          simp only [ReadPc.weight]
          omega
      · have hp : p.Readable := hlog p (List.mem_of_mem_drop (i := j) (by rw [g1]; simp))
        have hjl : j < log.length := by
          have := congrArg List.length g1
          rw [List.length_drop, List.length_cons] at this
          omega
        have hsys : r' = { r with half := h', sys := { r.sys with
            reader := { r.sys.reader with recorded := (recordRead r.sys.reader.recorded (.ok p.received)).1 },
            reads := r.sys.reads ++ [.ok p.received] } } := by
          rw [← hs]
          simp only [ShapedN.step, g2, received_recorded hp]
        subst hsys
        refine ⟨⟨⟨_, _, rfl⟩, rfl⟩, ⟨j + 1, by omega, ?_, .inl ?_⟩, Nat.le_refl _, .inr (.inr ?_)⟩
        · simp only [h2]
          have : log[j] = p := by
            have := List.drop_eq_getElem_cons hjl
            rw [g1] at this
            exact (List.cons.inj this).1.symm
          rw [← List.take_append_getElem hjl, List.map_append, List.map_singleton, this]
        · have : log.drop (j + 1) = ps' := by
            rw [← List.drop_drop, g1]; rfl
          simp only [this]
          exact g5
        · unfold readWork
          simp only [g4, g3, List.length_append, List.length_singleton, ReadPc.weight, hlen]
          omega
    · have hsess := sess_end (cap := cap) (k := k) (s := r.half.sess) (r := r.run) (n := 3) (by omega)
      have hempty : r.half.held ++ r.run.net.2 = [] := (List.append_eq_nil_iff.1 h6).1
      rcases hsess with ⟨e1, e2⟩ | ⟨s', r'', b, bs, -, -, -, -, e1, -⟩
      · have : r' = r := by
          rw [← hs]
          simp only [ShapedN.step]
          have : r.half.step (endConn cap k) P prof r.run = none := by
            unfold SyncHalf.step
            rw [h4]
            simp only [show NUM_LENGTH_BYTES - ([] : Bytes).length = 3 from rfl, e2, show ¬ (3 = 0) by omega, if_false]
          rw [this]
        subst this
        refine ⟨⟨⟨_, _, rfl⟩, rfl⟩, ⟨j, h1, h2, .inr ⟨h4, h5, h6, o, h7, h8⟩⟩, Nat.le_refl _, .inr (.inl ⟨hempty, fun _ => ?_⟩)⟩
        have := congrArg List.length h5
        rw [List.length_drop, List.length_nil] at this
        omega
      · have : (b :: bs) ++ ((if s'.2 then [] else s'.1) ++ r''.net.2) = r.half.held ++ r.run.net.2 := e1
        rw [hempty] at this
        cases this

/-! ## The two sides together -/

/-- One direction: the packets of `log` have been written, of which `rest` is not sent yet. -/
structure ShapedLane (P : Prims) (prof : Profile) (kL kP : Bytes) (n0 : Nat) (log : List Payload) (rest : Bytes)
    (w : ShapedN (Bytes × Bytes) RA) (r : ShapedN (Bytes × Bytes) RB) : Prop where
  readable : ∀ p ∈ log, p.Readable
  sender : SenderAt P kL kP (n0 + log.length) log w.sys rest
  reader : ReadUpTo P prof kL kP n0 log r.sys.reads r.half (r.half.held ++ w.run.net.1 ++ rest)

theorem SenderAt.of_sameWriter {kL kP : Bytes} {m : Nat} {log : List Payload} {rest : Bytes} {w w' : ShapedN (Bytes × Bytes) RA}
    (h : SenderAt P kL kP m log w.sys rest) (h' : SameWriter w w') : SenderAt P kL kP m log w'.sys rest := by
  obtain ⟨⟨reader, reads, h'⟩, -⟩ := h'
  rw [h']
  exact h

variable {kL kP : Bytes} {n0 : Nat} {log : List Payload} {rest : Bytes} {w : ShapedN (Bytes × Bytes) RA} {r : ShapedN (Bytes × Bytes) RB}

/-- The writing side writes. -/
theorem ShapedLane.send (h : ShapedLane P prof kL kP n0 log rest w r) {w' : ShapedN (Bytes × Bytes) RA} {new : List Payload} {rest' : Bytes}
    (hs : SendsThese P kL kP (n0 + log.length) log rest w w' new rest') (N : Conn (Bytes × Bytes)) (x : Bytes × Bytes) :
    ShapedLane P prof kL kP n0 (log ++ new) rest' w' (r.step N P prof (.peer x)) := by
  obtain ⟨h1, h2, h3, h4, h5⟩ := hs
  refine ⟨?_, ?_, ?_⟩
  · intro p hp
    rcases List.mem_append.1 hp with hp | hp
    · exact h.readable p hp
    · exact h2 p hp
  · rw [List.length_append, ← Nat.add_assoc]; exact h3
  · have := h.reader.extend new
    rw [List.append_assoc, List.append_assoc, ← List.append_assoc w.run.net.1, ← h5, ← List.append_assoc] at this
    exact this

/-- The writing side reads. -/
theorem ShapedLane.other (h : ShapedLane P prof kL kP n0 log rest w r) {w' : ShapedN (Bytes × Bytes) RA}
    (hs : SameWriter w w') (N : Conn (Bytes × Bytes)) (x : Bytes × Bytes) :
    ShapedLane P prof kL kP n0 log rest w' (r.step N P prof (.peer x)) :=
  ⟨h.readable, h.sender.of_sameWriter hs, by rw [hs.2]; exact h.reader⟩

/-- The reading side writes. -/
theorem ShapedLane.other' (h : ShapedLane P prof kL kP n0 log rest w r) {r' : ShapedN (Bytes × Bytes) RB}
    (hs : SameReader r r') (hn : r.run.net.2 = w.run.net.1) (N : Conn (Bytes × Bytes)) :
    ShapedLane P prof kL kP n0 log rest (w.step N P prof (.peer r'.run.net.swap)) r' :=
  ⟨h.readable, h.sender, by
    obtain ⟨h1, h2, -, h4⟩ := hs
    rw [h1, h2]
    show ReadUpTo P prof kL kP n0 log r.sys.reads r.half (r.half.held ++ r'.run.net.2 ++ rest)
    rw [h4, hn]
    exact h.reader⟩

/-- The reading side begins to read. -/
theorem ShapedLane.begin (h : ShapedLane P prof kL kP n0 log rest w r) (hn : r.run.net.2 = w.run.net.1) (N N' : Conn (Bytes × Bytes)) :
    ShapedLane P prof kL kP n0 log rest (w.step N P prof (.peer (r.step N' P prof (.sys .read)).run.net.swap)) (r.step N' P prof (.sys .read)) :=
  ⟨h.readable, h.sender, by
    obtain ⟨h1, h2⟩ := h.reader.start N'
    show ReadUpTo P prof kL kP n0 log r.sys.reads ((syncHalf N' P prof).start r.half) (((syncHalf N' P prof).start r.half).held ++ r.run.net.2 ++ rest)
    rw [h2, hn]
    exact h1⟩

/-- The reading side reads. -/
theorem ShapedLane.read (hP : Lawful P) (h : ShapedLane P prof kL kP n0 log rest w r) (hn : r.run.net.2 = w.run.net.1)
    (hlen : n0 + log.length < 2 ^ 32) (N : Conn (Bytes × Bytes)) (cap k : Nat) {r' : ShapedN (Bytes × Bytes) RB}
    (hs : r.step (endConn cap k) P prof .reading = r') :
    ShapedLane P prof kL kP n0 log rest (w.step N P prof (.peer r'.run.net.swap)) r' ∧ SameWriter r r' ∧
    (r.half.pc = .idle ∨ (r.half.held ++ r.run.net.2 = [] ∧ (rest = [] → r.sys.reads.length = log.length)) ∨ readWork log r' < readWork log r) := by
  have hr := h.reader
  rw [← hn] at hr
  obtain ⟨g1, g2, -, g3⟩ := reading_step hP h.readable hlen hr cap k hs
  exact ⟨⟨h.readable, h.sender, g2⟩, g1, g3⟩

theorem SameWriter.read (N : Conn (Bytes × Bytes)) (w : ShapedN (Bytes × Bytes) RA) : SameWriter w (w.step N P prof (.sys .read)) :=
  ⟨⟨_, _, rfl⟩, rfl⟩

/-- The whole system. -/
structure ShapedLink.Inv (P : Prims) (prof : Profile) (kA kB : Bytes × Bytes) (nA nB N : Nat) (s : ShapedLink RA RB) : Prop where
  net : s.b.run.net = s.a.run.net.swap
  ab : ∃ log rest, log.length ≤ N ∧ ShapedLane P prof kA.1 kA.2 nA log rest s.a s.b
  ba : ∃ log rest, log.length ≤ N ∧ ShapedLane P prof kB.1 kB.2 nB log rest s.b s.a

/-- A party makes a step, and the other sees what it did to the channels. -/
theorem party_step (hP : Lawful P) {kA kB : Bytes × Bytes} {nA nB N : Nat} (hA : nA + N + 1 < 2 ^ 32) (hB : nB + N + 1 < 2 ^ 32)
    {a : ShapedN (Bytes × Bytes) RA} {b : ShapedN (Bytes × Bytes) RB} (hnet : b.run.net = a.run.net.swap)
    (hab : ∃ log rest, log.length ≤ N ∧ ShapedLane P prof kA.1 kA.2 nA log rest a b)
    (hba : ∃ log rest, log.length ≤ N ∧ ShapedLane P prof kB.1 kB.2 nB log rest b a) (cap k : Nat) (N' : Conn (Bytes × Bytes))
    {act : ShapedAct} (hact : ∀ p, act = .sys (.call p) → p.Readable) {a' : ShapedN (Bytes × Bytes) RA}
    (ha : a.step (endConn cap k) P prof act.label = a') :
    (∃ log rest, log.length ≤ N + 1 ∧ ShapedLane P prof kA.1 kA.2 nA log rest a' (b.step N' P prof (.peer a'.run.net.swap))) ∧
    (∃ log rest, log.length ≤ N + 1 ∧ ShapedLane P prof kB.1 kB.2 nB log rest (b.step N' P prof (.peer a'.run.net.swap)) a') := by
  obtain ⟨logA, restA, lA, hab⟩ := hab
  obtain ⟨logB, restB, lB, hba⟩ := hba
  have hn2 : a.run.net.2 = b.run.net.1 := by rw [hnet]; rfl
  subst ha
  have wr : ∀ l : SysLabel, l ≠ .read → act = .sys l →
      (∃ log rest, log.length ≤ N + 1 ∧ ShapedLane P prof kA.1 kA.2 nA log rest (a.step (endConn cap k) P prof act.label)
        (b.step N' P prof (.peer (a.step (endConn cap k) P prof act.label).run.net.swap))) ∧
      (∃ log rest, log.length ≤ N + 1 ∧ ShapedLane P prof kB.1 kB.2 nB log rest
        (b.step N' P prof (.peer (a.step (endConn cap k) P prof act.label).run.net.swap)) (a.step (endConn cap k) P prof act.label)) := by
    rintro l hl rfl
    obtain ⟨new, rest', hs, -⟩ := sender_step (prof := prof) hP (by omega) hab.sender hl (fun p hp => hact p (by rw [hp])) cap k
    refine ⟨⟨logA ++ new, rest', ?_, hab.send hs N' _⟩, ⟨logB, restB, by omega, hba.other' hs.2.2.2.1 hn2 N'⟩⟩
    have := hs.1
    rw [List.length_append]; omega
  cases act with
  | reading =>
    obtain ⟨h1, h2, -⟩ := hba.read hP hn2 (by omega) N' cap k (r' := a.step (endConn cap k) P prof .reading) rfl
    exact ⟨⟨logA, restA, by omega, hab.other h2 N' _⟩, ⟨logB, restB, by omega, h1⟩⟩
  | sys l =>
    cases l with
    | read => exact ⟨⟨logA, restA, by omega, hab.other (SameWriter.read _ _) N' _⟩, ⟨logB, restB, by omega, hba.begin hn2 N' _⟩⟩
    | call p => exact wr (.call p) (by simp) rfl
    | drop => exact wr .drop (by simp) rfl
    | app => exact wr .app (by simp) rfl
    | bg => exact wr .bg (by simp) rfl

theorem ShapedLink.Inv.step (hP : Lawful P) {kA kB : Bytes × Bytes} {nA nB N : Nat} (hA : nA + N + 1 < 2 ^ 32) (hB : nB + N + 1 < 2 ^ 32)
    {s : ShapedLink RA RB} (h : s.Inv P prof kA kB nA nB N) (capA capB : Nat) {m : ShapedMove} (hm : ∀ p, m.act = .sys (.call p) → p.Readable) :
    (s.step capA capB P prof m).Inv P prof kA kB nA nB (N + 1) := by
  unfold ShapedLink.step
  cases hc : m.ofA with
  | true =>
    simp only [if_true]
    obtain ⟨h1, h2⟩ := party_step hP hA hB h.net h.ab h.ba capA m.k (endConn capB m.k) hm rfl
    exact ⟨rfl, h1, h2⟩
  | false =>
    simp only [Bool.false_eq_true, if_false]
    obtain ⟨h1, h2⟩ := party_step hP hB hA (by rw [h.net]; rfl) h.ba h.ab capB m.k (endConn capA m.k) hm rfl
    exact ⟨rfl, h2, h1⟩

theorem ShapedLink.Inv.run (hP : Lawful P) {kA kB : Bytes × Bytes} {nA nB : Nat} (capA capB : Nat) (ms : List ShapedMove)
    (hm : ∀ m ∈ ms, ∀ p, m.act = .sys (.call p) → p.Readable) {N : Nat} (hA : nA + N + ms.length < 2 ^ 32) (hB : nB + N + ms.length < 2 ^ 32)
    {s : ShapedLink RA RB} (h : s.Inv P prof kA kB nA nB N) :
    (s.run capA capB P prof ms).Inv P prof kA kB nA nB (N + ms.length) := by
  induction ms generalizing s N with
  | nil => exact h
  | cons m ms ih =>
    rw [List.length_cons] at hA hB
    have := ih (fun x hx => hm x (by simp [hx])) (by omega) (by omega) (h.step hP (by omega) (by omega) capA capB (hm m (by simp)))
    rw [List.length_cons, show N + (ms.length + 1) = N + 1 + ms.length by omega]
    exact this

end Bip324
