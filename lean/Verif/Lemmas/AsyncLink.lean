import Verif.Spec.AsyncLink
import Verif.Lemmas.ShapedLive
import Verif.Lemmas.ShapedJam
import Verif.Lemmas.Session

/-!
# One side of a direction between two asynchronous shaped parties
-/

namespace Bip324

variable {P : Prims} {prof : Profile} {R : Rng}

/-! ## The two flavours of writing agree on this transport -/

theorem WProc.step_flavour (f f' : Flavour) {w : Writer} (h : ∀ k s, w.writer.script ≠ .fail k :: s) (pc : WProc) :
    pc.step f P prof w = pc.step f' P prof w := by
  cases pc with
  | sending bs =>
    cases bs with
    | nil => rfl
    | cons b bs =>
      simp only [WProc.step]
      cases hs : w.writer.script with
      | nil => rfl
      | cons x xs =>
        cases x with
        | fail k => exact absurd hs (h k xs)
        | pending => rfl
        | accept n => cases n <;> rfl
  | _ => rfl

theorem JobPc.step_flavour (f f' : Flavour) {ws : WriterState R} (h : ∀ k s, ws.writer.writer.script ≠ .fail k :: s) (pc : JobPc) :
    pc.step f P prof ws = pc.step f' P prof ws := by
  cases pc with
  | padding w q => cases w <;> simp only [JobPc.step, WProc.step_flavour f f' h]
  | payload w => cases w <;> simp only [JobPc.step, WProc.step_flavour f f' h]
  | cover w => cases w <;> simp only [JobPc.step, WProc.step_flavour f f' h]
  | start j => cases j <;> rfl
  | done r => rfl

theorem ask_never_fails {cap k : Nat} {q : Option NetReq} {r r' : ConnRun (Bytes × Bytes)} {sink : Sink}
    (h : (endConn cap k).ask q r = some (r', sink)) (k' : ErrorKind) (s : List WEv) : sink.script ≠ .fail k' :: s := by
  cases q with
  | none => cases h; simp
  | some q =>
    cases q with
    | flush => simp only [Conn.ask, Conn.flushRun, endConn] at h; cases h; simp
    | write buf =>
      simp only [Conn.ask, Conn.writeRun, endConn] at h
      by_cases h0 : buf = []
      · simp only [if_pos h0] at h; cases h; simp
      · simp only [if_neg h0] at h
        by_cases hc : cap ≤ r.net.1.length
        · simp only [if_pos hc] at h; cases h
        · simp only [if_neg hc] at h; cases h; simp

/-! ## The side that reads -/

/-- What the session reader holds back from the handshake. -/
def AsyncHalf.held (h : AsyncHalf) : Bytes := h.sess.1.drop h.sess.2

/-- The reader is at packet `j`, has `ps` to read, of which `avail` is on the way or not written yet. -/
def AsyncReaderAt (P : Prims) (prof : Profile) (kL kP : Bytes) (j : Nat) (h : AsyncHalf) (ps : List Payload) (avail : Bytes) : Prop :=
  match h.state with
  | .readingLength buf n => ∃ o : OutboundCipher, o.At P kL kP j ∧ Matching o h.cipher ∧ buf.length = 3 ∧ n ≤ 3 ∧
      buf.take n ++ avail = payloadStream P kL kP j ps
  | .readingPayload buf n => ∃ p ps' w, ∃ o : OutboundCipher, ∃ i : InboundCipher, ps = p :: ps' ∧ o.At P kL kP j ∧ Matching o i ∧
      w = Spec.packet P kL kP j (p.packetType.getD .genuine == .decoy) [] (p.contents.getD []) ∧
      i.decryptPacketLen P prof (w.take 3) = (h.cipher, .ok buf.length) ∧ buf.length = (w.drop 3).length ∧ n ≤ buf.length ∧
      buf.take n ++ avail = w.drop 3 ++ payloadStream P kL kP (j + 1) ps'

/-- A poll of a session of this end: it is pending only if nothing is there; otherwise it gets something. -/
theorem sess_poll {cap k : Nat} {s : Bytes × Nat} {r : ConnRun (Bytes × Bytes)} {n : Nat} (hn : n ≠ 0) :
    (s.1.drop s.2 ++ r.net.2 = [] ∧ ∃ r', sessPollN (pollEnd cap k) (s, r) n = ((s, r'), .pending) ∧ r'.net = r.net) ∨
    ∃ s' r' b bs, sessPollN (pollEnd cap k) (s, r) n = ((s', r'), .ready (.ok (b :: bs))) ∧
      (b :: bs).length ≤ n ∧ r'.net.1 = r.net.1 ∧ (b :: bs) ++ (s'.1.drop s'.2 ++ r'.net.2) = s.1.drop s.2 ++ r.net.2 := by
  unfold sessPollN
  by_cases hs : s.2 < s.1.length
  · right
    simp only [if_pos hs]
    generalize hrem : s.1.drop s.2 = rem
    have hl : rem.length = s.1.length - s.2 := by rw [← hrem, List.length_drop]
    cases ht : rem.take (min rem.length n) with
    | nil =>
      have := congrArg List.length ht
      rw [List.length_take, List.length_nil] at this
      omega
    | cons b bs =>
      refine ⟨_, _, b, bs, rfl, ?_, rfl, ?_⟩
      · rw [← ht, List.length_take]; omega
      · simp only
        rw [← ht, ← List.drop_drop, hrem, ← List.append_assoc, List.take_append_drop]
  · simp only [if_neg hs]
    have hd : s.1.drop s.2 = [] := List.drop_eq_nil_of_le (by omega)
    rw [hd, List.nil_append]
    unfold PollConn.pollRun pollEnd
    simp only [if_neg hn]
    by_cases h : r.net.2 = []
    · left
      simp only [if_pos h]
      exact ⟨h, _, rfl, rfl⟩
    · right
      simp only [if_neg h]
      cases ht : r.net.2.take (min n (k + 1)) with
      | nil =>
        have := congrArg List.length ht
        rw [List.length_take, List.length_nil] at this
        have : r.net.2.length ≠ 0 := fun h0 => h (List.length_eq_zero_iff.1 h0)
        omega
      | cons b bs =>
        refine ⟨_, _, b, bs, rfl, ?_, rfl, ?_⟩
        · rw [← ht, List.length_take]; omega
        · simp only
          rw [hd, List.nil_append, ← ht]
          exact List.take_append_drop _ _

/-- The reader has got a packet. -/
def AsyncHalf.inPayload (h : AsyncHalf) : Bool := match h.state with | .readingPayload _ _ => true | _ => false

/-- One step of the reader half. -/
theorem async_reader_step (hP : Lawful P) {kL kP : Bytes} {j : Nat} {h : AsyncHalf} {ps : List Payload} {cap k : Nat}
    {r : ConnRun (Bytes × Bytes)} {later : Bytes} (hb : h.busy = true) (hps : ∀ p ∈ ps, p.Readable) (hj : j + ps.length < 2 ^ 32)
    (hr : AsyncReaderAt P prof kL kP j h ps (h.held ++ r.net.2 ++ later)) :
    -- it is pending
    (∃ h' r', h.step (pollEnd cap k) P prof r = some (h', r', some .pending) ∧ h'.held = h.held ∧ r'.net = r.net ∧ h'.state = h.state ∧
      AsyncReaderAt P prof kL kP j h' ps (h'.held ++ r'.net.2 ++ later) ∧ h.held ++ r.net.2 = [] ∧
      (ps ≠ [] → (payloadStream P kL kP (j + 1) ps.tail).length < later.length)) ∨
    -- it goes on
    (∃ h' r', h.step (pollEnd cap k) P prof r = some (h', r', none) ∧ h'.busy = true ∧ r'.net.1 = r.net.1 ∧
      AsyncReaderAt P prof kL kP j h' ps (h'.held ++ r'.net.2 ++ later) ∧
      ((h'.held ++ r'.net.2).length < (h.held ++ r.net.2).length ∨
        (h'.held ++ r'.net.2 = h.held ++ r.net.2 ∧ h.inPayload = false ∧ h'.inPayload = true))) ∨
    -- it returns
    (∃ h' p ps', ps = p :: ps' ∧ h.step (pollEnd cap k) P prof r = some (h', r, some (.ready (.ok p.received))) ∧
      h'.held = h.held ∧ AsyncReaderAt P prof kL kP (j + 1) h' ps' (h'.held ++ r.net.2 ++ later)) := by
  obtain ⟨c, s, st, busy⟩ := h
  simp only at hb
  subst hb
  cases st with
  | readingLength buf n =>
    obtain ⟨o, ho, hm, hbuf, hn, hst⟩ := hr
    simp only [AsyncHalf.held] at hst
    by_cases hfull : n < buf.length
    · rcases sess_poll (cap := cap) (k := k) (s := s) (r := r) (n := buf.length - n) (by omega) with
        ⟨h1, r', h2, h3⟩ | ⟨s', r', b, bs, h1, h2, h3, h4⟩
      · left
        refine ⟨⟨c, s, .readingLength buf n, false⟩, r', ?_, rfl, h3, rfl, ?_, h1, ?_⟩
        · simp only [AsyncHalf.step, if_true, if_pos hfull, h2]
        · refine ⟨o, ho, hm, hbuf, hn, ?_⟩
          simp only [AsyncHalf.held]
          rw [h3]; exact hst
        · intro hne
          obtain ⟨p, ps', rfl⟩ : ∃ p ps', ps = p :: ps' := by
            cases ps with
            | nil => exact absurd rfl hne
            | cons p ps' => exact ⟨p, ps', rfl⟩
          rw [h1, List.nil_append] at hst
          obtain ⟨t, x, ht, hx, hlen⟩ := hps p (by simp)
          have hw := packet_len20 hP ho (by rw [List.length_cons] at hj; omega) t x
          simp only [payloadStream, ht, hx, Option.getD_some] at hst
          have := congrArg List.length hst
          rw [List.length_append, List.length_append, hw, List.length_take] at this
          rw [List.tail_cons]
          omega
      · right; left
        refine ⟨⟨c, s', .readingLength (writeAt buf n (b :: bs)) (n + (b :: bs).length), true⟩, r', ?_, rfl, h3, ?_, .inl ?_⟩
        · simp only [AsyncHalf.step, if_true, if_pos hfull, h1]
        · refine ⟨o, ho, hm, by rw [writeAt_length (by omega)]; exact hbuf, by omega, ?_⟩
          simp only [AsyncHalf.held]
          rw [take_writeAt (by omega), ← hst, ← h4]
          simp only [List.append_assoc]
        · simp only [AsyncHalf.held]
          rw [← h4]
          simp only [List.length_append, List.length_cons]
          omega
    · have hn3 : n = 3 := by omega
      subst hn3
      rw [List.take_of_length_le (by omega)] at hst
      obtain ⟨p, ps', rfl⟩ : ∃ p ps', ps = p :: ps' := by
        cases ps with
        | nil =>
          have := congrArg List.length hst
          rw [List.length_append, hbuf] at this
          simp only [payloadStream, List.length_nil] at this
          omega
        | cons p ps' => exact ⟨p, ps', rfl⟩
      obtain ⟨t, x, ht, hx, hlen⟩ := hps p (by simp)
      have hj1 : j + 1 < 2 ^ 32 := by rw [List.length_cons] at hj; omega
      have hw := packet_len20 hP ho hj1 t x
      simp only [payloadStream, ht, hx, Option.getD_some] at hst
      obtain ⟨o', ho', he⟩ := ho.encryptToVec (prof := prof) hP hj1 x t none
      obtain ⟨i1, i2, hm2, hl, -, -, -⟩ := C01_packet_round_trip hP hm x (by omega) t none he
      simp only [Option.getD_none] at hl
      generalize hW : Spec.packet P kL kP j (t == .decoy) [] x = w at hw hst he hl
      have hacc' : buf = w.take 3 := by
        have := congrArg (List.take 3) hst
        rw [List.take_append_of_le_length (by omega), List.take_append_of_le_length (by omega)] at this
        rw [← this, List.take_of_length_le (by omega)]
      right; left
      refine ⟨⟨i1, s, .initReadingPayload (w.drop 3).length, true⟩, r, ?_, rfl, rfl, ?_, .inr ⟨rfl, rfl, rfl⟩⟩
      · simp only [AsyncHalf.step, if_true, if_neg hfull]
        rw [hacc', hl]
      · have hz : (zeros (w.drop 3).length).length = (w.drop 3).length := by simp [zeros]
        refine ⟨p, ps', w, o, c, rfl, ho, hm, ?_, ?_, hz, by omega, ?_⟩
        · rw [ht, hx]; exact hW.symm
        · rw [hz]; exact hl
        · have := congrArg (List.drop 3) hst
          rw [List.drop_append_of_le_length (by omega), List.drop_append_of_le_length (by omega), ← hbuf, List.drop_length,
            List.nil_append, hbuf] at this
          rw [List.take_zero, List.nil_append]
          exact this
  | readingPayload buf n =>
    obtain ⟨p, ps', w, o, i, rfl, ho, hm, hW, hl, hneed, hacc, hst⟩ := hr
    simp only [AsyncHalf.held] at hst
    obtain ⟨t, x, ht, hx, hlen⟩ := hps p (by simp)
    have hj1 : j + 1 < 2 ^ 32 := by rw [List.length_cons] at hj; omega
    have hw := packet_len20 hP ho hj1 t x
    rw [ht, hx] at hW
    simp only [Option.getD_some] at hW
    rw [← hW] at hw
    by_cases hfull : n < buf.length
    · rcases sess_poll (cap := cap) (k := k) (s := s) (r := r) (n := buf.length - n) (by omega) with
        ⟨h1, r', h2, h3⟩ | ⟨s', r', b, bs, h1, h2, h3, h4⟩
      · left
        refine ⟨⟨c, s, .readingPayload buf n, false⟩, r', ?_, rfl, h3, rfl, ?_, h1, ?_⟩
        · simp only [AsyncHalf.step, if_true, if_pos hfull, h2]
        · refine ⟨p, ps', w, o, i, rfl, ho, hm, by rw [ht, hx]; exact hW, hl, hneed, hacc, ?_⟩
          simp only [AsyncHalf.held]
          rw [h3]; exact hst
        · intro _
          rw [h1, List.nil_append] at hst
          have := congrArg List.length hst
          rw [List.length_append, List.length_append, List.length_take] at this
          rw [List.tail_cons]
          omega
      · right; left
        refine ⟨⟨c, s', .readingPayload (writeAt buf n (b :: bs)) (n + (b :: bs).length), true⟩, r', ?_, rfl, h3, ?_, .inl ?_⟩
        · simp only [AsyncHalf.step, if_true, if_pos hfull, h1]
        · have hwl : (writeAt buf n (b :: bs)).length = buf.length := writeAt_length (by omega)
          refine ⟨p, ps', w, o, i, rfl, ho, hm, by rw [ht, hx]; exact hW, by rw [hwl]; exact hl, by rw [hwl]; exact hneed, by omega, ?_⟩
          simp only [AsyncHalf.held]
          rw [take_writeAt (by omega), ← hst, ← h4]
          simp only [List.append_assoc]
        · simp only [AsyncHalf.held]
          rw [← h4]
          simp only [List.length_append, List.length_cons]
          omega
    · have hnb : n = buf.length := by omega
      rw [hnb, List.take_length] at hst
      have hacc' : buf = w.drop 3 := List.append_inj_left hst hneed
      have havail := hst
      rw [hacc'] at havail
      have havail := List.append_cancel_left havail
      obtain ⟨o', ho', he⟩ := ho.encryptToVec (prof := prof) hP hj1 x t none
      obtain ⟨i1, i2, hm2, hl', -, hd, -⟩ := C01_packet_round_trip hP hm x (by omega) t none he
      simp only [Option.getD_none, ← hW] at hl' hd
      rw [hl] at hl'
      obtain ⟨rfl, -⟩ := Prod.mk.inj hl'
      have hrec : p.received = .decrypted (t.toByte :: x) := by simp [Payload.received, ht, hx]
      have hbl : buf.length = x.length + 17 := by rw [hneed, List.length_drop, hw]; omega
      have hdl : InboundCipher.decryptionBufferLen prof buf.length = some (x.length + 1) := by
        unfold InboundCipher.decryptionBufferLen
        rw [hbl]
        show usub prof u64Mod (x.length + 17) 16 = _
        unfold usub
        rw [if_pos (by omega)]
        rfl
      have hz : (zeros (x.length + 1)).length = x.length + 1 := by simp [zeros]
      have hd := hd (zeros (x.length + 1)) (by omega)
      rw [List.drop_of_length_le (l := zeros (x.length + 1)) (by omega), List.append_nil] at hd
      right; right
      refine ⟨⟨i2, s, .initReadingLength, false⟩, p, ps', rfl, ?_, rfl, ?_⟩
      · simp only [AsyncHalf.step, if_true, if_neg hfull, hdl]
        rw [hacc', hd]
        simp only [Payload.mkDecrypted]
        rw [hrec]
        simp
      · refine ⟨o', ho', hm2, rfl, by omega, ?_⟩
        simp only [AsyncHalf.held, List.take_zero, List.nil_append]
        exact havail

/-! ## The side that writes -/

variable {σ : Type}

/-- A step of the task within a command. -/
theorem task_writing {N : PollConn σ} {s : AsyncShapedN σ R} {cmd : WriteCommand} {pc : JobPc} (h : s.sys.task = .writing cmd pc)
    (hnd : ∀ r, pc ≠ .done r) :
    s.step N P prof (.sys .task) = match N.toConn.ask pc.asks s.run with
      | none => s
      | some (r, sink) => { s with
          sys := { s.sys with ws := (pc.step .async P prof (s.sys.ws.over sink)).1,
                              task := .writing cmd (pc.step .async P prof (s.sys.ws.over sink)).2 }, run := r } := by
  obtain ⟨⟨ws, queue, closed, answers, task, caller, reader, called, returned, reads0⟩, half, run⟩ := s
  simp only at h
  subst h
  simp only [AsyncShapedN.step, AsyncShapedSys.asks]
  cases N.toConn.ask pc.asks run with
  | none => rfl
  | some x =>
    obtain ⟨r, sink⟩ := x
    simp only [AsyncShapedSys.step, AsyncShapedSys.taskStep]

/-- A step of the task within a tick. -/
theorem task_covering {N : PollConn σ} {s : AsyncShapedN σ R} {pc : JobPc} (h : s.sys.task = .covering pc)
    (hnd : ∀ r, pc ≠ .done r) :
    s.step N P prof (.sys .task) = match N.toConn.ask pc.asks s.run with
      | none => s
      | some (r, sink) => { s with
          sys := { s.sys with ws := (pc.step .async P prof (s.sys.ws.over sink)).1,
                              task := .covering (pc.step .async P prof (s.sys.ws.over sink)).2 }, run := r } := by
  obtain ⟨⟨ws, queue, closed, answers, task, caller, reader, called, returned, reads0⟩, half, run⟩ := s
  simp only at h
  subst h
  simp only [AsyncShapedN.step, AsyncShapedSys.asks]
  cases N.toConn.ask pc.asks run with
  | none => rfl
  | some x =>
    obtain ⟨r, sink⟩ := x
    simp only [AsyncShapedSys.step, AsyncShapedSys.taskStep]

/-- A step that makes no call of the transport. -/
theorem silent_async {N : PollConn σ} {s : AsyncShapedN σ R} {l : AsyncLabel} (hl : l ≠ .read) (h : s.sys.asks l = none) :
    s.step N P prof (.sys l) = { s with sys := ({ s.sys with ws := s.sys.ws.over ⟨[], [], []⟩ } : AsyncShapedSys R).step P prof l } := by
  cases l with
  | read => exact absurd rfl hl
  | _ => simp only [AsyncShapedN.step, h, Conn.ask]

/-- The payload of the pending `write`. -/
def CallerPc.inflight : CallerPc → List Payload
  | .waiting p _ => [p]
  | _ => []

/-- These are the commands from number `d` on. -/
def Commands (called : List Payload) (d : Nat) (cmds : List WriteCommand) : Prop :=
  cmds.map (·.payload) = called.drop d ∧ cmds.map (·.resultTx) = List.range' d cmds.length ∧ d + cmds.length = called.length

/-- The task has written the packets of `log`, the last of which has `rest` left to send, and is at number `m`; `d` commands
are done. -/
def TaskAt (P : Prims) (kL kP : Bytes) (m d : Nat) (log : List Payload) (s : AsyncShapedSys R) (rest : Bytes) : Prop :=
  s.ws.writer.cipher.At P kL kP m ∧ s.answers = (List.range d).map (fun i => (i, .ok ())) ∧ (∀ x ∈ s.returned, x.2 = .ok ()) ∧
  (∀ p ∈ s.called, p.Readable) ∧ ((∀ p rx, s.caller = .waiting p rx → rx < s.called.length) ∧ (s.closed = true → s.caller = .gone)) ∧
  (s.returned.map (·.1) ++ s.caller.inflight).Sublist s.called ∧
  match s.task with
  | .select a t => (t = false ∧ (a = true → s.queue = [] ∧ s.closed = true)) ∧ rest = [] ∧ Commands s.called d s.queue ∧ genuineOf log = genuineOf (s.called.take d)
  | .writing cmd pc => Commands s.called d (cmd :: s.queue) ∧ pc.Set (.write cmd.payload) ∧ rest = pc.rest ∧
      genuineOf log = genuineOf (s.called.take d) ++ genuineOf (pc.begun (.write cmd.payload))
  | .covering pc => Commands s.called d s.queue ∧ pc.Set .cover ∧ rest = pc.rest ∧ genuineOf log = genuineOf (s.called.take d)
  | _ => False

/-- The parts of a party that a step of its writing side leaves alone. -/
def SameReads (s s' : AsyncShapedN (Bytes × Bytes) R) : Prop :=
  s'.half = s.half ∧ s'.sys.reads = s.sys.reads ∧ s'.sys.reader = s.sys.reader ∧ s'.run.net.2 = s.run.net.2

/-- What a step of the writing side does. -/
def TaskSends (P : Prims) (kL kP : Bytes) (m d : Nat) (log : List Payload) (rest : Bytes) (s s' : AsyncShapedN (Bytes × Bytes) R)
    (new : List Payload) (rest' : Bytes) : Prop :=
  new.length ≤ 1 ∧ (∀ q ∈ new, q.Readable) ∧ TaskAt P kL kP (m + new.length) d (log ++ new) s'.sys rest' ∧ SameReads s s' ∧
    s'.run.net.1 ++ rest' = s.run.net.1 ++ rest ++ payloadStream P kL kP m new

/-- The job that the task is at, if it is not at its end. -/
def TaskPc.job? : TaskPc → Option (Job × JobPc)
  | .writing cmd pc => some (.write cmd.payload, pc)
  | .covering pc => some (.cover, pc)
  | _ => none

def TaskPc.setPc (pc : JobPc) : TaskPc → TaskPc
  | .writing cmd _ => .writing cmd pc
  | .covering _ => .covering pc
  | t => t

theorem TaskPc.job?_setPc {t : TaskPc} {job : Job} {pc pc' : JobPc} (h : t.job? = some (job, pc)) : (t.setPc pc').job? = some (job, pc') := by
  cases t <;> simp only [TaskPc.job?, TaskPc.setPc, reduceCtorEq, Option.some.injEq, Prod.mk.injEq, and_true] at h ⊢
  · exact h.1
  · exact h.1

/-- The task within a branch: blocked, or it goes on. -/
theorem task_goes (hP : Lawful P) {kL kP : Bytes} {m d : Nat} {log : List Payload} {s : AsyncShapedN (Bytes × Bytes) R} {rest : Bytes}
    (hm : m + 1 < 2 ^ 32) (h : TaskAt P kL kP m d log s.sys rest) {job : Job} {pc : JobPc} (ha : s.sys.task.job? = some (job, pc))
    (hnd : ∀ r, pc ≠ .done r) (cap k : Nat) :
    ((∀ k, s.step (pollEnd cap k) P prof (.sys .task) = s) ∧ cap ≤ s.run.net.1.length ∧ rest ≠ []) ∨
    ∃ s' pc' new rest', s.step (pollEnd cap k) P prof (.sys .task) = s' ∧ TaskSends P kL kP m d log rest s s' new rest' ∧
      s'.sys.task = s.sys.task.setPc pc' ∧ pc'.cost < pc.cost ∧ s'.sys.queue = s.sys.queue ∧ s'.sys.answers = s.sys.answers ∧
      s'.sys.caller = s.sys.caller ∧ s'.sys.closed = s.sys.closed ∧ s'.sys.called = s.sys.called ∧ s'.sys.returned = s.sys.returned ∧
      new.length + pc'.packets ≤ pc.packets ∧ ((∀ j, pc ≠ .start j) → new.length + pc'.packets = pc.packets) ∧
      s'.sys.ws.shaper.config = s.sys.ws.shaper.config ∧
      ((∀ j, pc ≠ .start j) → ∀ j, pc' ≠ .start j) := by
  obtain ⟨ho, h1, h2, h3, h4, h5, h6⟩ := h
  have hstep : ∀ k, s.step (pollEnd cap k) P prof (.sys .task) = match (endConn cap k).ask pc.asks s.run with
      | none => s
      | some (r, sink) => { s with
          sys := { s.sys with ws := (pc.step .async P prof (s.sys.ws.over sink)).1,
                              task := s.sys.task.setPc (pc.step .async P prof (s.sys.ws.over sink)).2 }, run := r } := by
    intro k
    cases ht : s.sys.task with
    | writing cmd pc0 =>
      rw [ht] at ha
      simp only [TaskPc.job?, Option.some.injEq, Prod.mk.injEq] at ha
      obtain ⟨-, rfl⟩ := ha
      rw [task_writing ht hnd, show (pollEnd cap k).toConn = endConn cap k from rfl]
      cases (endConn cap k).ask pc0.asks s.run <;> rfl
    | covering pc0 =>
      rw [ht] at ha
      simp only [TaskPc.job?, Option.some.injEq, Prod.mk.injEq] at ha
      obtain ⟨-, rfl⟩ := ha
      rw [task_covering ht hnd, show (pollEnd cap k).toConn = endConn cap k from rfl]
      cases (endConn cap k).ask pc0.asks s.run <;> rfl
    | _ => rw [ht] at ha; cases ha
  have hset : pc.Set job ∧ rest = pc.rest ∧ job.Readable := by
    cases ht : s.sys.task with
    | writing cmd pc0 =>
      rw [ht] at ha h6
      simp only [TaskPc.job?, Option.some.injEq, Prod.mk.injEq] at ha
      obtain ⟨rfl, rfl⟩ := ha
      refine ⟨h6.2.1, h6.2.2.1, h3 _ ?_⟩
      have : cmd.payload ∈ s.sys.called.drop d := by rw [← h6.1.1]; simp
      exact List.mem_of_mem_drop this
    | covering pc0 =>
      rw [ht] at ha h6
      simp only [TaskPc.job?, Option.some.injEq, Prod.mk.injEq] at ha
      obtain ⟨rfl, rfl⟩ := ha
      exact ⟨h6.2.1, h6.2.2.1, trivial⟩
    | _ => rw [ht] at ha; cases ha
  obtain ⟨hg, rfl, hj⟩ := hset
  rcases job_step (prof := prof) hP ho hm hj hg hnd s.run cap k with ⟨g1, g2, g3⟩ |
    ⟨run', sink, ws', pc', new, g1, g2, g3, g4, g5, g6, g7, g8, g9, g10, g11, g12, g13⟩
  · left
    exact ⟨fun k => by rw [hstep, g1], g2, g3⟩
  · right
    have g2' : pc.step .async P prof (s.sys.ws.over sink) = (ws', pc') := by
      rw [JobPc.step_flavour .async .sync (ask_never_fails g1), g2]
    refine ⟨{ s with sys := { s.sys with ws := ws', task := s.sys.task.setPc pc' }, run := run' }, pc', new, pc'.rest, ?_, ?_, rfl, g10, rfl, rfl, rfl,
      rfl, rfl, rfl, g11, g12, g13, ?_⟩
    · rw [hstep, g1]
      simp only [g2']
    · refine ⟨g4, g5, ⟨g3, h1, h2, h3, h4, h5, ?_⟩, ⟨rfl, rfl, rfl, g8⟩, g9⟩
      cases ht : s.sys.task with
      | writing cmd pc0 =>
        rw [ht] at ha h6
        simp only [TaskPc.job?, Option.some.injEq, Prod.mk.injEq] at ha
        obtain ⟨rfl, rfl⟩ := ha
        simp only [TaskPc.setPc]
        exact ⟨h6.1, g6, trivial, by rw [genuineOf_append, h6.2.2.2, ← g7, List.append_assoc]⟩
      | covering pc0 =>
        rw [ht] at ha h6
        simp only [TaskPc.job?, Option.some.injEq, Prod.mk.injEq] at ha
        obtain ⟨rfl, rfl⟩ := ha
        simp only [TaskPc.setPc]
        refine ⟨h6.1, g6, trivial, ?_⟩
        rw [begun_cover, begun_cover] at g7
        simp only [genuineOf, List.filterMap_nil, List.nil_append] at g7
        rw [genuineOf_append, h6.2.2.2]
        simp [genuineOf, g7]
      | _ => rw [ht] at ha; cases ha
    · intro hst j
      have := job_not_start (P := P) (prof := prof) hst .async (s.sys.ws.over sink) j
      rw [g2'] at this
      exact this

theorem lookup_range (d rx : Nat) (v : Outcome ProtocolError Unit) :
    ((List.range d).map fun i => (i, v)).lookup rx = if rx < d then some v else none := by
  induction d with
  | zero => simp
  | succ d ih =>
    rw [List.range_succ, List.map_append, List.lookup_append, ih]
    by_cases h : rx < d
    · rw [if_pos h, if_pos (by omega)]; rfl
    · rw [if_neg h]
      by_cases h' : rx = d
      · subst h'; simp
      · rw [if_neg (by omega)]
        have : (rx == d) = false := by simpa using h'
        simp [List.lookup, this]

/-- The label makes no packet. -/
def AsyncShapedSys.Between (s : AsyncShapedSys R) (l : AsyncLabel) : Prop :=
  l = .task → ∀ job pc, s.task.job? = some (job, pc) → ∃ r, pc = .done r

theorem TaskSends.quiet {kL kP : Bytes} {m d : Nat} {log : List Payload} {rest : Bytes} {s s' : AsyncShapedN (Bytes × Bytes) R}
    (h : TaskAt P kL kP m d log s'.sys rest) (h1 : SameReads s s') (h2 : s'.run = s.run) : TaskSends P kL kP m d log rest s s' [] rest :=
  ⟨by simp, by simp, by simpa using h, h1, by simp [h2, payloadStream]⟩

theorem Commands.push {called : List Payload} {d : Nat} {cmds : List WriteCommand} (h : Commands called d cmds) (p : Payload) :
    Commands (called ++ [p]) d (cmds ++ [⟨p, called.length⟩]) := by
  obtain ⟨h1, h2, h3⟩ := h
  refine ⟨?_, ?_, ?_⟩
  · rw [List.map_append, h1, List.drop_append_of_le_length (by omega)]; rfl
  · rw [List.map_append, h2, List.length_append, List.length_singleton, List.range'_1_concat]
    simp only [List.map_cons, List.map_nil]
    rw [show d + cmds.length = called.length from h3]
  · simp only [List.length_append, List.length_singleton]; omega

/-- Every step of the writing side. -/
theorem tasker_step (hP : Lawful P) {kL kP : Bytes} {m d : Nat} {log : List Payload} {s : AsyncShapedN (Bytes × Bytes) R} {rest : Bytes}
    (hm : m + 1 < 2 ^ 32) (h : TaskAt P kL kP m d log s.sys rest) {l : AsyncLabel} (hl : l ≠ .read) (hc : ∀ p, l = .call p → p.Readable)
    (cap k : Nat) :
    ∃ d' new rest', TaskSends P kL kP m d' log rest s (s.step (pollEnd cap k) P prof (.sys l)) new rest' ∧
      (s.sys.Between l → new = [] ∧ rest' = rest) := by
  have hh := h
  have keep : ∀ x : Sink, TaskAt P kL kP m d log ({ s.sys with ws := s.sys.ws.over x } : AsyncShapedSys R) rest := fun _ => h
  have same : s.step (pollEnd cap k) P prof (.sys l) = { s with sys := { s.sys with ws := s.sys.ws.over ⟨[], [], []⟩ } } →
      ∃ d' new rest', TaskSends P kL kP m d' log rest s (s.step (pollEnd cap k) P prof (.sys l)) new rest' ∧
        (s.sys.Between l → new = [] ∧ rest' = rest) := by
    intro e
    rw [e]
    exact ⟨d, [], rest, .quiet (keep _) ⟨rfl, rfl, rfl, rfl⟩ rfl, fun _ => ⟨rfl, rfl⟩⟩
  obtain ⟨ho, h1, h2, h3, h4, h5, h6⟩ := h
  cases l with
  | read => exact absurd rfl hl
  | call p =>
    rw [silent_async (by simp) rfl] at same ⊢
    simp only [AsyncShapedSys.step] at same ⊢
    cases hca : s.sys.caller with
    | idle =>
      have he : s.sys.task.ended = false := by
        cases ht : s.sys.task with
        | finished => rw [ht] at h6; exact h6.elim
        | panicked => rw [ht] at h6; exact h6.elim
        | _ => rfl
      simp only [he, Bool.false_eq_true, if_false]
      refine ⟨d, [], rest, .quiet ⟨ho, h1, h2, ?_, ?_, ?_, ?_⟩ ⟨rfl, rfl, rfl, rfl⟩ rfl, fun _ => ⟨rfl, rfl⟩⟩
      · intro q hq
        simp only [List.mem_append, List.mem_singleton] at hq
        rcases hq with hq | rfl
        · exact h3 q hq
        · exact hc q rfl
      · refine ⟨fun q rx hq => ?_, fun hcl => ?_⟩
        · simp only [CallerPc.waiting.injEq] at hq
          simp only [List.length_append, List.length_singleton]
          omega
        · have := h4.2 hcl
          rw [hca] at this; cases this
      · rw [hca] at h5
        simp only [CallerPc.inflight, List.append_nil] at h5 ⊢
        exact h5.append_right [p]
      · have take : ∀ {n}, n ≤ s.sys.called.length → (s.sys.called ++ [p]).take n = s.sys.called.take n :=
          fun hn => List.take_append_of_le_length hn
        cases ht : s.sys.task with
        | select a t =>
          rw [ht] at h6
          refine ⟨⟨h6.1.1, fun ha => ?_⟩, h6.2.1, h6.2.2.1.push p, by rw [take (by have := h6.2.2.1.2.2; omega)]; exact h6.2.2.2⟩
          have := h4.2 (h6.1.2 ha).2
          rw [hca] at this; cases this
        | writing cmd pc =>
          rw [ht] at h6
          exact ⟨h6.1.push p, h6.2.1, h6.2.2.1, by rw [take (by have := h6.1.2.2; omega)]; exact h6.2.2.2⟩
        | covering pc =>
          rw [ht] at h6
          exact ⟨h6.1.push p, h6.2.1, h6.2.2.1, by rw [take (by have := h6.1.2.2; omega)]; exact h6.2.2.2⟩
        | _ => rw [ht] at h6; exact h6.elim
    | _ => simp only [hca] at same ⊢; exact same trivial
  | resume =>
    rw [silent_async (by simp) rfl] at same ⊢
    simp only [AsyncShapedSys.step] at same ⊢
    cases hca : s.sys.caller with
    | waiting p rx =>
      simp only [hca] at same ⊢
      cases hlk : s.sys.answers.lookup rx with
      | none =>
        have he : s.sys.task.ended = false := by
          cases ht : s.sys.task with
          | finished => rw [ht] at h6; exact h6.elim
          | panicked => rw [ht] at h6; exact h6.elim
          | _ => rfl
        simp only [hlk, he, Bool.false_eq_true, if_false] at same ⊢
        exact same trivial
      | some r =>
        have hr : r = .ok () := by
          rw [h1, lookup_range] at hlk
          by_cases hd : rx < d
          · rw [if_pos hd] at hlk; cases hlk; rfl
          · rw [if_neg hd] at hlk; cases hlk
        subst hr
        simp only
        refine ⟨d, [], rest, .quiet ⟨ho, h1, ?_, h3, ?_, ?_, h6⟩ ⟨rfl, rfl, rfl, rfl⟩ rfl, fun _ => ⟨rfl, rfl⟩⟩
        · intro x hx
          simp only [List.mem_append, List.mem_singleton] at hx
          rcases hx with hx | rfl
          · exact h2 x hx
          · rfl
        · refine ⟨fun q rx' hq => (by cases hq), fun hcl => ?_⟩
          have := h4.2 hcl
          rw [hca] at this; cases this
        · rw [hca] at h5
          simpa [CallerPc.inflight] using h5
    | _ => simp only [hca] at same ⊢; exact same trivial
  | cancel =>
    rw [silent_async (by simp) rfl] at same ⊢
    simp only [AsyncShapedSys.step] at same ⊢
    cases hca : s.sys.caller with
    | waiting p rx =>
      simp only
      refine ⟨d, [], rest, .quiet ⟨ho, h1, h2, h3, ?_, ?_, h6⟩ ⟨rfl, rfl, rfl, rfl⟩ rfl, fun _ => ⟨rfl, rfl⟩⟩
      · refine ⟨fun q rx' hq => (by cases hq), fun hcl => ?_⟩
        have := h4.2 hcl
        rw [hca] at this; cases this
      · rw [hca] at h5
        simp only [CallerPc.inflight, List.append_nil] at h5 ⊢
        exact (List.sublist_append_left _ _).trans h5
    | _ => simp only [hca] at same ⊢; exact same trivial
  | drop =>
    rw [silent_async (by simp) rfl] at same ⊢
    simp only [AsyncShapedSys.step] at same ⊢
    cases hca : s.sys.caller with
    | idle =>
      simp only
      refine ⟨d, [], rest, .quiet ⟨ho, h1, h2, h3, ⟨fun q rx' hq => (by cases hq), fun _ => rfl⟩, ?_, ?_⟩ ⟨rfl, rfl, rfl, rfl⟩ rfl, fun _ => ⟨rfl, rfl⟩⟩
      · rw [hca] at h5; exact h5
      · cases ht : s.sys.task with
        | select a t =>
          rw [ht] at h6
          exact ⟨⟨h6.1.1, fun ha => ⟨(h6.1.2 ha).1, rfl⟩⟩, h6.2⟩
        | writing cmd pc => rw [ht] at h6; exact h6
        | covering pc => rw [ht] at h6; exact h6
        | _ => rw [ht] at h6; exact h6.elim
    | _ => simp only [hca] at same ⊢; exact same trivial
  | recv =>
    rw [silent_async (by simp) rfl] at same ⊢
    simp only [AsyncShapedSys.step] at same ⊢
    cases ht : s.sys.task with
    | select a t =>
      rw [ht] at h6
      obtain ⟨⟨rfl, hoff⟩, rfl, c1, c2⟩ := h6
      cases a with
      | true => simp only [ht] at same ⊢; exact same trivial
      | false =>
        cases hq : s.sys.queue with
        | nil =>
          simp only [ht, hq] at same ⊢
          by_cases hcl : s.sys.closed = true
          · simp only [if_pos hcl]
            refine ⟨d, [], [], .quiet ⟨ho, h1, h2, h3, h4, h5, ⟨rfl, fun _ => ⟨rfl, hcl⟩⟩, rfl, ?_, c2⟩ ⟨rfl, rfl, rfl, rfl⟩ rfl, fun _ => ⟨rfl, rfl⟩⟩
            rw [← hq]; exact c1
          · simp only [if_neg hcl] at same ⊢
            exact same trivial
        | cons cmd q =>
          simp only
          rw [hq] at c1
          refine ⟨d, [], [], .quiet ⟨ho, h1, h2, h3, h4, h5, c1, rfl, rfl, ?_⟩ ⟨rfl, rfl, rfl, rfl⟩ rfl, fun _ => ⟨rfl, rfl⟩⟩
          show genuineOf log = _ ++ []
          rw [List.append_nil]
          exact c2
    | _ => simp only [ht] at same ⊢; exact same trivial
  | tick =>
    rw [silent_async (by simp) rfl] at same ⊢
    simp only [AsyncShapedSys.step] at same ⊢
    cases ht : s.sys.task with
    | select a t =>
      rw [ht] at h6
      obtain ⟨⟨rfl, hoff⟩, rfl, c1, c2⟩ := h6
      simp only
      exact ⟨d, [], [], .quiet ⟨ho, h1, h2, h3, h4, h5, c1, rfl, rfl, c2⟩ ⟨rfl, rfl, rfl, rfl⟩ rfl, fun _ => ⟨rfl, rfl⟩⟩
    | _ => simp only [ht] at same ⊢; exact same trivial
  | otherwise =>
    rw [silent_async (by simp) rfl] at same ⊢
    simp only [AsyncShapedSys.step] at same ⊢
    cases ht : s.sys.task with
    | select a t =>
      rw [ht] at h6
      obtain ⟨⟨rfl, hoff⟩, rfl, c1, c2⟩ := h6
      cases a <;> (simp only [ht] at same ⊢; exact same trivial)
    | _ => simp only [ht] at same ⊢; exact same trivial
  | task =>
    cases hjob : s.sys.task.job? with
    | none =>
      have hq : s.sys.asks .task = none := by
        simp only [AsyncShapedSys.asks]
        cases ht : s.sys.task with
        | writing cmd pc => rw [ht] at hjob; cases hjob
        | covering pc => rw [ht] at hjob; cases hjob
        | _ => rfl
      rw [silent_async (by simp) hq] at same ⊢
      simp only [AsyncShapedSys.step, AsyncShapedSys.taskStep] at same ⊢
      cases ht : s.sys.task with
      | writing cmd pc => rw [ht] at hjob; cases hjob
      | covering pc => rw [ht] at hjob; cases hjob
      | _ => simp only [ht] at same ⊢; exact same trivial
    | some x =>
      obtain ⟨job, pc⟩ := x
      by_cases hd : ∃ r, pc = .done r
      · obtain ⟨r, rfl⟩ := hd
        cases ht : s.sys.task with
        | writing cmd pc =>
          rw [ht] at hjob h6
          simp only [TaskPc.job?, Option.some.injEq, Prod.mk.injEq] at hjob
          obtain ⟨rfl, rfl⟩ := hjob
          rw [silent_async (by simp) (by simp [AsyncShapedSys.asks, ht, JobPc.asks])]
          obtain ⟨⟨c1, c1', c1''⟩, c2, rfl, c3⟩ := h6
          have hr : r = .ok () := c2
          subst hr
          simp only [AsyncShapedSys.step, AsyncShapedSys.taskStep, ht, reduceCtorEq, if_false]
          have hlt : d < s.sys.called.length := by rw [List.length_cons] at c1''; omega
          have hget : s.sys.called[d] = cmd.payload := by
            have := List.drop_eq_getElem_cons hlt
            rw [← c1] at this
            exact (List.cons.inj this).1.symm
          rw [List.length_cons, List.range'_succ, List.map_cons] at c1'
          obtain ⟨e1, e2⟩ := List.cons.inj c1'
          refine ⟨d + 1, [], [], .quiet ⟨ho, ?_, h2, h3, h4, h5, ⟨rfl, fun h => (by cases h)⟩, rfl, ⟨?_, e2, ?_⟩, ?_⟩ ⟨rfl, rfl, rfl, rfl⟩ rfl, fun _ => ⟨rfl, rfl⟩⟩
          · simp only [h1, List.range_succ, List.map_append, e1]; rfl
          · rw [← List.drop_drop, ← c1]; rfl
          · rw [List.length_cons] at c1''; simp only; omega
          · simp only
            rw [c3, ← List.take_append_getElem hlt, genuineOf_append, hget]
            rfl
        | covering pc =>
          rw [ht] at hjob h6
          simp only [TaskPc.job?, Option.some.injEq, Prod.mk.injEq] at hjob
          obtain ⟨rfl, rfl⟩ := hjob
          rw [silent_async (by simp) (by simp [AsyncShapedSys.asks, ht, JobPc.asks])]
          obtain ⟨c1, c2, rfl, c3⟩ := h6
          have hr : r = .ok () := c2
          subst hr
          simp only [AsyncShapedSys.step, AsyncShapedSys.taskStep, ht, reduceCtorEq, if_false]
          exact ⟨d, [], [], .quiet ⟨ho, h1, h2, h3, h4, h5, ⟨rfl, fun h => (by cases h)⟩, rfl, c1, c3⟩ ⟨rfl, rfl, rfl, rfl⟩ rfl, fun _ => ⟨rfl, rfl⟩⟩
        | _ => rw [ht] at hjob; cases hjob
      · have hnd : ∀ r, pc ≠ .done r := fun r h => hd ⟨r, h⟩
        rcases task_goes (prof := prof) hP hm hh hjob hnd cap k with ⟨g1, -, -⟩ | ⟨s', pc', new, rest', g1, g2, -⟩
        · rw [g1]; exact ⟨d, [], rest, .quiet hh ⟨rfl, rfl, rfl, rfl⟩ rfl, fun _ => ⟨rfl, rfl⟩⟩
        · rw [g1]; exact ⟨d, new, rest', g2, fun hb => absurd (hb rfl job pc hjob) hd⟩

end Bip324
