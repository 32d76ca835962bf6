import Verif.Spec.Link
import Verif.Lemmas.Session
import Verif.Lemmas.Accept

/-!
# One direction of a connection

The invariant: what a writer has not sent yet, together with what is on the way, is what the reader on the other side
has not used yet.
-/

namespace Bip324

variable {P : Prims} {prof : Profile}

/-- The writer is at packet `m`, has `rest` to send, and after the call in progress `todo` to write. -/
def WriterAt (P : Prims) (kL kP : Bytes) (m : Nat) (d : Halves (Bytes × Bytes) SyncHalf (Outcome ProtocolError Payload))
    (todo : List Payload) (rest : Bytes) : Prop :=
  d.out.At P kL kP m ∧ (∀ p ∈ todo, p.Readable) ∧ m + todo.length < 2 ^ 32 ∧
  match d.wr with
  | none => rest = payloadStream P kL kP m todo
  | some (p, .start q) => q = p ∧ p.Readable ∧ m + 1 + todo.length < 2 ^ 32 ∧ rest = payloadStream P kL kP m (p :: todo)
  | some (_, .sending bs) => rest = bs ++ payloadStream P kL kP m todo
  | some (_, .flushing) => rest = payloadStream P kL kP m todo
  | some (_, .done r) => r = .ok () ∧ rest = payloadStream P kL kP m todo

/-- The reader is at packet `j`, has `ps` to read, of which `avail` is on the way or not written yet. -/
def ReaderAt (P : Prims) (prof : Profile) (kL kP : Bytes) (j : Nat) (h : SyncHalf) (ps : List Payload) (avail : Bytes) : Prop :=
  match h.pc with
  | .idle => ∃ o : OutboundCipher, o.At P kL kP j ∧ Matching o h.cipher ∧ avail = payloadStream P kL kP j ps
  | .length acc => ps ≠ [] ∧ ∃ o : OutboundCipher, o.At P kL kP j ∧ Matching o h.cipher ∧ acc.length ≤ 3 ∧
      acc ++ avail = payloadStream P kL kP j ps
  | .packet need acc => ∃ p ps' w, ∃ o : OutboundCipher, ∃ i : InboundCipher, ps = p :: ps' ∧ o.At P kL kP j ∧ Matching o i ∧
      w = Spec.packet P kL kP j (p.packetType.getD .genuine == .decoy) [] (p.contents.getD []) ∧
      i.decryptPacketLen P prof (w.take 3) = (h.cipher, .ok need) ∧ need = (w.drop 3).length ∧ acc.length ≤ need ∧
      acc ++ avail = w.drop 3 ++ payloadStream P kL kP (j + 1) ps'

/-- A read from a session of this end: it blocks only if nothing is there; otherwise it gets something. -/
theorem sess_end {cap k : Nat} {s : Bytes × Bool} {r : ConnRun (Bytes × Bytes)} {n : Nat} (hn : n ≠ 0) :
    ((if s.2 then [] else s.1) ++ r.net.2 = [] ∧ ∀ k, syncN.read (endConn cap k).readRun (s, r) n = none) ∨
    ∃ s' r' b bs, syncN.read (endConn cap k).readRun (s, r) n = some ((s', r'), .ok (b :: bs)) ∧
      (b :: bs).length ≤ n ∧ r'.net.1 = r.net.1 ∧ r'.sent = r.sent ∧
      (b :: bs) ++ ((if s'.2 then [] else s'.1) ++ r'.net.2) = (if s.2 then [] else s.1) ++ r.net.2 ∧
      r'.net.2.length ≤ r.net.2.length := by
  obtain ⟨l, fl⟩ := s
  have key : (r.net.2 = [] ∧ ∀ k, (endConn cap k).readRun r n = none) ∨
      ∃ r' b bs, (endConn cap k).readRun r n = some (r', .ok (b :: bs)) ∧ (b :: bs).length ≤ n ∧ r'.net.1 = r.net.1 ∧
        r'.sent = r.sent ∧ (b :: bs) ++ r'.net.2 = r.net.2 := by
    unfold Conn.readRun endConn
    simp only [if_neg hn]
    by_cases h : r.net.2 = []
    · left
      exact ⟨h, fun k => by simp [h]⟩
    · right
      rw [if_neg h]
      cases ht : r.net.2.take (min n (k + 1)) with
      | nil =>
        have := congrArg List.length ht
        rw [List.length_take, List.length_nil] at this
        have : r.net.2.length ≠ 0 := fun h0 => h (List.length_eq_zero_iff.1 h0)
        omega
      | cons b bs =>
        refine ⟨_, b, bs, rfl, ?_, rfl, rfl, ?_⟩
        · rw [← ht, List.length_take]; omega
        · rw [← ht]; exact List.take_append_drop _ _
  cases fl with
  | true =>
    simp only [syncN, if_true, List.nil_append]
    rcases key with ⟨h1, h2⟩ | ⟨r', b, bs, h1, h2, h3, h4, h5⟩
    · left
      exact ⟨h1, fun k => by rw [h2]⟩
    · right
      exact ⟨(l, true), r', b, bs, by rw [h1], h2, h3, h4, by simpa using h5, by rw [← h5, List.length_append]; omega⟩
  | false =>
    simp only [syncN, Bool.false_eq_true, if_false]
    cases ht : l.take n with
    | nil =>
      have hl : l = [] := by
        have := congrArg List.length ht
        rw [List.length_take, List.length_nil] at this
        exact List.length_eq_zero_iff.1 (by omega)
      subst hl
      simp only [if_neg hn, List.nil_append]
      rcases key with ⟨h1, h2⟩ | ⟨r', b, bs, h1, h2, h3, h4, h5⟩
      · left
        exact ⟨h1, fun k => by rw [h2]⟩
      · right
        exact ⟨([], true), r', b, bs, by rw [h1], h2, h3, h4, by simpa using h5, by rw [← h5, List.length_append]; omega⟩
    | cons b bs =>
      right
      refine ⟨(l.drop n, false), r, b, bs, rfl, ?_, rfl, rfl, ?_, Nat.le_refl _⟩
      · rw [← ht, List.length_take]; omega
      · rw [← ht]
        simp only [Bool.false_eq_true, if_false]
        rw [← List.append_assoc, List.take_append_drop]

theorem packet_len20 (hP : Lawful P) {kL kP : Bytes} {n : Nat} {o : OutboundCipher} (h : o.At P kL kP n) (hn : n + 1 < 2 ^ 32)
    (t : PacketType) (c : Bytes) : (Spec.packet P kL kP n (t == .decoy) [] c).length = c.length + 20 := by
  obtain ⟨o', -, he⟩ := h.encryptToVec (prof := .release) hP hn c t none
  exact packet_length hP he

/-- One step of the reader half. -/
theorem reader_step (hP : Lawful P) {kL kP : Bytes} {j : Nat} {h : SyncHalf} {ps : List Payload} {cap k : Nat}
    {r : ConnRun (Bytes × Bytes)} {later : Bytes} (hpc : h.pc ≠ .idle) (hps : ∀ p ∈ ps, p.Readable) (hj : j + ps.length < 2 ^ 32)
    (hr : ReaderAt P prof kL kP j h ps (h.held ++ r.net.2 ++ later)) :
    -- it blocks
    ((∀ k, h.step (endConn cap k) P prof r = none) ∧ h.held ++ r.net.2 = [] ∧
      (payloadStream P kL kP (j + 1) ps.tail).length < later.length) ∨
    -- it goes on
    (∃ h' r', h.step (endConn cap k) P prof r = some (h', r', none) ∧ h'.pc ≠ .idle ∧ r'.net.1 = r.net.1 ∧ r'.sent = r.sent ∧
      ReaderAt P prof kL kP j h' ps (h'.held ++ r'.net.2 ++ later) ∧
      ((h'.held ++ r'.net.2).length < (h.held ++ r.net.2).length ∨
        (h'.held ++ r'.net.2 = h.held ++ r.net.2 ∧ (∃ acc, h.pc = .length acc) ∧ ∃ need acc, h'.pc = .packet need acc)) ∧
      ((∃ n a, h.pc = .packet n a) → ∃ n a, h'.pc = .packet n a) ∧ r'.net.2.length ≤ r.net.2.length) ∨
    -- it returns
    (∃ h' p ps', ps = p :: ps' ∧ h.step (endConn cap k) P prof r = some (h', r, some (.ok p.received)) ∧ h'.pc = .idle ∧
      h'.held = h.held ∧ ReaderAt P prof kL kP (j + 1) h' ps' (h'.held ++ r.net.2 ++ later)) := by
  obtain ⟨c, s, pc⟩ := h
  simp only [SyncHalf.held, ReaderAt] at hr ⊢
  cases pc with
  | idle => exact absurd rfl hpc
  | length acc =>
    simp only at hr
    obtain ⟨hne, o, ho, hm, hacc, hst⟩ := hr
    obtain ⟨p, ps', rfl⟩ : ∃ p ps', ps = p :: ps' := by
      cases ps with
      | nil => exact absurd rfl hne
      | cons p ps' => exact ⟨p, ps', rfl⟩
    obtain ⟨t, x, ht, hx, hlen⟩ := hps p (by simp)
    have hj1 : j + 1 < 2 ^ 32 := by rw [List.length_cons] at hj; omega
    have hw := packet_len20 hP ho hj1 t x
    simp only [payloadStream, ht, hx, Option.getD_some] at hst
    by_cases hfull : 3 - acc.length = 0
    · -- the length is there
      have ha3 : acc.length = 3 := by omega
      obtain ⟨o', ho', he⟩ := ho.encryptToVec (prof := prof) hP hj1 x t none
      obtain ⟨i1, i2, hm2, hl, -, -, -⟩ := C01_packet_round_trip hP hm x (by omega) t none he
      generalize hW : Spec.packet P kL kP j (t == .decoy) [] x = w at hw hst he hl
      have hacc' : acc = w.take 3 := by
        have := congrArg (List.take 3) hst
        rw [List.take_append_of_le_length (by omega), List.take_append_of_le_length (by omega)] at this
        rw [← this, ← ha3, List.take_length]
      simp only [Option.getD_none] at hl
      rw [hW] at hl
      right; left
      refine ⟨⟨i1, s, .packet (w.drop 3).length []⟩, r, ?_, by simp, rfl, rfl, ?_, ?_, ?_, Nat.le_refl _⟩
      · unfold SyncHalf.step
        simp only [show NUM_LENGTH_BYTES = 3 from rfl, if_pos hfull]
        rw [hacc', hl]
      · simp only
        refine ⟨p, ps', w, o, c, rfl, ho, hm, ?_, hl, rfl, by simp, ?_⟩
        · rw [ht, hx]; exact hW.symm
        · have := congrArg (List.drop 3) hst
          rw [List.drop_append_of_le_length (by omega), List.drop_append_of_le_length (by omega), ← ha3, List.drop_length,
            List.nil_append, ha3] at this
          rw [List.nil_append, this]
      · exact .inr ⟨rfl, ⟨_, rfl⟩, _, _, rfl⟩
      · rintro ⟨n, a, h⟩; cases h
    · rcases sess_end (cap := cap) (k := k) (s := s) (r := r) hfull with ⟨h1, h2⟩ | ⟨s', r', b, bs, h1, h2, h3, h4, h5, h6⟩
      · left
        refine ⟨fun k => ?_, h1, ?_⟩
        · unfold SyncHalf.step
          simp only [show NUM_LENGTH_BYTES = 3 from rfl, if_neg hfull, h2]
        · rw [h1, List.nil_append] at hst
          have := congrArg List.length hst
          rw [List.length_append, List.length_append, hw] at this
          rw [List.tail_cons]
          omega
      · right; left
        refine ⟨⟨c, s', .length (acc ++ (b :: bs))⟩, r', ?_, by simp, h3, h4, ?_, ?_, ?_, h6⟩
        · unfold SyncHalf.step
          simp only [show NUM_LENGTH_BYTES = 3 from rfl, if_neg hfull, h1]
        · simp only
          refine ⟨by simp, o, ho, hm, by rw [List.length_append]; omega, ?_⟩
          simp only [payloadStream, ht, hx, Option.getD_some]
          rw [← hst, ← h5]
          simp only [List.append_assoc]
        · left
          rw [← h5]
          simp only [List.length_append, List.length_cons]
          omega
        · rintro ⟨n, a, h⟩; cases h
  | packet need acc =>
    simp only at hr
    obtain ⟨p, ps', w, o, i, rfl, ho, hm, hW, hl, hneed, hacc, hst⟩ := hr
    obtain ⟨t, x, ht, hx, hlen⟩ := hps p (by simp)
    have hj1 : j + 1 < 2 ^ 32 := by rw [List.length_cons] at hj; omega
    have hw := packet_len20 hP ho hj1 t x
    rw [ht, hx] at hW
    simp only [Option.getD_some] at hW
    rw [← hW] at hw
    by_cases hfull : need - acc.length = 0
    · have hacc' : acc = w.drop 3 := by
        have h1 : acc.length = (w.drop 3).length := by omega
        exact List.append_inj_left hst h1
      have havail := hst
      rw [hacc'] at havail
      have havail := List.append_cancel_left havail
      obtain ⟨o', ho', he⟩ := ho.encryptToVec (prof := prof) hP hj1 x t none
      obtain ⟨i1, i2, hm2, hl', -, -, htv⟩ := C01_packet_round_trip hP hm x (by omega) t none he
      simp only [Option.getD_none, ← hW] at hl' htv
      rw [hl] at hl'
      obtain ⟨rfl, -⟩ := Prod.mk.inj hl'
      have hrec : p.received = .decrypted (t.toByte :: x) := by simp [Payload.received, ht, hx]
      right; right
      refine ⟨⟨i2, s, .idle⟩, p, ps', rfl, ?_, rfl, rfl, ?_⟩
      · unfold SyncHalf.step
        simp only [if_pos hfull]
        rw [hacc', htv (by omega)]
        simp only [Payload.mkDecrypted]
        rw [hrec]
        simp
      · exact ⟨o', ho', hm2, havail⟩
    · rcases sess_end (cap := cap) (k := k) (s := s) (r := r) hfull with ⟨h1, h2⟩ | ⟨s', r', b, bs, h1, h2, h3, h4, h5, h6⟩
      · left
        refine ⟨fun k => ?_, h1, ?_⟩
        · unfold SyncHalf.step
          simp only [if_neg hfull, h2]
        · rw [h1, List.nil_append] at hst
          have := congrArg List.length hst
          rw [List.length_append, List.length_append] at this
          rw [List.tail_cons]
          omega
      · right; left
        refine ⟨⟨c, s', .packet need (acc ++ (b :: bs))⟩, r', ?_, by simp, h3, h4, ?_, ?_, ?_, h6⟩
        · unfold SyncHalf.step
          simp only [if_neg hfull, h1]
        · simp only
          refine ⟨p, ps', w, o, i, rfl, ho, hm, by rw [ht, hx]; exact hW, hl, hneed, by rw [List.length_append]; omega, ?_⟩
          rw [← hst, ← h5]
          simp only [List.append_assoc]
        · left
          rw [← h5]
          simp only [List.length_append, List.length_cons]
          omega
        · exact fun _ => ⟨_, _, rfl⟩

/-- How much a writer has to do. -/
def Payload.cost (p : Payload) : Nat := (p.contents.getD []).length + 25

def writeCost : Option (Payload × WProc) → Nat
  | none => 0
  | some (p, .start _) => (p.contents.getD []).length + 24
  | some (_, .sending bs) => bs.length + 3
  | some (_, .flushing) => 2
  | some (_, .done _) => 1

/-- One step of a call of `write`. -/
theorem writer_step (hP : Lawful P) {kL kP : Bytes} {m : Nat}
    {d : Halves (Bytes × Bytes) SyncHalf (Outcome ProtocolError Payload)} {todo : List Payload} {rest : Bytes} {cap k : Nat}
    {p : Payload} {pc : WProc} (hwr : d.wr = some (p, pc)) (h : WriterAt P kL kP m d todo rest) :
    -- it blocks
    (d.step (syncHalf (endConn cap k) P prof) .sync (endConn cap k) P prof .writing = d ∧ cap ≤ d.run.net.1.length ∧
      ∃ b bs, pc = .sending (b :: bs)) ∨
    -- it goes on
    (∃ d' m' rest', d.step (syncHalf (endConn cap k) P prof) .sync (endConn cap k) P prof .writing = d' ∧
      WriterAt P kL kP m' d' todo rest' ∧ d'.half = d.half ∧ d'.reads = d.reads ∧ d'.run.net.2 = d.run.net.2 ∧
      d'.run.net.1 ++ rest' = d.run.net.1 ++ rest ∧
      (d'.run.net.1 = d.run.net.1 ∨ d'.run.net.1.length ≤ cap) ∧
      writeCost d'.wr < writeCost d.wr ∧
      ((d'.wrote = d.wrote ∧ ∃ pc', d'.wr = some (p, pc')) ∨ (d'.wrote = d.wrote ++ [(p, .done (.ok ()))] ∧ d'.wr = none))) := by
  obtain ⟨half, out, wr, run, reads, wrote⟩ := d
  simp only at hwr
  subst hwr
  obtain ⟨ho, htodo, hm, h⟩ := h
  cases pc with
  | start q =>
    simp only at h ho
    obtain ⟨rfl, ⟨t, c, ht, hc, hlen⟩, hb, rfl⟩ := h
    obtain ⟨o', ho', he⟩ := ho.encryptToVec (prof := prof) hP (by omega) c t none
    have hw := packet_len20 hP ho (by omega) t c
    right
    refine ⟨⟨half, o', some (q, .sending (Spec.packet P kL kP m (t == .decoy) [] c)), run, reads, wrote⟩, m + 1,
      payloadStream P kL kP m (q :: todo), ?_, ⟨ho', htodo, by omega, ?_⟩, rfl, rfl, rfl, rfl, .inl rfl, ?_,
      .inl ⟨rfl, _, rfl⟩⟩
    · simp only [Halves.step, WProc.asks, Conn.ask, WProc.step, ht, hc, he, Option.getD_none]
    · simp only [payloadStream, ht, hc, Option.getD_some]
    · simp only [writeCost, hc, Option.getD_some, hw]; omega
  | sending bs =>
    simp only at h ho
    subst h
    cases bs with
    | nil =>
      right
      refine ⟨⟨half, out, some (p, .flushing), run, reads, wrote⟩, m, _, ?_, ⟨ho, htodo, hm, rfl⟩, rfl, rfl, rfl, ?_,
        .inl rfl, by simp [writeCost], .inl ⟨rfl, _, rfl⟩⟩
      · simp only [Halves.step, WProc.asks, Conn.ask, WProc.step]
      · simp
    | cons b bs =>
      by_cases hfull : cap ≤ run.net.1.length
      · left
        refine ⟨?_, hfull, b, bs, rfl⟩
        simp only [Halves.step, WProc.asks, Conn.ask, Conn.writeRun, endConn, if_pos hfull, reduceCtorEq, if_false]
      · right
        obtain ⟨x, hx⟩ : ∃ x, x + 1 = min (k + 1) (min (cap - run.net.1.length) (b :: bs).length) := by
          refine ⟨min (k + 1) (min (cap - run.net.1.length) (b :: bs).length) - 1, ?_⟩
          rw [List.length_cons]; omega
        refine ⟨⟨half, out, some (p, .sending ((b :: bs).drop (x + 1))),
          ⟨(run.net.1 ++ (b :: bs).take (x + 1), run.net.2), run.answers, run.sent ++ (b :: bs).take (x + 1)⟩, reads, wrote⟩,
          m, (b :: bs).drop (x + 1) ++ payloadStream P kL kP m todo, ?_, ⟨ho, htodo, hm, rfl⟩, rfl, rfl, rfl, ?_, .inr ?_, ?_,
          .inl ⟨rfl, _, rfl⟩⟩
        · simp only [Halves.step, WProc.asks, Conn.ask, Conn.writeRun, endConn, if_neg hfull, reduceCtorEq, if_false, ← hx,
            WProc.step]
        · simp only [List.append_assoc]
          rw [← List.append_assoc ((b :: bs).take _), List.take_append_drop]
        · simp only [List.length_append, List.length_take]; omega
        · simp only [writeCost, List.length_drop, List.length_cons]; omega
  | flushing =>
    simp only at h ho
    right
    refine ⟨⟨half, out, some (p, .done (.ok ())), run, reads, wrote⟩, m, _, ?_, ⟨ho, htodo, hm, rfl, h⟩, rfl, rfl, rfl, rfl,
        .inl rfl, by simp [writeCost], .inl ⟨rfl, _, rfl⟩⟩
    simp only [Halves.step, WProc.asks, Conn.ask, Conn.flushRun, endConn, WProc.step, Sink.flush]
  | done r =>
    simp only at h ho
    obtain ⟨rfl, rfl⟩ := h
    right
    refine ⟨⟨half, out, none, run, reads, wrote ++ [(p, .done (.ok ()))]⟩, m, _, rfl, ⟨ho, htodo, hm, rfl⟩, rfl, rfl, rfl, rfl,
        .inl rfl, by simp [writeCost], .inr ⟨rfl, rfl⟩⟩

/-! ## A direction -/

def readCost (left : Nat) : ReadPc → Nat
  | .idle => 4 * left
  | .length _ => 4 * left + 3
  | .packet _ _ => 4 * left + 2

/-- The direction from `w` to `r`: `ws` is all that `w` writes, `ps` all that `r` reads, from number `j` on, and `n` bounds
what is left to be done. -/
def Lane (P : Prims) (prof : Profile) (kL kP : Bytes) (ws ps : List Payload) (j : Nat) (w r : LinkEnd) (n : Nat) : Prop :=
  ∃ m rest done got left, WriterAt P kL kP m w.halves w.todo rest ∧
    w.halves.wrote = done.map (fun p => (p, .done (.ok ()))) ∧ ws = done ++ (w.halves.wr.map (·.1)).toList ++ w.todo ∧
    ps = got ++ left ∧ r.halves.reads = got.map (fun p => .ok p.received) ∧
    ReaderAt P prof kL kP (j + got.length) r.halves.half left (r.halves.half.held ++ w.halves.run.net.1 ++ rest) ∧
    r.left + (if r.halves.half.pc = .idle then 0 else 1) = left.length ∧
    (∀ p ∈ ps, p.Readable) ∧ j + ps.length < 2 ^ 32 ∧
    n = (w.todo.map Payload.cost).sum + writeCost w.halves.wr + (r.halves.half.held ++ w.halves.run.net.1 ++ rest).length +
      readCost r.left r.halves.half.pc

/-- Only some of the fields matter. -/
theorem Lane.congr {kL kP : Bytes} {ws ps : List Payload} {j n : Nat} {w r w' r' : LinkEnd} (h : Lane P prof kL kP ws ps j w r n)
    (h1 : w'.halves.out = w.halves.out) (h2 : w'.halves.wr = w.halves.wr) (h3 : w'.halves.wrote = w.halves.wrote)
    (h4 : w'.todo = w.todo) (h5 : w'.halves.run.net.1 = w.halves.run.net.1) (h6 : r'.halves.half = r.halves.half)
    (h7 : r'.halves.reads = r.halves.reads) (h8 : r'.left = r.left) : Lane P prof kL kP ws ps j w' r' n := by
  unfold Lane WriterAt at h ⊢
  rw [h1, h2, h3, h4, h5, h6, h7, h8]
  exact h

/-- More is to be written than what follows the packet that the reader is in. -/
def Starves (P : Prims) (kL kP : Bytes) (ps : List Payload) (j : Nat) (w r : LinkEnd) : Prop :=
  ∃ m rest got left, WriterAt P kL kP m w.halves w.todo rest ∧ ps = got ++ left ∧ r.halves.reads.length = got.length ∧
    left ≠ [] ∧ (payloadStream P kL kP (j + got.length + 1) left.tail).length < rest.length

/-- What a step of one party does: nothing, because nothing is to be done or the channel does not let it, or something. -/
theorem end_step (hP : Lawful P) {kL kP kL' kP' : Bytes} {ws ps ws' ps' : List Payload} {j j' n n' : Nat} {e f : LinkEnd}
    {o : Order} {cap k : Nat} (hnet : f.halves.run.net = e.halves.run.net.swap)
    (hout : Lane P prof kL kP ws ps j e f n) (hin : Lane P prof kL' kP' ws' ps' j' f e n') (c : IoCall) :
    (e.step o cap k P prof c = e ∧ f.sees e.halves.run.net.swap = f ∧
      match c with
      | .write => (e.halves.wr = none ∧ (e.todo = [] ∨ e.may o .write = false)) ∨
          (cap ≤ e.halves.run.net.1.length ∧ ∃ p b bs, e.halves.wr = some (p, .sending (b :: bs)))
      | .read => (e.halves.half.pc = .idle ∧ (e.left = 0 ∨ e.may o .read = false)) ∨
          (e.halves.half.pc ≠ .idle ∧ e.halves.half.held ++ e.halves.run.net.2 = [] ∧
            (∀ k, e.halves.half.step (endConn cap k) P prof e.halves.run = none) ∧
            Starves P kL' kP' ps' j' f e)) ∨
    ∃ e' n₁ n₂, e.step o cap k P prof c = e' ∧ e' ≠ e ∧
      Lane P prof kL kP ws ps j e' (f.sees e'.halves.run.net.swap) n₁ ∧
      Lane P prof kL' kP' ws' ps' j' (f.sees e'.halves.run.net.swap) e' n₂ ∧ n₁ + n₂ < n + n' ∧
      (e'.halves.run.net.1 = e.halves.run.net.1 ∨ e'.halves.run.net.1.length ≤ cap) ∧
      e'.halves.run.net.2.length ≤ e.halves.run.net.2.length ∧
      match c with
      | .write => e'.halves.run.net.2 = e.halves.run.net.2 ∧ e'.halves.half = e.halves.half ∧ e'.halves.reads = e.halves.reads ∧
          e'.left = e.left ∧ (e.halves.wr = none → e.may o .write = true)
      | .read => e'.halves.run.net.1 = e.halves.run.net.1 ∧ e'.halves.wr = e.halves.wr ∧ e'.halves.wrote = e.halves.wrote ∧
          e'.todo = e.todo ∧ (e.halves.half.pc = .idle → e.may o .read = true) := by
  have hsee : f.sees e.halves.run.net.swap = f := by
    unfold LinkEnd.sees
    rw [← hnet]
  have hfn : f.halves.run.net.1 = e.halves.run.net.2 := by rw [hnet]; rfl
  cases c with
  | write =>
    cases hwr : e.halves.wr with
    | none =>
      cases htodo : e.todo with
      | nil => left; exact ⟨by simp [LinkEnd.step, hwr, htodo], hsee, .inl ⟨rfl, .inl rfl⟩⟩
      | cons p todo =>
        cases hmay : e.may o .write with
        | false => left; exact ⟨by simp [LinkEnd.step, hwr, htodo, hmay], hsee, .inl ⟨rfl, .inr rfl⟩⟩
        | true =>
          right
          obtain ⟨m, rest, done, got, left, hW, h1, h2, h3, h4, h5, h6, h7, h8, h9⟩ := hout
          obtain ⟨hA, hT, hM, hR⟩ := hW
          rw [hwr, htodo] at h2 h9
          rw [htodo] at hT hM hR
          rw [hwr] at hR
          simp only at hR
          refine ⟨⟨{ e.halves with wr := some (p, .start p) }, todo, e.left⟩, n - 1, n', ?_, ?_, ?_, ?_, ?_, .inl rfl, Nat.le_refl _,
            rfl, rfl, rfl, rfl, fun _ => rfl⟩
          · simp [LinkEnd.step, hwr, htodo, hmay, Halves.step]
          · intro h
            have := congrArg (fun x => x.halves.wr) h
            simp [hwr] at this
          · refine ⟨m, rest, done, got, left, ⟨hA, fun q hq => hT q (by simp [hq]), ?_, rfl, hT p (by simp), ?_, hR⟩, h1, ?_,
              h3, h4, h5, h6, h7, h8, ?_⟩
            · simp only [List.length_cons] at hM ⊢; omega
            · simp only [List.length_cons] at hM ⊢; omega
            · rw [h2]; simp
            · rw [h9]
              simp only [List.map_cons, List.sum_cons, writeCost, Payload.cost, LinkEnd.sees]
              omega
          · exact hin.congr rfl rfl rfl rfl hfn.symm rfl rfl rfl
          · simp only [List.map_cons, List.sum_cons, writeCost, Payload.cost] at h9
            omega
    | some x =>
      obtain ⟨p, pc⟩ := x
      obtain ⟨m, rest, done, got, left, hW, h1, h2, h3, h4, h5, h6, h7, h8, h9⟩ := hout
      rcases writer_step (prof := prof) (cap := cap) (k := k) hP hwr hW with ⟨g1, g2, b, bs, rfl⟩ |
        ⟨d', m', rest', g1, g2, g3, g4, g5, g6, g7, g8, g9⟩
      · left
        refine ⟨?_, hsee, .inr ⟨g2, p, b, bs, rfl⟩⟩
        simp only [LinkEnd.step, hwr, g1]
      · right
        have hlen := congrArg List.length g6
        simp only [List.length_append] at hlen
        refine ⟨{ e with halves := d' }, n - (writeCost e.halves.wr - writeCost d'.wr), n', ?_, ?_, ?_, ?_, ?_, g7, ?_, g5, g3, g4, rfl, ?_⟩
        · simp only [LinkEnd.step, hwr, g1]
        · intro h
          have := congrArg (fun x => x.halves.wr) h
          simp only at this
          rw [this] at g8
          exact absurd g8 (Nat.lt_irrefl _)
        · rcases g9 with ⟨i1, pc', i2⟩ | ⟨i1, i2⟩
          · refine ⟨m', rest', done, got, left, g2, by simp only [i1, h1], ?_, h3, h4, ?_, h6, h7, h8, ?_⟩
            · rw [h2, hwr]; simp only [i2]; rfl
            · simp only [LinkEnd.sees]
              rw [List.append_assoc, g6, ← List.append_assoc]; exact h5
            · rw [h9]
              simp only [List.length_append, LinkEnd.sees]
              omega
          · refine ⟨m', rest', done ++ [p], got, left, g2, by simp only [i1, h1, List.map_append, List.map_cons, List.map_nil], ?_, h3, h4, ?_, h6, h7, h8, ?_⟩
            · rw [h2, hwr]; simp only [i2]; simp
            · simp only [LinkEnd.sees]
              rw [List.append_assoc, g6, ← List.append_assoc]; exact h5
            · rw [h9]
              simp only [List.length_append, LinkEnd.sees]
              omega
        · exact hin.congr rfl rfl rfl rfl (by simp only [LinkEnd.sees, Prod.fst_swap]; rw [g5, hfn]) g3 g4 rfl
        · omega
        · exact Nat.le_of_eq (by rw [g5])
        · intro h; cases h
  | read =>
    by_cases hpc : e.halves.half.pc = .idle
    · cases hleft : e.left with
      | zero => left; exact ⟨by simp [LinkEnd.step, hpc, hleft], hsee, .inl ⟨hpc, .inl rfl⟩⟩
      | succ l =>
        cases hmay : e.may o .read with
        | false => left; exact ⟨by simp [LinkEnd.step, hpc, hleft, hmay], hsee, .inl ⟨hpc, .inr rfl⟩⟩
        | true =>
          right
          obtain ⟨m, rest, done, got, left, hW, h1, h2, h3, h4, h5, h6, h7, h8, h9⟩ := hin
          have hhalf : e.halves.half = ⟨e.halves.half.cipher, e.halves.half.sess, .idle⟩ := by rw [← hpc]
          rw [hhalf] at h5 h6 h9
          simp only [ReaderAt, SyncHalf.held, hleft, if_true] at h5 h6 h9
          obtain ⟨ob, i1, i2, i3⟩ := h5
          refine ⟨⟨{ e.halves with half := ⟨e.halves.half.cipher, e.halves.half.sess, .length []⟩ }, e.todo, l⟩, n, n' - 1, ?_, ?_,
            ?_, ?_, ?_, .inl rfl, Nat.le_refl _, rfl, rfl, rfl, rfl, fun _ => rfl⟩
          · simp [LinkEnd.step, hpc, hleft, hmay, Halves.step, syncHalf]
          · intro h
            have := congrArg (fun x => x.halves.half.pc) h
            simp only [hpc] at this
            cases this
          · exact hout.congr rfl rfl rfl rfl rfl rfl rfl rfl
          · refine ⟨m, rest, done, got, left, hW, h1, h2, h3, h4, ?_, ?_, h7, h8, ?_⟩
            · refine ⟨?_, ob, i1, i2, by simp, ?_⟩
              · rintro rfl; simp at h6
              · simp only [SyncHalf.held, LinkEnd.sees, Prod.fst_swap, List.nil_append]
                rw [← hfn]; exact i3
            · simp only [reduceCtorEq, if_false]; omega
            · rw [h9, hfn]
              simp only [LinkEnd.sees, SyncHalf.held, readCost, Prod.fst_swap]
              omega
          · simp only [readCost] at h9
            omega
    · obtain ⟨m, rest, done, got, left, hW, h1, h2, h3, h4, h5, h6, h7, h8, h9⟩ := hin
      rw [hfn] at h5 h9
      rcases reader_step (cap := cap) (k := k) hP hpc (fun p hp => h7 p (by rw [h3]; simp [hp])) (by rw [h3, List.length_append] at h8; omega) h5 with
        ⟨g1, g2, g3⟩ | ⟨h', r', g1, g2, g3, g4, g5, g6, g7, g10⟩ | ⟨h', p, ps'', rfl, g1, g2, g3, g4⟩
      · left
        refine ⟨?_, hsee, .inr ⟨hpc, g2, g1, m, rest, got, left, hW, h3, by rw [h4, List.length_map], ?_, g3⟩⟩
        · simp only [LinkEnd.step, if_neg hpc, Halves.step, syncHalf, g1]
        · rintro rfl
          rw [if_neg hpc] at h6
          simp at h6
      · right
        have hcost : (h'.held ++ r'.net.2).length + readCost e.left h'.pc <
            (e.halves.half.held ++ e.halves.run.net.2).length + readCost e.left e.halves.half.pc := by
          rcases g6 with g6 | ⟨g6, ⟨acc, g8⟩, need, acc', g9⟩
          · cases hq : e.halves.half.pc with
            | idle => exact absurd hq hpc
            | length acc =>
              cases hq' : h'.pc <;> simp only [readCost] <;> omega
            | packet nd acc =>
              obtain ⟨nd', acc', hq'⟩ := g7 ⟨nd, acc, hq⟩
              rw [hq']
              simp only [readCost]; omega
          · rw [g6, g8, g9]; simp only [readCost]; omega
        refine ⟨{ e with halves := { e.halves with half := h', run := r' } }, n,
          (f.todo.map Payload.cost).sum + writeCost f.halves.wr + (h'.held ++ r'.net.2 ++ rest).length + readCost e.left h'.pc,
          ?_, ?_, ?_, ?_, ?_, .inl g3, g10, g3, rfl, rfl, rfl, fun h => absurd h hpc⟩
        · simp only [LinkEnd.step, if_neg hpc, Halves.step, syncHalf, g1]
        · intro h
          have := congrArg (fun x => (x.halves.half.held ++ x.halves.run.net.2).length + readCost x.left x.halves.half.pc) h
          simp only at this
          omega
        · exact hout.congr rfl rfl rfl rfl g3 rfl rfl rfl
        · refine ⟨m, rest, done, got, left, hW, h1, h2, h3, h4, g5, ?_, h7, h8, rfl⟩
          rw [if_neg hpc] at h6
          simp only [if_neg g2]
          exact h6
        · rw [h9]
          simp only [List.length_append] at hcost ⊢
          omega
      · right
        refine ⟨{ e with halves := { e.halves with half := h', reads := e.halves.reads ++ [.ok p.received] } }, n,
          (f.todo.map Payload.cost).sum + writeCost f.halves.wr + (h'.held ++ e.halves.run.net.2 ++ rest).length + readCost e.left h'.pc,
          ?_, ?_, ?_, ?_, ?_, .inl rfl, Nat.le_refl _, rfl, rfl, rfl, rfl, fun h => absurd h hpc⟩
        · simp only [LinkEnd.step, if_neg hpc, Halves.step, syncHalf, g1]
        · intro h
          have := congrArg (fun x => x.halves.half.pc) h
          simp only [g2] at this
          exact hpc this.symm
        · exact hout.congr rfl rfl rfl rfl rfl rfl rfl rfl
        · refine ⟨m, rest, done, got ++ [p], ps'', hW, h1, h2, by rw [h3]; simp, ?_, ?_, ?_, h7, h8, rfl⟩
          · simp only [h4, List.map_append, List.map_cons, List.map_nil]
          · rw [List.length_append, List.length_singleton, ← Nat.add_assoc]
            exact g4
          · rw [if_neg hpc, List.length_cons] at h6
            simp only [if_pos g2]
            omega
        · rw [h9, g2, g3]
          cases hq : e.halves.half.pc with
          | idle => exact absurd hq hpc
          | length acc => simp only [readCost]; omega
          | packet a b => simp only [readCost]; omega

/-! ## Sizes -/

theorem spec_packet_length (hP : Lawful P) (kL kP : Bytes) (n : Nat) (ig : Bool) (aad c : Bytes) :
    (Spec.packet P kL kP n ig aad c).length = c.length + 20 := by
  have : Spec.packet P kL kP n ig aad c = Spec.rawPacket P kL kP n (if ig then 0x80 else 0) aad c := rfl
  rw [this]
  exact rawPacket_length hP _ _ _ _ _ _

theorem payloadStream_length (hP : Lawful P) (kL kP : Bytes) (n : Nat) (ps : List Payload) :
    (payloadStream P kL kP n ps).length = wireSize ps := by
  induction ps generalizing n with
  | nil => rfl
  | cons p ps ih =>
    simp only [payloadStream, List.length_append, spec_packet_length hP, ih, wireSize, List.map_cons, List.sum_cons]

theorem wireSize_append (a b : List Payload) : wireSize (a ++ b) = wireSize a + wireSize b := by
  simp [wireSize]

theorem wireSize_drop_le (ps : List Payload) (n : Nat) : wireSize (ps.drop n) ≤ wireSize ps := by
  have h := wireSize_append (ps.take n) (ps.drop n)
  rw [List.take_append_drop] at h
  omega

theorem payloadStream_append (kL kP : Bytes) (n : Nat) (a b : List Payload) :
    payloadStream P kL kP n (a ++ b) = payloadStream P kL kP n a ++ payloadStream P kL kP (n + a.length) b := by
  induction a generalizing n with
  | nil => rfl
  | cons p ps ih =>
    simp only [List.cons_append, payloadStream, ih, List.append_assoc, List.length_cons]
    rw [show n + 1 + ps.length = n + (ps.length + 1) by omega]

/-- What is on the way is part of what is to be read. -/
theorem ReaderAt.size (hP : Lawful P) {kL kP : Bytes} {j : Nat} {h : SyncHalf} {ps : List Payload} {avail : Bytes}
    (hr : ReaderAt P prof kL kP j h ps avail) : avail.length ≤ wireSize ps := by
  unfold ReaderAt at hr
  split at hr
  · obtain ⟨_, -, -, rfl⟩ := hr
    exact Nat.le_of_eq (payloadStream_length hP _ _ _ _)
  · obtain ⟨-, _, -, -, -, h1⟩ := hr
    have := congrArg List.length h1
    rw [List.length_append, payloadStream_length hP] at this
    omega
  · obtain ⟨p, ps', w, _, _, rfl, -, -, rfl, -, -, -, h1⟩ := hr
    have := congrArg List.length h1
    rw [List.length_append, List.length_append, payloadStream_length hP, List.length_drop, spec_packet_length hP] at this
    simp only [wireSize, List.map_cons, List.sum_cons] at this ⊢
    omega

/-- A writer in the middle of a packet: the reader has not got beyond it. -/
theorem Lane.sending (hP : Lawful P) {kL kP : Bytes} {pre ws : List Payload} {j n : Nat} {w r : LinkEnd}
    (h : Lane P prof kL kP ws (pre ++ ws) j w r n) {p : Payload} {b : UInt8} {bs : Bytes}
    (hwr : w.halves.wr = some (p, .sending (b :: bs))) : r.halves.reads.length ≤ pre.length + w.halves.wrote.length := by
  obtain ⟨m, rest, done, got, left, ⟨-, -, -, hW⟩, h1, h2, h3, h4, h5, -, -, -, -⟩ := h
  rw [hwr] at hW h2
  simp only at hW
  subst hW
  have hs := h5.size hP
  simp only [List.length_append, payloadStream_length hP, List.length_cons] at hs
  rw [h1, h4, List.length_map, List.length_map]
  refine Nat.le_of_not_lt fun hc => ?_
  have hl : left = (pre ++ ws).drop got.length := by rw [h3, List.drop_left]
  have : left = w.todo.drop (got.length - (pre.length + done.length + 1)) := by
    rw [hl, h2]
    have e1 : pre ++ (done ++ (Option.map (·.1) (some (p, WProc.sending (b :: bs)))).toList ++ w.todo) =
        (pre ++ done ++ [p]) ++ w.todo := by simp
    rw [e1, List.drop_append, List.drop_eq_nil_of_le (by simp; omega), List.nil_append]
    simp only [List.length_append, List.length_singleton]
  rw [this] at hs
  have := wireSize_drop_le w.todo (got.length - (pre.length + done.length + 1))
  omega

/-- A reader that has nothing while no write is in progress has got all that was written. -/
theorem Lane.starved (hP : Lawful P) {kL kP : Bytes} {pre ws : List Payload} {j n : Nat} {w r : LinkEnd}
    (h : Lane P prof kL kP ws (pre ++ ws) j w r n) (hwr : w.halves.wr = none)
    (hb : Starves P kL kP (pre ++ ws) j w r) :
    pre.length + w.halves.wrote.length ≤ r.halves.reads.length := by
  obtain ⟨-, -, done, -, -, -, h1, h2, -, -, -, -, -, -, -⟩ := h
  obtain ⟨m, rest, got, left, ⟨-, -, -, hW⟩, g1, g2, g3, g4⟩ := hb
  rw [hwr] at hW h2
  simp only at hW
  subst hW
  rw [payloadStream_length hP, payloadStream_length hP] at g4
  rw [h1, g2, List.length_map]
  refine Nat.le_of_not_lt fun hc => ?_
  have e1 : left.tail = (pre ++ ws).drop (got.length + 1) := by
    rw [g1, ← List.drop_drop, List.drop_left, List.drop_one]
  have e2 : pre ++ ws = (pre ++ done) ++ w.todo := by rw [h2]; simp
  rw [e1, e2, List.drop_append_of_le_length (by simp; omega), wireSize_append] at g4
  omega

/-- How many calls are left. -/
theorem Lane.counts {kL kP : Bytes} {ws ps : List Payload} {j n : Nat} {w r : LinkEnd} (h : Lane P prof kL kP ws ps j w r n) :
    w.halves.wrote.length + (if w.halves.wr.isSome then 1 else 0) + w.todo.length = ws.length ∧
    r.halves.reads.length + (if r.halves.half.pc = .idle then 0 else 1) + r.left = ps.length := by
  obtain ⟨-, -, done, got, left, -, h1, h2, h3, h4, -, h6, -, -, -⟩ := h
  constructor
  · have := congrArg List.length h2
    rw [h1, List.length_map, this]
    cases w.halves.wr <;> simp <;> omega
  · rw [h4, h3, List.length_map, List.length_append]
    omega

/-! ## The order of a program -/

/-- What a step of the writing thread does to the calls. -/
theorem step_write_shape (o : Order) (cap k : Nat) (e : LinkEnd) :
    (e.step o cap k P prof .write).halves.half = e.halves.half ∧ (e.step o cap k P prof .write).halves.reads = e.halves.reads ∧
    (((e.step o cap k P prof .write).halves.wr.isSome = e.halves.wr.isSome ∧
        (e.step o cap k P prof .write).halves.wrote = e.halves.wrote) ∨
      (e.may o .write = true ∧ e.halves.wr = none ∧ (e.step o cap k P prof .write).halves.wr.isSome = true ∧
        (e.step o cap k P prof .write).halves.wrote = e.halves.wrote) ∨
      (e.halves.wr.isSome = true ∧ (e.step o cap k P prof .write).halves.wr = none ∧
        (e.step o cap k P prof .write).halves.wrote.length = e.halves.wrote.length + 1)) := by
  cases hwr : e.halves.wr with
  | some x =>
    obtain ⟨p, pc⟩ := x
    have e1 : e.step o cap k P prof .write =
        { e with halves := e.halves.step (syncHalf (endConn cap k) P prof) .sync (endConn cap k) P prof .writing } := by
      simp only [LinkEnd.step, hwr]
    rw [e1]
    simp only [Halves.step, hwr]
    split
    · rename_i h; cases h
    · rename_i h; cases h
      simp
    · rename_i p' pc' _ h
      cases h
      split
      · simp [hwr]
      · simp
  | none =>
    cases htodo : e.todo with
    | nil => simp [LinkEnd.step, hwr, htodo]
    | cons p ps =>
      cases hmay : e.may o .write with
      | true => simp [LinkEnd.step, hwr, htodo, hmay, Halves.step]
      | false => simp [LinkEnd.step, hwr, htodo, hmay]

/-- A call of `read` has returned if and only if it is no longer in progress. -/
theorem SyncHalf.step_pc {N : Conn (Bytes × Bytes)} {h h' : SyncHalf} {r r' : ConnRun (Bytes × Bytes)}
    {x : Option (Outcome ProtocolError Payload)} (e : h.step N P prof r = some (h', r', x)) :
    h'.pc = .idle ↔ x.isSome = true := by
  unfold SyncHalf.step at e
  repeat' split at e
  all_goals first
    | (cases e; done)
    | (cases e; simp; done)

/-- What a step of the reading thread does to the calls. -/
theorem step_read_shape (o : Order) (cap k : Nat) (e : LinkEnd) :
    (e.step o cap k P prof .read).halves.wr = e.halves.wr ∧ (e.step o cap k P prof .read).halves.wrote = e.halves.wrote ∧
    ((((e.step o cap k P prof .read).halves.half.pc = .idle ↔ e.halves.half.pc = .idle) ∧
        (e.step o cap k P prof .read).halves.reads = e.halves.reads) ∨
      (e.may o .read = true ∧ e.halves.half.pc = .idle ∧ (e.step o cap k P prof .read).halves.half.pc ≠ .idle ∧
        (e.step o cap k P prof .read).halves.reads = e.halves.reads) ∨
      (e.halves.half.pc ≠ .idle ∧ (e.step o cap k P prof .read).halves.half.pc = .idle ∧
        (e.step o cap k P prof .read).halves.reads.length = e.halves.reads.length + 1)) := by
  by_cases hpc : e.halves.half.pc = .idle
  · cases hleft : e.left with
    | zero => simp [LinkEnd.step, hpc, hleft]
    | succ n =>
      cases hmay : e.may o .read with
      | true => simp [LinkEnd.step, hpc, hleft, hmay, Halves.step, syncHalf]
      | false => simp [LinkEnd.step, hpc, hleft, hmay]
  · have e1 : e.step o cap k P prof .read =
        { e with halves := e.halves.step (syncHalf (endConn cap k) P prof) .sync (endConn cap k) P prof .reading } := by
      simp only [LinkEnd.step, if_neg hpc]
    rw [e1]
    simp only [Halves.step]
    split
    · simp
    · rename_i h' r' hs
      have := SyncHalf.step_pc hs
      simp only [Option.isSome_none, Bool.false_eq_true, iff_false] at this
      exact ⟨rfl, rfl, .inl ⟨⟨fun h => absurd h this, fun h => absurd h hpc⟩, rfl⟩⟩
    · rename_i h' r' x hs
      have := SyncHalf.step_pc hs
      simp only [Option.isSome_some, iff_true] at this
      exact ⟨rfl, rfl, .inr (.inr ⟨hpc, this, by simp⟩)⟩

/-- A program on one thread: which call is in progress, and which calls have returned. -/
def InOrder (calls : List IoCall) (e : LinkEnd) : Prop :=
  (e.halves.wr.isSome = true → e.halves.half.pc = .idle ∧
    calls[e.halves.wrote.length + e.halves.reads.length]? = some .write) ∧
  (e.halves.half.pc ≠ .idle → e.halves.wr = none ∧
    calls[e.halves.wrote.length + e.halves.reads.length]? = some .read) ∧
  (calls.take (e.halves.wrote.length + e.halves.reads.length)).count .write = e.halves.wrote.length ∧
  (calls.take (e.halves.wrote.length + e.halves.reads.length)).count .read = e.halves.reads.length

theorem count_take_succ {calls : List IoCall} {i : Nat} {c d : IoCall} (h : calls[i]? = some c) :
    (calls.take (i + 1)).count d = (calls.take i).count d + if c = d then 1 else 0 := by
  rw [List.take_add_one, h, List.count_append]
  cases c <;> cases d <;> simp

theorem InOrder.step {calls : List IoCall} {e : LinkEnd} (h : InOrder calls e) (cap k : Nat) (c : IoCall) :
    InOrder calls (e.step (.sequence calls) cap k P prof c) := by
  obtain ⟨h1, h2, h3, h4⟩ := h
  cases c with
  | write =>
    obtain ⟨g1, g2, g3⟩ := step_write_shape (P := P) (prof := prof) (.sequence calls) cap k e
    generalize e.step (.sequence calls) cap k P prof .write = e' at g1 g2 g3
    unfold InOrder
    rw [g1, g2]
    rcases g3 with ⟨i1, i2⟩ | ⟨i1, i2, i3, i4⟩ | ⟨i1, i2, i3⟩
    · rw [i1, i2]
      refine ⟨h1, fun h => ?_, h3, h4⟩
      obtain ⟨k1, k2⟩ := h2 h
      rw [k1] at i1
      exact ⟨by simpa using i1, k2⟩
    · rw [i4]
      simp only [LinkEnd.may, Order.sequence, Bool.and_eq_true, Bool.not_eq_true', bne_eq_false_iff_eq, beq_iff_eq] at i1
      exact ⟨fun _ => ⟨i1.1.2, i1.2⟩, fun h => absurd i1.1.2 h, h3, h4⟩
    · obtain ⟨k1, k2⟩ := h1 i1
      rw [i2, i3]
      refine ⟨fun h => by simp at h, fun h => absurd k1 h, ?_, ?_⟩
      · rw [show e.halves.wrote.length + 1 + e.halves.reads.length = e.halves.wrote.length + e.halves.reads.length + 1 by omega,
          count_take_succ k2, h3, if_pos rfl]
      · rw [show e.halves.wrote.length + 1 + e.halves.reads.length = e.halves.wrote.length + e.halves.reads.length + 1 by omega,
          count_take_succ k2, h4, if_neg (by decide)]
        rfl
  | read =>
    obtain ⟨g1, g2, g3⟩ := step_read_shape (P := P) (prof := prof) (.sequence calls) cap k e
    generalize e.step (.sequence calls) cap k P prof .read = e' at g1 g2 g3
    unfold InOrder
    rw [g1, g2]
    rcases g3 with ⟨i1, i2⟩ | ⟨i1, i2, i3, i4⟩ | ⟨i1, i2, i3⟩
    · rw [i2]
      exact ⟨fun h => ⟨i1.2 (h1 h).1, (h1 h).2⟩, fun h => h2 fun h' => h (i1.2 h'), h3, h4⟩
    · rw [i4]
      simp only [LinkEnd.may, Order.sequence, Bool.and_eq_true, Bool.not_eq_true', bne_eq_false_iff_eq, beq_iff_eq] at i1
      have hn : e.halves.wr = none := by simpa using i1.1.1
      exact ⟨fun h => by simp [hn] at h, fun _ => ⟨hn, i1.2⟩, h3, h4⟩
    · obtain ⟨k1, k2⟩ := h2 i1
      rw [i3]
      refine ⟨fun h => by simp [k1] at h, fun h => absurd i2 h, ?_, ?_⟩
      · rw [← Nat.add_assoc, count_take_succ k2, h3, if_neg (by decide)]
        rfl
      · rw [← Nat.add_assoc, count_take_succ k2, h4, if_pos rfl]

theorem InOrder.sees {calls : List IoCall} {e : LinkEnd} (h : InOrder calls e) (s : Bytes × Bytes) : InOrder calls (e.sees s) := h

theorem LinkEnd.may_sees (o : Order) (e : LinkEnd) (s : Bytes × Bytes) (c : IoCall) : (e.sees s).may o c = e.may o c := rfl

/-! ## A party that can do nothing -/

/-- A program on one thread that can do nothing has ended, or is in a write with a full channel, or in a read with
nothing to read. -/
theorem InOrder.blocked {calls : List IoCall} {e : LinkEnd} {cap : Nat} (h : InOrder calls e)
    (hw : calls.count .write = e.halves.wrote.length + (if e.halves.wr.isSome then 1 else 0) + e.todo.length)
    (hr : calls.count .read = e.halves.reads.length + (if e.halves.half.pc = .idle then 0 else 1) + e.left)
    {Q : Prop}
    (hbw : (e.halves.wr = none ∧ (e.todo = [] ∨ e.may (.sequence calls) .write = false)) ∨
      (cap ≤ e.halves.run.net.1.length ∧ ∃ p b bs, e.halves.wr = some (p, .sending (b :: bs))))
    (hbr : (e.halves.half.pc = .idle ∧ (e.left = 0 ∨ e.may (.sequence calls) .read = false)) ∨
      (e.halves.half.pc ≠ .idle ∧ e.halves.half.held ++ e.halves.run.net.2 = [] ∧ Q)) :
    (e.halves.wr = none ∧ e.todo = [] ∧ e.halves.half.pc = .idle ∧ e.left = 0) ∨
    (cap ≤ e.halves.run.net.1.length ∧ (∃ p b bs, e.halves.wr = some (p, .sending (b :: bs))) ∧
      calls[e.halves.wrote.length + e.halves.reads.length]? = some .write) ∨
    (e.halves.half.pc ≠ .idle ∧ e.halves.wr = none ∧ e.halves.half.held ++ e.halves.run.net.2 = [] ∧ Q ∧
      calls[e.halves.wrote.length + e.halves.reads.length]? = some .read) := by
  obtain ⟨h1, h2, h3, h4⟩ := h
  rcases hbw with ⟨i1, i2⟩ | ⟨i1, p, b, bs, i2⟩
  · rcases hbr with ⟨j1, j2⟩ | ⟨j1, j2, j3⟩
    · left
      rw [i1] at hw
      rw [if_pos j1] at hr
      simp only [Option.isSome_none, Bool.false_eq_true, if_false, Nat.add_zero] at hw hr
      cases hc : calls[e.halves.wrote.length + e.halves.reads.length]? with
      | none =>
        rw [List.take_of_length_le (List.getElem?_eq_none_iff.1 hc)] at h3 h4
        exact ⟨i1, List.length_eq_zero_iff.1 (by omega), j1, by omega⟩
      | some c =>
        exfalso
        have hlt : ∀ d, (calls.take (e.halves.wrote.length + e.halves.reads.length + 1)).count d ≤ calls.count d :=
          fun d => (List.take_sublist _ _).count_le d
        cases c with
        | write =>
          have := hlt .write
          rw [count_take_succ hc, h3, if_pos rfl] at this
          rcases i2 with i2 | i2
          · rw [i2, List.length_nil] at hw; omega
          · simp [LinkEnd.may, Order.sequence, i1, j1, hc] at i2
        | read =>
          have := hlt .read
          rw [count_take_succ hc, h4, if_pos rfl] at this
          rcases j2 with j2 | j2
          · omega
          · simp [LinkEnd.may, Order.sequence, i1, j1, hc] at j2
    · right; right
      exact ⟨j1, i1, j2, j3, (h2 j1).2⟩
  · right; left
    exact ⟨i1, ⟨p, b, bs, i2⟩, (h1 (by rw [i2]; rfl)).2⟩

/-- Two threads that can do nothing. -/
theorem split_blocked {e : LinkEnd} {cap : Nat} {Q : Prop}
    (hbw : (e.halves.wr = none ∧ (e.todo = [] ∨ e.may .split .write = false)) ∨
      (cap ≤ e.halves.run.net.1.length ∧ ∃ p b bs, e.halves.wr = some (p, .sending (b :: bs))))
    (hbr : (e.halves.half.pc = .idle ∧ (e.left = 0 ∨ e.may .split .read = false)) ∨
      (e.halves.half.pc ≠ .idle ∧ e.halves.half.held ++ e.halves.run.net.2 = [] ∧ Q)) :
    ((e.halves.wr = none ∧ e.todo = []) ∨
      (cap ≤ e.halves.run.net.1.length ∧ ∃ p b bs, e.halves.wr = some (p, .sending (b :: bs)))) ∧
    ((e.halves.half.pc = .idle ∧ e.left = 0) ∨
      (e.halves.half.pc ≠ .idle ∧ e.halves.half.held ++ e.halves.run.net.2 = [] ∧ Q)) := by
  have hs : ∀ c, e.may .split c = true := fun _ => rfl
  simpa [hs] using And.intro hbw hbr

/-! ## Pairs that exclude each other -/

/-- A channel is not full and empty. -/
theorem not_full_empty {cap : Nat} {w r : LinkEnd} (hnet : r.halves.run.net = w.halves.run.net.swap) (hc : 0 < cap)
    (h1 : cap ≤ w.halves.run.net.1.length) (h2 : r.halves.half.held ++ r.halves.run.net.2 = []) : False := by
  rw [hnet] at h2
  have : w.halves.run.net.1 = [] := (List.append_eq_nil_iff.1 h2).2
  rw [this, List.length_nil] at h1
  omega

/-- A reader that has read everything does not leave a writer with something to send. -/
theorem Lane.not_sending (hP : Lawful P) {kL kP : Bytes} {pre ws : List Payload} {j n : Nat} {w r : LinkEnd}
    (h : Lane P prof kL kP ws (pre ++ ws) j w r n) {p : Payload} {b : UInt8} {bs : Bytes}
    (hwr : w.halves.wr = some (p, .sending (b :: bs))) (h1 : r.halves.half.pc = .idle) (h2 : r.left = 0) : False := by
  obtain ⟨c1, c2⟩ := h.counts
  have := h.sending hP hwr
  rw [h1, h2, List.length_append] at c2
  rw [hwr] at c1
  simp only [Option.isSome_some, if_true] at c1 c2
  omega

/-- A writer that has written everything does not leave a reader with nothing to read. -/
theorem Lane.not_starved (hP : Lawful P) {kL kP : Bytes} {pre ws : List Payload} {j n : Nat} {w r : LinkEnd}
    (h : Lane P prof kL kP ws (pre ++ ws) j w r n) (hwr : w.halves.wr = none) (h1 : w.todo = [])
    (h2 : r.halves.half.pc ≠ .idle) (hb : Starves P kL kP (pre ++ ws) j w r) : False := by
  obtain ⟨c1, c2⟩ := h.counts
  have := h.starved hP hwr hb
  rw [if_neg h2, List.length_append] at c2
  rw [hwr, h1] at c1
  simp only [Option.isSome_none, Bool.false_eq_true, if_false, List.length_nil] at c1
  omega

/-- All is done. -/
theorem Lane.finished (hP : Lawful P) {kL kP : Bytes} {ws ps : List Payload} {j n : Nat} {w r : LinkEnd}
    (h : Lane P prof kL kP ws ps j w r n) (h1 : w.halves.wr = none) (h2 : w.todo = []) (h3 : r.halves.half.pc = .idle)
    (h4 : r.left = 0) :
    w.halves.wrote = ws.map (fun p => (p, .done (.ok ()))) ∧ r.halves.reads = ps.map (fun p => .ok p.received) ∧
    r.halves.half.held ++ w.halves.run.net.1 = [] := by
  obtain ⟨m, rest, done, got, left, ⟨-, -, -, hW⟩, g1, g2, g3, g4, g5, g6, -, -, -⟩ := h
  rw [h1, h2] at g2 hW
  rw [h3, h4] at g6
  have hl : left = [] := List.length_eq_zero_iff.1 (by simpa using g6.symm)
  subst hl
  refine ⟨?_, ?_, ?_⟩
  · rw [g1, g2]; simp
  · rw [g4, g3]; simp
  · have := g5.size hP
    simp only [wireSize, List.map_nil, List.sum_nil, List.length_append] at this
    exact List.length_eq_zero_iff.1 (by rw [List.length_append]; omega)

/-- A party that can do nothing, and why. -/
theorem end_stuck (hP : Lawful P) {kL kP kL' kP' : Bytes} {ws ps ws' ps' : List Payload} {j j' n n' : Nat} {e f : LinkEnd}
    {o : Order} {cap : Nat} (hnet : f.halves.run.net = e.halves.run.net.swap)
    (hout : Lane P prof kL kP ws ps j e f n) (hin : Lane P prof kL' kP' ws' ps' j' f e n')
    (hs : ∀ c, e.step o cap 0 P prof c = e) :
    ((e.halves.wr = none ∧ (e.todo = [] ∨ e.may o .write = false)) ∨
      (cap ≤ e.halves.run.net.1.length ∧ ∃ p b bs, e.halves.wr = some (p, .sending (b :: bs)))) ∧
    ((e.halves.half.pc = .idle ∧ (e.left = 0 ∨ e.may o .read = false)) ∨
      (e.halves.half.pc ≠ .idle ∧ e.halves.half.held ++ e.halves.run.net.2 = [] ∧ Starves P kL' kP' ps' j' f e)) := by
  constructor
  · rcases end_step (o := o) (cap := cap) (k := 0) hP hnet hout hin .write with ⟨-, -, h⟩ | ⟨e', _, _, h1, h2, -⟩
    · exact h
    · exact absurd (h1 ▸ hs .write) h2
  · rcases end_step (o := o) (cap := cap) (k := 0) hP hnet hout hin .read with ⟨-, -, h⟩ | ⟨e', _, _, h1, h2, -⟩
    · rcases h with h | ⟨i1, i2, -, i3⟩
      · exact .inl h
      · exact .inr ⟨i1, i2, i3⟩
    · exact absurd (h1 ▸ hs .read) h2

/-- Whether a thread can do something does not depend on how many bytes the system would move. -/
theorem step_any (hP : Lawful P) {kL kP kL' kP' : Bytes} {ws ps ws' ps' : List Payload} {j j' n n' : Nat} {e f : LinkEnd}
    {o : Order} {cap : Nat} (hnet : f.halves.run.net = e.halves.run.net.swap)
    (hout : Lane P prof kL kP ws ps j e f n) (hin : Lane P prof kL' kP' ws' ps' j' f e n') {c : IoCall} {k : Nat}
    (hs : e.step o cap k P prof c = e) (k' : Nat) : e.step o cap k' P prof c = e := by
  rcases end_step (o := o) (cap := cap) (k := k) hP hnet hout hin c with ⟨-, -, h⟩ | ⟨e', _, _, h1, h2, -⟩
  · cases c with
    | write =>
      rcases h with ⟨i1, i2 | i2⟩ | ⟨i1, p, b, bs, i2⟩
      · simp [LinkEnd.step, i1, i2]
      · cases ht : e.todo <;> simp [LinkEnd.step, i1, i2, ht]
      · have : e.halves.step (syncHalf (endConn cap k') P prof) .sync (endConn cap k') P prof .writing = e.halves := by
          simp only [Halves.step, i2, WProc.asks, Conn.ask, Conn.writeRun, endConn, if_pos i1, reduceCtorEq, if_false]
        simp only [LinkEnd.step, i2, this]
    | read =>
      rcases h with ⟨i1, i2 | i2⟩ | ⟨i1, -, i3, -⟩
      · simp [LinkEnd.step, i1, i2]
      · cases ht : e.left <;> simp [LinkEnd.step, i1, i2, ht]
      · simp only [LinkEnd.step, if_neg i1, Halves.step, syncHalf, i3]
  · exact absurd (h1 ▸ hs) h2

end Bip324
