import Verif.Model.PollWriter
import Verif.Props.CancelWrite
import Verif.Props.BufWriter

/-!
# Writing poll by poll, and cancelling over a `BufWriter`: C85

`ProtocolWriter::write` (protocol/src/futures.rs:477-492) returns a future.  `Props/CancelWrite.lean` (C50) follows it over a fixed
script; here it is polled over any transport, and dropped after any number of polls.

* `C85_one`: over any transport, a call that was polled at all has used its packet number, and exactly the beginning of its packet has
  been taken; all of it when the call was at or past its flush.
* `C85_driven`: polls until the end are the `.await` of the other files, so that the two models of the call agree.
* `C85_room`: over a `tokio::io::BufWriter` with room for the packet, one poll is enough: however often the call is polled after that,
  its whole packet stays in the buffer or leaves in order.
* `C85_history`, `C85_delivered`: any number of calls, each dropped at any moment.  What has left plus what is held are the packets of the
  calls that were polled; once the last call ends well the peer reads all of them.  `C85_room_total` is a bound that implies room.
* `C85_counterexample`: without the buffer, or without room, one dropped call makes everything after it unreadable.
-/

namespace Bip324

variable {P : Prims} {prof : Profile} {σ : Type}

/-! ## Any transport -/

/-- After the encryption of the packet `pkt`, with the transport's `sent` before the call. -/
def FutAfter (pkt sent : Bytes) (o : OutboundCipher) (s : (OutboundCipher × SinkRun σ) × WProc) : Prop :=
  s.1.1 = o ∧ ∃ piece, s.1.2.sent = sent ++ piece ∧
    match s.2 with
    | .start _ => False
    | .sending rest => pkt = piece ++ rest
    | .flushing => piece = pkt
    | .done (.ok ()) => piece = pkt
    | .done (.err e) => piece <+: pkt ∧ ∃ k, e = .fromIo k
    | .done .panic => False

theorem pollWriteAll_after {N : PollSink σ} : ∀ {turns : Nat} {r r' : SinkRun σ} {rest : Bytes} {x : PollAll},
    pollWriteAll N turns r rest = (r', x) → ∃ piece, r'.sent = r.sent ++ piece ∧
      match x with
      | .pending rest' => rest = piece ++ rest'
      | .done (.ok ()) => piece = rest
      | .done (.error _) => piece <+: rest := by
  intro turns
  induction turns with
  | zero =>
    intro r r' rest x h
    cases rest <;> simp only [pollWriteAll, Prod.mk.injEq] at h <;> obtain ⟨rfl, rfl⟩ := h <;> exact ⟨[], by simp, by simp⟩
  | succ turns ih =>
    intro r r' rest x h
    cases rest with
    | nil =>
      simp only [pollWriteAll, Prod.mk.injEq] at h
      obtain ⟨rfl, rfl⟩ := h
      exact ⟨[], by simp, by simp⟩
    | cons b bs =>
      unfold pollWriteAll PollSink.writeRun at h
      cases hw : N.pollWrite r.net (b :: bs) with
      | mk s y =>
      rw [hw] at h
      cases y with
      | pending =>
        simp only [Prod.mk.injEq] at h
        obtain ⟨rfl, rfl⟩ := h
        exact ⟨[], by simp, by simp⟩
      | ready y =>
        cases y with
        | error k =>
          simp only [Prod.mk.injEq] at h
          obtain ⟨rfl, rfl⟩ := h
          exact ⟨[], by simp, by simp⟩
        | ok n =>
          cases n with
          | zero =>
            simp only [List.take_zero, List.append_nil, Prod.mk.injEq] at h
            obtain ⟨rfl, rfl⟩ := h
            exact ⟨[], by simp, by simp⟩
          | succ n =>
            simp only at h
            obtain ⟨piece, h1, h2⟩ := ih h
            refine ⟨(b :: bs).take (n + 1) ++ piece, by rw [h1, List.append_assoc], ?_⟩
            cases x with
            | pending rest' =>
              simp only at h2 ⊢
              rw [List.append_assoc, ← h2, List.take_append_drop]
            | done z =>
              cases z with
              | ok u => simp only at h2 ⊢; rw [h2, List.take_append_drop]
              | error k =>
                simp only at h2 ⊢
                obtain ⟨t, ht⟩ := h2
                exact ⟨t, by rw [List.append_assoc, ht, List.take_append_drop]⟩

theorem pollFlushing_after {N : PollSink σ} {c : OutboundCipher} {r : SinkRun σ} {pkt sent : Bytes} (h : r.sent = sent ++ pkt) :
    FutAfter pkt sent c (pollFlushing N c r) := by
  unfold pollFlushing PollSink.flushRun
  cases hf : N.pollFlush r.net with
  | mk s x =>
    cases x with
    | pending => exact ⟨rfl, pkt, h, rfl⟩
    | ready x =>
      cases x with
      | ok u => exact ⟨rfl, pkt, h, rfl⟩
      | error k => exact ⟨rfl, pkt, h, List.prefix_rfl, k, rfl⟩

theorem pollSending_after {N : PollSink σ} {c : OutboundCipher} {r : SinkRun σ} {pkt sent piece rest : Bytes}
    (h : r.sent = sent ++ piece) (hp : pkt = piece ++ rest) : FutAfter pkt sent c (pollSending N c r rest) := by
  unfold pollSending
  cases hw : pollWriteAll N rest.length r rest with
  | mk r' x =>
    obtain ⟨more, h1, h2⟩ := pollWriteAll_after hw
    rw [h, List.append_assoc] at h1
    cases x with
    | pending rest' =>
      simp only at h2 ⊢
      exact ⟨rfl, piece ++ more, h1, show pkt = (piece ++ more) ++ rest' by rw [hp, h2, List.append_assoc]⟩
    | done x =>
      cases x with
      | ok u =>
        simp only at h2 ⊢
        subst h2
        exact pollFlushing_after (by rw [h1, hp])
      | error k =>
        simp only at h2 ⊢
        obtain ⟨t, ht⟩ := h2
        exact ⟨rfl, piece ++ more, h1, ⟨t, by rw [hp, List.append_assoc, ht]⟩, k, rfl⟩

theorem FutAfter.poll {N : PollSink σ} {pkt sent : Bytes} {o : OutboundCipher} {s : (OutboundCipher × SinkRun σ) × WProc}
    (h : FutAfter pkt sent o s) : FutAfter pkt sent o (pollWriteFut N P prof s) := by
  obtain ⟨⟨c, r⟩, pc⟩ := s
  obtain ⟨rfl, piece, h1, h2⟩ := h
  cases pc with
  | start p => exact h2.elim
  | sending rest => exact pollSending_after h1 h2
  | flushing => exact pollFlushing_after (by simp only at h1 h2; rw [h1, h2])
  | done x => exact ⟨rfl, piece, h1, h2⟩

theorem FutAfter.times {N : PollSink σ} {pkt sent : Bytes} {o : OutboundCipher} (k : Nat) :
    ∀ {s : (OutboundCipher × SinkRun σ) × WProc}, FutAfter pkt sent o s → FutAfter pkt sent o (pollTimes N P prof k s) := by
  induction k with
  | zero => intro s h; exact h
  | succ k ih => intro s h; exact ih h.poll

/-- The encryption of the asynchronous `write` is that of the blocking one. -/
theorem encryptFor_ok {f : Flavour} {c o : OutboundCipher} {cs pkt : Bytes} {t : PacketType}
    (he : c.encryptToVec P prof cs t none = (o, .ok pkt)) : encryptFor f P prof c cs t = (o, .ok pkt) := by
  cases f with
  | sync => exact he
  | async =>
    unfold encryptFor
    simp only
    rw [encrypt_to_vec, he]

theorem pollWriteFut_start {N : PollSink σ} {c o : OutboundCipher} {r : SinkRun σ} {p : Payload} {t : PacketType} {cs pkt : Bytes}
    (hv : p.view = some (t, cs)) (he : c.encryptToVec P prof cs t none = (o, .ok pkt)) :
    pollWriteFut N P prof ((c, r), .start p) = pollSending N o r pkt := by
  rw [Payload.view_some] at hv
  simp only [pollWriteFut, hv.1, hv.2, encryptFor_ok he]

/-- C85: one call over any transport, dropped after `k` polls.  If it was never polled, nothing has happened; otherwise the
cipher has moved on and a prefix of the packet has been taken: all of it unless the call waits in `write_all` or failed. -/
theorem C85_one {N : PollSink σ} {c o : OutboundCipher} {r : SinkRun σ} {p : Payload} {t : PacketType} {cs pkt : Bytes}
    (hv : p.view = some (t, cs)) (he : c.encryptToVec P prof cs t none = (o, .ok pkt)) {k : Nat} {c' : OutboundCipher}
    {r' : SinkRun σ} {pc : WProc} (hs : pollTimes N P prof k ((c, r), .start p) = ((c', r'), pc)) :
    (k = 0 ∧ c' = c ∧ r' = r) ∨
    (k ≠ 0 ∧ c' = o ∧ ∃ piece, r'.sent = r.sent ++ piece ∧ piece <+: pkt ∧ (pc.AllTaken → piece = pkt) ∧
      ∀ rest, pc = .sending rest → pkt = piece ++ rest) := by
  cases k with
  | zero =>
    simp only [pollTimes, Prod.mk.injEq] at hs
    exact .inl ⟨rfl, hs.1.1.symm, hs.1.2.symm⟩
  | succ k =>
    have h : FutAfter pkt r.sent o ((c', r'), pc) := by
      rw [← hs, pollTimes, pollWriteFut_start hv he]
      exact FutAfter.times k (pollSending_after (piece := []) (by simp) (by simp))
    obtain ⟨rfl, piece, h1, h2⟩ := h
    refine .inr ⟨by omega, rfl, piece, h1, ?_⟩
    cases pc with
    | start p => exact h2.elim
    | sending rest =>
      simp only at h2
      refine ⟨⟨rest, h2.symm⟩, fun ha => ?_, fun x hx => ?_⟩
      · rw [h2, show rest = [] from ha, List.append_nil]
      · cases hx; exact h2
    | flushing => exact ⟨⟨[], by simpa using h2⟩, fun _ => h2, by simp⟩
    | done x =>
      cases x with
      | ok u => exact ⟨⟨[], by simpa using h2⟩, fun _ => h2, by simp⟩
      | err e => exact ⟨h2.1, fun ha => (by cases ha), by simp⟩
      | panic => exact h2.elim

/-! ## Over a `BufWriter` with enough room -/

/-- The contract of `AsyncWrite`: not more is taken than there is. -/
def PollSink.Sane (N : PollSink σ) : Prop := ∀ {s b s' n}, N.pollWrite s b = (s', .ready (.ok n)) → n ≤ b.length

/-- What is counted as written is in the buffer. -/
def TokioBuf.Fine (s : TokioBuf σ) : Prop := s.written ≤ s.buf.length

theorem tokioFlushBuf_left {N : PollSink σ} (hN : N.Sane) : ∀ {turns : Nat} {s s' : TokioBuf (SinkRun σ)} {x : PollDone Unit},
    s.Fine → tokioFlushBuf N.writeRun turns s = (s', x) → s'.Fine ∧ s.inner.sent <+: s'.inner.sent ∧
      s'.inner.sent ++ s'.held = s.inner.sent ++ s.held ∧ s'.buf.length ≤ s.buf.length ∧
      (x = .ready (.ok ()) → s.held.length ≤ turns → s'.buf = []) := by
  have hdr : ∀ s : TokioBuf (SinkRun σ), s.drained.Fine ∧ s.drained.held = s.held ∧ s.drained.buf.length ≤ s.buf.length := by
    intro s
    refine ⟨Nat.zero_le _, by simp [TokioBuf.held, TokioBuf.drained], ?_⟩
    simp only [TokioBuf.drained, List.length_drop]
    omega
  intro turns
  induction turns with
  | zero =>
    intro s s' x _ h
    simp only [tokioFlushBuf, Prod.mk.injEq] at h
    obtain ⟨rfl, rfl⟩ := h
    obtain ⟨a, b, c⟩ := hdr s
    exact ⟨a, List.prefix_rfl, by rw [b]; rfl, c, fun _ hl => List.eq_nil_of_length_eq_zero (Nat.le_zero.1 hl)⟩
  | succ turns ih =>
    intro s s' x hf h
    unfold tokioFlushBuf at h
    split at h
    · rename_i hlt
      unfold PollSink.writeRun at h
      cases hw : N.pollWrite s.inner.net (s.buf.drop s.written) with
      | mk i y =>
      rw [hw] at h
      cases y with
      | pending =>
        simp only [Prod.mk.injEq] at h
        obtain ⟨rfl, rfl⟩ := h
        exact ⟨hf, List.prefix_rfl, rfl, Nat.le_refl _, by simp⟩
      | ready y =>
        cases y with
        | error k =>
          simp only [Prod.mk.injEq] at h
          obtain ⟨rfl, rfl⟩ := h
          obtain ⟨a, b, c⟩ := hdr { s with inner := ⟨i, s.inner.sent⟩ }
          exact ⟨a, List.prefix_rfl, by rw [b]; rfl, c, by simp⟩
        | ok n =>
          cases n with
          | zero =>
            simp only [List.take_zero, List.append_nil, Prod.mk.injEq] at h
            obtain ⟨rfl, rfl⟩ := h
            obtain ⟨a, b, c⟩ := hdr { s with inner := ⟨i, s.inner.sent⟩ }
            exact ⟨a, List.prefix_rfl, by rw [b]; rfl, c, by simp⟩
          | succ n =>
            simp only at h
            have hn := hN hw
            simp only [List.length_drop] at hn
            obtain ⟨a, b, c, d, e⟩ := ih (by simp only [TokioBuf.Fine]; omega) h
            refine ⟨a, (List.prefix_append _ _).trans b, ?_, d, fun hx hl => e hx ?_⟩
            · rw [c]
              simp only [TokioBuf.held, List.append_assoc]
              rw [← List.drop_drop, List.take_append_drop]
            · simp only [TokioBuf.held, List.length_drop] at hl ⊢
              omega
    · rename_i hge
      simp only [Prod.mk.injEq] at h
      obtain ⟨rfl, rfl⟩ := h
      obtain ⟨a, b, c⟩ := hdr s
      refine ⟨a, List.prefix_rfl, by rw [b]; rfl, c, fun _ _ => ?_⟩
      simp only [TokioBuf.drained]
      exact List.drop_eq_nil_of_le (by omega)

/-- After a poll of a call whose packet fitted into the buffer. -/
def InBuffer (pkt : Bytes) (r : SinkRun (TokioBuf (SinkRun σ))) (o : OutboundCipher)
    (s : (OutboundCipher × SinkRun (TokioBuf (SinkRun σ))) × WProc) : Prop :=
  s.1.1 = o ∧ s.1.2.net.Fine ∧ r.net.inner.sent <+: s.1.2.net.inner.sent ∧
    s.1.2.net.inner.sent ++ s.1.2.net.held = r.net.inner.sent ++ r.net.held ++ pkt ∧
    s.1.2.net.buf.length ≤ r.net.buf.length + pkt.length ∧
    (s.2 = .flushing ∨ (s.2 = .done (.ok ()) ∧ s.1.2.net.buf = []) ∨ ∃ k, s.2 = .done (.err (.fromIo k)))

theorem pollFlushing_inBuffer {N : PollSink σ} (hN : N.Sane) {cap : Nat} {pkt : Bytes} {r r1 : SinkRun (TokioBuf (SinkRun σ))}
    {o : OutboundCipher} (hf : r1.net.Fine) (hpre : r.net.inner.sent <+: r1.net.inner.sent)
    (hall : r1.net.inner.sent ++ r1.net.held = r.net.inner.sent ++ r.net.held ++ pkt)
    (hlen : r1.net.buf.length ≤ r.net.buf.length + pkt.length) :
    InBuffer pkt r o (pollFlushing (tokioBufWriter cap N.logged) o r1) := by
  unfold pollFlushing PollSink.flushRun
  simp only [tokioBufWriter, PollSink.logged]
  cases hb : tokioFlushBuf N.writeRun r1.net.held.length r1.net with
  | mk s x =>
  obtain ⟨a, b, c, d, e⟩ := tokioFlushBuf_left hN hf hb
  cases x with
  | pending => exact ⟨rfl, a, hpre.trans b, c.trans hall, d.trans hlen, .inl rfl⟩
  | ready x =>
    cases x with
    | error k => exact ⟨rfl, a, hpre.trans b, c.trans hall, d.trans hlen, .inr (.inr ⟨k, rfl⟩)⟩
    | ok u =>
      have hs : s.buf = [] := e rfl (Nat.le_refl _)
      cases hi : N.pollFlush s.inner.net with
      | mk i y =>
      have hfl : N.flushRun s.inner = (⟨i, s.inner.sent⟩, y) := by unfold PollSink.flushRun; rw [hi]
      simp only [hfl]
      cases y with
      | pending => exact ⟨rfl, a, hpre.trans b, c.trans hall, d.trans hlen, .inl rfl⟩
      | ready y =>
        cases y with
        | error k => exact ⟨rfl, a, hpre.trans b, c.trans hall, d.trans hlen, .inr (.inr ⟨k, rfl⟩)⟩
        | ok u => exact ⟨rfl, a, hpre.trans b, c.trans hall, d.trans hlen, .inr (.inl ⟨rfl, hs⟩)⟩

theorem InBuffer.times {N : PollSink σ} (hN : N.Sane) {cap : Nat} {pkt : Bytes} {r : SinkRun (TokioBuf (SinkRun σ))}
    {o : OutboundCipher} (k : Nat) : ∀ {s}, InBuffer pkt r o s →
    InBuffer pkt r o (pollTimes (tokioBufWriter cap N.logged) P prof k s) := by
  induction k with
  | zero => intro s h; exact h
  | succ k ih =>
    intro s h
    refine ih ?_
    obtain ⟨⟨c, r1⟩, pc⟩ := s
    obtain ⟨rfl, h1, h2, h3, h4, h5⟩ := h
    rcases h5 with h5 | ⟨h5, h6⟩ | ⟨k, h5⟩ <;> simp only at h5 <;> subst h5
    · exact pollFlushing_inBuffer hN h1 h2 h3 h4
    · exact ⟨rfl, h1, h2, h3, h4, .inr (.inl ⟨rfl, h6⟩)⟩
    · exact ⟨rfl, h1, h2, h3, h4, .inr (.inr ⟨k, rfl⟩)⟩

/-- C85, one call over a `BufWriter` with room for its packet: the first poll takes the whole packet, so that dropping the call
after any number of polls, or a failure, leaves nothing undone: what has left plus what is kept back is what it was before and
the packet.  A call that returned `Ok` has left nothing in the buffer. -/
theorem C85_room {N : PollSink σ} (hN : N.Sane) {cap : Nat} {c o : OutboundCipher} {r : SinkRun (TokioBuf (SinkRun σ))} {p : Payload}
    {t : PacketType} {cs pkt : Bytes} (hf : r.net.Fine) (hv : p.view = some (t, cs))
    (he : c.encryptToVec P prof cs t none = (o, .ok pkt)) (hpos : 0 < pkt.length) (hcap : pkt.length < cap)
    (hroom : r.net.buf.length + pkt.length ≤ cap) {k : Nat} (hk : k ≠ 0) :
    InBuffer pkt r o (pollTimes (tokioBufWriter cap N.logged) P prof k ((c, r), .start p)) := by
  obtain ⟨k, rfl⟩ := Nat.exists_eq_succ_of_ne_zero hk
  rw [pollTimes, pollWriteFut_start hv he]
  refine InBuffer.times hN k ?_
  have hw : pollWriteAll (tokioBufWriter cap N.logged) pkt.length r pkt =
      (⟨{ r.net with buf := r.net.buf ++ pkt }, r.sent ++ pkt⟩, .done (.ok ())) := by
    cases hp : pkt with
    | nil => rw [hp] at hpos; simp at hpos
    | cons b bs =>
      rw [← hp]
      have hw : (tokioBufWriter cap N.logged).writeRun r pkt =
          (⟨{ r.net with buf := r.net.buf ++ pkt }, r.sent ++ pkt⟩, .ready (.ok pkt.length)) := by
        unfold PollSink.writeRun
        simp only [tokioBufWriter]
        rw [if_neg (by omega), tokioStore, if_neg (by omega)]
        simp
      rw [hp] at hw ⊢
      simp only [List.length_cons, pollWriteAll, hw]
      rw [List.drop_eq_nil_of_le (by simp)]
      cases bs.length <;> rfl
  unfold pollSending
  rw [hw]
  refine pollFlushing_inBuffer hN ?_ List.prefix_rfl ?_ ?_
  · simp only [TokioBuf.Fine, List.length_append] at hf ⊢
    omega
  · simp only [TokioBuf.held, List.append_assoc]
    rw [List.drop_append_of_le_length hf]
  · simp

/-- The payloads of the calls that were polled at all. -/
def begunCalls (cs : List (Payload × Nat)) : List Payload := (cs.filter (fun c => c.2 != 0)).map (·.1)

/-- There is room for each packet when its call is polled for the first time. -/
def RoomFor (cap : Nat) (N : PollSink σ) (P : Prims) (prof : Profile) :
    OutboundCipher × SinkRun (TokioBuf (SinkRun σ)) → List (Payload × Nat) → Prop
  | _, [] => True
  | s, (p, k) :: cs => (k ≠ 0 → s.2.net.buf.length + (p.size + 20) ≤ cap ∧ p.size + 20 < cap) ∧
      RoomFor cap N P prof (pollTimes (tokioBufWriter cap N.logged) P prof k (s, .start p)).1 cs

/-- C85, the whole history: calls one after the other, each dropped after any number of polls, over a `BufWriter` that has room
for each packet when its call begins.  What has left plus what is kept back is the packets of all calls that were polled, in
order, whatever the transport did and whatever the calls returned; and if the last call returned `Ok`, nothing is kept back. -/
theorem C85_history (hP : Lawful P) {N : PollSink σ} (hN : N.Sane) {cap : Nat} {kL kP : Bytes} (cs : List (Payload × Nat)) :
    ∀ {n : Nat} {s s' : OutboundCipher × SinkRun (TokioBuf (SinkRun σ))} {pcs : List WProc}, OutboundCipher.At P kL kP n s.1 →
    n + cs.length < 2 ^ 32 → (∀ c ∈ cs, ∃ v, c.1.view = some v) → s.2.net.Fine → RoomFor cap N P prof s cs →
    pollCalls (tokioBufWriter cap N.logged) P prof s cs = (s', pcs) →
    ∃ bytes, Sent P prof s.1 (begunCalls cs) s'.1 bytes ∧ s'.2.net.Fine ∧ s.2.net.inner.sent <+: s'.2.net.inner.sent ∧
      s'.2.net.inner.sent ++ s'.2.net.held = s.2.net.inner.sent ++ s.2.net.held ++ bytes ∧
      (pcs.getLast? = some (.done (.ok ())) → s'.2.net.buf = []) := by
  induction cs with
  | nil =>
    intro n s s' pcs _ _ _ hf _ h
    simp only [pollCalls, Prod.mk.injEq] at h
    obtain ⟨rfl, rfl⟩ := h
    exact ⟨[], Sent.nil _, hf, List.prefix_rfl, by simp, by simp⟩
  | cons c cs ih =>
    intro n s s' pcs hat hn hv hf hroom h
    obtain ⟨p, k⟩ := c
    obtain ⟨hr1, hr2⟩ := hroom
    simp only [List.length_cons] at hn
    simp only [List.mem_cons, forall_eq_or_imp] at hv
    obtain ⟨⟨⟨t, d⟩, hv1⟩, hv2⟩ := hv
    unfold pollCalls at h
    cases h1 : pollTimes (tokioBufWriter cap N.logged) P prof k (s, .start p) with
    | mk s1 pc =>
    rw [h1] at h hr2
    simp only at h hr2
    cases h2 : pollCalls (tokioBufWriter cap N.logged) P prof s1 cs with
    | mk s2 pcs2 =>
    rw [h2] at h
    simp only [Prod.mk.injEq] at h
    obtain ⟨rfl, rfl⟩ := h
    by_cases hk : k = 0
    · subst hk
      simp only [pollTimes, Prod.mk.injEq] at h1
      obtain ⟨rfl, rfl⟩ := h1
      obtain ⟨bytes, i1, i2, i3, i4, i5⟩ := ih hat (by omega) hv2 hf hr2 h2
      refine ⟨bytes, by simpa [begunCalls] using i1, i2, i3, i4, fun hl => ?_⟩
      cases pcs2 with
      | nil => simp at hl
      | cons y ys => exact i5 (by rwa [List.getLast?_cons_cons] at hl)
    · obtain ⟨o, hat', he⟩ := hat.encryptToVec (prof := prof) hP (by omega) d t none
      have hlen := packet_length hP he
      have hsz : p.size = d.length := by rw [Payload.size, (Payload.view_some.1 hv1).2]; rfl
      obtain ⟨hr3, hr4⟩ := hr1 hk
      have hin := C85_room (P := P) (prof := prof) hN (cap := cap) (c := s.1) (r := s.2) (p := p) hf hv1 he (by omega) (by omega)
        (by omega) hk
      rw [show ((s.1, s.2), WProc.start p) = (s, WProc.start p) from rfl, h1] at hin
      obtain ⟨e1, e2, e3, e4, -, e6⟩ := hin
      simp only at e1 e2 e3 e4 e6
      obtain ⟨bytes, i1, i2, i3, i4, i5⟩ := ih (by rw [e1]; exact hat') (by omega) hv2 e2 hr2 h2
      refine ⟨Spec.packet P kL kP n (t == .decoy) (Option.getD none []) d ++ bytes, ?_, i2, e3.trans i3, by rw [i4, e4, List.append_assoc], fun hl => ?_⟩
      · rw [show begunCalls ((p, k) :: cs) = p :: begunCalls cs by simp [begunCalls, hk]]
        rw [e1] at i1
        exact Sent.cons hv1 he i1
      · cases hc : cs with
        | nil =>
          subst hc
          simp only [pollCalls, Prod.mk.injEq] at h2
          obtain ⟨rfl, rfl⟩ := h2
          simp only [List.getLast?_singleton, Option.some.injEq] at hl
          subst hl
          rcases e6 with e6 | ⟨-, e6⟩ | ⟨k, e6⟩
          · cases e6
          · exact e6
          · cases e6
        | cons c' cs' =>
          refine i5 ?_
          cases hp : pcs2 with
          | nil =>
            rw [hc] at h2
            obtain ⟨p', k'⟩ := c'
            unfold pollCalls at h2
            simp only [Prod.mk.injEq] at h2
            rw [hp] at h2
            simp at h2
          | cons y ys => rw [hp, List.getLast?_cons_cons] at hl; exact hl

/-- Room for all packets at once is room for each of them. -/
theorem C85_room_total (hP : Lawful P) {N : PollSink σ} (hN : N.Sane) {cap : Nat} {kL kP : Bytes} (cs : List (Payload × Nat)) :
    ∀ {n : Nat} {s : OutboundCipher × SinkRun (TokioBuf (SinkRun σ))}, OutboundCipher.At P kL kP n s.1 →
    n + cs.length < 2 ^ 32 → (∀ c ∈ cs, ∃ v, c.1.view = some v) → s.2.net.Fine →
    s.2.net.buf.length + wireLength ((begunCalls cs).map Payload.size) < cap → RoomFor cap N P prof s cs := by
  induction cs with
  | nil => intro n s _ _ _ _ _; trivial
  | cons c cs ih =>
    intro n s hat hn hv hf hroom
    obtain ⟨p, k⟩ := c
    simp only [List.length_cons] at hn
    simp only [List.mem_cons, forall_eq_or_imp] at hv
    obtain ⟨⟨⟨t, d⟩, hv1⟩, hv2⟩ := hv
    by_cases hk : k = 0
    · subst hk
      exact ⟨fun h => absurd rfl h, ih hat (by omega) hv2 hf (by simpa [begunCalls, pollTimes] using hroom)⟩
    · rw [show begunCalls ((p, k) :: cs) = p :: begunCalls cs by simp [begunCalls, hk], List.map_cons, ← List.singleton_append,
        wireLength_append] at hroom
      simp only [wireLength, List.sum_cons, List.sum_nil, List.length_cons, List.length_nil, Nat.zero_add, Nat.add_zero,
        Nat.mul_one] at hroom
      refine ⟨fun _ => by omega, ?_⟩
      obtain ⟨o, hat', he⟩ := hat.encryptToVec (prof := prof) hP (by omega) d t none
      have hlen := packet_length hP he
      have hsz : p.size = d.length := by rw [Payload.size, (Payload.view_some.1 hv1).2]; rfl
      have hin := C85_room (P := P) (prof := prof) hN (cap := cap) (c := s.1) (r := s.2) (p := p) hf hv1 he (by omega) (by omega)
        (by omega) hk
      rw [show ((s.1, s.2), WProc.start p) = (s, WProc.start p) from rfl] at hin
      obtain ⟨e1, e2, -, -, e5, -⟩ := hin
      exact ih (by rw [e1]; exact hat') (by omega) hv2 e2 (by simp only [wireLength]; omega)

/-- C85: so cancelling is safe.  Whatever was dropped when, once a later call has returned `Ok` the peer reads the payloads of all
calls that were polled, the dropped ones included. -/
theorem C85_delivered (hP : Lawful P) {N : PollSink σ} (hN : N.Sane) {cap : Nat} {kL kP : Bytes} {cs : List (Payload × Nat)}
    {n : Nat} {s s' : OutboundCipher × SinkRun (TokioBuf (SinkRun σ))} {pcs : List WProc} (hat : OutboundCipher.At P kL kP n s.1)
    (hn : n + cs.length < 2 ^ 32) (hv : ∀ c ∈ cs, ∃ v, c.1.view = some v)
    (hsize : ∀ p ∈ begunCalls cs, ∀ c, p.contents = some c → c.length ≤ 4000013) (hb : s.2.net.buf = []) (hw : s.2.net.written = 0)
    (hroom : RoomFor cap N P prof s cs) (h : pollCalls (tokioBufWriter cap N.logged) P prof s cs = (s', pcs))
    (hlast : pcs.getLast? = some (.done (.ok ()))) {sent more : Bytes} (hs : s'.2.net.inner.sent = s.2.net.inner.sent ++ sent)
    {r : SyncReader} (hm : Matching s.1 r.cipher) {tail : Source} {k : ErrorKind} (hend : EndsWith true tail k)
    (hr : SyncStreams r.reader (sent ++ more) tail) :
    ∃ r' outs, r.readMany P prof (begunCalls cs).length = (r', outs) ∧ outs.map seen = (begunCalls cs).map Payload.view ∧
      (∀ x ∈ outs, ∃ p, x = .ok p) ∧ Matching s'.1 r'.cipher ∧ SyncStreams r'.reader more tail := by
  obtain ⟨bytes, h1, -, -, h4, h5⟩ := C85_history hP hN cs hat hn hv (by simp [TokioBuf.Fine, hb, hw]) hroom h
  have hsb : sent = bytes := by
    rw [hs] at h4
    simpa [TokioBuf.held, hb, h5 hlast] using h4
  subst hsb
  exact sync_delivers hP hend h1 hsize hm hr

/-! ## The polls together -/

theorem awaitWrite_mono {N : PollSink σ} : ∀ {f g : Nat} {s : σ} {b : Bytes} {x}, f ≤ g → awaitWrite N f s b = some x →
    awaitWrite N g s b = some x := by
  intro f
  induction f with
  | zero => intro g s b x _ h; simp [awaitWrite] at h
  | succ f ih =>
    intro g s b x hg h
    obtain ⟨g, rfl⟩ := Nat.exists_eq_succ_of_ne_zero (show g ≠ 0 by omega)
    simp only [awaitWrite] at h ⊢
    split at h
    · exact h
    · exact ih (by omega) h

theorem awaitFlush_mono {N : PollSink σ} : ∀ {f g : Nat} {s : σ} {x}, f ≤ g → awaitFlush N f s = some x →
    awaitFlush N g s = some x := by
  intro f
  induction f with
  | zero => intro g s x _ h; simp [awaitFlush] at h
  | succ f ih =>
    intro g s x hg h
    obtain ⟨g, rfl⟩ := Nat.exists_eq_succ_of_ne_zero (show g ≠ 0 by omega)
    simp only [awaitFlush] at h ⊢
    split at h
    · exact h
    · exact ih (by omega) h

theorem connWriteAll_mono {N : PollSink σ} : ∀ {f g f' g' : Nat} {r : ConnRun σ} {b : Bytes} {x}, f ≤ g → f' ≤ g' →
    (N.conn f').writeAll f false r b = some x → (N.conn g').writeAll g false r b = some x := by
  intro f
  induction f with
  | zero => intro g f' g' r b x _ _ h; simp [Conn.writeAll] at h
  | succ f ih =>
    intro g f' g' r b x hg hg' h
    obtain ⟨g, rfl⟩ := Nat.exists_eq_succ_of_ne_zero (show g ≠ 0 by omega)
    cases b with
    | nil => simpa [Conn.writeAll] using h
    | cons b bs =>
      simp only [Conn.writeAll, Conn.writeRun, PollSink.conn] at h ⊢
      cases hw : awaitWrite N f' r.net (b :: bs) with
      | none => rw [hw] at h; simp at h
      | some z =>
      obtain ⟨s, y⟩ := z
      rw [awaitWrite_mono hg' hw]
      rw [hw] at h
      cases y with
      | error k => simpa using h
      | ok n =>
        cases n with
        | zero => simpa using h
        | succ n => exact ih (by omega) hg' h

/-- A `write_all` polled to its end is the `write_all` that is awaited; what a poll leaves is awaited next. -/
theorem pollWriteAll_await {N : PollSink σ} {a : Source} : ∀ {turns : Nat} {r r' : SinkRun σ} {rest : Bytes} {x : PollAll},
    rest.length ≤ turns → pollWriteAll N turns r rest = (r', x) →
    match x with
    | .done y => Ends (fun f => (N.conn f).writeAll f false ⟨r.net, a, r.sent⟩ rest) (⟨r'.net, a, r'.sent⟩, y)
    | .pending rest' => ∀ z, Ends (fun f => (N.conn f).writeAll f false ⟨r'.net, a, r'.sent⟩ rest') z →
        Ends (fun f => (N.conn f).writeAll f false ⟨r.net, a, r.sent⟩ rest) z := by
  intro turns
  induction turns with
  | zero =>
    intro r r' rest x hl h
    cases rest with
    | nil =>
      simp only [pollWriteAll, Prod.mk.injEq] at h
      obtain ⟨rfl, rfl⟩ := h
      refine ⟨1, fun f hf => ?_⟩
      obtain ⟨f, rfl⟩ := Nat.exists_eq_succ_of_ne_zero (show f ≠ 0 by omega)
      rfl
    | cons b bs => simp at hl
  | succ turns ih =>
    intro r r' rest x hl h
    cases rest with
    | nil =>
      simp only [pollWriteAll, Prod.mk.injEq] at h
      obtain ⟨rfl, rfl⟩ := h
      refine ⟨1, fun f hf => ?_⟩
      obtain ⟨f, rfl⟩ := Nat.exists_eq_succ_of_ne_zero (show f ≠ 0 by omega)
      rfl
    | cons b bs =>
      unfold pollWriteAll PollSink.writeRun at h
      cases hw : N.pollWrite r.net (b :: bs) with
      | mk s y =>
      rw [hw] at h
      -- one awaited write
      have step : ∀ y', y = .ready y' → ∀ f, (N.conn (f + 1)).writeRun ⟨r.net, a, r.sent⟩ (b :: bs) =
          some (match y' with
            | .ok n => (⟨s, a, r.sent ++ (b :: bs).take n⟩, .ok n)
            | .error k => (⟨s, a, r.sent⟩, .error k)) := by
        rintro y' rfl f
        simp only [Conn.writeRun, PollSink.conn, awaitWrite, hw]
        cases y' <;> rfl
      cases y with
      | pending =>
        simp only [Prod.mk.injEq] at h
        obtain ⟨rfl, rfl⟩ := h
        rintro z ⟨f0, hf0⟩
        refine ⟨f0 + 1, fun f hf => ?_⟩
        obtain ⟨f, rfl⟩ := Nat.exists_eq_succ_of_ne_zero (show f ≠ 0 by omega)
        have h1 := hf0 f (by omega)
        simp only at h1 ⊢
        obtain ⟨g, rfl⟩ : ∃ g, f = g + 1 := by
          cases f with
          | zero => simp [Conn.writeAll] at h1
          | succ g => exact ⟨g, rfl⟩
        rw [Conn.writeAll] at h1 ⊢
        simp only [Conn.writeRun, PollSink.conn] at h1 ⊢
        rw [show awaitWrite N (g + 1 + 1) r.net (b :: bs) = awaitWrite N (g + 1) s (b :: bs) by
          rw [awaitWrite, hw]]
        cases hz : awaitWrite N (g + 1) s (b :: bs) with
        | none => rw [hz] at h1; simp at h1
        | some v =>
          obtain ⟨s2, y⟩ := v
          rw [hz] at h1
          cases y with
          | error k => simpa using h1
          | ok n =>
            cases n with
            | zero => simpa using h1
            | succ n => exact connWriteAll_mono (N := N) (by omega) (by omega) h1
      | ready y =>
        have step := step y rfl
        cases y with
        | error k =>
          simp only [Prod.mk.injEq] at h
          obtain ⟨rfl, rfl⟩ := h
          refine ⟨1, fun f hf => ?_⟩
          obtain ⟨f, rfl⟩ := Nat.exists_eq_succ_of_ne_zero (show f ≠ 0 by omega)
          simp only [Conn.writeAll, step]
          simp
        | ok n =>
          cases n with
          | zero =>
            simp only [List.take_zero, List.append_nil, Prod.mk.injEq] at h
            obtain ⟨rfl, rfl⟩ := h
            refine ⟨1, fun f hf => ?_⟩
            obtain ⟨f, rfl⟩ := Nat.exists_eq_succ_of_ne_zero (show f ≠ 0 by omega)
            simp only [Conn.writeAll, step]
            simp
          | succ n =>
            simp only at h
            have hi := ih (by simp only [List.length_drop, List.length_cons] at hl ⊢; omega) h
            have more : ∀ z, Ends (fun f => (N.conn f).writeAll f false ⟨s, a, r.sent ++ (b :: bs).take (n + 1)⟩
                ((b :: bs).drop (n + 1))) z → Ends (fun f => (N.conn f).writeAll f false ⟨r.net, a, r.sent⟩ (b :: bs)) z := by
              rintro z ⟨f0, hf0⟩
              refine ⟨f0 + 1, fun f hf => ?_⟩
              obtain ⟨f, rfl⟩ := Nat.exists_eq_succ_of_ne_zero (show f ≠ 0 by omega)
              simp only [Conn.writeAll, step]
              exact connWriteAll_mono (Nat.le_refl _) (Nat.le_succ _) (hf0 f (by omega))
            cases x with
            | done y => exact more _ hi
            | pending rest' => exact fun z hz => more z (hi z hz)

/-- What remains of the call, awaited. -/
def restAwait (f : Nat) (N : PollSink σ) (a : Source) (r : SinkRun σ) : WProc → Option (ConnRun σ × Outcome ProtocolError Unit)
  | .sending rest =>
    match (N.conn f).send f false ⟨r.net, a, r.sent⟩ rest with
    | none => none
    | some (r, .error k) => some (r, .err (.fromIo k))
    | some (r, .ok ()) => some (r, .ok ())
  | .flushing =>
    match (N.conn f).flushRun ⟨r.net, a, r.sent⟩ with
    | none => none
    | some (r, .error k) => some (r, .err (.fromIo k))
    | some (r, .ok ()) => some (r, .ok ())
  | .done x => some (⟨r.net, a, r.sent⟩, x)
  | .start _ => none

theorem pollFlushing_await {N : PollSink σ} {a : Source} {c c' : OutboundCipher} {r r' : SinkRun σ} {pc : WProc}
    (h : pollFlushing N c r = ((c', r'), pc)) : c' = c ∧ ∀ z, Ends (fun f => restAwait f N a r' pc) z →
      Ends (fun f => restAwait f N a r .flushing) z := by
  unfold pollFlushing PollSink.flushRun at h
  cases hf : N.pollFlush r.net with
  | mk s x =>
  rw [hf] at h
  cases x with
  | pending =>
    simp only [Prod.mk.injEq] at h
    obtain ⟨⟨rfl, rfl⟩, rfl⟩ := h
    refine ⟨rfl, fun z => ?_⟩
    rintro ⟨f0, hf0⟩
    refine ⟨f0 + 1, fun f hf' => ?_⟩
    obtain ⟨f, rfl⟩ := Nat.exists_eq_succ_of_ne_zero (show f ≠ 0 by omega)
    have h1 := hf0 f (by omega)
    simp only [restAwait, Conn.flushRun, PollSink.conn] at h1 ⊢
    rw [awaitFlush, hf]
    exact h1
  | ready x =>
    have key : ∀ f, awaitFlush N (f + 1) r.net = some (s, x) := fun f => by rw [awaitFlush, hf]
    cases x with
    | error k =>
      simp only [Prod.mk.injEq] at h
      obtain ⟨⟨rfl, rfl⟩, rfl⟩ := h
      refine ⟨rfl, fun z => ?_⟩
      rintro ⟨f0, hf0⟩
      refine ⟨f0 + 1, fun f hf' => ?_⟩
      obtain ⟨f, rfl⟩ := Nat.exists_eq_succ_of_ne_zero (show f ≠ 0 by omega)
      have h1 := hf0 f (by omega)
      simp only [restAwait, Conn.flushRun, PollSink.conn, key] at h1 ⊢
      exact h1
    | ok u =>
      simp only [Prod.mk.injEq] at h
      obtain ⟨⟨rfl, rfl⟩, rfl⟩ := h
      refine ⟨rfl, fun z => ?_⟩
      rintro ⟨f0, hf0⟩
      refine ⟨f0 + 1, fun f hf' => ?_⟩
      obtain ⟨f, rfl⟩ := Nat.exists_eq_succ_of_ne_zero (show f ≠ 0 by omega)
      have h1 := hf0 f (by omega)
      simp only [restAwait, Conn.flushRun, PollSink.conn, key] at h1 ⊢
      exact h1

theorem pollSending_await {N : PollSink σ} {a : Source} {c c' : OutboundCipher} {r r' : SinkRun σ} {rest : Bytes} {pc : WProc}
    (h : pollSending N c r rest = ((c', r'), pc)) : c' = c ∧ ∀ z, Ends (fun f => restAwait f N a r' pc) z →
      Ends (fun f => restAwait f N a r (.sending rest)) z := by
  unfold pollSending at h
  cases hw : pollWriteAll N rest.length r rest with
  | mk r1 x =>
  rw [hw] at h
  have hA := pollWriteAll_await (a := a) (Nat.le_refl _) hw
  cases x with
  | pending rest' =>
    simp only [Prod.mk.injEq] at h
    obtain ⟨⟨rfl, rfl⟩, rfl⟩ := h
    refine ⟨rfl, fun z => ?_⟩
    rintro ⟨f0, hf0⟩
    simp only at hA
    have h0 := hf0 f0 (Nat.le_refl _)
    simp only [restAwait, Conn.send] at h0
    cases hs : (N.conn f0).writeAll f0 false ⟨r1.net, a, r1.sent⟩ rest' with
    | none => rw [hs] at h0; simp at h0
    | some v =>
    have hE : Ends (fun f => (N.conn f).writeAll f false ⟨r1.net, a, r1.sent⟩ rest') v :=
      ⟨f0, fun f hf => connWriteAll_mono hf hf hs⟩
    obtain ⟨f1, hf1⟩ := hA v hE
    obtain ⟨f2, hf2⟩ := hE
    refine ⟨f0 + f1 + f2, fun f hf => ?_⟩
    have e0 := hf0 f (by omega)
    have e1 := hf1 f (by omega)
    have e2 := hf2 f (by omega)
    simp only [restAwait, Conn.send] at e0 e1 e2 ⊢
    rw [e2] at e0
    rw [e1]
    exact e0
  | done y =>
    simp only at hA
    obtain ⟨f1, hf1⟩ := hA
    cases y with
    | error k =>
      simp only [Prod.mk.injEq] at h
      obtain ⟨⟨rfl, rfl⟩, rfl⟩ := h
      refine ⟨rfl, fun z => ?_⟩
      rintro ⟨f0, hf0⟩
      refine ⟨f0 + f1, fun f hf => ?_⟩
      have e0 := hf0 f (by omega)
      have e1 := hf1 f (by omega)
      simp only [restAwait, Conn.send] at e0 e1 ⊢
      rw [e1]
      exact e0
    | ok u =>
      simp only at h
      obtain ⟨rfl, hF⟩ := pollFlushing_await (a := a) h
      refine ⟨rfl, fun z hz => ?_⟩
      obtain ⟨f0, hf0⟩ := hF z hz
      refine ⟨f0 + f1, fun f hf => ?_⟩
      have e0 := hf0 f (by omega)
      have e1 := hf1 f (by omega)
      simp only [restAwait, Conn.send] at e0 e1 ⊢
      rw [e1]
      exact e0

/-- C85: a call that is polled to its end does exactly what the model of calls that are driven to completion has it do, over the
same transport with every `await` waiting for it: C25 to C84 hold of it. -/
theorem C85_driven {N : PollSink σ} {a : Source} {k : Nat} {c c' : OutboundCipher} {r r' : SinkRun σ} {p : Payload}
    {x : Outcome ProtocolError Unit} (h : pollTimes N P prof k ((c, r), .start p) = ((c', r'), .done x)) :
    Ends (fun f => writeN f .async (N.conn f) P prof c ⟨r.net, a, r.sent⟩ p) ((c', ⟨r'.net, a, r'.sent⟩), x) := by
  have rest : ∀ (k : Nat) {c : OutboundCipher} {r : SinkRun σ} {pc : WProc}, (∀ q, pc ≠ .start q) →
      pollTimes N P prof k ((c, r), pc) = ((c', r'), .done x) →
      c' = c ∧ Ends (fun f => restAwait f N a r pc) (⟨r'.net, a, r'.sent⟩, x) := by
    intro k
    induction k with
    | zero =>
      intro c r pc _ h
      simp only [pollTimes, Prod.mk.injEq] at h
      obtain ⟨⟨rfl, rfl⟩, rfl⟩ := h
      exact ⟨rfl, 0, fun _ _ => rfl⟩
    | succ k ih =>
      intro c r pc hpc h
      rw [pollTimes] at h
      cases h1 : pollWriteFut N P prof ((c, r), pc) with
      | mk s pc1 =>
      obtain ⟨c1, r1⟩ := s
      rw [h1] at h
      cases pc with
      | start q => exact absurd rfl (hpc q)
      | sending bs =>
        have h1 : pollSending N c r bs = ((c1, r1), pc1) := h1
        obtain ⟨rfl, hz⟩ := pollSending_await (a := a) h1
        have : ∀ q, pc1 ≠ .start q := by
          rintro q rfl
          have := pollSending_after (N := N) (c := c1) (r := r) (pkt := bs) (sent := r.sent) (piece := []) (rest := bs) (by simp)
            (by simp)
          rw [h1] at this
          obtain ⟨-, _, -, this⟩ := this
          exact this
        obtain ⟨rfl, h2⟩ := ih this h
        exact ⟨rfl, hz _ h2⟩
      | flushing =>
        have h1 : pollFlushing N c r = ((c1, r1), pc1) := h1
        obtain ⟨rfl, hz⟩ := pollFlushing_await (a := a) h1
        have : ∀ q, pc1 ≠ .start q := by
          rintro q rfl
          have := pollFlushing_after (N := N) (c := c1) (r := r) (pkt := []) (sent := r.sent) (by simp)
          rw [h1] at this
          obtain ⟨-, _, -, this⟩ := this
          exact this
        obtain ⟨rfl, h2⟩ := ih this h
        exact ⟨rfl, hz _ h2⟩
      | done y =>
        simp only [pollWriteFut, Prod.mk.injEq] at h1
        obtain ⟨⟨rfl, rfl⟩, rfl⟩ := h1
        exact ih (by simp) h
  cases k with
  | zero => simp [pollTimes] at h
  | succ k =>
    rw [pollTimes] at h
    unfold writeN
    unfold pollWriteFut at h
    have fin : ∀ {c1 : OutboundCipher} {y : Outcome ProtocolError Unit},
        pollTimes N P prof k ((c1, r), .done y) = ((c', r'), .done x) → c' = c1 ∧ r' = r ∧ x = y := by
      intro c1 y h
      obtain ⟨rfl, f0, h2⟩ := rest k (by simp) h
      have := h2 f0 (Nat.le_refl _)
      simp only [restAwait, Option.some.injEq, Prod.mk.injEq, ConnRun.mk.injEq] at this
      obtain ⟨⟨e1, -, e2⟩, rfl⟩ := this
      refine ⟨rfl, ?_, rfl⟩
      cases r'; cases r
      simp only at e1 e2
      rw [e1, e2]
    cases hc : p.contents with
    | none =>
      simp only [hc] at h
      obtain ⟨rfl, rfl, rfl⟩ := fin h
      exact ⟨0, fun _ _ => rfl⟩
    | some d =>
    cases ht : p.packetType with
    | none =>
      simp only [hc, ht] at h
      obtain ⟨rfl, rfl, rfl⟩ := fin h
      exact ⟨0, fun _ _ => rfl⟩
    | some t =>
    simp only [hc, ht] at h
    cases he : encryptFor .async P prof c d t with
    | mk o y =>
    rw [he] at h
    cases y with
    | panic =>
      obtain ⟨rfl, rfl, rfl⟩ := fin h
      exact ⟨0, fun _ _ => by simp only [he]⟩
    | err e =>
      obtain ⟨rfl, rfl, rfl⟩ := fin h
      exact ⟨0, fun _ _ => by simp only [he]⟩
    | ok pkt =>
      simp only at h
      cases h1 : pollSending N o r pkt with
      | mk s pc1 =>
      obtain ⟨c1, r1⟩ := s
      rw [h1] at h
      obtain ⟨rfl, hz⟩ := pollSending_await (a := a) h1
      have : ∀ q, pc1 ≠ .start q := by
        rintro q rfl
        have := pollSending_after (N := N) (c := c1) (r := r) (pkt := pkt) (sent := r.sent) (piece := []) (rest := pkt) (by simp)
          (by simp)
        rw [h1] at this
        obtain ⟨-, _, -, this⟩ := this
        exact this
      obtain ⟨rfl, h2⟩ := rest k this h
      obtain ⟨f0, hf0⟩ := hz _ h2
      refine ⟨f0, fun f hf => ?_⟩
      have e0 := hf0 f hf
      simp only [restAwait, Flavour.retry, he] at e0 ⊢
      cases hs : (N.conn f).send f false ⟨r.net, a, r.sent⟩ pkt with
      | none => rw [hs] at e0; simp at e0
      | some v =>
        obtain ⟨r2, y⟩ := v
        rw [hs] at e0
        cases y with
        | error k =>
          simp only [Option.some.injEq, Prod.mk.injEq] at e0
          obtain ⟨rfl, rfl⟩ := e0
          rfl
        | ok u =>
          simp only [Option.some.injEq, Prod.mk.injEq] at e0
          obtain ⟨rfl, rfl⟩ := e0
          rfl

/-! ## Examples -/

/-- A transport that does what a script says, and takes everything after it. -/
def scriptSink : PollSink (List WEv) where
  pollWrite
    | [], b => ([], .ready (.ok b.length))
    | .pending :: s, _ => (s, .pending)
    | .fail k :: s, _ => (s, .ready (.error k))
    | .accept n :: s, b => (s, .ready (.ok (min n b.length)))
  pollFlush s := (s, .ready (.ok ()))

theorem scriptSink_sane : scriptSink.Sane := by
  intro s b s' n h
  cases s with
  | nil =>
    simp only [scriptSink, Prod.mk.injEq, PollDone.ready.injEq, Except.ok.injEq] at h
    omega
  | cons e s =>
    cases e <;> simp [scriptSink] at h
    omega

/-- What a peer reads of what has left after the calls, and where they stopped: without a `BufWriter`. -/
def bareSeen (script : List WEv) (cs : List (Payload × Nat)) : List WProc × List (Option (PacketType × Bytes)) :=
  let x := pollCalls scriptSink toy .debug (sampleOut, ⟨script, []⟩) cs
  (x.2, (SyncReader.readMany toy .debug ⟨sampleIn, ⟨[], false, [.data x.1.2.sent]⟩⟩ cs.length).2.map seen)

/-- The same with one. -/
def heldSeen (cap : Nat) (script : List WEv) (cs : List (Payload × Nat)) : List WProc × List (Option (PacketType × Bytes)) :=
  let x := pollCalls (tokioBufWriter cap scriptSink.logged) toy .debug (sampleOut, ⟨⟨⟨script, []⟩, [], 0⟩, []⟩) cs
  (x.2, (SyncReader.readMany toy .debug ⟨sampleIn, ⟨[], false, [.data x.1.2.net.inner.sent]⟩⟩ cs.length).2.map seen)

/-- C85: without the buffer, or with one in which there is no room, a call that is dropped while it waits makes everything after it
unreadable.  In the second case the first packet is in the buffer, the second does not fit and its call is dropped. -/
theorem C85_counterexample :
    (bareSeen [.accept 7, .pending] [(.genuine [1, 2, 3], 1), (.genuine [4], 1)]).2 = [none, none] ∧
    (heldSeen 32 [.pending, .pending] [(.genuine [1, 2, 3], 1), (.genuine [4], 1), (.genuine [5], 1)]).2 =
      [some (.genuine, [1, 2, 3]), none, none] := by
  constructor <;> decide +kernel

/-- With room the same calls, dropped at the same moments, are all read. -/
example : heldSeen 64 [.accept 7, .pending] [(.genuine [1, 2, 3], 1), (.genuine [4], 1)] =
    ([.flushing, .done (.ok ())], [some (.genuine, [1, 2, 3]), some (.genuine, [4])]) := by
  decide +kernel

example : heldSeen 128 [.accept 7, .pending, .fail .timedOut, .pending, .accept 2]
      [(.genuine [1, 2, 3], 1), (.decoy [7], 1), (.genuine [6], 0), (.genuine [4], 1), (.genuine [5], 1)] =
    ([.flushing, .done (.err (.io .timedOut .abort)), .start (.genuine [6]), .flushing, .done (.ok ())],
      [some (.genuine, [1, 2, 3]), some (.decoy, [7]), some (.genuine, [4]), some (.genuine, [5]), none]) := by
  decide +kernel

/-- There is room. -/
example : RoomFor 128 scriptSink toy .debug (sampleOut, ⟨⟨⟨[.accept 7, .pending, .fail .timedOut, .pending, .accept 2], []⟩, [], 0⟩, []⟩)
    [(.genuine [1, 2, 3], 1), (.decoy [7], 1), (.genuine [6], 0), (.genuine [4], 1), (.genuine [5], 1)] := by
  simp only [RoomFor]
  decide +kernel

/-- A call that is polled to its end (`C85_driven`). -/
example : (pollTimes scriptSink toy .debug 3 ((sampleOut, ⟨[.pending, .accept 5, .pending, .accept 1], []⟩), .start (.genuine [1, 2, 3]))).2 =
    .done (.ok ()) := by decide +kernel

end Bip324
