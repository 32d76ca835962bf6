import Verif.Lemmas.Session

/-! # Invariant of the asynchronous read loop -/

namespace Bip324

variable {P : Prims} {prof : Profile}

/-- The bytes `w` are the packets that a sender in state `o` produces for `ms`. -/
def Backlog (P : Prims) (prof : Profile) : OutboundCipher → List (PacketType × Bytes) → Bytes → Prop
  | _, [], w => w = []
  | o, (t, c) :: ms, w => ∃ o' pkt rest, c.length < 2 ^ 24 ∧
      o.encryptToVec P prof c t none = (o', .ok pkt) ∧ w = pkt ++ rest ∧ Backlog P prof o' ms rest

/-- The reader, with whatever it has already buffered, is going to return exactly `ms`. -/
def AsyncReader.Inv (P : Prims) (prof : Profile) (r : AsyncReader) (ms : List (PacketType × Bytes)) :
    Prop :=
  match r.state with
  | .readingLength buf n => buf.length = 3 ∧ n ≤ 3 ∧
      ∃ o, Matching o r.cipher ∧ Backlog P prof o ms (buf.take n ++ r.reader.remaining)
  | .readingPayload buf n => n ≤ buf.length ∧ ∃ i o o' t c ms' w rest, ms = (t, c) :: ms' ∧
      c.length < 2 ^ 24 ∧ Matching o i ∧ o.encryptToVec P prof c t none = (o', .ok w) ∧
      i.decryptPacketLen P prof (w.take 3) = (r.cipher, .ok buf.length) ∧
      buf.length = (w.drop 3).length ∧
      buf.take n ++ r.reader.remaining = w.drop 3 ++ rest ∧ Backlog P prof o' ms' rest

/-- What one poll may do. -/
def AsyncReader.Step (P : Prims) (prof : Profile) (r : AsyncReader) (ms : List (PacketType × Bytes))
    (x : AsyncReader × PollResult) : Prop :=
  x.1.reader.size ≤ r.reader.size ∧
  match x.2 with
  | .ready (.ok p) => ∃ t c ms', ms = (t, c) :: ms' ∧ p = .decrypted (t.toByte :: c) ∧
      x.1.Inv P prof ms'
  | .pending => x.1.Inv P prof ms ∧ x.1.reader.size < r.reader.size
  | .ready (.err e) => (∃ k, e = .fromIo k) ∧ x.1.Inv P prof ms ∧
      (ms ≠ [] → x.1.reader.size < r.reader.size)
  | .ready .panic => False

theorem AsyncReader.pollPayload_step (hP : Lawful P) (c0 : InboundCipher) (s0 : AsyncSession) (buf : Bytes)
    (n : Nat) (ms : List (PacketType × Bytes))
    (h : AsyncReader.Inv P prof ⟨c0, s0, .readingPayload buf n⟩ ms) (st : DecryptState) :
    AsyncReader.Step P prof ⟨c0, s0, st⟩ ms (AsyncReader.pollPayload P prof c0 s0 buf n) := by
  obtain ⟨hn, i, o, o', t, c, ms', w, rest, rfl, hc, hm, he, hl, hb, hw, hback⟩ := h
  simp only at hl hw
  have hfill := pollFill_spec s0 buf n hn
  have hwl := packet_length hP he
  unfold AsyncReader.pollPayload
  cases hf : pollFill s0 buf n with
  | pending s b m =>
    rw [hf] at hfill
    obtain ⟨h1, h2, h3, h4⟩ := hfill
    refine ⟨Nat.le_of_lt h4, ⟨h1, i, o, o', t, c, ms', w, rest, rfl, hc, hm, he, ?_, ?_, ?_, hback⟩, h4⟩
    · rw [hl, h2]
    · rw [h2, hb]
    · rw [← hw]; exact h3
  | err s b m k =>
    rw [hf] at hfill
    obtain ⟨h1, h2, h3, h4, h5⟩ := hfill
    refine ⟨h4, ⟨k, rfl⟩, ⟨Nat.le_of_lt h1, i, o, o', t, c, ms', w, rest, rfl, hc, hm, he, ?_, ?_, ?_, hback⟩,
      fun _ => ?_⟩
    · rw [hl, h2]
    · rw [h2, hb]
    · rw [← hw]; exact h3
    · rcases h5 with h5 | h5
      · exact h5
      · exfalso
        rw [h5, List.append_nil, hw] at h3
        have := congrArg List.length h3
        simp only [List.length_take, List.length_append] at this
        omega
  | full s b m =>
    rw [hf] at hfill
    obtain ⟨h1, h2, h3, h4⟩ := hfill
    obtain ⟨i1, i2, hm2, hl', -, hdec, -⟩ := C01_packet_round_trip hP hm c hc t none he
    rw [hl] at hl'
    simp only [Prod.mk.injEq] at hl'
    obtain ⟨rfl, -⟩ := hl'
    rw [hw] at h3
    obtain ⟨rfl, hrem⟩ := List.append_inj h3 (by rw [h2, hb])
    have hlen : (w.drop 3).length = c.length + 17 := by simp; omega
    have hdl : InboundCipher.decryptionBufferLen prof (w.drop 3).length = some (c.length + 1) := by
      unfold InboundCipher.decryptionBufferLen usub
      rw [hlen, if_pos (by show 16 ≤ _; omega)]
      rfl
    simp only [hdl]
    rw [hdec (zeros (c.length + 1)) (by simp)]
    rw [List.drop_of_length_le (by simp), List.append_nil]
    simp only [Payload.mkDecrypted, List.isEmpty_cons, Bool.and_false, Bool.false_eq_true, if_false]
    refine ⟨h4, t, c, ms', rfl, rfl, ?_⟩
    refine ⟨rfl, by omega, o', hm2, ?_⟩
    simpa [hrem] using hback

theorem AsyncReader.poll_step (hP : Lawful P) (r : AsyncReader) (ms : List (PacketType × Bytes))
    (h : r.Inv P prof ms) : r.Step P prof ms (r.poll P prof) := by
  obtain ⟨c0, s0, st⟩ := r
  cases st with
  | readingPayload buf n =>
    exact AsyncReader.pollPayload_step hP c0 s0 buf n ms h _
  | readingLength buf n =>
    obtain ⟨hb, hn, o, hm, hback⟩ := h
    simp only at hm hback
    have hfill := pollFill_spec s0 buf n (by omega)
    unfold AsyncReader.poll
    simp only
    cases hf : pollFill s0 buf n with
    | pending s b m =>
      rw [hf] at hfill
      obtain ⟨h1, h2, h3, h4⟩ := hfill
      exact ⟨Nat.le_of_lt h4, ⟨by omega, by omega, o, hm, by simpa only [h3] using hback⟩, h4⟩
    | err s b m k =>
      rw [hf] at hfill
      obtain ⟨h1, h2, h3, h4, h5⟩ := hfill
      refine ⟨h4, ⟨k, rfl⟩, ⟨by omega, by omega, o, hm, by simpa only [h3] using hback⟩, fun hne => ?_⟩
      rcases h5 with h5 | h5
      · exact h5
      · exfalso
        cases ms with
        | nil => exact hne rfl
        | cons x ms =>
          obtain ⟨t, c⟩ := x
          obtain ⟨o', pkt, rest, -, he, hw, -⟩ := hback
          have := packet_length hP he
          rw [hw, h5] at h3
          have := congrArg List.length h3
          simp only [List.length_take, List.length_append, List.length_nil] at this
          omega
    | full s b m =>
      rw [hf] at hfill
      obtain ⟨h1, h2, h3, h4⟩ := hfill
      rw [← h3] at hback
      cases ms with
      | nil =>
        exfalso
        have := congrArg List.length hback
        simp only [List.length_append, List.length_nil] at this
        omega
      | cons x ms =>
        obtain ⟨t, c⟩ := x
        obtain ⟨o', pkt, rest, hc, he, hw, hbk⟩ := hback
        have hwl := packet_length hP he
        obtain ⟨i1, i2, hm2, hl', -⟩ := C01_packet_round_trip hP hm c hc t none he
        have hb3 : b = pkt.take 3 := by
          have := congrArg (List.take 3) hw
          rwa [List.take_append_of_le_length (by omega), List.take_of_length_le (by omega),
            List.take_append_of_le_length (by omega)] at this
        have hr3 : s.remaining = pkt.drop 3 ++ rest := by
          have := congrArg (List.drop 3) hw
          rwa [List.drop_append_of_le_length (by omega), List.drop_of_length_le (by omega),
            List.drop_append_of_le_length (by omega), List.nil_append] at this
        simp only [hb3, hl']
        have := AsyncReader.pollPayload_step (prof := prof) hP i1 s (zeros (pkt.drop 3).length) 0
          ((t, c) :: ms) ⟨by omega, c0, o, o', t, c, ms, pkt, rest, rfl, hc, hm, he,
            by rw [hl', zeros_length], by simp, by simpa using hr3, hbk⟩ (.readingLength buf n)
        obtain ⟨g1, g2⟩ := this
        refine ⟨Nat.le_trans g1 h4, ?_⟩
        revert g2
        cases (AsyncReader.pollPayload P prof i1 s (zeros (pkt.drop 3).length) 0).2 with
        | pending => exact fun ⟨a, b⟩ => ⟨a, Nat.lt_of_lt_of_le b h4⟩
        | ready q =>
          cases q with
          | ok p => exact id
          | err e => exact fun ⟨a, b, d⟩ => ⟨a, b, fun hne => Nat.lt_of_lt_of_le (d hne) h4⟩
          | panic => exact id

end Bip324
