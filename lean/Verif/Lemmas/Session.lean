import Verif.Lemmas.IoHandshake

/-! # Helper lemmas on session reads and writes -/

namespace Bip324

variable {P : Prims} {prof : Profile}

/-! ## Writes -/

/-- What a payload says: its type and its contents. -/
def Payload.view (p : Payload) : Option (PacketType × Bytes) :=
  match p.packetType, p.contents with
  | some t, some c => some (t, c)
  | _, _ => none

theorem Payload.view_some {p : Payload} {t : PacketType} {c : Bytes} :
    p.view = some (t, c) ↔ p.packetType = some t ∧ p.contents = some c := by
  unfold Payload.view
  cases p.packetType <;> cases p.contents <;> simp

theorem encrypt_to_vec (c : OutboundCipher) (pt : Bytes) (ty : PacketType) (aad : Option Bytes) :
    c.encrypt P prof pt (zeros (OutboundCipher.encryptionBufferLen pt.length)) ty aad =
      match c.encryptToVec P prof pt ty aad with
      | (c', .ok w) => (c', w, .ok ())
      | (c', _) => (c', (c.encrypt P prof pt (zeros (OutboundCipher.encryptionBufferLen pt.length)) ty aad).2.1,
          .panic) := by
  unfold OutboundCipher.encryptToVec
  cases h : c.encrypt P prof pt (zeros (OutboundCipher.encryptionBufferLen pt.length)) ty aad with
  | mk c' x =>
  obtain ⟨b, r⟩ := x
  cases r with
  | ok u => rfl
  | panic => rfl
  | err e =>
    have := (C05_error_iff_small c pt _ ty aad).1 ⟨_, _, _, h⟩
    simp at this

/-- Both writes are: encrypt, `write_all`, `flush`. -/
theorem Writer.write_eq (f : Flavour) (w : Writer) {p : Payload} {t : PacketType} {c : Bytes}
    (hv : p.view = some (t, c)) :
    w.write f P prof p =
      match w.cipher.encryptToVec P prof c t none with
      | (o, .ok pkt) =>
        match w.writer.send f.retry pkt with
        | (s, .error k) => (⟨o, s⟩, .err (.fromIo k))
        | (s, .ok ()) => (⟨o, s⟩, .ok ())
      | (o, _) => (⟨o, w.writer⟩, .panic) := by
  rw [Payload.view_some] at hv
  cases f with
  | sync =>
    simp only [Writer.write, Writer.writeSync, hv.1, hv.2, Flavour.retry]
    cases h : w.cipher.encryptToVec P prof c t none with
    | mk o r =>
    cases r with
    | ok pkt => rfl
    | panic => rfl
    | err e =>
      exfalso
      unfold OutboundCipher.encryptToVec at h
      split at h <;> simp at h
  | async =>
    simp only [Writer.write, Writer.writeAsync, hv.1, hv.2, Flavour.retry]
    rw [encrypt_to_vec]
    cases h : w.cipher.encryptToVec P prof c t none with
    | mk o r =>
    cases r with
    | ok pkt => rfl
    | panic => rfl
    | err e =>
      exfalso
      unfold OutboundCipher.encryptToVec at h
      split at h <;> simp at h

theorem Writer.write_none (f : Flavour) (w : Writer) {p : Payload} (hv : p.view = none) :
    w.write f P prof p = (w, .panic) := by
  unfold Payload.view at hv
  cases f with
  | sync =>
    unfold Writer.write Writer.writeSync
    cases h1 : p.packetType <;> cases h2 : p.contents <;> simp_all
  | async =>
    unfold Writer.write Writer.writeAsync
    cases h1 : p.packetType <;> cases h2 : p.contents <;> simp_all

theorem writeAllGo_taken (retry : Bool) (s : List WEv) (buf : Bytes) :
    (writeAllGo retry s buf).2.1 <+: buf ∧
      ((writeAllGo retry s buf).2.2 = .ok () → (writeAllGo retry s buf).2.1 = buf) := by
  induction s generalizing buf with
  | nil => cases buf <;> simp [writeAllGo]
  | cons e s ih =>
    cases buf with
    | nil => simp [writeAllGo]
    | cons b buf =>
      cases e with
      | pending => exact ih (b :: buf)
      | fail k =>
        simp only [writeAllGo]
        split
        · exact ih (b :: buf)
        · simp
      | accept n =>
        cases n with
        | zero => simp [writeAllGo]
        | succ n =>
          simp only [writeAllGo]
          obtain ⟨h1, h2⟩ := ih ((b :: buf).drop (n + 1))
          refine ⟨?_, fun h => ?_⟩
          · obtain ⟨x, hx⟩ := h1
            exact ⟨x, by rw [List.append_assoc, hx, List.take_append_drop]⟩
          · rw [h2 h, List.take_append_drop]

/-- Whatever the transport does, a prefix of the buffer is appended to it; all of it on success. -/
theorem send_out (w : Sink) (retry : Bool) (buf : Bytes) :
    ∃ pre, pre <+: buf ∧ (w.send retry buf).1.out = w.out ++ pre ∧
      ((w.send retry buf).2 = .ok () → pre = buf) := by
  obtain ⟨h1, h2⟩ := writeAllGo_taken retry w.script buf
  unfold Sink.send Sink.writeAll
  cases hw : writeAllGo retry w.script buf with
  | mk s x =>
  obtain ⟨taken, r⟩ := x
  rw [hw] at h1 h2
  simp only at h1 h2
  cases r with
  | error k => exact ⟨taken, h1, rfl, by simp⟩
  | ok u =>
    have := h2 rfl
    subst this
    refine ⟨taken, h1, ?_, fun _ => rfl⟩
    simp only [Sink.flush]
    cases w.flushes with
    | nil => rfl
    | cons f fs => cases f <;> rfl

/-! ## Synchronous reads -/

/-- The synchronous session reader delivers `bs` and then continues as `tail`. -/
def SyncStreams (s : SyncSession) (bs : Bytes) (tail : Source) : Prop := SessStreams syncAbs s bs tail

theorem sync_streams {l : Bytes} {src tail : Source} {bs : Bytes} (h : Streams true src bs tail) :
    SyncStreams ⟨l, false, src⟩ (l ++ bs) tail := by
  obtain ⟨c, hc, rfl, rfl⟩ := h
  unfold SyncStreams SessStreams
  have : syncAbs.abs ⟨l, false, c ++ tail⟩ = if l = [] then c ++ tail else .data l :: (c ++ tail) :=
    syncAbs.mk_abs l (c ++ tail)
  rw [this]
  split
  · rename_i hl
    subst hl
    exact ⟨c, hc, rfl, rfl⟩
  · rename_i hl
    refine ⟨.data l :: c, ?_, rfl, rfl⟩
    intro e he
    rcases List.mem_cons.1 he with rfl | he
    · cases l with
      | nil => exact absurd rfl hl
      | cons b l => exact .inr (.inl ⟨b, l, rfl⟩)
    · exact hc e he

theorem packet_length (hP : Lawful P) {o o' : OutboundCipher} {c : Bytes} {t : PacketType}
    {aad : Option Bytes} {w : Bytes} (he : o.encryptToVec P prof c t aad = (o', .ok w)) :
    w.length = c.length + 20 := by
  obtain ⟨pc, ct, tag, lc, encLen, hpc, hcr, -, rfl⟩ :=
    OutboundCipher.encryptToVec_ok_inv hP o c t aad he
  obtain ⟨h1, h2⟩ := FSAead.encrypt_lengths hP hpc
  have := FSStream.crypt_length hcr
  simp at this h1
  simp [this, h1, h2]
  omega

theorem sync_readExact {tail : Source} {k : ErrorKind} (hend : EndsWith true tail k)
    {s : SyncSession} {bs : Bytes} (hs : SyncStreams s bs tail) (n : Nat) :
    (n ≤ bs.length → ∃ s', SyncSession.reader.readExact true s n = (s', .ok (bs.take n)) ∧
      SyncStreams s' (bs.drop n) tail) ∧
    (bs.length < n → ∃ s', SyncSession.reader.readExact true s n = (s', .error k)) :=
  sess_readExact syncAbs hend hs n

/-- One packet is read. -/
theorem sync_read_one (hP : Lawful P) {tail : Source} {k : ErrorKind} (hend : EndsWith true tail k)
    {o o' : OutboundCipher} {r : SyncReader} (hm : Matching o r.cipher) {c : Bytes} {t : PacketType}
    (hlen : c.length ≤ 4000013) {w : Bytes} (he : o.encryptToVec P prof c t none = (o', .ok w))
    {rest : Bytes} (hs : SyncStreams r.reader (w ++ rest) tail) :
    ∃ r', r.read P prof = (r', .ok (.decrypted (t.toByte :: c))) ∧ Matching o' r'.cipher ∧
      SyncStreams r'.reader rest tail := by
  have hw := packet_length hP he
  obtain ⟨i1, i2, hm2, hl, -, -, htv⟩ := C01_packet_round_trip hP hm c (by omega) t none he
  have hlen' : (w.drop 3).length = c.length + 17 := by simp; omega
  have h3 : 3 ≤ w.length := by omega
  unfold SyncReader.read
  obtain ⟨s1, e1, st1⟩ := (sync_readExact hend hs NUM_LENGTH_BYTES).1 (by show 3 ≤ _; simp; omega)
  rw [e1]
  have e3 : NUM_LENGTH_BYTES = 3 := rfl
  simp only [e3, List.take_append_of_le_length h3, hl]
  rw [e3, List.drop_append_of_le_length h3] at st1
  obtain ⟨s2, e2, st2⟩ := (sync_readExact hend st1 (w.drop 3).length).1 (by simp)
  rw [e2, List.take_left]
  rw [List.drop_left] at st2
  simp only
  rw [htv (by omega)]
  simp only [Payload.mkDecrypted]
  exact ⟨⟨i2, s2⟩, by simp, hm2, st2⟩

theorem sync_read_end {tail : Source} {k : ErrorKind} (hend : EndsWith true tail k) {r : SyncReader}
    (hs : SyncStreams r.reader [] tail) :
    ∃ s, r.read P prof = ({ r with reader := s }, .err (.fromIo k)) := by
  obtain ⟨s, e⟩ := (sync_readExact hend hs NUM_LENGTH_BYTES).2 (by decide)
  exact ⟨s, by unfold SyncReader.read; rw [e]⟩

/-! ## Asynchronous reads -/

theorem take_writeAt {buf src : Bytes} {n : Nat} (h : n + src.length ≤ buf.length) :
    (writeAt buf n src).take (n + src.length) = buf.take n ++ src := by
  have : (buf.take n ++ src).length = n + src.length := by simp; omega
  unfold writeAt
  rw [← this, List.take_left]

/-- The bytes still to come from the session reader. -/
def AsyncSession.remaining (s : AsyncSession) : Bytes :=
  s.leftover.drop s.leftoverPos ++ Source.bytes s.inner

/-- One poll of the session reader moves bytes from `remaining`. -/
theorem AsyncSession.pollRead_remaining (s : AsyncSession) (n : Nat) {s' : AsyncSession} {r : PollRead}
    (h : s.pollRead n = (s', r)) :
    match r with
    | .ready (.ok bs) => bs ++ s'.remaining = s.remaining ∧ bs.length ≤ n
    | _ => s'.remaining = s.remaining := by
  unfold AsyncSession.pollRead at h
  split at h
  · simp only [Prod.mk.injEq] at h
    obtain ⟨rfl, rfl⟩ := h
    simp only [AsyncSession.remaining, List.length_drop]
    refine ⟨?_, by simp; omega⟩
    rw [← List.drop_drop, ← List.append_assoc, List.take_append_drop]
  · rename_i hp
    split at h
    rename_i i r' hi
    simp only [Prod.mk.injEq] at h
    obtain ⟨rfl, rfl⟩ := h
    simp only [AsyncSession.remaining, List.drop_of_length_le (Nat.le_of_not_lt hp), List.nil_append]
    cases hs : s.inner with
    | nil =>
      rw [hs] at hi
      simp only [Source.pollRead, Prod.mk.injEq] at hi
      obtain ⟨rfl, rfl⟩ := hi
      simp [Source.bytes]
    | cons e es =>
      rw [hs] at hi
      cases e with
      | pending =>
        simp only [Source.pollRead, Prod.mk.injEq] at hi
        obtain ⟨rfl, rfl⟩ := hi
        simp [Source.bytes]
      | fail k =>
        simp only [Source.pollRead, Prod.mk.injEq] at hi
        obtain ⟨rfl, rfl⟩ := hi
        simp [Source.bytes]
      | data bs =>
        simp only [Source.pollRead] at hi
        split at hi
        · rename_i hle
          simp only [Prod.mk.injEq] at hi
          obtain ⟨rfl, rfl⟩ := hi
          simp [Source.bytes, hle]
        · simp only [Prod.mk.injEq] at hi
          obtain ⟨rfl, rfl⟩ := hi
          simp only [Source.bytes]
          refine ⟨by rw [← List.append_assoc, List.take_append_drop], by simp; omega⟩

/-- Unfolding one poll of the fill loop. -/
theorem pollFill_eq (s : AsyncSession) (buf : Bytes) (n : Nat) :
    pollFill s buf n =
  if n < buf.length then
    match s.pollRead (buf.length - n) with
    | (s', .pending) => .pending s' buf n
    | (s', .ready (.err k)) => .err s' buf n k
    | (s', .ready (.ok [])) => .err s' buf n .connectionAborted
    | (s', .ready (.ok (b :: bs))) => pollFill s' (writeAt buf n (b :: bs)) (n + (b :: bs).length)
  else .full s buf n := by
  rw [pollFill]
  split
  · split <;> (rename_i heq; simp only [heq])
  · rfl

/-- What the fill loop does to buffer, counter and stream. -/
theorem pollFill_spec (s : AsyncSession) (buf : Bytes) (n : Nat) (hn : n ≤ buf.length) :
    match pollFill s buf n with
    | .full s' buf' n' => n' = buf'.length ∧ buf'.length = buf.length ∧
        buf' ++ s'.remaining = buf.take n ++ s.remaining ∧ s'.size ≤ s.size
    | .pending s' buf' n' => n' ≤ buf'.length ∧ buf'.length = buf.length ∧
        buf'.take n' ++ s'.remaining = buf.take n ++ s.remaining ∧ s'.size < s.size
    | .err s' buf' n' _ => n' < buf'.length ∧ buf'.length = buf.length ∧
        buf'.take n' ++ s'.remaining = buf.take n ++ s.remaining ∧ s'.size ≤ s.size ∧
        (s'.size < s.size ∨ s'.remaining = []) := by
  induction hsz : s.size using Nat.strongRecOn generalizing s buf n with
  | ind m ih =>
  rw [pollFill_eq]
  split
  · rename_i s' buf' n' heq
    split at heq
    · rename_i hlt
      cases hr : s.pollRead (buf.length - n) with
      | mk s1 r =>
      rw [hr] at heq
      have hrem := AsyncSession.pollRead_remaining s _ hr
      have hdec := AsyncSession.pollRead_dec _ _ _ _ (by omega) hr
      cases r with
      | pending => simp at heq
      | ready r =>
        cases r with
        | err k => simp at heq
        | ok bs =>
          cases bs with
          | nil => simp at heq
          | cons b bs =>
            simp only [reduceCtorEq, and_false, or_false, PollRead.ready.injEq, ReadRes.ok.injEq] at hdec
            simp only at hrem heq
            have hl : (writeAt buf n (b :: bs)).length = buf.length := writeAt_length (by omega)
            have := ih s1.size (by omega) s1 (writeAt buf n (b :: bs)) (n + (b :: bs).length)
              (by rw [hl]; omega) rfl
            rw [heq] at this
            simp only at this
            refine ⟨this.1, by rw [this.2.1, hl], ?_, by omega⟩
            rw [this.2.2.1, ← hrem.1, ← List.append_assoc]
            congr 1
            exact take_writeAt (by omega)
    · simp only [FillResult.full.injEq] at heq
      obtain ⟨rfl, rfl, rfl⟩ := heq
      exact ⟨by omega, rfl, by rw [List.take_of_length_le (by omega)], by omega⟩
  · rename_i s' buf' n' heq
    split at heq
    · rename_i hlt
      cases hr : s.pollRead (buf.length - n) with
      | mk s1 r =>
      rw [hr] at heq
      have hrem := AsyncSession.pollRead_remaining s _ hr
      have hdec := AsyncSession.pollRead_dec _ _ _ _ (by omega) hr
      cases r with
      | pending =>
        simp only [FillResult.pending.injEq] at heq
        obtain ⟨rfl, rfl, rfl⟩ := heq
        simp only [reduceCtorEq, and_false, or_false] at hdec
        simp only at hrem
        exact ⟨by omega, rfl, by rw [hrem], by omega⟩
      | ready r =>
        cases r with
        | err k => simp at heq
        | ok bs =>
          cases bs with
          | nil => simp at heq
          | cons b bs =>
            simp only [reduceCtorEq, and_false, or_false, PollRead.ready.injEq, ReadRes.ok.injEq] at hdec
            simp only at hrem heq
            have hl : (writeAt buf n (b :: bs)).length = buf.length := writeAt_length (by omega)
            have := ih s1.size (by omega) s1 (writeAt buf n (b :: bs)) (n + (b :: bs).length)
              (by rw [hl]; omega) rfl
            rw [heq] at this
            simp only at this
            refine ⟨this.1, by rw [this.2.1, hl], ?_, by omega⟩
            rw [this.2.2.1, ← hrem.1, ← List.append_assoc]
            congr 1
            exact take_writeAt (by omega)
    · simp at heq
  · rename_i s' buf' n' k heq
    split at heq
    · rename_i hlt
      cases hr : s.pollRead (buf.length - n) with
      | mk s1 r =>
      rw [hr] at heq
      have hrem := AsyncSession.pollRead_remaining s _ hr
      have hdec := AsyncSession.pollRead_dec _ _ _ _ (by omega) hr
      cases r with
      | pending => simp at heq
      | ready r =>
        cases r with
        | err k =>
          simp only [FillResult.err.injEq] at heq
          obtain ⟨rfl, rfl, rfl, rfl⟩ := heq
          simp only [reduceCtorEq, and_false, or_false, PollRead.ready.injEq] at hdec
          simp only at hrem
          exact ⟨by omega, rfl, by rw [hrem], by omega, .inl (by omega)⟩
        | ok bs =>
          cases bs with
          | nil =>
            simp only [FillResult.err.injEq] at heq
            obtain ⟨rfl, rfl, rfl, rfl⟩ := heq
            simp only [List.nil_append] at hrem
            refine ⟨by omega, rfl, by rw [hrem.1], by omega, ?_⟩
            by_cases hlt2 : s1.size < s.size
            · exact .inl (by omega)
            · refine .inr ?_
              unfold AsyncSession.pollRead at hr
              split at hr
              · rename_i hp
                simp only [Prod.mk.injEq, PollRead.ready.injEq, ReadRes.ok.injEq] at hr
                have := congrArg List.length hr.2
                simp only [List.length_take, List.length_drop, List.length_nil] at this
                omega
              · rename_i hp
                split at hr
                rename_i i r' hi
                simp only [Prod.mk.injEq] at hr
                obtain ⟨rfl, rfl⟩ := hr
                simp only [AsyncSession.remaining, List.drop_of_length_le (Nat.le_of_not_lt hp),
                  List.nil_append]
                cases hin : s.inner with
                | nil =>
                  rw [hin] at hi
                  simp only [Source.pollRead, Prod.mk.injEq] at hi
                  rw [← hi.1]; rfl
                | cons e es =>
                  exfalso
                  rw [hin] at hi
                  simp only [AsyncSession.size, hin] at hlt2
                  cases e with
                  | pending => simp [Source.pollRead] at hi
                  | fail k => simp [Source.pollRead] at hi
                  | data ds =>
                    simp only [Source.pollRead] at hi
                    split at hi
                    · simp only [Prod.mk.injEq] at hi
                      rw [← hi.1] at hlt2
                      simp only [Source.size] at hlt2
                      omega
                    · simp only [Prod.mk.injEq, PollRead.ready.injEq, ReadRes.ok.injEq] at hi
                      have := congrArg List.length hi.2
                      simp only [List.length_take, List.length_nil] at this
                      omega
          | cons b bs =>
            simp only [reduceCtorEq, and_false, or_false, PollRead.ready.injEq, ReadRes.ok.injEq] at hdec
            simp only at hrem heq
            have hl : (writeAt buf n (b :: bs)).length = buf.length := writeAt_length (by omega)
            have := ih s1.size (by omega) s1 (writeAt buf n (b :: bs)) (n + (b :: bs).length)
              (by rw [hl]; omega) rfl
            rw [heq] at this
            simp only at this
            refine ⟨this.1, by rw [this.2.1, hl], ?_, by omega, by omega⟩
            rw [this.2.2.1, ← hrem.1, ← List.append_assoc]
            congr 1
            exact take_writeAt (by omega)
    · simp at heq

end Bip324
