import Verif.Lemmas.Cost

/-!
# C78: what a peer can cost

Work and memory that a peer causes, as a function of what it sends: the searches for the garbage terminator, the
packets of the handshake, and the vectors of a session read.
-/

namespace Bip324

variable {P : Prims} {prof : Profile}

/-! ## Searches for the terminator -/

/-- C78: one search over a buffer of `n` bytes compares at most `min n 4111 - 15` windows, and exactly as many when
the terminator is not among them. -/
theorem C78_search (h : HsSentVersion) (ht : h.remoteTerminator.length = 16) (buf : Bytes) :
    h.searchCost buf ≤ min buf.length 4111 - 15 ∧
    ((∀ i ≤ 4095, ¬ Spec.OccursAt h.remoteTerminator buf i) → h.searchCost buf = min buf.length 4111 - 15) :=
  searchCost_spec h ht buf

/-- Beside C78: a buffer of 40 bytes with the terminator at 20: 21 windows of the 25; without it all 25. -/
example : HsSentVersion.searchCost { sampleSentVersion with remoteTerminator := List.replicate 16 7 }
      (zeros 20 ++ List.replicate 16 7 ++ zeros 4) = 21 ∧
    HsSentVersion.searchCost { sampleSentVersion with remoteTerminator := List.replicate 16 7 } (zeros 40) = 25 := by
  decide +kernel

/-- C78: whatever the peer sends and however it segments it, a handshake searches at most 4096 times and compares at
most 8,390,656 windows. -/
theorem C78_searches (A : Api) (hP : Lawful P) (magic : Bytes) (role : Role) (rng : Bytes)
    (garbage : Option Bytes) (decoys : Option (List Bytes)) (reader : Source) (writer : Sink) :
    let log := (handshake A P prof magic role rng garbage decoys reader writer).2.1.garbage
    log.length ≤ 4096 ∧ (log.map fun n => min n 4111 - 15).sum ≤ 8390656 := by
  intro log
  have hlog : (handshake A P prof magic role rng garbage decoys reader writer).2.1.garbage = log := rfl
  generalize hh : handshake A P prof magic role rng garbage decoys reader writer = res at hlog
  obtain ⟨w, l, r⟩ := res
  simp only at hlog
  rcases handshake_stages A hP magic role rng garbage decoys reader writer hh with
    ⟨h, -⟩ | ⟨h3, key, gb, reader1, reader2, ht, -, -, hr2, -, hg, -⟩
  · rw [← hlog, h]; simp
  · have hgb := (readExact_bytes _ _ _ _ hr2).ok.1
    obtain ⟨c1, c2⟩ := garbageLoop_cost h3 ht gb reader2 (by omega)
    rw [← hlog, hg]
    have e : tri 4096 = 8390656 := by decide +kernel
    rw [e] at c2
    exact ⟨by omega, by omega⟩

/-- A peer that sends its key, 16 bytes `b` and then 4095 more of them, one per read. -/
def slowPeer (key : Bytes) (b : UInt8) : Source :=
  .data key :: .data (List.replicate 16 b) :: List.replicate 4095 (.data [b])

theorem occursAt_equal_bytes {t : Bytes} {b : UInt8} {n i : Nat} (ht : t.length = 16)
    (h : Spec.OccursAt t (List.replicate n b) i) : t = List.replicate 16 b := by
  obtain ⟨x, y, e, -⟩ := h
  have : ∀ z ∈ t, z = b := by
    intro z hz
    have : z ∈ List.replicate n b := by rw [e]; simp [hz]
    exact List.eq_of_mem_replicate this
  rw [← ht]
  exact List.eq_replicate_of_mem this

theorem garbageLoop_slow (h : HsSentVersion) (ht : h.remoteTerminator.length = 16) (b : UInt8)
    (hb : h.remoteTerminator ≠ List.replicate 16 b) (m : Nat) : ∀ n, n + m = 4111 →
    garbageLoop h (List.replicate n b) (List.replicate m (.data [b]))
      = (List.range' n (m + 1), .err (.internal .noGarbageTerminator)) := by
  have hno : ∀ n i, ¬ Spec.OccursAt h.remoteTerminator (List.replicate n b) i :=
    fun n i hc => hb (occursAt_equal_bytes ht hc)
  induction m with
  | zero =>
    intro n hn
    rw [garbageLoop_eq, (C21_no_terminator h ht _ .noGarbageTerminator).2
      ⟨rfl, by rw [List.length_replicate]; omega, fun i _ => hno n i⟩]
    simp
  | succ m ih =>
    intro n hn
    rw [garbageLoop_eq, (C21_need_more h ht _ h).2 ⟨rfl, by rw [List.length_replicate]; omega, hno n⟩]
    have hr : Source.read (List.replicate (m + 1) (.data [b])) 256 = (List.replicate m (.data [b]), .ok [b]) := rfl
    have hc : List.replicate n b ++ [b] = List.replicate (n + 1) b := (List.replicate_succ' ..).symm
    simp only [hr, hc, ih (n + 1) (by omega), List.length_replicate]
    rfl

theorem readExact_data (retry : Bool) (b : UInt8) (bs : Bytes) (s : Source) :
    Source.reader.readExact retry (.data (b :: bs) :: s) (b :: bs).length = (s, .ok (b :: bs)) := by
  rw [Reader.readExact_eq]
  have hr : Source.reader.read (.data (b :: bs) :: s) (b :: bs).length = (s, .ok (b :: bs)) := by
    show Source.read _ _ = _
    simp [Source.read]
  rw [if_neg (by simp), hr]
  simp only [Nat.sub_self, List.nil_append]
  exact Reader.readExact_zero _ _ _ _

/-- C78: the bound is reached: a peer sends 80 bytes and then 4095 more one at a time, all zeros or all ones (whichever
is not the terminator); the handshake searches 4096 times, at 16, 17, ..., 4111 bytes, which are 8,390,656 windows. -/
theorem C78_searches_attained (A : Api) (hP : Lawful P) (magic : Bytes) (role : Role) (rng : Bytes)
    (garbage : Option Bytes) (decoys : Option (List Bytes)) (key : Bytes) (hkey : key.length = 64) (writer : Sink)
    (h : (handshake A P prof magic role rng garbage decoys (slowPeer key 0) writer).2.1.garbage ≠ []) :
    (∃ b, (b = 0 ∨ b = 1) ∧
      (handshake A P prof magic role rng garbage decoys (slowPeer key b) writer).2.1.garbage = List.range' 16 4096) ∧
    ((List.range' 16 4096).map fun n => min n 4111 - 15).sum = 8390656 := by
  refine ⟨?_, by decide +kernel⟩
  obtain ⟨k0, ks, rfl⟩ : ∃ k0 ks, key = k0 :: ks := by
    cases key with
    | nil => simp at hkey
    | cons a l => exact ⟨a, l, rfl⟩
  have h64 : ∀ b, Source.reader.readExact A.retry (slowPeer (k0 :: ks) b) 64
      = (.data (List.replicate 16 b) :: List.replicate 4095 (.data [b]), .ok (k0 :: ks)) := by
    intro b
    rw [← hkey]
    exact readExact_data _ _ _ _
  have h16 : ∀ b : UInt8, Source.reader.readExact A.retry
      (.data (List.replicate 16 b) :: List.replicate 4095 (.data [b])) 16
      = (List.replicate 4095 (.data [b]), .ok (List.replicate 16 b)) :=
    fun b => readExact_data _ b (List.replicate 15 b) _
  generalize hh : handshake A P prof magic role rng garbage decoys (slowPeer (k0 :: ks) 0) writer = res at h
  obtain ⟨w, l, r⟩ := res
  rcases handshake_stages A hP magic role rng garbage decoys _ writer hh with
    ⟨h', -⟩ | ⟨h3, key, gb, reader1, reader2, ht, -, hr1, hr2, hall, hg, -⟩
  · simp [h'] at h
  · rw [h64] at hr1
    simp only [Prod.mk.injEq, Except.ok.injEq] at hr1
    obtain ⟨-, rfl⟩ := hr1
    have hb : ∃ b : UInt8, (b = 0 ∨ b = 1) ∧ h3.remoteTerminator ≠ List.replicate 16 b := by
      by_cases hz : h3.remoteTerminator = List.replicate 16 0
      · exact ⟨1, .inr rfl, by rw [hz]; decide⟩
      · exact ⟨0, .inl rfl, hz⟩
    obtain ⟨b, hb01, hb⟩ := hb
    refine ⟨b, hb01, ?_⟩
    rw [hall _ _ _ (h16 b) _ (h64 b), garbageLoop_slow h3 ht b hb 4095 16 rfl]

/-- Beside C78: a handshake that reaches the searches with such a peer. -/
example : (handshake syncApi toy .release [1, 2, 3, 4] .initiator (leBytes 32 77) none none
    [.data (zeros 64), .data (List.replicate 16 0), .data [0], .data [0]] ⟨[], [], []⟩).2.1.garbage = [16, 17, 18] := by
  decide +kernel

/-! ## Packets of the handshake -/

theorem mkSession_bytes {A : Api} (B : A.Abs) (l : Bytes) (src : Source) :
    (B.abs (A.mkSession l src)).bytes = l ++ src.bytes := by
  rw [B.mk_abs]
  cases l with
  | nil => rfl
  | cons b l => rfl

/-- C78: every packet the handshake allocated, but the last, was received in full with its three length bytes: the
handshake allocates at most what the peer sent plus one packet of 4,000,014 bytes. -/
theorem C78_packets {A : Api} (hA : A = syncApi ∨ A = asyncApi) (hP : Lawful P) (magic : Bytes) (role : Role)
    (rng : Bytes) (garbage : Option Bytes) (decoys : Option (List Bytes)) (reader : Source) (writer : Sink) :
    let log := (handshake A P prof magic role rng garbage decoys reader writer).2.1.packets
    (log.dropLast.map (· + 3)).sum ≤ reader.bytes.length ∧ log.sum ≤ reader.bytes.length + 4000014 := by
  intro log
  have key : (log.dropLast.map (· + 3)).sum ≤ reader.bytes.length := by
    have hlog : (handshake A P prof magic role rng garbage decoys reader writer).2.1.packets = log := rfl
    generalize hh : handshake A P prof magic role rng garbage decoys reader writer = res at hlog
    obtain ⟨w, l, r⟩ := res
    simp only at hlog
    obtain ⟨B⟩ := api_abs hA
    rcases handshake_stages A hP magic role rng garbage decoys reader writer hh with
      ⟨h, -⟩ | ⟨h3, key, gb, reader1, reader2, ht, -, hr1, hr2, -, hg, ⟨hp, -⟩ | ⟨h4, n, gb2, reader3, hgl, hp, -⟩⟩
    · rw [← hlog, h]; simp
    · rw [← hlog, hp]; simp
    · rw [← hlog, hp]
      have c := (versionLoop_cost (P := P) (prof := prof) B h4 (A.mkSession (gb2.drop n) reader3)).1
      have hb1 := congrArg List.length (readExact_bytes _ _ _ _ hr1).ok.2
      have hb2 := congrArg List.length (readExact_bytes _ _ _ _ hr2).ok.2
      have hb3 := (garbageLoop_bytes h3 gb reader2 hgl).1
      have hmk := mkSession_bytes B (gb2.drop n) reader3
      rw [hmk] at c
      simp only [List.length_append, List.length_drop] at hb1 hb2 c
      omega
  refine ⟨key, ?_⟩
  have hmax := (C27_bounds (prof := prof) A hP magic role rng garbage decoys reader writer).2
  have hd : log.sum ≤ (log.dropLast.map (· + 3)).sum + 4000014 := by
    change ∀ n ∈ log, n ≤ 4000014 at hmax
    clear key
    generalize log = l at hmax
    induction l with
    | nil => simp
    | cons x xs ih =>
      cases xs with
      | nil => have := hmax x (by simp); simpa using this
      | cons y ys =>
        have := ih (fun n hn => hmax n (by simp [hn]))
        rw [List.dropLast_cons_of_ne_nil (by simp)]
        simp only [List.map_cons, List.sum_cons] at this ⊢
        omega
  omega

/-- C78: there is no limit on the number of decoys in a handshake: the responder reads all of an initiator's. -/
theorem C78_decoys_unlimited (hP : Lawful P) {magic rngI rngR : Bytes} {gI gR : Option Bytes}
    {dI dR : Option (List Bytes)} (H : HonestPair P prof magic rngI rngR gI gR dI dR) {A : Api}
    (hA : A = syncApi ∨ A = asyncApi) (w : Sink) (hw : w.Reliable A.retry) (src tail : Source) (k : ErrorKind)
    (he : EndsWith A.retry tail k) (more : Bytes)
    (hs : Streams false src (wireI P magic rngI rngR gI dI ++ more) tail) :
    (∃ x, (handshake A P prof magic .responder rngR gR dR src w).2.2 = .ok x) ∧
    (dI.getD []).length + 1 ≤ (handshake A P prof magic .responder rngR gR dR src w).2.1.packets.length := by
  obtain ⟨B⟩ := api_abs hA
  obtain ⟨iI, iR, oI, oR, hm, -, -, fR, ⟨kL, kP, hat⟩, -⟩ := honest_sessions hP H
  obtain ⟨w', log, s, hh, -⟩ := fR A B w src tail k more hw he hs
  rw [hh]
  refine ⟨⟨_, rfl⟩, ?_⟩
  rcases handshake_stages A hP magic .responder rngR gR dR src w hh with
    ⟨-, h⟩ | ⟨h3, key, gb, reader1, reader2, ht, hc, hr1, hr2, -, hg, ⟨-, -, h⟩ | ⟨h4, n, gb2, reader3, hgl, hp, hr⟩⟩
  · exact absurd rfl (h _)
  · exact absurd rfl (h _)
  · have c := ((versionLoop_cost (P := P) (prof := prof) B h4 (A.mkSession (gb2.drop n) reader3)).2 _ _ _ hr.symm).2
    rw [(garbageLoop_bytes h3 gb reader2 hgl).2, hc, ← hp] at c
    have h1 := hat.2.1
    rw [hm.2, h1] at c
    simpa using c

/-! ## Session reads -/

theorem plaintextLen_some {n : Nat} (hn : 17 ≤ n) :
    InboundCipher.decryptionBufferLen prof n = some (n - 16) := by
  unfold InboundCipher.decryptionBufferLen usub
  rw [if_pos (by show 16 ≤ n; omega)]

/-- C78: one synchronous `read` allocates at most 16,777,232 bytes in all, the packet and the plaintext together. -/
theorem C78_read_bound (r : SyncReader) : (r.readAllocs P prof).sum ≤ 2 ^ 24 + 16 := by
  unfold SyncReader.readAllocs
  cases h1 : SyncSession.reader.readExact true r.reader NUM_LENGTH_BYTES with
  | mk s x =>
  cases x with
  | error k => simp
  | ok lb =>
  have hlb : lb.length = 3 := (sync_took _ _ h1).ok.1
  simp only
  cases h2 : r.cipher.decryptPacketLen P prof lb with
  | mk c x =>
  cases x with
  | panic => simp
  | err e => simp
  | ok n =>
  obtain ⟨b1, b2⟩ := C11_packet_len_bounds r.cipher c lb hlb n h2
  simp only [List.sum_cons]
  cases h3 : SyncSession.reader.readExact true s n with
  | mk s2 x =>
  cases x with
  | error k => simpa using b2
  | ok pb =>
  have hpb : pb.length = n := (sync_took _ _ h3).ok.1
  simp only [hpb, plaintextLen_some (prof := prof) b1]
  split
  · simpa using b2
  · rename_i hle
    have hm : MAX_PACKET_SIZE_FOR_ALLOCATION = 4000014 := rfl
    simp only [List.sum_cons, List.sum_nil]
    omega

/-- The three bytes that announce `n` to this cipher. -/
theorem length_bytes_exist (c : InboundCipher) (hp : prof.overflowChecks = false ∨
      (c.lengthCipher.blockCounter + 3 < 2 ^ 32 ∧ c.lengthCipher.chunkCounter + 1 < 2 ^ 32))
    (n : Nat) (h17 : 17 ≤ n) (hn : n ≤ 2 ^ 24 + 16) :
    ∃ lb c', lb.length = 3 ∧ c.decryptPacketLen P prof lb = (c', .ok n) := by
  obtain ⟨c', m, hm⟩ := C11_packet_len_total (P := P) (prof := prof) c (leBytes 3 (n - 17)) hp
  unfold InboundCipher.decryptPacketLen at hm
  cases hc : c.lengthCipher.crypt P prof (leBytes 3 (n - 17)) with
  | none => simp [hc] at hm
  | some x =>
  obtain ⟨lc, ct⟩ := x
  have hlen := FSStream.crypt_length hc
  have hback := FSStream.crypt_crypt hc
  refine ⟨ct, { c with lengthCipher := lc }, by simpa using hlen, ?_⟩
  unfold InboundCipher.decryptPacketLen
  rw [hback]
  simp only [leNat_leBytes, NUM_HEADER_BYTES, NUM_TAG_BYTES, Prod.mk.injEq, Outcome.ok.injEq, true_and]
  rw [Nat.mod_eq_of_lt (by omega)]
  omega

/-- C78: whoever can place three bytes on the connection makes the next `read` allocate any chosen size from 17 to
16,777,232 bytes, without any authentication and without sending one byte of the packet. -/
theorem C78_read_chosen (c : InboundCipher) (hp : prof.overflowChecks = false ∨
      (c.lengthCipher.blockCounter + 3 < 2 ^ 32 ∧ c.lengthCipher.chunkCounter + 1 < 2 ^ 32))
    (n : Nat) (h17 : 17 ≤ n) (hn : n ≤ 2 ^ 24 + 16) :
    ∃ lb, lb.length = 3 ∧
      SyncReader.readAllocs P prof ⟨c, ⟨lb, false, []⟩⟩ = [n] ∧
      (SyncReader.read P prof ⟨c, ⟨lb, false, []⟩⟩).2 = .err .eof ∧
      AsyncReader.pollAllocs P prof ⟨c, ⟨lb, 0, [.pending]⟩, .initReadingLength⟩ = [n] ∧
      AsyncReader.room (AsyncReader.poll P prof ⟨c, ⟨lb, 0, [.pending]⟩, .initReadingLength⟩).1 = n := by
  obtain ⟨lb, c', hl, hd⟩ := length_bytes_exist (P := P) c hp n h17 hn
  obtain ⟨x, y, z, rfl⟩ : ∃ x y z, lb = [x, y, z] := by
    match lb, hl with
    | [x, y, z], _ => exact ⟨x, y, z, rfl⟩
  have h1 : SyncSession.reader.readExact true ⟨[x, y, z], false, []⟩ NUM_LENGTH_BYTES
      = (⟨[], false, []⟩, .ok [x, y, z]) := by
    rw [Reader.readExact_eq]
    rw [if_neg (by decide)]
    have : SyncSession.reader.read ⟨[x, y, z], false, []⟩ NUM_LENGTH_BYTES = (⟨[], false, []⟩, .ok [x, y, z]) := rfl
    rw [this]
    simp only [List.nil_append]
    exact Reader.readExact_zero _ _ _ _
  have h2 : ∃ s, SyncSession.reader.readExact true ⟨[], false, []⟩ n = (s, .error .unexpectedEof) := by
    rw [Reader.readExact_eq, if_neg (by omega)]
    have : SyncSession.reader.read ⟨[], false, []⟩ n = (⟨[], true, []⟩, .ok []) := by
      unfold SyncSession.reader SyncSession.read
      have h0 : n ≠ 0 := by omega
      simp [Source.read, h0]
    rw [this]
    exact ⟨_, rfl⟩
  obtain ⟨s, h2⟩ := h2
  have h3 : pollFill ⟨[x, y, z], 0, [.pending]⟩ (zeros 3) 0 = .full ⟨[x, y, z], 3, [.pending]⟩ [x, y, z] 3 := by
    rw [pollFill_eq]
    rw [if_pos (by decide)]
    have : AsyncSession.pollRead ⟨[x, y, z], 0, [.pending]⟩ ((zeros 3).length - 0)
        = (⟨[x, y, z], 3, [.pending]⟩, .ready (.ok [x, y, z])) := rfl
    rw [this]
    simp only
    rw [pollFill_eq]
    rfl
  have h4 : ∀ buf : Bytes, buf.length = n →
      pollFill ⟨[x, y, z], 3, [.pending]⟩ buf 0 = .pending ⟨[x, y, z], 3, []⟩ buf 0 := by
    intro buf hb
    rw [pollFill_eq, if_pos (by omega)]
    rfl
  refine ⟨[x, y, z], rfl, ?_, ?_, ?_, ?_⟩
  · unfold SyncReader.readAllocs
    simp only [h1, hd, h2]
  · unfold SyncReader.read
    simp only [h1, hd, h2]
    rfl
  · unfold AsyncReader.pollAllocs DecryptState.initReadingLength
    simp only [NUM_LENGTH_BYTES, h3, hd]
    unfold AsyncReader.payloadAllocs
    simp only [h4 _ (zeros_length n)]
  · unfold AsyncReader.poll DecryptState.initReadingLength
    simp only [NUM_LENGTH_BYTES, h3, hd]
    unfold AsyncReader.pollPayload
    simp only [h4 _ (zeros_length n)]
    exact zeros_length n

theorem decrypt_not_too_big {c c' : InboundCipher} {ct pt buf : Bytes} {aad : Option Bytes} {e : Error}
    (h : c.decrypt P prof ct pt aad = (c', buf, .err e)) : e ≠ .packetTooBig := by
  unfold InboundCipher.decrypt at h
  split at h
  · simp only [Prod.mk.injEq, Outcome.err.injEq] at h
    rw [← h.2.2]; simp
  · simp only at h
    split at h
    · simp only [Prod.mk.injEq, Outcome.err.injEq] at h
      rw [← h.2.2]; simp
    · split at h
      · simp at h
      · simp only [Prod.mk.injEq, Outcome.err.injEq] at h
        rw [← h.2.2]; simp
      · split at h <;> simp at h

/-- C78: the synchronous `read` answers `PacketTooBig` only after it has read all of a packet of more than 4,000,030
bytes. -/
theorem C78_too_big_late (r r' : SyncReader) (h : r.read P prof = (r', .err (.internal .packetTooBig))) :
    ∃ n, 4000030 < n ∧ n ≤ 2 ^ 24 + 16 ∧ r.readAllocs P prof = [n] ∧
      r.reader.bytes.length = 3 + n + r'.reader.bytes.length := by
  unfold SyncReader.read at h
  unfold SyncReader.readAllocs
  cases h1 : SyncSession.reader.readExact true r.reader NUM_LENGTH_BYTES with
  | mk s x =>
  rw [h1] at h
  cases x with
  | error k =>
    simp only [Prod.mk.injEq, Outcome.err.injEq] at h
    unfold ProtocolError.fromIo at h
    exact absurd h.2 (by split <;> simp)
  | ok lb =>
  obtain ⟨hlb, hb1⟩ := (sync_took _ _ h1).ok
  simp only at h ⊢
  cases h2 : r.cipher.decryptPacketLen P prof lb with
  | mk c x =>
  rw [h2] at h
  cases x with
  | panic => simp at h
  | err e =>
    exfalso
    unfold InboundCipher.decryptPacketLen at h2
    split at h2 <;> simp at h2
  | ok n =>
  obtain ⟨b1, b2⟩ := C11_packet_len_bounds r.cipher c lb hlb n h2
  simp only at h ⊢
  cases h3 : SyncSession.reader.readExact true s n with
  | mk s2 x =>
  rw [h3] at h
  cases x with
  | error k =>
    simp only [Prod.mk.injEq, Outcome.err.injEq] at h
    unfold ProtocolError.fromIo at h
    exact absurd h.2 (by split <;> simp)
  | ok pb =>
  obtain ⟨hpb, hb2⟩ := (sync_took _ _ h3).ok
  have hm : MAX_PACKET_SIZE_FOR_ALLOCATION = 4000014 := rfl
  have l1 := congrArg List.length hb1
  have l2 := congrArg List.length hb2
  rw [List.length_append, hlb] at l1
  rw [List.length_append, hpb] at l2
  have e3 : NUM_LENGTH_BYTES = 3 := rfl
  simp only [hpb, plaintextLen_some (prof := prof) b1] at h ⊢
  by_cases hbig : n - 16 > MAX_PACKET_SIZE_FOR_ALLOCATION
  · refine ⟨n, by omega, b2, by rw [if_pos hbig], ?_⟩
    have hdv : c.decryptToVec P prof pb none = (c, .err .packetTooBig) := by
      unfold InboundCipher.decryptToVec
      simp only [hpb, plaintextLen_some (prof := prof) b1]
      rw [if_pos hbig]
    rw [hdv] at h
    simp only [Prod.mk.injEq] at h
    rw [← h.1]
    simp only
    omega
  · exfalso
    cases hdv : c.decryptToVec P prof pb none with
    | mk c2 x =>
    rw [hdv] at h
    cases x with
    | panic => simp at h
    | ok y => simp only at h; split at h <;> simp at h
    | err e =>
      simp only [Prod.mk.injEq, Outcome.err.injEq, ProtocolError.internal.injEq] at h
      rw [h.2] at hdv
      unfold InboundCipher.decryptToVec at hdv
      simp only [hpb, plaintextLen_some (prof := prof) b1] at hdv
      rw [if_neg hbig] at hdv
      cases hdd : c.decrypt P prof pb (zeros (n - 16)) none with
      | mk c3 y =>
      obtain ⟨buf, y⟩ := y
      rw [hdd] at hdv
      cases y with
      | ok ty => simp at hdv
      | panic => simp at hdv
      | err e2 =>
        simp only [Prod.mk.injEq, Outcome.err.injEq] at hdv
        exact decrypt_not_too_big hdd hdv.2

/-! ## Asynchronous reads -/

/-- The states an asynchronous reader gets into: three bytes for a length, or room for one packet. -/
def AsyncReader.Roomed (r : AsyncReader) : Prop :=
  match r.state with
  | .readingLength b k => b.length = 3 ∧ k ≤ 3
  | .readingPayload b k => 17 ≤ b.length ∧ b.length ≤ 2 ^ 24 + 16 ∧ k ≤ b.length

theorem payload_sized (c : InboundCipher) (s : AsyncSession) (b : Bytes) (k : Nat) (h1 : 17 ≤ b.length)
    (h2 : b.length ≤ 2 ^ 24 + 16) (hk : k ≤ b.length) :
    (AsyncReader.pollPayload P prof c s b k).1.Roomed ∧
    (AsyncReader.payloadAllocs prof s b k).sum ≤ b.length - 16 := by
  unfold AsyncReader.pollPayload AsyncReader.payloadAllocs
  have hs := pollFill_spec s b k hk
  cases hp : pollFill s b k with
  | pending s' b' k' =>
    rw [hp] at hs
    exact ⟨⟨by omega, by omega, by omega⟩, by simp⟩
  | err s' b' k' e =>
    rw [hp] at hs
    exact ⟨⟨by omega, by omega, by omega⟩, by simp⟩
  | full s' b' k' =>
    rw [hp] at hs
    simp only at hs
    simp only [plaintextLen_some (prof := prof) (show 17 ≤ b'.length by omega)]
    refine ⟨?_, by simp; omega⟩
    have hsz : ∀ c', AsyncReader.Roomed ⟨c', s', .readingPayload b' k'⟩ := fun _ => ⟨by omega, by omega, by omega⟩
    have hin : ∀ c', AsyncReader.Roomed ⟨c', s', .initReadingLength⟩ := fun _ => ⟨rfl, by omega⟩
    split
    · exact hsz _
    · exact hsz _
    · split
      · exact hin _
      · exact hin _

/-- C78: over any sequence of polls an asynchronous reader never has more than 33,554,448 bytes for one read: the
packet it holds plus the vectors the poll allocates.  `Roomed` holds at the start and after every poll. -/
theorem C78_poll_bound (r : AsyncReader) (h : r.Roomed) :
    (r.poll P prof).1.Roomed ∧ r.room + (r.pollAllocs P prof).sum ≤ 33554448 := by
  unfold AsyncReader.poll AsyncReader.pollAllocs AsyncReader.room
  unfold AsyncReader.Roomed at h
  cases hst : r.state with
  | readingLength b k =>
    rw [hst] at h
    simp only at h ⊢
    have hs := pollFill_spec r.reader b k (by omega)
    cases hp : pollFill r.reader b k with
    | pending s' b' k' =>
      rw [hp] at hs
      exact ⟨⟨by omega, by omega⟩, by simp⟩
    | err s' b' k' e =>
      rw [hp] at hs
      exact ⟨⟨by omega, by omega⟩, by simp⟩
    | full s' b' k' =>
      rw [hp] at hs
      simp only at hs ⊢
      cases hd : r.cipher.decryptPacketLen P prof b' with
      | mk c x =>
      cases x with
      | panic => exact ⟨⟨by omega, by omega⟩, by simp⟩
      | err e => exact ⟨⟨by omega, by omega⟩, by simp⟩
      | ok n =>
        obtain ⟨b1, b2⟩ := C11_packet_len_bounds r.cipher c b' (by omega) n hd
        obtain ⟨p1, p2⟩ := payload_sized (P := P) (prof := prof) c s' (zeros n) 0 (by rw [zeros_length]; omega)
          (by rw [zeros_length]; omega) (by omega)
        rw [zeros_length] at p2
        refine ⟨p1, ?_⟩
        simp only [List.sum_cons]
        omega
  | readingPayload b k =>
    rw [hst] at h
    simp only at h ⊢
    obtain ⟨p1, p2⟩ := payload_sized (P := P) (prof := prof) r.cipher r.reader b k h.1 h.2.1 h.2.2
    exact ⟨p1, by omega⟩

/-- C78: the asynchronous reader has no limit of its own: for every announced size from 17 to 16,777,232 bytes it
allocates the plaintext as well, whatever the bytes are, so the bound of 33,554,448 is reached. -/
theorem C78_poll_attained (c : InboundCipher) (hp : prof.overflowChecks = false ∨
      (c.lengthCipher.blockCounter + 3 < 2 ^ 32 ∧ c.lengthCipher.chunkCounter + 1 < 2 ^ 32))
    (n : Nat) (h17 : 17 ≤ n) (hn : n ≤ 2 ^ 24 + 16) :
    ∃ lb, lb.length = 3 ∧ ∀ junk : Bytes, junk.length = n →
      AsyncReader.pollAllocs P prof ⟨c, ⟨lb ++ junk, 0, []⟩, .initReadingLength⟩ = [n, n - 16] := by
  obtain ⟨lb, c', hl, hd⟩ := length_bytes_exist (P := P) c hp n h17 hn
  obtain ⟨x, y, z, rfl⟩ : ∃ x y z, lb = [x, y, z] := by
    match lb, hl with
    | [x, y, z], _ => exact ⟨x, y, z, rfl⟩
  refine ⟨[x, y, z], rfl, fun junk hj => ?_⟩
  have h3 : pollFill ⟨[x, y, z] ++ junk, 0, []⟩ (zeros 3) 0 = .full ⟨[x, y, z] ++ junk, 3, []⟩ [x, y, z] 3 := by
    rw [pollFill_eq, if_pos (by decide)]
    have : AsyncSession.pollRead ⟨[x, y, z] ++ junk, 0, []⟩ ((zeros 3).length - 0)
        = (⟨[x, y, z] ++ junk, 3, []⟩, .ready (.ok [x, y, z])) := by
      unfold AsyncSession.pollRead
      rw [if_pos (by simp)]
      have e : min ([x, y, z] ++ junk).length (zeros 3).length = 3 := by rw [zeros_length]; simp
      simp only [List.drop_zero, Nat.sub_zero, e]
      rfl
    rw [this]
    simp only
    rw [pollFill_eq]
    rfl
  have h4 : ∃ s, pollFill ⟨[x, y, z] ++ junk, 3, []⟩ (zeros n) 0 = .full s junk n := by
    rw [pollFill_eq, if_pos (by rw [zeros_length]; omega)]
    cases junk with
    | nil => simp at hj; omega
    | cons j js =>
    have : AsyncSession.pollRead ⟨[x, y, z] ++ (j :: js), 3, []⟩ ((zeros n).length - 0)
        = (⟨[x, y, z] ++ (j :: js), 3 + n, []⟩, .ready (.ok (j :: js))) := by
      unfold AsyncSession.pollRead
      rw [if_pos (by simp)]
      have e : List.drop 3 ([x, y, z] ++ (j :: js)) = j :: js := rfl
      simp only [e, hj, zeros_length, Nat.sub_zero, Nat.min_self]
      rw [← hj, List.take_length]
    rw [this]
    simp only
    have hw : writeAt (zeros n) 0 (j :: js) = j :: js := by
      unfold writeAt
      simp [hj]
    rw [hw, pollFill_eq, if_neg (by omega)]
    exact ⟨⟨[x, y, z] ++ (j :: js), 3 + n, []⟩, by rw [hj, Nat.zero_add]⟩
  obtain ⟨s, h4⟩ := h4
  unfold AsyncReader.pollAllocs DecryptState.initReadingLength
  simp only [NUM_LENGTH_BYTES, h3, hd]
  unfold AsyncReader.payloadAllocs
  simp only [h4, hj, plaintextLen_some (prof := prof) h17]
  rfl

/-- Beside C78: fresh readers meet the hypotheses, and reading one packet of 20 bytes with `toy`. -/
example : (AsyncReader.mk ⟨⟨zeros 32, 0, 0⟩, ⟨zeros 32, 0⟩⟩ ⟨[], 0, []⟩ .initReadingLength).Roomed ∧
    SyncReader.readAllocs toy .debug ⟨⟨⟨zeros 32, 0, 0⟩, ⟨zeros 32, 0⟩⟩, ⟨[2, 8, 15] ++ zeros 20, false, []⟩⟩ = [20, 4] ∧
    AsyncReader.pollAllocs toy .debug
      ⟨⟨⟨zeros 32, 0, 0⟩, ⟨zeros 32, 0⟩⟩, ⟨[2, 8, 15] ++ zeros 20, 0, []⟩, .initReadingLength⟩ = [20, 4] :=
  ⟨⟨rfl, by decide⟩, by decide +kernel, by decide +kernel⟩

end Bip324
