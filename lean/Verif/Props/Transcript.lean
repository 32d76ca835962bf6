import Verif.Lemmas.HandshakeAccept
import Verif.Props.EndToEnd

/-!
# C46, C47, C48: which byte streams are accepted, and what is sent

Nothing is assumed about who produced the bytes: the theorems say which byte streams lead to which results.
-/

namespace Bip324

variable {P : Prims} {prof : Profile}

/-! ## C46: established sessions -/

/-- What `read` returns for a packet with this header and these contents. -/
def delivered (m : UInt8 × Bytes) : Payload := .decrypted (m.1 :: m.2)

/-- The caller sees the type that the header says, and the contents. -/
theorem delivered_view (m : UInt8 × Bytes) :
    (delivered m).view = some (if m.1 = 0x80 then .decoy else .genuine, m.2) := by
  unfold delivered Payload.view Payload.packetType Payload.contents PacketType.fromByte
  simp only
  rfl

theorem packetStream_append (kL kP : Bytes) (n : Nat) (aad : Bytes) (m : UInt8 × Bytes)
    (ms : List (UInt8 × Bytes)) :
    Spec.packetStream P kL kP n aad (m :: ms)
      = Spec.rawPacket P kL kP n m.1 aad m.2 ++ Spec.packetStream P kL kP (n + 1) [] ms := rfl

/-- C46, blocking API: if `k` reads in a row return payloads, then the bytes taken off the stream are, without
gap, the packets number `n`, ..., `n + k - 1` of this direction carrying these payloads, and the reader is
ready for packet `n + k`.  Any transport: any segmentation, any errors. -/
theorem C46_sync (hP : Lawful P) {kL kP : Bytes} (k : Nat) : ∀ {n : Nat} {r r' : SyncReader}
    {xs : List (Outcome ProtocolError Payload)}, r.cipher.At P kL kP n → n + k < 2 ^ 32 →
    r.readMany P prof k = (r', xs) → (∀ x ∈ xs, ∃ p, x = .ok p) →
    ∃ ms : List (UInt8 × Bytes), xs = ms.map (fun m => .ok (delivered m)) ∧ ms.length = k ∧
      (∀ m ∈ ms, m.2.length ≤ 4000013) ∧
      r.reader.bytes = Spec.packetStream P kL kP n [] ms ++ r'.reader.bytes ∧
      r'.cipher.At P kL kP (n + k) := by
  induction k with
  | zero =>
    intro n r r' xs hat hn hr hok
    simp only [SyncReader.readMany, Prod.mk.injEq] at hr
    obtain ⟨rfl, rfl⟩ := hr
    exact ⟨[], rfl, rfl, by simp, rfl, hat⟩
  | succ k ih =>
    intro n r r' xs hat hn hr hok
    unfold SyncReader.readMany at hr
    cases h1 : r.read P prof with
    | mk r1 x =>
    rw [h1] at hr
    simp only at hr
    cases h2 : r1.readMany P prof k with
    | mk r2 xs2 =>
    rw [h2] at hr
    simp only [Prod.mk.injEq] at hr
    obtain ⟨rfl, rfl⟩ := hr
    obtain ⟨p, rfl⟩ := hok x (by simp)
    obtain ⟨header, contents, rfl, hc, hat1, hb⟩ := sync_read_sound hP hat (by omega) h1
    obtain ⟨ms, rfl, hl, hms, hb2, hat2⟩ := ih hat1 (by omega) h2 (fun x hx => hok x (by simp [hx]))
    refine ⟨(header, contents) :: ms, rfl, by simp [hl], ?_, ?_, ?_⟩
    · intro m hm
      rcases List.mem_cons.1 hm with rfl | hm
      · exact hc
      · exact hms m hm
    · rw [hb, hb2, packetStream_append, List.append_assoc]
    · rw [show n + (k + 1) = n + 1 + k by omega]; exact hat2

/-- C46, blocking API, also after errors: whatever reads are made and whatever they return, the payloads
returned so far have been sealed, in this order, under consecutive packet numbers starting at `n`, and the
sealed packets occur in this order in the bytes taken off the stream.  No payload is returned twice, out of
order, or without having been sealed under the session's key. -/
theorem C46_sync_after_errors (hP : Lawful P) {kP : Bytes} (k : Nat) : ∀ {n : Nat} {r r' : SyncReader}
    {xs : List (Outcome ProtocolError Payload)}, r.cipher.packetCipher.At P kP n → n + k < 2 ^ 64 →
    r.readMany P prof k = (r', xs) →
    ∃ (ms : List (UInt8 × Bytes)) (taken : Bytes), payloads xs = ms.map delivered ∧
      (∀ m ∈ ms, m.2.length ≤ 4000013) ∧
      r.reader.bytes = taken ++ r'.reader.bytes ∧ Spec.Carries P kP n ms taken ∧
      r'.cipher.packetCipher.At P kP (n + ms.length) := by
  induction k with
  | zero =>
    intro n r r' xs hat hn hr
    simp only [SyncReader.readMany, Prod.mk.injEq] at hr
    obtain ⟨rfl, rfl⟩ := hr
    exact ⟨[], [], rfl, by simp, rfl, trivial, hat⟩
  | succ k ih =>
    intro n r r' xs hat hn hr
    unfold SyncReader.readMany at hr
    cases h1 : r.read P prof with
    | mk r1 x =>
    rw [h1] at hr
    simp only at hr
    cases h2 : r1.readMany P prof k with
    | mk r2 xs2 =>
    rw [h2] at hr
    simp only [Prod.mk.injEq] at hr
    obtain ⟨rfl, rfl⟩ := hr
    rcases sync_read_carries hP hat (by omega) h1 with
      ⟨header, contents, before, rfl, hc, hat1, hb⟩ | ⟨hx, hat1, lost, hb⟩
    · obtain ⟨ms, taken, hp, hms, hb2, hca, hat2⟩ := ih hat1 (by omega) h2
      refine ⟨(header, contents) :: ms, before ++ Spec.sealedPart P kP n header [] contents ++ taken, ?_, ?_, ?_,
        ⟨before, taken, rfl, hca⟩, ?_⟩
      · simp only [payloads, hp, List.map_cons]; rfl
      · intro m hm
        rcases List.mem_cons.1 hm with rfl | hm
        · exact hc
        · exact hms m hm
      · rw [hb, hb2]; simp only [List.append_assoc]
      · rw [List.length_cons, show n + (ms.length + 1) = n + 1 + ms.length by omega]; exact hat2
    · obtain ⟨ms, taken, hp, hms, hb2, hca, hat2⟩ := ih hat1 (by omega) h2
      refine ⟨ms, lost ++ taken, ?_, hms, by rw [hb, hb2, List.append_assoc], ?_, hat2⟩
      · rw [← hp]
        cases x with
        | ok p => exact absurd rfl (hx p)
        | err e => rfl
        | panic => rfl
      · cases ms with
        | nil => trivial
        | cons m ms =>
          obtain ⟨b, a, he, hrest⟩ := hca
          exact ⟨lost ++ b, a, by rw [he]; simp only [List.append_assoc], hrest⟩

/-- C46, blocking API, exactness: on a stream of bytes a read returns a payload if and only if the stream
begins with packet number `n` of this direction, with at most 4000013 bytes of contents; then it is that
packet's payload and the rest of the stream is left. -/
theorem C46_sync_exact (hP : Lawful P) {kL kP : Bytes} {n : Nat} {r : SyncReader} (hat : r.cipher.At P kL kP n)
    (hn : n + 1 < 2 ^ 32) {bs : Bytes} {tail : Source} {k : ErrorKind} (hend : EndsWith true tail k)
    (hs : SyncStreams r.reader bs tail) :
    (∃ m rest r', bs = Spec.rawPacket P kL kP n m.1 [] m.2 ++ rest ∧ m.2.length ≤ 4000013 ∧
      r.read P prof = (r', .ok (delivered m)) ∧ r'.cipher.At P kL kP (n + 1) ∧
      SyncStreams r'.reader rest tail) ∨
    ((∀ header contents rest, contents.length ≤ 4000013 →
        bs ≠ Spec.rawPacket P kL kP n header [] contents ++ rest) ∧
      ∃ r' e, r.read P prof = (r', .err e)) := by
  have hlb := fun len => lengthBytes_length (P := P) kL n len
  obtain ⟨hr1, hr2⟩ := sync_readExact hend hs 3
  by_cases h3 : bs.length < 3
  · obtain ⟨s', he⟩ := hr2 h3
    refine .inr ⟨fun header contents rest _ hb => ?_, ⟨r.cipher, s'⟩, .fromIo k, ?_⟩
    · rw [hb, List.length_append, rawPacket_length hP] at h3
      omega
    · unfold SyncReader.read
      rw [show NUM_LENGTH_BYTES = 3 from rfl, he]
  obtain ⟨s1, he1, hs1⟩ := hr1 (by omega)
  obtain ⟨i1, len, hlen, hd, hh, hx⟩ := decryptPacketLen_at (prof := prof) hat hn (bs.take 3)
    (by rw [List.length_take]; omega)
  have hannounced : ∀ header contents rest, contents.length ≤ 4000013 →
      bs = Spec.rawPacket P kL kP n header [] contents ++ rest →
      contents.length = len ∧ bs.drop 3 = Spec.sealedPart P kP n header [] contents ++ rest := by
    intro header contents rest hc hb
    rw [rawPacket_eq, List.append_assoc] at hb
    have e1 : bs.take 3 = Spec.xor (Spec.le 3 contents.length) (Spec.lengthMask P kL n) := by
      rw [hb]; exact take_append_len _ _ (hlb _).symm
    refine ⟨lengthBytes_inj (by omega) hlen (e1.symm.trans hx), ?_⟩
    rw [hb]; exact drop_append_len _ _ (hlb _).symm
  obtain ⟨hr3, hr4⟩ := sync_readExact hend hs1 (len + 17)
  by_cases hshort : (bs.drop 3).length < len + 17
  · obtain ⟨s', he⟩ := hr4 hshort
    refine .inr ⟨fun header contents rest hc hb => ?_, ⟨i1, s'⟩, .fromIo k, ?_⟩
    · obtain ⟨hcl, hdr⟩ := hannounced header contents rest hc hb
      rw [hdr, List.length_append, sealedPart_length hP] at hshort
      omega
    · unfold SyncReader.read
      rw [show NUM_LENGTH_BYTES = 3 from rfl, he1]
      simp only [hd, he]
  obtain ⟨s2, he2, hs2⟩ := hr3 (by omega)
  have hctl : ((bs.drop 3).take (len + 17)).length = len + 17 := by
    rw [List.length_take]; omega
  rcases decryptToVec_at (prof := prof) hP hh.2 (by omega) ((bs.drop 3).take (len + 17)) none (by omega) with
    ⟨header, contents, i', he, hc, hi, hpc, hv⟩ | ⟨hno, e, hv⟩
  · refine .inl ⟨(header, contents), (bs.drop 3).drop (len + 17), ⟨i', s2⟩, ?_, hc, ?_,
      ⟨by rw [hi]; exact hh.1, hpc⟩, hs2⟩
    · have hcl : contents.length = len := by
        have := congrArg List.length he
        rw [hctl, sealedPart_length hP] at this
        omega
      show bs = Spec.rawPacket P kL kP n header [] contents ++ _
      rw [rawPacket_eq, hcl, ← hx]
      have e2 : Spec.sealedPart P kP n header [] contents = (bs.drop 3).take (len + 17) := he.symm
      rw [e2, List.append_assoc, List.take_append_drop, List.take_append_drop]
    · unfold SyncReader.read
      rw [show NUM_LENGTH_BYTES = 3 from rfl, he1]
      simp only [hd, he2, hv, mkDecrypted_cons]
      rfl
  · refine .inr ⟨fun header contents rest hc hb => ?_, ⟨i1, s2⟩, .internal e, ?_⟩
    · obtain ⟨hcl, hdr⟩ := hannounced header contents rest hc hb
      apply hno header contents hc
      rw [hdr]
      exact take_append_len _ _ (by rw [sealedPart_length hP]; omega)
    · unfold SyncReader.read
      rw [show NUM_LENGTH_BYTES = 3 from rfl, he1]
      simp only [hd, he2, hv]

/-- C46, asynchronous API: for every sequence of polls and cancellations and every transport (any
segmentation, `Pending`s and errors anywhere), the payloads delivered are those of the packets number
`n`, `n + 1`, ... at the front of the stream, without gap; nothing panics.  What is neither part of a
delivered packet nor still to come from the transport is held by the reader as part of the next packet. -/
theorem C46_async (hP : Lawful P) {kL kP : Bytes} (es : List ReadEvent) : ∀ {n : Nat} {bs : Bytes}
    {r r' : AsyncReader} {xs : List (Outcome ProtocolError Payload)}, r.Reads P kL kP n bs →
    n + es.length < 2 ^ 32 → r.run P prof es = (r', xs) →
    ∃ (ms : List (UInt8 × Bytes)) (rest : Bytes), payloads xs = ms.map delivered ∧ (∀ x ∈ xs, x ≠ .panic) ∧
      (∀ m ∈ ms, m.2.length < 2 ^ 24) ∧
      bs = Spec.packetStream P kL kP n [] ms ++ rest ∧ r'.Reads P kL kP (n + ms.length) rest := by
  induction es with
  | nil =>
    intro n bs r r' xs hr hn he
    simp only [AsyncReader.run, Prod.mk.injEq] at he
    obtain ⟨rfl, rfl⟩ := he
    exact ⟨[], bs, rfl, by simp, by simp, rfl, hr⟩
  | cons e es ih =>
    intro n bs r r' xs hr hn he
    rw [List.length_cons] at hn
    cases e with
    | cancel => exact ih hr (by omega) he
    | poll =>
      unfold AsyncReader.run at he
      have hp := poll_sound (prof := prof) hP (by omega) r hr
      cases h1 : r.poll P prof with
      | mk r1 x =>
      rw [h1] at hp he
      cases x with
      | pending => exact ih hp (by omega) he
      | ready x =>
        simp only at he
        cases h2 : r1.run P prof es with
        | mk r2 ys =>
        rw [h2] at he
        simp only [Prod.mk.injEq] at he
        obtain ⟨rfl, rfl⟩ := he
        cases x with
        | panic => exact absurd hp id
        | err e =>
          obtain ⟨ms, rest, a, b, c, d, f⟩ := ih hp (by omega) h2
          refine ⟨ms, rest, a, ?_, c, d, f⟩
          intro y hy
          rcases List.mem_cons.1 hy with rfl | hy
          · simp
          · exact b y hy
        | ok p =>
          obtain ⟨header, contents, bs', rfl, hc, hb, hr1⟩ := hp
          obtain ⟨ms, rest, a, b, c, d, f⟩ := ih hr1 (by omega) h2
          refine ⟨(header, contents) :: ms, rest, ?_, ?_, ?_, ?_, ?_⟩
          · simp only [payloads, a, List.map_cons]; rfl
          · intro y hy
            rcases List.mem_cons.1 hy with rfl | hy
            · simp
            · exact b y hy
          · intro m hm
            rcases List.mem_cons.1 hm with rfl | hm
            · exact hc
            · exact c m hm
          · rw [hb, d, packetStream_append, List.append_assoc]
          · rw [List.length_cons, show n + (ms.length + 1) = n + 1 + ms.length by omega]; exact f

/-- A fresh asynchronous reader has the whole stream before it. -/
theorem fresh_reads {kL kP : Bytes} {n : Nat} {r : AsyncReader} (hat : r.cipher.At P kL kP n)
    (hst : r.state = .initReadingLength) : r.Reads P kL kP n r.reader.remaining := by
  unfold AsyncReader.Reads
  rw [hst]
  exact ⟨rfl, by omega, hat, rfl⟩

/-- Between packets the reader holds nothing; otherwise less than one packet. -/
theorem reads_rest {kL kP : Bytes} {n : Nat} {bs : Bytes} {r : AsyncReader} (h : r.Reads P kL kP n bs) :
    (r.state = .initReadingLength → bs = r.reader.remaining) ∧
      ∃ held, bs = held ++ r.reader.remaining ∧ held.length < 2 ^ 24 + 20 := by
  obtain ⟨c, s, st⟩ := r
  cases st with
  | readingLength buf k =>
    obtain ⟨h1, h2, h3, h4⟩ := h
    refine ⟨fun he => ?_, buf.take k, h4, by rw [List.length_take]; omega⟩
    simp only [DecryptState.initReadingLength, DecryptState.readingLength.injEq] at he
    rw [h4, he.2]
    rfl
  | readingPayload buf k =>
    obtain ⟨len, h1, h2, h3, h4, h5⟩ := h
    refine ⟨fun he => by simp [DecryptState.initReadingLength] at he, _, by rw [h5, ← List.append_assoc], ?_⟩
    rw [List.length_append, lengthBytes_length, List.length_take]
    omega

/-! ## C47, C48: handshakes -/

theorem AsyncSession.abs_bytes (s : AsyncSession) : s.abs.bytes = s.remaining := by
  unfold AsyncSession.abs AsyncSession.remaining
  by_cases h : s.leftoverPos < s.leftover.length
  · rw [if_pos h]; rfl
  · rw [if_neg h, List.drop_of_length_le (by omega)]; rfl

/-- C47, soundness, blocking API: if the handshake succeeds, then the peer's bytes are an admissible
transcript under the keys derived from the key the peer sent, the session reader is left with exactly the
bytes after it, and both ciphers stand at the packet numbers reached.  Any transport. -/
theorem C47_sync_sound (hP : Lawful P) {magic rng : Bytes} {role : Role} {g : Option Bytes}
    {d : Option (List Bytes)} {reader : Source} {writer w' : Sink} {log : HsLog} {i : InboundCipher}
    {o : OutboundCipher} {s : SyncSession} (hd : (d.getD []).length + 1 < 2 ^ 32)
    (hlen : reader.bytes.length < 2 ^ 36)
    (hr : handshake syncApi P prof magic role rng g d reader writer = (w', log, .ok (i, o, s))) :
    ∃ peerKey garbage decoys version,
      let D := Spec.directions P magic (P.ellswift rng) peerKey rng role.initiating
      Spec.Admissible magic D.2.2.2 peerKey garbage decoys version ∧
      reader.bytes = Spec.peerTranscript P D.2 peerKey garbage decoys version ++ s.bytes ∧
      i.At P D.2.1 D.2.2.1 (decoys.length + 1) ∧ o.At P D.1.1 D.1.2.1 ((d.getD []).length + 1) ∧
      w'.out = writer.out ++ Spec.ownTranscript P D.1 (P.ellswift rng) (g.getD []) (d.getD []) :=
  (handshake_sound syncAbs hP hd hr).2 hlen i o s rfl

/-- C47, soundness, asynchronous API. -/
theorem C47_async_sound (hP : Lawful P) {magic rng : Bytes} {role : Role} {g : Option Bytes}
    {d : Option (List Bytes)} {reader : Source} {writer w' : Sink} {log : HsLog} {i : InboundCipher}
    {o : OutboundCipher} {s : AsyncSession} (hd : (d.getD []).length + 1 < 2 ^ 32)
    (hlen : reader.bytes.length < 2 ^ 36)
    (hr : handshake asyncApi P prof magic role rng g d reader writer = (w', log, .ok (i, o, s))) :
    ∃ peerKey garbage decoys version,
      let D := Spec.directions P magic (P.ellswift rng) peerKey rng role.initiating
      Spec.Admissible magic D.2.2.2 peerKey garbage decoys version ∧
      reader.bytes = Spec.peerTranscript P D.2 peerKey garbage decoys version ++ s.remaining ∧
      i.At P D.2.1 D.2.2.1 (decoys.length + 1) ∧ o.At P D.1.1 D.1.2.1 ((d.getD []).length + 1) ∧
      w'.out = writer.out ++ Spec.ownTranscript P D.1 (P.ellswift rng) (g.getD []) (d.getD []) := by
  rw [← AsyncSession.abs_bytes]
  exact (handshake_sound asyncAbs hP hd hr).2 hlen i o s rfl

/-- C47, completeness, both APIs: every admissible transcript is accepted, in any segmentation. -/
theorem C47_complete {A : Api} (hA : A = syncApi ∨ A = asyncApi) (hP : Lawful P) {magic rng : Bytes}
    {role : Role} {g : Option Bytes} {d : Option (List Bytes)} {reader tail : Source} {k : ErrorKind}
    {writer : Sink}
    (hnew : Spec.UsableKey P prof rng)
    (hg : (g.getD []).length ≤ 4095) (hd : (d.getD []).length + 1 < 2 ^ 32)
    (hw : writer.Reliable A.retry) (hend : EndsWith A.retry tail k)
    {peerKey garbage : Bytes} {decoys : List Bytes} {version : UInt8 × Bytes} {rest : Bytes}
    (hn : decoys.length + 1 < 2 ^ 32)
    (hadm : Spec.Admissible magic
      (Spec.directions P magic (P.ellswift rng) peerKey rng role.initiating).2.2.2 peerKey garbage decoys version)
    (hs : Streams false reader (Spec.peerTranscript P
      (Spec.directions P magic (P.ellswift rng) peerKey rng role.initiating).2 peerKey garbage decoys version
        ++ rest) tail) :
    let D := Spec.directions P magic (P.ellswift rng) peerKey rng role.initiating
    ∃ w' log i o s, handshake A P prof magic role rng g d reader writer = (w', log, .ok (i, o, s)) ∧
      w'.out = writer.out ++ Spec.ownTranscript P D.1 (P.ellswift rng) (g.getD []) (d.getD []) ∧
      i.At P D.2.1 D.2.2.1 (decoys.length + 1) ∧ o.At P D.1.1 D.1.2.1 ((d.getD []).length + 1) ∧
      ∃ B : A.Abs, SessStreams B s rest tail := by
  obtain ⟨B⟩ := api_abs hA
  obtain ⟨w', log, i, o, s, h1, h2, h3, h4, h5⟩ :=
    handshake_complete (prof := prof) B hP hnew hg hd hw hend hn hadm hs
  exact ⟨w', log, i, o, s, h1, h2, h3, h4, B, h5⟩

/-- C47, both directions: over a reliable writer, the handshake succeeds on a stream of bytes if and only if
the stream begins with an admissible transcript. -/
theorem C47_iff {A : Api} (hA : A = syncApi ∨ A = asyncApi) (hP : Lawful P) {magic rng : Bytes}
    {role : Role} {g : Option Bytes} {d : Option (List Bytes)} {reader tail : Source} {k : ErrorKind}
    {writer : Sink}
    (hnew : Spec.UsableKey P prof rng)
    (hg : (g.getD []).length ≤ 4095) (hd : (d.getD []).length + 1 < 2 ^ 32)
    (hw : writer.Reliable A.retry) (hend : EndsWith A.retry tail k) {bs : Bytes} (hlen : bs.length < 2 ^ 36)
    (hs : Streams false reader bs tail) :
    (∃ w' log i o s, handshake A P prof magic role rng g d reader writer = (w', log, .ok (i, o, s))) ↔
    ∃ peerKey garbage decoys version rest,
      Spec.Admissible magic (Spec.directions P magic (P.ellswift rng) peerKey rng role.initiating).2.2.2
        peerKey garbage decoys version ∧
      bs = Spec.peerTranscript P (Spec.directions P magic (P.ellswift rng) peerKey rng role.initiating).2
        peerKey garbage decoys version ++ rest := by
  constructor
  · rintro ⟨w', log, i, o, s, hr⟩
    obtain ⟨B⟩ := api_abs hA
    have hr' : handshakeWithInitialized A P prof ⟨magic, role, rng, P.ellswift rng⟩ g d reader writer
        = (w', log, .ok (i, o, s)) := by
      unfold handshake at hr
      rw [newWithRng_ok hnew] at hr
      exact hr
    -- the same bytes in one piece, with nothing after them
    have hs0 : Streams false (if bs = [] then [] else [.data bs]) bs [] := by
      cases bs with
      | nil => exact ⟨[], by intro e he; simp at he, rfl, rfl⟩
      | cons b l =>
        refine ⟨[.data (b :: l)], ?_, rfl, by simp [Source.bytes]⟩
        intro e he
        rw [List.mem_singleton] at he
        exact .inr (.inl ⟨b, l, he⟩)
    have hb0 : Source.bytes (if bs = [] then [] else [.data bs]) = bs := by
      cases bs with
      | nil => rfl
      | cons b l => simp [Source.bytes]
    obtain ⟨-, f⟩ := handshake_flat (prof := prof) B hP hend ⟨magic, role, rng, P.ellswift rng⟩ g d reader bs hs writer
    obtain ⟨-, f0⟩ := handshake_flat (prof := prof) B hP (.inl ⟨rfl, rfl⟩)
      ⟨magic, role, rng, P.ellswift rng⟩ g d _ bs hs0 writer
    rw [hr'] at f
    cases hf : (flatHandshake A.retry P prof ⟨magic, role, rng, P.ellswift rng⟩ g d bs writer).2 with
    | none => rw [hf] at f; simp [FlatMatches] at f
    | some x =>
      rw [hf] at f f0
      cases x with
      | panic => simp [FlatMatches] at f
      | err e => simp [FlatMatches] at f
      | ok v =>
        obtain ⟨i0, o0, rest0⟩ := v
        obtain ⟨s0, hs0', hst⟩ := f0
        cases hh : handshakeWithInitialized A P prof ⟨magic, role, rng, P.ellswift rng⟩ g d
            (if bs = [] then [] else [.data bs]) writer with
        | mk w0 y =>
        obtain ⟨log0, r0⟩ := y
        rw [hh] at hs0'
        simp only at hs0'
        subst hs0'
        have hr0 : handshake A P prof magic role rng g d (if bs = [] then [] else [.data bs]) writer
            = (w0, log0, .ok (i0, o0, s0)) := by
          unfold handshake
          rw [newWithRng_ok hnew]
          exact hh
        obtain ⟨peerKey, garbage, decoys, version, h1, h2, -⟩ :=
          (handshake_sound B hP hd hr0).2 (by rw [hb0]; exact hlen) i0 o0 s0 rfl
        rw [hb0] at h2
        exact ⟨peerKey, garbage, decoys, version, _, h1, h2⟩
  · rintro ⟨peerKey, garbage, decoys, version, rest, hadm, hb⟩
    have hcount : decoys.length + 1 < 2 ^ 32 := by
      have h1 := congrArg List.length hb
      have h2 := packetStream_length hP (Spec.directions P magic (P.ellswift rng) peerKey rng role.initiating).2.1
        (Spec.directions P magic (P.ellswift rng) peerKey rng role.initiating).2.2.1 0 garbage
        (Spec.handshakeMessages decoys version)
      simp only [Spec.peerTranscript, List.length_append] at h1
      simp only [Spec.handshakeMessages, List.length_append, List.length_map, List.length_singleton] at h2
      simp only [Spec.handshakeMessages] at h1
      omega
    rw [hb] at hs
    obtain ⟨w', log, i, o, s, h1, -⟩ := C47_complete hA hP hnew hg hd hw hend hcount hadm hs
    exact ⟨w', log, i, o, s, h1⟩

/-- C48: whatever the peer and the transport do, and whether the handshake succeeds, fails or is cut off,
what it has written is a prefix of our key and garbage; or the peer has sent a key that does not look like
V1, and it is a prefix of our transcript under the keys derived from that key.  Both APIs. -/
theorem C48_prefix {A : Api} (hA : A = syncApi ∨ A = asyncApi) (hP : Lawful P) {magic rng : Bytes}
    {role : Role} {g : Option Bytes} {d : Option (List Bytes)} {reader : Source} {writer w' : Sink} {log : HsLog}
    {r : Outcome ProtocolError (InboundCipher × OutboundCipher × A.Session)}
    (hd : (d.getD []).length + 1 < 2 ^ 32)
    (hr : handshake A P prof magic role rng g d reader writer = (w', log, r)) :
    ∃ sent, w'.out = writer.out ++ sent ∧
      (sent <+: P.ellswift rng ++ g.getD [] ∨
        ∃ peerKey rest, reader.bytes = peerKey ++ rest ∧ peerKey.length = 64 ∧ peerKey.take 4 ≠ magic ∧
          sent <+: Spec.ownTranscript P
            (Spec.directions P magic (P.ellswift rng) peerKey rng role.initiating).1 (P.ellswift rng)
            (g.getD []) (d.getD [])) := by
  obtain ⟨B⟩ := api_abs hA
  exact (handshake_sound B hP hd hr).1

/-- The handshake with a peer whose first 64 bytes begin with the network magic. -/
theorem handshake_v1 {A : Api} (hP : Lawful P) {magic rng : Bytes}
    {role : Role} {g : Option Bytes} {d : Option (List Bytes)} {reader : Source} {writer : Sink}
    (hm : magic.length = 4) (hv1 : magic <+: reader.bytes) :
    (∃ sent, (handshake A P prof magic role rng g d reader writer).1.out = writer.out ++ sent ∧
        sent <+: P.ellswift rng ++ g.getD []) ∧
      ((∃ k, (handshake A P prof magic role rng g d reader writer).2.2 = .err (.fromIo k)) ∨
       ((handshake A P prof magic role rng g d reader writer).2.2 = .err (.internal .v1Protocol) ∧
        (handshake A P prof magic role rng g d reader writer).1.out = writer.out ++ (P.ellswift rng ++ g.getD [])) ∨
       (¬ Spec.UsableKey P prof rng ∨
        (g.getD []).length > 4095) ∧ (handshake A P prof magic role rng g d reader writer).1 = writer ∧
        ∀ x, (handshake A P prof magic role rng g d reader writer).2.2 ≠ .ok x) := by
  have key : ∀ peerKey rest, reader.bytes = peerKey ++ rest → peerKey.length = 64 → peerKey.take 4 = magic := by
    intro peerKey rest hb hl
    obtain ⟨t, ht⟩ := hv1
    have : (magic ++ t).take 4 = (peerKey ++ rest).take 4 := by rw [ht, hb]
    rw [take_append_len _ _ hm.symm, List.take_append_of_le_length (by omega)] at this
    exact this.symm
  have hes := hP.ellswift_length rng
  generalize hR : handshake A P prof magic role rng g d reader writer = R
  unfold handshake at hR
  have hcase : HsInitialized.newWithRng P prof magic role rng = .ok ⟨magic, role, rng, P.ellswift rng⟩ ∨
      ∀ x, HsInitialized.newWithRng P prof magic role rng ≠ .ok x := by
    unfold HsInitialized.newWithRng
    by_cases hz : (prof.debugAssertions && rng == zeros 32) = true
    · rw [if_pos hz]; exact .inr (by simp)
    · rw [if_neg hz]
      by_cases hv : P.validSecret rng = true
      · rw [if_pos hv]; exact .inl rfl
      · rw [if_neg hv]; exact .inr (by simp)
  rcases hcase with hnew | hnew
  · rw [hnew] at hR
    simp only at hR
    unfold handshakeWithInitialized at hR
    rw [sendKey_full _ hes] at hR
    by_cases hg : (g.getD []).length > 4095
    · rw [if_pos hg] at hR
      subst hR
      exact ⟨⟨[], by simp, List.nil_prefix⟩, .inr (.inr ⟨.inr hg, rfl, by simp⟩)⟩
    rw [if_neg hg] at hR
    simp only at hR
    obtain ⟨pre1, hp1, ho1, hok1⟩ := send_out writer A.retry (P.ellswift rng ++ g.getD [])
    cases hs1 : writer.send A.retry (P.ellswift rng ++ g.getD []) with
    | mk w1 x1 =>
    rw [hs1] at ho1 hok1
    simp only [hs1] at hR
    cases x1 with
    | error k => subst hR; exact ⟨⟨pre1, ho1, hp1⟩, .inl ⟨k, rfl⟩⟩
    | ok u =>
    simp only at hR hok1 ho1
    have hw1 := hok1 trivial
    subst hw1
    cases h1 : Source.reader.readExact A.retry reader NUM_ELLIGATOR_SWIFT_BYTES with
    | mk src1 y1 =>
    have ht1 := readExact_bytes _ _ _ _ h1
    simp only [h1] at hR
    cases y1 with
    | error k => subst hR; exact ⟨⟨_, ho1, hp1⟩, .inl ⟨k, rfl⟩⟩
    | ok peerKey =>
    obtain ⟨hpk, hb1⟩ := ht1.ok
    simp only [receiveKey_eq hP, if_pos (key peerKey _ hb1 hpk)] at hR
    subst hR
    exact ⟨⟨_, ho1, hp1⟩, .inr (.inl ⟨rfl, ho1⟩)⟩
  · cases hn : HsInitialized.newWithRng P prof magic role rng with
    | ok x => exact absurd hn (hnew x)
    | err e =>
      rw [hn] at hR
      subst hR
      exact ⟨⟨[], by simp, List.nil_prefix⟩, .inr (.inr ⟨.inl (fun h => hnew _ (newWithRng_ok h)), rfl, by simp⟩)⟩
    | panic =>
      rw [hn] at hR
      subst hR
      exact ⟨⟨[], by simp, List.nil_prefix⟩, .inr (.inr ⟨.inl (fun h => hnew _ (newWithRng_ok h)), rfl, by simp⟩)⟩

/-- C48: a V1 peer (its first bytes are the network magic) gets no byte beyond our key and garbage, and the
handshake with it never succeeds.  Any transport, both APIs. -/
theorem C48_v1_peer {A : Api} (hP : Lawful P) {magic rng : Bytes}
    {role : Role} {g : Option Bytes} {d : Option (List Bytes)} {reader : Source} {writer w' : Sink} {log : HsLog}
    {r : Outcome ProtocolError (InboundCipher × OutboundCipher × A.Session)}
    (hm : magic.length = 4) (hv1 : magic <+: reader.bytes)
    (hr : handshake A P prof magic role rng g d reader writer = (w', log, r)) :
    (∃ sent, w'.out = writer.out ++ sent ∧ sent <+: P.ellswift rng ++ g.getD []) ∧
      ∀ x, r ≠ .ok x := by
  have h := handshake_v1 (A := A) (prof := prof) (role := role) (rng := rng) (g := g) (d := d) (writer := writer) hP hm hv1
  rw [hr] at h
  refine ⟨h.1, ?_⟩
  rcases h.2 with ⟨k, h⟩ | ⟨h, -⟩ | ⟨-, -, h⟩
  · simp only at h; subst h; simp
  · simp only at h; subst h; simp
  · exact h

/-- C48: over working transports, a peer whose first 64 bytes begin with the network magic is reported as a V1
peer, after exactly our key and garbage have been sent. -/
theorem C48_v1_detected {A : Api} (hA : A = syncApi ∨ A = asyncApi) (hP : Lawful P) {magic rng : Bytes}
    {role : Role} {g : Option Bytes} {d : Option (List Bytes)} {reader tail : Source} {k : ErrorKind}
    {writer : Sink}
    (hnew : Spec.UsableKey P prof rng)
    (hg : (g.getD []).length ≤ 4095) (hw : writer.Reliable A.retry) (hend : EndsWith A.retry tail k)
    (hm : magic.length = 4) {bs : Bytes} (hs : Streams false reader bs tail) (h64 : 64 ≤ bs.length)
    (hv1 : magic <+: bs) :
    ∃ w' log, handshake A P prof magic role rng g d reader writer = (w', log, .err (.internal .v1Protocol)) ∧
      w'.out = writer.out ++ (P.ellswift rng ++ g.getD []) := by
  obtain ⟨B⟩ := api_abs hA
  obtain ⟨f1, f2⟩ := handshake_flat (prof := prof) B hP hend ⟨magic, role, rng, P.ellswift rng⟩ g d reader _ hs writer
  obtain ⟨w1, hw1, ho1, -⟩ := send_reliable hw (P.ellswift rng ++ g.getD [])
  have hkey : (bs.take 64).take 4 = magic := by
    obtain ⟨t, rfl⟩ := hv1
    rw [List.take_take, show min 4 64 = 4 from rfl]
    exact take_append_len _ _ hm.symm
  have hfl : flatHandshake A.retry P prof ⟨magic, role, rng, P.ellswift rng⟩ g d bs writer
      = (w1, some (.err (.internal .v1Protocol))) := by
    unfold flatHandshake
    rw [sendKey_full _ (hP.ellswift_length rng), if_neg (by omega)]
    simp only [hw1]
    rw [if_neg (by omega)]
    simp only [receiveKey_eq hP, if_pos hkey]
  rw [hfl] at f1 f2
  refine ⟨w1, (handshakeWithInitialized A P prof ⟨magic, role, rng, P.ellswift rng⟩ g d reader writer).2.1, ?_, ho1⟩
  unfold handshake
  rw [newWithRng_ok hnew]
  simp only
  rw [← show _ = w1 from f1]
  exact Prod.ext rfl (Prod.ext rfl f2)

/-- Non-vacuity of C48: a V1 version message over a working transport. -/
example :
    Spec.UsableKey toy .debug (leBytes 32 77) ∧
    (handshake syncApi toy .debug [1, 2, 3, 4] .responder (leBytes 32 77) (some [42]) none
      [.data ([1, 2, 3, 4] ++ zeros 100)] ⟨[], [], []⟩).2.2 matches .err (.internal .v1Protocol) ∧
    Streams false [.data ([1, 2, 3, 4] ++ zeros 100)] ([1, 2, 3, 4] ++ zeros 100) [] := by
  refine ⟨by decide +kernel, by decide +kernel, [.data ([1, 2, 3, 4] ++ zeros 100)], ?_, rfl, by simp [Source.bytes]⟩
  intro e he
  rw [List.mem_singleton] at he
  exact .inr (.inl ⟨1, [2, 3, 4] ++ zeros 100, by rw [he]; rfl⟩)

/-! ## Whole sessions -/

/-- C46 for a whole session of the blocking API: if `Protocol::new` succeeds and then `k` reads return
payloads, the bytes of the peer are an admissible handshake transcript, followed without gap by the packets
of these payloads, numbered on from the handshake, followed by what is still unread. -/
theorem C46_session_sync (hP : Lawful P) {magic rng : Bytes} {role : Role} {g : Option Bytes}
    {d : Option (List Bytes)} {reader : Source} {writer : Sink} {p : SyncProtocol}
    (hd : (d.getD []).length + 1 < 2 ^ 32) (hlen : reader.bytes.length < 2 ^ 35)
    (hnew : SyncProtocol.new P prof magic role rng g d reader writer = .ok p)
    {k : Nat} {r' : SyncReader} {xs : List (Outcome ProtocolError Payload)} (hk : k < 2 ^ 31)
    (hr : p.reader.readMany P prof k = (r', xs)) (hok : ∀ x ∈ xs, ∃ q, x = .ok q) :
    ∃ peerKey garbage decoys version ms,
      let D := Spec.directions P magic (P.ellswift rng) peerKey rng role.initiating
      Spec.Admissible magic D.2.2.2 peerKey garbage decoys version ∧
      reader.bytes = Spec.peerTranscript P D.2 peerKey garbage decoys version ++
        Spec.packetStream P D.2.1 D.2.2.1 (decoys.length + 1) [] ms ++ r'.reader.bytes ∧
      xs = ms.map (fun m => .ok (delivered m)) ∧ ms.length = k := by
  unfold SyncProtocol.new at hnew
  cases hh : handshake syncApi P prof magic role rng g d reader writer with
  | mk w' y =>
  obtain ⟨log, y⟩ := y
  rw [hh] at hnew
  cases y with
  | panic => simp at hnew
  | err e => simp at hnew
  | ok v =>
    obtain ⟨i, o, s⟩ := v
    simp only [Outcome.ok.injEq] at hnew
    subst hnew
    obtain ⟨peerKey, garbage, decoys, version, h1, h2, h3, -, -⟩ := C47_sync_sound hP hd (by omega) hh
    have hcount : decoys.length + 1 < 2 ^ 31 := by
      have h4 := congrArg List.length h2
      have h5 := packetStream_length hP (Spec.directions P magic (P.ellswift rng) peerKey rng role.initiating).2.1
        (Spec.directions P magic (P.ellswift rng) peerKey rng role.initiating).2.2.1 0 garbage
        (Spec.handshakeMessages decoys version)
      simp only [Spec.peerTranscript, List.length_append] at h4
      simp only [Spec.handshakeMessages, List.length_append, List.length_map, List.length_singleton] at h5
      simp only [Spec.handshakeMessages] at h4
      omega
    obtain ⟨ms, e1, e2, -, e3, -⟩ := C46_sync hP k h3 (by omega) hr hok
    refine ⟨peerKey, garbage, decoys, version, ms, h1, ?_, e1, e2⟩
    rw [h2, List.append_assoc, ← e3]

/-- C46 for a whole session of the asynchronous API, with any sequence of polls and cancellations. -/
theorem C46_session_async (hP : Lawful P) {magic rng : Bytes} {role : Role} {g : Option Bytes}
    {d : Option (List Bytes)} {reader : Source} {writer : Sink} {p : AsyncProtocol}
    (hd : (d.getD []).length + 1 < 2 ^ 32) (hlen : reader.bytes.length < 2 ^ 35)
    (hnew : AsyncProtocol.new P prof magic role rng g d reader writer = .ok p)
    {es : List ReadEvent} {r' : AsyncReader} {xs : List (Outcome ProtocolError Payload)} (hk : es.length < 2 ^ 31)
    (hr : p.reader.run P prof es = (r', xs)) :
    ∃ peerKey garbage decoys version ms held,
      let D := Spec.directions P magic (P.ellswift rng) peerKey rng role.initiating
      Spec.Admissible magic D.2.2.2 peerKey garbage decoys version ∧
      reader.bytes = Spec.peerTranscript P D.2 peerKey garbage decoys version ++
        Spec.packetStream P D.2.1 D.2.2.1 (decoys.length + 1) [] ms ++ held ++ r'.reader.remaining ∧
      held.length < 2 ^ 24 + 20 ∧ payloads xs = ms.map delivered := by
  unfold AsyncProtocol.new at hnew
  cases hh : handshake asyncApi P prof magic role rng g d reader writer with
  | mk w' y =>
  obtain ⟨log, y⟩ := y
  rw [hh] at hnew
  cases y with
  | panic => simp at hnew
  | err e => simp at hnew
  | ok v =>
    obtain ⟨i, o, s⟩ := v
    simp only [Outcome.ok.injEq] at hnew
    subst hnew
    obtain ⟨peerKey, garbage, decoys, version, h1, h2, h3, -, -⟩ := C47_async_sound hP hd (by omega) hh
    have hcount : decoys.length + 1 < 2 ^ 31 := by
      have h4 := congrArg List.length h2
      have h5 := packetStream_length hP (Spec.directions P magic (P.ellswift rng) peerKey rng role.initiating).2.1
        (Spec.directions P magic (P.ellswift rng) peerKey rng role.initiating).2.2.1 0 garbage
        (Spec.handshakeMessages decoys version)
      simp only [Spec.peerTranscript, List.length_append] at h4
      simp only [Spec.handshakeMessages, List.length_append, List.length_map, List.length_singleton] at h5
      simp only [Spec.handshakeMessages] at h4
      omega
    obtain ⟨ms, rest, e1, -, -, e2, e3⟩ := C46_async hP es (fresh_reads h3 rfl) (by omega) hr
    obtain ⟨-, held, e4, e5⟩ := reads_rest e3
    refine ⟨peerKey, garbage, decoys, version, ms, held, h1, ?_, e5, e1⟩
    show reader.bytes = _
    rw [h2]
    show _ ++ s.remaining = _
    simp only [List.append_assoc]
    rw [← e4, ← e2]

/-! ## Non-vacuity -/

/-- The reader of the examples stands at packet 0. -/
theorem sampleIn_at : sampleIn.At toy (leBytes 32 77) (leBytes 32 99) 0 :=
  ⟨FSStream.at_new _, FSAead.at_new _⟩

/-- Two packets with odd headers, in pieces with an interrupt, and then garbage: the blocking reader takes the
two packets and fails on the rest. -/
example :
    let sent := Spec.packetStream toy (leBytes 32 77) (leBytes 32 99) 0 [] [(5, [1, 2, 3]), (0x80, [])]
    let r : SyncReader := ⟨sampleIn, ⟨sent.take 2, false, [.data ((sent.drop 2).take 9), .fail .interrupted,
      .data (sent.drop 11 ++ [1, 2, 3, 4])]⟩⟩
    (r.readMany toy .debug 2).2 = [.ok (delivered (5, [1, 2, 3])), .ok (delivered (0x80, []))] ∧
    ((r.readMany toy .debug 3).2.getLast?.any fun x => match x with | .err _ => true | _ => false) = true := by
  decide +kernel

/-- The same for the asynchronous reader, polled and cancelled in the middle of packets. -/
example :
    let sent := Spec.packetStream toy (leBytes 32 77) (leBytes 32 99) 0 [] [(5, [1, 2, 3]), (0x80, [])]
    let r : AsyncReader := ⟨sampleIn, ⟨sent.take 2, 0, [.pending, .data ((sent.drop 2).take 9), .pending,
      .data (sent.drop 11 ++ [1, 2])]⟩, .initReadingLength⟩
    payloads (r.run toy .debug [.poll, .cancel, .poll, .poll, .cancel, .poll]).2
      = [delivered (5, [1, 2, 3]), delivered (0x80, [])] := by
  decide +kernel

/-- The keys of the peer in the example of C47. -/
def sampleDirections : (Bytes × Bytes × Bytes) × (Bytes × Bytes × Bytes) :=
  Spec.directions toy [1, 2, 3, 4] (toy.ellswift (leBytes 32 77)) (toy.ellswift (leBytes 32 99)) (leBytes 32 77) true

/-- A transcript that no run of this code produces (a version packet with contents and an unused header bit) is
admissible, and accepted in pieces by both APIs. -/
example :
    Spec.Admissible [1, 2, 3, 4] sampleDirections.2.2.2 (toy.ellswift (leBytes 32 99)) [9, 9, 9] [[1, 2], []]
      (1, [7]) ∧
    (let bs := Spec.peerTranscript toy sampleDirections.2 (toy.ellswift (leBytes 32 99)) [9, 9, 9] [[1, 2], []]
      (1, [7])
    let src : Source := [.data (bs.take 70), .fail .interrupted, .data (bs.drop 70 ++ [5, 5])]
    ((handshake syncApi toy .debug [1, 2, 3, 4] .initiator (leBytes 32 77) (some [42]) (some [[8]]) src
      ⟨[], [], []⟩).2.2 matches .ok _) ∧
    ((handshake asyncApi toy .debug [1, 2, 3, 4] .initiator (leBytes 32 77) (some [42]) (some [[8]])
      [.data (bs.take 70), .pending, .data (bs.drop 70 ++ [5, 5])] ⟨[], [], []⟩).2.2 matches .ok _)) := by
  refine ⟨⟨by decide +kernel, by decide +kernel, by decide, ?_, by decide, by decide, by decide⟩, by decide +kernel⟩
  refine noEarly_of_head (b := sampleDirections.2.2.2.headD 0) ?_ ?_
  · decide +kernel
  · decide +kernel

end Bip324
