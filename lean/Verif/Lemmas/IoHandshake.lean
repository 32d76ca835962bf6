import Verif.Lemmas.Io

/-! # The I/O handshake as a function of the bytes received

`flatHandshake` is the handshake as a function of the bytes available; `none` means that more bytes
are needed.  `handshake_flat` relates the modelled I/O code to it. -/

namespace Bip324

variable {P : Prims} {prof : Profile}

/-- The version loop on the bytes available. -/
def flatVersion (P : Prims) (prof : Profile) (h : HsReceivedGarbage) (bs : Bytes) :
    Option (Outcome ProtocolError (InboundCipher × OutboundCipher × Bytes)) :=
  if bs.length < 3 then none
  else
    match h.decryptPacketLen P prof (bs.take 3) with
    | (_, .panic) => some .panic
    | (_, .err e) => some (.err (.internal e))
    | (h1, .ok n) =>
      if n > MAX_PACKET_SIZE_FOR_ALLOCATION then some (.err (.internal .packetTooBig))
      else if (bs.drop 3).length < n then none
      else
        match h1.receiveVersion P prof ((bs.drop 3).take n) with
        | (_, .panic) => some .panic
        | (_, .err e) => some (.err (.internal e))
        | (_, .ok (.complete c)) => some (.ok (c.inbound, c.outbound, (bs.drop 3).drop n))
        | (_, .ok (.decoy h2)) => flatVersion P prof h2 ((bs.drop 3).drop n)
termination_by bs.length
decreasing_by simp; omega

/-- Garbage and version phase on the bytes available. -/
def flatPeer (P : Prims) (prof : Profile) (h : HsSentVersion) (bs : Bytes) :
    Option (Outcome ProtocolError (InboundCipher × OutboundCipher × Bytes)) :=
  match h.receiveGarbage bs with
  | .ok (.foundGarbage h' n) => flatVersion P prof h' (bs.drop n)
  | .ok (.needMoreData _) => none
  | .err e => some (.err (.internal e))
  | .panic => some .panic

/-- The whole handshake on the bytes available. -/
def flatHandshake (retry : Bool) (P : Prims) (prof : Profile) (h : HsInitialized)
    (garbage : Option Bytes) (decoys : Option (List Bytes)) (bs : Bytes) (writer : Sink) :
    Sink × Option (Outcome ProtocolError (InboundCipher × OutboundCipher × Bytes)) :=
  match h.sendKey garbage (zeros (HsInitialized.sendKeyLen garbage)) with
  | (_, .panic) => (writer, some .panic)
  | (_, .err e) => (writer, some (.err (.internal e)))
  | (keyBuffer, .ok h) =>
  match writer.send retry keyBuffer with
  | (writer, .error k) => (writer, some (.err (.fromIo k)))
  | (writer, .ok ()) =>
  if bs.length < 64 then (writer, none)
  else
  match h.receiveKey P (bs.take 64) with
  | .panic => (writer, some .panic)
  | .err e => (writer, some (.err (.internal e)))
  | .ok h =>
  match h.sendVersion P prof (zeros (HsReceivedKey.sendVersionLen decoys)) decoys with
  | (_, .panic) => (writer, some .panic)
  | (_, .err e) => (writer, some (.err (.internal e)))
  | (versionBuffer, .ok h) =>
  match writer.send retry versionBuffer with
  | (writer, .error k) => (writer, some (.err (.fromIo k)))
  | (writer, .ok ()) => (writer, flatPeer P prof h (bs.drop 64))

/-- The I/O result `r` is what the flat result `f` says, when the stream ends in `tail`, i.e. with
error kind `k`. -/
def FlatMatches {A : Api} (B : A.Abs) (tail : Source) (k : ErrorKind)
    (f : Option (Outcome ProtocolError (InboundCipher × OutboundCipher × Bytes)))
    (r : Outcome ProtocolError (InboundCipher × OutboundCipher × A.Session)) : Prop :=
  match f with
  | none => r = .err (.fromIo k)
  | some .panic => r = .panic
  | some (.err e) => r = .err e
  | some (.ok (i, o, rest)) => ∃ s, r = .ok (i, o, s) ∧ SessStreams B s rest tail

theorem EndsWith.mono {retry : Bool} {tail : Source} {k : ErrorKind} (h : EndsWith true tail k) :
    EndsWith retry tail k := by
  rcases h with h | h | ⟨t, h, hk⟩
  · exact .inl h
  · exact .inr (.inl h)
  · exact .inr (.inr ⟨t, h, fun hc => hk ⟨rfl, hc.2⟩⟩)

theorem EndsWith.toFalse {retry : Bool} {tail : Source} {k : ErrorKind} (h : EndsWith retry tail k) :
    EndsWith false tail k := by
  rcases h with h | h | ⟨t, h, hk⟩
  · exact .inl h
  · exact .inr (.inl h)
  · exact .inr (.inr ⟨t, h, by simp⟩)

/-- Unfolding the version loop. -/
theorem versionLoop_eq (A : Api) (P : Prims) (prof : Profile) (h : HsReceivedGarbage)
    (s : A.Session) :
    versionLoop A P prof h s =
  match A.reader.readExact A.retry s NUM_LENGTH_BYTES with
  | (_, .error k) => ([], .err (.fromIo k))
  | (s1, .ok lengthBytes) =>
    match h.decryptPacketLen P prof lengthBytes with
    | (_, .panic) => ([], .panic)
    | (_, .err e) => ([], .err (.internal e))
    | (h1, .ok packetLen) =>
      if packetLen > MAX_PACKET_SIZE_FOR_ALLOCATION then ([], .err (.internal .packetTooBig))
      else
        match A.reader.readExact A.retry s1 packetLen with
        | (_, .error k) => ([packetLen], .err (.fromIo k))
        | (s2, .ok packetBytes) =>
          match h1.receiveVersion P prof packetBytes with
          | (_, .panic) => ([packetLen], .panic)
          | (_, .err e) => ([packetLen], .err (.internal e))
          | (_, .ok (.complete cipher)) =>
            ([packetLen], .ok (cipher.intoSplit.1, cipher.intoSplit.2, s2))
          | (_, .ok (.decoy h2)) =>
            match versionLoop A P prof h2 s2 with
            | (log, r) => (packetLen :: log, r) := by
  rw [versionLoop]
  split
  · rename_i heq; rw [heq]
  · rename_i heq
    rw [heq]
    simp only
    split
    · rename_i hd; rw [hd]
    · rename_i hd; rw [hd]
    · rename_i h1 m hd
      rw [hd]
      simp only
      by_cases hm : m > MAX_PACKET_SIZE_FOR_ALLOCATION
      · rw [if_pos hm, if_pos hm]
      · rw [if_neg hm, if_neg hm]
        split
        · rename_i heq; simp only [heq]
        · rename_i pb heq
          simp only [heq]
          cases h1.receiveVersion P prof pb with
          | mk b r =>
          cases r with
          | ok v => cases v <;> rfl
          | err e => rfl
          | panic => rfl

/-- Unfolding the garbage loop. -/
theorem garbageLoop_eq (h : HsSentVersion) (buf : Bytes) (src : Source) :
    garbageLoop h buf src =
  match h.receiveGarbage buf with
  | .ok (.foundGarbage h' consumed) => ([buf.length], .ok (h', consumed, buf, src))
  | .ok (.needMoreData h') =>
    match src.read 256 with
    | (_, .ok []) => ([buf.length], .err .eof)
    | (src', .ok (b :: bs)) =>
      match garbageLoop h' (buf ++ b :: bs) src' with
      | (log, r) => (buf.length :: log, r)
    | (_, .err k) => ([buf.length], .err (.fromIo k))
  | .err e => ([buf.length], .err (.internal e))
  | .panic => ([buf.length], .panic) := by
  rw [garbageLoop]
  split
  · rename_i hg; rw [hg]
  · rename_i hg
    rw [hg]
    simp only
    split <;> (rename_i heq; rw [heq])
  · rename_i hg; rw [hg]
  · rename_i hg; rw [hg]

theorem versionLoop_flat {A : Api} (B : A.Abs) {tail : Source} {k : ErrorKind}
    (hend : EndsWith A.retry tail k) (h : HsReceivedGarbage) (s : A.Session) (bs : Bytes)
    (hs : SessStreams B s bs tail) :
    FlatMatches B tail k (flatVersion P prof h bs) (versionLoop A P prof h s).2 := by
  induction hn : bs.length using Nat.strongRecOn generalizing h s bs with
  | ind n ih =>
  rw [flatVersion, versionLoop_eq]
  obtain ⟨ra, rb⟩ := sess_readExact B hend hs NUM_LENGTH_BYTES
  by_cases h3 : bs.length < 3
  · rw [if_pos h3]
    obtain ⟨s', e⟩ := rb h3
    rw [e]
    simp [FlatMatches]
  · rw [if_neg h3]
    obtain ⟨s1, e, st1⟩ := ra (by show 3 ≤ _; omega)
    rw [e]
    have e3 : NUM_LENGTH_BYTES = 3 := rfl
    rw [e3] at st1 ⊢
    cases hd : h.decryptPacketLen P prof (bs.take 3) with
    | mk h1 r1 =>
    cases r1 with
    | panic => simp [hd, FlatMatches]
    | err e => simp [hd, FlatMatches]
    | ok m =>
      simp only [hd]
      by_cases hm : m > MAX_PACKET_SIZE_FOR_ALLOCATION
      · rw [if_pos hm, if_pos hm]; simp [FlatMatches]
      · rw [if_neg hm, if_neg hm]
        obtain ⟨ra2, rb2⟩ := sess_readExact B hend st1 m
        by_cases hlt : (bs.drop 3).length < m
        · rw [if_pos hlt]
          obtain ⟨s', e'⟩ := rb2 hlt
          rw [e']
          simp [FlatMatches]
        · rw [if_neg hlt]
          obtain ⟨s2, e', st2⟩ := ra2 (by omega)
          rw [e']
          cases hv : h1.receiveVersion P prof ((bs.drop 3).take m) with
          | mk buf r2 =>
          cases r2 with
          | panic => simp [hv, FlatMatches]
          | err e => simp [hv, FlatMatches]
          | ok v =>
            cases v with
            | complete c =>
              simp only [hv]
              exact ⟨s2, rfl, st2⟩
            | decoy h2 =>
              simp only [hv]
              exact ih ((bs.drop 3).drop m).length (by simp; omega) h2 s2 _ st2 rfl

theorem garbageLoop_flat {tail : Source} {k : ErrorKind} (hend : EndsWith false tail k)
    (h : HsSentVersion) (ht : h.remoteTerminator.length = 16) (buf : Bytes) (src : Source) (bs : Bytes)
    (hs : Streams false src bs tail) :
    match h.receiveGarbage (buf ++ bs) with
    | .ok (.foundGarbage h' n) => ∃ buf' src' bs', (garbageLoop h buf src).2 = .ok (h', n, buf', src') ∧
        buf' ++ bs' = buf ++ bs ∧ n ≤ buf'.length ∧ Streams false src' bs' tail
    | .ok (.needMoreData _) => (garbageLoop h buf src).2 = .err (.fromIo k)
    | .err e => (garbageLoop h buf src).2 = .err (.internal e)
    | .panic => (garbageLoop h buf src).2 = .panic := by
  induction hn : bs.length using Nat.strongRecOn generalizing buf src bs with
  | ind n ih =>
  rw [garbageLoop_eq]
  cases hr : h.receiveGarbage buf with
  | panic => exact absurd hr (C21_no_panic h _)
  | err e => rw [C22_failure_stable h ht _ _ e hr]
  | ok g =>
    cases g with
    | foundGarbage h' m =>
      rw [C22_found_stable h ht _ _ h' m hr]
      refine ⟨buf, src, bs, rfl, rfl, ?_, hs⟩
      obtain ⟨i, -, hocc, -, rfl, -⟩ := (C21_found h ht _ _ _).1 hr
      have := OccursAt.le hocc
      omega
    | needMoreData h' =>
      obtain ⟨rfl, -⟩ := (C21_need_more h ht _ h').1 hr
      simp only
      obtain ⟨r1, r2⟩ := read_streams hend hs 256 (by decide)
      by_cases hb : bs = []
      · subst hb
        rw [List.append_nil, hr]
        simp only
        obtain ⟨s', e | ⟨e, rfl⟩⟩ := r1 rfl
        · rw [e]
        · rw [e]; rfl
      · obtain ⟨s', d, ds, e, rest, rfl, st⟩ := r2 hb
        have hrec := ih rest.length (by rw [← hn]; simp; omega) (buf ++ d :: ds) s' rest st rfl
        rw [← List.append_assoc, e]
        exact hrec

/-- The remote terminator after `send_version` is the other party's, hence 16 bytes long. -/
theorem sendVersion_terminator {h : HsReceivedKey} {buf buf' : Bytes} {decoys : Option (List Bytes)}
    {h' : HsSentVersion} (he : h.sendVersion P prof buf decoys = (buf', .ok h')) :
    h'.remoteTerminator = h.sessionKeys.remoteTerminator h.role := by
  unfold HsReceivedKey.sendVersion at he
  simp only at he
  split at he
  · simp at he
  · split at he
    · simp at he
    · simp at he
    · split at he
      · simp at he
      · simp at he
      · simp only [Prod.mk.injEq, Outcome.ok.injEq] at he
        rw [← he.2]
        cases h.role <;> rfl

theorem receiveKey_terminators (hP : Lawful P) {h : HsSentKey} {key : Bytes} {h' : HsReceivedKey}
    (he : h.receiveKey P key = .ok h') (r : Role) :
    (h'.sessionKeys.remoteTerminator r).length = 16 := by
  unfold HsSentKey.receiveKey at he
  simp only at he
  split at he
  · cases he
  · split at he
    · rename_i keys hk
      simp only [Outcome.ok.injEq] at he
      subst he
      have : ∃ a b p, SessionKeyMaterial.fromEcdh P a b h.secretKey p h.magic = .ok keys := by
        split at hk
        · exact ⟨_, _, _, hk⟩
        · exact ⟨_, _, _, hk⟩
      obtain ⟨a, b, p, hk⟩ := this
      obtain ⟨-, -, -, -, -, h1, h2⟩ := C17_lengths hP hk
      cases r
      · exact h2
      · exact h1
    · cases he
    · cases he

/-- The modelled I/O handshake computes the flat handshake of the bytes received, whatever their
segmentation. -/
theorem handshake_flat {A : Api} (B : A.Abs) (hP : Lawful P) {tail : Source} {k : ErrorKind}
    (hend : EndsWith A.retry tail k) (h : HsInitialized) (garbage : Option Bytes)
    (decoys : Option (List Bytes)) (reader : Source) (bs : Bytes)
    (hs : Streams false reader bs tail) (writer : Sink) :
    (handshakeWithInitialized A P prof h garbage decoys reader writer).1
        = (flatHandshake A.retry P prof h garbage decoys bs writer).1 ∧
      FlatMatches B tail k (flatHandshake A.retry P prof h garbage decoys bs writer).2
        (handshakeWithInitialized A P prof h garbage decoys reader writer).2.2 := by
  unfold handshakeWithInitialized flatHandshake
  cases h.sendKey garbage (zeros (HsInitialized.sendKeyLen garbage)) with
  | mk keyBuffer r =>
  cases r with
  | panic => simp [FlatMatches]
  | err e => simp [FlatMatches]
  | ok h1 =>
  simp only
  cases writer.send A.retry keyBuffer with
  | mk writer r =>
  cases r with
  | error k => simp [FlatMatches]
  | ok u =>
  simp only
  obtain ⟨ra, rb⟩ :=
    readExact_streams (retry := A.retry) (by simp) hend hs NUM_ELLIGATOR_SWIFT_BYTES []
  by_cases h64 : bs.length < 64
  · rw [if_pos h64]
    obtain ⟨s', e⟩ := rb h64
    rw [e]
    simp [FlatMatches]
  rw [if_neg h64]
  obtain ⟨s1, e1, st1⟩ := ra (by show 64 ≤ _; omega)
  have e64 : NUM_ELLIGATOR_SWIFT_BYTES = 64 := rfl
  rw [e1]
  rw [e64] at st1 ⊢
  simp only [List.nil_append]
  cases hk : h1.receiveKey P (bs.take 64) with
  | panic => simp [FlatMatches]
  | err e => simp [FlatMatches]
  | ok h2 =>
  simp only
  cases hv : h2.sendVersion P prof (zeros (HsReceivedKey.sendVersionLen decoys)) decoys with
  | mk versionBuffer r =>
  cases r with
  | panic => simp [FlatMatches]
  | err e => simp [FlatMatches]
  | ok h3 =>
  simp only
  have ht : h3.remoteTerminator.length = 16 := by
    rw [sendVersion_terminator hv]; exact receiveKey_terminators hP hk _
  cases writer.send A.retry versionBuffer with
  | mk writer r =>
  cases r with
  | error k => simp [FlatMatches]
  | ok u =>
  simp only
  generalize bs.drop 64 = bs at st1
  obtain ⟨ra, rb⟩ :=
    readExact_streams (retry := A.retry) (by simp) hend st1 NUM_GARBAGE_TERMINATOR_BYTES []
  unfold flatPeer
  by_cases h16 : bs.length < 16
  · obtain ⟨s', e⟩ := rb h16
    have : h3.receiveGarbage bs = .ok (.needMoreData h3) := by
      rw [C21_need_more h3 ht]
      refine ⟨rfl, by omega, fun i hc => ?_⟩
      have := OccursAt.le hc
      omega
    rw [e, this]
    simp [FlatMatches]
  obtain ⟨s2, e2, st2⟩ := ra (by show 16 ≤ _; omega)
  have hg := garbageLoop_flat hend.toFalse h3 ht (bs.take 16) s2 _ st2
  have e16 : NUM_GARBAGE_TERMINATOR_BYTES = 16 := rfl
  rw [e16, List.take_append_drop] at hg
  rw [e2, e16, List.nil_append]
  simp only
  cases hr : h3.receiveGarbage bs with
  | panic => exact absurd hr (C21_no_panic _ _)
  | err e =>
    rw [hr] at hg
    cases hl : garbageLoop h3 (bs.take 16) s2 with
    | mk glog r =>
    rw [hl] at hg
    simp only at hg
    subst hg
    simp [FlatMatches]
  | ok g =>
    rw [hr] at hg
    cases g with
    | needMoreData h4 =>
      cases hl : garbageLoop h3 (bs.take 16) s2 with
      | mk glog r =>
      rw [hl] at hg
      simp only at hg
      subst hg
      simp [FlatMatches]
    | foundGarbage h4 n =>
      obtain ⟨buf', src', bs', h5, h6, h7, h8⟩ := hg
      cases hl : garbageLoop h3 (bs.take 16) s2 with
      | mk glog r =>
      rw [hl] at h5
      simp only at h5
      subst h5
      simp only
      refine ⟨trivial, ?_⟩
      rw [← h6, List.drop_append_of_le_length h7]
      exact versionLoop_flat B hend h4 _ _ (mkSession_streams B h8)

/-! ## Prefix determinism -/

/-- Append to the unread bytes of a successful result. -/
def addRest (more : Bytes) :
    Outcome ProtocolError (InboundCipher × OutboundCipher × Bytes) →
    Outcome ProtocolError (InboundCipher × OutboundCipher × Bytes)
  | .ok (i, o, rest) => .ok (i, o, rest ++ more)
  | .err e => .err e
  | .panic => .panic

theorem flatVersion_append (h : HsReceivedGarbage) (bs more : Bytes)
    {r : Outcome ProtocolError (InboundCipher × OutboundCipher × Bytes)}
    (hr : flatVersion P prof h bs = some r) :
    flatVersion P prof h (bs ++ more) = some (addRest more r) := by
  induction hn : bs.length using Nat.strongRecOn generalizing h bs with
  | ind n ih =>
  rw [flatVersion] at hr ⊢
  by_cases h3 : bs.length < 3
  · rw [if_pos h3] at hr; cases hr
  rw [if_neg h3] at hr
  rw [if_neg (by simp; omega), List.take_append_of_le_length (by omega),
    List.drop_append_of_le_length (by omega)]
  cases hd : h.decryptPacketLen P prof (bs.take 3) with
  | mk h1 r1 =>
  rw [hd] at hr
  cases r1 with
  | panic => simp only [Option.some.injEq] at hr; subst hr; rfl
  | err e => simp only [Option.some.injEq] at hr; subst hr; rfl
  | ok m =>
    simp only at hr ⊢
    by_cases hm : m > MAX_PACKET_SIZE_FOR_ALLOCATION
    · rw [if_pos hm] at hr ⊢; simp only [Option.some.injEq] at hr; subst hr; rfl
    rw [if_neg hm] at hr ⊢
    by_cases hlt : (bs.drop 3).length < m
    · rw [if_pos hlt] at hr; cases hr
    rw [if_neg hlt] at hr
    rw [if_neg (by simp at hlt ⊢; omega), List.take_append_of_le_length (by omega),
      List.drop_append_of_le_length (by omega)]
    cases hv : h1.receiveVersion P prof ((bs.drop 3).take m) with
    | mk buf r2 =>
    rw [hv] at hr
    cases r2 with
    | panic => simp only [Option.some.injEq] at hr; subst hr; rfl
    | err e => simp only [Option.some.injEq] at hr; subst hr; rfl
    | ok v =>
      cases v with
      | complete c => simp only [Option.some.injEq] at hr; subst hr; rfl
      | decoy h2 => exact ih _ (by simp; omega) h2 _ hr rfl

theorem flatPeer_append (h : HsSentVersion) (ht : h.remoteTerminator.length = 16) (bs more : Bytes)
    {r : Outcome ProtocolError (InboundCipher × OutboundCipher × Bytes)}
    (hr : flatPeer P prof h bs = some r) :
    flatPeer P prof h (bs ++ more) = some (addRest more r) := by
  unfold flatPeer at hr ⊢
  cases hg : h.receiveGarbage bs with
  | panic => exact absurd hg (C21_no_panic _ _)
  | err e =>
    rw [hg] at hr
    rw [C22_failure_stable h ht _ _ e hg]
    simp only [Option.some.injEq] at hr; subst hr; rfl
  | ok g =>
    rw [hg] at hr
    cases g with
    | needMoreData h' => cases hr
    | foundGarbage h' n =>
      rw [C22_found_stable h ht _ _ h' n hg]
      obtain ⟨i, -, hocc, -, rfl, -⟩ := (C21_found h ht _ _ _).1 hg
      have := OccursAt.le hocc
      simp only at hr ⊢
      rw [List.drop_append_of_le_length (by omega)]
      exact flatVersion_append h' _ more hr

theorem flatHandshake_append (hP : Lawful P) (retry : Bool) (h : HsInitialized)
    (garbage : Option Bytes) (decoys : Option (List Bytes)) (bs more : Bytes) (writer w' : Sink)
    {r : Outcome ProtocolError (InboundCipher × OutboundCipher × Bytes)}
    (hr : flatHandshake retry P prof h garbage decoys bs writer = (w', some r)) :
    flatHandshake retry P prof h garbage decoys (bs ++ more) writer = (w', some (addRest more r)) := by
  unfold flatHandshake at hr ⊢
  cases hk : h.sendKey garbage (zeros (HsInitialized.sendKeyLen garbage)) with
  | mk keyBuffer r1 =>
  rw [hk] at hr
  cases r1 with
  | panic => simp only [Prod.mk.injEq, Option.some.injEq] at hr; obtain ⟨rfl, rfl⟩ := hr; rfl
  | err e => simp only [Prod.mk.injEq, Option.some.injEq] at hr; obtain ⟨rfl, rfl⟩ := hr; rfl
  | ok h1 =>
  simp only at hr ⊢
  cases hw : writer.send retry keyBuffer with
  | mk writer r1 =>
  rw [hw] at hr
  cases r1 with
  | error k => simp only [Prod.mk.injEq, Option.some.injEq] at hr; obtain ⟨rfl, rfl⟩ := hr; rfl
  | ok u =>
  simp only at hr ⊢
  by_cases h64 : bs.length < 64
  · rw [if_pos h64] at hr; simp at hr
  rw [if_neg h64] at hr
  rw [if_neg (by simp; omega), List.take_append_of_le_length (by omega),
    List.drop_append_of_le_length (by omega)]
  cases hk : h1.receiveKey P (bs.take 64) with
  | panic =>
    rw [hk] at hr
    simp only [Prod.mk.injEq, Option.some.injEq] at hr; obtain ⟨rfl, rfl⟩ := hr; rfl
  | err e =>
    rw [hk] at hr
    simp only [Prod.mk.injEq, Option.some.injEq] at hr; obtain ⟨rfl, rfl⟩ := hr; rfl
  | ok h2 =>
  rw [hk] at hr
  simp only at hr ⊢
  cases hv : h2.sendVersion P prof (zeros (HsReceivedKey.sendVersionLen decoys)) decoys with
  | mk versionBuffer r1 =>
  rw [hv] at hr
  cases r1 with
  | panic => simp only [Prod.mk.injEq, Option.some.injEq] at hr; obtain ⟨rfl, rfl⟩ := hr; rfl
  | err e => simp only [Prod.mk.injEq, Option.some.injEq] at hr; obtain ⟨rfl, rfl⟩ := hr; rfl
  | ok h3 =>
  simp only at hr ⊢
  have ht : h3.remoteTerminator.length = 16 := by
    rw [sendVersion_terminator hv]; exact receiveKey_terminators hP hk _
  cases hw2 : writer.send retry versionBuffer with
  | mk writer r1 =>
  rw [hw2] at hr
  cases r1 with
  | error k => simp only [Prod.mk.injEq, Option.some.injEq] at hr; obtain ⟨rfl, rfl⟩ := hr; rfl
  | ok u =>
  simp only [Prod.mk.injEq] at hr ⊢
  exact ⟨hr.1, flatPeer_append h3 ht _ _ hr.2⟩

/-- The unread bytes of a successful flat handshake are a suffix of the bytes, and the consumed part
alone succeeds. -/
theorem flatVersion_consumed (h : HsReceivedGarbage) (bs : Bytes) {i : InboundCipher}
    {o : OutboundCipher} {rest : Bytes} (hr : flatVersion P prof h bs = some (.ok (i, o, rest))) :
    ∃ used, bs = used ++ rest ∧ flatVersion P prof h used = some (.ok (i, o, [])) := by
  induction hn : bs.length using Nat.strongRecOn generalizing h bs with
  | ind n ih =>
  rw [flatVersion] at hr
  by_cases h3 : bs.length < 3
  · rw [if_pos h3] at hr; cases hr
  rw [if_neg h3] at hr
  cases hd : h.decryptPacketLen P prof (bs.take 3) with
  | mk h1 r1 =>
  rw [hd] at hr
  cases r1 with
  | panic => simp at hr
  | err e => simp at hr
  | ok m =>
    simp only at hr
    by_cases hm : m > MAX_PACKET_SIZE_FOR_ALLOCATION
    · rw [if_pos hm] at hr; simp at hr
    rw [if_neg hm] at hr
    by_cases hlt : (bs.drop 3).length < m
    · rw [if_pos hlt] at hr; cases hr
    rw [if_neg hlt] at hr
    have hl3 : (bs.take 3).length = 3 := by simp; omega
    have hlm : ((bs.drop 3).take m).length = m := by simp at hlt ⊢; omega
    have hsplit : bs = bs.take 3 ++ ((bs.drop 3).take m ++ (bs.drop 3).drop m) := by
      rw [List.take_append_drop, List.take_append_drop]
    cases hv : h1.receiveVersion P prof ((bs.drop 3).take m) with
    | mk buf r2 =>
    rw [hv] at hr
    cases r2 with
    | panic => simp at hr
    | err e => simp at hr
    | ok v =>
      have step : ∀ tl, flatVersion P prof h (bs.take 3 ++ ((bs.drop 3).take m ++ tl)) =
          match (generalizing := false) v with
          | .complete c => some (.ok (c.inbound, c.outbound, tl))
          | .decoy h2 => flatVersion P prof h2 tl := by
        intro tl
        rw [flatVersion, if_neg (by rw [List.length_append, hl3]; omega), take_append_len _ _ hl3.symm,
          drop_append_len _ _ hl3.symm, hd]
        simp only
        rw [if_neg hm, if_neg (by rw [List.length_append, hlm]; omega), take_append_len _ _ hlm.symm,
          drop_append_len _ _ hlm.symm, hv]
        cases v <;> rfl
      cases v with
      | complete c =>
        simp only [Option.some.injEq, Outcome.ok.injEq, Prod.mk.injEq] at hr
        obtain ⟨rfl, rfl, rfl⟩ := hr
        refine ⟨bs.take 3 ++ (bs.drop 3).take m, by rw [List.append_assoc]; exact hsplit, ?_⟩
        have := step []
        simpa using this
      | decoy h2 =>
        obtain ⟨used, hu, hf⟩ := ih _ (by simp; omega) h2 _ hr rfl
        refine ⟨bs.take 3 ++ ((bs.drop 3).take m ++ used), ?_, ?_⟩
        · rw [List.append_assoc, List.append_assoc, ← hu]; exact hsplit
        · rw [step]; exact hf

theorem flatPeer_consumed (h : HsSentVersion) (ht : h.remoteTerminator.length = 16) (bs : Bytes)
    {i : InboundCipher} {o : OutboundCipher} {rest : Bytes}
    (hr : flatPeer P prof h bs = some (.ok (i, o, rest))) :
    ∃ used, bs = used ++ rest ∧ flatPeer P prof h used = some (.ok (i, o, [])) := by
  unfold flatPeer at hr
  cases hg : h.receiveGarbage bs with
  | panic => rw [hg] at hr; simp at hr
  | err e => rw [hg] at hr; simp at hr
  | ok g =>
    rw [hg] at hr
    cases g with
    | needMoreData h' => cases hr
    | foundGarbage h' n =>
      simp only at hr
      obtain ⟨used, hu, hf⟩ := flatVersion_consumed h' _ hr
      obtain ⟨j, hj, hocc, hmin, rfl, hgar, hgar', hc⟩ := (C21_found h ht _ _ _).1 hg
      have hle := OccursAt.le hocc
      have hlen : (bs.take (j + 16)).length = j + 16 := by simp; omega
      refine ⟨bs.take (j + 16) ++ used, ?_, ?_⟩
      · rw [List.append_assoc, ← hu, List.take_append_drop]
      · have : h.receiveGarbage (bs.take (j + 16) ++ used) = .ok (.foundGarbage h' (j + 16)) := by
          refine C22_found_stable h ht _ _ _ _ ?_
          rw [C21_found h ht]
          refine ⟨j, hj, occursAt_take.2 ⟨hocc, by rw [hlen, ht]; exact Nat.le_refl _⟩,
            fun x hx hcc => hmin x hx (occursAt_take.1 hcc).1, rfl, ?_, hgar', hc⟩
          rw [hgar, List.take_take, Nat.min_eq_left (by omega)]
        unfold flatPeer
        rw [this]
        simp only
        rw [drop_append_len _ _ hlen.symm]
        exact hf

theorem flatHandshake_consumed (hP : Lawful P) (retry : Bool) (h : HsInitialized)
    (garbage : Option Bytes) (decoys : Option (List Bytes)) (bs : Bytes) (writer w' : Sink)
    {i : InboundCipher} {o : OutboundCipher} {rest : Bytes}
    (hr : flatHandshake retry P prof h garbage decoys bs writer = (w', some (.ok (i, o, rest)))) :
    ∃ used, bs = used ++ rest ∧
      flatHandshake retry P prof h garbage decoys used writer = (w', some (.ok (i, o, []))) := by
  unfold flatHandshake at hr ⊢
  cases hk : h.sendKey garbage (zeros (HsInitialized.sendKeyLen garbage)) with
  | mk keyBuffer r1 =>
  rw [hk] at hr
  cases r1 with
  | panic => simp at hr
  | err e => simp at hr
  | ok h1 =>
  simp only at hr ⊢
  cases hw : writer.send retry keyBuffer with
  | mk writer r1 =>
  rw [hw] at hr
  cases r1 with
  | error k => simp at hr
  | ok u =>
  simp only at hr ⊢
  by_cases h64 : bs.length < 64
  · rw [if_pos h64] at hr; simp at hr
  rw [if_neg h64] at hr
  cases hk : h1.receiveKey P (bs.take 64) with
  | panic => rw [hk] at hr; simp at hr
  | err e => rw [hk] at hr; simp at hr
  | ok h2 =>
  rw [hk] at hr
  simp only at hr
  cases hv : h2.sendVersion P prof (zeros (HsReceivedKey.sendVersionLen decoys)) decoys with
  | mk versionBuffer r1 =>
  rw [hv] at hr
  cases r1 with
  | panic => simp at hr
  | err e => simp at hr
  | ok h3 =>
  simp only at hr
  have ht : h3.remoteTerminator.length = 16 := by
    rw [sendVersion_terminator hv]; exact receiveKey_terminators hP hk _
  cases hw2 : writer.send retry versionBuffer with
  | mk writer r1 =>
  rw [hw2] at hr
  cases r1 with
  | error k => simp at hr
  | ok u =>
  simp only [Prod.mk.injEq] at hr
  obtain ⟨rfl, hr⟩ := hr
  obtain ⟨used, hu, hf⟩ := flatPeer_consumed h3 ht _ hr
  have hlen : (bs.take 64).length = 64 := by simp; omega
  refine ⟨bs.take 64 ++ used, ?_, ?_⟩
  · rw [List.append_assoc, ← hu, List.take_append_drop]
  · rw [if_neg (by rw [List.length_append, hlen]; omega), take_append_len _ _ hlen.symm, hk]
    simp only
    rw [hv]
    simp only
    rw [hw2]
    simp only
    rw [drop_append_len _ _ hlen.symm, hf]

/-! ## Reliable sinks -/

/-- A writing transport that never fails: it accepts at least one byte per call, possibly after
`Pending`s (and, where the caller repeats them, interruptions), and flushes succeed. -/
def Sink.Reliable (retry : Bool) (w : Sink) : Prop :=
  (∀ e ∈ w.script, e = .pending ∨ (∃ n, e = .accept (n + 1)) ∨ (retry = true ∧ e = .fail .interrupted)) ∧
    ∀ f ∈ w.flushes, f = none

theorem writeAllGo_reliable (retry : Bool) (s : List WEv) (buf : Bytes)
    (h : ∀ e ∈ s, e = .pending ∨ (∃ n, e = .accept (n + 1)) ∨ (retry = true ∧ e = .fail .interrupted)) :
    ∃ s', writeAllGo retry s buf = (s', buf, .ok ()) ∧ ∀ e ∈ s', e ∈ s := by
  induction s generalizing buf with
  | nil => cases buf <;> exact ⟨[], rfl, by simp⟩
  | cons e s ih =>
    cases buf with
    | nil => exact ⟨e :: s, by simp [writeAllGo], by simp⟩
    | cons b buf =>
      have ih' := fun buf => ih buf (fun e he => h e (by simp [he]))
      rcases h e (by simp) with rfl | ⟨n, rfl⟩ | ⟨rfl, rfl⟩
      · obtain ⟨s', e1, e2⟩ := ih' (b :: buf)
        exact ⟨s', by simp only [writeAllGo, e1], fun e he => by simp [e2 e he]⟩
      · obtain ⟨s', e1, e2⟩ := ih' ((b :: buf).drop (n + 1))
        refine ⟨s', ?_, fun e he => by simp [e2 e he]⟩
        simp only [writeAllGo, e1, List.take_append_drop]
      · obtain ⟨s', e1, e2⟩ := ih' (b :: buf)
        refine ⟨s', ?_, fun e he => by simp [e2 e he]⟩
        simp only [writeAllGo, e1]
        rfl

theorem send_reliable {retry : Bool} {w : Sink} (h : w.Reliable retry) (buf : Bytes) :
    ∃ w', w.send retry buf = (w', .ok ()) ∧ w'.out = w.out ++ buf ∧ w'.Reliable retry := by
  obtain ⟨s', e1, e2⟩ := writeAllGo_reliable retry w.script buf h.1
  unfold Sink.send Sink.writeAll
  rw [e1]
  simp only
  unfold Sink.flush
  simp only
  cases hf : w.flushes with
  | nil => exact ⟨_, rfl, rfl, fun e he => h.1 e (e2 e he), by simp⟩
  | cons f fs =>
    obtain rfl := h.2 f (by simp [hf])
    exact ⟨_, rfl, rfl, fun e he => h.1 e (e2 e he), fun f hf' => h.2 f (by simp [hf, hf'])⟩

/-! ## The honest exchange -/

theorem flat_step (hP : Lawful P) {o o' : OutboundCipher} {h : HsReceivedGarbage}
    (hm : Matching o h.cipher.inbound) (m : Msg) (hlen : m.contents.length ≤ 3999997)
    (haad : h.remoteGarbage.getD [] = m.aad.getD []) {w : Bytes}
    (he : o.encryptToVec P prof m.contents m.ty m.aad = (o', .ok w)) (rest : Bytes) :
    ∃ i', Matching o' i' ∧ flatVersion P prof h (w ++ rest) =
      match m.ty with
      | .genuine => some (.ok (i', h.cipher.outbound, rest))
      | .decoy => flatVersion P prof
          { h with cipher := { h.cipher with inbound := i' }, remoteGarbage := none } rest := by
  have hlen24 : m.contents.length < 2 ^ 24 := by omega
  obtain ⟨i1, i2, hm2, hl, ⟨buf, hd⟩, -⟩ :=
    C01_packet_round_trip hP hm m.contents hlen24 m.ty m.aad he
  refine ⟨i2, hm2, ?_⟩
  have hw : w.length = m.contents.length + 20 := by
    obtain ⟨pc, ct, tag, lc, encLen, hpc, hcr, -, rfl⟩ :=
      OutboundCipher.encryptToVec_ok_inv hP o m.contents m.ty m.aad he
    obtain ⟨h1, h2⟩ := FSAead.encrypt_lengths hP hpc
    have := FSStream.crypt_length hcr
    simp at this h1
    simp [this, h1, h2]
    omega
  have h3 : 3 ≤ w.length := by omega
  rw [flatVersion, if_neg (by simp; omega), List.take_append_of_le_length h3]
  unfold HsReceivedGarbage.decryptPacketLen
  rw [hl]
  simp only
  rw [if_neg (by show ¬ _ > 4000014; simp; omega)]
  rw [List.drop_append_of_le_length h3, if_neg (by simp), List.take_left, List.drop_left]
  unfold HsReceivedGarbage.receiveVersion
  simp only
  rw [decryptInPlace_aad i1 _ haad, hd]
  cases m.ty <;> rfl

theorem flat_decoys (hP : Lawful P) (ds : List Bytes)
    {o o' : OutboundCipher} {h : HsReceivedGarbage} (hm : Matching o h.cipher.inbound)
    (hds : ∀ d ∈ ds, d.length ≤ 3999997) (aad : Option Bytes)
    (haad : h.remoteGarbage.getD [] = aad.getD []) {ws : List Bytes}
    (hs : sendAll P prof o (handshakeMsgs aad ds) = .ok (o', ws)) (rest : Bytes) :
    ∃ i', Matching o' i' ∧ flatVersion P prof h (ws.flatten ++ rest)
      = some (.ok (i', h.cipher.outbound, rest)) := by
  induction ds generalizing o h aad ws with
  | nil =>
    simp only [handshakeMsgs, sendAll] at hs
    split at hs
    · rename_i o1 w he
      simp only [Outcome.ok.injEq, Prod.mk.injEq] at hs
      obtain ⟨rfl, rfl⟩ := hs
      obtain ⟨i', hm', hc⟩ := flat_step hP hm ⟨.genuine, [], aad⟩ (by simp) haad he rest
      exact ⟨i', hm', by simpa using hc⟩
    · simp at hs
    · simp at hs
  | cons d ds ih =>
    simp only [handshakeMsgs, sendAll] at hs
    split at hs
    · rename_i o1 w he
      split at hs
      · rename_i o2 ws' hs'
        simp only [Outcome.ok.injEq, Prod.mk.injEq] at hs
        obtain ⟨rfl, rfl⟩ := hs
        obtain ⟨i1, hm1, hc1⟩ := flat_step hP hm ⟨.decoy, d, aad⟩ (hds d (by simp)) haad he
          (ws'.flatten ++ rest)
        obtain ⟨i2, hm2, hc2⟩ := ih
          (h := { h with cipher := { h.cipher with inbound := i1 }, remoteGarbage := none }) hm1
          (fun x hx => hds x (by simp [hx])) none rfl hs'
        refine ⟨i2, hm2, ?_⟩
        rw [List.flatten_cons, List.append_assoc, hc1]
        exact hc2
      · simp at hs
      · simp at hs
    · simp at hs
    · simp at hs

/-- What one party makes of the other's bytes. -/
theorem flatPeer_honest (hP : Lawful P) (h : HsSentVersion) (g : Option Bytes)
    (ds : List Bytes) (t : Bytes) (ht16 : t.length = 16) (ht : h.remoteTerminator = t)
    (hg : (g.getD []).length ≤ 4095) (hearly : NoEarlyTerminator t (g.getD []))
    {o o' : OutboundCipher} (hm : Matching o h.cipher.inbound) {ws : List Bytes}
    (hds : ∀ d ∈ ds, d.length ≤ 3999997)
    (hs : sendAll P prof o (handshakeMsgs g ds) = .ok (o', ws)) :
    ∃ i', Matching o' i' ∧ ∀ more, flatPeer P prof h (g.getD [] ++ (t ++ ws.flatten) ++ more)
      = some (.ok (i', h.cipher.outbound, more)) := by
  have key : ∀ more, ∃ i', Matching o' i' ∧
      flatPeer P prof h (g.getD [] ++ (t ++ ws.flatten) ++ more)
        = some (.ok (i', h.cipher.outbound, more)) := by
    intro more
    obtain ⟨h', i0, hrg, -, -⟩ := receive_side hP h g ds t ht16 ht hg hearly hm
      (fun d hd => by have := hds d hd; omega) hs more
    obtain ⟨j, -, hocc, -, hj, hgar, -, hc, -⟩ := (C21_found h (by rw [ht, ht16]) _ _ _).1 hrg
    obtain rfl : j = (g.getD []).length := by omega
    rw [List.append_assoc, List.take_left] at hgar
    obtain ⟨i', hm', hf⟩ := flat_decoys hP ds (h := h') (by rw [hc]; exact hm) hds g hgar hs more
    refine ⟨i', hm', ?_⟩
    unfold flatPeer
    rw [hrg]
    simp only
    rw [show g.getD [] ++ (t ++ ws.flatten) ++ more
          = (g.getD [] ++ t) ++ (ws.flatten ++ more) by simp,
      drop_append_len _ _ (by simp [ht16]), hf, hc]
  obtain ⟨i', hm', hf⟩ := key []
  refine ⟨i', hm', fun more => ?_⟩
  have := flatPeer_append h (by rw [ht, ht16]) _ more hf
  simpa [addRest] using this

/-- The state after `send_version` with the shared session keys `K`. -/
def HsInitialized.sentVersion (h : HsInitialized) (K : SessionKeyMaterial) (o : OutboundCipher) :
    HsSentVersion :=
  ⟨h.magic, h.role, { CipherSession.new K h.role with outbound := o }, K.remoteTerminator h.role⟩

/-- One party's handshake against a peer whose key is `peerKey`, up to the peer's garbage. -/
theorem flatHandshake_reach (hP : Lawful P) (h : HsInitialized) (hkey : h.ellswift.length = 64)
    (peerKey : Bytes) (hpk : peerKey.length = 64) (K : SessionKeyMaterial)
    (hterm : ∀ r, (K.localTerminator r).length = 16)
    (hrecv : ∀ g, HsSentKey.receiveKey P ⟨h.magic, h.role, h.secretKey, h.ellswift, g⟩ peerKey
      = .ok ⟨h.magic, h.role, K, g⟩)
    (g : Option Bytes) (d : Option (List Bytes)) (hg : (g.getD []).length ≤ 4095)
    {o : OutboundCipher} {ws : List Bytes}
    (hs : sendAll P prof (CipherSession.new K h.role).outbound (handshakeMsgs g (d.getD [])) = .ok (o, ws))
    (retry : Bool) (w : Sink) (hw : w.Reliable retry) :
    ∃ w1 w2, w1.Reliable retry ∧ w2.Reliable retry ∧ w1.out = w.out ++ (h.ellswift ++ g.getD []) ∧
      w2.out = w.out ++ (h.ellswift ++ g.getD [] ++ (K.localTerminator h.role ++ ws.flatten)) ∧
      (∀ p, p.length < 64 → flatHandshake retry P prof h g d p w = (w1, none)) ∧
      (∀ x, flatHandshake retry P prof h g d (peerKey ++ x) w
        = (w2, flatPeer P prof (h.sentVersion K o) x)) := by
  have hlen : HsInitialized.sendKeyLen g = 64 + (g.getD []).length := by cases g <;> rfl
  have hsk := C18_send_key h hkey g (zeros (HsInitialized.sendKeyLen g))
  simp only at hsk
  rw [if_neg (by omega), if_neg (by simp; omega), List.drop_of_length_le (by simp; omega),
    List.append_nil] at hsk
  have hsv := sendVersion_eq hP ⟨h.magic, h.role, K, g⟩ (zeros (HsReceivedKey.sendVersionLen d)) d
    (by rw [zeros_length, sendVersionLen_eq]; exact Nat.le_refl _) (hterm _) hs
  rw [List.drop_of_length_le (by rw [zeros_length, sendVersionLen_eq]; exact Nat.le_refl _),
    List.append_nil] at hsv
  simp only at hsv
  obtain ⟨w1, hw1, ho1, hr1⟩ := send_reliable hw (h.ellswift ++ g.getD [])
  obtain ⟨w2, hw2, ho2, hr2⟩ := send_reliable hr1 (K.localTerminator h.role ++ ws.flatten)
  refine ⟨w1, w2, hr1, hr2, ho1, by rw [ho2, ho1]; simp, fun p h64 => ?_, fun x => ?_⟩
  · unfold flatHandshake
    rw [hsk]
    simp only
    rw [hw1]
    simp only
    rw [if_pos h64]
  · unfold flatHandshake
    rw [hsk]
    simp only
    rw [hw1]
    simp only
    rw [if_neg (by simp; omega), take_append_len _ _ hpk.symm, drop_append_len _ _ hpk.symm, hrecv]
    simp only
    rw [hsv]
    simp only
    rw [hw2]
    rfl

/-- One party's whole handshake against an honest peer: `K` are the shared session keys. -/
theorem flatHandshake_honest (hP : Lawful P) (h : HsInitialized) (hkey : h.ellswift.length = 64)
    (peerKey : Bytes) (hpk : peerKey.length = 64) (K : SessionKeyMaterial)
    (hterm : ∀ r, (K.localTerminator r).length = 16)
    (hrecv : ∀ g, HsSentKey.receiveKey P ⟨h.magic, h.role, h.secretKey, h.ellswift, g⟩ peerKey
      = .ok ⟨h.magic, h.role, K, g⟩)
    (r' : Role) (hr' : r' ≠ h.role)
    (g g' : Option Bytes) (d d' : Option (List Bytes))
    (hg : (g.getD []).length ≤ 4095) (hg' : (g'.getD []).length ≤ 4095)
    (hd' : ∀ x ∈ d'.getD [], x.length ≤ 3999997)
    (hearly : NoEarlyTerminator (K.localTerminator r') (g'.getD []))
    {o o' : OutboundCipher} {ws ws' : List Bytes}
    (hs : sendAll P prof (CipherSession.new K h.role).outbound (handshakeMsgs g (d.getD [])) = .ok (o, ws))
    (hs' : sendAll P prof (CipherSession.new K r').outbound (handshakeMsgs g' (d'.getD []))
      = .ok (o', ws')) :
    ∃ i, Matching o' i ∧ ∀ (retry : Bool) (w : Sink), w.Reliable retry →
      (∀ more, ∃ w', w'.Reliable retry ∧
        w'.out = w.out ++ (h.ellswift ++ g.getD [] ++ (K.localTerminator h.role ++ ws.flatten)) ∧
        flatHandshake retry P prof h g d
          (peerKey ++ g'.getD [] ++ (K.localTerminator r' ++ ws'.flatten) ++ more) w
          = (w', some (.ok (i, o, more)))) ∧
      (∀ p q, q ≠ [] → p ++ q = peerKey ++ g'.getD [] ++ (K.localTerminator r' ++ ws'.flatten) →
        ∃ w', w'.Reliable retry ∧
          w'.out = w.out ++ (if p.length < 64 then h.ellswift ++ g.getD []
            else h.ellswift ++ g.getD [] ++ (K.localTerminator h.role ++ ws.flatten)) ∧
          flatHandshake retry P prof h g d p w = (w', none)) := by
  have hrt : K.remoteTerminator h.role = K.localTerminator r' := by
    revert hr'; cases h.role <;> cases r' <;> intro hr' <;> first | rfl | exact absurd rfl hr'
  have hmat : Matching (CipherSession.new K r').outbound
      (CipherSession.new K h.role).inbound := by
    revert hr'; cases h.role <;> cases r' <;> intro hr' <;> first | exact ⟨rfl, rfl⟩ | exact absurd rfl hr'
  obtain ⟨i, hmi, hfp⟩ := flatPeer_honest hP (h.sentVersion K o)
    g' (d'.getD []) (K.localTerminator r') (hterm _) hrt hg' hearly hmat hd' hs'
  refine ⟨i, hmi, fun retry w hw => ?_⟩
  obtain ⟨w1, w2, hr1, hr2, ho1, ho2, hshort, hlong⟩ :=
    flatHandshake_reach hP h hkey peerKey hpk K hterm hrecv g d hg hs retry w hw
  have full : ∀ more, flatHandshake retry P prof h g d
      (peerKey ++ g'.getD [] ++ (K.localTerminator r' ++ ws'.flatten) ++ more) w
      = (w2, some (.ok (i, o, more))) := by
    intro more
    rw [show peerKey ++ g'.getD [] ++ (K.localTerminator r' ++ ws'.flatten) ++ more
        = peerKey ++ (g'.getD [] ++ (K.localTerminator r' ++ ws'.flatten) ++ more) by simp, hlong, hfp]
    rfl
  refine ⟨fun more => ⟨w2, hr2, ho2, full more⟩, fun p q hq hpq => ?_⟩
  -- a proper prefix
  have hnone : ∀ w' r, flatHandshake retry P prof h g d p w ≠ (w', some r) := by
    intro w' r hr
    have h1 := flatHandshake_append hP retry h g d p q w w' hr
    have h2 := full []
    rw [List.append_nil, ← hpq, h1] at h2
    simp only [Prod.mk.injEq, Option.some.injEq] at h2
    obtain ⟨-, h2⟩ := h2
    cases r with
    | panic => cases h2
    | err e => cases h2
    | ok x =>
      obtain ⟨a, b, c⟩ := x
      simp only [addRest, Outcome.ok.injEq, Prod.mk.injEq] at h2
      have := h2.2.2
      simp only [List.append_eq_nil_iff] at this
      exact hq this.2
  by_cases h64 : p.length < 64
  · rw [if_pos h64]
    exact ⟨w1, hr1, ho1, hshort p h64⟩
  · rw [if_neg h64]
    have hpt : p = peerKey ++ p.drop 64 := by
      have : (p ++ q).take 64 = peerKey := by
        rw [hpq, List.append_assoc, take_append_len _ _ hpk.symm]
      rw [List.take_append_of_le_length (by omega)] at this
      rw [← this, List.take_append_drop]
    rw [hpt] at hnone ⊢
    rw [hlong] at hnone ⊢
    cases hf : flatPeer P prof (h.sentVersion K o) (p.drop 64) with
    | some r => rw [hf] at hnone; exact absurd rfl (hnone w2 r)
    | none => exact ⟨w2, hr2, ho2, rfl⟩

/-- A length field that announces more than the limit stops the version loop, after any number of
acceptable decoys. -/
theorem flat_decoys_tooBig (hP : Lawful P) (ds : List Bytes) (big : Bytes) (ds2 : List Bytes)
    {o o' : OutboundCipher} {h : HsReceivedGarbage} (hm : Matching o h.cipher.inbound)
    (hds : ∀ d ∈ ds, d.length ≤ 3999997) (hb1 : 3999997 < big.length) (hb2 : big.length < 2 ^ 24)
    (aad : Option Bytes) (haad : h.remoteGarbage.getD [] = aad.getD []) {ws : List Bytes}
    (hs : sendAll P prof o (handshakeMsgs aad (ds ++ big :: ds2)) = .ok (o', ws)) (rest : Bytes) :
    flatVersion P prof h (ws.flatten ++ rest) = some (.err (.internal .packetTooBig)) := by
  induction ds generalizing o h aad ws with
  | nil =>
    simp only [List.nil_append, handshakeMsgs, sendAll] at hs
    split at hs
    · rename_i o1 w he
      split at hs
      · rename_i o2 ws' hs'
        simp only [Outcome.ok.injEq, Prod.mk.injEq] at hs
        obtain ⟨rfl, rfl⟩ := hs
        obtain ⟨i1, i2, hm2, hl, -, -⟩ := C01_packet_round_trip hP hm big hb2 .decoy aad he
        have hw : w.length = big.length + 20 := by
          obtain ⟨pc, ct, tag, lc, encLen, hpc, hcr, -, rfl⟩ :=
            OutboundCipher.encryptToVec_ok_inv hP o big .decoy aad he
          obtain ⟨h1, h2⟩ := FSAead.encrypt_lengths hP hpc
          have := FSStream.crypt_length hcr
          simp at this h1
          simp [this, h1, h2]
          omega
        have h3 : 3 ≤ w.length := by omega
        rw [List.flatten_cons, List.append_assoc, flatVersion, if_neg (by simp; omega),
          List.take_append_of_le_length h3]
        unfold HsReceivedGarbage.decryptPacketLen
        rw [hl]
        simp only
        rw [if_pos (by show _ > 4000014; simp; omega)]
      · simp at hs
      · simp at hs
    · simp at hs
    · simp at hs
  | cons d ds ih =>
    simp only [List.cons_append, handshakeMsgs, sendAll] at hs
    split at hs
    · rename_i o1 w he
      split at hs
      · rename_i o2 ws' hs'
        simp only [Outcome.ok.injEq, Prod.mk.injEq] at hs
        obtain ⟨rfl, rfl⟩ := hs
        obtain ⟨i1, hm1, hc1⟩ := flat_step hP hm ⟨.decoy, d, aad⟩ (hds d (by simp)) haad he
          (ws'.flatten ++ rest)
        rw [List.flatten_cons, List.append_assoc, hc1]
        exact ih
          (h := { h with cipher := { h.cipher with inbound := i1 }, remoteGarbage := none }) hm1
          (fun x hx => hds x (by simp [hx])) none rfl hs'
      · simp at hs
      · simp at hs
    · simp at hs
    · simp at hs

/-- Finding the garbage of an honest peer. -/
theorem garbage_found (h : HsSentVersion) (g x : Bytes) (ht16 : h.remoteTerminator.length = 16)
    (hg : g.length ≤ 4095) (hearly : NoEarlyTerminator h.remoteTerminator g) :
    ∃ h', h.receiveGarbage (g ++ (h.remoteTerminator ++ x)) = .ok (.foundGarbage h' (g.length + 16)) ∧
      h'.remoteGarbage.getD [] = g ∧ h'.cipher = h.cipher := by
  let h' : HsReceivedGarbage := ⟨h.magic, h.role, h.cipher, if g.isEmpty then none else some g⟩
  have hgd : h'.remoteGarbage.getD [] = g := by
    simp only [h']
    split
    · rename_i he; rw [List.isEmpty_iff] at he; rw [he]; rfl
    · rfl
  refine ⟨h', ?_, hgd, rfl⟩
  rw [C21_found h ht16]
  refine ⟨g.length, hg, ⟨g, x, by simp, rfl⟩, ?_, rfl, ?_, ?_, rfl, rfl, rfl⟩
  · intro j hj hc
    refine hearly j hj ?_
    rw [← List.append_assoc] at hc
    exact occursAt_of_append hc (by simp; omega)
  · rw [hgd, List.take_left]
  · simp only [h']
    split
    · simp
    · rename_i he; rw [List.isEmpty_iff] at he; simpa using he

/-- The same for a party waiting for the garbage. -/
theorem flatPeer_tooBig (hP : Lawful P) (h : HsSentVersion) (g : Option Bytes)
    (ds : List Bytes) (big : Bytes) (ds2 : List Bytes) (t : Bytes) (ht16 : t.length = 16)
    (ht : h.remoteTerminator = t)
    (hg : (g.getD []).length ≤ 4095) (hearly : NoEarlyTerminator t (g.getD []))
    {o o' : OutboundCipher} (hm : Matching o h.cipher.inbound) {ws : List Bytes}
    (hds : ∀ d ∈ ds, d.length ≤ 3999997) (hb1 : 3999997 < big.length) (hb2 : big.length < 2 ^ 24)
    (hs : sendAll P prof o (handshakeMsgs g (ds ++ big :: ds2)) = .ok (o', ws)) (more : Bytes) :
    flatPeer P prof h (g.getD [] ++ (t ++ ws.flatten) ++ more)
      = some (.err (.internal .packetTooBig)) := by
  subst ht
  obtain ⟨h', hr, hgar, hc⟩ := garbage_found h (g.getD []) (ws.flatten ++ more) ht16 hg hearly
  unfold flatPeer
  rw [show g.getD [] ++ (h.remoteTerminator ++ ws.flatten) ++ more
        = g.getD [] ++ (h.remoteTerminator ++ (ws.flatten ++ more)) by simp, hr]
  simp only
  rw [← List.append_assoc, drop_append_len _ _ (by simp [ht16])]
  exact flat_decoys_tooBig hP ds big ds2 (by rw [hc]; exact hm) hds hb1 hb2 g hgar hs more

end Bip324
