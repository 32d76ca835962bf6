import Verif.Spec.Errors
import Verif.Props.Differential
import Verif.Lemmas.Ask
import Verif.Props.Shaping

/-!
# The errors of every function
-/

namespace Bip324

variable {P : Prims} {prof : Profile} {R : Rng}

/-! ## The ciphers -/

theorem encrypt_err {c : OutboundCipher} {pt buf : Bytes} {ty : PacketType} {aad : Option Bytes} {e : Error}
    (h : (c.encrypt P prof pt buf ty aad).2.2 = .err e) : e = .bufferTooSmall (pt.length + 20) ∧ buf.length < pt.length + 20 := by
  unfold OutboundCipher.encrypt at h
  split at h
  · rename_i hb
    simp only [Outcome.err.injEq] at h
    exact ⟨h.symm, hb⟩
  · simp only at h
    split at h
    · cases h
    · split at h <;> cases h

theorem encrypt_length (hP : Lawful P) {c : OutboundCipher} {pt buf : Bytes} {ty : PacketType} {aad : Option Bytes} :
    (c.encrypt P prof pt buf ty aad).2.1.length = buf.length := by
  unfold OutboundCipher.encrypt
  split
  · rfl
  · rename_i hb
    have hb' : pt.length + 20 ≤ buf.length := Nat.le_of_not_lt hb
    have hl : NUM_LENGTH_BYTES + NUM_HEADER_BYTES - 1 = 3 := rfl
    simp only [hl]
    have h1 : (writeAt buf 3 [ty.toByte]).length = buf.length := writeAt_length (by simp; omega)
    have h2 : (writeAt (writeAt buf 3 [ty.toByte]) (3 + 1) pt).length = buf.length := by
      rw [writeAt_length (by omega), h1]
    split
    · exact h2
    · rename_i pc ct tag he
      obtain ⟨hct, htag⟩ := FSAead.encrypt_lengths hP he
      have hs : ct.length = pt.length + 1 := by
        rw [hct]; simp only [slice, List.length_take, List.length_drop, h2]; omega
      have h3 : (writeAt (writeAt (writeAt buf 3 [ty.toByte]) (3 + 1) pt) 3 ct).length = buf.length := by
        rw [writeAt_length (by omega), h2]
      split
      · exact h3
      · rename_i lc encLen hc
        have h4 : encLen.length = 3 := by rw [FSStream.crypt_length hc]; simp
        rw [writeAt_length, writeAt_length, h3]
        · omega
        · rw [writeAt_length] <;> omega

theorem decryptInPlace_err {c : InboundCipher} {ct : Bytes} {aad : Option Bytes} {e : Error}
    (h : (c.decryptInPlace P prof ct aad).2.2 = .err e) :
    (e = .ciphertextTooSmall ∧ ct.length < 17) ∨ (e = .decryption ∧ 17 ≤ ct.length) := by
  unfold InboundCipher.decryptInPlace at h
  split at h
  · rename_i hb
    simp only [Outcome.err.injEq] at h
    exact .inl ⟨h.symm, hb⟩
  · rename_i hb
    simp only at h
    split at h
    · cases h
    · simp only [Outcome.err.injEq] at h
      exact .inr ⟨h.symm, Nat.le_of_not_lt hb⟩
    · split at h <;> cases h

theorem decrypt_err {c : InboundCipher} {ct buf : Bytes} {aad : Option Bytes} {e : Error}
    (h : (c.decrypt P prof ct buf aad).2.2 = .err e) :
    (e = .ciphertextTooSmall ∧ ct.length < 17) ∨
    (e = .bufferTooSmall (ct.length - 16) ∧ 17 ≤ ct.length ∧ buf.length < ct.length - 16) ∨
    (e = .decryption ∧ 17 ≤ ct.length ∧ ct.length - 16 ≤ buf.length) := by
  unfold InboundCipher.decrypt at h
  split at h
  · rename_i hb
    simp only [Outcome.err.injEq] at h
    exact .inl ⟨h.symm, hb⟩
  · rename_i hb
    have hb' : 17 ≤ ct.length := Nat.le_of_not_lt hb
    have hl : (ct.take (ct.length - NUM_TAG_BYTES)).length = ct.length - 16 := by
      rw [List.length_take]; show min (ct.length - 16) _ = _; omega
    simp only [hl] at h
    split at h
    · rename_i hs
      simp only [Outcome.err.injEq] at h
      exact .inr (.inl ⟨h.symm, hb', hs⟩)
    · rename_i hs
      split at h
      · cases h
      · simp only [Outcome.err.injEq] at h
        exact .inr (.inr ⟨h.symm, hb', Nat.le_of_not_lt hs⟩)
      · split at h <;> cases h

theorem decryptToVec_err {c : InboundCipher} {ct : Bytes} {aad : Option Bytes} {e : Error}
    (h : (c.decryptToVec P prof ct aad).2 = .err e) :
    (e = .ciphertextTooSmall ∧ ct.length < 17) ∨ e = .packetTooBig ∨ (e = .decryption ∧ 17 ≤ ct.length) := by
  unfold InboundCipher.decryptToVec at h
  split at h
  · cases h
  · rename_i n hn
    split at h
    · simp only [Outcome.err.injEq] at h
      exact .inr (.inl h.symm)
    · have key : ∀ e', (c.decrypt P prof ct (zeros n) aad).2.2 = .err e' → (e' = .ciphertextTooSmall ∧ ct.length < 17) ∨
          e' = .packetTooBig ∨ (e' = .decryption ∧ 17 ≤ ct.length) := by
        intro e' he
        rcases decrypt_err he with h1 | ⟨-, h2, h3⟩ | h1
        · exact .inl h1
        · rw [bufferLen_17 (prof := prof) h2, Option.some.injEq] at hn
          rw [zeros_length] at h3
          omega
        · exact .inr (.inr ⟨h1.1, h1.2.1⟩)
      split at h
      · cases h
      · rename_i c' buf e' he
        simp only [Outcome.err.injEq] at h
        subst h
        exact key _ (by rw [he])
      · cases h

theorem decryptPacketLen_noErr {c : InboundCipher} {lb : Bytes} {e : Error} :
    (c.decryptPacketLen P prof lb).2 ≠ .err e := by
  unfold InboundCipher.decryptPacketLen
  split <;> simp

/-! ## The handshake states -/

theorem fromEcdh_noErr (hP : Lawful P) {a b secret magic : Bytes} {party : Party} {e : Error} :
    SessionKeyMaterial.fromEcdh P a b secret party magic ≠ .err e := by
  unfold SessionKeyMaterial.fromEcdh
  have hk : ∀ salt ikm info, ∃ okm, P.hkdf salt ikm info 32 = some okm := by
    intro salt ikm info
    obtain ⟨okm, h, -⟩ := hP.hkdf_ok salt ikm info 32 (by decide)
    exact ⟨okm, h⟩
  simp only
  repeat' split
  all_goals simp only [ne_eq, reduceCtorEq, not_false_eq_true]
  all_goals
    rename_i hx
    obtain ⟨okm, h⟩ := hk _ _ _
    rw [h] at hx
    cases hx

theorem newWithRng_err {magic rng : Bytes} {role : Role} {e : Error}
    (h : HsInitialized.newWithRng P prof magic role rng = .err e) : e = .secretGeneration .materialsGeneration := by
  unfold HsInitialized.newWithRng at h
  repeat' split at h
  all_goals first | (cases h; done) | skip
  simp only [Outcome.err.injEq] at h
  exact h.symm

theorem receiveKey_err (hP : Lawful P) {h : HsSentKey} {key : Bytes} {e : Error} (he : h.receiveKey P key = .err e) :
    e = .v1Protocol ∧ h.magic = key.take 4 := by
  obtain ⟨magic, role, sk, es, g⟩ := h
  rw [receiveKey_eq hP] at he
  split at he
  · rename_i hm
    simp only [Outcome.err.injEq] at he
    exact ⟨he.symm, hm.symm⟩
  · cases he

theorem encryptInto_err {o : OutboundCipher} {buf contents : Bytes} {off : Nat} {ty : PacketType} {aad : Option Bytes}
    {e : Error} (h : (encryptInto P prof o buf off contents ty aad).2.2 = .err e) :
    e = .bufferTooSmall (contents.length + 20) ∧ buf.length < off + (contents.length + 20) := by
  unfold encryptInto at h
  simp only at h
  obtain ⟨h1, h2⟩ := encrypt_err h
  refine ⟨h1, ?_⟩
  simp only [slice, List.length_take, List.length_drop] at h2
  have : OutboundCipher.encryptionBufferLen contents.length = contents.length + 20 := rfl
  omega

theorem encryptInto_length (hP : Lawful P) {o : OutboundCipher} {buf contents : Bytes} {off : Nat} {ty : PacketType}
    {aad : Option Bytes} (hb : off ≤ buf.length) :
    (encryptInto P prof o buf off contents ty aad).2.1.length = buf.length := by
  unfold encryptInto
  simp only
  rw [writeAt_length]
  rw [encrypt_length hP]
  simp only [slice, List.length_take, List.length_drop]
  omega

theorem writeDecoys_err {ds : List Bytes} : ∀ {o : OutboundCipher} {buf : Bytes} {off : Nat} {aad : Option Bytes} {e : Error},
    (writeDecoys P prof o buf off aad ds).2.2.2.2 = .err e → ∃ n, e = .bufferTooSmall n := by
  induction ds with
  | nil => intro o buf off aad e h; cases h
  | cons d ds ih =>
    intro o buf off aad e h
    unfold writeDecoys at h
    split at h
    · exact ih h
    · rename_i o' buf' r hne he
      have : (encryptInto P prof o buf off d .decoy aad).2.2 = .err e := by rw [he]; exact h
      exact ⟨_, (encryptInto_err this).1⟩

theorem sendVersion_err {h : HsReceivedKey} {buf : Bytes} {decoys : Option (List Bytes)} {e : Error}
    (he : (h.sendVersion P prof buf decoys).2 = .err e) : ∃ n, e = .bufferTooSmall n := by
  unfold HsReceivedKey.sendVersion at he
  simp only at he
  split at he
  · simp only [Outcome.err.injEq] at he
    exact ⟨_, he.symm⟩
  · split at he
    · rename_i hw
      simp only [Outcome.err.injEq] at he
      subst he
      exact writeDecoys_err (by rw [hw])
    · cases he
    · split at he
      · rename_i hw
        simp only [Outcome.err.injEq] at he
        subst he
        exact ⟨_, (encryptInto_err (by rw [hw])).1⟩
      · cases he
      · cases he

/-- With a long enough buffer there is no error. -/
theorem writeDecoys_room (hP : Lawful P) {ds : List Bytes} : ∀ {o : OutboundCipher} {buf : Bytes} {off : Nat}
    {aad : Option Bytes}, off + packetsLen ds ≤ buf.length →
    (∀ e, (writeDecoys P prof o buf off aad ds).2.2.2.2 ≠ .err e) ∧
    ((writeDecoys P prof o buf off aad ds).2.2.2.2 = .ok () →
      (writeDecoys P prof o buf off aad ds).2.1.length = buf.length ∧
      (writeDecoys P prof o buf off aad ds).2.2.1 + 20 = off + packetsLen ds) := by
  induction ds with
  | nil => intro o buf off aad h; exact ⟨fun e => by simp [writeDecoys], fun _ => ⟨rfl, rfl⟩⟩
  | cons d ds ih =>
    intro o buf off aad h
    simp only [packetsLen] at h
    have hl := encryptInto_length (prof := prof) (o := o) (buf := buf) (contents := d) (off := off) (ty := .decoy)
      (aad := aad) hP (by omega)
    have hne : ∀ e, (encryptInto P prof o buf off d .decoy aad).2.2 ≠ .err e := by
      intro e he
      have := (encryptInto_err he).2
      omega
    unfold writeDecoys
    cases hx : encryptInto P prof o buf off d .decoy aad with
    | mk o' y =>
    obtain ⟨buf', r⟩ := y
    rw [hx] at hl hne
    simp only at hl hne
    cases r with
    | err e => exact absurd rfl (hne e)
    | panic => exact ⟨fun e => by simp, fun h => by simp at h⟩
    | ok u =>
      simp only
      have := ih (o := o') (buf := buf') (off := off + OutboundCipher.encryptionBufferLen d.length) (aad := none)
        (by show off + (d.length + 20) + _ ≤ _; omega)
      refine ⟨this.1, fun h => ?_⟩
      obtain ⟨a, b⟩ := this.2 h
      refine ⟨by rw [a, hl], ?_⟩
      rw [b, packetsLen]
      show off + (d.length + 20) + _ = _
      omega

theorem sendVersion_room (hP : Lawful P) {h : HsReceivedKey} {buf : Bytes} {decoys : Option (List Bytes)}
    (hterm : (h.sessionKeys.localTerminator h.role).length = 16)
    (hb : HsReceivedKey.sendVersionLen decoys ≤ buf.length) (e : Error) :
    (h.sendVersion P prof buf decoys).2 ≠ .err e := by
  intro he
  unfold HsReceivedKey.sendVersion at he
  simp only at he
  rw [if_neg (by omega)] at he
  rw [sendVersionLen_eq] at hb
  have h0 : VERSION_CONTENT.length = 0 := rfl
  have h16 : NUM_GARBAGE_TERMINATOR_BYTES = 16 := rfl
  obtain ⟨magic, role, keys, lg⟩ := h
  cases role
  all_goals
    simp only [SessionKeyMaterial.localTerminator] at hterm he
    split at he
    · rename_i hx
      refine (writeDecoys_room (prof := prof) hP (ds := decoys.getD []) ?_).1 _ (congrArg (·.2.2.2.2) hx)
      rw [writeAt_length] <;> omega
    · cases he
    · rename_i hx
      obtain ⟨a, b⟩ := (writeDecoys_room (prof := prof) hP (ds := decoys.getD [])
        (by rw [writeAt_length] <;> omega)).2 (congrArg (·.2.2.2.2) hx)
      rw [hx] at a b
      rw [writeAt_length (by omega)] at a
      simp only at a b
      split at he
      · rename_i hy
        have := (encryptInto_err (congrArg (·.2.2) hy)).2
        omega
      · cases he
      · cases he

theorem receiveGarbage_err {h : HsSentVersion} {b : Bytes} {e : Error} (he : h.receiveGarbage b = .err e) :
    e = .noGarbageTerminator := by
  unfold HsSentVersion.receiveGarbage at he
  split at he
  · cases he
  · cases he
  · rename_i e' hne hs
    simp only [Outcome.err.injEq] at he
    subst he
    unfold HsSentVersion.splitGarbage at hs
    split at hs
    · cases hs
    · split at hs <;> simp only [Outcome.err.injEq] at hs
      · exact hs.symm
      · exact absurd hs.symm hne
  · cases he

theorem receiveVersion_err {h : HsReceivedGarbage} {buf : Bytes} {e : Error} (he : (h.receiveVersion P prof buf).2 = .err e) :
    (e = .ciphertextTooSmall ∧ buf.length < 17) ∨ (e = .decryption ∧ 17 ≤ buf.length) := by
  unfold HsReceivedGarbage.receiveVersion at he
  simp only at he
  split at he
  · rename_i hx
    simp only [Outcome.err.injEq] at he
    subst he
    exact decryptInPlace_err (by rw [hx])
  · cases he
  · split at he <;> cases he

/-! ## The handshake functions -/

theorem syncRead_length {s s' : SyncSession} {n : Nat} {bs : Bytes} (h : s.read n = (s', .ok bs)) : bs.length ≤ n := by
  unfold SyncSession.read at h
  repeat' split at h
  all_goals simp only [Prod.mk.injEq, ReadRes.ok.injEq] at h
  · rename_i hi
    exact Source.read_length _ _ (hi.trans (Prod.ext rfl h.2))
  · rw [← h.2]; simp
  · rename_i hi
    exact Source.read_length _ _ (hi.trans (Prod.ext rfl h.2))
  · rename_i b bs' hl
    rw [← h.2, ← hl, List.length_take]
    omega

theorem asyncRead_length {s s' : AsyncSession} {n : Nat} {bs : Bytes} (h : s.read n = (s', .ok bs)) : bs.length ≤ n := by
  unfold AsyncSession.read at h
  repeat' split at h
  all_goals simp only [Prod.mk.injEq, ReadRes.ok.injEq] at h
  · rw [← h.2, List.length_take]; omega
  · rename_i hi
    exact Source.read_length _ _ (hi.trans (Prod.ext rfl h.2))

/-- The errors after the garbage terminator was waited for. -/
theorem versionLoop_err (A : Api) (hR : ∀ s n s' bs, A.reader.read s n = (s', .ok bs) → bs.length ≤ n) (n : Nat) : ∀ (h : HsReceivedGarbage) (s : A.Session) {e : ProtocolError}, A.reader.size s = n →
    (versionLoop A P prof h s).2 = .err e →
    e = .internal .packetTooBig ∨ e = .internal .decryption ∨ ∃ k, e = .fromIo k := by
  induction n using Nat.strongRecOn with
  | ind n ih =>
  intro h s e hn he
  subst hn
  rw [versionLoop] at he
  split at he
  · simp only [Outcome.err.injEq] at he
    exact .inr (.inr ⟨_, he.symm⟩)
  · rename_i s1 lb h1
    split at he
    · cases he
    · rename_i h1' e' hx
      unfold HsReceivedGarbage.decryptPacketLen at hx
      simp only [Prod.mk.injEq] at hx
      exact absurd hx.2 decryptPacketLen_noErr
    · rename_i h1' packetLen hx
      split at he
      · simp only [Outcome.err.injEq] at he
        exact .inl he.symm
      · split at he
        · simp only [Outcome.err.injEq] at he
          exact .inr (.inr ⟨_, he.symm⟩)
        · rename_i s2 pb h2
          have hlen := readExact_length A.reader A.retry hR _ _ _ h2
          have hlb := readExact_length A.reader A.retry hR _ _ _ h1
          unfold HsReceivedGarbage.decryptPacketLen at hx
          simp only [Prod.mk.injEq] at hx
          have h17 := (decryptPacketLen_lt (prof := prof) (P := P) (lb := lb) (by rw [hlb]; decide)
            (Prod.ext rfl hx.2)).1
          split at he
          · cases he
          · rename_i b' e' hv
            simp only [Outcome.err.injEq] at he
            subst he
            rcases receiveVersion_err (e := e') (by rw [hv]) with ⟨-, h⟩ | ⟨rfl, -⟩
            · omega
            · exact .inr (.inl rfl)
          · cases he
          · rename_i h2' hv
            have hs1 := (A.reader.readExact_size _ _ _ _ _ _ h1).2 (by decide) ⟨_, rfl⟩
            have hs2 := (A.reader.readExact_size _ _ _ _ _ _ h2).1
            exact ih _ (by omega) h2' s2 rfl he

theorem garbageLoop_err (n : Nat) : ∀ (h : HsSentVersion) (buf : Bytes) (src : Source) {e : ProtocolError}, src.size = n →
    (garbageLoop h buf src).2 = .err e → e = .internal .noGarbageTerminator ∨ ∃ k, e = .fromIo k := by
  induction n using Nat.strongRecOn with
  | ind n ih =>
  intro h buf src e hn he
  subst hn
  rw [garbageLoop] at he
  split at he
  · cases he
  · split at he
    · simp only [Outcome.err.injEq] at he
      exact .inr ⟨.unexpectedEof, he.symm⟩
    · rename_i src' b bs hr
      have := Source.read_dec _ _ _ _ (by omega) hr
      exact ih _ (by simpa using this) _ _ src' rfl he
    · simp only [Outcome.err.injEq] at he
      exact .inr ⟨_, he.symm⟩
  · rename_i e' hg
    simp only [Outcome.err.injEq] at he
    rw [← he, receiveGarbage_err hg]
    exact .inl rfl
  · cases he

/-- The errors of the handshake. -/
theorem handshake_err {A : Api} (hA : A = syncApi ∨ A = asyncApi) (hP : Lawful P) {magic rng : Bytes} {role : Role} {g : Option Bytes}
    {d : Option (List Bytes)} {src : Source} {w : Sink} {e : ProtocolError}
    (he : (handshake A P prof magic role rng g d src w).2.2 = .err e) :
    (e = .internal (.secretGeneration .materialsGeneration)) ∨
    (e = .internal .tooMuchGarbage ∧ 4095 < (g.getD []).length) ∨ e = .internal .v1Protocol ∨
    e = .internal .noGarbageTerminator ∨ e = .internal .packetTooBig ∨ e = .internal .decryption ∨
    ∃ k, e = .fromIo k := by
  unfold handshake at he
  split at he
  · cases he
  · rename_i e' hn
    simp only [Outcome.err.injEq] at he
    rw [← he, newWithRng_err hn]
    exact .inl rfl
  · rename_i h hn
    have hk : h.ellswift.length = 64 := by
      unfold HsInitialized.newWithRng at hn
      repeat' split at hn
      all_goals first | (cases hn; done) | skip
      simp only [Outcome.ok.injEq] at hn
      subst hn
      exact hP.ellswift_length rng
    have hR : ∀ s n s' bs, A.reader.read s n = (s', .ok bs) → bs.length ≤ n := by
      intro s n s' bs h
      rcases hA with rfl | rfl
      · exact syncRead_length h
      · exact asyncRead_length h
    have io : ∀ {k}, (Outcome.err (ProtocolError.fromIo k) : Outcome ProtocolError (InboundCipher × OutboundCipher × A.Session)) = .err e →
        ∃ k, e = .fromIo k := by
      intro k h
      simp only [Outcome.err.injEq] at h
      exact ⟨k, h.symm⟩
    have hsk := C18_send_key h hk g (zeros (HsInitialized.sendKeyLen g))
    have hlen : HsInitialized.sendKeyLen g = 64 + (g.getD []).length := by cases g <;> rfl
    rw [hlen] at hsk
    simp only [zeros_length, Nat.lt_irrefl, if_false] at hsk
    unfold handshakeWithInitialized at he
    rw [hlen, hsk] at he
    by_cases hg : 4095 < (g.getD []).length
    · rw [if_pos hg] at he
      simp only [Outcome.err.injEq] at he
      exact .inr (.inl ⟨he.symm, hg⟩)
    rw [if_neg hg] at he
    simp only at he
    split at he
    · exact .inr (.inr (.inr (.inr (.inr (.inr (io he))))))
    split at he
    · exact .inr (.inr (.inr (.inr (.inr (.inr (io he))))))
    split at he
    · cases he
    · rename_i e' hrk
      simp only [Outcome.err.injEq] at he
      rw [← he, (receiveKey_err hP hrk).1]
      exact .inr (.inr (.inl rfl))
    rename_i h2 hrk
    split at he
    · cases he
    · rename_i hsv
      exact absurd (by rw [hsv]) (sendVersion_room (prof := prof) hP (by
          cases h2.role
          · exact receiveKey_terminators hP hrk .responder
          · exact receiveKey_terminators hP hrk .initiator)
        (by rw [zeros_length]) _)
    split at he
    · exact .inr (.inr (.inr (.inr (.inr (.inr (io he))))))
    split at he
    · exact .inr (.inr (.inr (.inr (.inr (.inr (io he))))))
    split at he
    · cases he
    · rename_i hgl
      simp only [Outcome.err.injEq] at he
      subst he
      rcases garbageLoop_err _ _ _ _ rfl (by rw [hgl]) with h | h
      · exact .inr (.inr (.inr (.inl h)))
      · exact .inr (.inr (.inr (.inr (.inr (.inr h)))))
    · rcases versionLoop_err A hR _ _ _ rfl he with h | h | h
      · exact .inr (.inr (.inr (.inr (.inl h))))
      · exact .inr (.inr (.inr (.inr (.inr (.inl h)))))
      · exact .inr (.inr (.inr (.inr (.inr (.inr h)))))

/-! ## The session -/

theorem read_err {r : SyncReader} {e : ProtocolError} (he : (r.read P prof).2 = .err e) :
    e = .internal .packetTooBig ∨ e = .internal .decryption ∨ ∃ k, e = .fromIo k := by
  have hR : ∀ (s : SyncSession) n s' bs, SyncSession.reader.read s n = (s', .ok bs) → bs.length ≤ n :=
    fun _ _ _ _ h => syncRead_length h
  unfold SyncReader.read at he
  split at he
  · simp only [Outcome.err.injEq] at he
    exact .inr (.inr ⟨_, he.symm⟩)
  rename_i s1 lb h1
  have hlb := readExact_length _ true hR _ _ _ h1
  split at he
  · cases he
  · rename_i hx
    exact absurd (congrArg Prod.snd hx) decryptPacketLen_noErr
  rename_i c packetLen hx
  have h17 := (decryptPacketLen_lt (by rw [hlb]; decide) hx).1
  split at he
  · simp only [Outcome.err.injEq] at he
    exact .inr (.inr ⟨_, he.symm⟩)
  rename_i s2 pb h2
  have hpb := readExact_length _ true hR _ _ _ h2
  split at he
  · cases he
  · rename_i e' hd
    simp only [Outcome.err.injEq] at he
    subst he
    rcases decryptToVec_err (congrArg Prod.snd hd) with ⟨-, h⟩ | rfl | ⟨rfl, -⟩
    · simp only [List.length_nil] at hpb
      omega
    · exact .inl rfl
    · exact .inr (.inl rfl)
  split at he <;> cases he

theorem pollPayload_err {c : InboundCipher} {s : AsyncSession} {buf : Bytes} {n : Nat} {r' : AsyncReader} {x : PollResult}
    (h17 : 17 ≤ buf.length) (hmax : buf.length ≤ 2 ^ 24 + 16) (hn : n ≤ buf.length)
    (h : AsyncReader.pollPayload P prof c s buf n = (r', x)) :
    r'.Sized ∧ ∀ e, x = .ready (.err e) → e = .internal .decryption ∨ ∃ k, e = .fromIo k := by
  have hf := pollFill_spec s buf n hn
  have hinit : ∀ c s, (⟨c, s, .initReadingLength⟩ : AsyncReader).Sized := fun c s => ⟨zeros_length 3, Nat.zero_le _⟩
  unfold AsyncReader.pollPayload at h
  split at h
  · rename_i s' buf' n' hp
    rw [hp] at hf
    obtain ⟨a1, a2, -, -⟩ := hf
    simp only [Prod.mk.injEq] at h
    obtain ⟨rfl, rfl⟩ := h
    exact ⟨⟨by omega, by omega, a1⟩, fun e he => by cases he⟩
  · rename_i s' buf' n' k hp
    rw [hp] at hf
    obtain ⟨a1, a2, -, -⟩ := hf
    simp only [Prod.mk.injEq] at h
    obtain ⟨rfl, rfl⟩ := h
    refine ⟨⟨by omega, by omega, by omega⟩, fun e he => ?_⟩
    simp only [PollResult.ready.injEq, Outcome.err.injEq] at he
    exact .inr ⟨k, he.symm⟩
  · rename_i s' buf' n' hp
    rw [hp] at hf
    obtain ⟨a1, a2, -, -⟩ := hf
    have hs : ∀ c s, (⟨c, s, .readingPayload buf' n'⟩ : AsyncReader).Sized :=
      fun c s => ⟨by omega, by omega, by omega⟩
    rw [bufferLen_17 (prof := prof) (by omega)] at h
    simp only at h
    split at h
    · simp only [Prod.mk.injEq] at h
      obtain ⟨rfl, rfl⟩ := h
      exact ⟨hs _ _, fun e he => by cases he⟩
    · rename_i e' hd
      simp only [Prod.mk.injEq] at h
      obtain ⟨rfl, rfl⟩ := h
      refine ⟨hs _ _, fun e he => ?_⟩
      simp only [PollResult.ready.injEq, Outcome.err.injEq] at he
      subst he
      rcases decrypt_err (congrArg (·.2.2) hd) with ⟨-, h⟩ | ⟨-, -, h⟩ | ⟨rfl, -⟩
      · omega
      · rw [zeros_length] at h; omega
      · exact .inl rfl
    · split at h
      all_goals
        simp only [Prod.mk.injEq] at h
        obtain ⟨rfl, rfl⟩ := h
        exact ⟨hinit _ _, fun e he => by cases he⟩

theorem poll_err {r r' : AsyncReader} {x : PollResult} (hr : r.Sized) (h : r.poll P prof = (r', x)) :
    r'.Sized ∧ ∀ e, x = .ready (.err e) → e = .internal .decryption ∨ ∃ k, e = .fromIo k := by
  obtain ⟨c, s, st⟩ := r
  cases st with
  | readingPayload buf n => exact pollPayload_err hr.1 hr.2.1 hr.2.2 h
  | readingLength buf n =>
    obtain ⟨hb, hn⟩ := hr
    have hf := pollFill_spec s buf n hn
    simp only [AsyncReader.poll] at h
    split at h
    · rename_i s' buf' n' hp
      rw [hp] at hf
      obtain ⟨a1, a2, -, -⟩ := hf
      simp only [Prod.mk.injEq] at h
      obtain ⟨rfl, rfl⟩ := h
      exact ⟨⟨by omega, a1⟩, fun e he => by cases he⟩
    · rename_i s' buf' n' k hp
      rw [hp] at hf
      obtain ⟨a1, a2, -, -⟩ := hf
      simp only [Prod.mk.injEq] at h
      obtain ⟨rfl, rfl⟩ := h
      refine ⟨⟨by omega, by omega⟩, fun e he => ?_⟩
      simp only [PollResult.ready.injEq, Outcome.err.injEq] at he
      exact .inr ⟨k, he.symm⟩
    · rename_i s' buf' n' hp
      rw [hp] at hf
      obtain ⟨a1, a2, -, -⟩ := hf
      split at h
      · simp only [Prod.mk.injEq] at h
        obtain ⟨rfl, rfl⟩ := h
        exact ⟨⟨by omega, by omega⟩, fun e he => by cases he⟩
      · rename_i hx
        exact absurd (congrArg Prod.snd hx) decryptPacketLen_noErr
      · rename_i c' len hx
        have hl := decryptPacketLen_lt (by omega) hx
        exact pollPayload_err (by rw [zeros_length]; omega) (by rw [zeros_length]; omega) (Nat.zero_le _) h

theorem readAsync_err (es : List ReadEvent) : ∀ {r : AsyncReader} {e : ProtocolError}, r.Sized → .err e ∈ (r.run P prof es).2 →
    e = .internal .decryption ∨ ∃ k, e = .fromIo k := by
  induction es with
  | nil => intro r e _ h; simp [AsyncReader.run] at h
  | cons ev es ih =>
    intro r e hr h
    cases ev with
    | cancel => exact ih hr h
    | poll =>
      simp only [AsyncReader.run] at h
      cases hp : r.poll P prof with
      | mk r1 x =>
      obtain ⟨h1, h2⟩ := poll_err hr hp
      rw [hp] at h
      cases x with
      | pending => exact ih h1 h
      | ready y =>
        simp only [List.mem_cons] at h
        rcases h with rfl | h
        · exact h2 _ rfl
        · exact ih h1 h

theorem init_sized {r : AsyncReader} (h : r.state = .initReadingLength) : r.Sized := by
  unfold AsyncReader.Sized
  rw [h]
  exact ⟨zeros_length 3, Nat.zero_le _⟩

theorem encryptToVec_noErr {c : OutboundCipher} {pt : Bytes} {ty : PacketType} {aad : Option Bytes} {e : Error} :
    (c.encryptToVec P prof pt ty aad).2 ≠ .err e := by
  unfold OutboundCipher.encryptToVec
  split <;> simp

theorem writer_err {f : Flavour} {w : Writer} {p : Payload} {e : ProtocolError} (he : (w.write f P prof p).2 = .err e) :
    ∃ k, e = .fromIo k := by
  cases f with
  | sync =>
    simp only [Writer.write, Writer.writeSync] at he
    split at he
    · split at he
      · cases he
      · rename_i hx
        exact absurd (congrArg Prod.snd hx) encryptToVec_noErr
      · split at he
        · simp only [Outcome.err.injEq] at he
          exact ⟨_, he.symm⟩
        · cases he
    · cases he
  | async =>
    simp only [Writer.write, Writer.writeAsync] at he
    split at he
    · split at he
      · cases he
      · rename_i hx
        have := (encrypt_err (congrArg (·.2.2) hx)).2
        rw [zeros_length] at this
        exact absurd this (Nat.lt_irrefl _)
      · split at he
        · simp only [Outcome.err.injEq] at he
          exact ⟨_, he.symm⟩
        · cases he
    · cases he

/-! ## The shaped protocols -/

/-- The outcomes a write may have in the shaped protocols. -/
def IoOnly (r : Outcome ProtocolError Unit) : Prop := ∀ e, r = .err e → e.cls = .io

def WProc.IoOnly : WProc → Prop
  | .done r => Bip324.IoOnly r
  | _ => True

def JobPc.IoOnly : JobPc → Prop
  | .start _ => True
  | .padding w _ | .payload w | .cover w => w.IoOnly
  | .done r => Bip324.IoOnly r

theorem ioOnly_ok : IoOnly (.ok ()) := fun e h => by cases h
theorem ioOnly_panic : IoOnly .panic := fun e h => by cases h
theorem ioOnly_io (k : ErrorKind) : IoOnly (.err (.fromIo k)) := fun e h => by cases h; rfl

theorem wproc_ioOnly (f : Flavour) (w : Writer) (pc : WProc) (h : pc.IoOnly) : (pc.step f P prof w).2.IoOnly := by
  cases pc with
  | start p =>
    simp only [WProc.step]
    split
    · split
      · trivial
      · rename_i hx
        exact absurd (congrArg Prod.snd hx) encryptToVec_noErr
      · exact ioOnly_panic
    · exact ioOnly_panic
  | sending rest =>
    cases rest with
    | nil => trivial
    | cons b bs =>
      simp only [WProc.step]
      split
      · trivial
      · trivial
      · split
        · trivial
        · exact ioOnly_io _
      · exact ioOnly_io _
      · trivial
  | flushing =>
    simp only [WProc.step]
    split
    · exact ioOnly_ok
    · exact ioOnly_io _
  | done r => exact h

theorem job_ioOnly (f : Flavour) (ws : WriterState R) (pc : JobPc) (h : pc.IoOnly) : (pc.step f P prof ws).2.IoOnly := by
  cases pc with
  | start job =>
    cases job with
    | write p =>
      simp only [JobPc.step]
      split
      · exact ioOnly_panic
      · trivial
      · trivial
    | cover =>
      simp only [JobPc.step]
      split
      · exact ioOnly_ok
      · trivial
  | padding w p =>
    cases w with
    | done r =>
      cases r with
      | ok u => trivial
      | err e => exact h
      | panic => exact h
    | start q => exact wproc_ioOnly f ws.writer (.start q) h
    | sending q => exact wproc_ioOnly f ws.writer (.sending q) h
    | flushing => exact wproc_ioOnly (P := P) (prof := prof) f ws.writer .flushing h
  | payload w =>
    cases w with
    | done r => exact h
    | start q => exact wproc_ioOnly f ws.writer (.start q) h
    | sending q => exact wproc_ioOnly f ws.writer (.sending q) h
    | flushing => exact wproc_ioOnly (P := P) (prof := prof) f ws.writer .flushing h
  | cover w =>
    cases w with
    | done r => exact h
    | start q => exact wproc_ioOnly f ws.writer (.start q) h
    | sending q => exact wproc_ioOnly f ws.writer (.sending q) h
    | flushing => exact wproc_ioOnly (P := P) (prof := prof) f ws.writer .flushing h
  | done r => exact h

/-- What is invariant in the threaded system. -/
structure ShapedSys.ErrInv (s : ShapedSys R) : Prop where
  app : ∀ p pc, s.app = .writing p pc → pc.IoOnly
  returned : ∀ q r, (q, r) ∈ s.returned → IoOnly r
  reads : ∀ e, .err e ∈ s.reads → e = .internal .packetTooBig ∨ e = .internal .decryption ∨ ∃ k, e = .fromIo k

theorem ShapedSys.errInv_step {s : ShapedSys R} (h : s.ErrInv) (l : SysLabel) : (s.step P prof l).ErrInv := by
  obtain ⟨h1, h2, h3⟩ := h
  cases l with
  | call p =>
    simp only [ShapedSys.step]
    split
    · exact ⟨fun p pc h => (by cases h), h2, h3⟩
    · exact ⟨h1, h2, h3⟩
  | drop =>
    simp only [ShapedSys.step]
    split
    · exact ⟨fun p pc h => (by cases h), h2, h3⟩
    · exact ⟨h1, h2, h3⟩
  | app =>
    simp only [ShapedSys.step, ShapedSys.appStep]
    split
    · exact ⟨h1, h2, h3⟩
    · split
      · exact ⟨h1, h2, h3⟩
      · split
        · refine ⟨fun p pc h => (by cases h), fun q r hm => ?_, h3⟩
          simp only [List.mem_append, List.mem_singleton, Prod.mk.injEq] at hm
          rcases hm with hm | ⟨rfl, rfl⟩
          · exact h2 q r hm
          · exact ioOnly_panic
        · refine ⟨fun p pc h => ?_, h2, h3⟩
          simp only [AppPc.writing.injEq] at h
          rw [← h.2]
          trivial
    · rename_i p r hr
      refine ⟨fun p pc h => (by cases h), fun q r' hm => ?_, h3⟩
      simp only [List.mem_append, List.mem_singleton, Prod.mk.injEq] at hm
      rcases hm with hm | ⟨rfl, rfl⟩
      · exact h2 q r' hm
      · exact h1 _ _ hr
    · rename_i p pc hne hr
      refine ⟨fun p' pc' h => ?_, h2, h3⟩
      simp only [AppPc.writing.injEq] at h
      rw [← h.2]
      exact job_ioOnly .sync s.ws _ (h1 _ _ hr)
    · split
      · exact ⟨fun p pc h => (by cases h), h2, h3⟩
      · exact ⟨h1, h2, h3⟩
    · exact ⟨h1, h2, h3⟩
  | bg =>
    simp only [ShapedSys.step, ShapedSys.bgStep]
    repeat' split
    all_goals exact ⟨h1, h2, h3⟩
  | read =>
    simp only [ShapedSys.step]
    refine ⟨h1, h2, fun e hm => ?_⟩
    simp only [List.mem_append, List.mem_singleton] at hm
    rcases hm with hm | hm
    · exact h3 e hm
    · unfold ShapedReader.read at hm
      split at hm
      · split at hm <;> cases hm
      · rename_i hx
        exact read_err ((congrArg Prod.snd hx).trans hm.symm)

theorem ShapedSys.errInv_run (ls : List SysLabel) : ∀ {s : ShapedSys R}, s.ErrInv → (s.run P prof ls).ErrInv := by
  induction ls with
  | nil => exact fun h => h
  | cons l ls ih => exact fun h => ih (s := ShapedSys.step P prof _ l) (errInv_step h l)

theorem mem_of_lookup {α : Type} {l : List (Nat × α)} {i : Nat} {a : α} (h : l.lookup i = some a) : (i, a) ∈ l := by
  induction l with
  | nil => cases h
  | cons x l ih =>
    obtain ⟨j, b⟩ := x
    rw [List.lookup_cons] at h
    split at h
    · rename_i hij
      simp only [Option.some.injEq] at h
      rw [beq_iff_eq.1 hij, h]
      exact List.mem_cons_self
    · exact List.mem_cons_of_mem _ (ih h)

/-- What is invariant in the system with the task. -/
structure AsyncShapedSys.ErrInv (s : AsyncShapedSys R) : Prop where
  task : ∀ cmd pc, s.task = .writing cmd pc → pc.IoOnly
  answers : ∀ i r, (i, r) ∈ s.answers → IoOnly r
  returned : ∀ q r, (q, r) ∈ s.returned → IoOnly r
  reader : s.reader.reader.Sized
  reads : ∀ e, .ready (.err e) ∈ s.reads → e = .internal .decryption ∨ ∃ k, e = .fromIo k

theorem ioOnly_taskGone : IoOnly (.err taskGone) := fun e h => by cases h; rfl

theorem AsyncShapedSys.errInv_step {s : AsyncShapedSys R} (h : s.ErrInv) (l : AsyncLabel) : (s.step P prof l).ErrInv := by
  obtain ⟨h1, h2, h3, h4, h5⟩ := h
  have happ : ∀ p r, IoOnly r → ∀ q r', (q, r') ∈ s.returned ++ [(p, r)] → IoOnly r' := by
    intro p r hr q r' hm
    simp only [List.mem_append, List.mem_singleton, Prod.mk.injEq] at hm
    rcases hm with hm | ⟨rfl, rfl⟩
    · exact h3 q _ hm
    · exact hr
  cases l with
  | call p =>
    simp only [AsyncShapedSys.step]
    split
    · split
      · exact ⟨h1, h2, happ _ _ ioOnly_taskGone, h4, h5⟩
      · exact ⟨h1, h2, h3, h4, h5⟩
    · exact ⟨h1, h2, h3, h4, h5⟩
  | resume =>
    simp only [AsyncShapedSys.step]
    split
    · split
      · rename_i r hl
        refine ⟨h1, h2, happ _ _ ?_, h4, h5⟩
        obtain ⟨i, hi⟩ : ∃ i, (i, r) ∈ s.answers := ⟨_, mem_of_lookup hl⟩
        exact h2 i r hi
      · split
        · exact ⟨h1, h2, happ _ _ ioOnly_taskGone, h4, h5⟩
        · exact ⟨h1, h2, h3, h4, h5⟩
    · exact ⟨h1, h2, h3, h4, h5⟩
  | cancel =>
    simp only [AsyncShapedSys.step]
    split <;> exact ⟨h1, h2, h3, h4, h5⟩
  | drop =>
    simp only [AsyncShapedSys.step]
    split <;> exact ⟨h1, h2, h3, h4, h5⟩
  | recv =>
    simp only [AsyncShapedSys.step]
    split
    · split
      · refine ⟨fun cmd pc h => ?_, h2, h3, h4, h5⟩
        simp only [TaskPc.writing.injEq] at h
        rw [← h.2]
        trivial
      · split
        · exact ⟨fun cmd pc h => (by cases h), h2, h3, h4, h5⟩
        · exact ⟨h1, h2, h3, h4, h5⟩
    · exact ⟨h1, h2, h3, h4, h5⟩
  | tick =>
    simp only [AsyncShapedSys.step]
    split
    · exact ⟨fun cmd pc h => (by cases h), h2, h3, h4, h5⟩
    · exact ⟨h1, h2, h3, h4, h5⟩
  | otherwise =>
    simp only [AsyncShapedSys.step]
    split
    · exact ⟨fun cmd pc h => (by cases h), h2, h3, h4, h5⟩
    · exact ⟨h1, h2, h3, h4, h5⟩
  | task =>
    simp only [AsyncShapedSys.step, AsyncShapedSys.taskStep]
    split
    · rename_i cmd r hr
      split
      · exact ⟨fun cmd pc h => (by cases h), h2, h3, h4, h5⟩
      · refine ⟨fun cmd pc h => (by cases h), fun i r' hm => ?_, h3, h4, h5⟩
        simp only [List.mem_append, List.mem_singleton, Prod.mk.injEq] at hm
        rcases hm with hm | ⟨rfl, rfl⟩
        · exact h2 i _ hm
        · exact h1 _ _ hr
    · rename_i cmd pc hne hr
      refine ⟨fun cmd' pc' h => ?_, h2, h3, h4, h5⟩
      simp only [TaskPc.writing.injEq] at h
      rw [← h.2]
      exact job_ioOnly .async s.ws _ (h1 _ _ hr)
    · split
      · exact ⟨fun cmd pc h => (by cases h), h2, h3, h4, h5⟩
      · exact ⟨fun cmd pc h => (by cases h), h2, h3, h4, h5⟩
    · exact ⟨fun cmd pc h => (by cases h), h2, h3, h4, h5⟩
    · exact ⟨h1, h2, h3, h4, h5⟩
  | read =>
    simp only [AsyncShapedSys.step, AsyncShapedReader.poll]
    cases hp : s.reader.reader.poll P prof with
    | mk r1 x =>
    obtain ⟨k1, k2⟩ := poll_err h4 hp
    have key : ∀ x', (∀ e, x' = PollResult.ready (.err e) → x = .ready (.err e)) → ∀ e, .ready (.err e) ∈ s.reads ++ [x'] →
        e = .internal .decryption ∨ ∃ k, e = .fromIo k := by
      intro x' hx' e hm
      simp only [List.mem_append, List.mem_singleton] at hm
      rcases hm with hm | hm
      · exact h5 e hm
      · exact k2 e (hx' e hm.symm)
    cases x with
    | pending => exact ⟨h1, h2, h3, k1, key _ fun e h => h⟩
    | ready y =>
      cases y with
      | ok p =>
        simp only
        cases p.contents with
        | none => exact ⟨h1, h2, h3, k1, key _ fun e h => by cases h⟩
        | some c => exact ⟨h1, h2, h3, k1, key _ fun e h => by cases h⟩
      | err e => exact ⟨h1, h2, h3, k1, key _ fun e h => h⟩
      | panic => exact ⟨h1, h2, h3, k1, key _ fun e h => h⟩

theorem AsyncShapedSys.errInv_run (ls : List AsyncLabel) : ∀ {s : AsyncShapedSys R}, s.ErrInv → (s.run P prof ls).ErrInv := by
  induction ls with
  | nil => exact fun h => h
  | cons l ls ih => exact fun h => ih (s := AsyncShapedSys.step P prof _ l) (errInv_step h l)

end Bip324
