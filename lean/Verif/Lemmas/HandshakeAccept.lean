import Verif.Lemmas.Accept
import Verif.Props.IoHandshake

/-! # What the I/O handshake accepts -/

namespace Bip324

variable {P : Prims} {prof : Profile}

/-! ## Keys -/

/-- The session keys a party derives from the public key of its peer. -/
def peerKeys (P : Prims) (magic ourKey theirKey sk : Bytes) (role : Role) : SessionKeyMaterial :=
  let secret := match role with
    | .initiator => Spec.ecdhSecret P ourKey theirKey sk true
    | .responder => Spec.ecdhSecret P theirKey ourKey sk false
  { sessionId := Spec.expand P magic secret Spec.lblSessionId
    initiatorLengthKey := Spec.expand P magic secret Spec.lblInitiatorL
    initiatorPacketKey := Spec.expand P magic secret Spec.lblInitiatorP
    responderLengthKey := Spec.expand P magic secret Spec.lblResponderL
    responderPacketKey := Spec.expand P magic secret Spec.lblResponderP
    initiatorGarbageTerminator := (Spec.expand P magic secret Spec.lblTerminators).take 16
    responderGarbageTerminator := (Spec.expand P magic secret Spec.lblTerminators).drop 16 }

def Role.initiating : Role → Bool
  | .initiator => true
  | .responder => false

theorem receiveKey_eq (hP : Lawful P) (magic : Bytes) (role : Role) (sk es : Bytes) (g : Option Bytes)
    (key : Bytes) :
    HsSentKey.receiveKey P ⟨magic, role, sk, es, g⟩ key =
      if key.take 4 = magic then .err .v1Protocol
      else .ok ⟨magic, role, peerKeys P magic es key sk role, g⟩ := by
  unfold HsSentKey.receiveKey
  simp only
  by_cases hm : magic = key.take 4
  · rw [if_pos hm, if_pos hm.symm]
  · rw [if_neg hm, if_neg (fun e => hm e.symm)]
    cases role with
    | initiator =>
      have hd := C17_derivation hP es key sk magic true
      rw [if_pos rfl] at hd
      simp only [hd]
      rfl
    | responder =>
      have hd := C17_derivation hP key es sk magic false
      rw [if_neg (by decide)] at hd
      simp only [hd]
      rfl

theorem peerKeys_terminators (hP : Lawful P) (magic es key sk : Bytes) (role r : Role) :
    ((peerKeys P magic es key sk role).localTerminator r).length = 16 := by
  have key : ∀ secret, ((Spec.expand P magic secret Spec.lblTerminators).length = 32) := by
    intro secret
    obtain ⟨out, h, hl⟩ := hP.hkdf_ok (Spec.saltPrefix ++ magic) secret Spec.lblTerminators 32 (by decide)
    unfold Spec.expand
    rw [h]; exact hl
  cases r
  · show (List.take 16 _).length = 16
    rw [List.length_take, key]; rfl
  · show (List.drop 16 _).length = 16
    rw [List.length_drop, key]

/-- The keys of `peerKeys` by direction. -/
theorem peerKeys_directions (magic es key sk : Bytes) (role : Role) :
    let K := peerKeys P magic es key sk role
    let D := Spec.directions P magic es key sk role.initiating
    K.sendKeys role = (D.1.1, D.1.2.1) ∧ K.localTerminator role = D.1.2.2 ∧
      K.remoteTerminator role = D.2.2.2 ∧
      (CipherSession.new K role).inbound = ⟨FSStream.new D.2.1, FSAead.new D.2.2.1⟩ := by
  cases role <;> exact ⟨rfl, rfl, rfl, rfl⟩

/-! ## Decoys and version -/

theorem receiveVersion_at (hP : Lawful P) {kL kP : Bytes} {n : Nat} {h : HsReceivedGarbage}
    (hh : h.cipher.inbound.Half P kL kP n) (hn : n + 1 < 2 ^ 64) (ct : Bytes) (hct : 17 ≤ ct.length) :
    (∃ header contents i' buf, ct = Spec.sealedPart P kP n header (h.remoteGarbage.getD []) contents ∧
      i'.At P kL kP (n + 1) ∧
      h.receiveVersion P prof ct = (buf, .ok
        (if header = 0x80 then .decoy { h with cipher := { h.cipher with inbound := i' }, remoteGarbage := none }
         else .complete { h.cipher with inbound := i' }))) ∨
    ((∀ header contents, ct ≠ Spec.sealedPart P kP n header (h.remoteGarbage.getD []) contents) ∧
      h.receiveVersion P prof ct = (ct, .err .decryption)) := by
  unfold HsReceivedGarbage.receiveVersion
  rcases decryptInPlace_at (prof := prof) hP hh.2 hn ct h.remoteGarbage hct with
    ⟨header, contents, i', buf, he, h1, h2, h3⟩ | ⟨he, h3⟩
  · refine .inl ⟨header, contents, i', buf, he, ⟨by rw [h1]; exact hh.1, h2⟩, ?_⟩
    simp only [h3]
    unfold PacketType.fromByte
    have : DECOY_BYTE = 0x80 := rfl
    rw [this]
    by_cases hx : header = 0x80
    · rw [if_pos hx, if_pos hx]
    · rw [if_neg hx, if_neg hx]
  · exact .inr ⟨he, by simp only [h3]⟩

theorem packetStream_length (hP : Lawful P) (kL kP : Bytes) (n : Nat) (aad : Bytes) (ms : List (UInt8 × Bytes)) :
    20 * ms.length ≤ (Spec.packetStream P kL kP n aad ms).length := by
  induction ms generalizing n aad with
  | nil => simp
  | cons m ms ih =>
    simp only [Spec.packetStream, List.length_append, rawPacket_length hP, List.length_cons]
    have := ih (n + 1) []
    omega

/-- The decoy and version loop: what it has taken off the stream when it returns `Ok`. -/
theorem versionLoop_sound {A : Api} (B : A.Abs) (hP : Lawful P) {kL kP : Bytes} (N : Nat) :
    ∀ (n : Nat) (h : HsReceivedGarbage) (s : A.Session), (B.abs s).bytes.length ≤ N →
    n + (B.abs s).bytes.length / 20 + 1 < 2 ^ 32 →
    h.cipher.inbound.At P kL kP n → ∀ {i : InboundCipher} {o : OutboundCipher} {s' : A.Session},
    (versionLoop A P prof h s).2 = .ok (i, o, s') →
    ∃ decoys version, (∀ d ∈ decoys, d.length ≤ 3999997) ∧ version.2.length ≤ 3999997 ∧ version.1 ≠ 0x80 ∧
      (B.abs s).bytes = Spec.packetStream P kL kP n (h.remoteGarbage.getD [])
        (Spec.handshakeMessages decoys version) ++ (B.abs s').bytes ∧
      i.At P kL kP (n + decoys.length + 1) ∧ o = h.cipher.outbound := by
  induction N using Nat.strongRecOn with
  | ind N ih =>
  intro n h s hN hn hat i o s' hr
  rw [versionLoop_eq] at hr
  cases h1 : A.reader.readExact A.retry s NUM_LENGTH_BYTES with
  | mk s1 x1 =>
  have ht1 := sess_readExact_bytes B _ _ _ h1
  rw [h1] at hr
  cases x1 with
  | error k => simp at hr
  | ok lb =>
  obtain ⟨hlb, hb1⟩ := ht1.ok
  have hlb3 : lb.length = 3 := hlb
  have hlen0 := congrArg List.length hb1
  rw [List.length_append, hlb3] at hlen0
  obtain ⟨i1, len, hlen, hd, hh, hx⟩ := decryptPacketLen_at (prof := prof) hat (by omega) lb hlb3
  simp only [HsReceivedGarbage.decryptPacketLen, hd] at hr
  by_cases hbig : len + 17 > MAX_PACKET_SIZE_FOR_ALLOCATION
  · rw [if_pos hbig] at hr; simp at hr
  rw [if_neg hbig] at hr
  have hm : MAX_PACKET_SIZE_FOR_ALLOCATION = 4000014 := rfl
  cases h2 : A.reader.readExact A.retry s1 (len + 17) with
  | mk s2 x2 =>
  have ht2 := sess_readExact_bytes B _ _ _ h2
  rw [h2] at hr
  cases x2 with
  | error k => simp at hr
  | ok ct =>
  obtain ⟨hct, hb2⟩ := ht2.ok
  have hlen2 := congrArg List.length hb2
  rw [List.length_append, hct] at hlen2
  simp only at hr
  rcases receiveVersion_at (prof := prof) (h := { h with cipher := { h.cipher with inbound := i1 } }) hP hh
    (by omega) ct (by omega) with ⟨header, contents, i', buf, he, hi', hv⟩ | ⟨-, hv⟩
  · simp only [hv] at hr
    have hcl : contents.length = len := by
      have hy := congrArg List.length he
      rw [sealedPart_length hP] at hy
      omega
    have hraw : (B.abs s).bytes
        = Spec.rawPacket P kL kP n header (h.remoteGarbage.getD []) contents ++ (B.abs s2).bytes := by
      rw [hb1, hb2, rawPacket_eq, hcl, ← hx, he, List.append_assoc]
    by_cases h80 : header = 0x80
    · rw [if_pos h80] at hr
      simp only at hr
      obtain ⟨decoys, version, a, b, c, d, e, f⟩ := ih ((B.abs s2).bytes.length) (by omega) (n + 1) _ s2
        (Nat.le_refl _) (by omega) hi' hr
      refine ⟨contents :: decoys, version, ?_, b, c, ?_, ?_, f⟩
      · intro d hd
        rcases List.mem_cons.1 hd with rfl | hd
        · omega
        · exact a d hd
      · rw [hraw, d, h80]
        simp only [Spec.handshakeMessages, List.map_cons, List.cons_append, Spec.packetStream,
          List.append_assoc]
        rfl
      · rw [List.length_cons, show n + (decoys.length + 1) + 1 = n + 1 + decoys.length + 1 by omega]
        exact e
    · rw [if_neg h80] at hr
      simp only [Outcome.ok.injEq, Prod.mk.injEq, CipherSession.intoSplit] at hr
      obtain ⟨rfl, rfl, rfl⟩ := hr
      refine ⟨[], (header, contents), by simp, by show contents.length ≤ _; omega, h80, ?_, hi', rfl⟩
      rw [hraw]
      simp [Spec.handshakeMessages, Spec.packetStream]
  · simp [hv] at hr

/-! ## Garbage -/

theorem receiveGarbage_found {h : HsSentVersion} (ht : h.remoteTerminator.length = 16) {b : Bytes}
    {h' : HsReceivedGarbage} {n : Nat} (hf : h.receiveGarbage b = .ok (.foundGarbage h' n)) :
    ∃ g rest, b = g ++ (h.remoteTerminator ++ rest) ∧ n = g.length + 16 ∧ g.length ≤ 4095 ∧
      NoEarlyTerminator h.remoteTerminator g ∧ h'.remoteGarbage.getD [] = g ∧ h'.cipher = h.cipher := by
  obtain ⟨i, hi, ⟨pre, post, hb, hl⟩, hfirst, hn, hg, -, hc, -⟩ := (C21_found h ht b h' n).1 hf
  refine ⟨pre, post, by rw [hb, List.append_assoc], by omega, by omega, ?_, ?_, hc⟩
  · intro j hj ho
    apply hfirst j (by omega)
    rw [hb]
    exact occursAt_append ho
  · rw [hg, hb, List.append_assoc, take_append_len _ _ hl.symm]

theorem garbageLoop_sound (N : Nat) : ∀ (h : HsSentVersion) (buf : Bytes) (src : Source), src.size ≤ N →
    ∀ (h' : HsReceivedGarbage) (n : Nat) (buf' : Bytes) (src' : Source),
    (garbageLoop h buf src).2 = .ok (h', n, buf', src') →
    h.receiveGarbage buf' = .ok (.foundGarbage h' n) ∧ buf' ++ src'.bytes = buf ++ src.bytes := by
  induction N using Nat.strongRecOn with
  | ind N ih =>
  intro h buf src hN h' n buf' src' hr
  rw [garbageLoop_eq] at hr
  cases hg : h.receiveGarbage buf with
  | err e => simp [hg] at hr
  | panic => simp [hg] at hr
  | ok g =>
    cases g with
    | foundGarbage h1 m =>
      simp only [hg, Outcome.ok.injEq, Prod.mk.injEq] at hr
      obtain ⟨rfl, rfl, rfl, rfl⟩ := hr
      exact ⟨hg, rfl⟩
    | needMoreData h1 =>
      have hh : h1 = h := by
        unfold HsSentVersion.receiveGarbage at hg
        split at hg <;> simp at hg
        exact hg.symm
      subst hh
      simp only [hg] at hr
      cases hrd : src.read 256 with
      | mk src1 x =>
      have htk := Source.read_bytes src 256 hrd
      have hdec := Source.read_dec src 256 src1 x (by omega) hrd
      rw [hrd] at hr
      cases x with
      | err k => simp at hr
      | ok bs =>
        cases bs with
        | nil => simp at hr
        | cons b bs =>
          simp only at hr
          have hlt : src1.size < src.size := by
            rcases hdec with h | h
            · exact h
            · simp at h
          obtain ⟨a, e⟩ := ih src1.size (by omega) h1 (buf ++ b :: bs) src1 (Nat.le_refl _) _ _ _ _ hr
          refine ⟨a, ?_⟩
          rw [e, htk.1, List.append_assoc]

/-! ## The whole handshake -/

/-- What `send_key` writes. -/
theorem sendKey_full (h : HsInitialized) (hk : h.ellswift.length = 64) (g : Option Bytes) :
    h.sendKey g (zeros (HsInitialized.sendKeyLen g)) =
      if (g.getD []).length > 4095 then (zeros (HsInitialized.sendKeyLen g), .err .tooMuchGarbage)
      else (h.ellswift ++ g.getD [], .ok ⟨h.magic, h.role, h.secretKey, h.ellswift, g⟩) := by
  have hlen : HsInitialized.sendKeyLen g = 64 + (g.getD []).length := by cases g <;> rfl
  have hsk := C18_send_key h hk g (zeros (HsInitialized.sendKeyLen g))
  simp only at hsk
  rw [hsk]
  by_cases hg : 4095 < (g.getD []).length
  · rw [if_pos hg, if_pos hg]
  · rw [if_neg hg, if_neg hg, if_neg (by simp; omega), List.drop_of_length_le (by simp; omega),
      List.append_nil]

/-- What `send_version` writes, and the state after it. -/
theorem sendVersion_full (hP : Lawful P) (magic es key sk : Bytes) (role : Role) (g : Option Bytes)
    (d : Option (List Bytes)) (hd : (d.getD []).length + 1 < 2 ^ 32) :
    let D := Spec.directions P magic es key sk role.initiating
    ∃ o', o'.At P D.1.1 D.1.2.1 ((d.getD []).length + 1) ∧
      HsReceivedKey.sendVersion P prof ⟨magic, role, peerKeys P magic es key sk role, g⟩
        (zeros (HsReceivedKey.sendVersionLen d)) d =
      (Spec.versionBytes P D.1.2.2 D.1.1 D.1.2.1 (g.getD []) (d.getD []),
        .ok (HsInitialized.sentVersion ⟨magic, role, sk, es⟩ (peerKeys P magic es key sk role) o')) := by
  intro D
  obtain ⟨hk, ht, -, -⟩ := peerKeys_directions (P := P) magic es key sk role
  obtain ⟨o', ws, hs, hw⟩ := sendAll_handshake (prof := prof) hP (peerKeys P magic es key sk role) role g
    (d.getD []) hd
  have hat := sendAll_handshake_at hP (peerKeys P magic es key sk role) role g (d.getD []) hd hs
  have hsv := sendVersion_eq hP ⟨magic, role, peerKeys P magic es key sk role, g⟩
    (zeros (HsReceivedKey.sendVersionLen d)) d (by rw [zeros_length, sendVersionLen_eq]; exact Nat.le_refl _)
    (peerKeys_terminators hP magic es key sk role role) hs
  rw [List.drop_of_length_le (by rw [zeros_length, sendVersionLen_eq]; exact Nat.le_refl _),
    List.append_nil] at hsv
  simp only at hsv
  rw [hk] at hat
  refine ⟨o', hat, ?_⟩
  rw [hsv]
  have hw' := hw ((peerKeys P magic es key sk role).localTerminator role)
  rw [hw', hk, ht]
  rfl

/-- What is on the wire whatever happens. -/
def Sent48 (P : Prims) (magic rng : Bytes) (role : Role) (g : Option Bytes) (d : Option (List Bytes))
    (bytes : Bytes) (before after : Sink) : Prop :=
  ∃ pre, after.out = before.out ++ pre ∧
    (pre <+: P.ellswift rng ++ g.getD [] ∨
      ∃ peerKey rest, bytes = peerKey ++ rest ∧ peerKey.length = 64 ∧ peerKey.take 4 ≠ magic ∧
        pre <+: Spec.ownTranscript P
          (Spec.directions P magic (P.ellswift rng) peerKey rng role.initiating).1 (P.ellswift rng)
          (g.getD []) (d.getD []))

theorem handshake_sound {A : Api} (B : A.Abs) (hP : Lawful P) {magic rng : Bytes} {role : Role}
    {g : Option Bytes} {d : Option (List Bytes)} {reader : Source} {writer w' : Sink} {log : HsLog}
    {r : Outcome ProtocolError (InboundCipher × OutboundCipher × A.Session)}
    (hd : (d.getD []).length + 1 < 2 ^ 32)
    (hr : handshake A P prof magic role rng g d reader writer = (w', log, r)) :
    Sent48 P magic rng role g d reader.bytes writer w' ∧
    (reader.bytes.length < 2 ^ 36 → ∀ i o s, r = .ok (i, o, s) → ∃ peerKey garbage decoys version,
      let D := Spec.directions P magic (P.ellswift rng) peerKey rng role.initiating
      Spec.Admissible magic D.2.2.2 peerKey garbage decoys version ∧
      reader.bytes = Spec.peerTranscript P D.2 peerKey garbage decoys version ++ (B.abs s).bytes ∧
      i.At P D.2.1 D.2.2.1 (decoys.length + 1) ∧ o.At P D.1.1 D.1.2.1 ((d.getD []).length + 1) ∧
      w'.out = writer.out ++ Spec.ownTranscript P D.1 (P.ellswift rng) (g.getD []) (d.getD [])) := by
  have hes := hP.ellswift_length rng
  unfold handshake at hr
  unfold HsInitialized.newWithRng at hr
  by_cases hz : (prof.debugAssertions && rng == zeros 32) = true
  · rw [if_pos hz] at hr
    simp only [Prod.mk.injEq] at hr
    obtain ⟨rfl, -, rfl⟩ := hr
    exact ⟨⟨[], by simp, .inl (List.nil_prefix)⟩, by simp⟩
  rw [if_neg hz] at hr
  by_cases hv : ¬ P.validSecret rng = true
  · rw [if_neg hv] at hr
    simp only [Prod.mk.injEq] at hr
    obtain ⟨rfl, -, rfl⟩ := hr
    exact ⟨⟨[], by simp, .inl (List.nil_prefix)⟩, by simp⟩
  rw [if_pos (Decidable.not_not.1 hv)] at hr
  simp only at hr
  unfold handshakeWithInitialized at hr
  rw [sendKey_full _ hes] at hr
  by_cases hg : (g.getD []).length > 4095
  · rw [if_pos hg] at hr
    simp only [Prod.mk.injEq] at hr
    obtain ⟨rfl, -, rfl⟩ := hr
    exact ⟨⟨[], by simp, .inl (List.nil_prefix)⟩, by simp⟩
  rw [if_neg hg] at hr
  simp only at hr
  -- our key and garbage
  obtain ⟨pre1, hp1, ho1, hok1⟩ := send_out writer A.retry (P.ellswift rng ++ g.getD [])
  cases hs1 : writer.send A.retry (P.ellswift rng ++ g.getD []) with
  | mk w1 x1 =>
  rw [hs1] at ho1 hok1
  simp only [hs1] at hr
  cases x1 with
  | error k =>
    simp only [Prod.mk.injEq] at hr
    obtain ⟨rfl, -, rfl⟩ := hr
    exact ⟨⟨pre1, ho1, .inl hp1⟩, by simp⟩
  | ok u =>
  simp only at hr hok1 ho1
  have hw1 := hok1 trivial
  subst hw1
  -- the peer's key
  cases h1 : Source.reader.readExact A.retry reader NUM_ELLIGATOR_SWIFT_BYTES with
  | mk src1 y1 =>
  have ht1 := readExact_bytes _ _ _ _ h1
  simp only [h1] at hr
  cases y1 with
  | error k =>
    simp only [Prod.mk.injEq] at hr
    obtain ⟨rfl, -, rfl⟩ := hr
    exact ⟨⟨_, ho1, .inl hp1⟩, by simp⟩
  | ok peerKey =>
  obtain ⟨hpk, hb1⟩ := ht1.ok
  have hpk64 : peerKey.length = 64 := hpk
  simp only [receiveKey_eq hP] at hr
  by_cases hv1 : peerKey.take 4 = magic
  · rw [if_pos hv1] at hr
    simp only [Prod.mk.injEq] at hr
    obtain ⟨rfl, -, rfl⟩ := hr
    exact ⟨⟨_, ho1, .inl hp1⟩, by simp⟩
  rw [if_neg hv1] at hr
  simp only at hr
  -- our terminator, decoys and version
  obtain ⟨o1, hat1, hsv⟩ := sendVersion_full (prof := prof) hP magic (P.ellswift rng) peerKey rng role g d hd
  simp only [hsv] at hr
  obtain ⟨-, -, htr, hin⟩ := peerKeys_directions (P := P) magic (P.ellswift rng) peerKey rng role
  have ht16 := peerKeys_terminators hP magic (P.ellswift rng) peerKey rng role
  generalize hD : Spec.directions P magic (P.ellswift rng) peerKey rng role.initiating = D at *
  obtain ⟨pre2, hp2, ho2, hok2⟩ := send_out w1 A.retry
    (Spec.versionBytes P D.1.2.2 D.1.1 D.1.2.1 (g.getD []) (d.getD []))
  have hsent : ∀ w2 : Sink, w2.out = w1.out ++ pre2 →
      Sent48 P magic rng role g d reader.bytes writer w2 := by
    intro w2 hw2
    refine ⟨P.ellswift rng ++ g.getD [] ++ pre2, by rw [hw2, ho1, List.append_assoc], .inr
      ⟨peerKey, src1.bytes, hb1, hpk64, hv1, ?_⟩⟩
    rw [hD]
    exact (List.prefix_append_right_inj _).2 hp2
  cases hs2 : w1.send A.retry (Spec.versionBytes P D.1.2.2 D.1.1 D.1.2.1 (g.getD []) (d.getD [])) with
  | mk w2 x2 =>
  rw [hs2] at ho2 hok2
  simp only [hs2] at hr
  cases x2 with
  | error k =>
    simp only [Prod.mk.injEq] at hr
    obtain ⟨rfl, -, rfl⟩ := hr
    exact ⟨hsent _ ho2, by simp⟩
  | ok u =>
  simp only at hr hok2 ho2
  have hw2 := hok2 trivial
  -- the peer's garbage
  cases h2 : Source.reader.readExact A.retry src1 NUM_GARBAGE_TERMINATOR_BYTES with
  | mk src2 y2 =>
  have ht2 := readExact_bytes _ _ _ _ h2
  simp only [h2] at hr
  cases y2 with
  | error k =>
    simp only [Prod.mk.injEq] at hr
    obtain ⟨rfl, -, rfl⟩ := hr
    exact ⟨hsent _ ho2, by simp⟩
  | ok gb =>
  obtain ⟨-, hb2⟩ := ht2.ok
  simp only at hr
  cases hgl : garbageLoop (HsInitialized.sentVersion ⟨magic, role, rng, P.ellswift rng⟩
      (peerKeys P magic (P.ellswift rng) peerKey rng role) o1) gb src2 with
  | mk glog x3 =>
  have hgs := garbageLoop_sound src2.size (HsInitialized.sentVersion ⟨magic, role, rng, P.ellswift rng⟩
      (peerKeys P magic (P.ellswift rng) peerKey rng role) o1) gb src2 (Nat.le_refl _)
  rw [hgl] at hgs
  simp only [hgl] at hr
  cases x3 with
  | err e =>
    simp only [Prod.mk.injEq] at hr
    obtain ⟨rfl, -, rfl⟩ := hr
    exact ⟨hsent _ ho2, by simp⟩
  | panic =>
    simp only [Prod.mk.injEq] at hr
    obtain ⟨rfl, -, rfl⟩ := hr
    exact ⟨hsent _ ho2, by simp⟩
  | ok v =>
  obtain ⟨h3, n, gb', src3⟩ := v
  simp only [Prod.mk.injEq] at hr
  obtain ⟨rfl, -, hr⟩ := hr
  refine ⟨hsent _ ho2, ?_⟩
  intro hlen i o s hok
  rw [hok] at hr
  obtain ⟨hfound, hb3⟩ := hgs _ _ _ _ rfl
  have hterm : (HsInitialized.sentVersion ⟨magic, role, rng, P.ellswift rng⟩
      (peerKeys P magic (P.ellswift rng) peerKey rng role) o1).remoteTerminator = D.2.2.2 := htr
  have hterm16 : D.2.2.2.length = 16 := by
    rw [← htr]
    cases role
    · exact ht16 .responder
    · exact ht16 .initiator
  obtain ⟨garbage, rest, hgb, hn, hg4, hearly, hrg, hc3⟩ := receiveGarbage_found (by rw [hterm]; exact hterm16) hfound
  rw [hterm] at hgb hearly
  have hdrop : gb'.drop n = rest := by
    rw [hgb, ← List.append_assoc]
    exact drop_append_len _ _ (by rw [List.length_append, hterm16, hn])
  have hmk : (B.abs (A.mkSession (gb'.drop n) src3)).bytes = rest ++ src3.bytes := by
    rw [B.mk_abs, hdrop]
    cases rest with
    | nil => rfl
    | cons b l => rfl
  have hall : reader.bytes = peerKey ++ (garbage ++ (D.2.2.2 ++ (rest ++ src3.bytes))) := by
    rw [hb1, hb2, ← hb3, hgb]
    simp only [List.append_assoc]
  have hlen' := congrArg List.length hall
  simp only [List.length_append] at hlen'
  have hat3 : h3.cipher.inbound.At P D.2.1 D.2.2.1 0 := by
    rw [hc3]
    show InboundCipher.At P D.2.1 D.2.2.1 0 (CipherSession.new _ role).inbound
    rw [hin]
    exact ⟨FSStream.at_new _, FSAead.at_new _⟩
  obtain ⟨decoys, version, a, b, c, e, f, k⟩ := versionLoop_sound B hP _ 0 h3
    (A.mkSession (gb'.drop n) src3) (Nat.le_refl _)
    (by rw [hmk, List.length_append]; omega) hat3 hr
  refine ⟨peerKey, garbage, decoys, version, ?_⟩
  rw [hD]
  refine ⟨⟨hpk64, hv1, hg4, hearly, a, b, c⟩, ?_, ?_, ?_, ?_⟩
  · rw [hmk, hrg] at e
    rw [hall, e]
    simp only [Spec.peerTranscript, List.append_assoc]
  · rw [Nat.zero_add] at f
    exact f
  · rw [k, hc3]
    exact hat1
  · rw [ho2, hw2, ho1]
    simp only [Spec.ownTranscript, List.append_assoc]

/-! ## Completeness -/

theorem lengthBytes_length (kL : Bytes) (n len : Nat) :
    (Spec.xor (Spec.le 3 len) (Spec.lengthMask P kL n)).length = 3 := by
  rw [spec_xor, xorBytes_length, lengthMask_length, spec_le, leBytes_length]; rfl

theorem flatVersion_raw (hP : Lawful P) {kL kP : Bytes} {n : Nat} {h : HsReceivedGarbage}
    (hat : h.cipher.inbound.At P kL kP n) (hn : n + 1 < 2 ^ 32) (header : UInt8) (contents rest : Bytes)
    (hc : contents.length ≤ 3999997) :
    ∃ i', i'.At P kL kP (n + 1) ∧
      flatVersion P prof h
          (Spec.rawPacket P kL kP n header (h.remoteGarbage.getD []) contents ++ rest) =
        if header = 0x80 then
          flatVersion P prof { h with cipher := { h.cipher with inbound := i' }, remoteGarbage := none } rest
        else some (.ok (i', h.cipher.outbound, rest)) := by
  obtain ⟨i1, hd, hh⟩ := decryptPacketLen_exact (prof := prof) hat hn contents.length (by omega)
  have hsl := sealedPart_length hP kP n header (h.remoteGarbage.getD []) contents
  have hll := lengthBytes_length (P := P) kL n contents.length
  rcases receiveVersion_at (prof := prof) (h := { h with cipher := { h.cipher with inbound := i1 } }) hP hh
    (by omega) (Spec.sealedPart P kP n header (h.remoteGarbage.getD []) contents) (by omega) with
    ⟨header', contents', i', buf, he, hi', hv⟩ | ⟨hno, -⟩
  · obtain ⟨rfl, rfl⟩ := sealedPart_inj hP he
    refine ⟨i', hi', ?_⟩
    rw [rawPacket_eq, List.append_assoc]
    conv => lhs; unfold flatVersion
    rw [if_neg (by rw [List.length_append, hll]; omega), take_append_len _ _ hll.symm,
      drop_append_len _ _ hll.symm]
    simp only [HsReceivedGarbage.decryptPacketLen, hd]
    have hm : MAX_PACKET_SIZE_FOR_ALLOCATION = 4000014 := rfl
    rw [if_neg (by omega), if_neg (by rw [List.length_append, hsl]; omega), take_append_len _ _ hsl.symm,
      drop_append_len _ _ hsl.symm]
    simp only [hv]
    by_cases h80 : header = 0x80
    · simp only [if_pos h80]
    · simp only [if_neg h80]
  · exact absurd rfl (hno header contents)

theorem flatVersion_complete (hP : Lawful P) {kL kP : Bytes} (decoys : List Bytes) (version : UInt8 × Bytes)
    (hds : ∀ d ∈ decoys, d.length ≤ 3999997) (hv : version.2.length ≤ 3999997) (hg : version.1 ≠ 0x80)
    (rest : Bytes) : ∀ (n : Nat) (h : HsReceivedGarbage), h.cipher.inbound.At P kL kP n →
      n + decoys.length + 1 < 2 ^ 32 →
      ∃ i', i'.At P kL kP (n + decoys.length + 1) ∧
        flatVersion P prof h (Spec.packetStream P kL kP n (h.remoteGarbage.getD [])
          (Spec.handshakeMessages decoys version) ++ rest) = some (.ok (i', h.cipher.outbound, rest)) := by
  induction decoys with
  | nil =>
    intro n h hat hn
    simp only [List.length_nil, Nat.add_zero] at hn
    obtain ⟨i', hi', he⟩ := flatVersion_raw (prof := prof) hP hat (by omega) version.1 version.2 rest hv
    rw [if_neg hg] at he
    refine ⟨i', hi', ?_⟩
    simp only [Spec.handshakeMessages, List.map_nil, List.nil_append, Spec.packetStream, List.append_nil]
    exact he
  | cons d ds ih =>
    intro n h hat hn
    simp only [List.length_cons] at hn
    obtain ⟨i1, hi1, he⟩ := flatVersion_raw (prof := prof) hP hat (by omega) 0x80 d
      (Spec.packetStream P kL kP (n + 1) [] (Spec.handshakeMessages ds version) ++ rest) (hds d (by simp))
    rw [if_pos rfl] at he
    obtain ⟨i', hi', he'⟩ := ih (fun x hx => hds x (by simp [hx])) (n + 1)
      { h with cipher := { h.cipher with inbound := i1 }, remoteGarbage := none } hi1 (by omega)
    refine ⟨i', ?_, ?_⟩
    · rw [List.length_cons, show n + (ds.length + 1) + 1 = n + 1 + ds.length + 1 by omega]
      exact hi'
    · simp only [Spec.handshakeMessages, List.map_cons, List.cons_append, Spec.packetStream, List.append_assoc]
      simp only [Spec.handshakeMessages] at he he'
      rw [he]
      exact he'

/-- A peer that sends an admissible transcript completes the handshake. -/
theorem handshake_complete {A : Api} (B : A.Abs) (hP : Lawful P) {magic rng : Bytes} {role : Role}
    {g : Option Bytes} {d : Option (List Bytes)} {reader tail : Source} {k : ErrorKind} {writer : Sink}
    (hnew : Spec.UsableKey P prof rng)
    (hg : (g.getD []).length ≤ 4095) (hd : (d.getD []).length + 1 < 2 ^ 32)
    (hw : writer.Reliable A.retry) (hend : EndsWith A.retry tail k)
    {peerKey garbage : Bytes} {decoys : List Bytes} {version : UInt8 × Bytes} {rest : Bytes}
    (hn : decoys.length + 1 < 2 ^ 32) :
    let D := Spec.directions P magic (P.ellswift rng) peerKey rng role.initiating
    Spec.Admissible magic D.2.2.2 peerKey garbage decoys version →
    Streams false reader (Spec.peerTranscript P D.2 peerKey garbage decoys version ++ rest) tail →
    ∃ w' log i o s, handshake A P prof magic role rng g d reader writer = (w', log, .ok (i, o, s)) ∧
      w'.out = writer.out ++ Spec.ownTranscript P D.1 (P.ellswift rng) (g.getD []) (d.getD []) ∧
      i.At P D.2.1 D.2.2.1 (decoys.length + 1) ∧ o.At P D.1.1 D.1.2.1 ((d.getD []).length + 1) ∧
      SessStreams B s rest tail := by
  intro D hadm hs
  obtain ⟨hk, htl, htr, hin⟩ := peerKeys_directions (P := P) magic (P.ellswift rng) peerKey rng role
  have ht16 := peerKeys_terminators hP magic (P.ellswift rng) peerKey rng role
  have hterm16 : D.2.2.2.length = 16 := by
    rw [← htr]
    cases role
    · exact ht16 .responder
    · exact ht16 .initiator
  obtain ⟨o', ws, hsa, hwb⟩ := sendAll_handshake (prof := prof) hP
    (peerKeys P magic (P.ellswift rng) peerKey rng role) role g (d.getD []) hd
  have hat := sendAll_handshake_at hP (peerKeys P magic (P.ellswift rng) peerKey rng role) role g (d.getD []) hd hsa
  obtain ⟨w1, w2, -, -, -, hw2, -, hlong⟩ := flatHandshake_reach hP ⟨magic, role, rng, P.ellswift rng⟩
    (hP.ellswift_length _) peerKey hadm.keyLength (peerKeys P magic (P.ellswift rng) peerKey rng role) ht16
    (fun g => by rw [receiveKey_eq hP, if_neg hadm.notV1]) g d hg hsa A.retry writer hw
  obtain ⟨f1, f2⟩ := handshake_flat (prof := prof) B hP hend ⟨magic, role, rng, P.ellswift rng⟩ g d reader _ hs writer
  obtain ⟨h', hfound, hrg, hc⟩ := garbage_found
    (HsInitialized.sentVersion ⟨magic, role, rng, P.ellswift rng⟩
      (peerKeys P magic (P.ellswift rng) peerKey rng role) o') garbage
    (Spec.packetStream P D.2.1 D.2.2.1 0 garbage (Spec.handshakeMessages decoys version) ++ rest)
    (by show ((peerKeys P magic (P.ellswift rng) peerKey rng role).remoteTerminator role).length = 16
        rw [htr]; exact hterm16)
    hadm.garbageLength
    (by show NoEarlyTerminator ((peerKeys P magic (P.ellswift rng) peerKey rng role).remoteTerminator role) garbage
        rw [htr]; exact hadm.firstTerminator)
  have hat' : h'.cipher.inbound.At P D.2.1 D.2.2.1 0 := by
    rw [hc]
    show InboundCipher.At P D.2.1 D.2.2.1 0 (CipherSession.new _ role).inbound
    rw [hin]
    exact ⟨FSStream.at_new _, FSAead.at_new _⟩
  obtain ⟨i, hi, hfv⟩ := flatVersion_complete (prof := prof) hP decoys version hadm.decoyLength hadm.versionLength
    hadm.versionGenuine rest 0 h' hat' (by omega)
  have hrt : (HsInitialized.sentVersion ⟨magic, role, rng, P.ellswift rng⟩
      (peerKeys P magic (P.ellswift rng) peerKey rng role) o').remoteTerminator = D.2.2.2 := htr
  have hfp : flatPeer P prof (HsInitialized.sentVersion ⟨magic, role, rng, P.ellswift rng⟩
      (peerKeys P magic (P.ellswift rng) peerKey rng role) o')
      (garbage ++ (D.2.2.2 ++ (Spec.packetStream P D.2.1 D.2.2.1 0 garbage
        (Spec.handshakeMessages decoys version) ++ rest))) = some (.ok (i, o', rest)) := by
    unfold flatPeer
    rw [hrt] at hfound
    simp only [hfound]
    rw [← List.append_assoc garbage, drop_append_len _ _ (by rw [List.length_append, hterm16])]
    rw [hrg] at hfv
    rw [hfv, hc]
    rfl
  have hbytes : Spec.peerTranscript P D.2 peerKey garbage decoys version ++ rest
      = peerKey ++ (garbage ++ (D.2.2.2 ++ (Spec.packetStream P D.2.1 D.2.2.1 0 garbage
        (Spec.handshakeMessages decoys version) ++ rest))) := by
    simp only [Spec.peerTranscript, List.append_assoc]
  rw [hbytes, hlong, hfp] at f1 f2
  cases hh : handshakeWithInitialized A P prof ⟨magic, role, rng, P.ellswift rng⟩ g d reader writer with
  | mk w' x =>
  obtain ⟨log, r⟩ := x
  rw [hh] at f1 f2
  simp only at f1
  subst f1
  obtain ⟨s, rfl, hss⟩ := f2
  refine ⟨w', log, i, o', s, ?_, ?_, by rw [Nat.zero_add] at hi; exact hi, by rw [hk] at hat; exact hat, hss⟩
  · unfold handshake
    rw [newWithRng_ok hnew]
    exact hh
  · rw [hw2]
    have := hwb ((peerKeys P magic (P.ellswift rng) peerKey rng role).localTerminator role)
    show writer.out ++ (P.ellswift rng ++ g.getD [] ++
      ((peerKeys P magic (P.ellswift rng) peerKey rng role).localTerminator role ++ ws.flatten)) = _
    rw [this, hk, htl]
    rfl

end Bip324
