import Verif.Model.Tests
import Verif.Props.SansIo

/-!
# The tests and benchmarks that drive the library by hand: C73

When `hello_world_happy_path`, the benchmarks and `regtest_handshake` pass, for all random choices, all messages, all
conforming peers and all ways in which the stream is cut.  The first two pass exactly if no public key begins with the
magic.  The third one fails against every conforming peer that sends more than 4096 bytes after its key, and whenever
the first read does not return all of the handshake.
-/

namespace Bip324

variable {P : Prims} {prof : Profile}

/-! ## One packet -/

theorem encrypt_of_toVec {o o' : OutboundCipher} {c w : Bytes} {ty : PacketType} {aad : Option Bytes}
    (h : o.encryptToVec P prof c ty aad = (o', .ok w)) :
    o.encrypt P prof c (zeros (OutboundCipher.encryptionBufferLen c.length)) ty aad = (o', w, .ok ()) := by
  unfold OutboundCipher.encryptToVec at h
  generalize o.encrypt P prof c (zeros (OutboundCipher.encryptionBufferLen c.length)) ty aad = x at h ⊢
  obtain ⟨a, b, r⟩ := x
  cases r with
  | ok u =>
    simp only [Prod.mk.injEq, Outcome.ok.injEq] at h
    obtain ⟨rfl, rfl⟩ := h
    rfl
  | err e => simp at h
  | panic => simp at h

theorem toVec_length (hP : Lawful P) {o o' : OutboundCipher} {c w : Bytes} {ty : PacketType} {aad : Option Bytes}
    (h : o.encryptToVec P prof c ty aad = (o', .ok w)) : w.length = c.length + 20 := by
  obtain ⟨pc, ct, tag, lc, encLen, he, hl, -, rfl⟩ := OutboundCipher.encryptToVec_ok_inv hP o c ty aad h
  have h1 := FSStream.crypt_length hl
  obtain ⟨h2, h3⟩ := FSAead.encrypt_lengths hP he
  simp only [List.length_append, leBytes_length, List.length_cons] at h1 h2 ⊢
  omega

theorem bufferLen_eq (n : Nat) : InboundCipher.decryptionBufferLen prof (n + 17) = some (n + 1) := by
  unfold InboundCipher.decryptionBufferLen usub
  rw [if_pos (show NUM_TAG_BYTES ≤ n + 17 by have : NUM_TAG_BYTES = 16 := rfl; omega)]
  rfl

/-- The one step of the test. -/
theorem helloMessage_eq (hP : Lawful P) {s r : CipherSession} (hm : Matching s.outbound r.inbound) {c : Bytes}
    (hc : c.length < 2 ^ 24) {o' : OutboundCipher} {w : Bytes}
    (he : s.outbound.encryptToVec P prof c .genuine none = (o', .ok w)) :
    ∃ i', Matching o' i' ∧
      helloMessage P prof s r c = some ({ s with outbound := o' }, { r with inbound := i' }) := by
  obtain ⟨i1, i2, hm2, hl, -, hd, -⟩ := C01_packet_round_trip hP hm c hc .genuine none he
  have hw := toVec_length hP he
  have hlen : (w.drop 3).length = c.length + 17 := by rw [List.length_drop]; omega
  refine ⟨i2, hm2, ?_⟩
  have hd' := hd (zeros (c.length + 1)) (by simp [zeros])
  have hz : (zeros (c.length + 1)).drop (c.length + 1) = [] := List.drop_of_length_le (by simp [zeros])
  rw [hz, List.append_nil] at hd'
  unfold helloMessage
  simp only [encrypt_of_toVec he, Outcome.orPanic, Option.bind_eq_bind, Option.bind_some, NUM_LENGTH_BYTES, hl, hlen,
    bufferLen_eq, hd']
  simp [orElsePanic]

/-- The one step of the benchmark. -/
theorem benchRound_eq (hP : Lawful P) {s r : CipherSession} (hm : Matching s.outbound r.inbound) {c : Bytes}
    (hc : c.length < 2 ^ 24) {o' : OutboundCipher} {w : Bytes}
    (he : s.outbound.encryptToVec P prof c .genuine none = (o', .ok w)) :
    ∃ i', Matching o' i' ∧
      benchRound P prof c s r = some (({ s with outbound := o' }, { r with inbound := i' }), 0 :: c) := by
  obtain ⟨i1, i2, hm2, hl, -, hd, -⟩ := C01_packet_round_trip hP hm c hc .genuine none he
  have hw := toVec_length hP he
  have hlen : (w.drop 3).length = c.length + 17 := by rw [List.length_drop]; omega
  refine ⟨i2, hm2, ?_⟩
  have hd' := hd (zeros (c.length + 1)) (by simp [zeros])
  have hz : (zeros (c.length + 1)).drop (c.length + 1) = [] := List.drop_of_length_le (by simp [zeros])
  rw [hz, List.append_nil] at hd'
  have hs0 : slice w 0 3 = w.take 3 := by simp [slice]
  have hs3 : slice w 3 (c.length + 17) = w.drop 3 := by
    unfold slice
    rw [List.take_of_length_le (by omega)]
  unfold benchRound
  simp only [encrypt_of_toVec he, Outcome.orPanic, Option.bind_eq_bind, Option.bind_some, NUM_LENGTH_BYTES, hs0, hl, hlen,
    bufferLen_eq, hs3, hd']
  rw [orElsePanic, if_pos (by simp; omega)]
  rfl

/-! ## The handshake of two parties -/

/-- `send_version` without garbage and decoys. -/
theorem sendVersion_plain (hP : Lawful P) (magic : Bytes) (role : Role) (K : SessionKeyMaterial)
    (hK : (K.localTerminator role).length = 16) :
    ∃ o w, (CipherSession.new K role).outbound.encryptToVec P prof [] .genuine none = (o, .ok w) ∧
      OutboundCipher.At P (K.sendKeys role).1 (K.sendKeys role).2 1 o ∧
      HsReceivedKey.sendVersion P prof ⟨magic, role, K, none⟩ (zeros (HsReceivedKey.sendVersionLen none)) none
        = (K.localTerminator role ++ w,
          .ok ⟨magic, role, { CipherSession.new K role with outbound := o }, K.remoteTerminator role⟩) := by
  obtain ⟨o, ws, hs, -⟩ := sendAll_handshake (prof := prof) hP K role none [] (by simp)
  have hat := sendAll_handshake_at hP K role none [] (by simp) hs
  have hv := sendVersion_eq hP ⟨magic, role, K, none⟩ (zeros (HsReceivedKey.sendVersionLen none)) none
    (by simp only [Option.getD_none, packetsLen_eq]; simp [zeros]; decide) hK hs
  have hd : (zeros (HsReceivedKey.sendVersionLen none)).drop (16 + packetsLen ((none : Option (List Bytes)).getD [])) = [] :=
    List.drop_of_length_le (by simp only [Option.getD_none, packetsLen_eq]; simp [zeros]; decide)
  rw [hd, List.append_nil] at hv
  simp only [handshakeMsgs, sendAll] at hs
  generalize he : (CipherSession.new K role).outbound.encryptToVec P prof [] .genuine none = x at hs
  obtain ⟨o1, r⟩ := x
  cases r with
  | ok w =>
    simp only [Outcome.ok.injEq, Prod.mk.injEq] at hs
    obtain ⟨rfl, rfl⟩ := hs
    refine ⟨o1, w, rfl, hat, ?_⟩
    rw [hv]
    simp
  | err e => simp at hs
  | panic => simp at hs

/-- The terminator comes at once, and then the version packet: the receiver has a session. -/
theorem takeVersion_eq (hP : Lawful P) {h : HsSentVersion} (h16 : h.remoteTerminator.length = 16)
    {o o' : OutboundCipher} (hm : Matching o h.cipher.inbound) {w : Bytes}
    (he : o.encryptToVec P prof [] .genuine none = (o', .ok w)) :
    ∃ g i', h.receiveGarbage (h.remoteTerminator ++ w) = .ok (.foundGarbage g 16) ∧ Matching o' i' ∧
      takeVersion P prof g (h.remoteTerminator ++ w) 16 = some { h.cipher with inbound := i' } := by
  obtain ⟨i1, i2, hm2, hl, ⟨buf, hd⟩, -⟩ := C01_packet_round_trip hP hm [] (by simp) .genuine none he
  have hw := toVec_length hP he
  refine ⟨⟨h.magic, h.role, h.cipher, none⟩, i2, ?_, hm2, ?_⟩
  · rw [C21_found h h16]
    exact ⟨0, by omega, ⟨[], w, rfl, rfl⟩, fun j hj => absurd hj (Nat.not_lt_zero _), rfl, rfl,
      (by simp), rfl, rfl, rfl⟩
  · have hdrop : (h.remoteTerminator ++ w).drop 16 = w := List.drop_left' h16
    have hlen : (w.drop 3).length = 17 := by rw [List.length_drop, hw]; rfl
    unfold takeVersion HsReceivedGarbage.decryptPacketLen
    simp only [hdrop, NUM_LENGTH_BYTES, hl, Outcome.orPanic, Option.bind_eq_bind, Option.bind_some, hlen]
    rw [orElsePanic, if_pos (by simp; omega), Option.bind_some, orElsePanic, if_pos (by simp; omega), Option.bind_some,
      orElsePanic, if_pos (by simp; omega), Option.bind_some]
    have hs : slice w 3 17 = w.drop 3 := by unfold slice; rw [List.take_of_length_le (by omega)]
    unfold HsReceivedGarbage.receiveVersion
    simp only [hs, hd]
    rfl

/-- C73: the handshake that the tests share accepts no decoy before the version packet: a peer that sends one, of any
contents, makes the test fail. -/
theorem C73_no_decoy (hP : Lawful P) {h : HsSentVersion} (h16 : h.remoteTerminator.length = 16)
    {o o' : OutboundCipher} (hm : Matching o h.cipher.inbound) {c w rest : Bytes} (hc : c.length < 2 ^ 24)
    (he : o.encryptToVec P prof c .decoy none = (o', .ok w)) :
    ∃ g, h.receiveGarbage (h.remoteTerminator ++ (w ++ rest)) = .ok (.foundGarbage g 16) ∧
      takeVersion P prof g (h.remoteTerminator ++ (w ++ rest)) 16 = none := by
  obtain ⟨i1, i2, hm2, hl, ⟨buf, hd⟩, -⟩ := C01_packet_round_trip hP hm c hc .decoy none he
  have hw := toVec_length hP he
  refine ⟨⟨h.magic, h.role, h.cipher, none⟩, ?_, ?_⟩
  · rw [C21_found h h16]
    exact ⟨0, by omega, ⟨[], w ++ rest, rfl, rfl⟩, fun j hj => absurd hj (Nat.not_lt_zero _), rfl, rfl,
      (by simp), rfl, rfl, rfl⟩
  · have hdrop : (h.remoteTerminator ++ (w ++ rest)).drop 16 = w ++ rest := List.drop_left' h16
    have hlen : (w.drop 3).length = c.length + 17 := by rw [List.length_drop]; omega
    have htake : (w ++ rest).take 3 = w.take 3 := List.take_append_of_le_length (by omega)
    unfold takeVersion HsReceivedGarbage.decryptPacketLen
    simp only [hdrop, htake, NUM_LENGTH_BYTES, hl, Outcome.orPanic, Option.bind_eq_bind, Option.bind_some, hlen]
    rw [orElsePanic, if_pos (by simp; omega), Option.bind_some, orElsePanic, if_pos (by simp; omega), Option.bind_some,
      orElsePanic, if_pos (by simp; omega), Option.bind_some]
    have hs : slice (w ++ rest) 3 (c.length + 17) = w.drop 3 := by
      unfold slice
      rw [List.drop_append_of_le_length (by omega), List.take_append_of_le_length (by omega), List.take_of_length_le (by omega)]
    unfold HsReceivedGarbage.receiveVersion
    simp only [hs, hd]
    rfl

/-- Two sessions of one connection: the ciphers match in both directions, and one packet has been sent in each. -/
structure PairReady (P : Prims) (a b : CipherSession) : Prop where
  ab : Matching a.outbound b.inbound
  ba : Matching b.outbound a.inbound
  id : a.id = b.id
  first : (∃ kL kP, OutboundCipher.At P kL kP 1 a.outbound) ∧ ∃ kL kP, OutboundCipher.At P kL kP 1 b.outbound

/-- The keys are usable, and no public key begins with the magic. -/
structure PairKeys (P : Prims) (prof : Profile) (magic rngA rngB : Bytes) : Prop where
  usableA : Spec.UsableKey P prof rngA
  usableB : Spec.UsableKey P prof rngB
  notV1A : (P.ellswift rngA).take 4 ≠ magic
  notV1B : (P.ellswift rngB).take 4 ≠ magic

theorem plain_sendKey (hP : Lawful P) (magic : Bytes) (role : Role) (rng : Bytes) :
    HsInitialized.sendKey ⟨magic, role, rng, P.ellswift rng⟩ none (zeros (HsInitialized.sendKeyLen none))
      = (P.ellswift rng, .ok ⟨magic, role, rng, P.ellswift rng, none⟩) := by
  have h := C18_send_key ⟨magic, role, rng, P.ellswift rng⟩ (hP.ellswift_length rng) none
    (zeros (HsInitialized.sendKeyLen none))
  rw [h]
  have hl : (zeros (HsInitialized.sendKeyLen none)).length = 64 := by simp [zeros]; rfl
  simp only [Option.getD_none, List.length_nil, Nat.add_zero, hl]
  rw [if_neg (by omega), if_neg (by omega)]
  have hd : List.drop 64 (zeros (HsInitialized.sendKeyLen none)) = [] := List.drop_of_length_le (by omega)
  rw [hd]
  simp

theorem pair_agree (hP : Lawful P) {magic rngA rngB : Bytes} (h : P.validSecret rngA = true)
    (h2 : P.validSecret rngB = true) :
    peerKeys P magic (P.ellswift rngB) (P.ellswift rngA) rngB .responder
      = peerKeys P magic (P.ellswift rngA) (P.ellswift rngB) rngA .initiator := by
  have := hP.ecdh_agree rngA rngB Spec.ecdhTag h h2
  unfold peerKeys Spec.ecdhSecret
  simp [this]

/-- `new_with_rng` succeeds exactly for usable keys. -/
theorem new_orPanic (magic : Bytes) (role : Role) (rng : Bytes) :
    (HsInitialized.newWithRng P prof magic role rng).orPanic = none ∨ Spec.UsableKey P prof rng := by
  by_cases h : Spec.UsableKey P prof rng
  · exact .inr h
  · refine .inl ?_
    unfold HsInitialized.newWithRng
    by_cases hc : (prof.debugAssertions && rng == zeros 32) = true
    · rw [if_pos hc]; rfl
    · rw [if_neg hc]
      by_cases hv : P.validSecret rng = true
      · refine absurd ⟨hv, fun hd hz => hc ?_⟩ h
        rw [hd, Bool.true_and, beq_iff_eq]
        exact hz
      · rw [if_neg hv]; rfl

/-- The handshake of the two parties succeeds exactly if the keys are usable and do not begin with the magic. -/
theorem sessionPair_iff (hP : Lawful P) (magic rngA rngB : Bytes) :
    (PairKeys P prof magic rngA rngB → ∃ a b, sessionPair P prof magic rngA rngB = some (a, b) ∧ PairReady P a b) ∧
    (¬ PairKeys P prof magic rngA rngB → sessionPair P prof magic rngA rngB = none) := by
  constructor
  · intro h
    have hagree := pair_agree (magic := magic) hP h.usableA.1 h.usableB.1
    generalize hK : peerKeys P magic (P.ellswift rngA) (P.ellswift rngB) rngA .initiator = K at hagree
    have hti : (K.localTerminator .initiator).length = 16 := by rw [← hK]; exact peerKeys_terminators hP _ _ _ _ _ _
    have htr : (K.localTerminator .responder).length = 16 := by rw [← hK]; exact peerKeys_terminators hP _ _ _ _ _ _
    obtain ⟨oA, wA, eA, aA, vA⟩ := sendVersion_plain (P := P) (prof := prof) hP magic .initiator K hti
    obtain ⟨oB, wB, eB, aB, vB⟩ := sendVersion_plain (P := P) (prof := prof) hP magic .responder K htr
    obtain ⟨gA, iA, fA, mA, tA⟩ := takeVersion_eq (prof := prof) hP
      (h := ⟨magic, .initiator, { CipherSession.new K .initiator with outbound := oA }, K.remoteTerminator .initiator⟩)
      htr (o := (CipherSession.new K .responder).outbound) ⟨rfl, rfl⟩ eB
    obtain ⟨gB, iB, fB, mB, tB⟩ := takeVersion_eq (prof := prof) hP
      (h := ⟨magic, .responder, { CipherSession.new K .responder with outbound := oB }, K.remoteTerminator .responder⟩)
      hti (o := (CipherSession.new K .initiator).outbound) ⟨rfl, rfl⟩ eA
    have t1 : K.remoteTerminator .initiator = K.localTerminator .responder := rfl
    have t2 : K.remoteTerminator .responder = K.localTerminator .initiator := rfl
    simp only [t1, t2] at fA tA fB tB vA vB
    refine ⟨⟨K.sessionId, iA, oA⟩, ⟨K.sessionId, iB, oB⟩, ?_, ⟨mB, mA, rfl, ⟨_, _, aA⟩, ⟨_, _, aB⟩⟩⟩
    unfold sessionPair
    simp only [newWithRng_ok h.usableA, newWithRng_ok h.usableB, plain_sendKey hP, Outcome.orPanic, Option.bind_eq_bind,
      Option.bind_some, List.take_of_length_le (Nat.le_of_eq (hP.ellswift_length _)), receiveKey_eq hP,
      if_neg h.notV1A, if_neg h.notV1B, hagree, hK, vA, vB, fA, fB, GarbageResult.orPanic, tA, tB]
    rfl
  · intro h
    cases hs : sessionPair P prof magic rngA rngB with
    | none => rfl
    | some x =>
      refine absurd ?_ h
      unfold sessionPair at hs
      obtain ⟨a0, h1, hs⟩ := Option.bind_eq_some_iff.1 hs
      obtain ⟨a1, h2, hs⟩ := Option.bind_eq_some_iff.1 hs
      obtain ⟨b0, h3, hs⟩ := Option.bind_eq_some_iff.1 hs
      obtain ⟨b1, h4, hs⟩ := Option.bind_eq_some_iff.1 hs
      obtain ⟨a2, h5, hs⟩ := Option.bind_eq_some_iff.1 hs
      obtain ⟨b2, h6, -⟩ := Option.bind_eq_some_iff.1 hs
      have hA := (new_orPanic (P := P) (prof := prof) magic .initiator rngA).resolve_left (by rw [h1]; simp)
      have hB := (new_orPanic (P := P) (prof := prof) magic .responder rngB).resolve_left (by rw [h3]; simp)
      rw [newWithRng_ok hA] at h1
      rw [newWithRng_ok hB] at h3
      cases h1
      cases h3
      rw [plain_sendKey hP] at h2 h4 h5 h6
      cases h2
      cases h4
      rw [List.take_of_length_le (Nat.le_of_eq (hP.ellswift_length _)), receiveKey_eq hP] at h5 h6
      refine ⟨hA, hB, fun e => ?_, fun e => ?_⟩
      · rw [if_pos e] at h6; cases h6
      · rw [if_pos e] at h5; cases h5

/-! ## The tests -/

/-- C73, `hello_world_happy_path`: whatever the random choices and whatever the two messages (of less than 2^24 bytes),
the test passes exactly if both secret keys are usable and neither public key begins with the magic. -/
theorem C73_hello (hP : Lawful P) (magic rngA rngB : Bytes) {hello goodbye : Bytes} (h1 : hello.length < 2 ^ 24)
    (h2 : goodbye.length < 2 ^ 24) :
    helloWorld P prof magic rngA rngB hello goodbye = some () ↔ PairKeys P prof magic rngA rngB := by
  constructor
  · intro h
    refine Classical.byContradiction fun hk => ?_
    unfold helloWorld at h
    rw [(sessionPair_iff hP magic rngA rngB).2 hk] at h
    cases h
  · intro hk
    obtain ⟨a, b, hs, hr⟩ := (sessionPair_iff hP magic rngA rngB).1 hk
    obtain ⟨⟨_, _, atA⟩, ⟨_, _, atB⟩⟩ := hr.first
    obtain ⟨o1, -, e1⟩ := OutboundCipher.At.encryptToVec (prof := prof) hP atB (by decide) hello .genuine none
    obtain ⟨i1, m1, s1⟩ := helloMessage_eq hP hr.ba h1 e1
    obtain ⟨o2, -, e2⟩ := OutboundCipher.At.encryptToVec (prof := prof) hP atA (by decide) goodbye .genuine none
    obtain ⟨i2, m2, s2⟩ := helloMessage_eq (P := P) (prof := prof) hP (s := { a with inbound := i1 })
      (r := { b with outbound := o1 }) hr.ab h2 e2
    unfold helloWorld
    simp only [hs, s1, s2, Option.bind_eq_bind, Option.bind_some]

/-- C73, the handshake that the test and the benchmarks share. -/
theorem C73_pair (hP : Lawful P) (magic rngA rngB : Bytes) :
    (PairKeys P prof magic rngA rngB → ∃ a b, sessionPair P prof magic rngA rngB = some (a, b) ∧ PairReady P a b) ∧
    (¬ PairKeys P prof magic rngA rngB → sessionPair P prof magic rngA rngB = none) :=
  sessionPair_iff hP magic rngA rngB

theorem benchRounds_eq (hP : Lawful P) {c : Bytes} (hc : c.length < 2 ^ 24) : ∀ (n : Nat) {a b : CipherSession} {m : Nat},
    Matching a.outbound b.inbound →
    (prof.overflowChecks = false ∨ ((∃ kL kP, OutboundCipher.At P kL kP m a.outbound) ∧ m + n < 2 ^ 32)) →
    benchRounds P prof c n a b = some (List.replicate n (0 :: c)) := by
  intro n
  induction n with
  | zero => intro _ _ _ _ _; rfl
  | succ n ih =>
    intro a b m hm hn
    obtain ⟨o', w, he, hnext⟩ : ∃ o' w, a.outbound.encryptToVec P prof c .genuine none = (o', .ok w) ∧
        (prof.overflowChecks = false ∨ ((∃ kL kP, OutboundCipher.At P kL kP (m + 1) o') ∧ m + 1 + n < 2 ^ 32)) := by
      rcases hn with hn | ⟨⟨kL, kP, hat⟩, hn⟩
      · obtain ⟨o', w, he⟩ := C01_encrypt_progress hP a.outbound c .genuine none (.inl hn)
        exact ⟨o', w, he, .inl hn⟩
      · obtain ⟨o', h1, he⟩ := OutboundCipher.At.encryptToVec (prof := prof) hP hat (by omega) c .genuine none
        exact ⟨o', _, he, .inr ⟨⟨kL, kP, h1⟩, by omega⟩⟩
    obtain ⟨i', hm', hb⟩ := benchRound_eq hP hm hc he
    have := ih (a := { a with outbound := o' }) (b := { b with inbound := i' }) hm' hnext
    unfold benchRounds
    simp only [hb, Option.bind_eq_bind, Option.bind_some, this]
    rfl

/-- C73, the benchmarks: whatever the random choices, the plaintext (of less than 2^24 bytes) and the number of
iterations (in a build with overflow checks: less than 2^32 - 1), every iteration gives the header of a genuine packet and
the plaintext, exactly if both secret keys are usable and neither public key begins with the magic. -/
theorem C73_bench (hP : Lawful P) (magic rngA rngB : Bytes) {c : Bytes} (hc : c.length < 2 ^ 24) {n : Nat}
    (hn : prof.overflowChecks = false ∨ n + 1 < 2 ^ 32) :
    (PairKeys P prof magic rngA rngB →
      benchmark P prof magic rngA rngB c n = some (List.replicate n (0 :: c))) ∧
    (¬ PairKeys P prof magic rngA rngB → benchmark P prof magic rngA rngB c n = none) := by
  constructor
  · intro hk
    obtain ⟨a, b, hs, hr⟩ := (sessionPair_iff hP magic rngA rngB).1 hk
    have := benchRounds_eq (prof := prof) hP hc n (m := 1) hr.ab
      (hn.imp id fun h => ⟨hr.first.1, by omega⟩)
    unfold benchmark
    simp only [hs, Option.bind_eq_bind, Option.bind_some, this]
  · intro hk
    unfold benchmark
    rw [(sessionPair_iff hP magic rngA rngB).2 hk]
    rfl

/-! ## The handshake with a real peer -/

theorem write_orPanic {w : Sink} (h : w.Reliable true) (bs : Bytes) :
    ∃ w', writeOrPanic w bs = some w' ∧ w'.out = w.out ++ bs ∧ w'.Reliable true := by
  obtain ⟨s', e1, e2⟩ := writeAllGo_reliable true w.script bs h.1
  unfold writeOrPanic Sink.writeAll
  rw [e1]
  exact ⟨_, rfl, rfl, fun e he => h.1 e (e2 e he), h.2⟩

theorem flush_orPanic {w : Sink} (h : w.Reliable true) :
    ∃ w', flushOrPanic w = some w' ∧ w'.out = w.out ∧ w'.Reliable true := by
  unfold flushOrPanic Sink.flush
  cases hf : w.flushes with
  | nil => exact ⟨_, rfl, rfl, h.1, by simp [hf]⟩
  | cons f fs =>
    obtain rfl := h.2 f (by simp [hf])
    exact ⟨_, rfl, rfl, h.1, fun f hf' => h.2 f (by simp [hf, hf'])⟩

/-- Up to the one read, and then as in the documentation. -/
theorem regtestSession_eq (hP : Lawful P) {magic rng key piece : Bytes} {r r1 r2 : Source} {w : Sink}
    (hu : Spec.UsableKey P prof rng) (hkey : Source.reader.readExact true r 64 = (r1, .ok key))
    (hv1 : key.take 4 ≠ magic) (hread : Source.read r1 4096 = (r2, .ok piece)) (hw : w.Reliable true) :
    ∃ h w', h.Knows P (Spec.directions P magic (P.ellswift rng) key rng true).2 ∧
      OutboundCipher.At P (Spec.directions P magic (P.ellswift rng) key rng true).1.1
        (Spec.directions P magic (P.ellswift rng) key rng true).1.2.1 1 h.cipher.outbound ∧
      w'.out = w.out ++ Spec.ownTranscript P (Spec.directions P magic (P.ellswift rng) key rng true).1 (P.ellswift rng)
        [] [] ∧ w'.Reliable true ∧
      regtestSession P prof magic rng r w = match docDriver P prof h [piece] with
        | some (.ok (c, _, _)) => some (c, r2, w')
        | _ => none := by
  obtain ⟨w1, hw1, ho1, hr1⟩ := write_orPanic hw (P.ellswift rng)
  obtain ⟨w2, hw2, ho2, hr2⟩ := flush_orPanic hr1
  have hdir := peerKeys_directions (P := P) magic (P.ellswift rng) key rng .initiator
  have hrk := receiveKey_eq hP magic .initiator rng (P.ellswift rng) none key
  rw [if_neg hv1] at hrk
  have hti : ((peerKeys P magic (P.ellswift rng) key rng .initiator).localTerminator .initiator).length = 16 :=
    peerKeys_terminators hP _ _ _ _ _ _
  have htr : ((peerKeys P magic (P.ellswift rng) key rng .initiator).remoteTerminator .initiator).length = 16 :=
    peerKeys_terminators hP _ _ _ _ _ .responder
  generalize peerKeys P magic (P.ellswift rng) key rng .initiator = K at hdir hrk hti htr
  change K.sendKeys .initiator = ((Spec.directions P magic (P.ellswift rng) key rng true).1.1, _) ∧
    _ = (Spec.directions P magic (P.ellswift rng) key rng true).1.2.2 ∧
    _ = (Spec.directions P magic (P.ellswift rng) key rng true).2.2.2 ∧
    _ = (⟨FSStream.new (Spec.directions P magic (P.ellswift rng) key rng true).2.1, _⟩ : InboundCipher) at hdir
  obtain ⟨hd1, hd2, hd3, hd4⟩ := hdir
  obtain ⟨o, vw, he, hat, hsv⟩ := sendVersion_plain (prof := prof) hP magic .initiator K hti
  have hat0 : OutboundCipher.At P (K.sendKeys .initiator).1 (K.sendKeys .initiator).2 0
      (CipherSession.new K .initiator).outbound := ⟨FSStream.at_new _, FSAead.at_new _⟩
  obtain ⟨o2, -, he2⟩ := OutboundCipher.At.encryptToVec (prof := prof) hP hat0 (by decide) [] .genuine none
  rw [he] at he2
  injection he2 with e1 e2
  injection e2 with e2
  rw [hd1] at hat e2
  obtain ⟨w3, hw3, ho3, hr3⟩ := write_orPanic hr2 (K.localTerminator .initiator ++ vw)
  obtain ⟨w4, hw4, ho4, hr4⟩ := flush_orPanic hr3
  refine ⟨⟨magic, .initiator, { CipherSession.new K .initiator with outbound := o }, K.remoteTerminator .initiator⟩, w4,
    ⟨hd3, by rw [← hd3]; exact htr, ?_⟩, hat, ?_, hr4, ?_⟩
  · show InboundCipher.At P _ _ 0 (CipherSession.new K .initiator).inbound
    rw [hd4]
    exact ⟨FSStream.at_new _, FSAead.at_new _⟩
  · rw [ho4, ho3, ho2, ho1, hd2, e2]
    simp only [Spec.ownTranscript, Spec.versionBytes, Spec.handshakePackets, List.append_assoc, List.nil_append]
    simp
    rfl
  · unfold regtestSession
    simp only [newWithRng_ok hu, plain_sendKey hP, Outcome.orPanic, Option.bind_eq_bind, Option.bind_some, hw1, hw2,
      readOrPanic, hkey, hrk, hsv, hw3, hw4, readOnce, hread]
    unfold docDriver
    rw [docGarbage]
    generalize hg : HsSentVersion.receiveGarbage _ piece = x
    rw [List.nil_append]
    simp only [hg]
    cases x with
    | err e => rfl
    | panic => rfl
    | ok g =>
      cases g with
      | needMoreData h' => rfl
      | foundGarbage h' n =>
        simp only [Option.bind_some, GarbageResult.orPanic, orElsePanic]
        by_cases hl : piece.length < n
        · rw [if_pos hl, if_neg (by simp; omega)]
          rfl
        · rw [if_neg hl, if_pos (by simp; omega)]
          simp only [Option.bind_some]
          cases docVersion P prof h' (piece.drop n) with
          | err e => rfl
          | panic => rfl
          | ok y => rfl

/-- What a conforming peer has sent after its key, up to its version packet. -/
def Spec.afterKey (P : Prims) (keys : Bytes × Bytes × Bytes) (garbage : Bytes) (decoys : List Bytes)
    (version : UInt8 × Bytes) : Bytes :=
  garbage ++ keys.2.2 ++ Spec.packetStream P keys.1 keys.2.1 0 garbage (Spec.handshakeMessages decoys version)

/-- C73, the handshake of `regtest_handshake`, with any conforming peer.  It succeeds exactly if the one read returns all
that the peer sends up to and including its version packet. -/
theorem C73_regtest_session (hP : Lawful P) {magic rng key piece : Bytes} {r r1 r2 : Source} {w : Sink}
    (hu : Spec.UsableKey P prof rng) (hkey : Source.reader.readExact true r 64 = (r1, .ok key))
    (hread : Source.read r1 4096 = (r2, .ok piece)) (hw : w.Reliable true)
    {garbage later more : Bytes} {decoys : List Bytes} {version : UInt8 × Bytes}
    (hadm : Spec.Admissible magic (Spec.directions P magic (P.ellswift rng) key rng true).2.2.2 key garbage decoys version)
    (hsent : piece ++ later = Spec.afterKey P (Spec.directions P magic (P.ellswift rng) key rng true).2 garbage decoys
      version ++ more) :
    if (Spec.afterKey P (Spec.directions P magic (P.ellswift rng) key rng true).2 garbage decoys version).length
        ≤ piece.length then
      ∃ c w', regtestSession P prof magic rng r w = some (c, r2, w') ∧ w'.Reliable true ∧
        w'.out = w.out ++ Spec.ownTranscript P (Spec.directions P magic (P.ellswift rng) key rng true).1 (P.ellswift rng)
          [] [] ∧
        c.inbound.At P (Spec.directions P magic (P.ellswift rng) key rng true).2.1
          (Spec.directions P magic (P.ellswift rng) key rng true).2.2.1 (decoys.length + 1) ∧
        OutboundCipher.At P (Spec.directions P magic (P.ellswift rng) key rng true).1.1
          (Spec.directions P magic (P.ellswift rng) key rng true).1.2.1 1 c.outbound
    else regtestSession P prof magic rng r w = none := by
  obtain ⟨h, w', hk, hat, hout, hrel, heq⟩ := regtestSession_eq (prof := prof) hP hu hkey hadm.notV1 hread hw
  generalize Spec.directions P magic (P.ellswift rng) key rng true = D at *
  have hp : piece.length ≤ 4096 := (Source.read_bytes _ _ hread).2
  have h16 := hk.sixteen
  have hd : ∀ d ∈ decoys, d.length < 2 ^ 24 := fun d hd => by have := hadm.decoyLength d hd; omega
  have hv : version.2.length < 2 ^ 24 := by have := hadm.versionLength; omega
  by_cases hlen : (Spec.afterKey P D.2 garbage decoys version).length ≤ piece.length
  · rw [if_pos hlen]
    obtain ⟨left, hleft⟩ : ∃ left, piece = Spec.afterKey P D.2 garbage decoys version ++ left := by
      rcases List.append_eq_append_iff.1 hsent with ⟨a, h1, -⟩ | ⟨a, h1, -⟩
      · refine ⟨[], ?_⟩
        have := congrArg List.length h1
        rw [List.length_append] at this
        obtain rfl : a = [] := List.eq_nil_of_length_eq_zero (by omega)
        rw [List.append_nil] at h1 ⊢
        exact h1.symm
      · exact ⟨a, h1⟩
    obtain ⟨c, h1, h2, h3⟩ := C63_complete (prof := prof) hP hk (early := []) (unread := []) (last := piece) (g := garbage)
      (left := left) (decoys := decoys) (version := version) (by simp; omega)
      (by rw [hleft]; simp [Spec.afterKey, Spec.handshakeMessages]) hadm.garbageLength hadm.firstTerminator
      (by
        intro j ho
        have := OccursAt.le ho
        rw [h16, List.flatten_nil, List.length_nil] at this
        omega) hd hadm.versionGenuine hv
    rw [List.nil_append] at h1
    rw [heq, h1]
    exact ⟨c, w', rfl, hrel, hout, h2, by rw [h3]; exact hat⟩
  · rw [if_neg hlen, heq]
    obtain ⟨a, ha⟩ : ∃ a, Spec.afterKey P D.2 garbage decoys version = piece ++ a := by
      rcases List.append_eq_append_iff.1 hsent with ⟨a, h1, -⟩ | ⟨a, h1, -⟩
      · exact ⟨a, h1⟩
      · exact absurd (by rw [h1, List.length_append]; omega) hlen
    by_cases ht : piece.length < garbage.length + 16
    · have hno : ∀ j, ¬ Spec.OccursAt D.2.2.2 piece j := by
        intro j ho
        have h1 := OccursAt.le ho
        rw [h16] at h1
        have h2 : Spec.OccursAt D.2.2.2 (Spec.afterKey P D.2 garbage decoys version) j := by
          rw [ha]; exact occursAt_append ho
        exact hadm.firstTerminator j (by omega) (occursAt_of_append h2 (by
          rw [List.length_append, h16]; omega))
      have hdr := C63_driver (prof := prof) hP hk (pieces := [piece]) (by simp; omega)
      revert hdr
      cases docDriver P prof h [piece] with
      | none => exact fun _ => rfl
      | some x =>
        rintro (⟨-, -, rfl⟩ | ⟨g, early, last, unread, rest, v, h1, h2, -⟩)
        · rfl
        · obtain ⟨rfl, rfl, rfl⟩ : early = [] ∧ last = piece ∧ unread = [] := by
            cases early with
            | nil => simpa [eq_comm] using h1
            | cons x xs => simp at h1
          refine absurd ?_ (hno g.length)
          rw [List.flatten_nil, List.nil_append] at h2
          rw [h2]
          exact occurs_garbage _ _ _
    · have hps : piece = garbage ++ D.2.2.2 ++
          (Spec.packetStream P D.2.1 D.2.2.1 0 garbage (Spec.handshakeMessages decoys version)).take
            (piece.length - (garbage.length + 16)) := by
        have h1 : piece = (Spec.afterKey P D.2 garbage decoys version).take piece.length := by rw [ha, List.take_left]
        rw [Spec.afterKey, List.take_append, List.take_of_length_le (by rw [List.length_append, h16]; omega),
          List.length_append, h16] at h1
        exact h1
      have hj : Spec.JudgePackets docRules P D.2.1 D.2.2.1 0 garbage
          (Spec.packetStream P D.2.1 D.2.2.1 0 garbage (Spec.handshakeMessages decoys version) ++ [])
          (.complete (decoys.length + 1) []) := by
        have hlong : docRules.longest = 2 ^ 24 - 1 := rfl
        rw [Spec.handshakeMessages, stream_append, List.append_assoc]
        refine judge_decoys _ ?_ ?_
        · intro d hd'
          obtain ⟨x, hx, rfl⟩ := List.mem_map.1 hd'
          have := hd x hx
          exact ⟨rfl, by show x.length ≤ _; omega, this⟩
        · simp only [Spec.packetStream, List.append_nil, Nat.zero_add, List.length_map]
          have hvg := hadm.versionGenuine
          have := Spec.JudgePackets.version (r := docRules) (P := P) (kL := D.2.1) (kP := D.2.2.1) (n := decoys.length)
            (aad := if decoys = [] then garbage else []) (header := version.1) (contents := version.2) (rest := [])
            (by simpa [docRules] using hvg) (by omega) hv
          simpa using this
      have := C63_panic (prof := prof) hP hk (early := []) (unread := []) (last := piece) (g := garbage) (left := [])
        (k := piece.length - (garbage.length + 16)) (by simp; omega) hj
        (by
          rw [Spec.afterKey, List.length_append, List.length_append, h16] at hlen
          omega) hps hadm.garbageLength hadm.firstTerminator
        (by
          intro j ho
          have := OccursAt.le ho
          rw [h16, List.flatten_nil, List.length_nil] at this
          omega)
      rw [List.nil_append] at this
      rw [this]

theorem stream_bytes (hP : Lawful P) (kL kP : Bytes) (n : Nat) (aad : Bytes) (ms : List (UInt8 × Bytes)) :
    (Spec.packetStream P kL kP n aad ms).length = (ms.map fun m => m.2.length + 20).sum := by
  induction ms generalizing n aad with
  | nil => rfl
  | cons m ms ih =>
    simp only [Spec.packetStream, List.length_append, rawPacket_length hP, List.map_cons, List.sum_cons, ih]

theorem theirTerminator_length (hP : Lawful P) (magic es key sk : Bytes) :
    (Spec.directions P magic es key sk true).2.2.2.length = 16 := by
  have h := (peerKeys_directions (P := P) magic es key sk .initiator).2.2.1
  have h2 : ((peerKeys P magic es key sk .initiator).remoteTerminator .initiator).length = 16 :=
    peerKeys_terminators hP _ _ _ _ _ .responder
  rw [h] at h2
  exact h2

theorem afterKey_length (hP : Lawful P) {keys : Bytes × Bytes × Bytes} (h16 : keys.2.2.length = 16) (garbage : Bytes)
    (decoys : List Bytes) (version : UInt8 × Bytes) :
    (Spec.afterKey P keys garbage decoys version).length
      = garbage.length + 16 + (decoys.map fun d => d.length + 20).sum + (version.2.length + 20) := by
  rw [Spec.afterKey, List.length_append, List.length_append, h16, stream_bytes hP, Spec.handshakeMessages,
    List.map_append, List.sum_append, List.map_map]
  simp [Function.comp_def]
  omega

/-- C73: the buffer of `regtest_handshake` holds 4096 bytes.  The test fails with every conforming peer that sends more
than that after its key, whatever the network does; without decoys and with an empty version packet these are the peers
that send more than 4060 bytes of garbage, which BIP-324 allows up to 4095. -/
theorem C73_regtest_fails (hP : Lawful P) {magic rng key message : Bytes} {r r1 : Source} {w : Sink}
    (hu : Spec.UsableKey P prof rng) (hkey : Source.reader.readExact true r 64 = (r1, .ok key)) (hw : w.Reliable true)
    {garbage more : Bytes} {decoys : List Bytes} {version : UInt8 × Bytes}
    (hadm : Spec.Admissible magic (Spec.directions P magic (P.ellswift rng) key rng true).2.2.2 key garbage decoys version)
    (hsent : r1.bytes = Spec.afterKey P (Spec.directions P magic (P.ellswift rng) key rng true).2 garbage decoys
      version ++ more)
    (hlong : 4096 < garbage.length + 16 + (decoys.map fun d => d.length + 20).sum + (version.2.length + 20)) :
    regtestHandshake P prof magic rng message r w = none := by
  have h16 := theirTerminator_length hP magic (P.ellswift rng) key rng
  have hnone : regtestSession P prof magic rng r w = none := by
    rcases hread : Source.read r1 4096 with ⟨r2, x⟩
    cases x with
    | ok piece =>
      obtain ⟨h1, h2⟩ := Source.read_bytes _ _ hread
      have := C73_regtest_session (prof := prof) hP hu hkey hread hw hadm (later := r2.bytes) (h1.symm.trans hsent)
      rwa [if_neg (by rw [afterKey_length hP h16]; omega)] at this
    | err k =>
      cases hs : regtestSession P prof magic rng r w with
      | none => rfl
      | some x =>
        refine absurd hs ?_
        obtain ⟨w1, hw1, -, hr1⟩ := write_orPanic hw (P.ellswift rng)
        obtain ⟨w2, hw2, -, hr2⟩ := flush_orPanic hr1
        have hrk := receiveKey_eq hP magic .initiator rng (P.ellswift rng) none key
        rw [if_neg hadm.notV1] at hrk
        obtain ⟨o, vw, he, hat, hsv⟩ := sendVersion_plain (prof := prof) hP magic .initiator
          (peerKeys P magic (P.ellswift rng) key rng .initiator) (peerKeys_terminators hP _ _ _ _ _ _)
        obtain ⟨w3, hw3, -, hr3⟩ := write_orPanic hr2
          ((peerKeys P magic (P.ellswift rng) key rng .initiator).localTerminator .initiator ++ vw)
        obtain ⟨w4, hw4, -⟩ := flush_orPanic hr3
        unfold regtestSession
        simp only [newWithRng_ok hu, plain_sendKey hP, Outcome.orPanic, Option.bind_eq_bind, Option.bind_some, hw1, hw2,
          readOrPanic, hkey, hrk, hsv, hw3, hw4, readOnce, hread, Option.bind_none]
        exact fun h => by cases h
  unfold regtestHandshake
  rw [hnone]
  rfl

/-- C73: what the test returns if the one read has returned exactly the handshake.  It is the contents of the next packet
of the peer, whatever its header says: if that is a decoy, the test takes it for the answer. -/
theorem C73_regtest_answer (hP : Lawful P) {magic rng key piece message : Bytes} {r r1 r2 : Source} {w : Sink}
    (hu : Spec.UsableKey P prof rng) (hkey : Source.reader.readExact true r 64 = (r1, .ok key))
    (hread : Source.read r1 4096 = (r2, .ok piece)) (hw : w.Reliable true)
    {garbage more contents : Bytes} {decoys : List Bytes} {version : UInt8 × Bytes} {header : UInt8} {tail : Source}
    {k : ErrorKind}
    (hadm : Spec.Admissible magic (Spec.directions P magic (P.ellswift rng) key rng true).2.2.2 key garbage decoys version)
    (hpiece : piece = Spec.afterKey P (Spec.directions P magic (P.ellswift rng) key rng true).2 garbage decoys version)
    (hend : EndsWith true tail k)
    (hrest : Streams true r2 (Spec.rawPacket P (Spec.directions P magic (P.ellswift rng) key rng true).2.1
      (Spec.directions P magic (P.ellswift rng) key rng true).2.2.1 (decoys.length + 1) header [] contents ++ more) tail)
    (hc : contents.length < 2 ^ 24) (hn : decoys.length + 2 < 2 ^ 32) :
    ∃ w', regtestHandshake P prof magic rng message r w = some (contents, w') ∧
      w'.out = w.out ++ Spec.ownTranscript P (Spec.directions P magic (P.ellswift rng) key rng true).1 (P.ellswift rng)
        [] [] ++ Spec.packet P (Spec.directions P magic (P.ellswift rng) key rng true).1.1
          (Spec.directions P magic (P.ellswift rng) key rng true).1.2.1 1 false [] message := by
  have hs := C73_regtest_session (prof := prof) hP hu hkey hread hw hadm (later := []) (more := []) (by rw [hpiece])
  rw [if_pos (by rw [hpiece])] at hs
  obtain ⟨c, w1, hs, hr1, ho1, hi, ho⟩ := hs
  generalize Spec.directions P magic (P.ellswift rng) key rng true = D at *
  obtain ⟨o2, -, he⟩ := OutboundCipher.At.encryptToVec (prof := prof) hP ho (by decide) message .genuine none
  obtain ⟨w2, hw2, ho2, -⟩ := write_orPanic hr1
    (Spec.packet P D.1.1 D.1.2.1 1 (PacketType.genuine == .decoy) ((none : Option Bytes).getD []) message)
  have hpl := rawPacket_length hP D.2.1 D.2.2.1 (decoys.length + 1) header [] contents
  obtain ⟨r3, hr3, hst3⟩ := (readExact_streams (retry := true) (fun _ => rfl) hend hrest 3 []).1
    (by rw [List.length_append]; omega)
  have hmask : (Spec.xor (Spec.le 3 contents.length) (Spec.lengthMask P D.2.1 (decoys.length + 1))).length = 3 := by
    rw [spec_xor, xorBytes_length, lengthMask_length, spec_le, leBytes_length]; rfl
  have hsl := sealedPart_length hP D.2.2.1 (decoys.length + 1) header [] contents
  rw [rawPacket_eq, List.append_assoc] at hr3 hst3
  rw [List.nil_append, List.take_left' hmask] at hr3
  rw [List.drop_left' hmask] at hst3
  obtain ⟨i1, hdl, hh⟩ := decryptPacketLen_exact (prof := prof) hi (by omega) contents.length hc
  obtain ⟨r4, hr4, -⟩ := (readExact_streams (retry := true) (fun _ => rfl) hend hst3 (contents.length + 17) []).1
    (by rw [List.length_append, hsl]; omega)
  rw [List.nil_append, List.take_left' hsl] at hr4
  have hdec : ∃ i2 buf, i1.decrypt P prof (Spec.sealedPart P D.2.2.1 (decoys.length + 1) header [] contents)
      (zeros (contents.length + 1)) none = (i2, header :: contents, .ok buf) := by
    rcases decrypt_at (prof := prof) hP hh.2 (by omega)
      (Spec.sealedPart P D.2.2.1 (decoys.length + 1) header [] contents) (zeros (contents.length + 1)) none
      (by omega) (by simp [zeros]; omega) with ⟨h', c', i2, e1, -, -, e2⟩ | ⟨hno, -⟩
    · obtain ⟨rfl, rfl⟩ := sealedPart_inj hP e1
      exact ⟨_, _, e2⟩
    · exact absurd rfl (hno header contents)
  obtain ⟨i2, buf, hdec⟩ := hdec
  refine ⟨w2, ?_, by rw [ho2, ho1]; rfl⟩
  unfold regtestHandshake
  simp only [hs, Option.bind_eq_bind, Option.bind_some, encrypt_of_toVec he, Outcome.orPanic, hw2, readOrPanic,
    NUM_LENGTH_BYTES, hr3, hdl, hr4, hsl, bufferLen_eq, hdec, List.drop_succ_cons, List.drop_zero]

theorem writeOrPanic_some {w w' : Sink} {b : Bytes} (h : writeOrPanic w b = some w') :
    w'.out = w.out ++ b ∧ w'.flushes = w.flushes := by
  unfold writeOrPanic Sink.writeAll at h
  have hg := (writeAllGo_taken true w.script b).2
  rcases hx : writeAllGo true w.script b with ⟨s', taken, r⟩
  rw [hx] at h hg
  cases r with
  | error k => simp at h
  | ok u =>
    simp only [Option.some.injEq] at h
    subst h
    have hb : taken = b := hg rfl
    exact ⟨by rw [hb], rfl⟩

theorem writeOrPanic_open (o b : Bytes) : writeOrPanic ⟨[], [], o⟩ b = some ⟨[], [], o ++ b⟩ := by
  unfold writeOrPanic Sink.writeAll
  cases b <;> rfl

theorem flushOrPanic_some {w w' : Sink} (h : flushOrPanic w = some w') :
    w'.out = w.out ∧ (∀ f ∈ w.flushes.take 1, f = none) ∧ w'.flushes = w.flushes.drop 1 := by
  obtain ⟨s, fl, o⟩ := w
  unfold flushOrPanic Sink.flush at h
  match fl with
  | [] => simp only [Option.some.injEq] at h; subst h; simp
  | none :: fs => simp only [Option.some.injEq] at h; subst h; simp
  | some k :: fs => simp at h

theorem flushOrPanic_open (o : Bytes) : flushOrPanic ⟨[], [], o⟩ = some ⟨[], [], o⟩ := rfl

/-- C73: `regtest_handshake` against any peer and with any writer: the test passes only if the writer has taken all that a writer takes
that never fails, with the same answer of the peer; and the two flushes have not failed. -/
theorem C73_regtest_writer {magic rng message answer : Bytes} {r : Source} {w w' : Sink}
    (h : regtestHandshake P prof magic rng message r w = some (answer, w')) :
    regtestHandshake P prof magic rng message r ⟨[], [], w.out⟩ = some (answer, ⟨[], [], w'.out⟩) ∧
      (∀ f ∈ w.flushes.take 2, f = none) ∧ w'.flushes = w.flushes.drop 2 := by
  unfold regtestHandshake at h ⊢
  obtain ⟨⟨c, r1, w1⟩, e1, h⟩ := Option.bind_eq_some_iff.1 h
  obtain ⟨_, e2, h⟩ := Option.bind_eq_some_iff.1 h
  obtain ⟨w2, e3, h⟩ := Option.bind_eq_some_iff.1 h
  obtain ⟨⟨r3, l⟩, e4, h⟩ := Option.bind_eq_some_iff.1 h
  obtain ⟨n, e5, h⟩ := Option.bind_eq_some_iff.1 h
  obtain ⟨⟨r4, m⟩, e6, h⟩ := Option.bind_eq_some_iff.1 h
  obtain ⟨b, e7, h⟩ := Option.bind_eq_some_iff.1 h
  obtain ⟨_, e8, h⟩ := Option.bind_eq_some_iff.1 h
  simp only [Option.some.injEq, Prod.mk.injEq] at h
  obtain ⟨h1, rfl⟩ := h
  have hs : regtestSession P prof magic rng r ⟨[], [], w.out⟩ = some (c, r1, ⟨[], [], w1.out⟩) ∧
      (∀ f ∈ w.flushes.take 2, f = none) ∧ w1.flushes = w.flushes.drop 2 := by
    unfold regtestSession at e1 ⊢
    obtain ⟨hi, d1, e1⟩ := Option.bind_eq_some_iff.1 e1
    obtain ⟨hk, d2, e1⟩ := Option.bind_eq_some_iff.1 e1
    obtain ⟨v1, d3, e1⟩ := Option.bind_eq_some_iff.1 e1
    obtain ⟨v2, d4, e1⟩ := Option.bind_eq_some_iff.1 e1
    obtain ⟨⟨q, key⟩, d5, e1⟩ := Option.bind_eq_some_iff.1 e1
    obtain ⟨hr, d6, e1⟩ := Option.bind_eq_some_iff.1 e1
    obtain ⟨hv, d7, e1⟩ := Option.bind_eq_some_iff.1 e1
    obtain ⟨v3, d8, e1⟩ := Option.bind_eq_some_iff.1 e1
    obtain ⟨v4, d9, e1⟩ := Option.bind_eq_some_iff.1 e1
    obtain ⟨⟨q2, resp⟩, d10, e1⟩ := Option.bind_eq_some_iff.1 e1
    obtain ⟨g, d11, e1⟩ := Option.bind_eq_some_iff.1 e1
    obtain ⟨⟨hg, n2⟩, d12, e1⟩ := Option.bind_eq_some_iff.1 e1
    obtain ⟨_, d13, e1⟩ := Option.bind_eq_some_iff.1 e1
    obtain ⟨⟨c2, n3⟩, d14, e1⟩ := Option.bind_eq_some_iff.1 e1
    simp only [Option.some.injEq, Prod.mk.injEq] at e1
    obtain ⟨rfl, rfl, rfl⟩ := e1
    obtain ⟨a1, b1⟩ := writeOrPanic_some d3
    obtain ⟨a2, b2, b2'⟩ := flushOrPanic_some d4
    obtain ⟨a3, b3⟩ := writeOrPanic_some d8
    obtain ⟨a4, b4, b4'⟩ := flushOrPanic_some d9
    refine ⟨?_, ?_, ?_⟩
    · simp only [Option.bind_eq_bind, d1, d2, d5, d6, d7, d10, d11, d12, d13, d14, Option.bind_some, writeOrPanic_open,
        flushOrPanic_open, a1, a2, a3, a4]
    · rw [b3, b2', b1] at b4
      rw [b1] at b2
      intro f hf
      rcases hl : w.flushes with _ | ⟨x, _ | ⟨y, zs⟩⟩ <;> rw [hl] at hf b2 b4 <;> simp at hf b2 b4
      · exact hf ▸ b2
      · rcases hf with rfl | rfl
        · exact b2
        · exact b4
    · rw [b4', b3, b2', b1, List.drop_drop]
  obtain ⟨a, b⟩ := writeOrPanic_some e3
  refine ⟨?_, hs.2.1, by rw [b, hs.2.2]⟩
  simp only [Option.bind_eq_bind, hs.1, e2, e4, e5, e6, e7, e8, Option.bind_some, writeOrPanic_open, a, h1]

/-- C73: what the one read has returned beyond the handshake is lost: the test then needs another complete packet. -/
theorem C73_regtest_lost (hP : Lawful P) {magic rng key piece message : Bytes} {r r1 r2 : Source} {w : Sink}
    (hu : Spec.UsableKey P prof rng) (hkey : Source.reader.readExact true r 64 = (r1, .ok key))
    (hread : Source.read r1 4096 = (r2, .ok piece)) (hw : w.Reliable true)
    {garbage later more : Bytes} {decoys : List Bytes} {version : UInt8 × Bytes} (hn : decoys.length + 2 < 2 ^ 32)
    (hadm : Spec.Admissible magic (Spec.directions P magic (P.ellswift rng) key rng true).2.2.2 key garbage decoys version)
    (hsent : piece ++ later = Spec.afterKey P (Spec.directions P magic (P.ellswift rng) key rng true).2 garbage decoys
      version ++ more) (hrest : r2.bytes.length < 20) :
    regtestHandshake P prof magic rng message r w = none := by
  have hs := C73_regtest_session (prof := prof) hP hu hkey hread hw hadm hsent
  split at hs
  · obtain ⟨c, w1, hs, hr1, -, hi, -⟩ := hs
    cases hx : regtestHandshake P prof magic rng message r w with
    | none => rfl
    | some x =>
      exfalso
      unfold regtestHandshake at hx
      obtain ⟨⟨c', r', w'⟩, e1, hx⟩ := Option.bind_eq_some_iff.1 hx
      rw [hs] at e1
      cases e1
      obtain ⟨u, -, hx⟩ := Option.bind_eq_some_iff.1 hx
      obtain ⟨w2, -, hx⟩ := Option.bind_eq_some_iff.1 hx
      obtain ⟨⟨r3, lb⟩, e2, hx⟩ := Option.bind_eq_some_iff.1 hx
      obtain ⟨l, e3, hx⟩ := Option.bind_eq_some_iff.1 hx
      obtain ⟨⟨r4, ct⟩, e4, -⟩ := Option.bind_eq_some_iff.1 hx
      have inv : ∀ {s s' : Source} {n : Nat} {bs : Bytes}, readOrPanic s n = some (s', bs) →
          bs.length = n ∧ s.bytes = bs ++ s'.bytes := by
        intro s s' n bs h
        unfold readOrPanic at h
        split at h
        · rename_i heq
          cases h
          exact (readExact_bytes true s n [] heq).ok
        · cases h
      obtain ⟨l1, b1⟩ := inv e2
      obtain ⟨l2, b2⟩ := inv e4
      obtain ⟨i', l', -, hd, -⟩ := decryptPacketLen_at (prof := prof) hi (by omega) lb l1
      rw [hd] at e3
      cases e3
      have h1 := congrArg List.length b1
      have h2 := congrArg List.length b2
      rw [List.length_append] at h1 h2
      have : NUM_LENGTH_BYTES = 3 := rfl
      omega
  · unfold regtestHandshake
    rw [hs]
    rfl

/-! ## Examples -/

/-- Two usable keys. -/
example : PairKeys toy .debug [1, 2, 3, 4] (leBytes 32 77) (leBytes 32 99) :=
  ⟨by decide +kernel, by decide +kernel, by decide +kernel, by decide +kernel⟩

/-- Beside `C73_no_decoy`. -/
example : (let o : OutboundCipher := ⟨FSStream.new (leBytes 32 77), FSAead.new (leBytes 32 99)⟩
    let h : HsSentVersion := ⟨[1, 2, 3, 4], .initiator, ⟨[], ⟨FSStream.new (leBytes 32 77), FSAead.new (leBytes 32 99)⟩, o⟩, leBytes 16 9⟩
    (match o.encryptToVec toy .debug [5, 6] .decoy none with
      | (o1, .ok w) => (match o1.encryptToVec toy .debug [] .genuine none, h.receiveGarbage (leBytes 16 9 ++ w) with
        | (_, .ok v), .ok (.foundGarbage g 16) => takeVersion toy .debug g (leBytes 16 9 ++ (w ++ v)) 16 == none
        | _, _ => false)
      | _ => false) &&
    (match o.encryptToVec toy .debug [5, 6] .genuine none, h.receiveGarbage (leBytes 16 9) with
      | (_, .ok w), .ok (.foundGarbage g 16) => (takeVersion toy .debug g (leBytes 16 9 ++ w) 16).isSome
      | _, _ => false)) = true := by decide +kernel

/-- The test passes with them; with a magic with which a public key begins it fails. -/
example : helloWorld toy .debug [1, 2, 3, 4] (leBytes 32 77) (leBytes 32 99) [72, 101] [71] = some () ∧
    helloWorld toy .debug ((toy.ellswift (leBytes 32 99)).take 4) (leBytes 32 77) (leBytes 32 99) [72, 101] [71] = none := by
  decide +kernel

example : benchmark toy .debug [1, 2, 3, 4] (leBytes 32 77) (leBytes 32 99) [7, 8, 9] 3
    = some [[0, 7, 8, 9], [0, 7, 8, 9], [0, 7, 8, 9]] := by
  decide +kernel

/-- The keys of the direction towards the test, and what a peer sends after its key: two bytes of garbage, the terminator,
a decoy, the version. -/
def regtestKeys : Bytes × Bytes × Bytes :=
  (Spec.directions toy [1, 2, 3, 4] (toy.ellswift (leBytes 32 77)) (toy.ellswift (leBytes 32 99)) (leBytes 32 77) true).2

def regtestSample (garbage : Bytes) : Bytes := Spec.afterKey toy regtestKeys garbage [[1, 2, 3]] (0, [])

/-- The next packet of the peer. -/
def regtestNext (header : UInt8) : Bytes := Spec.rawPacket toy regtestKeys.1 regtestKeys.2.1 2 header [] [5, 6]

/-- A stream with the key of the peer, and then these pieces. -/
def regtestStream (pieces : List Bytes) : Source := .data (toy.ellswift (leBytes 32 99)) :: pieces.map .data

/-- The peer is one that conforms to the specification. -/
example : Spec.Admissible [1, 2, 3, 4] regtestKeys.2.2 (toy.ellswift (leBytes 32 99)) [9, 8] [[1, 2, 3]] (0, []) where
  keyLength := by decide +kernel
  notV1 := by decide +kernel
  garbageLength := by decide
  firstTerminator := by
    refine noEarly_of_head (b := regtestKeys.2.2.headD 0) ?_ ?_
    · decide +kernel
    · decide +kernel
  decoyLength := by decide
  versionLength := by decide
  versionGenuine := by decide

/-- The handshake in one piece: the answer; also if the answer is a decoy.  In two pieces: failure.  With the answer in the
same piece: failure. -/
example :
    (regtestHandshake toy .debug [1, 2, 3, 4] (leBytes 32 77) [1] (regtestStream [regtestSample [9, 8], regtestNext 0])
      ⟨[], [], []⟩).map (·.1) = some [5, 6] ∧
    (regtestHandshake toy .debug [1, 2, 3, 4] (leBytes 32 77) [1] (regtestStream [regtestSample [9, 8], regtestNext 0x80])
      ⟨[], [], []⟩).map (·.1) = some [5, 6] ∧
    (regtestHandshake toy .debug [1, 2, 3, 4] (leBytes 32 77) [1]
      (regtestStream [(regtestSample [9, 8]).take 40, (regtestSample [9, 8]).drop 40, regtestNext 0])
      ⟨[], [], []⟩).map (·.1) = none ∧
    (regtestHandshake toy .debug [1, 2, 3, 4] (leBytes 32 77) [1] (regtestStream [regtestSample [9, 8] ++ regtestNext 0])
      ⟨[], [], []⟩).map (·.1) = none := by
  decide +kernel

/-- A peer that sends 4061 bytes of garbage and no decoy: more than the test can hold. -/
example : 4096 < (List.replicate 4061 (7 : UInt8)).length + 16 + (([] : List Bytes).map fun d => d.length + 20).sum +
    (([] : Bytes).length + 20) ∧ (List.replicate 4061 (7 : UInt8)).length ≤ 4095 := by
  rw [List.length_replicate]
  decide

/-- Beside `C73_regtest_writer`: a writer that takes little at a time, and three that fail: at the key, at the second flush, at the last
message. -/
example :
    let run w := regtestHandshake toy .debug [1, 2, 3, 4] (leBytes 32 77) [1] (regtestStream [regtestSample [9, 8], regtestNext 0]) w
    (run ⟨[.accept 5, .fail .interrupted, .accept 60], [none, none, some .brokenPipe], []⟩).map (·.1) = some [5, 6] ∧
    run ⟨[.accept 5, .fail .brokenPipe], [], []⟩ = none ∧ run ⟨[], [none, some .brokenPipe], []⟩ = none ∧
    run ⟨[.accept 64, .accept 36, .fail .brokenPipe], [], []⟩ = none := by
  decide +kernel

end Bip324
