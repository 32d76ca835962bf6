import Verif.Lemmas.Handshake
import Verif.Spec.Toy

/-!
# Properties of the handshake: C16 - C24
-/

namespace Bip324

variable {P : Prims} {prof : Profile}

/-! ## C17: session key derivation -/

/-- C17: derivation never fails and every field is the BIP-324 HKDF expansion; the two garbage
terminators are the two halves of one expansion. -/
theorem C17_derivation (hP : Lawful P) (a b sk magic : Bytes) (initiating : Bool) :
    SessionKeyMaterial.fromEcdh P a b sk (if initiating then .A else .B) magic = .ok
      (let secret := Spec.ecdhSecret P a b sk initiating
       { sessionId := Spec.expand P magic secret Spec.lblSessionId
         initiatorLengthKey := Spec.expand P magic secret Spec.lblInitiatorL
         initiatorPacketKey := Spec.expand P magic secret Spec.lblInitiatorP
         responderLengthKey := Spec.expand P magic secret Spec.lblResponderL
         responderPacketKey := Spec.expand P magic secret Spec.lblResponderP
         initiatorGarbageTerminator := (Spec.expand P magic secret Spec.lblTerminators).take 16
         responderGarbageTerminator := (Spec.expand P magic secret Spec.lblTerminators).drop 16 }) := by
  have l0 : ascii "bip324_ellswift_xonly_ecdh" = Spec.ecdhTag := by decide +kernel
  have l1 : ascii "bitcoin_v2_shared_secret" = Spec.saltPrefix := by decide +kernel
  have l2 : ascii "session_id" = Spec.lblSessionId := by decide +kernel
  have l3 : ascii "initiator_L" = Spec.lblInitiatorL := by decide +kernel
  have l4 : ascii "initiator_P" = Spec.lblInitiatorP := by decide +kernel
  have l5 : ascii "responder_L" = Spec.lblResponderL := by decide +kernel
  have l6 : ascii "responder_P" = Spec.lblResponderP := by decide +kernel
  have l7 : ascii "garbage_terminators" = Spec.lblTerminators := by decide +kernel
  have hk : ∀ s i l, P.hkdf s i l 32 = some ((P.hkdf s i l 32).getD []) := by
    intro s i l
    obtain ⟨out, h, -⟩ := hP.hkdf_ok s i l 32 (by decide)
    rw [h]; rfl
  simp only [SessionKeyMaterial.fromEcdh, l0, l1, l2, l3, l4, l5, l6, l7]
  rw [hk _ _ Spec.lblSessionId, hk _ _ Spec.lblInitiatorL, hk _ _ Spec.lblInitiatorP,
    hk _ _ Spec.lblResponderL, hk _ _ Spec.lblResponderP, hk _ _ Spec.lblTerminators]
  rfl

/-- Lengths of the derived material: 32-byte keys and id, 16-byte terminators. -/
theorem C17_lengths (hP : Lawful P) {a b sk magic : Bytes} {party : Party} {k : SessionKeyMaterial}
    (h : SessionKeyMaterial.fromEcdh P a b sk party magic = .ok k) :
    k.sessionId.length = 32 ∧ k.initiatorLengthKey.length = 32 ∧ k.initiatorPacketKey.length = 32 ∧
    k.responderLengthKey.length = 32 ∧ k.responderPacketKey.length = 32 ∧
    k.initiatorGarbageTerminator.length = 16 ∧ k.responderGarbageTerminator.length = 16 := by
  have hl : ∀ s l, (Spec.expand P magic s l).length = 32 := by
    intro s l
    obtain ⟨out, h, hlen⟩ := hP.hkdf_ok (Spec.saltPrefix ++ magic) s l 32 (by decide)
    rw [Spec.expand, h]; exact hlen
  cases party with
  | A =>
    have hd := C17_derivation hP a b sk magic true
    rw [if_pos rfl, h, Outcome.ok.injEq] at hd
    subst hd
    simp [hl]
  | B =>
    have hd := C17_derivation hP a b sk magic false
    rw [if_neg (by decide), h, Outcome.ok.injEq] at hd
    subst hd
    simp [hl]

/-- C17, roles: the initiator sends with the initiator keys and receives with the responder keys,
the responder the other way round; both start at message number 0. -/
theorem C17_roles (k : SessionKeyMaterial) :
    let i := CipherSession.new k .initiator
    let r := CipherSession.new k .responder
    i.id = k.sessionId ∧ r.id = k.sessionId ∧
    (i.outbound.lengthCipher = ⟨k.initiatorLengthKey, 0, 0⟩ ∧
      i.outbound.packetCipher = ⟨k.initiatorPacketKey, 0⟩) ∧
    (i.inbound.lengthCipher = ⟨k.responderLengthKey, 0, 0⟩ ∧
      i.inbound.packetCipher = ⟨k.responderPacketKey, 0⟩) ∧
    (r.outbound.lengthCipher = ⟨k.responderLengthKey, 0, 0⟩ ∧
      r.outbound.packetCipher = ⟨k.responderPacketKey, 0⟩) ∧
    (r.inbound.lengthCipher = ⟨k.initiatorLengthKey, 0, 0⟩ ∧
      r.inbound.packetCipher = ⟨k.initiatorPacketKey, 0⟩) := by
  simp [CipherSession.new, FSStream.new, FSAead.new]

/-! ## C18: send_key -/

/-- C18: the complete contract of `send_key`. -/
theorem C18_send_key (h : HsInitialized) (hk : h.ellswift.length = 64) (garbage : Option Bytes)
    (buf : Bytes) :
    h.sendKey garbage buf =
      let g := garbage.getD []
      if 4095 < g.length then (buf, .err .tooMuchGarbage)
      else if buf.length < 64 + g.length then (buf, .err (.bufferTooSmall (64 + g.length)))
      else (h.ellswift ++ g ++ buf.drop (64 + g.length),
            .ok { magic := h.magic, role := h.role, secretKey := h.secretKey,
                  ellswift := h.ellswift, localGarbage := garbage }) := by
  cases garbage with
  | none =>
    unfold HsInitialized.sendKey
    have hl : HsInitialized.sendKeyLen none = 64 := rfl
    rw [hl]
    simp only [Option.any_none, Bool.false_eq_true, if_false,
      Option.getD_none, List.length_nil, Nat.not_lt_zero, Nat.add_zero]
    by_cases hb : buf.length < 64
    · rw [if_pos hb, if_pos hb]
    · rw [if_neg hb, if_neg hb]
      obtain ⟨b1, b2, b3, hb', h1, h2, h3⟩ := split3 (buf := buf) (i := 0) (n := 64)
        (by omega)
      have : b1 = [] := List.length_eq_zero_iff.mp h1
      subst this
      have hw := writeAt_split (pre := []) (mid := b2) (post := b3) (i := 0) (src := h.ellswift) rfl
        (by omega)
      rw [← hb'] at hw
      rw [hw]
      simp [h3]
  | some g =>
    unfold HsInitialized.sendKey
    have hl : HsInitialized.sendKeyLen (some g) = 64 + g.length := rfl
    rw [hl]
    simp only [Option.any_some, decide_eq_true_eq, Option.getD_some, MAX_NUM_GARBAGE_BYTES,
      NUM_ELLIGATOR_SWIFT_BYTES]
    by_cases hg : 4095 < g.length
    · rw [if_pos hg, if_pos hg]
    · rw [if_neg hg, if_neg hg]
      by_cases hb : buf.length < 64 + g.length
      · rw [if_pos hb, if_pos hb]
      · rw [if_neg hb, if_neg hb]
        obtain ⟨b2, b3, b4, hb', h1, h2, h3⟩ := split3 (buf := buf) (i := 64) (n := g.length) (by omega)
        have hw := writeAt_split (pre := []) (mid := b2) (post := b3 ++ b4) (i := 0)
          (src := h.ellswift) rfl (by omega)
        rw [List.nil_append, List.nil_append, ← hb'] at hw
        rw [hw, writeAt_split (by omega) h2.symm, h3]
        simp

/-- The hypothesis of C18 holds for every handshake that can be constructed. -/
theorem C18_key_length (hP : Lawful P) {magic rng : Bytes} {role : Role} {h : HsInitialized}
    (hn : HsInitialized.newWithRng P prof magic role rng = .ok h) : h.ellswift.length = 64 := by
  unfold HsInitialized.newWithRng at hn
  split at hn
  · cases hn
  · split at hn
    · simp only [Outcome.ok.injEq] at hn
      subst hn
      exact hP.ellswift_length _
    · cases hn

example : ∃ h, HsInitialized.newWithRng toy .debug [1, 2, 3, 4] .initiator (leBytes 32 77) = .ok h ∧
    (h.sendKey (some [9, 9]) (zeros 70)).2 ≠ .panic := by
  exact ⟨⟨[1, 2, 3, 4], .initiator, leBytes 32 77, toy.ellswift (leBytes 32 77)⟩, by decide +kernel,
    by decide +kernel⟩

/-! ## C19: V1 detection -/

/-- C19: `receive_key` fails exactly on the network magic, and otherwise succeeds keeping role,
magic and garbage; it never panics. -/
theorem C19_v1_iff (hP : Lawful P) (h : HsSentKey) (theirKey : Bytes) :
    (theirKey.take 4 = h.magic ∧ h.receiveKey P theirKey = .err .v1Protocol) ∨
    (theirKey.take 4 ≠ h.magic ∧ ∃ r, h.receiveKey P theirKey = .ok r ∧ r.magic = h.magic ∧
      r.role = h.role ∧ r.localGarbage = h.localGarbage) := by
  by_cases hm : theirKey.take 4 = h.magic
  · exact .inl ⟨hm, by simp [HsSentKey.receiveKey, hm]⟩
  · refine .inr ⟨hm, ?_⟩
    unfold HsSentKey.receiveKey
    simp only
    rw [if_neg (fun e => hm e.symm)]
    cases h.role with
    | initiator =>
      simp only
      rw [show Party.A = (if true then Party.A else Party.B) from rfl, C17_derivation hP]
      exact ⟨_, rfl, rfl, rfl, rfl⟩
    | responder =>
      simp only
      rw [show Party.B = (if false then Party.A else Party.B) from rfl, C17_derivation hP]
      exact ⟨_, rfl, rfl, rfl, rfl⟩

/-- C19/C17: the keys `receive_key` computes are derived from (initiator key, responder key) in
that order for both roles. -/
theorem C17_receive_key (h : HsSentKey) {theirKey : Bytes} {r : HsReceivedKey}
    (hr : h.receiveKey P theirKey = .ok r) :
    (h.role = .initiator →
      SessionKeyMaterial.fromEcdh P h.ellswift theirKey h.secretKey .A h.magic = .ok r.sessionKeys) ∧
    (h.role = .responder →
      SessionKeyMaterial.fromEcdh P theirKey h.ellswift h.secretKey .B h.magic = .ok r.sessionKeys) := by
  unfold HsSentKey.receiveKey at hr
  simp only at hr
  split at hr
  · cases hr
  · constructor
    · intro hrole
      rw [hrole] at hr
      simp only at hr
      split at hr
      · rename_i k hk; simp only [Outcome.ok.injEq] at hr; subst hr; exact hk
      · cases hr
      · cases hr
    · intro hrole
      rw [hrole] at hr
      simp only at hr
      split at hr
      · rename_i k hk; simp only [Outcome.ok.injEq] at hr; subst hr; exact hk
      · cases hr
      · cases hr

example : (HsSentKey.receiveKey toy ⟨[1, 2, 3, 4], .initiator, leBytes 32 7, zeros 64, none⟩
    ([1, 2, 3, 4] ++ zeros 60)) = .err .v1Protocol := by decide +kernel

/-! ## C20: send_version -/

/-- C20: `send_version` with a short buffer. -/
theorem C20_small (h : HsReceivedKey) (buf : Bytes) (decoys : Option (List Bytes))
    (hb : buf.length < 16 + 20 + ((decoys.getD []).map fun d => d.length + 20).sum) :
    h.sendVersion P prof buf decoys = (buf, .err (.bufferTooSmall
      (16 + 20 + ((decoys.getD []).map fun d => d.length + 20).sum))) := by
  have e : HsReceivedKey.sendVersionLen decoys
      = 16 + 20 + ((decoys.getD []).map fun d => d.length + 20).sum := by
    rw [sendVersionLen_eq, packetsLen_eq]; omega
  rw [sendVersion_small h buf decoys (by rw [e]; exact hb), e]

/-- C20: `send_version` with a long enough buffer writes the local terminator, one decoy packet
per decoy and the version packet, all as BIP-324 specifies them, with the garbage authenticated by
the first packet only, and leaves the rest of the buffer unchanged. -/
theorem C20_layout (hP : Lawful P) (h : HsReceivedKey) (buf : Bytes) (decoys : Option (List Bytes))
    (hterm : (h.sessionKeys.localTerminator h.role).length = 16)
    (hn : (decoys.getD []).length + 1 < 2 ^ 32)
    (hb : 16 + 20 + ((decoys.getD []).map fun d => d.length + 20).sum ≤ buf.length) :
    ∃ o', h.sendVersion P prof buf decoys =
      ((match h.role with
        | .initiator => Spec.versionBytes P h.sessionKeys.initiatorGarbageTerminator
            h.sessionKeys.initiatorLengthKey h.sessionKeys.initiatorPacketKey
            (h.localGarbage.getD []) (decoys.getD [])
        | .responder => Spec.versionBytes P h.sessionKeys.responderGarbageTerminator
            h.sessionKeys.responderLengthKey h.sessionKeys.responderPacketKey
            (h.localGarbage.getD []) (decoys.getD [])) ++
        buf.drop (16 + 20 + ((decoys.getD []).map fun d => d.length + 20).sum),
      .ok { magic := h.magic, role := h.role
            cipher := { CipherSession.new h.sessionKeys h.role with outbound := o' }
            remoteTerminator := match h.role with
              | .initiator => h.sessionKeys.responderGarbageTerminator
              | .responder => h.sessionKeys.initiatorGarbageTerminator }) := by
  obtain ⟨o', ws, hs, hw⟩ := sendAll_handshake (prof := prof) hP h.sessionKeys h.role h.localGarbage
    (decoys.getD []) hn
  refine ⟨o', ?_⟩
  have hl : 16 + packetsLen (decoys.getD [])
      = 16 + 20 + ((decoys.getD []).map fun d => d.length + 20).sum := by rw [packetsLen_eq]; omega
  rw [sendVersion_eq hP h buf decoys (by rw [hl]; exact hb) hterm hs, hw, hl]
  cases h.role <;> rfl

/-- C17, terminators: `send_version` of the initiator sends the initiator's terminator and then waits for the
responder's, and keeps the session of its role; the responder the other way round. -/
theorem C17_terminators (hP : Lawful P) (h : HsReceivedKey) (buf : Bytes) (decoys : Option (List Bytes))
    (hterm : h.sessionKeys.initiatorGarbageTerminator.length = 16 ∧
      h.sessionKeys.responderGarbageTerminator.length = 16)
    (hn : (decoys.getD []).length + 1 < 2 ^ 32)
    (hb : 16 + 20 + ((decoys.getD []).map fun d => d.length + 20).sum ≤ buf.length) :
    ∃ buf' s, h.sendVersion P prof buf decoys = (buf', .ok s) ∧
      s.cipher.id = h.sessionKeys.sessionId ∧
      (h.role = .initiator →
        buf'.take 16 = h.sessionKeys.initiatorGarbageTerminator ∧
        s.remoteTerminator = h.sessionKeys.responderGarbageTerminator ∧
        s.cipher.inbound = ⟨⟨h.sessionKeys.responderLengthKey, 0, 0⟩, ⟨h.sessionKeys.responderPacketKey, 0⟩⟩) ∧
      (h.role = .responder →
        buf'.take 16 = h.sessionKeys.responderGarbageTerminator ∧
        s.remoteTerminator = h.sessionKeys.initiatorGarbageTerminator ∧
        s.cipher.inbound = ⟨⟨h.sessionKeys.initiatorLengthKey, 0, 0⟩, ⟨h.sessionKeys.initiatorPacketKey, 0⟩⟩) := by
  obtain ⟨o', he⟩ := C20_layout (prof := prof) hP h buf decoys (by cases h.role <;> simp [SessionKeyMaterial.localTerminator, hterm]) hn hb
  refine ⟨_, _, he, ?_, ?_, ?_⟩
  · cases h.role <;> rfl
  · intro hr
    simp only [hr]
    refine ⟨?_, trivial, rfl⟩
    unfold Spec.versionBytes
    rw [List.append_assoc]
    exact List.take_left' hterm.1
  · intro hr
    simp only [hr]
    refine ⟨?_, trivial, rfl⟩
    unfold Spec.versionBytes
    rw [List.append_assoc]
    exact List.take_left' hterm.2

/-- C20: the version bytes have exactly the announced length. -/
theorem C20_exact_length (hP : Lawful P) (k : SessionKeyMaterial) (r : Role) (g : Option Bytes)
    (ds : List Bytes) (hterm : (k.localTerminator r).length = 16) (hn : ds.length + 1 < 2 ^ 32) :
    (Spec.versionBytes P (k.localTerminator r) (k.sendKeys r).1 (k.sendKeys r).2 (g.getD []) ds).length
      = 16 + 20 + (ds.map fun d => d.length + 20).sum := by
  obtain ⟨o', ws, hs, hw⟩ := sendAll_handshake (prof := .release) hP k r g ds hn
  obtain ⟨-, -, -, -, -, -, hlen⟩ := writeDecoys_version hP ds (pre := []) (mid := zeros (packetsLen ds))
    (post := []) (off := 0) rfl (by simp) hs
  rw [← hw, List.length_append, hterm, hlen, packetsLen_eq]
  omega

example : ∃ (k : SessionKeyMaterial), SessionKeyMaterial.fromEcdh toy (zeros 64) (zeros 64)
      (leBytes 32 1) .A [1, 2, 3, 4] = .ok k ∧ (k.localTerminator .initiator).length = 16 := by
  have h := C17_derivation toy_lawful (zeros 64) (zeros 64) (leBytes 32 1) [1, 2, 3, 4] true
  exact ⟨_, h, (C17_lengths toy_lawful h).2.2.2.2.2.1⟩

/-! ## C21: garbage search -/

theorem occurs_limited {t b : Bytes} {i : Nat} (ht : t.length = 16) :
    Spec.OccursAt t (b.take (min b.length 4111)) i ↔ Spec.OccursAt t b i ∧ i ≤ 4095 := by
  rw [occursAt_take]
  constructor
  · rintro ⟨h, hl⟩
    rw [List.length_take] at hl
    exact ⟨h, by omega⟩
  · rintro ⟨h, hi⟩
    have := OccursAt.le h
    rw [List.length_take]
    exact ⟨h, by omega⟩

/-- C21: found exactly at the first occurrence, which starts at offset at most 4095. The garbage to
be authenticated is what precedes it, everything else is kept. -/
theorem C21_found (h : HsSentVersion) (ht : h.remoteTerminator.length = 16) (b : Bytes)
    (h' : HsReceivedGarbage) (n : Nat) :
    h.receiveGarbage b = .ok (.foundGarbage h' n) ↔
      ∃ i, i ≤ 4095 ∧ Spec.OccursAt h.remoteTerminator b i ∧
        (∀ j < i, ¬ Spec.OccursAt h.remoteTerminator b j) ∧ n = i + 16 ∧
        h'.remoteGarbage.getD [] = b.take i ∧ h'.remoteGarbage ≠ some [] ∧
        h'.cipher = h.cipher ∧ h'.magic = h.magic ∧ h'.role = h.role := by
  unfold HsSentVersion.receiveGarbage HsSentVersion.splitGarbage
  simp only [MAX_NUM_GARBAGE_BYTES, NUM_GARBAGE_TERMINATOR_BYTES]
  cases hw : windowPosition (b.take (min b.length (4095 + 16))) h.remoteTerminator with
  | none =>
    simp only
    have hno := (windowPosition_none ht).1 hw
    constructor
    · intro hh
      split at hh
      · rename_i hh'; split at hh' <;> cases hh'
      · cases hh
      · cases hh
      · cases hh
    · rintro ⟨i, hi, hocc, -⟩
      exact absurd ((occurs_limited ht).2 ⟨hocc, hi⟩) (hno i)
  | some i =>
    simp only
    obtain ⟨hocc, hmin⟩ := (windowPosition_some ht).1 hw
    obtain ⟨hocc', hi⟩ := (occurs_limited ht).1 hocc
    have hle := OccursAt.le hocc'
    have hmin' : ∀ j < i, ¬ Spec.OccursAt h.remoteTerminator b j := fun j hj hc =>
      hmin j hj ((occurs_limited ht).2 ⟨hc, by omega⟩)
    have htl : (b.take i).length = i := by simp; omega
    constructor
    · intro hh
      simp only [Outcome.ok.injEq, GarbageResult.foundGarbage.injEq] at hh
      obtain ⟨rfl, rfl⟩ := hh
      refine ⟨i, hi, hocc', hmin', by rw [htl], ?_, ?_, rfl, rfl, rfl⟩
      · simp only
        split
        · rename_i he
          rw [List.isEmpty_iff] at he
          rw [he]; rfl
        · rfl
      · simp only
        split
        · simp
        · rename_i he
          rw [List.isEmpty_iff] at he
          simpa using he
    · rintro ⟨j, hj, hoj, hmj, rfl, hg, hg', hc, hm, hr⟩
      have hij : j = i := by
        rcases Nat.lt_trichotomy j i with hlt | heq | hgt
        · exact absurd hoj (hmin' j hlt)
        · exact heq
        · exact absurd hocc' (hmj i hgt)
      subst hij
      simp only [Outcome.ok.injEq, GarbageResult.foundGarbage.injEq, htl, and_true]
      obtain ⟨m', r', c', g'⟩ := h'
      simp only at hc hm hr hg hg'
      subst hc hm hr
      simp only [HsReceivedGarbage.mk.injEq, true_and]
      rw [← hg]
      cases g' with
      | none => rfl
      | some x =>
        have : x ≠ [] := fun e => hg' (by rw [e])
        simp [List.isEmpty_iff, this]

/-- C21: `NeedMoreData` exactly when the terminator does not occur and fewer than 4111 bytes have
been received; the handshake comes back unchanged. -/
theorem C21_need_more (h : HsSentVersion) (ht : h.remoteTerminator.length = 16) (b : Bytes)
    (h' : HsSentVersion) :
    h.receiveGarbage b = .ok (.needMoreData h') ↔
      h' = h ∧ b.length < 4111 ∧ ∀ i, ¬ Spec.OccursAt h.remoteTerminator b i := by
  unfold HsSentVersion.receiveGarbage HsSentVersion.splitGarbage
  simp only [MAX_NUM_GARBAGE_BYTES, NUM_GARBAGE_TERMINATOR_BYTES]
  cases hw : windowPosition (b.take (min b.length (4095 + 16))) h.remoteTerminator with
  | some i =>
    simp only
    obtain ⟨hocc, -⟩ := (windowPosition_some ht).1 hw
    constructor
    · intro hh; cases hh
    · rintro ⟨-, -, hno⟩
      exact absurd ((occurs_limited ht).1 hocc).1 (hno i)
  | none =>
    have hno := (windowPosition_none ht).1 hw
    by_cases hb : b.length ≥ 4095 + 16
    · simp only [if_pos hb]
      constructor
      · intro hh; cases hh
      · rintro ⟨-, hl, -⟩; omega
    · simp only [if_neg hb]
      constructor
      · intro hh
        simp only [Outcome.ok.injEq, GarbageResult.needMoreData.injEq] at hh
        refine ⟨hh.symm, by omega, fun i hc => ?_⟩
        have := OccursAt.le hc
        exact hno i ((occurs_limited ht).2 ⟨hc, by omega⟩)
      · rintro ⟨rfl, -, -⟩
        rfl

/-- C21: the only failure, exactly when no terminator starts within the first 4096 offsets although
at least 4111 bytes are present. -/
theorem C21_no_terminator (h : HsSentVersion) (ht : h.remoteTerminator.length = 16) (b : Bytes)
    (e : Error) :
    h.receiveGarbage b = .err e ↔
      e = .noGarbageTerminator ∧ 4111 ≤ b.length ∧
        ∀ i ≤ 4095, ¬ Spec.OccursAt h.remoteTerminator b i := by
  unfold HsSentVersion.receiveGarbage HsSentVersion.splitGarbage
  simp only [MAX_NUM_GARBAGE_BYTES, NUM_GARBAGE_TERMINATOR_BYTES]
  cases hw : windowPosition (b.take (min b.length (4095 + 16))) h.remoteTerminator with
  | some i =>
    simp only
    obtain ⟨hocc, -⟩ := (windowPosition_some ht).1 hw
    obtain ⟨ho, hi⟩ := (occurs_limited ht).1 hocc
    constructor
    · intro hh; cases hh
    · rintro ⟨-, -, hno⟩
      exact absurd ho (hno i hi)
  | none =>
    have hno := (windowPosition_none ht).1 hw
    by_cases hb : b.length ≥ 4095 + 16
    · simp only [if_pos hb]
      constructor
      · intro hh
        cases hh
        exact ⟨rfl, hb, fun i hi hc => hno i ((occurs_limited ht).2 ⟨hc, hi⟩)⟩
      · rintro ⟨rfl, -, -⟩; rfl
    · simp only [if_neg hb]
      constructor
      · intro hh; cases hh
      · rintro ⟨-, hl, -⟩; omega

/-- C21: `receive_garbage` never panics. -/
theorem C21_no_panic (h : HsSentVersion) (b : Bytes) : h.receiveGarbage b ≠ .panic := by
  unfold HsSentVersion.receiveGarbage HsSentVersion.splitGarbage
  cases windowPosition (b.take (min b.length (MAX_NUM_GARBAGE_BYTES + NUM_GARBAGE_TERMINATOR_BYTES)))
    h.remoteTerminator with
  | some i => simp
  | none =>
    by_cases hb : b.length ≥ MAX_NUM_GARBAGE_BYTES + NUM_GARBAGE_TERMINATOR_BYTES
    · simp only [if_pos hb]; simp
    · simp only [if_neg hb]; simp

/-- A sample state waiting for the garbage. -/
def sampleSentVersion : HsSentVersion :=
  { magic := [1, 2, 3, 4], role := .initiator
    cipher := CipherSession.new ⟨zeros 32, zeros 32, zeros 32, zeros 32, zeros 32, zeros 16, zeros 16⟩
      .initiator
    remoteTerminator := [1, 2, 3, 4, 5, 6, 7, 8, 9, 10, 11, 12, 13, 14, 15, 16] }

example : sampleSentVersion.remoteTerminator.length = 16 ∧
    (sampleSentVersion.receiveGarbage ([7, 7, 1, 2] ++ sampleSentVersion.remoteTerminator ++ [5])
      = .ok (.foundGarbage ⟨[1, 2, 3, 4], .initiator, sampleSentVersion.cipher,
          some [7, 7, 1, 2]⟩ 20)) ∧
    sampleSentVersion.receiveGarbage [1, 2, 3] = .ok (.needMoreData sampleSentVersion) := by
  decide +kernel

/-! ## C22: stability of the search -/

/-- C22: `FoundGarbage` on a buffer is the answer on every extension of it. -/
theorem C22_found_stable (h : HsSentVersion) (ht : h.remoteTerminator.length = 16) (b more : Bytes)
    (h' : HsReceivedGarbage) (n : Nat) (hf : h.receiveGarbage b = .ok (.foundGarbage h' n)) :
    h.receiveGarbage (b ++ more) = .ok (.foundGarbage h' n) := by
  rw [C21_found h ht] at hf ⊢
  obtain ⟨i, hi, hocc, hmin, rfl, hg, hg', hc⟩ := hf
  have hle := OccursAt.le hocc
  refine ⟨i, hi, occursAt_append hocc, fun j hj hc' => hmin j hj (occursAt_of_append hc' (by omega)),
    rfl, ?_, hg', hc⟩
  rw [hg, List.take_append_of_le_length (by omega)]

/-- C22: failure on a buffer is the answer on every extension of it. -/
theorem C22_failure_stable (h : HsSentVersion) (ht : h.remoteTerminator.length = 16) (b more : Bytes)
    (e : Error) (hf : h.receiveGarbage b = .err e) : h.receiveGarbage (b ++ more) = .err e := by
  rw [C21_no_terminator h ht] at hf ⊢
  obtain ⟨rfl, hl, hno⟩ := hf
  exact ⟨rfl, by simp; omega, fun i hi hc => hno i hi (occursAt_of_append hc (by omega))⟩

/-- Feed a stream in pieces, as the documented `NeedMoreData` protocol does: append every piece to
the buffer and try again with the returned handshake.  Result: the answer, and the bytes that were
in the buffer when it was given (`none`: still waiting). -/
def feedGarbage (h : HsSentVersion) (buf : Bytes) : List Bytes → Option (Outcome Error GarbageResult × Bytes)
  | [] => none
  | piece :: pieces =>
    match h.receiveGarbage (buf ++ piece) with
    | .ok (.needMoreData h') => feedGarbage h' (buf ++ piece) pieces
    | r => some (r, buf ++ piece)

/-- C22: however the stream is cut into pieces, the answer obtained is the answer on the whole
stream, and if no answer is obtained the whole stream still needs more data (no byte lost, the
same handshake continues). -/
theorem C22_segmentation (h : HsSentVersion) (ht : h.remoteTerminator.length = 16) (buf : Bytes)
    (pieces : List Bytes) (hbuf : h.receiveGarbage buf = .ok (.needMoreData h)) :
    match feedGarbage h buf pieces with
    | none => h.receiveGarbage (buf ++ pieces.flatten) = .ok (.needMoreData h)
    | some (r, seen) => (∃ rest, seen ++ rest = buf ++ pieces.flatten) ∧
        r = h.receiveGarbage (buf ++ pieces.flatten) := by
  induction pieces generalizing buf with
  | nil => simpa [feedGarbage] using hbuf
  | cons p ps ih =>
    rw [feedGarbage]
    cases hr : h.receiveGarbage (buf ++ p) with
    | panic => exact absurd hr (C21_no_panic h _)
    | err e =>
      simp only
      refine ⟨⟨ps.flatten, by simp⟩, ?_⟩
      rw [List.flatten_cons, ← List.append_assoc, C22_failure_stable h ht _ _ e hr]
    | ok g =>
      cases g with
      | foundGarbage h' n =>
        simp only
        refine ⟨⟨ps.flatten, by simp⟩, ?_⟩
        rw [List.flatten_cons, ← List.append_assoc, C22_found_stable h ht _ _ h' n hr]
      | needMoreData h' =>
        simp only
        obtain ⟨rfl, -⟩ := (C21_need_more h ht _ h').1 hr
        have := ih (buf ++ p) hr
        rw [List.append_assoc] at this
        exact this

/-- The hypothesis of C22_segmentation holds at the start of every handshake (nothing received). -/
theorem C22_start (h : HsSentVersion) (ht : h.remoteTerminator.length = 16) :
    h.receiveGarbage [] = .ok (.needMoreData h) := by
  rw [C21_need_more h ht]
  refine ⟨rfl, by simp, fun i hc => ?_⟩
  have := OccursAt.le hc
  simp only [List.length_nil] at this
  omega

/-! ## C24: completion -/

/-- C24: `receive_version` completes exactly when the packet is the encryption, in the current state
and under the expected AAD, of a plaintext whose header is not the decoy header; the contents are
ignored. -/
theorem C24_complete_iff (hP : Lawful P) (h : HsReceivedGarbage) (pkt : Bytes) (c : CipherSession) :
    (∃ buf, h.receiveVersion P prof pkt = (buf, .ok (.complete c))) ↔
      ∃ header contents pc msg tag, header ≠ 128 ∧ pkt = msg ++ tag ∧
        h.cipher.inbound.packetCipher.encrypt P prof (h.remoteGarbage.getD []) (header :: contents)
          = some (pc, msg, tag) ∧
        c = { h.cipher with inbound := { h.cipher.inbound with packetCipher := pc } } := by
  constructor
  · rintro ⟨buf, hr⟩
    unfold HsReceivedGarbage.receiveVersion at hr
    simp only at hr
    split at hr
    · cases hr
    · cases hr
    · rename_i i b ty plain hd
      obtain ⟨header, contents, pc, msg, tag, rfl, rfl, rfl, he⟩ :=
        (C03_accepts_only_exact hP h.cipher.inbound pkt h.remoteGarbage ty plain).1 ⟨i, b, hd⟩
      have hi : i = { h.cipher.inbound with packetCipher := pc } := by
        have hdec := FSAead.decrypt_encrypt hP he
        obtain ⟨hl1, hl2⟩ := FSAead.encrypt_lengths hP he
        unfold InboundCipher.decryptInPlace at hd
        simp only [List.length_append, hl1, hl2, List.length_cons, NUM_TAG_BYTES,
          NUM_HEADER_BYTES] at hd
        rw [if_neg (by omega), take_append_len _ _ (by simp [hl1]), drop_append_len _ _ (by simp [hl1]),
          hdec] at hd
        simp only [Prod.mk.injEq] at hd
        exact hd.1.symm
      subst hi
      refine ⟨header, contents, pc, msg, tag, ?_, rfl, he, ?_⟩
      · rintro rfl
        simp [PacketType.fromByte, DECOY_BYTE] at hr
      · split at hr
        · simp only [Prod.mk.injEq, Outcome.ok.injEq, VersionResult.complete.injEq] at hr
          exact hr.2.symm
        · cases hr
  · rintro ⟨header, contents, pc, msg, tag, hne, rfl, he, rfl⟩
    have hdec := FSAead.decrypt_encrypt hP he
    obtain ⟨hl1, hl2⟩ := FSAead.encrypt_lengths hP he
    refine ⟨(header :: contents) ++ tag, ?_⟩
    unfold HsReceivedGarbage.receiveVersion InboundCipher.decryptInPlace
    simp only [List.length_append, hl1, hl2, List.length_cons, NUM_TAG_BYTES, NUM_HEADER_BYTES]
    rw [if_neg (by omega), take_append_len _ _ (by simp [hl1]), drop_append_len _ _ (by simp [hl1]),
      hdec]
    simp [PacketType.fromByte, DECOY_BYTE, hne]

/-- C24: it reports a decoy exactly when the packet is the encryption of a plaintext with the decoy
header; the handshake is then ready for the next packet and expects no AAD any more. -/
theorem C24_decoy_iff (hP : Lawful P) (h h' : HsReceivedGarbage) (pkt : Bytes) :
    (∃ buf, h.receiveVersion P prof pkt = (buf, .ok (.decoy h'))) ↔
      ∃ contents pc msg tag, pkt = msg ++ tag ∧
        h.cipher.inbound.packetCipher.encrypt P prof (h.remoteGarbage.getD []) (128 :: contents)
          = some (pc, msg, tag) ∧
        h' = { h with
          cipher := { h.cipher with inbound := { h.cipher.inbound with packetCipher := pc } }
          remoteGarbage := none } := by
  constructor
  · rintro ⟨buf, hr⟩
    unfold HsReceivedGarbage.receiveVersion at hr
    simp only at hr
    split at hr
    · cases hr
    · cases hr
    · rename_i i b ty plain hd
      obtain ⟨header, contents, pc, msg, tag, rfl, rfl, rfl, he⟩ :=
        (C03_accepts_only_exact hP h.cipher.inbound pkt h.remoteGarbage ty plain).1 ⟨i, b, hd⟩
      have hi : i = { h.cipher.inbound with packetCipher := pc } := by
        have hdec := FSAead.decrypt_encrypt hP he
        obtain ⟨hl1, hl2⟩ := FSAead.encrypt_lengths hP he
        unfold InboundCipher.decryptInPlace at hd
        simp only [List.length_append, hl1, hl2, List.length_cons, NUM_TAG_BYTES,
          NUM_HEADER_BYTES] at hd
        rw [if_neg (by omega), take_append_len _ _ (by simp [hl1]), drop_append_len _ _ (by simp [hl1]),
          hdec] at hd
        simp only [Prod.mk.injEq] at hd
        exact hd.1.symm
      subst hi
      split at hr
      · cases hr
      · rename_i hty
        have : header = 128 := by
          unfold PacketType.fromByte at hty
          split at hty
          · assumption
          · cases hty
        subst this
        simp only [Prod.mk.injEq, Outcome.ok.injEq, VersionResult.decoy.injEq] at hr
        exact ⟨contents, pc, msg, tag, rfl, he, hr.2.symm⟩
  · rintro ⟨contents, pc, msg, tag, rfl, he, rfl⟩
    have hdec := FSAead.decrypt_encrypt hP he
    obtain ⟨hl1, hl2⟩ := FSAead.encrypt_lengths hP he
    refine ⟨(128 :: contents) ++ tag, ?_⟩
    unfold HsReceivedGarbage.receiveVersion InboundCipher.decryptInPlace
    simp only [List.length_append, hl1, hl2, List.length_cons, NUM_TAG_BYTES, NUM_HEADER_BYTES]
    rw [if_neg (by omega), take_append_len _ _ (by simp [hl1]), drop_append_len _ _ (by simp [hl1]),
      hdec]
    simp [PacketType.fromByte, DECOY_BYTE]

/-- C24: everything else is an error, which leaves the buffer as it was. -/
theorem C24_error (hP : Lawful P) (h : HsReceivedGarbage) (pkt : Bytes)
    (hctr : prof.overflowChecks = false ∨ h.cipher.inbound.packetCipher.messageCounter + 1 < 2 ^ 64)
    (hno : ¬ ∃ plain pc msg tag, plain ≠ [] ∧ pkt = msg ++ tag ∧
      h.cipher.inbound.packetCipher.encrypt P prof (h.remoteGarbage.getD []) plain
        = some (pc, msg, tag)) :
    h.receiveVersion P prof pkt =
      (pkt, .err (if pkt.length < 17 then .ciphertextTooSmall else .decryption)) := by
  unfold HsReceivedGarbage.receiveVersion
  simp only
  rw [C03_everything_else_rejected hP h.cipher.inbound pkt h.remoteGarbage hctr hno]

/-- A receiver that finishes the handshake on a byte stream with the public API (three bytes for
`decrypt_packet_len`, that many for `receive_version`, until complete).  Result: the session and
the rest of the stream. -/
def completeHandshake (P : Prims) (prof : Profile) (h : HsReceivedGarbage) (s : Bytes) :
    Option (CipherSession × Bytes) :=
  if s.length < 3 then none
  else
    match h.decryptPacketLen P prof (s.take 3) with
    | (h1, .ok n) =>
      if (s.drop 3).length < n then none
      else
        match h1.receiveVersion P prof ((s.drop 3).take n) with
        | (_, .ok (.complete c)) => some (c, (s.drop 3).drop n)
        | (_, .ok (.decoy h2)) => completeHandshake P prof h2 ((s.drop 3).drop n)
        | _ => none
    | _ => none
termination_by s.length
decreasing_by simp; omega

/-- The packets of a peer that sends decoys `ds`, then a version packet with contents `v`. -/
def versionMsgs (aad : Option Bytes) (v : Bytes) : List Bytes → List Msg
  | [] => [⟨.genuine, v, aad⟩]
  | d :: ds => ⟨.decoy, d, aad⟩ :: versionMsgs none v ds

theorem versionMsgs_nil (aad : Option Bytes) (ds : List Bytes) :
    versionMsgs aad [] ds = handshakeMsgs aad ds := by
  induction ds generalizing aad with
  | nil => rfl
  | cons d ds ih => simp [versionMsgs, handshakeMsgs, ih]

theorem decryptInPlace_aad (i : InboundCipher) (ct : Bytes) {a b : Option Bytes}
    (h : a.getD [] = b.getD []) :
    i.decryptInPlace P prof ct a = i.decryptInPlace P prof ct b := by
  unfold InboundCipher.decryptInPlace
  rw [h]

theorem complete_step (hP : Lawful P) {o o' : OutboundCipher} {h : HsReceivedGarbage}
    (hm : Matching o h.cipher.inbound) (m : Msg) (hlen : m.contents.length < 2 ^ 24)
    (haad : h.remoteGarbage.getD [] = m.aad.getD []) {w : Bytes}
    (he : o.encryptToVec P prof m.contents m.ty m.aad = (o', .ok w)) (rest : Bytes) :
    ∃ i', Matching o' i' ∧ completeHandshake P prof h (w ++ rest) =
      match m.ty with
      | .genuine => some ({ h.cipher with inbound := i' }, rest)
      | .decoy => completeHandshake P prof
          { h with cipher := { h.cipher with inbound := i' }, remoteGarbage := none } rest := by
  obtain ⟨i1, i2, hm2, hl, ⟨buf, hd⟩, -⟩ :=
    C01_packet_round_trip hP hm m.contents hlen m.ty m.aad he
  refine ⟨i2, hm2, ?_⟩
  have hw : 3 ≤ w.length := by
    obtain ⟨pc, ct, tag, lc, encLen, -, hcr, -, rfl⟩ :=
      OutboundCipher.encryptToVec_ok_inv hP o m.contents m.ty m.aad he
    have := FSStream.crypt_length hcr
    simp at this
    simp [this]
  rw [completeHandshake, if_neg (by simp; omega), List.take_append_of_le_length hw]
  unfold HsReceivedGarbage.decryptPacketLen
  rw [hl]
  simp only
  rw [List.drop_append_of_le_length hw, if_neg (by simp), List.take_left, List.drop_left]
  unfold HsReceivedGarbage.receiveVersion
  simp only
  rw [decryptInPlace_aad i1 _ haad, hd]
  cases m.ty <;> rfl

/-- C24: any number of decoys followed by a version packet with any contents completes the
handshake; the sender's cipher and the resulting inbound cipher match, and the stream after the
version packet is untouched. -/
theorem C24_any_number_of_decoys (hP : Lawful P) (ds : List Bytes) (v : Bytes)
    {o o' : OutboundCipher} {h : HsReceivedGarbage} (hm : Matching o h.cipher.inbound)
    (hds : ∀ d ∈ ds, d.length < 2 ^ 24) (hv : v.length < 2 ^ 24) (aad : Option Bytes)
    (haad : h.remoteGarbage.getD [] = aad.getD []) {ws : List Bytes}
    (hs : sendAll P prof o (versionMsgs aad v ds) = .ok (o', ws)) (rest : Bytes) :
    ∃ i', Matching o' i' ∧ completeHandshake P prof h (ws.flatten ++ rest)
      = some ({ h.cipher with inbound := i' }, rest) := by
  induction ds generalizing o h aad ws with
  | nil =>
    simp only [versionMsgs, sendAll] at hs
    split at hs
    · rename_i o1 w he
      simp only [Outcome.ok.injEq, Prod.mk.injEq] at hs
      obtain ⟨rfl, rfl⟩ := hs
      obtain ⟨i', hm', hc⟩ := complete_step hP hm ⟨.genuine, v, aad⟩ hv haad he rest
      exact ⟨i', hm', by simpa using hc⟩
    · simp at hs
    · simp at hs
  | cons d ds ih =>
    simp only [versionMsgs, sendAll] at hs
    split at hs
    · rename_i o1 w he
      split at hs
      · rename_i o2 ws' hs'
        simp only [Outcome.ok.injEq, Prod.mk.injEq] at hs
        obtain ⟨rfl, rfl⟩ := hs
        obtain ⟨i1, hm1, hc1⟩ := complete_step hP hm ⟨.decoy, d, aad⟩ (hds d (by simp)) haad he
          (ws'.flatten ++ rest)
        obtain ⟨i2, hm2, hc2⟩ := ih
          (h := { h with cipher := { h.cipher with inbound := i1 }, remoteGarbage := none }) hm1
          (fun x hx => hds x (by simp [hx])) none rfl hs'
        refine ⟨i2, hm2, ?_⟩
        rw [List.flatten_cons, List.append_assoc, hc1]
        exact hc2
      · simp at hs
      · simp at hs
    · simp at hs
    · simp at hs

/-! ## C23: garbage authenticated once -/

/-- Feed (length bytes, packet) pairs to the handshake; `none` as soon as one is refused or when
something follows the completing packet.  Result: the session or the waiting handshake. -/
def feedPackets (P : Prims) (prof : Profile) (h : HsReceivedGarbage) :
    List (Bytes × Bytes) → Option (CipherSession ⊕ HsReceivedGarbage)
  | [] => some (.inr h)
  | (len, pkt) :: rest =>
    match h.decryptPacketLen P prof len with
    | (h1, .ok _) =>
      match h1.receiveVersion P prof pkt with
      | (_, .ok (.complete c)) => if rest.isEmpty then some (.inl c) else none
      | (_, .ok (.decoy h2)) => feedPackets P prof h2 rest
      | _ => none
    | _ => none

theorem decryptPacketLen_keeps {h h1 : HsReceivedGarbage} {len : Bytes} {r : Outcome Error Nat}
    (hd : h.decryptPacketLen P prof len = (h1, r)) :
    h1.cipher.inbound.packetCipher = h.cipher.inbound.packetCipher ∧
      h1.remoteGarbage = h.remoteGarbage := by
  unfold HsReceivedGarbage.decryptPacketLen InboundCipher.decryptPacketLen at hd
  split at hd
  rename_i i r' hi
  simp only [Prod.mk.injEq] at hd
  obtain ⟨rfl, rfl⟩ := hd
  split at hi
  · simp only [Prod.mk.injEq] at hi; rw [← hi.1]; exact ⟨rfl, rfl⟩
  · simp only [Prod.mk.injEq] at hi; rw [← hi.1]; exact ⟨rfl, rfl⟩

/-- C23: the handshake accepts a sequence of packets only if they are the successive encryptions of
some plaintexts, the first one with exactly the received garbage as AAD, all others with the empty
AAD. -/
theorem C23_garbage_authenticated_once (hP : Lawful P) (h : HsReceivedGarbage)
    (pkts : List (Bytes × Bytes)) {r : CipherSession ⊕ HsReceivedGarbage}
    (hr : feedPackets P prof h pkts = some r) :
    ∃ (plains : List Bytes) (c : FSAead) (outs : List (Bytes × Bytes)),
      plains.length = pkts.length ∧
      encryptMany P prof h.cipher.inbound.packetCipher
        ((h.remoteGarbage.getD [] :: List.replicate (pkts.length - 1) []).zip plains) = some (c, outs) ∧
      pkts.map Prod.snd = outs.map fun x => x.1 ++ x.2 := by
  induction pkts generalizing h with
  | nil => exact ⟨[], h.cipher.inbound.packetCipher, [], rfl, rfl, rfl⟩
  | cons p rest ih =>
    obtain ⟨len, pkt⟩ := p
    rw [feedPackets] at hr
    split at hr
    · rename_i h1 n hd
      obtain ⟨hk1, hk2⟩ := decryptPacketLen_keeps hd
      split at hr
      · rename_i b c hv
        obtain ⟨header, contents, pc, msg, tag, -, rfl, he, rfl⟩ :=
          (C24_complete_iff hP h1 pkt c).1 ⟨b, hv⟩
        split at hr
        · rename_i hem
          rw [List.isEmpty_iff] at hem
          subst hem
          rw [hk1, hk2] at he
          refine ⟨[header :: contents], pc, [(msg, tag)], rfl, ?_, rfl⟩
          simp [encryptMany, he]
        · cases hr
      · rename_i b h2 hv
        obtain ⟨contents, pc, msg, tag, rfl, he, rfl⟩ := (C24_decoy_iff hP h1 h2 pkt).1 ⟨b, hv⟩
        rw [hk1, hk2] at he
        obtain ⟨plains, c, outs, hlen, hen, hout⟩ := ih _ hr
        simp only [Option.getD_none] at hen
        refine ⟨(128 :: contents) :: plains, c, (msg, tag) :: outs, by simp [hlen], ?_, by simp [hout]⟩
        simp only [List.length_cons, Nat.add_sub_cancel, List.zip_cons_cons, encryptMany, he]
        have hz : (List.replicate rest.length ([] : Bytes)).zip plains
            = (([] : Bytes) :: List.replicate (rest.length - 1) []).zip plains := by
          cases rest with
          | nil =>
            have : plains = [] := List.length_eq_zero_iff.mp hlen
            simp [this]
          | cons x xs => simp [List.replicate_succ]
        rw [hz, hen]
      · cases hr
    · cases hr

/-- C23: together with the search, the AAD of the first packet is what was received before the
terminator. -/
theorem C23_garbage_is_received_bytes (hP : Lawful P) (h : HsSentVersion)
    (ht : h.remoteTerminator.length = 16) (b : Bytes) (h' : HsReceivedGarbage) (n : Nat)
    (hf : h.receiveGarbage b = .ok (.foundGarbage h' n)) (len pkt : Bytes) (pkts : List (Bytes × Bytes))
    {r : CipherSession ⊕ HsReceivedGarbage}
    (hr : feedPackets P prof h' ((len, pkt) :: pkts) = some r) :
    ∃ plain pc msg tag, pkt = msg ++ tag ∧
      h.cipher.inbound.packetCipher.encrypt P prof (b.take (n - 16)) plain = some (pc, msg, tag) := by
  obtain ⟨i, -, -, -, rfl, hg, -, hc, -⟩ := (C21_found h ht b h' n).1 hf
  obtain ⟨plains, c, outs, hlen, hen, hout⟩ := C23_garbage_authenticated_once hP h' _ hr
  rw [hg, hc] at hen
  cases plains with
  | nil => simp at hlen
  | cons pl pls =>
    simp only [List.zip_cons_cons, encryptMany] at hen
    split at hen
    · cases hen
    · rename_i c' ct tag he
      split at hen
      · cases hen
      · simp only [Option.some.injEq, Prod.mk.injEq] at hen
        obtain ⟨-, rfl⟩ := hen
        simp only [List.map_cons, List.cons.injEq] at hout
        refine ⟨pl, c', ct, tag, hout.1, ?_⟩
        rw [Nat.add_sub_cancel]
        exact he

/-- Non-vacuity of C23: a decoy and a version packet are accepted. -/
example : (match feedPackets toy .debug
    ⟨[1, 2, 3, 4], .initiator, sampleSentVersion.cipher, some [7, 7]⟩
    (match sendAll toy .debug ⟨FSStream.new (zeros 32), FSAead.new (zeros 32)⟩
        (versionMsgs (some [7, 7]) [5] [[1, 2, 3]]) with
      | .ok (_, ws) => ws.map fun w => (w.take 3, w.drop 3)
      | _ => [([], [])]) with
    | some (.inl _) => true
    | _ => false) = true := by decide +kernel

/-! ## C16: agreement -/

/-- The garbage contains no early terminator: the first occurrence of `t` in `g ++ t` is the final
one.  (The terminator is a 128-bit secret-dependent value, see BIP-324.) -/
def NoEarlyTerminator (t g : Bytes) : Prop := ∀ j < g.length, ¬ Spec.OccursAt t (g ++ t) j

/-- What one party receives, given what the other one sends. -/
theorem receive_side (hP : Lawful P) (h : HsSentVersion) (g : Option Bytes)
    (ds : List Bytes) (t : Bytes) (ht16 : t.length = 16) (ht : h.remoteTerminator = t)
    (hg : (g.getD []).length ≤ 4095) (hearly : NoEarlyTerminator t (g.getD []))
    {o o' : OutboundCipher} (hm : Matching o h.cipher.inbound) {ws : List Bytes}
    (hds : ∀ d ∈ ds, d.length < 2 ^ 24)
    (hs : sendAll P prof o (handshakeMsgs g ds) = .ok (o', ws)) (more : Bytes) :
    ∃ h' i', h.receiveGarbage (g.getD [] ++ (t ++ ws.flatten) ++ more)
        = .ok (.foundGarbage h' ((g.getD []).length + 16)) ∧
      Matching o' i' ∧
      completeHandshake P prof h'
        ((g.getD [] ++ (t ++ ws.flatten) ++ more).drop ((g.getD []).length + 16))
        = some ({ h.cipher with inbound := i' }, more) := by
  subst ht
  let h' : HsReceivedGarbage := ⟨h.magic, h.role, h.cipher,
    if (g.getD []).isEmpty then none else some (g.getD [])⟩
  have hgd : h'.remoteGarbage.getD [] = g.getD [] := by
    simp only [h']
    split
    · rename_i he; rw [List.isEmpty_iff] at he; rw [he]; rfl
    · rfl
  obtain ⟨i', hm', hc⟩ := C24_any_number_of_decoys hP ds [] (h := h') hm hds (by simp) g hgd
    (by rw [versionMsgs_nil]; exact hs) more
  refine ⟨h', i', ?_, hm', ?_⟩
  · rw [C21_found h ht16]
    refine ⟨(g.getD []).length, hg, ⟨g.getD [], ws.flatten ++ more, by simp, rfl⟩, ?_, rfl, ?_, ?_,
      rfl, rfl, rfl⟩
    · intro j hj hc
      refine hearly j hj ?_
      have : g.getD [] ++ (h.remoteTerminator ++ ws.flatten) ++ more
          = (g.getD [] ++ h.remoteTerminator) ++ (ws.flatten ++ more) := by simp
      rw [this] at hc
      exact occursAt_of_append hc (by simp; omega)
    · rw [hgd, List.append_assoc, List.take_left]
    · simp only [h']
      split
      · simp
      · rename_i he; rw [List.isEmpty_iff] at he; simpa using he
  · have hd : (g.getD [] ++ (h.remoteTerminator ++ ws.flatten) ++ more).drop ((g.getD []).length + 16)
        = ws.flatten ++ more := by
      rw [show g.getD [] ++ (h.remoteTerminator ++ ws.flatten) ++ more
          = (g.getD [] ++ h.remoteTerminator) ++ (ws.flatten ++ more) by simp]
      exact drop_append_len _ _ (by simp [ht16])
    rw [hd]
    exact hc

/-- C16: two honest parties on the same network always complete the handshake, whatever their keys,
garbage and decoys are; they report the same session id and their ciphers match in both directions.

The parties' output buffers are arbitrary buffers of exactly the announced lengths; `moreI`/`moreR`
are bytes that follow in the stream and are left untouched. -/
theorem C16_agreement (hP : Lawful P) (magic rngI rngR : Bytes)
    {hi0 hr0 : HsInitialized}
    (hi : HsInitialized.newWithRng P prof magic .initiator rngI = .ok hi0)
    (hr : HsInitialized.newWithRng P prof magic .responder rngR = .ok hr0)
    (hmi : hi0.ellswift.take 4 ≠ magic) (hmr : hr0.ellswift.take 4 ≠ magic)
    (gI gR : Option Bytes) (hgI : (gI.getD []).length ≤ 4095) (hgR : (gR.getD []).length ≤ 4095)
    (dI dR : Option (List Bytes))
    (hdI : ∀ d ∈ dI.getD [], d.length < 2 ^ 24) (hdR : ∀ d ∈ dR.getD [], d.length < 2 ^ 24)
    (hnI : (dI.getD []).length + 1 < 2 ^ 32) (hnR : (dR.getD []).length + 1 < 2 ^ 32)
    (hearlyI : NoEarlyTerminator ((Spec.expand P magic
      (Spec.ecdhSecret P hi0.ellswift hr0.ellswift rngI true) Spec.lblTerminators).take 16) (gI.getD []))
    (hearlyR : NoEarlyTerminator ((Spec.expand P magic
      (Spec.ecdhSecret P hi0.ellswift hr0.ellswift rngI true) Spec.lblTerminators).drop 16) (gR.getD []))
    (kbI kbR vbI vbR : Bytes)
    (hkI : kbI.length = HsInitialized.sendKeyLen gI) (hkR : kbR.length = HsInitialized.sendKeyLen gR)
    (hvI : vbI.length = HsReceivedKey.sendVersionLen dI)
    (hvR : vbR.length = HsReceivedKey.sendVersionLen dR) (moreI moreR : Bytes) :
    ∃ (keyI keyR verI verR : Bytes) (i1 r1 : HsSentKey) (i2 r2 : HsReceivedKey)
      (i3 r3 : HsSentVersion) (i4 r4 : HsReceivedGarbage) (nI nR : Nat) (cI cR : CipherSession),
      hi0.sendKey gI kbI = (keyI, .ok i1) ∧ hr0.sendKey gR kbR = (keyR, .ok r1) ∧
      i1.receiveKey P (keyR.take 64) = .ok i2 ∧ r1.receiveKey P (keyI.take 64) = .ok r2 ∧
      i2.sendVersion P prof vbI dI = (verI, .ok i3) ∧ r2.sendVersion P prof vbR dR = (verR, .ok r3) ∧
      i3.receiveGarbage (keyR.drop 64 ++ verR ++ moreR) = .ok (.foundGarbage i4 nI) ∧
      r3.receiveGarbage (keyI.drop 64 ++ verI ++ moreI) = .ok (.foundGarbage r4 nR) ∧
      completeHandshake P prof i4 ((keyR.drop 64 ++ verR ++ moreR).drop nI) = some (cI, moreR) ∧
      completeHandshake P prof r4 ((keyI.drop 64 ++ verI ++ moreI).drop nR) = some (cR, moreI) ∧
      cI.id = cR.id ∧ Matching cI.outbound cR.inbound ∧ Matching cR.outbound cI.inbound := by
  have initInv : ∀ {role rng h}, HsInitialized.newWithRng P prof magic role rng = .ok h →
      h = ⟨magic, role, rng, P.ellswift rng⟩ ∧ P.validSecret rng = true := by
    intro role rng h hn
    unfold HsInitialized.newWithRng at hn
    split at hn
    · cases hn
    · split at hn
      · rename_i hv
        simp only [Outcome.ok.injEq] at hn
        exact ⟨hn.symm, hv⟩
      · cases hn
  obtain ⟨rfl, hvalI⟩ := initInv hi
  obtain ⟨rfl, hvalR⟩ := initInv hr
  simp only at hmi hmr hearlyI hearlyR
  have hesI := hP.ellswift_length rngI
  have hesR := hP.ellswift_length rngR
  -- keys
  have hlenI : HsInitialized.sendKeyLen gI = 64 + (gI.getD []).length := by cases gI <;> rfl
  have hlenR : HsInitialized.sendKeyLen gR = 64 + (gR.getD []).length := by cases gR <;> rfl
  have hskI := C18_send_key ⟨magic, .initiator, rngI, P.ellswift rngI⟩ hesI gI kbI
  have hskR := C18_send_key ⟨magic, .responder, rngR, P.ellswift rngR⟩ hesR gR kbR
  simp only at hskI hskR
  rw [if_neg (by omega), if_neg (by omega), List.drop_of_length_le (by omega), List.append_nil] at hskI hskR
  -- session keys
  have hec : Spec.ecdhSecret P (P.ellswift rngI) (P.ellswift rngR) rngR false
      = Spec.ecdhSecret P (P.ellswift rngI) (P.ellswift rngR) rngI true :=
    (hP.ecdh_agree rngI rngR Spec.ecdhTag hvalI hvalR).symm
  have hkeysI := C17_derivation hP (P.ellswift rngI) (P.ellswift rngR) rngI magic true
  have hkeysR := C17_derivation hP (P.ellswift rngI) (P.ellswift rngR) rngR magic false
  rw [hec, if_neg (by decide)] at hkeysR
  rw [if_pos rfl] at hkeysI
  simp only at hkeysI hkeysR
  obtain ⟨-, -, -, -, -, ht1, ht2⟩ := C17_lengths hP hkeysI
  generalize hK : SessionKeyMaterial.mk _ _ _ _ _ _ _ = K at hkeysI hkeysR ht1 ht2
  have hKI : (Spec.expand P magic (Spec.ecdhSecret P (P.ellswift rngI) (P.ellswift rngR) rngI true)
      Spec.lblTerminators).take 16 = K.initiatorGarbageTerminator := by rw [← hK]
  have hKR : (Spec.expand P magic (Spec.ecdhSecret P (P.ellswift rngI) (P.ellswift rngR) rngI true)
      Spec.lblTerminators).drop 16 = K.responderGarbageTerminator := by rw [← hK]
  rw [hKI] at hearlyI
  rw [hKR] at hearlyR
  have hrkI : HsSentKey.receiveKey P ⟨magic, .initiator, rngI, P.ellswift rngI, gI⟩ (P.ellswift rngR)
      = .ok ⟨magic, .initiator, K, gI⟩ := by
    unfold HsSentKey.receiveKey
    simp only
    rw [if_neg (fun e => hmr e.symm), hkeysI]
  have hrkR : HsSentKey.receiveKey P ⟨magic, .responder, rngR, P.ellswift rngR, gR⟩ (P.ellswift rngI)
      = .ok ⟨magic, .responder, K, gR⟩ := by
    unfold HsSentKey.receiveKey
    simp only
    rw [if_neg (fun e => hmi e.symm), hkeysR]
  -- versions
  obtain ⟨oI, wsI, hsI, -⟩ := sendAll_handshake (prof := prof) hP K .initiator gI (dI.getD []) hnI
  obtain ⟨oR, wsR, hsR, -⟩ := sendAll_handshake (prof := prof) hP K .responder gR (dR.getD []) hnR
  have hsvI := sendVersion_eq hP ⟨magic, .initiator, K, gI⟩ vbI dI
    (by rw [hvI, sendVersionLen_eq]; exact Nat.le_refl _) ht1 hsI
  have hsvR := sendVersion_eq hP ⟨magic, .responder, K, gR⟩ vbR dR
    (by rw [hvR, sendVersionLen_eq]; exact Nat.le_refl _) ht2 hsR
  rw [List.drop_of_length_le (by rw [hvI, sendVersionLen_eq]; exact Nat.le_refl _),
    List.append_nil] at hsvI
  rw [List.drop_of_length_le (by rw [hvR, sendVersionLen_eq]; exact Nat.le_refl _),
    List.append_nil] at hsvR
  -- receiving
  obtain ⟨i4, iI, hrgI, hmatI, hcI⟩ := receive_side hP
    ⟨magic, .initiator, { CipherSession.new K .initiator with outbound := oI },
      K.remoteTerminator .initiator⟩ gR (dR.getD []) K.responderGarbageTerminator ht2 rfl hgR hearlyR
    (o := (CipherSession.new K .responder).outbound) ⟨rfl, rfl⟩ hdR hsR moreR
  obtain ⟨r4, iR, hrgR, hmatR, hcR⟩ := receive_side hP
    ⟨magic, .responder, { CipherSession.new K .responder with outbound := oR },
      K.remoteTerminator .responder⟩ gI (dI.getD []) K.initiatorGarbageTerminator ht1 rfl hgI hearlyI
    (o := (CipherSession.new K .initiator).outbound) ⟨rfl, rfl⟩ hdI hsI moreI
  refine ⟨_, _, _, _, _, _, _, _, _, _, i4, r4,
    (gR.getD []).length + 16, (gI.getD []).length + 16, ⟨K.sessionId, iI, oI⟩, ⟨K.sessionId, iR, oR⟩, hskI, hskR, ?_, ?_, hsvI, hsvR, ?_, ?_,
    ?_, ?_, rfl, hmatR, hmatI⟩
  · rw [take_append_len _ _ hesR.symm]; exact hrkI
  · rw [take_append_len _ _ hesI.symm]; exact hrkR
  · rw [drop_append_len _ _ hesR.symm]; exact hrgI
  · rw [drop_append_len _ _ hesI.symm]; exact hrgR
  · rw [drop_append_len _ _ hesR.symm]; exact hcI
  · rw [drop_append_len _ _ hesI.symm]; exact hcR

/-- Non-vacuity of C16: two concrete parties with garbage and decoys meet the hypotheses. -/
example : ∃ hi0 hr0 : HsInitialized,
    HsInitialized.newWithRng toy .debug [1, 2, 3, 4] .initiator (leBytes 32 77) = .ok hi0 ∧
    HsInitialized.newWithRng toy .debug [1, 2, 3, 4] .responder (leBytes 32 99) = .ok hr0 ∧
    hi0.ellswift.take 4 ≠ [1, 2, 3, 4] ∧ hr0.ellswift.take 4 ≠ [1, 2, 3, 4] ∧
    NoEarlyTerminator ((Spec.expand toy [1, 2, 3, 4]
      (Spec.ecdhSecret toy hi0.ellswift hr0.ellswift (leBytes 32 77) true) Spec.lblTerminators).take 16)
      [42] := by
  refine ⟨⟨[1, 2, 3, 4], .initiator, leBytes 32 77, toy.ellswift (leBytes 32 77)⟩,
    ⟨[1, 2, 3, 4], .responder, leBytes 32 99, toy.ellswift (leBytes 32 99)⟩, by decide +kernel,
    by decide +kernel, by decide +kernel, by decide +kernel, ?_⟩
  intro j hj hocc
  have hj0 : j = 0 := by simp at hj; omega
  subst hj0
  obtain ⟨pre, post, h, hl⟩ := hocc
  have : pre = [] := List.length_eq_zero_iff.mp hl
  subst this
  have h1 := congrArg (List.take 1) h
  rw [List.nil_append] at h1
  revert h1
  generalize ht : List.take 16 _ = t
  have ht' : t.take 1 ≠ [42] := by rw [← ht]; decide +kernel
  intro h1
  apply ht'
  have hne : 1 ≤ t.length := by rw [← ht]; decide +kernel
  rw [List.take_append_of_le_length hne] at h1
  simpa using h1.symm

end Bip324
