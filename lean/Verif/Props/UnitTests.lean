import Verif.Model.UnitTests
import Verif.Props.Tests

/-!
# The unit tests of the protocol crate: C76

Each unit test of `handshake.rs`, `lib.rs` and `io.rs` runs the code on a few literals and, in part, on random keys.  Here
is when it passes, for all keys and with all other values in place of the literals.
-/

namespace Bip324

variable {P : Prims} {prof : Profile}

/-! ## handshake.rs -/

/-- One packet of the handshake, taken by index. -/
theorem takePacket_eq (hP : Lawful P) {o o' : OutboundCipher} {h : HsReceivedGarbage}
    (hm : Matching o h.cipher.inbound) (m : Msg) (hlen : m.contents.length < 2 ^ 24)
    (haad : h.remoteGarbage.getD [] = m.aad.getD []) {w : Bytes}
    (he : o.encryptToVec P prof m.contents m.ty m.aad = (o', .ok w)) (rest : Bytes) :
    ∃ i', Matching o' i' ∧ takePacket P prof h (w ++ rest) = some
      (match m.ty with
        | .genuine => .complete { h.cipher with inbound := i' }
        | .decoy => .decoy { h with cipher := { h.cipher with inbound := i' }, remoteGarbage := none }, rest) := by
  obtain ⟨i1, i2, hm2, hl, ⟨buf, hd⟩, -⟩ := C01_packet_round_trip hP hm m.contents hlen m.ty m.aad he
  have hw := toVec_length hP he
  refine ⟨i2, hm2, ?_⟩
  have hlen' : (w.drop 3).length = m.contents.length + 17 := by rw [List.length_drop]; omega
  have hall : (w ++ rest).length = w.length + rest.length := List.length_append
  unfold takePacket HsReceivedGarbage.decryptPacketLen
  simp only [NUM_LENGTH_BYTES, Option.bind_eq_bind]
  rw [orElsePanic, if_pos (by rw [hall, decide_eq_true_eq]; omega), Option.bind_some,
    List.take_append_of_le_length (by omega), hl]
  simp only [Outcome.orPanic, Option.bind_some, hlen']
  rw [orElsePanic, if_pos (by rw [hall, decide_eq_true_eq]; omega), Option.bind_some]
  have hs : slice (w ++ rest) 3 (m.contents.length + 17) = w.drop 3 := by
    unfold slice
    rw [List.drop_append_of_le_length (by omega), List.take_append_of_le_length (by omega),
      List.take_of_length_le (by omega)]
  have hdr : (w ++ rest).drop (3 + (m.contents.length + 17)) = rest :=
    drop_append_len _ _ (by omega)
  unfold HsReceivedGarbage.receiveVersion
  simp only [hs, hdr]
  rw [decryptInPlace_aad i1 _ haad, hd]
  cases m.ty <;> rfl

/-- The packets of a peer that sends these decoys: the receiver finds as many, and then the version. -/
theorem takePackets_eq (hP : Lawful P) (ds : List Bytes) {o o' : OutboundCipher} {h : HsReceivedGarbage}
    (hm : Matching o h.cipher.inbound) (hds : ∀ d ∈ ds, d.length < 2 ^ 24) (aad : Option Bytes)
    (haad : h.remoteGarbage.getD [] = aad.getD []) {ws : List Bytes}
    (hs : sendAll P prof o (handshakeMsgs aad ds) = .ok (o', ws)) :
    ∃ i', Matching o' i' ∧
      takePackets P prof h ws.flatten ds.length = some { h.cipher with inbound := i' } := by
  induction ds generalizing o h aad ws with
  | nil =>
    simp only [handshakeMsgs, sendAll] at hs
    split at hs
    · rename_i o1 w he
      simp only [Outcome.ok.injEq, Prod.mk.injEq] at hs
      obtain ⟨rfl, rfl⟩ := hs
      obtain ⟨i', hm', hc⟩ := takePacket_eq hP hm ⟨.genuine, [], aad⟩ (by simp) haad he []
      refine ⟨i', hm', ?_⟩
      rw [List.append_nil] at hc
      simp only [List.flatten_cons, List.flatten_nil, List.append_nil, List.length_nil, takePackets, hc]
      rfl
    · simp at hs
    · simp at hs
  | cons d ds ih =>
    simp only [handshakeMsgs, sendAll] at hs
    split at hs
    · rename_i o1 w he
      split at hs
      · rename_i o2 ws' hs'
        simp only [Outcome.ok.injEq, Prod.mk.injEq] at hs
        obtain ⟨rfl, rfl⟩ := hs
        obtain ⟨i1, hm1, hc1⟩ := takePacket_eq hP hm ⟨.decoy, d, aad⟩ (hds d (by simp)) haad he ws'.flatten
        obtain ⟨i2, hm2, hc2⟩ := ih
          (h := { h with cipher := { h.cipher with inbound := i1 }, remoteGarbage := none }) hm1
          (fun x hx => hds x (by simp [hx])) none rfl hs'
        refine ⟨i2, hm2, ?_⟩
        simp only [List.flatten_cons, List.length_cons, takePackets, hc1]
        exact hc2
      · simp at hs
      · simp at hs
    · simp at hs
    · simp at hs

/-- One side of `test_handshake`. -/
theorem takeFlight_eq (hP : Lawful P) (h : HsSentVersion) (g : Option Bytes) (ds : List Bytes)
    (ht16 : h.remoteTerminator.length = 16) (hg : (g.getD []).length ≤ 4095)
    (hearly : NoEarlyTerminator h.remoteTerminator (g.getD [])) {o o' : OutboundCipher}
    (hm : Matching o h.cipher.inbound) {ws : List Bytes} (hds : ∀ d ∈ ds, d.length < 2 ^ 24)
    (hs : sendAll P prof o (handshakeMsgs g ds) = .ok (o', ws)) :
    ∃ i', Matching o' i' ∧
      takeFlight P prof h (g.getD [] ++ (h.remoteTerminator ++ ws.flatten)) ds.length
        = some { h.cipher with inbound := i' } := by
  obtain ⟨h', -, hf, -, -⟩ := receive_side hP h g ds h.remoteTerminator ht16 rfl hg hearly hm hds hs []
  rw [List.append_nil] at hf
  obtain ⟨i, -, -, -, hi, hrem, -, hc, -, -⟩ := (C21_found h ht16 _ _ _).1 hf
  have hi' : i = (g.getD []).length := by omega
  rw [hi', List.take_left] at hrem
  obtain ⟨i', hm', ht⟩ := takePackets_eq hP ds (h := h') (by rw [hc]; exact hm) hds g hrem hs
  refine ⟨i', hm', ?_⟩
  have hd : (g.getD [] ++ (h.remoteTerminator ++ ws.flatten)).drop ((g.getD []).length + 16) = ws.flatten := by
    rw [← List.append_assoc]
    exact drop_append_len _ _ (by simp [ht16])
  unfold takeFlight
  simp only [hf, Outcome.orPanic, GarbageResult.orPanic, Option.bind_eq_bind, Option.bind_some, hd]
  rw [orElsePanic, if_pos, Option.bind_some, ht, hc]
  simp only [List.length_append, ht16, decide_eq_true_eq]
  omega

theorem takePackets_count (hP : Lawful P) (ds : List Bytes) {o o' : OutboundCipher} {h : HsReceivedGarbage}
    (hm : Matching o h.cipher.inbound) (hds : ∀ d ∈ ds, d.length < 2 ^ 24) (aad : Option Bytes)
    (haad : h.remoteGarbage.getD [] = aad.getD []) {ws : List Bytes}
    (hs : sendAll P prof o (handshakeMsgs aad ds) = .ok (o', ws)) {n : Nat} (hn : n ≠ ds.length) :
    takePackets P prof h ws.flatten n = none := by
  induction ds generalizing o h aad ws n with
  | nil =>
    simp only [handshakeMsgs, sendAll] at hs
    split at hs
    · rename_i o1 w he
      simp only [Outcome.ok.injEq, Prod.mk.injEq] at hs
      obtain ⟨rfl, rfl⟩ := hs
      obtain ⟨i', hm', hc⟩ := takePacket_eq hP hm ⟨.genuine, [], aad⟩ (by simp) haad he []
      rw [List.append_nil] at hc
      cases n with
      | zero => exact absurd rfl hn
      | succ n => simp only [List.flatten_cons, List.flatten_nil, List.append_nil, takePackets, hc]; rfl
    · simp at hs
    · simp at hs
  | cons d ds ih =>
    simp only [handshakeMsgs, sendAll] at hs
    split at hs
    · rename_i o1 w he
      split at hs
      · rename_i o2 ws' hs'
        simp only [Outcome.ok.injEq, Prod.mk.injEq] at hs
        obtain ⟨rfl, rfl⟩ := hs
        obtain ⟨i1, hm1, hc1⟩ := takePacket_eq hP hm ⟨.decoy, d, aad⟩ (hds d (by simp)) haad he ws'.flatten
        cases n with
        | zero => simp only [List.flatten_cons, takePackets, hc1]; rfl
        | succ n =>
          have hc2 := ih
            (h := { h with cipher := { h.cipher with inbound := i1 }, remoteGarbage := none }) hm1
            (fun x hx => hds x (by simp [hx])) none rfl hs' (n := n) (by simp only [List.length_cons] at hn; omega)
          simp only [List.flatten_cons, takePackets, hc1]
          exact hc2
      · simp at hs
      · simp at hs
    · simp at hs
    · simp at hs

/-- C76: one side of `test_handshake` passes exactly if it expects as many decoys as the peer sends before its version: with
more, the version stands where a decoy is expected, with fewer a decoy where the version is. -/
theorem C76_decoy_count (hP : Lawful P) (h : HsSentVersion) (g : Option Bytes) (ds : List Bytes)
    (ht16 : h.remoteTerminator.length = 16) (hg : (g.getD []).length ≤ 4095)
    (hearly : NoEarlyTerminator h.remoteTerminator (g.getD [])) {o o' : OutboundCipher}
    (hm : Matching o h.cipher.inbound) {ws : List Bytes} (hds : ∀ d ∈ ds, d.length < 2 ^ 24)
    (hs : sendAll P prof o (handshakeMsgs g ds) = .ok (o', ws)) (n : Nat) :
    (takeFlight P prof h (g.getD [] ++ (h.remoteTerminator ++ ws.flatten)) n).isSome ↔ n = ds.length := by
  constructor
  · intro hsome
    by_contra hn
    obtain ⟨h', -, hf, -, -⟩ := receive_side hP h g ds h.remoteTerminator ht16 rfl hg hearly hm hds hs []
    rw [List.append_nil] at hf
    obtain ⟨i, -, -, -, hi, hrem, -, hc, -, -⟩ := (C21_found h ht16 _ _ _).1 hf
    have hi' : i = (g.getD []).length := by omega
    rw [hi', List.take_left] at hrem
    have ht := takePackets_count hP ds (h := h') (by rw [hc]; exact hm) hds g hrem hs hn
    have hd : (g.getD [] ++ (h.remoteTerminator ++ ws.flatten)).drop ((g.getD []).length + 16) = ws.flatten := by
      rw [← List.append_assoc]
      exact drop_append_len _ _ (by simp [ht16])
    unfold takeFlight at hsome
    simp only [hf, Outcome.orPanic, GarbageResult.orPanic, Option.bind_eq_bind, Option.bind_some, hd] at hsome
    rw [orElsePanic, if_pos (by simp only [List.length_append, ht16, decide_eq_true_eq]; omega), Option.bind_some, ht] at hsome
    simp at hsome
  · rintro rfl
    obtain ⟨i', -, he⟩ := takeFlight_eq hP h g ds ht16 hg hearly hm hds hs
    rw [he]
    rfl

example : (let o : OutboundCipher := ⟨FSStream.new (leBytes 32 77), FSAead.new (leBytes 32 99)⟩
    let h : HsSentVersion := ⟨[1, 2, 3, 4], .initiator, ⟨[], ⟨FSStream.new (leBytes 32 77), FSAead.new (leBytes 32 99)⟩, o⟩, leBytes 16 9⟩
    match sendAll toy .debug o (handshakeMsgs (some [8, 8]) [[1], [2, 3]]) with
      | .ok (_, ws) => [0, 1, 2, 3].map (fun n => (takeFlight toy .debug h ([8, 8] ++ (leBytes 16 9 ++ ws.flatten)) n).isSome)
          == [false, false, true, false]
      | _ => false) = true := by decide +kernel

/-- The terminators of the two parties, as BIP-324 has them. -/
abbrev Spec.terminators (P : Prims) (magic rngI rngR : Bytes) : Bytes :=
  Spec.expand P magic (Spec.ecdhSecret P (P.ellswift rngI) (P.ellswift rngR) rngI true) Spec.lblTerminators

theorem some_sendKey (hP : Lawful P) (magic : Bytes) (role : Role) (rng g : Bytes) (hg : g.length ≤ 4095) :
    HsInitialized.sendKey ⟨magic, role, rng, P.ellswift rng⟩ (some g) (zeros (HsInitialized.sendKeyLen (some g)))
      = (P.ellswift rng ++ g, .ok ⟨magic, role, rng, P.ellswift rng, some g⟩) := by
  have hl : (zeros (HsInitialized.sendKeyLen (some g))).length = 64 + g.length := by
    rw [zeros, List.length_replicate]; rfl
  rw [C18_send_key _ (hP.ellswift_length rng)]
  simp only [Option.getD_some, hl]
  rw [if_neg (by omega), if_neg (by omega), List.drop_of_length_le (by omega), List.append_nil]

/-- C76, `test_handshake`: whatever the keys, the garbage, the decoys (of less than 2^24 bytes) and their number, the test
passes exactly if both secret keys are usable and neither public key begins with the magic.  (That the terminator does
not occur early in the garbage is assumed; it is a secret of 128 bits.) -/
theorem C76_handshake (hP : Lawful P) {magic rngI rngR gI gR : Bytes} {dI dR : List Bytes}
    (hgI : gI.length ≤ 4095) (hgR : gR.length ≤ 4095) (hdI : ∀ d ∈ dI, d.length < 2 ^ 24)
    (hdR : ∀ d ∈ dR, d.length < 2 ^ 24) (hnI : dI.length + 1 < 2 ^ 32) (hnR : dR.length + 1 < 2 ^ 32)
    (hearlyI : NoEarlyTerminator ((Spec.terminators P magic rngI rngR).take 16) gI)
    (hearlyR : NoEarlyTerminator ((Spec.terminators P magic rngI rngR).drop 16) gR) :
    testHandshake P prof magic rngI rngR gI gR dI dR = some () ↔ PairKeys P prof magic rngI rngR := by
  constructor
  · intro hs
    unfold testHandshake at hs
    obtain ⟨a0, h1, hs⟩ := Option.bind_eq_some_iff.1 hs
    obtain ⟨a1, h2, hs⟩ := Option.bind_eq_some_iff.1 hs
    obtain ⟨b0, h3, hs⟩ := Option.bind_eq_some_iff.1 hs
    obtain ⟨b1, h4, hs⟩ := Option.bind_eq_some_iff.1 hs
    obtain ⟨a2, h5, hs⟩ := Option.bind_eq_some_iff.1 hs
    obtain ⟨b2, h6, -⟩ := Option.bind_eq_some_iff.1 hs
    have hA := (new_orPanic (P := P) (prof := prof) magic .initiator rngI).resolve_left (by rw [h1]; simp)
    have hB := (new_orPanic (P := P) (prof := prof) magic .responder rngR).resolve_left (by rw [h3]; simp)
    rw [newWithRng_ok hA] at h1
    rw [newWithRng_ok hB] at h3
    cases h1
    cases h3
    rw [some_sendKey hP _ _ _ _ hgI] at h2 h6
    rw [some_sendKey hP _ _ _ _ hgR] at h4 h5
    cases h2
    cases h4
    simp only at h5 h6
    rw [take_append_len _ _ (hP.ellswift_length _).symm, receiveKey_eq hP] at h5 h6
    refine ⟨hA, hB, fun e => ?_, fun e => ?_⟩
    · rw [if_pos e] at h6; cases h6
    · rw [if_pos e] at h5; cases h5
  · intro hk
    obtain ⟨K, hterm, hrkI, hrkR, c1, c2, -, -⟩ := pair_keys hP hk.usableA.1 hk.usableB.1 hk.notV1A hk.notV1B
    rw [← c1] at hearlyI
    rw [← c2] at hearlyR
    obtain ⟨oI, wsI, hsI, -⟩ := sendAll_handshake (prof := prof) hP K .initiator (some gI) dI hnI
    obtain ⟨oR, wsR, hsR, -⟩ := sendAll_handshake (prof := prof) hP K .responder (some gR) dR hnR
    have vI := sendVersion_eq hP ⟨magic, .initiator, K, some gI⟩ (zeros (HsReceivedKey.sendVersionLen (some dI)))
      (some dI) (by rw [zeros, List.length_replicate, sendVersionLen_eq]) (hterm _) hsI
    have vR := sendVersion_eq hP ⟨magic, .responder, K, some gR⟩ (zeros (HsReceivedKey.sendVersionLen (some dR)))
      (some dR) (by rw [zeros, List.length_replicate, sendVersionLen_eq]) (hterm _) hsR
    rw [List.drop_of_length_le (by rw [zeros, List.length_replicate, sendVersionLen_eq]),
      List.append_nil] at vI vR
    obtain ⟨iI, -, tI⟩ := takeFlight_eq (prof := prof) hP
      ⟨magic, .initiator, { CipherSession.new K .initiator with outbound := oI }, K.localTerminator .responder⟩
      (some gR) dR (hterm .responder) hgR hearlyR (o := (CipherSession.new K .responder).outbound) ⟨rfl, rfl⟩ hdR hsR
    obtain ⟨iR, -, tR⟩ := takeFlight_eq (prof := prof) hP
      ⟨magic, .responder, { CipherSession.new K .responder with outbound := oR }, K.localTerminator .initiator⟩
      (some gI) dI (hterm .initiator) hgI hearlyI (o := (CipherSession.new K .initiator).outbound) ⟨rfl, rfl⟩ hdI hsI
    have t1 : K.remoteTerminator .initiator = K.localTerminator .responder := rfl
    have t2 : K.remoteTerminator .responder = K.localTerminator .initiator := rfl
    simp only [Option.getD_some, t1, t2] at tI tR vI vR
    unfold testHandshake
    simp only [newWithRng_ok hk.usableA, newWithRng_ok hk.usableB, some_sendKey hP _ _ _ _ hgI,
      some_sendKey hP _ _ _ _ hgR, Outcome.orPanic, Option.bind_eq_bind, Option.bind_some,
      take_append_len _ _ (hP.ellswift_length _).symm, hrkI, hrkR, vI, vR, tI, tR]

theorem expectErr_self {α : Type} (e : Error) : expectErr (α := α) e (.err e) = some () := by
  simp [expectErr, orElsePanic]

theorem expectErr_iff {α : Type} {e : Error} {r : Outcome Error α} : expectErr e r = some () ↔ r = .err e := by
  cases r <;> simp [expectErr, orElsePanic]

/-- C76, `test_handshake_send_key`: for all garbage, the test passes exactly if the four secret keys are usable, the garbage
that is to be accepted has at most 4095 bytes and that to be refused has more. -/
theorem C76_send_key (hP : Lawful P) {magic rng1 rng2 rng3 rng4 valid tooMuch : Bytes} :
    testSendKey P prof magic rng1 rng2 rng3 rng4 valid tooMuch = some () ↔
      (Spec.UsableKey P prof rng1 ∧ Spec.UsableKey P prof rng2 ∧ Spec.UsableKey P prof rng3 ∧
        Spec.UsableKey P prof rng4) ∧ valid.length ≤ 4095 ∧ 4095 < tooMuch.length := by
  have hlen : ∀ n, (zeros n).length = n := fun n => by rw [zeros, List.length_replicate]
  constructor
  · intro hs
    have hs0 := hs
    unfold testSendKey at hs
    obtain ⟨a1, h1, hs⟩ := Option.bind_eq_some_iff.1 hs
    obtain ⟨-, -, hs⟩ := Option.bind_eq_some_iff.1 hs
    obtain ⟨a2, h2, hs⟩ := Option.bind_eq_some_iff.1 hs
    obtain ⟨-, -, hs⟩ := Option.bind_eq_some_iff.1 hs
    obtain ⟨a3, h3, hs⟩ := Option.bind_eq_some_iff.1 hs
    obtain ⟨-, -, hs⟩ := Option.bind_eq_some_iff.1 hs
    obtain ⟨a4, h4, hs⟩ := Option.bind_eq_some_iff.1 hs
    have hu : Spec.UsableKey P prof rng1 ∧ Spec.UsableKey P prof rng2 ∧ Spec.UsableKey P prof rng3 ∧
        Spec.UsableKey P prof rng4 :=
      ⟨(new_orPanic (P := P) (prof := prof) magic .initiator rng1).resolve_left (by rw [h1]; simp),
      (new_orPanic (P := P) (prof := prof) magic .initiator rng2).resolve_left (by rw [h2]; simp),
      (new_orPanic (P := P) (prof := prof) magic .initiator rng3).resolve_left (by rw [h3]; simp),
      (new_orPanic (P := P) (prof := prof) magic .initiator rng4).resolve_left (by rw [h4]; simp)⟩
    obtain ⟨u1, u2, u3, u4⟩ := hu
    refine ⟨⟨u1, u2, u3, u4⟩, ?_⟩
    unfold testSendKey at hs0
    have hk : ∀ rng, (HsInitialized.mk magic .initiator rng (P.ellswift rng)).ellswift.length = 64 :=
      fun rng => hP.ellswift_length rng
    simp only [newWithRng_ok u1, newWithRng_ok u2, newWithRng_ok u3, newWithRng_ok u4, Outcome.orPanic,
      Option.bind_eq_bind, Option.bind_some, C18_send_key _ (hk _), Option.getD_some, Option.getD_none, hlen] at hs0
    by_cases hv : 4095 < valid.length
    · rw [if_pos hv] at hs0
      cases hs0
    · refine ⟨by omega, ?_⟩
      by_cases ht : 4095 < tooMuch.length
      · exact ht
      · exfalso
        rw [if_neg hv, if_neg (show ¬ 64 + valid.length < 64 + valid.length by omega), if_neg ht] at hs0
        simp only [expectOk, Option.bind_some] at hs0
        obtain ⟨_, hs1, _⟩ := Option.bind_eq_some_iff.1 hs0
        rw [expectErr_iff] at hs1
        revert hs1
        split <;> intro hs1 <;> cases hs1
  · rintro ⟨⟨u1, u2, u3, u4⟩, hv, ht⟩
    unfold testSendKey
    have hk : ∀ rng, (HsInitialized.mk magic .initiator rng (P.ellswift rng)).ellswift.length = 64 :=
      fun rng => hP.ellswift_length rng
    simp only [newWithRng_ok u1, newWithRng_ok u2, newWithRng_ok u3, newWithRng_ok u4, Outcome.orPanic,
      Option.bind_eq_bind, Option.bind_some, C18_send_key _ (hk _), Option.getD_some, Option.getD_none, hlen]
    rw [if_neg (show ¬ 4095 < valid.length by omega), if_neg (show ¬ 64 + valid.length < 64 + valid.length by omega)]
    rw [if_pos ht, if_neg (show ¬ 4095 < valid.length by omega),
      if_pos (show 64 + valid.length - 1 < 64 + valid.length by omega)]
    simp only [expectOk, expectErr_self, Option.bind_some]
    have hl : (P.ellswift rng1 ++ valid ++ (zeros (64 + valid.length)).drop (64 + valid.length)).length
        = 64 + valid.length := by
      rw [List.drop_of_length_le (by rw [hlen]), List.append_nil, List.length_append,
        hP.ellswift_length]
    simp only [hl, List.length_nil]
    rw [if_neg (by omega), if_neg (by omega)]

/-- The garbage search on a part of `terminator ++ packet`. -/
theorem receiveGarbage_part {h : HsSentVersion} (h16 : h.remoteTerminator.length = 16) (w : Bytes) (n : Nat) :
    (n < 16 → h.receiveGarbage ((h.remoteTerminator ++ w).take n) = .ok (.needMoreData h)) ∧
    (16 ≤ n → ∃ g, h.receiveGarbage ((h.remoteTerminator ++ w).take n) = .ok (.foundGarbage g 16)) := by
  constructor
  · intro hn
    rw [C21_need_more h h16]
    have hl : ((h.remoteTerminator ++ w).take n).length ≤ n := List.length_take_le _ _
    refine ⟨rfl, by omega, fun i hi => ?_⟩
    obtain ⟨a, b, e, -⟩ := hi
    have := congrArg List.length e
    simp only [List.length_append, h16] at this
    omega
  · intro hn
    refine ⟨⟨h.magic, h.role, h.cipher, none⟩, ?_⟩
    rw [C21_found h h16]
    refine ⟨0, by omega, ⟨[], w.take (n - 16), ?_, rfl⟩, fun j hj => absurd hj (Nat.not_lt_zero _), rfl, by simp,
      (by simp), rfl, rfl, rfl⟩
    rw [List.take_append, h16, List.take_of_length_le (by omega)]
    rfl

/-- C76, `test_handshake_receive_garbage_buffer`: whatever the two lengths of the partial data, the test passes exactly if
the keys are as in `test_handshake` and both are less than the 16 bytes of the terminator. -/
theorem C76_garbage_buffer (hP : Lawful P) (magic rngI rngR : Bytes) (n1 n2 : Nat) :
    testGarbageBuffer P prof magic rngI rngR n1 n2 = some () ↔
      PairKeys P prof magic rngI rngR ∧ n1 < 16 ∧ n2 < 16 := by
  have e64 : (zeros 64) = zeros (HsInitialized.sendKeyLen none) := rfl
  have hkeys : testGarbageBuffer P prof magic rngI rngR n1 n2 = some () → PairKeys P prof magic rngI rngR := by
    intro hs
    unfold testGarbageBuffer at hs
    obtain ⟨a0, h1, hs⟩ := Option.bind_eq_some_iff.1 hs
    obtain ⟨b0, h3, hs⟩ := Option.bind_eq_some_iff.1 hs
    obtain ⟨a1, h2, hs⟩ := Option.bind_eq_some_iff.1 hs
    obtain ⟨b1, h4, hs⟩ := Option.bind_eq_some_iff.1 hs
    obtain ⟨a2, h5, hs⟩ := Option.bind_eq_some_iff.1 hs
    obtain ⟨b2, h6, -⟩ := Option.bind_eq_some_iff.1 hs
    have hA := (new_orPanic (P := P) (prof := prof) magic .initiator rngI).resolve_left (by rw [h1]; simp)
    have hB := (new_orPanic (P := P) (prof := prof) magic .responder rngR).resolve_left (by rw [h3]; simp)
    rw [newWithRng_ok hA] at h1
    rw [newWithRng_ok hB] at h3
    cases h1
    cases h3
    rw [e64, plain_sendKey hP] at h2 h4 h5 h6
    cases h2
    cases h4
    rw [List.take_of_length_le (Nat.le_of_eq (hP.ellswift_length _)), receiveKey_eq hP] at h5 h6
    refine ⟨hA, hB, fun e => ?_, fun e => ?_⟩
    · rw [if_pos e] at h6; cases h6
    · rw [if_pos e] at h5; cases h5
  suffices H : PairKeys P prof magic rngI rngR →
      (testGarbageBuffer P prof magic rngI rngR n1 n2 = some () ↔ n1 < 16 ∧ n2 < 16) from
    ⟨fun h => ⟨hkeys h, (H (hkeys h)).1 h⟩, fun h => (H h.1).2 h.2⟩
  intro hk
  obtain ⟨K, hterm, hrkI, hrkR, -, -, -, -⟩ := pair_keys hP hk.usableA.1 hk.usableB.1 hk.notV1A hk.notV1B
  obtain ⟨oI, wI, eI, -, vI⟩ := sendVersion_plain (P := P) (prof := prof) hP magic .initiator K (hterm _)
  obtain ⟨oR, wR, -, -, vR⟩ := sendVersion_plain (P := P) (prof := prof) hP magic .responder K (hterm _)
  have hw := toVec_length hP eI
  have hflen : (K.localTerminator .initiator ++ wI).length = 36 := by
    rw [List.length_append, hterm, hw]; rfl
  obtain ⟨i', -, ht⟩ := takeFlight_eq (prof := prof) hP
    ⟨magic, .responder, { CipherSession.new K .responder with outbound := oR }, K.localTerminator .initiator⟩
    none [] (hterm .initiator) (by simp) (fun j hj => absurd hj (Nat.not_lt_zero _))
    (o := (CipherSession.new K .initiator).outbound) (o' := oI) (ws := [wI]) ⟨rfl, rfl⟩ (by simp)
    (by simp only [handshakeMsgs, sendAll, eI])
  have t2 : K.remoteTerminator .responder = K.localTerminator .initiator := rfl
  simp only [Option.getD_none, List.nil_append, List.flatten_cons, List.flatten_nil, List.append_nil,
    List.length_nil] at ht
  have hpart := receiveGarbage_part (h := ⟨magic, .responder, { CipherSession.new K .responder with outbound := oR },
    K.localTerminator .initiator⟩) (hterm .initiator) wI
  unfold testGarbageBuffer
  simp only [e64, newWithRng_ok hk.usableA, newWithRng_ok hk.usableB, plain_sendKey hP, Outcome.orPanic,
    Option.bind_eq_bind, Option.bind_some, List.take_of_length_le (Nat.le_of_eq (hP.ellswift_length _)), hrkI, hrkR,
    vI, vR, t2, hflen]
  simp only at hpart
  by_cases h1 : n1 < 16
  · rw [orElsePanic, if_pos (by simp; omega), Option.bind_some, (hpart n1).1 h1]
    simp only [Option.bind_some, GarbageResult.orFound]
    by_cases h2 : n2 < 16
    · rw [orElsePanic, if_pos (by simp; omega), Option.bind_some, (hpart n2).1 h2]
      simp only [Option.bind_some, ht]
      simp [h1, h2]
    · refine ⟨fun h => ?_, fun h => absurd h.2 h2⟩
      by_cases h3 : n2 ≤ 36
      · obtain ⟨g, hg⟩ := (hpart n2).2 (by omega)
        rw [orElsePanic, if_pos (by simpa using h3), Option.bind_some, hg] at h
        cases h
      · rw [orElsePanic, if_neg (by simpa using h3)] at h
        cases h
  · refine ⟨fun h => ?_, fun h => absurd h.1 h1⟩
    by_cases h3 : n1 ≤ 36
    · obtain ⟨g, hg⟩ := (hpart n1).2 (by omega)
      rw [orElsePanic, if_pos (by simpa using h3), Option.bind_some, hg] at h
      cases h
    · rw [orElsePanic, if_neg (by simpa using h3)] at h
      cases h

theorem splitGarbage_iff (h : HsSentVersion) (h16 : h.remoteTerminator.length = 16) (b : Bytes) (e : Error) :
    h.splitGarbage b = .err e ↔
      (∀ i ≤ 4095, ¬ Spec.OccursAt h.remoteTerminator b i) ∧
        e = if 4111 ≤ b.length then .noGarbageTerminator else .ciphertextTooSmall := by
  unfold HsSentVersion.splitGarbage
  simp only [MAX_NUM_GARBAGE_BYTES, NUM_GARBAGE_TERMINATOR_BYTES]
  cases hw : windowPosition (b.take (min b.length (4095 + 16))) h.remoteTerminator with
  | some i =>
    obtain ⟨hocc, -⟩ := (windowPosition_some h16).1 hw
    obtain ⟨h1, h2⟩ := (occurs_limited h16).1 hocc
    constructor
    · intro hh; cases hh
    · intro hh; exact absurd h1 (hh.1 i h2)
  | none =>
    have hno := (windowPosition_none h16).1 hw
    have hno' : ∀ i ≤ 4095, ¬ Spec.OccursAt h.remoteTerminator b i :=
      fun i hi ho => hno i ((occurs_limited h16).2 ⟨ho, hi⟩)
    by_cases hb : 4111 ≤ b.length
    · simp only [if_pos (show b.length ≥ 4095 + 16 from hb), Outcome.err.injEq]
      exact ⟨fun hh => ⟨hno', hh.symm⟩, fun hh => hh.2.symm⟩
    · simp only [if_neg (show ¬ b.length ≥ 4095 + 16 from hb), Outcome.err.injEq]
      exact ⟨fun hh => ⟨hno', hh.symm⟩, fun hh => hh.2.symm⟩

theorem occursAt_replicate {t : Bytes} (h16 : t.length = 16) (x : UInt8) {n : Nat} (hn : 16 ≤ n) :
    (∀ i ≤ 4095, ¬ Spec.OccursAt t (List.replicate n x) i) ↔ t ≠ List.replicate 16 x := by
  constructor
  · rintro h rfl
    refine h 0 (by omega) ⟨[], List.replicate (n - 16) x, ?_, rfl⟩
    rw [List.nil_append, List.replicate_append_replicate]
    congr 1
    omega
  · rintro h i - ⟨a, b, e, -⟩
    refine h ?_
    rw [List.eq_replicate_iff]
    refine ⟨h16, fun y hy => ?_⟩
    have : y ∈ List.replicate n x := by rw [e]; simp [hy]
    exact (List.mem_replicate.1 this).2

/-- C76, `test_handshake_split_garbage`: whatever the fake key, the repeated byte and how often it is repeated (at least
4111 times), the test passes exactly if the secret key is usable, the fake key does not begin with the magic and the
terminator of the peer is neither 16 zeros nor 16 times that byte. -/
theorem C76_split_garbage (hP : Lawful P) {magic rng fakeKey after : Bytes} {n : Nat} (hn : 4111 ≤ n) (x : UInt8) :
    testSplitGarbage P prof magic rng fakeKey (List.replicate n x) after = some () ↔
      Spec.UsableKey P prof rng ∧ fakeKey.take 4 ≠ magic ∧
        (Spec.directions P magic (P.ellswift rng) fakeKey rng true).2.2.2 ≠ List.replicate 16 0 ∧
        (Spec.directions P magic (P.ellswift rng) fakeKey rng true).2.2.2 ≠ List.replicate 16 x := by
  have e64 : (zeros 64) = zeros (HsInitialized.sendKeyLen none) := rfl
  have hdir := (peerKeys_directions (P := P) magic (P.ellswift rng) fakeKey rng .initiator).2.2.1
  have hkeys : testSplitGarbage P prof magic rng fakeKey (List.replicate n x) after = some () →
      Spec.UsableKey P prof rng ∧ fakeKey.take 4 ≠ magic := by
    intro hs
    unfold testSplitGarbage at hs
    obtain ⟨a0, h1, hs⟩ := Option.bind_eq_some_iff.1 hs
    obtain ⟨a1, h2, hs⟩ := Option.bind_eq_some_iff.1 hs
    obtain ⟨a2, h3, -⟩ := Option.bind_eq_some_iff.1 hs
    have hA := (new_orPanic (P := P) (prof := prof) magic .initiator rng).resolve_left (by rw [h1]; simp)
    rw [newWithRng_ok hA] at h1
    cases h1
    rw [e64, plain_sendKey hP] at h2
    cases h2
    rw [receiveKey_eq hP] at h3
    refine ⟨hA, fun e => ?_⟩
    rw [if_pos e] at h3
    cases h3
  suffices H : Spec.UsableKey P prof rng → fakeKey.take 4 ≠ magic →
      (testSplitGarbage P prof magic rng fakeKey (List.replicate n x) after = some () ↔
        (Spec.directions P magic (P.ellswift rng) fakeKey rng true).2.2.2 ≠ List.replicate 16 0 ∧
        (Spec.directions P magic (P.ellswift rng) fakeKey rng true).2.2.2 ≠ List.replicate 16 x) from
    ⟨fun h => ⟨(hkeys h).1, (hkeys h).2, (H (hkeys h).1 (hkeys h).2).1 h⟩, fun h => (H h.1 h.2.1).2 h.2.2⟩
  intro hu hv
  have hterm := fun r => peerKeys_terminators hP magic (P.ellswift rng) fakeKey rng .initiator r
  have hdir' : (Spec.directions P magic (P.ellswift rng) fakeKey rng true).2.2.2
      = (peerKeys P magic (P.ellswift rng) fakeKey rng .initiator).remoteTerminator .initiator := hdir.symm
  rw [hdir']
  unfold testSplitGarbage
  simp only [e64, newWithRng_ok hu, plain_sendKey hP, Outcome.orPanic, Option.bind_eq_bind, Option.bind_some,
    receiveKey_eq hP, if_neg hv]
  generalize peerKeys P magic (P.ellswift rng) fakeKey rng .initiator = K at hterm
  obtain ⟨o, ws, hs, -⟩ := sendAll_handshake (prof := prof) hP K .initiator none [] (by simp)
  have hv := sendVersion_eq hP ⟨magic, .initiator, K, none⟩ (zeros 1024) none
    (by rw [zeros, List.length_replicate]; decide) (hterm .initiator) hs
  have ht : (K.remoteTerminator .initiator).length = 16 := hterm .responder
  rw [hv]
  simp only [Option.bind_some]
  generalize K.remoteTerminator .initiator = t at ht
  have key : ∀ b e, (HsSentVersion.splitGarbage ⟨magic, .initiator,
      { CipherSession.new K .initiator with outbound := o }, t⟩ b = .err e ↔
      (∀ i ≤ 4095, ¬ Spec.OccursAt t b i) ∧ e = if 4111 ≤ b.length then .noGarbageTerminator else .ciphertextTooSmall) :=
    fun b e => splitGarbage_iff _ ht b e
  have hz : ∀ m, (zeros m).length = m := fun m => by rw [zeros, List.length_replicate]
  have bind_iff : ∀ {a b : Option Unit}, (a.bind fun _ => b) = some () ↔ a = some () ∧ b = some () := by
    intro a b
    cases a <;> simp
  rw [bind_iff, bind_iff, expectErr_iff, expectErr_iff, expectErr_iff, key, key, key, hz, hz,
    zeros, zeros, occursAt_replicate ht _ (by decide), occursAt_replicate ht _ (by decide), if_pos (by decide),
    if_neg (by decide), if_pos (by simp only [List.length_append, List.length_replicate]; omega)]
  have hlast : (∀ i ≤ 4095, ¬ Spec.OccursAt t (List.replicate n x ++ t ++ after) i) ↔ t ≠ List.replicate 16 x := by
    rw [← occursAt_replicate ht x (show 16 ≤ n by omega)]
    constructor
    · intro h i hi ho
      refine h i hi ?_
      rw [List.append_assoc]
      exact occursAt_append ho
    · intro h i hi ho
      rw [List.append_assoc] at ho
      exact h i hi (occursAt_of_append ho (by rw [List.length_replicate]; omega))
  rw [hlast]
  simp only [and_true]
  exact ⟨fun h => ⟨h.1, h.2.2⟩, fun h => ⟨h.1, h.1, h.2⟩⟩

/-- C76, `test_v1_protocol_detection`: for all networks and whatever follows the magic, the test passes exactly if the two
secret keys are usable. -/
theorem C76_v1 (hP : Lawful P) {magic magic2 rng1 rng2 rest : Bytes} (h1 : magic.length = 4) (h2 : magic2.length = 4) :
    testV1 P prof magic magic2 rng1 rng2 rest = some () ↔
      Spec.UsableKey P prof rng1 ∧ Spec.UsableKey P prof rng2 := by
  have e64 : (zeros 64) = zeros (HsInitialized.sendKeyLen none) := rfl
  constructor
  · intro hs
    unfold testV1 at hs
    obtain ⟨a0, n1, hs⟩ := Option.bind_eq_some_iff.1 hs
    obtain ⟨a1, -, hs⟩ := Option.bind_eq_some_iff.1 hs
    obtain ⟨-, -, hs⟩ := Option.bind_eq_some_iff.1 hs
    obtain ⟨a2, n2, hs⟩ := Option.bind_eq_some_iff.1 hs
    exact ⟨(new_orPanic (P := P) (prof := prof) magic .initiator rng1).resolve_left (by rw [n1]; simp),
      (new_orPanic (P := P) (prof := prof) magic2 .responder rng2).resolve_left (by rw [n2]; simp)⟩
  · rintro ⟨u1, u2⟩
    have hk := C18_send_key ⟨magic2, .responder, rng2, P.ellswift rng2⟩ (hP.ellswift_length rng2) none (P.ellswift rng1)
    simp only [Option.getD_none, List.length_nil, hP.ellswift_length] at hk
    rw [if_neg (by omega), if_neg (by omega)] at hk
    unfold testV1
    simp only [e64, newWithRng_ok u1, newWithRng_ok u2, plain_sendKey hP, hk, Outcome.orPanic, Option.bind_eq_bind,
      Option.bind_some, receiveKey_eq hP, take_append_len _ _ h1.symm, take_append_len _ _ h2.symm, if_pos,
      expectErr_self]

/-! ## lib.rs -/

theorem testKeys_eq (hP : Lawful P) (magic ellA ellB secret : Bytes) :
    testKeys P magic ellA ellB secret = some (peerKeys P magic ellA ellB secret .initiator) := by
  unfold testKeys
  rw [show Party.A = (if true then Party.A else Party.B) from rfl, C17_derivation hP]
  rfl

/-- The steps of the tests, with ciphers that match. -/
theorem packetStep_eq (hP : Lawful P) {o o' : OutboundCipher} {i : InboundCipher} (hm : Matching o i) {c : Bytes}
    (hc : c.length < 2 ^ 24) {ty : PacketType} {aad : Option Bytes} {w : Bytes}
    (he : o.encryptToVec P prof c ty aad = (o', .ok w)) :
    ∃ i', Matching o' i' ∧ packetStep P prof o i c ty aad = some (o', i', ty, c) := by
  obtain ⟨i1, i2, hm2, hl, -, hd, -⟩ := C01_packet_round_trip hP hm c hc ty aad he
  have hw := toVec_length hP he
  have hlen : (w.drop 3).length = c.length + 17 := by rw [List.length_drop]; omega
  refine ⟨i2, hm2, ?_⟩
  have hs0 : slice w 0 3 = w.take 3 := by simp [slice]
  have hs : slice w 3 (c.length + 17) = w.drop 3 := by unfold slice; rw [List.take_of_length_le (by omega)]
  unfold packetStep
  simp only [encrypt_of_toVec he, NUM_LENGTH_BYTES, hs0, hl, Outcome.orPanic, Option.bind_eq_bind, Option.bind_some, hlen,
    bufferLen_eq]
  rw [orElsePanic, if_pos (by simp; omega), Option.bind_some, hs,
    hd (zeros (c.length + 1)) (by rw [zeros, List.length_replicate])]
  simp [zeros]

theorem inPlaceStep_eq (hP : Lawful P) {o o' : OutboundCipher} {i : InboundCipher} (hm : Matching o i) {c : Bytes}
    (hc : c.length < 2 ^ 24) {ty : PacketType} {aad : Option Bytes} {w : Bytes}
    (he : o.encryptToVec P prof c ty aad = (o', .ok w)) :
    inPlaceStep P prof o i c ty aad = some () := by
  obtain ⟨i1, i2, -, hl, ⟨buf, hd⟩, -⟩ := C01_packet_round_trip hP hm c hc ty aad he
  have hpc : i1.packetCipher = i.packetCipher := by
    unfold InboundCipher.decryptPacketLen at hl
    split at hl
    · cases hl
    · simp only [Prod.mk.injEq] at hl
      rw [← hl.1]
  have hacc := (C03_accepts_only_exact hP i1 (w.drop 3) aad ty (ty.toByte :: c)).1 ⟨i2, buf, hd⟩
  rw [hpc] at hacc
  obtain ⟨i', buf', hd'⟩ := (C03_accepts_only_exact hP i (w.drop 3) aad ty (ty.toByte :: c)).2 hacc
  unfold inPlaceStep
  simp only [encrypt_of_toVec he, NUM_LENGTH_BYTES, hd', Outcome.orPanic, Option.bind_eq_bind, Option.bind_some]
  simp [orElsePanic]

theorem new_matching (K : SessionKeyMaterial) :
    Matching (CipherSession.new K .initiator).outbound (CipherSession.new K .responder).inbound ∧
      Matching (CipherSession.new K .responder).outbound (CipherSession.new K .initiator).inbound :=
  ⟨⟨rfl, rfl⟩, ⟨rfl, rfl⟩⟩

theorem new_at (K : SessionKeyMaterial) (r : Role) :
    OutboundCipher.At P (K.sendKeys r).1 (K.sendKeys r).2 0 (CipherSession.new K r).outbound := by
  rw [new_outbound]
  exact ⟨FSStream.at_new _, FSAead.at_new _⟩

/-- C76, `test_cipher_session`: passes for all keys, all types and all messages of less than 2^24 bytes. -/
theorem C76_cipher_session (hP : Lawful P) (magic ellA ellB secret : Bytes) {message1 message2 : Bytes}
    (h1 : message1.length < 2 ^ 24) (h2 : message2.length < 2 ^ 24) (ty1 ty2 : PacketType) :
    testCipherSession P prof magic ellA ellB secret message1 message2 ty1 ty2 = some () := by
  unfold testCipherSession
  rw [testKeys_eq hP]
  generalize peerKeys P magic ellA ellB secret .initiator = K
  obtain ⟨o1, -, e1⟩ := OutboundCipher.At.encryptToVec (prof := prof) hP (new_at (P := P) K .initiator) (by decide)
    message1 ty1 none
  obtain ⟨o2, -, e2⟩ := OutboundCipher.At.encryptToVec (prof := prof) hP (new_at (P := P) K .responder) (by decide)
    message2 ty2 none
  obtain ⟨i1, -, s1⟩ := packetStep_eq hP (new_matching K).1 h1 e1
  obtain ⟨i2, -, s2⟩ := packetStep_eq hP (new_matching K).2 h2 e2
  simp [s1, s2, orElsePanic]

/-- C76, `test_decrypt_in_place`: passes for all keys, all AAD and all messages of less than 2^24 bytes. -/
theorem C76_decrypt_in_place (hP : Lawful P) (magic ellA ellB secret : Bytes) {message1 message2 : Bytes} (aad : Bytes)
    (h1 : message1.length < 2 ^ 24) (h2 : message2.length < 2 ^ 24) :
    testDecryptInPlace P prof magic ellA ellB secret message1 message2 aad = some () := by
  unfold testDecryptInPlace
  rw [testKeys_eq hP]
  generalize peerKeys P magic ellA ellB secret .initiator = K
  obtain ⟨o1, -, e1⟩ := OutboundCipher.At.encryptToVec (prof := prof) hP (new_at (P := P) K .initiator) (by decide)
    message1 .genuine none
  obtain ⟨o2, -, e2⟩ := OutboundCipher.At.encryptToVec (prof := prof) hP (new_at (P := P) K .responder) (by decide)
    message2 .decoy (some aad)
  have s1 := inPlaceStep_eq hP (new_matching K).1 h1 e1
  have s2 := inPlaceStep_eq hP (new_matching K).2 h2 e2
  simp [s1, s2]

/-- C76, `test_decrypt_min_length`: for all keys and buffers, the test passes exactly if the ciphertext has less than 17
bytes. -/
theorem C76_min_length (hP : Lawful P) (magic ellA ellB secret ciphertext buffer : Bytes) :
    testMinLength P prof magic ellA ellB secret ciphertext buffer = some () ↔ ciphertext.length < 17 := by
  unfold testMinLength
  rw [testKeys_eq hP]
  generalize peerKeys P magic ellA ellB secret .initiator = K
  simp only [Option.bind_eq_bind, Option.bind_some]
  generalize (CipherSession.new K .initiator).inbound = i
  by_cases h : ciphertext.length < 17
  · have hd : i.decrypt P prof ciphertext buffer none = (i, buffer, .err .ciphertextTooSmall) := by
      unfold InboundCipher.decrypt
      rw [if_pos (show ciphertext.length < NUM_TAG_BYTES + NUM_HEADER_BYTES from h)]
    simp only [hd, InboundCipher.decryptInPlace_small i ciphertext none h, expectErr_self, Option.bind_some, h]
  · refine ⟨fun hs => ?_, fun h' => absurd h' h⟩
    obtain ⟨_, h1, -⟩ := Option.bind_eq_some_iff.1 hs
    exfalso
    rw [expectErr_iff] at h1
    unfold InboundCipher.decrypt at h1
    rw [if_neg (show ¬ ciphertext.length < NUM_TAG_BYTES + NUM_HEADER_BYTES from h)] at h1
    simp only at h1
    split at h1
    · cases h1
    · split at h1
      · cases h1
      · cases h1
      · split at h1 <;> cases h1

/-- C76, `test_decrypt_to_vec_packet_too_big`: for all keys and all ciphertexts that have room for a tag, the test passes
exactly if the ciphertext has more than 4000030 bytes, so that the plaintext has more than 4000014. -/
theorem C76_to_vec_too_big (hP : Lawful P) (magic ellA ellB secret : Bytes) {ciphertext : Bytes}
    (h16 : 16 ≤ ciphertext.length) :
    testToVecTooBig P prof magic ellA ellB secret ciphertext = some () ↔ 4000030 < ciphertext.length := by
  unfold testToVecTooBig
  rw [testKeys_eq hP]
  generalize peerKeys P magic ellA ellB secret .initiator = K
  simp only [Option.bind_eq_bind, Option.bind_some]
  generalize (CipherSession.new K .initiator).inbound = i
  have hb : InboundCipher.decryptionBufferLen prof ciphertext.length = some (ciphertext.length - 16) := by
    unfold InboundCipher.decryptionBufferLen usub
    rw [if_pos (show NUM_TAG_BYTES ≤ ciphertext.length from h16)]
  rw [expectErr_iff]
  unfold InboundCipher.decryptToVec
  rw [hb]
  simp only [MAX_PACKET_SIZE_FOR_ALLOCATION]
  by_cases h : 4000030 < ciphertext.length
  · rw [if_pos (by omega)]
    simp [h]
  · rw [if_neg (by omega)]
    refine ⟨fun hs => ?_, fun h' => absurd h' h⟩
    exfalso
    split at hs
    · cases hs
    · rename_i c b e hd
      cases hs
      unfold InboundCipher.decrypt at hd
      split at hd
      · cases hd
      · simp only at hd
        split at hd
        · cases hd
        · split at hd
          · cases hd
          · cases hd
          · split at hd <;> cases hd
    · cases hs

theorem fuzzRounds_eq (hP : Lawful P) : ∀ (rounds : List (Bytes × Bytes)) {a b : CipherSession} {m : Nat},
    Matching a.outbound b.inbound → Matching b.outbound a.inbound →
    (∀ r ∈ rounds, r.1.length < 2 ^ 24 ∧ r.2.length < 2 ^ 24) →
    (∃ kL kP, OutboundCipher.At P kL kP m a.outbound) → (∃ kL kP, OutboundCipher.At P kL kP m b.outbound) →
    m + rounds.length < 2 ^ 32 → fuzzRounds P prof a b rounds = some () := by
  intro rounds
  induction rounds with
  | nil => intro _ _ _ _ _ _ _ _ _; rfl
  | cons r rounds ih =>
    rintro a b m ma mb hr ⟨kL, kP, hA⟩ ⟨kL', kP', hB⟩ hn
    rw [List.length_cons] at hn
    obtain ⟨h1, h2⟩ := hr r (by simp)
    obtain ⟨o1, at1, e1⟩ := OutboundCipher.At.encryptToVec (prof := prof) hP hA (by omega) r.1 .genuine none
    obtain ⟨o2, at2, e2⟩ := OutboundCipher.At.encryptToVec (prof := prof) hP hB (by omega) r.2 .genuine none
    obtain ⟨i1, m1, s1⟩ := packetStep_eq hP ma h1 e1
    obtain ⟨i2, m2, s2⟩ := packetStep_eq hP mb h2 e2
    have := ih (a := { a with outbound := o1, inbound := i2 }) (b := { b with outbound := o2, inbound := i1 }) m1 m2
      (fun x hx => hr x (by simp [hx])) ⟨kL, kP, at1⟩ ⟨kL', kP', at2⟩ (by omega)
    unfold fuzzRounds
    simp only [s1, s2, orElsePanic, decide_true, if_true, Option.bind_eq_bind, Option.bind_some]
    exact this

/-- C76, `test_fuzz_packets`: passes for all keys, any number of rounds below 2^32 and all messages of less than 2^24
bytes. -/
theorem C76_fuzz (hP : Lawful P) (magic ellA ellB secret : Bytes) {rounds : List (Bytes × Bytes)}
    (hr : ∀ r ∈ rounds, r.1.length < 2 ^ 24 ∧ r.2.length < 2 ^ 24) (hn : rounds.length < 2 ^ 32) :
    testFuzzPackets P prof magic ellA ellB secret rounds = some () := by
  unfold testFuzzPackets
  rw [testKeys_eq hP]
  generalize peerKeys P magic ellA ellB secret .initiator = K
  exact fuzzRounds_eq hP rounds (m := 0) (new_matching K).1 (new_matching K).2 hr ⟨_, _, new_at (P := P) K .initiator⟩
    ⟨_, _, new_at (P := P) K .responder⟩ (by omega)

/-- C76, `test_additional_authenticated_data`: with whatever AAD the receiver passes, the test passes exactly if the body of
the packet is one that the sender could have produced with that AAD, for some plaintext. -/
theorem C76_aad (hP : Lawful P) (magic ellA ellB secret : Bytes) {content : Bytes} (hc : content.length < 2 ^ 24)
    (aad1 aad2 : Bytes) {K : SessionKeyMaterial} (hK : testKeys P magic ellA ellB secret = some K) :
    testAad P prof magic ellA ellB secret content aad1 aad2 = some () ↔
      ∃ plain, P.sealC K.initiatorPacketKey (Spec.packetNonce 0) aad2 plain
        = P.sealC K.initiatorPacketKey (Spec.packetNonce 0) aad1 (0 :: content) := by
  have hat := new_at (P := P) K .initiator
  obtain ⟨o1, -, he⟩ := OutboundCipher.At.encryptToVec (prof := prof) hP hat (by decide) content .genuine (some aad1)
  obtain ⟨i1, i2, -, hl, -⟩ := C01_packet_round_trip hP (new_matching K).1 content hc .genuine (some aad1) he
  have hw := toVec_length hP he
  have hpc : i1.packetCipher = FSAead.new K.initiatorPacketKey := by
    unfold InboundCipher.decryptPacketLen at hl
    split at hl
    · cases hl
    · simp only [Prod.mk.injEq] at hl
      rw [← hl.1]
      rfl
  have hdrop : (Spec.packet P (K.sendKeys .initiator).1 (K.sendKeys .initiator).2 0 (PacketType.genuine == .decoy)
      ((some aad1).getD []) content).drop 3
      = (P.sealC K.initiatorPacketKey (Spec.packetNonce 0) aad1 (0 :: content)).1
        ++ (P.sealC K.initiatorPacketKey (Spec.packetNonce 0) aad1 (0 :: content)).2 := by
    unfold Spec.packet
    rw [List.append_assoc]
    exact drop_append_len _ _ (by simp [Spec.xor, Spec.lengthMask, spec_le])
  generalize hw0 : Spec.packet P (K.sendKeys .initiator).1 (K.sendKeys .initiator).2 0 (PacketType.genuine == .decoy)
      ((some aad1).getD []) content = w at *
  have hm := hP.seal_length K.initiatorPacketKey (Spec.packetNonce 0) aad1 (0 :: content)
  have ht := hP.tag_length K.initiatorPacketKey (Spec.packetNonce 0) aad1 (0 :: content)
  have hlen : (w.drop 3).length = content.length + 17 := by rw [List.length_drop]; omega
  have hs : slice w 3 (content.length + 17) = w.drop 3 := by unfold slice; rw [List.take_of_length_le (by omega)]
  have hnon : (FSAead.new K.initiatorPacketKey).nonce = Spec.packetNonce 0 := FSAead.At.nonce (P := P) (FSAead.at_new _)
  obtain ⟨pc, hr, -⟩ := FSAead.At.rekey (prof := prof) (P := P) hP (FSAead.at_new K.initiatorPacketKey) (by decide) aad2
  unfold testAad
  simp only [hK, encrypt_of_toVec he, NUM_LENGTH_BYTES, hl, Outcome.orPanic, Option.bind_eq_bind, Option.bind_some, hlen,
    bufferLen_eq]
  rw [orElsePanic, if_pos (by simp; omega), Option.bind_some, hs, hdrop]
  generalize P.sealC K.initiatorPacketKey (Spec.packetNonce 0) aad1 (0 :: content) = sealed at *
  rw [InboundCipher.decrypt_append hP i1 _ _ _ _ (by rw [hm]; simp) ht,
    if_neg (by rw [zeros, List.length_replicate, hm, List.length_cons]; omega), hpc, hnon]
  have hk : (FSAead.new K.initiatorPacketKey).key = K.initiatorPacketKey := rfl
  rw [hk]
  simp only [Option.getD_some, hr]
  cases ho : P.openC K.initiatorPacketKey (Spec.packetNonce 0) aad2 sealed.1 sealed.2 with
  | none =>
    simp only [Option.bind_none, reduceCtorEq, false_iff]
    rintro ⟨plain, hp⟩
    rw [(hP.open_iff _ _ _ _ _ plain).2 (by rw [hp])] at ho
    cases ho
  | some plain =>
    simp only [Option.bind_some, true_iff]
    exact ⟨plain, (hP.open_iff _ _ _ _ _ plain).1 ho⟩

/-- C76: in particular it passes if both pass the same, as in the test. -/
theorem C76_aad_same (hP : Lawful P) (magic ellA ellB secret : Bytes) {content : Bytes} (hc : content.length < 2 ^ 24)
    (aad : Bytes) : testAad P prof magic ellA ellB secret content aad aad = some () :=
  (C76_aad hP magic ellA ellB secret hc aad aad (testKeys_eq hP magic ellA ellB secret)).2 ⟨_, rfl⟩

/-! ## io.rs -/

/-- No read fails. -/
def NoFail (s : Source) : Prop := ∀ k, .fail k ∉ s

theorem NoFail.read {s s' : Source} {n : Nat} {r : ReadRes} (h : NoFail s) (hr : s.read n = (s', r)) : NoFail s' := by
  induction s with
  | nil => cases hr; exact h
  | cons e s ih =>
    have hs : NoFail s := fun k hk => h k (by simp [hk])
    cases e with
    | pending => exact ih hs hr
    | fail k => exact absurd (by simp) (h k)
    | data bs =>
      rw [Source.read] at hr
      by_cases hle : bs.length ≤ n
      · rw [if_pos hle] at hr
        cases hr
        exact hs
      · rw [if_neg hle] at hr
        cases hr
        intro k hk
        rcases List.mem_cons.1 hk with hk | hk
        · cases hk
        · exact hs k hk

theorem NoFail.readExact {retry : Bool} {s s' : Source} {n : Nat} {acc : Bytes} {r : Except ErrorKind Bytes}
    (h : NoFail s) (hr : Source.reader.readExact retry s n acc = (s', r)) : NoFail s' := by
  fun_induction Reader.readExact Source.reader retry s n acc with
  | case1 s acc => cases hr; exact h
  | case2 s need acc hz s1 heq => cases hr; exact h.read heq
  | case3 s need acc hz s1 b bs heq ih => exact ih (h.read heq) hr
  | case4 s need acc hz s1 k heq hk ih => exact ih (h.read heq) hr
  | case5 s need acc hz s1 k heq hk => cases hr; exact h.read heq

theorem NoFail.sess {A : Api} (B : A.Abs) {retry : Bool} {s s' : A.Session} {n : Nat} {r : Except ErrorKind Bytes}
    (h : NoFail (B.abs s)) (hr : A.reader.readExact retry s n = (s', r)) : NoFail (B.abs s') :=
  h.readExact (readExact_abs B retry s n [] hr)

theorem NoFail.garbageLoop {h : HsSentVersion} {buf : Bytes} {src : Source} (hs : NoFail src)
    {log : List Nat} {g : HsReceivedGarbage} {n : Nat} {buf' : Bytes} {src' : Source}
    (hr : Bip324.garbageLoop h buf src = (log, .ok (g, n, buf', src'))) : NoFail src' := by
  fun_induction Bip324.garbageLoop h buf src generalizing log with
  | case1 => cases hr; exact hs
  | case3 h buf src h' hg src1 b bs heq log1 r1 hrec ih =>
    cases hr
    exact ih (hs.read heq) hrec
  | _ => cases hr

theorem NoFail.versionLoop {A : Api} (B : A.Abs) {h : HsReceivedGarbage} {s : A.Session} (hs : NoFail (B.abs s))
    {log : List Nat} {i : InboundCipher} {o : OutboundCipher} {s' : A.Session}
    (hr : Bip324.versionLoop A P prof h s = (log, .ok (i, o, s'))) : NoFail (B.abs s') := by
  fun_induction Bip324.versionLoop A P prof h s generalizing log with
  | case8 h s s1 lb h1 h2 n hd hle s2 pb h3 x c hv =>
    cases hr
    exact (hs.sess B h1).sess B h3
  | case9 h s s1 lb h1 h2 n hd hle s2 pb h3 x h4 hv log1 r1 hrec ih =>
    cases hr
    exact ih ((hs.sess B h1).sess B h3) hrec
  | _ => cases hr

theorem NoFail.mk {A : Api} (B : A.Abs) {l : Bytes} {src : Source} (h : NoFail src) : NoFail (B.abs (A.mkSession l src)) := by
  rw [B.mk_abs]
  split
  · exact h
  · intro k hk
    rcases List.mem_cons.1 hk with hk | hk
    · cases hk
    · exact h k hk

/-- A reader that does not fail during the handshake does not fail after it. -/
theorem NoFail.handshake {A : Api} (B : A.Abs) {h : HsInitialized} {g : Option Bytes} {d : Option (List Bytes)}
    {src : Source} {w w' : Sink} (hs : NoFail src) {log : HsLog} {i : InboundCipher} {o : OutboundCipher}
    {s : A.Session} (hr : handshakeWithInitialized A P prof h g d src w = (w', log, .ok (i, o, s))) :
    NoFail (B.abs s) := by
  unfold handshakeWithInitialized at hr
  split at hr
  · cases hr
  · cases hr
  split at hr
  · cases hr
  split at hr
  · cases hr
  rename_i src1 _ h1
  split at hr
  · cases hr
  · cases hr
  split at hr
  · cases hr
  · cases hr
  split at hr
  · cases hr
  split at hr
  · cases hr
  rename_i src2 _ h2
  split at hr
  · cases hr
  · cases hr
  rename_i h3
  split at hr
  rename_i h4
  simp only [Prod.mk.injEq] at hr
  obtain ⟨-, -, rfl⟩ := hr
  exact NoFail.versionLoop B (NoFail.mk B (((hs.readExact h1).readExact h2).garbageLoop h3)) h4

/-- `generate_handshake_messages` gives the bytes of a responder. -/
theorem generateMessages_eq (hP : Lawful P) {magic rngI rngR : Bytes} (H : PairKeys P prof magic rngI rngR)
    {g : Option Bytes} {d : Option (List Bytes)} (hg : (g.getD []).length ≤ 4095)
    (hd : (d.getD []).length + 1 < 2 ^ 32) :
    generateMessages P prof magic rngR rngI .responder g d = some (wireR P magic rngI rngR g d) := by
  obtain ⟨K, hterm, -, hrk, -, -, -, hwR⟩ := pair_keys hP H.usableA.1 H.usableB.1 H.notV1A H.notV1B
  obtain ⟨o, ws, hs, hw⟩ := sendAll_handshake (prof := prof) hP K .responder g (d.getD []) hd
  have hv := sendVersion_eq hP ⟨magic, .responder, K, g⟩ (zeros (HsReceivedKey.sendVersionLen d)) d
    (by rw [zeros, List.length_replicate, sendVersionLen_eq]) (hterm .responder) hs
  rw [List.drop_of_length_le (by rw [zeros, List.length_replicate, sendVersionLen_eq]), List.append_nil] at hv
  have hk : HsInitialized.sendKey ⟨magic, .responder, rngR, P.ellswift rngR⟩ g (zeros (HsInitialized.sendKeyLen g))
      = (P.ellswift rngR ++ g.getD [], .ok ⟨magic, .responder, rngR, P.ellswift rngR, g⟩) := by
    cases g with
    | none => rw [Option.getD_none, List.append_nil]; exact plain_sendKey hP magic .responder rngR
    | some g => exact some_sendKey hP magic .responder rngR g hg
  have h64 := hP.ellswift_length
  have e64 : zeros 64 = zeros (HsInitialized.sendKeyLen none) := rfl
  unfold generateMessages
  simp only [newWithRng_ok H.usableA, newWithRng_ok H.usableB, e64, plain_sendKey hP, hk, Outcome.orPanic,
    Option.bind_eq_bind, Option.bind_some, List.take_left' (h64 rngR), List.take_of_length_le (Nat.le_of_eq (h64 rngI)),
    hrk, hv]
  rw [hwR]
  exact congrArg (fun x => some (P.ellswift rngR ++ g.getD [] ++ x)) (hw _)

theorem one_byte {c : Source} {b : UInt8} (hs : Smooth true c) (hf : NoFail c) (hb : c.bytes = [b]) :
    ∃ c', c.read 1 = (c', .ok [b]) := by
  induction c with
  | nil => cases hb
  | cons e c ih =>
    rcases hs e (by simp) with rfl | ⟨x, xs, rfl⟩ | ⟨-, rfl⟩
    · exact ih hs.cons (fun k hk => hf k (by simp [hk])) hb
    · simp only [Source.bytes, List.cons_append, List.cons.injEq, List.append_eq_nil_iff] at hb
      obtain ⟨rfl, rfl, -⟩ := hb
      exact ⟨c, rfl⟩
    · exact absurd (by simp) (hf .interrupted)

theorem streams_one {bs : Bytes} (h : bs ≠ []) : Streams false [.data bs] bs [] := by
  refine ⟨[.data bs], ?_, by simp, by simp [Source.bytes]⟩
  intro e he
  rw [List.mem_singleton] at he
  subst he
  cases bs with
  | nil => exact absurd rfl h
  | cons b bs => exact .inr (.inl ⟨b, bs, rfl⟩)

/-- C76, `test_handshake_session_reader`: whatever the keys, the garbage, the decoys and the byte that follows. -/
theorem C76_session_reader (hP : Lawful P) {magic rngI rngR : Bytes} {g : Option Bytes} {d : Option (List Bytes)}
    (H : HonestPair P prof magic rngI rngR none g none d) (b : UInt8) :
    testSessionReader P prof magic rngI rngR g d b = some () := by
  obtain ⟨iI, -, oI, -, -, -, f, -⟩ := honest_sessions hP H
  have hm := generateMessages_eq hP ⟨H.newI, H.newR, H.magicI, H.magicR⟩ H.garbageR H.countR
  have hstr : Streams false [.data (wireR P magic rngI rngR g d ++ [b])] (wireR P magic rngI rngR g d ++ [b]) [] := by
    exact streams_one (by simp)
  obtain ⟨w', log, s, hh, -, -, c, hc1, hc2, hc3⟩ := f syncApi syncAbs ⟨[], [], []⟩ _ [] .unexpectedEof [b]
    ⟨by simp, by simp⟩ (.inl ⟨rfl, rfl⟩) hstr
  unfold handshake at hh
  rw [newWithRng_ok H.newI] at hh
  simp only at hh
  have hnf : NoFail s.abs := NoFail.handshake syncAbs (by intro k hk; simp at hk) hh
  rw [List.append_nil] at hc2
  obtain ⟨c', hr⟩ := one_byte hc1 (hc2 ▸ hnf) hc3
  cases hread : SyncSession.read s 1 with
  | mk s' r =>
  have := SyncSession.read_abs s 1 s' r (by decide) hread
  rw [show s.abs = c from hc2, hr] at this
  cases this
  unfold testSessionReader
  rw [newWithRng_ok H.newI]
  simp only [Outcome.orPanic, Option.bind_eq_bind, Option.bind_some, hm, hh, hread]
  simp [orElsePanic]

/-- C76, `test_handshake_packet_too_big_protection`: for all keys and all decoys of less than 2^24 bytes, the test passes
exactly if the decoy has more than 3999997 bytes, that is, if its packet without the length field has more than 4000014. -/
theorem C76_too_big (hP : Lawful P) {magic rngI rngR : Bytes} (H : PairKeys P prof magic rngI rngR) {decoy : Bytes}
    (hd : decoy.length < 2 ^ 24) :
    testTooBig P prof magic rngI rngR decoy = some () ↔ 3999997 < decoy.length := by
  have hm := generateMessages_eq hP H (g := none) (d := some [decoy]) (by simp) (by simp)
  have hne : wireR P magic rngI rngR none (some [decoy]) ≠ [] := by
    obtain ⟨K, -, -, -, -, -, -, hwR⟩ := pair_keys hP H.usableA.1 H.usableB.1 H.notV1A H.notV1B
    intro h
    have h64 := hP.ellswift_length rngR
    rw [hwR] at h
    have := congrArg List.length h
    simp only [List.length_append, List.length_nil] at this
    omega
  have hp : ∀ dR : List Bytes, (∀ d ∈ dR, d.length ≤ 3999997) → dR.length ≤ 1 →
      HonestPair P prof magic rngI rngR none none none (some dR) := fun dR h1 h2 =>
    { newI := H.usableA, newR := H.usableB, magicI := H.notV1A, magicR := H.notV1B, garbageI := by simp,
      garbageR := by simp, decoysI := by simp, decoysR := h1, countI := by simp,
      countR := by simp only [Option.getD_some]; omega
      earlyI := by intro i hi; simp at hi, earlyR := by intro i hi; simp at hi }
  have hu : ∀ w, handshakeWithInitialized syncApi P prof ⟨magic, .initiator, rngI, P.ellswift rngI⟩ none none
      [.data (wireR P magic rngI rngR none (some [decoy]))] w = handshake syncApi P prof magic .initiator rngI none none
      [.data (wireR P magic rngI rngR none (some [decoy]))] w := by
    intro w
    unfold handshake
    rw [newWithRng_ok H.usableA]
  unfold testTooBig
  rw [newWithRng_ok H.usableA]
  simp only [Outcome.orPanic, Option.bind_eq_bind, Option.bind_some, hm, hu]
  by_cases hb : 3999997 < decoy.length
  · have := C27_too_big_initiator hP (hp [] (by simp) (by simp)) decoy [] hb hd (by simp) (.inl rfl) ⟨[], [], []⟩
      ⟨by simp, by simp⟩ [.data (wireR P magic rngI rngR none (some [decoy]))] [] .unexpectedEof [] (.inl ⟨rfl, rfl⟩)
      (by rw [List.append_nil]; exact streams_one hne)
    rw [this]
    simp [hb]
  · obtain ⟨iI, -, oI, -, -, -, f, -⟩ := honest_sessions hP
      (hp [decoy] (by intro d h; rw [List.mem_singleton] at h; subst h; omega) (by simp))
    obtain ⟨w', log, s, hh, -⟩ := f syncApi syncAbs ⟨[], [], []⟩
      [.data (wireR P magic rngI rngR none (some [decoy]))] [] .unexpectedEof []
      ⟨by simp, by simp⟩ (.inl ⟨rfl, rfl⟩) (by rw [List.append_nil]; exact streams_one hne)
    rw [hh]
    simp [hb]

/-! ## round_trips.rs -/

/-- C76, `regtest_handshake_v1_only`: on a connection that takes what is written and delivers these bytes before it ends,
the test panics (and so passes) exactly if the secret key is not usable or less than 64 bytes arrive.  The bytes themselves
are not looked at. -/
theorem C76_v1_only (hP : Lawful P) {magic rng : Bytes} {src tail : Source} {k : ErrorKind} {bs : Bytes} {w : Sink}
    (hw : w.Reliable true) (he : EndsWith true tail k) (hs : Streams true src bs tail) :
    testV1Only P prof magic rng src w = none ↔ ¬ Spec.UsableKey P prof rng ∨ bs.length < 64 := by
  by_cases hu : Spec.UsableKey P prof rng
  · obtain ⟨w', h1, -⟩ := send_reliable hw (P.ellswift rng)
    obtain ⟨f1, f2⟩ := readExact_streams (fun _ => rfl) he hs 64 []
    unfold testV1Only
    rw [newWithRng_ok hu]
    simp only [Outcome.orPanic, Option.bind_eq_bind, Option.bind_some, plain_sendKey hP, h1]
    by_cases hl : bs.length < 64
    · obtain ⟨s', h2⟩ := f2 hl
      simp [h2, hl]
    · obtain ⟨s', h2, -⟩ := f1 (by omega)
      simp only [h2, hl, or_false, not_not]
      exact ⟨fun h => by simp at h, fun h => absurd hu h⟩
  · refine ⟨fun _ => .inl hu, fun _ => ?_⟩
    unfold testV1Only
    rw [(new_orPanic (P := P) (prof := prof) magic .initiator rng).resolve_right hu]
    rfl

/-! ## The traffic crate -/

/-- C76, `test_traffic_stats_recording`: for any clock that shows times after the epoch, the test passes exactly if less
than 100 ms are between the second record and the question; a clock set back in between does not matter. -/
theorem C76_stats {c0 c1 c2 c3 : Int} (h0 : 0 ≤ c0) (h1 : 0 ≤ c1) (h2 : 0 ≤ c2 ∧ c2 < 2 ^ 64) (h3 : 0 ≤ c3 ∧ c3 < 2 ^ 64)
    (read written : Nat) :
    testStats c0 c1 c2 c3 read written = some () ↔ c3 < c2 + 100 := by
  have e : ∀ c : Int, 0 ≤ c → nowMs c = some (c.toNat % u64Mod) := fun c h => by
    unfold nowMs; rw [if_neg (by omega)]
  have m2 : c2.toNat % u64Mod = c2.toNat := Nat.mod_eq_of_lt (by unfold u64Mod; omega)
  have m3 : c3.toNat % u64Mod = c3.toNat := Nat.mod_eq_of_lt (by unfold u64Mod; omega)
  unfold testStats Stats.new Stats.timeSinceLastActivity
  rw [e c0 h0, e c1 h1, e c2 h2.1, e c3 h3.1, m2, m3]
  simp only [RecordCall.ops, List.foldl_cons, List.foldl_nil, Stats.apply, Option.bind_eq_bind, Option.bind_some,
    orElsePanic]
  by_cases h : c3 < c2 + 100
  · rw [if_pos (by rw [decide_eq_true_eq]; omega)]
    simp [h]
  · rw [if_neg (by rw [decide_eq_true_eq]; omega)]
    simp [h]

/-- C76, the three tests of `TrafficShaper::handshake`: they pass for every configuration and every generator. -/
theorem C76_shaper_handshake {R : Rng} (config : TrafficConfig) (rng : R.State) :
    testShaperHandshake config rng = some () := by
  cases h : (Shaper.mk (R := R) config rng).handshake with
  | mk s x =>
  obtain ⟨g, d, r⟩ := x
  obtain ⟨h1, -, -, h4, h5⟩ := C37_handshake h
  unfold testShaperHandshake
  simp only [h]
  have e1 : (g.isSome == (config.padding == .random)) = true := by
    cases hp : config.padding with
    | disabled => rw [h4.1 hp]; rfl
    | random =>
      cases g with
      | none => rw [h4.2 rfl] at hp; cases hp
      | some g => rfl
  have e2 : (d.isSome == (config.decoy == .random)) = true := by
    cases hp : config.decoy with
    | disabled => rw [h5.1 hp]; rfl
    | random =>
      cases d with
      | none => rw [h5.2 rfl] at hp; cases hp
      | some g => rfl
  rw [e1, e2, decide_eq_true h1]
  rfl

/-- C76, `test_traffic_shaper_padding_disabled`: passes whatever the generator, the decoy strategy and the payload. -/
theorem C76_padding_disabled {R : Rng} (decoy : DecoyStrategy) (rng : R.State) (contents : Bytes) :
    testPaddingDisabled (R := R) decoy rng contents = some () := rfl

/-- C76, `test_protocol_drop`: with an empty reader there never is a protocol to drop, whatever the key, the configuration,
the generator and the writer; if the key is usable and the writer takes everything, there is the error that suggests a
retry with V1. -/
theorem C76_protocol_drop {R : Rng} (hP : Lawful P) (magic rngBytes : Bytes) (config : TrafficConfig) (rng : R.State)
    (w : Sink) :
    (∀ s, testProtocolDrop P prof magic rngBytes config rng w ≠ .ok s) ∧
      (Spec.UsableKey P prof rngBytes → w.Reliable true →
        testProtocolDrop P prof magic rngBytes config rng w = .err (.io .unexpectedEof .retryV1)) := by
  have hre : Source.reader.readExact true [] NUM_ELLIGATOR_SWIFT_BYTES = ([], .error .unexpectedEof) := by
    rw [Reader.readExact_eq, if_neg (by decide)]
    rfl
  constructor
  · intro s h
    unfold testProtocolDrop ShapedSys.new at h
    split at h
    split at h
    · cases h
    · cases h
    · rename_i hp
      unfold SyncProtocol.new at hp
      split at hp
      · cases hp
      · cases hp
      · rename_i hh
        unfold handshake at hh
        split at hh
        · cases hh
        · cases hh
        · unfold handshakeWithInitialized at hh
          split at hh
          · cases hh
          · cases hh
          split at hh
          · cases hh
          rw [show syncApi.retry = true from rfl, hre] at hh
          cases hh
  · intro hu hw
    cases hs : (Shaper.mk (R := R) config rng).handshake with
    | mk s x =>
    obtain ⟨g, d, r⟩ := x
    obtain ⟨h1, -⟩ := C37_handshake hs
    unfold testProtocolDrop ShapedSys.new
    rw [hs]
    have hk : ∃ b h, HsInitialized.sendKey ⟨magic, .initiator, rngBytes, P.ellswift rngBytes⟩ g
        (zeros (HsInitialized.sendKeyLen g)) = (b, .ok h) := by
      cases g with
      | none => exact ⟨_, _, plain_sendKey hP magic .initiator rngBytes⟩
      | some g => exact ⟨_, _, some_sendKey hP magic .initiator rngBytes g h1⟩
    obtain ⟨b, h, hk⟩ := hk
    obtain ⟨w', hw', -⟩ := send_reliable hw b
    have : handshake syncApi P prof magic .initiator rngBytes g d [] w = (w', ⟨[], []⟩, .err (.io .unexpectedEof .retryV1)) := by
      unfold handshake
      rw [newWithRng_ok hu]
      simp only
      unfold handshakeWithInitialized
      rw [hk]
      simp only [show syncApi.retry = true from rfl, hw', hre]
      rfl
    unfold SyncProtocol.new
    simp only [this]

/-! ## Samples -/

section Samples

abbrev unitKeyA : Bytes := leBytes 32 77

abbrev unitKeyB : Bytes := leBytes 32 99

example : PairKeys toy .debug [1, 2, 3, 4] unitKeyA unitKeyB ∧
    NoEarlyTerminator ((Spec.terminators toy [1, 2, 3, 4] unitKeyA unitKeyB).take 16) [] ∧
    testHandshake toy .debug [1, 2, 3, 4] unitKeyA unitKeyB [] [] [[7], [8, 9]] [[6]] = some () ∧
    testHandshake toy .debug ((toy.ellswift unitKeyB).take 4) unitKeyA unitKeyB [] [] [[7], [8, 9]] [[6]] = none :=
  ⟨⟨by decide +kernel, by decide +kernel, by decide +kernel, by decide +kernel⟩, by intro i h; simp at h,
    by decide +kernel, by decide +kernel⟩

example : testSendKey toy .debug [1, 2, 3, 4] unitKeyA unitKeyB unitKeyA unitKeyB [1] (zeros 4096) = some () := by decide +kernel

example : testGarbageBuffer toy .debug [1, 2, 3, 4] unitKeyA unitKeyB 10 15 = some () ∧
    testGarbageBuffer toy .debug [1, 2, 3, 4] unitKeyA unitKeyB 10 16 = none := by decide +kernel

example : testV1 toy .debug [1, 2, 3, 4] [5, 6, 7, 8] unitKeyA unitKeyB (zeros 60) = some () := by decide +kernel

example : testCipherSession toy .debug [1, 2, 3, 4] (toy.ellswift unitKeyA) (toy.ellswift unitKeyB) unitKeyA [1] [2, 3]
    .genuine .decoy = some () := by decide +kernel

example : testMinLength toy .debug [1, 2, 3, 4] [1] [2] unitKeyA (zeros 16) [] = some () ∧
    testMinLength toy .debug [1, 2, 3, 4] [1] [2] unitKeyA (zeros 17) [] = none := by decide +kernel

example : testToVecTooBig toy .debug [1, 2, 3, 4] [1] [2] unitKeyA (zeros 17) = none := by decide +kernel

example : ∃ ciphertext : Bytes, 16 ≤ ciphertext.length ∧ 4000030 < ciphertext.length :=
  ⟨List.replicate 4000031 0, by rw [List.length_replicate]; decide, by rw [List.length_replicate]; decide⟩

example : testFuzzPackets toy .debug [1, 2, 3, 4] [1] [2] unitKeyA [([1], [2]), ([], [3, 4])] = some () := by
  decide +kernel

/-- The toy AEAD authenticates the AAD: with another one the test would fail. -/
example : testAad toy .debug [1, 2, 3, 4] [1] [2] unitKeyA [5] [1, 2, 3] [1, 2, 3] = some () ∧
    testAad toy .debug [1, 2, 3, 4] [1] [2] unitKeyA [5] [1, 2, 3] [3, 2, 1, 9] = none := by decide +kernel

example : testSessionReader toy .debug [1, 2, 3, 4] unitKeyA unitKeyB (some []) (some [[7, 8]]) 0x42 = some () := by
  decide +kernel

example : testTooBig toy .debug [1, 2, 3, 4] unitKeyA unitKeyB [7, 8] = none := by decide +kernel

example : ∃ decoy : Bytes, decoy.length < 2 ^ 24 ∧ 3999997 < decoy.length :=
  ⟨List.replicate 4000015 0, by rw [List.length_replicate]; decide, by rw [List.length_replicate]; decide⟩

/-- A peer that answers 64 bytes, of whatever kind, and one that hangs up. -/
example : testV1Only toy .debug [1, 2, 3, 4] unitKeyA [.data (zeros 64)] ⟨[], [], []⟩ = some (zeros 64) ∧
    testV1Only toy .debug [1, 2, 3, 4] unitKeyA [.data (zeros 63)] ⟨[], [], []⟩ = none := by decide +kernel

example : testStats 0 5 10 109 100 50 = some () ∧ testStats 0 5 10 110 100 50 = none ∧
    testStats 0 5 10 3 100 50 = some () ∧ testStats 0 (-1) 10 12 100 50 = none := by decide

end Samples

end Bip324
