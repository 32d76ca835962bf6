import Verif.Lemmas.Judge
import Verif.Props.Reference
import Verif.Props.Transcript

/-!
# Every stream, judged by the library and by the reference implementation: C62

Here nothing is assumed of the peer: it may send any bytes.  What the handshake and the session make of them is
determined for the library and for the reference implementation in the text of BIP-324, and so are the streams
on which they part.
-/

namespace Bip324

open Ref (versionWord)

variable {P : Prims} {prof : Profile}

/-! ## Specification -/

/-- The rules of the library in the handshake: no packet with more than 4000014 bytes after its length, of which
17 are the header and the tag; only the header 0x80 is that of a decoy; 4095 bytes of garbage and 16 of the
terminator. -/
def libRules : Spec.Rules := ⟨3999997, fun h => h == 0x80, 4095 + 16⟩

/-- The error with which a verdict ends the handshake of the library, when the stream ends with `k`. -/
def Spec.Verdict.error (k : ErrorKind) : Spec.Verdict → Option ProtocolError
  | .waits => some (.fromIo k)
  | .noTerminator => some (.internal .noGarbageTerminator)
  | .tooBig => some (.internal .packetTooBig)
  | .forged => some (.internal .decryption)
  | .complete .. => none

/-- The handshake of the library comes to what the verdict says: the error, or a session on what is left of the
stream, with the ciphers at these numbers. -/
def LibFollows {A : Api} (B : A.Abs) (P : Prims) (tail : Source) (k : ErrorKind)
    (D : (Bytes × Bytes × Bytes) × (Bytes × Bytes × Bytes)) (sent : Nat) (v : Spec.Verdict)
    (r : Outcome ProtocolError (InboundCipher × OutboundCipher × A.Session)) : Prop :=
  match v with
  | .complete next rest => ∃ i o s, r = .ok (i, o, s) ∧ i.At P D.2.1 D.2.2.1 next ∧ o.At P D.1.1 D.1.2.1 sent ∧
      SessStreams B s rest tail
  | v => ∃ e, v.error k = some e ∧ r = .err e

/-- The reference implementation comes to what the verdict says. -/
def RefFollows (P : Prims) (D : (Bytes × Bytes × Bytes) × (Bytes × Bytes × Bytes)) (sent : Nat)
    (v : Spec.Verdict) (s : Ref.Status) : Prop :=
  match v with
  | .waits => s = .waiting
  | .noTerminator => s = .disconnected
  | .forged => s = .disconnected
  | .tooBig => False
  | .complete next rest => ∃ t, s = .ready t rest ∧ t.SendAt P D.1.1 D.1.2.1 sent ∧ t.RecvAt P D.2.1 D.2.2.1 next

/-! ## The library -/

theorem libRules_stricter : Stricter libRules :=
  ⟨by decide, fun h hh => by rw [beq_iff_eq.1 hh]; decide, by decide, by decide⟩

/-- The verdict of the library on the packets of the handshake. -/
def FlatFollows (P : Prims) (kL kP : Bytes) (o : OutboundCipher) (v : Spec.Verdict)
    (f : Option (Outcome ProtocolError (InboundCipher × OutboundCipher × Bytes))) : Prop :=
  match v with
  | .waits => f = none
  | .noTerminator => f = some (.err (.internal .noGarbageTerminator))
  | .tooBig => f = some (.err (.internal .packetTooBig))
  | .forged => f = some (.err (.internal .decryption))
  | .complete next rest => ∃ i, i.At P kL kP next ∧ f = some (.ok (i, o, rest))

theorem flatVersion_verdict (hP : Lawful P) {kL kP : Bytes} : ∀ (len : Nat) {n : Nat} {h : HsReceivedGarbage}
    {bs : Bytes}, bs.length = len → h.cipher.inbound.At P kL kP n → n + len / 20 + 1 < 2 ^ 32 →
    ∃ v, Spec.JudgePackets libRules P kL kP n (h.remoteGarbage.getD []) bs v ∧
      FlatFollows P kL kP h.cipher.outbound v (flatVersion P prof h bs) := by
  intro len
  induction len using Nat.strongRecOn with
  | ind len ih =>
  intro n h bs hlen hat hn
  have hlong : libRules.longest = 3999997 := rfl
  by_cases h3 : bs.length < 3
  · refine ⟨.waits, .waits (.inl h3), ?_⟩
    show flatVersion P prof h bs = none
    rw [flatVersion, if_pos h3]
  obtain ⟨i1, l, hl, hd, hh, hx⟩ := decryptPacketLen_at (prof := prof) hat (by omega) (bs.take 3)
    (by rw [List.length_take]; omega)
  have ha : Spec.Announces P kL n bs l := ⟨hl, hx⟩
  have hmax : MAX_PACKET_SIZE_FOR_ALLOCATION = 4000014 := rfl
  by_cases hbig : l + 17 > 4000014
  · refine ⟨.tooBig, .tooBig ⟨l, ha, by omega⟩, ?_⟩
    show flatVersion P prof h bs = some (.err (.internal .packetTooBig))
    rw [flatVersion, if_neg h3]
    simp only [HsReceivedGarbage.decryptPacketLen, hd]
    rw [if_pos (by omega)]
  by_cases hshort : (bs.drop 3).length < l + 17
  · refine ⟨.waits, .waits (.inr ⟨l, ha, by omega, by rw [List.length_drop] at hshort; omega⟩), ?_⟩
    show flatVersion P prof h bs = none
    rw [flatVersion, if_neg h3]
    simp only [HsReceivedGarbage.decryptPacketLen, hd]
    rw [if_neg (by omega), if_pos hshort]
  have hct : ((bs.drop 3).take (l + 17)).length = l + 17 := by rw [List.length_take]; omega
  have hdl := List.length_drop (i := 3) (l := bs)
  rcases receiveVersion_at (prof := prof) (h := { h with cipher := { h.cipher with inbound := i1 } }) hP hh
    (by omega) ((bs.drop 3).take (l + 17)) (by omega) with ⟨header, contents, i', buf, he, hi', hv⟩ | ⟨hno, hv⟩
  · have hcl : contents.length = l := by
      have := congrArg List.length he
      rw [hct, sealedPart_length hP] at this
      omega
    have hbs : bs = Spec.rawPacket P kL kP n header (h.remoteGarbage.getD []) contents ++ (bs.drop 3).drop (l + 17) := by
      rw [rawPacket_eq, hcl, ← hx]
      have e2 : Spec.sealedPart P kP n header (h.remoteGarbage.getD []) contents = (bs.drop 3).take (l + 17) := he.symm
      rw [e2, List.append_assoc, List.take_append_drop, List.take_append_drop]
    have hrest : ((bs.drop 3).drop (l + 17)).length = bs.length - (l + 20) := by
      rw [List.length_drop, List.length_drop]; omega
    by_cases h80 : header = 0x80
    · obtain ⟨v, hj, hf⟩ := ih _ (by omega)
        (h := { h with cipher := { h.cipher with inbound := i' }, remoteGarbage := none }) (n := n + 1)
        hrest hi' (by omega)
      refine ⟨v, ?_, ?_⟩
      · rw [hbs]
        exact .decoy (by rw [h80]; rfl) (by omega) (by omega) hj
      · have : flatVersion P prof h bs = flatVersion P prof
            { h with cipher := { h.cipher with inbound := i' }, remoteGarbage := none } ((bs.drop 3).drop (l + 17)) := by
          conv => lhs; unfold flatVersion
          rw [if_neg h3]
          simp only [HsReceivedGarbage.decryptPacketLen, hd]
          rw [if_neg (by omega), if_neg hshort]
          simp only [hv, if_pos h80]
        rw [this]
        exact hf
    · refine ⟨.complete (n + 1) ((bs.drop 3).drop (l + 17)), ?_, i', hi', ?_⟩
      · conv => arg 7; rw [hbs]
        exact .version (by simpa [libRules] using h80) (by omega) (by omega)
      · rw [flatVersion, if_neg h3]
        simp only [HsReceivedGarbage.decryptPacketLen, hd]
        rw [if_neg (by omega), if_neg hshort]
        simp only [hv, if_neg h80]
  · refine ⟨.forged, .forged ⟨l, ha, by omega, by omega, hno⟩, ?_⟩
    show flatVersion P prof h bs = some (.err (.internal .decryption))
    rw [flatVersion, if_neg h3]
    simp only [HsReceivedGarbage.decryptPacketLen, hd]
    rw [if_neg (by omega), if_neg hshort]
    simp only [hv]

theorem flatPeer_verdict (hP : Lawful P) {keys : Bytes × Bytes × Bytes} (h : HsSentVersion)
    (ht : h.remoteTerminator = keys.2.2) (h16 : keys.2.2.length = 16)
    (hat : h.cipher.inbound.At P keys.1 keys.2.1 0) {bs : Bytes} (hn : bs.length < 2 ^ 36) :
    ∃ v, Spec.Judge libRules P keys bs v ∧
      FlatFollows P keys.1 keys.2.1 h.cipher.outbound v (flatPeer P prof h bs) := by
  have hl : h.remoteTerminator.length = 16 := by rw [ht]; exact h16
  have hp : libRules.patience = 4111 := rfl
  unfold flatPeer
  cases hg : h.receiveGarbage bs with
  | panic => exact absurd hg (C21_no_panic h bs)
  | err e =>
    obtain ⟨rfl, a, b⟩ := (C21_no_terminator h hl bs e).1 hg
    rw [ht] at b
    exact ⟨.noTerminator, .noTerminator b (by omega), rfl⟩
  | ok x =>
    cases x with
    | needMoreData h' =>
      obtain ⟨-, a, b⟩ := (C21_need_more h hl bs h').1 hg
      rw [ht] at b
      exact ⟨.waits, .waits b (by omega), rfl⟩
    | foundGarbage h' m =>
      obtain ⟨i, hi, hocc, hmin, rfl, hgar, -, hc, -⟩ := (C21_found h hl bs h' m).1 hg
      rw [ht] at hocc hmin
      obtain ⟨g, rest, rfl, rfl⟩ := hocc
      rw [List.append_assoc, List.take_left] at hgar
      obtain ⟨v, hj, hf⟩ := flatVersion_verdict (prof := prof) hP (kL := keys.1) (kP := keys.2.1) rest.length (n := 0)
        (h := h') rfl (by rw [hc]; exact hat) (by simp only [List.length_append] at hn; omega)
      refine ⟨v, .garbage hi ?_ (by rw [hgar] at hj; exact hj), ?_⟩
      · intro j hj ho
        exact hmin j hj (occursAt_append ho)
      · simp only
        rw [show g.length + 16 = (g ++ keys.2.2).length by rw [List.length_append, h16], List.drop_left, ← hc]
        exact hf

theorem take_four {bs magic : Bytes} : (bs.take 64).take 4 = magic ↔ bs.take 4 = magic := by
  rw [List.take_take]; rfl

/-- The handshake of the library on any stream. -/
theorem handshake_verdict {A : Api} (B : A.Abs) (hP : Lawful P) {magic rng : Bytes} {role : Role}
    {g : Option Bytes} {d : Option (List Bytes)} {reader tail : Source} {k : ErrorKind} {writer : Sink}
    (hnew : Spec.UsableKey P prof rng) (hg : (g.getD []).length ≤ 4095) (hd : (d.getD []).length + 1 < 2 ^ 32)
    (hw : writer.Reliable A.retry) (hend : EndsWith A.retry tail k) {bs : Bytes} (hn : bs.length < 2 ^ 36)
    (hs : Streams false reader bs tail) :
    ∃ w' log r, handshake A P prof magic role rng g d reader writer = (w', log, r) ∧
      (bs.length < 64 → w'.out = writer.out ++ (P.ellswift rng ++ g.getD []) ∧ r = .err (.fromIo k)) ∧
      (64 ≤ bs.length → bs.take 4 = magic →
        w'.out = writer.out ++ (P.ellswift rng ++ g.getD []) ∧ r = .err (.internal .v1Protocol)) ∧
      (64 ≤ bs.length → bs.take 4 ≠ magic →
        let D := Spec.directions P magic (P.ellswift rng) (bs.take 64) rng role.initiating
        w'.out = writer.out ++ Spec.ownTranscript P D.1 (P.ellswift rng) (g.getD []) (d.getD []) ∧
        ∃ v, Spec.Judge libRules P D.2 (bs.drop 64) v ∧ LibFollows B P tail k D ((d.getD []).length + 1) v r) := by
  obtain ⟨f1, f2⟩ := handshake_flat (prof := prof) B hP hend ⟨magic, role, rng, P.ellswift rng⟩ g d reader _ hs writer
  have hh : handshake A P prof magic role rng g d reader writer
      = handshakeWithInitialized A P prof ⟨magic, role, rng, P.ellswift rng⟩ g d reader writer := by
    unfold handshake
    rw [newWithRng_ok hnew]
  rw [hh]
  generalize handshakeWithInitialized A P prof ⟨magic, role, rng, P.ellswift rng⟩ g d reader writer = R at f1 f2
  obtain ⟨w', log, r⟩ := R
  obtain ⟨w1, hw1, ho1, -⟩ := send_reliable hw (P.ellswift rng ++ g.getD [])
  have hkey : flatHandshake A.retry P prof ⟨magic, role, rng, P.ellswift rng⟩ g d bs writer =
      if bs.length < 64 then (w1, none)
      else if bs.take 4 = magic then (w1, some (.err (.internal .v1Protocol)))
      else flatHandshake A.retry P prof ⟨magic, role, rng, P.ellswift rng⟩ g d bs writer := by
    by_cases h64 : bs.length < 64
    · rw [if_pos h64]
      unfold flatHandshake
      rw [sendKey_full _ (hP.ellswift_length rng), if_neg (by omega)]
      simp only [hw1]
      rw [if_pos h64]
    · rw [if_neg h64]
      by_cases h4 : bs.take 4 = magic
      · rw [if_pos h4]
        unfold flatHandshake
        rw [sendKey_full _ (hP.ellswift_length rng), if_neg (by omega)]
        simp only [hw1]
        rw [if_neg h64, receiveKey_eq hP, if_pos (take_four.2 h4)]
      · rw [if_neg h4]
  refine ⟨w', log, r, rfl, ?_, ?_, ?_⟩
  · intro h64
    rw [if_pos h64] at hkey
    rw [hkey] at f1 f2
    exact ⟨by rw [show w' = w1 from f1, ho1], f2⟩
  · intro h64 h4
    rw [if_neg (by omega), if_pos h4] at hkey
    rw [hkey] at f1 f2
    exact ⟨by rw [show w' = w1 from f1, ho1], f2⟩
  · intro h64 h4 D
    obtain ⟨hk, htl, htr, hin⟩ := peerKeys_directions (P := P) magic (P.ellswift rng) (bs.take 64) rng role
    have ht16 := peerKeys_terminators hP magic (P.ellswift rng) (bs.take 64) rng role
    have hterm16 : D.2.2.2.length = 16 := by
      rw [← htr]
      cases role
      · exact ht16 .responder
      · exact ht16 .initiator
    obtain ⟨o', ws, hsa, hwb⟩ := sendAll_handshake (prof := prof) hP
      (peerKeys P magic (P.ellswift rng) (bs.take 64) rng role) role g (d.getD []) hd
    have hat := sendAll_handshake_at hP (peerKeys P magic (P.ellswift rng) (bs.take 64) rng role) role g
      (d.getD []) hd hsa
    obtain ⟨w1, w2, -, -, -, hw2, -, hlong⟩ := flatHandshake_reach hP ⟨magic, role, rng, P.ellswift rng⟩
      (hP.ellswift_length _) (bs.take 64) (by rw [List.length_take]; omega)
      (peerKeys P magic (P.ellswift rng) (bs.take 64) rng role) ht16
      (fun g => by rw [receiveKey_eq hP, if_neg (fun h => h4 (take_four.1 h))]) g d hg hsa A.retry writer hw
    have hx := hlong (bs.drop 64)
    rw [List.take_append_drop] at hx
    rw [hx] at f1 f2
    obtain ⟨v, hj, hf⟩ := flatPeer_verdict (prof := prof) hP (keys := D.2)
      (HsInitialized.sentVersion ⟨magic, role, rng, P.ellswift rng⟩
        (peerKeys P magic (P.ellswift rng) (bs.take 64) rng role) o') htr hterm16
      (by show InboundCipher.At P D.2.1 D.2.2.1 0 (CipherSession.new _ role).inbound
          rw [hin]
          exact ⟨FSStream.at_new _, FSAead.at_new _⟩)
      (bs := bs.drop 64) (by rw [List.length_drop]; omega)
    refine ⟨?_, v, hj, ?_⟩
    · have := hwb ((peerKeys P magic (P.ellswift rng) (bs.take 64) rng role).localTerminator role)
      show w'.out = _
      rw [show w' = w2 from f1, hw2]
      show writer.out ++ (P.ellswift rng ++ g.getD [] ++
        ((peerKeys P magic (P.ellswift rng) (bs.take 64) rng role).localTerminator role ++ ws.flatten)) = _
      rw [this, hk, htl]
      rfl
    · revert hf f2
      generalize flatPeer P prof _ (bs.drop 64) = f
      intro f2 hf
      cases v with
      | waits => subst hf; exact ⟨_, rfl, f2⟩
      | noTerminator => subst hf; exact ⟨_, rfl, f2⟩
      | tooBig => subst hf; exact ⟨_, rfl, f2⟩
      | forged => subst hf; exact ⟨_, rfl, f2⟩
      | complete m rest =>
        obtain ⟨i, hi, rfl⟩ := hf
        obtain ⟨s, rfl, hss⟩ := f2
        exact ⟨i, o', s, rfl, hi, by rw [hk] at hat; exact hat, hss⟩

/-! ## The reference implementation -/

theorem judge_decoys {r : Spec.Rules} {kL kP : Bytes} (ds : List (UInt8 × Bytes)) {v : Spec.Verdict} {rest : Bytes} :
    ∀ {n : Nat} {aad : Bytes},
    (∀ d ∈ ds, r.decoy d.1 = true ∧ d.2.length ≤ r.longest ∧ d.2.length < 2 ^ 24) →
    Spec.JudgePackets r P kL kP (n + ds.length) (if ds = [] then aad else []) rest v →
    Spec.JudgePackets r P kL kP n aad (Spec.packetStream P kL kP n aad ds ++ rest) v := by
  induction ds with
  | nil =>
    intro n aad _ h
    rw [if_pos rfl, List.length_nil, Nat.add_zero] at h
    exact h
  | cons d ds ih =>
    intro n aad hds h
    obtain ⟨h1, h2, h3⟩ := hds d (by simp)
    rw [packetStream_one, List.append_assoc]
    refine .decoy h1 h2 h3 (ih (fun x hx => hds x (List.mem_cons_of_mem _ hx)) ?_)
    rw [if_neg (List.cons_ne_nil _ _), List.length_cons, show n + (ds.length + 1) = n + 1 + ds.length by omega] at h
    rw [ite_self]
    exact h

theorem bip_genuine {h : UInt8} (hh : h &&& 0x80 = 0) : Spec.bipRules.decoy h = false := by
  cases hx : Spec.bipRules.decoy h with
  | false => rfl
  | true => exact absurd hh ((bip_decoy _).1 hx)

/-- The reference implementation on any stream that begins with a key which it does not take for a V1 message. -/
theorem reference_verdict (hP : Lawful P) {magic : Bytes} (hm : magic.length = 4) (p : Ref.Peer) {key : Bytes}
    (h64 : key.length = 64) (hv : p.initiating = false → (key.drop 4).take 12 ≠ versionWord) (bs : Bytes) :
    let D := Spec.directions P magic (P.ellswift p.sk) key p.sk p.initiating
    (Ref.run P magic p (key ++ bs)).1 = Spec.ownTranscript P D.1 (P.ellswift p.sk) p.garbage p.decoys ∧
    ∃ v, Spec.Judge Spec.bipRules P D.2 bs v ∧
      RefFollows P D (p.decoys.length + 1) v (Ref.run P magic p (key ++ bs)).2 := by
  intro D
  have hlong : Spec.bipRules.longest = 2 ^ 24 - 1 := rfl
  rw [Ref.run_key hm p h64 hv]
  obtain ⟨h1, h2⟩ := Ref.complete_at hP hm p h64 hv bs
  refine ⟨by rw [h1]; rfl, ?_⟩
  simp only
  generalize (Ref.completeHandshake P magic p (key ++ bs)).2 = st at h2
  rcases h2 with ⟨g, ds, version, rest, t, hb, ha, he, hs, hr⟩ | ⟨a, b, c⟩ | ⟨a, b, c⟩ |
    ⟨g, ds, rest, hb, hg, hf, hds, hx⟩
  · refine ⟨.complete (ds.length + 1) rest, ?_, t, he, hs, hr⟩
    rw [hb, List.append_assoc (g ++ _)]
    refine .garbage ha.garbageLength ha.firstTerminator ?_
    rw [stream_append, List.append_assoc]
    refine judge_decoys ds (fun d hd => ⟨(bip_decoy _).2 (ha.decoyHeader d hd), ?_, ha.decoyLength d hd⟩) ?_
    · have := ha.decoyLength d hd
      omega
    · simp only [Spec.packetStream, List.append_nil, Nat.zero_add]
      have := ha.versionLength
      exact .version (bip_genuine ha.versionHeader) (by omega) ha.versionLength
  · exact ⟨.waits, .waits a b, c⟩
  · exact ⟨.noTerminator, .noTerminator a b, c⟩
  · have hds' : ∀ d ∈ ds, Spec.bipRules.decoy d.1 = true ∧ d.2.length ≤ Spec.bipRules.longest ∧
        d.2.length < 2 ^ 24 := fun d hd => by
      have := (hds d hd).2
      exact ⟨(bip_decoy _).2 (hds d hd).1, by omega, this⟩
    rw [hb, List.append_assoc (g ++ _)]
    rcases hx with ⟨hx, he⟩ | ⟨hx, he⟩
    · refine ⟨.waits, .garbage hg hf (judge_decoys ds hds' (.waits ?_)), he⟩
      rw [Nat.zero_add]
      rcases hx with hx | ⟨len, a, b, c⟩
      · exact .inl hx
      · exact .inr ⟨len, ⟨a, b⟩, by omega, c⟩
    · refine ⟨.forged, .garbage hg hf (judge_decoys ds hds' (.forged ?_)), he⟩
      rw [Nat.zero_add]
      obtain ⟨len, a, b, c, d⟩ := hx
      exact ⟨len, ⟨a, b⟩, by omega, c, d⟩

theorem judge_decoys_inv (hP : Lawful P) {r : Spec.Rules} {kL kP : Bytes} (ds : List (UInt8 × Bytes))
    {v : Spec.Verdict} {rest : Bytes} : ∀ {n : Nat} {aad : Bytes},
    (∀ d ∈ ds, r.decoy d.1 = true ∧ d.2.length ≤ r.longest ∧ d.2.length < 2 ^ 24) →
    Spec.JudgePackets r P kL kP n aad (Spec.packetStream P kL kP n aad ds ++ rest) v →
    Spec.JudgePackets r P kL kP (n + ds.length) (if ds = [] then aad else []) rest v := by
  induction ds with
  | nil =>
    intro n aad _ h
    rw [if_pos rfl, List.length_nil, Nat.add_zero]
    exact h
  | cons d ds ih =>
    intro n aad hds h
    obtain ⟨h1, h2, h3⟩ := hds d (by simp)
    rw [packetStream_one, List.append_assoc] at h
    rcases JudgePackets.inv h with ⟨-, x⟩ | ⟨-, x⟩ | ⟨-, x⟩ | ⟨_, _, _, a, b, c, e⟩
    · exact (incomplete_raw hP h3 x).elim
    · exact (tooLong_raw h3 h2 x).elim
    · exact (notSealed_raw hP h3 x).elim
    obtain ⟨e1, e2, rfl⟩ := Ref.raw_unique hP h3 b c
    rcases e with ⟨-, e⟩ | ⟨e, -⟩
    · have := ih (fun x hx => hds x (List.mem_cons_of_mem _ hx)) e
      rw [if_neg (List.cons_ne_nil _ _), List.length_cons, show n + (ds.length + 1) = n + 1 + ds.length by omega]
      rw [ite_self] at this
      exact this
    · rw [← e1, h1] at e; cases e

/-! ## The three kinds of divergent streams -/

theorem judge_divergent (hP : Lawful P) {r : Spec.Rules} (hr : Stricter r) {keys : Bytes × Bytes × Bytes}
    {bs : Bytes} {v v' : Spec.Verdict} (h : Spec.Judge r P keys bs v)
    (h' : Spec.Judge Spec.bipRules P keys bs v') (hd : Spec.Divergent r P keys bs) :
    (v = .noTerminator ∧ v' = .waits ∧ r.patience ≤ bs.length ∧ bs.length < 4112) ∨ v = .tooBig ∨
    ∃ next rest, v = .complete next rest ∧ ∀ next' rest', v' = .complete next' rest' → next < next' := by
  have hlong : Spec.bipRules.longest = 2 ^ 24 - 1 := rfl
  have hb := hr.longest
  rcases hd with ⟨a, b, c⟩ | ⟨g, ds, rest, hg, hf, hds, rfl, hx⟩
  · exact .inl ⟨judge_unique hP h (.noTerminator (fun j _ => a j) b), judge_unique hP h' (.waits a c), b, c⟩
  · rcases hx with hx | ⟨header, contents, more, h1, h2, h3, h4, rfl⟩
    · refine .inr (.inl (judge_unique hP h (.garbage hg hf (judge_decoys ds hds (.tooBig ?_)))))
      rw [Nat.zero_add]
      exact hx
    · refine .inr (.inr ⟨ds.length + 1, more, judge_unique hP h (.garbage hg hf (judge_decoys ds hds ?_)), ?_⟩)
      · rw [Nat.zero_add]
        exact .version h2 h3 h4
      · rintro next' rest' rfl
        rcases Judge.inv h' with ⟨x, -⟩ | ⟨x, -⟩ | ⟨g', rest'', a', b', c', d'⟩
        · cases x
        · cases x
        obtain ⟨rfl, rfl⟩ := garbage_unique c' hf b'
        have := judge_decoys_inv hP ds (fun d hd => by
          obtain ⟨x, y, z⟩ := hds d hd
          exact ⟨(bip_decoy _).2 (hr.decoy _ x), by omega, z⟩) d'
        rw [Nat.zero_add] at this
        rcases JudgePackets.inv this with ⟨x, -⟩ | ⟨x, -⟩ | ⟨x, -⟩ | ⟨_, _, _, a, b, c, e⟩
        · cases x
        · cases x
        · cases x
        obtain ⟨rfl, rfl, rfl⟩ := Ref.raw_unique hP h4 b c
        rcases e with ⟨-, e⟩ | ⟨e, -⟩
        · exact judgePackets_next e _ _ rfl
        · rw [(bip_decoy _).2 h1] at e; cases e

/-! ## C62: the handshake -/

variable {me : Peer} {magic : Bytes} {role : Role}

/-- What a party needs for its part of the handshake. -/
structure Ready (P : Prims) (prof : Profile) (me : Peer) : Prop where
  key : Spec.UsableKey P prof me.rng
  garbage : (me.garbage.getD []).length ≤ 4095
  decoys : (me.decoys.getD []).length + 1 < 2 ^ 32

/-- The keys of the two directions, when the peer has sent this stream. -/
def Peer.directions (me : Peer) (P : Prims) (magic : Bytes) (role : Role) (bs : Bytes) :
    (Bytes × Bytes × Bytes) × (Bytes × Bytes × Bytes) :=
  Spec.directions P magic (P.ellswift me.rng) (bs.take 64) me.rng role.initiating

/-- What a party sends before it has received anything. -/
def Peer.hello (me : Peer) (P : Prims) : Bytes := P.ellswift me.rng ++ me.garbage.getD []

/-- All that a party sends in the handshake, when the peer has sent this stream. -/
def Peer.flight (me : Peer) (P : Prims) (magic : Bytes) (role : Role) (bs : Bytes) : Bytes :=
  Spec.ownTranscript P (me.directions P magic role bs).1 (P.ellswift me.rng) (me.garbage.getD []) (me.decoys.getD [])

/-- C62, the library: what each API makes of any stream whatsoever, in any segmentation, if its own bytes can be
sent. -/
theorem C62_library {A : Api} (hA : A = syncApi ∨ A = asyncApi) (hP : Lawful P) (hme : Ready P prof me)
    {reader tail : Source} {k : ErrorKind} {writer : Sink} (hw : writer.Reliable A.retry)
    (hend : EndsWith A.retry tail k) {bs : Bytes} (hn : bs.length < 2 ^ 36) (hs : Streams false reader bs tail) :
    ∃ (B : A.Abs) (w' : Sink) (log : HsLog) (r : Outcome ProtocolError (InboundCipher × OutboundCipher × A.Session)),
      handshake A P prof magic role me.rng me.garbage me.decoys reader writer = (w', log, r) ∧
      (bs.length < 64 → w'.out = writer.out ++ me.hello P ∧ r = .err (.fromIo k)) ∧
      (64 ≤ bs.length → bs.take 4 = magic →
        w'.out = writer.out ++ me.hello P ∧ r = .err (.internal .v1Protocol)) ∧
      (64 ≤ bs.length → bs.take 4 ≠ magic →
        w'.out = writer.out ++ me.flight P magic role bs ∧
        ∃ v, Spec.Judge libRules P (me.directions P magic role bs).2 (bs.drop 64) v ∧
          LibFollows B P tail k (me.directions P magic role bs) ((me.decoys.getD []).length + 1) v r) := by
  obtain ⟨B⟩ := api_abs hA
  exact ⟨B, handshake_verdict B hP hme.key hme.garbage hme.decoys hw hend hn hs⟩

/-- C62, the reference implementation: what it makes of any stream whatsoever. -/
theorem C62_reference (hP : Lawful P) (hm : magic.length = 4) (bs : Bytes) :
    let run := Ref.run P magic (me.reference role) bs
    (bs.length < 64 → role = .initiator → run.1 = me.hello P ∧ run.2 = .waiting) ∧
    (role = .responder → Ref.v1Prefix magic <+: bs → run.1 = [] ∧ run.2 = .v1) ∧
    (role = .responder → bs <+: Ref.v1Prefix magic → bs.length < 16 → run.1 = [] ∧ run.2 = .waiting) ∧
    (bs.length < 64 → role = .responder → ¬ Ref.v1Prefix magic <+: bs → ¬ (bs <+: Ref.v1Prefix magic) →
      run.1 = me.hello P ∧ run.2 = .waiting) ∧
    (64 ≤ bs.length → role = .responder → ¬ Ref.v1Prefix magic <+: bs → (bs.drop 4).take 12 = versionWord →
      run.1 = me.hello P ∧ run.2 = .disconnected) ∧
    (64 ≤ bs.length → (role = .responder → (bs.drop 4).take 12 ≠ versionWord) →
      run.1 = me.flight P magic role bs ∧
      ∃ v, Spec.Judge Spec.bipRules P (me.directions P magic role bs).2 (bs.drop 64) v ∧
        RefFollows P (me.directions P magic role bs) ((me.decoys.getD []).length + 1) v run.2) := by
  intro run
  have hx := Ref.notV1_iff (Ref.v1Prefix magic) bs
  have hl := Ref.v1Prefix_length hm
  have hshort : bs.length < 64 → Ref.completeHandshake P magic (me.reference role) bs = ([], .waiting) := by
    intro h
    unfold Ref.completeHandshake Ref.receive
    rw [if_pos h]
  have hrun : run = if role = .initiator then
        (me.hello P ++ (Ref.completeHandshake P magic (me.reference role) bs).1,
          (Ref.completeHandshake P magic (me.reference role) bs).2)
      else match Ref.notV1 (Ref.v1Prefix magic) bs with
        | none => ([], .waiting)
        | some false => ([], .v1)
        | some true => (me.hello P ++ (Ref.completeHandshake P magic (me.reference role) bs).1,
          (Ref.completeHandshake P magic (me.reference role) bs).2) := by
    show Ref.run P magic (me.reference role) bs = _
    unfold Ref.run
    cases role <;> rfl
  have hpass : ¬ Ref.v1Prefix magic <+: bs → ¬ (bs <+: Ref.v1Prefix magic ∧ bs.length < 16) →
      Ref.notV1 (Ref.v1Prefix magic) bs = some true := by
    intro h1 h2
    cases hn : Ref.notV1 (Ref.v1Prefix magic) bs with
    | none => exact absurd (by rw [← hl]; exact hx.2.1 hn) h2
    | some b =>
      cases b with
      | true => rfl
      | false => exact absurd (hx.1.1 hn) h1
  refine ⟨?_, ?_, ?_, ?_, ?_, ?_⟩
  · rintro h rfl
    rw [hrun, if_pos rfl, hshort h]
    exact ⟨List.append_nil _, rfl⟩
  · rintro rfl h
    rw [hrun, if_neg (by simp), hx.1.2 h]
    exact ⟨rfl, rfl⟩
  · rintro rfl h h16
    rw [hrun, if_neg (by simp), hx.2.2 ⟨h, by omega⟩]
    exact ⟨rfl, rfl⟩
  · rintro h rfl h1 h2
    rw [hrun, if_neg (by simp), hpass h1 (fun h => h2 h.1), hshort h]
    exact ⟨List.append_nil _, rfl⟩
  · rintro h rfl h1 h2
    rw [hrun, if_neg (by simp), hpass h1 (fun h => by omega)]
    have : Ref.completeHandshake P magic (me.reference .responder) bs = ([], .disconnected) := by
      unfold Ref.completeHandshake Ref.receive
      rw [if_neg (by omega)]
      have hw : (Ref.v1Prefix magic).drop 4 = versionWord := by
        unfold Ref.v1Prefix
        rw [drop_append_len _ _ hm.symm]
      have hk : ((bs.take 64).drop 4).take 12 = (bs.drop 4).take 12 := by
        rw [List.drop_take, List.take_take]; rfl
      simp only [hw, hk, h2]
      rfl
    rw [this]
    exact ⟨List.append_nil _, rfl⟩
  · intro h hv
    have := reference_verdict hP hm (me.reference role) (key := bs.take 64) (by rw [List.length_take]; omega)
      (by
        intro hi
        have hk : ((bs.take 64).drop 4).take 12 = (bs.drop 4).take 12 := by
          rw [List.drop_take, List.take_take]; rfl
        rw [hk]
        exact hv (by cases role; cases hi; rfl)) (bs.drop 64)
    rw [List.take_append_drop] at this
    exact this

/-- The two handshakes have come to the same: both wait, both refuse, or both are complete, at the same packet
numbers and with the same bytes left. -/
def Agree {A : Api} (B : A.Abs) (P : Prims) (tail : Source) (k : ErrorKind)
    (D : (Bytes × Bytes × Bytes) × (Bytes × Bytes × Bytes))
    (r : Outcome ProtocolError (InboundCipher × OutboundCipher × A.Session)) (s : Ref.Status) : Prop :=
  (r = .err (.fromIo k) ∧ s = .waiting) ∨
  ((∃ e, r = .err (.internal e)) ∧ s = .disconnected) ∨
  ∃ i o sess t rest next sent, r = .ok (i, o, sess) ∧ s = .ready t rest ∧ SessStreams B sess rest tail ∧
    i.At P D.2.1 D.2.2.1 next ∧ t.RecvAt P D.2.1 D.2.2.1 next ∧
    o.At P D.1.1 D.1.2.1 sent ∧ t.SendAt P D.1.1 D.1.2.1 sent

/-- C62: on every stream that begins with a key which neither takes for a V1 message, the library and the reference
implementation send the same bytes; and they come to the same, except on the divergent streams.  On those, the
library gives up one byte earlier, or refuses a long packet, or has taken a decoy for the version packet. -/
theorem C62_agree {A : Api} (hA : A = syncApi ∨ A = asyncApi) (hP : Lawful P) (hm : magic.length = 4)
    (hme : Ready P prof me) {reader tail : Source} {k : ErrorKind} {writer : Sink}
    (hw : writer.Reliable A.retry) (hend : EndsWith A.retry tail k) {bs : Bytes} (hn : bs.length < 2 ^ 36)
    (hs : Streams false reader bs tail) (h64 : 64 ≤ bs.length) (hv1 : bs.take 4 ≠ magic)
    (hv2 : role = .responder → (bs.drop 4).take 12 ≠ versionWord) :
    ∃ (B : A.Abs) (w' : Sink) (log : HsLog) (r : Outcome ProtocolError (InboundCipher × OutboundCipher × A.Session))
        (s : Ref.Status),
      handshake A P prof magic role me.rng me.garbage me.decoys reader writer = (w', log, r) ∧
      w'.out = writer.out ++ me.flight P magic role bs ∧
      Ref.run P magic (me.reference role) bs = (me.flight P magic role bs, s) ∧
      (¬ Spec.Divergent libRules P (me.directions P magic role bs).2 (bs.drop 64) →
        Agree B P tail k (me.directions P magic role bs) r s) ∧
      (Spec.Divergent libRules P (me.directions P magic role bs).2 (bs.drop 64) →
        (r = .err (.internal .noGarbageTerminator) ∧ s = .waiting ∧ bs.length = 64 + 4111) ∨
        r = .err (.internal .packetTooBig) ∨
        ∃ i o sess next, r = .ok (i, o, sess) ∧
          i.At P (me.directions P magic role bs).2.1 (me.directions P magic role bs).2.2.1 next ∧
          ∀ t rest, s = .ready t rest → ∃ next',
            t.RecvAt P (me.directions P magic role bs).2.1 (me.directions P magic role bs).2.2.1 next' ∧
            next < next') := by
  obtain ⟨B, w', log, r, h1, -, -, h2⟩ := C62_library (me := me) (magic := magic) (role := role) hA hP hme hw hend hn hs
  obtain ⟨h2, v, h3, h4⟩ := h2 h64 hv1
  obtain ⟨-, -, -, -, -, h5⟩ := C62_reference (P := P) (me := me) (role := role) hP hm bs
  obtain ⟨h5, v', h6, h7⟩ := h5 h64 hv2
  have h16 : (me.directions P magic role bs).2.2.2.length = 16 :=
    (Ref.directions_terminators hP magic (P.ellswift me.rng) (bs.take 64) me.rng role.initiating).2
  refine ⟨B, w', log, r, _, h1, h2, Prod.ext h5 rfl, ?_, ?_⟩
  · intro hd
    have hvv : v = v' := Classical.not_not.1 fun hne => hd ((judge_iff hP libRules_stricter h16 h3 h6).1 hne)
    subst hvv
    cases v with
    | waits =>
      obtain ⟨e, he, hr⟩ := h4
      exact .inl ⟨by rw [hr]; injection he with he; rw [he], h7⟩
    | noTerminator =>
      obtain ⟨e, he, hr⟩ := h4
      exact .inr (.inl ⟨⟨_, by rw [hr]; injection he with he; rw [← he]⟩, h7⟩)
    | forged =>
      obtain ⟨e, he, hr⟩ := h4
      exact .inr (.inl ⟨⟨_, by rw [hr]; injection he with he; rw [← he]⟩, h7⟩)
    | tooBig => exact h7.elim
    | complete next rest =>
      obtain ⟨i, o, sess, a, b, c, d⟩ := h4
      obtain ⟨t, e, f, g⟩ := h7
      exact .inr (.inr ⟨i, o, sess, t, rest, next, _, a, e, d, b, g, c, f⟩)
  · intro hd
    rcases judge_divergent hP libRules_stricter h3 h6 hd with ⟨rfl, rfl, a, b⟩ | rfl | ⟨next, rest, rfl, hx⟩
    · obtain ⟨e, he, hr⟩ := h4
      have hp : libRules.patience = 4111 := rfl
      rw [List.length_drop] at a b
      exact .inl ⟨by rw [hr]; injection he with he; rw [← he], h7, by omega⟩
    · obtain ⟨e, he, hr⟩ := h4
      exact .inr (.inl (by rw [hr]; injection he with he; rw [← he]))
    · obtain ⟨i, o, sess, a, b, c, d⟩ := h4
      refine .inr (.inr ⟨i, o, sess, next, a, b, ?_⟩)
      intro t rest' ht
      cases v' with
      | waits => cases (show _ = Ref.Status.waiting from h7).symm.trans ht
      | noTerminator => cases (show _ = Ref.Status.disconnected from h7).symm.trans ht
      | forged => cases (show _ = Ref.Status.disconnected from h7).symm.trans ht
      | tooBig => exact h7.elim
      | complete next' rest'' =>
        obtain ⟨t', e, f, g⟩ := h7
        have ht := e.symm.trans ht
        injection ht with ht1 ht2
        subst ht1
        exact ⟨next', g, hx _ _ rfl⟩

/-- C62: the keys that one of them takes for a V1 message and the other does not. -/
theorem C62_keys {A : Api} (hA : A = syncApi ∨ A = asyncApi) (hP : Lawful P) (hm : magic.length = 4)
    (hme : Ready P prof me) {reader tail : Source} {k : ErrorKind} {writer : Sink}
    (hw : writer.Reliable A.retry) (hend : EndsWith A.retry tail k) {bs : Bytes} (hn : bs.length < 2 ^ 36)
    (hs : Streams false reader bs tail) (h64 : 64 ≤ bs.length) :
    (bs.take 4 = magic → (role = .responder → (bs.drop 4).take 12 ≠ versionWord) →
      (handshake A P prof magic role me.rng me.garbage me.decoys reader writer).2.2 = .err (.internal .v1Protocol) ∧
      (Ref.run P magic (me.reference role) bs).1 = me.flight P magic role bs ∧
      (Ref.run P magic (me.reference role) bs).2 ≠ .v1) ∧
    (bs.take 4 ≠ magic → role = .responder → (bs.drop 4).take 12 = versionWord →
      (handshake A P prof magic role me.rng me.garbage me.decoys reader writer).1.out
        = writer.out ++ me.flight P magic role bs ∧
      (Ref.run P magic (me.reference role) bs).2 = .disconnected) := by
  obtain ⟨B, w', log, r, h1, -, h2, h3⟩ := C62_library (me := me) (magic := magic) (role := role) hA hP hme hw hend hn hs
  obtain ⟨-, -, -, -, h4, h5⟩ := C62_reference (P := P) (me := me) (role := role) hP hm bs
  rw [h1]
  constructor
  · intro ha hb
    obtain ⟨h5, v, -, h6⟩ := h5 h64 hb
    refine ⟨(h2 h64 ha).2, h5, ?_⟩
    intro hc
    rw [hc] at h6
    cases v with
    | complete => obtain ⟨t, ht, -⟩ := h6; cases ht
    | waits => cases h6
    | noTerminator => cases h6
    | tooBig => exact h6
    | forged => cases h6
  · intro ha hb hc
    refine ⟨(h3 h64 ha).1, (h4 h64 hb ?_ hc).2⟩
    rintro ⟨l, hl⟩
    refine ha ?_
    rw [← hl, Ref.v1Prefix, List.append_assoc]
    exact take_append_len _ _ hm.symm

/-! ## C62: the session -/

theorem decryptToVec_notSealed (hP : Lawful P) {kP : Bytes} {n : Nat} {i : InboundCipher}
    (h : i.packetCipher.At P kP n) (hn : n + 1 < 2 ^ 64) (ct : Bytes) (aad : Option Bytes) (hct : 17 ≤ ct.length)
    (hsz : ct.length ≤ 4000030)
    (hno : ∀ header contents, ct ≠ Spec.sealedPart P kP n header (aad.getD []) contents) :
    i.decryptToVec P prof ct aad = (i, .err .decryption) := by
  have hl : InboundCipher.decryptionBufferLen prof ct.length = some (ct.length - 16) := by
    unfold InboundCipher.decryptionBufferLen usub
    rw [if_pos (by show 16 ≤ _; omega)]
  have hm : MAX_PACKET_SIZE_FOR_ALLOCATION = 4000014 := rfl
  rcases decrypt_at (prof := prof) hP h hn ct (zeros (ct.length - 16)) aad hct (by rw [zeros_length]; omega) with
    ⟨header, contents, i', he, -⟩ | ⟨-, buf', h3⟩
  · exact absurd he (hno header contents)
  · unfold InboundCipher.decryptToVec
    simp only [hl, h3]
    rw [if_neg (by omega)]

theorem decryptToVec_tooBig {i : InboundCipher} (ct : Bytes) (aad : Option Bytes) (hsz : 4000030 < ct.length) :
    i.decryptToVec P prof ct aad = (i, .err .packetTooBig) := by
  have hl : InboundCipher.decryptionBufferLen prof ct.length = some (ct.length - 16) := by
    unfold InboundCipher.decryptionBufferLen usub
    rw [if_pos (by show 16 ≤ _; omega)]
  have hm : MAX_PACKET_SIZE_FOR_ALLOCATION = 4000014 := rfl
  unfold InboundCipher.decryptToVec
  simp only [hl]
  rw [if_pos (by omega)]

/-- The limit of the blocking reader on the contents of a packet. -/
def syncLongest : Nat := 4000013

/-- C62, session, blocking API: the results of the reads on any stream, up to and including the first error. -/
theorem C62_session_sync (hP : Lawful P) {kL kP : Bytes} {tail : Source} {k : ErrorKind}
    (hend : EndsWith true tail k) (bs : Bytes) : ∀ {n : Nat} {r : SyncReader}, r.cipher.At P kL kP n →
    n + bs.length / 20 + 1 < 2 ^ 32 → SyncStreams r.reader bs tail →
    ∃ ms v e, Spec.JudgeSession syncLongest P kL kP n bs ms v ∧ v.error k = some e ∧
      (r.readMany P prof (ms.length + 1)).2 = ms.map (fun m => .ok (delivered m)) ++ [.err e] := by
  induction hlen : bs.length using Nat.strongRecOn generalizing bs with
  | ind len ih =>
  subst hlen
  intro n r hat hn hs
  have hsl : syncLongest = 4000013 := rfl
  have hone : ∀ {e}, (r.read P prof).2 = .err e → (r.readMany P prof 1).2 = [.err e] := by
    intro e he
    simp only [SyncReader.readMany, he]
  obtain ⟨hr1, hr2⟩ := sync_readExact hend hs 3
  by_cases h3 : bs.length < 3
  · obtain ⟨s', he⟩ := hr2 h3
    refine ⟨[], .waits, .fromIo k, .waits (.inl h3), rfl, hone ?_⟩
    unfold SyncReader.read
    rw [show NUM_LENGTH_BYTES = 3 from rfl, he]
  obtain ⟨s1, he1, hs1⟩ := hr1 (by omega)
  obtain ⟨i1, l, hl, hd, hh, hx⟩ := decryptPacketLen_at (prof := prof) hat (by omega) (bs.take 3)
    (by rw [List.length_take]; omega)
  have ha : Spec.Announces P kL n bs l := ⟨hl, hx⟩
  have hdl := List.length_drop (i := 3) (l := bs)
  obtain ⟨hr3, hr4⟩ := sync_readExact hend hs1 (l + 17)
  by_cases hshort : (bs.drop 3).length < l + 17
  · obtain ⟨s', he⟩ := hr4 hshort
    refine ⟨[], .waits, .fromIo k, .waits (.inr ⟨l, ha, by omega, by omega⟩), rfl, hone ?_⟩
    unfold SyncReader.read
    rw [show NUM_LENGTH_BYTES = 3 from rfl, he1]
    simp only [hd, he]
  obtain ⟨s2, he2, hs2⟩ := hr3 (by omega)
  have hct : ((bs.drop 3).take (l + 17)).length = l + 17 := by rw [List.length_take]; omega
  by_cases hbig : 4000013 < l
  · refine ⟨[], .tooBig, .internal .packetTooBig, .tooBig ha (by omega) (by omega), rfl, hone ?_⟩
    unfold SyncReader.read
    rw [show NUM_LENGTH_BYTES = 3 from rfl, he1]
    simp only [hd, he2, decryptToVec_tooBig (P := P) (prof := prof) (i := i1) ((bs.drop 3).take (l + 17)) none (by omega)]
  rcases decryptToVec_at (prof := prof) hP hh.2 (by omega) ((bs.drop 3).take (l + 17)) none (by omega) with
    ⟨header, contents, i', he, hc, hi, hpc, hv⟩ | ⟨hno, -⟩
  · have hcl : contents.length = l := by
      have := congrArg List.length he
      rw [hct, sealedPart_length hP] at this
      omega
    have hbs : bs = Spec.rawPacket P kL kP n header [] contents ++ (bs.drop 3).drop (l + 17) := by
      rw [rawPacket_eq, hcl, ← hx]
      have e2 : Spec.sealedPart P kP n header [] contents = (bs.drop 3).take (l + 17) := he.symm
      rw [e2, List.append_assoc, List.take_append_drop, List.take_append_drop]
    have hrest : ((bs.drop 3).drop (l + 17)).length = bs.length - (l + 20) := by
      rw [List.length_drop, List.length_drop]; omega
    have hread : r.read P prof = (⟨i', s2⟩, .ok (delivered (header, contents))) := by
      unfold SyncReader.read
      rw [show NUM_LENGTH_BYTES = 3 from rfl, he1]
      simp only [hd, he2, hv, mkDecrypted_cons]
      rfl
    obtain ⟨ms, v, e, hj, hve, hms⟩ := ih _ (by omega) ((bs.drop 3).drop (l + 17)) rfl (n := n + 1) (r := ⟨i', s2⟩)
      ⟨by rw [hi]; exact hh.1, hpc⟩ (by omega) hs2
    refine ⟨(header, contents) :: ms, v, e, ?_, hve, ?_⟩
    · rw [hbs]
      exact .message (by omega) (by omega) hj
    · rw [List.length_cons, SyncReader.readMany, hread]
      simp only [List.map_cons, List.cons_append, hms]
  · have hno' : ∀ header contents, (bs.drop 3).take (l + 17) ≠ Spec.sealedPart P kP n header [] contents := by
      intro header contents he
      refine hno header contents ?_ he
      have := congrArg List.length he
      rw [hct, sealedPart_length hP] at this
      omega
    refine ⟨[], .forged, .internal .decryption, .forged ⟨l, ha, by omega, by omega, hno'⟩, rfl, hone ?_⟩
    unfold SyncReader.read
    rw [show NUM_LENGTH_BYTES = 3 from rfl, he1]
    simp only [hd, he2, decryptToVec_notSealed (prof := prof) hP hh.2 (by omega) ((bs.drop 3).take (l + 17)) none
      (by omega) (by omega) hno']

/-- C62, session, reference implementation: the contents of the packets without the ignore bit, and whether it
disconnects. -/
theorem C62_session_reference (hP : Lawful P) {kL kP : Bytes} {n : Nat} {bs : Bytes} {ms : List (UInt8 × Bytes)}
    {v : Spec.Verdict} (hj : Spec.JudgeSession (2 ^ 24 - 1) P kL kP n bs ms v) {t : Ref.Transport}
    (hat : t.RecvAt P kL kP n) {fuel : Nat} (hf : ms.length < fuel) :
    Ref.receiveAll P fuel t bs = ((ms.filter fun m => m.1 &&& 0x80 = 0).map (·.2), decide (v = .forged)) := by
  have key : ∃ rest, bs = Spec.packetStream P kL kP n [] ms ++ rest ∧ (∀ m ∈ ms, m.2.length < 2 ^ 24) ∧
      ((v = .waits ∧ Spec.Short P kL (n + ms.length) rest) ∨
       (v = .forged ∧ Spec.Forged P kL kP (n + ms.length) [] rest)) := by
    clear hf hat
    induction hj with
    | @waits n bs h =>
      refine ⟨bs, rfl, by simp, .inl ⟨rfl, ?_⟩⟩
      rcases h with h | ⟨len, a, b, c⟩
      · exact .inl h
      · exact .inr ⟨len, a.1, a.2, c⟩
    | @tooBig n bs len h1 h2 h3 =>
      have := h1.1
      omega
    | @forged n bs h =>
      obtain ⟨len, a, b, c, d⟩ := h
      exact ⟨bs, rfl, by simp, .inr ⟨rfl, len, a.1, a.2, c, d⟩⟩
    | @message n header contents rest ms v h1 h2 h3 ih =>
      obtain ⟨more, a, b, c⟩ := ih
      refine ⟨more, ?_, ?_, ?_⟩
      · rw [packetStream_one, List.append_assoc, ← a]
      · intro m hm
        rcases List.mem_cons.1 hm with rfl | hm
        · exact h2
        · exact b m hm
      · rw [List.length_cons, show n + (ms.length + 1) = n + 1 + ms.length by omega]
        exact c
  obtain ⟨rest, rfl, hsz, hx⟩ := key
  obtain ⟨a, b⟩ := Ref.receiveAll_stream hP fuel ms rest hat hf hsz
  rcases hx with ⟨rfl, hx⟩ | ⟨rfl, hx⟩
  · rw [a hx]; rfl
  · rw [b hx]; rfl

/-- What one poll does. -/
def AsyncReader.Exact (P : Prims) (kL kP : Bytes) (n : Nat) (bs : Bytes) (size : Nat)
    (x : AsyncReader × PollResult) : Prop :=
  x.1.reader.size ≤ size ∧
  match x.2 with
  | .ready (.ok p) => ∃ header contents bs', p = .decrypted (header :: contents) ∧ contents.length < 2 ^ 24 ∧
      bs = Spec.rawPacket P kL kP n header [] contents ++ bs' ∧ x.1.Reads P kL kP (n + 1) bs'
  | .ready .panic => False
  | .pending => x.1.Reads P kL kP n bs ∧ x.1.reader.size < size
  | .ready (.err e) => x.1.Reads P kL kP n bs ∧
      ((e = .internal .decryption ∧ Spec.NotSealed P (2 ^ 24 - 1) kL kP n [] bs) ∨
       (∃ k, e = .fromIo k) ∧ (x.1.reader.size < size ∨ Spec.Incomplete P (2 ^ 24 - 1) kL n bs))

theorem pollPayload_exact (hP : Lawful P) {kL kP : Bytes} {n : Nat} {bs : Bytes} (hn : n + 1 < 2 ^ 32)
    (c : InboundCipher) (s : AsyncSession) (buf : Bytes) (k : Nat)
    (h : AsyncReader.Reads P kL kP n bs ⟨c, s, .readingPayload buf k⟩) :
    AsyncReader.Exact P kL kP n bs s.size (AsyncReader.pollPayload P prof c s buf k) := by
  obtain ⟨len, hlen, hbl, hk, hc, hbs⟩ := h
  have hbs : bs = Spec.xor (Spec.le 3 len) (Spec.lengthMask P kL n) ++ (buf.take k ++ s.remaining) := hbs
  have hbl : buf.length = len + 17 := hbl
  have hf := pollFill_spec s buf k hk
  have ha : Spec.Announces P kL n bs len :=
    ⟨hlen, by rw [hbs]; exact take_append_len _ _ (lengthBytes_length (P := P) kL n len).symm⟩
  have hdrop : bs.drop 3 = buf.take k ++ s.remaining := by
    rw [hbs]; exact drop_append_len _ _ (lengthBytes_length (P := P) kL n len).symm
  have hbl3 : bs.length = 3 + (buf.take k ++ s.remaining).length := by
    rw [hbs, List.length_append, lengthBytes_length]
  unfold AsyncReader.pollPayload
  cases hp : pollFill s buf k with
  | pending s' buf' k' =>
    rw [hp] at hf
    obtain ⟨a, b, d, e⟩ := hf
    exact ⟨Nat.le_of_lt e, ⟨len, hlen, by omega, a, hc, by rw [hbs, d]⟩, e⟩
  | err s' buf' k' e =>
    rw [hp] at hf
    obtain ⟨a, b, d, e, f⟩ := hf
    refine ⟨e, ⟨len, hlen, by omega, by omega, hc, by rw [hbs, d]⟩, .inr ⟨⟨_, rfl⟩, ?_⟩⟩
    rcases f with f | f
    · exact .inl f
    · refine .inr (.inr ⟨len, ha, by omega, ?_⟩)
      rw [hbl3, ← d, f, List.append_nil, List.length_take]
      omega
  | full s' buf' k' =>
    rw [hp] at hf
    obtain ⟨a, b, d, e⟩ := hf
    have hdl : InboundCipher.decryptionBufferLen prof buf'.length = some (buf'.length - 16) := by
      unfold InboundCipher.decryptionBufferLen usub
      rw [if_pos (by show 16 ≤ _; omega)]
    simp only [hdl]
    rcases decrypt_at (prof := prof) hP hc.2 (by omega) buf' (zeros (buf'.length - 16)) none (by omega)
      (by rw [zeros_length]; omega) with ⟨header, contents, i', he, h1, h2, h3⟩ | ⟨hno, buf'', h3⟩
    · simp only [h3, mkDecrypted_cons]
      have hcl : contents.length = len := by
        have hy := congrArg List.length he
        rw [sealedPart_length hP] at hy
        omega
      refine ⟨e, header, contents, s'.remaining, rfl, by omega, ?_, rfl, by omega, ⟨by rw [h1]; exact hc.1, h2⟩, ?_⟩
      · rw [hbs, ← d, rawPacket_eq, hcl, he, List.append_assoc]
        rfl
      · simp
    · simp only [h3]
      refine ⟨e, ⟨len, hlen, by omega, by omega, hc, ?_⟩, .inl ⟨rfl, len, ha, by omega, ?_, ?_⟩⟩
      · rw [hbs, ← d, a, List.take_length]
      · rw [hbl3, ← d, List.length_append]; omega
      · rw [hdrop, ← d, take_append_len _ _ (by omega)]
        exact hno

theorem poll_exact (hP : Lawful P) {kL kP : Bytes} {n : Nat} {bs : Bytes} (hn : n + 1 < 2 ^ 32)
    (r : AsyncReader) (h : r.Reads P kL kP n bs) :
    AsyncReader.Exact P kL kP n bs r.reader.size (r.poll P prof) := by
  obtain ⟨c, s, st⟩ := r
  cases st with
  | readingPayload buf k => exact pollPayload_exact hP hn c s buf k h
  | readingLength buf k =>
    obtain ⟨hbl, hk, hc, hbs⟩ := h
    have hbs : bs = buf.take k ++ s.remaining := hbs
    have hf := pollFill_spec s buf k (by omega)
    unfold AsyncReader.poll
    simp only
    cases hp : pollFill s buf k with
    | pending s' buf' k' =>
      rw [hp] at hf
      obtain ⟨a, b, d, e⟩ := hf
      exact ⟨Nat.le_of_lt e, ⟨by omega, by omega, hc, by rw [hbs, d]⟩, e⟩
    | err s' buf' k' e =>
      rw [hp] at hf
      obtain ⟨a, b, d, e, f⟩ := hf
      refine ⟨e, ⟨by omega, by omega, hc, by rw [hbs, d]⟩, .inr ⟨⟨_, rfl⟩, ?_⟩⟩
      rcases f with f | f
      · exact .inl f
      · refine .inr (.inl ?_)
        rw [hbs, ← d, f, List.append_nil, List.length_take]
        omega
    | full s' buf' k' =>
      rw [hp] at hf
      obtain ⟨a, b, d, e⟩ := hf
      obtain ⟨i1, len, hlen, hd, hh, hx⟩ := decryptPacketLen_at (prof := prof) hc hn buf' (by omega)
      simp only [hd]
      obtain ⟨q1, q2⟩ := pollPayload_exact (prof := prof) (bs := bs) hP hn i1 s' (zeros (len + 17)) 0
        ⟨len, hlen, by simp, by omega, hh, by rw [hbs, ← d, hx]; simp⟩
      refine ⟨Nat.le_trans q1 e, ?_⟩
      revert q2
      cases (AsyncReader.pollPayload P prof i1 s' (zeros (len + 17)) 0).2 with
      | pending => rintro ⟨x, y⟩; exact ⟨x, by show _ < s.size; omega⟩
      | ready x =>
        cases x with
        | ok p => exact id
        | panic => exact id
        | err e =>
          rintro ⟨x, y | ⟨y, z | z⟩⟩
          · exact ⟨x, .inl y⟩
          · exact ⟨x, .inr ⟨y, .inl (by show _ < s.size; omega)⟩⟩
          · exact ⟨x, .inr ⟨y, .inr z⟩⟩

/-- C62, session, asynchronous API: for every schedule of polls and cancellations and every transport, the payloads
delivered are those of the first messages in the stream, and the only errors are those of the transport and, after
the last message, that the next packet is forged.  With enough polls all messages are delivered, and the error. -/
theorem C62_session_async (hP : Lawful P) {kL kP : Bytes} (es : List ReadEvent) : ∀ {n : Nat} {bs : Bytes}
    {r r' : AsyncReader} {xs : List (Outcome ProtocolError Payload)} {ms : List (UInt8 × Bytes)} {v : Spec.Verdict},
    r.Reads P kL kP n bs → n + es.length < 2 ^ 32 → r.run P prof es = (r', xs) →
    Spec.JudgeSession (2 ^ 24 - 1) P kL kP n bs ms v →
    ∃ j ≤ ms.length, payloads xs = (ms.take j).map delivered ∧
      (∀ x ∈ xs, (∃ p, x = .ok p) ∨ (∃ k, x = .err (.fromIo k)) ∨
        (x = .err (.internal .decryption) ∧ v = .forged ∧ j = ms.length)) ∧
      (r.reader.size + ms.length ≤ polls es → j = ms.length) ∧
      (r.reader.size + ms.length < polls es → v = .forged → .err (.internal .decryption) ∈ xs) := by
  induction es with
  | nil =>
    intro n bs r r' xs ms v hr hn he hj
    simp only [AsyncReader.run, Prod.mk.injEq] at he
    obtain ⟨rfl, rfl⟩ := he
    refine ⟨0, by omega, rfl, by simp, ?_, ?_⟩
    · intro h; simp only [polls] at h; omega
    · intro h; simp only [polls] at h; omega
  | cons e es ih =>
    intro n bs r r' xs ms v hr hn he hj
    rw [List.length_cons] at hn
    cases e with
    | cancel =>
      simp only [AsyncReader.run] at he
      exact ih hr (by omega) he hj
    | poll =>
      unfold AsyncReader.run at he
      have hp := poll_exact (prof := prof) hP (by omega) r hr
      cases h1 : r.poll P prof with
      | mk r1 x =>
      rw [h1] at hp he
      obtain ⟨hle, hp⟩ := hp
      simp only at hle hp
      cases x with
      | pending =>
        obtain ⟨j, a, b, c, d, f⟩ := ih hp.1 (by omega) he hj
        have := hp.2
        exact ⟨j, a, b, c, fun h => d (by simp only [polls] at h; omega),
          fun h => f (by simp only [polls] at h; omega)⟩
      | ready x =>
        simp only at he
        cases h2 : r1.run P prof es with
        | mk r2 ys =>
        rw [h2] at he
        simp only [Prod.mk.injEq] at he
        obtain ⟨rfl, rfl⟩ := he
        cases x with
        | panic => exact hp.elim
        | err e =>
          obtain ⟨hr1, hx⟩ := hp
          obtain ⟨j, a, b, c, d, f⟩ := ih hr1 (by omega) h2 hj
          rcases hx with ⟨rfl, hx⟩ | ⟨⟨k, rfl⟩, hx⟩
          · obtain ⟨rfl, rfl⟩ := judgeSession_unique hP hj (.forged hx)
            refine ⟨j, a, b, ?_, fun _ => by simpa using a, fun _ _ => List.mem_cons_self⟩
            intro y hy
            rcases List.mem_cons.1 hy with rfl | hy
            · exact .inr (.inr ⟨rfl, rfl, by simpa using a⟩)
            · exact c y hy
          · refine ⟨j, a, b, ?_, ?_, ?_⟩
            · intro y hy
              rcases List.mem_cons.1 hy with rfl | hy
              · exact .inr (.inl ⟨k, rfl⟩)
              · exact c y hy
            · intro h
              simp only [polls] at h
              rcases hx with hx | hx
              · exact d (by omega)
              · obtain ⟨rfl, rfl⟩ := judgeSession_unique hP hj (.waits hx)
                simpa using a
            · intro h hv
              simp only [polls] at h
              rcases hx with hx | hx
              · exact List.mem_cons_of_mem _ (f (by omega) hv)
              · obtain ⟨rfl, rfl⟩ := judgeSession_unique hP hj (.waits hx)
                cases hv
        | ok p =>
          obtain ⟨header, contents, bs', rfl, hc, rfl, hr1⟩ := hp
          rcases JudgeSession.inv hj with ⟨-, -, x⟩ | ⟨-, -, len, x, y, -⟩ | ⟨-, -, x⟩ | ⟨_, _, _, ms', y, x, z, rfl, hj'⟩
          · exact (incomplete_raw hP hc x).elim
          · have := x.1; omega
          · exact (notSealed_raw hP hc x).elim
          obtain ⟨rfl, rfl, rfl⟩ := Ref.raw_unique hP hc x z
          obtain ⟨j, a, b, c, d, f⟩ := ih hr1 (by omega) h2 hj'
          refine ⟨j + 1, by rw [List.length_cons]; omega, ?_, ?_, ?_, ?_⟩
          · simp only [payloads, b, List.take_succ_cons, List.map_cons]; rfl
          · intro y hy
            rcases List.mem_cons.1 hy with rfl | hy
            · exact .inl ⟨_, rfl⟩
            · rcases c y hy with h | h | ⟨h1, h2, h3⟩
              · exact .inl h
              · exact .inr (.inl h)
              · exact .inr (.inr ⟨h1, h2, by rw [h3, List.length_cons]⟩)
          · intro h
            simp only [polls, List.length_cons] at h ⊢
            rw [d (by omega)]
          · intro h hv
            simp only [polls, List.length_cons] at h
            exact List.mem_cons_of_mem _ (f (by omega) hv)

/-- C62, session: the blocking reader and the reference implementation see the same messages, up to the first packet
with more than 4000013 bytes of contents.  Without such a packet they end alike. -/
theorem C62_session_agree (hP : Lawful P) {kL kP : Bytes} {n : Nat} {bs : Bytes} {ms ms' : List (UInt8 × Bytes)}
    {v v' : Spec.Verdict} (h : Spec.JudgeSession syncLongest P kL kP n bs ms v)
    (h' : Spec.JudgeSession (2 ^ 24 - 1) P kL kP n bs ms' v') :
    ms <+: ms' ∧ (v ≠ .tooBig → ms = ms' ∧ v = v') ∧ v' ≠ .tooBig := by
  have hsl : syncLongest = 4000013 := rfl
  have hv' : v' ≠ .tooBig := by
    clear h
    induction h' with
    | tooBig h1 h2 => have := h1.1; omega
    | waits | forged => simp
    | message _ _ _ ih => exact ih
  suffices hx : ms <+: ms' ∧ (v ≠ .tooBig → ms = ms' ∧ v = v') from ⟨hx.1, hx.2, hv'⟩
  clear hv'
  induction h generalizing ms' v' with
  | waits h =>
    obtain ⟨rfl, rfl⟩ := judgeSession_unique hP h' (.waits h)
    exact ⟨List.prefix_refl _, fun _ => ⟨rfl, rfl⟩⟩
  | tooBig => exact ⟨List.nil_prefix, fun h => absurd rfl h⟩
  | forged h =>
    obtain ⟨len, a, b, c, d⟩ := h
    obtain ⟨rfl, rfl⟩ := judgeSession_unique hP h' (.forged ⟨len, a, by omega, c, d⟩)
    exact ⟨List.prefix_refl _, fun _ => ⟨rfl, rfl⟩⟩
  | message h1 h2 h3 ih =>
    rcases JudgeSession.inv h' with ⟨-, -, x⟩ | ⟨-, -, len, x, y, -⟩ | ⟨-, -, x⟩ | ⟨_, _, _, ms', y, x, z, rfl, hj'⟩
    · exact (incomplete_raw hP h2 x).elim
    · have := x.1; omega
    · exact (notSealed_raw hP h2 x).elim
    obtain ⟨rfl, rfl, rfl⟩ := Ref.raw_unique hP h2 x z
    obtain ⟨a, b⟩ := ih hj'
    refine ⟨(List.cons_prefix_cons).2 ⟨rfl, a⟩, fun h => ?_⟩
    obtain ⟨rfl, rfl⟩ := b h
    exact ⟨rfl, rfl⟩

theorem announces_exists (kL : Bytes) (n : Nat) {bs : Bytes} (h : 3 ≤ bs.length) :
    ∃ len, Spec.Announces P kL n bs len := by
  have hl : (bs.take 3).length = 3 := by rw [List.length_take]; omega
  have hx : (xorBytes (bs.take 3) (Spec.lengthMask P kL n)).length = 3 := by
    rw [xorBytes_length, lengthMask_length, hl]; rfl
  refine ⟨leNat (xorBytes (bs.take 3) (Spec.lengthMask P kL n)), ?_, ?_⟩
  · have := leNat_lt (xorBytes (bs.take 3) (Spec.lengthMask P kL n))
    rw [hx] at this
    exact this
  · have := leBytes_leNat (xorBytes (bs.take 3) (Spec.lengthMask P kL n))
    rw [hx] at this
    rw [spec_le, this, spec_xor, xorBytes_cancel]
    rw [lengthMask_length, hl]

/-- C62: every stream has exactly one verdict. -/
theorem C62_session_total (hP : Lawful P) (longest : Nat) (kL kP : Bytes) (n : Nat) (bs : Bytes) :
    ∃ ms v, Spec.JudgeSession longest P kL kP n bs ms v ∧
      ∀ ms' v', Spec.JudgeSession longest P kL kP n bs ms' v' → ms' = ms ∧ v' = v := by
  suffices h : ∃ ms v, Spec.JudgeSession longest P kL kP n bs ms v by
    obtain ⟨ms, v, h⟩ := h
    exact ⟨ms, v, h, fun ms' v' h' => judgeSession_unique hP h' h⟩
  induction hlen : bs.length using Nat.strongRecOn generalizing n bs with
  | ind m ih =>
  subst hlen
  by_cases h3 : bs.length < 3
  · exact ⟨_, _, .waits (.inl h3)⟩
  obtain ⟨len, ha⟩ := announces_exists (P := P) kL n (by omega : 3 ≤ bs.length)
  have h24 := ha.1
  by_cases hshort : bs.length < len + 20
  · exact ⟨_, _, .waits (.inr ⟨len, ha, by omega, hshort⟩)⟩
  by_cases hbig : longest < len
  · exact ⟨_, _, .tooBig ha hbig (by omega)⟩
  by_cases hx : ∃ header contents, (bs.drop 3).take (len + 17) = Spec.sealedPart P kP n header [] contents
  · obtain ⟨header, contents, he⟩ := hx
    have hcl : contents.length = len := by
      have := congrArg List.length he
      rw [sealedPart_length hP, List.length_take, List.length_drop] at this
      omega
    have hbs : bs = Spec.rawPacket P kL kP n header [] contents ++ (bs.drop 3).drop (len + 17) := by
      rw [rawPacket_eq, hcl, ← ha.2, ← he, List.append_assoc, List.take_append_drop, List.take_append_drop]
    obtain ⟨ms, v, hj⟩ := ih _ (by rw [List.length_drop, List.length_drop]; omega) (n + 1)
      ((bs.drop 3).drop (len + 17)) rfl
    refine ⟨(header, contents) :: ms, v, ?_⟩
    rw [hbs]
    exact .message (by omega) (by omega) hj
  · exact ⟨_, _, .forged ⟨len, ha, by omega, by omega, fun header contents he => hx ⟨header, contents, he⟩⟩⟩

/-! ## The exceptions are real -/

/-- C62: with 4111 bytes after the key and no terminator among them, the library gives up; the reference implementation
waits for one more byte. -/
theorem C62_boundary {A : Api} (hA : A = syncApi ∨ A = asyncApi) (hP : Lawful P) (hm : magic.length = 4)
    (hme : Ready P prof me) {reader tail : Source} {k : ErrorKind} {writer : Sink}
    (hw : writer.Reliable A.retry) (hend : EndsWith A.retry tail k) {bs : Bytes} (hlen : bs.length = 64 + 4111)
    (hs : Streams false reader bs tail) (hv1 : bs.take 4 ≠ magic)
    (hv2 : role = .responder → (bs.drop 4).take 12 ≠ versionWord)
    (hno : ∀ j, ¬ Spec.OccursAt (me.directions P magic role bs).2.2.2 (bs.drop 64) j) :
    (handshake A P prof magic role me.rng me.garbage me.decoys reader writer).2.2
        = .err (.internal .noGarbageTerminator) ∧
      (Ref.run P magic (me.reference role) bs).2 = .waiting := by
  obtain ⟨B, w', log, r, h1, -, -, h2⟩ :=
    C62_library (me := me) (magic := magic) (role := role) hA hP hme hw hend (by omega) hs
  obtain ⟨-, v, h3, h4⟩ := h2 (by omega) hv1
  obtain ⟨-, -, -, -, -, h5⟩ := C62_reference (P := P) (me := me) (role := role) hP hm bs
  obtain ⟨-, v', h6, h7⟩ := h5 (by omega) hv2
  have hl : (bs.drop 64).length = 4111 := by rw [List.length_drop]; omega
  obtain rfl := judge_unique hP h3 (.noTerminator (fun j _ => hno j) (by rw [hl]; decide))
  obtain rfl := judge_unique hP h6 (.waits hno (by rw [hl]; decide))
  obtain ⟨e, he, hr⟩ := h4
  rw [h1]
  exact ⟨by rw [hr]; injection he with he; rw [← he], h7⟩

/-- A party for the examples, with the stream of its peer. -/
def sampleMe : Peer := ⟨leBytes 32 77, some [42], some [[8]]⟩

/-- The key of the peer, what follows it, and the keys derived from it. -/
def sampleStream (rest : (Bytes × Bytes × Bytes) → Bytes) : Bytes :=
  toy.ellswift (leBytes 32 99) ++
    rest (sampleMe.directions toy [1, 2, 3, 4] .initiator (toy.ellswift (leBytes 32 99))).2

/-- What the library (both APIs) and the reference implementation make of it: 0 waits, 1 refuses, 2 is ready. -/
def sampleOutcomes (bs : Bytes) : Nat × Nat × Nat :=
  let lib {S : Type} : Outcome ProtocolError (InboundCipher × OutboundCipher × S) → Nat
    | .ok _ => 2
    | .err (.internal _) => 1
    | _ => 0
  (lib (handshake syncApi toy .debug [1, 2, 3, 4] .initiator sampleMe.rng sampleMe.garbage sampleMe.decoys
      [.data bs] ⟨[], [], []⟩).2.2,
   lib (handshake asyncApi toy .debug [1, 2, 3, 4] .initiator sampleMe.rng sampleMe.garbage sampleMe.decoys
      [.data bs] ⟨[], [], []⟩).2.2,
   match (Ref.run toy [1, 2, 3, 4] (sampleMe.reference .initiator) bs).2 with
   | .waiting => 0
   | .disconnected => 1
   | .v1 => 1
   | .ready .. => 2)

/-- The party is ready. -/
example : Ready toy .debug sampleMe := ⟨by decide +kernel, by decide, by decide⟩

/-- The same verdict: a version packet with an unused bit; a forged packet; part of a packet. -/
example :
    sampleOutcomes (sampleStream fun keys => [9, 9] ++ keys.2.2 ++
      Spec.rawPacket toy keys.1 keys.2.1 0 0x41 [9, 9] [5]) = (2, 2, 2) ∧
    sampleOutcomes (sampleStream fun keys => [9, 9] ++ keys.2.2 ++
      Spec.rawPacket toy keys.1 keys.2.1 0 0x41 [9] [5]) = (1, 1, 1) ∧
    sampleOutcomes (sampleStream fun keys => [9, 9] ++ keys.2.2 ++
      (Spec.rawPacket toy keys.1 keys.2.1 0 0x80 [9, 9] [5]).take 7) = (0, 0, 0) := by
  decide +kernel

/-- An exception: the ignore bit together with another bit.  The library has finished the handshake with a decoy. -/
example : sampleOutcomes (sampleStream fun keys => [9, 9] ++ keys.2.2 ++
    Spec.rawPacket toy keys.1 keys.2.1 0 0x81 [9, 9] [5]) = (2, 2, 0) := by
  decide +kernel

/-- An exception: the length of a decoy of 3999998 bytes. -/
example : sampleOutcomes (sampleStream fun keys => [9, 9] ++ keys.2.2 ++
    Spec.xor (Spec.le 3 3999998) (Spec.lengthMask toy keys.1 0)) = (1, 1, 0) := by
  decide +kernel

/-- No exception: a stream that is not divergent, on which both are ready. -/
example : let keys := (sampleMe.directions toy [1, 2, 3, 4] .initiator (toy.ellswift (leBytes 32 99))).2
    ¬ Spec.Divergent libRules toy keys ([] ++ keys.2.2 ++ (Spec.rawPacket toy keys.1 keys.2.1 0 0 [] [] ++ [1])) := by
  intro keys hd
  have h1 : Spec.Judge libRules toy keys ([] ++ keys.2.2 ++ (Spec.rawPacket toy keys.1 keys.2.1 0 0 [] [] ++ [1]))
      (.complete 1 [1]) := .garbage (by simp) (by simp) (.version (by decide) (by decide) (by decide))
  have h2 : Spec.Judge Spec.bipRules toy keys ([] ++ keys.2.2 ++ (Spec.rawPacket toy keys.1 keys.2.1 0 0 [] [] ++ [1]))
      (.complete 1 [1]) := .garbage (by simp) (by simp) (.version (by decide) (by decide) (by decide))
  exact (judge_iff toy_lawful libRules_stricter (by decide +kernel) h1 h2).2 hd rfl

/-- The boundary: a terminator does not occur in zeros. -/
example : (∀ j, ¬ Spec.OccursAt (sampleMe.directions toy [1, 2, 3, 4] .initiator
      (toy.ellswift (leBytes 32 99) ++ zeros 4111)).2.2.2 (zeros 4111) j) ∧
    (toy.ellswift (leBytes 32 99) ++ zeros 4111).length = 64 + 4111 ∧
    (toy.ellswift (leBytes 32 99) ++ zeros 4111).take 4 ≠ [1, 2, 3, 4] := by
  have hkey : sampleMe.directions toy [1, 2, 3, 4] .initiator (toy.ellswift (leBytes 32 99) ++ zeros 4111)
      = sampleMe.directions toy [1, 2, 3, 4] .initiator (toy.ellswift (leBytes 32 99)) := by
    unfold Peer.directions
    rw [take_append_len _ _ (toy_lawful.ellswift_length _).symm,
      List.take_of_length_le (Nat.le_of_eq (toy_lawful.ellswift_length _))]
  refine ⟨?_, by rw [List.length_append, toy_lawful.ellswift_length, zeros_length], ?_⟩
  · rw [hkey]
    rintro j ⟨pre, post, he, -⟩
    have hmem : ∀ b ∈ (sampleMe.directions toy [1, 2, 3, 4] .initiator (toy.ellswift (leBytes 32 99))).2.2.2, b = 0 := by
      intro b hb
      refine List.eq_of_mem_replicate (n := 4111) ?_
      show b ∈ zeros 4111
      rw [he]
      exact List.mem_append_left _ (List.mem_append_right _ hb)
    revert hmem
    decide +kernel
  · rw [List.take_append_of_le_length (by rw [toy_lawful.ellswift_length]; omega)]
    decide +kernel

/-- The session: messages with any header, then a forged packet, for all three receivers. -/
example :
    let sent := Spec.packetStream toy (leBytes 32 77) (leBytes 32 99) 0 [] [(5, [1, 2, 3]), (0x80, [])]
      ++ Spec.rawPacket toy (leBytes 32 77) (leBytes 32 99) 2 0 [1] [4, 4]
    ((SyncReader.readMany toy .debug ⟨sampleIn, ⟨[], false, [.data sent]⟩⟩ 3).2
      == [.ok (delivered (5, [1, 2, 3])), .ok (delivered (0x80, [])), .err (.internal .decryption)]) &&
    ((AsyncReader.run toy .debug ⟨sampleIn, ⟨[], 0, [.data sent]⟩, .initReadingLength⟩ [.poll, .poll, .poll]).2
      == [.ok (delivered (5, [1, 2, 3])), .ok (delivered (0x80, [])), .err (.internal .decryption)]) = true := by
  decide +kernel

end Bip324
