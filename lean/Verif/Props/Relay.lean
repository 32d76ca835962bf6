import Verif.Props.Interop
import Verif.Props.Middle

/-!
# C88: an attacker who replaces the public keys, and what the session id is good for
-/

namespace Bip324

open Concrete

variable {P : Prims} {prof : Profile}

/-! ## What the hash functions bind -/

namespace Spec

/-- The five messages of which a party computes the SHA-256, one after the other, for the key with a label: for the secret of the
two public keys and the shared coordinate (BIP-340 tagged hash), and for HKDF (RFC 5869) as two times HMAC (RFC 2104).  The key
is the SHA-256 of the last. -/
def keyMessages (label magic initiatorKey responderKey x : Bytes) : List Bytes :=
  let m1 := sha256 ecdhTag ++ sha256 ecdhTag ++ (initiatorKey ++ responderKey ++ x)
  let salt := hmacKey (saltPrefix ++ magic)
  let m2 := salt.map (· ^^^ 0x36) ++ sha256 m1
  let m3 := salt.map (· ^^^ 0x5c) ++ sha256 m2
  let prk := hmacKey (sha256 m3)
  let m4 := prk.map (· ^^^ 0x36) ++ (label ++ [1])
  let m5 := prk.map (· ^^^ 0x5c) ++ sha256 m4
  [m1, m2, m3, m4, m5]

/-- Those for the session id. -/
def idMessages : Bytes → Bytes → Bytes → Bytes → List Bytes := keyMessages lblSessionId

/-- The coordinate which the owner of `sk` shares with the owner of the key `theirs`, as 32 bytes. -/
def sharedX (sk theirs : Bytes) : Bytes := beBytes 32 (jx (jmul 256 (beNat sk) (liftX (ellswiftDecode theirs))))

/-- At one place of the two lists there are two different messages with the same SHA-256. -/
def CollisionAmong (ms ms' : List Bytes) : Prop :=
  ∃ (i : Nat) (x y : Bytes), ms[i]? = some x ∧ ms'[i]? = some y ∧ x ≠ y ∧ sha256 x = sha256 y

end Spec

theorem xor_const_inj (c : UInt8) {a b : Bytes} (h : a.map (· ^^^ c) = b.map (· ^^^ c)) : a = b := by
  refine List.map_injective_iff.mpr (fun x y hxy => ?_) h
  have := congrArg (· ^^^ c) hxy
  simpa [UInt8.xor_assoc] using this

theorem hmacKey_length (k : Bytes) : (hmacKey k).length = 64 := by
  have h : (if k.length > 64 then sha256 k else k).length ≤ 64 := by
    split
    · rw [sha256_length]; decide
    · omega
  simp only [hmacKey, List.length_append, zeros, List.length_replicate]
  omega

theorem hmacKey_inj {k k' : Bytes} (hl : k.length = k'.length) (hk : k.length ≤ 64) (h : hmacKey k = hmacKey k') : k = k' := by
  unfold hmacKey at h
  rw [if_neg (by omega), if_neg (by omega)] at h
  exact (List.append_inj h hl).1

/-- 32 bytes of HKDF. -/
theorem hkdf_32 (salt ikm info : Bytes) : hkdf salt ikm info 32 = some (hmac (hmac salt ikm) (info ++ [1])) := by
  have ht : (hmac (hmac salt ikm) (info ++ [1])).take 32 = hmac (hmac salt ikm) (info ++ [1]) :=
    List.take_of_length_le (by rw [hmac, sha256_length])
  rw [hkdf, if_pos (by decide)]
  show some ((hmac (hmac salt ikm) ([] ++ info ++ [UInt8.ofNat 1]) ++ []).take 32) = _
  rw [List.nil_append, List.append_nil]
  exact congrArg some ht

/-- A key is the hash of the last message. -/
theorem key_eq (enc : Bytes → Bytes) (label magic a b sk : Bytes) (initiating : Bool) :
    some (Spec.expand (rfc (secpWith enc)) magic (Spec.ecdhSecret (rfc (secpWith enc)) a b sk initiating) label) =
      (Spec.keyMessages label magic a b (Spec.sharedX sk (if initiating then b else a)))[4]?.map sha256 := by
  have ht : ("bip324_ellswift_xonly_ecdh".toList.map fun c => UInt8.ofNat c.toNat) = Spec.ecdhTag := by decide +kernel
  have hx : Spec.ecdhSecret (rfc (secpWith enc)) a b sk initiating =
      sha256 (sha256 Spec.ecdhTag ++ sha256 Spec.ecdhTag ++ (a ++ b ++ Spec.sharedX sk (if initiating then b else a))) := by
    cases initiating
    · show ellswiftXdh a b sk false = _
      simp only [ellswiftXdh, taggedHash, ht, Spec.sharedX]
    · show ellswiftXdh a b sk true = _
      simp only [ellswiftXdh, taggedHash, ht, Spec.sharedX]
  rw [hx, Spec.expand]
  show some ((hkdf _ _ _ 32).getD []) = _
  rw [hkdf_32]
  rfl

/-- Equal keys come from the same label and the same public keys on one network, or two of the messages collide. -/
theorem key_binds {label label' magic magic' a a' b b' x x' : Bytes} (hm : magic.length = 4) (hm' : magic'.length = 4) (ha : a.length = a'.length)
    (hb : b.length = b'.length)
    (h : (Spec.keyMessages label magic a b x)[4]?.map sha256 = (Spec.keyMessages label' magic' a' b' x')[4]?.map sha256) :
    (label = label' ∧ magic = magic' ∧ a = a' ∧ b = b') ∨ Spec.CollisionAmong (Spec.keyMessages label magic a b x) (Spec.keyMessages label' magic' a' b' x') := by
  by_cases hc : Spec.CollisionAmong (Spec.keyMessages label magic a b x) (Spec.keyMessages label' magic' a' b' x')
  · exact .inr hc
  have step : ∀ (i : Nat) {y y' : Bytes}, (Spec.keyMessages label magic a b x)[i]? = some y →
      (Spec.keyMessages label' magic' a' b' x')[i]? = some y' → sha256 y = sha256 y' → y = y' := by
    intro i y y' e e' hs
    by_contra hne
    exact hc ⟨i, y, y', e, e', hne, hs⟩
  have hsp : Spec.saltPrefix.length = 24 := by decide +kernel
  have e5 := step 4 rfl rfl (Option.some.inj h)
  obtain ⟨e5, e4⟩ := List.append_inj e5 (by simp [hmacKey_length])
  have e4 := step 3 rfl rfl e4
  obtain ⟨-, e4⟩ := List.append_inj e4 (by simp [hmacKey_length])
  have e3 := step 2 rfl rfl (hmacKey_inj (by simp [sha256_length]) (by simp [sha256_length]) (xor_const_inj _ e5))
  obtain ⟨es, e2⟩ := List.append_inj e3 (by simp [hmacKey_length])
  have es := hmacKey_inj (by rw [List.length_append, List.length_append, hm, hm']) (by rw [List.length_append, hsp, hm]; decide)
    (xor_const_inj _ es)
  have e2 := step 1 rfl rfl e2
  obtain ⟨-, e1⟩ := List.append_inj e2 (by simp [hmacKey_length])
  have e1 := List.append_cancel_left (step 0 rfl rfl e1)
  obtain ⟨e1, -⟩ := List.append_inj e1 (by simp [ha, hb])
  obtain ⟨e0, e0'⟩ := List.append_inj e1 ha
  exact .inl ⟨List.append_cancel_right e4, List.append_cancel_left es, e0, e0'⟩

/-! ## A handshake driven by hand -/

/-- The calls of the application between the end of the garbage and the end of the handshake: lengths are decrypted and
decoys are received, whatever the bytes are (handshake.rs:491-493, 565-581). -/
inductive AfterGarbage (P : Prims) (prof : Profile) : HsReceivedGarbage → HsReceivedGarbage → Prop where
  | refl (h) : AfterGarbage P prof h h
  | length {h h' h'' bytes x} : h.decryptPacketLen P prof bytes = (h', x) → AfterGarbage P prof h' h'' → AfterGarbage P prof h h''
  | decoy {h h' h'' bytes buf} : h.receiveVersion P prof bytes = (buf, .ok (.decoy h')) → AfterGarbage P prof h' h'' →
      AfterGarbage P prof h h''

/-- The application has driven a handshake to its end with the public functions of `Handshake`, given the key `theirKey`
and whatever other bytes, and holds `session`. -/
def HandDriven (P : Prims) (prof : Profile) (magic : Bytes) (role : Role) (rng theirKey : Bytes) (session : CipherSession) : Prop :=
  ∃ h0 g b0 b1 h1 h2 b2 d b3 h3 input h4 consumed h5 last b4,
    HsInitialized.newWithRng P prof magic role rng = .ok h0 ∧ h0.sendKey g b0 = (b1, .ok h1) ∧
    h1.receiveKey P theirKey = .ok h2 ∧ h2.sendVersion P prof b2 d = (b3, .ok h3) ∧
    h3.receiveGarbage input = .ok (.foundGarbage h4 consumed) ∧ AfterGarbage P prof h4 h5 ∧
    h5.receiveVersion P prof last = (b4, .ok (.complete session))

theorem afterGarbage_id {h h' : HsReceivedGarbage} (a : AfterGarbage P prof h h') : h'.cipher.id = h.cipher.id := by
  induction a with
  | refl => rfl
  | length e _ ih =>
    rw [ih]
    simp only [HsReceivedGarbage.decryptPacketLen, Prod.mk.injEq] at e
    rw [← e.1]
  | decoy e _ ih =>
    rw [ih]
    unfold HsReceivedGarbage.receiveVersion at e
    simp only at e
    split at e <;> try simp only [Prod.mk.injEq, reduceCtorEq, and_false] at e
    split at e <;> simp only [Prod.mk.injEq, Outcome.ok.injEq, reduceCtorEq, and_false, VersionResult.decoy.injEq] at e
    rw [← e.2]

/-- The key of the initiator and the key of the responder, as a party sees them. -/
def Role.keys (role : Role) (mine theirs : Bytes) : Bytes × Bytes :=
  match role with
  | .initiator => (mine, theirs)
  | .responder => (theirs, mine)

/-- The id of a session. -/
theorem handDriven_id (hP : Lawful P) {magic rng theirKey : Bytes} {role : Role} {s : CipherSession}
    (h : HandDriven P prof magic role rng theirKey s) :
    s.id = Spec.expand P magic (Spec.ecdhSecret P (role.keys (P.ellswift rng) theirKey).1 (role.keys (P.ellswift rng) theirKey).2 rng
      role.initiating) Spec.lblSessionId := by
  obtain ⟨h0, g, b0, b1, h1, h2, b2, d, b3, h3, input, h4, consumed, h5, last, b4, e0, e1, e2, e3, e4, e5, e6⟩ := h
  have i6 : s.id = h5.cipher.id := by
    unfold HsReceivedGarbage.receiveVersion at e6
    simp only at e6
    split at e6 <;> try simp only [Prod.mk.injEq, reduceCtorEq, and_false] at e6
    split at e6 <;> simp only [Prod.mk.injEq, Outcome.ok.injEq, reduceCtorEq, and_false, VersionResult.complete.injEq] at e6
    rw [← e6.2]
  have i4 : h4.cipher.id = h3.cipher.id := by
    unfold HsSentVersion.receiveGarbage at e4
    split at e4 <;> simp only [Outcome.ok.injEq, GarbageResult.foundGarbage.injEq, reduceCtorEq] at e4
    rw [← e4.1]
  have i3 : h3.cipher.id = h2.sessionKeys.sessionId := by
    unfold HsReceivedKey.sendVersion at e3
    simp only at e3
    split at e3
    · simp at e3
    · split at e3 <;> try simp only [Prod.mk.injEq, reduceCtorEq, and_false] at e3
      split at e3 <;> simp only [Prod.mk.injEq, reduceCtorEq, and_false, Outcome.ok.injEq] at e3
      rw [← e3.2]
      cases h2.role <;> rfl
  have i1 : h1.role = role ∧ h1.magic = magic ∧ h1.secretKey = rng ∧ h1.ellswift = P.ellswift rng := by
    unfold HsInitialized.newWithRng at e0
    split at e0
    · cases e0
    · split at e0
      · simp only [Outcome.ok.injEq] at e0
        subst e0
        unfold HsInitialized.sendKey at e1
        split at e1
        · simp at e1
        · simp only at e1
          split at e1
          · simp at e1
          · simp only [Prod.mk.injEq, Outcome.ok.injEq] at e1
            rw [← e1.2]
            exact ⟨rfl, rfl, rfl, rfl⟩
      · cases e0
  obtain ⟨r1, r2, r3, r4⟩ := i1
  obtain ⟨k1, k2⟩ := C17_receive_key h1 e2
  rw [i6, afterGarbage_id e5, i4, i3]
  cases role with
  | initiator =>
    have k := k1 r1
    have hd := C17_derivation hP h1.ellswift theirKey h1.secretKey h1.magic true
    rw [if_pos rfl, k, Outcome.ok.injEq] at hd
    rw [hd, r2, r3, r4]
    rfl
  | responder =>
    have k := k2 r1
    have hd := C17_derivation hP theirKey h1.ellswift h1.secretKey h1.magic false
    rw [if_neg (by decide), k, Outcome.ok.injEq] at hd
    rw [hd, r2, r3, r4]
    rfl

/-- C88: two parties which completed a handshake, driven by hand, have the same session id only if they saw the same two public
keys in the same roles, on the same network - or two messages collide which the parties themselves have hashed, at the same step.
(That SHA-256 has some collision is no news; this one is in the parties' hands.) -/
theorem C88_id_binds (enc : Bytes → Bytes) (henc : ∀ sk, (enc sk).length = 64) {magic magic' rng rng' key key' : Bytes}
    {role role' : Role} {s s' : CipherSession} (hm : magic.length = 4) (hm' : magic'.length = 4) (hk : key.length = 64)
    (hk' : key'.length = 64) (h : HandDriven (rfc (secpWith enc)) prof magic role rng key s)
    (h' : HandDriven (rfc (secpWith enc)) prof magic' role' rng' key' s') (hid : s.id = s'.id) :
    let K := role.keys (enc rng) key
    let K' := role'.keys (enc rng') key'
    (magic = magic' ∧ K = K') ∨
      Spec.CollisionAmong (Spec.idMessages magic K.1 K.2 (Spec.sharedX rng key)) (Spec.idMessages magic' K'.1 K'.2 (Spec.sharedX rng' key')) := by
  have hP := C53_real_lawful enc henc
  have hlen : ∀ role : Role, ∀ r k : Bytes, k.length = 64 →
      (role.keys (enc r) k).1.length = 64 ∧ (role.keys (enc r) k).2.length = 64 := by
    intro role r k hk
    cases role <;> simp [Role.keys, henc, hk]
  have hth : ∀ (role : Role) (mine theirs : Bytes),
      (if role.initiating = true then (role.keys mine theirs).2 else (role.keys mine theirs).1) = theirs := by
    intro role mine theirs
    cases role <;> rfl
  obtain ⟨a1, a2⟩ := hlen role rng key hk
  obtain ⟨b1, b2⟩ := hlen role' rng' key' hk'
  have hid := congrArg some hid
  rw [handDriven_id hP h, handDriven_id hP h', key_eq, key_eq, hth, hth] at hid
  rcases key_binds hm hm' (a1.trans b1.symm) (a2.trans b2.symm) hid with ⟨-, h1, h2, h3⟩ | hc
  · exact .inl ⟨h1, Prod.ext h2 h3⟩
  · exact .inr hc

/-- C88: without anybody in between the two ids are the same. -/
theorem C88_id_agrees (hP : Lawful P) {magic rngI rngR : Bytes} {s s' : CipherSession}
    (h : HandDriven P prof magic .initiator rngI (P.ellswift rngR) s) (h' : HandDriven P prof magic .responder rngR (P.ellswift rngI) s') :
    s.id = s'.id := by
  have hv : ∀ {role rng key s}, HandDriven P prof magic role rng key s → P.validSecret rng = true := by
    rintro role rng key s ⟨h0, g, b0, b1, h1, h2, b2, d, b3, h3, input, h4, consumed, h5, last, b4, e0, -⟩
    unfold HsInitialized.newWithRng at e0
    split at e0
    · cases e0
    · split at e0
      · assumption
      · cases e0
  rw [handDriven_id hP h, handDriven_id hP h']
  simp only [Role.keys, Spec.ecdhSecret, Role.initiating]
  have := hP.ecdh_agree rngI rngR Spec.ecdhTag (hv h) (hv h')
  simpa using congrArg (fun x => Spec.expand P magic x Spec.lblSessionId) this

/-- C88: an attacker who makes a handshake of its own with each of two parties: as `M` with the initiator `I`, as `N` with the
responder `R`. Both complete theirs. In the direction from `I` (`role = .initiator`) the attacker reads as `M` exactly what `I`
writes, and `R` reads exactly the `qs` that the attacker chooses to write as `N`, whether or not they are what `I` wrote; in the
other direction (`role = .responder`) the same with the parties exchanged.  All calls succeed.  Blocking senders; receivers
of every kind. -/
theorem C88_relay (hP : Lawful P) {magic : Bytes} {I R M N : Peer} (H1 : Honest P prof magic I M) (H2 : Honest P prof magic N R)
    (role : Role) {w1 w2 : Sink} (hw1 : w1.Reliable true) (hw2 : w2.Reliable true) {src1 tail1 src2 tail2 : Source} {k1 k2 : ErrorKind}
    {more1 more2 : Bytes} (he1 : EndsWith true tail1 k1) (he2 : EndsWith true tail2 k2)
    (hs1 : Streams false src1 (flight P magic I M role.peer ++ more1) tail1)
    (hs2 : Streams false src2 (flight P magic N R role.peer ++ more2) tail2) :
    ∃ p1 p2, SyncProtocol.new P prof magic role (role.of I M).rng (role.of I M).garbage (role.of I M).decoys src1 w1 = .ok p1 ∧
      SyncProtocol.new P prof magic role (role.of N R).rng (role.of N R).garbage (role.of N R).decoys src2 w2 = .ok p2 ∧
      ∀ ps qs w w' rs rs', p1.writer.writeMany .sync P prof ps = (w, rs) → (∀ x ∈ rs, x = .ok ()) →
        p2.writer.writeMany .sync P prof qs = (w', rs') → (∀ x ∈ rs', x = .ok ()) →
        (∀ q ∈ ps ++ qs, ∀ c, q.contents = some c → c.length ≤ 4000013) →
        ∀ sent1 sent2, w.writer.out = w1.out ++ sent1 → w'.writer.out = w2.out ++ sent2 →
          Conveys P prof magic role.peer (role.peer.of I M) sent1 ps ∧ Conveys P prof magic role.peer (role.peer.of N R) sent2 qs := by
  obtain ⟨p1, e1, f1⟩ := C59_sync hP H1 role hw1 he1 hs1
  obtain ⟨p2, e2, f2⟩ := C59_sync hP H2 role hw2 he2 hs2
  refine ⟨p1, p2, e1, e2, fun ps qs w w' rs rs' a1 a2 b1 b2 hl sent1 sent2 o1 o2 => ⟨?_, ?_⟩⟩
  · exact f1 ps w rs a1 a2 (fun q hq => hl q (List.mem_append_left _ hq)) sent1 o1
  · exact f2 qs w' rs' b1 b2 (fun q hq => hl q (List.mem_append_right _ hq)) sent2 o2

/-- C88, asynchronous senders. -/
theorem C88_relay_async (hP : Lawful P) {magic : Bytes} {I R M N : Peer} (H1 : Honest P prof magic I M) (H2 : Honest P prof magic N R)
    (role : Role) {w1 w2 : Sink} (hw1 : w1.Reliable false) (hw2 : w2.Reliable false) {src1 tail1 src2 tail2 : Source} {k1 k2 : ErrorKind}
    {more1 more2 : Bytes} (he1 : EndsWith false tail1 k1) (he2 : EndsWith false tail2 k2)
    (hs1 : Streams false src1 (flight P magic I M role.peer ++ more1) tail1)
    (hs2 : Streams false src2 (flight P magic N R role.peer ++ more2) tail2) :
    ∃ p1 p2, AsyncProtocol.new P prof magic role (role.of I M).rng (role.of I M).garbage (role.of I M).decoys src1 w1 = .ok p1 ∧
      AsyncProtocol.new P prof magic role (role.of N R).rng (role.of N R).garbage (role.of N R).decoys src2 w2 = .ok p2 ∧
      ∀ ps qs w w' rs rs', p1.writer.writeMany .async P prof ps = (w, rs) → (∀ x ∈ rs, x = .ok ()) →
        p2.writer.writeMany .async P prof qs = (w', rs') → (∀ x ∈ rs', x = .ok ()) →
        (∀ q ∈ ps ++ qs, ∀ c, q.contents = some c → c.length ≤ 4000013) →
        ∀ sent1 sent2, w.writer.out = w1.out ++ sent1 → w'.writer.out = w2.out ++ sent2 →
          Conveys P prof magic role.peer (role.peer.of I M) sent1 ps ∧ Conveys P prof magic role.peer (role.peer.of N R) sent2 qs := by
  obtain ⟨p1, e1, f1⟩ := C59_async hP H1 role hw1 he1 hs1
  obtain ⟨p2, e2, f2⟩ := C59_async hP H2 role hw2 he2 hs2
  refine ⟨p1, p2, e1, e2, fun ps qs w w' rs rs' a1 a2 b1 b2 hl sent1 sent2 o1 o2 => ⟨?_, ?_⟩⟩
  · exact f1 ps w rs a1 a2 (fun q hq => hl q (List.mem_append_left _ hq)) sent1 o1
  · exact f2 qs w' rs' b1 b2 (fun q hq => hl q (List.mem_append_right _ hq)) sent2 o2

/-! ## Cases -/

theorem complete_after : ∀ (n : Nat) {h : HsReceivedGarbage} {bs rest : Bytes} {c : CipherSession}, bs.length ≤ n →
    completeHandshake P prof h bs = some (c, rest) →
    ∃ h5 last b4, AfterGarbage P prof h h5 ∧ h5.receiveVersion P prof last = (b4, .ok (.complete c)) := by
  intro n
  induction n with
  | zero =>
    intro h bs rest c hl he
    unfold completeHandshake at he
    rw [if_pos (by omega)] at he
    cases he
  | succ n ih =>
    intro h bs rest c hl he
    unfold completeHandshake at he
    split at he
    · cases he
    · rename_i h3
      split at he
      · rename_i h1 k hd
        split at he
        · cases he
        · split at he
          · rename_i b c' hv
            simp only [Option.some.injEq, Prod.mk.injEq] at he
            exact ⟨h1, _, b, .length hd (.refl _), by rw [hv, he.1]⟩
          · rename_i b h2 hv
            obtain ⟨h5, last, b4, a, e⟩ := ih (by simp only [List.length_drop]; omega) he
            exact ⟨h5, last, b4, .length hd (.decoy hv a), e⟩
          · cases he
      · cases he

/-- Honest parties complete handshakes driven by hand. -/
theorem honest_handDriven (hP : Lawful P) {magic : Bytes} {I R : Peer} (H : Honest P prof magic I R) :
    (∃ s, HandDriven P prof magic .initiator I.rng (P.ellswift R.rng) s) ∧
    ∃ s, HandDriven P prof magic .responder R.rng (P.ellswift I.rng) s := by
  have hn : ∀ role rng, Spec.UsableKey P prof rng →
      HsInitialized.newWithRng P prof magic role rng = .ok ⟨magic, role, rng, P.ellswift rng⟩ := by
    intro role rng h
    exact newWithRng_ok h
  obtain ⟨keyI, keyR, verI, verR, i1, r1, i2, r2, i3, r3, i4, r4, nI, nR, cI, cR, a1, b1, a2, b2, a3, b3, a4, b4, a5, b5, -⟩ :=
    C16_agreement hP magic I.rng R.rng (hn .initiator _ H.newI) (hn .responder _ H.newR) H.magicI H.magicR I.garbage R.garbage
      H.garbageI H.garbageR I.decoys R.decoys (fun d hd => by have := H.decoysI d hd; omega)
      (fun d hd => by have := H.decoysR d hd; omega) H.countI H.countR H.earlyI H.earlyR
      (zeros (HsInitialized.sendKeyLen I.garbage)) (zeros (HsInitialized.sendKeyLen R.garbage))
      (zeros (HsReceivedKey.sendVersionLen I.decoys)) (zeros (HsReceivedKey.sendVersionLen R.decoys))
      (by simp [zeros]) (by simp [zeros]) (by simp [zeros]) (by simp [zeros]) [] []
  have hkey : ∀ {role : Role} {rng : Bytes} {g : Option Bytes} {b out : Bytes} {h : HsSentKey},
      (⟨magic, role, rng, P.ellswift rng⟩ : HsInitialized).sendKey g b = (out, .ok h) → out.take 64 = P.ellswift rng := by
    intro role rng g b out h e
    rw [C18_send_key _ (hP.ellswift_length rng)] at e
    simp only at e
    split at e
    · simp at e
    · split at e
      · simp at e
      · simp only [Prod.mk.injEq] at e
        rw [← e.1, List.append_assoc]
        exact List.take_left' (hP.ellswift_length rng)
  rw [hkey b1] at a2
  rw [hkey a1] at b2
  obtain ⟨h5, last, o, a6, a7⟩ := complete_after _ le_rfl a5
  obtain ⟨h5', last', o', b6, b7⟩ := complete_after _ le_rfl b5
  exact ⟨⟨cI, _, _, _, _, _, _, _, _, _, _, _, _, _, _, _, _, hn _ _ H.newI, a1, a2, a3, a4, a6, a7⟩,
    ⟨cR, _, _, _, _, _, _, _, _, _, _, _, _, _, _, _, _, hn _ _ H.newR, b1, b2, b3, b4, b6, b7⟩⟩

/-- On the real curve there are completed handshakes as `C88_id_binds` and `C88_id_agrees` speak of. -/
example : ∃ s s', HandDriven (rfc (secpWith ellswiftOf)) .release [0xF9, 0xBE, 0xB4, 0xD9] .initiator (beBytes 32 12345)
      ((rfc (secpWith ellswiftOf)).ellswift (beBytes 32 6789)) s ∧
    HandDriven (rfc (secpWith ellswiftOf)) .release [0xF9, 0xBE, 0xB4, 0xD9] .responder (beBytes 32 6789)
      ((rfc (secpWith ellswiftOf)).ellswift (beBytes 32 12345)) s' ∧ s.id = s'.id := by
  have hP := C53_real_lawful ellswiftOf (fun _ => ellswiftEncode_length _)
  obtain ⟨⟨s, h⟩, s', h'⟩ := honest_handDriven hP real_pair
  exact ⟨s, s', h, h', C88_id_agrees hP h h'⟩

/-- With an attacker in between, the initiator writes one thing and the responder reads another; all calls succeed, and the
attacker has read what was written. -/
theorem C88_relay_counterexample :
    let I : Peer := ⟨leBytes 32 77, some [42, 42], none⟩
    let M : Peer := ⟨leBytes 32 5, none, none⟩
    let N : Peer := ⟨leBytes 32 6, none, none⟩
    let R : Peer := ⟨leBytes 32 99, none, some [[7]]⟩
    let start (role : Role) (p : Peer) (bytes : Bytes) :=
      SyncProtocol.new toy .debug [1, 2, 3, 4] role p.rng p.garbage p.decoys [.data bytes] ⟨[], [], []⟩
    (match start .initiator I (flight toy [1, 2, 3, 4] I M .responder), start .initiator N (flight toy [1, 2, 3, 4] N R .responder) with
      | .ok pI, .ok pN =>
        match pI.writer.writeMany .sync toy .debug [.genuine [1, 2, 3]], pN.writer.writeMany .sync toy .debug [.genuine [9]] with
        | (w, [.ok ()]), (w', [.ok ()]) =>
          match start .responder M w.writer.out, start .responder R w'.writer.out with
          | .ok pM, .ok pR =>
            (pM.reader.readMany toy .debug 1).2.map seen == [some (.genuine, [1, 2, 3])] &&
              (pR.reader.readMany toy .debug 1).2.map seen == [some (.genuine, [9])]
          | _, _ => false
        | _, _ => false
      | _, _ => false) = true := by
  decide +kernel

end Bip324
