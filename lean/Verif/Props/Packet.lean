import Verif.Lemmas.Packet
import Verif.Spec.Toy

/-!
# Properties of the packet ciphers: C01, C03, C04, C05, C06, C11, C12, C13, C14, C15

`Matching o i`: the two ends of one direction hold the same keys and counters.
-/

namespace Bip324

variable {P : Prims} {prof : Profile}

/-- Sender and receiver state of one direction match. -/
def Matching (o : OutboundCipher) (i : InboundCipher) : Prop :=
  i.lengthCipher = o.lengthCipher ∧ i.packetCipher = o.packetCipher

/-! ## C01 -/

/-- C01: a packet encrypted by the sender is framed and decrypted by the receiver, through every
decryption entry point, and the states match again. -/
theorem C01_packet_round_trip (hP : Lawful P) {o o' : OutboundCipher} {i : InboundCipher}
    (hm : Matching o i) (contents : Bytes) (hlen : contents.length < 2 ^ 24) (ty : PacketType)
    (aad : Option Bytes) {w : Bytes}
    (he0 : o.encryptToVec P prof contents ty aad = (o', .ok w)) :
    ∃ i1 i2, Matching o' i2 ∧
      i.decryptPacketLen P prof (w.take 3) = (i1, .ok (w.drop 3).length) ∧
      (∃ buf, i1.decryptInPlace P prof (w.drop 3) aad
        = (i2, buf, .ok (ty, ty.toByte :: contents))) ∧
      (∀ buf : Bytes, contents.length + 1 ≤ buf.length →
        i1.decrypt P prof (w.drop 3) buf aad
          = (i2, (ty.toByte :: contents) ++ buf.drop (contents.length + 1), .ok ty)) ∧
      (contents.length + 1 ≤ 4000014 →
        i1.decryptToVec P prof (w.drop 3) aad = (i2, .ok (ty, ty.toByte :: contents))) := by
  obtain ⟨pc, ct, tag, lc, encLen, he, hl, rfl, rfl⟩ :=
    OutboundCipher.encryptToVec_ok_inv hP o contents ty aad he0
  obtain ⟨hml, hmp⟩ := hm
  obtain ⟨hct, htag⟩ := FSAead.encrypt_lengths hP he
  have henc : encLen.length = 3 := by rw [FSStream.crypt_length hl]; simp
  have hct' : ct.length = contents.length + 1 := by simpa using hct
  have htake : (encLen ++ ct ++ tag).take 3 = encLen := by
    rw [List.append_assoc]; exact take_append_len _ _ henc.symm
  have hdrop : (encLen ++ ct ++ tag).drop 3 = ct ++ tag := by
    rw [List.append_assoc]; exact drop_append_len _ _ henc.symm
  rw [htake, hdrop]
  have hty : PacketType.fromByte ty.toByte = ty := by cases ty <;> decide
  have hdec := FSAead.decrypt_encrypt hP he
  have hopen : P.openC i.packetCipher.key i.packetCipher.nonce (aad.getD []) ct tag
      = some (ty.toByte :: contents) := by
    rw [hmp]
    unfold FSAead.decrypt at hdec
    split at hdec
    · cases hdec
    · rename_i hh
      split at hdec
      · cases hdec
      · simp only [FSAead.DecryptResult.ok.injEq] at hdec
        rw [hh, hdec.2]
  have hrek : i.packetCipher.rekey P prof (aad.getD []) = some pc := by
    rw [hmp]
    unfold FSAead.decrypt at hdec
    split at hdec
    · cases hdec
    · split at hdec
      · cases hdec
      · rename_i hh
        simp only [FSAead.DecryptResult.ok.injEq] at hdec
        rw [hh, hdec.1]
  have hdecrypt : ∀ buf : Bytes, contents.length + 1 ≤ buf.length →
      InboundCipher.decrypt P prof ⟨lc, i.packetCipher⟩ (ct ++ tag) buf aad
        = (⟨lc, pc⟩, (ty.toByte :: contents) ++ buf.drop (contents.length + 1), .ok ty) := by
    intro buf hbuf
    rw [InboundCipher.decrypt_append hP _ ct tag buf aad (by omega) htag, if_neg (by omega)]
    simp only [hopen, hrek, List.headD_cons, hty, hct']
  refine ⟨⟨lc, i.packetCipher⟩, ⟨lc, pc⟩, ⟨rfl, rfl⟩, ?_, ⟨(ty.toByte :: contents) ++ tag, ?_⟩,
    hdecrypt, ?_⟩
  · have h2 := FSStream.crypt_crypt hl
    rw [← hml] at h2
    simp only [InboundCipher.decryptPacketLen, h2, leNat_leBytes]
    have : contents.length % u32Mod % 256 ^ 3 = contents.length := by
      simp only [u32Mod]; omega
    simp [this, hct', htag, NUM_HEADER_BYTES, NUM_TAG_BYTES]
  · rw [InboundCipher.decryptInPlace_append hP _ ct tag aad (by omega) htag]
    simp only [hopen, hrek, List.headD_cons, hty]
  · intro hmax
    unfold InboundCipher.decryptToVec InboundCipher.decryptionBufferLen usub
    have h16 : NUM_TAG_BYTES ≤ (ct ++ tag).length := by simp [NUM_TAG_BYTES, htag]
    rw [if_pos h16]
    have hl' : (ct ++ tag).length - NUM_TAG_BYTES = contents.length + 1 := by
      simp [NUM_TAG_BYTES, htag, hct']
    simp only [hl']
    rw [if_neg (by simp only [MAX_PACKET_SIZE_FOR_ALLOCATION]; omega), hdecrypt _ (by simp)]
    simp [zeros]

/-- C01, progress: encryption never returns an error, and it only panics with overflow checks
when a counter is exhausted. -/
theorem C01_encrypt_progress (hP : Lawful P) (o : OutboundCipher) (contents : Bytes)
    (ty : PacketType) (aad : Option Bytes)
    (hp : prof.overflowChecks = false ∨
      (o.packetCipher.messageCounter + 1 < 2 ^ 64 ∧ o.lengthCipher.blockCounter + 3 < 2 ^ 32 ∧
        o.lengthCipher.chunkCounter + 1 < 2 ^ 32)) :
    ∃ o' w, o.encryptToVec P prof contents ty aad = (o', .ok w) := by
  cases he : o.packetCipher.encrypt P prof (aad.getD []) (ty.toByte :: contents) with
  | none =>
    rw [FSAead.encrypt_some, Option.map_eq_none_iff, FSAead.rekey_none] at he
    simp only [u64Mod] at he
    rcases hp with hp | hp
    · simp [hp] at he
    · omega
  | some r =>
    cases hl : o.lengthCipher.crypt P prof (leBytes 3 (contents.length % u32Mod)) with
    | none =>
      rw [FSStream.crypt_none] at hl
      simp only [u32Mod] at hl
      rcases hp with hp | hp
      · simp [hp] at hl
      · omega
    | some s =>
      obtain ⟨pc, ct, tag⟩ := r
      obtain ⟨lc, encLen⟩ := s
      exact ⟨_, _, OutboundCipher.encryptToVec_eq hP o contents ty aad he hl⟩

/-- Non-vacuity: a matching pair in mid-session (last packet of the first key epoch, so that both
ciphers re-key), non-empty contents and AAD. -/
example : ∃ (o : OutboundCipher) (i : InboundCipher) (contents w : Bytes) (o' : OutboundCipher),
    Matching o i ∧ contents.length < 2 ^ 24 ∧ contents ≠ [] ∧ o.packetCipher.messageCounter = 223 ∧
      o.encryptToVec toy .debug contents .decoy (some [9]) = (o', .ok w) ∧
      o'.packetCipher.key ≠ o.packetCipher.key := by
  refine ⟨⟨⟨zeros 32, 669, 223⟩, ⟨zeros 32, 223⟩⟩, ⟨⟨zeros 32, 669, 223⟩, ⟨zeros 32, 223⟩⟩,
    [1, 2, 3], _, _, ⟨rfl, rfl⟩, by decide, by decide, rfl, rfl, by decide +kernel⟩

/-! ## C03 -/

/-- C03: `decrypt_in_place` accepts exactly the byte strings which the packet cipher, in the
receiver's current state and for the given AAD, produces for some non-empty plaintext; the
plaintext reported is that one. -/
theorem C03_accepts_only_exact (hP : Lawful P) (i : InboundCipher) (ct : Bytes)
    (aad : Option Bytes) (ty : PacketType) (plain : Bytes) :
    (∃ i' buf, i.decryptInPlace P prof ct aad = (i', buf, .ok (ty, plain))) ↔
      ∃ header contents pc msg tag, plain = header :: contents ∧ ty = PacketType.fromByte header ∧
        ct = msg ++ tag ∧
        i.packetCipher.encrypt P prof (aad.getD []) plain = some (pc, msg, tag) := by
  constructor
  · rintro ⟨i', buf, h⟩
    by_cases hs : ct.length < 17
    · rw [InboundCipher.decryptInPlace_small i ct aad hs] at h
      simp at h
    · obtain ⟨msg, tag, rfl, hm, ht, -⟩ := split_ct (ct := ct) (by omega)
      rw [InboundCipher.decryptInPlace_append hP i msg tag aad hm ht] at h
      split at h
      · simp at h
      · rename_i p hopen
        split at h
        · simp at h
        · rename_i pc hrek
          simp only [Prod.mk.injEq, Outcome.ok.injEq] at h
          obtain ⟨-, -, rfl, rfl⟩ := h
          rw [hP.open_iff] at hopen
          have hl := hP.seal_length i.packetCipher.key i.packetCipher.nonce (aad.getD []) p
          rw [hopen] at hl
          cases p with
          | nil => simp at hl; simp [hl] at hm
          | cons hd tl =>
            refine ⟨hd, tl, pc, msg, tag, rfl, rfl, rfl, ?_⟩
            rw [FSAead.encrypt_some, hrek]
            simp [hopen]
  · rintro ⟨hd, tl, pc, msg, tag, rfl, rfl, rfl, he⟩
    obtain ⟨hl, ht⟩ := FSAead.encrypt_lengths hP he
    rw [FSAead.encrypt_some] at he
    cases hr : i.packetCipher.rekey P prof (aad.getD []) with
    | none => simp [hr] at he
    | some pc' =>
      simp only [hr, Option.map_some, Option.some.injEq, Prod.mk.injEq] at he
      obtain ⟨rfl, h1, h2⟩ := he
      refine ⟨{ i with packetCipher := pc' }, (hd :: tl) ++ tag, ?_⟩
      rw [InboundCipher.decryptInPlace_append hP i msg tag aad (by simp [hl]) ht]
      have : P.openC i.packetCipher.key i.packetCipher.nonce (aad.getD []) msg tag
          = some (hd :: tl) := by
        rw [hP.open_iff]; exact Prod.ext h1 h2
      simp [this, hr]

/-- C03: every other byte string is refused: too short to hold header and tag, or a decryption
error (a panic is possible only when the 64-bit counter overflows under overflow checks). -/
theorem C03_everything_else_rejected (hP : Lawful P) (i : InboundCipher) (ct : Bytes)
    (aad : Option Bytes)
    (hctr : prof.overflowChecks = false ∨ i.packetCipher.messageCounter + 1 < 2 ^ 64)
    (hno : ¬ ∃ plain pc msg tag, plain ≠ [] ∧ ct = msg ++ tag ∧
      i.packetCipher.encrypt P prof (aad.getD []) plain = some (pc, msg, tag)) :
    i.decryptInPlace P prof ct aad =
      (i, ct, .err (if ct.length < 17 then .ciphertextTooSmall else .decryption)) := by
  by_cases hs : ct.length < 17
  · rw [InboundCipher.decryptInPlace_small i ct aad hs, if_pos hs]
  · rw [if_neg hs]
    obtain ⟨msg, tag, rfl, hm, ht, -⟩ := split_ct (ct := ct) (by omega)
    rw [InboundCipher.decryptInPlace_append hP i msg tag aad hm ht]
    split
    · rfl
    · rename_i p hopen
      exfalso
      apply hno
      rw [hP.open_iff] at hopen
      have hl := hP.seal_length i.packetCipher.key i.packetCipher.nonce (aad.getD []) p
      rw [hopen] at hl
      cases hr : i.packetCipher.rekey P prof (aad.getD []) with
      | none =>
        rw [FSAead.rekey_none] at hr
        simp only [u64Mod] at hr
        rcases hctr with h | h
        · simp [h] at hr
        · omega
      | some pc =>
        refine ⟨p, pc, msg, tag, ?_, rfl, ?_⟩
        · rintro rfl; simp at hl; simp [hl] at hm
        · rw [FSAead.encrypt_some, hr]; simp [hopen]

/-- C03: if the accepted packet has one of the two header bytes this library writes, it is byte
for byte what the matching sender's `encrypt_to_vec` produces for the reported type, contents and
AAD. -/
theorem C03_accepted_is_peer_packet (hP : Lawful P) {o o' : OutboundCipher} {i i' : InboundCipher}
    (hm : Matching o i) (ct : Bytes) (aad : Option Bytes) {ty : PacketType} {contents buf w : Bytes}
    (hd : i.decryptInPlace P prof ct aad = (i', buf, .ok (ty, ty.toByte :: contents)))
    (he : o.encryptToVec P prof contents ty aad = (o', .ok w)) : w.drop 3 = ct := by
  obtain ⟨header, cs, pc, msg, tag, hplain, -, rfl, henc⟩ :=
    (C03_accepts_only_exact hP i ct aad ty (ty.toByte :: contents)).1 ⟨i', buf, hd⟩
  obtain ⟨pc', ct', tag', lc, encLen, he', hl, rfl, rfl⟩ :=
    OutboundCipher.encryptToVec_ok_inv hP o contents ty aad he
  rw [hm.2, he'] at henc
  simp only [Option.some.injEq, Prod.mk.injEq] at henc
  obtain ⟨-, rfl, rfl⟩ := henc
  have : encLen.length = 3 := by rw [FSStream.crypt_length hl]; simp
  rw [List.append_assoc]
  exact drop_append_len _ _ this.symm

/-- C03: two different byte strings accepted in one state under one AAD carry different
plaintexts. -/
theorem C03_accepted_injective (hP : Lawful P) (i : InboundCipher) (ct₁ ct₂ : Bytes)
    (aad : Option Bytes) {i₁ i₂ : InboundCipher} {b₁ b₂ p₁ p₂ : Bytes} {t₁ t₂ : PacketType}
    (h₁ : i.decryptInPlace P prof ct₁ aad = (i₁, b₁, .ok (t₁, p₁)))
    (h₂ : i.decryptInPlace P prof ct₂ aad = (i₂, b₂, .ok (t₂, p₂)))
    (hne : ct₁ ≠ ct₂) : p₁ ≠ p₂ := by
  rintro rfl
  obtain ⟨_, _, _, m1, g1, -, -, rfl, e1⟩ := (C03_accepts_only_exact hP i ct₁ aad t₁ p₁).1 ⟨_, _, h₁⟩
  obtain ⟨_, _, _, m2, g2, -, -, rfl, e2⟩ := (C03_accepts_only_exact hP i ct₂ aad t₂ p₁).1 ⟨_, _, h₂⟩
  rw [e1] at e2
  simp only [Option.some.injEq, Prod.mk.injEq] at e2
  obtain ⟨-, rfl, rfl⟩ := e2
  exact hne rfl

/-- A receiver in mid-session and a packet sealed for it, for the examples. -/
def exInbound : InboundCipher := ⟨⟨zeros 32, 15, 5⟩, ⟨zeros 32, 5⟩⟩
def exSealed (plain : Bytes) : Bytes × Bytes :=
  toy.sealC exInbound.packetCipher.key exInbound.packetCipher.nonce [7] plain

/-- Non-vacuity: two different byte strings are accepted in one state, and a third is refused. -/
example :
    let ct₁ := (exSealed [0, 1]).1 ++ (exSealed [0, 1]).2
    let ct₂ := (exSealed [128, 1]).1 ++ (exSealed [128, 1]).2
    let ct₃ := (exSealed [0, 1]).1 ++ (exSealed [128, 1]).2
    (exInbound.decryptInPlace toy .debug ct₁ (some [7])).2.2 = .ok (.genuine, [0, 1]) ∧
    (exInbound.decryptInPlace toy .debug ct₂ (some [7])).2.2 = .ok (.decoy, [128, 1]) ∧ ct₁ ≠ ct₂ ∧
    exInbound.decryptInPlace toy .debug ct₃ (some [7]) = (exInbound, ct₃, .err .decryption) := by
  decide +kernel

/-! ## C04 -/

/-- C04: an error of `decrypt_in_place` leaves cipher and buffer unchanged. -/
theorem C04_in_place (c c' : InboundCipher) (ct buf : Bytes) (aad : Option Bytes)
    (e : Error) (h : c.decryptInPlace P prof ct aad = (c', buf, .err e)) : c' = c ∧ buf = ct := by
  unfold InboundCipher.decryptInPlace at h
  split at h
  · simp_all
  · simp only at h
    split at h
    · simp at h
    · simp_all
    · split at h <;> simp at h

/-- C04: an error of `decrypt` leaves the cipher unchanged, and the caller's buffer holds either
what it held before or (after a failed authentication) the *ciphertext* bytes followed by what it
held before; never decrypted bytes. -/
theorem C04_decrypt (hP : Lawful P) (c c' : InboundCipher) (ct buf buf' : Bytes)
    (aad : Option Bytes) (e : Error)
    (h : c.decrypt P prof ct buf aad = (c', buf', .err e)) :
    c' = c ∧ (buf' = buf ∨
      (e = .decryption ∧ buf' = ct.take (ct.length - 16) ++ buf.drop (ct.length - 16))) := by
  by_cases hs : ct.length < 17
  · unfold InboundCipher.decrypt at h
    rw [if_pos (by simpa [NUM_TAG_BYTES, NUM_HEADER_BYTES] using hs)] at h
    simp_all
  · obtain ⟨msg, tag, rfl, hm, ht, hlen⟩ := split_ct (ct := ct) (by omega)
    rw [InboundCipher.decrypt_append hP c msg tag buf aad hm ht] at h
    split at h
    · simp only [Prod.mk.injEq] at h
      exact ⟨h.1.symm, .inl h.2.1.symm⟩
    · split at h
      · simp only [Prod.mk.injEq, Outcome.err.injEq] at h
        obtain ⟨rfl, rfl, rfl⟩ := h
        refine ⟨rfl, .inr ⟨rfl, ?_⟩⟩
        rw [← hlen, List.take_left]
      · split at h <;> simp at h

/-- C04: an error of `decrypt_to_vec` leaves the cipher unchanged. -/
theorem C04_to_vec (hP : Lawful P) (c c' : InboundCipher) (ct : Bytes) (aad : Option Bytes)
    (e : Error) (h : c.decryptToVec P prof ct aad = (c', .err e)) : c' = c := by
  unfold InboundCipher.decryptToVec at h
  split at h
  · simp at h
  · split at h
    · simp_all
    · split at h
      · simp at h
      · rename_i heq
        have := (C04_decrypt hP _ _ _ _ _ _ _ heq).1
        simp_all
      · simp at h

/-- One attempt to decrypt, through any of the three entry points. -/
inductive DecryptCall where
  | inPlace (ct : Bytes) (aad : Option Bytes)
  | intoBuffer (ct buf : Bytes) (aad : Option Bytes)
  | toVec (ct : Bytes) (aad : Option Bytes)

/-- State after the call and whether it was rejected with an error. -/
def DecryptCall.run (P : Prims) (prof : Profile) (c : InboundCipher) : DecryptCall → InboundCipher × Bool
  | .inPlace ct aad =>
    match c.decryptInPlace P prof ct aad with
    | (c', _, .err _) => (c', true)
    | (c', _, _) => (c', false)
  | .intoBuffer ct buf aad =>
    match c.decrypt P prof ct buf aad with
    | (c', _, .err _) => (c', true)
    | (c', _, _) => (c', false)
  | .toVec ct aad =>
    match c.decryptToVec P prof ct aad with
    | (c', .err _) => (c', true)
    | (c', _) => (c', false)

/-- All calls of a history were rejected. -/
def allRejected (P : Prims) (prof : Profile) : InboundCipher → List DecryptCall → Bool
  | _, [] => true
  | c, call :: calls => (call.run P prof c).2 && allRejected P prof (call.run P prof c).1 calls

/-- State after a history of calls. -/
def runCalls (P : Prims) (prof : Profile) : InboundCipher → List DecryptCall → InboundCipher
  | c, [] => c
  | c, call :: calls => runCalls P prof (call.run P prof c).1 calls

/-- C04: however many rejected inputs were tried, the receiver is as it was, so whatever it would
have accepted before it still accepts. -/
theorem C04_any_number_of_rejections (hP : Lawful P) (c : InboundCipher) (calls : List DecryptCall)
    (h : allRejected P prof c calls) : runCalls P prof c calls = c := by
  induction calls generalizing c with
  | nil => rfl
  | cons call calls ih =>
    simp only [allRejected, Bool.and_eq_true] at h
    obtain ⟨h1, h2⟩ := h
    have hc : (call.run P prof c).1 = c := by
      cases call with
      | inPlace ct aad =>
        unfold DecryptCall.run at h1 ⊢
        simp only at h1 ⊢
        split at h1
        · rename_i heq; exact (C04_in_place _ _ _ _ _ _ heq).1
        · simp at h1
      | intoBuffer ct buf aad =>
        unfold DecryptCall.run at h1 ⊢
        simp only at h1 ⊢
        split at h1
        · rename_i heq; exact (C04_decrypt hP _ _ _ _ _ _ _ heq).1
        · simp at h1
      | toVec ct aad =>
        unfold DecryptCall.run at h1 ⊢
        simp only at h1 ⊢
        split at h1
        · rename_i heq; exact C04_to_vec hP _ _ _ _ _ heq
        · simp at h1
    rw [runCalls, hc]
    rw [hc] at h2
    exact ih c h2

/-- Non-vacuity: a history with three rejected calls of different kinds. -/
example : allRejected toy .debug ⟨⟨zeros 32, 0, 0⟩, ⟨zeros 32, 5⟩⟩
    [.inPlace (zeros 20) none, .intoBuffer (zeros 40) (zeros 30) none, .toVec (zeros 16) (some [1])] := by
  decide +kernel

/-! ## C05 -/

/-- C05: `encrypt` fails exactly when the buffer is too small; then it reports the exact size and
changes nothing. -/
theorem C05_error_iff_small (c : OutboundCipher) (pt buf : Bytes) (ty : PacketType)
    (aad : Option Bytes) :
    (∃ c' buf' e, c.encrypt P prof pt buf ty aad = (c', buf', .err e)) ↔
      buf.length < OutboundCipher.encryptionBufferLen pt.length := by
  constructor
  · rintro ⟨c', buf', e, h⟩
    unfold OutboundCipher.encrypt at h
    split at h
    · assumption
    · simp only at h
      split at h
      · simp at h
      · split at h <;> simp at h
  · intro h
    exact ⟨_, _, _, by unfold OutboundCipher.encrypt; rw [if_pos h]⟩

/-- C05: the error and the absence of any effect. -/
theorem C05_error_no_effect (c : OutboundCipher) (pt buf : Bytes) (ty : PacketType)
    (aad : Option Bytes) (h : buf.length < pt.length + 20) :
    c.encrypt P prof pt buf ty aad = (c, buf, .err (.bufferTooSmall (pt.length + 20))) := by
  unfold OutboundCipher.encrypt
  rw [if_pos (by simpa [OutboundCipher.encryptionBufferLen, NUM_PACKET_OVERHEAD_BYTES,
    NUM_LENGTH_BYTES, NUM_HEADER_BYTES, NUM_TAG_BYTES] using h)]
  simp [OutboundCipher.encryptionBufferLen, NUM_PACKET_OVERHEAD_BYTES,
    NUM_LENGTH_BYTES, NUM_HEADER_BYTES, NUM_TAG_BYTES]

/-- C05: after a failure, retrying with a buffer of the reported size gives what a first call with
such a buffer would have given; and it does not fail. -/
theorem C05_retry (c c' : OutboundCipher) (pt buf buf' : Bytes) (ty : PacketType)
    (aad : Option Bytes) (n : Nat)
    (h : c.encrypt P prof pt buf ty aad = (c', buf', .err (.bufferTooSmall n))) :
    c' = c ∧ buf' = buf ∧ n = pt.length + 20 ∧
      ∀ big : Bytes, big.length = n → ¬ ∃ c'' buf'' e, c'.encrypt P prof pt big ty aad = (c'', buf'', .err e) := by
  have hs := (C05_error_iff_small c pt buf ty aad).1 ⟨_, _, _, h⟩
  have hs' : buf.length < pt.length + 20 := by
    simpa [OutboundCipher.encryptionBufferLen, NUM_PACKET_OVERHEAD_BYTES, NUM_LENGTH_BYTES,
      NUM_HEADER_BYTES, NUM_TAG_BYTES] using hs
  rw [C05_error_no_effect c pt buf ty aad hs'] at h
  simp only [Prod.mk.injEq, Outcome.err.injEq, Error.bufferTooSmall.injEq] at h
  obtain ⟨rfl, rfl, rfl⟩ := h
  refine ⟨rfl, rfl, rfl, fun big hb => ?_⟩
  rw [C05_error_iff_small]
  simp [OutboundCipher.encryptionBufferLen, NUM_PACKET_OVERHEAD_BYTES, NUM_LENGTH_BYTES,
    NUM_HEADER_BYTES, NUM_TAG_BYTES, hb]

example : ∃ buf' c', OutboundCipher.encrypt toy .debug ⟨⟨zeros 32, 0, 0⟩, ⟨zeros 32, 0⟩⟩ [1, 2, 3]
    (zeros 22) .genuine none = (c', buf', .err (.bufferTooSmall 23)) := ⟨_, _, rfl⟩

/-! ## C06 -/

/-- C06: layout of a successful `encrypt`: three encrypted length bytes, the encrypted header and
contents, the 16-byte tag, then the untouched rest of the buffer. -/
theorem C06_layout (hP : Lawful P) (c c' : OutboundCipher) (pt buf buf' : Bytes) (ty : PacketType)
    (aad : Option Bytes) (h : c.encrypt P prof pt buf ty aad = (c', buf', .ok ())) :
    OutboundCipher.encryptionBufferLen pt.length = pt.length + 20 ∧
    ∃ len ct tag, len.length = 3 ∧ ct.length = 1 + pt.length ∧ tag.length = 16 ∧
      (ct, tag) = P.sealC c.packetCipher.key c.packetCipher.nonce (aad.getD []) (ty.toByte :: pt) ∧
      len = xorBytes (leBytes 3 pt.length)
        (P.ksSlice c.lengthCipher.key c.lengthCipher.nonce c.lengthCipher.blockCounter 3) ∧
      buf' = len ++ ct ++ tag ++ buf.drop (pt.length + 20) := by
  obtain ⟨pc, ct, tag, lc, encLen, he, hl, -, -, rfl⟩ := OutboundCipher.encrypt_ok_inv hP c pt buf ty aad h
  obtain ⟨hct, htag⟩ := FSAead.encrypt_lengths hP he
  refine ⟨rfl, encLen, ct, tag, ?_, ?_, htag, ?_, ?_, rfl⟩
  · rw [FSStream.crypt_length hl]; simp
  · simp at hct; omega
  · rw [FSAead.encrypt_some] at he
    cases hr : c.packetCipher.rekey P prof (aad.getD []) with
    | none => simp [hr] at he
    | some d =>
      simp only [hr, Option.map_some, Option.some.injEq, Prod.mk.injEq] at he
      exact (Prod.ext he.2.1 he.2.2).symm
  · rw [FSStream.crypt_eq] at hl
    cases hr : c.lengthCipher.crypt P prof [] with
    | none => simp [hr] at hl
    | some d =>
      simp only [hr, Option.map_some, Option.some.injEq, Prod.mk.injEq] at hl
      rw [← hl.2, leBytes_length]
      congr 1
      rw [← leBytes_mod 3 (pt.length % u32Mod), ← leBytes_mod 3 pt.length]
      congr 1
      simp only [u32Mod]
      omega

/-- C06: the written bytes do not depend on what the buffer held before, nor on its size. -/
theorem C06_independent_of_buffer (hP : Lawful P) (c : OutboundCipher) (pt b₁ b₂ : Bytes)
    (ty : PacketType) (aad : Option Bytes) {c₁ : OutboundCipher} {r₁ : Bytes}
    (h : c.encrypt P prof pt b₁ ty aad = (c₁, r₁, .ok ())) (hb : pt.length + 20 ≤ b₂.length) :
    ∃ r₂, c.encrypt P prof pt b₂ ty aad = (c₁, r₂, .ok ()) ∧
      r₁.take (pt.length + 20) = r₂.take (pt.length + 20) ∧
      r₁.drop (pt.length + 20) = b₁.drop (pt.length + 20) ∧
      r₂.drop (pt.length + 20) = b₂.drop (pt.length + 20) := by
  obtain ⟨pc, ct, tag, lc, encLen, he, hl, -, rfl, rfl⟩ := OutboundCipher.encrypt_ok_inv hP c pt b₁ ty aad h
  obtain ⟨hct, htag⟩ := FSAead.encrypt_lengths hP he
  have henc : encLen.length = 3 := by rw [FSStream.crypt_length hl]; simp
  have hlen : pt.length + 20 = (encLen ++ ct ++ tag).length := by simp [henc, hct, htag]; omega
  refine ⟨_, OutboundCipher.encrypt_eq hP c pt b₂ ty aad hb he hl, ?_, ?_, ?_⟩
  · rw [take_append_len _ _ hlen, take_append_len _ _ hlen]
  · rw [drop_append_len _ _ hlen]
  · rw [drop_append_len _ _ hlen]

example : ∃ c' buf', OutboundCipher.encrypt toy .release ⟨⟨zeros 32, 0, 0⟩, ⟨zeros 32, 0⟩⟩ [1, 2, 3]
    (List.replicate 30 0xaa) .genuine none = (c', buf', .ok ()) := ⟨_, _, rfl⟩

/-! ## C11 -/

/-- C11: the announced length is between 17 and 2^24 + 16 whatever the peer sent. -/
theorem C11_packet_len_bounds (c c' : InboundCipher) (b : Bytes) (hb : b.length = 3) (n : Nat)
    (h : c.decryptPacketLen P prof b = (c', .ok n)) : 17 ≤ n ∧ n ≤ 2 ^ 24 + 16 := by
  unfold InboundCipher.decryptPacketLen at h
  split at h
  · simp at h
  · rename_i lc len heq
    simp only [Prod.mk.injEq, Outcome.ok.injEq] at h
    have hl := FSStream.crypt_length heq
    have := leNat_lt len
    rw [hl, hb] at this
    simp only [NUM_HEADER_BYTES, NUM_TAG_BYTES] at h
    omega

/-- C11: decrypting a length never returns an error. -/
theorem C11_packet_len_total (c : InboundCipher) (b : Bytes)
    (hp : prof.overflowChecks = false ∨
      (c.lengthCipher.blockCounter + 3 < 2 ^ 32 ∧ c.lengthCipher.chunkCounter + 1 < 2 ^ 32)) :
    ∃ c' n, c.decryptPacketLen P prof b = (c', .ok n) := by
  unfold InboundCipher.decryptPacketLen
  split
  · rename_i h
    rw [FSStream.crypt_none] at h
    simp only [u32Mod] at h
    rcases hp with hp | hp
    · simp [hp] at h
    · omega
  · exact ⟨_, _, rfl⟩

/-- Both bounds are reached. -/
example : (∃ c' b, b.length = 3 ∧ InboundCipher.decryptPacketLen toy .debug
      ⟨⟨zeros 32, 0, 0⟩, ⟨zeros 32, 0⟩⟩ b = (c', .ok 17)) ∧
    (∃ c' b, b.length = 3 ∧ InboundCipher.decryptPacketLen toy .debug
      ⟨⟨zeros 32, 0, 0⟩, ⟨zeros 32, 0⟩⟩ b = (c', .ok (2 ^ 24 + 16))) :=
  ⟨⟨_, [1, 8, 15], rfl, rfl⟩, ⟨_, [254, 247, 240], rfl, rfl⟩⟩

/-! ## C12 -/

/-- C12 is FALSE of the code: contents of `2^24` bytes or more are accepted by `encrypt_to_vec`,
and the matching receiver is told a length that is not the length of the packet, in every state,
profile and for every lawful choice of primitives. -/
theorem C12_over_long_misframed (hP : Lawful P) {o o' : OutboundCipher} {i : InboundCipher}
    (hm : Matching o i) (contents : Bytes) (hlen : 2 ^ 24 ≤ contents.length)
    (ty : PacketType) (aad : Option Bytes) {w : Bytes}
    (he0 : o.encryptToVec P prof contents ty aad = (o', .ok w)) :
    ∃ i1 n, i.decryptPacketLen P prof (w.take 3) = (i1, .ok n) ∧
      n = contents.length % 2 ^ 24 + 17 ∧ n < (w.drop 3).length := by
  obtain ⟨pc, ct, tag, lc, encLen, he, hl, rfl, rfl⟩ :=
    OutboundCipher.encryptToVec_ok_inv hP o contents ty aad he0
  obtain ⟨hct, htag⟩ := FSAead.encrypt_lengths hP he
  have henc : encLen.length = 3 := by rw [FSStream.crypt_length hl]; simp
  have hct' : ct.length = contents.length + 1 := by simpa using hct
  rw [show encLen ++ ct ++ tag = encLen ++ (ct ++ tag) by simp,
    take_append_len _ _ henc.symm, drop_append_len _ _ henc.symm]
  have h2 := FSStream.crypt_crypt hl
  rw [← hm.1] at h2
  refine ⟨_, _, by simp only [InboundCipher.decryptPacketLen, h2, leNat_leBytes]; rfl, ?_, ?_⟩
  · simp only [u32Mod, NUM_HEADER_BYTES, NUM_TAG_BYTES]; omega
  · simp only [u32Mod, NUM_HEADER_BYTES, NUM_TAG_BYTES, List.length_append, hct', htag]; omega

/-- C12, the failing case is reachable: over-long contents are encrypted without an error. -/
theorem C12_over_long_accepted (hP : Lawful P) (kL kP : Bytes) (ty : PacketType) (aad : Option Bytes) :
    ∃ contents : Bytes, 2 ^ 24 ≤ contents.length ∧
      ∃ o' w, OutboundCipher.encryptToVec P prof ⟨FSStream.new kL, FSAead.new kP⟩ contents ty aad
        = (o', .ok w) := by
  refine ⟨List.replicate (2 ^ 24) 0, by rw [List.length_replicate]; exact Nat.le_refl _, ?_⟩
  apply C01_encrypt_progress hP
  right
  simp [FSStream.new, FSAead.new]

/-- C12 for the contents that fit (the part that holds): framed exactly.  Missing: lengths of
`2^24` and more, where the property is false (`C12_over_long_misframed`). -/
theorem C12_framing_partial (hP : Lawful P) {o o' : OutboundCipher} {i : InboundCipher}
    (hm : Matching o i) (contents : Bytes) (hlen : contents.length < 2 ^ 24)
    (ty : PacketType) (aad : Option Bytes) {w : Bytes}
    (he : o.encryptToVec P prof contents ty aad = (o', .ok w)) :
    ∃ i1, i.decryptPacketLen P prof (w.take 3) = (i1, .ok (w.drop 3).length) := by
  obtain ⟨i1, _, _, h, _⟩ := C01_packet_round_trip hP hm contents hlen ty aad he
  exact ⟨i1, h⟩

/-! ## C13 -/

/-- C13: writing a packet type and reading it back. -/
theorem C13_round_trip (ty : PacketType) : PacketType.fromByte ty.toByte = ty := by
  cases ty <;> decide

/-- C13: distinct types have distinct header bytes, and only the ignore bit is ever set. -/
theorem C13_header_bits (ty : PacketType) :
    ty.toByte &&& 0x7f = 0 ∧ (ty.toByte &&& 0x80 = 0x80 ↔ ty = .decoy) := by
  cases ty <;> decide

/-- C13 (ignore bit) is FALSE of the code: header byte 129 has the BIP-324 ignore bit set but is
reported as genuine. -/
theorem C13_ignore_bit_counterexample :
    ∃ h : UInt8, h &&& 0x80 = 0x80 ∧ PacketType.fromByte h = .genuine := ⟨129, by decide, by decide⟩

/-- C13, exactly which header bytes are misread: those with the ignore bit and some reserved bit. -/
theorem C13_misread_iff (h : UInt8) :
    ((PacketType.fromByte h = .decoy) ↔ (h &&& 0x80 = 0x80)) ↔
      ¬ (h &&& 0x80 = 0x80 ∧ h &&& 0x7f ≠ 0) := by
  have : ∀ n : Fin 256, ((PacketType.fromByte (UInt8.ofNat n) = .decoy) ↔
      (UInt8.ofNat n &&& 0x80 = 0x80)) ↔
      ¬ (UInt8.ofNat n &&& 0x80 = 0x80 ∧ UInt8.ofNat n &&& 0x7f ≠ 0) := by decide +kernel
  have h2 := this ⟨h.toNat, UInt8.toNat_lt h⟩
  simpa using h2

/-- C13 for headers without reserved bits: the ignore bit decides.  Missing: headers with reserved
bits set, where the property is false. -/
theorem C13_ignore_bit_partial (h : UInt8) (hr : h &&& 0x7f = 0) :
    PacketType.fromByte h = .decoy ↔ h &&& 0x80 = 0x80 := by
  rw [C13_misread_iff]
  simp [hr]

example : (0x80 : UInt8) &&& 0x7f = 0 ∧ (0 : UInt8) &&& 0x7f = 0 := by decide

/-! ## C14 -/

/-- C14 is FALSE of the code in debug builds: a ciphertext shorter than a tag panics. -/
theorem C14_short_panics (hprof : prof.overflowChecks = true) (c : InboundCipher) (ct : Bytes)
    (aad : Option Bytes) (h : ct.length < 16) : c.decryptToVec P prof ct aad = (c, .panic) := by
  simp [InboundCipher.decryptToVec, InboundCipher.decryptionBufferLen, usub, NUM_TAG_BYTES, hprof,
    show ¬ 16 ≤ ct.length by omega]

/-- C14 is FALSE of the code in release builds: a ciphertext shorter than a tag is reported as
`PacketTooBig`. -/
theorem C14_short_too_big (hprof : prof.overflowChecks = false) (c : InboundCipher) (ct : Bytes)
    (aad : Option Bytes) (h : ct.length < 16) :
    c.decryptToVec P prof ct aad = (c, .err .packetTooBig) := by
  have hlt : ct.length + u64Mod - 16 < u64Mod := by simp only [u64Mod]; omega
  have hgt : MAX_PACKET_SIZE_FOR_ALLOCATION < ct.length + u64Mod - 16 := by
    simp only [u64Mod, MAX_PACKET_SIZE_FOR_ALLOCATION]; omega
  simp [InboundCipher.decryptToVec, InboundCipher.decryptionBufferLen, usub, NUM_TAG_BYTES, hprof,
    show ¬ 16 ≤ ct.length by omega, Nat.mod_eq_of_lt hlt, hgt]

/-- C14 for ciphertexts of at least 16 bytes.  `decrypt_to_vec` is `CiphertextTooSmall` at 16 bytes,
`PacketTooBig` exactly above 4000014 bytes of plaintext, and otherwise what `decrypt` into an
exactly sized buffer gives.  Missing: fewer than 16 bytes, where the property is false. -/
theorem C14_to_vec_partial (c : InboundCipher) (ct : Bytes) (aad : Option Bytes)
    (h16 : 16 ≤ ct.length) :
    (ct.length = 16 → c.decryptToVec P prof ct aad = (c, .err .ciphertextTooSmall)) ∧
    (4000014 < ct.length - 16 → c.decryptToVec P prof ct aad = (c, .err .packetTooBig)) ∧
    (ct.length - 16 ≤ 4000014 →
      c.decryptToVec P prof ct aad =
        ((c.decrypt P prof ct (List.replicate (ct.length - 16) 0) aad).1,
          match c.decrypt P prof ct (List.replicate (ct.length - 16) 0) aad with
          | (_, buf, .ok ty) => .ok (ty, buf)
          | (_, _, .err e) => .err e
          | (_, _, .panic) => .panic)) := by
  have hs : ∀ x, c.decryptToVec P prof ct aad = x ↔
      (if ct.length - 16 > MAX_PACKET_SIZE_FOR_ALLOCATION then (c, .err .packetTooBig)
    else
      match c.decrypt P prof ct (zeros (ct.length - 16)) aad with
      | (c', buf, .ok ty) => (c', .ok (ty, buf))
      | (c', _, .err e) => (c', .err e)
      | (c', _, .panic) => (c', .panic)) = x := by
    intro x
    simp only [InboundCipher.decryptToVec, InboundCipher.decryptionBufferLen, usub, NUM_TAG_BYTES,
      h16, if_true]
    rfl
  refine ⟨?_, ?_, ?_⟩
  · intro h
    rw [hs, if_neg (by simp [h])]
    simp [InboundCipher.decrypt, NUM_TAG_BYTES, NUM_HEADER_BYTES, h]
  · intro h
    rw [hs, if_pos (by simpa [MAX_PACKET_SIZE_FOR_ALLOCATION] using h)]
  · intro h
    rw [hs, if_neg (by simp only [MAX_PACKET_SIZE_FOR_ALLOCATION]; omega)]
    simp only [zeros]
    split <;> simp_all

/-- C14: `PacketTooBig` is never reported for a plaintext within the limit. -/
theorem C14_too_big_iff (hP : Lawful P) (c : InboundCipher) (ct : Bytes) (aad : Option Bytes)
    (h16 : 16 ≤ ct.length) :
    (∃ c', c.decryptToVec P prof ct aad = (c', .err .packetTooBig)) ↔ 4000014 < ct.length - 16 := by
  obtain ⟨-, h2, h3⟩ := C14_to_vec_partial (P := P) (prof := prof) c ct aad h16
  constructor
  · rintro ⟨c', h⟩
    apply Decidable.byContradiction
    intro hn
    rw [h3 (by omega)] at h
    simp only [Prod.mk.injEq] at h
    have h := h.2
    split at h
    · simp at h
    · rename_i heq
      simp only [Outcome.err.injEq] at h
      subst h
      by_cases hs : ct.length < 17
      · unfold InboundCipher.decrypt at heq
        rw [if_pos (by simpa [NUM_TAG_BYTES, NUM_HEADER_BYTES] using hs)] at heq
        simp at heq
      · obtain ⟨msg, tag, rfl, hm, ht, hlen⟩ := split_ct (ct := ct) (by omega)
        rw [InboundCipher.decrypt_append hP c msg tag _ aad hm ht] at heq
        split at heq
        · simp at heq
        · split at heq
          · simp at heq
          · split at heq <;> simp at heq
    · simp at h
  · intro h
    exact ⟨c, h2 h⟩

example : ∃ ct : Bytes, 16 ≤ ct.length ∧ ct.length - 16 ≤ 4000014 := ⟨zeros 20, by decide, by decide⟩

/-! ## C15 -/

/-- C15: `decrypt` into a buffer that is too small names the exact plaintext length. -/
theorem C15_small_buffer (hP : Lawful P) (c : InboundCipher) (ct buf : Bytes) (aad : Option Bytes)
    (h17 : 17 ≤ ct.length) (hb : buf.length < ct.length - 16) :
    c.decrypt P prof ct buf aad = (c, buf, .err (.bufferTooSmall (ct.length - 16))) := by
  obtain ⟨msg, tag, rfl, hm, ht, hlen⟩ := split_ct (ct := ct) (by omega)
  rw [InboundCipher.decrypt_append hP c msg tag buf aad hm ht, if_pos (by omega), hlen]

/-- C15: on a large enough buffer `decrypt` and `decrypt_in_place` agree on acceptance, type,
plaintext and cipher state; the rest of the buffer is unchanged. -/
theorem C15_decrypt_iff_in_place (hP : Lawful P) (c c' : InboundCipher) (ct buf : Bytes)
    (aad : Option Bytes) (ty : PacketType) (plain : Bytes) (hb : ct.length - 16 ≤ buf.length) :
    (∃ b, c.decryptInPlace P prof ct aad = (c', b, .ok (ty, plain))) ↔
      plain.length = ct.length - 16 ∧
      c.decrypt P prof ct buf aad = (c', plain ++ buf.drop (ct.length - 16), .ok ty) := by
  by_cases hs : ct.length < 17
  · rw [InboundCipher.decryptInPlace_small c ct aad hs]
    unfold InboundCipher.decrypt
    rw [if_pos (by simpa [NUM_TAG_BYTES, NUM_HEADER_BYTES] using hs)]
    simp
  · obtain ⟨msg, tag, rfl, hm, ht, hlen⟩ := split_ct (ct := ct) (by omega)
    rw [InboundCipher.decryptInPlace_append hP c msg tag aad hm ht,
      InboundCipher.decrypt_append hP c msg tag buf aad hm ht, if_neg (by omega)]
    cases ho : P.openC c.packetCipher.key c.packetCipher.nonce (aad.getD []) msg tag with
    | none => simp
    | some p =>
      have hpl : p.length = msg.length := by
        rw [hP.open_iff] at ho
        have := hP.seal_length c.packetCipher.key c.packetCipher.nonce (aad.getD []) p
        rw [ho] at this; exact this.symm
      cases hr : c.packetCipher.rekey P prof (aad.getD []) with
      | none => simp
      | some pc =>
        simp only [Prod.mk.injEq, Outcome.ok.injEq, ← hlen]
        constructor
        · rintro ⟨b, rfl, rfl, rfl, rfl⟩
          exact ⟨hpl, rfl, rfl, rfl⟩
        · rintro ⟨h1, rfl, h2, rfl⟩
          have := List.append_inj_left h2 (by omega)
          subst this
          exact ⟨_, rfl, rfl, rfl, rfl⟩

/-- C15: errors agree too (on a large enough buffer). -/
theorem C15_errors_agree (hP : Lawful P) (c : InboundCipher) (ct buf : Bytes)
    (aad : Option Bytes) (e : Error) (hb : ct.length - 16 ≤ buf.length) :
    (∃ c' b, c.decryptInPlace P prof ct aad = (c', b, .err e)) ↔
      ∃ c' b, c.decrypt P prof ct buf aad = (c', b, .err e) := by
  by_cases hs : ct.length < 17
  · rw [InboundCipher.decryptInPlace_small c ct aad hs]
    unfold InboundCipher.decrypt
    rw [if_pos (by simpa [NUM_TAG_BYTES, NUM_HEADER_BYTES] using hs)]
    simp
  · obtain ⟨msg, tag, rfl, hm, ht, hlen⟩ := split_ct (ct := ct) (by omega)
    rw [InboundCipher.decryptInPlace_append hP c msg tag aad hm ht,
      InboundCipher.decrypt_append hP c msg tag buf aad hm ht, if_neg (by omega)]
    cases ho : P.openC c.packetCipher.key c.packetCipher.nonce (aad.getD []) msg tag with
    | none => simp
    | some p =>
      cases hr : c.packetCipher.rekey P prof (aad.getD []) <;> simp

/-- C15: `decrypt_to_vec` agrees with `decrypt_in_place` on every ciphertext within its limits. -/
theorem C15_to_vec_iff_in_place (hP : Lawful P) (c c' : InboundCipher) (ct : Bytes)
    (aad : Option Bytes) (ty : PacketType) (plain : Bytes) (h16 : 16 ≤ ct.length)
    (hmax : ct.length - 16 ≤ 4000014) :
    c.decryptToVec P prof ct aad = (c', .ok (ty, plain)) ↔
      ∃ b, c.decryptInPlace P prof ct aad = (c', b, .ok (ty, plain)) := by
  rw [(C14_to_vec_partial (P := P) (prof := prof) c ct aad h16).2.2 hmax,
    C15_decrypt_iff_in_place hP c c' ct (List.replicate (ct.length - 16) 0) aad ty plain (by simp)]
  have hd : (List.replicate (ct.length - 16) (0 : UInt8)).drop (ct.length - 16) = [] :=
    List.drop_of_length_le (by simp)
  rw [hd, List.append_nil]
  constructor
  · intro h
    simp only [Prod.mk.injEq] at h
    obtain ⟨h1, h2⟩ := h
    split at h2
    · rename_i c2 b t heq
      simp only [Outcome.ok.injEq, Prod.mk.injEq] at h2
      obtain ⟨rfl, rfl⟩ := h2
      rw [heq] at h1 ⊢
      simp only at h1
      subst h1
      refine ⟨?_, rfl⟩
      by_cases hs : ct.length < 17
      · unfold InboundCipher.decrypt at heq
        rw [if_pos (by simpa [NUM_TAG_BYTES, NUM_HEADER_BYTES] using hs)] at heq
        simp at heq
      · obtain ⟨msg, tag, rfl, hm, ht, hlen⟩ := split_ct (ct := ct) (by omega)
        rw [InboundCipher.decrypt_append hP c msg tag _ aad hm ht] at heq
        rw [if_neg (by rw [List.length_replicate]; omega)] at heq
        split at heq
        · simp at heq
        · rename_i p ho
          have hpl : p.length = msg.length := by
            rw [hP.open_iff] at ho
            have := hP.seal_length c.packetCipher.key c.packetCipher.nonce (aad.getD []) p
            rw [ho] at this; exact this.symm
          split at heq
          · simp at heq
          · simp only [Prod.mk.injEq] at heq
            rw [← heq.2.1, ← hlen]
            simp [hpl]
    · simp at h2
    · simp at h2
  · rintro ⟨-, h⟩
    simp [h]

end Bip324
