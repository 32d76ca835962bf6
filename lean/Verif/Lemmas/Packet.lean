import Verif.Lemmas.Cipher

/-! # Helper lemmas on packet encryption and decryption -/

namespace Bip324

variable {P : Prims} {prof : Profile}

theorem FSAead.decrypt_encrypt (hP : Lawful P) {c c' : FSAead} {aad content ct tag : Bytes}
    (h : c.encrypt P prof aad content = some (c', ct, tag)) :
    c.decrypt P prof aad ct tag = .ok c' content := by
  rw [FSAead.encrypt_some] at h
  cases hr : c.rekey P prof aad with
  | none => simp [hr] at h
  | some d =>
    simp only [hr, Option.map_some, Option.some.injEq, Prod.mk.injEq] at h
    obtain ⟨rfl, h1, h2⟩ := h
    have : P.openC c.key c.nonce aad ct tag = some content := by
      rw [hP.open_iff]; exact Prod.ext h1 h2
    simp [FSAead.decrypt, this, hr]

theorem FSAead.encrypt_lengths (hP : Lawful P) {c c' : FSAead} {aad content ct tag : Bytes}
    (h : c.encrypt P prof aad content = some (c', ct, tag)) :
    ct.length = content.length ∧ tag.length = 16 := by
  rw [FSAead.encrypt_some] at h
  cases hr : c.rekey P prof aad with
  | none => simp [hr] at h
  | some d =>
    simp only [hr, Option.map_some, Option.some.injEq, Prod.mk.injEq] at h
    obtain ⟨-, rfl, rfl⟩ := h
    exact ⟨hP.seal_length .., hP.tag_length ..⟩

/-- `crypt` in one formula. -/
theorem FSStream.crypt_eq (c : FSStream) (chunk : Bytes) :
    c.crypt P prof chunk =
      (c.crypt P prof []).map fun r =>
        (r.1, xorBytes chunk (P.ksSlice c.key c.nonce c.blockCounter chunk.length)) := by
  unfold FSStream.crypt
  simp only
  split
  · simp
  · split
    · simp
    · split <;> simp

theorem FSStream.crypt_crypt {c c' : FSStream} {chunk x : Bytes}
    (h : c.crypt P prof chunk = some (c', x)) : c.crypt P prof x = some (c', chunk) := by
  rw [FSStream.crypt_eq] at h ⊢
  cases hc : c.crypt P prof [] with
  | none => simp [hc] at h
  | some r =>
    simp only [hc, Option.map_some, Option.some.injEq, Prod.mk.injEq] at h ⊢
    obtain ⟨h1, h2⟩ := h
    refine ⟨h1, ?_⟩
    have hlen : x.length = chunk.length := by rw [← h2]; simp
    rw [hlen, ← h2, xorBytes_cancel]
    simp

theorem FSStream.crypt_length {c c' : FSStream} {chunk x : Bytes}
    (h : c.crypt P prof chunk = some (c', x)) : x.length = chunk.length := by
  rw [FSStream.crypt_eq] at h
  cases hc : c.crypt P prof [] with
  | none => simp [hc] at h
  | some r =>
    simp only [hc, Option.map_some, Option.some.injEq, Prod.mk.injEq] at h
    rw [← h.2]; simp

theorem FSStream.crypt_none {c : FSStream} {chunk : Bytes} :
    c.crypt P prof chunk = none ↔
      prof.overflowChecks = true ∧ (u32Mod ≤ c.blockCounter + 3 ∨ u32Mod ≤ c.chunkCounter + 1) := by
  unfold FSStream.crypt
  simp only
  split
  · rename_i h
    rw [uadd_none] at h
    simp only [LENGTH_BYTES] at h
    simp [h]
  · rename_i h
    have h' : ¬ uadd prof u32Mod c.blockCounter LENGTH_BYTES = none := by simp [h]
    rw [uadd_none] at h'
    simp only [LENGTH_BYTES] at h'
    split
    · rename_i h2
      rw [uadd_none] at h2
      simp [h2]
    · rename_i h2
      have h2' : ¬ uadd prof u32Mod c.chunkCounter 1 = none := by simp [h2]
      rw [uadd_none] at h2'
      split <;> simp <;> intro hh <;> simp_all

theorem InboundCipher.decryptInPlace_small (c : InboundCipher) (ct : Bytes) (aad : Option Bytes)
    (h : ct.length < 17) : c.decryptInPlace P prof ct aad = (c, ct, .err .ciphertextTooSmall) := by
  simp [InboundCipher.decryptInPlace, NUM_TAG_BYTES, NUM_HEADER_BYTES, h]

/-- `decrypt_in_place` on `msg ++ tag`. -/
theorem InboundCipher.decryptInPlace_append (hP : Lawful P) (c : InboundCipher) (msg tag : Bytes)
    (aad : Option Bytes) (hm : 0 < msg.length) (ht : tag.length = 16) :
    c.decryptInPlace P prof (msg ++ tag) aad =
      match P.openC c.packetCipher.key c.packetCipher.nonce (aad.getD []) msg tag with
      | none => (c, msg ++ tag, .err .decryption)
      | some plain =>
        match c.packetCipher.rekey P prof (aad.getD []) with
        | none => (c, msg ++ tag, .panic)
        | some pc =>
          ({ c with packetCipher := pc }, plain ++ tag,
            .ok (PacketType.fromByte (plain.headD 0), plain)) := by
  have h17 : ¬ (msg ++ tag).length < NUM_TAG_BYTES + NUM_HEADER_BYTES := by
    simp [NUM_TAG_BYTES, NUM_HEADER_BYTES]; omega
  have hlen : (msg ++ tag).length - NUM_TAG_BYTES = msg.length := by
    simp [NUM_TAG_BYTES, ht]
  unfold InboundCipher.decryptInPlace
  rw [if_neg h17, hlen]
  simp only [List.take_left, List.drop_left, FSAead.decrypt]
  cases ho : P.openC c.packetCipher.key c.packetCipher.nonce (aad.getD []) msg tag with
  | none => simp
  | some plain =>
    have hpl : plain.length = msg.length := by
      rw [hP.open_iff] at ho
      have := hP.seal_length c.packetCipher.key c.packetCipher.nonce (aad.getD []) plain
      rw [ho] at this; exact this.symm
    cases hr : c.packetCipher.rekey P prof (aad.getD []) with
    | none => simp
    | some pc =>
      cases plain with
      | nil => simp at hpl; omega
      | cons h t => simp

/-- `decrypt` on `msg ++ tag`. -/
theorem InboundCipher.decrypt_append (hP : Lawful P) (c : InboundCipher) (msg tag buf : Bytes)
    (aad : Option Bytes) (hm : 0 < msg.length) (ht : tag.length = 16) :
    c.decrypt P prof (msg ++ tag) buf aad =
      if buf.length < msg.length then (c, buf, .err (.bufferTooSmall msg.length)) else
      match P.openC c.packetCipher.key c.packetCipher.nonce (aad.getD []) msg tag with
      | none => (c, msg ++ buf.drop msg.length, .err .decryption)
      | some plain =>
        match c.packetCipher.rekey P prof (aad.getD []) with
        | none => (c, msg ++ buf.drop msg.length, .panic)
        | some pc =>
          ({ c with packetCipher := pc }, plain ++ buf.drop msg.length,
            .ok (PacketType.fromByte (plain.headD 0))) := by
  have h17 : ¬ (msg ++ tag).length < NUM_TAG_BYTES + NUM_HEADER_BYTES := by
    simp [NUM_TAG_BYTES, NUM_HEADER_BYTES]; omega
  have hlen : (msg ++ tag).length - NUM_TAG_BYTES = msg.length := by
    simp [NUM_TAG_BYTES, ht]
  unfold InboundCipher.decrypt
  rw [if_neg h17, hlen]
  simp only [List.take_left, List.drop_left]
  by_cases hb : buf.length < msg.length
  · simp [hb]
  · rw [if_neg hb, if_neg hb]
    have e1 : writeAt buf 0 msg = msg ++ buf.drop msg.length := by simp [writeAt]
    have e2 : slice (msg ++ buf.drop msg.length) 0 msg.length = msg := by simp [slice]
    simp only [e1, e2, FSAead.decrypt]
    cases ho : P.openC c.packetCipher.key c.packetCipher.nonce (aad.getD []) msg tag with
    | none => simp
    | some plain =>
      have hpl : plain.length = msg.length := by
        rw [hP.open_iff] at ho
        have := hP.seal_length c.packetCipher.key c.packetCipher.nonce (aad.getD []) plain
        rw [ho] at this; exact this.symm
      cases hr : c.packetCipher.rekey P prof (aad.getD []) with
      | none => simp
      | some pc =>
        have e3 : writeAt (msg ++ buf.drop msg.length) 0 plain = plain ++ buf.drop msg.length := by
          simp [writeAt, hpl]
        simp only [e3]
        cases plain with
        | nil => simp at hpl; omega
        | cons h t => simp

/-- Every ciphertext of at least 17 bytes splits into a non-empty message and a tag. -/
theorem split_ct {ct : Bytes} (h : 17 ≤ ct.length) :
    ∃ msg tag, ct = msg ++ tag ∧ 0 < msg.length ∧ tag.length = 16 ∧
      msg.length = ct.length - 16 := by
  refine ⟨ct.take (ct.length - 16), ct.drop (ct.length - 16), ?_, ?_, ?_, ?_⟩
  · simp
  · simp; omega
  · simp; omega
  · simp

/-- `encrypt_to_vec` in one formula. -/
theorem OutboundCipher.encryptToVec_eq (hP : Lawful P) (c : OutboundCipher) (pt : Bytes)
    (ty : PacketType) (aad : Option Bytes)
    {pc : FSAead} {ct tag : Bytes} {lc : FSStream} {encLen : Bytes}
    (he : c.packetCipher.encrypt P prof (aad.getD []) (ty.toByte :: pt) = some (pc, ct, tag))
    (hl : c.lengthCipher.crypt P prof (leBytes 3 (pt.length % u32Mod)) = some (lc, encLen)) :
    c.encryptToVec P prof pt ty aad = (⟨lc, pc⟩, .ok (encLen ++ ct ++ tag)) := by
  unfold OutboundCipher.encryptToVec
  rw [OutboundCipher.encrypt_eq hP c pt _ ty aad ?_ he hl]
  · have : (zeros (encryptionBufferLen pt.length)).drop (pt.length + 20) = [] := by
      apply List.drop_of_length_le
      simp [encryptionBufferLen, NUM_PACKET_OVERHEAD_BYTES, NUM_LENGTH_BYTES, NUM_HEADER_BYTES,
        NUM_TAG_BYTES]
    simp [this]
  · simp [encryptionBufferLen, NUM_PACKET_OVERHEAD_BYTES, NUM_LENGTH_BYTES, NUM_HEADER_BYTES,
      NUM_TAG_BYTES]

/-- Outcome of `encrypt` on a large enough buffer when some counter is exhausted. -/
theorem OutboundCipher.encrypt_panic (c : OutboundCipher) (pt buf : Bytes)
    (ty : PacketType) (aad : Option Bytes) (h : pt.length + 20 ≤ buf.length)
    (he : c.packetCipher.encrypt P prof (aad.getD []) (ty.toByte :: pt) = none ∨
      c.lengthCipher.crypt P prof (leBytes 3 (pt.length % u32Mod)) = none) :
    (c.encrypt P prof pt buf ty aad).2.2 = .panic := by
  unfold OutboundCipher.encrypt
  have hnb : ¬ (buf.length < OutboundCipher.encryptionBufferLen pt.length) := by
    simp only [OutboundCipher.encryptionBufferLen, NUM_PACKET_OVERHEAD_BYTES, NUM_LENGTH_BYTES,
      NUM_HEADER_BYTES, NUM_TAG_BYTES]
    omega
  rw [if_neg hnb]
  simp only
  rcases he with he | he
  · split
    · rfl
    · rename_i hh
      rw [FSAead.encrypt_some] at he hh
      simp only [Option.map_eq_none_iff] at he
      simp [he] at hh
  · split
    · rfl
    · simp only [NUM_LENGTH_BYTES, he]

/-- Either every counter can move on, or `encrypt` panics. -/
theorem OutboundCipher.encrypt_ok_inv (hP : Lawful P) (c : OutboundCipher) (pt buf : Bytes)
    (ty : PacketType) (aad : Option Bytes) {c' : OutboundCipher} {buf' : Bytes}
    (h : c.encrypt P prof pt buf ty aad = (c', buf', .ok ())) :
    ∃ pc ct tag lc encLen,
      c.packetCipher.encrypt P prof (aad.getD []) (ty.toByte :: pt) = some (pc, ct, tag) ∧
      c.lengthCipher.crypt P prof (leBytes 3 (pt.length % u32Mod)) = some (lc, encLen) ∧
      pt.length + 20 ≤ buf.length ∧
      c' = ⟨lc, pc⟩ ∧ buf' = encLen ++ ct ++ tag ++ buf.drop (pt.length + 20) := by
  by_cases hb : buf.length < OutboundCipher.encryptionBufferLen pt.length
  · unfold OutboundCipher.encrypt at h
    rw [if_pos hb] at h
    simp at h
  · have hb' : pt.length + 20 ≤ buf.length := by
      simp only [OutboundCipher.encryptionBufferLen, NUM_PACKET_OVERHEAD_BYTES, NUM_LENGTH_BYTES,
        NUM_HEADER_BYTES, NUM_TAG_BYTES] at hb
      omega
    cases he : c.packetCipher.encrypt P prof (aad.getD []) (ty.toByte :: pt) with
    | none =>
      have := OutboundCipher.encrypt_panic (P := P) (prof := prof) c pt buf ty aad hb' (.inl he)
      rw [h] at this; cases this
    | some r =>
      cases hl : c.lengthCipher.crypt P prof (leBytes 3 (pt.length % u32Mod)) with
      | none =>
        have := OutboundCipher.encrypt_panic (P := P) (prof := prof) c pt buf ty aad hb' (.inr hl)
        rw [h] at this; cases this
      | some s =>
        obtain ⟨pc, ct, tag⟩ := r
        obtain ⟨lc, encLen⟩ := s
        rw [OutboundCipher.encrypt_eq hP c pt buf ty aad hb' he hl] at h
        simp only [Prod.mk.injEq, and_true] at h
        exact ⟨pc, ct, tag, lc, encLen, rfl, rfl, hb', h.1.symm, h.2.symm⟩

theorem OutboundCipher.encryptToVec_ok_inv (hP : Lawful P) (c : OutboundCipher) (pt : Bytes)
    (ty : PacketType) (aad : Option Bytes) {c' : OutboundCipher} {w : Bytes}
    (h : c.encryptToVec P prof pt ty aad = (c', .ok w)) :
    ∃ pc ct tag lc encLen,
      c.packetCipher.encrypt P prof (aad.getD []) (ty.toByte :: pt) = some (pc, ct, tag) ∧
      c.lengthCipher.crypt P prof (leBytes 3 (pt.length % u32Mod)) = some (lc, encLen) ∧
      c' = ⟨lc, pc⟩ ∧ w = encLen ++ ct ++ tag := by
  have h0 := h
  unfold OutboundCipher.encryptToVec at h
  split at h
  · rename_i buf heq
    obtain ⟨pc, ct, tag, lc, encLen, he, hl, -, hc, hb⟩ := encrypt_ok_inv hP c pt _ ty aad heq
    rw [encryptToVec_eq hP c pt ty aad he hl] at h0
    simp only [Prod.mk.injEq, Outcome.ok.injEq] at h0
    exact ⟨pc, ct, tag, lc, encLen, he, hl, h0.1.symm, h0.2.symm⟩
  · simp at h
  · simp at h

end Bip324
