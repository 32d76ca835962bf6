import Verif.Lemmas.AsyncRead
import Verif.Spec.Transcript

/-! # What the receiving functions accept, by packet number -/

namespace Bip324

variable {P : Prims} {prof : Profile}

/-- Both ciphers of a receiving direction have processed `n` packets. -/
def InboundCipher.At (P : Prims) (kL kP : Bytes) (n : Nat) (i : InboundCipher) : Prop :=
  i.lengthCipher.At P kL n ∧ i.packetCipher.At P kP n

/-- The length of packet `n` has been decrypted, the packet not yet. -/
def InboundCipher.Half (P : Prims) (kL kP : Bytes) (n : Nat) (i : InboundCipher) : Prop :=
  i.lengthCipher.At P kL (n + 1) ∧ i.packetCipher.At P kP n

theorem lengthMask_length (k : Bytes) (n : Nat) : (Spec.lengthMask P k n).length = 3 := by
  simp [Spec.lengthMask]

theorem leBytes_leNat (bs : Bytes) : leBytes bs.length (leNat bs) = bs := by
  induction bs with
  | nil => rfl
  | cons b bs ih =>
    have hb : b.toNat < 256 := b.toNat_lt
    simp only [List.length_cons, leBytes, leNat]
    have h1 : (b.toNat + 256 * leNat bs) % 256 = b.toNat := by omega
    have h2 : (b.toNat + 256 * leNat bs) / 256 = leNat bs := by omega
    rw [h2, ih]
    congr 1
    apply UInt8.toNat_inj.1
    simp [h1]

/-- `decrypt_packet_len` on three bytes: every three bytes announce some length. -/
theorem decryptPacketLen_at {kL kP : Bytes} {n : Nat} {i : InboundCipher} (h : i.At P kL kP n)
    (hn : n + 1 < 2 ^ 32) (lb : Bytes) (hl : lb.length = 3) :
    ∃ i' len, len < 2 ^ 24 ∧ i.decryptPacketLen P prof lb = (i', .ok (len + 17)) ∧
      i'.Half P kL kP n ∧ lb = Spec.xor (Spec.le 3 len) (Spec.lengthMask P kL n) := by
  obtain ⟨lc, hlc, he⟩ := h.1.crypt (prof := prof) hn lb hl
  refine ⟨{ i with lengthCipher := lc }, leNat (xorBytes lb (Spec.lengthMask P kL n)), ?_, ?_, ⟨hlc, h.2⟩, ?_⟩
  · have := leNat_lt (xorBytes lb (Spec.lengthMask P kL n))
    rw [xorBytes_length, lengthMask_length, hl] at this
    exact this
  · unfold InboundCipher.decryptPacketLen
    rw [he]
    simp only [NUM_HEADER_BYTES, NUM_TAG_BYTES]
  · have hx : (xorBytes lb (Spec.lengthMask P kL n)).length = 3 := by
      rw [xorBytes_length, lengthMask_length, hl]; rfl
    have := leBytes_leNat (xorBytes lb (Spec.lengthMask P kL n))
    rw [hx] at this
    rw [spec_le, this, spec_xor, xorBytes_cancel]
    rw [lengthMask_length, hl]; exact Nat.le_refl 3

theorem rawPacket_eq (kL kP : Bytes) (n : Nat) (header : UInt8) (aad contents : Bytes) :
    Spec.rawPacket P kL kP n header aad contents
      = Spec.xor (Spec.le 3 contents.length) (Spec.lengthMask P kL n)
        ++ Spec.sealedPart P kP n header aad contents := by
  simp only [Spec.rawPacket, Spec.sealedPart, List.append_assoc]

theorem sealedPart_length (hP : Lawful P) (kP : Bytes) (n : Nat) (header : UInt8) (aad contents : Bytes) :
    (Spec.sealedPart P kP n header aad contents).length = contents.length + 17 := by
  simp only [Spec.sealedPart, List.length_append, hP.seal_length, hP.tag_length, List.length_cons]

theorem rawPacket_length (hP : Lawful P) (kL kP : Bytes) (n : Nat) (header : UInt8) (aad contents : Bytes) :
    (Spec.rawPacket P kL kP n header aad contents).length = contents.length + 20 := by
  rw [rawPacket_eq, List.length_append, sealedPart_length hP, spec_xor, xorBytes_length, lengthMask_length,
    spec_le, leBytes_length]
  omega

/-- The three bytes of a length below `2 ^ 24` determine it. -/
theorem lengthBytes_inj {k : Bytes} {n a b : Nat} (ha : a < 2 ^ 24) (hb : b < 2 ^ 24)
    (h : Spec.xor (Spec.le 3 a) (Spec.lengthMask P k n) = Spec.xor (Spec.le 3 b) (Spec.lengthMask P k n)) :
    a = b := by
  have hx : ∀ x, xorBytes (Spec.xor (Spec.le 3 x) (Spec.lengthMask P k n)) (Spec.lengthMask P k n)
      = leBytes 3 x := by
    intro x
    rw [spec_xor, xorBytes_cancel (by rw [lengthMask_length, spec_le, leBytes_length]; exact Nat.le_refl 3), spec_le]
  have := congrArg (fun z => xorBytes z (Spec.lengthMask P k n)) h
  simp only [hx] at this
  exact leBytes_inj ha hb this

/-- The exact announcement of a length. -/
theorem decryptPacketLen_exact {kL kP : Bytes} {n : Nat} {i : InboundCipher} (h : i.At P kL kP n)
    (hn : n + 1 < 2 ^ 32) (len : Nat) (hlen : len < 2 ^ 24) :
    ∃ i', i.decryptPacketLen P prof (Spec.xor (Spec.le 3 len) (Spec.lengthMask P kL n)) = (i', .ok (len + 17)) ∧
      i'.Half P kL kP n := by
  obtain ⟨i', len', hl', he, hh, hx⟩ := decryptPacketLen_at (prof := prof) h hn
    (Spec.xor (Spec.le 3 len) (Spec.lengthMask P kL n))
    (by rw [spec_xor, xorBytes_length, lengthMask_length, spec_le, leBytes_length]; rfl)
  have := lengthBytes_inj hlen hl' hx
  subst this
  exact ⟨i', he, hh⟩

/-- A sealed part determines header and contents. -/
theorem sealedPart_inj (hP : Lawful P) {kP : Bytes} {n : Nat} {aad : Bytes} {h1 h2 : UInt8} {c1 c2 : Bytes}
    (h : Spec.sealedPart P kP n h1 aad c1 = Spec.sealedPart P kP n h2 aad c2) : h1 = h2 ∧ c1 = c2 := by
  have hl := congrArg List.length h
  rw [sealedPart_length hP, sealedPart_length hP] at hl
  have hs := List.append_inj h (by rw [hP.seal_length, hP.seal_length, List.length_cons, List.length_cons]; omega)
  have o1 := (hP.open_iff (Spec.packetKey P kP (n / Spec.interval)) (Spec.packetNonce n) aad _ _ (h1 :: c1)).2 rfl
  rw [hs.1, hs.2] at o1
  have o2 := (hP.open_iff (Spec.packetKey P kP (n / Spec.interval)) (Spec.packetNonce n) aad _ _ (h2 :: c2)).2 rfl
  have := o1.symm.trans o2
  simp only [Option.some.injEq, List.cons.injEq] at this
  exact this

/-- A ciphertext of at least 17 bytes either is a sealed part, and then of one header and contents, or is
not. -/
theorem openC_sealedPart (hP : Lawful P) (kP : Bytes) (n : Nat) (aad msg tag : Bytes) (hm : 0 < msg.length)
    (ht : tag.length = 16) :
    (∃ header contents, msg ++ tag = Spec.sealedPart P kP n header aad contents ∧
      P.openC (Spec.packetKey P kP (n / 224)) (Spec.packetNonce n) aad msg tag = some (header :: contents)) ∨
    ((∀ header contents, msg ++ tag ≠ Spec.sealedPart P kP n header aad contents) ∧
      P.openC (Spec.packetKey P kP (n / 224)) (Spec.packetNonce n) aad msg tag = none) := by
  cases ho : P.openC (Spec.packetKey P kP (n / 224)) (Spec.packetNonce n) aad msg tag with
  | none =>
    refine .inr ⟨fun header contents he => ?_, rfl⟩
    have hl := congrArg List.length he
    rw [sealedPart_length hP, List.length_append, ht] at hl
    have hs := List.append_inj he (by rw [hP.seal_length, List.length_cons]; omega)
    have := (hP.open_iff _ _ _ msg tag (header :: contents)).2 (Prod.ext hs.1.symm hs.2.symm)
    rw [ho] at this
    cases this
  | some p =>
    have hs := (hP.open_iff _ _ _ _ _ _).1 ho
    cases p with
    | nil =>
      have := congrArg (fun x => x.1.length) hs
      simp only [hP.seal_length, List.length_nil] at this
      omega
    | cons header contents =>
      refine .inl ⟨header, contents, ?_, rfl⟩
      simp only [Spec.sealedPart, Spec.interval, hs]

/-- `decrypt_in_place` accepts exactly the sealed parts. -/
theorem decryptInPlace_at (hP : Lawful P) {kP : Bytes} {n : Nat} {i : InboundCipher}
    (h : i.packetCipher.At P kP n) (hn : n + 1 < 2 ^ 64) (ct : Bytes) (aad : Option Bytes)
    (hct : 17 ≤ ct.length) :
    (∃ header contents i' buf, ct = Spec.sealedPart P kP n header (aad.getD []) contents ∧
      i'.lengthCipher = i.lengthCipher ∧ i'.packetCipher.At P kP (n + 1) ∧
      i.decryptInPlace P prof ct aad = (i', buf, .ok (PacketType.fromByte header, header :: contents))) ∨
    ((∀ header contents, ct ≠ Spec.sealedPart P kP n header (aad.getD []) contents) ∧
      i.decryptInPlace P prof ct aad = (i, ct, .err .decryption)) := by
  obtain ⟨msg, tag, rfl, hm, ht, -⟩ := split_ct hct
  have hk : i.packetCipher.key = Spec.packetKey P kP (n / 224) := h.2
  have ha := InboundCipher.decryptInPlace_append (prof := prof) hP i msg tag aad hm ht
  rw [hk, h.nonce] at ha
  rcases openC_sealedPart hP kP n (aad.getD []) msg tag hm ht with ⟨header, contents, he, ho⟩ | ⟨he, ho⟩
  · obtain ⟨pc, hr, hpc⟩ := h.rekey (prof := prof) hP hn (aad.getD [])
    simp only [ho, hr] at ha
    exact .inl ⟨header, contents, { i with packetCipher := pc }, _, he, rfl, hpc, ha⟩
  · simp only [ho] at ha
    exact .inr ⟨he, ha⟩

/-- `decrypt` into a buffer that is large enough accepts exactly the sealed parts. -/
theorem decrypt_at (hP : Lawful P) {kP : Bytes} {n : Nat} {i : InboundCipher}
    (h : i.packetCipher.At P kP n) (hn : n + 1 < 2 ^ 64) (ct buf : Bytes) (aad : Option Bytes)
    (hct : 17 ≤ ct.length) (hb : ct.length = buf.length + 16) :
    (∃ header contents i', ct = Spec.sealedPart P kP n header (aad.getD []) contents ∧
      i'.lengthCipher = i.lengthCipher ∧ i'.packetCipher.At P kP (n + 1) ∧
      i.decrypt P prof ct buf aad = (i', header :: contents, .ok (PacketType.fromByte header))) ∨
    ((∀ header contents, ct ≠ Spec.sealedPart P kP n header (aad.getD []) contents) ∧
      ∃ buf', i.decrypt P prof ct buf aad = (i, buf', .err .decryption)) := by
  obtain ⟨msg, tag, rfl, hm, ht, -⟩ := split_ct hct
  have hk : i.packetCipher.key = Spec.packetKey P kP (n / 224) := h.2
  have ha := InboundCipher.decrypt_append (prof := prof) hP i msg tag buf aad hm ht
  have hml : msg.length = buf.length := by
    rw [List.length_append, ht] at hb
    omega
  rw [hk, h.nonce, if_neg (by omega), hml, List.drop_length] at ha
  rcases openC_sealedPart hP kP n (aad.getD []) msg tag hm ht with ⟨header, contents, he, ho⟩ | ⟨he, ho⟩
  · obtain ⟨pc, hr, hpc⟩ := h.rekey (prof := prof) hP hn (aad.getD [])
    simp only [ho, hr, List.append_nil] at ha
    exact .inl ⟨header, contents, { i with packetCipher := pc }, he, rfl, hpc, ha⟩
  · simp only [ho] at ha
    exact .inr ⟨he, _, ha⟩

/-! ## What reading takes from the transport -/

/-- The reader with these bytes left answered `r` to a request for `n` bytes and has these bytes left. -/
def ReadRes.Took (bytes : Bytes) (n : Nat) (r : ReadRes) (bytes' : Bytes) : Prop :=
  match r with
  | .ok bs => bytes = bs ++ bytes' ∧ bs.length ≤ n
  | .err _ => bytes = bytes'

theorem Source.read_bytes (s : Source) (n : Nat) {s' : Source} {r : ReadRes} (h : s.read n = (s', r)) :
    r.Took s.bytes n s'.bytes := by
  induction s with
  | nil =>
    simp only [Source.read, Prod.mk.injEq] at h
    obtain ⟨rfl, rfl⟩ := h
    exact ⟨rfl, Nat.zero_le _⟩
  | cons e s ih =>
    cases e with
    | pending => exact ih h
    | fail k =>
      simp only [Source.read, Prod.mk.injEq] at h
      obtain ⟨rfl, rfl⟩ := h
      rfl
    | data bs =>
      simp only [Source.read] at h
      split at h
      · simp only [Prod.mk.injEq] at h
        obtain ⟨rfl, rfl⟩ := h
        exact ⟨rfl, by assumption⟩
      · simp only [Prod.mk.injEq] at h
        obtain ⟨rfl, rfl⟩ := h
        refine ⟨?_, by simp; omega⟩
        simp only [Source.bytes, ← List.append_assoc, List.take_append_drop]

/-- The same for `read_exact`: the bytes it returns, or drops on an error, come from the front. -/
def TookExact (bytes : Bytes) (n : Nat) (acc : Bytes) (r : Except ErrorKind Bytes) (bytes' : Bytes) : Prop :=
  match r with
  | .ok bs => ∃ d, bs = acc ++ d ∧ d.length = n ∧ bytes = d ++ bytes'
  | .error _ => ∃ d, d.length < n ∧ bytes = d ++ bytes'

theorem Reader.readExact_bytes {σ : Type} (R : Reader σ) (bytes : σ → Bytes)
    (hR : ∀ s n s' r, R.read s n = (s', r) → r.Took (bytes s) n (bytes s'))
    (retry : Bool) (s : σ) (n : Nat) (acc : Bytes) {s' : σ}
    {r : Except ErrorKind Bytes} (h : R.readExact retry s n acc = (s', r)) :
    TookExact (bytes s) n acc r (bytes s') := by
  fun_induction Reader.readExact R retry s n acc with
  | case1 s acc =>
    simp only [Prod.mk.injEq] at h
    obtain ⟨rfl, rfl⟩ := h
    exact ⟨[], by simp, rfl, rfl⟩
  | case2 s need acc hz s1 heq =>
    simp only [Prod.mk.injEq] at h
    obtain ⟨rfl, rfl⟩ := h
    have := hR _ _ _ _ heq
    exact ⟨[], by simp; omega, this.1⟩
  | case3 s need acc hz s1 b bs heq ih =>
    have hb := hR _ _ _ _ heq
    have := ih h
    cases r with
    | ok x =>
      obtain ⟨d, rfl, hd, he⟩ := this
      refine ⟨b :: bs ++ d, by simp, ?_, by rw [hb.1, he, List.append_assoc]⟩
      have := hb.2
      rw [List.length_append]; omega
    | error k =>
      obtain ⟨d, hd, he⟩ := this
      refine ⟨b :: bs ++ d, ?_, by rw [hb.1, he, List.append_assoc]⟩
      have := hb.2
      rw [List.length_append]; omega
  | case4 s need acc hz s1 k heq hk ih =>
    have hb : bytes s = bytes s1 := hR _ _ _ _ heq
    rw [hb]
    exact ih h
  | case5 s need acc hz s1 k heq hk =>
    simp only [Prod.mk.injEq] at h
    obtain ⟨rfl, rfl⟩ := h
    have := hR _ _ _ _ heq
    exact ⟨[], by simp; omega, this⟩

theorem readExact_bytes (retry : Bool) (s : Source) (n : Nat) (acc : Bytes) {s' : Source}
    {r : Except ErrorKind Bytes} (h : Source.reader.readExact retry s n acc = (s', r)) :
    TookExact s.bytes n acc r s'.bytes :=
  Reader.readExact_bytes Source.reader Source.bytes (fun s n _ _ h => Source.read_bytes s n h) retry s n acc h

/-- The same through a session reader. -/
theorem sess_readExact_bytes {A : Api} (B : A.Abs) (retry : Bool) (s : A.Session) (n : Nat)
    {s' : A.Session} {r : Except ErrorKind Bytes} (h : A.reader.readExact retry s n = (s', r)) :
    TookExact (B.abs s).bytes n [] r (B.abs s').bytes :=
  readExact_bytes retry _ n [] (readExact_abs B retry s n [] h)

theorem TookExact.ok {bytes : Bytes} {n : Nat} {bs bytes' : Bytes}
    (h : TookExact bytes n [] (.ok bs) bytes') : bs.length = n ∧ bytes = bs ++ bytes' := by
  obtain ⟨d, rfl, hd, he⟩ := h
  exact ⟨hd, he⟩

/-- Whatever happens, a front part has been taken. -/
theorem TookExact.front {bytes : Bytes} {n : Nat} {acc : Bytes} {r : Except ErrorKind Bytes} {bytes' : Bytes}
    (h : TookExact bytes n acc r bytes') : ∃ d, bytes = d ++ bytes' := by
  cases r with
  | ok bs => obtain ⟨d, -, -, he⟩ := h; exact ⟨d, he⟩
  | error k => obtain ⟨d, -, he⟩ := h; exact ⟨d, he⟩

/-! ## Blocking reads -/

/-- `decrypt_to_vec` accepts exactly the sealed parts of at most 4000013 bytes of contents. -/
theorem decryptToVec_at (hP : Lawful P) {kP : Bytes} {n : Nat} {i : InboundCipher}
    (h : i.packetCipher.At P kP n) (hn : n + 1 < 2 ^ 64) (ct : Bytes) (aad : Option Bytes)
    (hct : 17 ≤ ct.length) :
    (∃ header contents i', ct = Spec.sealedPart P kP n header (aad.getD []) contents ∧
      contents.length ≤ 4000013 ∧
      i'.lengthCipher = i.lengthCipher ∧ i'.packetCipher.At P kP (n + 1) ∧
      i.decryptToVec P prof ct aad = (i', .ok (PacketType.fromByte header, header :: contents))) ∨
    ((∀ header contents, contents.length ≤ 4000013 →
        ct ≠ Spec.sealedPart P kP n header (aad.getD []) contents) ∧
      ∃ e, i.decryptToVec P prof ct aad = (i, .err e)) := by
  have hl : InboundCipher.decryptionBufferLen prof ct.length = some (ct.length - 16) := by
    unfold InboundCipher.decryptionBufferLen usub
    rw [if_pos (by show 16 ≤ _; omega)]
  by_cases hbig : ct.length - 16 > MAX_PACKET_SIZE_FOR_ALLOCATION
  · refine .inr ⟨?_, .packetTooBig, ?_⟩
    · intro header contents hc he
      have hx := congrArg List.length he
      rw [sealedPart_length hP] at hx
      have hm : MAX_PACKET_SIZE_FOR_ALLOCATION = 4000014 := rfl
      omega
    · unfold InboundCipher.decryptToVec
      simp only [hl]
      rw [if_pos hbig]
  · have hd := decrypt_at (prof := prof) hP h hn ct (zeros (ct.length - 16)) aad hct
      (by rw [zeros_length]; omega)
    rcases hd with ⟨header, contents, i', he, h1, h2, h3⟩ | ⟨he, buf', h3⟩
    · refine .inl ⟨header, contents, i', he, ?_, h1, h2, ?_⟩
      · have hx := congrArg List.length he
        rw [sealedPart_length hP] at hx
        have hm : MAX_PACKET_SIZE_FOR_ALLOCATION = 4000014 := rfl
        omega
      · unfold InboundCipher.decryptToVec
        simp only [hl, h3]
        rw [if_neg hbig]
    · refine .inr ⟨fun header contents _ => he header contents, .decryption, ?_⟩
      unfold InboundCipher.decryptToVec
      simp only [hl, h3]
      rw [if_neg hbig]

theorem mkDecrypted_cons (header : UInt8) (contents : Bytes) :
    Payload.mkDecrypted prof (header :: contents) = some (.decrypted (header :: contents)) := by
  simp [Payload.mkDecrypted]

/-- The bytes a session reader has yet to deliver. -/
def SyncSession.bytes (s : SyncSession) : Bytes := s.abs.bytes

theorem sync_took (s : SyncSession) (n : Nat) {s' : SyncSession} {r : Except ErrorKind Bytes}
    (h : SyncSession.reader.readExact true s n = (s', r)) : TookExact s.bytes n [] r s'.bytes :=
  sess_readExact_bytes syncAbs true s n h

/-- A successful read has taken exactly one packet off the stream. -/
theorem sync_read_sound (hP : Lawful P) {kL kP : Bytes} {n : Nat} {r r' : SyncReader} {p : Payload}
    (h : r.cipher.At P kL kP n) (hn : n + 1 < 2 ^ 32) (hr : r.read P prof = (r', .ok p)) :
    ∃ header contents, p = .decrypted (header :: contents) ∧ contents.length ≤ 4000013 ∧
      r'.cipher.At P kL kP (n + 1) ∧
      r.reader.bytes = Spec.rawPacket P kL kP n header [] contents ++ r'.reader.bytes := by
  unfold SyncReader.read at hr
  cases h1 : SyncSession.reader.readExact true r.reader NUM_LENGTH_BYTES with
  | mk s1 x1 =>
  have ht1 := sync_took _ _ h1
  rw [h1] at hr
  cases x1 with
  | error k => simp at hr
  | ok lb =>
  obtain ⟨hlb, hb1⟩ := ht1.ok
  obtain ⟨i1, len, hlen, hd, hh, hx⟩ := decryptPacketLen_at (prof := prof) h hn lb hlb
  simp only [hd] at hr
  cases h2 : SyncSession.reader.readExact true s1 (len + 17) with
  | mk s2 x2 =>
  have ht2 := sync_took _ _ h2
  rw [h2] at hr
  cases x2 with
  | error k => simp at hr
  | ok ct =>
  obtain ⟨hct, hb2⟩ := ht2.ok
  simp only at hr
  rcases decryptToVec_at (prof := prof) hP hh.2 (by omega) ct none (by omega) with
    ⟨header, contents, i', he, hc, hi, hpc, hv⟩ | ⟨-, e, hv⟩
  · simp only [hv, mkDecrypted_cons, Prod.mk.injEq, Outcome.ok.injEq] at hr
    obtain ⟨rfl, rfl⟩ := hr
    refine ⟨header, contents, rfl, hc, ⟨by rw [hi]; exact hh.1, hpc⟩, ?_⟩
    have hcl : contents.length = len := by
      have hy := congrArg List.length he
      rw [sealedPart_length hP] at hy
      omega
    rw [hb1, hb2, rawPacket_eq, hcl, ← hx, he, List.append_assoc]
    rfl
  · simp [hv] at hr

/-- Whatever a read returns, a payload it returns has been sealed under the next packet number. -/
theorem sync_read_carries (hP : Lawful P) {kP : Bytes} {n : Nat} {r : SyncReader}
    (h : r.cipher.packetCipher.At P kP n) (hn : n + 1 < 2 ^ 64) {r' : SyncReader} {x : Outcome ProtocolError Payload}
    (hr : r.read P prof = (r', x)) :
    (∃ header contents before, x = .ok (.decrypted (header :: contents)) ∧ contents.length ≤ 4000013 ∧
      r'.cipher.packetCipher.At P kP (n + 1) ∧
      r.reader.bytes = before ++ Spec.sealedPart P kP n header [] contents ++ r'.reader.bytes) ∨
    ((∀ p, x ≠ .ok p) ∧ r'.cipher.packetCipher.At P kP n ∧ ∃ lost, r.reader.bytes = lost ++ r'.reader.bytes) := by
  unfold SyncReader.read at hr
  cases h1 : SyncSession.reader.readExact true r.reader NUM_LENGTH_BYTES with
  | mk s1 x1 =>
  have ht1 := sync_took _ _ h1
  rw [h1] at hr
  cases x1 with
  | error k =>
    simp only [Prod.mk.injEq] at hr
    obtain ⟨rfl, rfl⟩ := hr
    exact .inr ⟨by simp, h, ht1.front⟩
  | ok lb =>
  obtain ⟨hlb, hb1⟩ := ht1.ok
  simp only at hr
  unfold InboundCipher.decryptPacketLen at hr
  cases hc : r.cipher.lengthCipher.crypt P prof lb with
  | none =>
    simp only [hc, Prod.mk.injEq] at hr
    obtain ⟨rfl, rfl⟩ := hr
    exact .inr ⟨by simp, h, lb, hb1⟩
  | some v =>
  obtain ⟨lc, l⟩ := v
  simp only [hc] at hr
  cases h2 : SyncSession.reader.readExact true s1 (leNat l + NUM_HEADER_BYTES + NUM_TAG_BYTES) with
  | mk s2 x2 =>
  have ht2 := sync_took _ _ h2
  rw [h2] at hr
  cases x2 with
  | error k =>
    simp only [Prod.mk.injEq] at hr
    obtain ⟨rfl, rfl⟩ := hr
    obtain ⟨d, hd⟩ := ht2.front
    exact .inr ⟨by simp, h, lb ++ d, by rw [hb1, hd, List.append_assoc]⟩
  | ok ct =>
  obtain ⟨hct, hb2⟩ := ht2.ok
  simp only at hr
  have h17 : 17 ≤ ct.length := by
    rw [hct]; show 17 ≤ leNat l + 1 + 16; omega
  rcases decryptToVec_at (prof := prof) (i := { r.cipher with lengthCipher := lc }) hP h hn ct none h17 with
    ⟨header, contents, i', he, hcc, hi, hpc, hv⟩ | ⟨-, e, hv⟩
  · simp only [hv, mkDecrypted_cons, Prod.mk.injEq] at hr
    obtain ⟨rfl, rfl⟩ := hr
    refine .inl ⟨header, contents, lb, rfl, hcc, hpc, ?_⟩
    rw [hb1, hb2, he, List.append_assoc]
    rfl
  · simp only [hv, Prod.mk.injEq] at hr
    obtain ⟨rfl, rfl⟩ := hr
    exact .inr ⟨by simp, h, lb ++ ct, by rw [hb1, hb2, List.append_assoc]⟩

/-! ## Polled reads -/

/-- The stream that begins with packet number `n` and that this reader has yet to take apart: the part it
holds and what its transport has yet to deliver. -/
def AsyncReader.Reads (P : Prims) (kL kP : Bytes) (n : Nat) (bs : Bytes) (r : AsyncReader) : Prop :=
  match r.state with
  | .readingLength buf k => buf.length = 3 ∧ k ≤ 3 ∧ r.cipher.At P kL kP n ∧
      bs = buf.take k ++ r.reader.remaining
  | .readingPayload buf k => ∃ len, len < 2 ^ 24 ∧ buf.length = len + 17 ∧ k ≤ buf.length ∧
      r.cipher.Half P kL kP n ∧
      bs = Spec.xor (Spec.le 3 len) (Spec.lengthMask P kL n) ++ (buf.take k ++ r.reader.remaining)

/-- What one poll may do. -/
def AsyncReader.Sound (P : Prims) (kL kP : Bytes) (n : Nat) (bs : Bytes) (x : AsyncReader × PollResult) : Prop :=
  match x with
  | (r', .ready (.ok p)) => ∃ header contents bs', p = .decrypted (header :: contents) ∧ contents.length < 2 ^ 24 ∧
      bs = Spec.rawPacket P kL kP n header [] contents ++ bs' ∧ r'.Reads P kL kP (n + 1) bs'
  | (_, .ready .panic) => False
  | (r', _) => r'.Reads P kL kP n bs

theorem pollPayload_sound (hP : Lawful P) {kL kP : Bytes} {n : Nat} {bs : Bytes} (hn : n + 1 < 2 ^ 32)
    (c : InboundCipher) (s : AsyncSession) (buf : Bytes) (k : Nat)
    (h : AsyncReader.Reads P kL kP n bs ⟨c, s, .readingPayload buf k⟩) :
    AsyncReader.Sound P kL kP n bs (AsyncReader.pollPayload P prof c s buf k) := by
  obtain ⟨len, hlen, hbl, hk, hc, hbs⟩ := h
  have hf := pollFill_spec s buf k hk
  unfold AsyncReader.pollPayload
  cases hp : pollFill s buf k with
  | pending s' buf' k' =>
    rw [hp] at hf
    obtain ⟨a, b, d, -⟩ := hf
    exact ⟨len, hlen, by omega, a, hc, by rw [hbs, d]⟩
  | err s' buf' k' e =>
    rw [hp] at hf
    obtain ⟨a, b, d, -⟩ := hf
    exact ⟨len, hlen, by omega, by omega, hc, by rw [hbs, d]⟩
  | full s' buf' k' =>
    rw [hp] at hf
    obtain ⟨a, b, d, -⟩ := hf
    have hdl : InboundCipher.decryptionBufferLen prof buf'.length = some (buf'.length - 16) := by
      unfold InboundCipher.decryptionBufferLen usub
      rw [if_pos (by show 16 ≤ _; omega)]
    simp only [hdl]
    rcases decrypt_at (prof := prof) hP hc.2 (by omega) buf' (zeros (buf'.length - 16)) none (by omega)
      (by rw [zeros_length]; omega) with ⟨header, contents, i', he, h1, h2, h3⟩ | ⟨-, buf'', h3⟩
    · simp only [h3, mkDecrypted_cons]
      have hcl : contents.length = len := by
        have hy := congrArg List.length he
        rw [sealedPart_length hP] at hy
        omega
      refine ⟨header, contents, s'.remaining, rfl, by omega, ?_, rfl, by omega, ⟨by rw [h1]; exact hc.1, h2⟩, ?_⟩
      · rw [hbs, ← d, rawPacket_eq, hcl, he, List.append_assoc]
        rfl
      · simp
    · simp only [h3]
      refine ⟨len, hlen, by omega, by omega, hc, ?_⟩
      rw [hbs, ← d, a, List.take_length]

theorem poll_sound (hP : Lawful P) {kL kP : Bytes} {n : Nat} {bs : Bytes} (hn : n + 1 < 2 ^ 32)
    (r : AsyncReader) (h : r.Reads P kL kP n bs) :
    AsyncReader.Sound P kL kP n bs (r.poll P prof) := by
  obtain ⟨c, s, st⟩ := r
  cases st with
  | readingPayload buf k => exact pollPayload_sound hP hn c s buf k h
  | readingLength buf k =>
    obtain ⟨hbl, hk, hc, hbs⟩ := h
    have hf := pollFill_spec s buf k (by omega)
    unfold AsyncReader.poll
    simp only
    cases hp : pollFill s buf k with
    | pending s' buf' k' =>
      rw [hp] at hf
      obtain ⟨a, b, d, -⟩ := hf
      exact ⟨by omega, by omega, hc, by rw [hbs, d]⟩
    | err s' buf' k' e =>
      rw [hp] at hf
      obtain ⟨a, b, d, -⟩ := hf
      exact ⟨by omega, by omega, hc, by rw [hbs, d]⟩
    | full s' buf' k' =>
      rw [hp] at hf
      obtain ⟨a, b, d, -⟩ := hf
      obtain ⟨i1, len, hlen, hd, hh, hx⟩ := decryptPacketLen_at (prof := prof) hc hn buf' (by omega)
      simp only [hd]
      apply pollPayload_sound hP hn
      refine ⟨len, hlen, by simp, by omega, hh, ?_⟩
      rw [hbs, ← d, hx]
      simp

end Bip324
