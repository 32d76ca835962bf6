import Verif.Spec.Reference
import Verif.Lemmas.HandshakeAccept

/-! # The reference implementation follows the schedule of BIP-324 -/

namespace Bip324

variable {P : Prims}

namespace Ref

/-! ## Ciphers -/

theorem block_slice (k n : Bytes) (b : Nat) : chacha20Block P k n b = P.ksSlice k n (64 * b) 64 := rfl

theorem slice_append (k n : Bytes) (pos a b : Nat) :
    P.ksSlice k n pos a ++ P.ksSlice k n (pos + a) b = P.ksSlice k n pos (a + b) := by
  unfold Prims.ksSlice
  rw [List.range_add, List.map_append, List.map_map]
  congr 1
  apply List.map_congr_left
  intro i _
  simp only [Function.comp_apply]
  congr 1
  omega

theorem slice_take (k n : Bytes) (pos a b : Nat) (h : a ≤ b) :
    (P.ksSlice k n pos b).take a = P.ksSlice k n pos a := by
  obtain ⟨c, rfl⟩ := Nat.le.dest h
  rw [← slice_append, take_append_len _ _ (by simp)]

theorem slice_drop (k n : Bytes) (pos a b : Nat) (h : a ≤ b) :
    (P.ksSlice k n pos b).drop a = P.ksSlice k n (pos + a) (b - a) := by
  obtain ⟨c, rfl⟩ := Nat.le.dest h
  rw [← slice_append, drop_append_len _ _ (by simp), show a + c - a = c by omega]

/-- The nonce that `c` uses. -/
def FSChaCha20.theNonce (c : FSChaCha20) : Bytes := Spec.lengthNonce (c.chunkCounter / 224)

/-- `pos` bytes of the keystream have been used; the rest of what has been generated is kept. -/
def FSChaCha20.Used (P : Prims) (pos : Nat) (c : FSChaCha20) : Prop :=
  pos ≤ 64 * c.blockCounter ∧ c.keystream = P.ksSlice c.key c.theNonce pos (64 * c.blockCounter - pos)

theorem FSChaCha20.Used.fill {pos : Nat} (nbytes : Nat) : ∀ (fuel : Nat) {c : FSChaCha20}, c.Used P pos →
    nbytes ≤ c.keystream.length + 64 * fuel →
    (c.fill P nbytes fuel).Used P pos ∧ nbytes ≤ (c.fill P nbytes fuel).keystream.length ∧
      (c.fill P nbytes fuel).key = c.key ∧ (c.fill P nbytes fuel).chunkCounter = c.chunkCounter := by
  intro fuel
  induction fuel with
  | zero => intro c h hf; exact ⟨h, by simpa [FSChaCha20.fill] using hf, rfl, rfl⟩
  | succ fuel ih =>
    intro c h hf
    unfold FSChaCha20.fill
    by_cases hc : c.keystream.length < nbytes
    · rw [if_pos hc]
      have h2 : FSChaCha20.Used P pos { c with
          keystream := c.keystream ++ chacha20Block P c.key
            (Spec.le 4 0 ++ Spec.le 8 (c.chunkCounter / 224)) c.blockCounter
          blockCounter := c.blockCounter + 1 } := by
        obtain ⟨h1, h2⟩ := h
        refine ⟨by simp only; omega, ?_⟩
        simp only [FSChaCha20.theNonce]
        rw [h2, block_slice]
        have e : 64 * c.blockCounter = pos + (64 * c.blockCounter - pos) := by omega
        have e2 : 64 * (c.blockCounter + 1) - pos = (64 * c.blockCounter - pos) + 64 := by omega
        rw [e2, ← slice_append, ← e]
        rfl
      obtain ⟨i1, i2, i3, i4⟩ := ih h2 (by simp only [List.length_append, block_slice, ksSlice_length]; omega)
      exact ⟨i1, i2, i3, i4⟩
    · rw [if_neg hc]
      exact ⟨h, by omega, rfl, rfl⟩

theorem FSChaCha20.Used.get {pos : Nat} {c : FSChaCha20} (h : c.Used P pos) (nbytes : Nat) :
    ∃ c', c.getKeystreamBytes P nbytes = (P.ksSlice c.key c.theNonce pos nbytes, c') ∧ c'.Used P (pos + nbytes) ∧
      c'.key = c.key ∧ c'.chunkCounter = c.chunkCounter := by
  obtain ⟨h1, h2, h3, h4⟩ := h.fill nbytes nbytes (by omega)
  unfold FSChaCha20.getKeystreamBytes
  generalize c.fill P nbytes nbytes = f at h1 h2 h3 h4
  obtain ⟨g1, g2⟩ := h1
  have gl : f.keystream.length = 64 * f.blockCounter - pos := by rw [g2, ksSlice_length]
  have gn : f.theNonce = c.theNonce := by unfold FSChaCha20.theNonce; rw [h4]
  refine ⟨{ f with keystream := f.keystream.drop nbytes }, ?_, ⟨?_, ?_⟩, h3, h4⟩
  · have : f.keystream.take nbytes = P.ksSlice c.key c.theNonce pos nbytes := by
      rw [g2, slice_take _ _ _ _ _ (by omega), h3, gn]
    simp only [this]
  · show pos + nbytes ≤ 64 * f.blockCounter
    omega
  · show f.keystream.drop nbytes = P.ksSlice f.key f.theNonce (pos + nbytes) (64 * f.blockCounter - (pos + nbytes))
    rw [g2, slice_drop _ _ _ _ _ (by omega), Nat.sub_sub]

/-- `n` lengths have been processed since `c` was created with this key. -/
def FSChaCha20.At (P : Prims) (k : Bytes) (n : Nat) (c : FSChaCha20) : Prop :=
  c.chunkCounter = n ∧ c.key = Spec.lengthKey P k (n / 224) ∧ c.Used P (3 * (n % 224))

theorem FSChaCha20.at_new (k : Bytes) : FSChaCha20.At P k 0 { key := k } :=
  ⟨rfl, rfl, Nat.le_refl _, rfl⟩

theorem FSChaCha20.At.crypt {k : Bytes} {n : Nat} {c : FSChaCha20} (h : c.At P k n) (chunk : Bytes)
    (hc : chunk.length = 3) :
    ∃ c', c'.At P k (n + 1) ∧ c.crypt P chunk = (Spec.xor chunk (Spec.lengthMask P k n), c') := by
  obtain ⟨h1, h2, h3⟩ := h
  obtain ⟨c1, e1, u1, k1, n1⟩ := h3.get chunk.length
  have hmask : P.ksSlice c.key c.theNonce (3 * (n % 224)) chunk.length = Spec.lengthMask P k n := by
    rw [h2, FSChaCha20.theNonce, h1, hc]; rfl
  rw [hmask] at e1
  unfold FSChaCha20.crypt
  rw [e1]
  simp only [n1, h1]
  by_cases h0 : (n + 1) % 224 = 0
  · rw [if_pos h0]
    obtain ⟨c2, e2, -, -, n2⟩ := u1.get 32
    rw [e2]
    refine ⟨_, ⟨?_, ?_, Nat.le_of_eq ?_, ?_⟩, rfl⟩
    · simp only [n2, n1, h1]
    · simp only
      rw [epoch_succ n, if_pos h0, Spec.lengthKey, k1, h2, FSChaCha20.theNonce, n1, h1, hc]
      have : 3 * (n % 224) + 3 = 672 := by omega
      rw [this]
      rfl
    · simp only [h0]
    · simp only [h0]
      rfl
  · rw [if_neg h0]
    have hp : 3 * (n % 224) + chunk.length = 3 * ((n + 1) % 224) := by omega
    have he : (n + 1) / 224 = n / 224 := by rw [epoch_succ n, if_neg h0]
    rw [hp] at u1
    refine ⟨{ c1 with chunkCounter := c1.chunkCounter + 1 }, ⟨?_, ?_, u1.1, ?_⟩, by simp only [n1, h1]⟩
    · simp only [n1, h1]
    · simp only
      rw [he, k1, h2]
    · have := u1.2
      simp only [FSChaCha20.theNonce, n1, h1] at this ⊢
      rw [he]
      exact this

/-- `n` packets have been processed since `c` was created with this key. -/
def FSChaCha20Poly1305.At (P : Prims) (k : Bytes) (n : Nat) (c : FSChaCha20Poly1305) : Prop :=
  c.packetCounter = n ∧ c.key = Spec.packetKey P k (n / 224)

theorem FSChaCha20Poly1305.At.nonce {k : Bytes} {n : Nat} {c : FSChaCha20Poly1305} (h : c.At P k n) :
    c.nonce = Spec.packetNonce n := by
  unfold FSChaCha20Poly1305.nonce
  rw [h.1]; rfl

theorem FSChaCha20Poly1305.At.advance (hP : Lawful P) {k : Bytes} {n : Nat} {c : FSChaCha20Poly1305}
    (h : c.At P k n) : (c.advance P).At P k (n + 1) := by
  unfold FSChaCha20Poly1305.advance
  refine ⟨by simp only [h.1], ?_⟩
  simp only [h.1]
  rw [epoch_succ n]
  by_cases h0 : (n + 1) % 224 = 0
  · rw [if_pos h0, if_pos h0, Spec.packetKey, h.nonce, Spec.packetNonce,
      drop_append_len _ _ (by rw [spec_le, leBytes_length]), h.2]
    exact take_append_len _ _ (by rw [hP.seal_length, List.length_replicate])
  · rw [if_neg h0, if_neg h0]; exact h.2

/-! ## Sending -/

/-- The sending direction has sent `n` packets. -/
def Transport.SendAt (P : Prims) (kL kP : Bytes) (n : Nat) (t : Transport) : Prop :=
  t.sendL.At P kL n ∧ t.sendP.At P kP n

/-- The receiving direction has received `n` packets. -/
def Transport.RecvAt (P : Prims) (kL kP : Bytes) (n : Nat) (t : Transport) : Prop :=
  t.recvL.At P kL n ∧ t.recvP.At P kP n

/-- The receiving direction, the terminators and the session are the same. -/
def Transport.SameRecv (t t' : Transport) : Prop :=
  t'.recvL = t.recvL ∧ t'.recvP = t.recvP ∧ t'.sendGarbageTerminator = t.sendGarbageTerminator ∧
    t'.recvGarbageTerminator = t.recvGarbageTerminator ∧ t'.sessionId = t.sessionId

/-- The sending direction, the terminators and the session are the same. -/
def Transport.SameSend (t t' : Transport) : Prop :=
  t'.sendL = t.sendL ∧ t'.sendP = t.sendP ∧ t'.sendGarbageTerminator = t.sendGarbageTerminator ∧
    t'.recvGarbageTerminator = t.recvGarbageTerminator ∧ t'.sessionId = t.sessionId

theorem Transport.SameRecv.trans {a b c : Transport} (h : a.SameRecv b) (h' : b.SameRecv c) : a.SameRecv c :=
  ⟨h'.1.trans h.1, h'.2.1.trans h.2.1, h'.2.2.1.trans h.2.2.1, h'.2.2.2.1.trans h.2.2.2.1,
    h'.2.2.2.2.trans h.2.2.2.2⟩

theorem Transport.SameSend.trans {a b c : Transport} (h : a.SameSend b) (h' : b.SameSend c) : a.SameSend c :=
  ⟨h'.1.trans h.1, h'.2.1.trans h.2.1, h'.2.2.1.trans h.2.2.1, h'.2.2.2.1.trans h.2.2.2.1,
    h'.2.2.2.2.trans h.2.2.2.2⟩

theorem encPacket_at (hP : Lawful P) {kL kP : Bytes} {n : Nat} {t : Transport} (h : t.SendAt P kL kP n)
    (contents aad : Bytes) (ignore : Bool) :
    ∃ t', v2EncPacket P t contents aad ignore = (Spec.packet P kL kP n ignore aad contents, t') ∧
      t'.SendAt P kL kP (n + 1) ∧ t.SameRecv t' := by
  obtain ⟨c', hc', e⟩ := h.1.crypt (Spec.le 3 contents.length) (by rw [spec_le, leBytes_length])
  unfold v2EncPacket FSChaCha20Poly1305.encrypt
  rw [e, h.2.nonce, h.2.2]
  refine ⟨{ t with sendL := c', sendP := t.sendP.advance P }, ?_, ⟨hc', h.2.advance hP⟩, rfl, rfl, rfl, rfl, rfl⟩
  simp only [Spec.packet, Spec.interval, List.append_assoc]

/-- The packets of these messages, starting with number `n`. -/
theorem sendAll_at (hP : Lawful P) {kL kP : Bytes} (ms : List (Bool × Bytes)) : ∀ {n : Nat} {t : Transport},
    t.SendAt P kL kP n →
    ∃ t', sendAll P t ms = (Spec.packetStream P kL kP n [] (ms.map fun m => (if m.1 then 0x80 else 0, m.2)), t') ∧
      t'.SendAt P kL kP (n + ms.length) ∧ t.SameRecv t' := by
  induction ms with
  | nil => intro n t h; exact ⟨t, rfl, h, rfl, rfl, rfl, rfl, rfl⟩
  | cons m ms ih =>
    intro n t h
    obtain ⟨t1, e1, h1, s1⟩ := encPacket_at hP h m.2 [] m.1
    obtain ⟨t2, e2, h2, s2⟩ := ih h1
    refine ⟨t2, ?_, ?_, s1.trans s2⟩
    · unfold sendAll
      rw [e1]
      simp only [e2, List.map_cons, Spec.packetStream, Spec.packet_raw]
    · rw [List.length_cons, show n + (ms.length + 1) = n + 1 + ms.length by omega]
      exact h2

/-- The decoys and the version packet. -/
theorem sendVersion_at (hP : Lawful P) {kL kP : Bytes} (ds : List Bytes) : ∀ {n : Nat} {t : Transport} (aad : Bytes),
    t.SendAt P kL kP n →
    ∃ t', sendVersion P t ds aad = (Spec.packetStream P kL kP n aad (Spec.handshakeMessages ds (0, [])), t') ∧
      t'.SendAt P kL kP (n + ds.length + 1) ∧ t.SameRecv t' := by
  induction ds with
  | nil =>
    intro n t aad h
    obtain ⟨t1, e1, h1, s1⟩ := encPacket_at hP h [] aad false
    refine ⟨t1, ?_, h1, s1⟩
    unfold sendVersion
    rw [e1, Spec.packet_raw]
    simp only [Spec.handshakeMessages, List.map_nil, List.nil_append, Spec.packetStream, List.append_nil]
    rfl
  | cons d ds ih =>
    intro n t aad h
    obtain ⟨t1, e1, h1, s1⟩ := encPacket_at hP h d aad true
    obtain ⟨t2, e2, h2, s2⟩ := ih [] h1
    refine ⟨t2, ?_, ?_, s1.trans s2⟩
    · unfold sendVersion
      rw [e1]
      simp only [e2]
      rfl
    · rw [List.length_cons, show n + (ds.length + 1) + 1 = n + 1 + ds.length + 1 by omega]
      exact h2

/-! ## Receiving -/

theorem fromLe_leNat (bs : Bytes) : fromLe bs = leNat bs := by
  induction bs with
  | nil => rfl
  | cons b bs ih => simp only [fromLe, leNat, ih]

theorem receiveOne_at (hP : Lawful P) {kL kP : Bytes} {n : Nat} {t : Transport} (h : t.RecvAt P kL kP n)
    (aad bs : Bytes) :
    (∃ header contents rest t', bs = Spec.rawPacket P kL kP n header aad contents ++ rest ∧
      contents.length < 2 ^ 24 ∧ v2ReceiveOne P t aad bs = .ok (header, contents, t', rest) ∧
      t'.RecvAt P kL kP (n + 1) ∧ t.SameSend t') ∨
    (Spec.Short P kL n bs ∧ v2ReceiveOne P t aad bs = .wait) ∨
    (Spec.Forged P kL kP n aad bs ∧ v2ReceiveOne P t aad bs = .disconnect) := by
  by_cases h3 : bs.length < 3
  · refine .inr (.inl ⟨.inl h3, ?_⟩)
    unfold v2ReceiveOne receive
    rw [if_pos h3]
  · obtain ⟨lb, rest, rfl, hlb⟩ : ∃ lb rest, bs = lb ++ rest ∧ lb.length = 3 :=
      ⟨bs.take 3, bs.drop 3, (List.take_append_drop 3 bs).symm, by rw [List.length_take]; omega⟩
    obtain ⟨c', hc', e⟩ := h.1.crypt lb hlb
    have htake : (lb ++ rest).take 3 = lb := take_append_len _ _ hlb.symm
    have hdrop : (lb ++ rest).drop 3 = rest := drop_append_len _ _ hlb.symm
    have hr3 : receive 3 (lb ++ rest) = .ok (lb, rest) := by
      unfold receive; rw [if_neg h3, htake, hdrop]
    obtain ⟨len, hlen, hv, hx⟩ : ∃ len, len < 2 ^ 24 ∧
        fromLe (Spec.xor lb (Spec.lengthMask P kL n)) = len ∧
        lb = Spec.xor (Spec.le 3 len) (Spec.lengthMask P kL n) := by
      have hx : (xorBytes lb (Spec.lengthMask P kL n)).length = 3 := by
        rw [xorBytes_length, lengthMask_length, hlb]; rfl
      refine ⟨_, ?_, rfl, ?_⟩
      · rw [fromLe_leNat]
        have := leNat_lt (xorBytes lb (Spec.lengthMask P kL n))
        rw [hx] at this
        exact this
      · rw [fromLe_leNat, spec_xor]
        have := leBytes_leNat (xorBytes lb (Spec.lengthMask P kL n))
        rw [hx] at this
        rw [spec_le, spec_xor, this, xorBytes_cancel]
        rw [lengthMask_length, hlb]; exact Nat.le_refl 3
    have hone : v2ReceiveOne P t aad (lb ++ rest) =
        match receive (1 + len + 16) rest with
        | .wait => .wait
        | .disconnect => .disconnect
        | .ok (ciphertext, bs) =>
          match t.recvP.decrypt P aad ciphertext with
          | (none, _) => .disconnect
          | (some [], _) => .disconnect
          | (some (header :: contents), recvP) => .ok (header, contents, { t with recvL := c', recvP }, bs) := by
      unfold v2ReceiveOne
      rw [hr3]
      simp only [e, hv]
      rfl
    rw [List.length_append, hlb] at h3
    by_cases hs : rest.length < 1 + len + 16
    · refine .inr (.inl ⟨.inr ⟨len, hlen, by rw [htake]; exact hx, by rw [List.length_append, hlb]; omega⟩, ?_⟩)
      rw [hone, receive, if_pos hs]
    · have hrl : 17 + len ≤ rest.length := by omega
      obtain ⟨msg, tag, rest', rfl, hm, ht⟩ : ∃ msg tag rest', rest = msg ++ (tag ++ rest') ∧
          msg.length = 1 + len ∧ tag.length = 16 :=
        ⟨rest.take (1 + len), (rest.drop (1 + len)).take 16, (rest.drop (1 + len)).drop 16,
          by rw [List.take_append_drop, List.take_append_drop], by rw [List.length_take]; omega,
          by rw [List.length_take, List.length_drop]; omega⟩
      have hrec : receive (1 + len + 16) (msg ++ (tag ++ rest')) = .ok (msg ++ tag, rest') := by
        unfold receive
        rw [if_neg hs, ← List.append_assoc, take_append_len _ _ (by rw [List.length_append]; omega),
          drop_append_len _ _ (by rw [List.length_append]; omega)]
      have hct : ((lb ++ (msg ++ (tag ++ rest'))).drop 3).take (len + 17) = msg ++ tag := by
        rw [drop_append_len _ _ hlb.symm, ← List.append_assoc,
          take_append_len _ _ (by rw [List.length_append]; omega)]
      have hdec : t.recvP.decrypt P aad (msg ++ tag) =
          (P.openC (Spec.packetKey P kP (n / 224)) (Spec.packetNonce n) aad msg tag, t.recvP.advance P) := by
        unfold FSChaCha20Poly1305.decrypt
        rw [h.2.nonce, h.2.2, take_append_len _ _ (by rw [List.length_append]; omega),
          drop_append_len _ _ (by rw [List.length_append]; omega)]
      rw [hone, hrec]
      simp only [hdec]
      rcases openC_sealedPart hP kP n aad msg tag (by omega) ht with ⟨header, contents, he, ho⟩ | ⟨he, ho⟩
      · have hcl : contents.length = len := by
          have := congrArg List.length he
          rw [sealedPart_length hP, List.length_append] at this
          omega
        refine .inl ⟨header, contents, rest', { t with recvL := c', recvP := t.recvP.advance P }, ?_, ?_, ?_,
          ⟨hc', h.2.advance hP⟩, rfl, rfl, rfl, rfl, rfl⟩
        · rw [rawPacket_eq, ← he, hcl, ← hx]
          simp only [List.append_assoc]
        · omega
        · rw [ho]
      · refine .inr (.inr ⟨⟨len, hlen, ?_, ?_, ?_⟩, ?_⟩)
        · rw [take_append_len _ _ hlb.symm]; exact hx
        · simp only [List.length_append]; omega
        · rw [hct]; exact he
        · rw [ho]

/-- `v2_receive_packet`: decoys, and then a packet that is not one, or a packet that is not complete, or one
that is forged. -/
theorem receivePacket_at (hP : Lawful P) {kL kP : Bytes} : ∀ (fuel : Nat) {n : Nat} {t : Transport} (aad bs : Bytes),
    t.RecvAt P kL kP n → bs.length ≤ fuel →
    ∃ (decoys : List (UInt8 × Bytes)) (rest : Bytes), (∀ d ∈ decoys, d.1 &&& 0x80 ≠ 0 ∧ d.2.length < 2 ^ 24) ∧
      ((∃ m t', bs = Spec.packetStream P kL kP n aad (decoys ++ [m]) ++ rest ∧ m.1 &&& 0x80 = 0 ∧
          m.2.length < 2 ^ 24 ∧ v2ReceivePacket P fuel t aad bs = .ok (m.2, t', rest) ∧
          t'.RecvAt P kL kP (n + decoys.length + 1) ∧ t.SameSend t') ∨
       (bs = Spec.packetStream P kL kP n aad decoys ++ rest ∧ Spec.Short P kL (n + decoys.length) rest ∧
          v2ReceivePacket P fuel t aad bs = .wait) ∨
       (bs = Spec.packetStream P kL kP n aad decoys ++ rest ∧
          Spec.Forged P kL kP (n + decoys.length) (if decoys = [] then aad else []) rest ∧
          v2ReceivePacket P fuel t aad bs = .disconnect)) := by
  intro fuel
  induction fuel with
  | zero =>
    intro n t aad bs h hl
    refine ⟨[], bs, by simp, .inr (.inl ⟨rfl, .inl ?_, rfl⟩)⟩
    omega
  | succ fuel ih =>
    intro n t aad bs h hl
    rcases receiveOne_at hP h aad bs with ⟨hd, c, rest, t', hbs, hc, he, hat, hss⟩ | ⟨hs, he⟩ | ⟨hf, he⟩
    · by_cases hb : hd &&& 0x80 = 0
      · refine ⟨[], rest, by simp, .inl ⟨(hd, c), t', ?_, hb, hc, ?_, hat, hss⟩⟩
        · simp only [List.nil_append, Spec.packetStream, List.append_nil]; exact hbs
        · unfold v2ReceivePacket
          rw [he]
          simp only
          rw [if_neg (by simp only [hb, ne_eq, not_true_eq_false, not_false_eq_true])]
      · have hlen : rest.length ≤ fuel := by
          have := congrArg List.length hbs
          rw [List.length_append, rawPacket_length hP] at this
          omega
        have hstep : v2ReceivePacket P (fuel + 1) t aad bs = v2ReceivePacket P fuel t' [] rest := by
          rw [v2ReceivePacket, he]
          simp only
          rw [if_pos hb]
        obtain ⟨ds, rest', hds, hcase⟩ := ih [] rest hat hlen
        refine ⟨(hd, c) :: ds, rest', ?_, ?_⟩
        · intro d hd'
          rcases List.mem_cons.1 hd' with rfl | hd'
          · exact ⟨hb, hc⟩
          · exact hds d hd'
        · have hif : (if ds = [] then ([] : Bytes) else []) = [] := by split <;> rfl
          rw [hstep, List.length_cons, show n + (ds.length + 1) = n + 1 + ds.length by omega,
            if_neg (by simp)]
          rw [hif] at hcase
          rcases hcase with ⟨m, t2, h1, h2, h3, h4, h5, h6⟩ | ⟨h1, h2, h3⟩ | ⟨h1, h2, h3⟩
          · refine .inl ⟨m, t2, ?_, h2, h3, h4, h5, hss.trans h6⟩
            rw [hbs, h1]
            simp only [List.cons_append, Spec.packetStream, List.append_assoc]
          · refine .inr (.inl ⟨?_, h2, h3⟩)
            rw [hbs, h1]
            simp only [Spec.packetStream, List.append_assoc]
          · refine .inr (.inr ⟨?_, h2, h3⟩)
            rw [hbs, h1]
            simp only [Spec.packetStream, List.append_assoc]
    · refine ⟨[], bs, by simp, .inr (.inl ⟨rfl, hs, ?_⟩)⟩
      rw [v2ReceivePacket, he]
    · refine ⟨[], bs, by simp, .inr (.inr ⟨rfl, hf, ?_⟩)⟩
      rw [v2ReceivePacket, he]

/-! ## Garbage -/

theorem occursAt_iff {t : Bytes} (ht : t.length = 16) (buf : Bytes) (j : Nat) :
    Spec.OccursAt t buf j ↔ (buf.drop j).take 16 = t := by
  constructor
  · rintro ⟨pre, post, rfl, rfl⟩
    rw [List.append_assoc, drop_append_len _ _ rfl, take_append_len _ _ ht.symm]
  · intro h
    have hj : j ≤ buf.length := by
      have := congrArg List.length h
      rw [List.length_take, List.length_drop, ht] at this
      omega
    refine ⟨buf.take j, (buf.drop j).drop 16, ?_, by rw [List.length_take]; omega⟩
    rw [← h, List.append_assoc, List.take_append_drop, List.take_append_drop]

/-- The garbage loop finds the first terminator, if it begins within 4095 bytes. -/
theorem skipGarbage_at {t : Bytes} (ht : t.length = 16) : ∀ (fuel i : Nat) (got bs : Bytes), i + fuel = 4096 →
    got.length = 16 + i →
    (∃ j, i ≤ j ∧ j ≤ 4095 ∧ Spec.OccursAt t (got ++ bs) j ∧
      (∀ k, i ≤ k → k < j → ¬ Spec.OccursAt t (got ++ bs) k) ∧
      skipGarbage t fuel got bs = .ok ((got ++ bs).take j, (got ++ bs).drop (j + 16))) ∨
    ((∀ k, i ≤ k → ¬ Spec.OccursAt t (got ++ bs) k) ∧ (got ++ bs).length < 4112 ∧
      skipGarbage t fuel got bs = .wait) ∨
    ((∀ k, i ≤ k → k ≤ 4095 → ¬ Spec.OccursAt t (got ++ bs) k) ∧ 4112 ≤ (got ++ bs).length ∧
      skipGarbage t fuel got bs = .disconnect) := by
  intro fuel
  induction fuel with
  | zero =>
    intro i got bs hi hg
    refine .inr (.inr ⟨fun k h1 h2 => by omega, by rw [List.length_append]; omega, rfl⟩)
  | succ fuel ih =>
    intro i got bs hi hg
    have hocc : Spec.OccursAt t (got ++ bs) i ↔ got.drop (got.length - 16) = t := by
      rw [occursAt_iff ht, List.drop_append_of_le_length (by omega),
        take_append_len _ _ (by rw [List.length_drop]; omega), show got.length - 16 = i by omega]
    by_cases h : got.drop (got.length - 16) = t
    · refine .inl ⟨i, Nat.le_refl _, by omega, hocc.2 h, fun k h1 h2 => by omega, ?_⟩
      rw [show skipGarbage t (fuel + 1) got bs = .ok (got.take (got.length - 16), bs) by
          unfold skipGarbage; rw [if_pos h], List.take_append_of_le_length (by omega),
        drop_append_len _ _ (by omega), show got.length - 16 = i by omega]
    · have hno : ¬ Spec.OccursAt t (got ++ bs) i := fun ho => h (hocc.1 ho)
      cases bs with
      | nil =>
        refine .inr (.inl ⟨?_, by simp only [List.append_nil]; omega, by rw [skipGarbage, if_neg h]⟩)
        intro k hk ho
        rcases Nat.eq_or_lt_of_le hk with rfl | hk
        · exact hno ho
        · rw [occursAt_iff ht] at ho
          have := congrArg List.length ho
          rw [List.length_take, List.length_drop, ht, List.append_nil] at this
          omega
      | cons b bs =>
        have hap : got ++ b :: bs = (got ++ [b]) ++ bs := by simp
        have hstep : skipGarbage t (fuel + 1) got (b :: bs) = skipGarbage t fuel (got ++ [b]) bs := by
          rw [skipGarbage, if_neg h]
        have := ih (i + 1) (got ++ [b]) bs (by omega) (by simp; omega)
        rw [← hap, ← hstep] at this
        rcases this with ⟨j, h1, h2, h3, h4, h5⟩ | ⟨h1, h2, h3⟩ | ⟨h1, h2, h3⟩
        · refine .inl ⟨j, by omega, h2, h3, ?_, h5⟩
          intro k hk hkj
          rcases Nat.eq_or_lt_of_le hk with rfl | hk
          · exact hno
          · exact h4 k hk hkj
        · refine .inr (.inl ⟨?_, h2, h3⟩)
          intro k hk
          rcases Nat.eq_or_lt_of_le hk with rfl | hk
          · exact hno
          · exact h1 k hk
        · refine .inr (.inr ⟨?_, h2, h3⟩)
          intro k hk hk2
          rcases Nat.eq_or_lt_of_le hk with rfl | hk
          · exact hno
          · exact h1 k hk hk2

/-! ## Packets are complete, incomplete or forged -/

theorem raw_take (kL kP : Bytes) (n : Nat) (header : UInt8) (aad contents rest : Bytes) :
    (Spec.rawPacket P kL kP n header aad contents ++ rest).take 3
      = Spec.xor (Spec.le 3 contents.length) (Spec.lengthMask P kL n) := by
  rw [rawPacket_eq, List.append_assoc]
  exact take_append_len _ _ (lengthBytes_length kL n contents.length).symm

theorem raw_drop (hP : Lawful P) (kL kP : Bytes) (n : Nat) (header : UInt8) (aad contents rest : Bytes) :
    ((Spec.rawPacket P kL kP n header aad contents ++ rest).drop 3).take (contents.length + 17)
      = Spec.sealedPart P kP n header aad contents := by
  rw [rawPacket_eq, List.append_assoc, drop_append_len _ _ (lengthBytes_length kL n contents.length).symm]
  exact take_append_len _ _ (sealedPart_length hP kP n header aad contents).symm

theorem raw_not_short (hP : Lawful P) {kL kP : Bytes} {n : Nat} {header : UInt8} {aad contents rest : Bytes}
    (hc : contents.length < 2 ^ 24) :
    ¬ Spec.Short P kL n (Spec.rawPacket P kL kP n header aad contents ++ rest) := by
  rintro (h | ⟨len, h1, h2, h3⟩)
  · rw [List.length_append, rawPacket_length hP] at h
    omega
  · rw [raw_take] at h2
    have := lengthBytes_inj hc h1 h2
    rw [List.length_append, rawPacket_length hP] at h3
    omega

theorem raw_not_forged (hP : Lawful P) {kL kP : Bytes} {n : Nat} {header : UInt8} {aad contents rest : Bytes}
    (hc : contents.length < 2 ^ 24) :
    ¬ Spec.Forged P kL kP n aad (Spec.rawPacket P kL kP n header aad contents ++ rest) := by
  rintro ⟨len, h1, h2, -, h4⟩
  rw [raw_take] at h2
  have := lengthBytes_inj hc h1 h2
  subst this
  exact h4 header contents (raw_drop hP kL kP n header aad contents rest)

theorem raw_unique (hP : Lawful P) {kL kP : Bytes} {n : Nat} {h h' : UInt8} {aad c c' rest rest' : Bytes}
    (hc : c.length < 2 ^ 24) (hc' : c'.length < 2 ^ 24)
    (he : Spec.rawPacket P kL kP n h aad c ++ rest = Spec.rawPacket P kL kP n h' aad c' ++ rest') :
    h = h' ∧ c = c' ∧ rest = rest' := by
  have h1 := congrArg (List.take 3) he
  rw [raw_take, raw_take] at h1
  have hl := lengthBytes_inj hc hc' h1
  obtain ⟨e1, e2⟩ := List.append_inj he (by rw [rawPacket_length hP, rawPacket_length hP, hl])
  have h2 := congrArg (fun x => (x.drop 3).take (c.length + 17)) he
  rw [raw_drop hP, hl, raw_drop hP] at h2
  obtain ⟨e3, e4⟩ := sealedPart_inj hP h2
  exact ⟨e3, e4, e2⟩

theorem receiveOne_raw (hP : Lawful P) {kL kP : Bytes} {n : Nat} {t : Transport} (h : t.RecvAt P kL kP n)
    (header : UInt8) (aad contents rest : Bytes) (hc : contents.length < 2 ^ 24) :
    ∃ t', v2ReceiveOne P t aad (Spec.rawPacket P kL kP n header aad contents ++ rest)
        = .ok (header, contents, t', rest) ∧ t'.RecvAt P kL kP (n + 1) ∧ t.SameSend t' := by
  rcases receiveOne_at hP h aad (Spec.rawPacket P kL kP n header aad contents ++ rest) with
    ⟨hd, c, r, t', hbs, hc', he, hat, hss⟩ | ⟨hs, -⟩ | ⟨hf, -⟩
  · obtain ⟨rfl, rfl, rfl⟩ := raw_unique hP hc hc' hbs
    exact ⟨t', he, hat, hss⟩
  · exact absurd hs (raw_not_short hP hc)
  · exact absurd hf (raw_not_forged hP hc)

theorem receiveOne_short (hP : Lawful P) {kL kP : Bytes} {n : Nat} {t : Transport} (h : t.RecvAt P kL kP n)
    {aad bs : Bytes} (hs : Spec.Short P kL n bs) : v2ReceiveOne P t aad bs = .wait := by
  rcases receiveOne_at hP h aad bs with ⟨hd, c, r, t', hbs, hc', he, hat, hss⟩ | ⟨-, he⟩ | ⟨hf, -⟩
  · subst hbs
    exact absurd hs (raw_not_short hP hc')
  · exact he
  · obtain ⟨len, h1, h2, h3, -⟩ := hf
    rcases hs with hs | ⟨len', g1, g2, g3⟩
    · omega
    · have := lengthBytes_inj h1 g1 (h2.symm.trans g2)
      omega

theorem receiveOne_forged (hP : Lawful P) {kL kP : Bytes} {n : Nat} {t : Transport} (h : t.RecvAt P kL kP n)
    {aad bs : Bytes} (hf : Spec.Forged P kL kP n aad bs) : v2ReceiveOne P t aad bs = .disconnect := by
  rcases receiveOne_at hP h aad bs with ⟨hd, c, r, t', hbs, hc', he, hat, hss⟩ | ⟨hs, -⟩ | ⟨-, he⟩
  · subst hbs
    exact absurd hf (raw_not_forged hP hc')
  · obtain ⟨len, h1, h2, h3, -⟩ := hf
    rcases hs with hs | ⟨len', g1, g2, g3⟩
    · omega
    · have := lengthBytes_inj h1 g1 (h2.symm.trans g2)
      omega
  · exact he

/-- Decoys are skipped. -/
theorem receivePacket_skip (hP : Lawful P) {kL kP : Bytes} (ds : List (UInt8 × Bytes)) :
    ∀ {fuel n : Nat} {t : Transport} (aad rest : Bytes), t.RecvAt P kL kP n →
    (∀ d ∈ ds, d.1 &&& 0x80 ≠ 0 ∧ d.2.length < 2 ^ 24) →
    (Spec.packetStream P kL kP n aad ds ++ rest).length ≤ fuel →
    ∃ t' fuel', v2ReceivePacket P fuel t aad (Spec.packetStream P kL kP n aad ds ++ rest)
        = v2ReceivePacket P fuel' t' (if ds = [] then aad else []) rest ∧
      rest.length ≤ fuel' ∧ t'.RecvAt P kL kP (n + ds.length) ∧ t.SameSend t' := by
  induction ds with
  | nil =>
    intro fuel n t aad rest h _ hl
    exact ⟨t, fuel, rfl, hl, h, rfl, rfl, rfl, rfl, rfl⟩
  | cons d ds ih =>
    intro fuel n t aad rest h hds hl
    obtain ⟨hb, hc⟩ := hds d (by simp)
    simp only [Spec.packetStream, List.append_assoc] at hl ⊢
    cases fuel with
    | zero =>
      rw [List.length_append, rawPacket_length hP] at hl
      omega
    | succ fuel =>
      obtain ⟨t1, e1, h1, s1⟩ := receiveOne_raw hP h d.1 aad d.2 (Spec.packetStream P kL kP (n + 1) [] ds ++ rest) hc
      obtain ⟨t2, f2, e2, l2, h2, s2⟩ := ih (fuel := fuel) [] rest h1 (fun d hd => hds d (by simp [hd])) (by
        rw [List.length_append, rawPacket_length hP] at hl
        omega)
      have hif : (if ds = [] then ([] : Bytes) else []) = [] := by split <;> rfl
      refine ⟨t2, f2, ?_, l2, ?_, s1.trans s2⟩
      · rw [v2ReceivePacket, e1]
        simp only
        rw [if_pos hb, e2, hif, if_neg (by simp)]
      · rw [List.length_cons, show n + (ds.length + 1) = n + 1 + ds.length by omega]
        exact h2

theorem receivePacket_ok (hP : Lawful P) {kL kP : Bytes} {ds : List (UInt8 × Bytes)} {m : UInt8 × Bytes}
    {fuel n : Nat} {t : Transport} (aad rest : Bytes) (h : t.RecvAt P kL kP n)
    (hds : ∀ d ∈ ds, d.1 &&& 0x80 ≠ 0 ∧ d.2.length < 2 ^ 24) (hm : m.1 &&& 0x80 = 0) (hml : m.2.length < 2 ^ 24)
    (hl : (Spec.packetStream P kL kP n aad (ds ++ [m]) ++ rest).length ≤ fuel) :
    ∃ t', v2ReceivePacket P fuel t aad (Spec.packetStream P kL kP n aad (ds ++ [m]) ++ rest) = .ok (m.2, t', rest) ∧
      t'.RecvAt P kL kP (n + ds.length + 1) ∧ t.SameSend t' := by
  have hsplit : ∀ (ds : List (UInt8 × Bytes)) (n : Nat) (aad : Bytes), Spec.packetStream P kL kP n aad (ds ++ [m]) =
      Spec.packetStream P kL kP n aad ds ++
        Spec.rawPacket P kL kP (n + ds.length) m.1 (if ds = [] then aad else []) m.2 := by
    intro ds
    induction ds with
    | nil => intro n aad; simp [Spec.packetStream]
    | cons d ds ih =>
      intro n aad
      have hif : (if ds = [] then ([] : Bytes) else []) = [] := by split <;> rfl
      simp only [List.cons_append, Spec.packetStream, ih, List.append_assoc, List.length_cons, hif]
      rw [if_neg (by simp), show n + (ds.length + 1) = n + 1 + ds.length by omega]
  rw [hsplit, List.append_assoc] at hl ⊢
  obtain ⟨t1, f1, e1, l1, h1, s1⟩ := receivePacket_skip hP ds aad _ h hds hl
  obtain ⟨t2, e2, h2, s2⟩ := receiveOne_raw hP h1 m.1 (if ds = [] then aad else []) m.2 rest hml
  refine ⟨t2, ?_, h2, s1.trans s2⟩
  rw [e1]
  cases f1 with
  | zero =>
    rw [List.length_append, rawPacket_length hP] at l1
    omega
  | succ f1 =>
    rw [v2ReceivePacket, e2]
    simp only
    rw [if_neg (by simp only [hm, ne_eq, not_true_eq_false, not_false_eq_true])]

theorem receivePacket_short (hP : Lawful P) {kL kP : Bytes} {ds : List (UInt8 × Bytes)}
    {fuel n : Nat} {t : Transport} (aad rest : Bytes) (h : t.RecvAt P kL kP n)
    (hds : ∀ d ∈ ds, d.1 &&& 0x80 ≠ 0 ∧ d.2.length < 2 ^ 24) (hs : Spec.Short P kL (n + ds.length) rest)
    (hl : (Spec.packetStream P kL kP n aad ds ++ rest).length ≤ fuel) :
    v2ReceivePacket P fuel t aad (Spec.packetStream P kL kP n aad ds ++ rest) = .wait := by
  obtain ⟨t1, f1, e1, l1, h1, s1⟩ := receivePacket_skip hP ds aad _ h hds hl
  rw [e1]
  cases f1 with
  | zero => rfl
  | succ f1 => rw [v2ReceivePacket, receiveOne_short hP h1 hs]

theorem receivePacket_forged (hP : Lawful P) {kL kP : Bytes} {ds : List (UInt8 × Bytes)}
    {fuel n : Nat} {t : Transport} (aad rest : Bytes) (h : t.RecvAt P kL kP n)
    (hds : ∀ d ∈ ds, d.1 &&& 0x80 ≠ 0 ∧ d.2.length < 2 ^ 24)
    (hf : Spec.Forged P kL kP (n + ds.length) (if ds = [] then aad else []) rest)
    (hl : (Spec.packetStream P kL kP n aad ds ++ rest).length ≤ fuel) :
    v2ReceivePacket P fuel t aad (Spec.packetStream P kL kP n aad ds ++ rest) = .disconnect := by
  obtain ⟨t1, f1, e1, l1, h1, s1⟩ := receivePacket_skip hP ds aad _ h hds hl
  rw [e1]
  cases f1 with
  | zero =>
    obtain ⟨len, -, -, h3, -⟩ := hf
    omega
  | succ f1 => rw [v2ReceivePacket, receiveOne_forged hP h1 hf]

/-! ## The handshake -/

/-- The keys and terminators after `initialize_v2_transport`. -/
theorem initialize_at (magic ourKey theirKey sk : Bytes) (initiating : Bool) :
    let D := Spec.directions P magic ourKey theirKey sk initiating
    let t := initializeV2Transport P magic (if initiating then Spec.ecdhSecret P ourKey theirKey sk true
      else Spec.ecdhSecret P theirKey ourKey sk false) initiating
    t.SendAt P D.1.1 D.1.2.1 0 ∧ t.RecvAt P D.2.1 D.2.2.1 0 ∧ t.sendGarbageTerminator = D.1.2.2 ∧
      t.recvGarbageTerminator = D.2.2.2 := by
  cases initiating
  · exact ⟨⟨FSChaCha20.at_new _, rfl, rfl⟩, ⟨FSChaCha20.at_new _, rfl, rfl⟩, rfl, rfl⟩
  · exact ⟨⟨FSChaCha20.at_new _, rfl, rfl⟩, ⟨FSChaCha20.at_new _, rfl, rfl⟩, rfl, rfl⟩

theorem handshakePackets_stream (kL kP g : Bytes) (ds : List Bytes) :
    ((Spec.handshakePackets g ds).mapIdx fun n m => Spec.packet P kL kP n m.1 m.2.2 m.2.1).flatten
      = Spec.packetStream P kL kP 0 g (Spec.handshakeMessages ds (0, [])) := by
  have aux : ∀ (ds : List Bytes) (n : Nat),
      (((ds.map fun x => (true, x, ([] : Bytes))) ++ [(false, ([] : Bytes), ([] : Bytes))]).mapIdx fun i m =>
        Spec.packet P kL kP (i + n) m.1 m.2.2 m.2.1).flatten
      = Spec.packetStream P kL kP n [] (Spec.handshakeMessages ds (0, [])) := by
    intro ds
    induction ds with
    | nil => intro n; simp [Spec.handshakeMessages, Spec.packetStream, Spec.packet_raw]
    | cons d ds ih =>
      intro n
      rw [List.map_cons, List.cons_append, List.mapIdx_cons, List.flatten_cons]
      have := ih (n + 1)
      simp only [Nat.add_assoc, Nat.add_comm n 1] at this ⊢
      rw [this]
      simp only [Spec.handshakeMessages, List.map_cons, List.cons_append, Spec.packetStream, Spec.packet_raw,
        Nat.add_zero, if_pos, Nat.add_comm]
  cases ds with
  | nil => simp [Spec.handshakePackets, Spec.handshakeMessages, Spec.packetStream, Spec.packet_raw]
  | cons d ds =>
    rw [Spec.handshakePackets, List.cons_append, List.mapIdx_cons, List.flatten_cons, aux ds 1]
    simp only [Spec.handshakeMessages, List.map_cons, List.cons_append, Spec.packetStream, Spec.packet_raw,
      Nat.zero_add, if_pos]

theorem versionBytes_stream (t kL kP g : Bytes) (ds : List Bytes) :
    Spec.versionBytes P t kL kP g ds
      = t ++ Spec.packetStream P kL kP 0 g (Spec.handshakeMessages ds (0, [])) := by
  rw [Spec.versionBytes, handshakePackets_stream]

/-- ASCII "version", padded to 12 bytes. -/
abbrev versionWord : Bytes := [0x76, 0x65, 0x72, 0x73, 0x69, 0x6f, 0x6e, 0, 0, 0, 0, 0]

theorem directions_terminators (hP : Lawful P) (magic es key sk : Bytes) (initiating : Bool) :
    (Spec.directions P magic es key sk initiating).1.2.2.length = 16 ∧
      (Spec.directions P magic es key sk initiating).2.2.2.length = 16 := by
  have key : ∀ secret, ((Spec.expand P magic secret Spec.lblTerminators).length = 32) := by
    intro secret
    obtain ⟨out, h, hl⟩ := hP.hkdf_ok (Spec.saltPrefix ++ magic) secret Spec.lblTerminators 32 (by decide)
    unfold Spec.expand
    rw [h]; exact hl
  cases initiating
  · refine ⟨?_, ?_⟩
    · show (List.drop 16 _).length = 16
      rw [List.length_drop, key]
    · show (List.take 16 _).length = 16
      rw [List.length_take, key]; rfl
  · refine ⟨?_, ?_⟩
    · show (List.take 16 _).length = 16
      rw [List.length_take, key]; rfl
    · show (List.drop 16 _).length = 16
      rw [List.length_drop, key]

/-- The part of `complete_handshake` after the keys. -/
theorem complete_eq (hP : Lawful P) {magic : Bytes} (hm : magic.length = 4) (p : Peer) {theirs : Bytes}
    (h64 : theirs.length = 64) (hv : p.initiating = false → (theirs.drop 4).take 12 ≠ versionWord) :
    let D := Spec.directions P magic (P.ellswift p.sk) theirs p.sk p.initiating
    ∃ t : Transport, t.SendAt P D.1.1 D.1.2.1 (p.decoys.length + 1) ∧ t.RecvAt P D.2.1 D.2.2.1 0 ∧
      ∀ bs, completeHandshake P magic p (theirs ++ bs) =
        (Spec.versionBytes P D.1.2.2 D.1.1 D.1.2.1 p.garbage p.decoys,
          match receive 16 bs with
          | .wait => .waiting
          | .disconnect => .disconnected
          | .ok (got, bs) =>
            match skipGarbage D.2.2.2 4096 got bs with
            | .wait => .waiting
            | .disconnect => .disconnected
            | .ok (garbage, bs) =>
              match v2ReceivePacket P bs.length t garbage bs with
              | .wait => .waiting
              | .disconnect => .disconnected
              | .ok (_, t, bs) => .ready t bs) := by
  intro D
  have hi := initialize_at (P := P) magic (P.ellswift p.sk) theirs p.sk p.initiating
  obtain ⟨i1, i2, i3, i4⟩ := hi
  obtain ⟨t1, e1, h1, s1⟩ := sendVersion_at hP p.decoys p.garbage i1
  refine ⟨t1, by simpa only [Nat.zero_add] using h1, ?_, ?_⟩
  · exact ⟨by rw [s1.1]; exact i2.1, by rw [s1.2.1]; exact i2.2⟩
  intro bs
  have hr : receive 64 (theirs ++ bs) = .ok (theirs, bs) := by
    unfold receive
    rw [if_neg (by rw [List.length_append]; omega), take_append_len _ _ h64.symm, drop_append_len _ _ h64.symm]
  have hword : (v1Prefix magic).drop 4 = versionWord := by
    unfold v1Prefix
    rw [drop_append_len _ _ hm.symm]
  have hcheck : ¬ (!p.initiating && decide ((theirs.drop 4).take 12 = (v1Prefix magic).drop 4)) = true := by
    rw [hword]
    cases hi : p.initiating with
    | true => simp
    | false => simpa using hv hi
  unfold completeHandshake
  rw [hr]
  simp only
  rw [if_neg (by simpa using hcheck), e1]
  simp only
  rw [s1.2.2.1, s1.2.2.2.1, i3, i4, versionBytes_stream]
  cases receive 16 bs with
  | wait => rfl
  | disconnect => rfl
  | ok x =>
    simp only
    cases skipGarbage D.2.2.2 4096 x.1 x.2 with
    | wait => rfl
    | disconnect => rfl
    | ok y =>
      simp only
      cases v2ReceivePacket P y.2.length t1 y.1 y.2 with
      | wait => rfl
      | disconnect => rfl
      | ok z => rfl

/-- What becomes of the bytes after the peer's key. -/
theorem complete_at (hP : Lawful P) {magic : Bytes} (hm : magic.length = 4) (p : Peer) {theirs : Bytes}
    (h64 : theirs.length = 64) (hv : p.initiating = false → (theirs.drop 4).take 12 ≠ versionWord) (bs : Bytes) :
    let D := Spec.directions P magic (P.ellswift p.sk) theirs p.sk p.initiating
    (completeHandshake P magic p (theirs ++ bs)).1
        = Spec.versionBytes P D.1.2.2 D.1.1 D.1.2.1 p.garbage p.decoys ∧
    ((∃ g ds version rest t, bs = g ++ D.2.2.2 ++ Spec.packetStream P D.2.1 D.2.2.1 0 g (ds ++ [version]) ++ rest ∧
        Admissible p.initiating D.2.2.2 theirs g ds version ∧
        (completeHandshake P magic p (theirs ++ bs)).2 = .ready t rest ∧
        t.SendAt P D.1.1 D.1.2.1 (p.decoys.length + 1) ∧ t.RecvAt P D.2.1 D.2.2.1 (ds.length + 1)) ∨
     ((∀ j, ¬ Spec.OccursAt D.2.2.2 bs j) ∧ bs.length < 4112 ∧
        (completeHandshake P magic p (theirs ++ bs)).2 = .waiting) ∨
     ((∀ j ≤ 4095, ¬ Spec.OccursAt D.2.2.2 bs j) ∧ 4112 ≤ bs.length ∧
        (completeHandshake P magic p (theirs ++ bs)).2 = .disconnected) ∨
     (∃ g ds rest, bs = g ++ D.2.2.2 ++ Spec.packetStream P D.2.1 D.2.2.1 0 g ds ++ rest ∧
        g.length ≤ 4095 ∧ (∀ j < g.length, ¬ Spec.OccursAt D.2.2.2 (g ++ D.2.2.2) j) ∧
        (∀ d ∈ ds, d.1 &&& 0x80 ≠ 0 ∧ d.2.length < 2 ^ 24) ∧
        ((Spec.Short P D.2.1 ds.length rest ∧ (completeHandshake P magic p (theirs ++ bs)).2 = .waiting) ∨
         (Spec.Forged P D.2.1 D.2.2.1 ds.length (if ds = [] then g else []) rest ∧
          (completeHandshake P magic p (theirs ++ bs)).2 = .disconnected)))) := by
  intro D
  obtain ⟨t, hs, hr, he⟩ := complete_eq hP hm p h64 hv
  have ht : D.2.2.2.length = 16 := (directions_terminators hP magic (P.ellswift p.sk) theirs p.sk p.initiating).2
  rw [he bs]
  refine ⟨rfl, ?_⟩
  simp only
  by_cases h16 : bs.length < 16
  · refine .inr (.inl ⟨?_, by omega, ?_⟩)
    · rintro j ⟨pre, post, rfl, -⟩
      simp only [List.length_append, ht] at h16
      omega
    · rw [receive, if_pos h16]
  have hrec : receive 16 bs = .ok (bs.take 16, bs.drop 16) := by rw [receive, if_neg h16]
  rw [hrec]
  simp only
  have hg := skipGarbage_at ht 4096 0 (bs.take 16) (bs.drop 16) rfl (by rw [List.length_take]; omega)
  rw [List.take_append_drop] at hg
  rcases hg with ⟨j, -, hj, ho, hno, e⟩ | ⟨hno, hl, e⟩ | ⟨hno, hl, e⟩
  · rw [e]
    simp only
    obtain ⟨g, post, hbs, hgl⟩ := ho
    have hg1 : bs.take j = g := by
      rw [hbs, List.append_assoc]; exact take_append_len _ _ hgl.symm
    have hg2 : bs.drop (j + 16) = post := by
      rw [hbs]; exact drop_append_len _ _ (by rw [List.length_append]; omega)
    rw [hg1, hg2]
    have hfirst : ∀ k < g.length, ¬ Spec.OccursAt D.2.2.2 (g ++ D.2.2.2) k := by
      rintro k hk ⟨pre, post', hpre, hkl⟩
      refine hno k (Nat.zero_le _) (by omega) ⟨pre, post' ++ post, ?_, hkl⟩
      rw [hbs, hpre]
      simp only [List.append_assoc]
    obtain ⟨ds, rest, hds, hcase⟩ := receivePacket_at hP post.length g post hr (Nat.le_refl _)
    simp only [Nat.zero_add] at hcase
    rcases hcase with ⟨m, t', h1, h2, h3, h4, h5, h6⟩ | ⟨h1, h2, h3⟩ | ⟨h1, h2, h3⟩
    · refine .inl ⟨g, ds, m, rest, t', ?_, ?_, ?_, ?_, h5⟩
      · rw [hbs, h1]; exact (List.append_assoc _ _ _).symm
      · exact ⟨h64, hv, by omega, hfirst, fun d hd => (hds d hd).1, fun d hd => (hds d hd).2, h2, h3⟩
      · rw [h4]
      · exact ⟨by rw [h6.1]; exact hs.1, by rw [h6.2.1]; exact hs.2⟩
    · refine .inr (.inr (.inr ⟨g, ds, rest, ?_, by omega, hfirst, hds, .inl ⟨h2, by rw [h3]⟩⟩))
      rw [hbs, h1]; exact (List.append_assoc _ _ _).symm
    · refine .inr (.inr (.inr ⟨g, ds, rest, ?_, by omega, hfirst, hds, .inr ⟨h2, by rw [h3]⟩⟩))
      rw [hbs, h1]; exact (List.append_assoc _ _ _).symm
  · exact .inr (.inl ⟨fun j => hno j (Nat.zero_le _), hl, by rw [e]⟩)
  · exact .inr (.inr (.inl ⟨fun j => hno j (Nat.zero_le _), hl, by rw [e]⟩))

/-- A complete handshake of the peer is accepted, and what follows is left. -/
theorem complete_ok (hP : Lawful P) {magic : Bytes} (hm : magic.length = 4) (p : Peer) {theirs : Bytes}
    {g : Bytes} {ds : List (UInt8 × Bytes)} {version : UInt8 × Bytes} (rest : Bytes) :
    let D := Spec.directions P magic (P.ellswift p.sk) theirs p.sk p.initiating
    Admissible p.initiating D.2.2.2 theirs g ds version →
    ∃ t : Transport, completeHandshake P magic p (transcript P D.2 theirs g (ds ++ [version]) ++ rest)
        = (Spec.versionBytes P D.1.2.2 D.1.1 D.1.2.1 p.garbage p.decoys, .ready t rest) ∧
      t.SendAt P D.1.1 D.1.2.1 (p.decoys.length + 1) ∧ t.RecvAt P D.2.1 D.2.2.1 (ds.length + 1) := by
  intro D hadm
  obtain ⟨t, hs, hr, he⟩ := complete_eq hP hm p hadm.keyLength hadm.notV1
  have ht : D.2.2.2.length = 16 := (directions_terminators hP magic (P.ellswift p.sk) theirs p.sk p.initiating).2
  obtain ⟨t', e', h', s'⟩ := receivePacket_ok hP (ds := ds) (m := version) g rest hr
    (fun d hd => ⟨hadm.decoyHeader d hd, hadm.decoyLength d hd⟩) hadm.versionHeader hadm.versionLength
    (Nat.le_refl _)
  refine ⟨t', ?_, ⟨by rw [s'.1]; exact hs.1, by rw [s'.2.1]; exact hs.2⟩, by simpa only [Nat.zero_add] using h'⟩
  have hsplit : transcript P D.2 theirs g (ds ++ [version]) ++ rest
      = theirs ++ (g ++ D.2.2.2 ++ (Spec.packetStream P D.2.1 D.2.2.1 0 g (ds ++ [version]) ++ rest)) := by
    simp only [transcript, List.append_assoc]
  rw [hsplit, he]
  generalize Spec.packetStream P D.2.1 D.2.2.1 0 g (ds ++ [version]) ++ rest = post at e' ⊢
  congr 1
  have h16 : ¬ (g ++ D.2.2.2 ++ post).length < 16 := by simp only [List.length_append, ht]; omega
  rw [receive, if_neg h16]
  simp only
  have hg := skipGarbage_at ht 4096 0 ((g ++ D.2.2.2 ++ post).take 16) ((g ++ D.2.2.2 ++ post).drop 16) rfl
    (by rw [List.length_take]; omega)
  rw [List.take_append_drop] at hg
  have hocc : Spec.OccursAt D.2.2.2 (g ++ D.2.2.2 ++ post) g.length := ⟨g, post, rfl, rfl⟩
  have hgl := hadm.garbageLength
  rcases hg with ⟨j, -, hj, ho, hno, e⟩ | ⟨hno, hl, e⟩ | ⟨hno, hl, e⟩
  · have hjg : j = g.length := by
      rcases Nat.lt_trichotomy j g.length with h | h | h
      · refine absurd ?_ (hadm.firstTerminator j h)
        rw [occursAt_iff ht] at ho ⊢
        rwa [List.drop_append_of_le_length (by rw [List.length_append]; omega),
          List.take_append_of_le_length (by rw [List.length_drop, List.length_append, ht]; omega)] at ho
      · exact h
      · exact absurd hocc (hno _ (Nat.zero_le _) h)
    subst hjg
    rw [e]
    simp only
    rw [List.append_assoc, take_append_len _ _ rfl, ← List.append_assoc,
      drop_append_len _ _ (by rw [List.length_append, ht]), e']
  · exact absurd hocc (hno _ (Nat.zero_le _))
  · exact absurd hocc (hno _ (Nat.zero_le _) hgl)

end Ref
end Bip324
