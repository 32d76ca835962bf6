import Verif.Lemmas.Packet

/-! # Refinement of the stateful ciphers to the indexed BIP-324 schedule -/

namespace Bip324

variable {P : Prims} {prof : Profile}

theorem leBytes_add (a b x : Nat) : leBytes (a + b) x = leBytes a x ++ leBytes b (x / 256 ^ a) := by
  induction a generalizing x with
  | zero => simp [leBytes]
  | succ a ih =>
    rw [show a + 1 + b = (a + b) + 1 by omega, leBytes, leBytes, ih, List.cons_append,
      Nat.div_div_eq_div_mul, Nat.pow_succ, Nat.mul_comm 256]

theorem leBytes_zero (n : Nat) : leBytes n 0 = zeros n := by
  induction n with
  | zero => rfl
  | succ n ih => simp [leBytes, ih, zeros, List.replicate_succ]

theorem epoch_succ (n : Nat) :
    (n + 1) / 224 = if (n + 1) % 224 = 0 then n / 224 + 1 else n / 224 := by
  split <;> omega

theorem slot_succ (n : Nat) :
    (n + 1) % 224 = if (n + 1) % 224 = 0 then 0 else n % 224 + 1 := by
  split <;> omega

/-- The packet cipher has processed `n` messages since it was created with key `k`. -/
def FSAead.At (P : Prims) (k : Bytes) (n : Nat) (c : FSAead) : Prop :=
  c.messageCounter = n ∧ c.key = Spec.packetKey P k (n / 224)

theorem FSAead.at_new (k : Bytes) : FSAead.At P k 0 (FSAead.new k) := ⟨rfl, rfl⟩

theorem FSAead.At.nonce {k : Bytes} {n : Nat} {c : FSAead} (h : FSAead.At P k n c) :
    c.nonce = Spec.packetNonce n := by
  simp [FSAead.nonce, Spec.packetNonce, spec_le, h.1, REKEY_INTERVAL, Spec.interval]

theorem FSAead.At.rekeyNonce {k : Bytes} {n : Nat} {c : FSAead} (h : FSAead.At P k n c) :
    c.rekeyNonce = Spec.rekeyNonce (n / 224) := by
  unfold FSAead.rekeyNonce FSAead.nonce
  rw [drop_append_len _ _ (by simp)]
  simp [Spec.rekeyNonce, spec_le, h.1, REKEY_INTERVAL, REKEY_INITIAL_NONCE]

theorem FSAead.At.rekey (hP : Lawful P) {k : Bytes} {n : Nat} {c : FSAead}
    (h : FSAead.At P k n c) (hn : n + 1 < 2 ^ 64) (aad : Bytes) :
    ∃ c', c.rekey P prof aad = some c' ∧ FSAead.At P k (n + 1) c' := by
  unfold FSAead.rekey
  rw [h.1, uadd_lt (by simpa [u64Mod] using hn)]
  refine ⟨_, rfl, rfl, ?_⟩
  simp only [REKEY_INTERVAL]
  rw [epoch_succ n]
  by_cases h0 : (n + 1) % 224 = 0
  · rw [if_pos h0, if_pos h0, Spec.packetKey, h.rekeyNonce, h.2, hP.seal_aad _ _ aad []]; rfl
  · rw [if_neg h0, if_neg h0]; exact h.2

theorem FSAead.At.encrypt (hP : Lawful P) {k : Bytes} {n : Nat} {c : FSAead}
    (h : FSAead.At P k n c) (hn : n + 1 < 2 ^ 64) (aad content : Bytes) :
    ∃ c', FSAead.At P k (n + 1) c' ∧
      c.encrypt P prof aad content = some (c',
        (P.sealC (Spec.packetKey P k (n / 224)) (Spec.packetNonce n) aad content).1,
        (P.sealC (Spec.packetKey P k (n / 224)) (Spec.packetNonce n) aad content).2) := by
  obtain ⟨c', hr, hat⟩ := h.rekey (prof := prof) hP hn aad
  refine ⟨c', hat, ?_⟩
  rw [FSAead.encrypt_some, hr, h.nonce, h.2]
  rfl

/-- The length cipher has processed `n` lengths since it was created with key `k`. -/
def FSStream.At (P : Prims) (k : Bytes) (n : Nat) (c : FSStream) : Prop :=
  c.chunkCounter = n ∧ c.blockCounter = 3 * (n % 224) ∧ c.key = Spec.lengthKey P k (n / 224)

theorem FSStream.at_new (k : Bytes) : FSStream.At P k 0 (FSStream.new k) := ⟨rfl, rfl, rfl⟩

theorem lengthNonce_eq {e : Nat} (h : e < 2 ^ 32) :
    zeros 4 ++ leBytes 4 e ++ zeros 4 = Spec.lengthNonce e := by
  simp only [Spec.lengthNonce, spec_le]
  rw [show (8 : Nat) = 4 + 4 from rfl, leBytes_add, Nat.div_eq_of_lt (by simpa using h),
    leBytes_zero, List.append_assoc]

theorem FSStream.At.nonce {k : Bytes} {n : Nat} {c : FSStream} (h : FSStream.At P k n c)
    (hn : n < 2 ^ 32) : c.nonce = Spec.lengthNonce (n / 224) := by
  unfold FSStream.nonce
  rw [h.1]
  exact lengthNonce_eq (by simp only [REKEY_INTERVAL]; omega)

theorem FSStream.At.mask {k : Bytes} {n : Nat} {c : FSStream} (h : FSStream.At P k n c)
    (hn : n < 2 ^ 32) : P.ksSlice c.key c.nonce c.blockCounter 3 = Spec.lengthMask P k n := by
  rw [h.nonce hn, h.2.1, h.2.2]
  rfl

theorem FSStream.At.crypt {k : Bytes} {n : Nat} {c : FSStream}
    (h : FSStream.At P k n c) (hn : n + 1 < 2 ^ 32) (chunk : Bytes) (hc : chunk.length = 3) :
    ∃ c', FSStream.At P k (n + 1) c' ∧
      c.crypt P prof chunk = some (c', xorBytes chunk (Spec.lengthMask P k n)) := by
  unfold FSStream.crypt
  rw [h.1, hc, h.mask (by omega), uadd_lt (a := n) (by simpa [u32Mod] using hn),
    uadd_lt (by rw [h.2.1]; simp only [u32Mod, LENGTH_BYTES]; omega)]
  simp only [REKEY_INTERVAL]
  by_cases h0 : (n + 1) % 224 = 0
  · rw [if_pos h0]
    refine ⟨_, ⟨rfl, ?_, ?_⟩, rfl⟩
    · simp only; omega
    · simp only
      rw [epoch_succ n, if_pos h0, Spec.lengthKey, h.nonce (by omega), h.2.2, h.2.1]
      have : 3 * (n % 224) + LENGTH_BYTES = 672 := by simp only [LENGTH_BYTES]; omega
      rw [this]; rfl
  · rw [if_neg h0]
    refine ⟨_, ⟨rfl, ?_, ?_⟩, rfl⟩
    · simp only [h.2.1, LENGTH_BYTES]; omega
    · simp only; rw [epoch_succ n, if_neg h0, h.2.2]

theorem spec_xor (a b : Bytes) : Spec.xor a b = xorBytes a b := rfl

theorem toByte_spec (ty : PacketType) :
    ty.toByte = if (ty == .decoy) = true then 0x80 else 0 := by cases ty <;> rfl

/-- `leBytes 3 (len as u32)` is the spec's 3-byte length. -/
theorem leBytes3_u32 (x : Nat) : leBytes 3 (x % u32Mod) = Spec.le 3 x := by
  rw [spec_le, ← leBytes_mod 3 (x % u32Mod), ← leBytes_mod 3 x]
  congr 1
  simp only [u32Mod]
  omega

/-- Both ciphers of a sending direction have processed `n` packets. -/
def OutboundCipher.At (P : Prims) (kL kP : Bytes) (n : Nat) (o : OutboundCipher) : Prop :=
  o.lengthCipher.At P kL n ∧ o.packetCipher.At P kP n

theorem OutboundCipher.At.encryptToVec (hP : Lawful P) {kL kP : Bytes} {n : Nat}
    {o : OutboundCipher} (h : OutboundCipher.At P kL kP n o) (hn : n + 1 < 2 ^ 32)
    (contents : Bytes) (ty : PacketType) (aad : Option Bytes) :
    ∃ o', OutboundCipher.At P kL kP (n + 1) o' ∧
      o.encryptToVec P prof contents ty aad =
        (o', .ok (Spec.packet P kL kP n (ty == .decoy) (aad.getD []) contents)) := by
  obtain ⟨pc, hpc, he⟩ := h.2.encrypt (prof := prof) hP (by omega) (aad.getD [])
    (ty.toByte :: contents)
  obtain ⟨lc, hlc, hl⟩ := h.1.crypt (prof := prof) hn (leBytes 3 (contents.length % u32Mod))
    (by simp)
  refine ⟨⟨lc, pc⟩, ⟨hlc, hpc⟩, ?_⟩
  rw [OutboundCipher.encryptToVec_eq hP o contents ty aad he hl]
  simp only [Spec.packet, leBytes3_u32, ← spec_xor, ← toByte_spec, Spec.interval]

end Bip324
