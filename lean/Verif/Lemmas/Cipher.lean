import Verif.Model.Packet
import Verif.Spec.Bip324
import Verif.Lemmas.Bytes

/-! # Helper lemmas on the ciphers -/

namespace Bip324

variable {P : Prims} {prof : Profile}

theorem spec_le (n x : Nat) : Spec.le n x = leBytes n x := by
  induction n generalizing x with
  | zero => rfl
  | succ n ih =>
    rw [leBytes, ← ih]
    simp only [Spec.le, List.range_succ_eq_map, List.map_cons, List.map_map]
    congr 1
    · simp
    · apply List.map_congr_left
      intro i _
      simp only [Function.comp, Nat.succ_eq_add_one]
      rw [Nat.pow_succ, Nat.mul_comm (256 ^ i), Nat.div_div_eq_div_mul]

@[simp] theorem FSAead.nonce_length (c : FSAead) : c.nonce.length = 12 := by simp [FSAead.nonce]

/-- The result of `encrypt` on a sufficiently large buffer, in one formula. -/
theorem OutboundCipher.encrypt_eq (hP : Lawful P) (c : OutboundCipher) (pt buf : Bytes)
    (ty : PacketType) (aad : Option Bytes) (h : pt.length + 20 ≤ buf.length)
    {pc : FSAead} {ct tag : Bytes} {lc : FSStream} {encLen : Bytes}
    (he : c.packetCipher.encrypt P prof (aad.getD []) (ty.toByte :: pt) = some (pc, ct, tag))
    (hl : c.lengthCipher.crypt P prof (leBytes 3 (pt.length % u32Mod)) = some (lc, encLen)) :
    c.encrypt P prof pt buf ty aad
      = (⟨lc, pc⟩, encLen ++ ct ++ tag ++ buf.drop (pt.length + 20), .ok ()) := by
  have hct : ct.length = pt.length + 1 := by
    unfold FSAead.encrypt at he
    simp only at he
    split at he
    · cases he
    · rename_i c' _
      simp only [Option.some.injEq, Prod.mk.injEq] at he
      rw [← he.2.1, hP.seal_length]; simp
  have htag : tag.length = 16 := by
    unfold FSAead.encrypt at he
    simp only at he
    split at he
    · cases he
    · simp only [Option.some.injEq, Prod.mk.injEq] at he
      rw [← he.2.2, hP.tag_length]
  have henc : encLen.length = 3 := by
    unfold FSStream.crypt at hl
    simp only at hl
    split at hl
    · cases hl
    · split at hl
      · cases hl
      · split at hl <;> simp only [Option.some.injEq, Prod.mk.injEq] at hl <;>
          rw [← hl.2] <;> simp
  obtain ⟨b3, rest, post, hbuf, h3, hrest, hpost⟩ :=
    split3 (buf := buf) (i := 3) (n := pt.length + 17) (by omega)
  obtain ⟨hd, r2, r3, hr, hhd, hr2, hr3⟩ := split3 (buf := rest) (i := 1) (n := pt.length) (by omega)
  have hr3' : r3.length = 16 := by rw [hr3]; simp; omega
  have hdrop : buf.drop (pt.length + 20) = post := by
    rw [hpost]; congr 1; omega
  subst hbuf
  subst hr
  unfold OutboundCipher.encrypt
  have hnb : ¬ ((b3 ++ ((hd ++ (r2 ++ r3)) ++ post)).length
      < OutboundCipher.encryptionBufferLen pt.length) := by
    simp only [OutboundCipher.encryptionBufferLen, NUM_PACKET_OVERHEAD_BYTES, NUM_LENGTH_BYTES,
      NUM_HEADER_BYTES, NUM_TAG_BYTES]
    omega
  rw [if_neg hnb]
  have e1 : writeAt (b3 ++ ((hd ++ (r2 ++ r3)) ++ post)) 3 [ty.toByte]
      = b3 ++ ([ty.toByte] ++ (r2 ++ (r3 ++ post))) := by
    have := writeAt_split (pre := b3) (mid := hd) (post := r2 ++ (r3 ++ post)) (i := 3)
      (src := [ty.toByte]) h3.symm (by simp [hhd])
    simpa using this
  have e2 : writeAt (b3 ++ ([ty.toByte] ++ (r2 ++ (r3 ++ post)))) 4 pt
      = b3 ++ ([ty.toByte] ++ (pt ++ (r3 ++ post))) := by
    have := writeAt_split (pre := b3 ++ [ty.toByte]) (mid := r2) (post := r3 ++ post) (i := 4)
      (src := pt) (by simp [h3]) hr2.symm
    simpa using this
  have e3 : slice (b3 ++ ([ty.toByte] ++ (pt ++ (r3 ++ post)))) 3 (pt.length + 1)
      = ty.toByte :: pt := by
    have := slice_split (pre := b3) (mid := ty.toByte :: pt) (post := r3 ++ post) (i := 3)
      (n := pt.length + 1) h3.symm (by simp)
    simpa using this
  have e4 : writeAt (b3 ++ ([ty.toByte] ++ (pt ++ (r3 ++ post)))) 3 ct
      = b3 ++ (ct ++ (r3 ++ post)) := by
    have := writeAt_split (pre := b3) (mid := ty.toByte :: pt) (post := r3 ++ post) (i := 3)
      (src := ct) h3.symm (by simp [hct])
    simpa using this
  have e5 : writeAt (b3 ++ (ct ++ (r3 ++ post))) 0 encLen = encLen ++ (ct ++ (r3 ++ post)) := by
    have := writeAt_split (pre := []) (mid := b3) (post := ct ++ (r3 ++ post)) (i := 0)
      (src := encLen) rfl (by simp [h3, henc])
    simpa using this
  have e6 : writeAt (encLen ++ (ct ++ (r3 ++ post))) (4 + pt.length) tag
      = encLen ++ (ct ++ (tag ++ post)) := by
    have := writeAt_split (pre := encLen ++ ct) (mid := r3) (post := post) (i := 4 + pt.length)
      (src := tag) (by simp [henc, hct]; omega) (by omega)
    simpa using this
  have hlen : NUM_LENGTH_BYTES + NUM_HEADER_BYTES - 1 + 1 + pt.length
      - (NUM_LENGTH_BYTES + NUM_HEADER_BYTES - 1) = pt.length + 1 := by
    simp only [NUM_LENGTH_BYTES, NUM_HEADER_BYTES]; omega
  simp only [hlen]
  simp only [NUM_LENGTH_BYTES, NUM_HEADER_BYTES, Nat.reduceAdd, Nat.reduceSub, e1, e2, e3, he, hl,
    e4, e5, e6, hdrop]
  simp

/-- What makes `encrypt` panic on a sufficiently large buffer. -/
theorem FSAead.encrypt_some (c : FSAead) (aad content : Bytes) :
    c.encrypt P prof aad content =
      (c.rekey P prof aad).map fun c' =>
        (c', (P.sealC c.key c.nonce aad content).1, (P.sealC c.key c.nonce aad content).2) := by
  unfold FSAead.encrypt
  cases h : c.rekey P prof aad <;> simp

/-- `rekey` does not depend on the AAD. -/
theorem FSAead.rekey_aad (hP : Lawful P) (c : FSAead) (a b : Bytes) :
    c.rekey P prof a = c.rekey P prof b := by
  unfold FSAead.rekey
  rw [hP.seal_aad c.key c.rekeyNonce a b]

theorem FSAead.rekey_none (c : FSAead) (aad : Bytes) :
    c.rekey P prof aad = none ↔ u64Mod ≤ c.messageCounter + 1 ∧ prof.overflowChecks = true := by
  rw [← uadd_none]
  unfold FSAead.rekey
  split <;> simp_all

end Bip324
