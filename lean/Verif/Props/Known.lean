import Verif.Props.Deny
import Verif.Props.Chance

/-!
# C96: telling keys from random bytes

The encoding of the public key is made without randomness, so that an observer can make it again.
-/

namespace Bip324

open Concrete

variable {P : Prims} {prof : Profile}

namespace Spec

/-- What an observer does who knows how the library encodes public keys, which are a coordinate and a sign: it takes the coordinate from
the 64 bytes, encodes it again with either sign, and compares. -/
def looksLikeKey (encode : Nat → Bool → Bytes) (bs : Bytes) : Bool :=
  bs == encode (ellswiftDecode bs) false || bs == encode (ellswiftDecode bs) true

end Spec

/-- The first 64 bytes of an honest party are its key. -/
theorem flight_key (hP : Lawful P) {magic : Bytes} {I R : Peer} (H : Honest P prof magic I R) (role : Role) (more : Bytes) :
    (flight P magic I R role ++ more).take 64 = P.ellswift (role.of I R).rng := by
  rw [flight_transcript hP H role]
  unfold Spec.peerTranscript Role.key
  simp only [List.append_assoc]
  exact take_append_len _ _ (hP.ellswift_length _).symm

/-- C96: the test recognises every key that the library sends, whatever API it is sent with and whatever follows, when the encoding is
a function of the public key alone. -/
theorem C96_recognised (encode : Nat → Bool → Bytes) {enc : Bytes → Bytes} (henc : ∀ sk, (enc sk).length = 64)
    (hf : ∀ sk, validSecret sk = true → ∃ odd, enc sk = encode (publicX sk) odd) {magic : Bytes} {I R : Peer}
    (H : Honest (rfc (secpWith enc)) prof magic I R) :
    AllSenders (rfc (secpWith enc)) prof magic I R fun _ all _ => Spec.looksLikeKey encode (all.take 64) = true := by
  have hP := C53_real_lawful enc henc
  obtain ⟨i, o, f, hat, -⟩ := honest_ofSent hP H
  refine all_senders hP f hat ?_
  intro role ms o' sent hS hz
  rw [flight_key hP H]
  have hv : (secpWith enc).validSecret (role.of I R).rng = true := (honest_key H role).1
  simp only [secpWith, Bool.and_eq_true, decide_eq_true_eq] at hv
  obtain ⟨odd, ho⟩ := hf _ hv.1
  show Spec.looksLikeKey encode (enc (role.of I R).rng) = true
  unfold Spec.looksLikeKey
  rw [hv.2, (C53_public_key _ hv.1).1, ho]
  cases odd <;> simp

/-- C96: of all arrays of 64 bytes, less than one in 2^255 passes, whatever the encoding is. -/
theorem C96_rare (encode : Nat → Bool → Bytes) :
    (Finset.univ.filter fun b : Fin (256 ^ 64) => Spec.looksLikeKey encode (leBytes 64 b.val) = true).card * 2 ^ 255 < 256 ^ 64 := by
  have hle : (Finset.univ.filter fun b : Fin (256 ^ 64) => Spec.looksLikeKey encode (leBytes 64 b.val) = true).card ≤
      (Finset.range p256 ×ˢ (Finset.univ : Finset Bool)).card := by
    refine Finset.card_le_card_of_injOn
      (fun b => (ellswiftDecode (leBytes 64 b.val), leBytes 64 b.val == encode (ellswiftDecode (leBytes 64 b.val)) true)) ?_ ?_
    · intro b _
      simp only [Finset.coe_product, Finset.coe_univ, Set.mem_prod, Set.mem_univ, and_true, Finset.coe_range, Set.mem_Iio]
      exact xswiftec_lt _ _
    · intro b hb c hc he
      have hb := (Finset.mem_filter.1 (Finset.mem_coe.1 hb)).2
      have hc := (Finset.mem_filter.1 (Finset.mem_coe.1 hc)).2
      simp only [Prod.mk.injEq] at he
      obtain ⟨h1, h2⟩ := he
      unfold Spec.looksLikeKey at hb hc
      rw [← h1] at hc h2
      have hbc : leBytes 64 b.val = leBytes 64 c.val := by
        rw [Bool.or_eq_true] at hb hc
        by_cases ht : (leBytes 64 b.val == encode (ellswiftDecode (leBytes 64 b.val)) true) = true
        · rw [ht] at h2
          rw [eq_of_beq ht, eq_of_beq h2.symm]
        · rw [Bool.not_eq_true] at ht
          rw [ht] at h2 hb
          rw [← h2] at hc
          rw [eq_of_beq (hb.resolve_right (by simp)), eq_of_beq (hc.resolve_right (by simp))]
      have := congrArg leNat hbc
      rw [leNat_leBytes, leNat_leBytes, Nat.mod_eq_of_lt b.isLt, Nat.mod_eq_of_lt c.isLt] at this
      exact Fin.ext this
  rw [Finset.card_product, Finset.card_range, Finset.card_univ, Fintype.card_bool] at hle
  generalize (Finset.univ.filter fun b : Fin (256 ^ 64) => Spec.looksLikeKey encode (leBytes 64 b.val) = true).card = n at hle
  have hp : p256 < 2 ^ 256 := by rw [p256_val]; omega
  have h1 : n * 2 ^ 255 ≤ p256 * 2 * 2 ^ 255 := Nat.mul_le_mul_right _ hle
  have h2 : p256 * 2 * 2 ^ 255 < 2 ^ 256 * 2 ^ 256 := by
    rw [Nat.mul_assoc, show 2 * 2 ^ 255 = 2 ^ 256 by norm_num]
    exact Nat.mul_lt_mul_of_pos_right hp (by positivity)
  have h3 : (2 : Nat) ^ 256 * 2 ^ 256 = 256 ^ 64 := by norm_num
  exact h1.trans_lt (h2.trans_eq h3)

/-- The encoder of the test vectors is such a function; its keys are recognised, as are those of the sessions of `real_pair`. -/
example := C96_recognised (prof := .release) (fun x _ => ellswiftEncode x) (enc := ellswiftOf) (fun _ => ellswiftEncode_length _)
  (fun sk h => ⟨false, by rw [← (C53_public_key sk h).1]; rfl⟩) (magic := [0xF9, 0xBE, 0xB4, 0xD9]) real_pair

/-- Another encoding of the same public key, with which every session works as well (`C53_real_lawful`), is not recognised. -/
example :
    let other := beBytes 32 4 ++ beBytes 32 26731541256484407306860099770572990941727234141998340895402973582376724414648
    Spec.looksLikeKey (fun x _ => ellswiftEncode x) (ellswiftOf (beBytes 32 12345)) = true ∧
    ellswiftDecode other = ellswiftDecode (ellswiftOf (beBytes 32 12345)) ∧
    Spec.looksLikeKey (fun x _ => ellswiftEncode x) other = false := by decide +kernel

end Bip324
