import Verif.Concrete.Ecdh
import Verif.Lemmas.Bytes

/-!
# C53: the key exchange on secp256k1

`Lawful` assumes of the library `secp256k1` that an encoding has 64 bytes and that both sides compute the same
secret.  Here this is proved for the curve itself: the group is Mathlib's group of points of `y² = x³ + 7` over
`ZMod p`, with the number `p` proved prime, and the generator of SEC 2, whose order `n` is proved prime.

A public key has many encodings, of which the library picks one by a pseudo-random search.  The theorems are about
every choice: all they ask of an encoding is that it decodes to the coordinate of the public key.
-/

namespace Bip324

open Concrete

section

attribute [local irreducible] p256 n256

open WeierstrassCurve

/-- The specification of a public key: the coordinate of the multiple of the generator by the secret. -/
def publicX (sk : Bytes) : Nat := ptX (beNat sk • G)

/-- An encoding of the public key of a secret. -/
structure Encodes (b sk : Bytes) : Prop where
  length : b.length = 64
  decodes : ellswiftDecode b = publicX sk

/-- The specification of the shared secret: the tagged hash of the encodings, the initiator's first, and of the
coordinate of the point `skA · skB · G`. -/
def sharedSpec (a b skA skB : Bytes) : Bytes :=
  taggedHash ("bip324_ellswift_xonly_ecdh".toList.map fun c => UInt8.ofNat c.toNat)
    (a ++ b ++ beBytes 32 (ptX ((beNat skA * beNat skB) • G)))

theorem validSecret_spec {sk : Bytes} (h : validSecret sk = true) :
    sk.length = 32 ∧ 0 < beNat sk ∧ beNat sk < n256 := by
  simp only [validSecret, Bool.and_eq_true, beq_iff_eq, decide_eq_true_eq] at h
  exact ⟨h.1.1, h.1.2, h.2⟩

/-- The numbers are primes, and the second is the order of the generator. -/
theorem C53_primes : p256.Prime ∧ n256.Prime ∧ addOrderOf G = n256 := ⟨p256_prime, n256_prime, G_addOrder⟩

/-- The public key that the code computes is the multiple of the generator, which is never the point at
infinity. -/
theorem C53_public_key (sk : Bytes) (h : validSecret sk = true) :
    jx (jmul 256 (beNat sk) gen) = publicX sk ∧ beNat sk • G ≠ 0 := by
  obtain ⟨-, h0, hn⟩ := validSecret_spec h
  exact ⟨jx_mul_gen (Nat.lt_trans hn n256_lt), mul_G_ne_zero h0 hn⟩

/-- Two secrets have the same public key (coordinate) only if they are equal or opposite. -/
theorem C53_public_key_injective (sk sk' : Bytes) (h : validSecret sk = true) (h' : validSecret sk' = true)
    (he : publicX sk = publicX sk') : beNat sk = beNat sk' ∨ beNat sk + beNat sk' = n256 := by
  obtain ⟨-, h0, hn⟩ := validSecret_spec h
  obtain ⟨-, h0', hn'⟩ := validSecret_spec h'
  rcases ptX_inj (mul_G_ne_zero h0 hn) (mul_G_ne_zero h0' hn') he with e | e
  · left
    have := (nsmul_eq_nsmul_iff_modEq (x := G)).mp e
    rw [G_addOrder, Nat.ModEq, Nat.mod_eq_of_lt hn, Nat.mod_eq_of_lt hn'] at this
    exact this
  · right
    have e0 : (beNat sk + beNat sk') • G = 0 := by rw [add_nsmul, e, neg_add_cancel]
    have hd := addOrderOf_dvd_of_nsmul_eq_zero e0
    rw [G_addOrder] at hd
    obtain ⟨k, hk⟩ := hd
    have : k = 1 := by
      rcases k with _ | _ | k
      · omega
      · rfl
      · have : n256 * 2 ≤ n256 * (k + 1 + 1) := Nat.mul_le_mul_left _ (by omega)
        omega
    rw [hk, this, Nat.mul_one]

theorem ite_lt {c : Prop} [Decidable c] {a b m : Nat} (ha : a < m) (hb : b < m) : (if c then a else b) < m := by
  split
  · exact ha
  · exact hb

theorem xswiftec_lt (u t : Nat) : xswiftec u t < p256 :=
  ite_lt (Nat.mod_lt _ p256_pos) (ite_lt (fdiv_lt _ _) (fdiv_lt _ _))

/-- Every array of 64 bytes is the encoding of the coordinate of some point: there are no invalid public keys. -/
theorem C53_every_encoding_valid (b : Bytes) : ∃ P : Pt, P ≠ 0 ∧ ellswiftDecode b = ptX P := by
  obtain ⟨y, hy⟩ := (isValidX_iff _).mp (xswiftec_valid (beNat (b.take 32)) (beNat (b.drop 32)))
  refine ⟨.some _ y (secp_nonsingular.mpr hy), Affine.Point.some_ne_zero _, ?_⟩
  show _ = ZMod.val _
  rw [ZMod.val_natCast, Nat.mod_eq_of_lt]
  · rfl
  · exact xswiftec_lt _ _

/-- What either side computes from any encoding of the other's key whatsoever: the multiple of the point. -/
theorem C53_shared_point (a b sk : Bytes) (ours : Bool) (h : validSecret sk = true) :
    ∃ P : Pt, P ≠ 0 ∧ ptX P = ellswiftDecode (if ours then b else a) ∧
      ellswiftXdh a b sk ours
        = taggedHash ("bip324_ellswift_xonly_ecdh".toList.map fun c => UInt8.ofNat c.toNat)
            (a ++ b ++ beBytes 32 (ptX (beNat sk • P))) := by
  obtain ⟨-, h0, hn⟩ := validSecret_spec h
  obtain ⟨P, hP, hd⟩ := C53_every_encoding_valid (if ours then b else a)
  refine ⟨P, hP, hd.symm, ?_⟩
  unfold ellswiftXdh
  simp only
  rw [hd, jx_mul_lift (Nat.lt_trans hn n256_lt) hP]

/-- Both sides compute the specified secret, for all secrets and whichever encodings of the keys were sent. -/
theorem C53_shared_secret (a b skA skB : Bytes) (hA : validSecret skA = true) (hB : validSecret skB = true)
    (ha : Encodes a skA) (hb : Encodes b skB) :
    ellswiftXdh a b skA true = sharedSpec a b skA skB ∧ ellswiftXdh a b skB false = sharedSpec a b skA skB := by
  obtain ⟨-, hA0, hAn⟩ := validSecret_spec hA
  obtain ⟨-, hB0, hBn⟩ := validSecret_spec hB
  constructor
  · have hx : jx (jmul 256 (beNat skA) (liftX (ellswiftDecode b))) = ptX ((beNat skA * beNat skB) • G) := by
      rw [hb.decodes, publicX, jx_mul_lift (Nat.lt_trans hAn n256_lt) (mul_G_ne_zero hB0 hBn), ← mul_nsmul,
        Nat.mul_comm]
    show taggedHash _ (a ++ b ++ beBytes 32 (jx (jmul 256 (beNat skA) (liftX (ellswiftDecode b))))) = _
    rw [hx]
    rfl
  · have hx : jx (jmul 256 (beNat skB) (liftX (ellswiftDecode a))) = ptX ((beNat skA * beNat skB) • G) := by
      rw [ha.decodes, publicX, jx_mul_lift (Nat.lt_trans hBn n256_lt) (mul_G_ne_zero hA0 hAn), ← mul_nsmul]
    show taggedHash _ (a ++ b ++ beBytes 32 (jx (jmul 256 (beNat skB) (liftX (ellswiftDecode a))))) = _
    rw [hx]
    rfl

/-! ## The laws -/

/-- secp256k1 with some choice of encodings; the secrets are those for which it is a correct choice. -/
def secpWith (enc : Bytes → Bytes) : Curve where
  validSecret sk := validSecret sk && decide (ellswiftDecode (enc sk) = jx (jmul 256 (beNat sk) gen))
  ellswift := enc
  ecdh a b sk party _ := ellswiftXdh a b sk (party == .A)

/-- The assumptions about the key exchange hold on the curve, whichever way encodings are chosen. -/
theorem C53_curve_lawful (enc : Bytes → Bytes) (henc : ∀ sk, (enc sk).length = 64) : (secpWith enc).Lawful where
  ellswift_length := henc
  ecdh_agree skA skB data hA hB := by
    simp only [secpWith, Bool.and_eq_true, decide_eq_true_eq] at hA hB
    have eA : Encodes (enc skA) skA := ⟨henc _, by rw [hA.2, (C53_public_key skA hA.1).1]⟩
    have eB : Encodes (enc skB) skB := ⟨henc _, by rw [hB.2, (C53_public_key skB hB.1).1]⟩
    obtain ⟨h1, h2⟩ := C53_shared_secret _ _ skA skB hA.1 hB.1 eA eB
    show ellswiftXdh (enc skA) (enc skB) skA true = ellswiftXdh (enc skA) (enc skB) skB false
    rw [h1, h2]

/-- So nothing is left to assume: all theorems about lawful primitives hold of the real ones. -/
theorem C53_real_lawful (enc : Bytes → Bytes) (henc : ∀ sk, (enc sk).length = 64) : Lawful (rfc (secpWith enc)) :=
  rfc_lawful (C53_curve_lawful enc henc)

/-- What the primitives of the test vectors give to the initiator (party A) and to the responder (party B): the secret
of BIP-324, in which the key of the initiator comes first. -/
theorem C53_real_secret (a b skA skB data : Bytes) (hA : real.validSecret skA = true) (hB : real.validSecret skB = true)
    (ha : Encodes a skA) (hb : Encodes b skB) :
    real.ecdh a b skA .A data = sharedSpec a b skA skB ∧ real.ecdh a b skB .B data = sharedSpec a b skA skB :=
  C53_shared_secret a b skA skB hA hB ha hb

/-! ## The encoder of the test vectors -/

theorem beNat_reverse (b : Bytes) : beNat b.reverse = leNat b := by
  unfold beNat
  rw [List.foldl_reverse]
  induction b with
  | nil => rfl
  | cons x b ih => rw [List.foldr_cons, ih]; simp [leNat]; omega

theorem beNat_beBytes (n x : Nat) : beNat (beBytes n x) = x % 256 ^ n := by
  rw [beBytes, beNat_reverse, leNat_leBytes]

/-- Whenever the search of the encoder ends, the encoding is correct. -/
theorem C53_encode_correct (x : Nat) (h : ellswiftEncode x ≠ zeros 64) : ellswiftDecode (ellswiftEncode x) = x := by
  unfold ellswiftEncode at h ⊢
  simp only at h ⊢
  revert h
  cases hf : (List.range 64).findSome? fun i => (List.range 8).findSome? fun case =>
      match xswiftecInv x (i + 1) case with
      | none => none
      | some t => if xswiftec (i + 1) t = x then some (beBytes 32 (i + 1) ++ beBytes 32 t) else none with
  | none => exact fun h => absurd rfl h
  | some b =>
    intro _
    rw [Option.getD_some]
    obtain ⟨i, hi, hf⟩ := List.exists_of_findSome?_eq_some hf
    obtain ⟨case, -, hf⟩ := List.exists_of_findSome?_eq_some hf
    split at hf
    · cases hf
    · rename_i t ht
      split at hf
      · rename_i hx
        simp only [Option.some.injEq] at hf
        have hi : i < 64 := by simpa using hi
        have ht' : t < p256 := by
          unfold xswiftecInv at ht
          simp only at ht
          split at ht
          · cases ht
          · split at ht
            · cases ht
            · split at ht <;> simp only [Option.some.injEq] at ht <;> rw [← ht]
              · exact Nat.mod_lt _ p256_pos
              · exact Nat.mod_lt _ p256_pos
              · exact Nat.mod_lt _ p256_pos
              · exact Nat.mod_lt _ p256_pos
        have hp : p256 < 256 ^ 32 := by rw [p256_val]; omega
        rw [← hf, ellswiftDecode, List.take_left' (beBytes_length _ _), List.drop_left' (beBytes_length _ _),
          beNat_beBytes, beNat_beBytes, Nat.mod_eq_of_lt (by omega), Nat.mod_eq_of_lt (by omega), hx]
      · cases hf

/-- The key that this encoder makes of a secret encodes the public key of the secret, unless the search has
failed. -/
theorem C53_encoder (sk : Bytes) (hs : validSecret sk = true) (h : ellswiftOf sk ≠ zeros 64) :
    Encodes (ellswiftOf sk) sk :=
  ⟨ellswiftEncode_length _, (C53_encode_correct _ h).trans (C53_public_key sk hs).1⟩

end

/-! ## A case -/

/-- A secret whose key the encoder of the test vectors encodes: the hypotheses are met. -/
theorem secret_ok : (secpWith ellswiftOf).validSecret (beBytes 32 12345) = true ∧
    (secpWith ellswiftOf).validSecret (beBytes 32 6789) = true := by decide +kernel

example : validSecret (beBytes 32 12345) = true ∧ ellswiftOf (beBytes 32 12345) ≠ zeros 64 := by decide +kernel

example : Encodes (ellswiftOf (beBytes 32 12345)) (beBytes 32 12345) :=
  C53_encoder _ (by decide +kernel) (by decide +kernel)

example : Lawful (rfc (secpWith ellswiftOf)) := C53_real_lawful _ fun _ => ellswiftEncode_length _

/-- The two different secrets of a coordinate. -/
example : publicX (beBytes 32 12345) = publicX (beBytes 32 (n256 - 12345)) := by
  rw [← (C53_public_key _ (by decide +kernel)).1, ← (C53_public_key _ (by decide +kernel)).1]
  decide +kernel

end Bip324
