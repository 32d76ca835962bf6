import Verif.Model.Base

/-!
# Interface of the cryptographic dependencies

The crates `chacha20-poly1305`, `secp256k1` and `bitcoin_hashes` are dependencies and not part
of /repo.  The model is parametric in their functions (`Prims`); `Lawful` states the facts
about them that theorems may use.  `Verif/Concrete` has the actual functions (RFC 8439
ChaCha20-Poly1305, RFC 5869 HKDF-SHA256, secp256k1 with ElligatorSwift), proves the laws
(`rfc_lawful`, `C53_real_lawful`), and runs the repository's test vectors on the model.
-/

namespace Bip324

/-- `secp256k1::ellswift::ElligatorSwiftParty`. handshake.rs:249, 255; lib.rs:328. -/
inductive Party where
  | A
  | B
deriving Repr, DecidableEq

/-- The functions of the dependencies used by the code.
They are called in lib.rs:324-385, handshake.rs:115-260 and fschacha20poly1305.rs:61-178. -/
structure Prims where
  /-- `ChaCha20Poly1305::new(key, nonce).encrypt(content, Some(aad))`:
  content after in-place encryption, and the tag.  fschacha20poly1305.rs:90-91, 109-111. -/
  sealC : (key nonce aad content : Bytes) → Bytes × Bytes
  /-- `ChaCha20Poly1305::new(key, nonce).decrypt(content, tag, Some(aad))`: `none` is the
  authentication error, in which case the content is left untouched.
  fschacha20poly1305.rs:126-130. -/
  openC : (key nonce aad content tag : Bytes) → Option Bytes
  /-- Byte `pos` of the ChaCha20 keystream of `(key, nonce)` counted from block 0
  (`ChaCha20::new(key, nonce, 0)` followed by `seek(pos)`).  fschacha20poly1305.rs:164-171. -/
  ks : (key nonce : Bytes) → (pos : Nat) → UInt8
  /-- `SecretKey::from_slice(&buf)`: `false` is the error (zero or out of range).
  handshake.rs:131. -/
  validSecret : (sk : Bytes) → Bool
  /-- `ElligatorSwift::from_pubkey(PublicKey::from_secret_key(curve, &sk)).to_array()`.
  handshake.rs:132-133. -/
  ellswift : (sk : Bytes) → Bytes
  /-- `ElligatorSwift::shared_secret(a, b, secret, party, Some(data))`.  lib.rs:332. -/
  ecdh : (a b sk : Bytes) → (party : Party) → (data : Bytes) → Bytes
  /-- `Hkdf::<sha256::Hash>::new(salt, ikm).expand(info, &mut [0u8; len])`: `none` is
  `MaxLengthError`.  lib.rs:339-357. -/
  hkdf : (salt ikm info : Bytes) → (len : Nat) → Option Bytes

/-- What theorems may assume about the dependencies. About the dependencies, not about code in /repo. -/
structure Lawful (P : Prims) : Prop where
  /-- The AEAD encrypts in place: same length. -/
  seal_length : ∀ k n a c, (P.sealC k n a c).1.length = c.length
  /-- The tag is a `[u8; 16]`. -/
  tag_length : ∀ k n a c, (P.sealC k n a c).2.length = 16
  /-- Decryption accepts exactly what encryption produces. -/
  open_iff : ∀ k n a c t p, P.openC k n a c t = some p ↔ P.sealC k n a p = (c, t)
  /-- The AAD influences the tag only, not the encrypted content. -/
  seal_aad : ∀ k n a a' c, (P.sealC k n a c).1 = (P.sealC k n a' c).1
  /-- An ElligatorSwift encoding is a `[u8; 64]`. -/
  ellswift_length : ∀ sk, (P.ellswift sk).length = 64
  /-- Diffie-Hellman: both parties compute the same secret. -/
  ecdh_agree : ∀ skA skB data, P.validSecret skA → P.validSecret skB →
    P.ecdh (P.ellswift skA) (P.ellswift skB) skA .A data
      = P.ecdh (P.ellswift skA) (P.ellswift skB) skB .B data
  /-- HKDF expansion is defined up to 255 hash lengths and fills its output. -/
  hkdf_ok : ∀ salt ikm info len, len ≤ 255 * 32 →
    ∃ out, P.hkdf salt ikm info len = some out ∧ out.length = len

/-- `len` consecutive keystream bytes from position `pos`
(what `seek(pos); apply_keystream(&mut [0; len])` leaves in the buffer). fschacha20poly1305.rs:160-178. -/
def Prims.ksSlice (P : Prims) (k n : Bytes) (pos len : Nat) : Bytes :=
  (List.range len).map fun i => P.ks k n (pos + i)

end Bip324
