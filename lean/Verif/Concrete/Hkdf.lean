import Verif.Concrete.ChaCha20Poly1305

/-!
# FIPS 180-4 SHA-256, RFC 2104 HMAC and RFC 5869 HKDF

What the dependency `bitcoin_hashes` implements, written from the standards.
-/

namespace Bip324.Concrete

/-- FIPS 180-4, 4.2.2: the round constants. -/
def shaK : List Nat :=
  [0x428a2f98, 0x71374491, 0xb5c0fbcf, 0xe9b5dba5, 0x3956c25b, 0x59f111f1, 0x923f82a4, 0xab1c5ed5,
   0xd807aa98, 0x12835b01, 0x243185be, 0x550c7dc3, 0x72be5d74, 0x80deb1fe, 0x9bdc06a7, 0xc19bf174,
   0xe49b69c1, 0xefbe4786, 0x0fc19dc6, 0x240ca1cc, 0x2de92c6f, 0x4a7484aa, 0x5cb0a9dc, 0x76f988da,
   0x983e5152, 0xa831c66d, 0xb00327c8, 0xbf597fc7, 0xc6e00bf3, 0xd5a79147, 0x06ca6351, 0x14292967,
   0x27b70a85, 0x2e1b2138, 0x4d2c6dfc, 0x53380d13, 0x650a7354, 0x766a0abb, 0x81c2c92e, 0x92722c85,
   0xa2bfe8a1, 0xa81a664b, 0xc24b8b70, 0xc76c51a3, 0xd192e819, 0xd6990624, 0xf40e3585, 0x106aa070,
   0x19a4c116, 0x1e376c08, 0x2748774c, 0x34b0bcb5, 0x391c0cb3, 0x4ed8aa4a, 0x5b9cca4f, 0x682e6ff3,
   0x748f82ee, 0x78a5636f, 0x84c87814, 0x8cc70208, 0x90befffa, 0xa4506ceb, 0xbef9a3f7, 0xc67178f2]

/-- The hash state: eight words. -/
structure ShaState where
  (a b c d e f g h : Nat)
deriving DecidableEq

/-- FIPS 180-4, 5.3.3: the initial hash value. -/
def shaInit : ShaState :=
  ⟨0x6a09e667, 0xbb67ae85, 0x3c6ef372, 0xa54ff53a, 0x510e527f, 0x9b05688c, 0x1f83d9ab, 0x5be0cd19⟩

def rotr32 (x n : Nat) : Nat := rotl32 x (32 - n)

/-- FIPS 180-4, 6.2.2, step 1: the next word of the message schedule from the last sixteen. -/
def shaNext (w0 w1 w9 w14 : Nat) : Nat :=
  let s0 := rotr32 w1 7 ^^^ rotr32 w1 18 ^^^ w1 >>> 3
  let s1 := rotr32 w14 17 ^^^ rotr32 w14 19 ^^^ w14 >>> 10
  (s1 + w9 + s0 + w0) % 2 ^ 32

/-- FIPS 180-4, 6.2.2, step 3: one round. -/
def shaRound (s : ShaState) (k w : Nat) : ShaState :=
  let s1 := rotr32 s.e 6 ^^^ rotr32 s.e 11 ^^^ rotr32 s.e 25
  let ch := (s.e &&& s.f) ^^^ ((2 ^ 32 - 1 - s.e) &&& s.g)
  let t1 := s.h + s1 + ch + k + w
  let s0 := rotr32 s.a 2 ^^^ rotr32 s.a 13 ^^^ rotr32 s.a 22
  let maj := (s.a &&& s.b) ^^^ (s.a &&& s.c) ^^^ (s.b &&& s.c)
  ⟨(t1 + s0 + maj) % 2 ^ 32, s.a, s.b, s.c, (s.d + t1) % 2 ^ 32, s.e, s.f, s.g⟩

/-- The rounds; `w` is the window of the next sixteen words of the message schedule. -/
def shaRounds : List Nat → List Nat → ShaState → ShaState
  | [], _, s => s
  | k :: ks, w, s =>
    shaRounds ks (w.drop 1 ++ [shaNext (w.getD 0 0) (w.getD 1 0) (w.getD 9 0) (w.getD 14 0)])
      (shaRound s k (w.getD 0 0))

/-- Big-endian value. -/
def beNat (b : Bytes) : Nat := b.foldl (fun acc x => acc * 256 + x.toNat) 0

/-- `n` bytes, big-endian. -/
def beBytes (n x : Nat) : Bytes := (leBytes n x).reverse

/-- FIPS 180-4, 6.2.2: one block of 64 bytes. -/
def shaBlock (s : ShaState) (block : Bytes) : ShaState :=
  let t := shaRounds shaK ((List.range 16).map fun i => beNat (slice block (4 * i) 4)) s
  ⟨add32 s.a t.a, add32 s.b t.b, add32 s.c t.c, add32 s.d t.d, add32 s.e t.e, add32 s.f t.f,
    add32 s.g t.g, add32 s.h t.h⟩

/-- FIPS 180-4, 5.1.1: padding. -/
def shaPad (msg : Bytes) : Bytes :=
  msg ++ [0x80] ++ zeros ((119 - msg.length % 64) % 64) ++ beBytes 8 (8 * msg.length)

/-- The blocks (`n` of them). -/
def shaBlocks : Nat → ShaState → Bytes → ShaState
  | 0, s, _ => s
  | n + 1, s, msg => shaBlocks n (shaBlock s (msg.take 64)) (msg.drop 64)

/-- FIPS 180-4, 6.2: SHA-256. -/
def sha256 (msg : Bytes) : Bytes :=
  let padded := shaPad msg
  let s := shaBlocks (padded.length / 64) shaInit padded
  beBytes 4 s.a ++ beBytes 4 s.b ++ beBytes 4 s.c ++ beBytes 4 s.d ++ beBytes 4 s.e ++ beBytes 4 s.f ++
    beBytes 4 s.g ++ beBytes 4 s.h

/-- RFC 2104: the key of one block. -/
def hmacKey (key : Bytes) : Bytes :=
  let k := if key.length > 64 then sha256 key else key
  k ++ zeros (64 - k.length)

/-- RFC 2104: HMAC-SHA256. -/
def hmac (key msg : Bytes) : Bytes :=
  let k := hmacKey key
  sha256 (k.map (· ^^^ 0x5c) ++ sha256 (k.map (· ^^^ 0x36) ++ msg))

/-- RFC 5869, 2.2: extract. -/
def hkdfExtract (salt ikm : Bytes) : Bytes := hmac salt ikm

/-- RFC 5869, 2.3: the blocks `T(i+1) | T(i+2) | ...`, `n` of them, after `T(i) = last`. -/
def hkdfBlocks (prk info : Bytes) : Nat → Nat → Bytes → Bytes
  | 0, _, _ => []
  | n + 1, i, last =>
    let t := hmac prk (last ++ info ++ [UInt8.ofNat (i + 1)])
    t ++ hkdfBlocks prk info n (i + 1) t

/-- RFC 5869: HKDF-SHA256; `none` when the output would be longer than 255 blocks. -/
def hkdf (salt ikm info : Bytes) (len : Nat) : Option Bytes :=
  if len ≤ 255 * 32 then
    some ((hkdfBlocks (hkdfExtract salt ikm) info ((len + 31) / 32) 0 []).take len)
  else none

/-- BIP-340: the tagged hash. -/
def taggedHash (tag msg : Bytes) : Bytes := sha256 (sha256 tag ++ sha256 tag ++ msg)

/-! ## Laws -/

theorem beBytes_length (n x : Nat) : (beBytes n x).length = n := by
  simp only [beBytes, List.length_reverse, leBytes_length]

theorem sha256_length (msg : Bytes) : (sha256 msg).length = 32 := by
  simp only [sha256, List.length_append, beBytes_length]

theorem shaPad_length (msg : Bytes) : (shaPad msg).length % 64 = 0 := by
  simp only [shaPad, List.length_append, beBytes_length, zeros, List.length_replicate, List.length_singleton]
  omega

theorem hmac_length (key msg : Bytes) : (hmac key msg).length = 32 := sha256_length _

theorem hkdfBlocks_length (prk info : Bytes) (n i : Nat) (last : Bytes) :
    (hkdfBlocks prk info n i last).length = 32 * n := by
  induction n generalizing i last with
  | zero => rfl
  | succ n ih => simp only [hkdfBlocks, List.length_append, hmac_length, ih]; omega

theorem hkdf_ok (salt ikm info : Bytes) (len : Nat) (h : len ≤ 255 * 32) :
    ∃ out, hkdf salt ikm info len = some out ∧ out.length = len := by
  refine ⟨_, by unfold hkdf; rw [if_pos h], ?_⟩
  rw [List.length_take, hkdfBlocks_length]
  omega

end Bip324.Concrete
