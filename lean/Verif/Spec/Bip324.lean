import Verif.Model.Prims

/-!
# BIP-324, read from the BIP text

The packet encryption section of BIP-324 written down as closed formulas indexed by the packet
number, with no mutable state.  Only the primitive operations (`Prims`) are shared with the
model of the code.
-/

namespace Bip324.Spec

/-- `n`-byte little endian encoding of `x`. -/
def le (n x : Nat) : Bytes := (List.range n).map fun i => UInt8.ofNat (x / 256 ^ i % 256)

/-- "Every 224 messages": BIP-324 `REKEY_INTERVAL`. -/
abbrev interval : Nat := 224

/-- FSChaCha20Poly1305: nonce of message number `n`. -/
def packetNonce (n : Nat) : Bytes := le 4 (n % interval) ++ le 8 (n / interval)

/-- FSChaCha20Poly1305: nonce of the re-keying that ends epoch `e`. -/
def rekeyNonce (e : Nat) : Bytes := [0xff, 0xff, 0xff, 0xff] ++ le 8 e

/-- FSChaCha20Poly1305: the key in epoch `e`. -/
def packetKey (P : Prims) (k : Bytes) : Nat → Bytes
  | 0 => k
  | e + 1 => (P.sealC (packetKey P k e) (rekeyNonce e) [] (List.replicate 32 0)).1

/-- FSChaCha20: nonce of epoch `e`. -/
def lengthNonce (e : Nat) : Bytes := le 4 0 ++ le 8 e

/-- FSChaCha20: the key in epoch `e` is the 32 keystream bytes after the 224 length prefixes of
the previous epoch. -/
def lengthKey (P : Prims) (k : Bytes) : Nat → Bytes
  | 0 => k
  | e + 1 => (List.range 32).map fun j => P.ks (lengthKey P k e) (lengthNonce e) (672 + j)

/-- FSChaCha20: keystream bytes masking the length of message number `n`. -/
def lengthMask (P : Prims) (k : Bytes) (n : Nat) : Bytes :=
  (List.range 3).map fun j =>
    P.ks (lengthKey P k (n / interval)) (lengthNonce (n / interval)) (3 * (n % interval) + j)

/-- Byte-wise xor. -/
def xor (a b : Bytes) : Bytes := List.zipWith (fun x y => x ^^^ y) a b

/-- `v2_enc_packet`: packet number `n` of a direction with length key `kL` and packet key `kP`. -/
def packet (P : Prims) (kL kP : Bytes) (n : Nat) (ignore : Bool) (aad contents : Bytes) : Bytes :=
  let header : UInt8 := if ignore then 0x80 else 0
  let sealed := P.sealC (packetKey P kP (n / interval)) (packetNonce n) aad (header :: contents)
  xor (le 3 contents.length) (lengthMask P kL n) ++ sealed.1 ++ sealed.2

end Bip324.Spec
