/-!
# Base vocabulary of the model

Byte strings, the outcome of a Rust call (value, error, panic), the build profile and
checked/wrapping integer arithmetic.  Nothing here is specific to BIP-324.
-/

namespace Bip324

/-- `&[u8]`, `Vec<u8>` and `[u8; N]` (for arrays the length is a hypothesis where it matters).
Rust types, used throughout protocol/src and traffic/src. -/
abbrev Bytes := List UInt8

/-- Result of a Rust call: `Ok(a)`, `Err(e)`, or a panic (which unwinds past the caller).
The `Result`s of lib.rs, handshake.rs and io.rs; panics: e.g. handshake.rs:130, io.rs:141. -/
inductive Outcome (ε α : Type) where
  | ok (a : α)
  | err (e : ε)
  | panic
deriving Repr, DecidableEq

/-- Build profile switches that change observable behaviour
(`-C overflow-checks`, `-C debug-assertions`).  Debug builds have both, release builds none.
They matter at handshake.rs:130, io.rs:141 (`debug_assert`) and for the counters, fschacha20poly1305.rs:83-140, 160-178. -/
structure Profile where
  overflowChecks : Bool
  debugAssertions : Bool
deriving Repr, DecidableEq

/-- `cargo build`: both on (/repo/Cargo.toml sets no profile). -/
def Profile.debug : Profile := ⟨true, true⟩
/-- `cargo build --release`: both off (/repo/Cargo.toml sets no profile). -/
def Profile.release : Profile := ⟨false, false⟩

/-- Modulus of `u32`. `chunk_counter`, `block_counter` (fschacha20poly1305.rs:144-148). -/
abbrev u32Mod : Nat := 2 ^ 32
/-- Modulus of `u64` (also of `usize`: the model fixes a 64-bit target).
`message_counter` (fschacha20poly1305.rs:56-59), the statistics (traffic/lib.rs:245-256). -/
abbrev u64Mod : Nat := 2 ^ 64

/-- `a + b` on an unsigned type with the given modulus: `none` is the overflow panic, which
only exists with overflow checks; otherwise the sum wraps.
Used for the counters of fschacha20poly1305.rs and for lengths in lib.rs. -/
def uadd (prof : Profile) (m a b : Nat) : Option Nat :=
  if a + b < m then some (a + b)
  else if prof.overflowChecks then none
  else some ((a + b) % m)

/-- `a - b` on an unsigned type with the given modulus. Used for lengths in lib.rs, e.g. lib.rs:444-456. -/
def usub (prof : Profile) (m a b : Nat) : Option Nat :=
  if b ≤ a then some (a - b)
  else if prof.overflowChecks then none
  else some ((a + m - b) % m)

/-- `x.to_le_bytes()` truncated to `n` bytes. fschacha20poly1305.rs:73, 76, 161; lib.rs:616-660. -/
def leBytes : Nat → Nat → Bytes
  | 0, _ => []
  | n + 1, x => UInt8.ofNat (x % 256) :: leBytes n (x / 256)

/-- `from_le_bytes`. lib.rs:435-440. -/
def leNat : Bytes → Nat
  | [] => 0
  | b :: bs => b.toNat + 256 * leNat bs

/-- Byte-wise xor, as `apply_keystream` does. fschacha20poly1305.rs:160-178 `crypt`. -/
def xorBytes (a b : Bytes) : Bytes := List.zipWith (· ^^^ ·) a b

/-- `[0u8; n]`. E.g. io.rs:342, 354, 360, 402, 532; futures.rs:176, 188, 194, 236, 374, 440, 479. -/
def zeros (n : Nat) : Bytes := List.replicate n 0

/-- `buf[i .. i + src.len()].copy_from_slice(src)`; callers guarantee the range is in bounds.
E.g. handshake.rs:189, 194, 333, 338; fschacha20poly1305.rs:74, 77. -/
def writeAt (buf : Bytes) (i : Nat) (src : Bytes) : Bytes :=
  buf.take i ++ src ++ buf.drop (i + src.length)

/-- `&buf[i .. i + n]`. E.g. handshake.rs:471-480, lib.rs:523-560. -/
def slice (buf : Bytes) (i n : Nat) : Bytes := (buf.drop i).take n

end Bip324
