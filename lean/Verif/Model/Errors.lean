import Verif.Model.TrafficFutures
import Verif.Model.TrafficIo

/-!
# The texts of the errors

`Display` of the error types.  The texts of the errors of the dependencies (`{e:?}`) are parameters.
-/

namespace Bip324

/-- The `Debug` texts of `secp256k1::Error`, of `hkdf::MaxLengthError` and of
`chacha20_poly1305::Error`, whose values the model does not have; printed by lib.rs:199-227, 261-268 and fschacha20poly1305.rs:34-41. -/
structure DepTexts where
  secp : List Char
  maxLength : List Char
  aead : List Char

/-- lib.rs:253 `#[derive(Debug)]` of `SecretGenerationError`: the name of the variant and the `Debug` text of its
field. -/
def SecretGenerationError.debug (T : DepTexts) : SecretGenerationError → List Char
  | .materialsGeneration => "MaterialsGeneration(".toList ++ T.secp ++ ")".toList
  | .expansion => "Expansion(".toList ++ T.maxLength ++ ")".toList

/-- lib.rs:198-228 `Display for Error`.  For `Decryption`, `{e:?}` is `Decryption(..)`, the derived `Debug` of
fschacha20poly1305.rs:29-32. -/
def Error.text (T : DepTexts) : Error → List Char
  | .ciphertextTooSmall =>
    "Ciphertext does not contain enough information, should be further extended.".toList
  | .bufferTooSmall n =>
    "Buffer memory allocation too small, need at least ".toList ++ (Nat.repr n).toList ++ " bytes.".toList
  | .packetTooBig => "Packet size exceeds maximum 4MiB size for automatic allocation.".toList
  | .noGarbageTerminator =>
    "More than 4095 bytes of garbage received in the handshake before a terminator was sent.".toList
  | .secretGeneration e => "Cannot generate secrets: ".toList ++ e.debug T ++ ".".toList
  | .decryption => "Decryption error: Decryption(".toList ++ T.aead ++ ").".toList
  | .v1Protocol => "The remote peer is communicating on the V1 protocol.".toList
  | .tooMuchGarbage => "Tried to send more than 4095 bytes of garbage in handshake.".toList

/-- io.rs:244-247. -/
def Suggestion.text : Suggestion → List Char
  | .retryV1 => "Retry with V1 protocol".toList
  | .abort => "Abort, do not retry".toList

/-- io.rs:236-253 `Display for ProtocolError`.  `io` is the `Display` text of the `io::Error`, of which the model
has the kind only; for an internal error it is not used. -/
def ProtocolError.text (T : DepTexts) (io : List Char) : ProtocolError → List Char
  | .io _ s => "IO error: ".toList ++ io ++ ". Suggestion: ".toList ++ s.text ++ ".".toList
  | .internal e => "Internal error: ".toList ++ e.text T ++ ".".toList

/-- What a `&dyn std::error::Error` may be that this library hands out: its own errors and, of the dependencies, the
error of the transport and those of `secp256k1`, of HKDF and of the AEAD.
lib.rs:229-243, 271-279; fschacha20poly1305.rs:42-49; io.rs:227-234. -/
inductive ErrNode where
  | protocol (e : ProtocolError)
  | lib (e : Error)
  | secret (e : SecretGenerationError)
  | fsAead
  | io (kind : ErrorKind)
  | secp
  | maxLength
  | aead
deriving Repr, DecidableEq

/-- `std::error::Error::source`: io.rs:227-234, lib.rs:229-243, lib.rs:271-279, fschacha20poly1305.rs:42-49.  What is
behind an error of a dependency is not followed. -/
def ErrNode.source : ErrNode → Option ErrNode
  | .protocol (.io k _) => some (.io k)
  | .protocol (.internal e) => some (.lib e)
  | .lib (.secretGeneration e) => some (.secret e)
  | .lib .decryption => some .fsAead
  | .lib _ => none
  | .secret .materialsGeneration => some .secp
  | .secret .expansion => some .maxLength
  | .fsAead => some .aead
  | .io _ | .secp | .maxLength | .aead => none

/-- The `Display` texts of `secp256k1::Error`, of `hkdf::MaxLengthError` and of `chacha20_poly1305::Error`; printed by
lib.rs:261-268 and fschacha20poly1305.rs:34-40. -/
structure DepDisplays where
  secp : List Char
  maxLength : List Char
  aead : List Char

/-- lib.rs:259-268 `Display for SecretGenerationError`. -/
def SecretGenerationError.text (D : DepDisplays) : SecretGenerationError → List Char
  | .materialsGeneration => "Cannot generate materials: ".toList ++ D.secp ++ ".".toList
  | .expansion => "Cannot expand key: ".toList ++ D.maxLength ++ ".".toList

/-- `Display` of every error: io.rs:236-253, lib.rs:198-228, lib.rs:259-268, fschacha20poly1305.rs:34-40. -/
def ErrNode.text (T : DepTexts) (D : DepDisplays) (io : List Char) : ErrNode → List Char
  | .protocol e => e.text T io
  | .lib e => e.text T
  | .secret e => e.text D
  | .fsAead => "Unable to dycrypt: ".toList ++ D.aead ++ ".".toList
  | .io _ => io
  | .secp => D.secp
  | .maxLength => D.maxLength
  | .aead => D.aead

end Bip324
