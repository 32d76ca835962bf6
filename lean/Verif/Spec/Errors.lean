import Verif.Model.Errors
import Verif.Props.Session

/-!
# Which function reports which error

`Fails` says that some call of a function ends in an error of a class; `Fn.errors` is the table of the classes each
function has, and `Fn.documented` what the comments of the code say.
-/

namespace Bip324

/-- The errors, without the numbers. -/
inductive ErrClass where
  | ciphertextTooSmall
  | bufferTooSmall
  | packetTooBig
  | tooMuchGarbage
  | noGarbageTerminator
  | v1Protocol
  | materials
  | expansion
  | decryption
  | io
deriving Repr, DecidableEq

def Error.cls : Error → ErrClass
  | .ciphertextTooSmall => .ciphertextTooSmall
  | .bufferTooSmall _ => .bufferTooSmall
  | .packetTooBig => .packetTooBig
  | .tooMuchGarbage => .tooMuchGarbage
  | .noGarbageTerminator => .noGarbageTerminator
  | .v1Protocol => .v1Protocol
  | .secretGeneration .materialsGeneration => .materials
  | .secretGeneration .expansion => .expansion
  | .decryption => .decryption

def ProtocolError.cls : ProtocolError → ErrClass
  | .io _ _ => .io
  | .internal e => e.cls

/-- The public functions that return a `Result`. -/
inductive Fn where
  | fromEcdh
  | decryptInPlace
  | decrypt
  | decryptToVec
  | encrypt
  | new
  | sendKey
  | receiveKey
  | sendVersion
  | receiveGarbage
  | receiveVersion
  /-- `io::handshake` and `io::Protocol::new`. -/
  | handshake
  | read
  | write
  /-- `futures::handshake` and `futures::Protocol::new`. -/
  | handshakeAsync
  | readAsync
  | writeAsync
  /-- The same of the traffic crate. -/
  | shapedNew
  | shapedRead
  | shapedWrite
  | shapedNewAsync
  | shapedReadAsync
  | shapedWriteAsync
deriving Repr, DecidableEq

/-- Some call of the function ends in an error of the class: with some arguments of the right sizes, on some
connection, under some schedule, with some random numbers. -/
inductive Fails (P : Prims) (prof : Profile) : Fn → ErrClass → Prop
  | fromEcdh {a b secret party magic e} : SessionKeyMaterial.fromEcdh P a b secret party magic = .err e →
      Fails P prof .fromEcdh e.cls
  | decryptInPlace {c ct aad e} : (InboundCipher.decryptInPlace P prof c ct aad).2.2 = .err e →
      Fails P prof .decryptInPlace e.cls
  | decrypt {c ct buf aad e} : (InboundCipher.decrypt P prof c ct buf aad).2.2 = .err e →
      Fails P prof .decrypt e.cls
  | decryptToVec {c ct aad e} : (InboundCipher.decryptToVec P prof c ct aad).2 = .err e →
      Fails P prof .decryptToVec e.cls
  | encrypt {c pt buf ty aad e} : (OutboundCipher.encrypt P prof c pt buf ty aad).2.2 = .err e →
      Fails P prof .encrypt e.cls
  | new {magic role rng e} : rng.length = 32 → HsInitialized.newWithRng P prof magic role rng = .err e →
      Fails P prof .new e.cls
  | sendKey {h : HsInitialized} {g buf e} : h.ellswift.length = 64 → (h.sendKey g buf).2 = .err e →
      Fails P prof .sendKey e.cls
  | receiveKey {h : HsSentKey} {key e} : key.length = 64 → h.receiveKey P key = .err e →
      Fails P prof .receiveKey e.cls
  | sendVersion {h : HsReceivedKey} {buf decoys e} : (h.sendVersion P prof buf decoys).2 = .err e →
      Fails P prof .sendVersion e.cls
  | receiveGarbage {h : HsSentVersion} {buf e} : h.receiveGarbage buf = .err e → Fails P prof .receiveGarbage e.cls
  | receiveVersion {h : HsReceivedGarbage} {buf e} : (h.receiveVersion P prof buf).2 = .err e →
      Fails P prof .receiveVersion e.cls
  | handshake {magic role rng g d src w e} : rng.length = 32 →
      (Bip324.handshake syncApi P prof magic role rng g d src w).2.2 = .err e → Fails P prof .handshake e.cls
  | read {r : SyncReader} {e} : (r.read P prof).2 = .err e → Fails P prof .read e.cls
  | write {w : Writer} {p e} : (w.write .sync P prof p).2 = .err e → Fails P prof .write e.cls
  | handshakeAsync {magic role rng g d src w e} : rng.length = 32 →
      (Bip324.handshake asyncApi P prof magic role rng g d src w).2.2 = .err e →
      Fails P prof .handshakeAsync e.cls
  | readAsync {r : AsyncReader} {es e} : r.state = .initReadingLength → .err e ∈ (r.run P prof es).2 →
      Fails P prof .readAsync e.cls
  | writeAsync {w : Writer} {p e} : (w.write .async P prof p).2 = .err e → Fails P prof .writeAsync e.cls
  | shapedNew {R : Rng} {magic role rng config rs src w e} : rng.length = 32 →
      ShapedSys.new (R := R) P prof magic role rng config rs src w = .err e → Fails P prof .shapedNew e.cls
  | shapedRead {R : Rng} {p : SyncProtocol} {sh : Shaper R} {recorded ls e} :
      .err e ∈ ((ShapedSys.init p sh recorded).run P prof ls).reads → Fails P prof .shapedRead e.cls
  | shapedWrite {R : Rng} {p : SyncProtocol} {sh : Shaper R} {recorded ls q e} :
      (q, .err e) ∈ ((ShapedSys.init p sh recorded).run P prof ls).returned → Fails P prof .shapedWrite e.cls
  | shapedNewAsync {R : Rng} {magic role rng config rs src w e} : rng.length = 32 →
      AsyncShapedSys.new (R := R) P prof magic role rng config rs src w = .err e →
      Fails P prof .shapedNewAsync e.cls
  | shapedReadAsync {R : Rng} {p : AsyncProtocol} {sh : Shaper R} {recorded ls e} :
      p.reader.state = .initReadingLength →
      .ready (.err e) ∈ ((AsyncShapedSys.init p sh recorded).run P prof ls).reads → Fails P prof .shapedReadAsync e.cls
  | shapedWriteAsync {R : Rng} {p : AsyncProtocol} {sh : Shaper R} {recorded ls q e} :
      p.reader.state = .initReadingLength →
      (q, .err e) ∈ ((AsyncShapedSys.init p sh recorded).run P prof ls).returned → Fails P prof .shapedWriteAsync e.cls

/-- The errors of each function. -/
def Fn.errors : Fn → List ErrClass
  | .fromEcdh => []
  | .decryptInPlace => [.ciphertextTooSmall, .decryption]
  | .decrypt => [.ciphertextTooSmall, .bufferTooSmall, .decryption]
  | .decryptToVec => [.ciphertextTooSmall, .packetTooBig, .decryption]
  | .encrypt => [.bufferTooSmall]
  | .new => [.materials]
  | .sendKey => [.tooMuchGarbage, .bufferTooSmall]
  | .receiveKey => [.v1Protocol]
  | .sendVersion => [.bufferTooSmall]
  | .receiveGarbage => [.noGarbageTerminator]
  | .receiveVersion => [.ciphertextTooSmall, .decryption]
  | .handshake | .handshakeAsync =>
    [.materials, .tooMuchGarbage, .v1Protocol, .noGarbageTerminator, .packetTooBig, .decryption, .io]
  | .read | .shapedRead => [.packetTooBig, .decryption, .io]
  | .readAsync | .shapedReadAsync => [.decryption, .io]
  | .write | .writeAsync | .shapedWrite | .shapedWriteAsync => [.io]
  | .shapedNew | .shapedNewAsync => [.materials, .v1Protocol, .noGarbageTerminator, .packetTooBig, .decryption, .io]

/-- What the section `# Errors` of its comment lists; `none` for a function without such a section.  `SecretGeneration`
is two classes.  lib.rs:321-323, 481-484, 518-522, 564-568, 612-615; handshake.rs:164-167, 224-227, 311-314, 401-404,
521-524; io.rs:277-279 and 450-452; futures.rs:148-150 and 286-288. -/
def Fn.documented : Fn → Option (List ErrClass)
  | .fromEcdh => some [.materials, .expansion]
  | .decryptInPlace => some [.ciphertextTooSmall, .decryption]
  | .decrypt => some [.ciphertextTooSmall, .bufferTooSmall, .decryption]
  | .decryptToVec => some [.ciphertextTooSmall, .packetTooBig, .decryption]
  | .encrypt => some [.bufferTooSmall]
  | .sendKey => some [.tooMuchGarbage, .bufferTooSmall]
  | .receiveKey => some [.v1Protocol, .materials, .expansion]
  | .sendVersion => some [.bufferTooSmall, .decryption]
  | .receiveGarbage => some [.noGarbageTerminator]
  | .receiveVersion => some [.decryption, .ciphertextTooSmall]
  | .handshake | .handshakeAsync => some [.io]
  | _ => none

/-- What "need at least n bytes" promises of a call that fills a buffer: if it asks for `n` bytes, it asks for `n`
bytes whenever it is given fewer, and never otherwise. -/
def TellsNeed {α : Type} (call : Bytes → Outcome Error α) : Prop :=
  ∀ buf n, call buf = .err (.bufferTooSmall n) → ∀ buf' m, call buf' = .err (.bufferTooSmall m) ↔ m = n ∧ buf'.length < n

end Bip324
