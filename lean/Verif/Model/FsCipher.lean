import Verif.Model.Prims

/-! # Model of `protocol/src/fschacha20poly1305.rs` -/

namespace Bip324

/-- fschacha20poly1305.rs:22 `LENGTH_BYTES`. -/
abbrev LENGTH_BYTES : Nat := 3
/-- fschacha20poly1305.rs:24 `REKEY_INTERVAL`. -/
abbrev REKEY_INTERVAL : Nat := 224
/-- fschacha20poly1305.rs:26 `REKEY_INITIAL_NONCE`. -/
def REKEY_INITIAL_NONCE : Bytes := [0xFF, 0xFF, 0xFF, 0xFF]

/-- fschacha20poly1305.rs:56-59 `FSChaCha20Poly1305` (`message_counter: u64`). -/
structure FSAead where
  key : Bytes
  messageCounter : Nat
deriving Repr, DecidableEq

/-- fschacha20poly1305.rs:62-67 `FSChaCha20Poly1305::new`. -/
def FSAead.new (key : Bytes) : FSAead := ⟨key, 0⟩

/-- fschacha20poly1305.rs:70-80 `FSChaCha20Poly1305::nonce`. -/
def FSAead.nonce (c : FSAead) : Bytes :=
  leBytes 4 (c.messageCounter % REKEY_INTERVAL) ++ leBytes 8 (c.messageCounter / REKEY_INTERVAL)

/-- fschacha20poly1305.rs:85-87: the nonce used for re-keying. -/
def FSAead.rekeyNonce (c : FSAead) : Bytes :=
  REKEY_INITIAL_NONCE ++ c.nonce.drop 4

/-- fschacha20poly1305.rs:83-96 `FSChaCha20Poly1305::rekey`; `none` is the `u64` overflow
panic of `message_counter + 1`. -/
def FSAead.rekey (P : Prims) (prof : Profile) (c : FSAead) (aad : Bytes) : Option FSAead :=
  match uadd prof u64Mod c.messageCounter 1 with
  | none => none
  | some next =>
    let key :=
      if next % REKEY_INTERVAL = 0 then (P.sealC c.key c.rekeyNonce aad (zeros 32)).1
      else c.key
    some ⟨key, next⟩

/-- fschacha20poly1305.rs:108-116 `FSChaCha20Poly1305::encrypt`: the new cipher state, the
content encrypted in place and the tag; `none` is the overflow panic inside `rekey`. -/
def FSAead.encrypt (P : Prims) (prof : Profile) (c : FSAead) (aad content : Bytes) :
    Option (FSAead × Bytes × Bytes) :=
  let (ct, tag) := P.sealC c.key c.nonce aad content
  match c.rekey P prof aad with
  | none => none
  | some c' => some (c', ct, tag)

/-- Result of `FSChaCha20Poly1305::decrypt`. fschacha20poly1305.rs:125 and 30-32. -/
inductive FSAead.DecryptResult where
  | ok (c : FSAead) (content : Bytes)
  | authError
  | panic
deriving Repr, DecidableEq

/-- fschacha20poly1305.rs:125-135 `FSChaCha20Poly1305::decrypt`.  On an authentication error
the `?` returns before `rekey`, so the state is untouched, and the AEAD leaves the content
untouched. -/
def FSAead.decrypt (P : Prims) (prof : Profile) (c : FSAead) (aad content tag : Bytes) :
    FSAead.DecryptResult :=
  match P.openC c.key c.nonce aad content tag with
  | none => .authError
  | some plain =>
    match c.rekey P prof aad with
    | none => .panic
    | some c' => .ok c' plain

/-- fschacha20poly1305.rs:144-148 `FSChaCha20` (both counters are `u32`). -/
structure FSStream where
  key : Bytes
  blockCounter : Nat
  chunkCounter : Nat
deriving Repr, DecidableEq

/-- fschacha20poly1305.rs:151-157 `FSChaCha20::new`. -/
def FSStream.new (key : Bytes) : FSStream := ⟨key, 0, 0⟩

/-- fschacha20poly1305.rs:161-163: the nonce of `FSChaCha20::crypt`. -/
def FSStream.nonce (c : FSStream) : Bytes :=
  zeros 4 ++ leBytes 4 (c.chunkCounter / REKEY_INTERVAL) ++ zeros 4

/-- fschacha20poly1305.rs:160-176 `FSChaCha20::crypt`: new state and the chunk after xor;
`none` is an overflow panic of one of the `u32` counters. -/
def FSStream.crypt (P : Prims) (prof : Profile) (c : FSStream) (chunk : Bytes) :
    Option (FSStream × Bytes) :=
  let chunk' := xorBytes chunk (P.ksSlice c.key c.nonce c.blockCounter chunk.length)
  match uadd prof u32Mod c.blockCounter LENGTH_BYTES with
  | none => none
  | some block =>
    match uadd prof u32Mod c.chunkCounter 1 with
    | none => none
    | some next =>
      if next % REKEY_INTERVAL = 0 then
        some (⟨P.ksSlice c.key c.nonce block 32, 0, next⟩, chunk')
      else
        some (⟨c.key, block, next⟩, chunk')

end Bip324
