import Verif.Lemmas.Bytes

/-!
# RFC 8439: ChaCha20, Poly1305 and the AEAD

What the dependency `chacha20-poly1305` implements, written from the RFC.  Words are natural numbers
below `2 ^ 32`.
-/

namespace Bip324.Concrete

/-- Addition of 32-bit words. -/
def add32 (a b : Nat) : Nat := (a + b) % 2 ^ 32

/-- Rotation of a 32-bit word. -/
def rotl32 (x n : Nat) : Nat := (x <<< n ||| x >>> (32 - n)) % 2 ^ 32

/-- RFC 8439, 2.1: the quarter round. -/
def quarter (a b c d : Nat) : Nat × Nat × Nat × Nat :=
  let a := add32 a b; let d := rotl32 (d ^^^ a) 16
  let c := add32 c d; let b := rotl32 (b ^^^ c) 12
  let a := add32 a b; let d := rotl32 (d ^^^ a) 8
  let c := add32 c d; let b := rotl32 (b ^^^ c) 7
  (a, b, c, d)

/-- The state: sixteen words. -/
structure Block where
  (x0 x1 x2 x3 x4 x5 x6 x7 x8 x9 x10 x11 x12 x13 x14 x15 : Nat)

/-- RFC 8439, 2.3.1: `inner_block`. -/
def innerBlock (s : Block) : Block :=
  match s with
  | ⟨x0, x1, x2, x3, x4, x5, x6, x7, x8, x9, x10, x11, x12, x13, x14, x15⟩ =>
  match quarter x0 x4 x8 x12, quarter x1 x5 x9 x13, quarter x2 x6 x10 x14, quarter x3 x7 x11 x15 with
  | (x0, x4, x8, x12), (x1, x5, x9, x13), (x2, x6, x10, x14), (x3, x7, x11, x15) =>
  match quarter x0 x5 x10 x15, quarter x1 x6 x11 x12, quarter x2 x7 x8 x13, quarter x3 x4 x9 x14 with
  | (x0, x5, x10, x15), (x1, x6, x11, x12), (x2, x7, x8, x13), (x3, x4, x9, x14) =>
    ⟨x0, x1, x2, x3, x4, x5, x6, x7, x8, x9, x10, x11, x12, x13, x14, x15⟩

/-- The `i`-th little-endian word of a byte string. -/
def word (b : Bytes) (i : Nat) : Nat := leNat (slice b (4 * i) 4)

/-- RFC 8439, 2.3: the initial state. -/
def initBlock (key nonce : Bytes) (counter : Nat) : Block :=
  ⟨0x61707865, 0x3320646e, 0x79622d32, 0x6b206574,
    word key 0, word key 1, word key 2, word key 3, word key 4, word key 5, word key 6, word key 7,
    counter % 2 ^ 32, word nonce 0, word nonce 1, word nonce 2⟩

def rounds : Nat → Block → Block
  | 0, s => s
  | n + 1, s => rounds n (innerBlock s)

/-- RFC 8439, 2.3: sum of two states, serialised. -/
def serialize (s t : Block) : Bytes :=
  leBytes 4 (add32 s.x0 t.x0) ++ leBytes 4 (add32 s.x1 t.x1) ++ leBytes 4 (add32 s.x2 t.x2) ++
  leBytes 4 (add32 s.x3 t.x3) ++ leBytes 4 (add32 s.x4 t.x4) ++ leBytes 4 (add32 s.x5 t.x5) ++
  leBytes 4 (add32 s.x6 t.x6) ++ leBytes 4 (add32 s.x7 t.x7) ++ leBytes 4 (add32 s.x8 t.x8) ++
  leBytes 4 (add32 s.x9 t.x9) ++ leBytes 4 (add32 s.x10 t.x10) ++ leBytes 4 (add32 s.x11 t.x11) ++
  leBytes 4 (add32 s.x12 t.x12) ++ leBytes 4 (add32 s.x13 t.x13) ++ leBytes 4 (add32 s.x14 t.x14) ++
  leBytes 4 (add32 s.x15 t.x15)

/-- RFC 8439, 2.3: the ChaCha20 block function. -/
def chachaBlock (key nonce : Bytes) (counter : Nat) : Bytes :=
  let s := initBlock key nonce counter
  serialize (rounds 10 s) s

/-- Byte `pos` of the keystream, counted from block 0. -/
def keystream (key nonce : Bytes) (pos : Nat) : UInt8 :=
  (chachaBlock key nonce (pos / 64)).getD (pos % 64) 0

/-- `n` blocks of keystream from block `counter` on. -/
def keystreamBlocks (key nonce : Bytes) : Nat → Nat → Bytes
  | _, 0 => []
  | counter, n + 1 => chachaBlock key nonce counter ++ keystreamBlocks key nonce (counter + 1) n

/-- RFC 8439, 2.4: ChaCha20 encryption. -/
def chacha20 (key nonce : Bytes) (counter : Nat) (text : Bytes) : Bytes :=
  xorBytes text (keystreamBlocks key nonce counter ((text.length + 63) / 64))

/-- RFC 8439, 2.5: one block of at most 16 bytes is absorbed. -/
def polyStep (r acc : Nat) (block : Bytes) : Nat :=
  ((acc + (leNat block + 2 ^ (8 * block.length))) * r) % (2 ^ 130 - 5)

/-- RFC 8439, 2.5: the blocks of a message (`fuel` at least the number of blocks). -/
def polyBlocks (r : Nat) : Nat → Nat → Bytes → Nat
  | 0, acc, _ => acc
  | _ + 1, acc, [] => acc
  | fuel + 1, acc, b :: msg => polyBlocks r fuel (polyStep r acc ((b :: msg).take 16)) ((b :: msg).drop 16)

/-- RFC 8439, 2.5: Poly1305. -/
def poly1305 (key msg : Bytes) : Bytes :=
  let r := leNat (key.take 16) &&& 0x0ffffffc0ffffffc0ffffffc0fffffff
  let s := leNat ((key.drop 16).take 16)
  leBytes 16 (polyBlocks r (msg.length + 1) 0 msg + s)

/-- RFC 8439, 2.8: `pad16`. -/
def pad16 (x : Bytes) : Bytes := zeros ((16 - x.length % 16) % 16)

/-- RFC 8439, 2.8: the tag of a ciphertext. -/
def aeadTag (key nonce aad ct : Bytes) : Bytes :=
  poly1305 ((chachaBlock key nonce 0).take 32)
    (aad ++ pad16 aad ++ ct ++ pad16 ct ++ leBytes 8 aad.length ++ leBytes 8 ct.length)

/-- RFC 8439, 2.8: `chacha20_aead_encrypt`. -/
def aeadSeal (key nonce aad text : Bytes) : Bytes × Bytes :=
  let ct := chacha20 key nonce 1 text
  (ct, aeadTag key nonce aad ct)

/-- RFC 8439, 2.8: decryption, after comparing the tag. -/
def aeadOpen (key nonce aad ct tag : Bytes) : Option Bytes :=
  if aeadTag key nonce aad ct = tag then some (chacha20 key nonce 1 ct) else none

/-! ## Laws -/

theorem serialize_length (s t : Block) : (serialize s t).length = 64 := by
  simp only [serialize, List.length_append, leBytes_length]

theorem chachaBlock_length (key nonce : Bytes) (counter : Nat) :
    (chachaBlock key nonce counter).length = 64 := serialize_length _ _

theorem keystreamBlocks_length (key nonce : Bytes) (counter n : Nat) :
    (keystreamBlocks key nonce counter n).length = 64 * n := by
  induction n generalizing counter with
  | zero => rfl
  | succ n ih => simp only [keystreamBlocks, List.length_append, chachaBlock_length, ih]; omega

theorem chacha20_length (key nonce : Bytes) (counter : Nat) (text : Bytes) :
    (chacha20 key nonce counter text).length = text.length := by
  simp only [chacha20, xorBytes, List.length_zipWith, keystreamBlocks_length]
  omega

theorem zipWith_xor_cancel (a b : Bytes) (h : a.length ≤ b.length) :
    xorBytes (xorBytes a b) b = a := by
  induction a generalizing b with
  | nil => rfl
  | cons x a ih =>
    cases b with
    | nil => simp at h
    | cons y b =>
      have : xorBytes (xorBytes (x :: a) (y :: b)) (y :: b) = (x ^^^ y ^^^ y) :: xorBytes (xorBytes a b) b := rfl
      rw [this, ih b (by simpa using h), u8_xor_cancel]

theorem chacha20_involutive (key nonce : Bytes) (counter : Nat) (text : Bytes) :
    chacha20 key nonce counter (chacha20 key nonce counter text) = text := by
  have h := chacha20_length key nonce counter text
  unfold chacha20 at h ⊢
  rw [h, zipWith_xor_cancel]
  rw [keystreamBlocks_length]
  omega

/-- Decryption accepts exactly what encryption produces. -/
theorem aeadOpen_iff (key nonce aad ct tag text : Bytes) :
    aeadOpen key nonce aad ct tag = some text ↔ aeadSeal key nonce aad text = (ct, tag) := by
  unfold aeadOpen aeadSeal
  constructor
  · intro h
    split at h
    · rename_i ht
      simp only [Option.some.injEq] at h
      rw [← h, chacha20_involutive]
      simp only [ht]
    · cases h
  · intro h
    simp only [Prod.mk.injEq] at h
    obtain ⟨h1, h2⟩ := h
    rw [h1] at h2
    rw [if_pos h2, ← h1, chacha20_involutive]

theorem poly1305_length (key msg : Bytes) : (poly1305 key msg).length = 16 := by
  simp only [poly1305, leBytes_length]

/-- The keystream in blocks is the keystream by bytes. -/
theorem keystreamBlocks_getElem (key nonce : Bytes) (counter n i : Nat) (h : i < 64 * n) :
    (keystreamBlocks key nonce counter n)[i]'(by rw [keystreamBlocks_length]; exact h) =
      keystream key nonce (64 * counter + i) := by
  induction n generalizing counter i with
  | zero => omega
  | succ n ih =>
    simp only [keystreamBlocks]
    by_cases hi : i < 64
    · rw [List.getElem_append_left (by rw [chachaBlock_length]; exact hi)]
      unfold keystream
      rw [show (64 * counter + i) / 64 = counter by omega, show (64 * counter + i) % 64 = i by omega,
        List.getD_eq_getElem?_getD, List.getElem?_eq_getElem (by rw [chachaBlock_length]; exact hi)]
      rfl
    · rw [List.getElem_append_right (by rw [chachaBlock_length]; omega)]
      simp only [chachaBlock_length]
      rw [ih (counter + 1) (i - 64) (by omega)]
      congr 1
      omega

end Bip324.Concrete
