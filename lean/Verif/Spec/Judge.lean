import Verif.Spec.Reference

/-!
# What a receiver makes of any stream of bytes

The text of BIP-324 leaves to an implementation how long a packet it takes, and an implementation may be wrong
about what a decoy is.  With these as parameters, the verdict on every stream of bytes is given in closed form,
for the handshake and for the session.
-/

namespace Bip324.Spec

/-- The choices of a receiver. -/
structure Rules where
  /-- The longest contents it takes in a packet. -/
  longest : Nat
  /-- The headers that it takes for those of decoys. -/
  decoy : UInt8 → Bool
  /-- The number of bytes after the key without terminator at which it gives up. -/
  patience : Nat

/-- The rules of BIP-324: every length that fits in three bytes, the ignore bit, 4096 rounds that take one more
byte each after the first 16. -/
def bipRules : Rules := ⟨2 ^ 24 - 1, fun h => h &&& 0x80 ≠ 0, 16 + 4096⟩

/-- What happens to the connection. -/
inductive Verdict where
  /-- More bytes are needed. -/
  | waits
  | noTerminator
  | tooBig
  | forged
  /-- The handshake is complete; the number of the next packet, and the bytes left. -/
  | complete (next : Nat) (rest : Bytes)
deriving DecidableEq

/-- The first three bytes announce contents of this length, as packet number `n`. -/
def Announces (P : Prims) (kL : Bytes) (n : Nat) (bs : Bytes) (len : Nat) : Prop :=
  len < 2 ^ 24 ∧ bs.take 3 = xor (le 3 len) (lengthMask P kL n)

/-- Packet number `n` cannot be judged yet. -/
def Incomplete (P : Prims) (longest : Nat) (kL : Bytes) (n : Nat) (bs : Bytes) : Prop :=
  bs.length < 3 ∨ ∃ len, Announces P kL n bs len ∧ len ≤ longest ∧ bs.length < len + 20

/-- Packet number `n` is there, and no one with the key has sealed it with this AAD. -/
def NotSealed (P : Prims) (longest : Nat) (kL kP : Bytes) (n : Nat) (aad bs : Bytes) : Prop :=
  ∃ len, Announces P kL n bs len ∧ len ≤ longest ∧ len + 20 ≤ bs.length ∧
    ∀ header contents, (bs.drop 3).take (len + 17) ≠ sealedPart P kP n header aad contents

/-- Packet number `n` is longer than the receiver takes. -/
def TooLong (P : Prims) (longest : Nat) (kL : Bytes) (n : Nat) (bs : Bytes) : Prop :=
  ∃ len, Announces P kL n bs len ∧ longest < len

/-- The verdict on what follows the terminator, from packet number `n` on, of which the first has this AAD. -/
inductive JudgePackets (r : Rules) (P : Prims) (kL kP : Bytes) : Nat → Bytes → Bytes → Verdict → Prop
  | waits {n aad bs} : Incomplete P r.longest kL n bs → JudgePackets r P kL kP n aad bs .waits
  | tooBig {n aad bs} : TooLong P r.longest kL n bs → JudgePackets r P kL kP n aad bs .tooBig
  | forged {n aad bs} : NotSealed P r.longest kL kP n aad bs → JudgePackets r P kL kP n aad bs .forged
  | decoy {n aad header contents rest v} : r.decoy header = true → contents.length ≤ r.longest →
      contents.length < 2 ^ 24 → JudgePackets r P kL kP (n + 1) [] rest v →
      JudgePackets r P kL kP n aad (rawPacket P kL kP n header aad contents ++ rest) v
  | version {n aad header contents rest} : r.decoy header = false → contents.length ≤ r.longest →
      contents.length < 2 ^ 24 →
      JudgePackets r P kL kP n aad (rawPacket P kL kP n header aad contents ++ rest) (.complete (n + 1) rest)

/-- The verdict on what follows the key. -/
inductive Judge (r : Rules) (P : Prims) (keys : Bytes × Bytes × Bytes) : Bytes → Verdict → Prop
  | waits {bs} : (∀ j, ¬ OccursAt keys.2.2 bs j) → bs.length < r.patience → Judge r P keys bs .waits
  | noTerminator {bs} : (∀ j ≤ 4095, ¬ OccursAt keys.2.2 bs j) → r.patience ≤ bs.length →
      Judge r P keys bs .noTerminator
  | garbage {g rest v} : g.length ≤ 4095 → (∀ j < g.length, ¬ OccursAt keys.2.2 (g ++ keys.2.2) j) →
      JudgePackets r P keys.1 keys.2.1 0 g rest v → Judge r P keys (g ++ keys.2.2 ++ rest) v

/-- The messages in a stream from packet number `n` on, and why there are no more.  During the session the length of
a packet is looked at when it has arrived. -/
inductive JudgeSession (longest : Nat) (P : Prims) (kL kP : Bytes) :
    Nat → Bytes → List (UInt8 × Bytes) → Verdict → Prop
  | waits {n bs} : Incomplete P (2 ^ 24 - 1) kL n bs → JudgeSession longest P kL kP n bs [] .waits
  | tooBig {n bs len} : Announces P kL n bs len → longest < len → len + 20 ≤ bs.length →
      JudgeSession longest P kL kP n bs [] .tooBig
  | forged {n bs} : NotSealed P longest kL kP n [] bs → JudgeSession longest P kL kP n bs [] .forged
  | message {n header contents rest ms v} : contents.length ≤ longest → contents.length < 2 ^ 24 →
      JudgeSession longest P kL kP (n + 1) rest ms v →
      JudgeSession longest P kL kP n (rawPacket P kL kP n header [] contents ++ rest) ((header, contents) :: ms) v

/-- The streams on which two receivers part whose rules are `r` and those of BIP-324: `r` has waited long enough
and BIP-324 has not; or after decoys there is a packet that is longer than `r` takes, or one that is a decoy for
BIP-324 and not for `r`. -/
def Divergent (r : Rules) (P : Prims) (keys : Bytes × Bytes × Bytes) (bs : Bytes) : Prop :=
  ((∀ j, ¬ OccursAt keys.2.2 bs j) ∧ r.patience ≤ bs.length ∧ bs.length < bipRules.patience) ∨
  ∃ g decoys rest, g.length ≤ 4095 ∧ (∀ j < g.length, ¬ OccursAt keys.2.2 (g ++ keys.2.2) j) ∧
    (∀ d ∈ decoys, r.decoy d.1 = true ∧ d.2.length ≤ r.longest ∧ d.2.length < 2 ^ 24) ∧
    bs = g ++ keys.2.2 ++ (packetStream P keys.1 keys.2.1 0 g decoys ++ rest) ∧
    (TooLong P r.longest keys.1 decoys.length rest ∨
      ∃ header contents more, header &&& 0x80 ≠ 0 ∧ r.decoy header = false ∧ contents.length ≤ r.longest ∧
        contents.length < 2 ^ 24 ∧
        rest = rawPacket P keys.1 keys.2.1 decoys.length header (if decoys = [] then g else []) contents ++ more)

end Bip324.Spec
