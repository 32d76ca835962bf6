import Verif.Spec.Bip324

/-!
# What an attacker can learn

An attacker is any function of the primitives and of what it has seen.  That it does not know the key of a packet is
expressed by what it does with the primitives: it does not use the packet cipher under that key and nonce, so its result
is the same with all primitives that agree elsewhere.
-/

namespace Bip324.Spec

/-- The primitives agree, except for the packet cipher under some keys and nonces. -/
structure SameOff (bad : Bytes → Bytes → Prop) (P Q : Prims) : Prop where
  sealC : ∀ k n a c, ¬ bad k n → Q.sealC k n a c = P.sealC k n a c
  openC : ∀ k n a c t, ¬ bad k n → Q.openC k n a c t = P.openC k n a c t
  ks : Q.ks = P.ks
  validSecret : Q.validSecret = P.validSecret
  ellswift : Q.ellswift = P.ellswift
  ecdh : Q.ecdh = P.ecdh
  hkdf : Q.hkdf = P.hkdf

/-- What the attacker does with what it has seen does not use the packet cipher under these keys and nonces. -/
def Blind {α β : Type} (bad : Bytes → Bytes → Prop) (P : Prims) (attacker : Prims → α → β) (seen : α) : Prop :=
  ∀ Q, Lawful Q → SameOff bad P Q → attacker Q seen = attacker P seen

/-- The keys and nonces of some packets of a direction. -/
def KeysOf (P : Prims) (kP : Bytes) (hidden : Nat → Bool) (k n : Bytes) : Prop :=
  ∃ i, hidden i = true ∧ k = packetKey P kP (i / 224) ∧ n = packetNonce i

end Bip324.Spec
