import Verif.Concrete.Secp256k1
import Verif.Model.Prims

/-!
# The concrete instance of the dependencies

ChaCha20-Poly1305 and HKDF-SHA256 as the RFCs define them, over any key exchange; and with secp256k1.
-/

namespace Bip324.Concrete

/-- A key exchange. -/
structure Curve where
  validSecret : Bytes → Bool
  ellswift : Bytes → Bytes
  ecdh : Bytes → Bytes → Bytes → Party → Bytes → Bytes

/-- What is assumed of it: the last two laws of `Lawful` about `secp256k1`. -/
structure Curve.Lawful (C : Curve) : Prop where
  ellswift_length : ∀ sk, (C.ellswift sk).length = 64
  ecdh_agree : ∀ skA skB data, C.validSecret skA → C.validSecret skB →
    C.ecdh (C.ellswift skA) (C.ellswift skB) skA .A data
      = C.ecdh (C.ellswift skA) (C.ellswift skB) skB .B data

/-- The RFC functions over a key exchange. -/
def rfc (C : Curve) : Prims where
  sealC := aeadSeal
  openC := aeadOpen
  ks := keystream
  validSecret := C.validSecret
  ellswift := C.ellswift
  ecdh := C.ecdh
  hkdf := hkdf

/-- All laws about the symmetric cryptography hold of the RFC functions: what remains of `Lawful` is the
assumption about the key exchange. -/
theorem rfc_lawful {C : Curve} (hC : C.Lawful) : Lawful (rfc C) where
  seal_length k n _ c := chacha20_length k n 1 c
  tag_length _ _ _ _ := poly1305_length _ _
  open_iff := aeadOpen_iff
  seal_aad _ _ _ _ _ := rfl
  ellswift_length := hC.ellswift_length
  ecdh_agree := hC.ecdh_agree
  hkdf_ok := hkdf_ok

/-- And nothing less will do. -/
theorem rfc_lawful_iff {C : Curve} : Lawful (rfc C) ↔ C.Lawful :=
  ⟨fun h => ⟨h.ellswift_length, h.ecdh_agree⟩, rfc_lawful⟩

/-- secp256k1 with ElligatorSwift. -/
def secp256k1 : Curve where
  validSecret := validSecret
  ellswift := ellswiftOf
  ecdh a b sk party _ := ellswiftXdh a b sk (party == .A)

/-- The real thing. -/
def real : Prims := rfc secp256k1

end Bip324.Concrete
