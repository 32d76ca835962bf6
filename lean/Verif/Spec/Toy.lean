import Verif.Lemmas.Bytes

/-!
# A small lawful instance of the dependencies

Not cryptography: an executable instance of `Prims` used for witnesses (non-vacuity examples and
counterexamples).  `Verif/Concrete` contains the instance built from the RFCs.
-/

namespace Bip324

def Toy.mask (k n : Bytes) : UInt8 := k.headD 0 ^^^ n.headD 0 ^^^ 0x5a

def Toy.tag (k n a c : Bytes) : Bytes :=
  leBytes 16 (leNat k + 3 * leNat n + 5 * leNat a + 7 * leNat c + 11 * a.length + 1)

/-- The toy instance. -/
def toy : Prims where
  sealC k n a c := (c.map (· ^^^ Toy.mask k n), Toy.tag k n a c)
  openC k n a c t :=
    let p := c.map (· ^^^ Toy.mask k n)
    if Toy.tag k n a p = t then some p else none
  ks k n pos := UInt8.ofNat (leNat k + 5 * leNat n + leNat n / 2 ^ 32 + 7 * pos + 1)
  validSecret sk := sk.length == 32 && sk != zeros 32
  ellswift sk := (sk ++ zeros 64).take 64
  ecdh a b _ _ data := leBytes 32 (leNat a + leNat b + leNat data)
  hkdf salt ikm info len :=
    if len ≤ 255 * 32 then
      some (leBytes len ((3 * leNat salt + 5 * leNat ikm + 7 * leNat info + 1) * (2 ^ 129 + 12345)))
    else none

theorem Toy.mask_cancel (k n c : Bytes) :
    (c.map (· ^^^ Toy.mask k n)).map (· ^^^ Toy.mask k n) = c := by
  rw [List.map_map]
  conv => rhs; rw [← List.map_id c]
  apply List.map_congr_left
  intro x _
  exact u8_xor_cancel x _

theorem toy_lawful : Lawful toy where
  seal_length k n a c := by simp [toy]
  tag_length k n a c := by simp [toy, Toy.tag]
  open_iff k n a c t p := by
    simp only [toy]
    constructor
    · intro h
      split at h
      · rename_i ht
        simp only [Option.some.injEq] at h
        rw [← h, Toy.mask_cancel, ht]
      · cases h
    · intro h
      simp only [Prod.mk.injEq] at h
      obtain ⟨h1, h2⟩ := h
      rw [← h1, Toy.mask_cancel, if_pos h2]
  seal_aad k n a a' c := rfl
  ellswift_length sk := by simp [toy]
  ecdh_agree _ _ _ _ _ := rfl
  hkdf_ok salt ikm info len h := by simp [toy, h]

end Bip324
