import Mathlib.FieldTheory.Finite.Basic
import Mathlib.Tactic.Ring
import Mathlib.Tactic.LinearCombination
import Verif.Concrete.Prime

/-!
# The arithmetic modulo the field prime is that of the field `ZMod p`
-/

namespace Bip324.Concrete

instance : Fact (Nat.Prime p256) := ⟨p256_prime⟩

/-- The field of secp256k1. -/
abbrev Fp := ZMod p256

theorem p256_val : p256 = 115792089237316195423570985008687907853269984665640564039457584007908834671663 := by
  decide +kernel

theorem p256_pos : 0 < p256 := p256_prime.pos

attribute [local irreducible] p256

theorem cast_mod (a : Nat) : ((a % p256 : Nat) : Fp) = a := ZMod.natCast_mod a p256

theorem cast_p : ((p256 : Nat) : Fp) = 0 := ZMod.natCast_self p256

/-- Reduced numbers are equal if they are equal in the field. -/
theorem eq_of_cast {a b : Nat} (ha : a < p256) (hb : b < p256) (h : (a : Fp) = b) : a = b := by
  rw [ZMod.natCast_eq_natCast_iff, Nat.ModEq, Nat.mod_eq_of_lt ha, Nat.mod_eq_of_lt hb] at h
  exact h

theorem fsub_cast (a b : Nat) : ((fsub a b : Nat) : Fp) = a - b := by
  unfold fsub
  rw [cast_mod, Nat.cast_add, Nat.cast_sub (Nat.le_of_lt (Nat.mod_lt _ p256_pos)), cast_mod, cast_p]
  ring

theorem fneg_cast (a : Nat) : ((fneg a : Nat) : Fp) = -a := by
  unfold fneg
  rw [cast_mod, Nat.cast_sub (Nat.le_of_lt (Nat.mod_lt _ p256_pos)), cast_mod, cast_p]
  ring

theorem fpow_cast (fuel : Nat) : ∀ b e, e < 2 ^ fuel → ((fpow fuel b e : Nat) : Fp) = (b : Fp) ^ e := by
  induction fuel with
  | zero => intro b e h; simp at h; subst h; simp [fpow]
  | succ fuel ih =>
    intro b e h
    have he : e / 2 < 2 ^ fuel := by rw [pow_succ] at h; omega
    have hpow : ((fpow fuel (b * b % p256) (e / 2) : Nat) : Fp) = (b : Fp) ^ (2 * (e / 2)) := by
      rw [ih _ _ he, cast_mod, Nat.cast_mul, pow_mul, pow_two]
    unfold fpow
    simp only
    split
    · rename_i h1
      rw [cast_mod, Nat.cast_mul, hpow, ← pow_succ, show 2 * (e / 2) + 1 = e by omega]
    · rename_i h1
      rw [hpow, show 2 * (e / 2) = e by omega]

theorem finv_cast (a : Nat) : ((finv a : Nat) : Fp) = (a : Fp)⁻¹ := by
  unfold finv
  rw [fpow_cast 256 _ _ (by rw [p256_val]; omega), cast_mod]
  by_cases h : (a : Fp) = 0
  · rw [h, inv_zero, zero_pow (by rw [p256_val]; omega)]
  · have h1 : (a : Fp) ^ (p256 - 1) = 1 := ZMod.pow_card_sub_one_eq_one h
    have h2 : p256 - 1 = (p256 - 2) + 1 := by rw [p256_val]
    rw [h2, pow_succ] at h1
    exact eq_inv_of_mul_eq_one_left h1

theorem fdiv_cast (a b : Nat) : ((fdiv a b : Nat) : Fp) = (a : Fp) / b := by
  unfold fdiv
  rw [cast_mod, Nat.cast_mul, finv_cast, div_eq_mul_inv]

theorem fdiv_lt (a b : Nat) : fdiv a b < p256 := Nat.mod_lt _ p256_pos

theorem fsqrt_some {a r : Nat} (h : fsqrt a = some r) : (r : Fp) ^ 2 = a := by
  unfold fsqrt at h
  simp only at h
  split at h
  · rename_i h1
    simp only [Option.some.injEq] at h
    rw [h] at h1
    have := congrArg (Nat.cast : Nat → Fp) h1
    rw [cast_mod, cast_mod, Nat.cast_mul] at this
    rw [pow_two, this]
  · cases h

theorem fsqrt_exists {a : Nat} {y : Fp} (h : y ^ 2 = a) : ∃ r, fsqrt a = some r := by
  unfold fsqrt
  simp only
  rw [if_pos]
  · exact ⟨_, rfl⟩
  · refine eq_of_cast (Nat.mod_lt _ p256_pos) (Nat.mod_lt _ p256_pos) ?_
    rw [cast_mod, cast_mod, Nat.cast_mul, fpow_cast 256 _ _ (by rw [p256_val]; omega), cast_mod, ← h]
    rw [← pow_mul, ← pow_add]
    have e : 2 * ((p256 + 1) / 4) + 2 * ((p256 + 1) / 4) = p256 + 1 := by rw [p256_val]
    rw [e, pow_succ, ZMod.pow_card, pow_two]

theorem curveRhs_cast (x : Nat) : ((curveRhs x : Nat) : Fp) = (x : Fp) ^ 3 + 7 := by
  unfold curveRhs
  rw [cast_mod, Nat.cast_add, Nat.cast_mul, cast_mod, Nat.cast_mul]
  push_cast
  ring

end Bip324.Concrete
