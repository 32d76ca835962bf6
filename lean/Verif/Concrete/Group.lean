import Mathlib.AlgebraicGeometry.EllipticCurve.Affine.Point
import Mathlib.Tactic.FieldSimp
import Verif.Concrete.Field

/-!
# The point arithmetic of `Concrete.Secp256k1` is that of the group of the curve

The Jacobian doubling, addition and multiplication on natural numbers are related to the group that Mathlib
defines on the points of `y² = x³ + 7` over `ZMod p`.
-/

namespace Bip324.Concrete

open WeierstrassCurve

attribute [local irreducible] p256

/-- The curve `y² = x³ + 7`. -/
def secp : Affine Fp := ⟨0, 0, 0, 0, 7⟩

/-- Its group of points. -/
abbrev Pt := secp.Point

theorem small_ne_zero {k : Nat} (h0 : k ≠ 0) (h : k < 2 ^ 64) : ((k : Nat) : Fp) ≠ 0 := by
  rw [Ne, ZMod.natCast_eq_zero_iff]
  intro hd
  have := Nat.le_of_dvd (Nat.pos_of_ne_zero h0) hd
  rw [p256_val] at this
  omega

theorem two_ne : (2 : Fp) ≠ 0 := by
  have := small_ne_zero (k := 2) (by omega) (by omega)
  exact_mod_cast this

theorem secp_disc : secp.Δ ≠ 0 := by
  have h : secp.Δ = -((21168 : Nat) : Fp) := by
    simp only [WeierstrassCurve.Δ, WeierstrassCurve.b₂, WeierstrassCurve.b₄, WeierstrassCurve.b₆,
      WeierstrassCurve.b₈, secp]
    push_cast
    ring
  rw [h, neg_ne_zero]
  exact small_ne_zero (by omega) (by omega)

theorem secp_equation {x y : Fp} : secp.Equation x y ↔ y ^ 2 = x ^ 3 + 7 := by
  rw [Affine.equation_iff]
  simp only [secp]
  ring_nf

theorem secp_nonsingular {x y : Fp} : secp.Nonsingular x y ↔ y ^ 2 = x ^ 3 + 7 := by
  rw [← Affine.equation_iff_nonsingular_of_Δ_ne_zero secp_disc, secp_equation]

theorem secp_negY (x y : Fp) : secp.negY x y = -y := by
  simp [Affine.negY, secp]

/-- The Jacobian triple stands for the point. -/
def Rep (j : JPoint) : Pt → Prop
  | .zero => j.z = 0
  | .some x y _ => (j.z : Fp) ≠ 0 ∧ (j.x : Fp) = x * j.z ^ 2 ∧ (j.y : Fp) = y * j.z ^ 3

theorem Rep.z_zero {j : JPoint} {P : Pt} (h : Rep j P) : j.z = 0 ↔ P = 0 := by
  cases P with
  | zero => exact ⟨fun _ => rfl, fun _ => h⟩
  | some x y hp =>
    refine ⟨fun hz => absurd ?_ h.1, fun hz => by cases hz⟩
    rw [hz]; simp

theorem cast_eq_zero {a : Nat} (h : a < p256) (h0 : (a : Fp) = 0) : a = 0 :=
  eq_of_cast h p256_pos (by simpa using h0)

theorem jdouble_rep {j : JPoint} {P : Pt} (h : Rep j P) : Rep (jdouble j) (P + P) := by
  cases P with
  | zero =>
    have hz : j.z = 0 := h
    have : (Affine.Point.zero : Pt) + Affine.Point.zero = .zero := by
      rw [← Affine.Point.zero_def, add_zero]
    rw [this]
    simp [Rep, jdouble, hz]
  | some x y hp =>
    obtain ⟨hz, hx, hy⟩ := h
    have hc := secp_nonsingular.mp hp
    by_cases hy0 : y = 0
    · have hs : (Affine.Point.some x y hp : Pt) + Affine.Point.some x y hp = 0 := by
        apply Affine.Point.add_self_of_Y_eq
        rw [secp_negY, hy0, neg_zero]
      rw [hs]
      show (jdouble j).z = 0
      refine cast_eq_zero (Nat.mod_lt _ p256_pos) ?_
      show ((2 * j.y * j.z % p256 : Nat) : Fp) = 0
      rw [cast_mod]
      push_cast
      rw [hy, hy0]
      ring
    · have hne : y ≠ secp.negY x y := by
        rw [secp_negY]
        intro he
        have h2 : (2 : Fp) * y = 0 := by linear_combination he
        rcases mul_eq_zero.mp h2 with h2 | h2
        · exact two_ne h2
        · exact hy0 h2
      rw [Affine.Point.add_self_of_Y_ne hne]
      have hsl : secp.slope x x y y = 3 * x ^ 2 / (2 * y) := by
        rw [Affine.slope_of_Y_ne rfl hne, secp_negY]
        simp only [secp]
        congr 1 <;> ring
      have h2y : 2 * y ≠ 0 := mul_ne_zero two_ne hy0
      have two := two_ne
      refine ⟨?_, ?_, ?_⟩
      · show ((2 * j.y * j.z % p256 : Nat) : Fp) ≠ 0
        rw [cast_mod]
        push_cast
        rw [hy]
        exact mul_ne_zero (mul_ne_zero two_ne (mul_ne_zero hy0 (pow_ne_zero _ hz))) hz
      · rw [hsl]
        simp only [jdouble, fsub_cast, cast_mod, Nat.cast_mul, Affine.addX, hx, hy]
        simp only [secp]
        push_cast
        field_simp
        ring
      · rw [hsl]
        simp only [jdouble, fsub_cast, cast_mod, Nat.cast_mul, Affine.addX, Affine.addY, Affine.negAddY,
          Affine.negY, hx, hy]
        simp only [secp]
        push_cast
        field_simp
        ring

theorem jadd_rep {a b : JPoint} {P Q : Pt} (ha : Rep a P) (hb : Rep b Q) : Rep (jadd a b) (P + Q) := by
  unfold jadd
  by_cases hza : a.z = 0
  · rw [if_pos hza, ha.z_zero.mp hza, zero_add]
    exact hb
  by_cases hzb : b.z = 0
  · rw [if_neg hza, if_pos hzb, hb.z_zero.mp hzb, add_zero]
    exact ha
  rw [if_neg hza, if_neg hzb]
  cases P with
  | zero => exact absurd ha hza
  | some x₁ y₁ h₁ =>
  cases Q with
  | zero => exact absurd hb hzb
  | some x₂ y₂ h₂ =>
  obtain ⟨na, hxa, hya⟩ := ha
  obtain ⟨nb, hxb, hyb⟩ := hb
  have c₁ := secp_nonsingular.mp h₁
  have c₂ := secp_nonsingular.mp h₂
  simp only
  have hu : a.x * (b.z * b.z % p256) % p256 = b.x * (a.z * a.z % p256) % p256 ↔ x₁ = x₂ := by
    constructor
    · intro h
      have h := congrArg (Nat.cast : Nat → Fp) h
      simp only [cast_mod, Nat.cast_mul, hxa, hxb] at h
      have hne : (a.z : Fp) ^ 2 * (b.z : Fp) ^ 2 ≠ 0 := mul_ne_zero (pow_ne_zero _ na) (pow_ne_zero _ nb)
      exact mul_right_cancel₀ hne (by linear_combination h)
    · intro h
      refine eq_of_cast (Nat.mod_lt _ p256_pos) (Nat.mod_lt _ p256_pos) ?_
      simp only [cast_mod, Nat.cast_mul, hxa, hxb, h]
      ring
  have hs : a.y * (b.z * b.z % p256) * b.z % p256 = b.y * (a.z * a.z % p256) * a.z % p256 ↔ y₁ = y₂ := by
    constructor
    · intro h
      have h := congrArg (Nat.cast : Nat → Fp) h
      simp only [cast_mod, Nat.cast_mul, hya, hyb] at h
      have hne : (a.z : Fp) ^ 3 * (b.z : Fp) ^ 3 ≠ 0 := mul_ne_zero (pow_ne_zero _ na) (pow_ne_zero _ nb)
      exact mul_right_cancel₀ hne (by linear_combination h)
    · intro h
      refine eq_of_cast (Nat.mod_lt _ p256_pos) (Nat.mod_lt _ p256_pos) ?_
      simp only [cast_mod, Nat.cast_mul, hya, hyb, h]
      ring
  by_cases hx : x₁ = x₂
  · rw [if_pos (hu.mpr hx)]
    by_cases hy : y₁ = y₂
    · rw [if_pos (hs.mpr hy)]
      subst hx; subst hy
      exact jdouble_rep (P := .some x₁ y₁ h₁) ⟨na, hxa, hya⟩
    · rw [if_neg (fun h => hy (hs.mp h))]
      have hneg : y₁ = secp.negY x₂ y₂ := by
        rw [secp_negY]
        have : (y₁ - y₂) * (y₁ + y₂) = 0 := by rw [hx] at c₁; linear_combination c₁ - c₂
        rcases mul_eq_zero.mp this with h | h
        · exact absurd (sub_eq_zero.mp h) hy
        · exact eq_neg_of_add_eq_zero_left h
      rw [Affine.Point.add_of_Y_eq hx hneg]
      exact rfl
  · rw [if_neg (fun h => hx (hu.mp h)), Affine.Point.add_of_X_ne hx]
    have hd : x₁ - x₂ ≠ 0 := sub_ne_zero.mpr hx
    have hsl : secp.slope x₁ x₂ y₁ y₂ = (y₁ - y₂) / (x₁ - x₂) := Affine.slope_of_X_ne hx
    refine ⟨?_, ?_, ?_⟩
    · simp only [fsub_cast, cast_mod, Nat.cast_mul, hxa, hxb]
      have : x₂ * (b.z : Fp) ^ 2 * (a.z * a.z) - x₁ * (a.z : Fp) ^ 2 * (b.z * b.z) =
          -((x₁ - x₂) * (a.z : Fp) ^ 2 * (b.z : Fp) ^ 2) := by ring
      rw [this]
      exact mul_ne_zero (mul_ne_zero (neg_ne_zero.mpr (mul_ne_zero (mul_ne_zero hd (pow_ne_zero _ na))
        (pow_ne_zero _ nb))) na) nb
    · rw [hsl]
      simp only [fsub_cast, cast_mod, Nat.cast_mul, Affine.addX, hxa, hxb, hya, hyb]
      simp only [secp]
      push_cast
      field_simp
      ring
    · rw [hsl]
      simp only [fsub_cast, cast_mod, Nat.cast_mul, Affine.addX, Affine.addY, Affine.negAddY,
        Affine.negY, hxa, hxb, hya, hyb]
      simp only [secp]
      push_cast
      field_simp
      ring

theorem jmul_rep (fuel : Nat) : ∀ {k : Nat} {a : JPoint} {P : Pt}, k < 2 ^ fuel → Rep a P →
    Rep (jmul fuel k a) (k • P) := by
  induction fuel with
  | zero =>
    intro k a P hk _
    have : k = 0 := by simpa using hk
    subst this
    rw [zero_nsmul]
    exact rfl
  | succ fuel ih =>
    intro k a P hk ha
    have hk2 : k / 2 < 2 ^ fuel := by rw [pow_succ] at hk; omega
    have hr := ih hk2 (jdouble_rep ha)
    rw [← two_nsmul, ← mul_nsmul, ] at hr
    unfold jmul
    simp only
    split
    · have := jadd_rep hr ha
      rwa [← succ_nsmul, show 2 * (k / 2) + 1 = k by omega] at this
    · rwa [show 2 * (k / 2) = k by omega] at hr

/-- The `x` coordinate of a point as a number; 0 at infinity. -/
def ptX : Pt → Nat
  | .zero => 0
  | .some x _ _ => x.val

theorem jx_rep {j : JPoint} {P : Pt} (h : Rep j P) : jx j = ptX P := by
  cases P with
  | zero =>
    have hz : j.z = 0 := h
    refine eq_of_cast (fdiv_lt _ _) p256_pos ?_
    rw [jx, fdiv_cast, hz]
    simp [ptX]
  | some x y hp =>
    refine eq_of_cast (fdiv_lt _ _) (ZMod.val_lt x) ?_
    rw [jx, fdiv_cast, Nat.cast_mul, h.2.1, ptX, ZMod.natCast_zmod_val]
    have := h.1
    field_simp

theorem ptX_neg (P : Pt) : ptX (-P) = ptX P := by
  cases P with
  | zero => rfl
  | some x y hp => rw [Affine.Point.neg_some]; rfl

/-- The lift of the coordinate of a point stands for the point or for its opposite. -/
theorem liftX_rep {P : Pt} (h : P ≠ 0) : Rep (liftX (ptX P)) P ∨ Rep (liftX (ptX P)) (-P) := by
  cases P with
  | zero => exact absurd rfl h
  | some x y hp =>
    have hc := secp_nonsingular.mp hp
    have hv : ((x.val : Nat) : Fp) = x := ZMod.natCast_zmod_val x
    have hsq : y ^ 2 = ((curveRhs x.val : Nat) : Fp) := by rw [curveRhs_cast, hv, hc]
    obtain ⟨r, hr⟩ := fsqrt_exists hsq
    have hr2 := fsqrt_some hr
    rw [← hsq] at hr2
    have hl : liftX (ptX (.some x y hp)) = ⟨x.val, r, 1⟩ := by
      show liftX x.val = _
      rw [liftX, hr]; rfl
    rw [hl]
    rcases sq_eq_sq_iff_eq_or_eq_neg.mp hr2 with h | h
    · left
      refine ⟨?_, ?_, ?_⟩ <;> simp [hv, h]
    · right
      rw [Affine.Point.neg_some]
      refine ⟨?_, ?_, ?_⟩ <;> simp [hv, h, secp]

end Bip324.Concrete
