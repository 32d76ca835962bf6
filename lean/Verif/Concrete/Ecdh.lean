import Mathlib.NumberTheory.LegendreSymbol.QuadraticChar.Basic
import Verif.Concrete.Group
import Verif.Concrete.Instance

/-!
# The key exchange of BIP-324 over secp256k1

The order of the generator, the validity of every ElligatorSwift encoding, and the agreement of the two sides.
-/

namespace Bip324.Concrete

open WeierstrassCurve

/-- The generator is a point. -/
theorem gen_rhs : gen.y * gen.y % p256 = curveRhs gen.x := by decide +kernel

theorem gen_order_jac : (jmul 256 n256 gen).z = 0 := by decide +kernel

theorem minus3Sqrt_sq : minus3Sqrt * minus3Sqrt % p256 = p256 - 3 := by decide +kernel

theorem neg7_not_cube_jac : fpow 256 (p256 - 7) ((p256 - 1) / 3) ≠ 1 := by decide +kernel

theorem p256_mod3 : (p256 - 1) / 3 * 3 = p256 - 1 := by decide +kernel

theorem n256_lt : n256 < 2 ^ 256 := by decide +kernel

attribute [local irreducible] p256 n256

theorem gen_curve : secp.Nonsingular (gen.x : Fp) (gen.y : Fp) := by
  rw [secp_nonsingular]
  have h := congrArg (Nat.cast : Nat → Fp) gen_rhs
  rw [cast_mod, Nat.cast_mul, curveRhs_cast] at h
  rw [pow_two, h]

/-- The generator in the group. -/
def G : Pt := .some (gen.x : Fp) (gen.y : Fp) gen_curve

theorem gen_rep : Rep gen G := by
  have hz : gen.z = 1 := rfl
  refine ⟨?_, ?_, ?_⟩ <;> rw [hz] <;> simp

theorem G_ne_zero : G ≠ 0 := Affine.Point.some_ne_zero _

theorem G_order : n256 • G = 0 := (jmul_rep 256 n256_lt gen_rep).z_zero.mp gen_order_jac

theorem G_addOrder : addOrderOf G = n256 := by
  have : Fact n256.Prime := ⟨n256_prime⟩
  exact addOrderOf_eq_prime G_order G_ne_zero

/-- Multiples of the generator by secrets are not the point at infinity. -/
theorem mul_G_ne_zero {k : Nat} (h0 : 0 < k) (h : k < n256) : k • G ≠ 0 := by
  intro hk
  have := addOrderOf_dvd_of_nsmul_eq_zero hk
  rw [G_addOrder] at this
  exact absurd (Nat.le_of_dvd h0 this) (by omega)

/-- The coordinate that the multiplication of the code computes. -/
theorem jx_mul_gen {k : Nat} (h : k < 2 ^ 256) : jx (jmul 256 k gen) = ptX (k • G) :=
  jx_rep (jmul_rep 256 h gen_rep)

/-- Multiplying the lift of the coordinate of a point. -/
theorem jx_mul_lift {k : Nat} (h : k < 2 ^ 256) {P : Pt} (hP : P ≠ 0) :
    jx (jmul 256 k (liftX (ptX P))) = ptX (k • P) := by
  rcases liftX_rep hP with hr | hr
  · exact jx_rep (jmul_rep 256 h hr)
  · rw [jx_rep (jmul_rep 256 h hr), neg_nsmul, ptX_neg]

theorem ptX_inj {P Q : Pt} (hP : P ≠ 0) (hQ : Q ≠ 0) (h : ptX P = ptX Q) : P = Q ∨ P = -Q := by
  cases P with
  | zero => exact absurd rfl hP
  | some x y hp =>
  cases Q with
  | zero => exact absurd rfl hQ
  | some x' y' hq =>
    have hx : x = x' := ZMod.val_injective _ h
    exact Affine.Point.X_eq_iff.mp hx

/-! ## Every encoding is valid -/

theorem isValidX_iff (x : Nat) : isValidX x = true ↔ ∃ y : Fp, y ^ 2 = (x : Fp) ^ 3 + 7 := by
  unfold isValidX
  constructor
  · intro h
    obtain ⟨r, hr⟩ := Option.isSome_iff_exists.mp h
    exact ⟨r, by rw [fsqrt_some hr, curveRhs_cast]⟩
  · rintro ⟨y, hy⟩
    rw [← curveRhs_cast] at hy
    obtain ⟨r, hr⟩ := fsqrt_exists hy
    rw [hr]; rfl

/-- The curve has no point of order two. -/
theorem rhs_ne_zero (u : Fp) : u ^ 3 + 7 ≠ 0 := by
  intro h
  have hu : u ^ 3 = -7 := eq_neg_of_add_eq_zero_left h
  have h7 : (7 : Fp) ≠ 0 := by
    have := small_ne_zero (k := 7) (by omega) (by omega)
    exact_mod_cast this
  have hu0 : u ≠ 0 := by rintro rfl; simp at h; exact h7 h
  have hpow : (-7 : Fp) ^ ((p256 - 1) / 3) = 1 := by
    rw [← hu, ← pow_mul, mul_comm 3, p256_mod3, ZMod.pow_card_sub_one_eq_one hu0]
  apply neg7_not_cube_jac
  have hlt : ∀ fuel b e, fpow fuel b e < p256 := by
    intro fuel
    induction fuel with
    | zero => intro b e; exact p256_prime.one_lt
    | succ fuel ih =>
      intro b e
      unfold fpow
      simp only
      split
      · exact Nat.mod_lt _ p256_pos
      · exact ih _ _
  refine eq_of_cast (hlt _ _ _) p256_prime.one_lt ?_
  rw [fpow_cast 256 _ _ (by rw [p256_val]; omega), Nat.cast_sub (by rw [p256_val]; omega), cast_p]
  push_cast
  rw [zero_sub, hpow]

theorem square_of_mul3 {a b c y : Fp} (h : a * b * c = y ^ 2) : IsSquare a ∨ IsSquare b ∨ IsSquare c := by
  by_contra hn
  push Not at hn
  obtain ⟨ha, hb, hc⟩ := hn
  have hF : ringChar Fp ≠ 2 := by
    rw [ZMod.ringChar_zmod_n, p256_val]; omega
  have ha' := (quadraticChar_neg_one_iff_not_isSquare).mpr ha
  have hb' := (quadraticChar_neg_one_iff_not_isSquare).mpr hb
  have hc' := (quadraticChar_neg_one_iff_not_isSquare).mpr hc
  have hm : quadraticChar Fp (a * b * c) = -1 := by rw [map_mul, map_mul, ha', hb', hc']; norm_num
  exact quadraticChar_neg_one_iff_not_isSquare.mp hm ⟨y, by rw [h, pow_two]⟩

/-- One of the three candidates of `XSwiftEC` is the coordinate of a point. -/
theorem candidates {u X Y : Fp} (hY : Y ≠ 0) (h : X ^ 2 + 3 * u ^ 2 * Y ^ 2 + u ^ 3 + 7 = 0) :
    IsSquare ((u + 4 * Y ^ 2) ^ 3 + 7) ∨ IsSquare (((-(X / Y) - u) / 2) ^ 3 + 7)
      ∨ IsSquare (((X / Y - u) / 2) ^ 3 + 7) := by
  have two := two_ne
  obtain ⟨w, hw⟩ : ∃ w, w = X / Y := ⟨_, rfl⟩
  obtain ⟨v, hv⟩ : ∃ v, v = (w - u) / 2 := ⟨_, rfl⟩
  have hwv : w = 2 * v + u := by rw [hv]; field_simp; ring
  have h2 : (-w - u) / 2 = -u - v := by rw [hwv]; field_simp; ring
  rw [← hw, ← hv, h2]
  have hX : X = w * Y := by rw [hw]; field_simp
  obtain ⟨D, hD⟩ : ∃ D, D = u ^ 2 + u * v + v ^ 2 := ⟨_, rfl⟩
  have hDY : 4 * D * Y ^ 2 = -(u ^ 3 + 7) := by
    rw [hX, hwv] at h
    rw [hD]
    linear_combination h
  have hD0 : D ≠ 0 := by
    intro h0
    rw [h0] at hDY
    apply rhs_ne_zero u
    linear_combination hDY
  have h3 : u + 4 * Y ^ 2 = (u ^ 2 * v + u * v ^ 2 - 7) / D := by
    rw [eq_div_iff hD0]
    rw [hD] at hDY ⊢
    linear_combination hDY
  obtain ⟨N, hN⟩ : ∃ N, N = (u ^ 2 * v + u * v ^ 2 - 7) ^ 3 + 7 * D ^ 3 := ⟨_, rfl⟩
  have hprod : (u ^ 3 + 7) * (v ^ 3 + 7) * ((-u - v) ^ 3 + 7) = -N := by
    rw [hN, hD]; ring
  have h3' : (u + 4 * Y ^ 2) ^ 3 + 7 = N / D ^ 3 := by
    rw [h3, hN]; field_simp
  rw [h3']
  refine square_of_mul3 (y := N / (D ^ 2 * (2 * Y))) ?_
  have h2Y : (2 * Y) ≠ 0 := mul_ne_zero two hY
  have e : N * ((-u - v) ^ 3 + 7) * (v ^ 3 + 7) * (4 * D * Y ^ 2) = N ^ 2 := by
    rw [hDY]
    linear_combination -N * hprod
  rw [div_pow, eq_div_iff (pow_ne_zero _ (mul_ne_zero (pow_ne_zero _ hD0) h2Y)), ← e]
  field_simp
  ring

theorem xswiftec_valid (u t : Nat) : isValidX (xswiftec u t) = true := by
  have two := two_ne
  unfold xswiftec
  simp only
  obtain ⟨u', hu'⟩ : ∃ u', u' = if u % p256 = 0 then 1 else u % p256 := ⟨_, rfl⟩
  obtain ⟨t', ht'⟩ : ∃ t', t' = if t % p256 = 0 then 1 else t % p256 := ⟨_, rfl⟩
  rw [← hu', ← ht']
  have nz : ∀ {a b : Nat}, b = (if a % p256 = 0 then 1 else a % p256) → (b : Fp) ≠ 0 := by
    intro a b hb
    split at hb
    · rw [hb]; simp
    · rename_i h0
      intro hc
      rw [hb] at hc
      exact h0 (cast_eq_zero (Nat.mod_lt _ p256_pos) hc)
  have nu : (u' : Fp) ≠ 0 := nz hu'
  have nt : (t' : Fp) ≠ 0 := nz ht'
  clear hu' ht'
  obtain ⟨t'', ht''⟩ : ∃ t'', t'' = if (u' * u' % p256 * u' % p256 + t' * t' + 7) % p256 = 0 then
      2 * t' % p256 else t' := ⟨_, rfl⟩
  rw [← ht'']
  have hzero : (u' * u' % p256 * u' % p256 + t' * t' + 7) % p256 = 0 ↔
      (u' : Fp) ^ 3 + (t' : Fp) ^ 2 + 7 = 0 := by
    have e : (((u' * u' % p256 * u' % p256 + t' * t' + 7) % p256 : Nat) : Fp)
        = (u' : Fp) ^ 3 + (t' : Fp) ^ 2 + 7 := by
      rw [cast_mod, Nat.cast_add, Nat.cast_add, cast_mod, Nat.cast_mul, cast_mod, Nat.cast_mul, Nat.cast_mul]
      push_cast
      ring
    rw [← e]
    exact ⟨fun h => by rw [h]; simp, fun h => cast_eq_zero (Nat.mod_lt _ p256_pos) h⟩
  have three : (3 : Fp) ≠ 0 := by
    have := small_ne_zero (k := 3) (by omega) (by omega)
    exact_mod_cast this
  have nt2 : (t'' : Fp) ≠ 0 := by
    split at ht''
    · rw [ht'', cast_mod]
      push_cast
      exact mul_ne_zero two nt
    · rw [ht'']; exact nt
  have nsum : (u' : Fp) ^ 3 + (t'' : Fp) ^ 2 + 7 ≠ 0 := by
    split at ht''
    · rename_i h0
      rw [ht'', cast_mod]
      push_cast
      intro h
      have h0 := hzero.mp h0
      have : (3 : Fp) * (t' : Fp) ^ 2 = 0 := by linear_combination h - h0
      exact mul_ne_zero three (pow_ne_zero _ nt) this
    · rename_i h0
      rw [ht'']
      exact fun h => h0 (hzero.mpr h)
  clear ht'' hzero
  -- the candidates in the field
  obtain ⟨x, hx⟩ : ∃ x, x = fdiv (fsub (u' * u' % p256 * u' % p256 + 7) (t'' * t'')) (2 * t'') := ⟨_, rfl⟩
  rw [← hx]
  obtain ⟨y, hy⟩ : ∃ y, y = fdiv (x + t'') (minus3Sqrt * u') := ⟨_, rfl⟩
  rw [← hy]
  have hc : (minus3Sqrt : Fp) ^ 2 = -3 := by
    have h := congrArg (Nat.cast : Nat → Fp) minus3Sqrt_sq
    rw [cast_mod, Nat.cast_mul, Nat.cast_sub (by rw [p256_val]; omega), cast_p] at h
    rw [pow_two, h]
    push_cast
    ring
  have nc : (minus3Sqrt : Fp) ≠ 0 := by
    intro h
    rw [h] at hc
    apply three
    linear_combination hc
  have hxF : 2 * (t'' : Fp) * x = (u' : Fp) ^ 3 + 7 - (t'' : Fp) ^ 2 := by
    rw [hx, fdiv_cast, fsub_cast, Nat.cast_add, cast_mod, Nat.cast_mul, cast_mod, Nat.cast_mul, Nat.cast_mul,
      Nat.cast_mul]
    push_cast
    field_simp
  have hyF : (minus3Sqrt : Fp) * u' * y = x + t'' := by
    rw [hy, fdiv_cast]
    push_cast
    field_simp
  have nY : (y : Fp) ≠ 0 := by
    intro h
    rw [h] at hyF
    apply nsum
    have : (x : Fp) = -t'' := by linear_combination -hyF
    rw [this] at hxF
    linear_combination -hxF
  have key : (x : Fp) ^ 2 + 3 * (u' : Fp) ^ 2 * (y : Fp) ^ 2 + (u' : Fp) ^ 3 + 7 = 0 := by
    have h1 : (u' : Fp) ^ 3 + 7 = ((x : Fp) + t'') ^ 2 - (x : Fp) ^ 2 := by linear_combination -hxF
    have h2 : ((x : Fp) + t'') ^ 2 = -3 * (u' : Fp) ^ 2 * (y : Fp) ^ 2 := by
      rw [← hyF, mul_pow, mul_pow, hc]
    linear_combination h1 + h2
  have cand := candidates nY key
  have val : ∀ {n : Nat} {f : Fp}, (n : Fp) = f → IsSquare (f ^ 3 + 7) → isValidX n = true := by
    intro n f hf hs
    obtain ⟨r, hr⟩ := hs
    exact (isValidX_iff n).mpr ⟨r, by rw [hf, hr, pow_two]⟩
  have e3 : (((u' + 4 * y * y) % p256 : Nat) : Fp) = (u' : Fp) + 4 * (y : Fp) ^ 2 := by
    rw [cast_mod]; push_cast; ring
  have e2 : ((fdiv (fsub (fneg (fdiv x y)) u') 2 : Nat) : Fp) = (-((x : Fp) / y) - u') / 2 := by
    rw [fdiv_cast, fsub_cast, fneg_cast, fdiv_cast]; push_cast; rfl
  have e1 : ((fdiv (fsub (fdiv x y) u') 2 : Nat) : Fp) = ((x : Fp) / y - u') / 2 := by
    rw [fdiv_cast, fsub_cast, fdiv_cast]; push_cast; rfl
  split
  · assumption
  · rename_i n3
    split
    · assumption
    · rename_i n2
      rcases cand with c | c | c
      · exact absurd (val e3 c) n3
      · exact absurd (val e2 c) n2
      · exact val e1 c

end Bip324.Concrete
