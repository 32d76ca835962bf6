import Mathlib.Algebra.Order.Field.Power
import Mathlib.Algebra.Order.Field.Rat
import Mathlib.Tactic.Ring
import Mathlib.Tactic.Linarith
import Mathlib.Tactic.FieldSimp
import Mathlib.Tactic.NormNum
import Mathlib.Tactic.Positivity
import Verif.Model.Ratio
import Verif.Props.Stats

/-!
# C60: what the ratio tells
-/

namespace Bip324

/-! ## Specification -/

/-- The number that an `f64` is. -/
def F64.val (x : F64) : ℚ := x.mant * 2 ^ x.exp

/-- The non-negative finite numbers of IEEE 754 `binary64`. -/
def F64.IsDouble (x : F64) : Prop := x.mant < 2 ^ 53 ∧ -1074 ≤ x.exp ∧ x.exp ≤ 971

/-- No `f64` is nearer to `q` than `x`, and if there is another one as near then `x` is even. -/
structure F64.Nearest (q : ℚ) (x : F64) : Prop where
  double : x.IsDouble
  least : ∀ y : F64, y.IsDouble → |q - x.val| ≤ |q - y.val|
  even : (∃ y : F64, y.IsDouble ∧ y.val ≠ x.val ∧ |q - y.val| = |q - x.val|) → x.mant % 2 = 0

/-! ## Rounding -/

theorem divNearest_spec (a : Nat) {b : Nat} (hb : 0 < b) :
    |(a : ℚ) / b - divNearest a b| ≤ 1 / 2 ∧
    (|(a : ℚ) / b - divNearest a b| = 1 / 2 → divNearest a b % 2 = 0) := by
  have hb' : (0 : ℚ) < b := by exact_mod_cast hb
  have hab : (a : ℚ) / b = (a / b : Nat) + ((a % b : Nat) : ℚ) / b := by
    have : (a : ℚ) = b * (a / b : Nat) + (a % b : Nat) := by exact_mod_cast (Nat.div_add_mod a b).symm
    field_simp
    linarith
  have hr : a % b < b := Nat.mod_lt _ hb
  have h0 : (0 : ℚ) ≤ ((a % b : Nat) : ℚ) / b := by positivity
  rw [hab]
  unfold divNearest
  simp only
  split
  · rename_i h
    have h' : 2 * ((a % b : Nat) : ℚ) < b := by exact_mod_cast h
    have : ((a % b : Nat) : ℚ) / b < 1 / 2 := by rw [div_lt_div_iff₀ hb' (by norm_num)]; linarith
    rw [add_sub_cancel_left, abs_of_nonneg h0]
    exact ⟨this.le, fun h => absurd h this.ne⟩
  · split
    · rename_i h
      have h' : (b : ℚ) < 2 * ((a % b : Nat) : ℚ) := by exact_mod_cast h
      have h1 : 1 / 2 < ((a % b : Nat) : ℚ) / b := by rw [div_lt_div_iff₀ (by norm_num) hb']; linarith
      have h2 : ((a % b : Nat) : ℚ) / b < 1 := by rw [div_lt_one hb']; exact_mod_cast hr
      have e : ((a / b : Nat) : ℚ) + ((a % b : Nat) : ℚ) / b - ((a / b + 1 : Nat) : ℚ) =
          -(1 - ((a % b : Nat) : ℚ) / b) := by push_cast; ring
      rw [e, abs_neg, abs_of_nonneg (by linarith)]
      exact ⟨by linarith, fun h => by linarith⟩
    · rename_i h1 h2
      have h' : 2 * ((a % b : Nat) : ℚ) = b := by
        have : 2 * (a % b) = b := by omega
        exact_mod_cast this
      have h3 : ((a % b : Nat) : ℚ) / b = 1 / 2 := by rw [div_eq_div_iff hb'.ne' (by norm_num)]; linarith
      split
      · rename_i h
        rw [h3, add_sub_cancel_left]
        exact ⟨by norm_num [abs_of_pos], fun _ => h⟩
      · rename_i h
        have e : ((a / b : Nat) : ℚ) + 1 / 2 - ((a / b + 1 : Nat) : ℚ) = -(1 / 2) := by push_cast; ring
        rw [h3, e, abs_neg]
        exact ⟨by norm_num [abs_of_pos], fun _ => by omega⟩

theorem two_pos : (0 : ℚ) < 2 := by norm_num

/-- Scaling by a power of two with an integer exponent. -/
theorem scale (num den : Nat) (e : Int) :
    ((num * 2 ^ (-e).toNat : Nat) : ℚ) / ((den * 2 ^ e.toNat : Nat) : ℚ) = (num : ℚ) / den * 2 ^ (-e) := by
  rcases Int.le_total 0 e with h | h
  · obtain ⟨n, rfl⟩ := Int.eq_ofNat_of_zero_le h
    have e1 : (-(n : Int)).toNat = 0 := by omega
    have e2 : ((n : Int)).toNat = n := by omega
    simp only [e1, e2, pow_zero, mul_one, zpow_neg, zpow_natCast]
    push_cast
    rw [div_mul_eq_div_div, div_eq_mul_inv]
  · obtain ⟨n, hn⟩ := Int.eq_ofNat_of_zero_le (show 0 ≤ -e by omega)
    have e0 : e = -(n : Int) := by omega
    subst e0
    have e1 : (-(-(n : Int))).toNat = n := by omega
    have e2 : (-(n : Int)).toNat = 0 := by omega
    simp only [e2, pow_zero, mul_one, neg_neg, zpow_natCast, Int.toNat_natCast]
    push_cast
    rw [mul_div_right_comm]

/-- The exponent is such that the mantissa has 53 bits. -/
theorem quotExp_spec {num den : Nat} (hn : 0 < num) (hd : 0 < den) :
    (2 : ℚ) ^ 52 ≤ (num : ℚ) / den * 2 ^ (-quotExp num den) ∧
    (num : ℚ) / den * 2 ^ (-quotExp num den) < 2 ^ 53 := by
  have hd' : (0 : ℚ) < den := by exact_mod_cast hd
  have hn' : (0 : ℚ) < num := by exact_mod_cast hn
  have n1 : (2 : ℚ) ^ (num.log2 : Int) ≤ num := by
    rw [zpow_natCast]; exact_mod_cast Nat.log2_self_le (by omega)
  have n2 : (num : ℚ) < 2 ^ ((num.log2 : Int) + 1) := by
    have : num < 2 ^ (num.log2 + 1) := Nat.lt_log2_self
    have e : ((num.log2 : Int) + 1) = ((num.log2 + 1 : Nat) : Int) := by push_cast; ring
    rw [e, zpow_natCast]; exact_mod_cast this
  have d1 : (2 : ℚ) ^ (den.log2 : Int) ≤ den := by
    rw [zpow_natCast]; exact_mod_cast Nat.log2_self_le (by omega)
  have d2 : (den : ℚ) < 2 ^ ((den.log2 : Int) + 1) := by
    have : den < 2 ^ (den.log2 + 1) := Nat.lt_log2_self
    have e : ((den.log2 : Int) + 1) = ((den.log2 + 1 : Nat) : Int) := by push_cast; ring
    rw [e, zpow_natCast]; exact_mod_cast this
  have two : (2 : ℚ) ≠ 0 := by norm_num
  -- the quotient is between two powers
  have q2 : (num : ℚ) / den < 2 ^ ((num.log2 : Int) - den.log2 + 1) := by
    rw [div_lt_iff₀ hd']
    have : (2 : ℚ) ^ ((num.log2 : Int) + 1) ≤ 2 ^ ((num.log2 : Int) - den.log2 + 1) * den := by
      calc (2 : ℚ) ^ ((num.log2 : Int) + 1)
          = 2 ^ ((num.log2 : Int) - den.log2 + 1) * 2 ^ (den.log2 : Int) := by
            rw [← zpow_add₀ two]; congr 1; ring
        _ ≤ _ := by gcongr
    linarith
  have q1 : (2 : ℚ) ^ ((num.log2 : Int) - den.log2 - 1) < (num : ℚ) / den := by
    rw [lt_div_iff₀ hd']
    have : (2 : ℚ) ^ ((num.log2 : Int) - den.log2 - 1) * den < 2 ^ (num.log2 : Int) := by
      calc (2 : ℚ) ^ ((num.log2 : Int) - den.log2 - 1) * den
          < 2 ^ ((num.log2 : Int) - den.log2 - 1) * 2 ^ ((den.log2 : Int) + 1) := by gcongr
        _ = _ := by rw [← zpow_add₀ two]; congr 1; ring
    linarith
  generalize hl : (num.log2 : Int) - den.log2 = l at q1 q2
  have hc : num * 2 ^ (-l).toNat < den * 2 ^ l.toNat ↔ (num : ℚ) / den < 2 ^ l := by
    have h0 : (0 : ℚ) < ((den * 2 ^ l.toNat : Nat) : ℚ) := by positivity
    have := scale num den l
    rw [← Nat.cast_lt (α := ℚ), ← div_lt_one h0, this, zpow_neg, ← div_eq_mul_inv, div_lt_one (by positivity)]
  have key : ∀ k : Int, quotExp num den = k - 52 → (2 : ℚ) ^ k ≤ (num : ℚ) / den →
      (num : ℚ) / den < 2 ^ (k + 1) → (2 : ℚ) ^ 52 ≤ (num : ℚ) / den * 2 ^ (-quotExp num den) ∧
        (num : ℚ) / den * 2 ^ (-quotExp num den) < 2 ^ 53 := by
    intro k hk a b
    rw [hk]
    have e1 : (2 : ℚ) ^ (52 : Nat) = 2 ^ k * 2 ^ (-(k - 52)) := by
      rw [← zpow_add₀ two, ← zpow_natCast]; congr 1; push_cast; ring
    have e2 : (2 : ℚ) ^ (53 : Nat) = 2 ^ (k + 1) * 2 ^ (-(k - 52)) := by
      rw [← zpow_add₀ two, ← zpow_natCast]; congr 1; push_cast; ring
    rw [e1, e2]
    exact ⟨by gcongr, by gcongr⟩
  by_cases h : num * 2 ^ (-l).toNat < den * 2 ^ l.toNat
  · refine key (l - 1) ?_ q1.le ?_
    · unfold quotExp; simp only [hl]; rw [if_pos h]
    · rw [show l - 1 + 1 = l by ring]; exact hc.1 h
  · refine key l ?_ ?_ q2
    · unfold quotExp; simp only [hl]; rw [if_neg h]
    · exact not_lt.1 (fun h' => h (hc.2 h'))

/-- What `ofQuot` is. -/
theorem ofQuot_spec {num den : Nat} (hn : 0 < num) (hd : 0 < den) :
    ∃ (m : Nat) (e : Int), e = quotExp num den ∧ 2 ^ 52 ≤ m ∧ m ≤ 2 ^ 53 ∧
      (F64.ofQuot num den).val = m * 2 ^ e ∧
      |(num : ℚ) / den * 2 ^ (-e) - m| ≤ 1 / 2 ∧
      (|(num : ℚ) / den * 2 ^ (-e) - m| = 1 / 2 → m % 2 = 0) ∧
      (F64.ofQuot num den = ⟨m, e⟩ ∧ m < 2 ^ 53 ∨ F64.ofQuot num den = ⟨2 ^ 52, e + 1⟩ ∧ m = 2 ^ 53) := by
  obtain ⟨l1, l2⟩ := quotExp_spec hn hd
  have two : (2 : ℚ) ≠ 0 := by norm_num
  generalize he : quotExp num den = e at l1 l2
  have hpos : 0 < den * 2 ^ e.toNat := by positivity
  obtain ⟨s1, s2⟩ := divNearest_spec (num * 2 ^ (-e).toNat) hpos
  rw [scale] at s1 s2
  generalize hm : divNearest (num * 2 ^ (-e).toNat) (den * 2 ^ e.toNat) = m at s1 s2
  have hs := abs_le.1 s1
  have m1 : 2 ^ 52 ≤ m := by
    by_contra h
    have : m + 1 ≤ 2 ^ 52 := by omega
    have : (m : ℚ) + 1 ≤ 2 ^ 52 := by exact_mod_cast this
    linarith
  have m2 : m ≤ 2 ^ 53 := by
    by_contra h
    have : 2 ^ 53 + 1 ≤ m := by omega
    have : (2 : ℚ) ^ 53 + 1 ≤ m := by exact_mod_cast this
    linarith
  have hf : F64.ofQuot num den = if m = 2 ^ 53 then ⟨2 ^ 52, e + 1⟩ else ⟨m, e⟩ := by
    unfold F64.ofQuot
    rw [if_neg (by omega)]
    simp only [he, hm]
  refine ⟨m, e, rfl, m1, m2, ?_, s1, s2, ?_⟩
  · rw [hf]
    split
    · rename_i h
      subst h
      unfold F64.val
      simp only [zpow_add₀ two]
      push_cast
      ring
    · rfl
  · rw [hf]
    by_cases h : m = 2 ^ 53
    · rw [if_pos h]; exact .inr ⟨rfl, h⟩
    · rw [if_neg h]; exact .inl ⟨rfl, by omega⟩

/-- An `f64`, in units of a power of two, is a whole number or below `2^52`. -/
theorem double_units {y : F64} (hy : y.IsDouble) (e : Int) :
    (∃ k : Nat, y.val = k * 2 ^ e) ∨ y.val < 2 ^ 52 * 2 ^ e := by
  have two : (2 : ℚ) ≠ 0 := by norm_num
  obtain ⟨h1, -, -⟩ := hy
  rcases Int.lt_or_le y.exp e with h | h
  · refine .inr ?_
    have a : (y.mant : ℚ) < 2 ^ 53 := by exact_mod_cast h1
    have b : (2 : ℚ) ^ y.exp ≤ 2 ^ (e - 1) := zpow_le_zpow_right₀ (by norm_num) (by omega)
    unfold F64.val
    calc (y.mant : ℚ) * 2 ^ y.exp < 2 ^ 53 * 2 ^ y.exp := by gcongr
      _ ≤ 2 ^ 53 * 2 ^ (e - 1) := by gcongr
      _ = 2 ^ 52 * 2 ^ e := by rw [zpow_sub₀ two]; norm_num; ring
  · refine .inl ⟨y.mant * 2 ^ (y.exp - e).toNat, ?_⟩
    unfold F64.val
    have : (2 : ℚ) ^ y.exp = 2 ^ (y.exp - e).toNat * 2 ^ e := by
      rw [← zpow_natCast, ← zpow_add₀ two]; congr 1; omega
    rw [this]; push_cast; ring

/-- The nearest whole number is nearer than any other. -/
theorem nearest_whole {Q : ℚ} {m : Nat} (h : |Q - m| ≤ 1 / 2) (k : Nat) (hk : (k : ℚ) ≠ m) :
    |Q - m| ≤ |Q - k| ∧ (|Q - k| = |Q - m| → |Q - m| = 1 / 2) := by
  have h1 : (1 : ℚ) ≤ |(k : ℚ) - m| := by
    have hk' : k ≠ m := fun e => hk (by rw [e])
    rcases Nat.lt_or_gt_of_ne hk' with hlt | hlt
    · have : (k : ℚ) + 1 ≤ m := by exact_mod_cast hlt
      rw [abs_of_nonpos (by linarith)]; linarith
    · have : (m : ℚ) + 1 ≤ k := by exact_mod_cast hlt
      rw [abs_of_nonneg (by linarith)]; linarith
  have h2 : |(k : ℚ) - m| ≤ |Q - k| + |Q - m| := by
    have := abs_sub_le (k : ℚ) Q m
    rwa [abs_sub_comm (k : ℚ) Q] at this
  exact ⟨by linarith, fun e => le_antisymm h (by linarith)⟩

/-- The rounding is that of IEEE 754, for quotients within the normal numbers. -/
theorem ofQuot_nearest {num den : Nat} (hn : 0 < num) (hd : 0 < den) (h1 : -1074 ≤ quotExp num den)
    (h2 : quotExp num den < 971) : (F64.ofQuot num den).Nearest ((num : ℚ) / den) := by
  obtain ⟨m, e, he, m1, m2, hv, s1, s2, hx⟩ := ofQuot_spec hn hd
  rw [← he] at h1 h2
  obtain ⟨l1, -⟩ := quotExp_spec hn hd
  rw [← he] at l1
  have two : (2 : ℚ) ≠ 0 := by norm_num
  have pe : (0 : ℚ) < 2 ^ e := by positivity
  generalize (num : ℚ) / den = q at *
  have unit : (2 : ℚ) ^ (-e) * 2 ^ e = 1 := by rw [← zpow_add₀ two]; simp
  have dist : ∀ t : ℚ, |q - t * 2 ^ e| = |q * 2 ^ (-e) - t| * 2 ^ e := by
    intro t
    have : q - t * 2 ^ e = (q * 2 ^ (-e) - t) * 2 ^ e := by
      rw [sub_mul, mul_assoc, unit, mul_one]
    rw [this, abs_mul, abs_of_pos pe]
  generalize hQ : q * 2 ^ (-e) = Q at *
  -- anything else is at least as far away
  have far : ∀ y : F64, y.IsDouble → y.val ≠ m * 2 ^ e →
      |q - m * 2 ^ e| ≤ |q - y.val| ∧ (|q - y.val| = |q - m * 2 ^ e| → |Q - m| = 1 / 2) := by
    intro y hy hne
    rcases double_units hy e with ⟨k, hk⟩ | hlt
    · have hkm : (k : ℚ) ≠ m := fun h => hne (by rw [hk, h])
      obtain ⟨a, b⟩ := nearest_whole s1 k hkm
      rw [hk, dist, dist]
      refine ⟨by gcongr, fun h => b ?_⟩
      exact mul_right_cancel₀ pe.ne' h
    · have hq : (2 : ℚ) ^ 52 * 2 ^ e ≤ q := by
        have : q = Q * 2 ^ e := by rw [← hQ, mul_assoc, unit, mul_one]
        rw [this]; gcongr
      have hlt' : |q - m * 2 ^ e| < |q - y.val| := by
        have a : |q - m * 2 ^ e| ≤ |q - ((2 ^ 52 : Nat) : ℚ) * 2 ^ e| := by
          rw [dist, dist]
          by_cases hm : ((2 ^ 52 : Nat) : ℚ) = m
          · rw [hm]
          · have := (nearest_whole s1 _ hm).1
            gcongr
        have b : |q - ((2 ^ 52 : Nat) : ℚ) * 2 ^ e| = q - 2 ^ 52 * 2 ^ e := by
          rw [show ((2 ^ 52 : Nat) : ℚ) = 2 ^ 52 by norm_num, abs_of_nonneg (by linarith)]
        have c : |q - y.val| = q - y.val := by rw [abs_of_nonneg (by linarith)]
        rw [c]; rw [b] at a; linarith
      exact ⟨hlt'.le, fun h => absurd h hlt'.ne'⟩
  refine ⟨?_, ?_, ?_⟩
  · rcases hx with ⟨hx, hm⟩ | ⟨hx, -⟩
    · rw [hx]; exact ⟨hm, h1, by simp only; omega⟩
    · rw [hx]; exact ⟨by norm_num, by simp only; omega, by simp only; omega⟩
  · intro y hy
    rw [hv]
    by_cases h : y.val = m * 2 ^ e
    · rw [h]
    · exact (far y hy h).1
  · rintro ⟨y, hy, hne, heq⟩
    rw [hv] at hne heq
    have := s2 ((far y hy hne).2 heq)
    rcases hx with ⟨hx, -⟩ | ⟨hx, -⟩
    · rw [hx]; exact this
    · rw [hx]; norm_num

/-- The relative error of the rounding. -/
theorem ofQuot_error {num den : Nat} (hn : 0 < num) (hd : 0 < den) :
    |(F64.ofQuot num den).val - (num : ℚ) / den| ≤ (num : ℚ) / den / 2 ^ 53 := by
  obtain ⟨m, e, he, m1, m2, hv, s1, s2, hx⟩ := ofQuot_spec hn hd
  obtain ⟨l1, -⟩ := quotExp_spec hn hd
  rw [← he] at l1
  have two : (2 : ℚ) ≠ 0 := by norm_num
  have pe : (0 : ℚ) < 2 ^ e := by positivity
  generalize (num : ℚ) / den = q at *
  have unit : (2 : ℚ) ^ (-e) * 2 ^ e = 1 := by rw [← zpow_add₀ two]; simp
  have hq : q = q * 2 ^ (-e) * 2 ^ e := by rw [mul_assoc, unit, mul_one]
  have d : (m : ℚ) * 2 ^ e - q = -((q * 2 ^ (-e) - m) * 2 ^ e) := by
    rw [sub_mul, mul_assoc q, unit, mul_one]; ring
  rw [hv, d, abs_neg, abs_mul, abs_of_pos pe, le_div_iff₀ (by norm_num)]
  have : (2 : ℚ) ^ 52 * 2 ^ e ≤ q := by
    rw [hq]; gcongr
  have h3 : |q * 2 ^ (-e) - m| * 2 ^ e ≤ 1 / 2 * 2 ^ e := by gcongr
  calc _ ≤ 1 / 2 * 2 ^ e * (2 : ℚ) ^ 53 := by gcongr
    _ = 2 ^ 52 * 2 ^ e := by norm_num; ring
    _ ≤ q := this

theorem F64.Nearest.le_double {q : ℚ} {x d : F64} (h : x.Nearest q) (hd : d.IsDouble) (hq : q ≤ d.val) :
    x.val ≤ d.val := by
  by_contra hc
  have hc : d.val < x.val := not_le.1 hc
  have := h.least d hd
  rw [abs_of_nonpos (by linarith), abs_of_nonpos (by linarith)] at this
  linarith

theorem F64.Nearest.double_le {q : ℚ} {x d : F64} (h : x.Nearest q) (hd : d.IsDouble) (hq : d.val ≤ q) :
    d.val ≤ x.val := by
  by_contra hc
  have hc : x.val < d.val := not_le.1 hc
  have := h.least d hd
  rw [abs_of_nonneg (by linarith), abs_of_nonneg (by linarith)] at this
  linarith

theorem F64.Nearest.eq_double {x d : F64} (h : x.Nearest d.val) (hd : d.IsDouble) : x.val = d.val :=
  le_antisymm (h.le_double hd le_rfl) (h.double_le hd le_rfl)

/-- The exponent belongs to the size of the quotient. -/
theorem quotExp_bounds {num den : Nat} (hn : 0 < num) (hd : 0 < den) {a b : Int}
    (ha : (2 : ℚ) ^ a ≤ (num : ℚ) / den) (hb : (num : ℚ) / den ≤ 2 ^ b) :
    a - 53 < quotExp num den ∧ quotExp num den ≤ b - 52 := by
  obtain ⟨l1, l2⟩ := quotExp_spec hn hd
  have two : (2 : ℚ) ≠ 0 := by norm_num
  generalize quotExp num den = e at *
  have pe : (0 : ℚ) < 2 ^ e := by positivity
  rw [zpow_neg, ← div_eq_mul_inv] at l1 l2
  rw [le_div_iff₀ pe] at l1
  rw [div_lt_iff₀ pe] at l2
  have c1 : (2 : ℚ) ^ a < 2 ^ (53 + e) := by
    rw [zpow_add₀ two]
    have : ((2 : ℚ) ^ (53 : Int)) = 2 ^ (53 : Nat) := by norm_cast
    rw [this]; linarith
  have c2 : (2 : ℚ) ^ (52 + e) ≤ 2 ^ b := by
    rw [zpow_add₀ two]
    have : ((2 : ℚ) ^ (52 : Int)) = 2 ^ (52 : Nat) := by norm_cast
    rw [this]; linarith
  have d1 := (zpow_lt_zpow_iff_right₀ (by norm_num : (1 : ℚ) < 2)).1 c1
  have d2 := (zpow_le_zpow_iff_right₀ (by norm_num : (1 : ℚ) < 2)).1 c2
  exact ⟨by omega, by omega⟩

/-- The rounded quotient depends on the quotient only, and monotonically. -/
theorem ofQuot_mono {num den num' den' : Nat} (hn : 0 < num) (hd : 0 < den) (hn' : 0 < num') (hd' : 0 < den')
    (h : (num : ℚ) / den ≤ (num' : ℚ) / den') : (F64.ofQuot num den).val ≤ (F64.ofQuot num' den').val := by
  obtain ⟨m, e, he, m1, m2, hv, s1, s2, -⟩ := ofQuot_spec hn hd
  obtain ⟨m', e', he', m1', m2', hv', s1', s2', -⟩ := ofQuot_spec hn' hd'
  obtain ⟨l1, l2⟩ := quotExp_spec hn hd
  obtain ⟨l1', l2'⟩ := quotExp_spec hn' hd'
  rw [← he] at l1 l2
  rw [← he'] at l1' l2'
  have two : (2 : ℚ) ≠ 0 := by norm_num
  generalize (num : ℚ) / den = q at *
  generalize (num' : ℚ) / den' = q' at *
  rw [hv, hv']
  have pe : (0 : ℚ) < 2 ^ e := by positivity
  have pe' : (0 : ℚ) < 2 ^ e' := by positivity
  rcases lt_trichotomy e e' with hlt | rfl | hlt
  · -- a smaller exponent
    have a : (m : ℚ) ≤ 2 ^ 53 := by exact_mod_cast m2
    have b : (2 : ℚ) ^ 52 ≤ m' := by exact_mod_cast m1'
    have c : (2 : ℚ) * 2 ^ e ≤ 2 ^ e' := by
      rw [← zpow_one_add₀ two]; exact zpow_le_zpow_right₀ (by norm_num) (by omega)
    calc (m : ℚ) * 2 ^ e ≤ 2 ^ 53 * 2 ^ e := by gcongr
      _ = 2 ^ 52 * (2 * 2 ^ e) := by ring
      _ ≤ m' * 2 ^ e' := by gcongr
  · -- the same exponent
    have hQ : q * 2 ^ (-e) ≤ q' * 2 ^ (-e) := by gcongr
    generalize q * 2 ^ (-e) = Q at *
    generalize q' * 2 ^ (-e) = Q' at *
    have : m ≤ m' := by
      by_contra hc
      have hc : m' + 1 ≤ m := by omega
      have hc' : (m' : ℚ) + 1 ≤ m := by exact_mod_cast hc
      have a := abs_le.1 s1
      have b := abs_le.1 s1'
      have e1 : Q - m = -(1 / 2) := by linarith
      have e2 : Q' - m' = 1 / 2 := by linarith
      have p1 := s2 (by rw [e1, abs_neg]; norm_num [abs_of_pos])
      have p2 := s2' (by rw [e2]; norm_num [abs_of_pos])
      have : (m : ℚ) = m' + 1 := by linarith
      have : m = m' + 1 := by exact_mod_cast this
      omega
    have : (m : ℚ) ≤ m' := by exact_mod_cast this
    gcongr
  · -- a larger exponent is impossible
    exfalso
    rw [zpow_neg, ← div_eq_mul_inv, le_div_iff₀ pe] at l1
    rw [zpow_neg, ← div_eq_mul_inv, div_lt_iff₀ pe'] at l2'
    have c : (2 : ℚ) * 2 ^ e' ≤ 2 ^ e := by
      rw [← zpow_one_add₀ two]; exact zpow_le_zpow_right₀ (by norm_num) (by omega)
    have : (2 : ℚ) ^ 53 * 2 ^ e' = 2 ^ 52 * (2 * 2 ^ e') := by ring
    have : (2 : ℚ) ^ 52 * (2 * 2 ^ e') ≤ 2 ^ 52 * 2 ^ e := by gcongr
    linarith

/-! ## Conversions -/

theorem F64.zero_nearest : (⟨0, 0⟩ : F64).Nearest 0 := by
  have : (⟨0, 0⟩ : F64).val = 0 := by simp [F64.val]
  refine ⟨⟨by norm_num, by norm_num, by norm_num⟩, ?_, fun _ => rfl⟩
  intro y _
  rw [this]
  simp

/-- `n as f64`. -/
theorem ofU64_nearest {n : Nat} (h : n < 2 ^ 64) : (F64.ofU64 n).Nearest n := by
  rcases Nat.eq_zero_or_pos n with rfl | hn
  · have : F64.ofU64 0 = ⟨0, 0⟩ := rfl
    rw [this]
    simpa using F64.zero_nearest
  · have e : (n : ℚ) = (n : ℚ) / (1 : Nat) := by simp
    have b := quotExp_bounds hn Nat.one_pos (a := 0) (b := 64)
      (by rw [← e, zpow_zero]; exact_mod_cast hn)
      (by rw [← e]
          have : (n : ℚ) ≤ ((2 ^ 64 : Nat) : ℚ) := by exact_mod_cast h.le
          refine this.trans (le_of_eq ?_)
          norm_num)
    rw [e]
    exact ofQuot_nearest hn Nat.one_pos (by omega) (by omega)

theorem ofU64_exact {n : Nat} (h : n < 2 ^ 53) : (F64.ofU64 n).val = n := by
  have e : (n : ℚ) = (⟨n, 0⟩ : F64).val := by simp [F64.val]
  have := ofU64_nearest (n := n) (by omega)
  rw [e] at this ⊢
  exact this.eq_double ⟨h, by norm_num, by norm_num⟩

theorem ofU64_mono {a b : Nat} (h : a ≤ b) : (F64.ofU64 a).val ≤ (F64.ofU64 b).val := by
  rcases Nat.eq_zero_or_pos a with rfl | ha
  · have : (F64.ofU64 0).val = 0 := by
      have : F64.ofU64 0 = ⟨0, 0⟩ := rfl
      simp [this, F64.val]
    rw [this]
    unfold F64.val
    positivity
  · refine ofQuot_mono ha Nat.one_pos (by omega) Nat.one_pos ?_
    simpa using h

theorem ofU64_error (n : Nat) : |(F64.ofU64 n).val - n| ≤ (n : ℚ) / 2 ^ 53 := by
  rcases Nat.eq_zero_or_pos n with rfl | hn
  · have : F64.ofU64 0 = ⟨0, 0⟩ := rfl
    simp [this, F64.val]
  · unfold F64.ofU64
    simpa using ofQuot_error hn Nat.one_pos

/-- Sizes of the converted numbers. -/
theorem ofU64_bounds {n : Nat} (hn : 0 < n) (h : n < 2 ^ 64) :
    1 ≤ (F64.ofU64 n).val ∧ (F64.ofU64 n).val ≤ 2 ^ 64 := by
  have hnear := ofU64_nearest h
  constructor
  · have e : (1 : ℚ) = (⟨1, 0⟩ : F64).val := by simp [F64.val]
    rw [e]
    exact hnear.double_le ⟨by norm_num, by norm_num, by norm_num⟩ (by rw [← e]; exact_mod_cast hn)
  · have e : (2 : ℚ) ^ 64 = (⟨1, 64⟩ : F64).val := by simp [F64.val]
    rw [e]
    exact hnear.le_double ⟨by norm_num, by norm_num, by norm_num⟩
      (by rw [← e]; exact_mod_cast h.le)

/-- The division is the rounded quotient. -/
theorem div_parts {x y : F64} :
    ((x.mant * 2 ^ (x.exp - y.exp).toNat : Nat) : ℚ) / ((y.mant * 2 ^ (y.exp - x.exp).toNat : Nat) : ℚ) =
      x.val / y.val := by
  have two : (2 : ℚ) ≠ 0 := by norm_num
  have := scale x.mant y.mant (y.exp - x.exp)
  rw [show -(y.exp - x.exp) = x.exp - y.exp by ring] at this
  rw [this]
  unfold F64.val
  rw [zpow_sub₀ two, div_mul_div_comm]

theorem mant_pos {x : F64} (h : 0 < x.val) : 0 < x.mant := by
  rcases Nat.eq_zero_or_pos x.mant with h0 | h0
  · unfold F64.val at h; rw [h0] at h; simp at h
  · exact h0

/-- What the two conversions and the division amount to. -/
theorem div_nearest {w r : Nat} (hr : 0 < r) (hr' : r < 2 ^ 64) (hw : w < 2 ^ 64) :
    ((F64.ofU64 w).div (F64.ofU64 r)).Nearest ((F64.ofU64 w).val / (F64.ofU64 r).val) := by
  obtain ⟨r1, r2⟩ := ofU64_bounds hr hr'
  have rm := mant_pos (lt_of_lt_of_le one_pos r1)
  rcases Nat.eq_zero_or_pos w with rfl | hw0
  · have e : F64.ofU64 0 = ⟨0, 0⟩ := rfl
    have e1 : (F64.ofU64 0).val = 0 := by simp [e, F64.val]
    have e2 : (F64.ofU64 0).div (F64.ofU64 r) = ⟨0, 0⟩ := by
      rw [e]; unfold F64.div F64.ofQuot; simp
    rw [e2, e1, zero_div]
    exact F64.zero_nearest
  · obtain ⟨w1, w2⟩ := ofU64_bounds hw0 hw
    have wm := mant_pos (lt_of_lt_of_le one_pos w1)
    have hp := div_parts (x := F64.ofU64 w) (y := F64.ofU64 r)
    have n0 : 0 < (F64.ofU64 w).mant * 2 ^ ((F64.ofU64 w).exp - (F64.ofU64 r).exp).toNat := by positivity
    have d0 : 0 < (F64.ofU64 r).mant * 2 ^ ((F64.ofU64 r).exp - (F64.ofU64 w).exp).toNat := by positivity
    rw [← hp]
    have e64 : (2 : ℚ) ^ (64 : Int) = 2 ^ (64 : Nat) := by norm_cast
    have rp : (0 : ℚ) < (F64.ofU64 r).val := by linarith
    have b := quotExp_bounds n0 d0 (a := -64) (b := 64)
      (by rw [hp, le_div_iff₀ rp, zpow_neg, e64, inv_mul_le_iff₀ (by norm_num)]
          linarith)
      (by rw [hp, div_le_iff₀ rp, e64]
          have : (2 : ℚ) ^ 64 * 1 ≤ 2 ^ 64 * (F64.ofU64 r).val := by gcongr
          linarith)
    exact ofQuot_nearest n0 d0 (by omega) (by omega)

theorem div_error {w r : Nat} (hr : 0 < r) (hr' : r < 2 ^ 64) (hw : w < 2 ^ 64) :
    |((F64.ofU64 w).div (F64.ofU64 r)).val - (F64.ofU64 w).val / (F64.ofU64 r).val| ≤
      (F64.ofU64 w).val / (F64.ofU64 r).val / 2 ^ 53 := by
  obtain ⟨r1, r2⟩ := ofU64_bounds hr hr'
  have rm := mant_pos (lt_of_lt_of_le one_pos r1)
  rcases Nat.eq_zero_or_pos w with rfl | hw0
  · have e : F64.ofU64 0 = ⟨0, 0⟩ := rfl
    have e1 : (F64.ofU64 0).val = 0 := by simp [e, F64.val]
    have e2 : (F64.ofU64 0).div (F64.ofU64 r) = ⟨0, 0⟩ := by
      rw [e]; unfold F64.div F64.ofQuot; simp
    rw [e2, e1]
    simp [F64.val]
  · obtain ⟨w1, w2⟩ := ofU64_bounds hw0 hw
    have wm := mant_pos (lt_of_lt_of_le one_pos w1)
    rw [← div_parts]
    exact ofQuot_error (by positivity) (by positivity)

/-! ## The ratio -/

theorem ratio_some {read written : Nat} {x : F64} (h : writeReadRatio read written = some x) :
    0 < read ∧ x = (F64.ofU64 written).div (F64.ofU64 read) := by
  unfold writeReadRatio at h
  split at h
  · cases h
  · cases h
    exact ⟨by omega, rfl⟩

/-- The pair of C39 is the exact quotient that is rounded here. -/
theorem C60_ratio_pair (read written : Nat) : writeReadRatio read written =
    (ratio read written).map (fun q => (F64.ofU64 q.1).div (F64.ofU64 q.2)) := by
  unfold writeReadRatio ratio
  split <;> rfl

/-- C60: the ratio is `None` iff the total read is zero; otherwise it is a finite number, never `NaN` or
infinite, whose relative error is at most `2^-51`. -/
theorem C60_value {read written : Nat} (hr : read < 2 ^ 64) (hw : written < 2 ^ 64) :
    (writeReadRatio read written = none ↔ read = 0) ∧
    ∀ x, writeReadRatio read written = some x →
      x.IsDouble ∧ |x.val - (written : ℚ) / read| ≤ (written : ℚ) / read / 2 ^ 51 := by
  constructor
  · unfold writeReadRatio; split <;> simp_all
  intro x hx
  obtain ⟨h0, rfl⟩ := ratio_some hx
  refine ⟨(div_nearest h0 hr hw).double, ?_⟩
  have e1 := abs_le.1 (ofU64_error written)
  have e2 := abs_le.1 (ofU64_error read)
  have e3 := abs_le.1 (div_error h0 hr hw)
  obtain ⟨r1, -⟩ := ofU64_bounds h0 hr
  have rp : (0 : ℚ) < (F64.ofU64 read).val := by linarith
  have hrq : (0 : ℚ) < read := by exact_mod_cast h0
  have hwq : (0 : ℚ) ≤ written := by positivity
  generalize ((F64.ofU64 written).div (F64.ofU64 read)).val = x at *
  generalize (F64.ofU64 written).val = w' at *
  generalize (F64.ofU64 read).val = r' at *
  generalize (written : ℚ) = w at *
  generalize (read : ℚ) = r at *
  have ht : 0 ≤ w / r := by positivity
  have hi : w' / r' ≤ (1 + 1 / 2 ^ 53) / (1 - 1 / 2 ^ 53) * (w / r) := by
    rw [div_mul_div_comm, div_le_div_iff₀ rp (by norm_num; linarith)]
    have a : w' ≤ (1 + 1 / 2 ^ 53) * w := by linarith
    have b : (1 - 1 / 2 ^ 53) * r ≤ r' := by linarith
    have : 0 ≤ (1 - 1 / 2 ^ 53 : ℚ) * r := by norm_num; linarith
    calc w' * ((1 - 1 / 2 ^ 53) * r) ≤ ((1 + 1 / 2 ^ 53) * w) * ((1 - 1 / 2 ^ 53) * r) := by gcongr
      _ ≤ ((1 + 1 / 2 ^ 53) * w) * r' := by gcongr
  have lo : (1 - 1 / 2 ^ 53) / (1 + 1 / 2 ^ 53) * (w / r) ≤ w' / r' := by
    rw [div_mul_div_comm, div_le_div_iff₀ (by norm_num; linarith) rp]
    have a : (1 - 1 / 2 ^ 53) * w ≤ w' := by linarith
    have b : r' ≤ (1 + 1 / 2 ^ 53) * r := by linarith
    have : 0 ≤ (1 - 1 / 2 ^ 53 : ℚ) * w := by norm_num; linarith
    calc (1 - 1 / 2 ^ 53) * w * r' ≤ (1 - 1 / 2 ^ 53) * w * ((1 + 1 / 2 ^ 53) * r) := by gcongr
      _ ≤ w' * ((1 + 1 / 2 ^ 53) * r) := by gcongr
  generalize w' / r' = t' at *
  generalize w / r = t at *
  rw [abs_le]
  norm_num at hi lo e3 ⊢
  constructor <;> linarith [e3.1, e3.2]

/-- C60: as long as the totals are below `2^53` bytes, it is the number nearest to the quotient. -/
theorem C60_nearest {read written : Nat} (hr : read < 2 ^ 53) (hw : written < 2 ^ 53) {x : F64}
    (hx : writeReadRatio read written = some x) : x.Nearest ((written : ℚ) / read) := by
  obtain ⟨h0, rfl⟩ := ratio_some hx
  have := div_nearest (w := written) h0 (by omega) (by omega)
  rwa [ofU64_exact hr, ofU64_exact hw] at this

/-- C60: below `2^53` bytes, comparing the ratio with any `f64` never gives a wrong verdict. -/
theorem C60_threshold {read written : Nat} (hr : read < 2 ^ 53) (hw : written < 2 ^ 53) {x : F64}
    (hx : writeReadRatio read written = some x) {t : F64} (ht : t.IsDouble) :
    (t.val < x.val → t.val < (written : ℚ) / read) ∧ (x.val < t.val → (written : ℚ) / read < t.val) := by
  have := C60_nearest hr hw hx
  exact ⟨fun h => not_le.1 fun hc => not_lt.2 (this.le_double ht hc) h,
    fun h => not_le.1 fun hc => not_lt.2 (this.double_le ht hc) h⟩

/-- The number one. -/
theorem one_double : (⟨1, 0⟩ : F64).IsDouble ∧ (⟨1, 0⟩ : F64).val = 1 :=
  ⟨⟨by norm_num, by norm_num, by norm_num⟩, by simp [F64.val]⟩

/-- C60: below `2^53` bytes, the ratio tells exactly whether more, as much, or less was written than read. -/
theorem C60_compare_exact {read written : Nat} (hr : read < 2 ^ 53) (hw : written < 2 ^ 53) {x : F64}
    (hx : writeReadRatio read written = some x) :
    (1 < x.val ↔ read < written) ∧ (x.val = 1 ↔ written = read) ∧ (x.val < 1 ↔ written < read) := by
  have hn := C60_nearest hr hw hx
  obtain ⟨h0, -⟩ := ratio_some hx
  have hrq : (0 : ℚ) < read := by exact_mod_cast h0
  have hr53 : (read : ℚ) < 2 ^ 53 := by exact_mod_cast hr
  obtain ⟨o1, o2⟩ := one_double
  have gt : read < written → 1 < x.val := by
    intro h
    have h' : (read : ℚ) + 1 ≤ written := by exact_mod_cast h
    have hq : 1 + 1 / 2 ^ 53 < (written : ℚ) / read := by
      rw [lt_div_iff₀ hrq]
      have : (1 : ℚ) / 2 ^ 53 * read < 1 := by rw [div_mul_eq_mul_div, div_lt_one (by norm_num)]; linarith
      linarith
    by_contra hc
    have hc : x.val ≤ 1 := not_lt.1 hc
    -- the next number after one
    have d : (⟨2 ^ 52 + 1, -52⟩ : F64).IsDouble := ⟨by norm_num, by norm_num, by norm_num⟩
    have dv : (⟨2 ^ 52 + 1, -52⟩ : F64).val = 1 + 1 / 2 ^ 52 := by
      unfold F64.val; norm_num
    rcases _root_.le_total (1 + 1 / 2 ^ 52 : ℚ) ((written : ℚ) / read) with hle | hle
    · have := hn.double_le d (by rw [dv]; exact hle)
      rw [dv] at this
      norm_num at this
      linarith
    · have := hn.least _ d
      rw [dv, abs_of_nonneg (by norm_num at hq ⊢; linarith), abs_of_nonpos (by linarith)] at this
      norm_num at this hq
      linarith
  have lt : written < read → x.val < 1 := by
    intro h
    have h' : (written : ℚ) + 1 ≤ read := by exact_mod_cast h
    have hq : (written : ℚ) / read < 1 - 1 / 2 ^ 53 := by
      rw [div_lt_iff₀ hrq]
      have : (1 : ℚ) / 2 ^ 53 * read < 1 := by rw [div_mul_eq_mul_div, div_lt_one (by norm_num)]; linarith
      linarith
    have d : (⟨2 ^ 53 - 1, -53⟩ : F64).IsDouble := ⟨by norm_num, by norm_num, by norm_num⟩
    have dv : (⟨2 ^ 53 - 1, -53⟩ : F64).val = 1 - 1 / 2 ^ 53 := by
      unfold F64.val; norm_num
    have := hn.le_double d (by rw [dv]; exact hq.le)
    rw [dv] at this
    norm_num at this
    linarith
  have eq : written = read → x.val = 1 := by
    intro h
    rw [h, div_self hrq.ne', ← o2] at hn
    rw [hn.eq_double o1, o2]
  rcases Nat.lt_trichotomy written read with h | h | h
  · have := lt h
    exact ⟨⟨fun _ => by linarith, fun _ => by omega⟩, ⟨fun _ => by linarith, fun _ => by omega⟩,
      ⟨fun _ => h, fun _ => this⟩⟩
  · have := eq h
    exact ⟨⟨fun _ => by linarith, fun _ => by omega⟩, ⟨fun _ => h, fun _ => this⟩,
      ⟨fun _ => by linarith, fun _ => by omega⟩⟩
  · have := gt h
    exact ⟨⟨fun _ => h, fun _ => this⟩, ⟨fun _ => by linarith, fun _ => by omega⟩,
      ⟨fun _ => by linarith, fun _ => by omega⟩⟩

/-- The ratio grows with what is written and falls with what is read. -/
theorem ratio_mono {r w r' w' : Nat} (hr : r' ≤ r) (hw : w ≤ w') (h0 : 0 < r')
    (h64 : r < 2 ^ 64) (h64' : w' < 2 ^ 64) :
    ((F64.ofU64 w).div (F64.ofU64 r)).val ≤ ((F64.ofU64 w').div (F64.ofU64 r')).val := by
  obtain ⟨r1, -⟩ := ofU64_bounds (n := r) (by omega) h64
  obtain ⟨r1', -⟩ := ofU64_bounds h0 (by omega)
  have rm := mant_pos (lt_of_lt_of_le one_pos r1)
  have rm' := mant_pos (lt_of_lt_of_le one_pos r1')
  rcases Nat.eq_zero_or_pos w with rfl | hw0
  · have e : F64.ofU64 0 = ⟨0, 0⟩ := rfl
    have e2 : (F64.ofU64 0).div (F64.ofU64 r) = ⟨0, 0⟩ := by
      rw [e]; unfold F64.div F64.ofQuot; simp
    have e3 : (⟨0, 0⟩ : F64).val = 0 := by simp [F64.val]
    rw [e2, e3]
    unfold F64.val
    positivity
  · obtain ⟨w1, -⟩ := ofU64_bounds (n := w) hw0 (by omega)
    obtain ⟨w1', -⟩ := ofU64_bounds (n := w') (by omega) h64'
    have wm := mant_pos (lt_of_lt_of_le one_pos w1)
    have wm' := mant_pos (lt_of_lt_of_le one_pos w1')
    unfold F64.div
    refine ofQuot_mono (by positivity) (by positivity) (by positivity) (by positivity) ?_
    rw [div_parts, div_parts]
    have a := ofU64_mono hw
    have b := ofU64_mono hr
    have : (0 : ℚ) < (F64.ofU64 r').val := by linarith
    have : (0 : ℚ) ≤ (F64.ofU64 w').val := by linarith
    gcongr

/-- C60, for all totals: a ratio above one means that more was written than read, one below one that less
was written. -/
theorem C60_compare {read written : Nat} (hr : read < 2 ^ 64) (hw : written < 2 ^ 64) {x : F64}
    (hx : writeReadRatio read written = some x) :
    (1 < x.val → read < written) ∧ (x.val < 1 → written < read) := by
  obtain ⟨h0, rfl⟩ := ratio_some hx
  have same : ((F64.ofU64 read).div (F64.ofU64 read)).val = 1 := by
    have := div_nearest h0 hr hr
    obtain ⟨r1, -⟩ := ofU64_bounds h0 hr
    rw [div_self (by linarith), ← one_double.2] at this
    rw [this.eq_double one_double.1, one_double.2]
  constructor
  · intro h
    by_contra hc
    have := ratio_mono (r := read) (r' := read) (w := written) (w' := read) le_rfl (by omega) h0 hr hr
    linarith
  · intro h
    by_contra hc
    have := ratio_mono (r := read) (r' := read) (w := read) (w' := written) le_rfl (by omega) h0 hr hw
    linarith

/-- From `2^53` bytes on a ratio of exactly one does not mean that the totals are equal. -/
theorem C60_equal_counterexample : writeReadRatio (2 ^ 53) (2 ^ 53 + 1) = some ⟨2 ^ 52, -52⟩ ∧
    (⟨2 ^ 52, -52⟩ : F64).val = 1 := by
  refine ⟨by decide +kernel, ?_⟩
  unfold F64.val; norm_num

/-! ## The moments -/

/-- The totals are still below `2^64`. -/
structure Small (ts : List (List (RecordCall × Nat))) : Prop where
  read : total (ts.flatten.map (fun c => c.1.bytesIn)) < 2 ^ 64
  written : total (ts.flatten.map (fun c => c.1.bytesOut)) < 2 ^ 64

/-- The operations of the calls add at most what the calls say. -/
theorem ops_total_le_out (ts : List (List (RecordCall × Nat))) :
    total ((ts.map threadOps).flatten.map AtomicOp.toBytesWritten) ≤
      total (ts.flatten.map (fun c => c.1.bytesOut)) := by
  have one : ∀ th : List (RecordCall × Nat),
      total ((threadOps th).map AtomicOp.toBytesWritten) ≤ total (th.map (fun c => c.1.bytesOut)) := by
    intro th
    induction th with
    | nil => exact Nat.le_refl _
    | cons c th ih =>
      have e1 : (threadOps (c :: th)).map AtomicOp.toBytesWritten =
          (c.1.ops c.2).map AtomicOp.toBytesWritten ++ (threadOps th).map AtomicOp.toBytesWritten := by
        simp [threadOps]
      have e2 : total ((c :: th).map (fun c => c.1.bytesOut)) =
          c.1.bytesOut + total (th.map (fun c => c.1.bytesOut)) := rfl
      rw [e1, e2, total_append]
      have : total ((c.1.ops c.2).map AtomicOp.toBytesWritten) ≤ c.1.bytesOut := by
        obtain ⟨c, now⟩ := c
        cases c with
        | read n => simp [RecordCall.ops, AtomicOp.toBytesWritten, RecordCall.bytesOut, total]
        | write n =>
          have := Nat.mod_le n u64Mod
          simpa [RecordCall.ops, AtomicOp.toBytesWritten, RecordCall.bytesOut, total] using this
      omega
  induction ts with
  | nil => exact Nat.le_refl _
  | cons th ts ih =>
    have := one th
    simp only [List.map_cons, List.flatten_cons, List.map_append, total_append]
    omega

/-- The counters at a moment, when nothing has overflowed. -/
theorem counters_at {clock : Int} {s : Stats} (hs : Stats.new clock = some s)
    {ts : List (List (RecordCall × Nat))} {ops : List AtomicOp} {rest : List (List AtomicOp)}
    (h : Executes (ts.map threadOps) ops rest) (hsm : Small ts) :
    (ops.foldl Stats.apply s).bytesRead = total (ops.map AtomicOp.toBytesRead) ∧
    (ops.foldl Stats.apply s).bytesWritten = total (ops.map AtomicOp.toBytesWritten) ∧
    total (ops.map AtomicOp.toBytesRead) < 2 ^ 64 ∧ total (ops.map AtomicOp.toBytesWritten) < 2 ^ 64 := by
  obtain ⟨h0, z1, z2, -⟩ := new_inRange hs
  obtain ⟨-, f1, f2, -⟩ := Stats.fold h0 ops
  have c1 := h.conserves AtomicOp.toBytesRead
  have c2 := h.conserves AtomicOp.toBytesWritten
  have l1 := ops_total_le ts
  have l2 := ops_total_le_out ts
  have b1 := hsm.read
  have b2 := hsm.written
  have r1 : total (ops.map AtomicOp.toBytesRead) < 2 ^ 64 := by omega
  have r2 : total (ops.map AtomicOp.toBytesWritten) < 2 ^ 64 := by omega
  refine ⟨?_, ?_, r1, r2⟩
  · rw [f1, z1, Nat.zero_add]; exact Nat.mod_eq_of_lt r1
  · rw [f2, z2, Nat.zero_add]; exact Nat.mod_eq_of_lt r2

/-- C60: the two loads happen at different moments, the first after `before`, the second after
`before ++ a ++ b`.  The ratio that is reported is never below the ratio of any moment in between. -/
theorem C60_moments_partial {clock : Int} {s : Stats} (hs : Stats.new clock = some s)
    {ts : List (List (RecordCall × Nat))} {before a b : List AtomicOp} {rest : List (List AtomicOp)}
    (h : Executes (ts.map threadOps) (before ++ a ++ b) rest) (hsm : Small ts) {x : F64}
    (hx : writeReadRatio (before.foldl Stats.apply s).bytesRead
      ((before ++ a ++ b).foldl Stats.apply s).bytesWritten = some x) :
    ∃ y, writeReadRatio ((before ++ a).foldl Stats.apply s).bytesRead
      ((before ++ a).foldl Stats.apply s).bytesWritten = some y ∧ y.val ≤ x.val := by
  obtain ⟨m2, e2⟩ := h.prefix
  obtain ⟨m1, e1⟩ := e2.prefix
  obtain ⟨a1, -, -, -⟩ := counters_at hs e1 hsm
  obtain ⟨b1, b2, b3, b4⟩ := counters_at hs e2 hsm
  obtain ⟨-, c2, -, c4⟩ := counters_at hs h hsm
  rw [a1, c2] at hx
  obtain ⟨h0, rfl⟩ := ratio_some hx
  have le1 : total (before.map AtomicOp.toBytesRead) ≤ total ((before ++ a).map AtomicOp.toBytesRead) := by
    rw [List.map_append, total_append]; omega
  have le2 : total ((before ++ a).map AtomicOp.toBytesWritten) ≤
      total ((before ++ a ++ b).map AtomicOp.toBytesWritten) := by
    rw [List.map_append (l₂ := b), total_append]; omega
  rw [b1, b2]
  refine ⟨_, ?_, ratio_mono le1 le2 h0 b3 c4⟩
  unfold writeReadRatio
  rw [if_neg (by omega)]

/-- The ratio that is reported need not be that of any moment: here it is 10, although never more had been
written than read. -/
theorem C60_moments_counterexample : ∃ s before after rest, Stats.new 5 = some s ∧
    Executes ([[(.read 10, 6), (.read 90, 7), (.write 100, 8)]].map threadOps) (before ++ after) rest ∧
    (writeReadRatio (before.foldl Stats.apply s).bytesRead
      ((before ++ after).foldl Stats.apply s).bytesWritten).map F64.val = some 10 ∧
    ∀ a b, before ++ after = a ++ b →
      (a.foldl Stats.apply s).bytesWritten ≤ (a.foldl Stats.apply s).bytesRead := by
  refine ⟨⟨0, 0, 0, 0, 5⟩, [.addBytesRead 10, .addMessagesRead 1, .storeLastActivity 6],
    [.addBytesRead 90, .addMessagesRead 1, .storeLastActivity 7,
    .addBytesWritten 100, .addMessagesWritten 1, .storeLastActivity 8], [[]], by decide, ?_, ?_, ?_⟩
  · have e : ([[(.read 10, 6), (.read 90, 7), (.write 100, 8)]].map threadOps) =
        [[.addBytesRead 10, .addMessagesRead 1, .storeLastActivity 6, .addBytesRead 90, .addMessagesRead 1,
          .storeLastActivity 7, .addBytesWritten 100, .addMessagesWritten 1, .storeLastActivity 8]] := by decide
    rw [e]
    exact .step (a := []) (.step (a := []) (.step (a := []) (.step (a := []) (.step (a := [])
      (.step (a := []) (.step (a := []) (.step (a := []) (.step (a := []) (.stop _)))))))))
  · have : writeReadRatio 10 100 = some ⟨5629499534213120, -49⟩ := by decide +kernel
    show (writeReadRatio 10 100).map F64.val = some 10
    rw [this]
    simp only [Option.map_some, Option.some.injEq]
    unfold F64.val
    norm_num
  · intro a b hab
    have ha : a = ([.addBytesRead 10, .addMessagesRead 1, .storeLastActivity 6] ++
      [.addBytesRead 90, .addMessagesRead 1, .storeLastActivity 7,
      .addBytesWritten 100, .addMessagesWritten 1, .storeLastActivity 8] : List AtomicOp).take a.length := by
      rw [hab, List.take_left]
    have hl : a.length ≤ 9 := by
      have := congrArg List.length hab
      simp only [List.length_append, List.length_cons, List.length_nil] at this
      omega
    rw [ha]
    generalize a.length = n at hl
    have : n < 10 := by omega
    revert n
    decide

/-! ## The last activity -/

/-- Each call asks the clock, which does not go back, at most `d` before it stores the answer: operations
with the times at which they are performed. -/
structure Timely (d : Nat) (ops : List (Nat × AtomicOp)) : Prop where
  ordered : ops.Pairwise (fun a b => a.1 ≤ b.1)
  stores : ∀ t v, (t, .storeLastActivity v) ∈ ops → v ≤ t ∧ t ≤ v + d

/-- Operations that store nothing leave the last activity as it is. -/
theorem no_store (l : List (Nat × AtomicOp)) (s : Stats) (hn : ¬ ∃ t v, (t, .storeLastActivity v) ∈ l) :
    ((l.map (·.2)).foldl Stats.apply s).lastActivityMs = s.lastActivityMs := by
  induction l generalizing s with
  | nil => rfl
  | cons e l ih =>
    rw [List.map_cons, List.foldl_cons, ih]
    · obtain ⟨te, oe⟩ := e
      cases oe with
      | storeLastActivity v => exact absurd ⟨te, v, List.mem_cons_self⟩ hn
      | _ => rfl
    · rintro ⟨a, b, hm⟩
      exact hn ⟨a, b, List.mem_cons_of_mem _ hm⟩

/-- If all happens after `t` and something is stored, what is stored in the end is not long before `t`. -/
theorem stored_after {d t : Nat} (l : List (Nat × AtomicOp)) (s : Stats) (h1 : ∀ e ∈ l, t ≤ e.1)
    (h2 : ∀ t v, (t, .storeLastActivity v) ∈ l → v ≤ t ∧ t ≤ v + d)
    (h3 : ∃ t v, (t, .storeLastActivity v) ∈ l) :
    t ≤ ((l.map (·.2)).foldl Stats.apply s).lastActivityMs + d := by
  induction l generalizing s with
  | nil => obtain ⟨_, _, h⟩ := h3; cases h
  | cons e l ih =>
    obtain ⟨t', v', hm⟩ := h3
    by_cases hl : ∃ t v, (t, .storeLastActivity v) ∈ l
    · exact ih _ (fun e he => h1 e (List.mem_cons_of_mem _ he))
        (fun t v hm => h2 t v (List.mem_cons_of_mem _ hm)) hl
    · have hne : (t', AtomicOp.storeLastActivity v') = e := by
        rcases List.mem_cons.1 hm with h | h
        · exact h
        · exact absurd ⟨t', v', h⟩ hl
      subst hne
      rw [List.map_cons, List.foldl_cons, no_store _ _ hl]
      have := (h2 t' v' List.mem_cons_self).2
      have := h1 _ List.mem_cons_self
      simp only [Stats.apply] at *
      omega

theorem last_store (ops : List (Nat × AtomicOp)) (s : Stats) (d : Nat) (h : Timely d ops) (t v : Nat)
    (hm : (t, .storeLastActivity v) ∈ ops) :
    v ≤ ((ops.map (·.2)).foldl Stats.apply s).lastActivityMs + d := by
  induction ops generalizing s with
  | nil => cases hm
  | cons o ops ih =>
    have ho := List.pairwise_cons.1 h.ordered
    have ht : Timely d ops := ⟨ho.2, fun t v hm => h.stores t v (List.mem_cons_of_mem _ hm)⟩
    rcases List.mem_cons.1 hm with rfl | hm'
    · by_cases hl : ∃ t v, (t, .storeLastActivity v) ∈ ops
      · have := stored_after ops (s.apply (.storeLastActivity v)) (fun e he => ho.1 e he) ht.stores hl
        have := (h.stores t v List.mem_cons_self).1
        simp only [List.map_cons, List.foldl_cons]
        omega
      · rw [List.map_cons, List.foldl_cons, no_store _ _ hl]
        simp only [Stats.apply]
        omega
    · exact ih _ ht hm'

theorem Executes.all {α : Type} {ts rest : List (List α)} {ops : List α}
    (h : Executes ts ops rest) {x : α} (hx : x ∈ ts.flatten) : x ∈ ops ∨ x ∈ rest.flatten := by
  induction h with
  | stop ts => exact .inr hx
  | @step a b op t ops rest _ ih =>
    simp only [List.flatten_append, List.flatten_cons, List.mem_append, List.cons_append, List.mem_cons] at hx ih
    rcases hx with h | h | h | h
    · rcases ih (.inl h) with h | h
      · exact .inl (List.mem_cons_of_mem _ h)
      · exact .inr h
    · exact .inl (by rw [h]; exact List.mem_cons_self)
    · rcases ih (.inr (.inl h)) with h | h
      · exact .inl (List.mem_cons_of_mem _ h)
      · exact .inr h
    · rcases ih (.inr (.inr h)) with h | h
      · exact .inl (List.mem_cons_of_mem _ h)
      · exact .inr h

/-- C60: the last activity is not much before the latest time that a finished call saw: at most by the time
between asking the clock and storing the answer. -/
theorem C60_last_activity_partial (s : Stats) {d : Nat} {ts : List (List (RecordCall × Nat))}
    {ops : List (Nat × AtomicOp)} {rest : List (List AtomicOp)} (hd : Timely d ops)
    (h : Executes (ts.map threadOps) (ops.map (·.2)) rest) (hdone : ∀ t ∈ rest, t = []) :
    ∀ c ∈ ts.flatten, c.2 ≤ ((ops.map (·.2)).foldl Stats.apply s).lastActivityMs + d := by
  intro c hc
  have hm : AtomicOp.storeLastActivity c.2 ∈ (ts.map threadOps).flatten := by
    obtain ⟨th, hth, hc⟩ := List.mem_flatten.1 hc
    refine List.mem_flatten.2 ⟨threadOps th, List.mem_map.2 ⟨th, hth, rfl⟩, ?_⟩
    refine List.mem_flatMap.2 ⟨c, hc, ?_⟩
    obtain ⟨c, now⟩ := c
    cases c <;> simp [RecordCall.ops]
  rcases h.all hm with hm | hm
  · obtain ⟨⟨t, o⟩, ho, e⟩ := List.mem_map.1 hm
    simp only at e
    subst e
    exact last_store ops s d hd t c.2 ho
  · rw [flatten_of_finished hdone] at hm
    cases hm

/-- The last activity can go back, and stay behind the time of the latest call. -/
theorem C60_last_activity_counterexample : ∃ s ops rest, Stats.new 5 = some s ∧ Timely 2 ops ∧
    Executes ([[(.read 100, 7)], [(.write 11, 9)]].map threadOps) (ops.map (·.2)) rest ∧
    (∀ t ∈ rest, t = []) ∧ ((ops.map (·.2)).foldl Stats.apply s).lastActivityMs = 7 := by
  refine ⟨⟨0, 0, 0, 0, 5⟩, [(6, .addBytesRead 100), (7, .addMessagesRead 1), (8, .addBytesWritten 11),
    (9, .addMessagesWritten 1), (9, .storeLastActivity 9), (9, .storeLastActivity 7)], [[], []],
    by decide, ⟨by decide, ?_⟩, ?_, by simp, by decide⟩
  · intro t v h
    simp only [List.mem_cons, Prod.mk.injEq, reduceCtorEq, and_false, AtomicOp.storeLastActivity.injEq,
      List.not_mem_nil, or_false, false_or] at h
    omega
  · have e : ([[(.read 100, 7)], [(.write 11, 9)]].map threadOps) =
        [[.addBytesRead 100, .addMessagesRead 1, .storeLastActivity 7],
         [.addBytesWritten 11, .addMessagesWritten 1, .storeLastActivity 9]] := by decide
    rw [e]
    exact .step (a := []) (.step (a := []) (.step (a := [[AtomicOp.storeLastActivity 7]]) (b := [])
      (.step (a := [[AtomicOp.storeLastActivity 7]]) (b := [])
      (.step (a := [[AtomicOp.storeLastActivity 7]]) (b := []) (.step (a := []) (.stop _))))))

/-- Non-vacuity: a third, rounded. -/
example : writeReadRatio 3 1 = some ⟨6004799503160661, -54⟩ := by decide +kernel

/-- Non-vacuity: totals beyond `2^53`. -/
example : writeReadRatio (2 ^ 64 - 1) (2 ^ 63 + 1) = some ⟨2 ^ 52, -53⟩ := by decide +kernel

/-- Non-vacuity of `C60_moments_partial`: two loads with a write between them. -/
example : Small [[(.read 10, 6), (.write 100, 8)]] ∧ ∃ s rest, Stats.new 5 = some s ∧
    Executes ([[(.read 10, 6), (.write 100, 8)]].map threadOps)
      (([.addBytesRead 10, .addMessagesRead 1] ++ [.storeLastActivity 6]) ++ [.addBytesWritten 100]) rest ∧
    writeReadRatio (([.addBytesRead 10, .addMessagesRead 1] : List AtomicOp).foldl Stats.apply s).bytesRead
      ((([.addBytesRead 10, .addMessagesRead 1] ++ [.storeLastActivity 6]) ++ [.addBytesWritten 100] :
        List AtomicOp).foldl Stats.apply s).bytesWritten = some ⟨5629499534213120, -49⟩ := by
  refine ⟨⟨by decide, by decide⟩, ⟨0, 0, 0, 0, 5⟩, [[.addMessagesWritten 1, .storeLastActivity 8]],
    by decide, ?_, by decide +kernel⟩
  have e : ([[(.read 10, 6), (.write 100, 8)]].map threadOps) =
      [[.addBytesRead 10, .addMessagesRead 1, .storeLastActivity 6, .addBytesWritten 100,
        .addMessagesWritten 1, .storeLastActivity 8]] := by decide
  rw [e]
  exact .step (a := []) (.step (a := []) (.step (a := []) (.step (a := []) (.stop _))))

end Bip324
