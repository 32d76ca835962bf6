import Mathlib.NumberTheory.LucasPrimality
import Mathlib.Data.Nat.Prime.Basic
import Mathlib.Data.Nat.Prime.Defs
import Mathlib.Algebra.BigOperators.Group.List.Basic
import Mathlib.Tactic.NormNum.Prime
import Verif.Concrete.Secp256k1

/-!
# The field prime and the group order of secp256k1 are prime

Pratt certificates: for each prime a generator and the factors of its predecessor.
-/

namespace Bip324.Concrete

/-- `b ^ e mod m`, over `fuel` bits of `e`. -/
def powMod (m : Nat) : Nat → Nat → Nat → Nat
  | 0, _, _ => 1 % m
  | fuel + 1, b, e =>
    if e % 2 = 1 then powMod m fuel (b * b % m) (e / 2) * b % m else powMod m fuel (b * b % m) (e / 2)

theorem powMod_eq (m fuel : Nat) : ∀ b e, e < 2 ^ fuel → powMod m fuel b e = b ^ e % m := by
  induction fuel with
  | zero => intro b e h; simp at h; subst h; rfl
  | succ fuel ih =>
    intro b e h
    have he : e / 2 < 2 ^ fuel := by rw [pow_succ] at h; omega
    have hpow : (b * b % m) ^ (e / 2) % m = b ^ (2 * (e / 2)) % m := by
      rw [← Nat.pow_mod, pow_mul, pow_two]
    unfold powMod
    rw [ih _ _ he, hpow]
    split
    · rename_i h1
      rw [Nat.mod_mul_mod, ← pow_succ, show 2 * (e / 2) + 1 = e by omega]
    · rename_i h1
      rw [show 2 * (e / 2) = e by omega]

/-- A prime from its certificate. -/
theorem pratt (p a : Nat) (fs : List Nat) (hfs : ∀ q ∈ fs, q.Prime) (hp : 1 < p) (hlt : p < 2 ^ 256)
    (hprod : fs.foldr (· * ·) 1 = p - 1) (h1 : powMod p 256 a (p - 1) = 1)
    (h2 : ∀ q ∈ fs, powMod p 256 a ((p - 1) / q) ≠ 1) : p.Prime := by
  have hcast : ∀ e, e < 2 ^ 256 → ((a : ZMod p) ^ e = 1 ↔ powMod p 256 a e = 1) := by
    intro e he
    rw [powMod_eq p 256 a e he, ← Nat.cast_pow, ← Nat.cast_one, ZMod.natCast_eq_natCast_iff, Nat.ModEq,
      Nat.mod_eq_of_lt hp]
  refine lucas_primality p (a : ZMod p) ((hcast _ (by omega)).2 h1) ?_
  intro q hq hd
  have hmem : q ∈ fs := by
    rw [← hprod] at hd
    have : ∀ l : List Nat, (∀ r ∈ l, r.Prime) → q ∣ l.foldr (· * ·) 1 → q ∈ l := by
      intro l
      induction l with
      | nil => intro _ h; exact absurd (Nat.dvd_one.1 h) hq.ne_one
      | cons r l ih =>
        intro hl h
        rcases (Nat.Prime.dvd_mul hq).1 h with h | h
        · rw [(Nat.prime_dvd_prime_iff_eq hq (hl r (by simp))).1 h]; simp
        · exact List.mem_cons_of_mem _ (ih (fun r hr => hl r (by simp [hr])) h)
    exact this fs hfs hd
  rw [Ne, hcast _ (lt_of_le_of_lt (Nat.div_le_self _ _) (by omega))]
  exact h2 q hmem

theorem prime_2 : Nat.Prime 2 := by norm_num
theorem prime_3 : Nat.Prime 3 := by norm_num
theorem prime_7 : Nat.Prime 7 := by norm_num
theorem prime_13441 : Nat.Prime 13441 := by norm_num
theorem prime_5 : Nat.Prime 5 := by norm_num
theorem prime_29 : Nat.Prime 29 := by norm_num
theorem prime_31 : Nat.Prime 31 := by norm_num
theorem prime_7723 : Nat.Prime 7723 := by norm_num
theorem prime_5323 : Nat.Prime 5323 := by norm_num
theorem prime_2621 : Nat.Prime 2621 := by norm_num
theorem prime_443 : Nat.Prime 443 := by norm_num
theorem prime_24809 : Nat.Prime 24809 :=
  pratt 24809 6 [2, 2, 2, 7, 443] (by
    intro q hq
    simp only [List.mem_cons, List.not_mem_nil, or_false] at hq
    rcases hq with rfl | rfl | rfl | rfl | rfl
    · exact prime_2
    · exact prime_2
    · exact prime_2
    · exact prime_7
    · exact prime_443
    ) (by decide +kernel) (by decide +kernel) (by decide +kernel) (by decide +kernel) (by decide +kernel)

theorem prime_971 : Nat.Prime 971 := by norm_num
theorem prime_1373 : Nat.Prime 1373 := by norm_num
theorem prime_13331831 : Nat.Prime 13331831 :=
  pratt 13331831 13 [2, 5, 971, 1373] (by
    intro q hq
    simp only [List.mem_cons, List.not_mem_nil, or_false] at hq
    rcases hq with rfl | rfl | rfl | rfl
    · exact prime_2
    · exact prime_5
    · exact prime_971
    · exact prime_1373
    ) (by decide +kernel) (by decide +kernel) (by decide +kernel) (by decide +kernel) (by decide +kernel)

theorem prime_173378833005251801 : Nat.Prime 173378833005251801 :=
  pratt 173378833005251801 6 [2, 2, 2, 5, 5, 2621, 24809, 13331831] (by
    intro q hq
    simp only [List.mem_cons, List.not_mem_nil, or_false] at hq
    rcases hq with rfl | rfl | rfl | rfl | rfl | rfl | rfl | rfl
    · exact prime_2
    · exact prime_2
    · exact prime_2
    · exact prime_5
    · exact prime_5
    · exact prime_2621
    · exact prime_24809
    · exact prime_13331831
    ) (by decide +kernel) (by decide +kernel) (by decide +kernel) (by decide +kernel) (by decide +kernel)

theorem prime_22149492674086928081353 : Nat.Prime 22149492674086928081353 :=
  pratt 22149492674086928081353 5 [2, 2, 2, 3, 5323, 173378833005251801] (by
    intro q hq
    simp only [List.mem_cons, List.not_mem_nil, or_false] at hq
    rcases hq with rfl | rfl | rfl | rfl | rfl | rfl
    · exact prime_2
    · exact prime_2
    · exact prime_2
    · exact prime_3
    · exact prime_5323
    · exact prime_173378833005251801
    ) (by decide +kernel) (by decide +kernel) (by decide +kernel) (by decide +kernel) (by decide +kernel)

theorem prime_132896956044521568488119 : Nat.Prime 132896956044521568488119 :=
  pratt 132896956044521568488119 6 [2, 3, 22149492674086928081353] (by
    intro q hq
    simp only [List.mem_cons, List.not_mem_nil, or_false] at hq
    rcases hq with rfl | rfl | rfl
    · exact prime_2
    · exact prime_3
    · exact prime_22149492674086928081353
    ) (by decide +kernel) (by decide +kernel) (by decide +kernel) (by decide +kernel) (by decide +kernel)

theorem prime_11 : Nat.Prime 11 := by norm_num
theorem prime_1627 : Nat.Prime 1627 := by norm_num
theorem prime_2657 : Nat.Prime 2657 := by norm_num
theorem prime_4423 : Nat.Prime 4423 := by norm_num
theorem prime_103 : Nat.Prime 103 := by norm_num
theorem prime_41201 : Nat.Prime 41201 :=
  pratt 41201 3 [2, 2, 2, 2, 5, 5, 103] (by
    intro q hq
    simp only [List.mem_cons, List.not_mem_nil, or_false] at hq
    rcases hq with rfl | rfl | rfl | rfl | rfl | rfl | rfl
    · exact prime_2
    · exact prime_2
    · exact prime_2
    · exact prime_2
    · exact prime_5
    · exact prime_5
    · exact prime_103
    ) (by decide +kernel) (by decide +kernel) (by decide +kernel) (by decide +kernel) (by decide +kernel)

theorem prime_101 : Nat.Prime 101 := by norm_num
theorem prime_239 : Nat.Prime 239 := by norm_num
theorem prime_96557 : Nat.Prime 96557 :=
  pratt 96557 2 [2, 2, 101, 239] (by
    intro q hq
    simp only [List.mem_cons, List.not_mem_nil, or_false] at hq
    rcases hq with rfl | rfl | rfl | rfl
    · exact prime_2
    · exact prime_2
    · exact prime_101
    · exact prime_239
    ) (by decide +kernel) (by decide +kernel) (by decide +kernel) (by decide +kernel) (by decide +kernel)

theorem prime_419 : Nat.Prime 419 := by norm_num
theorem prime_20113 : Nat.Prime 20113 :=
  pratt 20113 10 [2, 2, 2, 2, 3, 419] (by
    intro q hq
    simp only [List.mem_cons, List.not_mem_nil, or_false] at hq
    rcases hq with rfl | rfl | rfl | rfl | rfl | rfl
    · exact prime_2
    · exact prime_2
    · exact prime_2
    · exact prime_2
    · exact prime_3
    · exact prime_419
    ) (by decide +kernel) (by decide +kernel) (by decide +kernel) (by decide +kernel) (by decide +kernel)

theorem prime_1206781 : Nat.Prime 1206781 :=
  pratt 1206781 10 [2, 2, 3, 5, 20113] (by
    intro q hq
    simp only [List.mem_cons, List.not_mem_nil, or_false] at hq
    rcases hq with rfl | rfl | rfl | rfl | rfl
    · exact prime_2
    · exact prime_2
    · exact prime_3
    · exact prime_5
    · exact prime_20113
    ) (by decide +kernel) (by decide +kernel) (by decide +kernel) (by decide +kernel) (by decide +kernel)

theorem prime_7240687 : Nat.Prime 7240687 :=
  pratt 7240687 3 [2, 3, 1206781] (by
    intro q hq
    simp only [List.mem_cons, List.not_mem_nil, or_false] at hq
    rcases hq with rfl | rfl | rfl
    · exact prime_2
    · exact prime_3
    · exact prime_1206781
    ) (by decide +kernel) (by decide +kernel) (by decide +kernel) (by decide +kernel) (by decide +kernel)

theorem prime_53 : Nat.Prime 53 := by norm_num
theorem prime_107590001 : Nat.Prime 107590001 :=
  pratt 107590001 3 [2, 2, 2, 2, 5, 5, 5, 5, 7, 29, 53] (by
    intro q hq
    simp only [List.mem_cons, List.not_mem_nil, or_false] at hq
    rcases hq with rfl | rfl | rfl | rfl | rfl | rfl | rfl | rfl | rfl | rfl | rfl
    · exact prime_2
    · exact prime_2
    · exact prime_2
    · exact prime_2
    · exact prime_5
    · exact prime_5
    · exact prime_5
    · exact prime_5
    · exact prime_7
    · exact prime_29
    · exact prime_53
    ) (by decide +kernel) (by decide +kernel) (by decide +kernel) (by decide +kernel) (by decide +kernel)

theorem prime_255515944373312847190720520512484175977 : Nat.Prime 255515944373312847190720520512484175977 :=
  pratt 255515944373312847190720520512484175977 3 [2, 2, 2, 7, 7, 11, 1627, 2657, 4423, 41201, 96557, 7240687, 107590001] (by
    intro q hq
    simp only [List.mem_cons, List.not_mem_nil, or_false] at hq
    rcases hq with rfl | rfl | rfl | rfl | rfl | rfl | rfl | rfl | rfl | rfl | rfl | rfl | rfl
    · exact prime_2
    · exact prime_2
    · exact prime_2
    · exact prime_7
    · exact prime_7
    · exact prime_11
    · exact prime_1627
    · exact prime_2657
    · exact prime_4423
    · exact prime_41201
    · exact prime_96557
    · exact prime_7240687
    · exact prime_107590001
    ) (by decide +kernel) (by decide +kernel) (by decide +kernel) (by decide +kernel) (by decide +kernel)

theorem prime_205115282021455665897114700593932402728804164701536103180137503955397371 : Nat.Prime 205115282021455665897114700593932402728804164701536103180137503955397371 :=
  pratt 205115282021455665897114700593932402728804164701536103180137503955397371 10 [2, 3, 5, 29, 29, 31, 7723, 132896956044521568488119, 255515944373312847190720520512484175977] (by
    intro q hq
    simp only [List.mem_cons, List.not_mem_nil, or_false] at hq
    rcases hq with rfl | rfl | rfl | rfl | rfl | rfl | rfl | rfl | rfl
    · exact prime_2
    · exact prime_3
    · exact prime_5
    · exact prime_29
    · exact prime_29
    · exact prime_31
    · exact prime_7723
    · exact prime_132896956044521568488119
    · exact prime_255515944373312847190720520512484175977
    ) (by decide +kernel) (by decide +kernel) (by decide +kernel) (by decide +kernel) (by decide +kernel)

theorem p256_prime : Nat.Prime p256 :=
  pratt p256 3 [2, 3, 7, 13441, 205115282021455665897114700593932402728804164701536103180137503955397371] (by
    intro q hq
    simp only [List.mem_cons, List.not_mem_nil, or_false] at hq
    rcases hq with rfl | rfl | rfl | rfl | rfl
    · exact prime_2
    · exact prime_3
    · exact prime_7
    · exact prime_13441
    · exact prime_205115282021455665897114700593932402728804164701536103180137503955397371
    ) (by decide +kernel) (by decide +kernel) (by decide +kernel) (by decide +kernel) (by decide +kernel)

theorem prime_149 : Nat.Prime 149 := by norm_num
theorem prime_631 : Nat.Prime 631 := by norm_num
theorem prime_16699 : Nat.Prime 16699 := by norm_num
theorem prime_2861 : Nat.Prime 2861 := by norm_num
theorem prime_85831 : Nat.Prime 85831 :=
  pratt 85831 3 [2, 3, 5, 2861] (by
    intro q hq
    simp only [List.mem_cons, List.not_mem_nil, or_false] at hq
    rcases hq with rfl | rfl | rfl | rfl
    · exact prime_2
    · exact prime_3
    · exact prime_5
    · exact prime_2861
    ) (by decide +kernel) (by decide +kernel) (by decide +kernel) (by decide +kernel) (by decide +kernel)

theorem prime_97 : Nat.Prime 97 := by norm_num
theorem prime_2011 : Nat.Prime 2011 := by norm_num
theorem prime_4681609 : Nat.Prime 4681609 :=
  pratt 4681609 23 [2, 2, 2, 3, 97, 2011] (by
    intro q hq
    simp only [List.mem_cons, List.not_mem_nil, or_false] at hq
    rcases hq with rfl | rfl | rfl | rfl | rfl | rfl
    · exact prime_2
    · exact prime_2
    · exact prime_2
    · exact prime_3
    · exact prime_97
    · exact prime_2011
    ) (by decide +kernel) (by decide +kernel) (by decide +kernel) (by decide +kernel) (by decide +kernel)

theorem prime_107361793816595537 : Nat.Prime 107361793816595537 :=
  pratt 107361793816595537 3 [2, 2, 2, 2, 16699, 85831, 4681609] (by
    intro q hq
    simp only [List.mem_cons, List.not_mem_nil, or_false] at hq
    rcases hq with rfl | rfl | rfl | rfl | rfl | rfl | rfl
    · exact prime_2
    · exact prime_2
    · exact prime_2
    · exact prime_2
    · exact prime_16699
    · exact prime_85831
    · exact prime_4681609
    ) (by decide +kernel) (by decide +kernel) (by decide +kernel) (by decide +kernel) (by decide +kernel)

theorem prime_17 : Nat.Prime 17 := by norm_num
theorem prime_59 : Nat.Prime 59 := by norm_num
theorem prime_4051 : Nat.Prime 4051 := by norm_num
theorem prime_19 : Nat.Prime 19 := by norm_num
theorem prime_113 : Nat.Prime 113 := by norm_num
theorem prime_120233 : Nat.Prime 120233 :=
  pratt 120233 3 [2, 2, 2, 7, 19, 113] (by
    intro q hq
    simp only [List.mem_cons, List.not_mem_nil, or_false] at hq
    rcases hq with rfl | rfl | rfl | rfl | rfl | rfl
    · exact prime_2
    · exact prime_2
    · exact prime_2
    · exact prime_7
    · exact prime_19
    · exact prime_113
    ) (by decide +kernel) (by decide +kernel) (by decide +kernel) (by decide +kernel) (by decide +kernel)

theorem prime_797 : Nat.Prime 797 := by norm_num
theorem prime_9349 : Nat.Prime 9349 := by norm_num
theorem prime_44706919 : Nat.Prime 44706919 :=
  pratt 44706919 6 [2, 3, 797, 9349] (by
    intro q hq
    simp only [List.mem_cons, List.not_mem_nil, or_false] at hq
    rcases hq with rfl | rfl | rfl | rfl
    · exact prime_2
    · exact prime_3
    · exact prime_797
    · exact prime_9349
    ) (by decide +kernel) (by decide +kernel) (by decide +kernel) (by decide +kernel) (by decide +kernel)

theorem prime_174723607534414371449 : Nat.Prime 174723607534414371449 :=
  pratt 174723607534414371449 3 [2, 2, 2, 17, 59, 4051, 120233, 44706919] (by
    intro q hq
    simp only [List.mem_cons, List.not_mem_nil, or_false] at hq
    rcases hq with rfl | rfl | rfl | rfl | rfl | rfl | rfl | rfl
    · exact prime_2
    · exact prime_2
    · exact prime_2
    · exact prime_17
    · exact prime_59
    · exact prime_4051
    · exact prime_120233
    · exact prime_44706919
    ) (by decide +kernel) (by decide +kernel) (by decide +kernel) (by decide +kernel) (by decide +kernel)

theorem prime_109 : Nat.Prime 109 := by norm_num
theorem prime_293 : Nat.Prime 293 := by norm_num
theorem prime_2731 : Nat.Prime 2731 := by norm_num
theorem prime_305873 : Nat.Prime 305873 :=
  pratt 305873 3 [2, 2, 2, 2, 7, 2731] (by
    intro q hq
    simp only [List.mem_cons, List.not_mem_nil, or_false] at hq
    rcases hq with rfl | rfl | rfl | rfl | rfl | rfl
    · exact prime_2
    · exact prime_2
    · exact prime_2
    · exact prime_2
    · exact prime_7
    · exact prime_2731
    ) (by decide +kernel) (by decide +kernel) (by decide +kernel) (by decide +kernel) (by decide +kernel)

theorem prime_41 : Nat.Prime 41 := by norm_num
theorem prime_1409 : Nat.Prime 1409 := by norm_num
theorem prime_28181 : Nat.Prime 28181 :=
  pratt 28181 2 [2, 2, 5, 1409] (by
    intro q hq
    simp only [List.mem_cons, List.not_mem_nil, or_false] at hq
    rcases hq with rfl | rfl | rfl | rfl
    · exact prime_2
    · exact prime_2
    · exact prime_5
    · exact prime_1409
    ) (by decide +kernel) (by decide +kernel) (by decide +kernel) (by decide +kernel) (by decide +kernel)

theorem prime_545358713 : Nat.Prime 545358713 :=
  pratt 545358713 5 [2, 2, 2, 41, 59, 28181] (by
    intro q hq
    simp only [List.mem_cons, List.not_mem_nil, or_false] at hq
    rcases hq with rfl | rfl | rfl | rfl | rfl | rfl
    · exact prime_2
    · exact prime_2
    · exact prime_2
    · exact prime_41
    · exact prime_59
    · exact prime_28181
    ) (by decide +kernel) (by decide +kernel) (by decide +kernel) (by decide +kernel) (by decide +kernel)

theorem prime_461 : Nat.Prime 461 := by norm_num
theorem prime_1871 : Nat.Prime 1871 := by norm_num
theorem prime_1627771 : Nat.Prime 1627771 :=
  pratt 1627771 3 [2, 3, 5, 29, 1871] (by
    intro q hq
    simp only [List.mem_cons, List.not_mem_nil, or_false] at hq
    rcases hq with rfl | rfl | rfl | rfl | rfl
    · exact prime_2
    · exact prime_3
    · exact prime_5
    · exact prime_29
    · exact prime_1871
    ) (by decide +kernel) (by decide +kernel) (by decide +kernel) (by decide +kernel) (by decide +kernel)

theorem prime_297159362677 : Nat.Prime 297159362677 :=
  pratt 297159362677 2 [2, 2, 3, 3, 11, 461, 1627771] (by
    intro q hq
    simp only [List.mem_cons, List.not_mem_nil, or_false] at hq
    rcases hq with rfl | rfl | rfl | rfl | rfl | rfl | rfl
    · exact prime_2
    · exact prime_2
    · exact prime_3
    · exact prime_3
    · exact prime_11
    · exact prime_461
    · exact prime_1627771
    ) (by decide +kernel) (by decide +kernel) (by decide +kernel) (by decide +kernel) (by decide +kernel)

theorem prime_29047611873442575647497758179 : Nat.Prime 29047611873442575647497758179 :=
  pratt 29047611873442575647497758179 2 [2, 293, 305873, 545358713, 297159362677] (by
    intro q hq
    simp only [List.mem_cons, List.not_mem_nil, or_false] at hq
    rcases hq with rfl | rfl | rfl | rfl | rfl
    · exact prime_2
    · exact prime_293
    · exact prime_305873
    · exact prime_545358713
    · exact prime_297159362677
    ) (by decide +kernel) (by decide +kernel) (by decide +kernel) (by decide +kernel) (by decide +kernel)

theorem prime_341948486974166000522343609283189 : Nat.Prime 341948486974166000522343609283189 :=
  pratt 341948486974166000522343609283189 2 [2, 2, 3, 3, 3, 109, 29047611873442575647497758179] (by
    intro q hq
    simp only [List.mem_cons, List.not_mem_nil, or_false] at hq
    rcases hq with rfl | rfl | rfl | rfl | rfl | rfl | rfl
    · exact prime_2
    · exact prime_2
    · exact prime_3
    · exact prime_3
    · exact prime_3
    · exact prime_109
    · exact prime_29047611873442575647497758179
    ) (by decide +kernel) (by decide +kernel) (by decide +kernel) (by decide +kernel) (by decide +kernel)

theorem n256_prime : Nat.Prime n256 :=
  pratt n256 7 [2, 2, 2, 2, 2, 2, 3, 149, 631, 107361793816595537, 174723607534414371449, 341948486974166000522343609283189] (by
    intro q hq
    simp only [List.mem_cons, List.not_mem_nil, or_false] at hq
    rcases hq with rfl | rfl | rfl | rfl | rfl | rfl | rfl | rfl | rfl | rfl | rfl | rfl
    · exact prime_2
    · exact prime_2
    · exact prime_2
    · exact prime_2
    · exact prime_2
    · exact prime_2
    · exact prime_3
    · exact prime_149
    · exact prime_631
    · exact prime_107361793816595537
    · exact prime_174723607534414371449
    · exact prime_341948486974166000522343609283189
    ) (by decide +kernel) (by decide +kernel) (by decide +kernel) (by decide +kernel) (by decide +kernel)

end Bip324.Concrete
