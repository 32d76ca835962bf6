import Mathlib.Algebra.Polynomial.Roots
import Mathlib.Algebra.Field.ZMod
import Mathlib.Data.Nat.Bitwise
import Mathlib.Data.Int.Interval
import Mathlib.Tactic.Ring
import Verif.Concrete.Prime
import Verif.Concrete.ChaCha20Poly1305

/-!
# Poly1305: how many one-time keys accept a forged message

The field prime of Poly1305 is prime (a Pratt certificate), messages are polynomials over that field, different
messages are different polynomials, and a polynomial has few roots.
-/

namespace Bip324.Concrete

open Polynomial

/-- The field prime of Poly1305, RFC 8439, 2.5. -/
abbrev p1305 : Nat := 1361129467683753853853498429727072845819

theorem prime_23 : Nat.Prime 23 := by norm_num
theorem prime_19403 : Nat.Prime 19403 := by norm_num
theorem prime_32985101 : Nat.Prime 32985101 :=
  pratt 32985101 2 [2, 2, 5, 5, 17, 19403] (by
    intro q hq
    simp only [List.mem_cons, List.not_mem_nil, or_false] at hq
    rcases hq with rfl | rfl | rfl | rfl | rfl | rfl
    · exact prime_2
    · exact prime_2
    · exact prime_5
    · exact prime_5
    · exact prime_17
    · exact prime_19403
    ) (by decide +kernel) (by decide +kernel) (by decide +kernel) (by decide +kernel) (by decide +kernel)

theorem prime_73 : Nat.Prime 73 := by norm_num
theorem prime_487 : Nat.Prime 487 := by norm_num
theorem prime_3134801 : Nat.Prime 3134801 :=
  pratt 3134801 3 [2, 2, 2, 2, 5, 5, 17, 461] (by
    intro q hq
    simp only [List.mem_cons, List.not_mem_nil, or_false] at hq
    rcases hq with rfl | rfl | rfl | rfl | rfl | rfl | rfl | rfl
    · exact prime_2
    · exact prime_2
    · exact prime_2
    · exact prime_2
    · exact prime_5
    · exact prime_5
    · exact prime_17
    · exact prime_461
    ) (by decide +kernel) (by decide +kernel) (by decide +kernel) (by decide +kernel) (by decide +kernel)

theorem prime_13 : Nat.Prime 13 := by norm_num
theorem prime_43 : Nat.Prime 43 := by norm_num
theorem prime_4889 : Nat.Prime 4889 := by norm_num
theorem prime_881 : Nat.Prime 881 := by norm_num
theorem prime_37003 : Nat.Prime 37003 :=
  pratt 37003 2 [2, 3, 7, 881] (by
    intro q hq
    simp only [List.mem_cons, List.not_mem_nil, or_false] at hq
    rcases hq with rfl | rfl | rfl | rfl
    · exact prime_2
    · exact prime_3
    · exact prime_7
    · exact prime_881
    ) (by decide +kernel) (by decide +kernel) (by decide +kernel) (by decide +kernel) (by decide +kernel)

theorem prime_67 : Nat.Prime 67 := by norm_num
theorem prime_221101 : Nat.Prime 221101 :=
  pratt 221101 22 [2, 2, 3, 5, 5, 11, 67] (by
    intro q hq
    simp only [List.mem_cons, List.not_mem_nil, or_false] at hq
    rcases hq with rfl | rfl | rfl | rfl | rfl | rfl | rfl
    · exact prime_2
    · exact prime_2
    · exact prime_3
    · exact prime_5
    · exact prime_5
    · exact prime_11
    · exact prime_67
    ) (by decide +kernel) (by decide +kernel) (by decide +kernel) (by decide +kernel) (by decide +kernel)

theorem prime_4024685905107147541 : Nat.Prime 4024685905107147541 :=
  pratt 4024685905107147541 2 [2, 2, 3, 3, 5, 13, 43, 4889, 37003, 221101] (by
    intro q hq
    simp only [List.mem_cons, List.not_mem_nil, or_false] at hq
    rcases hq with rfl | rfl | rfl | rfl | rfl | rfl | rfl | rfl | rfl | rfl
    · exact prime_2
    · exact prime_2
    · exact prime_3
    · exact prime_3
    · exact prime_5
    · exact prime_13
    · exact prime_43
    · exact prime_4889
    · exact prime_37003
    · exact prime_221101
    ) (by decide +kernel) (by decide +kernel) (by decide +kernel) (by decide +kernel) (by decide +kernel)

theorem prime_897064739519922787230182993783 : Nat.Prime 897064739519922787230182993783 :=
  pratt 897064739519922787230182993783 5 [2, 73, 487, 3134801, 4024685905107147541] (by
    intro q hq
    simp only [List.mem_cons, List.not_mem_nil, or_false] at hq
    rcases hq with rfl | rfl | rfl | rfl | rfl
    · exact prime_2
    · exact prime_73
    · exact prime_487
    · exact prime_3134801
    · exact prime_4024685905107147541
    ) (by decide +kernel) (by decide +kernel) (by decide +kernel) (by decide +kernel) (by decide +kernel)

theorem p1305_prime : Nat.Prime p1305 :=
  pratt p1305 2 [2, 23, 32985101, 897064739519922787230182993783] (by
    intro q hq
    simp only [List.mem_cons, List.not_mem_nil, or_false] at hq
    rcases hq with rfl | rfl | rfl | rfl
    · exact prime_2
    · exact prime_23
    · exact prime_32985101
    · exact prime_897064739519922787230182993783
    ) (by decide +kernel) (by decide +kernel) (by decide +kernel) (by decide +kernel) (by decide +kernel)

instance : Fact p1305.Prime := ⟨p1305_prime⟩

/-- The blocks of a message as numbers, each with the additional bit of RFC 8439, 2.5.1. -/
def coeffs : Nat → Bytes → List Nat
  | 0, _ => []
  | _ + 1, [] => []
  | fuel + 1, b :: msg =>
    (leNat ((b :: msg).take 16) + 2 ^ (8 * ((b :: msg).take 16).length)) :: coeffs fuel ((b :: msg).drop 16)

/-- The polynomial of a list of blocks, the last block first, evaluated at `r`. -/
def horner (r : Nat) : List Nat → Nat
  | [] => 0
  | c :: cs => ((horner r cs + c) * r) % p1305

/-- The polynomial of a list of blocks, the last block first. -/
noncomputable def blockPoly : List Nat → (ZMod p1305)[X]
  | [] => 0
  | c :: cs => (blockPoly cs + C (c : ZMod p1305)) * X

theorem horner_lt (r : Nat) (l : List Nat) : horner r l < p1305 := by
  cases l with
  | nil => exact p1305_prime.pos
  | cons c cs => exact Nat.mod_lt _ p1305_prime.pos

theorem polyBlocks_horner (r : Nat) : ∀ (fuel : Nat) (msg : Bytes) (l : List Nat),
    polyBlocks r fuel (horner r l) msg = horner r ((coeffs fuel msg).reverse ++ l) := by
  intro fuel
  induction fuel with
  | zero => intro msg l; rfl
  | succ fuel ih =>
    intro msg l
    cases msg with
    | nil => rfl
    | cons b msg =>
      simp only [polyBlocks, coeffs, List.reverse_cons, List.append_assoc, List.singleton_append]
      rw [← ih]
      rfl

theorem horner_eval (r : Nat) (l : List Nat) :
    ((horner r l : Nat) : ZMod p1305) = (blockPoly l).eval (r : ZMod p1305) := by
  induction l with
  | nil => simp [horner, blockPoly]
  | cons c cs ih => simp only [horner, blockPoly, ZMod.natCast_mod, Nat.cast_mul, Nat.cast_add, ih, eval_mul,
      eval_add, eval_C, eval_X]

theorem blockPoly_coeff (l : List Nat) : (blockPoly l).coeff 0 = 0 := by
  cases l with
  | nil => rfl
  | cons c cs => simp [blockPoly]

theorem blockPoly_degree (l : List Nat) : (blockPoly l).natDegree ≤ l.length := by
  induction l with
  | nil => simp [blockPoly]
  | cons c cs ih =>
    simp only [blockPoly, List.length_cons]
    refine le_trans natDegree_mul_le ?_
    rw [natDegree_X]
    have := natDegree_add_le (blockPoly cs) (C (c : ZMod p1305))
    rw [natDegree_C] at this
    omega

theorem cast_inj {a b : Nat} (ha : a < p1305) (hb : b < p1305) (h : (a : ZMod p1305) = b) : a = b := by
  rw [ZMod.natCast_eq_natCast_iff, Nat.ModEq, Nat.mod_eq_of_lt ha, Nat.mod_eq_of_lt hb] at h
  exact h

/-- Different lists of blocks are different polynomials. -/
theorem blockPoly_inj : ∀ (l l' : List Nat), (∀ c ∈ l, 0 < c ∧ c < p1305) → (∀ c ∈ l', 0 < c ∧ c < p1305) →
    blockPoly l = blockPoly l' → l = l' := by
  have hz : ∀ c cs, 0 < c → c < p1305 → blockPoly (c :: cs) ≠ 0 := by
    intro c cs h0 h1 h
    simp only [blockPoly] at h
    rcases mul_eq_zero.1 h with h | h
    · have := congrArg (fun f => coeff f 0) h
      simp only [coeff_add, blockPoly_coeff, coeff_C_zero, zero_add, coeff_zero] at this
      have := cast_inj h1 p1305_prime.pos (by rw [this, Nat.cast_zero])
      omega
    · exact X_ne_zero h
  intro l
  induction l with
  | nil =>
    intro l' _ hl' h
    cases l' with
    | nil => rfl
    | cons c cs =>
      have := hl' c (by simp)
      exact absurd h.symm (hz c cs this.1 this.2)
  | cons c cs ih =>
    intro l' hl hl' h
    have hc := hl c (by simp)
    cases l' with
    | nil => exact absurd h (hz c cs hc.1 hc.2)
    | cons d ds =>
      have hd := hl' d (by simp)
      simp only [blockPoly] at h
      have h := mul_right_cancel₀ X_ne_zero h
      have h0 := congrArg (fun f => coeff f 0) h
      simp only [coeff_add, blockPoly_coeff, coeff_C_zero, zero_add] at h0
      have hcd := cast_inj hc.2 hd.2 h0
      subst hcd
      have := ih ds (fun x hx => hl x (by simp [hx])) (fun x hx => hl' x (by simp [hx])) (add_right_cancel h)
      rw [this]

theorem coeffs_bounds : ∀ (fuel : Nat) (msg : Bytes), ∀ c ∈ coeffs fuel msg, 0 < c ∧ c < p1305 := by
  intro fuel
  induction fuel with
  | zero => intro msg c hc; simp [coeffs] at hc
  | succ fuel ih =>
    intro msg c hc
    cases msg with
    | nil => simp [coeffs] at hc
    | cons b msg =>
      simp only [coeffs, List.mem_cons] at hc
      rcases hc with rfl | hc
      · have h1 := leNat_lt ((b :: msg).take 16)
        have h2 : ((b :: msg).take 16).length ≤ 16 := by rw [List.length_take]; omega
        generalize (b :: msg).take 16 = x at h1 h2
        rw [show (256 : Nat) = 2 ^ 8 from rfl, ← Nat.pow_mul] at h1
        have h3 : 2 ^ (8 * x.length) ≤ 2 ^ (8 * 16) := Nat.pow_le_pow_right (by omega) (by omega)
        have h4 : 0 < 2 ^ (8 * x.length) := Nat.two_pow_pos _
        norm_num at h3
        unfold p1305
        omega
      · exact ih _ c hc

theorem coeffs_length : ∀ (fuel : Nat) (msg : Bytes), (coeffs fuel msg).length ≤ (msg.length + 15) / 16 := by
  intro fuel
  induction fuel with
  | zero => intro msg; simp [coeffs]
  | succ fuel ih =>
    intro msg
    cases msg with
    | nil => simp [coeffs]
    | cons b msg =>
      simp only [coeffs, List.length_cons]
      have := ih ((b :: msg).drop 16)
      rw [List.length_drop, List.length_cons] at this
      omega

theorem leNat_inj : ∀ (a b : Bytes), a.length = b.length → leNat a = leNat b → a = b := by
  intro a
  induction a with
  | nil => intro b hb _; exact (List.length_eq_zero_iff.1 hb.symm).symm
  | cons x a ih =>
    intro b hb h
    cases b with
    | nil => simp at hb
    | cons y b =>
      simp only [leNat] at h
      have hx := x.toNat_lt
      have hy := y.toNat_lt
      have h1 : x.toNat = y.toNat := by omega
      have h2 : leNat a = leNat b := by omega
      rw [ih b (by simpa using hb) h2, UInt8.toNat_inj.1 h1]

theorem block_inj (a b : Bytes)
    (h : leNat a + 2 ^ (8 * a.length) = leNat b + 2 ^ (8 * b.length)) : a = b := by
  have ha := leNat_lt a
  have hb := leNat_lt b
  rw [show (256 : Nat) = 2 ^ 8 from rfl, ← Nat.pow_mul] at ha hb
  have key : ∀ m n : Nat, m < n → 2 ^ (8 * m) + 2 ^ (8 * m) ≤ 2 ^ (8 * n) := by
    intro m n hmn
    have : 2 ^ (8 * m + 1) ≤ 2 ^ (8 * n) := Nat.pow_le_pow_right (by omega) (by omega)
    rw [Nat.pow_succ] at this
    omega
  have hl : a.length = b.length := by
    rcases Nat.lt_trichotomy a.length b.length with hlt | heq | hgt
    · have := key _ _ hlt; omega
    · exact heq
    · have := key _ _ hgt; omega
  rw [hl] at h
  exact leNat_inj a b hl (by omega)

/-- A message is determined by its blocks. -/
theorem coeffs_inj : ∀ (f f' : Nat) (m m' : Bytes), m.length < f → m'.length < f' →
    coeffs f m = coeffs f' m' → m = m' := by
  intro f
  induction f with
  | zero => intro f' m m' h; omega
  | succ f ih =>
    intro f' m m' hm hm' h
    cases f' with
    | zero => omega
    | succ f' =>
      cases m with
      | nil =>
        cases m' with
        | nil => rfl
        | cons b m' => simp [coeffs] at h
      | cons a m =>
        cases m' with
        | nil => simp [coeffs] at h
        | cons b m' =>
          simp only [coeffs, List.cons.injEq] at h
          have h1 := block_inj _ _ h.1
          have h2 := ih f' _ _ (by simp at hm ⊢; omega) (by simp at hm' ⊢; omega) h.2
          rw [← List.take_append_drop 16 (a :: m), h1, h2, List.take_append_drop]

/-- Few `r` make two given messages differ by a given amount, modulo `2 ^ 128`. -/
theorem differ_count (l l' : List Nat) (hl : ∀ c ∈ l, 0 < c ∧ c < p1305) (hl' : ∀ c ∈ l', 0 < c ∧ c < p1305)
    (hne : l ≠ l') (t t' D : Nat) (hD : l.length ≤ D) (hD' : l'.length ≤ D) (S : Finset Nat)
    (hS : ∀ r ∈ S, r < p1305 ∧ (horner r l' + t) % 2 ^ 128 = (horner r l + t') % 2 ^ 128) :
    S.card ≤ 8 * D := by
  classical
  let δ : Int := ((t' : Int) - t) % 2 ^ 128
  let F : Int → (ZMod p1305)[X] := fun k => blockPoly l' - blockPoly l - C (((δ + 2 ^ 128 * k : Int)) : ZMod p1305)
  have hF : ∀ k, F k ≠ 0 := by
    intro k h
    have h0 := congrArg (fun f => coeff f 0) h
    simp only [F, coeff_sub, blockPoly_coeff, coeff_C_zero, coeff_zero, sub_zero, zero_sub, neg_eq_zero] at h0
    simp only [F, h0, C_0, sub_zero] at h
    exact hne (blockPoly_inj l l' hl hl' (sub_eq_zero.1 h).symm)
  have hdeg : ∀ k, (F k).natDegree ≤ D := by
    intro k
    refine le_trans (natDegree_sub_le _ _) ?_
    rw [natDegree_C]
    refine max_le (le_trans (natDegree_sub_le _ _) (max_le ?_ ?_)) (Nat.zero_le _)
    · exact le_trans (blockPoly_degree l') hD'
    · exact le_trans (blockPoly_degree l) hD
  have hcover : S ⊆ (Finset.Icc (-4 : Int) 3).biUnion
      (fun k => S.filter (fun r : Nat => (F k).eval (r : ZMod p1305) = 0)) := by
    intro r hr
    obtain ⟨-, hmod⟩ := hS r hr
    have h1 := horner_lt r l
    have h2 := horner_lt r l'
    have hi : ((horner r l' : Int) + t) % 2 ^ 128 = ((horner r l : Int) + t') % 2 ^ 128 := by exact_mod_cast hmod
    have hb : (horner r l : Int) < 1361129467683753853853498429727072845819 := by exact_mod_cast h1
    have hb' : (horner r l' : Int) < 1361129467683753853853498429727072845819 := by exact_mod_cast h2
    have hp0 : (0 : Int) ≤ (horner r l : Int) := Int.natCast_nonneg _
    have hp1 : (0 : Int) ≤ (horner r l' : Int) := Int.natCast_nonneg _
    have hex : ∃ k : Int, -4 ≤ k ∧ k ≤ 3 ∧ (horner r l' : Int) - horner r l = δ + 2 ^ 128 * k := by
      refine ⟨((horner r l' : Int) - horner r l - δ) / 2 ^ 128, ?_, ?_, ?_⟩ <;>
        · simp only [δ]
          norm_num at hi ⊢
          omega
    obtain ⟨k, hk1, hk2, hk⟩ := hex
    refine Finset.mem_biUnion.2 ⟨k, Finset.mem_Icc.2 ⟨hk1, hk2⟩, Finset.mem_filter.2 ⟨hr, ?_⟩⟩
    simp only [F, eval_sub, eval_C, ← horner_eval]
    rw [← hk]
    push_cast
    ring
  have hroot : ∀ k, (S.filter (fun r : Nat => (F k).eval (r : ZMod p1305) = 0)).card ≤ D := by
    intro k
    have hinj : Set.InjOn (fun r : Nat => (r : ZMod p1305))
        (S.filter (fun r : Nat => (F k).eval (r : ZMod p1305) = 0)) := by
      intro a ha b hb hab
      exact cast_inj (hS a (Finset.mem_filter.1 ha).1).1 (hS b (Finset.mem_filter.1 hb).1).1 hab
    rw [← Finset.card_image_of_injOn hinj]
    refine le_trans (Finset.card_le_card (t := (F k).roots.toFinset) ?_) ?_
    · intro x hx
      obtain ⟨r, hr, rfl⟩ := Finset.mem_image.1 hx
      rw [Multiset.mem_toFinset, mem_roots (hF k)]
      exact (Finset.mem_filter.1 hr).2
    · exact le_trans (Multiset.toFinset_card_le _) (le_trans (card_roots' _) (hdeg k))
  calc S.card ≤ _ := Finset.card_le_card hcover
    _ ≤ _ := Finset.card_biUnion_le
    _ ≤ (Finset.Icc (-4 : Int) 3).card • D := Finset.sum_le_card_nsmul _ _ _ (fun k _ => hroot k)
    _ = 8 * D := by rfl

/-- RFC 8439, 2.5: clamping. -/
abbrev clampMask : Nat := 0x0ffffffc0ffffffc0ffffffc0fffffff

/-- Each clamped `r` comes from at most `2 ^ 22` strings of 128 bits. -/
theorem clamp_fibre (v : Nat) (S : Finset Nat) (hS : ∀ x ∈ S, x < 2 ^ 128 ∧ x &&& clampMask = v) :
    S.card ≤ 2 ^ 22 := by
  classical
  let I : Finset Nat := (Finset.range 128).filter (fun i => clampMask.testBit i = false)
  have hI : I.card = 22 := by decide +kernel
  let g : Nat → Finset Nat := fun x => I.filter (fun i => x.testBit i = true)
  have hinj : Set.InjOn g S := by
    intro x hx y hy hxy
    obtain ⟨hx1, hx2⟩ := hS x hx
    obtain ⟨hy1, hy2⟩ := hS y hy
    refine Nat.eq_of_testBit_eq (fun i => ?_)
    by_cases hi : i < 128
    · by_cases hm : clampMask.testBit i = true
      · have e1 := congrArg (fun z => z.testBit i) hx2
        have e2 := congrArg (fun z => z.testBit i) hy2
        simp only [Nat.testBit_and, hm, Bool.and_true] at e1 e2
        rw [e1, e2]
      · have hm' : clampMask.testBit i = false := by simpa using hm
        have hiI : i ∈ I := Finset.mem_filter.2 ⟨Finset.mem_range.2 hi, hm'⟩
        have := Finset.ext_iff.1 hxy i
        simp only [g, Finset.mem_filter, hiI, true_and] at this
        exact Bool.eq_iff_iff.2 this
    · have hp : 2 ^ 128 ≤ 2 ^ i := Nat.pow_le_pow_right (by omega) (by omega)
      rw [Nat.testBit_lt_two_pow (by omega), Nat.testBit_lt_two_pow (by omega)]
  calc S.card = (S.image g).card := (Finset.card_image_of_injOn hinj).symm
    _ ≤ I.powerset.card := Finset.card_le_card (by
        intro y hy
        obtain ⟨x, -, rfl⟩ := Finset.mem_image.1 hy
        exact Finset.mem_powerset.2 (Finset.filter_subset _ _))
    _ = 2 ^ 22 := by rw [Finset.card_powerset, hI]

/-- A one-time key: the two halves. -/
abbrev OtKey : Type := Fin (2 ^ 128) × Fin (2 ^ 128)

/-- The one-time key as the 32 bytes of RFC 8439, 2.5. -/
def OtKey.bytes (k : OtKey) : Bytes := leBytes 16 k.1.val ++ leBytes 16 k.2.val

theorem poly1305_bytes (k : OtKey) (msg : Bytes) :
    poly1305 k.bytes msg
      = leBytes 16 (horner (k.1.val &&& clampMask) (coeffs (msg.length + 1) msg).reverse + k.2.val) := by
  unfold poly1305 OtKey.bytes
  have h1 : (leBytes 16 k.1.val ++ leBytes 16 k.2.val).take 16 = leBytes 16 k.1.val := by
    rw [List.take_left' (leBytes_length _ _)]
  have h2 : ((leBytes 16 k.1.val ++ leBytes 16 k.2.val).drop 16).take 16 = leBytes 16 k.2.val := by
    rw [List.drop_left' (leBytes_length _ _), List.take_of_length_le (by rw [leBytes_length])]
  have e1 : leNat (leBytes 16 k.1.val) = k.1.val := by
    rw [leNat_leBytes]; exact Nat.mod_eq_of_lt k.1.isLt
  have e2 : leNat (leBytes 16 k.2.val) = k.2.val := by
    rw [leNat_leBytes]; exact Nat.mod_eq_of_lt k.2.isLt
  simp only [h1, h2, e1, e2]
  have := polyBlocks_horner (k.1.val &&& clampMask) (msg.length + 1) msg []
  rw [List.append_nil] at this
  rw [← this]
  rfl

theorem leBytes_eq_iff (n x : Nat) (t : Bytes) (ht : t.length = n) :
    leBytes n x = t ↔ x % 256 ^ n = leNat t := by
  constructor
  · intro h; rw [← h, leNat_leBytes]
  · intro h
    refine leNat_inj _ _ (by rw [leBytes_length, ht]) ?_
    rw [leNat_leBytes, h]

/-- Exactly one in `2 ^ 128` one-time keys gives a message a given tag. -/
theorem tag_count (msg t : Bytes) (ht : t.length = 16) :
    (Finset.univ.filter (fun k : OtKey => poly1305 k.bytes msg = t)).card = 2 ^ 128 := by
  classical
  have hT : leNat t < 2 ^ 128 := by have := leNat_lt t; rw [ht] at this; exact this
  let s : Fin (2 ^ 128) → Fin (2 ^ 128) := fun r =>
    ⟨(leNat t + (2 ^ 128 - horner (r.val &&& clampMask) (coeffs (msg.length + 1) msg).reverse % 2 ^ 128)) % 2 ^ 128,
      Nat.mod_lt _ (Nat.two_pow_pos _)⟩
  have : Finset.univ.filter (fun k : OtKey => poly1305 k.bytes msg = t)
      = Finset.univ.image (fun r => (r, s r)) := by
    ext ⟨r, x⟩
    simp only [Finset.mem_filter, Finset.mem_univ, true_and, Finset.mem_image, Prod.mk.injEq,
      exists_eq_left, poly1305_bytes]
    rw [leBytes_eq_iff 16 _ _ ht, Fin.ext_iff]
    have hx := x.isLt
    simp only [s]
    generalize horner (r.val &&& clampMask) (coeffs (msg.length + 1) msg).reverse = h
    generalize leNat t = T at *
    norm_num at hx hT ⊢
    omega
  rw [this, Finset.card_image_of_injective _ (fun a b h => (Prod.mk.inj h).1), Finset.card_univ,
    Fintype.card_fin]

/-- Of the one-time keys which give `msg` the tag `t` few give another message (or the same with another tag)
the tag `t'`. -/
theorem forge_count (msg msg' t t' : Bytes) (hne : (msg, t) ≠ (msg', t')) (D : Nat)
    (hD : (msg.length + 15) / 16 ≤ D) (hD' : (msg'.length + 15) / 16 ≤ D) :
    (Finset.univ.filter (fun k : OtKey => poly1305 k.bytes msg = t ∧ poly1305 k.bytes msg' = t')).card
      ≤ 8 * D * 2 ^ 22 := by
  classical
  by_cases hm : msg = msg'
  · subst hm
    rw [Finset.filter_false_of_mem]
    · simp
    · rintro k - ⟨h1, h2⟩
      exact hne (by rw [← h1, ← h2])
  · obtain ⟨A, hA⟩ : ∃ A, A = Finset.univ.filter
        (fun k : OtKey => poly1305 k.bytes msg = t ∧ poly1305 k.bytes msg' = t') := ⟨_, rfl⟩
    rw [← hA]
    let l := (coeffs (msg.length + 1) msg).reverse
    let l' := (coeffs (msg'.length + 1) msg').reverse
    have hmem : ∀ k ∈ A, (horner (k.1.val &&& clampMask) l + k.2.val) % 2 ^ 128 = leNat t ∧
        (horner (k.1.val &&& clampMask) l' + k.2.val) % 2 ^ 128 = leNat t' := by
      intro k hk
      simp only [hA, Finset.mem_filter, Finset.mem_univ, true_and] at hk
      obtain ⟨h1, h2⟩ := hk
      rw [poly1305_bytes] at h1 h2
      constructor
      · rw [← h1, leNat_leBytes]; rfl
      · rw [← h2, leNat_leBytes]; rfl
    -- the second half of the key is determined by the first
    have hinj : Set.InjOn (fun k : OtKey => k.1.val) A := by
      rintro ⟨r, s⟩ hk ⟨r', s'⟩ hk' hr
      have hr : r = r' := Fin.ext hr
      subst hr
      have h1 := (hmem _ hk).1
      have h2 := (hmem _ hk').1
      have hs := s.isLt
      have hs' := s'.isLt
      simp only at h1 h2
      generalize horner (r.val &&& clampMask) l = h at h1 h2
      have : s = s' := by
        apply Fin.ext
        norm_num at h1 h2 hs hs'
        omega
      rw [this]
    obtain ⟨B, hBdef⟩ : ∃ B, B = A.image (fun k : OtKey => k.1.val) := ⟨_, rfl⟩
    have hAB : A.card = B.card := by rw [hBdef]; exact (Finset.card_image_of_injOn hinj).symm
    obtain ⟨V, hVdef⟩ : ∃ V, V = B.image (fun r => r &&& clampMask) := ⟨_, rfl⟩
    have hV : V.card ≤ 8 * D := by
      refine differ_count l l' (fun c hc => coeffs_bounds _ _ c (List.mem_reverse.1 hc))
        (fun c hc => coeffs_bounds _ _ c (List.mem_reverse.1 hc)) ?_ (leNat t) (leNat t') D ?_ ?_ V ?_
      · intro h
        exact hm (coeffs_inj _ _ _ _ (Nat.lt_succ_self _) (Nat.lt_succ_self _) (List.reverse_injective h))
      · rw [List.length_reverse]; exact le_trans (coeffs_length _ _) hD
      · rw [List.length_reverse]; exact le_trans (coeffs_length _ _) hD'
      · intro v hv
        rw [hVdef] at hv
        obtain ⟨r, hr, rfl⟩ := Finset.mem_image.1 hv
        rw [hBdef] at hr
        obtain ⟨k, hk, rfl⟩ := Finset.mem_image.1 hr
        obtain ⟨h1, h2⟩ := hmem k hk
        refine ⟨lt_of_le_of_lt Nat.and_le_right (by decide +kernel), ?_⟩
        generalize horner (k.1.val &&& clampMask) l = h at h1
        generalize horner (k.1.val &&& clampMask) l' = h' at h2
        rw [← h1, ← h2]
        norm_num
        omega
    have hB : B.card ≤ 2 ^ 22 * V.card := by
      rw [hVdef]
      refine Finset.card_le_mul_card_image B (2 ^ 22) (fun v _ => ?_)
      refine clamp_fibre v _ (fun x hx => ?_)
      obtain ⟨hx1, hx2⟩ := Finset.mem_filter.1 hx
      rw [hBdef] at hx1
      obtain ⟨k, -, rfl⟩ := Finset.mem_image.1 hx1
      exact ⟨k.1.isLt, hx2⟩
    calc A.card = B.card := hAB
      _ ≤ 2 ^ 22 * V.card := hB
      _ ≤ 2 ^ 22 * (8 * D) := Nat.mul_le_mul_left _ hV
      _ = 8 * D * 2 ^ 22 := by ring

end Bip324.Concrete
