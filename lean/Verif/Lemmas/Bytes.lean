import Verif.Model.Prims

/-! # Helper lemmas on byte strings and checked arithmetic -/

namespace Bip324

@[simp] theorem leBytes_length (n x : Nat) : (leBytes n x).length = n := by
  induction n generalizing x with
  | zero => rfl
  | succ n ih => simp [leBytes, ih]

theorem leNat_leBytes (n x : Nat) : leNat (leBytes n x) = x % 256 ^ n := by
  induction n generalizing x with
  | zero => simp [leBytes, leNat, Nat.mod_one]
  | succ n ih =>
    have h : (UInt8.ofNat (x % 256)).toNat = x % 256 := by
      simp [UInt8.toNat_ofNat']
    simp only [leBytes, leNat, ih, h]
    rw [Nat.pow_succ, Nat.mul_comm (256 ^ n) 256, Nat.mod_mul]

theorem leNat_lt (bs : Bytes) : leNat bs < 256 ^ bs.length := by
  induction bs with
  | nil => simp [leNat]
  | cons b bs ih =>
    have hb : b.toNat < 256 := UInt8.toNat_lt b
    simp only [leNat, List.length_cons, Nat.pow_succ]
    omega

theorem leBytes_inj {n x y : Nat} (hx : x < 256 ^ n) (hy : y < 256 ^ n)
    (h : leBytes n x = leBytes n y) : x = y := by
  have := congrArg leNat h
  rwa [leNat_leBytes, leNat_leBytes, Nat.mod_eq_of_lt hx, Nat.mod_eq_of_lt hy] at this

theorem leBytes_mod (n x : Nat) : leBytes n (x % 256 ^ n) = leBytes n x := by
  induction n generalizing x with
  | zero => rfl
  | succ n ih =>
    simp only [leBytes]
    congr 1
    · congr 1
      rw [Nat.pow_succ]
      exact Nat.mod_mul_left_mod x (256 ^ n) 256
    · rw [Nat.pow_succ, Nat.mul_comm, Nat.mod_mul_right_div_self]
      exact ih _

@[simp] theorem zeros_length (n : Nat) : (zeros n).length = n := by simp [zeros]

@[simp] theorem ksSlice_length (P : Prims) (k n : Bytes) (pos len : Nat) :
    (P.ksSlice k n pos len).length = len := by simp [Prims.ksSlice]

@[simp] theorem xorBytes_length (a b : Bytes) :
    (xorBytes a b).length = min a.length b.length := by simp [xorBytes]

theorem u8_xor_cancel (a b : UInt8) : a ^^^ b ^^^ b = a := by
  rw [UInt8.xor_assoc, UInt8.xor_self, UInt8.xor_zero]

theorem xorBytes_cancel {a k : Bytes} (h : a.length ≤ k.length) :
    xorBytes (xorBytes a k) k = a := by
  induction a generalizing k with
  | nil => simp [xorBytes]
  | cons x a ih =>
    cases k with
    | nil => simp at h
    | cons y k =>
      simp only [xorBytes, List.zipWith_cons_cons, u8_xor_cancel]
      congr 1
      exact ih (by simpa using h)

theorem uadd_lt {prof : Profile} {m a b : Nat} (h : a + b < m) : uadd prof m a b = some (a + b) := by
  simp [uadd, h]

theorem uadd_none {prof : Profile} {m a b : Nat} :
    uadd prof m a b = none ↔ m ≤ a + b ∧ prof.overflowChecks = true := by
  unfold uadd
  split
  · simp; omega
  · split <;> simp <;> simp_all

theorem writeAt_length {buf src : Bytes} {i : Nat} (h : i + src.length ≤ buf.length) :
    (writeAt buf i src).length = buf.length := by
  simp [writeAt]; omega

theorem take_append_len {α} (a b : List α) {n : Nat} (h : n = a.length) : (a ++ b).take n = a := by
  subst h; simp

theorem drop_append_len {α} (a b : List α) {n : Nat} (h : n = a.length) : (a ++ b).drop n = b := by
  subst h; simp

/-- Writing over the `mid` part of `pre ++ mid ++ post`. -/
theorem writeAt_split {pre mid post src : Bytes} {i : Nat} (hi : i = pre.length)
    (hm : src.length = mid.length) :
    writeAt (pre ++ (mid ++ post)) i src = pre ++ (src ++ post) := by
  subst hi
  simp [writeAt, hm, List.drop_append, List.drop_of_length_le]

theorem split3 {buf : Bytes} {i n : Nat} (h : i + n ≤ buf.length) :
    ∃ pre mid post, buf = pre ++ (mid ++ post) ∧ pre.length = i ∧ mid.length = n ∧
      post = buf.drop (i + n) := by
  refine ⟨buf.take i, (buf.drop i).take n, (buf.drop i).drop n, ?_, ?_, ?_, ?_⟩
  · rw [List.take_append_drop, List.take_append_drop]
  · simp; omega
  · simp; omega
  · simp [List.drop_drop]

theorem slice_split {pre mid post : Bytes} {i n : Nat} (hi : i = pre.length)
    (hn : n = mid.length) : slice (pre ++ (mid ++ post)) i n = mid := by
  subst hi hn; simp [slice]

end Bip324
