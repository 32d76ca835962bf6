import Verif.Model.Traffic

/-!
# The `f64` of the statistics (traffic/lib.rs:309-318)

Trusted: `u64 as f64` and `/` on `f64` are those of IEEE 754 with rounding to nearest, ties to even, as the
Rust reference says.  Simplified: only what can occur here, non-negative finite numbers, is represented;
exponents are not cut off (`C60_double` proves that they stay within the range of the type).
-/

namespace Bip324

/-- A non-negative finite `f64`: `mant * 2^exp`. traffic/lib.rs:316. -/
structure F64 where
  mant : Nat
  exp : Int
deriving Repr, DecidableEq

/-- The integer nearest to `a / b`, the even one of two. Rounding of IEEE 754, for traffic/lib.rs:316. -/
def divNearest (a b : Nat) : Nat :=
  let q := a / b
  let r := a % b
  if 2 * r < b then q
  else if b < 2 * r then q + 1
  else if q % 2 = 0 then q
  else q + 1

/-- The exponent for which the mantissa of `num / den` has 53 bits. IEEE 754, for traffic/lib.rs:316. -/
def quotExp (num den : Nat) : Int :=
  let l : Int := (num.log2 : Int) - den.log2
  let l := if num * 2 ^ (-l).toNat < den * 2 ^ l.toNat then l - 1 else l
  l - 52

/-- `num / den` rounded to an `f64`. IEEE 754, for traffic/lib.rs:316. -/
def F64.ofQuot (num den : Nat) : F64 :=
  if num = 0 then ⟨0, 0⟩
  else
    let e := quotExp num den
    let m := divNearest (num * 2 ^ (-e).toNat) (den * 2 ^ e.toNat)
    if m = 2 ^ 53 then ⟨2 ^ 52, e + 1⟩ else ⟨m, e⟩

/-- `n as f64`. traffic/lib.rs:316. -/
def F64.ofU64 (n : Nat) : F64 := F64.ofQuot n 1

/-- `x / y` for `f64`s. traffic/lib.rs:316. -/
def F64.div (x y : F64) : F64 :=
  F64.ofQuot (x.mant * 2 ^ (x.exp - y.exp).toNat) (y.mant * 2 ^ (y.exp - x.exp).toNat)

/-- traffic/lib.rs:309-318 `write_read_ratio`, from the two values loaded. -/
def writeReadRatio (read written : Nat) : Option F64 :=
  if read = 0 then none else some ((F64.ofU64 written).div (F64.ofU64 read))

end Bip324
