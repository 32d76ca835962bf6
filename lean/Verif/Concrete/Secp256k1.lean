import Verif.Concrete.Hkdf

/-!
# secp256k1 and ElligatorSwift (BIP-324)

What the dependency `secp256k1` implements, written from SEC 2 and BIP-324.  Field elements are natural
numbers below `p`.  Used to run the test vectors of the repository on the model; `Concrete/Group.lean` and
`Concrete/Ecdh.lean` relate it to the group of the curve.
-/

namespace Bip324.Concrete

/-- The field prime. -/
def p256 : Nat := 2 ^ 256 - 2 ^ 32 - 977

/-- The order of the group. -/
def n256 : Nat := 0xFFFFFFFFFFFFFFFFFFFFFFFFFFFFFFFEBAAEDCE6AF48A03BBFD25E8CD0364141

/-- `b ^ e mod p`, square and multiply over `fuel` bits of `e`. -/
def fpow : Nat → Nat → Nat → Nat
  | 0, _, _ => 1
  | fuel + 1, b, e =>
    let r := fpow fuel (b * b % p256) (e / 2)
    if e % 2 = 1 then r * b % p256 else r

def fneg (a : Nat) : Nat := (p256 - a % p256) % p256
def fsub (a b : Nat) : Nat := (a + (p256 - b % p256)) % p256
def finv (a : Nat) : Nat := fpow 256 (a % p256) (p256 - 2)
def fdiv (a b : Nat) : Nat := a * finv b % p256

/-- Square root, if there is one. -/
def fsqrt (a : Nat) : Option Nat :=
  let r := fpow 256 (a % p256) ((p256 + 1) / 4)
  if r * r % p256 = a % p256 then some r else none

/-- `x ^ 3 + 7`. -/
def curveRhs (x : Nat) : Nat := (x * x % p256 * x + 7) % p256

/-- BIP-324: is `x` the coordinate of a point? -/
def isValidX (x : Nat) : Bool := (fsqrt (curveRhs x)).isSome

/-- BIP-324: `MINUS_3_SQRT`. -/
def minus3Sqrt : Nat := fpow 256 (p256 - 3) ((p256 + 1) / 4)

/-- BIP-324: `XSwiftEC(u, t)`. -/
def xswiftec (u t : Nat) : Nat :=
  let u := if u % p256 = 0 then 1 else u % p256
  let t := if t % p256 = 0 then 1 else t % p256
  let u3 := u * u % p256 * u % p256
  let t := if (u3 + t * t + 7) % p256 = 0 then 2 * t % p256 else t
  let x := fdiv (fsub (u3 + 7) (t * t)) (2 * t)
  let y := fdiv (x + t) (minus3Sqrt * u)
  let x3 := (u + 4 * y * y) % p256
  let x2 := fdiv (fsub (fneg (fdiv x y)) u) 2
  let x1 := fdiv (fsub (fdiv x y) u) 2
  if isValidX x3 then x3 else if isValidX x2 then x2 else x1

/-- BIP-324: decoding of an ElligatorSwift encoding. -/
def ellswiftDecode (b : Bytes) : Nat := xswiftec (beNat (b.take 32)) (beNat (b.drop 32))

/-- A point in Jacobian coordinates; `z = 0` is the point at infinity. -/
structure JPoint where
  (x y z : Nat)
deriving DecidableEq

def jdouble (a : JPoint) : JPoint :=
  let yy := a.y * a.y % p256
  let s := 4 * a.x * yy % p256
  let m := 3 * a.x * a.x % p256
  let x := fsub (m * m) (2 * s)
  let y := fsub (m * fsub s x) (8 * yy * yy)
  ⟨x, y, 2 * a.y * a.z % p256⟩

def jadd (a b : JPoint) : JPoint :=
  if a.z = 0 then b
  else if b.z = 0 then a
  else
    let za := a.z * a.z % p256
    let zb := b.z * b.z % p256
    let u1 := a.x * zb % p256
    let u2 := b.x * za % p256
    let s1 := a.y * zb * b.z % p256
    let s2 := b.y * za * a.z % p256
    if u1 = u2 then
      if s1 = s2 then jdouble a else ⟨1, 1, 0⟩
    else
      let h := fsub u2 u1
      let r := fsub s2 s1
      let hh := h * h % p256
      let hhh := hh * h % p256
      let v := u1 * hh % p256
      let x := fsub (fsub (r * r) hhh) (2 * v)
      let y := fsub (r * fsub v x) (s1 * hhh)
      ⟨x, y, h * a.z * b.z % p256⟩

/-- Double and add over `fuel` bits of `k`. -/
def jmul : Nat → Nat → JPoint → JPoint
  | 0, _, _ => ⟨1, 1, 0⟩
  | fuel + 1, k, a =>
    let r := jmul fuel (k / 2) (jdouble a)
    if k % 2 = 1 then jadd r a else r

/-- The affine `x` coordinate. -/
def jx (a : JPoint) : Nat := fdiv a.x (a.z * a.z)

/-- A point with that `x` coordinate. -/
def liftX (x : Nat) : JPoint := ⟨x, (fsqrt (curveRhs x)).getD 0, 1⟩

/-- The generator. -/
def gen : JPoint :=
  ⟨0x79BE667EF9DCBBAC55A06295CE870B07029BFCDB2DCE28D959F2815B16F81798,
    0x483ADA7726A3C4655DA4FBFC0E1108A8FD17B448A68554199C47D08FFB10D4B8, 1⟩

/-- BIP-324: `XSwiftEC` inverse, one of eight cases. -/
def xswiftecInv (x u case : Nat) : Option Nat :=
  let u3 := (u * u % p256 * u + 7) % p256
  let sv : Option (Nat × Nat) :=
    if case &&& 2 = 0 then
      if isValidX (fneg (x + u)) then none
      else some (fdiv (fneg u3) (u * u + u * x + x * x), x)
    else
      let s := fsub x u
      if s = 0 then none
      else
        match fsqrt (fneg (s * (4 * u3 + 3 * s * u * u))) with
        | none => none
        | some r =>
          if case &&& 1 = 1 && r = 0 then none
          else some (s, fdiv (fsub (fdiv r s) u) 2)
  match sv with
  | none => none
  | some (s, v) =>
    match fsqrt s with
    | none => none
    | some w =>
      let minus := w * (fdiv (u * fsub 1 minus3Sqrt) 2 + v) % p256
      let plus := w * (fdiv (u * (1 + minus3Sqrt)) 2 + v) % p256
      match case &&& 5 with
      | 0 => some (fneg minus)
      | 1 => some plus
      | 4 => some minus
      | _ => some (fneg plus)

/-- An encoding of `x`: the first that is found.  (The library searches in a pseudo-random order.) -/
def ellswiftEncode (x : Nat) : Bytes :=
  let found := (List.range 64).findSome? fun i => (List.range 8).findSome? fun case =>
    match xswiftecInv x (i + 1) case with
    | none => none
    | some t => if xswiftec (i + 1) t = x then some (beBytes 32 (i + 1) ++ beBytes 32 t) else none
  found.getD (zeros 64)

/-- `SecretKey::from_slice`. -/
def validSecret (sk : Bytes) : Bool := sk.length == 32 && 0 < beNat sk && beNat sk < n256

/-- `ElligatorSwift::from_pubkey(PublicKey::from_secret_key(curve, &sk)).to_array()`. -/
def ellswiftOf (sk : Bytes) : Bytes := ellswiftEncode (jx (jmul 256 (beNat sk) gen))

/-- BIP-324: `v2_ecdh`.  The library function hashes with the BIP-324 tag whatever the data argument. -/
def ellswiftXdh (a b sk : Bytes) (ours : Bool) : Bytes :=
  let theirs := if ours then b else a
  let x := jx (jmul 256 (beNat sk) (liftX (ellswiftDecode theirs)))
  taggedHash ("bip324_ellswift_xonly_ecdh".toList.map fun c => UInt8.ofNat c.toNat) (a ++ b ++ beBytes 32 x)

theorem ellswiftEncode_length (x : Nat) : (ellswiftEncode x).length = 64 := by
  unfold ellswiftEncode
  simp only
  cases h : (List.range 64).findSome? fun i => (List.range 8).findSome? fun case =>
      match xswiftecInv x (i + 1) case with
      | none => none
      | some t => if xswiftec (i + 1) t = x then some (beBytes 32 (i + 1) ++ beBytes 32 t) else none with
  | none => simp [zeros]
  | some b =>
    obtain ⟨i, -, h⟩ := List.exists_of_findSome?_eq_some h
    obtain ⟨case, -, h⟩ := List.exists_of_findSome?_eq_some h
    split at h
    · cases h
    · split at h
      · simp only [Option.some.injEq] at h
        rw [Option.getD_some, ← h, List.length_append, beBytes_length, beBytes_length]
      · cases h

end Bip324.Concrete
