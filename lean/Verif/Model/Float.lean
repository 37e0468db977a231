import Verif.Model.Similarity
import Verif.Model.FastText

/-!
# IEEE 754 single precision

The arithmetic of `f32` on bit patterns, rounding to nearest with ties to even, as Rust specifies it for `+`, `-`, `*`, `/` and
`sqrt`. NaNs are canonical: the payload of a NaN is not specified by Rust. The sums follow ndarray 0.15 without BLAS.
-/

namespace FF
namespace Ieee

/-- The magnitude bits of infinity. Users: src/util.rs:69-77, src/similarity.rs:27-50, :286-331. -/
def infMag : Nat := 0x7f800000

/-- `f32::NAN`, the only NaN the model computes. Users: src/util.rs:69-77, src/similarity.rs:27-50, :286-331. -/
def nan : F32 := 0x7fc00000

/-- `f32::is_nan`. Users: src/util.rs:69-77, src/similarity.rs:27-50, :286-331. -/
def isNan (x : F32) : Bool := infMag < f32Mag x

/-- `f32::is_infinite`. Users: src/util.rs:69-77, src/similarity.rs:27-50, :286-331. -/
def isInf (x : F32) : Bool := f32Mag x == infMag

/-- The sign bit. Users: src/util.rs:69-77, src/similarity.rs:27-50, :286-331. -/
def isNeg (x : F32) : Bool := 2 ^ 31 ≤ x.toNat

/-- A float from its sign and magnitude bits. Users: src/util.rs:69-77, src/similarity.rs:27-50, :286-331. -/
def pack (neg : Bool) (mag : Nat) : F32 := UInt32.ofNat (if neg then 2 ^ 31 + mag else mag)

/-- The number with the given magnitude bits, in units of `2^-149` (the smallest positive `f32`). Users: src/util.rs:69-77, src/similarity.rs:27-50, :286-331. -/
def magUnits (b : Nat) : Nat := if b < 2 ^ 23 then b else (2 ^ 23 + b % 2 ^ 23) * 2 ^ (b / 2 ^ 23 - 1)

/-- A finite float in units of `2^-149`. Users: src/util.rs:69-77, src/similarity.rs:27-50, :286-331. -/
def units (x : F32) : Int := if isNeg x then -(magUnits (f32Mag x) : Int) else magUnits (f32Mag x)

/-- `n / d` rounded to an integer, ties to even. Users: src/util.rs:69-77, src/similarity.rs:27-50, :286-331. -/
def roundDiv (n d : Nat) : Nat :=
  if 2 * (n % d) < d then n / d
  else if d < 2 * (n % d) then n / d + 1
  else n / d + n / d % 2

/-- The magnitude bits of `n / d` units, rounded: 24 significant bits above `2^24`, integers below, infinity if the exponent gets too
large. Users: src/util.rs:69-77, src/similarity.rs:27-50, :286-331. -/
def roundMag (n d : Nat) : Nat :=
  let e := Nat.log2 (n / d) - 23
  min infMag (e * 2 ^ 23 + roundDiv n (d * 2 ^ e))

/-- `-x`. Users: src/util.rs:69-77, src/similarity.rs:27-50, :286-331. -/
def neg (x : F32) : F32 := pack (!isNeg x) (f32Mag x)

/-- `x + y`. Users: src/util.rs:69-77, src/similarity.rs:27-50, :286-331. -/
def add (x y : F32) : F32 :=
  if isNan x || isNan y then nan
  else if isInf x then (if isInf y && isNeg x != isNeg y then nan else x)
  else if isInf y then y
  else
    let z := units x + units y
    if z = 0 then pack (isNeg x && isNeg y) 0 else pack (decide (z < 0)) (roundMag z.natAbs 1)

/-- `x - y`. Users: src/util.rs:69-77, src/similarity.rs:27-50, :286-331. -/
def sub (x y : F32) : F32 := add x (neg y)

/-- `x * y`. Users: src/util.rs:69-77, src/similarity.rs:27-50, :286-331. -/
def mul (x y : F32) : F32 :=
  if isNan x || isNan y then nan
  else if isInf x || isInf y then
    (if f32Mag x == 0 || f32Mag y == 0 then nan else pack (isNeg x != isNeg y) infMag)
  else pack (isNeg x != isNeg y) (roundMag (magUnits (f32Mag x) * magUnits (f32Mag y)) (2 ^ 149))

/-- `x / y`. Users: src/util.rs:69-77, src/similarity.rs:27-50, :286-331. -/
def div (x y : F32) : F32 :=
  if isNan x || isNan y then nan
  else if isInf x then (if isInf y then nan else pack (isNeg x != isNeg y) infMag)
  else if isInf y then pack (isNeg x != isNeg y) 0
  else if f32Mag y == 0 then (if f32Mag x == 0 then nan else pack (isNeg x != isNeg y) infMag)
  else pack (isNeg x != isNeg y) (roundMag (magUnits (f32Mag x) * 2 ^ 149) (magUnits (f32Mag y)))

/-- Bits `k - 1` to `0` of the integer square root of `n`, if `r` has the others. Users: src/util.rs:69-77, src/similarity.rs:27-50, :286-331. -/
def isqrtF : Nat → Nat → Nat → Nat
  | 0, _, r => r
  | k + 1, n, r => isqrtF k n (if (r + 2 ^ k) * (r + 2 ^ k) ≤ n then r + 2 ^ k else r)

/-- The integer square root. Users: src/util.rs:69-77, src/similarity.rs:27-50, :286-331. -/
def isqrt (n : Nat) : Nat := isqrtF (Nat.log2 n + 1) n 0

/-- `x.sqrt()`. The root in units is `√(m * 2^149)`; it is rounded from its double, cut to an integer, and a bit that says whether
something was cut off. Users: src/util.rs:69-77, src/similarity.rs:27-50, :286-331. -/
def sqrt (x : F32) : F32 :=
  if isNan x then nan
  else if f32Mag x == 0 then x
  else if isNeg x then nan
  else if isInf x then x
  else
    let n := 4 * (magUnits (f32Mag x) * 2 ^ 149)
    let s := isqrt n
    pack false (roundMag (2 * s + (if s * s = n then 0 else 1)) 4)

/-- ndarray 0.15, `unrolled_fold` with `+` (src/numeric_util.rs there), from the accumulators `ps` of the eight lanes: the lanes take
eight elements at a time; then the lanes are added, then the remaining elements. Users: src/util.rs:69-77, src/similarity.rs:27-50, :286-331. -/
def unrolledSumF : Nat → List F32 → List F32 → F32
  | fuel + 1, ps, x0 :: x1 :: x2 :: x3 :: x4 :: x5 :: x6 :: x7 :: xs =>
    unrolledSumF fuel (List.zipWith add ps [x0, x1, x2, x3, x4, x5, x6, x7]) xs
  | _, [p0, p1, p2, p3, p4, p5, p6, p7], xs =>
    xs.foldl add (add (add (add (add 0 (add p0 p4)) (add p1 p5)) (add p2 p6)) (add p3 p7))
  | _, _, _ => nan

/-- ndarray's `sum` of contiguous elements. Users: src/util.rs:69-77, src/similarity.rs:27-50, :286-331. -/
def unrolledSum (xs : List F32) : F32 := unrolledSumF xs.length (List.replicate 8 0) xs

/-- ndarray's `dot` of contiguous vectors, `unrolled_dot`: the lanes of `unrolledSumF` over the products. Users: src/util.rs:69-77, src/similarity.rs:27-50, :286-331. -/
def unrolledDot (xs ys : List F32) : F32 := unrolledSum (List.zipWith mul xs ys)

/-- Single precision as the components of vectors: users src/util.rs:69-77, src/similarity.rs:139-161, :286-331,
src/embeddings.rs:136-190, src/chunks/storage/quantized.rs:467-476. -/
abbrev scalar : Scalar F32 where
  zero := 0
  one := 0x3f800000
  add := add
  sub := sub
  mul := mul
  div := div
  sqrt := sqrt
  dot := unrolledDot
  sum := unrolledSum
  isZero x := f32Mag x == 0

/-- `n as f32` for a `usize`: rounded to nearest. Users: src/compat/fasttext/io.rs:419, :475. -/
def ofNat (n : Nat) : F32 := pack false (roundMag (n * 2 ^ 149) 1)

/-- Counts as single precision floats: users src/compat/fasttext/io.rs:419, :475. -/
abbrev scalarNat : ScalarNat F32 := ⟨ofNat⟩

/-- src/similarity.rs:37-40, `euclidean_distance`, as computed. -/
def euclideanDistance (c : F32) : F32 := sqrt (sub 0x40000000 (mul 0x40000000 c))

/-- src/similarity.rs:48-50, `euclidean_similarity`, as computed. -/
def euclideanSimilarity (c : F32) : F32 := sub 0x3f800000 (div (euclideanDistance c) 0x40000000)

/-- src/similarity.rs:27-29, `angular_similarity`, as computed; `f32::acos` is a parameter; `0x40490fdb` is `f32::consts::PI`. -/
def angularSimilarity (acos : F32 → F32) (c : F32) : F32 := sub 0x3f800000 (div (acos c) 0x40490fdb)

end Ieee
end FF
