import Verif.Model.ApproxFloats
import Verif.Model.Integers
import Verif.Model.CheckedInts
import Verif.Model.DivisibilityOrder
import Verif.Model.MatrixRing
import Verif.Model.Permutations
import Verif.Model.PolynomialAlgebra
import Verif.Model.QuotientField
import Verif.Model.QuotientRing
import Verif.Model.ReducedFractions

/-! # The crate's own unit tests, run on the model

Every `#[test]` of the crate is replayed on the model with the same loops and the same assertions, by evaluation (`#guard`).  This is evidence
that the definitions under `Verif/Model` behave as the Rust code does; it proves nothing, and no
theorem depends on it. -/

set_option autoImplicit false

namespace Abstalg.Replay

/-- The profile of `cargo test` on a 64-bit machine. -/
local instance : Cfg := ⟨true, true, 64, by decide⟩

/-- Rust `a..b` on integers. -/
def range (a b : Int) : List Int := (List.range (b - a).toNat).map fun (i : Nat) => a + (i : Int)

/-- `assert!` on the outcome of a call: it returned, and the value satisfies `p`. -/
def holds {α : Type} (c : Res α) (p : α → Bool) : Bool :=
  match c with
  | .ok a => p a
  | _ => false

/-- `catch_unwind(..).is_err()` -/
def panics {α : Type} (c : Res α) : Bool :=
  match c with
  | .panic => true
  | _ => false

/-- An `i32` literal. -/
def i32 (n : Int) : SInt 32 := SInt.wrap n

/-! ## integers.rs:178-209 -/

def integersQuoRem : Bool :=
  let R := Integers.euclidean
  (range (-40) 40).all fun n => (range (-40) 40).all fun m =>
    m == 0 ||
    holds (R.quoRem n m) fun (q, r) =>
      n == m * q + r && decide (0 ≤ r) && decide (r < m.natAbs) &&
      holds (R.quo n m) (· == q) && holds (R.rem n m) (· == r) &&
      holds (R.isZero r) (fun b => holds (R.divisible n m) (· == b)) &&
      holds (R.isZero q) (fun b => holds (R.reduced n m) (· == b))

#guard integersQuoRem

#guard [(0, 2, 0), (1, 2, 1), (0, 3, 0), (1, 3, 1), (2, 3, 2), (0, -2, 0), (1, -2, 1)].all
  fun ((a, b, r) : Int × Int × Int) => holds (Integers.euclidean.rem a b) (· == r)

/-! ## checked_ints.rs:231-277 -/

def i32Elems : List (SInt 32) :=
  (range 0 10).flatMap fun i =>
    [i32 i] ++ (if i > 0 then [i32 (-i)] else []) ++ [i32 (sMin 32 + i), i32 (sMax 32 - i)]

#guard i32Elems.length = 39

def checkedQuoRem : Bool :=
  let R1 := CheckedInts.euclidean 32
  let R2 := Integers.euclidean
  i32Elems.all fun n => i32Elems.all fun m =>
    m.1 == 0 ||
    holds (R2.quoRem n.1 m.1) fun (q, r) =>
      if sMin 32 ≤ q && q ≤ sMax 32 && sMin 32 ≤ r && r ≤ sMax 32 then
        holds (R1.quoRem n m) (fun (q1, r1) => q1.1 == q && r1.1 == r) &&
        holds (R1.divisible n m) (fun b => holds (R2.divisible n.1 m.1) (· == b)) &&
        holds (R1.reduced n m) (fun b => holds (R2.reduced n.1 m.1) (· == b))
      else panics (R1.quoRem n m)

#guard checkedQuoRem

/-! ## checked_ints.rs:280-293 -/

def checkedExtendedGcd : Bool :=
  let R := CheckedInts.euclidean 32
  (range (-10) 10).all fun a => (range (-10) 10).all fun b =>
    holds (R.extendedGcd (i32 a) (i32 b)) fun (g, x, y) =>
      g.1 == a * x.1 + b * y.1 && holds (R.gcd (i32 a) (i32 b)) (· == g) &&
      holds (R.divisible (i32 a) g) id && holds (R.divisible (i32 b) g) id

#guard checkedExtendedGcd

/-! ## divisibility_order.rs:78-104 -/

def divisibilityOrder : Bool :=
  let L := DivisibilityOrder.lattice (CheckedInts.euclidean 32)
  (range (-50) 50).all fun a =>
    if a < 0 then holds (L.contains (i32 a)) (!·)
    else (range 0 50).all fun b =>
      holds (L.meet (i32 a) (i32 b)) fun c =>
      holds (L.join (i32 a) (i32 b)) fun d =>
        holds (L.contains c) id && holds (L.leq c (i32 a)) id && holds (L.leq c (i32 b)) id &&
        holds (L.contains d) id && holds (L.leq (i32 a) d) id &&
        holds (L.leq (i32 a) (i32 b)) fun le => !le || (c == i32 a && d == i32 b)

#guard divisibilityOrder

/-! ## matrix_ring.rs:289-300 -/

def matrixMul : Bool :=
  let Q := ReducedFractions.QQ
  let R := MatrixRing.ops Q 2
  let ints := fun (l : List Int) => mapRes Q.int l
  holds (ints [1, 2, 3, 4]) fun e1 => holds (ints [5, 6, 7, 8]) fun e2 =>
  holds (ints [19, 22, 43, 50]) fun e3 => holds R.one fun one =>
    holds (R.mul e1 e2) (· == e3) && holds (R.mul e1 one) (· == e1) && holds (R.mul one e1) (· == e1)

#guard matrixMul

/-! ## matrix_ring.rs:303-345 -/

/-- All vectors of length `n` over `0..q`. -/
def tuples (q : Nat) : Nat → List (List Nat)
  | 0 => [[]]
  | n + 1 => (tuples q n).flatMap fun l => (List.range q).map fun a => a :: l

def field3 : FieldOps (SInt 32) := QuotientField.ops (CheckedInts.euclidean 32) (i32 3)

def matrices : List (List (SInt 32)) := (tuples 3 4).map fun l => l.map fun (a : Nat) => i32 a

def matrixInv : Bool :=
  let R := MatrixRing.ops field3 2
  matrices.all fun e =>
    holds (MatrixRing.determinant field3 2 e) fun det =>
    holds (R.invertible e) fun b =>
      if b then
        holds (R.tryInv e) (fun o => match o with
          | some f => holds (R.mul e f) (fun p => holds (R.isOne p) id)
          | none => false) && holds (field3.isZero det) (!·)
      else holds (field3.isZero det) id

#guard matrixInv
#guard (matrices.filter fun e => holds ((MatrixRing.ops field3 2).invertible e) id).length = 48
#guard (matrices.filter fun e =>
  holds (MatrixRing.determinant field3 2 e) fun d => holds (field3.isOne d) id).length = 24

/-! ## permutations.rs:106-130 -/

#guard ((tuples 4 4).filter fun l =>
  holds ((Permutations.ops 4).contains (l.map UInt32.ofNat)) id).length = 24
#guard holds ((Permutations.ops 4).mul [1, 2, 3, 0] [1, 0, 3, 2]) (· == [0, 3, 2, 1])
#guard holds ((Permutations.ops 4).inv [1, 2, 3, 0]) (· == [3, 0, 1, 2])

/-! ## quotient_field.rs:148-160 -/

def field1721 : Bool :=
  holds (QuotientField.new (CheckedInts.euclidean 32) (i32 1721)) fun F =>
  (range 0 1720).all fun a =>
    holds (F.contains (i32 a)) id &&
    (a == 0 || holds (F.inv (i32 a)) fun b =>
      holds (F.contains b) id && holds (F.mul (i32 a) b) fun c => holds (F.isOne c) id)

#guard field1721

/-! ## quotient_ring.rs:111-126 -/

def ring1584 : Bool :=
  holds (QuotientRing.new (CheckedInts.euclidean 32) (i32 1584)) fun R =>
  (range 0 1584).all (fun a => holds (R.contains (i32 a)) id &&
    (a == 0 || holds (R.tryInv (i32 a)) fun o => match o with
      | some b => holds (R.contains b) id && holds (R.mul (i32 a) b) fun c => holds (R.isOne c) id
      | none => true)) &&
  ((range 1 1584).filter fun a => holds (R.tryInv (i32 a)) (·.isSome)).length == 8 * 6 * 10

#guard ring1584

/-! ## reduced_fractions.rs:181-213

`Ratio::new` and the operators of `Ratio<i32>` are replaced by the rational numbers of Lean's
standard library. -/

def ratio (x : Rat) : SInt 32 × SInt 32 := (i32 x.num, i32 x.den)

def fractions : Bool :=
  let F := ReducedFractions.ops (CheckedInts.euclidean 32)
  (range (-20) 20).all fun n => (range (-20) 20).all fun d =>
    d == 0 ||
    holds (ReducedFractions.reduce (CheckedInts.euclidean 32) (i32 n, i32 d)) fun e1 =>
      let x : Rat := (n : Rat) / (d : Rat)
      e1 == ratio x &&
      [(-2 : Rat) / 3, 7 / 5].all fun y =>
        holds (F.add e1 (ratio y)) (· == ratio (x + y)) &&
        holds (F.mul e1 (ratio y)) (· == ratio (x * y)) &&
        holds (F.div e1 (ratio y)) (· == ratio (x / y)) &&
        (n == 0 || holds (F.div (ratio y) e1) (· == ratio (y / x)))

#guard fractions

/-! ## polynomial_algebra.rs:293-321 -/

/-- The powers of `gen`, up to the first one that is `1` (at most `n`). -/
def powers {E : Type} (F : FieldOps E) (gen : E) : Nat → E → List E
  | 0, _ => []
  | n + 1, e =>
    if holds (F.isOne e) id then []
    else e :: (match F.mul e gen with
      | .ok e' => powers F gen n e'
      | _ => [])

def field256 : Bool :=
  holds (QuotientField.new (CheckedInts.euclidean 32) (i32 2)) fun F1 =>
  let R := PolynomialAlgebra.euclidean F1
  let poly : List (SInt 32) := [1, 1, 0, 1, 1, 0, 0, 0, 1].map i32
  holds (R.contains poly) id && PolynomialAlgebra.degree poly == some 8 &&
  holds (QuotientField.new R poly) fun F2 =>
  holds F2.zero fun zero => holds F2.one fun one =>
    let gen := [1, 1].map i32
    let elems := zero :: one :: powers F2 gen 1000 gen
    elems.length == 256 &&
    elems.all fun a => holds (F2.isZero a) fun z =>
      z || holds (F2.inv a) fun b => holds (F2.mul a b) (· == one)

#guard field256

/-! ## approx_floats.rs:408-414 -/

#guard holds (ApproxFloats.field FloatFormat.f64).zero (·.eq FloatFormat.Val.zero)
#guard holds (ApproxFloats.field FloatFormat.f64).one (·.eq FloatFormat.Val.one)
#guard holds ((ApproxFloats.field FloatFormat.f64).int 2)
  (·.eq (FloatFormat.Val.one.add FloatFormat.Val.one))

/-! ## The floating point arithmetic of the model against that of the processor

`f64` and `f32` are compared with Lean's `Float` and `Float32`, which are the hardware types, on all
pairs from lists of bit patterns around the boundaries of the formats. -/

/-- The value with the given sign, biased exponent and fraction. -/
def decode (F : FloatFormat) (expMax : Nat) (neg : Bool) (exp frac : Nat) : F.Val :=
  if exp = expMax then (if frac = 0 then .inf neg else .nan)
  else
    let mag : ℚ :=
      if exp = 0 then (frac : ℚ) * (2 : ℚ) ^ F.emin
      else ((frac + 2 ^ (F.prec - 1) : Nat) : ℚ) * (2 : ℚ) ^ (F.emin + ((exp : Int) - 1))
    F.round neg (if neg then -mag else mag)

def decode64 (x : Float) : FloatFormat.f64.Val :=
  let b := x.toBits.toNat
  decode _ 2047 (b / 2 ^ 63 == 1) (b / 2 ^ 52 % 2 ^ 11) (b % 2 ^ 52)

def decode32 (x : Float32) : FloatFormat.f32.Val :=
  let b := x.toBits.toNat
  decode _ 255 (b / 2 ^ 31 == 1) (b / 2 ^ 23 % 2 ^ 8) (b % 2 ^ 23)

/-- The same value, with the sign of zeros. -/
def same {F : FloatFormat} : F.Val → F.Val → Bool
  | .nan, .nan => true
  | .inf s, .inf t => s == t
  | .fin s p _, .fin t q _ => s == t && p == q
  | _, _ => false

def floats64 : List Float :=
  let pos : List UInt64 :=
    [0, 1, 2, 3, 0x000fffffffffffff, 0x0010000000000000, 0x0010000000000001, 0x001fffffffffffff,
     0x0020000000000000, 0x1fffffffffffffff, 0x2000000000000000, 0x3c90000000000000,
     0x3ca0000000000000, 0x3ca0000000000001, 0x3cafffffffffffff, 0x3cb0000000000000,
     0x3fb999999999999a, 0x3fd5555555555555, 0x3fefffffffffffff, 0x3ff0000000000000,
     0x3ff0000000000001, 0x3ff0000000000002, 0x3ff8000000000000, 0x4000000000000000,
     0x4008000000000000, 0x400921fb54442d18, 0x4340000000000000, 0x433fffffffffffff,
     0x5fefffffffffffff, 0x5ff0000000000000, 0x6000000000000001, 0x7c90000000000000,
     0x7c9fffffffffffff, 0x7ca0000000000000, 0x7fdfffffffffffff, 0x7fe0000000000000,
     0x7fefffffffffffff, 0x7ff0000000000000, 0x7ff8000000000000]
  (pos ++ pos.map (· ^^^ 0x8000000000000000)).map Float.ofBits

def floats32 : List Float32 :=
  let pos : List UInt32 :=
    [0, 1, 2, 3, 0x007fffff, 0x00800000, 0x00800001, 0x00ffffff, 0x01000000, 0x1fffffff, 0x20000000,
     0x33000000, 0x33800000, 0x33800001, 0x34000000, 0x3dcccccd, 0x3eaaaaab, 0x3f7fffff, 0x3f800000,
     0x3f800001, 0x3f800002, 0x3fc00000, 0x40000000, 0x40400000, 0x40490fdb, 0x4b7fffff, 0x4b800000,
     0x5f7fffff, 0x5f800000, 0x60000001, 0x73000000, 0x73800000, 0x7effffff, 0x7f000000,
     0x7f7fffff, 0x7f800000, 0x7fc00000]
  (pos ++ pos.map (· ^^^ 0x80000000)).map Float32.ofBits

#guard floats64.all fun a => floats64.all fun b =>
  let x := decode64 a
  let y := decode64 b
  same (x.add y) (decode64 (a + b)) && same (x.sub y) (decode64 (a - b)) &&
  same (x.mul y) (decode64 (a * b)) && same (x.div y) (decode64 (a / b)) &&
  same x.neg (decode64 (-a)) && (x.eq y == (a == b)) && (x.le y == decide (a ≤ b)) &&
  (x.isFinite == a.isFinite) && (x.isNan == a.isNaN)

#guard floats32.all fun a => floats32.all fun b =>
  let x := decode32 a
  let y := decode32 b
  same (x.add y) (decode32 (a + b)) && same (x.sub y) (decode32 (a - b)) &&
  same (x.mul y) (decode32 (a * b)) && same (x.div y) (decode32 (a / b)) &&
  same x.neg (decode32 (-a)) && (x.eq y == (a == b)) && (x.le y == decide (a ≤ b)) &&
  (x.isFinite == a.isFinite) && (x.isNan == a.isNaN)

#guard ([0, 1, 2, 3, -1, -7, 2 ^ 53 - 1, 2 ^ 53, 2 ^ 53 + 1, 2 ^ 53 + 2, 2 ^ 53 + 3, 2 ^ 54 + 6,
    2 ^ 63 - 1, 2 ^ 63 - 512, 2 ^ 63 - 513, -(2 ^ 63)] : List Int).all fun n =>
  same (FloatFormat.Val.ofInt n) (decode64 (Float.ofInt n)) &&
  same (FloatFormat.Val.ofInt n) (decode32 (Float32.ofInt n))

end Abstalg.Replay
