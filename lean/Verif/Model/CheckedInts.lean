import Verif.Model.Traits

/-! # Model of `src/checked_ints.rs`

The primitive signed type `E` with `w` bits is modelled by the subtype `SInt w` of
the integers in `[-2^(w-1), 2^(w-1))`.  The trait bounds of `CheckedInts<E>`
(`PrimInt + Signed + From<i8>`) leave `i8`, `i16`, `i32`, `i64`, `i128`, `isize`;
the model covers every `w ≥ 8`. -/

set_option autoImplicit false

namespace Abstalg

/-- The trait bound `From<i8>`: the type has at least 8 bits. -/
class Width (w : Nat) : Prop where
  ge : 8 ≤ w

instance : Width 8 := ⟨by decide⟩
instance : Width 16 := ⟨by decide⟩
instance : Width 32 := ⟨by decide⟩
instance : Width 64 := ⟨by decide⟩
instance : Width 128 := ⟨by decide⟩

/-- `E::MIN` -/
def sMin (w : Nat) : Int := -(2 ^ (w - 1))

/-- `E::MAX` -/
def sMax (w : Nat) : Int := 2 ^ (w - 1) - 1

/-- A value of the signed primitive type with `w` bits. -/
abbrev SInt (w : Nat) : Type := { x : Int // sMin w ≤ x ∧ x ≤ sMax w }

instance {w : Nat} : DecidableEq (SInt w) := inferInstanceAs (DecidableEq (Subtype _))

instance {w : Nat} : Repr (SInt w) := ⟨fun x _ => repr x.1⟩

namespace SInt

variable {w : Nat}

/-- `checked_*`: the mathematical result if it is representable. -/
def ofInt? (x : Int) : Option (SInt w) :=
  if h : sMin w ≤ x ∧ x ≤ sMax w then some ⟨x, h⟩ else none

theorem pow_two_eq (h : 8 ≤ w) : (2 : Int) ^ w = 2 * 2 ^ (w - 1) := by
  obtain ⟨k, rfl⟩ : ∃ k, w = k + 1 := ⟨w - 1, by omega⟩
  rw [Int.pow_succ, Nat.add_sub_cancel]; omega

theorem pow_two_ge (h : 8 ≤ w) : (128 : Int) ≤ 2 ^ (w - 1) := by
  have h1 : (2 : Int) ^ 7 ≤ 2 ^ (w - 1) := by
    have : (2 : Nat) ^ 7 ≤ 2 ^ (w - 1) := Nat.pow_le_pow_right (by decide) (by omega)
    exact_mod_cast this
  simpa using h1

/-- Two's complement wrap-around. -/
def wrap [Width w] (x : Int) : SInt w :=
  ⟨(x + 2 ^ (w - 1)) % 2 ^ w - 2 ^ (w - 1), by
    have h2 := pow_two_eq (w := w) Width.ge
    have h3 := pow_two_ge (w := w) Width.ge
    have h4 : 0 ≤ (x + 2 ^ (w - 1)) % 2 ^ w := Int.emod_nonneg _ (by omega)
    have h5 : (x + 2 ^ (w - 1)) % 2 ^ w < 2 ^ w := Int.emod_lt_of_pos _ (by omega)
    unfold sMin sMax
    omega⟩

/-- Unchecked `+`, `-`, `*` and unary `-` of the primitive type, given the
mathematical result: panics on overflow if overflow checks are on, otherwise
wraps around. -/
def raw [Cfg] [Width w] (x : Int) : Res (SInt w) :=
  if sMin w ≤ x ∧ x ≤ sMax w then .ok (wrap x)
  else if Cfg.overflowChecks then .panic
  else .ok (wrap x)

/-- Small literals, `From<i8>::from`. -/
def lit [Width w] (x : Int) (h : -128 ≤ x ∧ x ≤ 127) : SInt w :=
  ⟨x, by
    have h3 := pow_two_ge (w := w) Width.ge
    unfold sMin sMax
    omega⟩

end SInt

namespace CheckedInts

open SInt

variable [Cfg] (w : Nat) [Width w]

/-- `0.into()` -/
abbrev c0 : SInt w := lit 0 (by decide)
/-- `1.into()` -/
abbrev c1 : SInt w := lit 1 (by decide)
/-- `(-1).into()` -/
abbrev cm1 : SInt w := lit (-1) (by decide)

/-- checked_ints.rs:47-56 (`contains` is the default). -/
def domain : DomainOps (SInt w) where
  equals := fun a b => .ok (a == b)

/-- checked_ints.rs:87-89 `invertible`. -/
def invertible (a : SInt w) : Res Bool := .ok (a == c1 w || a == cm1 w)

/-- `PrimInt::checked_div`: `None` when the divisor is zero or the result
overflows. -/
def checkedDiv (a b : SInt w) : Option (SInt w) :=
  if b.1 = 0 then none else ofInt? (Int.tdiv a.1 b.1)

/-- checked_ints.rs:58-129: `Semigroup`, `Monoid`, `CommuntativeMonoid`,
`AbelianGroup`, `SemiRing`, `UnitaryRing`. -/
def unitaryRing : UnitaryRingOps (SInt w) where
  toDomainOps := domain w
  -- checked_ints.rs:62-64
  mul := fun a b => Res.unwrap (ofInt? (a.1 * b.1))
  -- checked_ints.rs:71-73
  one := .ok (c1 w)
  -- checked_ints.rs:75-77
  isOne := fun a => .ok (a == c1 w)
  -- checked_ints.rs:79-85
  tryInv := fun a => do if ← invertible w a then return some a else return none
  -- checked_ints.rs:87-89
  invertible := invertible w
  -- checked_ints.rs:96-98
  zero := .ok (c0 w)
  -- checked_ints.rs:100-102
  isZero := fun a => .ok (a.1 == 0)
  -- checked_ints.rs:104-106
  add := fun a b => Res.unwrap (ofInt? (a.1 + b.1))
  -- checked_ints.rs:113-115
  neg := fun a => Res.unwrap (ofInt? ((c0 w).1 - a.1))
  -- checked_ints.rs:117-119
  sub := fun a b => Res.unwrap (ofInt? (a.1 - b.1))
  -- checked_ints.rs:121-124
  times := fun num a => do
    let num : SInt w ← Res.unwrap (ofInt? num)
    Res.unwrap (ofInt? (a.1 * num.1))

/-- checked_ints.rs:131-162 `impl IntegralDomain`. -/
def integralDomain : IntegralDomainOps (SInt w) where
  toUnitaryRingOps := unitaryRing w
  -- checked_ints.rs:135-144
  tryDiv := fun a b => do
    Res.assert (b != c0 w)
    let quo ← Res.unwrap (checkedDiv w a b)
    let prod ← raw (quo.1 * b.1)
    if a == prod then return some quo else return none
  -- checked_ints.rs:146-152
  associateRepr := fun a =>
    if a.1 < (c0 w).1 then (unitaryRing w).neg a else .ok a
  -- checked_ints.rs:154-161
  associateCoef := fun a => do
    Res.assert (a != c0 w)
    if a.1 < (c0 w).1 then return cm1 w else return c1 w

/-- checked_ints.rs:164-196 `impl EuclideanDomain`. -/
def euclidean : EuclideanDomainOps (SInt w) where
  toIntegralDomainOps := integralDomain w
  -- checked_ints.rs:168-183
  quoRem := fun a b => do
    Res.assert (b != c0 w)
    let quo ← Res.unwrap (checkedDiv w a b)
    let prod : SInt w ← raw (quo.1 * b.1)
    let rem : SInt w ← raw (a.1 - prod.1)
    if rem.1 < (c0 w).1 then
      if b.1 < (c0 w).1 then
        return (← raw (quo.1 + (c1 w).1), ← raw (rem.1 - b.1))
      else
        return (← raw (quo.1 - (c1 w).1), ← raw (rem.1 + b.1))
    else return (quo, rem)
  -- checked_ints.rs:185-195
  reduced := fun a b => do
    if b == c0 w then return true
    else if a.1 < (c0 w).1 then return false
    else if b.1 ≥ (c0 w).1 then return decide (a.1 < b.1)
    else
      let na : SInt w ← raw (-a.1)
      return decide (na.1 > b.1)

/-- checked_ints.rs:198-223 `PartialOrder`, `Lattice`, `DistributiveLattice`. -/
def lattice : LatticeOps (SInt w) where
  toDomainOps := domain w
  -- checked_ints.rs:202-204
  leq := fun a b => .ok (decide (a.1 ≤ b.1))
  -- checked_ints.rs:211-213, `Ord::min`
  meet := fun a b => .ok (if b.1 < a.1 then b else a)
  -- checked_ints.rs:215-217, `Ord::max`
  join := fun a b => .ok (if b.1 < a.1 then a else b)

end CheckedInts

end Abstalg
