import Verif.Model.Traits

/-! # Model of `src/checked_uints.rs`

The primitive unsigned type with `w` bits is modelled by the subtype `UInt' w` of the
naturals below `2^w`, for every `w ≥ 8`. -/

set_option autoImplicit false

namespace Abstalg

/-- `E::MAX` of the unsigned type with `w` bits. -/
def uMax (w : Nat) : Nat := 2 ^ w - 1

/-- A value of the unsigned primitive type with `w` bits. -/
abbrev UInt' (w : Nat) : Type := { x : Nat // x ≤ uMax w }

instance {w : Nat} : DecidableEq (UInt' w) := inferInstanceAs (DecidableEq (Subtype _))

instance {w : Nat} : Repr (UInt' w) := ⟨fun x _ => repr x.1⟩

/-- `checked_add`, `checked_mul`: the mathematical result if it is representable. -/
def UInt'.ofNat? {w : Nat} (x : Nat) : Option (UInt' w) :=
  if h : x ≤ uMax w then some ⟨x, h⟩ else none

/-- The trait bound `From<u8>`: the type has at least 8 bits. -/
class UWidth (w : Nat) : Prop where
  ge : 8 ≤ w

instance : UWidth 8 := ⟨by decide⟩
instance : UWidth 16 := ⟨by decide⟩
instance : UWidth 32 := ⟨by decide⟩
instance : UWidth 64 := ⟨by decide⟩
instance : UWidth 128 := ⟨by decide⟩

/-- Small literals, `From<u8>::from`. -/
def UInt'.lit {w : Nat} [UWidth w] (x : Nat) (h : x ≤ 255) : UInt' w :=
  ⟨x, by
    have h1 : 2 ^ 8 ≤ 2 ^ w := Nat.pow_le_pow_right (by decide) UWidth.ge
    unfold uMax
    omega⟩

namespace CheckedUints

open UInt'

variable (w : Nat) [UWidth w]

/-- `0.into()` -/
abbrev c0 : UInt' w := lit 0 (by decide)
/-- `1.into()` -/
abbrev c1 : UInt' w := lit 1 (by decide)

/-- checked_uints.rs:47-56 -/
def domain : DomainOps (UInt' w) where
  equals := fun a b => .ok (a == b)

/-- checked_uints.rs:58-109: `Semigroup`, `Monoid`, `CommuntativeMonoid`,
`SemiRing`; `times` is the default. -/
def semiRing : SemiRingOps (UInt' w) where
  toDomainOps := domain w
  -- checked_uints.rs:62-64
  mul := fun a b => Res.unwrap (ofNat? (a.1 * b.1))
  -- checked_uints.rs:71-73
  one := .ok (c1 w)
  -- checked_uints.rs:75-77
  isOne := fun a => .ok (a == c1 w)
  -- checked_uints.rs:79-85
  tryInv := fun a => if a == c1 w then .ok (some (c1 w)) else .ok none
  -- checked_uints.rs:87-89
  invertible := fun a => .ok (a == c1 w)
  -- checked_uints.rs:96-98
  zero := .ok (c0 w)
  -- checked_uints.rs:100-102
  isZero := fun a => .ok (a.1 == 0)
  -- checked_uints.rs:104-106
  add := fun a b => Res.unwrap (ofNat? (a.1 + b.1))

/-- checked_uints.rs:111-136 `PartialOrder`, `Lattice`, `DistributiveLattice`. -/
def lattice : LatticeOps (UInt' w) where
  toDomainOps := domain w
  -- checked_uints.rs:115-117
  leq := fun a b => .ok (decide (a.1 ≤ b.1))
  -- checked_uints.rs:124-126, `Ord::min`
  meet := fun a b => .ok (if b.1 < a.1 then b else a)
  -- checked_uints.rs:128-130, `Ord::max`
  join := fun a b => .ok (if b.1 < a.1 then a else b)

end CheckedUints

end Abstalg
