import Verif.Model.Traits

/-! # Model of `src/permutations.rs`

`Vec<u32>` is `List UInt32`; `a as usize` is `a.toNat` (lossless, as pointers have at
least 32 bits), `i as u32` is `UInt32.ofNat i` (truncating). -/

set_option autoImplicit false

namespace Abstalg.Permutations

/-- permutations.rs:31-36, the loop of `contains`. -/
def containsLoop : List UInt32 → List Bool → Res Bool
  | [], _ => .ok true
  | a :: l, used => do
    if ← idx used a.toNat then return false
    else containsLoop l (← setIdx used a.toNat true)

/-- permutations.rs:23-44 `impl Domain`. -/
def domain (size : UInt32) : DomainOps (List UInt32) where
  -- permutations.rs:26-39
  contains := fun elem =>
    if elem.length != size.toNat then .ok false
    else containsLoop elem (List.replicate size.toNat false)
  -- permutations.rs:41-43
  equals := fun a b => .ok (a == b)

/-- permutations.rs:77-82, the loop of `is_one`. -/
def isOneLoop : List (Nat × UInt32) → Bool
  | [] => true
  | (i, a) :: l => if i ≠ a.toNat then false else isOneLoop l

/-- `elem.iter().enumerate()` -/
def enumerate (elem : List UInt32) : List (Nat × UInt32) := (List.range elem.length).zip elem

/-- `debug_assert_eq!(elem.len(), self.size as usize)` -/
def checkLen [Cfg] (size : UInt32) (elem : List UInt32) : Res Unit :=
  debugAssert (.ok (elem.length == size.toNat))

variable [Cfg]

/-- permutations.rs:46-99: `Semigroup`, `Monoid`, `Group`. `inv` and `power` are the
defaults of traits.rs:108-131. -/
def ops (size : UInt32) : GroupOps (List UInt32) where
  toDomainOps := domain size
  -- permutations.rs:47-55
  mul := fun elem1 elem2 => do
    checkLen size elem1
    checkLen size elem2
    forLoop (enumerate elem1) (List.replicate size.toNat 0) fun prod p => do
      setIdx prod p.1 (← idx elem2 p.2.toNat)
  -- permutations.rs:57-63
  mulAssign := fun elem1 elem2 => do
    checkLen size elem1
    checkLen size elem2
    mapRes (fun a => idx elem2 a.toNat) elem1
  -- permutations.rs:67-73
  one := forLoop (List.range size.toNat) (List.replicate size.toNat 0) fun elem i =>
    setIdx elem i (UInt32.ofNat i)
  -- permutations.rs:75-83
  isOne := fun elem => do
    checkLen size elem
    return isOneLoop (enumerate elem)
  -- permutations.rs:85-92
  tryInv := fun elem => do
    checkLen size elem
    let inv ← forLoop (enumerate elem) (List.replicate size.toNat 0) fun inv p =>
      setIdx inv p.2.toNat (UInt32.ofNat p.1)
    return some inv
  -- permutations.rs:94-96
  invertible := fun _ => .ok true

end Abstalg.Permutations
