import Mathlib.GroupTheory.Perm.Basic
import Mathlib.Algebra.Group.Opposite
import Mathlib.Data.Fintype.EquivFin

/-! # Specification of permutations

A permutation of `0, ..., n-1` is stored as the list of its values.  The product of the crate
applies the left factor first, hence the group is the opposite of `Equiv.Perm`, whose product
applies the right factor first. -/

set_option autoImplicit false

namespace Abstalg

/-- The vector `v` lists the values of the permutation `σ`. -/
def PermRep {n : ℕ} (v : List UInt32) (σ : (Equiv.Perm (Fin n))ᵐᵒᵖ) : Prop :=
  ∃ h : v.length = n, ∀ i : Fin n, (v[i.1]'(h ▸ i.2)).toNat = (σ.unop i).1

end Abstalg
