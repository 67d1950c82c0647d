# Formal model of abstalg-rs in Lean 4

The subject is the Rust crate `abstalg` 0.2.0 in `/repo`, read as text. The Lean
project is `lean/` (`lake build`). `properties.jsonl` lists the properties in English,
`MANIFEST.json` maps each to its theorems, `seeded/LOG.jsonl` records the wrong
programs the theorems were tested against.

## 1. Shape of the model

| directory | content |
|---|---|
| `Verif/Model/` | the model, one file per Rust source file. Every definition cites the Rust lines it models and says where it simplifies. `Res.lean` (computations, machine integers) and `Ieee.lean` (floating point formats) model the parts of the language and its standard library that the crate uses. |
| `Verif/Spec/` | the specification: what it means for a dictionary of operations to *implement* a structure of Mathlib (`ℤ`, `ℚ`, `ZMod p`, `Polynomial R`, `Matrix (Fin n) (Fin n) K`, `Equiv.Perm (Fin n)`, ...), and the representation relations. It never mentions how an operation is implemented. |
| `Verif/Proofs/` | lemmas and refinement proofs. |
| `Verif/Props/` | the property theorems `C01_...` to `C109_...`, and beside them `example`s on concrete non-trivial data showing that their hypotheses can be met. |

### Computations

A Rust call is a value of `Res α`: `ok a` (returns), `panic` (unwinds), `diverge`
(never returns). `Res` is a monad. Loops that are bounded by construction are structural
recursions; the loops whose termination is not evident (`gcd`, `extended_gcd`) are
defined by `partial_fixpoint`, so that `diverge` is the honest least fixed point and
termination is a theorem. A `&mut` parameter becomes a returned value.

The build profile is the class `Cfg`: `overflowChecks`, `debugAssertions`, and `ptrBits`
with `32 ≤ ptrBits` (the width of `usize`/`isize`; the crate's `u32 as usize` casts in
`permutations.rs` are value-preserving only under this assumption, so 16 bit targets are
not covered). Every theorem quantifies over `Cfg`, hence holds for debug and release builds.

Machine integers of `w` bits are `SInt w = {x : Int // -2^(w-1) ≤ x < 2^(w-1)}` and
`UInt' w` alike. `checked_*` return `none` exactly if the exact result is not representable
(or the divisor is zero); the plain operators panic if `overflowChecks`, and wrap otherwise;
`/` and `%` by zero, and `MIN / -1`, panic in all builds.

### Traits

Each trait is a Lean structure (a dictionary of functions) that `extends` the dictionaries
of its supertraits. Default methods are default field values, so an `impl` block
is a structure instance overriding exactly what the Rust impl overrides. The two
methods named `times` are `utimes` (`usize`, of `CommuntativeMonoid`) and `times` (`isize`,
of `AbelianGroup`). The blanket impls `impl<A: Field> IntegralDomain for A` and
`EuclideanDomain for A` are the functions `FieldOps.toIntegralDomain`, `FieldOps.toEuclidean`.
The in-place methods are fields of the dictionaries too, so overriding them is visible (C53).

### Contracts

A structure is specified relative to a relation `rep : E → R → Prop` ("the object `e`
represents the element `x`") and a proposition `mayPanic`. `Returns mayPanic c P` says that `c`
terminates, that a returned value satisfies `P`, and that it panics only if `mayPanic`.
The contract structures (`RingSpec`, `EuclideanSpec`, `FieldSpec`, `LatticeSpec`, ...) in
`Spec/Contracts.lean` say for each API method what it returns in terms of Mathlib's
operations on `R`. `mayPanic = False` means total correctness on members; `mayPanic = True`
means "never a wrong value" (machine integers; their exact panic conditions are
separate theorems). The constructors (`PolynomialAlgebra`, `QuotientField`, ...) are
proved to map contracts to contracts for arbitrary `mayPanic`, hence all towers are covered, such as
`QuotientField<PolynomialAlgebra<QuotientField<CheckedInts<i8>>>>`. Where a theorem has a contract as
a hypothesis, a companion theorem instantiates it with a concrete structure (`ZZ`, `QQ`, `GF(p)`, ...),
so the hypothesis is shown to hold and errors in the concrete structures are caught as well.

## 2. Trusted base

* Lean 4.33.0's kernel.
* The axioms `propext`, `Classical.choice` and `Quot.sound`, and no others: no axiom is added, there is
  no `sorry`, `admit`, `native_decide` or `bv_decide`. Section 5 lists the axioms of each theorem.
* The definitions of Mathlib used in the statements (`Polynomial`, `Matrix.det`, `Equiv.Perm`, `ZMod`,
  `AdjoinRoot`, `IsFractionRing`, `Associates`, `Irreducible`, `orderOf`, ...).
* That the model in `Verif/Model` reads the Rust source faithfully. No tool extracts it. The
  behaviour of the dependencies and the standard library is part of this reading:
  * `num::BigInt`/`BigUint` are the exact integers/naturals, `div_rem` is truncated division and panics on a zero divisor;
  * `num::rational::Ratio::new_raw`, `numer`, `denom` are a bare pair;
  * `Vec` is a list, indexing out of bounds panics, `zip` stops at the shorter operand, `rev`, `all`, `any`, `position`,
    `resize`, `truncate`, `swap` are as documented;
  * `f32`/`f64` arithmetic is IEEE 754 round-to-nearest-even in the formats binary32/binary64.

### What is modelled

All sixteen algebra modules and `traits.rs`, every trait method and public function of the crate,
including `GF2`, `GF3`, `QQ`, `ZZ`, `NN`, `I8`..`I64`, `U8`..`U64`, `F32`, `F64`; panics
(assertions, debug assertions, `unwrap`, index errors, overflow checks), non-termination, and build profiles.

### What is not modelled

* memory exhaustion, capacity overflow of `Vec` when it grows (`push`, `resize`; for `with_capacity` and `vec![a; n]` see `Model/Usize.lean`, C94), and exhaustion of the stack by the recursive `extended_gcd` (C62 bounds the number of nested calls);
* the contents of a `&mut` operand while a method is running or after it has run forever (after a panic that has been caught: `Model/Mutation.lean`, C92);
* running time, other than the numbers of iterations and nested calls in C62 and C63, and of calls of the base by generic methods in C93, C98 and C104 (`Model/Counted.lean`, `Model/CountedResidues.lean`), which C98 compares with the counters of a base with state;
* in the first model, state of the base: a method of a base is a function of its operands. Over bases with state, whose relation to the elements without state does not depend on the state: `Model/Stateful*.lean`, C95; over bases with state that answer anything: C96;
* the derived `Clone`, `Debug`, `Default` impls, the accessors `base()` (field projections), and trait coherence: which impls
  are in scope for a given type is not checked. One visible consequence: the default specialisation-free `ApproxFloats` impl (without the feature
  `float_fallback`) needs `E: From<isize>`, which `f32` and `f64` do not implement, so `F32` and `F64` are usable as fields only
  with `float_fallback`; the model describes the arithmetic of both variants, which is the same;
* sign and payload of NaN (a format has one NaN). `min`/`max` of equal floats of different sign (`+0`, `-0`) may return either, as the
  documentation of `f64::min` permits: the model has an arbitrary choice there, and the theorems hold for every choice;
* targets with 16 bit pointers;
* the bodies of the crate's own `#[cfg(test)]` modules, other than the structures they construct (C59).

### Evidence that the model reads the code faithfully

`Verif/Replay.lean` evaluates the model, with `#guard`, on every unit test of the crate (same loops, same
assertions), and compares the floating point arithmetic of the model with that of the processor (Lean's `Float`
and `Float32`) on all pairs from lists of boundary bit patterns. These are tests; no theorem depends on them.

## 3. Deviations of the code from its documentation

The theorems state what the code does. Where this differs from what one would expect, the theorem describes the
actual behaviour and the expected claim is refuted in the same file.

| property | finding |
|---|---|
| C04 | in a field `gcd` is overridden and returns 0 or 1, but `extended_gcd` is not: its first component is the non-zero operand itself. |
| C09 | `power(isize::MIN, x)` and `times(isize::MIN, x)` panic with overflow checks, and return the identity without them. |
| C13 | `divisible`, `try_div`, `rem` of checked integers panic on `(MIN, -1)`, although the answers are representable. |
| C14 | checked `times(n, x)` panics if `n` does not fit the element type, even if `x = 0`. |
| C15, C56 | `CommuntativeMonoid::times` doubles once too often: `U8.times(1, 200)` panics. |
| C20, C22 | quotients accept a zero and a unit modulus; the check in `QuotientField::new` compares `rem(1, 1)` with zero and so never rejects anything. |
| C23, C44 | `contains` of quotients and of `MultiplicativeGroup` ignores membership in the base. |
| C28 | `ReducedFractions::contains(±1/0)` panics. |
| C31 | polynomial `mul` is not canonical over rings with zero divisors. |
| C32 | polynomial `try_inv` misses units over rings with nilpotents. |
| C41 | `determinant` does not change sign at row swaps: `[[0,1],[1,0]]` gives 1. `C41_right_iff` says exactly when the result is right. |
| C43 | `Permutations::contains` panics on an entry `≥ size`. |
| C47 | field `power(0, 0)` is 0, negative powers of zero are 0. |
| C53 | `CheckedInts::sub_assign(a, MIN)` panics for every `a`, `sub(a, MIN)` returns for `a < 0`. |
| C56 | `ApproxFloats::times` does not check its result and can return an infinity. |
| C58 | `determinant`, `invertible`, `try_inv` of matrices do not check the length of their argument. |
| C60 | on a nonzero multiple of its modulus `QuotientField::invertible` answers true, but `inv` and `try_inv` panic (`try_inv` is documented to return `None`). |
| C65 | `try_div` of polynomials over checked integers negates each coefficient of the quotient, so that `-128` divided by `1` panics in `I8`. |
| C94 | `try_div` of polynomials reserves the length of the product of its operands for the quotient, so that it can panic with `capacity overflow` on operands that `quo_rem` divides. |

## 4. Properties: model and method of proof

| id | model | proof |
|---|---|---|
| C01, C02 | `Model/Integers` over `Int`, `tdiv`/`tmod` as in `BigInt::div_rem` | direct; `EuclideanSpec False` for `ℤ`; uniqueness of the pair |
| C03-C06 | default methods of `EuclideanDomainOps` (`partial_fixpoint`) | induction on the Euclidean size of the second operand, under the division contract; instantiated for `ZZ`, and for polynomials over a field |
| C07 | `IntegralDomainOps` | contracts with a normalising unit function |
| C08-C10 | `powerLoop`, `utimesLoop` | induction on the exponent; `MIN` by cases on `overflowChecks` |
| C11-C15, C17 | `Model/CheckedInts` | `EuclideanSpec True`, simulation by `ZZ`; exact panic conditions by case analysis; C17 by bounds on the Bezout coefficients |
| C16, C50, C51 | `Model/CheckedUints`, `Model/Naturals` | direct |
| C18-C23 | `Model/QuotientRing`, `Model/QuotientField` | for any surjective ring hom with kernel `(m)`; instantiated for `ZMod m` |
| C24, C25, C59 | towers | total contract for `QuotientField(CheckedInts)`, no-overflow lemmas; irreducibility in C59 by a certificate of the kernel (`irreducible_of_check`) |
| C26-C28, C57 | `Model/ReducedFractions` | for any `IsFractionRing R K` |
| C29-C35 | `Model/PolynomialAlgebra` over `List` | loop invariants, against `Polynomial R` |
| C36-C38 | `Model/VectorAlgebra` | against `Fin n → R`, `Set (Fin n)` |
| C39-C41, C58 | `Model/MatrixRing` | against `Matrix (Fin n) (Fin n) K`, invariants of the elimination |
| C42, C43 | `Model/Permutations` over lists of `u32` | against `Equiv.Perm (Fin n)` |
| C44, C45 | `Model/MultiplicativeGroup`, `Model/AdditiveGroup` | against units / `Multiplicative` |
| C46, C47 | `Model/TwoElementAlgebra`, `FieldOps.power` | `ZMod 2`, `Bool` |
| C48, C49 | `Model/DivisibilityOrder` | against divisibility, `IsGLB`/`IsLUB`, `Associates R` |
| C52 | `FieldOps.toEuclidean` | contract to contract |
| C53 | all dictionaries | equality of the computations |
| C54 | default methods of `PartialOrderOps` | contract to contract |
| C55, C56 | `Model/Ieee`, `Model/ApproxFloats` | for every binary format `FloatFormat`; specification by `RoundsTo` (nearest, ties to even) over `ℚ`, independent of the rounding algorithm of the model |
| C60 | quotients and fractions outside `contains` | the contracts of the base, applied to arbitrary base members |
| C61 | `contains` and `invertible` | bijection between members and a finite type of Mathlib (`card_members`, `card_units`) |
| C62, C63 | loops of `gcd`, `times`, `power`, recursion of `extended_gcd` | the bodies repeated with a budget in `Spec/Cost`, proved to give `diverge` or the outcome of the model (`C62_gcd_limit`); Lamé's theorem by Fibonacci numbers |
| C64 | all traits | a second specification, `Spec/Laws`: the documented axioms written with the methods only, no mathematical structure; `C64_laws_iff_contract` ties it to the contracts |
| C65 | polynomials, vectors, matrices and fractions over `CheckedInts` | `ReturnsIff` (Spec/Machine): the call returns if the condition holds and panics otherwise; the conditions are about integers and rational numbers, not objects; `DividesWithin`, `StuckWithin` (Spec/DivisionOverflow): the numbers of a long division; `AddFits`, `FracMulFits`: the numbers of a sum and a product of fractions; `MinorsWithin` (Spec/Minors): a bound for the minors, which bounds every intermediate number of the elimination |
| C66 | `Permutations` on arbitrary vectors | `ReturnsIff` with conditions on lengths and entries; `MapRep`: a vector lists the values of a map of `Fin n` to itself |
| C67-C70 | all structures over two bases, possibly for two configurations | `Spec/Simulation`: `Follows r c d` (if `c` returns then `d` returns a related value) for every method of a trait; C68 with the relation "same integer", C69 with equality and `Cfg.Relaxes`, C70 with the same integer at two widths |
| C71-C72 | `ZZ` and `CheckedInts w`: gcd, lcm, extended_gcd with signs; divisibility order and residues over machine integers | explicit integer expressions, `Int.gcd`, `Int.lcm`, `InRange`, `ReturnsIff` |
| C73 | polynomials on coefficient vectors ending in zeros | `CoefRep` (Spec/Polynomials): the coefficients of a polynomial possibly followed by zeros; `ZeroLast`: the last one is zero |
| C74 | rounding errors of floats, also of matrix and polynomial products and powers | `unitRoundoff`, `ErrorBounds`, `dotBound`, `NormalProduct` (Spec/Floats): inequalities between rational numbers, stated with the parameters of the format only |
| C75 | every method returns or panics on all objects, without laws | `Stops` and one record per trait listing every method (Spec/Termination), `SoundConstants`; budgets from Spec/Cost |
| C76 | floats that are NaN or infinite | `NonFinite` and `ExtRep` (Spec/Floats): the order of the values other than NaN is that of `WithBot (WithTop ℚ)` |
| C77 | computations with floats that need no rounding | `exactFloats` (Spec/ExactFloats): arithmetic of ℚ restricted to the numbers of the format, with classical decidability and no rounding; `FixedPoint`; `Follows` of C67 |
| C78 | values of the polynomial gcd, lcm and Bezout coefficients | `EuclideanDomain.gcd`, `degree`, `∣` on Mathlib's `R[X]` |
| C79 | powers in finite groups and fields | `Nat.card`, `Nat.totient`, `Int.emod`, `ZMod`, `CharP` of Mathlib |
| C80 | operations on a base without laws, in their order | `addProducts`, `combineAll`, `convPairs`, `LongDivision`, `DetRun`, `InvRun` of `Spec/Order.lean`: recursion over lists and relations between rows |
| C81 | calls on coordinates, and the one that stops the method | `Collects`, `TestsAll`, `TriesAll`, `Repeats`, `Trimmed`, `Divisions`, `Cofactors` of `Spec/Coordinates.lean`: lists of outcomes and sequences, no loops of the program |
| C82 | rational functions, simple extensions, Chinese remainders, interpolation | Mathlib's `RatFunc.num`/`denom`, `F⟮α⟯` with `minpoly`, products of rings, `Polynomial.eval` |
| C83 | overriding methods against the defaults | `Spec/Defaults.lean`: the same implementation with all its overrides taken away |
| C84 | different constructions of the same structure | `Spec/Agreement.lean`: two values stand for the same element; Mathlib's permutations, matrices and their products |
| C85 | signs of floats | `Spec/Signs.lean`: floats up to a sign, with one zero; entries of matrices and coefficients related by products of signs |
| C86 | bounds of operands and results | `Spec/Majorants.lean`: `r b a` (b bounds a) for values, vectors and polynomials; what the bounds compute, the bounded operands compute |
| C87 | exact results of floats | `Spec/FloatIntegers.lean`: `IntFloat` (a float with the value of a machine integer); representability is `IsFloat` of `Spec/Floats.lean` |
| C88 | embedded structures | `Spec/Embeddings.lean`: an object stands for `x` if it stands for the image of `x` under an injective homomorphism; Mathlib's diagonal, scalar and triangular matrices, `leftMulMatrix`, `norm` |
| C89 | floats under the blanket implementations, divisibility order and fractions of floats | `RoundsTo`, `Overflows` of `Spec/Floats.lean`; `RoundedFraction` (`Spec/FloatFractions.lean`): a rounded numerator over one |
| C90 | `determinant` of dominant, definite, LU, Vandermonde and characteristic matrices | `Matrix.det`, `Matrix.vandermonde`, `Matrix.charmatrix`, `Matrix.charpoly`, `RatFunc` of Mathlib; `MatRep`, `leadingMinor` (`Spec/Matrices.lean`) |
| C91 | power series, dual numbers, Taylor polynomials and algebras generated by one element | `PowerSeries.trunc`, `DualNumber`, `hasseDeriv`, `minpoly`, `aeval` of Mathlib; `RepImage` (`Spec/Generated.lean`): the object stands for an element with the given image |
| C92 | operands of in-place methods after a panic | `Agrees`, `UnchangedOnPanic`, `MembersMul`, `StoppedAt` (`Spec/Mutation.lean`) about the second model `Mut` of the methods: outcome and contents afterwards |
| C93 | numbers of calls of the base | `Within`, `Takes`, `table` (`Spec/Counted.lean`) about the second model `Counted` of generic methods: outcome and number of calls of each method of the base |
| C94 | index arithmetic on `usize`, capacities of vectors | `FitsVec` (`Spec/Usize.lean`) about the second model `Usize` of the methods with indices, with machine arithmetic; equality with the first |
| C95 | bases with state | `Tracks` (`Spec/Stateful.lean`) about the second model `Stateful` of the generic methods, whose bases have state; compared with the first |
| C96 | bases with state and without laws | `Yields`, `Keeps` (`Spec/Lawless.lean`) about the model `Stateful`: states, elements and lengths that every call leaves, whatever the base answers |
| C97 | programs that use an implementation | `Client`, its runs over an implementation and over the structure (`idealRun`), `meaning` of the methods (`Spec/Clients.lean`) |
| C98 | costs of the calls of the base, towers | `Account`, `Charges`, `Observes`, `Spends`, `Elapses`, `compose` (`Spec/Charges.lean`) about the model of bases with state; `extendedGcdCost`, `residueCost` (`Spec/ResidueCosts.lean`) |
| C99 | which greatest common divisor and which coefficients; programs that use a Euclidean domain | `Spec/EuclidClients.lean`, `Proofs/EuclidClients.lean`, `Props/EuclidClients.lean` |
| C100 | the factors computed by `determinant`, and the backward error of determinants of floats | `Spec/Crout.lean`, `Proofs/Crout.lean`, `Proofs/CroutFloats.lean`, `Props/Crout.lean` |
| C101 | rounding errors of `quo_rem` and `try_div` of polynomials over floats | `Spec/FloatDivision.lean`, `Proofs/FloatDivision.lean`, `Props/FloatDivision.lean` |
| C102 | a base with state that others use between the calls that a method makes (each call of the base is one step; poisoned locks are not modelled) | `Model/Shared.lean`, `Spec/Shared.lean`, `Proofs/Shared.lean`, `Props/Shared.lean` |
| C103 | machine integers against integers in which every returned integer is checked, both ways; same panics, and programs that catch them | `Spec/Guarded.lean`, `Spec/Outcomes.lean`, `Proofs/Guarded.lean`, `Props/Guarded.lean`, `Props/GuardedOutcomes.lean` |
| C104 | upper bounds for the time of each method of fractions and residues over a base with a clock; for machine integers the number of calls, with the bound of C62 for the loop of `gcd` | `Spec/FractionTime.lean`, `Props/FractionTime.lean` |
| C105 | programs whose variables hold elements of a field and `Vec`s of them, and whose calls go to the field, to vectors, matrices and polynomials over it, and to the `Vec`s; a variable of the wrong type, which Rust rejects, makes the call panic | `Spec/Workspace.lean`, `Props/Workspace.lean` |
| C106 | programs whose variables hold elements of a Euclidean domain, pairs and `Vec`s of them, and whose calls go to the domain, its divisibility order, its fractions, its residues, and vectors and polynomials over it; a residue is held together with its modulus, and a call on residues goes to the ring of the first operand | `Spec/DomainWorkspace.lean`, `Props/DomainWorkspace.lean` |
| C107 | threads, each a program of its own, that share a base with state; a schedule lists the thread of each step, and a history the states that the base goes through | `Spec/Threads.lean`, `Props/Threads.lean` |
| C108 | programs whose registers are the operands `&mut` of the in-place methods; after a caught panic a register holds what the method left there. The shared operand of a call is a copy if it comes from the same register, since Rust forbids the alias | `Spec/InPlaceClients.lean`, `Props/InPlaceClients.lean` |
| C109 | determinants of upper triangular and inverses of diagonal matrices, for any base in terms of the methods of the base alone, and for floats in terms of the rounded numbers. Panics while a row is multiplied with the inverse of its pivot are left out | `Props/Triangular.lean` |

No property is partial: every claim in `properties.jsonl` is proved for all inputs, build profiles, widths and towers it quantifies over.

## 5. Axioms of each theorem

As printed by `#print axioms`. p = `propext`, c = `Classical.choice`, q = `Quot.sound`, - = none.

| theorem | axioms | file |
|---|---|---|
| `C01_integer_division` | p c q | Props/Integers.lean |
| `C01_integer_division_by_zero` | p c q | Props/Integers.lean |
| `C02_integers_associates` | p c q | Props/Integers.lean |
| `C02_integers_ring` | p c q | Props/Integers.lean |
| `C02_integers_times` | p c q | Props/Integers.lean |
| `C03_fields` | p c q | Props/Instances.lean |
| `C03_gcd` | p c q | Props/Traits.lean |
| `C03_integers_gcd` | p c q | Props/Traits.lean |
| `C03_polynomials` | p c q | Props/Polynomials.lean |
| `C04_extended_gcd` | p c q | Props/Traits.lean |
| `C04_field_gcd` | p c q | Props/Traits.lean |
| `C04_integers_extended_gcd` | p c q | Props/Traits.lean |
| `C05_integers_lcm` | p c q | Props/Traits.lean |
| `C05_lcm` | p c q | Props/Traits.lean |
| `C06_integers_relative_primes` | p c q | Props/Traits.lean |
| `C06_relative_primes` | p c q | Props/Traits.lean |
| `C07_associates` | p c q | Props/Traits.lean |
| `C07_divisible` | p c q | Props/Traits.lean |
| `C07_integers` | p c q | Props/Instances.lean |
| `C07_polynomials` | p c q | Props/Polynomials.lean |
| `C08_additive_group` | p c q | Props/Instances.lean |
| `C08_group_inv` | p q | Props/Traits.lean |
| `C08_multiplicative_group` | p c q | Props/Instances.lean |
| `C08_permutations` | p c q | Props/Instances.lean |
| `C08_power` | p c q | Props/Traits.lean |
| `C08_vectors` | p c q | Props/Instances.lean |
| `C09_field_power_min_checked` | p c q | Props/Instances.lean |
| `C09_field_power_min_unchecked` | p c q | Props/Instances.lean |
| `C09_power_min_checked` | p c q | Props/Traits.lean |
| `C09_power_min_unchecked` | p c q | Props/Traits.lean |
| `C09_times_min_checked` | p c q | Props/Instances.lean |
| `C09_times_min_unchecked` | p c q | Props/Instances.lean |
| `C100_determinant` | p c q | Props/Crout.lean |
| `C100_factors` | p c q | Props/Crout.lean |
| `C100_fields` | p c q | Props/Crout.lean |
| `C100_floats` | p c q | Props/Crout.lean |
| `C101_quo_rem` | p c q | Props/FloatDivision.lean |
| `C101_try_div` | p c q | Props/FloatDivision.lean |
| `C102_call` | p | Props/Shared.lean |
| `C102_calls_of_others` | p q | Props/Shared.lean |
| `C102_extensions_of_domains` | p q | Props/Shared.lean |
| `C102_extensions_of_fields` | p c q | Props/Shared.lean |
| `C102_multiplicative` | p | Props/Shared.lean |
| `C102_orders` | p | Props/Shared.lean |
| `C102_provided_euclidean` | p c q | Props/Shared.lean |
| `C102_rings` | p | Props/Shared.lean |
| `C102_schedule_independent` | p | Props/Shared.lean |
| `C103_all_groups` | p | Props/GuardedOutcomes.lean |
| `C103_caught` | p c q | Props/GuardedOutcomes.lean |
| `C103_caught_extension_field` | p c q | Props/GuardedOutcomes.lean |
| `C103_caught_fractions` | p c q | Props/GuardedOutcomes.lean |
| `C103_caught_groups` | p c q | Props/GuardedOutcomes.lean |
| `C103_caught_matrices` | p c q | Props/GuardedOutcomes.lean |
| `C103_caught_polynomials` | p c q | Props/GuardedOutcomes.lean |
| `C103_caught_polynomials_of_fractions` | p c q | Props/GuardedOutcomes.lean |
| `C103_caught_residues` | p c q | Props/GuardedOutcomes.lean |
| `C103_caught_vectors` | p c q | Props/GuardedOutcomes.lean |
| `C103_determinant` | p c q | Props/Guarded.lean |
| `C103_determinant_panics` | p c q | Props/GuardedOutcomes.lean |
| `C103_divisibility` | p c q | Props/Guarded.lean |
| `C103_euclidean_domains` | p | Props/GuardedOutcomes.lean |
| `C103_extension_field` | p c q | Props/Guarded.lean |
| `C103_fields` | p | Props/GuardedOutcomes.lean |
| `C103_fractions` | p c q | Props/Guarded.lean |
| `C103_groups` | p c q | Props/Guarded.lean |
| `C103_guarded_follows_integers` | p c q | Props/Guarded.lean |
| `C103_integers` | p c q | Props/Guarded.lean |
| `C103_matrices` | p c q | Props/Guarded.lean |
| `C103_polynomials` | p c q | Props/Guarded.lean |
| `C103_polynomials_of_fractions` | p c q | Props/Guarded.lean |
| `C103_programs` | p c q | Props/Guarded.lean |
| `C103_programs_of_fractions` | p c q | Props/Guarded.lean |
| `C103_quotient_field` | p c q | Props/Guarded.lean |
| `C103_quotient_ring` | p c q | Props/Guarded.lean |
| `C103_rings` | p | Props/GuardedOutcomes.lean |
| `C103_stops` | p c q | Props/GuardedOutcomes.lean |
| `C103_stops_naturals` | p q | Props/GuardedOutcomes.lean |
| `C103_try_div_panics` | p c q | Props/GuardedOutcomes.lean |
| `C103_uints` | p q | Props/Guarded.lean |
| `C103_uints_alike` | p q | Props/GuardedOutcomes.lean |
| `C103_vectors` | p c q | Props/Guarded.lean |
| `C103_vectors_of_uints` | p q | Props/Guarded.lean |
| `C104_counting` | p c q | Props/FractionTime.lean |
| `C104_fractions` | p c q | Props/FractionTime.lean |
| `C104_machine` | p c q | Props/FractionTime.lean |
| `C104_machine_fractions` | p c q | Props/FractionTime.lean |
| `C104_machine_residues` | p c q | Props/FractionTime.lean |
| `C104_residues` | p c q | Props/FractionTime.lean |
| `C105_alike` | p c q | Props/Workspace.lean |
| `C105_builds` | p c q | Props/Workspace.lean |
| `C105_exact` | p c q | Props/Workspace.lean |
| `C105_faithful` | p c q | Props/Workspace.lean |
| `C105_follows` | p c q | Props/Workspace.lean |
| `C105_indistinguishable` | p c q | Props/Workspace.lean |
| `C105_machine_fractions` | p c q | Props/Workspace.lean |
| `C105_same_field` | p c q | Props/Workspace.lean |
| `C105_states` | p c q | Props/Workspace.lean |
| `C105_two_elements` | p c q | Props/Workspace.lean |
| `C106_alike` | p q | Props/DomainWorkspace.lean |
| `C106_builds` | p c q | Props/DomainWorkspace.lean |
| `C106_follows` | p q | Props/DomainWorkspace.lean |
| `C106_integers` | p c q | Props/DomainWorkspace.lean |
| `C106_machine_integers` | p c q | Props/DomainWorkspace.lean |
| `C106_polynomials` | p c q | Props/DomainWorkspace.lean |
| `C106_same_domain` | p q | Props/DomainWorkspace.lean |
| `C106_states` | p q | Props/DomainWorkspace.lean |
| `C107_domains` | p q | Props/Threads.lean |
| `C107_fields` | p c q | Props/Threads.lean |
| `C107_interleaved_domains` | p q | Props/Threads.lean |
| `C107_interleaved_fields` | p c q | Props/Threads.lean |
| `C107_schedules` | p q | Props/Threads.lean |
| `C107_threads` | p q | Props/Threads.lean |
| `C108_copies` | p q | Props/InPlaceClients.lean |
| `C108_copies_default` | p c q | Props/InPlaceClients.lean |
| `C108_copies_matrices` | p q | Props/InPlaceClients.lean |
| `C108_copies_own` | p q | Props/InPlaceClients.lean |
| `C108_copies_vectors` | p q | Props/InPlaceClients.lean |
| `C108_default` | - | Props/InPlaceClients.lean |
| `C108_exact` | p | Props/InPlaceClients.lean |
| `C108_exact_groups` | p c q | Props/InPlaceClients.lean |
| `C108_exact_matrices` | p c q | Props/InPlaceClients.lean |
| `C108_exact_permutations` | p c q | Props/InPlaceClients.lean |
| `C108_exact_rings` | p c q | Props/InPlaceClients.lean |
| `C108_exact_vectors` | p c q | Props/InPlaceClients.lean |
| `C108_machine_matrices` | p c q | Props/InPlaceClients.lean |
| `C108_machine_vectors` | p c q | Props/InPlaceClients.lean |
| `C108_matrices` | p q | Props/InPlaceClients.lean |
| `C108_programs` | p | Props/InPlaceClients.lean |
| `C108_rings` | - | Props/InPlaceClients.lean |
| `C108_vectors` | p q | Props/InPlaceClients.lean |
| `C108_vectors_differ` | p c q | Props/InPlaceClients.lean |
| `C109_diagonal` | p c q | Props/Triangular.lean |
| `C109_diagonal_panics` | p c q | Props/Triangular.lean |
| `C109_diagonal_singular` | p c q | Props/Triangular.lean |
| `C109_floats_determinant` | p c q | Props/Triangular.lean |
| `C109_floats_inverse` | p c q | Props/Triangular.lean |
| `C109_floats_stops` | p c q | Props/Triangular.lean |
| `C109_triangular` | p c q | Props/Triangular.lean |
| `C109_triangular_panics` | p c q | Props/Triangular.lean |
| `C109_triangular_returns` | p c q | Props/Triangular.lean |
| `C109_triangular_singular` | p c q | Props/Triangular.lean |
| `C10_group_sub` | p q | Props/Traits.lean |
| `C10_group_times` | p c q | Props/Traits.lean |
| `C10_int` | p q | Props/Traits.lean |
| `C10_matrices` | p c q | Props/Instances.lean |
| `C10_modular` | p c q | Props/Instances.lean |
| `C10_monoid_times` | p c q | Props/Traits.lean |
| `C10_overrides` | p c q | Props/Instances.lean |
| `C10_polynomials` | p c q | Props/Instances.lean |
| `C10_vectors` | p c q | Props/Instances.lean |
| `C11_checked_ints_contract` | p c q | Props/CheckedInts.lean |
| `C11_checked_ints_never_wrong` | p c q | Props/CheckedInts.lean |
| `C12_checked_quo_rem` | p c q | Props/CheckedInts.lean |
| `C12_checked_ring` | p c q | Props/CheckedInts.lean |
| `C13_checked_divisible` | p c q | Props/CheckedInts.lean |
| `C13_checked_min` | p c q | Props/CheckedInts.lean |
| `C14_checked_int` | p c q | Props/CheckedInts.lean |
| `C14_checked_times` | p c q | Props/CheckedInts.lean |
| `C14_times_panics_on_zero` | p c q | Props/CheckedInts.lean |
| `C15_checked_monoid_times` | p c q | Props/CheckedInts.lean |
| `C15_panics_on_representable` | p c q | Props/CheckedInts.lean |
| `C15_unsigned_monoid_times` | p c q | Props/CheckedInts.lean |
| `C16_checked_uints_contract` | p c q | Props/CheckedInts.lean |
| `C16_checked_uints_exact` | p c q | Props/CheckedInts.lean |
| `C16_checked_uints_units` | p q | Props/CheckedInts.lean |
| `C17_checked_extended_gcd` | p c q | Props/CheckedInts.lean |
| `C17_checked_extended_gcd_min` | p c q | Props/CheckedInts.lean |
| `C18_integers` | p c q | Props/Quotient.lean |
| `C18_quotient_ring` | p c q | Props/Quotient.lean |
| `C18_quotient_ring_any` | p c q | Props/Quotient.lean |
| `C18_unique_member` | p c q | Props/Quotient.lean |
| `C19_integers` | p c q | Props/Quotient.lean |
| `C19_quotient_try_inv` | p c q | Props/Quotient.lean |
| `C20_checks` | p q | Props/Quotient.lean |
| `C20_unit_modulus` | p c q | Props/Quotient.lean |
| `C20_zero_modulus` | p c q | Props/Quotient.lean |
| `C21_integers` | p c q | Props/Quotient.lean |
| `C21_quotient_euclidean` | p c q | Props/Quotient.lean |
| `C21_quotient_field` | p c q | Props/Quotient.lean |
| `C21_quotient_field_any` | p c q | Props/Quotient.lean |
| `C22_checks` | p q | Props/Quotient.lean |
| `C22_new_accepts_everything` | p c q | Props/Quotient.lean |
| `C22_unit_modulus` | p c q | Props/Quotient.lean |
| `C23_accepts_nonmember` | p c q | Props/Quotient.lean |
| `C23_contains_exact` | p c q | Props/Quotient.lean |
| `C24_GF2` | p c q | Props/Quotient.lean |
| `C24_GF3` | p c q | Props/Quotient.lean |
| `C24_contains` | p c q | Props/Quotient.lean |
| `C24_prime_field` | p c q | Props/Quotient.lean |
| `C24_residue_ring` | p c q | Props/Quotient.lean |
| `C25_extension_field` | p c q | Props/Polynomials.lean |
| `C25_finite_field` | p c q | Props/Polynomials.lean |
| `C25_finite_field_checked` | p c q | Props/Polynomials.lean |
| `C26_checks` | p q | Props/Fractions.lean |
| `C26_fraction_field` | p c q | Props/Fractions.lean |
| `C26_rationals` | p c q | Props/Fractions.lean |
| `C26_surjective` | p c q | Props/Fractions.lean |
| `C27_cross_equal` | p c q | Props/Fractions.lean |
| `C27_reduce` | p c q | Props/Fractions.lean |
| `C27_zero_denominator` | p c q | Props/Fractions.lean |
| `C28_contains` | p c q | Props/Fractions.lean |
| `C28_rationals` | p c q | Props/Fractions.lean |
| `C28_zero_denominator` | p q | Props/Fractions.lean |
| `C28_zero_denominator_unit` | p c q | Props/Fractions.lean |
| `C29_polynomial_group` | p c q | Props/Polynomials.lean |
| `C30_degree` | p c q | Props/Polynomials.lean |
| `C30_polynomial_ring` | p c q | Props/Polynomials.lean |
| `C31_canonical` | p c q | Props/Polynomials.lean |
| `C31_coefficients` | p c q | Props/Polynomials.lean |
| `C31_noncanonical` | p c q | Props/Polynomials.lean |
| `C32_incomplete` | p c q | Props/Polynomials.lean |
| `C32_some_sound` | p c q | Props/Polynomials.lean |
| `C32_try_inv` | p c q | Props/Polynomials.lean |
| `C33_polynomial_domain` | p c q | Props/Polynomials.lean |
| `C33_try_div` | p c q | Props/Polynomials.lean |
| `C34_polynomial_euclidean` | p c q | Props/Polynomials.lean |
| `C34_quo_rem` | p c q | Props/Polynomials.lean |
| `C35_contains` | p c q | Props/Polynomials.lean |
| `C35_degree` | p c q | Props/Polynomials.lean |
| `C35_equals` | p c q | Props/Polynomials.lean |
| `C35_leading_coef` | p c q | Props/Polynomials.lean |
| `C35_surjective` | p c q | Props/Polynomials.lean |
| `C35_unique` | p c q | Props/Polynomials.lean |
| `C36_abelian_group` | p c q | Props/Vectors.lean |
| `C36_contains` | p c q | Props/Vectors.lean |
| `C36_diagonal` | p | Props/Vectors.lean |
| `C36_group` | p c q | Props/Vectors.lean |
| `C36_monoid` | p c q | Props/Vectors.lean |
| `C36_semi_ring` | p c q | Props/Vectors.lean |
| `C36_surjective` | p c | Props/Vectors.lean |
| `C36_try_inv` | p c q | Props/Vectors.lean |
| `C36_unitary_ring` | p c q | Props/Vectors.lean |
| `C37_boolean_algebra` | p c q | Props/Vectors.lean |
| `C37_bounded_order` | p c q | Props/Vectors.lean |
| `C37_lattice` | p c q | Props/Vectors.lean |
| `C37_laws` | p c q | Props/Vectors.lean |
| `C37_sets` | p c q | Props/Vectors.lean |
| `C37_sets_bijective` | p c q | Props/Vectors.lean |
| `C38_binary` | p q | Props/Vectors.lean |
| `C38_contains` | p q | Props/Vectors.lean |
| `C38_matrix_binary` | p q | Props/Matrices.lean |
| `C38_matrix_contains` | p q | Props/Matrices.lean |
| `C38_matrix_multiples` | p q | Props/Matrices.lean |
| `C38_matrix_unary` | p q | Props/Matrices.lean |
| `C38_multiples` | p q | Props/Vectors.lean |
| `C38_unary` | p q | Props/Vectors.lean |
| `C39_contains` | p c q | Props/Matrices.lean |
| `C39_matrix_ring` | p c q | Props/Matrices.lean |
| `C39_new` | p q | Props/Matrices.lean |
| `C39_surjective` | p c q | Props/Matrices.lean |
| `C39_transpose` | p c q | Props/Matrices.lean |
| `C40_agree` | p c q | Props/Matrices.lean |
| `C40_invertible` | p c q | Props/Matrices.lean |
| `C40_try_inv` | p c q | Props/Matrices.lean |
| `C41_char_two` | p c q | Props/Matrices.lean |
| `C41_exact` | p c q | Props/Matrices.lean |
| `C41_exact_sign` | p c q | Props/Matrices.lean |
| `C41_full_claim_false` | p c q | Props/Matrices.lean |
| `C41_no_swap` | p c q | Props/Matrices.lean |
| `C41_one_swap` | p c q | Props/Matrices.lean |
| `C41_pivot_order_unique` | p c q | Props/Matrices.lean |
| `C41_rationals` | p c q | Props/Matrices.lean |
| `C41_right_iff` | p c q | Props/Matrices.lean |
| `C41_two_by_two` | p c q | Props/Matrices.lean |
| `C41_up_to_sign` | p c q | Props/Matrices.lean |
| `C41_zero_iff` | p c q | Props/Matrices.lean |
| `C42_bijective` | p q | Props/Permutations.lean |
| `C42_group` | p c q | Props/Permutations.lean |
| `C42_inv_entries` | p c q | Props/Permutations.lean |
| `C42_members` | p c q | Props/Permutations.lean |
| `C42_mul_entries` | p c q | Props/Permutations.lean |
| `C43_cases` | p c q | Props/Permutations.lean |
| `C43_contains` | p c q | Props/Permutations.lean |
| `C43_length` | p q | Props/Permutations.lean |
| `C43_out_of_range` | p q | Props/Permutations.lean |
| `C43_repetition` | p q | Props/Permutations.lean |
| `C43_true_iff` | p c q | Props/Permutations.lean |
| `C44_accepts_nonmember` | p c q | Props/Groups.lean |
| `C44_contains` | p q | Props/Groups.lean |
| `C44_integers` | p c q | Props/Groups.lean |
| `C44_inv_panics` | p q | Props/Groups.lean |
| `C44_multiplicative_group` | p c q | Props/Groups.lean |
| `C45_additive_group` | p c q | Props/Groups.lean |
| `C45_additive_notation` | p c q | Props/Groups.lean |
| `C46_two_boolean` | p c q | Props/Groups.lean |
| `C46_two_euclidean` | p c q | Props/Groups.lean |
| `C46_two_field` | p c q | Props/Groups.lean |
| `C46_two_members` | p c q | Props/Groups.lean |
| `C47_field_power` | p c q | Props/Traits.lean |
| `C47_field_power_zero` | p q | Props/Traits.lean |
| `C47_two_power` | p q | Props/Groups.lean |
| `C47_zero_to_the_zero` | p q | Props/Traits.lean |
| `C48_bounded_order` | p c q | Props/Divisibility.lean |
| `C48_bounds` | p | Props/Divisibility.lean |
| `C48_gcd_lcm` | p c q | Props/Divisibility.lean |
| `C48_integers` | p c q | Props/Divisibility.lean |
| `C48_join_distributes` | p c q | Props/Divisibility.lean |
| `C48_lattice` | p c q | Props/Divisibility.lean |
| `C48_meet_distributes` | p c q | Props/Divisibility.lean |
| `C49_antisymmetric` | p c q | Props/Divisibility.lean |
| `C49_contains` | p | Props/Divisibility.lean |
| `C49_exact` | p | Props/Divisibility.lean |
| `C49_unique_member` | p c q | Props/Divisibility.lean |
| `C50_lattices` | p q | Props/CheckedInts.lean |
| `C50_linear` | p q | Props/CheckedInts.lean |
| `C51_naturals_semiring` | p q | Props/Integers.lean |
| `C51_naturals_units` | p q | Props/Integers.lean |
| `C52_field_div` | p c q | Props/Traits.lean |
| `C52_field_euclidean` | p c q | Props/Traits.lean |
| `C52_field_values` | p c q | Props/Traits.lean |
| `C53_additive_group` | p q | Props/InPlace.lean |
| `C53_checked_fractions` | p c q | Props/InPlace.lean |
| `C53_checked_ints` | p c q | Props/InPlace.lean |
| `C53_checked_ints_sub` | p c q | Props/InPlace.lean |
| `C53_checked_uints` | p q | Props/InPlace.lean |
| `C53_floats` | p c q | Props/InPlace.lean |
| `C53_fractions` | p q | Props/InPlace.lean |
| `C53_integers` | p | Props/InPlace.lean |
| `C53_matrices` | p c q | Props/InPlace.lean |
| `C53_multiplicative_group` | p q | Props/InPlace.lean |
| `C53_naturals` | - | Props/InPlace.lean |
| `C53_permutations` | p c q | Props/InPlace.lean |
| `C53_polynomials` | p q | Props/InPlace.lean |
| `C53_quotient_field` | p q | Props/InPlace.lean |
| `C53_quotient_ring` | p q | Props/InPlace.lean |
| `C53_rationals` | p c q | Props/InPlace.lean |
| `C53_two_element` | p q | Props/InPlace.lean |
| `C53_vectors_add` | p c q | Props/InPlace.lean |
| `C53_vectors_mul` | p c q | Props/InPlace.lean |
| `C53_vectors_neg` | p c q | Props/InPlace.lean |
| `C54_less_than_comparable` | p | Props/Traits.lean |
| `C54_two` | - | Props/Groups.lean |
| `C55_add` | p c q | Props/Floats.lean |
| `C55_closed` | p c q | Props/Floats.lean |
| `C55_commutative` | p c q | Props/Floats.lean |
| `C55_constants` | p c q | Props/Floats.lean |
| `C55_contains` | p c q | Props/Floats.lean |
| `C55_div` | p c q | Props/Floats.lean |
| `C55_equals` | p c q | Props/Floats.lean |
| `C55_exact_product` | p c q | Props/Floats.lean |
| `C55_exact_sum` | p c q | Props/Floats.lean |
| `C55_f32` | p c q | Props/FloatFormats.lean |
| `C55_f64` | p c q | Props/FloatFormats.lean |
| `C55_inv` | p c q | Props/Floats.lean |
| `C55_lattice` | p c q | Props/Floats.lean |
| `C55_members` | p c q | Props/Floats.lean |
| `C55_monotone` | p c q | Props/Floats.lean |
| `C55_monotone_ops` | p c q | Props/Floats.lean |
| `C55_mul` | p c q | Props/Floats.lean |
| `C55_neg` | p c q | Props/Floats.lean |
| `C55_neutral` | p c q | Props/Floats.lean |
| `C55_not_associative` | p c q | Props/Floats.lean |
| `C55_rounding` | p c q | Props/Floats.lean |
| `C55_sub` | p c q | Props/Floats.lean |
| `C55_sub_zero` | p c q | Props/Floats.lean |
| `C55_try_inv` | p c q | Props/Floats.lean |
| `C55_zero_divisors` | p c q | Props/Floats.lean |
| `C56_int` | p c q | Props/Floats.lean |
| `C56_times` | p c q | Props/Floats.lean |
| `C56_times_overflow` | p c q | Props/Floats.lean |
| `C56_utimes_one` | p c q | Props/Floats.lean |
| `C56_witness` | p c q | Props/Floats.lean |
| `C57_checked_determinant` | p c q | Props/Matrices.lean |
| `C57_checked_divisibility` | p c q | Props/Divisibility.lean |
| `C57_checked_fraction_vectors` | p c q | Props/Matrices.lean |
| `C57_checked_fractions` | p c q | Props/Fractions.lean |
| `C57_checked_matrices` | p c q | Props/Matrices.lean |
| `C57_checked_polynomials` | p c q | Props/Polynomials.lean |
| `C57_checked_vectors` | p c q | Props/Vectors.lean |
| `C58_determinant` | p q | Props/Matrices.lean |
| `C58_invertible` | p q | Props/Matrices.lean |
| `C58_multiplicative_group` | p c q | Props/Matrices.lean |
| `C58_try_inv` | p c q | Props/Matrices.lean |
| `C59_card` | p c q | Props/FiniteFields.lean |
| `C59_constructors` | p c q | Props/FiniteFields.lean |
| `C59_field_1721` | p c q | Props/FiniteFields.lean |
| `C59_field_256` | p c q | Props/FiniteFields.lean |
| `C59_members` | p c q | Props/FiniteFields.lean |
| `C59_primitive` | p c q | Props/FiniteFields.lean |
| `C60_fractions` | p c q | Props/Unreduced.lean |
| `C60_fractions_equals` | p c q | Props/Unreduced.lean |
| `C60_integers` | p c q | Props/Unreduced.lean |
| `C60_quotient_equals` | p c q | Props/Unreduced.lean |
| `C60_quotient_field` | p c q | Props/Unreduced.lean |
| `C60_quotient_ring` | p c q | Props/Unreduced.lean |
| `C60_rationals` | p c q | Props/Unreduced.lean |
| `C61_booleans` | p c q | Props/Counting.lean |
| `C61_matrices` | p c q | Props/Counting.lean |
| `C61_permutations` | p c q | Props/Counting.lean |
| `C61_residues` | p c q | Props/Counting.lean |
| `C61_residues_checked` | p c q | Props/Counting.lean |
| `C62_checked` | p c q | Props/Cost.lean |
| `C62_checked_sizes` | p c q | Props/Cost.lean |
| `C62_extended_gcd_limit` | p c q | Props/Cost.lean |
| `C62_fields` | p c q | Props/Cost.lean |
| `C62_gcd_limit` | p c q | Props/Cost.lean |
| `C62_integers` | p c q | Props/Cost.lean |
| `C62_polynomials` | p c q | Props/Cost.lean |
| `C62_sharp` | p c q | Props/Cost.lean |
| `C63_pointer` | p c q | Props/Cost.lean |
| `C63_power` | p c q | Props/Cost.lean |
| `C63_power_default` | p c q | Props/Cost.lean |
| `C63_times` | p c q | Props/Cost.lean |
| `C64_checked` | p c q | Props/Laws.lean |
| `C64_checked_towers` | p c q | Props/Laws.lean |
| `C64_divisibility` | p c q | Props/Laws.lean |
| `C64_field_extensions` | p c q | Props/Laws.lean |
| `C64_fields` | p c q | Props/Laws.lean |
| `C64_floats` | p c q | Props/Laws.lean |
| `C64_fractions` | p c q | Props/Laws.lean |
| `C64_groups` | p c q | Props/Laws.lean |
| `C64_integers` | p c q | Props/Laws.lean |
| `C64_laws_iff_contract` | p c q | Props/Laws.lean |
| `C64_matrices` | p c q | Props/Laws.lean |
| `C64_members` | p q | Props/Laws.lean |
| `C64_order_laws_iff_contract` | p c q | Props/Laws.lean |
| `C64_permutations` | p c q | Props/Laws.lean |
| `C64_polynomials` | p c q | Props/Laws.lean |
| `C64_quotient_field` | p c q | Props/Laws.lean |
| `C64_quotient_ring` | p c q | Props/Laws.lean |
| `C64_rational_functions` | p c q | Props/Laws.lean |
| `C64_rationals` | p c q | Props/Laws.lean |
| `C64_residues` | p c q | Props/Laws.lean |
| `C64_residues_checked` | p c q | Props/Laws.lean |
| `C64_two_element` | p c q | Props/Laws.lean |
| `C64_vectors` | p c q | Props/Laws.lean |
| `C64_vectors_order` | p c q | Props/Laws.lean |
| `C65_determinant` | p c q | Props/DeterminantOverflow.lean |
| `C65_determinant_bound` | p c q | Props/DeterminantOverflow.lean |
| `C65_fractions_add` | p c q | Props/NoOverflow.lean |
| `C65_fractions_bound` | p c q | Props/NoOverflow.lean |
| `C65_fractions_div` | p c q | Props/DivisionOverflow.lean |
| `C65_fractions_inv` | p c q | Props/NoOverflow.lean |
| `C65_fractions_mul` | p c q | Props/NoOverflow.lean |
| `C65_fractions_neg` | p c q | Props/NoOverflow.lean |
| `C65_fractions_quo` | p c q | Props/DivisionOverflow.lean |
| `C65_fractions_sub` | p c q | Props/NoOverflow.lean |
| `C65_fractions_times` | p c q | Props/NoOverflow.lean |
| `C65_fractions_try_inv` | p c q | Props/NoOverflow.lean |
| `C65_invertible` | p c q | Props/DeterminantOverflow.lean |
| `C65_matrices_fractions` | p c q | Props/MatrixOverflow.lean |
| `C65_matrix_mul` | p c q | Props/MatrixOverflow.lean |
| `C65_matrix_mul_integers` | p c q | Props/MatrixOverflow.lean |
| `C65_poly_add` | p c q | Props/NoOverflow.lean |
| `C65_poly_associate_repr` | p c q | Props/DivisionOverflow.lean |
| `C65_poly_divisible` | p c q | Props/DivisionOverflow.lean |
| `C65_poly_fractions_add` | p c q | Props/PolyFractionOverflow.lean |
| `C65_poly_fractions_mul` | p c q | Props/PolyFractionOverflow.lean |
| `C65_poly_fractions_neg` | p c q | Props/PolyFractionOverflow.lean |
| `C65_poly_fractions_sub` | p c q | Props/PolyFractionOverflow.lean |
| `C65_poly_fractions_times` | p c q | Props/PolyFractionOverflow.lean |
| `C65_poly_mul` | p c q | Props/NoOverflow.lean |
| `C65_poly_mul_bound` | p c q | Props/NoOverflow.lean |
| `C65_poly_neg` | p c q | Props/NoOverflow.lean |
| `C65_poly_sub` | p c q | Props/NoOverflow.lean |
| `C65_poly_times` | p c q | Props/NoOverflow.lean |
| `C65_poly_try_div` | p c q | Props/DivisionOverflow.lean |
| `C65_poly_try_div_bound` | p c q | Props/DivisionOverflow.lean |
| `C65_poly_try_div_constant` | p c q | Props/DivisionOverflow.lean |
| `C65_try_inv` | p c q | Props/DeterminantOverflow.lean |
| `C65_vectors` | p c q | Props/NoOverflow.lean |
| `C65_vectors_fractions` | p c q | Props/MatrixOverflow.lean |
| `C66_debug_lengths` | p c q | Props/NonPermutations.lean |
| `C66_equals` | p q | Props/NonPermutations.lean |
| `C66_false_inverse` | p c q | Props/NonPermutations.lean |
| `C66_inv` | p c q | Props/NonPermutations.lean |
| `C66_is_one` | p c q | Props/NonPermutations.lean |
| `C66_maps` | p c q | Props/NonPermutations.lean |
| `C66_mul` | p c q | Props/NonPermutations.lean |
| `C66_mul_assign` | p c q | Props/NonPermutations.lean |
| `C66_try_inv` | p c q | Props/NonPermutations.lean |
| `C67_additive_group` | p q | Props/Simulation.lean |
| `C67_determinant` | p | Props/Simulation.lean |
| `C67_divisibility_lattice` | - | Props/Simulation.lean |
| `C67_divisibility_order` | - | Props/Simulation.lean |
| `C67_field_euclidean` | p c q | Props/Simulation.lean |
| `C67_fractions` | p q | Props/Simulation.lean |
| `C67_fractions_new` | p q | Props/Simulation.lean |
| `C67_matrices` | p q | Props/Simulation.lean |
| `C67_matrices_new` | p q | Props/Simulation.lean |
| `C67_multiplicative_group` | p q | Props/Simulation.lean |
| `C67_polynomials` | p q | Props/Simulation.lean |
| `C67_polynomials_domain` | p q | Props/Simulation.lean |
| `C67_polynomials_euclidean` | p c q | Props/Simulation.lean |
| `C67_polynomials_group` | p q | Props/Simulation.lean |
| `C67_quotient_field` | p q | Props/Simulation.lean |
| `C67_quotient_field_new` | p q | Props/Simulation.lean |
| `C67_quotient_ring` | p q | Props/Simulation.lean |
| `C67_quotient_ring_new` | p q | Props/Simulation.lean |
| `C67_transpose` | p | Props/Simulation.lean |
| `C67_vectors` | p q | Props/Simulation.lean |
| `C67_vectors_abelian_group` | p q | Props/Simulation.lean |
| `C67_vectors_boolean_algebra` | p | Props/Simulation.lean |
| `C67_vectors_bounded_order` | p | Props/Simulation.lean |
| `C67_vectors_group` | p q | Props/Simulation.lean |
| `C67_vectors_lattice` | p | Props/Simulation.lean |
| `C67_vectors_semiring` | p q | Props/Simulation.lean |
| `C68_determinant` | p c q | Props/Simulation.lean |
| `C68_divisibility` | p c q | Props/Simulation.lean |
| `C68_extension_field` | p c q | Props/Simulation.lean |
| `C68_fractions` | p c q | Props/Simulation.lean |
| `C68_groups` | p c q | Props/Simulation.lean |
| `C68_integers` | p c q | Props/Simulation.lean |
| `C68_integers_lattice` | p q | Props/Simulation.lean |
| `C68_matrices_of_fractions` | p c q | Props/Simulation.lean |
| `C68_polynomials` | p c q | Props/Simulation.lean |
| `C68_quotient_field` | p c q | Props/Simulation.lean |
| `C68_quotient_ring` | p c q | Props/Simulation.lean |
| `C68_uints` | p c q | Props/Simulation.lean |
| `C68_vectors` | p c q | Props/Simulation.lean |
| `C69_checked_ints` | p c q | Props/Simulation.lean |
| `C69_extension_field` | p c q | Props/Simulation.lean |
| `C69_floats` | p c q | Props/Simulation.lean |
| `C69_integers` | p c q | Props/Simulation.lean |
| `C69_permutations` | p q | Props/Simulation.lean |
| `C69_rationals` | p c q | Props/Simulation.lean |
| `C69_two_element` | p q | Props/Simulation.lean |
| `C70_fractions` | p c q | Props/Simulation.lean |
| `C70_gcd` | p c q | Props/Simulation.lean |
| `C70_integers` | p c q | Props/Simulation.lean |
| `C70_integers_lattice` | p q | Props/Simulation.lean |
| `C70_polynomials` | p c q | Props/Simulation.lean |
| `C70_quotient_field` | p c q | Props/Simulation.lean |
| `C70_uints` | p q | Props/Simulation.lean |
| `C71_bezout_bounds` | p c q | Props/EuclidExact.lean |
| `C71_bezout_minimal` | p c q | Props/EuclidExact.lean |
| `C71_extended_gcd` | p c q | Props/EuclidExact.lean |
| `C71_gcd` | p c q | Props/EuclidExact.lean |
| `C71_gcd_sign` | p c q | Props/EuclidExact.lean |
| `C71_lcm` | p c q | Props/EuclidExact.lean |
| `C71_lcm_abs` | p c q | Props/EuclidExact.lean |
| `C72_divisibility_members` | p c q | Props/EuclidExact.lean |
| `C72_divisibility_order` | p c q | Props/EuclidExact.lean |
| `C72_extended_gcd` | p c q | Props/EuclidExact.lean |
| `C72_gcd` | p c q | Props/EuclidExact.lean |
| `C72_lcm` | p c q | Props/EuclidExact.lean |
| `C72_quotient_additive` | p c q | Props/EuclidExact.lean |
| `C72_quotient_inv` | p c q | Props/EuclidExact.lean |
| `C72_quotient_mul_sharp` | p c q | Props/EuclidExact.lean |
| `C72_quotient_ops` | p c q | Props/EuclidExact.lean |
| `C72_quotient_sub` | p c q | Props/EuclidExact.lean |
| `C72_quotient_try_inv` | p c q | Props/EuclidExact.lean |
| `C72_tests` | p c q | Props/EuclidExact.lean |
| `C73_add` | p c q | Props/Coefficients.lean |
| `C73_associates_panic` | p c q | Props/Coefficients.lean |
| `C73_constants` | p c q | Props/Coefficients.lean |
| `C73_contains` | p c q | Props/Coefficients.lean |
| `C73_equals` | p c q | Props/Coefficients.lean |
| `C73_gcd` | p c q | Props/Coefficients.lean |
| `C73_mul` | p c q | Props/Coefficients.lean |
| `C73_neg` | p c q | Props/Coefficients.lean |
| `C73_quo_rem` | p c q | Props/Coefficients.lean |
| `C73_quo_rem_cases` | p c q | Props/Coefficients.lean |
| `C73_sub` | p c q | Props/Coefficients.lean |
| `C73_times` | p c q | Props/Coefficients.lean |
| `C73_try_div` | p c q | Props/Coefficients.lean |
| `C73_try_div_panics` | p c q | Props/Coefficients.lean |
| `C73_try_div_short` | p q | Props/Coefficients.lean |
| `C73_try_inv` | p c q | Props/Coefficients.lean |
| `C73_utimes` | p c q | Props/Coefficients.lean |
| `C74_div_self` | p c q | Props/FloatError.lean |
| `C74_double` | p c q | Props/FloatError.lean |
| `C74_exact_difference` | p c q | Props/FloatError.lean |
| `C74_failing_laws` | p c q | Props/FloatError.lean |
| `C74_matrix_mul` | p c q | Props/FloatError.lean |
| `C74_polynomial_mul` | p c q | Props/FloatError.lean |
| `C74_power` | p c q | Props/FloatError.lean |
| `C74_product` | p c q | Props/FloatError.lean |
| `C74_signs` | p c q | Props/FloatError.lean |
| `C74_sum` | p c q | Props/FloatError.lean |
| `C75_basic` | p c q | Props/Termination.lean |
| `C75_blanket` | p c q | Props/Termination.lean |
| `C75_blanket_diverges` | p c q | Props/Termination.lean |
| `C75_constants` | p c q | Props/Termination.lean |
| `C75_constants_kept` | p q | Props/Termination.lean |
| `C75_matrices` | p q | Props/Termination.lean |
| `C75_polynomial_steps` | p c q | Props/Termination.lean |
| `C75_polynomials` | p c q | Props/Termination.lean |
| `C75_quotients` | p q | Props/Termination.lean |
| `C75_vectors` | p q | Props/Termination.lean |
| `C75_wrappers` | p q | Props/Termination.lean |
| `C76_blanket` | p c q | Props/NonFinite.lean |
| `C76_div` | p c q | Props/NonFinite.lean |
| `C76_domain` | p c q | Props/NonFinite.lean |
| `C76_inv` | p c q | Props/NonFinite.lean |
| `C76_nan` | p c q | Props/NonFinite.lean |
| `C76_order` | p c q | Props/NonFinite.lean |
| `C76_power` | p c q | Props/NonFinite.lean |
| `C76_ring` | p c q | Props/NonFinite.lean |
| `C76_times` | p c q | Props/NonFinite.lean |
| `C76_unary` | p c q | Props/NonFinite.lean |
| `C76_utimes` | p c q | Props/NonFinite.lean |
| `C77_debug_panic` | p c q | Props/ExactFloats.lean |
| `C77_determinant` | p c q | Props/ExactFloats.lean |
| `C77_determinant_panics` | p c q | Props/ExactFloats.lean |
| `C77_exact` | p c q | Props/ExactFloats.lean |
| `C77_matrix_mul` | p c q | Props/ExactFloats.lean |
| `C77_matrix_mul_fixed` | p c q | Props/ExactFloats.lean |
| `C77_one_by_one` | p c q | Props/ExactFloats.lean |
| `C77_polynomial_mul_fixed` | p c q | Props/ExactFloats.lean |
| `C77_polynomials` | p c q | Props/ExactFloats.lean |
| `C77_rationals` | p c q | Props/ExactFloats.lean |
| `C77_try_inv` | p c q | Props/ExactFloats.lean |
| `C78_extended_gcd` | p c q | Props/PolyGcd.lean |
| `C78_gcd` | p c q | Props/PolyGcd.lean |
| `C78_gcd_cases` | p c q | Props/PolyGcd.lean |
| `C78_lcm` | p c q | Props/PolyGcd.lean |
| `C78_lcm_multiple` | p c q | Props/PolyGcd.lean |
| `C78_lengths` | p c q | Props/PolyGcd.lean |
| `C78_unique` | p c q | Props/PolyGcd.lean |
| `C79_euler` | p c q | Props/FinitePowers.lean |
| `C79_euler_inv` | p c q | Props/FinitePowers.lean |
| `C79_fermat` | p c q | Props/FinitePowers.lean |
| `C79_fermat_checked` | p c q | Props/FinitePowers.lean |
| `C79_fermat_inv` | p c q | Props/FinitePowers.lean |
| `C79_field_card` | p c q | Props/FinitePowers.lean |
| `C79_field_neg_one` | p c q | Props/FinitePowers.lean |
| `C79_frobenius` | p c q | Props/FinitePowers.lean |
| `C79_group` | p c q | Props/FinitePowers.lean |
| `C79_group_order` | p c q | Props/FinitePowers.lean |
| `C79_permutations` | p c q | Props/FinitePowers.lean |
| `C80_determinant` | p c q | Props/Order.lean |
| `C80_matrix_mul` | p c q | Props/Order.lean |
| `C80_poly_mul` | p c q | Props/Order.lean |
| `C80_power` | p c q | Props/Order.lean |
| `C80_quo_rem` | p c q | Props/Order.lean |
| `C80_times` | p q | Props/Order.lean |
| `C80_try_div` | p c q | Props/Order.lean |
| `C80_try_inv` | p c q | Props/Order.lean |
| `C80_try_inv_none` | p c q | Props/Order.lean |
| `C81_associate_repr` | p c q | Props/Coordinates.lean |
| `C81_extended_gcd` | p c q | Props/Coordinates.lean |
| `C81_gcd` | p c q | Props/Coordinates.lean |
| `C81_matrix` | p c q | Props/Coordinates.lean |
| `C81_poly_add_longer` | p c q | Props/Coordinates.lean |
| `C81_poly_add_same` | p c q | Props/Coordinates.lean |
| `C81_poly_domain` | p c q | Props/Coordinates.lean |
| `C81_poly_extended_gcd` | p c q | Props/Coordinates.lean |
| `C81_poly_gcd` | p c q | Props/Coordinates.lean |
| `C81_poly_neg` | p c q | Props/Coordinates.lean |
| `C81_poly_sub` | p c q | Props/Coordinates.lean |
| `C81_poly_times` | p c q | Props/Coordinates.lean |
| `C81_vector_additive` | p c q | Props/Coordinates.lean |
| `C81_vector_domain` | p c q | Props/Coordinates.lean |
| `C81_vector_group` | p c q | Props/Coordinates.lean |
| `C81_vector_int` | p q | Props/Coordinates.lean |
| `C81_vector_monoid` | p c q | Props/Coordinates.lean |
| `C81_vector_order` | p c q | Props/Coordinates.lean |
| `C81_vector_semigroup` | p c q | Props/Coordinates.lean |
| `C82_chinese_remainder` | p c q | Props/Towers.lean |
| `C82_integer_residues` | p c q | Props/Towers.lean |
| `C82_interpolation` | p c q | Props/Towers.lean |
| `C82_interpolation_inverse` | p c q | Props/Towers.lean |
| `C82_rational_functions` | p c q | Props/Towers.lean |
| `C82_rational_reduce` | p c q | Props/Towers.lean |
| `C82_remainder` | p c q | Props/Towers.lean |
| `C82_simple_extension` | p c q | Props/Towers.lean |
| `C83_abelian_group_contract` | p c q | Props/Overrides.lean |
| `C83_abelian_group_members` | p c q | Props/Overrides.lean |
| `C83_checked_ints` | p c q | Props/Overrides.lean |
| `C83_checked_ints_extended_gcd` | p c q | Props/Overrides.lean |
| `C83_checked_ints_reduced` | p c q | Props/Overrides.lean |
| `C83_checked_ints_sub` | p c q | Props/Overrides.lean |
| `C83_checked_ints_times` | p c q | Props/Overrides.lean |
| `C83_checked_uints` | p q | Props/Overrides.lean |
| `C83_euclidean_contract` | p c q | Props/Overrides.lean |
| `C83_euclidean_members` | p c q | Props/Overrides.lean |
| `C83_field_contract` | p c q | Props/Overrides.lean |
| `C83_field_members` | p c q | Props/Overrides.lean |
| `C83_floats` | p c q | Props/Overrides.lean |
| `C83_group_contract` | p c q | Props/Overrides.lean |
| `C83_group_members` | p c q | Props/Overrides.lean |
| `C83_integers` | p c q | Props/Overrides.lean |
| `C83_integers_times` | p c q | Props/Overrides.lean |
| `C83_multiplicative_group` | p q | Props/Overrides.lean |
| `C83_naturals` | p c q | Props/Overrides.lean |
| `C83_semiring_contract` | p c q | Props/Overrides.lean |
| `C83_semiring_members` | p c q | Props/Overrides.lean |
| `C83_two_element_field` | p c q | Props/Overrides.lean |
| `C83_two_element_order` | q | Props/Overrides.lean |
| `C83_unitary_ring_contract` | p c q | Props/Overrides.lean |
| `C83_unitary_ring_members` | p c q | Props/Overrides.lean |
| `C84_abelian_group` | p q | Props/Agreement.lean |
| `C84_commutative_monoid` | p c q | Props/Agreement.lean |
| `C84_divisibility_bits` | p c q | Props/Agreement.lean |
| `C84_divisibility_field` | p c q | Props/Agreement.lean |
| `C84_euclidean` | p c q | Props/Agreement.lean |
| `C84_field` | p c q | Props/Agreement.lean |
| `C84_fractions_field` | p c q | Props/Agreement.lean |
| `C84_group` | p q | Props/Agreement.lean |
| `C84_matrix_one` | p c q | Props/Agreement.lean |
| `C84_monoid` | p c q | Props/Agreement.lean |
| `C84_permutation_matrices` | p c q | Props/Agreement.lean |
| `C84_quotient` | p q | Props/Agreement.lean |
| `C84_quotient_inverse` | p q | Props/Agreement.lean |
| `C84_transpose_inv` | p c q | Props/Agreement.lean |
| `C84_transpose_mul` | p c q | Props/Agreement.lean |
| `C84_vector_additive_group` | p c q | Props/Agreement.lean |
| `C84_vector_multiplicative_group` | p c q | Props/Agreement.lean |
| `C84_vector_nested` | p q | Props/Agreement.lean |
| `C84_vector_one` | p q | Props/Agreement.lean |
| `C85_chain` | p c q | Props/Signs.lean |
| `C85_constructions` | p c q | Props/Signs.lean |
| `C85_determinant` | p c q | Props/Signs.lean |
| `C85_determinant_neg` | p c q | Props/Signs.lean |
| `C85_equals` | p c q | Props/Signs.lean |
| `C85_field` | p c q | Props/Signs.lean |
| `C85_gcd` | p c q | Props/Signs.lean |
| `C85_group` | p c q | Props/Signs.lean |
| `C85_lattice` | p c q | Props/Signs.lean |
| `C85_matrix_mul` | p c q | Props/Signs.lean |
| `C85_neg` | p c q | Props/Signs.lean |
| `C85_order` | p c q | Props/Signs.lean |
| `C85_poly_mul` | p c q | Props/Signs.lean |
| `C85_quo_rem` | p c q | Props/Signs.lean |
| `C85_signs` | p c q | Props/Signs.lean |
| `C85_transpose_mul` | p c q | Props/Signs.lean |
| `C85_try_inv` | p c q | Props/Signs.lean |
| `C85_value` | p c q | Props/Signs.lean |
| `C86_checked_ints` | p c q | Props/Majorants.lean |
| `C86_checked_ints_nonneg` | p c q | Props/Majorants.lean |
| `C86_checked_times` | p c q | Props/Majorants.lean |
| `C86_checked_uints` | p c q | Props/Majorants.lean |
| `C86_float_div` | p c q | Props/Majorants.lean |
| `C86_float_matrix_mul` | p c q | Props/Majorants.lean |
| `C86_float_power` | p c q | Props/Majorants.lean |
| `C86_float_times` | p c q | Props/Majorants.lean |
| `C86_floats` | p c q | Props/Majorants.lean |
| `C86_floats_nonneg` | p c q | Props/Majorants.lean |
| `C86_matrices` | p c q | Props/Majorants.lean |
| `C86_poly_mul` | p c q | Props/Majorants.lean |
| `C86_power` | p q | Props/Majorants.lean |
| `C86_vector_rings` | p c q | Props/Majorants.lean |
| `C86_vectors` | p c q | Props/Majorants.lean |
| `C87_add_error` | p c q | Props/FloatExact.lean |
| `C87_double` | p c q | Props/FloatExact.lean |
| `C87_integers` | p c q | Props/FloatExact.lean |
| `C87_integers_mul` | p c q | Props/FloatExact.lean |
| `C87_integers_order` | p c q | Props/FloatExact.lean |
| `C87_integers_poly` | p c q | Props/FloatExact.lean |
| `C87_mul_error` | p c q | Props/FloatExact.lean |
| `C87_sub_near` | p c q | Props/FloatExact.lean |
| `C87_two_sum` | p c q | Props/FloatExact.lean |
| `C88_abelian_group` | p c q | Props/Embeddings.lean |
| `C88_block_determinant` | p c q | Props/Embeddings.lean |
| `C88_cayley` | p c q | Props/Embeddings.lean |
| `C88_constant_polynomials` | p c q | Props/Embeddings.lean |
| `C88_constant_residues` | p c q | Props/Embeddings.lean |
| `C88_constant_vectors` | p c q | Props/Embeddings.lean |
| `C88_diagonal_matrices` | p c q | Props/Embeddings.lean |
| `C88_extension_matrices` | p c q | Props/Embeddings.lean |
| `C88_field` | p c q | Props/Embeddings.lean |
| `C88_group` | p | Props/Embeddings.lean |
| `C88_integers` | p c q | Props/Embeddings.lean |
| `C88_monoid` | p | Props/Embeddings.lean |
| `C88_polynomials_expand` | p c q | Props/Embeddings.lean |
| `C88_ring` | p c q | Props/Embeddings.lean |
| `C88_scalar_matrices` | p c q | Props/Embeddings.lean |
| `C88_triangular_determinant` | p c q | Props/Embeddings.lean |
| `C88_triangular_inverse` | p c q | Props/Embeddings.lean |
| `C88_triangular_ring` | p c q | Props/Embeddings.lean |
| `C89_associate` | p c q | Props/FloatEuclid.lean |
| `C89_associates` | p c q | Props/FloatEuclid.lean |
| `C89_divisible` | p c q | Props/FloatEuclid.lean |
| `C89_division` | p c q | Props/FloatEuclid.lean |
| `C89_extended_gcd` | p c q | Props/FloatEuclid.lean |
| `C89_fraction_contains` | p c q | Props/FloatEuclid.lean |
| `C89_fraction_inv` | p c q | Props/FloatEuclid.lean |
| `C89_fraction_inv_not_closed` | p c q | Props/FloatEuclid.lean |
| `C89_fraction_ops` | p c q | Props/FloatEuclid.lean |
| `C89_fraction_times` | p c q | Props/FloatEuclid.lean |
| `C89_gcd` | p c q | Props/FloatEuclid.lean |
| `C89_order` | p c q | Props/FloatEuclid.lean |
| `C89_order_contains` | p c q | Props/FloatEuclid.lean |
| `C89_reduce` | p c q | Props/FloatEuclid.lean |
| `C90_anisotropic` | p c q | Props/Pivots.lean |
| `C90_characteristic_polynomial` | p c q | Props/Pivots.lean |
| `C90_dominant_columns` | p c q | Props/Pivots.lean |
| `C90_dominant_inverse` | p c q | Props/Pivots.lean |
| `C90_dominant_rows` | p c q | Props/Pivots.lean |
| `C90_lower_upper` | p c q | Props/Pivots.lean |
| `C90_polynomial_entries` | p c q | Props/Pivots.lean |
| `C90_positive` | p c q | Props/Pivots.lean |
| `C90_resolvent` | p c q | Props/Pivots.lean |
| `C90_vandermonde` | p c q | Props/Pivots.lean |
| `C91_dual_inverse` | p c q | Props/Generated.lean |
| `C91_dual_numbers` | p c q | Props/Generated.lean |
| `C91_generated` | p c q | Props/Generated.lean |
| `C91_image` | p c q | Props/Generated.lean |
| `C91_minimal_polynomial` | p c q | Props/Generated.lean |
| `C91_series` | p c q | Props/Generated.lean |
| `C91_series_inverse` | p c q | Props/Generated.lean |
| `C91_tangent` | p c q | Props/Generated.lean |
| `C91_taylor` | p c q | Props/Generated.lean |
| `C92_agrees_default` | p c q | Props/Mutation.lean |
| `C92_agrees_own` | p q | Props/Mutation.lean |
| `C92_agrees_vectors` | p q | Props/Mutation.lean |
| `C92_default_agrees` | p | Props/Mutation.lean |
| `C92_default_unchanged` | p | Props/Mutation.lean |
| `C92_matrices` | p q | Props/Mutation.lean |
| `C92_own_unchanged` | p q | Props/Mutation.lean |
| `C92_permutations` | p c q | Props/Mutation.lean |
| `C92_permutations_not_members` | p c q | Props/Mutation.lean |
| `C92_unchanged_members` | - | Props/Mutation.lean |
| `C92_vector_binary` | p c q | Props/Mutation.lean |
| `C92_vector_ints` | p c q | Props/Mutation.lean |
| `C92_vector_members` | p c q | Props/Mutation.lean |
| `C92_vector_unary` | p c q | Props/Mutation.lean |
| `C93_determinant` | p q | Props/Counted.lean |
| `C93_matrix_mul` | p q | Props/Counted.lean |
| `C93_matrix_try_inv` | p c q | Props/Counted.lean |
| `C93_outcomes` | p q | Props/Counted.lean |
| `C93_outcomes_matrices` | p q | Props/Counted.lean |
| `C93_outcomes_polynomials` | p c q | Props/Counted.lean |
| `C93_poly_add` | p q | Props/Counted.lean |
| `C93_poly_gcd` | p c q | Props/Counted.lean |
| `C93_poly_mul` | p q | Props/Counted.lean |
| `C93_poly_quo_rem` | p c q | Props/Counted.lean |
| `C93_poly_try_div` | p q | Props/Counted.lean |
| `C93_power` | p c q | Props/Counted.lean |
| `C93_times` | p c q | Props/Counted.lean |
| `C93_vectors` | p q | Props/Counted.lean |
| `C93_vectors_panic` | p c q | Props/Counted.lean |
| `C94_arithmetic` | p q | Props/Usize.lean |
| `C94_matrices` | p c q | Props/Usize.lean |
| `C94_matrix_constants` | p c q | Props/Usize.lean |
| `C94_new` | p q | Props/Usize.lean |
| `C94_permutations` | p c q | Props/Usize.lean |
| `C94_poly_capacity` | p q | Props/Usize.lean |
| `C94_polynomials` | p c q | Props/Usize.lean |
| `C94_try_div_capacity` | p c q | Props/Usize.lean |
| `C94_vectors` | p q | Props/Usize.lean |
| `C95_additive_group` | p q | Props/Stateful.lean |
| `C95_constructors` | p q | Props/Stateful.lean |
| `C95_determinant` | p | Props/Stateful.lean |
| `C95_divisibility` | p | Props/Stateful.lean |
| `C95_field` | p c q | Props/Stateful.lean |
| `C95_fractions` | p q | Props/Stateful.lean |
| `C95_matrices` | p q | Props/Stateful.lean |
| `C95_multiplicative_group` | p q | Props/Stateful.lean |
| `C95_outcome` | p | Props/Stateful.lean |
| `C95_poly_abelian_group` | p q | Props/Stateful.lean |
| `C95_poly_euclidean` | p c q | Props/Stateful.lean |
| `C95_poly_integral_domain` | p q | Props/Stateful.lean |
| `C95_poly_unitary_ring` | p q | Props/Stateful.lean |
| `C95_preorder` | p | Props/Stateful.lean |
| `C95_provided_abelian_group` | p q | Props/Stateful.lean |
| `C95_provided_commutative_monoid` | p q | Props/Stateful.lean |
| `C95_provided_euclidean_domain` | p c q | Props/Stateful.lean |
| `C95_provided_field` | p q | Props/Stateful.lean |
| `C95_provided_group` | p q | Props/Stateful.lean |
| `C95_provided_integral_domain` | p | Props/Stateful.lean |
| `C95_provided_monoid` | p | Props/Stateful.lean |
| `C95_provided_partial_order` | p | Props/Stateful.lean |
| `C95_provided_semigroup` | p | Props/Stateful.lean |
| `C95_provided_unitary_ring` | p | Props/Stateful.lean |
| `C95_quotients` | p q | Props/Stateful.lean |
| `C95_state_independent` | p | Props/Stateful.lean |
| `C95_vector_abelian_group` | p q | Props/Stateful.lean |
| `C95_vector_boolean_algebra` | p | Props/Stateful.lean |
| `C95_vector_bounded_order` | p | Props/Stateful.lean |
| `C95_vector_commutative_monoid` | p q | Props/Stateful.lean |
| `C95_vector_domain` | p | Props/Stateful.lean |
| `C95_vector_group` | p q | Props/Stateful.lean |
| `C95_vector_lattice` | p | Props/Stateful.lean |
| `C95_vector_monoid` | p | Props/Stateful.lean |
| `C95_vector_partial_order` | p | Props/Stateful.lean |
| `C95_vector_semi_ring` | p q | Props/Stateful.lean |
| `C95_vector_semigroup` | p | Props/Stateful.lean |
| `C95_vector_unitary_ring` | p q | Props/Stateful.lean |
| `C96_additive_group` | p q | Props/Lawless.lean |
| `C96_constructors` | p q | Props/Lawless.lean |
| `C96_determinant` | p c q | Props/Lawless.lean |
| `C96_divisibility` | p | Props/Lawless.lean |
| `C96_field_euclidean` | p c q | Props/Lawless.lean |
| `C96_field_integral_domain` | p | Props/Lawless.lean |
| `C96_fractions` | p q | Props/Lawless.lean |
| `C96_matrices` | p c q | Props/Lawless.lean |
| `C96_matrix_methods` | p c q | Props/Lawless.lean |
| `C96_multiplicative_group` | p q | Props/Lawless.lean |
| `C96_panic_of_the_base` | p c q | Props/Lawless.lean |
| `C96_poly_abelian_group` | p c q | Props/Lawless.lean |
| `C96_poly_associates` | p q | Props/Lawless.lean |
| `C96_poly_empty_divisor` | p c q | Props/Lawless.lean |
| `C96_poly_euclidean` | p c q | Props/Lawless.lean |
| `C96_poly_integral_domain` | p c q | Props/Lawless.lean |
| `C96_poly_mul` | p q | Props/Lawless.lean |
| `C96_poly_quo_rem` | p c q | Props/Lawless.lean |
| `C96_poly_sum_length` | p c q | Props/Lawless.lean |
| `C96_poly_try_div` | p q | Props/Lawless.lean |
| `C96_poly_unitary_ring` | p c q | Props/Lawless.lean |
| `C96_poly_zero_divisor` | p c q | Props/Lawless.lean |
| `C96_provided_abelian_group` | p q | Props/Lawless.lean |
| `C96_provided_commutative_monoid` | p q | Props/Lawless.lean |
| `C96_provided_euclidean_domain` | p c q | Props/Lawless.lean |
| `C96_provided_field` | p q | Props/Lawless.lean |
| `C96_provided_group` | p q | Props/Lawless.lean |
| `C96_provided_integral_domain` | p | Props/Lawless.lean |
| `C96_provided_monoid` | - | Props/Lawless.lean |
| `C96_provided_partial_order` | - | Props/Lawless.lean |
| `C96_provided_semigroup` | - | Props/Lawless.lean |
| `C96_quotient_field` | p q | Props/Lawless.lean |
| `C96_quotient_ring` | p q | Props/Lawless.lean |
| `C96_vector_abelian_group` | p c q | Props/Lawless.lean |
| `C96_vector_boolean_algebra` | p c q | Props/Lawless.lean |
| `C96_vector_bounded_order` | p c q | Props/Lawless.lean |
| `C96_vector_commutative_monoid` | p c q | Props/Lawless.lean |
| `C96_vector_domain` | p c q | Props/Lawless.lean |
| `C96_vector_group` | p c q | Props/Lawless.lean |
| `C96_vector_lattice` | p c q | Props/Lawless.lean |
| `C96_vector_length` | p q | Props/Lawless.lean |
| `C96_vector_monoid` | p c q | Props/Lawless.lean |
| `C96_vector_partial_order` | p c q | Props/Lawless.lean |
| `C96_vector_semi_ring` | p c q | Props/Lawless.lean |
| `C96_vector_semigroup` | p c q | Props/Lawless.lean |
| `C96_vector_unitary_ring` | p c q | Props/Lawless.lean |
| `C97_boolean_algebras` | p c q | Props/Clients.lean |
| `C97_builds` | p c q | Props/Clients.lean |
| `C97_caught` | p q | Props/Clients.lean |
| `C97_fields` | p c q | Props/Clients.lean |
| `C97_follows_boolean_algebras` | p q | Props/Clients.lean |
| `C97_follows_euclidean` | p q | Props/Clients.lean |
| `C97_follows_fields` | p q | Props/Clients.lean |
| `C97_follows_groups` | p q | Props/Clients.lean |
| `C97_follows_rings` | p q | Props/Clients.lean |
| `C97_groups` | p c q | Props/Clients.lean |
| `C97_indistinguishable` | p c q | Props/Clients.lean |
| `C97_machine_integers` | p c q | Props/Clients.lean |
| `C97_residues` | p c q | Props/Clients.lean |
| `C97_rings` | p c q | Props/Clients.lean |
| `C97_same_field` | p q | Props/Clients.lean |
| `C97_states_boolean_algebras` | p | Props/Clients.lean |
| `C97_states_euclidean` | p | Props/Clients.lean |
| `C97_states_fields` | p | Props/Clients.lean |
| `C97_states_groups` | p | Props/Clients.lean |
| `C97_states_rings` | p | Props/Clients.lean |
| `C97_two_elements` | p c q | Props/Clients.lean |
| `C97_uncaught` | p q | Props/Clients.lean |
| `C98_clock_field` | p c q | Props/Charges.lean |
| `C98_clock_of_counters` | p c q | Props/Charges.lean |
| `C98_determinant_over_two_extensions` | p c q | Props/Charges.lean |
| `C98_extended_gcd` | p c q | Props/Charges.lean |
| `C98_matrices_over_residues` | p c q | Props/Charges.lean |
| `C98_matrix_product_of_residues` | p q | Props/Charges.lean |
| `C98_metered_abelian_group` | p | Props/Charges.lean |
| `C98_metered_domain` | p | Props/Charges.lean |
| `C98_metered_field` | p | Props/Charges.lean |
| `C98_metered_group` | p | Props/Charges.lean |
| `C98_metered_monoid` | p | Props/Charges.lean |
| `C98_metered_ring` | p | Props/Charges.lean |
| `C98_observed_matrices` | p q | Props/Charges.lean |
| `C98_observed_multiples` | p q | Props/Charges.lean |
| `C98_observed_polynomials` | p c q | Props/Charges.lean |
| `C98_observed_residues` | p c q | Props/Charges.lean |
| `C98_observed_vectors` | p q | Props/Charges.lean |
| `C98_outcomes_residues` | p c q | Props/Charges.lean |
| `C98_residues` | p c q | Props/Charges.lean |
| `C98_time_matrices` | p c q | Props/Charges.lean |
| `C98_time_polynomials` | p c q | Props/Charges.lean |
| `C98_tower` | p c q | Props/Charges.lean |
| `C98_two_extensions` | p c q | Props/Charges.lean |
| `C99_agreement` | p c q | Props/EuclidClients.lean |
| `C99_euclidean` | p c q | Props/EuclidClients.lean |
| `C99_extended_gcd` | p c q | Props/EuclidClients.lean |
| `C99_fields` | p c q | Props/EuclidClients.lean |
| `C99_gcd` | p c q | Props/EuclidClients.lean |
| `C99_integers` | p c q | Props/EuclidClients.lean |
| `C99_lcm` | p c q | Props/EuclidClients.lean |
| `C99_machine_integers` | p c q | Props/EuclidClients.lean |
| `C99_polynomials` | p c q | Props/EuclidClients.lean |
| `C99_provided` | p c q | Props/EuclidClients.lean |
