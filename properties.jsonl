{"id": "C01", "title": "Integer Euclidean division is exact and canonical", "statement": "For all integers n and all non-zero m, ZZ.quo_rem(n, m) returns (q, r) with n = m*q + r and 0 <= r < |m|, and this pair is the unique one; quo and rem return its components, divisible(n, m) holds iff r = 0, reduced(n, m) iff q = 0. quo_rem, quo, rem and try_div panic exactly when m = 0.", "quantifier": "every pair of arbitrary-size integers n, m", "why_tests_cant": "the operands are unbounded integers; the unit test samples -40..40", "anchors": ["src/integers.rs: Integers::quo_rem, reduced, divisible, try_div", "src/traits.rs: EuclideanDomain::quo, rem"]}
{"id": "C02", "title": "ZZ is the ring of integers", "statement": "Every ring method of ZZ (zero, one, is_zero, is_one, add, mul, neg, sub, double, square, times, int, the in-place variants, try_inv, invertible, try_div, divisible, associates, associate_repr, associate_coef) returns, without panicking, the result of the corresponding operation on the mathematical integers; associate_repr is |x| and associate_coef is the sign of x as a unit, panicking only on 0.", "quantifier": "all integers and all isize multipliers", "why_tests_cant": "unbounded operands, algebraic laws over all triples", "anchors": ["src/integers.rs: Integers", "src/traits.rs: default methods"]}
{"id": "C03", "title": "gcd terminates and is a greatest common divisor", "statement": "For every Euclidean domain whose quo_rem satisfies the division contract, gcd(a, b) terminates without panicking for all members a, b (both may be zero) and returns a member that divides both and is divisible by every common divisor. This holds in particular for ZZ and for polynomials over any field.", "quantifier": "every Euclidean domain meeting the contract, every pair of members", "why_tests_cant": "termination of a while loop over arbitrary domains; divisibility by every common divisor", "anchors": ["src/traits.rs: EuclideanDomain::gcd"]}
{"id": "C04", "title": "extended_gcd returns Bezout coefficients", "statement": "For all members a, b, extended_gcd(a, b) terminates and returns (g, x, y) with a*x + b*y = g, and g a greatest common divisor of a and b. g equals the element that the default gcd(a, b) returns; in a field, where gcd is overridden, it is only an associate of it (gcd(2, 0) is 1 but extended_gcd(2, 0) starts with 2).", "quantifier": "every Euclidean domain meeting the contract, every pair of members", "why_tests_cant": "recursion depth is unbounded; the test covers -10..10", "anchors": ["src/traits.rs: EuclideanDomain::extended_gcd"]}
{"id": "C05", "title": "lcm returns a least common multiple", "statement": "For all members a, b, lcm(a, b) is a multiple of both and divides every common multiple; it is zero iff one of them is zero. In a field the overriding lcm has the same property.", "quantifier": "every Euclidean domain or field meeting the contract, every pair of members", "why_tests_cant": "quantifies over all common multiples", "anchors": ["src/traits.rs: EuclideanDomain::lcm"]}
{"id": "C06", "title": "relative_primes decides coprimality", "statement": "relative_primes(a, b) returns true iff some members x, y satisfy a*x + b*y = 1.", "quantifier": "every Euclidean domain meeting the contract, every pair of members", "why_tests_cant": "existential over all x, y", "anchors": ["src/traits.rs: EuclideanDomain::relative_primes"]}
{"id": "C07", "title": "Associates: canonical representatives", "statement": "divisible(a, b) holds iff a is a multiple of b (0 only divides 0); associates(a, b) iff each divides the other; associate_repr(a) is an associate of a that depends only on the associate class; associate_coef(a) for a non-zero is a unit whose product with a is associate_repr(a).", "quantifier": "every integral domain of the crate (ZZ, fields, polynomials over an integral domain), all members", "why_tests_cant": "class-invariance relates all pairs of members", "anchors": ["src/traits.rs: IntegralDomain", "src/integers.rs", "src/polynomial_algebra.rs: associate_repr, associate_coef"]}
{"id": "C08", "title": "Square-and-multiply computes powers in every group", "statement": "For every group G of the crate, every member x and every isize n other than isize::MIN, power(n, x) returns x^n (the inverse of x^|n| for negative n) and does not panic.", "quantifier": "every group meeting the contract, every member, every isize exponent except MIN", "why_tests_cant": "2^64 exponents and arbitrary groups", "anchors": ["src/traits.rs: Group::power", "src/additive_group.rs", "src/multiplicative_group.rs"]}
{"id": "C09", "title": "power and times at isize::MIN", "statement": "The default power(isize::MIN, x) never returns x^(isize::MIN) by computation: with overflow checks it panics in the negation, and without overflow checks it returns the identity of the group, whatever x is. The same holds for the default AbelianGroup::times(isize::MIN, x), with zero for the identity, and for Field::power(isize::MIN, x) with x nonzero.", "quantifier": "every group, every member, both overflow-check settings", "why_tests_cant": "the behaviour depends on the build profile and on a single exponent no test uses", "anchors": ["src/traits.rs: Group::power (num = -num)"]}
{"id": "C10", "title": "times computes integer multiples", "statement": "For every commutative monoid meeting the contract and every usize n, CommuntativeMonoid::times(n, x) is the n-fold sum of x; for every abelian group and every isize n other than MIN, AbelianGroup::times(n, x) is n*x, with n*x = -(|n|*x) for negative n; UnitaryRing::int(n) is n*1.", "quantifier": "every structure meeting the contract, every multiplier, every member", "why_tests_cant": "2^64 multipliers and arbitrary structures", "anchors": ["src/traits.rs: CommuntativeMonoid::times, AbelianGroup::times, UnitaryRing::int"]}
{"id": "C11", "title": "Checked integers never return a wrong value", "statement": "For every signed width, every method of CheckedInts either panics or returns exactly the value the same method of ZZ returns for the same operands; gcd and extended_gcd terminate. No wrapped value is ever returned, with or without overflow checks.", "quantifier": "every width, all operands, both overflow-check settings", "why_tests_cant": "2^128 operand pairs for i64, and release/debug builds", "anchors": ["src/checked_ints.rs: CheckedInts", "src/traits.rs: default methods"]}
{"id": "C12", "title": "Checked add, sub, mul and neg panic exactly on overflow", "statement": "I8/I16/I32/I64 add, sub, mul and neg return the mathematical result when it is representable in the primitive type and panic exactly when it is not. quo_rem panics exactly when the divisor is zero or the quotient is not representable (MIN / -1), and its internal unchecked arithmetic never overflows.", "quantifier": "every width, all operand pairs, both overflow-check settings", "why_tests_cant": "boundary exactness over all pairs", "anchors": ["src/checked_ints.rs: add, sub, mul, neg, quo_rem"]}
{"id": "C13", "title": "Checked divisibility at MIN / -1", "statement": "CheckedInts::divisible, try_div and rem panic on (MIN, -1) although the answers true and 0 are representable; for every other operand pair (with non-zero divisor where required) divisible, rem and reduced return the mathematically correct answer and never panic.", "quantifier": "every width, all operand pairs", "why_tests_cant": "one pair out of 2^128 behaves differently", "anchors": ["src/checked_ints.rs: try_div, quo_rem, reduced", "src/traits.rs: IntegralDomain::divisible"]}
{"id": "C14", "title": "Checked AbelianGroup::times and int", "statement": "CheckedInts: AbelianGroup::times(n, x) panics iff n itself is not representable in the primitive type or the product is not; in particular it panics for some representable products (times(200, 0) in I8). int(n) returns n iff n is representable and otherwise panics.", "quantifier": "every width, every isize n, every element", "why_tests_cant": "all multipliers and elements", "anchors": ["src/checked_ints.rs: times", "src/traits.rs: UnitaryRing::int"]}
{"id": "C15", "title": "Checked CommuntativeMonoid::times doubles once too often", "statement": "For CheckedInts and CheckedUints, CommuntativeMonoid::times(n, x) either panics or returns n*x; it panics iff n > 0 and 2^bitlength(n) * x is not representable, so it panics on representable results such as U8.times(1, 200).", "quantifier": "every width, every usize n, every element", "why_tests_cant": "panic condition depends on bit length for all 2^64 multipliers", "anchors": ["src/traits.rs: CommuntativeMonoid::times", "src/checked_uints.rs", "src/checked_ints.rs"]}
{"id": "C16", "title": "Checked naturals are exact", "statement": "U8..U64: add and mul return the mathematical result when representable and panic exactly when not; zero, one, is_zero, is_one, try_inv, invertible, leq, meet and join are those of the natural numbers.", "quantifier": "every unsigned width, all operands", "why_tests_cant": "boundary exactness over all pairs", "anchors": ["src/checked_uints.rs"]}
{"id": "C17", "title": "Checked extended_gcd does not overflow", "statement": "CheckedInts::extended_gcd(a, b) and gcd(a, b) return without panicking (the first one the Bezout coefficients) for all representable a, b other than (MIN, -1), where both panic; no intermediate product or difference overflows.", "quantifier": "every width, all pairs of representable operands", "why_tests_cant": "needs a bound on the coefficients of every run of the algorithm", "anchors": ["src/traits.rs: EuclideanDomain::extended_gcd", "src/checked_ints.rs"]}
{"id": "C18", "title": "QuotientRing is the factor ring", "statement": "For a Euclidean domain R meeting the contract and a non-zero non-unit modulus m, QuotientRing::new(R, m) implements R/(m): every residue class has exactly one member (the reduced elements), and zero, one, add, mul, neg, sub, times, int and the predicates return, without panicking, the reduced representative of the result in the factor ring.", "quantifier": "every base domain with canonical remainders (congruent elements have the same remainder and one is reduced modulo non-units, as in ZZ, machine integers, fields and polynomials over fields), every non-zero non-unit modulus, all members", "why_tests_cant": "well-definedness and ring laws over all triples and all moduli", "anchors": ["src/quotient_ring.rs: QuotientRing"]}
{"id": "C19", "title": "QuotientRing::try_inv finds the inverse exactly for units", "statement": "For members a of a quotient ring by a non-zero non-unit m: try_inv(a) returns Some(b) with b a member and a*b = 1 in the factor ring when a is a unit there, and None otherwise; invertible agrees.", "quantifier": "every base domain with canonical remainders as in C18, every such modulus and member", "why_tests_cant": "None must be returned for exactly the non-units of every factor ring", "anchors": ["src/quotient_ring.rs: try_inv"]}
{"id": "C20", "title": "QuotientRing with zero or unit modulus", "statement": "QuotientRing::new accepts a zero modulus, for which add, mul and neg panic on all members of the base; it accepts a unit modulus, for which its own one() is not a member (contains returns false). Over any base, new returns exactly if the base contains the modulus.", "quantifier": "every base domain with canonical remainders as in C18, zero or unit modulus, all members of the base", "why_tests_cant": "all operands for degenerate moduli", "anchors": ["src/quotient_ring.rs: new, one, contains"]}
{"id": "C21", "title": "QuotientField is a field for irreducible moduli", "statement": "If m is irreducible, QuotientField::new(R, m) implements the field R/(m): add, mul, neg, div, inv, power, and all methods it has as a Euclidean domain return the correct reduced representative; inv and div panic on zero and only on zero.", "quantifier": "every base domain with canonical remainders as in C18, every irreducible modulus, all members", "why_tests_cant": "unbounded moduli and members", "anchors": ["src/quotient_field.rs: QuotientField"]}
{"id": "C22", "title": "QuotientField::new does not reject the trivial modulus", "statement": "The check in QuotientField::new compares rem(1, 1) with zero, so it succeeds for every modulus contained in the base: modulus 1 (and 0) are accepted; with modulus 1, one() is not contained, and inv of a non-zero member cannot occur since zero is the only member. Over any base, new returns exactly if the base contains the modulus and finds rem(1, 1) to be zero.", "quantifier": "every modulus", "why_tests_cant": "the assertion must be shown ineffective for all moduli", "anchors": ["src/quotient_field.rs: new"]}
{"id": "C23", "title": "Quotient contains ignores the base domain's membership", "statement": "QuotientRing and QuotientField contains(e) return true for some objects that are not members of the base, for example the non-canonical polynomial [1, 0] modulo a quadratic, which is distinct under equals from the member [1] it denotes. For objects that are members of the base, contains is exact.", "quantifier": "every base domain with canonical remainders as in C18, every modulus and object", "why_tests_cant": "exactness on all base members, plus a witness outside", "anchors": ["src/quotient_ring.rs: contains", "src/quotient_field.rs: contains", "src/polynomial_algebra.rs: quo_rem"]}
{"id": "C24", "title": "Prime fields over machine integers never overflow for small primes", "statement": "For every signed width and prime p with (p-1)^2 <= MAX (and 2 <= MAX), all field operations of QuotientField(CheckedInts, p) on members, including inv, return the correct residue without panicking. In particular the constants GF2 and GF3 are the fields with 2 and 3 elements.", "quantifier": "every width, every prime satisfying the bound, all members", "why_tests_cant": "all primes below the bound and all operand pairs, including the intermediate values of extended_gcd", "anchors": ["src/quotient_field.rs: GF2, GF3, QuotientField", "src/checked_ints.rs"]}
{"id": "C25", "title": "Finite fields GF(p^k) as polynomial quotients", "statement": "For a prime p and a polynomial f irreducible over GF(p), QuotientField(PolynomialAlgebra(QuotientField(I, p)), f) implements the field GF(p)[x]/(f), for I = ZZ and for machine integers with (p-1)^2 <= MAX, without any panic other than inverting zero.", "quantifier": "every prime, every irreducible polynomial, all members", "why_tests_cant": "infinitely many fields, composed from three generic layers", "anchors": ["src/quotient_field.rs", "src/polynomial_algebra.rs", "src/checked_ints.rs"]}
{"id": "C26", "title": "ReducedFractions is the fraction field", "statement": "For a Euclidean domain R meeting the contract, ReducedFractions::new(R) implements the field of fractions of R: results of add, neg, sub, mul, inv, div, times, int are the correct fractions, in lowest terms with normalised denominator; equals decides equality of fractions; QQ is the field of rationals. Over any base, new returns exactly if the base finds one not to be zero.", "quantifier": "every base domain, all members", "why_tests_cant": "canonical form must be restored by every operation on all members", "anchors": ["src/reduced_fractions.rs: ReducedFractions, QQ"]}
{"id": "C27", "title": "reduce normalises arbitrary ratios", "statement": "ReducedFractions::reduce(n/d) for any base members n, d with d non-zero returns the unique canonical ratio equal to n/d as a fraction; it panics when d is zero. Two ratios with cross-equal products reduce to objects that equals finds equal.", "quantifier": "every base domain, all n and all non-zero d", "why_tests_cant": "relates all pairs of equivalent ratios", "anchors": ["src/reduced_fractions.rs: reduce"]}
{"id": "C28", "title": "ReducedFractions::contains", "statement": "For base members n and d with d non-zero, contains(n/d) holds iff n and d are relatively prime and d is its own associate representative. With d = 0, contains returns false if n is not a unit but panics if n is a unit.", "quantifier": "every base domain, all ratios", "why_tests_cant": "exactness over all ratios including zero denominators", "anchors": ["src/reduced_fractions.rs: contains"]}
{"id": "C29", "title": "Polynomial group operations keep the canonical form", "statement": "For every abelian group base, add, neg, sub, double and times on canonical coefficient vectors return the canonical vector of the coefficient-wise result (the last coefficient is non-zero, also after cancellation of leading terms).", "quantifier": "every base group, all polynomials of any degree, every multiplier", "why_tests_cant": "cancellation of any number of leading coefficients at any degree", "anchors": ["src/polynomial_algebra.rs: add, neg, times"]}
{"id": "C30", "title": "Polynomial multiplication over an integral domain", "statement": "For a base ring without zero divisors, mul of canonical vectors returns the canonical vector of the polynomial product; degree is additive and zero annihilates.", "quantifier": "every base ring without zero divisors, all polynomials", "why_tests_cant": "all degrees and coefficients", "anchors": ["src/polynomial_algebra.rs: mul, degree"]}
{"id": "C31", "title": "Polynomial multiplication over rings with zero divisors", "statement": "For every base ring the coefficients returned by mul are those of the product polynomial, but with zero divisors the returned vector may have a zero leading coefficient, and then contains rejects it (for instance 2*2 over Z/4).", "quantifier": "every base ring, all polynomials", "why_tests_cant": "value correctness for all inputs with a witness of non-canonicity", "anchors": ["src/polynomial_algebra.rs: mul, contains"]}
{"id": "C32", "title": "Polynomial try_inv", "statement": "Over an integral domain, try_inv(f) returns the inverse iff f is a unit of the polynomial ring. Over rings with nilpotents it returns None for some units (1+2x over Z/4), so invertible is wrong there.", "quantifier": "every base integral domain, all polynomials", "why_tests_cant": "non-units of every degree", "anchors": ["src/polynomial_algebra.rs: try_inv"]}
{"id": "C33", "title": "Polynomial exact division over an integral domain", "statement": "For every integral domain base and all canonical f, g with g non-zero, try_div(f, g) returns Some(q) with q canonical and f = g*q iff g divides f, and None otherwise; it panics iff g is zero.", "quantifier": "every integral domain base, all polynomials", "why_tests_cant": "all degrees; None must be exact", "anchors": ["src/polynomial_algebra.rs: try_div"]}
{"id": "C34", "title": "Polynomial division with remainder over a field", "statement": "For every field base and canonical f, g with g non-zero, quo_rem(f, g) returns canonical q, r with f = g*q + r and deg r < deg g; it panics when g is zero. gcd, extended_gcd, lcm and reduced built on it are correct.", "quantifier": "every field base, all polynomials", "why_tests_cant": "all degrees and fields", "anchors": ["src/polynomial_algebra.rs: quo_rem"]}
{"id": "C35", "title": "Polynomials have unique representations", "statement": "If base contains and equals are exact, contains(v) holds iff all coefficients are members and the last one (if any) is non-zero; every polynomial has a canonical vector; equals(v, w) of canonical vectors holds iff they denote the same polynomial; degree and leading_coef are the degree and leading coefficient, None for zero.", "quantifier": "every base, all vectors", "why_tests_cant": "bijection between infinite sets", "anchors": ["src/polynomial_algebra.rs: contains, equals, degree, leading_coef"]}
{"id": "C36", "title": "VectorAlgebra is the direct power", "statement": "For every base structure and length n, the ring, group and monoid methods of VectorAlgebra act coordinate-wise: the result on members is the vector of base results; try_inv is Some iff every coordinate is invertible; is_zero and is_one hold iff all coordinates are.", "quantifier": "every base, every length, all vectors", "why_tests_cant": "unbounded length", "anchors": ["src/vector_algebra.rs"]}
{"id": "C37", "title": "Boolean algebras as powers of the two-element algebra", "statement": "VectorAlgebra(BB, n) is the boolean algebra of subsets of n points: leq, meet, join, not, max and min are inclusion, intersection, union, complement, the full and the empty set, and the lattice is distributive and complemented. The same holds coordinate-wise for every base lattice.", "quantifier": "every n, all vectors", "why_tests_cant": "2^n elements for every n", "anchors": ["src/vector_algebra.rs: PartialOrder, Lattice, BooleanAlgebra", "src/two_element_algebra.rs"]}
{"id": "C38", "title": "Length mismatches are rejected", "statement": "Every binary or unary VectorAlgebra and MatrixRing operation that takes elements (equals, add, sub, mul, leq, meet, ...) panics if an operand does not have the algebra's length, and contains returns false, whatever the base. (MatrixRing::is_one computes the identity first, so it never returns. The inherited loops of times and power check the length only when they use the operand: with zero they return the neutral element for every vector, with other numbers they never return for vectors of the wrong length. The exceptions determinant, invertible and try_inv of MatrixRing are the subject of C58.)", "quantifier": "every base, every length, all vectors of wrong length", "why_tests_cant": "all wrong lengths and all bases", "anchors": ["src/vector_algebra.rs", "src/matrix_ring.rs"]}
{"id": "C39", "title": "Matrix ring operations", "statement": "MatrixRing(K, n) implements the ring of n by n matrices over the field K: add, neg, sub, mul, zero, one, int, times, is_one, equals and transpose are the matrix operations on row-major vectors, for every n including 0.", "quantifier": "every field, every size, all matrices", "why_tests_cant": "unbounded size", "anchors": ["src/matrix_ring.rs"]}
{"id": "C40", "title": "Matrix inversion", "statement": "try_inv(M) returns Some of the two-sided inverse iff M is invertible and None otherwise; invertible(M) agrees; the debug assertion at the end never fails; no panic occurs on members.", "quantifier": "every field, every size, all matrices", "why_tests_cant": "Gauss-Jordan elimination over all sizes and fields, with pivoting", "anchors": ["src/matrix_ring.rs: try_inv, invertible, find_row, swap_rows, add_rows, mul_row"]}
{"id": "C41", "title": "Matrix determinant up to sign", "statement": "determinant(M) returns det(M) up to sign: it is zero iff det(M) = 0, and it equals det(M) whenever elimination needs no row swap, that is if the proper leading principal minors are nonzero, and in characteristic two. In general it is det(M) times the sign of the permutation of the rows made by elimination with the first possible pivots, which the minors of M determine; so outside characteristic two it is right exactly if det(M) = 0 or the number of row swaps is even. The full claim, determinant(M) = det(M), is false: row swaps do not negate the result, e.g. for [[0,1],[1,0]] it returns 1 instead of -1.", "quantifier": "every field, every size, all matrices", "why_tests_cant": "all sizes and pivoting patterns", "anchors": ["src/matrix_ring.rs: determinant"]}
{"id": "C42", "title": "Permutations form the symmetric group", "statement": "Permutations::new(n): members are exactly the permutations of 0..n; mul(a, b) maps i to b[a[i]], one is the identity, try_inv and inv return the inverse, is_one and equals are exact, power works for every exponent except MIN; no panic on members.", "quantifier": "every u32 size, all permutations", "why_tests_cant": "n! elements for every n", "anchors": ["src/permutations.rs"]}
{"id": "C43", "title": "Permutations::contains", "statement": "For vectors whose entries are all below size, contains(v) returns true iff v is a permutation and false otherwise; but for a vector of the right length having an entry >= size it does not return true, and it panics with an index out of bounds unless an earlier entry repeats.", "quantifier": "every size, all vectors", "why_tests_cant": "all vectors including out-of-range ones", "anchors": ["src/permutations.rs: contains"]}
{"id": "C44", "title": "MultiplicativeGroup is the group of units", "statement": "For every monoid meeting the contract, MultiplicativeGroup(base) on members of the base: contains holds iff the element is invertible; mul, one, inv, try_inv and power are those of the group of units, and never panic on units. Since contains never consults base.contains, it accepts non-members of the base (3 in the units of GF3), for which inv panics.", "quantifier": "every base monoid, all members", "why_tests_cant": "all bases", "anchors": ["src/multiplicative_group.rs"]}
{"id": "C45", "title": "AdditiveGroup is the additive group", "statement": "For every abelian group meeting the contract, AdditiveGroup(base) is that group in multiplicative notation: mul, one, inv, square, power(n, x) correspond to add, zero, neg, double and n*x; every element is invertible.", "quantifier": "every base group, all members, all exponents other than isize::MIN", "why_tests_cant": "all bases", "anchors": ["src/additive_group.rs"]}
{"id": "C46", "title": "The two-element algebra is a field and a boolean algebra", "statement": "BB is the field with two elements under xor and and (including times, int, inv, div and the Euclidean methods) and the two-element boolean algebra under or, and, not.", "quantifier": "all elements and all multipliers", "why_tests_cant": "multipliers range over all isize values", "anchors": ["src/two_element_algebra.rs"]}
{"id": "C47", "title": "Field powers", "statement": "For every field and non-zero x and isize n other than MIN, Field::power(n, x) = x^n. For x = 0 the result is 0 for every n, which is x^n only for n > 0: power(0, 0) returns 0 instead of 1, and negative powers of zero return 0 instead of panicking. TwoElementAlgebra behaves alike.", "quantifier": "every field, all members, all exponents other than isize::MIN", "why_tests_cant": "all exponents and fields", "anchors": ["src/traits.rs: Field::power", "src/two_element_algebra.rs: power"]}
{"id": "C48", "title": "DivisibilityOrder is a bounded distributive lattice", "statement": "For a Euclidean domain meeting the contract, on members (canonical representatives of associate classes): leq is the divisibility partial order, meet is the greatest lower bound (gcd), join the least upper bound (lcm), both canonical; min is one, max is zero; meet and join distribute over each other.", "quantifier": "every Euclidean base, all members", "why_tests_cant": "lattice laws over all triples", "anchors": ["src/divisibility_order.rs"]}
{"id": "C49", "title": "DivisibilityOrder::contains", "statement": "For base members e, contains(e) holds iff e is zero or is its own associate representative; each associate class has exactly one member, so leq is antisymmetric on members.", "quantifier": "every integral domain base, all members", "why_tests_cant": "uniqueness in every associate class", "anchors": ["src/divisibility_order.rs: contains, leq"]}
{"id": "C50", "title": "Total orders and their lattices", "statement": "For ZZ, NN, CheckedInts and CheckedUints, leq, less_than, comparable, meet and join are <=, <, true, minimum and maximum; meet and join are greatest lower and least upper bounds and distribute over each other, and none of them panics.", "quantifier": "all elements", "why_tests_cant": "laws over all triples of unbounded values", "anchors": ["src/integers.rs", "src/naturals.rs", "src/checked_ints.rs", "src/checked_uints.rs"]}
{"id": "C51", "title": "NN is the semiring of naturals", "statement": "Every semiring method of NN returns the result of the corresponding operation on natural numbers without panicking; only 1 is invertible.", "quantifier": "all naturals, all multipliers", "why_tests_cant": "unbounded values", "anchors": ["src/naturals.rs"]}
{"id": "C52", "title": "Fields are Euclidean domains", "statement": "For every field meeting the contract the blanket IntegralDomain and EuclideanDomain methods satisfy the Euclidean contract: quo_rem(a, b) = (a/b, 0), gcd is 0 or 1, lcm is 0 or 1, divisible, associates, reduced, extended_gcd and relative_primes are correct; division by zero panics.", "quantifier": "every field, all members", "why_tests_cant": "all fields", "anchors": ["src/traits.rs: impl IntegralDomain for A: Field, impl EuclideanDomain for A: Field"]}
{"id": "C53", "title": "In-place methods agree with the pure ones", "statement": "For every structure of the crate mul_assign, square, add_assign, double, neg_assign and sub_assign leave in the first operand the same object that mul, mul(x,x), add, add(x,x), neg and sub return, and panic exactly when those do: for ZZ, NN, machine integers, floats and the two-element algebra on all objects, for permutations on members; for vectors, matrices, additive and multiplicative groups on all objects whenever it holds in the base; for quotients and polynomials on all objects whenever add of the base commutes; for fractions whenever add and mul of the base commute and equals is equality of objects. The one exception is CheckedInts, where sub_assign(a, b) panics for b = MIN and every a although sub(a, MIN) returns a - MIN for negative a; vectors of them inherit it.", "quantifier": "every structure, all objects", "why_tests_cant": "separately implemented overrides in several structures, all operands", "anchors": ["src/traits.rs", "src/vector_algebra.rs", "src/permutations.rs", "src/two_element_algebra.rs", "src/matrix_ring.rs"]}
{"id": "C54", "title": "less_than and comparable", "statement": "For every partial order meeting the contract less_than(a, b) holds iff a <= b and a is not equal to b, comparable(a, b) iff a <= b or b <= a; the overrides in TwoElementAlgebra agree.", "quantifier": "every partial order, all members", "why_tests_cant": "all orders", "anchors": ["src/traits.rs: PartialOrder", "src/two_element_algebra.rs"]}
{"id": "C55", "title": "Approximate floats: operations round correctly or panic", "statement": "For every IEEE 754 binary format (f32 and f64 in particular) ApproxFloats::contains holds exactly for the finite values; add, sub, mul, div and inv (and the in-place variants) on finite operands return the value of the format nearest to the exact result, ties to even, and panic exactly if that overflows or the divisor is zero; neg is exact; try_inv never panics and returns None exactly for zero and overflowing inverses; no operand whatever makes these methods return NaN or an infinity. sub(a, b) is zero iff a equals b, add and mul commute literally, rounding, add, sub (antitone in the second operand), mul by nonnegative numbers, div by positive ones are monotone and inv is antitone on positive numbers, leq/meet/join form a totally ordered lattice. Addition is not associative and products of nonzero values can be zero, so the field laws hold only up to rounding. F32 has all integers up to 2^24 but not 2^24 + 1, largest number (2 - 2^-23) * 2^127, least positive number 2^-149 and 1 + 2^-23 as the least number above one; F64 has 2^53, (2 - 2^-52) * 2^1023, 2^-1074 and 1 + 2^-52.", "quantifier": "every binary format, all finite operands (closure: all operands)", "why_tests_cant": "2^128 operand pairs", "anchors": ["src/approx_floats.rs"]}
{"id": "C56", "title": "ApproxFloats::times can return a non-member", "statement": "AbelianGroup::times of ApproxFloats does not check its result: it never panics, and for finite operands whose (rounded) product overflows it returns an infinity, for which contains is false, instead of panicking as documented; otherwise it is the rounded product of the rounded multiplier, and int(n) is exact if n is a number of the format. CommuntativeMonoid::times(1, x) on the other hand panics if 2x overflows although the answer is x.", "quantifier": "every binary format, all multipliers and finite values", "why_tests_cant": "the overflow condition ranges over all operands", "anchors": ["src/approx_floats.rs: times", "src/traits.rs: CommuntativeMonoid::times, UnitaryRing::int"]}
{"id": "C57", "title": "Fraction fields over machine integers never return a wrong value", "statement": "ReducedFractions(CheckedInts), and PolynomialAlgebra, MatrixRing and VectorAlgebra over it, either panic or return the correct canonical result over the rationals (a determinant up to the sign, as over QQ), and so do vectors and the divisibility order of CheckedInts over the integers: overflow of numerators or denominators can never surface as a wrong value.", "quantifier": "every width, all members, all operations", "why_tests_cant": "composition of layers with overflow at any intermediate point", "anchors": ["src/reduced_fractions.rs", "src/checked_ints.rs", "src/matrix_ring.rs", "src/polynomial_algebra.rs"]}
{"id": "C58", "title": "determinant and try_inv do not check lengths", "statement": "MatrixRing::determinant on a vector longer than size*size ignores the surplus entries instead of panicking; and MultiplicativeGroup(MatrixRing).contains therefore accepts such vectors although base.contains rejects them. On such a vector starting with an invertible matrix try_inv panics if debug assertions are on and returns the inverse of the matrix otherwise.", "quantifier": "every field and size, all over-long vectors", "why_tests_cant": "all sizes and surplus lengths", "anchors": ["src/matrix_ring.rs: determinant, invertible", "src/multiplicative_group.rs: contains"]}
{"id": "C59", "title": "The finite fields of the crate's tests", "statement": "QuotientField::new(PolynomialAlgebra::new(QuotientField::new(I32, 2)), 1 + x + x^3 + x^4 + x^8) is a field with exactly 256 elements, its members are the vectors of at most eight zeros and ones not ending in zero, no operation on members overflows or panics (division by zero aside), and 1 + x generates its multiplicative group: it has order 255 and its powers are all nonzero elements. QuotientField::new(I32, 1721) is the field with 1721 elements.", "quantifier": "all members and all operations of the two fields", "why_tests_cant": "the tests check one sequence of products and the inverses; all 65536 operand pairs of every operation, associativity and distributivity over all triples are not", "anchors": ["src/polynomial_algebra.rs: tests::field_256", "src/quotient_field.rs: tests::field_1721", "src/quotient_field.rs", "src/checked_ints.rs"]}
{"id": "C60", "title": "Operands that are not reduced", "statement": "The methods of QuotientRing, QuotientField and ReducedFractions do not require reduced operands: for arbitrary members of the base (nonzero denominators) add, mul, neg, sub and try_inv of quotients, and add, mul, sub, times and try_inv of fractions, return the reduced representative of the exact result. But equals, is_zero and is_one compare the objects, so that 1 and 13 differ modulo 12; QuotientField takes a nonzero multiple of its modulus for invertible, and inv and try_inv panic on it; neg of fractions keeps the denominator and inv swaps the components up to a unit, so they keep common factors.", "quantifier": "every Euclidean domain and modulus (for quotients with canonical remainders as in C18), all base members", "why_tests_cant": "tests use reduced operands only", "anchors": ["src/quotient_ring.rs", "src/quotient_field.rs", "src/reduced_fractions.rs"]}
{"id": "C61", "title": "Sizes of the finite structures", "statement": "QuotientRing(ZZ, n) and QuotientRing(I*, n) have exactly n members, of which Euler's phi(n) are invertible. MatrixRing over the field QuotientField(I*, p) with p elements has p^(n*n) members for size n, of which the product of p^n - p^i over i < n are invertible. Permutations(n) has n! members, the vectors of n booleans 2^n.", "quantifier": "all moduli from 2 on, primes, sizes and (for machine integers) widths in which products of residues fit", "why_tests_cant": "the tests enumerate a single structure of each kind (480, 48 and 24 members)", "anchors": ["src/quotient_ring.rs: contains, try_inv", "src/matrix_ring.rs: contains, invertible", "src/permutations.rs: contains", "src/vector_algebra.rs: contains"]}
{"id": "C62", "title": "Number of steps of gcd and depth of extended_gcd", "statement": "Over ZZ gcd(a, b) with 0 <= b < F(k), the k-th Fibonacci number, evaluates its loop condition at most k - 1 times and extended_gcd nests at most k - 1 calls, whatever a is; a negative b costs at most one more, and consecutive Fibonacci numbers attain the bound. On machine integers of w bits at most 2w - 1 calls are nested (12, 24, 47 and 93 for i8, i16, i32 and i64), on polynomials over a field at most one more than the second operand has coefficients, and in a field at most two.", "quantifier": "all operands", "why_tests_cant": "the number of steps is unbounded over all operands", "anchors": ["src/traits.rs: EuclideanDomain::gcd, EuclideanDomain::extended_gcd", "src/integers.rs", "src/checked_ints.rs", "src/polynomial_algebra.rs"]}
{"id": "C63", "title": "Number of steps of times and power", "statement": "The loops of CommuntativeMonoid::times and Group::power run once for each binary digit of the multiplier or exponent, so never more often than a pointer has bits; power inverts its base at most once, and does so only for a negative exponent.", "quantifier": "all structures, all multipliers and exponents", "why_tests_cant": "all exponents", "anchors": ["src/traits.rs: CommuntativeMonoid::times, Group::power"]}
{"id": "C64", "title": "The documented laws hold on objects", "statement": "The axioms named in the documentation of the traits (equals is an equivalence relation compatible with the operations, associativity, neutral and inverse elements, distributivity, unique exact division, canonical associates, Euclidean division, gcd, lcm and extended_gcd, order, lattice and Boolean laws), stated with the methods of the traits alone, hold on all members of every algebra of the crate: of the basic ones (of floats only the order and lattice laws, see C55 and C74), and of vectors, matrices, polynomials (over rings without zero divisors), groups, quotients (by non-units, with canonical remainders as in C18; fields for irreducible moduli), fractions, extension fields and rational functions whenever they hold in the base. On machine integers they hold whenever both sides return. For rings, fields, groups and lattices the laws are equivalent to the contracts used in the other properties.", "quantifier": "all members, all algebras of the crate and all towers of them", "why_tests_cant": "laws with three free operands over infinite domains and arbitrary base algebras", "anchors": ["src/traits.rs", "src/vector_algebra.rs", "src/matrix_ring.rs", "src/polynomial_algebra.rs", "src/quotient_ring.rs", "src/quotient_field.rs", "src/reduced_fractions.rs"]}
{"id": "C65", "title": "Exactly which operands overflow in polynomials, vectors, matrices and fractions over machine integers", "statement": "Over CheckedInts of any width each of the following returns the exact result if the stated integers are representable and panics otherwise. Polynomials: add and neg the coefficients of the result; sub also those of the negated second operand; times the factor and the coefficients, the zero polynomial always being returned; mul all products of coefficients and all partial sums over the first coefficients of the first operand, so that swapping the operands can change the outcome; try_div (by a polynomial other than zero) returns the quotient if there is one and for each of its coefficients, from the highest down, it, its negative, the products of the negative with the lower coefficients of the divisor and what is left of the dividend are representable, returns None if it finds that there is none before it meets a number that is not representable, and otherwise panics, so that division by one panics on the least integer as a coefficient; divisible (by a polynomial other than zero) panics in the same cases; associate_repr the coefficients of the result. Vectors: the coordinates of the result. Vectors and matrices of fractions: add, sub, neg (and mul of vectors) if the operation is possible for each coordinate or entry, with the conditions on fractions below; mul of matrices if for each entry every product, and every addition of a product to the sum of those before it, is possible; matrices of integers if no sum of absolute values of products reaches 2^(w-1). Polynomials of fractions: add, sub, neg if the operation is possible for each coefficient; times the factor and its products with the numerators, the zero polynomial always being returned; mul if every product of two coefficients, and every addition of a product to the sum of those before it that belong to the same power, is possible. Reduced fractions: mul the products of numerators and of denominators before reduction; add the sum of the numerators for equal denominators and otherwise the cross products, their sum and the product of the denominators; sub also the negated second numerator; times the factor and its product with the numerator; inv (of nonzero fractions) and try_inv the negated numerator, so that they panic exactly on the least integer as numerator; div, try_div, quo and quo_rem (by nonzero fractions) the negated second numerator and the products with the inverse. Simple bounds on the operands under which nothing overflows follow. For n by n matrices of integers over the fractions, determinant does not overflow if all minors are at most H and try_inv if also those of the matrix next to the identity matrix are, where 2*H^3 is below 2^(w-1): they then return the determinant up to sign, the inverse, or None for a singular matrix; for entries at most b this holds with H = n!*b^n.", "quantifier": "every width, all members", "why_tests_cant": "the sets of overflowing operands depend on intermediate results and have about 2^(w-1) boundary points per coefficient", "anchors": ["src/polynomial_algebra.rs", "src/vector_algebra.rs", "src/matrix_ring.rs", "src/reduced_fractions.rs", "src/checked_ints.rs"]}
{"id": "C66", "title": "Permutations on vectors that are not permutations", "statement": "On arbitrary vectors: mul panics exactly if debug assertions are on and a length differs from the size, the first vector is longer than the size, or one of its entries is not an index of the second; otherwise entry i is v[u[i]], and the result is padded with zeros up to the size. mul_assign does the same without the padding and without the bound on the length, so that the two differ in builds without debug assertions. is_one compares only the entries present (the empty vector is the identity there). try_inv (and inv) panics exactly if the debug assertion fails or an entry is not below the size, never returns None, and stores the last place of each value and zero elsewhere: for a map that is not bijective it returns Some although contains is false and no vector multiplies it to the identity on either side. equals never panics and invertible is always true. On arbitrary maps of 0..n to itself mul is composition.", "quantifier": "every build configuration, size and all vectors of u32", "why_tests_cant": "all vectors; behaviour differs between build profiles", "anchors": ["src/permutations.rs"]}
{"id": "C67", "title": "Structures compute on corresponding bases alike", "statement": "If one implementation of a trait follows another (whenever a method of the first returns, the same method of the second returns a corresponding value for corresponding operands), then the vectors, matrices, determinants, polynomials, quotient rings and fields, fractions, additive and multiplicative groups and divisibility orders built over the first, and their constructors with runtime checks, follow those built over the second, on all objects and not only on members. No structure of the crate looks at its base except through the methods of the traits.", "quantifier": "all pairs of bases and relations between them, all objects, all towers", "why_tests_cant": "quantifies over pairs of implementations", "anchors": ["src/traits.rs", "src/vector_algebra.rs", "src/matrix_ring.rs", "src/polynomial_algebra.rs", "src/quotient_ring.rs", "src/quotient_field.rs", "src/reduced_fractions.rs", "src/additive_group.rs", "src/multiplicative_group.rs", "src/divisibility_order.rs"]}
{"id": "C68", "title": "Whatever machine integers return is what ZZ returns", "statement": "Every value returned by a method of CheckedInts of any width (of CheckedUints), or of vectors, polynomials, fractions, matrices and determinants of fractions, residue rings and fields, extension fields, groups and divisibility orders built over it, is the value returned by the same method over ZZ (NN): overflow only ever shows as a panic, never as a wrong result, for all objects and not only for members.", "quantifier": "every width, all objects", "why_tests_cant": "all 2^w operands per argument in every structure", "anchors": ["src/checked_ints.rs", "src/checked_uints.rs", "src/integers.rs", "src/naturals.rs"]}
{"id": "C69", "title": "Build profiles differ only in panics", "statement": "For two builds for the same target of which the second omits some of the checks (overflow-checks, debug-assertions) of the first: every value returned by the first build is returned by the second, for permutations, floating-point numbers, machine integers, ZZ, the two-element field and all structures over them, on all objects. ZZ, machine integers and the two-element field do not depend on the build at all.", "quantifier": "all pairs of configurations, all objects", "why_tests_cant": "tests run in one build profile", "anchors": ["src/traits.rs: Group::power, AbelianGroup::times", "src/permutations.rs: debug_assert", "src/approx_floats.rs", "src/checked_ints.rs"]}
{"id": "C70", "title": "Wider machine integers only remove panics", "statement": "For widths w <= v every value returned by a method of CheckedInts (CheckedUints) of w bits is returned by the same method at v bits on the same values, also for fractions, matrices of fractions, polynomials and residues over them.", "quantifier": "all pairs of widths, all objects", "why_tests_cant": "all operands at all widths", "anchors": ["src/checked_ints.rs", "src/checked_uints.rs"]}
{"id": "C71", "title": "Values of gcd and lcm with their signs, and the smallest Bezout coefficients", "statement": "Over ZZ gcd(a, b) is a if b = 0, b if b divides a, and otherwise the positive greatest common divisor, so it is negative exactly if b = 0 > a or b < 0 divides a; lcm(a, b) is a if b divides a and otherwise a*b divided by the positive gcd; both are zero only if forced. extended_gcd returns the same divisor as gcd, and for a >= 0, b > 0 its coefficients are 0 and 1 if b divides a and otherwise satisfy 2|x|g <= b and 2|y|g <= a: no other coefficients are smaller in absolute value (for a = b, where 0 and 1 are returned, the second could be 0 instead).", "quantifier": "all integers", "why_tests_cant": "sign cases and minimality over all other pairs of coefficients", "anchors": ["src/traits.rs: EuclideanDomain::gcd, lcm, extended_gcd", "src/integers.rs"]}
{"id": "C72", "title": "Exactly which operands overflow in the Euclidean methods and residues of machine integers", "statement": "Over CheckedInts of any width gcd, extended_gcd, relative_primes and associates panic exactly for (MIN, -1), and return the values of ZZ otherwise, coefficients included; lcm returns exactly if the operands are not (MIN, -1) and the least common multiple with its sign is representable; associate_repr panics exactly on MIN. In the divisibility order join panics exactly if the nonnegative lcm is not representable, and on members the order and meet never panic. In residue rings and fields with positive modulus, on arbitrary objects: add, mul and neg panic exactly if the sum, product or negative before reduction is not representable, sub and sub_assign exactly if the negative or the sum of its residue with the first operand is not; try_inv never panics and inv panics exactly on zero and on objects not prime to the modulus. On members the additive methods never panic iff 2(n-1) <= MAX, and the bound (n-1)^2 <= MAX of C24 for products is sharp.", "quantifier": "every width, all objects, all positive moduli", "why_tests_cant": "all operands and moduli of all widths; boundary cases depend on intermediate results of the Euclidean algorithm", "anchors": ["src/checked_ints.rs", "src/traits.rs: EuclideanDomain", "src/divisibility_order.rs", "src/quotient_ring.rs", "src/quotient_field.rs"]}
{"id": "C73", "title": "Polynomials given with leading zeros", "statement": "On vectors of coefficients ending in zeros, which contains rejects but nothing else checks for: add, neg, sub, mul and times with an unsigned multiplier return the coefficients of the exact result; the length of the vector is determined by those of the operands for neg, mul, and add and sub of different lengths, whereas add and sub of operands of equal length, and times with a signed multiplier always, return a member. equals, is_zero, is_one and try_inv compare lengths, so equal polynomials can differ and units can have no inverse. try_div and quo_rem by a vector that does not end in zero are exact (the remainder is a member unless the dividend is shorter, when it is returned unchanged); try_div looks only at the lengths if the divisor is longer, missing 0 = [0] and constants; both panic exactly if the divisor is empty, or ends in zero and is not longer than the dividend. associate_repr and associate_coef panic on nonempty vectors ending in zero. gcd of nonempty vectors panics exactly if the shorter one (the second for equal lengths) ends in zero and otherwise returns a member that is a greatest common divisor.", "quantifier": "every base ring, domain or field, all vectors of its members", "why_tests_cant": "tests use members only; products over rings with zero divisors leave the members", "anchors": ["src/polynomial_algebra.rs", "src/traits.rs: EuclideanDomain::gcd"]}
{"id": "C74", "title": "Rounding errors of floats", "statement": "Whenever a method of ApproxFloats does not panic: products, squares, quotients and inverses differ from the exact value x by at most u|x| + 2^emin/2 with u = 2^-prec, and by at most u|x| and u times the result in the normal range; they are zero exactly if |x| <= 2^emin/2, and never have the wrong sign. Sums and differences have a relative error of at most u even if they are tiny, the error is at most each operand and itself a number of the format, and they are zero only if the exact value is. Doubling and differences of numbers within a factor of two are exact, a/a is one, and signs move out of products and differences. Entries of matrix products and coefficients of polynomial products with k terms differ from the exact value by at most ((1+u)^k - 1) times the sum of the absolute values of the terms, plus k(1+u)^(k-1) 2^emin/2 which is missing if no product underflows. power(n, x) for n >= 0 and |x| >= 1 is x^n times a factor between (1-u)^(n-1) and (1+u)^(n-1); for n < 0 and |x| <= 1 between the powers with exponent -2n-1. The product with the inverse is not always one, and products are neither associative nor distributive, in f32 and in f64.", "quantifier": "every binary format, all finite operands (for powers: formats in which one is a normal number), matrices and polynomials of all sizes", "why_tests_cant": "2^128 pairs of operands; the error bounds quantify over all roundings of a computation", "anchors": ["src/approx_floats.rs", "src/matrix_ring.rs: mul", "src/polynomial_algebra.rs: mul", "src/traits.rs: Field::power"]}
{"id": "C75", "title": "Every method stops on all objects", "statement": "Every method of every algebra of the crate returns or panics, it never runs forever: for the basic algebras unconditionally, for vectors, matrices (determinant, inverse and row operations included), polynomials, quotients, fractions, additive and multiplicative groups, divisibility orders and the blanket implementations for fields whenever the methods of the base do. Nothing is assumed about the laws of the base or about the objects being members: polynomials over floats included, vectors may have any length, floats may be NaN, moduli may be zero. gcd of polynomials evaluates its loop condition at most len(w) + 1 times and extended_gcd nests at most as many calls, whatever the base computes. The blanket extended_gcd needs that the base does not find zero to differ from zero, which holds in all algebras of the crate; without it, it never returns. (All loops except those of gcd and extended_gcd run over a range or halve a counter and are modelled by structural recursion; the content is that the Euclidean loops stop everywhere they are reached.)", "quantifier": "all base implementations, all objects", "why_tests_cant": "non-termination cannot be observed by a test; no law of the base may be used", "anchors": ["src/traits.rs: EuclideanDomain::gcd, extended_gcd", "src/polynomial_algebra.rs: quo_rem", "src/checked_ints.rs: quo_rem", "src/quotient_field.rs", "src/reduced_fractions.rs"]}
{"id": "C76", "title": "Floats that are NaN or infinite", "statement": "On NaN and the infinities, which contains rejects but nothing else checks for beforehand: equals never equates NaN with anything; add, sub, mul, neg, double, square and their assigning forms panic; a quotient panics except that a finite number divided by an infinity is zero; inv of an infinity is zero and try_inv returns it, so an infinity counts as invertible, whereas NaN has no inverse; times with a signed multiplier is the one ring method that returns a non-member (NaN, or an infinity with the product of the signs) instead of panicking, times with an unsigned one panics unless the multiplier is zero; the zeroth power is one, positive powers panic, negative ones are zero for infinities and panic for NaN. The blanket gcd, lcm and associate methods treat them as units. In the order everything but NaN is totally ordered with the infinities at the ends, NaN is comparable with nothing, and meet and join return the other operand.", "quantifier": "every binary format, all values", "why_tests_cant": "non-finite operands are excluded by contains and not tested", "anchors": ["src/approx_floats.rs", "src/traits.rs: Field, EuclideanDomain"]}
{"id": "C77", "title": "Floats compute exactly if no exact intermediate result needs rounding", "statement": "Let the exact operations be those on rational numbers that give up as soon as a result is not a number of the format. Whenever a method runs through on the exact operations, the same method over ApproxFloats returns exactly that value, and so does the same method over QQ: for all field methods, determinants, inverses of matrices, quotients, remainders and gcd of polynomials. Products of matrices and of polynomials with fixed point entries (multiples of 2^s and of 2^t, with emin <= s+t <= emax), in particular integers, are exact and do not panic as long as the sums of the absolute values of the products stay below 2^(prec+s+t). A matrix with the only entry x: if 1/x overflows then try_inv, determinant and invertible panic; otherwise the determinant is exactly x and try_inv returns the rounded inverse, except that a build with debug assertions panics if the rounded product of x with its rounded inverse is not one, as for 49 in f64 and 41 in f32.", "quantifier": "every binary format (for matrices of size one: of precision at least two), all operands, matrices and polynomials of all sizes, both build profiles", "why_tests_cant": "whether a whole computation is exact depends on every intermediate result", "anchors": ["src/approx_floats.rs", "src/matrix_ring.rs: mul, try_inv, determinant", "src/polynomial_algebra.rs: mul, quo_rem", "src/reduced_fractions.rs"]}
{"id": "C78", "title": "Values of gcd, lcm and extended_gcd on polynomials, and the Bezout coefficients of least degree", "statement": "For polynomials f, g over a field, gcd returns the last nonzero remainder with its leading coefficient, not made monic: f if g is zero, g if g divides f, otherwise never a longer vector than that of g; extended_gcd returns the same divisor d and coefficients s, t with f*s + g*t = d, which are 1, 0 if g is zero, 0, 1 if g divides f, and otherwise satisfy deg s + deg d < deg g and deg t + deg d < deg f; no other coefficients have so small degrees. lcm returns f/d*g, which is f if g divides f.", "quantifier": "every field with a contract, all polynomials in canonical form", "why_tests_cant": "the gcd is unique only up to a factor and the coefficients only up to multiples of g/d and f/d: tests that check the identities cannot see which ones are returned", "anchors": ["src/traits.rs: gcd, lcm, extended_gcd", "src/polynomial_algebra.rs: quo_rem"]}
{"id": "C79", "title": "Powers in finite groups and fields: Lagrange, Euler, Fermat, Frobenius", "statement": "In a finite group exponents that agree modulo the order give the same power, and the power with the order is the identity; so n! is an exponent of Permutations of size n. In the multiplicative group of the residues modulo n the value of power is a^(z mod phi(n)) mod n for every exponent z, negative ones included, and the inverse is a^(phi(n)-1) mod n. In the field of residues modulo p power returns a^(z mod (p-1)) mod p for a not zero and 0 for a zero, and inv returns a^(p-2) mod p, also over machine integers in which (p-1)^2 is representable. In a finite field the power with the number of elements is the identity map, the power -1 is the inverse, and in characteristic p the p-th power is additive.", "quantifier": "all finite groups and fields with a contract, all moduli, elements and exponents other than isize::MIN", "why_tests_cant": "negative exponents go through the inverse of the wrapped structure before the power loop; relating them to positive ones for all moduli is a theorem", "anchors": ["src/traits.rs: Group::power, Field::power", "src/multiplicative_group.rs", "src/quotient_field.rs", "src/quotient_ring.rs", "src/permutations.rs"]}
{"id": "C80", "title": "The operations performed on the base, in their order", "statement": "Over a base none of whose methods satisfies any law and any of which may panic or run forever, the methods return exactly what the following computation returns. Entries of matrix products and coefficients of polynomial products: zero, to which the products (left factor first) are added on the right, one after the other by ascending index. quo_rem and try_div of polynomials: schoolbook long division from the highest coefficient down, each coefficient of the remainder receiving its products in this order, and the remainder cut off after its last coefficient that is not zero. determinant and try_inv of matrices: elimination column by column with the first row from the diagonal on that is not zero as pivot row, which is exchanged, scaled by the inverse of the pivot, and subtracted from the rows below (all other rows for the inverse) whose entry is not zero; the determinant multiplies the pivots on the right. times and power: repeated doubling or squaring once for every binary digit, the results for the digits one being added or multiplied on the right, lowest digit first.", "quantifier": "all base implementations, all matrices and polynomials over them, all exponents other than isize::MIN", "why_tests_cant": "which operations are performed, and in which order, decides about rounding and overflow for every base; tests see only the results on exact ones", "anchors": ["src/matrix_ring.rs: mul, determinant, try_inv", "src/polynomial_algebra.rs: mul, quo_rem, try_div", "src/traits.rs: CommuntativeMonoid::times, Group::power"]}
{"id": "C81", "title": "Calls on coordinates and coefficients: which are made, and which one stops the method", "statement": "Over a base without any laws, whose methods may panic or run forever: the coordinate-wise methods of vectors and matrices and neg of polynomials call the method of the base once per coordinate in ascending order; they return the list of values if all calls return, and panic (or run forever) exactly if the first call that does not return panics (runs forever). Tests (contains, equals, is_zero, is_one, invertible, leq) stop at the first call that answers no, try_inv at the first that fails, so that later calls may panic without effect. Constant vectors call the base exactly once, even for length zero. Polynomial add of different lengths adds the shorter operand on the right, whichever it is, without testing for zero; of equal lengths it tests every sum, drops the zeros at the end and puts the zero of the base in place of the others; times tests from the end only and keeps inner zeros; sub adds the first operand to the negative of the second one. gcd returns the last divisor of the chain of divisions, and extended_gcd the coefficients computed backwards along the same chain.", "quantifier": "all base implementations, all vectors, matrices and polynomials over them", "why_tests_cant": "order and number of calls are invisible on well-behaved bases; the first failing coordinate ranges over all positions", "anchors": ["src/vector_algebra.rs", "src/matrix_ring.rs", "src/polynomial_algebra.rs: contains, equals, add, neg, times, associate_repr", "src/traits.rs: sub, gcd, extended_gcd"]}
{"id": "C82", "title": "Structures built on one another: rational functions, number fields, residues modulo products, interpolation", "statement": "ReducedFractions over PolynomialAlgebra over a field implements the field of rational functions, each represented by its numerator and its monic denominator in lowest terms, and reduce returns these two. QuotientField over the polynomials by the minimal polynomial of an element alpha of a larger field implements the field generated by alpha, a vector representing the value of its polynomial at alpha (for example exact arithmetic in Q(i)). QuotientRing by a product of pairwise coprime elements implements the product of the quotients (Chinese remainders); for integers, a residue represents its residues modulo the factors. The remainder of a polynomial by x - a is its value at a, and divisible decides whether a is a root; QuotientRing of polynomials by the product of the x - a for distinct points a implements the functions on the points, and try_inv returns the polynomial of the inverse values or None if some value is zero.", "quantifier": "all fields and Euclidean domains with a contract (for Chinese remainders with canonical remainders as in C18), all polynomials, all algebraic elements, all finite families of moduli and points", "why_tests_cant": "the claims relate nested generic instances to the mathematical structures they are meant for; tests check single instances", "anchors": ["src/reduced_fractions.rs", "src/quotient_field.rs", "src/quotient_ring.rs", "src/polynomial_algebra.rs"]}
{"id": "C83", "title": "Overriding a default method does not change its result", "statement": "Take away all overrides of an implementation, so that every method with a default body in the traits uses that body. The naturals, the unsigned machine integers and the order of the two-element algebra stay literally the same on all arguments. ZZ and the two-element field stay the same except that the default times, int and power negate isize::MIN, which panics in a debug build and gives zero or one in a release build. Signed machine integers stay the same except: the default sub would panic whenever the second operand is MIN, the default reduced at MIN and -1, the default times as soon as 2^(digits of |n|) times the operand leaves the range (also by the doubling whose result is not used); extended_gcd would return nothing else. Floats stay the same except for times, int and div. A multiplicative group stays the same except for invertible, overridden by the constant true, on objects that are not invertible. In general an implementation that meets the contract of Group, SemiRing, AbelianGroup, UnitaryRing, EuclideanDomain or Field meets it without its overrides too, and if it never panics and every element has one representation, each override returns on members what the default returns (gcd and lcm up to units).", "quantifier": "all implementations of the crate and all others that meet a contract, all arguments", "why_tests_cant": "the overridden default is dead code for the type: no test on the type runs it, and none compares the two", "anchors": ["src/traits.rs: default methods", "src/integers.rs", "src/checked_ints.rs", "src/two_element_algebra.rs", "src/approx_floats.rs", "src/multiplicative_group.rs", "src/vector_algebra.rs"]}
{"id": "C84", "title": "Different constructions of the same structure agree", "statement": "Two implementations of the same monoid, group, abelian group, field or Euclidean domain, the second of which never panics, return values that stand for the same element, and the same answers of tests, whenever the first returns (residues modulo 2 and BB; machine integers and ZZ). Over every base, with laws or without: QuotientField and QuotientRing share all methods but those about inverses; an inverse found by the one is that found by the other, and where the ring finds none the field panics unless the element is zero. AdditiveGroup and MultiplicativeGroup commute with VectorAlgebra: all methods are the same, except that on vectors of a wrong length invertible returns true on the one side and panics on the other, and contains of the multiplicative group panics on the one side and returns false on the other; vectors of length one behave as the base; vectors of length m over vectors of length n behave as vectors of length m*n. Over a field: transposition reverses products and commutes with inverses, existence included; matrices of size one behave as elements; matrices of permutations multiply and are inverted as Permutations does, and transposing inverts them, while determinant returns one for all of them, also for the odd ones; the divisibility order has exactly the members 0 and 1 and is for BB the lattice upside down; the reduced fractions are the field, with denominator one.", "quantifier": "all implementations with a contract, all bases without one, all vectors, matrices and permutations", "why_tests_cant": "the claim compares two programs on all arguments; the tests of the crate never relate two constructions", "anchors": ["src/quotient_field.rs", "src/quotient_ring.rs", "src/additive_group.rs", "src/multiplicative_group.rs", "src/vector_algebra.rs", "src/matrix_ring.rs", "src/permutations.rs", "src/reduced_fractions.rs", "src/divisibility_order.rs"]}
{"id": "C85", "title": "Signs of floats: the sign of zero is never seen, and rounding respects negation", "statement": "equals identifies two floats exactly if they differ at most in the sign of zero and are not NaN. Operands that differ only in the signs of zeros give results that differ only in the signs of zeros, and the same answers, for all methods of ApproxFloats, whichever zero min and max return, and so for all methods of vectors, matrices, determinants, polynomials, their residues and rational functions over the floats. A common change of sign of the operands changes the sign of sums, differences, negatives and integer multiples; the signs of the results of mul, div, inv, try_inv and power are the product, quotient, inverse and power of those of the operands; negation reverses the order and exchanges meet and join. Hence, rounding errors included: if the rows and columns of matrices are multiplied by signs, the products, determinants and inverses are multiplied by the corresponding ones, with the same calls panicking or finding no inverse; the product of the transposed matrices is the transposed product; and products, quotients, remainders and (up to one sign) greatest common divisors of polynomials commute with the substitution of -x.", "quantifier": "all formats, all floats including infinities and NaN, all matrices, polynomials and exponents", "why_tests_cant": "the claims are about exact equality of rounded results for all pairs of related inputs; a test compares single results with tolerances", "anchors": ["src/approx_floats.rs", "src/matrix_ring.rs: mul, determinant, try_inv", "src/polynomial_algebra.rs: mul, quo_rem"]}
{"id": "C86", "title": "Bounds for the operands bound the results and exclude overflow", "statement": "If every operand is at most b in absolute value, for bounds b that are elements themselves, and the operation returns on the bounds, then it returns on the operands, and the result is at most that on the bounds in absolute value: add, add_assign, double, times with a natural number, mul, mul_assign, square on the floats (rounded results compared) and the machine integers, with neg bounded by the bound and sub and sub_assign by the sum of the bounds. The same holds for integer multiples with a bound for the multiplier, for quotients of floats whose divisor is bounded from below, for powers with exponents that are not negative, coordinate-wise for vectors, for all ring methods of matrices entry by entry (where the bound needs no cancellation: the entries of the bounding matrices are not negative), and for products of polynomials, where the bounds may have more coefficients. For operands that are not negative the same is true without absolute values, also for unsigned machine integers. Hence one computation on the largest operands shows that no computation on smaller ones panics.", "quantifier": "all formats and widths, all operands, matrices, vectors, polynomials and exponents", "why_tests_cant": "one run on the bounds is to exclude overflow on all smaller operands with arbitrary signs; that it does is a theorem about all of them", "anchors": ["src/approx_floats.rs", "src/checked_ints.rs", "src/checked_uints.rs", "src/vector_algebra.rs", "src/matrix_ring.rs", "src/polynomial_algebra.rs: mul", "src/traits.rs: Group::power"]}
{"id": "C87", "title": "Floats find their rounding errors and compute like machine integers", "statement": "The difference of two floats neither of which is more than twice the other is exact, also in place, and doubling is exact unless it panics. The rounding error of every sum and difference that does not overflow is itself a float, and that of a sum is found by two further subtractions (first the larger operand from the sum, then this from the smaller operand), neither of which rounds or panics. The rounding error of a product is a float exactly if the product is a multiple of the least positive number. If the machine integers have no more bits than the precision (i16 for f32, i32 for f64), then whatever a method of CheckedInts returns (zero, is_zero, add, double, neg, sub, times, one, is_one, int, mul, square, the order and its lattice, and the in-place methods), ApproxFloats returns the same integer and the same answers on the same integers; likewise the methods of vectors and the additive methods and products of polynomials.", "quantifier": "all formats, all finite floats, all widths up to the precision, all vectors and polynomials", "why_tests_cant": "exactness is a claim about every pair of operands of the format, for f64 2^128 pairs; a test checks a few of them", "anchors": ["src/approx_floats.rs", "src/checked_ints.rs", "src/vector_algebra.rs", "src/polynomial_algebra.rs: add, mul"]}
{"id": "C88", "title": "Embedded structures: constants, diagonal and triangular matrices, extensions as matrices, groups of permutations", "statement": "An implementation of a monoid, group, abelian group, ring or field implements every substructure (for monoids and rings: one that contains the inverses of its elements as far as they exist), given by an injective homomorphism. Hence constant vectors, constant polynomials and scalar matrices compute like the base, polynomials in a power of the variable like polynomials, diagonal matrices like vectors, constants in an extension field like the base field, reduced fractions with denominator one like integers; the matrices of the multiplications by the elements of a finite field extension compute in the extension, inverses included, and determinant returns their norms up to sign; Permutations computes in every finite group, an element being the list of the multiplication by it from the right. Products of upper triangular matrices are upper triangular, the diagonals being multiplied; try_inv of an upper triangular matrix returns an upper triangular matrix with the inverse diagonal, or None exactly if the diagonal contains zero. determinant returns the product of the diagonal of triangular matrices without an error of sign, and on block triangular matrices the product of what it returns on the two blocks of the diagonal, signs included.", "quantifier": "all implementations with a contract, all injective homomorphisms, all sizes, all finite groups and finite field extensions", "why_tests_cant": "the claims identify whole substructures for all bases, sizes and elements; a test multiplies single matrices", "anchors": ["src/traits.rs", "src/vector_algebra.rs", "src/polynomial_algebra.rs", "src/matrix_ring.rs", "src/quotient_field.rs", "src/reduced_fractions.rs", "src/permutations.rs"]}
{"id": "C89", "title": "Floats as a Euclidean domain: blanket methods, divisibility order and fractions of floats", "statement": "For finite floats x, y: quo, try_div and quo_rem return the rounded quotient with remainder zero, although rounding may have lost something; they panic if y is zero or the quotient overflows; rem never panics for y not zero. divisible and associates compute the quotients they do not need and panic if these overflow, otherwise every two nonzero floats are associates. associate_repr is 0 or 1, associate_coef the rounded inverse. gcd, lcm, reduced and relative_primes depend only on which operands are zero and never panic, whereas extended_gcd, not overridden, returns y as the divisor with coefficients 0 and 1 (x, 1, 0 if y is zero), and panics if x/y overflows. In f32, f64 and all formats whose least positive number is at most 2^-prec (prec at least 2): only 1 has an inverse that is rounded to 1, so that the members of the divisibility order are 0 and 1 and those of the reduced fractions have denominator 1, but both tests panic if the inverse overflows. reduce multiplies both parts by the rounded inverse of the denominator. Sums, differences, products, negatives and integer multiples of members are the rounded ones over 1, or panic on overflow, also times, which for floats returns an infinity; inv and try_inv return the rounded inverse z over the rounded product x*z, which for 49 in f64 and 41 in f32 is not a member; try_inv panics instead of returning None if the inverse overflows.", "quantifier": "every binary format (with the stated condition where the inverse is compared with one), all finite operands", "why_tests_cant": "overflowing quotients of operands in range and inverses that round to one are isolated points among all floats", "anchors": ["src/traits.rs: blanket impls of IntegralDomain and EuclideanDomain for Field, extended_gcd", "src/approx_floats.rs", "src/divisibility_order.rs", "src/reduced_fractions.rs"]}
{"id": "C90", "title": "Matrices whose determinant is returned with the right sign", "statement": "determinant does not account for row exchanges (C41), but it returns the determinant itself, over every field, of the following matrices: those whose diagonal strictly dominates all rows, or all columns, in some absolute value, which are inverted too; those whose quadratic form vanishes only at zero, in particular the positive definite ones over an ordered field, symmetric or not, where the result is positive; the products of a lower and an upper triangular matrix, where it is the product of both diagonals; the matrices of the powers of the entries of a vector, distinct or not, where it is the product of the differences; and, over the rational functions, the matrices of polynomials whose leading minors are not zero. In particular the determinant of x - M is the characteristic polynomial of M, with denominator one, for every matrix M, and try_inv of x - M returns the resolvent, the adjugate over the characteristic polynomial.", "quantifier": "all fields with a contract, all sizes, all matrices of the given kinds", "why_tests_cant": "each class of matrices is infinite in every size; the sign is right only because no leading minor vanishes, which is a theorem for each class", "anchors": ["src/matrix_ring.rs: determinant, try_inv", "src/reduced_fractions.rs", "src/polynomial_algebra.rs"]}
{"id": "C91", "title": "Residues of polynomials: power series, dual numbers, Taylor polynomials, values in an algebra", "statement": "QuotientRing of the polynomials over a field by x^n computes with power series up to x^n: add, sub, neg, mul, square and times return the beginning of the resulting series, equals compares the first n coefficients, and try_inv returns the beginning of the inverse series, or None exactly if the constant coefficient is zero. By x^2 it implements the dual numbers, a + bx having the inverse 1/a - b/a^2 x. The remainder of a polynomial by (x - a)^k is its Taylor polynomial at a of degree below k, by (x - a)^2 the tangent. If the polynomials that vanish at an element alpha of an algebra (commutative or not, such as matrices) are the multiples of mu, as for the minimal polynomial, then QuotientRing by mu computes in the algebra, a vector standing for the value of its polynomial at alpha, and try_inv returns None only if the value has no inverse in the whole algebra. In general an implementation of a ring implements its image in a larger ring that has no further inverses of elements of the image.", "quantifier": "all fields with a contract, all n > 0, all power series, polynomials, points, algebras and elements satisfying a relation", "why_tests_cant": "the claims relate one generic construction to infinitely many mathematical structures and elements", "anchors": ["src/quotient_ring.rs", "src/polynomial_algebra.rs: quo_rem"]}
{"id": "C92", "title": "What an in-place method leaves in its operand when it panics", "statement": "mul_assign, square, add_assign, double, neg_assign, sub_assign, seen as changes of the operand they are given: without a panic the operand then holds the value the other properties speak of, and the methods panic (or run forever) in the same cases. The default methods, hence those of machine integers, floats, polynomials, residues, reduced fractions, and the products of matrices, leave the operand unchanged if they panic, whatever the base does; so do those of ZZ, NN, the two-element algebra, and the groups made of such structures. A method of vectors or an additive one of matrices that panics has changed nothing if a length is wrong; otherwise it has been stopped at the first coordinate where the method of the base panics: the coordinates before hold their new values, that one what the base left in it, the others their old values. For vectors of machine integers these are the sums before the first one out of range and the old coordinates from there on. The operand is a member of the structure after the panic if this is so for the base, also for vectors of vectors. mul_assign of permutations leaves the operand unchanged if a debug assertion fails; otherwise it panics exactly if some entry is no index of the second operand, having replaced the entries before, so that without debug assertions the operand need not be a permutation any more.", "quantifier": "all bases with laws or without, all operands, all positions at which the base may panic", "why_tests_cant": "the operand is seen only by a caller that catches the panic, and the number of changed coordinates depends on where the base panics", "anchors": ["src/traits.rs: mul_assign, square, add_assign, double, neg_assign, sub_assign", "src/vector_algebra.rs: mul_assign, square, add_assign, double, neg_assign, sub_assign", "src/permutations.rs: mul_assign", "src/two_element_algebra.rs", "src/integers.rs", "src/naturals.rs", "src/matrix_ring.rs", "src/additive_group.rs", "src/multiplicative_group.rs"]}
{"id": "C93", "title": "Numbers of calls of the base", "statement": "In a second model of the generic methods that counts the calls of each method of the base, made until the method returns or panics, and has the same outcomes as the first: a multiple times(n) takes one call of zero, one of double for each binary digit of n and one of add_assign for each digit 1, and nothing else; a power takes one call of one, of square for each digit of the absolute value of the exponent and mul_assign for each digit 1, and one of inv for a negative exponent; the coordinate-wise methods of vectors take one call for each coordinate, none if a length is wrong; a product of n by n matrices takes n^2 calls of zero and n^3 of mul and add_assign; determinant takes at most one call of one and zero, n^2 of is_zero, n of inv, n(n+1) of mul_assign, n(n-1)/2 of neg and n^2(n-1)/2 of mul and add_assign, and if it returns without a call of zero exactly n of inv and n(n+1) of mul_assign; try_inv at most n of inv, 2n^2 of mul_assign, n(n-1) of neg, 2n^2(n-1) of mul and add_assign, n(n+1)/2 + n(n-1) of is_zero, and one (with debug assertions two) of int and zero and (with debug assertions) n^2 of equals, and with an inverse exactly n of inv and 2n^2 of mul_assign; a sum of polynomials of different lengths takes one call of add for each coefficient of the shorter one and nothing else, of equal lengths one of add and is_zero for each, and at most as many of zero; a product one of zero and one of mul and add for each pair of coefficients, none if an operand is empty; quo_rem none if the dividend is shorter, otherwise one of zero, one of div and neg for each coefficient of the quotient, one of mul and add for each of these and each coefficient of the divisor but the leading one, and one test is_zero for the leading coefficient, for each coefficient cut off and for the leading one of a nonempty remainder; try_div the same with try_div and add_assign, at most, with as many calls of try_div and mul exactly if there is a quotient; gcd of polynomials v and w in all at most |v| |w| calls of mul and add, |v| + |w| of div and neg, |w| of zero and 2|w| of is_zero. A method that panics has made no more calls than these, and a coordinate-wise one that panics at the coordinate k exactly k + 1.", "quantifier": "all bases (lawful or not, returning, panicking or running forever), all configurations, all operands (well-formed or not), multipliers, exponents other than the least one, sizes", "why_tests_cant": "The numbers for all sizes and all behaviours of a base; a test counts for single operands, and a method calling its base twice still returns the right value.", "anchors": ["src/traits.rs:89-100", "src/traits.rs:114-131", "src/vector_algebra.rs:144-238", "src/matrix_ring.rs:58-125", "src/matrix_ring.rs:155-215", "src/polynomial_algebra.rs:92-106", "src/polynomial_algebra.rs:144-167", "src/polynomial_algebra.rs:201-233", "src/polynomial_algebra.rs:256-285", "src/traits.rs:248-257"]}
{"id": "C94", "title": "Index arithmetic does not overflow, and which vectors are too long", "statement": "MatrixRing::new panics if and only if size * size is not a usize. For every other size, and polynomials that fit in vectors of at most isize::MAX bytes, no plain +, -, * on usize in the index arithmetic of matrices (contains, equals, transpose, mul, int, determinant, try_inv) and of polynomials (degree, leading_coef, contains, add, mul, times, try_div, associate_repr, associate_coef, quo_rem) overflows: computed with machine arithmetic, which panics or wraps around, all these methods have the outcomes they have on unbounded indices. The vectors they ask for with with_capacity and vec![] fit as well, with these exceptions: zero, one, int of vectors and matrices and try_inv of matrices do not return if len (for matrices size * size) elements do not fit, and do as before otherwise; the product of nonempty polynomials of lengths m and n panics before it uses a coefficient if m + n - 1 coefficients do not fit, and does as before otherwise; try_div of polynomials, m >= n, panics under the same condition, since it asks for the length of the product, although the quotient has m - n + 1 coefficients and quo_rem returns; one of Permutations panics if and only if size * 4 bytes do not fit, never with pointers of 36 bits or more.", "quantifier": "all configurations (pointer widths from 32 bits, with and without overflow checks), all bases, all sizes, all operands, all sizes of elements other than zero", "why_tests_cant": "an overflow needs matrices or polynomials of 2^31 elements or more; the claim is about every index of every size", "anchors": ["src/matrix_ring.rs: all methods with indices", "src/polynomial_algebra.rs: all methods with indices", "src/vector_algebra.rs:37-39", "src/vector_algebra.rs: try_inv", "src/permutations.rs"]}
{"id": "C95", "title": "Bases with state behind a shared reference", "statement": "The methods of a base take a shared reference, so that a base may change a state of its own in them: a counter, a log, a table of computed inverses. In a model of the generic methods over bases with state, with the calls of the base in the order of the program: if every method of the base does what the method of a base without state does, from every state with a given invariant, returning corresponding values, panicking or running forever in the same cases, and leaving a state with the invariant also by a panic, then the same is true of all methods of vectors, matrices (with determinant and the row operations), polynomials, residues, reduced fractions, additive and multiplicative groups, divisibility orders, fields as Euclidean domains, of the provided methods of the traits, with power, times, gcd and extended_gcd, and of the constructors that ask the base. So the results do not depend on the state that a call begins with, all other properties hold of such bases, and what no method of the base does to the state (decreasing a counter, forgetting a log, spoiling a table) no method of the structures does, also in a call that panics.", "quantifier": "all types of states, all invariants, all relations between the elements of the two bases, all bases (lawful or not, panicking or not returning), all operands, all configurations", "why_tests_cant": "the outcomes would have to be compared for all histories of all bases with state, also after panics that have been caught", "anchors": ["src/traits.rs", "src/vector_algebra.rs", "src/matrix_ring.rs", "src/polynomial_algebra.rs", "src/quotient_ring.rs", "src/quotient_field.rs", "src/reduced_fractions.rs", "src/additive_group.rs", "src/multiplicative_group.rs", "src/divisibility_order.rs"]}
{"id": "C96", "title": "Bases with state and without laws: lengths, panics and endless loops", "statement": "Nothing is assumed of the answers of the base: they may depend on its state, contradict each other and obey no law. Given which states the base may be in, which states its panics may leave and whether its methods may run forever, and if its methods return elements with a given property from operands with it, dividing being asked only by elements of which is_zero has answered that they are not zero, the following keep to the same limits: all methods of vectors of the right length, whose results are vectors of this length with such elements (with another length they panic before they call the base); all methods of matrices of the right size, which so index nothing out of bounds and invert no pivot that has been called zero, but for the debug assertion in try_inv; add, neg, sub, times, mul, contains, equals, is_one, try_inv of polynomials, for all vectors of coefficients, also with leading zeros: a product has |v| + |w| - 1 coefficients, a sum at most max(|v|, |w|) and exactly so many if the lengths differ; one of polynomials if one is never called zero; try_div and quo_rem by polynomials whose leading coefficient is never called zero, the quotient having |v| + 1 - |w| coefficients and the remainder fewer than w; if the leading coefficient is called zero, they panic at once, and by the empty polynomial without a call of the base; residues modulo an element that the base divides by, divisibility orders, additive groups, the provided methods of the traits. Where panics are allowed, so do polynomials with all their methods, residue fields, reduced fractions, multiplicative groups. Only gcd and extended_gcd may run forever over a base that does not; times and power return for all multipliers and exponents but isize::MIN with overflow checks. A constructor returns exactly if the base answers that the modulus is an element (residues) and, for residue fields, that rem(1, 1) is zero, or that one is not zero (fractions), or if size * size is a usize (matrices). Hence a panic of determinant or mul of matrices, add or mul of polynomials over any field whatever is a panic of a method of this field.", "quantifier": "all types of states, all limits, all properties of elements, all bases keeping to them, all operands, sizes and configurations", "why_tests_cant": "a base without laws is not tested at all, and the claim is about all sequences of its answers", "anchors": ["src/traits.rs", "src/vector_algebra.rs", "src/matrix_ring.rs", "src/polynomial_algebra.rs", "src/quotient_ring.rs", "src/quotient_field.rs", "src/reduced_fractions.rs", "src/additive_group.rs", "src/multiplicative_group.rs", "src/divisibility_order.rs"]}
{"id": "C97", "title": "Programs cannot tell implementations of the same structure apart", "statement": "A client is any program that keeps elements in registers, calls methods of one object, and learns from each call the bool, whether an Option is Some, and whether the call panicked; its memory is arbitrary, so that it may loop forever or be several threads whose calls are interleaved. Over an implementation of a ring, field, group or boolean algebra whose contract forbids panics, and with panics caught (catch_unwind), after any number of steps the memory is the one the same client has over the mathematical structure, the registers stand for its elements, panics are seen exactly at inverses of and quotients by zero, and no call runs forever; if the contract allows panics, as for machine integers that overflow, the same holds up to the first panic. So two implementations of the same structure cannot be told apart by any client: GF2 and BB, residues modulo m in machine integers with (m-1)^2 in range and residues in ZZ. If an implementation does whatever another one does if it returns (C67-C69), then so does a client that meets no panic, for rings, fields, Euclidean domains (with gcd and extended_gcd), groups and boolean algebras: with machine integers and with ZZ, in a debug build and without checks. Over an object with state whose methods answer as those of one without (C95), a client that catches panics does what it does over the latter, if it keeps a copy of the operand of an in-place method to go on with after a panic (what is left in the operand is C92).", "quantifier": "all clients that do not use the multiplier or exponent isize::MIN (in the claims about contracts), all numbers of steps, all implementations with a contract, all memories and registers", "why_tests_cant": "a claim about all programs and all lengths of runs, also after panics; a test is one program", "anchors": ["src/traits.rs", "src/checked_ints.rs", "src/quotient_ring.rs", "src/quotient_field.rs", "src/two_element_algebra.rs", "src/integers.rs", "src/permutations.rs", "src/matrix_ring.rs", "src/reduced_fractions.rs"]}
{"id": "C98", "title": "What the calls of the base cost, and how costs compose in towers", "statement": "A base with state may count its calls, or read a clock in them. Over a base with a counter for each method, lawful or not, the counters show after multiples, powers, coordinate-wise methods of vectors, product, determinant and try_inv of matrices, add, mul, try_div, quo_rem, gcd and extended_gcd of polynomials, and add, neg, sub, mul, inv, div of residues of polynomials exactly the numbers of calls of the counted model of C93, also after a panic, and the outcomes are the same: the model that counts and the model with state agree. extended_gcd of polynomials of lengths a and b makes at most a + b divisions, 2ab products and negations, 3ab additions, 2ab + 1 tests for zero of the coefficients, and its coefficients have at most max(1, b) and a coefficients if b <= a. Residues of length at most d modulo a polynomial of length d + 1: a sum takes d additions and no division, a product d^2 + (d-1)d products and d - 1 divisions, an inverse one try_inv of a coefficient, 2d + 2 divisions and 2d(d+1) + 2d + 1 products. If, by a clock of the state, a call of each method takes between lo and hi, then product, determinant and try_inv of matrices and product, gcd and extended_gcd of polynomials return within the corresponding sums of hi, and the products not before the sums of lo. If the calls of a field are charged to its state, so are the calls of its residue fields of polynomials, each with the calls above; hence in towers of extensions of any height the costs compose, and product, determinant and inverse of matrices over them cost the base at most the composed numbers: n^3 (2d^2 - d) products of coefficients for a product of matrices of order n over residues of length d.", "quantifier": "all bases (lawful or not, panicking or running forever), all states, clocks and bounds, all operands and sizes, all moduli, all residues no longer than the degree, all configurations", "why_tests_cant": "the numbers for all sizes, all heights of towers and all behaviours of a base, also when it panics; a test measures single runs", "anchors": ["src/traits.rs:89-100", "src/traits.rs:114-131", "src/traits.rs:272-285", "src/vector_algebra.rs:144-238", "src/matrix_ring.rs:58-215", "src/polynomial_algebra.rs:76-285", "src/quotient_field.rs:75-140"]}
{"id": "C99", "title": "Which greatest common divisor: Euclid's algorithm step for step, and programs over Euclidean domains", "statement": "A greatest common divisor is only determined up to a unit and Bezout coefficients are not determined at all, but in every Euclidean domain whose implementation meets the contract and keeps the provided methods of the trait (ZZ, machine integers, polynomials over a field) gcd(a,b), lcm(a,b) and extended_gcd(a,b) return exactly Mathlib's EuclideanDomain.gcd b a, lcm b a and (gcd b a, gcdB b a, gcdA b a), although Mathlib accumulates the coefficients forwards and the crate computes them on the way back. Hence two implementations of the same domain agree on them without a unit in between, a program that uses ZZ through any sequence of method calls, panics caught, computes exactly what it would with mathematical integers, no program can tell polynomials over two implementations of the same field apart, and a program over machine integers does the same as over the integers until its first panic. Fields have their own gcd and lcm, which return 0 or 1, but the provided extended_gcd; the same is proved for all of their Euclidean methods.", "quantifier": "all contracts of a Euclidean domain, all elements, all programs (any memory, any control flow), all numbers of steps", "why_tests_cant": "tests check that some gcd divides both arguments for a few integers; which gcd, which coefficients, and whether the choice is visible to a program is a statement about all domains and all programs", "anchors": ["src/traits.rs:217-292", "src/traits.rs:321-374", "src/integers.rs:130-138", "src/checked_ints.rs:164-190", "src/polynomial_algebra.rs:252-322"]}
{"id": "C100", "title": "The factors that determinant computes, and its rounding errors over floats", "statement": "determinant reduces the matrix row by row, but what it does to each entry is a factorization: over every base, lawful or not, a determinant that returns has computed factors L and U and an order of the rows, every entry of L being what is left of the entry of the matrix when the products U(k,j) * -L(r,k) are added to it one after the other (those with L(r,k) zero are left out), every entry of U such a rest times the inverse of the pivot; the result is the product of the diagonal of L, or zero if the first column without pivot is reached. Over a field the rows of the matrix, in this order, are the product L*U. Over floats (of any format in which the inverse of the largest number is not far below the normal range, such as f32 and f64) every entry of L*U differs from the entry of the matrix by at most ((1+u)^(m+5) - 1) times the sum of the |L(r,k) U(k,j)| plus (m + |pivot|)(1+u)^(m+4) times half the least positive number, where m is the smaller of the two indices and u = 2^-prec; and the result is, up to the sign of the order of the rows and the rounding errors of the product of the pivots, the determinant of the matrix L*U close to the given one. If zero is returned for want of a pivot then L*U is singular.", "quantifier": "all bases, all sizes, all matrices whose determinant is returned; all formats of floats with the condition on the range, all matrices of finite floats", "why_tests_cant": "a bound on rounding errors for all matrices of all sizes, and a statement about bases without laws; tests use integers and few floats", "anchors": ["src/matrix_ring.rs: determinant, find_row, mul_row, add_rows, swap_rows", "src/approx_floats.rs:45-142"]}
{"id": "C101", "title": "Division of polynomials over floats: the equation up to rounding", "statement": "If quo_rem(p, d) of polynomials over floats returns (quo, rem) then rem is shorter than d and every coefficient k of quo * d + rem, computed exactly, differs from that of p by at most ((1+u)^(m+1) - 1) times the sum of |rem_k| and all |quo_i d_(k-i)| plus (m + |lead(d)|)(1+u)^m times half the least positive number, where u = 2^-prec and m is the smaller of len(quo) and len(d) - 1. The same holds for quo * d if try_div returns Some(quo). Nothing is assumed about the size of the numbers: cancellation and underflow are included, and an overflow panics.", "quantifier": "all formats of floats, all polynomials with finite coefficients (also with leading zeros in the dividend), all lengths", "why_tests_cant": "a bound on rounding errors for all polynomials of all lengths; tests use exact coefficients", "anchors": ["src/polynomial_algebra.rs:201-233", "src/polynomial_algebra.rs:256-285", "src/approx_floats.rs:45-142"]}
{"id": "C102", "title": "Bases used by several threads at the same time", "statement": "Let a base have state behind a shared reference, and let each of its methods, begun in any sound state, do what a base without state does and leave a sound state. If others change the state before each call that a method makes - by any sound steps, for example by any numbers of calls of the methods of the base, some of which may panic - then every method of every trait of the base, every provided method, and every method of vectors, matrices, determinants, polynomials, residues, fractions, groups and orders over it does what it does over the base without state: same value, same panic, same endless loop. The value does not depend on what the others do. A call of a method of the base is one step.", "quantifier": "all types of states, all sound sets of states, all bases, all steps of others before each call, all operands", "why_tests_cant": "all interleavings of all programs of other threads", "anchors": ["src/traits.rs:13-428", "src/vector_algebra.rs:24-274", "src/matrix_ring.rs:24-281", "src/polynomial_algebra.rs:24-286", "src/quotient_ring.rs:24-104", "src/quotient_field.rs:24-141", "src/reduced_fractions.rs:24-174", "src/divisibility_order.rs:24-71", "src/additive_group.rs:24-90", "src/multiplicative_group.rs:24-91"]}
{"id": "C103", "title": "Computations with machine integers return exactly as long as every integer stays in range", "statement": "Let the checked integers be the mathematical integers in which mul, add, neg, sub, times, associate_repr, and the quotients of try_div and quo_rem are returned if they lie in [-2^(w-1), 2^(w-1)) and the method panics otherwise (times also if its multiplier is out of range), division by zero panics, the other methods implemented by CheckedInts never fail, and everything else is provided by the traits. A method of CheckedInts with w bits returns if and only if the same method of the checked integers returns for the same integers, and then the same value; so no panic is due to an intermediate value of an implementation and no overflow goes unnoticed, with and without overflow checks. The same equivalence holds for everything built from them: fractions, matrices of fractions with their determinants and inverses, polynomials over them and over fractions, vectors, residue rings, quotient fields, extension fields, the additive group, the group of units and the orders given by divisibility; and for unsigned machine integers (mul and add checked against 2^w) and vectors of them. None of these methods runs forever, so it panics over one exactly if it panics over the other (stated method by method for unsigned machine integers, determinants and exact division of polynomials). A program that calls methods of CheckedInts, of fractions, of matrices of fractions, of polynomials over either, of vectors, residue rings, quotient fields, their extensions or one of the two groups reaches, after any number of calls, the same memory and corresponding registers over both, whether it catches panics and goes on or not, and is stopped by a panic in the same cases. Whatever the checked integers return for operands in range, ZZ returns.", "quantifier": "all widths from 8 bits, all configurations, all operands (members or not), all sizes, moduli and polynomials, all programs and numbers of steps", "why_tests_cant": "which intermediate integers a computation produces is a question about all operands; tests use small numbers that never come near the range", "anchors": ["src/checked_ints.rs:47-196", "src/checked_uints.rs:47-109", "src/traits.rs:13-292", "src/reduced_fractions.rs:24-174", "src/matrix_ring.rs:24-281", "src/polynomial_algebra.rs:24-286", "src/vector_algebra.rs:24-274", "src/quotient_ring.rs:24-104", "src/quotient_field.rs:24-141"]}
{"id": "C104", "title": "What arithmetic with fractions and residues costs", "statement": "Let the methods of a Euclidean base take at most given times by a clock of its state, and let gcd and extended_gcd be the provided methods, whose loop evaluates its condition at most k times and whose recursion nests at most k calls. Then each method of the fractions over the base returns or panics as over the base without a clock, within a time that is a fixed linear function of the times of the base and k: reduce takes one test, k tests and remainders, two quotients, the unit of the denominator, its test and two products; mul two products and a reduce; add one comparison, three products, one sum and a reduce; inv no gcd, at most two products; and so on. The same for the methods of the residues, of which only inv, try_inv and div need the extended gcd. For machine integers of w bits k is any number whose Fibonacci number is at least 2^(w-1), for instance 93 for 64 bits, and counting every call of a method of the machine integers as one: the product of n by n matrices of fractions takes at most 2n^2 + (4k+21)n^3 calls, of residues n^2 + 4n^3; determinants, inverses and products of polynomials likewise.", "quantifier": "all bases, clocks and times, all operands (members or not), all widths, all sizes of matrices and lengths of polynomials", "why_tests_cant": "a bound for all operands and all sizes; tests measure nothing", "anchors": ["src/reduced_fractions.rs:24-174", "src/quotient_field.rs:24-141", "src/traits.rs:217-292", "src/matrix_ring.rs:24-281", "src/polynomial_algebra.rs:24-286", "src/checked_ints.rs:47-196"]}
{"id": "C105", "title": "Programs that use a field and the structures over it at the same time", "statement": "A program keeps elements of a field and Vecs of them in variables; it calls the methods of the field, also those it has as a Euclidean domain, of vectors of any lengths, of matrices of any sizes with determinant and transpose, diagonal and leading_coef, and of polynomials over it, in any order, passes the results of one structure to another, reads, writes, extends and truncates the Vecs themselves, and branches on truth values, on None, on lengths and on panics that it catches. Over two implementations of the same field whose methods stop (no multiplier or exponent being isize::MIN) it reaches after any number of calls the same memory and variables that stand for the same elements, or is stopped by a panic over both; for example over GF2 and BB. In particular it does what it does over the mathematical field itself, whose elements it then computes with, and panics where that has no result; an implementation that may panic on its own, such as fractions of machine integers, does the same until the first panic. Over fractions of machine integers it does what it does over fractions of integers in which every returned integer is checked, and panics exactly where it does over these. Over QQ, if it runs without a panic with overflow checks and debug assertions then it does the same without them. Over a field with state, such as a cache or a counter, that answers as a field without state does, it does the same as over that one.", "quantifier": "all programs, numbers of calls, fields with a contract, lengths, sizes and contents of the variables (also lists that are no polynomial in normal form, or too short or long for a matrix), catching panics or not", "why_tests_cant": "all programs; the tests of the crate never mix structures", "anchors": ["src/traits.rs:13-370", "src/vector_algebra.rs:24-274", "src/matrix_ring.rs:24-281", "src/polynomial_algebra.rs:24-286", "src/two_element_algebra.rs:12-114", "src/quotient_field.rs:24-141", "src/reduced_fractions.rs:24-174"]}
{"id": "C106", "title": "Programs that use a Euclidean domain, its fractions and its residues at the same time", "statement": "A program keeps elements of a Euclidean domain, pairs of them and Vecs of them in variables; it calls the methods of the domain, of its order by divisibility, of its fractions with reduce, of its residues as a ring and as a field (the modulus being any element, also one that the program has computed), of vectors and of polynomials over it (as a ring, with try_div and associate_repr), and the constructors of fractions and residues; it puts pairs and Vecs together and takes them apart, and branches on truth values, on None, on lengths and on panics that it catches. If one domain answers as another one whenever it returns, then the program does over the first what it does over the second until a call over the first panics or does not return; if the two answer each other's way and their methods stop, then the outcome is the same, panics caught or not. Over machine integers it does what it does over integers in which every returned integer is checked against the range, and panics exactly where it does over these; as long as it does not panic it does what it does over ZZ. Over ZZ, if it runs without a panic with overflow checks and debug assertions then it does the same without them. The same holds over polynomials over two implementations of a field, so for rational functions and residues of polynomials, and over a domain with state that answers as a domain without state does.", "quantifier": "all programs, numbers of calls, domains, widths, moduli, lengths and contents of the variables (also fractions that are not reduced, with zero denominators, and residues outside of the system), catching panics or not", "why_tests_cant": "all programs; the tests of the crate never mix structures", "anchors": ["src/traits.rs:13-292", "src/traits.rs:376-428", "src/integers.rs:24-138", "src/checked_ints.rs:47-196", "src/divisibility_order.rs:24-71", "src/reduced_fractions.rs:24-174", "src/quotient_ring.rs:24-104", "src/quotient_field.rs:24-141", "src/vector_algebra.rs:24-274", "src/polynomial_algebra.rs:24-286"]}
{"id": "C107", "title": "Several programs that share one base", "statement": "Let a base have state behind a shared reference, and let each of its methods, begun in any sound state, do what a base without state does and leave a sound state. Any number of threads, each with a program, a memory and variables of its own, use the base, and vectors, matrices, polynomials, fractions, residues and orders over it, at the same time; their panics are caught. If each thread alone, over the base without state, reaches a memory and variables with the number of steps that a schedule gives it, then under the schedule it reaches the same memory and corresponding variables, in whatever order the threads make their calls and in whatever sound state the base was found; two schedules that give every thread the same number of steps have the same result. The same holds if others are scheduled inside of a method, between any two calls of the base that it makes: if the base goes through any history of calls by all threads, and the n-th call of the base by one thread finds the state at any time of the history, then the thread does what it does alone.", "quantifier": "all programs, numbers of threads, schedules, sound sets of states, bases, histories and times", "why_tests_cant": "all programs and all interleavings", "anchors": ["src/traits.rs:13-428", "src/vector_algebra.rs:24-274", "src/matrix_ring.rs:24-281", "src/polynomial_algebra.rs:24-286", "src/quotient_ring.rs:24-104", "src/quotient_field.rs:24-141", "src/reduced_fractions.rs:24-174", "src/divisibility_order.rs:24-71"]}
{"id": "C108", "title": "Programs that change operands in place and go on with what a panic has left", "statement": "Let a program call in-place methods on its registers themselves, catch the panics, and go on with what the method has left in the register. For ZZ, the two-element algebra, machine integers, floats, polynomials, residues and fractions every run is the same as if each method had been called on a copy that is stored back when the method returns; for vectors and matrices this holds up to the first panic, and not after it, since the coordinates before the one that panicked have changed. For structures whose methods do not panic on members (vectors over them, matrices over a field and permutations included) such a program sees no leftover: every register holds the element that the same program computes over the elements themselves. If two bases have methods with corresponding outcomes, then the in-place methods of the vectors and matrices over them panic on the same operands and leave corresponding contents, also when the panic comes in the middle, and every program reaches the same memory and corresponding registers over both. In particular a program over vectors of machine integers, or matrices of machine fractions, does what it does over exact integers that are checked against the range after each operation, panics and their leftovers included.", "quantifier": "all programs, numbers of steps, registers, lengths and sizes, and both ways to treat panics", "why_tests_cant": "all programs and all contents; tests rarely look at an operand after a panic", "anchors": ["src/traits.rs:28-41", "src/traits.rs:66-101", "src/traits.rs:136-162", "src/vector_algebra.rs:80-91", "src/vector_algebra.rs:158-201", "src/matrix_ring.rs:238-265", "src/integers.rs:65-67", "src/two_element_algebra.rs:25-89", "src/permutations.rs:57-63"]}
{"id": "C109", "title": "Triangular and diagonal matrices over bases without laws, floats in particular", "statement": "Whatever the base, a determinant of an upper triangular matrix (is_zero is true below the diagonal) that returns is the product of the diagonal, multiplied from left to right and starting with one, if no element of the diagonal is zero, and otherwise the zero of the base; it does return that product if the elements of the diagonal have inverses with which their rows can be multiplied, and that zero if this holds for the rows before the first zero; it panics if before a zero is found a product or the inverse of an element of the diagonal panics, the last element included, so that the determinant of the floats 2 and 2^-149 on the diagonal is not computed. try_inv of a diagonal matrix multiplies each row of the identity with the inverse of the element of the diagonal and returns the result, except that a build with debug assertions panics if the rows of the matrix multiplied in the same way are not the identity; with a zero on the diagonal it returns None, and it panics if an inverse panics before a zero is found. For floats: the determinant of an upper triangular matrix, when it returns, differs from the exact one at most by the rounding of n products, and is exactly zero if there is a zero on the diagonal; try_inv of a diagonal matrix without zeros whose inverses do not overflow returns the correctly rounded inverses, except that a build with debug assertions panics if the rounded product of some element with its rounded inverse is not one; if the first element that is zero or has an inverse that overflows is zero then it returns None, and otherwise it panics.", "quantifier": "all bases, sizes, entries, float formats with at least two bits of precision, and both kinds of builds", "why_tests_cant": "all sizes and entries, rounding included", "anchors": ["src/matrix_ring.rs:58-125", "src/matrix_ring.rs:183-215", "src/approx_floats.rs:24-170"]}
