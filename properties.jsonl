{"id": "C01", "title": "Rational coefficient arithmetic is exact below the gate", "statement": "For rationals with positive denominators, the operators +, -, *, / (by rational and by integer), +=, *=, /= and unary minus return a value equal to the exact rational result, with a positive denominator, whenever no 32-bit intermediate overflows, the divisor is non-zero, and the unreduced result denominator is below 1024 (the *= and += forms need no such bound).", "quantifier": "for all pairs of int32 numerator/denominator pairs with positive denominators for which the machine arithmetic is defined", "why_tests_cant": "There are 2^128 operand pairs; tests pick a handful of small fractions and never approach the overflow or gate boundaries.", "anchors": ["public/gal/numeric.hpp: rat, operator+, operator-, operator*, operator/, rat::operator+=, rat::operator*=, rat::operator/=, detail::overflow_gate"]}
{"id": "C02", "title": "Rounding introduced on large denominators stays within the advertised error", "statement": "When a coefficient's denominator is large the library may replace the coefficient by a nearby one. The replacement is within 1e-7 of the original, and never has a non-positive or larger denominator.", "quantifier": "for all int32 numerators and all positive int32 denominators", "why_tests_cant": "The error depends on parity, sign and reducedness of the fraction; a few sample fractions can be well inside the bound while whole families (odd numerators) are outside it.", "anchors": ["public/gal/numeric.hpp: detail::overflow_gate, operator*(rat,rat), operator+(rat,rat)"]}
{"id": "C03", "title": "Rational equality and inequality agree with rational value", "statement": "a == b holds exactly when a and b are the same rational number; a != b holds exactly when they differ (for fractions in lowest terms); == and != are complementary; == is reflexive and symmetric.", "quantifier": "for all rationals with positive int32 denominators", "why_tests_cant": "A typo in one gcd argument only shows for particular denominators; equality must be right for every pair.", "anchors": ["public/gal/numeric.hpp: operator==(rat,rat), operator!=(rat,rat), operator!=(rat,int)"]}
{"id": "C04", "title": "Rational ordering is the order of the rationals", "statement": "a < b (and a > b) agree with the order of the rational numbers represented, hence form a strict total order up to value, whenever the cross products fit in 32 bits; when they do not fit the comparison is undefined behaviour rather than a wrong answer.", "quantifier": "for all pairs of rationals with positive int32 denominators", "why_tests_cant": "Transitivity and trichotomy quantify over all triples; sorting code relies on them for every input.", "anchors": ["public/gal/numeric.hpp: operator<(rat,rat), operator>(rat,rat)"]}
{"id": "C05", "title": "Compile-time power equals mathematical power", "statement": "pow(s, N, 1) returns s multiplied by itself N times for N > 0, the reciprocal of s^|N| for N < 0, and 1 for N = 0, for any field element s (s non-zero when N < 0).", "quantifier": "for all field elements s and all integer exponents N representable as int", "why_tests_cant": "The unrolled cases and the square-and-multiply loop branch on N; each exponent is a different code path and there are 2^32 of them.", "anchors": ["public/gal/numeric.hpp: pow"]}
{"id": "C06", "title": "next_pow_2 returns the least power of two not below its argument", "statement": "For 1 <= s <= 2^(w-1) (w = 32 or 64) next_pow_2(s) is a power of two, is at least s, and is less than 2s (so no smaller power of two suffices); it maps 0 to 0 and anything above 2^(w-1) to 0.", "quantifier": "for all 2^32 (resp. 2^64) inputs", "why_tests_cant": "The bit-smearing trick must fill every lower bit for every input; exhaustive testing of 64-bit inputs is impossible.", "anchors": ["public/gal/numeric.hpp: next_pow_2"]}
{"id": "C07", "title": "Expression checksums: CRC-32 is the IEEE polynomial CRC and never collides on 32-bit words", "statement": "crc32(x) equals the reflected CRC-32 (polynomial 0xEDB88320, initial value and final xor all ones) of the four little-endian bytes of x, the 256-entry table agrees with bitwise polynomial division, and crc32 is injective on 32-bit inputs, so distinct words never receive the same checksum.", "quantifier": "for all 2^32 inputs, and for all pairs of distinct inputs", "why_tests_cant": "Injectivity is a statement about 2^64 pairs; one wrong table entry is only hit by some byte values.", "anchors": ["public/gal/crc.hpp: detail::crc32_table, detail::crc32_8, crc32"]}
{"id": "C08", "title": "Bit utilities meet their documentation", "statement": "rot32 rotates right by one byte (four applications are the identity and it is a bijection); leading_set_index(x) is the index of the most significant set bit for x > 0; pop_count counts set bits; next_even(x) is the least value above x with an even number of set bits, and its loop runs at most a bounded number of steps.", "quantifier": "for all 32-bit inputs (next_even: for all inputs for which the result exists below 2^32)", "why_tests_cant": "Universally quantified over 2^32 inputs and involves minimality, which sampling cannot establish.", "anchors": ["public/gal/numeric.hpp: rot32, leading_set_index, pop_count, next_even"]}
{"id": "C09", "title": "Compile-time sort returns an ordered permutation", "statement": "For any range and any strict weak order, sort terminates, its result is ordered (no later element is less than an earlier one), is a permutation of the input, and no access leaves [first, last).", "quantifier": "for all element types, all ranges of any length, and all strict weak orders", "why_tests_cant": "Needs all permutations and all lengths and duplicates patterns; also the out-of-bounds freedom of the pivot cursor is invisible to tests.", "anchors": ["public/gal/algorithm.hpp: detail::sort (both overloads), detail::swap"]}
{"id": "C10", "title": "Geometric product of basis blades is the Clifford product of the metric", "statement": "For metric<P,V,R>, the (element, sign) pair computed for two basis blades is exactly their product in the Clifford algebra of the diagonal quadratic form with R zeros, P ones and V minus ones (in that generator order).", "quantifier": "for all P, V, R with P+V+R <= 8 (and, for the loop itself, any dimension) and all pairs of blades", "why_tests_cant": "4^n pairs for every signature; sign errors show only for certain overlaps of blades.", "anchors": ["public/gal/geometric_algebra.hpp: metric::dot, metric::intercept, algebra::geometric::product"]}
{"id": "C11", "title": "Geometric product is associative and unital, with the generator relations", "statement": "(a b) c = a (b c), 1 a = a 1 = a, e_i e_j = - e_j e_i for i != j, and e_i e_i = dot(i,i), for products of basis blades as computed by the library.", "quantifier": "for all signatures and all triples of basis blades", "why_tests_cant": "8^n triples per signature; associativity is a universally quantified law.", "anchors": ["public/gal/geometric_algebra.hpp: algebra::geometric::product"]}
{"id": "C12", "title": "Exterior product is the grade-raising part, alternating, associative and metric independent", "statement": "The exterior product of two basis blades equals the grade r+s part of their geometric product, is zero exactly when they share a generator, is associative and graded-commutative ((-1)^(rs)), and does not depend on the metric.", "quantifier": "for all signatures and all pairs/triples of basis blades", "why_tests_cant": "Universally quantified algebraic laws over exponentially many blades and infinitely many signatures.", "anchors": ["public/gal/geometric_algebra.hpp: algebra::exterior::product"]}
{"id": "C13", "title": "Left contraction is the grade s-r part of the geometric product", "statement": "a >> b on basis blades of grades r and s equals the grade s-r part of ab (zero when r > s), and satisfies the adjunction (a ^ b) >> c = a >> (b >> c).", "quantifier": "for all signatures and all pairs/triples of basis blades", "why_tests_cant": "Exponential number of blade pairs; adjunction is a universally quantified law.", "anchors": ["public/gal/geometric_algebra.hpp: algebra::contract::product"]}
{"id": "C14", "title": "Inner product is the |r-s| grade part and its symmetry", "statement": "a | b on basis blades equals the grade |r-s| part of ab when both are non-scalar and zero when either is scalar; reversing the operands multiplies the result by the sign (-1)^(min(r,s)(max(r,s)-min(r,s))), so swapping operands is only safe when that sign is +1.", "quantifier": "for all signatures and all pairs of basis blades", "why_tests_cant": "The expression layer reorders operands of | by checksum; whether that is sound depends on a sign rule over all grade pairs.", "anchors": ["public/gal/geometric_algebra.hpp: algebra::symmetric_inner::product", "public/gal/expr.hpp: operator|"]}
{"id": "C15", "title": "Reversion is an involutive anti-automorphism", "statement": "Reversing twice gives the original multivector, and reverse(ab) = reverse(b) reverse(a) for every pair of multivectors; on a k-blade reversion multiplies by (-1)^(k(k-1)/2).", "quantifier": "for all multivectors in every algebra", "why_tests_cant": "Law over all pairs of multivectors.", "anchors": ["public/gal/algebra.hpp: detail::reverse", "public/gal/geometric_algebra.hpp: algebra::geometric::product"]}
{"id": "C16", "title": "Poincare dual pairs every blade with its complement", "statement": "For every basis blade e, e ^ dual(e) is the unit pseudoscalar; dualising twice multiplies a k-blade by (-1)^(k(n-k)); the dual is linear, so dual applied to a multivector acts blade by blade.", "quantifier": "for all dimensions n <= 8 and all multivectors", "why_tests_cant": "Sign bookkeeping over all subsets of generators.", "anchors": ["public/gal/algebra.hpp: detail::poincare_complement, detail::poincare_dual"]}
{"id": "C17", "title": "Inverse pseudoscalar is inverse", "statement": "In every non-degenerate signature pseudoscalar * pseudoscalar_inv = pseudoscalar_inv * pseudoscalar = 1; in every degenerate signature pseudoscalar squares to zero so no inverse exists.", "quantifier": "for all signatures", "why_tests_cant": "Quantifies over all signatures; the sign formula depends on n(n-1)/2 + V.", "anchors": ["public/gal/geometric_algebra.hpp: algebra::pseudoscalar, algebra::pseudoscalar_inv"]}
{"id": "C18", "title": "even_mv and bivector_mv span what they say", "statement": "even_mv lists every even-grade basis element exactly once, in ascending order, with fresh consecutive indeterminates; bivector_mv lists every grade-2 basis element exactly once and nothing else.", "quantifier": "for all dimensions", "why_tests_cant": "The enumeration walks next_even; correctness for all dimensions cannot be sampled.", "anchors": ["public/gal/geometric_algebra.hpp: algebra::even_mv, algebra::bivector_mv", "public/gal/numeric.hpp: next_even"]}
{"id": "C19", "title": "Multivector sum denotes addition and keeps canonical form", "statement": "The sum of two canonical symbolic multivectors evaluates, for every assignment of the indeterminates, to the sum of the values; the result is again canonical (terms strictly ascending by element, monomials strictly ascending within a term, no zero coefficient, no empty term), provided coefficient arithmetic stays exact.", "quantifier": "for all canonical symbolic multivectors and all assignments of non-zero field values to indeterminates", "why_tests_cant": "Merge logic branches on three nested orders; every interleaving of operands matters.", "anchors": ["public/gal/algebra.hpp: detail::sum, mon_view::operator<, mon_view::operator=="]}
{"id": "C20", "title": "Multivector products denote the bilinear extension of the blade product", "statement": "The symbolic product of two multivectors evaluates, for every assignment, to the bilinear extension of the chosen blade product (geometric, exterior, contraction, inner) of the operands' values, and the result is canonical, provided coefficient arithmetic stays exact.", "quantifier": "for all symbolic multivectors, all four products, all signatures, all assignments of non-zero values", "why_tests_cant": "Combines sorting, merging of indeterminates and collation; correctness over all polynomial inputs cannot be sampled.", "anchors": ["public/gal/algebra.hpp: detail::product, detail::collate"]}
{"id": "C21", "title": "Scaling, shifting, negating and component selection denote the obvious linear maps", "statement": "scale(q,m), shift(q,m), negate(m), m[e], component(m,e), select_grade(g), extract<E...>(m) evaluate to q times m, m plus scalar q, minus m, the coefficient of e, the coefficient of e, the grade-g part, and the restriction of m to the listed elements.", "quantifier": "for all symbolic multivectors, all grades, all element lists, all assignments", "why_tests_cant": "Each is claimed for every multivector; e.g. an early loop exit in grade selection only loses terms when element order and grade order disagree.", "anchors": ["public/gal/algebra.hpp: mv::scale, mv::operator[], mv::select_grade, detail::scale, detail::shift, detail::negate, detail::component, detail::extract"]}
{"id": "C22", "title": "Collation canonicalises without changing the value", "statement": "Collating any list of per-element monomials yields a canonical multivector (strictly ascending elements, strictly ascending monomials, no zero coefficient, no empty term) with the same value under every assignment, provided coefficient arithmetic stays exact.", "quantifier": "for all unsorted monomial lists and all assignments", "why_tests_cant": "Run-merging after an unstable sort must be right for every multiset of monomials.", "anchors": ["public/gal/algebra.hpp: detail::collate, mon_view::operator<"]}
{"id": "C23", "title": "Symbolically zero results are literally empty", "statement": "If a canonical result represents the zero polynomial in every component then it has no terms; two canonical multivectors representing the same polynomials are identical. So cancellation such as p >> p for a conformal point produces an empty (cost free) result.", "quantifier": "for all canonical symbolic multivectors", "why_tests_cant": "Uniqueness of normal forms is a statement about all pairs of inputs.", "anchors": ["public/gal/algebra.hpp: detail::sum, detail::collate, mv::operator==", "README.md: point_norm example"]}
{"id": "C24", "title": "Division of multivectors by monomials", "statement": "lhs / rhs, where rhs is a single scalar monomial, multiplied back by rhs gives lhs for every assignment of non-zero values.", "quantifier": "for all numerators, all single-monomial denominators, all assignments of non-zero values", "why_tests_cant": "Exponent bookkeeping has separate branches for absent, partially cancelled and fully cancelled indeterminates.", "anchors": ["public/gal/algebra.hpp: detail::divide"]}
{"id": "C25", "title": "Null-basis conversion is an exact change of basis", "statement": "to_natural_basis and to_null_basis are mutually inverse linear maps on values, and in the natural basis the null vectors satisfy no^2 = ni^2 = 0 and no . ni = -1.", "quantifier": "for all symbolic multivectors of every algebra with a negative last generator, all assignments", "why_tests_cant": "Round trip identity over all multivectors.", "anchors": ["public/gal/null_algebra.hpp: to_null_basis, to_natural_basis"]}
{"id": "C26", "title": "No out-of-bounds writes: results fit the declared capacity", "statement": "sum, product, collate, divide, shift, component selection and basis conversion never index outside their fixed-size input and output arrays when the operands are well formed.", "quantifier": "for all well-formed multivectors within their capacities", "why_tests_cant": "Array capacities are computed by formulas from operand capacities; the worst case over all inputs must fit.", "anchors": ["public/gal/algebra.hpp: mv, detail::sum, detail::product, detail::collate, detail::divide, detail::shift", "public/gal/null_algebra.hpp"]}
{"id": "C27", "title": "Stack is last-in first-out", "statement": "After pushing x onto a stack, pop() returns x and restores the previous contents; pop(n) discards the n most recent elements; peek returns the most recent element.", "quantifier": "for all stacks, element values and push/pop histories within capacity", "why_tests_cant": "A history property over all sequences of operations.", "anchors": ["public/gal/stack.hpp: stack::push, stack::pop, stack::peek"]}
{"id": "C28", "title": "Tuple operations obey sequence laws", "statement": "get<I> after push/append/set returns the expected element, push adds at the front and pop removes the element push added, split<I> separates the first I elements from the rest without loss (concatenating the two parts gives the original, including I = 0 and I = size), split_drop<I> additionally drops one element after the split, apply visits elements in order and apply_reverse in reverse order.", "quantifier": "for all tuples and all indices", "why_tests_cant": "Structural recursion over arbitrary lengths; boundary indices matter.", "anchors": ["public/gal/tuple.hpp: tuple::get, set, push, append, pop, split, split_drop, apply, apply_reverse, mutate"]}
{"id": "C29", "title": "Entity storage and element lookup agree", "statement": "For entity<A,T,E...>, select(e) returns the stored coefficient for a listed element and 0 for any element not listed; ie(id) evaluated with the entity's own data equals the multivector whose coefficient at each listed element is the stored value.", "quantifier": "for all element lists without repetition, all data", "why_tests_cant": "Quantifies over all element lists and all data values.", "anchors": ["public/gal/entity.hpp: detail::indexof, detail::construct_element_lut, entity::select, entity::ie"]}
{"id": "C30", "title": "Named geometric entities encode their documented multivectors and decode back", "statement": "Each named entity's indeterminate expression evaluates to its documented multivector (e.g. PGA point -z e012 + y e013 - x e023 + e123, CGA point no + p + 1/2 p^2 ni, rotors, translators, lines, planes), and constructing the named entity from a computed entity with those coefficients returns the original parameters.", "quantifier": "for all parameter values of every named entity", "why_tests_cant": "The index/offset tables inside ie() are never inspected by tests except for the particular entities used; each holds for all real parameters.", "anchors": ["public/gal/vga.hpp", "public/gal/pga.hpp", "public/gal/pga2.hpp", "public/gal/cga.hpp"]}
{"id": "C31", "title": "Monomial evaluation equals coefficient times product of powers", "statement": "Evaluating a symbolic coefficient at run time gives q times the product of indeterminate values raised to their degrees, for every rational coefficient q and every degree.", "quantifier": "for all coefficients, degrees, and input data", "why_tests_cant": "The evaluator branches on special values of q and of the degree; the claim is for all.", "anchors": ["public/gal/engine.hpp: detail::ind_value, detail::cmon::value, detail::cterm::value"]}
{"id": "C32", "title": "Result scale factors are honoured", "statement": "compute of an expression carrying an overall rational factor returns that factor times the unscaled result, for every factor including 0, negative factors and fractions.", "quantifier": "for all expressions and all rational factors", "why_tests_cant": "The final scaling has special-case branches for numerator and denominator values.", "anchors": ["public/gal/engine.hpp: detail::compute_entity", "public/gal/expr.hpp: rpne::q"]}
{"id": "C33", "title": "Expression operators build expressions with the right value", "statement": "For each lambda operator (+, -, *, ^, >>, |, &, %, ~, !, unary -, integer scaling, division) the value of the built expression is the operator applied to the operand values.", "quantifier": "for all operand expressions (including zero, constants and scaled expressions) and all input data", "why_tests_cant": "Operators flatten, reorder and special-case; each must be value-preserving on every expression tree, not only on those in the tests.", "anchors": ["public/gal/expr.hpp: operator+, operator-, operator*, operator^, operator>>, operator|, operator&, operator%, operator~, operator!"]}
{"id": "C34", "title": "Like-term merging in sums preserves the value", "statement": "Adding expressions merges equal summands by adding their coefficients and drops summands whose coefficients cancel; the value of the simplified sum equals the sum of values.", "quantifier": "for all lists of summands", "why_tests_cant": "Depends on structural equality of sub-expressions and checksum order across all summand lists.", "anchors": ["public/gal/expr.hpp: operator+(rpne,rpne), node::operator=="]}
{"id": "C35", "title": "Evaluating an expression in postfix order equals evaluating its tree", "statement": "Executing the postfix program produced for an expression with the library's stack machine leaves exactly the value of the expression tree on the stack, never underflows the stack, and consumes the inputs in order.", "quantifier": "for all expression trees and all inputs", "why_tests_cant": "Invariant over every prefix of every program.", "anchors": ["public/gal/dfa.hpp: rpn_ctx::compute_state", "public/gal/expr.hpp: rpne::append"]}
{"id": "C36", "title": "Common-subexpression extraction preserves the value", "statement": "Rewriting an expression so that repeated sub-expressions are computed once into temporaries and referenced later yields the same value, and every temporary is defined before it is used.", "quantifier": "for all expressions and all inputs", "why_tests_cant": "The rewriting depends on the global repetition structure of the expression.", "anchors": ["public/gal/dfa.hpp: rpn_reshape, compare_se, register_se"]}
{"id": "C37", "title": "Conformal points: null and distance laws", "statement": "For all CGA points p, p >> p simplifies to an empty result, and p1 >> p2 evaluates to -1/2 of the squared Euclidean distance of the points.", "quantifier": "for all real coordinates of the points", "why_tests_cant": "A polynomial identity over all reals; float tests only sample.", "anchors": ["public/gal/cga.hpp: point::ie, cga_metric", "public/gal/algebra.hpp: detail::product"]}
{"id": "C38", "title": "Projective incidence laws", "statement": "In PGA, p1 & p2 & p3 evaluates to the plane containing the three points (README), p1 & p2 to their line, and the join with a dependent point is zero.", "quantifier": "for all real coordinates of the points", "why_tests_cant": "A polynomial identity over all reals; float tests only sample.", "anchors": ["public/gal/pga.hpp: point::ie, plane, line", "public/gal/expr.hpp: operator&", "README.md"]}
{"id": "C39", "title": "Sandwich by rotors and reflections preserve the geometry", "statement": "The sandwich b a ~b of a VGA vector by a unit rotor is again a vector of the same norm, and equals Rodrigues' rotation by the rotor's angle about its axis; rotors compose.", "quantifier": "for all unit axes, angles and vectors", "why_tests_cant": "Identity over all reals.", "anchors": ["public/gal/vga.hpp: rotor::ie, vector::ie", "public/gal/expr.hpp: operator%"]}
{"id": "C40", "title": "Algebra laws of symbolic multivectors hold literally", "statement": "For canonical symbolic multivectors a, b, c: (ab)c and a(bc), (a^b)^c and a^(b^c), a(b+c) and ab+ac, (a+b)c and ac+bc, a+b and b+a, (a+b)+c and a+(b+c) are the very same arrays of terms, monomials and indeterminates, and a+(-a) is empty; so a user may regroup an expression without changing the compiled result.", "quantifier": "for all canonical multivectors in every algebra of dimension at most 8 whose coefficient arithmetic stays exact", "why_tests_cant": "Quantifies over all symbolic multivectors.", "anchors": ["public/gal/algebra.hpp: detail::sum, detail::product, detail::negate"]}
{"id": "C41", "title": "Input data is laid out in argument order", "statement": "Coefficient i of the k-th argument of compute is read through the indeterminate whose id is the sum of the sizes of the earlier arguments plus i.", "quantifier": "for all lists of arguments of all sizes", "why_tests_cant": "The number and sizes of arguments are unbounded.", "anchors": ["public/gal/engine.hpp: detail::fill, detail::compute", "public/gal/expr.hpp: rpne_entities"]}
{"id": "C42", "title": "Temporaries are evaluated before use and references read them back", "statement": "Evaluating a temporary stores the value of each of its terms under its own ids and changes no other entry, provided it refers only to inputs, constants and earlier temporaries; a reference to the temporary then has exactly the value of the temporary.", "quantifier": "for all temporaries and all input data", "why_tests_cant": "Quantifies over all expressions and data; the assignments happen one by one in the array that is being read.", "anchors": ["public/gal/engine.hpp: detail::compute_temp, detail::finalize_temps", "public/gal/algebra.hpp: mv::create_ref"]}
{"id": "C43", "title": "Functions of scalars are evaluated in every algebra", "statement": "sqrt, sin, cos and tan of a scalar expression evaluate to the function applied to the value of the expression.", "quantifier": "for all algebras, scalar expressions and input data", "why_tests_cant": "Values are real numbers; the algebra and the expression are arbitrary.", "anchors": ["public/gal/engine.hpp: detail::apply_mv_op, detail::cmon::value, detail::finalize_entity", "public/gal/algebra.hpp: mv::sqrt, mv::sin, mv::cos, mv::tan"]}
{"id": "C44", "title": "Expressions fit the arrays they are built in", "statement": "Every lambda operator builds its result in an array whose length is fixed by the lengths of the operands' arrays (S1+S2+3 for + and ^, S1+S2+1 for *, >>, | and /, S1+S2+2 for scalar_product, S+1 for unary operators, S+2 for int/expression); it never writes past the end of that array.", "quantifier": "for all operand expressions", "why_tests_cant": "The number of nodes written depends on how summands merge; expressions are unbounded.", "anchors": ["public/gal/expr.hpp: operator+, operator^, operator*, operator|, operator>>, operator/, scalar_product, rpne_concat"]}
{"id": "C45", "title": "compute returns the value of the expression", "statement": "compute(lambda, inputs...) returns one entity whose coefficients, read with select, are those of the value of the lambda's expression in the Clifford algebra of the metric, where each input stands for the element with its coefficients. Compilation without overflow implies that evaluation has no undefined behaviour.", "quantifier": "for all metrics up to dimension 8, all expressions, all inputs with elements in ascending order and all coefficients", "why_tests_cant": "The expressions, algebras and coefficients are unbounded; the tests fix a dozen expressions.", "anchors": ["public/gal/engine.hpp: detail::compute", "public/gal/dfa.hpp: rpn_ctx, rpn_reshape", "public/gal/expr.hpp: rpne_entities"]}
{"id": "C46", "title": "compute returns the components of a tuple in order", "statement": "When the lambda returns a tuple of expressions, compute returns as many entities as the tuple has components, and the k-th entity is the value of the k-th component.", "quantifier": "for all metrics up to dimension 8, all tuples, all inputs and coefficients", "why_tests_cant": "The number and the shape of the components are unbounded; the library's own tests of tuples are commented out except one.", "anchors": ["public/gal/engine.hpp: detail::compute, detail::finalize_entities", "public/gal/expr.hpp: rpne_concat, rpne::append_as_se", "public/gal/dfa.hpp: rpn_reshape (op_se)"]}
{"id": "C47", "title": "compute is right in the conformal algebra and its null basis", "statement": "In algebras whose users give and read coefficients in the basis with the null vectors no and ni, compute converts inputs to the orthogonal basis and results back: the returned entity, read with select, has the coefficients of the value of the expression with respect to no and ni. Tuples are returned componentwise.", "quantifier": "for all metrics of dimension 2 to 8, all expressions, all inputs with elements in ascending order and all coefficients", "why_tests_cant": "The conversion mixes coefficients of different elements; the tests fix a few points and spheres.", "anchors": ["public/gal/null_algebra.hpp: to_natural_basis, to_null_basis", "public/gal/dfa.hpp: rpn_ctx (op_id, op_cse, op_comp, constants)", "public/gal/engine.hpp: detail::finalize_entity, detail::finalize_temps", "public/gal/cga.hpp: literals"]}
{"id": "C48", "title": "compute is right for quotients and functions", "statement": "When the lambda divides by a scalar expression or applies sqrt, sin, cos or tan to one, compute returns the value of the expression: the dividend times the inverse of the value of the divisor, and the function applied to the value of its argument. Divisors and arguments may themselves be sums, products, quotients or functions.", "quantifier": "for all metrics up to dimension 8, all expressions, all inputs and coefficients with non-zero divisors, all interpretations of the functions", "why_tests_cant": "Quotients and functions are evaluated through temporaries that the expression compiler introduces; which ones depends on the shape of the whole expression and on the numbering of the inputs. The tests divide by a single input.", "anchors": ["public/gal/dfa.hpp: rpn_reshape (op_div, functions), rpn_ctx", "public/gal/algebra.hpp: divide, mv::sqrt", "public/gal/engine.hpp: detail::finalize_temps, cmon::value"]}
{"id": "C49", "title": "The type compute returns has exactly the components that can be non-zero", "statement": "The entity returned by compute lists a basis element if and only if there are coefficients for the inputs for which the value of the expression has a non-zero coefficient at that element. For a product x * y these are the products of an element of x and an element of y that do not vanish.", "quantifier": "for all metrics up to dimension 8, all expressions and all element lists of the inputs", "why_tests_cant": "Which components cancel depends on the whole expression symbolically; a test sees one expression and one set of elements, and a component that is always zero gives a right value.", "anchors": ["public/gal/algebra.hpp: sum, product, extract", "public/gal/dfa.hpp: rpn_ctx", "public/gal/engine.hpp: detail::finalize_entity"]}
{"id": "C50", "title": "normalize makes vectors, rotors and motors have norm one", "statement": "After v.normalize() a vector has length one and the same direction. A rotor built from an angle and a non-null axis and then normalised denotes R with R ~R = 1. After m.normalize() a motor whose rotational part is not zero denotes M' with M' ~M' = 1 and M = M' (alpha + beta I), where alpha + beta I is the square root of M ~M; a motor with M ~M = 1 is unchanged.", "quantifier": "for all coefficients with non-zero norm, any field and any square root of the value it is applied to", "why_tests_cant": "The normalisation of a motor divides by a dual number (a scalar plus a pseudoscalar); an error in the pseudoscalar part is invisible for pure rotations and for pure translations, which are what tests use.", "anchors": ["public/gal/vga.hpp: vector::normalize, rotor, rotor::normalize", "public/gal/pga.hpp: motor::normalize", "public/gal/engine.hpp: compute"]}
{"id": "C51", "title": "exp of a line or bivector is the exponential", "statement": "compute([](auto l) { return exp(l); }, l) for a line or a bivector of the projective algebra with non-zero Euclidean part returns the sum of the series of the powers l^k / k!, with the eight components of a motor, and the result M satisfies M ~M = 1.", "quantifier": "for all real coefficients with non-zero direction", "why_tests_cant": "The expression compiles to a program with many temporaries; that it equals an infinite series cannot be read off samples.", "anchors": ["public/gal/expr.hpp: exp", "public/gal/pga.hpp: line", "public/gal/engine.hpp: compute"]}
{"id": "C52", "title": "log of a motor is a logarithm", "statement": "m.log() for a motor with M ~M = 1 returns a bivector whose exponential is M. The logarithm of the motor computed by exp(l) is l for lines with direction shorter than pi.", "quantifier": "for all real motors of norm one that are not pure translations", "why_tests_cant": "The code takes a different branch when the scalar part is below 1e-6; the branch is reached by rotations close to a half turn only, and its result must hold for every axis and every translation along it.", "anchors": ["public/gal/pga.hpp: log, motor::bivector", "public/gal/engine.hpp: compute"]}
{"id": "C53", "title": "A lambda means what its operators mean", "statement": "compute(f, args...) for a lambda f built from parameters, constants and the operators +, -, *, ~, !, |, ^, >>, &, %, integer factors, component and grade selection returns the value obtained by replacing every operator by the operation of the Clifford algebra, applied to the elements the arguments stand for. The same holds for lambdas with quotients and functions as long as no divisor is zero, for lambdas that return tuples, and in algebras with a null basis. A part of a lambda may be computed first and its result passed as an argument, and the parts of a tuple may be computed by separate calls: the coefficients are the same. Whether the lambda avoids the known defects of the operators can be checked for the types of the arguments, and then holds for all their coefficients.", "quantifier": "for all lambdas, all metrics up to dimension 8 and all argument types that pass the check, and all coefficients", "why_tests_cant": "The operators merge, reorder and share subexpressions before anything is evaluated; what happens to one operator depends on the rest of the lambda and on the numbering of the coefficients.", "anchors": ["public/gal/expr.hpp: operators of rpne", "public/gal/dfa.hpp: rpn_reshape, rpn_ctx", "public/gal/engine.hpp: compute"]}
{"id": "C54", "title": "Motors move rigidly and planes reflect", "statement": "p % m for a point p and a motor m is the image of p under a rigid motion that depends on m only, a rotation followed by a translation. p % q for a plane q is the mirror image of p. Moving by m * n is moving by n and then by m. A moved point is on a moved plane exactly if the point is on the plane.", "quantifier": "for all points, planes and motors whose rotational part is not zero, normalised or not", "why_tests_cant": "Motors have eight coefficients and need not be normalised or satisfy the Study condition; that distances and orientation are kept for all of them is a statement about all pairs of points.", "anchors": ["public/gal/expr.hpp: operator%, operator*", "public/gal/pga.hpp: motor, plane", "public/gal/vga.hpp: point", "public/gal/engine.hpp: compute"]}
{"id": "C55", "title": "exp of a line is the screw motion about the line", "statement": "p % exp(l) for the line l through q with direction u and pitch h, that is with moment q x u + h u, is p rotated about the line by twice the length of u and shifted along it by 2 h u, whether the exponential is computed first or in the same lambda. exp(a & b) for points a and b rotates about the line through a and b by twice their distance, whether the line is computed first or in the same lambda.", "quantifier": "for all real lines with non-zero direction, all pitches and all points", "why_tests_cant": "The statement joins three separately compiled programs (join, exp and the sandwich product), signs and factors of two must agree among all of them, and it involves trigonometric functions of the length of u.", "anchors": ["public/gal/expr.hpp: exp, operator%, operator&", "public/gal/pga.hpp: line, motor", "public/gal/vga.hpp: point", "public/gal/engine.hpp: compute"]}
{"id": "C56", "title": "Conformal points, spheres and versors", "statement": "In CGA, p >> s is zero exactly if the point p lies on the sphere or plane s. p % T, p % R and p % D for a translator, rotor and dilator are the translated, rotated and stretched point; p % s is the inversion in a sphere or the mirror image in a plane, each up to a weight. p ^ q ^ r ^ n with n at infinity is zero exactly if the points lie on a line, and with one more point exactly if the four lie on a plane. cga::point{r} reads the coordinates of a result r.", "quantifier": "for all points, spheres, planes, unit axes and angles, dilators that are not null, and points that are not the centre of the inversion", "why_tests_cant": "Points are quadratic in their coordinates and every product is computed in another basis than arguments and results, so that an error in a conversion may cancel for simple points; the statements are identities of polynomials in up to fourteen unknowns, and the weight differs from 1 only for some versors.", "anchors": ["public/gal/cga.hpp: point", "public/gal/null_algebra.hpp: to_null_basis, to_natural_basis", "public/gal/expr.hpp: operator%, operator>>, operator^", "public/gal/engine.hpp: compute"]}
{"id": "C57", "title": "Rounding errors of compute are bounded", "statement": "With floating-point numbers, each component compute returns differs from the exact one by at most ((1 - u)^-k - 1) times the sum of the absolute values of the monomials of that component, where u is the unit roundoff and k the number of roundings on the way. In particular v * v has a relative error of three roundings, each coordinate of v % r for a rotor r from an angle and a unit axis is off by at most 13 roundings of |x| + |y| + |z|, and each coordinate of p % m for a motor by at most 21 roundings of the size of the point and of the translation. normalize returns a vector whose squared length differs from one by at most 12 roundings. With quotients, square roots and common subexpressions the bound is that of the same program with absolute values, if divisors have no cancellation: each coordinate of a / sqrt(a >> a) has a relative error of at most 6 roundings, and each coefficient of the bivector part of exp(b) is off by at most 20 roundings of that coefficient of b.", "quantifier": "for every lambda without temporaries or with temporaries as described, all argument types and values, and every arithmetic whose operations have a relative error of at most u (IEEE arithmetic without overflow and underflow); for IEEE arithmetic with overflow and underflow, all arguments that are zero or between 2^-a and 2^a in absolute value, where a depends on the degrees of the monomials and the range of exponents", "why_tests_cant": "Tests compare with a tolerance at chosen points. The bound is for all inputs, and inputs with cancellation, where the relative error is largest, are rare.", "anchors": ["public/gal/engine.hpp: cmon, cterm, compute_entity, compute", "public/gal/numeric.hpp: pow", "public/gal/vga.hpp: vector::normalize"]}
{"id": "C58", "title": "Literals denote the products in their names", "statement": "A literal n_e with digits i, j, ... denotes n times the product of the generators i, j, ... in this order (in CGA the generators are counted from one); k_ps * n_ips is k n in VGA and CGA.", "quantifier": "for all literals of the four algebras with such names, all numbers from 1 to 2^31 - 1, and coefficients in any field of characteristic zero", "why_tests_cant": "The tables of bits are written by hand in four headers; a wrong bit shows only in the expression that uses that literal, and the sign of _ips depends on the metric.", "anchors": ["public/gal/vga.hpp: operator\"\"", "public/gal/pga.hpp: operator\"\"", "public/gal/pga2.hpp: operator\"\"", "public/gal/cga.hpp: operator\"\""]}
{"id": "C59", "title": "to_string writes an entity so that it can be read back", "statement": "Two entities with the same text have the same value, if different numbers are written differently and zero is written 0. If neither is the entity without components, they have the same basis elements in the same order. An element is written with the name of its literal.", "quantifier": "for all entities of algebras with up to eight generators, and every way of writing numbers without spaces in which no e is followed by a digit", "why_tests_cant": "There are 2^256 lists of elements; that no text can be split in two ways, in spite of the e in exponents, is a statement about all pairs of entities.", "anchors": ["public/gal/format.hpp: to_string"]}
{"id": "C60", "title": "Metric geometry through compute", "statement": "In PGA, (p | a) * a and (p | l) * l are the feet of the perpendiculars from the point p to the plane a and to the line l; a & p is n.p + d, for a unit normal up to sign the distance to the plane; a | b is the inner product of the normals; p | a is the perpendicular line, p | l the perpendicular plane and (a | p) * p the parallel plane through p; (a ^ b) & p is a plane through p and the line where a and b meet, and is zero exactly if p is on this line. For two lines, l | m is minus the inner product of the directions, and l & m is zero exactly if a plane contains both; its square is the square of the distance of the lines times the square of the length of the cross product of the directions. l | a is the plane through l perpendicular to a, and (l | a) * a the projection of l to a. The product of two planes moves points like the reflections in one and then the other, the product of two points translates by twice their difference, and (p & q) & (r & s) is six times the volume of the tetrahedron. In VGA, !(a ^ b) is the cross product, a | b the dot product, a ^ b ^ c the determinant, v % a is 2 (a.v) a - (a.a) v, and v % (a * b) the composition of two of these.", "quantifier": "for all points, planes with normals that are not null, lines with directions that are not null, and vectors over any field of characteristic zero", "why_tests_cant": "Each statement is an identity of polynomials in up to twelve unknowns that depends on the signs of the dual, of the stored moment of a line and of the order of the factors, which agree for special positions.", "anchors": ["public/gal/expr.hpp: operator|, operator&, operator^, operator%, operator!", "public/gal/pga.hpp: plane, line", "public/gal/vga.hpp: point, vector", "public/gal/engine.hpp: compute"]}
{"id": "C61", "title": "Named entities are what lambdas compute with", "statement": "A vector, rotor, point, plane, line or motor passed to compute stands for the element of the Clifford algebra that its coefficients describe, a conformal point for x e0 + y e1 + z e2 + o + (x^2 + y^2 + z^2)/2 oo, and compute returns the value of the lambda for these elements. In particular the constant terms of points take part like all others, although they are written by hand and laid out differently from what the library's functions produce.", "quantifier": "for all coefficients over any field of characteristic zero, all numbers of other arguments, and all lambdas of C53, including tuples and null bases", "why_tests_cant": "The lambda, the types of the arguments and their order are unlimited; a term whose indeterminates are looked up at a wrong place gives wrong results only in products that reach it.", "anchors": ["public/gal/vga.hpp: point::ie, vector::ie, rotor::ie", "public/gal/pga.hpp: plane::ie, line::ie, motor::ie", "public/gal/cga.hpp: point::ie", "public/gal/engine.hpp: compute"]}
{"id": "C62", "title": "Points, lines and planes move together", "statement": "In PGA, x % v for a point x, a plane x and the line x through two points are the images under one and the same map of space: the reflection in v if v is a plane or a point, the half turn about v if v is a line, and a rotation followed by a translation if v is a motor. The moved line is the line through the moved points, and a plane returned has the equation of the moved plane, each up to the stated weight.", "quantifier": "for all points, lines with distinct points, planes with normals that are not null, and motors m for which m * ~m is a number that is not zero, over any field of characteristic zero", "why_tests_cant": "Each of the twelve combinations is a separately compiled program with up to 120 monomials of degree three; that all of them belong to the same motion is a statement about all pairs of points and all coefficients.", "anchors": ["public/gal/expr.hpp: operator%, operator&", "public/gal/pga.hpp: plane, line, motor", "public/gal/vga.hpp: point", "public/gal/engine.hpp: compute"]}
{"id": "C63", "title": "Geometry of the plane through compute", "statement": "In PGA2, a ^ b for two lines is their common point, p & q the line through two points, a ^ p the equation of the line at the point, (p & q) & r twice the signed area of the triangle, a | b the inner product of the normals, p | a the perpendicular and (a | p) * p the parallel through p, (p | a) * a the foot of the perpendicular. x % b for a line b is the reflection of points and lines, x % q for a point q the half turn about q, x % m for a motor m a rotation followed by a translation; products of lines and of motors compose. pga2::point holds the coordinates of such a point.", "quantifier": "for all points of any weight, lines with normals that are not null, and motors that are not null, over any field of characteristic zero", "why_tests_cant": "The algebra has no tests in the repository that use points; signs of e01 and e02 cancel in examples with points on the axes.", "anchors": ["public/gal/pga2.hpp: line, point", "public/gal/expr.hpp: operator^, operator&, operator|, operator%", "public/gal/engine.hpp: compute"]}
{"id": "C64", "title": "Functions and quotients in algebras with a null basis", "statement": "In algebras with a null basis, as in all others, sqrt, sin, cos and tan in a lambda passed to compute are the functions of the standard library applied to their argument, and a quotient times its divisor is the dividend.", "quantifier": "for all lambdas, all functions and all coefficients", "why_tests_cant": "Whether the functions are applied at all is a statement about all lambdas and all functions; the division compiles or not depending on the capacities of the types of the arguments.", "anchors": ["public/gal/engine.hpp: finalize_temps, finalize_entity", "public/gal/null_algebra.hpp: to_null_basis, to_natural_basis", "public/gal/algebra.hpp: divide"]}
{"id": "C65", "title": "Results computed with rounding converge to the exact results as the precision grows", "statement": "Let a lambda with products, sums, quotients, square roots, sines and cosines and common subexpressions be computed in floating-point arithmetic with more and more digits, with arguments and library functions that are themselves only approximately right. The lambda may return one value or a tuple, in an algebra with or without a null basis. If no divisor is zero in the exact computation, compute never fails, returns the same components as the exact computation, and each coefficient converges to the exact one. If the errors of the arguments and functions are of the order of the unit roundoff, then so are the errors of the coefficients. In particular exp of a line converges to the exponential, ((a >> b) * b) / (b >> b) to the projection of a on b, and a / sqrt(a >> a) to the unit vector in the direction of a; in binary arithmetic with p digits their errors are at most a fixed multiple of 2^-p.", "quantifier": "all families of arithmetics whose error goes to zero while the results of the operations stay bounded, such as the formats of IEEE 754 with more and more digits and larger and larger ranges, including underflow and whatever an overflow returns; all arguments with divisors other than zero, all lambdas covered by C53", "why_tests_cant": "A test fixes one precision and a few arguments. It cannot tell a result that is wrong by a rounding error from one that stays wrong at any precision, and it cannot show that no intermediate value stored as a temporary spoils the limit.", "anchors": ["public/gal/engine.hpp:98-186", "public/gal/engine.hpp:255-345", "public/gal/engine.hpp:456-512", "public/gal/expr.hpp:904-919"]}
{"id": "C66", "title": "exp of a bivector in space, in the plane and in other algebras", "statement": "exp in a lambda passed to compute is the closed form of the exponential of a bivector in every algebra: the coefficients of compute([](auto b) { return exp(b); }, b) are the sums of the exponential series, and the result has norm one. In space, v % exp(b) for the bivector b = -u2 e01 + u1 e02 - u0 e12 turns the vector v about u by twice the length of u, counterclockwise; in the plane, x % exp(q) for a point q of weight w turns points and lines about q by twice w, clockwise.", "quantifier": "for all bivectors whose square is not zero, in VGA, PGA2, CGA and four-dimensional Euclidean space", "why_tests_cant": "The formula uses the square and the outer square of its argument in a way that depends on the algebra; whether it is the exponential for all coefficients is a statement about infinite series. The tests of the repository use exp in PGA only.", "anchors": ["public/gal/expr.hpp:904-919", "public/gal/engine.hpp: compute", "public/gal/vga.hpp: vector", "public/gal/pga2.hpp: line, point", "public/gal/cga.hpp: cga_algebra"]}
{"id": "C67", "title": "Rotors and translators of PGA move points as constructed", "statement": "For a pga::rotor made from an angle t and a unit axis k, compute([](auto p, auto r) { return p % r; }, p, r) turns the point p by the angle t about the axis through the origin with direction k. For a pga::translator made from d and (x, y, z), p % t moves p by d (x, y, z).", "quantifier": "for all angles, unit axes, distances, directions and points", "why_tests_cant": "Both are three-parameter families of motions; the rotor and translator types are not used in any test of the repository, and an axis or a direction chosen in a test does not settle the others.", "anchors": ["public/gal/pga.hpp:120-262", "public/gal/expr.hpp: operator%", "public/gal/engine.hpp: compute"]}
{"id": "C68", "title": "Circles, spheres, lines and planes through conformal points", "statement": "For entities of CGA computed one from another with operator^: p ^ q is zero exactly if the points p and q are the same; the circle c = p ^ (q ^ r) is zero exactly if two of the points are the same; x ^ c is zero exactly if the point x lies on the circle (or line) through p, q and r; x ^ (p ^ (q ^ (r ^ s))) is zero exactly if the five points lie on one sphere or plane. With infinity ni, written as the literal 1_ni or passed as an entity, x ^ (p ^ (q ^ ni)) is zero exactly if x lies on the line through p and q, and x ^ (p ^ (q ^ (r ^ ni))) is zero exactly if the four points lie on one plane.", "quantifier": "for all points, with coordinates in any field with characteristic zero (any ordered field for circles)", "why_tests_cant": "The conditions are polynomial identities in up to fifteen coordinates. The tests of the repository use lines through points in a computation of inverse kinematics only; that a point off the circle or sphere never passes cannot be tested.", "anchors": ["public/gal/cga.hpp: point, cga_algebra", "public/gal/expr.hpp: operator^", "public/gal/engine.hpp: compute", "public/gal/entity.hpp:57-158", "public/gal/null_algebra.hpp"]}
