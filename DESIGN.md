# Formal model of jeremyong/gal in Lean 4

Subject: the C++17 header-only geometric algebra library in /repo (`public/gal/*.hpp`).
Prover: Lean 4.33.0 with single Mathlib modules. Everything lives in `/verif/lean/Verif/`.

## Trusted base

* Lean's kernel.
* The three standard axioms `propext`, `Classical.choice`, `Quot.sound`. No axiom of our own, no
  `sorry`, no `native_decide`, no `bv_decide`.
* The reading of the C++ text: nothing in Lean ties the model to the sources. Each definition cites the file
  and lines it transcribes, and says where it simplifies.
* Platform assumptions: `int`/`num_t`/`den_t` are 32-bit two's complement, `uint_fast8_t` is 8 bits wide,
  `width_t` counters do not wrap (they are bounded by array capacities), GCC/Clang builtins behave as documented.

## Conventions

* **Undefined behaviour is an outcome.** `Verif.Out α` is either `ub` (signed overflow, division by zero,
  out-of-bounds access) or `val a lossy`, where `lossy` is a ghost flag recording that the rational
  `overflow_gate` rounded somewhere. `ok a` means "defined and exact". Claims about exactness have the hypothesis
  `op … = ok r`; claims about absence of UB are stated separately, with their preconditions.
* **Exact numbers, except in C57 and C65.** Run-time numbers are elements of an arbitrary field `K` of characteristic
  zero (so the reals are an instance). `Rounded` repeats the run-time part with the arithmetic as a parameter; C57 bounds the errors for
  every arithmetic whose operations have a relative error of at most `u`, and C65 takes the limit `u → 0` and shows errors of the order of `u`, with gradual underflow and with any result of an overflow. For formats of IEEE 754 the bounds of C57 are proved with underflow and overflow in the model, for numbers of a size for which neither can happen. Infinities, NaN, contraction to fused operations
  and reassociation are not modelled. `double` comparisons inside `overflow_gate` are modelled as exact rational
  comparisons; this is a simplification noted at the definition.
* **Templates are ordinary parameters.** `metric<P,V,R>` becomes three naturals, integer packs become lists, array
  capacities become naturals carried next to the data.
* **Specifications are separate.** `Verif/Spec/*` holds the mathematical meaning (rational value, Clifford algebra
  from Mathlib, sorted permutation, polynomial value, …). Property theorems live in `Verif/Props/*` and mention only
  the model function and the specification.
* When a property is false of the code, the file contains a negation theorem with a concrete witness, and the
  positive statement under the missing hypothesis with suffix `_partial`.

## Layers

| Layer | Lean modules | C++ |
| --- | --- | --- |
| machine integers, `Out` | `Base`, `OutRel` | language semantics |
| rationals, pow, bit tricks | `Rat32`, `Rat32Lemmas`, `Pow`, `Bits` | numeric.hpp |
| CRC | `Crc` | crc.hpp |
| sort | `Sort` | algorithm.hpp |
| blades, metrics, pseudoscalars | `Blade`, `BladeLemmas`, `Clifford`, `CliffordBasis`, `ExteriorBasis`, `Metrics`, `Pseudo` | geometric_algebra.hpp |
| symbolic multivectors | `MvFlat` (arrays), `MvNested` (lists), `MvRefine*`, `MvCanon`, `MvValue`, `MvSource` | algebra.hpp, null_algebra.hpp |
| containers | `Stack`, `Tuple`, `Entity` | stack.hpp, tuple.hpp, entity.hpp |
| named entities | `Named`, `Versor` (`normalize`, `log`), `ExpCompute`, `Literals` | vga/pga/pga2/cga.hpp |
| text | `Format` | format.hpp |
| expressions | `Expr` | expr.hpp |
| stack machine | `Machine` | dfa.hpp |
| common subexpressions | `Reshape`, `Subtree`, `TreeEqv`, `ReshapeScan`, `ReshapeEmit`, `ReshapeDone`, `ReshapePlain` | dfa.hpp |
| run-time evaluation | `Engine`, `Compute`, `Rounded` (with rounding) | engine.hpp, numeric.hpp |
| specifications | `Spec/*` | (none: mathematics) |
| property theorems | `Props/*` | |

Multivectors exist at two levels. The *flat* level has the three arrays with offsets, counts, sizes and capacities as
in `mv`. The *nested* level is what the C++ iterators enumerate: a list of (element, list of monomials). The flat
functions are shown to refine nested ones; value theorems are proved at the nested level.

The value of a symbolic multivector under an assignment `ρ` of field elements to indeterminate ids is
`Σ_terms (Σ_mons q · Π ρ(id)^degree) • β(element)` in a `K`-module `V` with an arbitrary map `β` from basis elements.
Taking `V` = Mathlib's `CliffordAlgebra Q` and `β` = ordered products of generators turns "the library's product is
the geometric product" into an equation in Mathlib's Clifford algebra.

## Plan per property

| Id | What is modelled | How it is to be proved |
| --- | --- | --- |
| C01 | all `rat` operators over checked int32 | case analysis; value in ℚ by `field_simp`; gate's reducing branches are exact |
| C02 | `overflow_gate` | true bound proved for all inputs; the 1e-7 claim refuted by a witness; even-numerator case proved |
| C03 | `==`, `!=` | `!=` on lowest terms proved; `==` refuted by witness, partial for unit denominators |
| C04 | `<`, `>` | cross multiplication lemma in ℚ |
| C05 | `pow` with unrolled cases and loop | loop invariant `temp1 * temp2^e = s^N`; N = 0 refuted by witness |
| C06 | `next_pow_2` on 32/64 bits | smear invariant on `Nat.testBit` |
| C07 | table, `crc32_8`, `crc32` | table vs bitwise division by full kernel evaluation of the 256 entries; injectivity from a left inverse |
| C08 | bit utilities | `Nat` bit lemmas; minimality by induction on the loop |
| C09 | both sorts with in-range checks | induction on length; permutation and ordering; comparator any strict weak order |
| C10, C11 | `metric`, `geometric::product` | loop invariant in `CliffordAlgebra`; closed-form sign, associativity |
| C12–C14 | `exterior`, `contract`, `symmetric_inner` | closed forms, grade-part characterisation |
| C15–C17 | `reverse`, `poincare_*`, pseudoscalars | closed forms and Clifford reversion |
| C18 | `even_mv`, `bivector_mv` | enumeration lemma for `next_even`; negation for dimension 5 |
| C19–C22 | `sum`, `product`, `scale`, `shift`, `negate`, selection, `collate` | merge induction; canonical-form invariant; value homomorphism |
| C23 | canonical form | injectivity of the interpretation into finitely supported functions |
| C24 | `divide` | constant divisor proved; one-indeterminate branch refuted, partial when the divisor's indeterminate is absent |
| C25 | `to_null_basis`, `to_natural_basis` | value under change of basis, round trip |
| C26 | capacities | builder invariants: number of writes at most capacity |
| C27 | `stack` | `pop(n)`/`peek` laws; `pop()` refuted by witness |
| C28 | `tuple` | list laws; `split<0>`, `split_drop` refuted |
| C29 | `entity` | list lookup lemmas |
| C30 | named `ie`s and constructors | symbolic evaluation, one theorem per entity; refutations for wrong tables |
| C31, C32 | `cmon::value`, `compute_entity` | case analysis over the special values; refutations for den = -1, num = 0 |
| C33, C34 | `rpne` operators | `Spec/Value`: an expression is the postfix form of a tree times a factor; one theorem per operator, refutations for lost factors and zero operands |
| C35 | `rpn_ctx` over arbitrary operations | postfix evaluation equals recursive evaluation, by mutual induction on trees; value by refinement (`Spec/Refine`) |
| C36 | `rpn_reshape` | invariant of the scan (every replaced range is a copy of a recorded range), then the copying loops; `Spec/Program` says what a program with temporaries computes; refutations for the reference counts and the factors |
| C37–C39 | named entities through the mv layer | evaluation of the symbolic result, then `ring` |
| C40 | sums and products of canonical multivectors | uniqueness (C23) lifts equality of values to equality of data |
| C41, C42 | `fill`, `finalize_temps`, `create_ref` | induction on the argument list / temporaries |
| C43 | `mv_op` through evaluation | proved outside null bases, refuted inside |
| C44 | array capacities of the operators | length of the result against the capacity in the return type |
| C45 | `compute` from the expression to the entity | the machine on multivectors refines the Clifford algebra (`Spec/CliffValue`, `Props/CliffRefine`); run twice: once for the shape of the temporaries, once for values with the data they leave |
| C46 | results of a tuple | `reshape` is the identity up to inner factors on a concatenation without repeated operations; the rest as C45 |
| C47 | `compute` in null bases | the conversions `to_natural_basis` and `to_null_basis` preserve the element of the Clifford algebra (`Spec/NullValue`: the elements of the null basis as exterior products with `no`, `ni`), the rest as C45; `Props/NullShared`: with temporaries that are the same in both bases |
| C48 | quotients and functions through `compute` | `Spec/QuotValue`: division by the scalar part, functions of the scalar part; `Spec/Fine`: every quotient or function ends a temporary and its operand is a scalar leaf. One temporary at a time: its data is the dividend with one more factor of degree -1, or a scalar with a function applied when it is read. `Spec/QuotTree` says which expressions lead to such programs: `rpn_reshape` cuts exactly at quotients, functions and their operands (`ReshapeQuot`), and an operand that is a scalar for all coefficients leaves a temporary with the scalar as its only element |
| C49 | which elements the result lists | `Spec/Values` (null bases: `Spec/NullValues`): the values the arguments may have. The symbolic result is canonical, so its polynomial at a listed element is non-zero, and over an infinite field some assignment shows it; `Props/SparseLambda` states it for the lambdas of C53 |
| C50 | `normalize` | the programs compiled from the lambdas inside the members are evaluated by the kernel for arbitrary coefficients (`Props/RunView`, `Props/MotorRun`); `Spec/Pga`: bivectors and even elements in terms of the generators |
| C51 | `exp` of lines and bivectors | `Spec/Exp`: each coefficient is the sum of the exponential series. A bivector is `(u + v I) N` with `N² = -1`, and the series splits into those of sine and cosine |
| C52 | `log` of motors | as C51; `atan2` is the argument of a complex number |
| C53 | lambdas | `Spec/Lambda`: syntax and meaning of lambdas; induction on the lambda with C33 and C34 for its operators, then C45. The conditions are a Boolean function of the lambda and the argument types, evaluated by the kernel. `Spec/LambdaMore`, `Props/LambdaMore`, `Props/LambdaQuot`: the same for tuples, null bases and quotients; that no divisor is zero is stated on the lambda. `Props/Steps`, `Props/StepsQuot`, `Props/StepsNull`: a part of a lambda may be computed first and its result passed as an argument; `Props/StepsUse` and `Props/StepsMotor` apply this to `p % (a * b)` for planes (C60) and motors (C54). `Props/StepsTuple`: the parts of a tuple may be computed by separate calls |
| C54 | motors and planes acting on points | a lambda without quotients and functions compiles to polynomials in the coefficients (`Props/PolyRun`); the polynomials of the named entities are computed once by the kernel (`Props/SandwichPolys`), the geometry is then algebra over `Spec/Motion`. The same route gives C38 and C39 through `compute` |
| C55 | the screw motion of `exp` | the motor of C51 put into C54, compared with Rodrigues' formula about the axis (`Spec/Motion`); `Props/ExpJoin` evaluates `exp(a & b)` and `exp(b & a)` as single programs, `Props/ExpMove` evaluates `p % exp(l)` as one |
| C56 | conformal geometry | as C54 with rational coefficients and the conversion to the null basis (`Props/PolyNull`); the kernel evaluates the machine on multivectors without arrays, which has the same results (`Props/NestedRun`) |
| C57 | run-time part with rounding | each operation multiplies by a factor close to one; induction over the folds gives a perturbed sum; binary rounding shown to satisfy the assumption; bounds for the polynomials of lengths, rotations, motions and distances; in formats of IEEE 754 the run is shown to be the same as without bounds for the exponent if the numbers given are neither too small nor too large (monomials stay in the normal range, small sums are exact because all numbers are multiples of the smallest one), and a division after cancellation adds at most the smallest positive number; with temporaries an invariant of the stored numbers (roundings so far, whether the error is relative, sign if visible) by induction over the program, applied to the unit vector, the projection and the exponential; relative bound refuted by kernel evaluation |
| C58 | literals | tables of the four headers, each product of generators computed in the Clifford algebra |
| C59 | `to_string` | words without spaces split uniquely; the last `e` that is followed by a digit starts the name of the element; the 256 names by a table |
| C60 | metric geometry | as C54, with the polynomials of `Props/MetricPolys` and, for lines, `Props/Lines` |
| C61 | named entities in lambdas | `Props/Repack`: the stack machine does not read the offset of a monomial without indeterminates (simulation between two runs); `Props/NamedArgs`: then C53 for arguments that are laid out as usual up to such offsets |
| C62 | everything moves together | `Props/FlatRun`: the polynomials of a lambda can be computed on nested lists instead of arrays (simulation), which makes the tables of `Props/MovePolys` cheap for the kernel; `Props/Moves`: identities of these polynomials |
| C63 | geometry of the plane | `Props/PlanePolys`, `Props/Plane` in the same way; specification in `Spec/Plane` |
| C64 | functions and quotients in null bases | `Props/NullQuot`: `to_null_basis` returns a sum, hence a multivector without function; capacities after `to_natural_basis`; witnesses |
| C65 | run-time part with rounding, temporaries included | limits, and errors of the order of the unit roundoff, through every operation of the run, for any sense of approaching that the operations keep (`Stable`); the proof of C48 supplies that nothing divides by zero; functions have to converge only where they are applied; applied to `exp` of a line, to a projection and to the unit vector `a / sqrt(a >> a)`; null bases and tuples need no temporaries (`PlainRun`), so there nothing divides; the rounding of IEEE 754 is checked against its numbers (`Spec/Ieee`): the result is a nearest number, and overflow begins where the standard says |
| C66 | `exp` in VGA, PGA2, CGA and four dimensions | as C51; an element with `B³ = -t² B` has the exponential `1 + (sin t / t) B + ((1 - cos t) / t²) B²`; the programs are evaluated by the kernel as in C50 (`Props/ExpRun`), `Spec/Turn`: rotations of the plane |
| C67 | Rotors and translators of PGA | the programs are evaluated by the kernel to polynomials (`lam_ratPolys`), compared with `Spec/Motion`: `rodrigues`, `IsRotation`; the refutation compares traces |
| C68 | Circles and spheres | programs evaluated by the kernel to polynomials, one per product, the result of each being the argument of the next; compared with `Spec/Round`: `OnRound`, `OnCircle`, `Cospherical`, `OnePlane`, through determinants and linear independence |

## What is modelled

* numeric.hpp: everything but the conversion to a floating-point type in `overflow_gate`'s comparisons (exact here).
* crc.hpp, stack.hpp: everything.
* algorithm.hpp: `swap`, both sorts. Not: `indexed`/`nth_element` type lookup.
* tuple.hpp: all operations on values as operations on lists. Not: forwarding and reference categories.
* geometric_algebra.hpp: everything. null_algebra.hpp: everything.
* algebra.hpp: `mon`, `term`, `mv` and every function on them. Not: stream output and comparison helpers used only by tests.
* entity.hpp: element tables, `select` in all forms, `ie`, `scalar`. Not: iterators, `data`.
* vga.hpp, pga.hpp, pga2.hpp, cga.hpp: the `ie` functions, the conversions from entities, literals through the expression layer,
  `normalize`, the constructor of rotors, `motor::log`. The mathematical functions are parameters, in C51, C52 and C66 those of the real numbers.
* expr.hpp: all operators, literals, constants, `rpne_concat`. Capacities in C44; `Lam.cap` is the capacity in the type of the expression of a lambda.
* dfa.hpp: `rpn_ids`, `rpn_inputs`, `rpn_reshape`, `rpn_ctx`.
* format.hpp: `to_string` of an entity; how a number is written is a parameter.
* engine.hpp: `fill`, `cmon`/`cterm`/`cmv` evaluation, `compute_entity`, `finalize_temps`, `finalize_entities`, `compute`. Not: the
  conversion of `mv`s to packed constexpr data by size classes beyond its effect, the choice of the value type (`infer_field`), and the
  application of the lambda as C++: a lambda is a term (`Lam`), and `compute` goes on from the expression it builds. A plain number compiles as the last argument only; the model
  accepts it anywhere.

Not modelled at all: cga2.hpp (does not compile: it refers to names that do not exist), opt.hpp, tests, samples, benchmarks.

## How the model was checked against the code

The code is not built or run here, so nothing mechanical ties the model to it.  Three things stand in for that:

- every definition cites the lines it models, and the citations were re-read against the text;
- `Verif/Conformance.lean` transcribes the assertions of the library's own unit tests (`/repo/test`: algebra, algorithm, dfa, pga, vga, cga) and
  runs them on the model.  All of them hold, including the layouts of polynomials, the node counts of expressions, common subexpressions inside
  `sqrt`, `sin` and `cos`, `exp` of a line and the tuple result.  **These are tests, not proofs**; no claim rests on them.  Not transcribed: the tests of
  `tuple` and those that only print;
- the inverse kinematics test (`/repo/test/test_ik.cpp`) is not part of the library's test build.  In a scratch evaluation the model
  gives the recorded value of its first rotor, 0.992546 + 0.121869 e12, and differs from there on, because the test joins points with
  the constant `1_ni`, which the pinned code does not convert from the null basis (`C47_constant_false`; dfa.hpp:835-844 has no `to_natural_basis`,
  unlike dfa.hpp:617-629).

## Where the code disagrees with what a user would expect

Each item is a theorem with a concrete witness (suffix `_false` or as named) unless marked (prose).

* `rat ==` computes gcd(rhs.den, rhs.den); it is not reflexive and confuses values (C03).
* `overflow_gate` exceeds its advertised 1e-7 error and flushes some unit fractions (C02). `/=` by a negative rational leaves a negative
  denominator (C01).
* `pow<0>` (C05). `leading_set_index` under MSVC differs from the GCC/Clang branch (prose).
* Sums merge monomials with different fractional exponents (C19). `shift` by zero leaves a non-canonical term, `select_grade` stops at the first
  larger grade, `extract` needs ascending elements and overruns otherwise (C21, C26).
* Division by an indeterminate cancels against the wrong degree (C24). `bivector_mv` is wrong from dimension 5 (C18).
* `stack::pop()` returns the slot above the top (C27). `tuple::split<0>`, `split_drop` and `split_at_type` (C28). `select<S...>` on the zero entity (C29).
* Element tables of `pga::rotor`, `pga::translator`, `pga::vector`, `pga2::vector`, `pga2::point` (C30). Sign of the Plücker coordinates
  in the constructor of `pga::line` (C38).
* Degree 0, denominator -1, a result factor of 0, and functions of a zero coefficient are evaluated wrongly (C31, C32). Functions are forgotten
  in null-basis algebras (C43). The constants `1_no`, `1_ni` and the
  selection of a null generator in an expression act on the natural basis; temporaries are stored in the null basis and read in the natural one (C47).
* `cga::point{r}` takes the coefficients of `r` without dividing by its weight, so a stretched, inverted or mirrored point is read wrongly. `p >> 1_ni`
  is `-(1 + |p|²)/2` instead of `-1` (C56). Joined to `p ^ q ^ 1_ni`, the points of the line through `p` and `q` do not give zero (C68).
* Operators: `~` and `!` lose the factor; `+ * >> |` with a zero operand; `^` loses factors; integer / expression; the constant `E`;
  `0_e…` literals (C33). Sums compare terms without their inner factors and misplace the factor of left-over summands (C34).
* `|` puts its operands in the order of their checksums, though the inner product is not symmetric: `v | B` of a vector and a bivector passed in
  the order `B`, `v` has the wrong sign (C53).
* Common subexpressions: the reference counts use `stack::pop()` and may drop a temporary that is used; terms differing in inner factors
  only are identified (C36). Through `compute` this gives wrong numbers (C45).
* The recorded lengths of the components of a tuple are not corrected when common subexpressions, quotients or functions shorten
  them: results get lost (`tuple{a / b, c}` returns `c` alone) or the expression does not compile (`tuple{c, a / b}`, `tuple{sqrt(a), c}`) (C46).
* A temporary counts as a new unknown, so what cancels between temporaries is not seen: `(ab)(ab) - (ba)(ba)` of scalars returns a component that is
  always zero, and so do `a / b * b - a` and `sqrt(a) * sqrt(a) - a` (C49).
* A divisor that occurs in the dividend is cancelled at the wrong degree, so `a * a / a` is 1 (C48). The test whether a divisor has been extracted
  compares a checksum with a position, so `a / (b + 1)` is `a / b` when `a` has six coefficients (C48).
  Dividing by a vector of one element divides by its coefficient; by a multivector of two elements it does not compile (prose).
* In algebras with a null basis `sqrt`, `sin`, `cos` and `tan` are not applied: the conversion before evaluation drops the mark. Division by an
  argument does not compile there, `x / (x * x)` reads outside the data, and `(s * x) / (x * x)` returns a wrong value (C64).
* `motor::log` for a scalar part below `1e-6` takes the angle from the translation along the axis: the logarithm of a half turn is zero, and for
  one direction of the translation the exponential of the result is `-M` (C52). It divides by zero for pure translations and for 1, as `exp` does
  for lines with direction zero (prose: the theorems assume otherwise).

* `exp` in the conformal algebra applies none of the functions: for a bivector `b` of space it returns `|b|² + b`. In four dimensions and more the
  closed form holds for simple bivectors only: the scalar of `exp(e01 + e23)` is `cos √2` instead of `cos² 1` (C66).
- `pga::rotor` and `pga::translator` (pga.hpp:120-262) do not move points as constructed: each term of `ie` starts one index too early, so that the
  rotor made for an angle about `(x, y, z)` turns about `(y, z, 1)` by another angle, and the translator by `d (x, y, z)` moves by `d x (1, 1, 1)` (C67).

* In single precision, the conformal distance product `p >> q` of `(997, 2001, 1/2)` with itself is `1/2`, and that of two points at distance one near
  `(1000, 2000, 1)` is zero: the squares cancel (C57).

* `to_string` writes generators from 0, while the literals of the conformal algebra count from 1: `1_e1` is written `1e0`. The entity without
  components is written like the scalar zero (C59). Literals of 2^32 and more are reduced (C58).

Not expressible here: compile time, memory use, infinities and NaNs, template instantiation failures,
`GAL_FORCE_INLINE` and other performance attributes, debug printing of expressions, the samples and the benchmarks.
