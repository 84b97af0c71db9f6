# Formal model of qctrl/python-open-controls in Lean 4

## 1. Approach

The library is a numerical, purely functional core (validation, array arithmetic, sequence
construction, conversion) with a thin shell (file export, strings).  It is modelled function by
function in Lean 4, with exceptions as values (`Except PyErr`), arrays as `List`, and every model
definition citing the lines of `/repo` it models.

**Arithmetic.**  All model code is polymorphic in the number type `α`, through the core classes
`Add Sub Mul Div Neg` and one class `PyFloat α` (`Verif/Py.lean`) that collects the other
primitives numpy is asked for (`sin`, `cos`, `sqrt`, `arccos`, comparisons returning `Bool`,
literals, `int()`, `ceil`, `%`, `np.sum`).  The model is therefore written once and used at
several number types:

* *any arithmetic*: theorems quantified over every `α` and every choice of the operations.  They use no
  law of arithmetic, so they cover IEEE-754 doubles with NaN, infinities and rounding.
* *exact arithmetic* `α = ℝ` (`Verif/RealInst.lean`): theorems that speak about sums, rotations, times.  Here
  rounding is abstracted away.
* *extended reals with NaN* `XR` (`Verif/Extended.lean`): a real number, `+inf`, `-inf` or NaN, with the
  IEEE rules for every operation (`0/0` is NaN, `1/0` is infinite, `arccos 2` is NaN, comparisons with
  NaN are false).  Simplifications: one unsigned zero (`x/0` takes the sign of `x`), no rounding, no
  overflow of finite results; `int(nan)` and `int(inf)` are both an `OverflowError` (Python raises
  `ValueError` for NaN, but no NaN ever reaches an `int()` in this code, which C64 proves).
* *rounded arithmetic* `Fl r` (`Verif/Rounding.lean`): ℝ with the result of every operation replaced by
  the rounded one.  A `Rounding` is a unit roundoff `u ≤ 2⁻²⁰` and a rounding function that is monotone,
  odd, idempotent, commutes with halving, has relative error at most `u`, is exact on integers up to `1/u`
  and sums four equal terms exactly; the elementary functions are *arbitrary* functions with
  relative error of a few `u` (not assumed correctly rounded), `np.sum` may add in any order.
  `Rounding.double` (`Verif/Proofs/RoundingInst.lean`) is an instance with `u = 2⁻⁵³` (unbounded
  exponent: no overflow, no subnormals), so that the hypotheses are consistent.
* *arithmetic of limited range* `Lim L` (`Verif/Limited.lean`): `XR` with the finite results rounded, to infinity above the
  largest number and with gradual underflow below.  `Limits.double` (`Verif/Proofs/LimitedInst.lean`) is IEEE double
  precision: largest number `(2⁵³-1)·2⁹⁷¹`, smallest normal number `2⁻¹⁰²²`, smallest positive number `2⁻¹⁰⁷⁴`, round to
  nearest.  As in `XR` there is one unsigned zero.
* `Float` : Lean's IEEE doubles, used only in `Verif/Tests.lean` to run the repo's own unit-test
  expectations against the model (tests, not proofs).

**Specification side** (`Verif/Spec/*.lean`): small definitions that do not mention the model:
Pauli matrices and the matrix exponential of the documented Hamiltonian, the documented
pulse tables, Rademacher/Walsh functions, switching functions and their integrals, the documented
concatenation recursions, the waveform of a piecewise-constant control.

**Properties** (`Verif/Props/*.lean`): one file per group, theorem names start with the property id
(`C17_...`).  Each is followed by an `example` showing that its hypotheses are met by a concrete
non-trivial case.

## 2. Trusted base

* Lean 4.33.0's kernel, Mathlib 4.33.0's definitions (ℝ, ℂ, `Real.sin`, matrix exponential, ...).
* Axioms: at most `propext`, `Classical.choice`, `Quot.sound` for every theorem. No own axioms, no
  `sorry`, no `native_decide`/`bv_decide`.
* The reading of the Python source (no code is run).  Python/numpy behaviour assumed:
  broadcasting of 1-D arrays, `np.isclose(a,b)` is `|a-b| <= 1e-8 + 1e-5|b|` on finite values and equality otherwise, `np.amax`
  raises `ValueError` on empty arrays and propagates NaN, dict insertion/`pop` semantics, `csv.DictWriter`
  writes the header then one row per `writerow` (minimal quoting, records end in CR LF), `json.dump` writes the object
  it is given (`indent=4`, ASCII only, non-finite floats as `NaN`/`Infinity`), `open(..., "w")` truncates.

## 3. What is modelled

| file | modelled | not modelled |
|---|---|---|
| `utils.py` | `check_arguments`, `create_repr_from_attributes`, enums | `type(attribute)` text |
| `exceptions.py` | message construction, the dictionaries of every check | Python exception class hierarchy |
| `driven_control.py` | everything | text formatting of floats is a parameter of most theorems, and modelled for those of C117 and C118 (shortest decimal number; its layout); the algorithm that finds it is not |
| `driven_controls/predefined.py` | everything | |
| `dynamic_decoupling_sequence.py` | everything | text formatting of floats is a parameter, and modelled for C118 as in C117 |
| `dynamic_decoupling_sequences/predefined.py` | everything | |
| `constants.py` | Pauli matrices (in the spec) | |

Two levels: in most of the model arrays are values.  `Verif/Model/Heap.lean` models the two constructors and
`convert_dds_to_driven_control` once more, statement by statement, over a heap of mutable, shareable arrays (loops with item
assignment and index arithmetic); C70 and C71 prove that this level refines the value level and say what is shared. The ten predefined
sequences and the ten functions creating driven controls are modelled at this level too (`Model/HeapPredefined.lean`, C80;
`Model/HeapDriven.lean`, C89), and so are all properties and exporters of both classes (`Model/HeapAccess.lean`, C92).

Files: the exporters produce abstract tables and objects (`FileContent`); `Verif/Model/FileText.lean` gives their characters as
the `csv` and `json` modules write them.  Simplifications there: the text of a single float is a parameter (that of C117 in C117 and C118), names
have no lone surrogates (Lean characters are scalar values), and line ends are not translated by the platform.

Shapes: arrays are 1-D in most of the model; `Verif/Model/Shapes.lean` models the constructors and the accessors `amplitude_x`,
`amplitude_y`, `angles`, `times`, `duration` on arrays of any shape, with broadcasting (C79); `Verif/Model/ShapesConversion.lean` the
conversion of a sequence (C97).  There an array with one number stands for that number when it is compared or stored, as in the numpy
versions that have the `np.float` the package uses (before 1.24).

Operating system: `Verif/Model/Disk.lean` models the exporters on a disk where opening, writing and closing can fail at any point (C100).

The exporters are modelled for arrays of any shape in `Verif/Model/ShapesExport.lean` (C101). The remaining accessors,
`export` and `__str__` are in `Verif/Model/ShapesAccess.lean` (C104).

Python objects: `Verif/Model/Values.lean` models the two constructors on arbitrary objects (lists, `None`, strings, complex numbers, ...) with
numpy's conversion to arrays (C106).  The other functions on scalar objects are in C108, the composite pulses on arrays in
`Verif/Model/ArrayCalls.lean` (C120), the predefined sequences with an array as duration in `Verif/Model/ArraySequences.lean` (C131), the conversion with arrays as limits in `Verif/Model/ArrayLimits.lean` (C134), the modulated Gaussian control in `Verif/Model/ArrayGaussian.lean` (C137), arrays as counts, orders and switch in `Verif/Model/ArrayCounts.lean` (C139), the conversion of a sequence whose duration is an array in `Verif/Model/ArrayConversion.lean` (C144).  Lists, tuples and complex
numbers as arguments of the sequences, the Gaussian control, the conversion and the exports are in `Verif/Model/ValuesLists.lean` (C141).  Lists of numbers as
arguments of the composite pulses are in `Verif/Model/ListCalls.lean` (C146).  Not modelled at all: complex numbers, lists of lists and lists together with numpy's floats as arguments of the composite pulses, complex modulation frequencies, arrays as duration of the quadratic sequence or with pre and post rotation, and
a Rabi rotation that is an array with axes and one item (C120).

## 4. Properties: what is modelled and how it is proved

* **C01, C02, C33** any arithmetic: case analysis on the constructor's checks; both directions.
* **C03–C05** exact arithmetic: induction over the list of durations; `sin²+cos²=1`.
* **C06, C07** exact arithmetic; matrix exponential in closed form through the algebra hom ℍ → M₂(ℂ), or power series. C06 has a tolerance: full statement refuted by a witness, `_partial` proved.
* **C08–C13** dictionaries as association lists, a file system as `String → Option Content`; any arithmetic for structure, exact arithmetic for the round trip. C11 is false of the code (KeyError): negation and exact success condition.
* **C14, C15** strings with an abstract number formatter. C14 false for some detunings: witness and `_partial`.
* **C16–C25, C32** exact arithmetic: `netUnitary` is the ordered product of matrix exponentials; closed form; trigonometric identities.
* **C26–C28** derivatives of the perturbed net unitary.
* **C29–C31** exact arithmetic: list sums over the antisymmetric midpoints; the documented minimum segment duration is violated (negation).
* **C34** Pauli-product induction over all pulse lists.
* **C35–C40** closed forms by induction / list extensionality; Walsh by the dyadic-floor formula for `sgn sin`.
* **C41, C42** induction on the order; C42 false for every `l ≥ 3` (negation proved for all of them), `_partial` for `l ≤ 2`. What the code builds
  instead is stated for every order (`builtXY`, `C42_exact`): equal members, no repetition and the same order give equal lists of pulses.
* **C43** collects C35–C41 for all ten families at once. **C44, C45** telescoping / trigonometric moment
  sums; C44 is an exact characterisation (which family, count and order refocuses static dephasing: an
  `iff` for each of the ten families).
* **C46–C53** the conversion: list induction over pulses; C47, C49, C52, C53 are false without side conditions because of the absolute tolerances and the sign test in the code: witnesses and exact conditions are proved.
* **C54, C55** any arithmetic.
* **C56** strings with an abstract number formatter. **C57–C59** derivatives of the perturbed evolution of
  the nested schemes and of SCROFULOUS.
* **C60, C61** end to end: composition of the sequence constructors with the conversion (which predefined
  sequences can be converted, and what the converted control does).
* **C62** equalities between constructors of different families, as equalities of the returned objects.
* **C63** rounded arithmetic: relative error bounds by induction; the comparisons on which the code
  branches are shown to have the same outcome as in exact arithmetic.
* **C64–C67** extended reals: *naturality*, i.e. running a function on embedded reals gives the embedded
  result (this is where every division and every `arccos` is shown to be inside its domain), plus case
  analysis of the checks on `inf`/NaN.
* **C68** derivative of the four-segment evolution (one coefficient, `(θ₊/θ₋ − 1) sin θ₋ + sin(θ₊ + θ₋)`),
  bounded with a Taylor polynomial of the cosine and twenty digits of π.
* **C69** induction on the list of angles.
* **C70, C71** state-and-exception monad over a heap; loop invariants (after `i` iterations the filled prefix equals the
  value-level result) for the three loops; frame conditions for arbitrary later lists of item assignments.
* **C72** moments: for Walsh (and X-concatenated) sequences the integral of the product of Rademacher functions against `t^n`
  satisfies a recursion over the binary digits; CPMG/CP/periodic sequences are sums over a grid; Uhrig's leading moment is
  a power sum of cosines; XY-concatenated sequences follow totals (units, signed units, end sign, signed moment) through
  the recursion on the list of operations.
* **C73-C75** a CSV reader (RFC 4180) and a fuelled JSON parser (RFC 8259) are written as specification, independent of
  the writer; reading back is proved by induction on characters, fields and members. Surrogate pairs by arithmetic.
* **C76** rounded arithmetic: the operator norm of 2x2 matrices bounds how errors of angles and axes add up over a table of
  pulses; CORPSE and the Wimperis pulses are exact for any value of the computed inner angle, so only the roundings after it
  count; SCROFULOUS needs a Lipschitz bound for `arccos` by the mean value theorem.
* **C77** rounded arithmetic: the code is shown to compute, operation by operation, windows within `6u(T+w)` of the real
  ones; separated windows stay separated; each segment's rate times its duration is the rotation up to `u`, and the operator
  norm adds these errors; the durations telescope. The negation for very short pulses is a double-precision witness.
* **C78** composition of C63 and C77: the rounded instants keep the order of the exact ones, so the room between them
  carries over up to the error of the times; rounded angles turn by a slightly different angle about a slightly different axis.
* **C79** arrays as shape and row-major items; case analysis of the constructor, index arithmetic of broadcasting.
* **C80** run lemmas for each statement on heaps `h ++ e`; loop invariants: the Walsh products, a row-by-row invariant for the
  grids of the quadratic sequence, `merged rows ++ zeros` for the XY merge, shifted prefixes for the insertion of Z pulses.
* **C81** the free evolution between pulses is `exp(-i/2 ∫β σz)` (shown to solve the Schroedinger equation); Z rotations are moved
  past the pulses by induction over the table, the signs add up to the switching function; C72 gives the cancellation.
* **C82** derivative of the evolution at zero noise: pulses times the three integrals of the sensitivities along the axes; quadratic
  sequences by Uhrig's moments on each inner interval, XY-concatenated ones by totals through the recursion.
* **C83** one derivative per scheme: σz times a product of resonant rotations; factors are invertible, so a response vanishes exactly
  when its coefficient does. The second-order response of SK1 is a commutator of generators; for SCROFULOUS one matrix entry is an
  explicit sine of the error.
* **C84** induction over the table: a wrong pulse is the right pulse times a small rotation about the same axis, which is moved to
  the front (changing sign at each Z pulse); the pre rotation turns a rotation about Y into one about Z.
* **C85** relative errors of every computed quantity are followed through the code with `Rel`; the sum is compared with the sum of
  the computed samples (so that its error cancels in the quotient), Python's `%` with the integer part; with modulation absolute errors
  of the samples, the antisymmetry of the exact samples and the operator norm of products of rotations.
* **C86** the same accessors and exporters run on floating-point numbers; relative errors of the entries with `Rel`, and the evolution as a
  function of the field with Lipschitz constant 1/2 per unit time (mean value inequality for `exp(sA) exp((1-s)B)`, `A`, `B`
  skew-Hermitian).
* **C87** derivative of the evolution segment by segment: a finite π-pulse under a detuning `d` is the ideal pulse with half its window
  of free evolution on either side (so it acts at the centre of the window) plus a transverse term of size `W/π`; induction over the
  table moves all terms to the front. The signed counts of the families follow from their tables.
* **C88** all segments rotate about ±X and commute, so angles add; the modulated samples are antisymmetric about the middle.
* **C89** statement-level model of the ten functions (`Model/HeapDriven.lean`): loop, `vstack` and columns of CORPSE in SCROFULOUS, the
  chain of arrays of the Gaussian control; it refines the value-level model and returns new arrays.
* **C90** the derivative of C87 with the two π/2 rotations: the post rotation takes its window from the end (`last_split`), its error is
  moved through the pulses with the sign of the noise, and the pre rotation turns errors about Z into errors about Y.
* **C91** from the exact behaviour (C49) and `‖exp A - exp B‖ ≤ ‖A - B‖` for skew-adjoint matrices; completes the partial C49 and C52
  quantitatively.
* **C92** on the statement-level model `Model/HeapAccess.lean` (every array expression allocates, element-wise operations broadcast or
  raise): a frame lemma for all computations, and a simulation by the value-level accessors; histories by induction on the list of steps.
* **C93** exact arithmetic: the windows of the pulses shrink, so the gaps grow, and the tolerance test is a lower bound on the gap that
  grows with the minimum; thresholds from continuity of the windows. Floating point: every rounded operation is monotone.
* **C94** exact arithmetic: induction over the segments of the converted control, every one of which drives a single kind of rotation;
  then products of rotations about X or Y with the errors moved past the Z pulses.
* **C95** exact arithmetic: the windows and the kept segments of the reversed list of pulses are the reversed ones, by induction with the
  pulse taken from the other end; the symmetry of the pulse times from the closed forms (for Walsh sequences the sign of the mirrored
  cell, for quadratic ones induction over the outer pulses).
* **C96** the heap model of the conversion run on any four references: `np.concatenate`/`np.column_stack` of unequal lengths raise; with equal
  lengths it refines the pure conversion, whose check of the differences of padded offsets implies the constructor's checks.
* **C97** the conversion on arrays of any shape (`Model/ShapesConversion.lean`): `np.append` flattens, the truth value of an item with
  several numbers raises, `np.concatenate` demands equal shapes; after that the items are single numbers and the steps are those of the flat
  conversion.  The weaker order of unchecked columns follows from the check of the gaps.
* **C98** Taylor's formula about the middle of the sequence: the polynomial is cancelled (C72), the remainder is integrated.
* **C99** A reader of the file text is specified (titles, columns, JSON members).  The text theorems of the exporters give
  what it reads; the result is compared with the control exactly or with the rounding bounds of C86.
* **C100** The writing loop over an arbitrary oracle for the operating system; induction over the pieces of the text.  A JSON reader
  that succeeds on a text succeeds with the same result on every longer text (induction on its fuel), so cutting the last brace is noticed.
* **C101** The exporters once more on the arrays of C79, with `json.dump` as a list of pieces one of which may raise; case split on shapes, induction
  over the members and rows.  What is left of a failed JSON export is a proper beginning of a JSON text, hence not JSON by C100.
* **C102** Second-order expansions with explicit remainders: of one segment by the Dyson series (primitives of continuous matrix functions and the
  mean value inequality), closed under products, so of every control by induction over its segments; C83 then says which coefficients vanish.
* **C103** C78, C55 and C99 put together; what connects them is that a converted sequence has drive (a wide, clear pulse has a non-empty window)
  and rotates by at most `(1 + u)` times the sum of the Rabi rotations of the pulses (induction over the segments).
* **C104** Broadcasting is specified independently of the code's model: `Fits` is an order on shapes, the result of an operation has the least
  upper bound, and stretching commutes with elementwise operations; so every accessor is that of the stretched 1-D control.
* **C105** Error analysis of every computed angle (up to 3π the arguments of `arccos` and `arcsin` stay away from 1; on all of
  `[-1, 1]`, `|arccos x - arccos y| ≤ π √(|x - y|/2)`) gives the distance of the segments; the exponential of a skew-adjoint matrix is 1-Lipschitz, so the evolutions under any errors differ by the sum over the segments.
* **C106** any arithmetic: an inductive relation says which array an object stands for; the conversion (discover the shape, then convert the
  items) returns exactly that array. A list that is ragged leaves a list among its items, which cannot be converted.
* **C107** `ℝ`: the faulty pulse is the requested rotation times the error; the error is a unit quaternion, so its distance from 1 is
  `√(2 - 2w)` with `w` its scalar part, which is multiplied out. Leading orders: third-order expansions with remainder `O(e⁴)` of every component.
* **C108** any `α`: `Model/ValuesCalls.lean` has the functions on scalar objects, each object being asked for in the order of the source. Objects
  that are numbers reduce to the functions on numbers; the first one that is not decides the exception. Lists, arrays and complex numbers as
  arguments of these functions are not modelled.
* **C109** `Lim L`: every operation of the pulse tables on numbers with limits is compared with the one without, with bounds on the size of
  every intermediate result. For the extremes, the constructor's conditions on `angle / rate` are turned into conditions on the arguments by the
  law of underflow (`x` is rounded to zero iff `x` is at most half of the smallest number).
* **C110** Every number computed by a constructor or the conversion is compared with the one computed without limits: results that are zero or
  between `2⁻²⁵⁰` and `2²⁴⁹` are the same, and sums never underflow. Comparisons and `np.isclose` then agree, so that the control flow does. C78 is
  transferred along this. Underflow of the unit spacing is followed through `np.cumsum` and `np.unique`.
* **C111** Each interval between pulses is a rotation `cos + sin·axis`; by induction over the pulses the evolution is the product of the pulses times
  `1 +` the sum of the noise terms seen through the pulses before, with a second-order remainder `((T - t)·w/2)²/2`. The sums are the integrals of C82.
* **C112** Two interleavings of pulses and free evolution, with pulses at distance `ε` and times at distance `δ`, differ by at most `ε + 2Λδ` per pulse
  if the free evolution is Lipschitz with constant `Λ` in its end points. The distances come from C63/C78; C98 and C111 give the rest.
* **C113** Solutions exist on short intervals by Picard-Lindelöf and are glued along the segments; `V†U` is constant, so they are unique and unitary.
  Within a pulse of width `w` the solution and both the ideal pulse and the free evolution differ by at most `M·w/2` each, by the mean value
  inequality; the errors add up by induction over the windows of the conversion (C46-C51). C98 and C111 give the suppression, C60 the fast hardware.
* **C114** The functions are modelled a second time with the dictionaries they pass to `check_arguments` (`Model/Reports.lean`);
  `C114_same_outcome` ties them to the first models for every number type. `Explained` (`Spec/Reports.lean`) is the claim; each check is a case, and
  C11-C46 decide the other calls. Three cases are false of the code, with counterexamples, so the claim is partial.
* **C115** As C113, with the windows and segments the conversion computes in floating point: a window is that of exact arithmetic up to `12 u T`
  (C77), and the segments before a window add up to its start up to a factor `1 ± u`; evolutions without control depend on the times with slope `M/2`.
  With C63, C98 and C111 this gives the complete chain from the arguments of a predefined sequence to the state of the qubit.
* **C116** Two solutions `U`, `V` with generators `B`, `B'`: `(V* U)' = V* (B - B') U`, so they part with speed at most `‖B - B'‖`, segment by segment;
  together with C102 for the constant part. Amplitude errors alone commute with the drive within a segment, so the solution is an exponential.
* **C117** A float is a finite decimal number, so there are decimal numbers that are rounded to it, and of those with fewest digits finitely many are near;
  the reader is a specification of its own (digits, point, exponent) and is compared with the layout case by case. Within half a unit of the last place, a quarter
  below powers of two, everything is rounded to the float, and decimal numbers with 17 digits are that dense.
* **C118** A reader of the lines, a specification of its own (`Spec/Printed.lean`), is run on the text of `str`: texts of numbers contain none of the separators, so
  splitting undoes joining. Entry times factor is two roundings away from the attribute, and segments and pulses are Lipschitz in their attributes.
* **C119** By the lemma behind C99 the reader gets `m * (x / m)` for each rate `x` with maximum `m`, and every number is read from its text as it was (C117); `m / m` is 1 in
  every arithmetic here. In limited range the JSON text is read if its numbers are finite, which the keys of the object show (C12, C74). The counterexample is computed.
* **C120** The composite pulses once more on the arrays of C79 (`Model/ArrayCalls.lean`), every item of a list being an array of the shape of the rate or of the
  azimuthal angle. With one item per array the constructor of C79 reduces to that on lists; several azimuthal angles have a wrong size. The n × n amplitudes follow by C104.
* **C121** Matrices in SU(2) with flip amplitude at most sin β form a graded semigroup (sin of a sum, Cauchy-Schwarz); a segment has β = Ωt/2, because sin x / x decreases.
  Induction over the segments. A rotation by θ has flip amplitude |sin(θ/2)|. For θ > π a faster control is given. Durations from the tables of C16-C24.
* **C122** The switching function of the times τ has the sign of ∏(τ - t), a polynomial of degree n, whose integral against it is positive. For two solutions the sign of the difference is
  that of the polynomial without the earliest time; induction over the times. Repeated times and times outside act as a shorter list. Orders from C72.
* **C123** iωF is the alternating sum of e^{iωt} over the pulse times; geometric sums. For Walsh sequences halving the interval gives one factor per binary digit.
  The Taylor polynomial of e^{iωt} and the moments of C72 give the power law; C98 the bound.
* **C124** The condition of C46 is a chain over the windows; for pulses of one width in increasing order it holds for neighbours if and only if for all pairs. The smallest distances from the
  closed forms of the times: sin²x − sin²y = sin(x−y) sin(x+y) for Uhrig; for Walsh the edges at which an odd number of factors changes, by induction over the binary digits.
  Quadratic: induction over the outer pulses, one block of inner pulses at a time; no interval is shorter than the first. XY-concatenated: the tables of orders 1 and 2.
* **C125** The second half of the edges of Walsh and X-concatenated sequences repeats the first, with the middle edge between them: induction over the binary digits of the order. XY: induction over
  the units of C42. The segments: the pulses and gaps kept by the conversion.
* **C126** X Y X followed by Z and X Y X is Z, whatever the errors; induction over the units of C42 then shows that all but the last unit is minus the identity from the second order on.
* **C127** The units of C42, each with its sign: induction over the order for the sum and for the sign at the end, all but the last unit; the time after the last unit is added at the end.
* **C128** A wrong Z pulse is the right one times a small rotation about Z, which is moved to the start of the sequence; the signed number of Z pulses by induction over the outer pulses and over the
  units of C42.
* **C129** Induction over the copies: the moments of the sensitivity of a copy are those of the sequence, expanded by the
  binomial theorem, with a sign for the pulses before it. For Walsh sequences the Rademacher factors that change at
  an edge of the longer sequence are those that change at the same edge of a copy; at the joints all of them change, and
  their number is even. The response is a geometric sum.
* **C130** Controls: the segments before and after the joint.  Sequences: the windows of the joined sequence are those of the two
  without the empty windows at the joint, and the gap there is the sum of two gaps; the waveform is C51 of all three controls.
  Floating point: the constructor checks each item alone, and rounding is monotone; the duration by C86.
* **C131** Nine functions once more with an array as duration (`Model/ArraySequences.lean`). The truth value of `duration > 0` leaves arrays with one item;
  their axes have length 1, so products are those with the number (index arithmetic of broadcasting) and `np.cumsum` flattens.
* **C132** Induction on the list: evolutions of concatenated arrays multiply, `‖UV - U'V'‖ ≤ ‖U - U'‖ + ‖V - V'‖` for operators of norm at most one,
  the product rule for the derivatives; the single gates by C102 and C105.
* **C133** Opposite Hamiltonians have inverse exponentials, so segments cancel from the inside; evolutions are unitary, so what undoes them is the
  adjoint, whose derivative is the adjoint of the derivative; rounding only concerns the added π, and the axis enters the evolution with the rotation
  angle as factor.
* **C134** any `α`: the three checks take the truth value of an array, which exists for at most one item; with one item each, the pulse durations
  are arrays with one item, and storing them gives the numbers of the ordinary call. C46 gives the acceptance.
* **C135** A list of laws for multiplication and division by a unit (`Rescaling`), satisfied by powers of two in floating-point arithmetic (rounding
  commutes with halving) and by positive reals; every function is then followed statement by statement, in any arithmetic with such a unit.
* **C136** The solution for the whole, seen from the start of a control, and the solution for this control alone obey the same equation, so they differ
  by a constant factor; induction over the list. The bounds come from C116 and from the triangle inequality for products of unitaries.
* **C137** The function once more on the arrays of C79 with broadcasting (`Model/ArrayGaussian.lean`). A number with axes of length 1 and a line with
  such axes are closed under all its operations, with the number of axes as the only thing to follow; the rest is the comparison with the function on numbers.
* **C138** Random noise is a process on any probability space whose correlation is the cosine transform of a finite measure (`Spec/RandomNoise.lean`).
  Fubini twice, the squares of the real and imaginary part of the response, and C81, C123 for the predefined sequences; tones by independence of the phases.
* **C139** The ten functions once more with arrays as counts, orders and switch (`Model/ArrayCounts.lean`), truth values and `int` as in C134.
  Case analysis on the number of items of each array.
* **C140** Schrödinger's equation for the converted control in every run. The evolution depends Lipschitz-continuously on the noise, and continuous noise is
  approximated by Bernstein polynomials, so functions of the evolution are measurable. In every run the distance is at most half of the phase of C138 plus the
  bound of C113 or C115; the mean of the square by the inequality of Cauchy and Schwarz.
* **C141** The functions on lists, tuples and complex numbers (`Model/ValuesLists.lean`). In these positions they act as objects without order and
  arithmetic that have the same truth value, which reduces the claim to C108.
* **C142** The sequences are the same run backwards (C95), so the sensitivity at `T - t` is that at `t` up to the sign at the end. The parity of the number of
  pulses follows from the first moment that does not vanish (C72), without counting; the evolution from C81.
* **C143** A map of the 2×2 matrices that reverses products and keeps each segment keeps the evolution of a control that is the same run backwards; what it
  keeps are the rotations about the axes of a plane. Which controls are the same run backwards: read off the tables, and C95 for sequences.
* **C144** The conversion once more with an array as duration (`Model/ArrayConversion.lean`), step by step next to that of C97: they part only where a list with the
  duration becomes an array (free evolution), and after the padding the last offset is the duration, so that this happens only up to 1e-8.
* **C145** The control of C29-C31 and the errors of C143. The reflection at the YZ plane exchanges the factors of products and changes the sign of the rates; a modulated
  control has opposite rates run backwards, so that the reflection keeps its evolution. Without a modulation the reflection at the XZ plane does.
* **C146** The composite pulses on numbers and flat lists (`Model/ListCalls.lean`): what Python's and numpy's floats do with lists, then the functions on arrays of C120.
  Case analysis on the scheme and the arguments; C120 for azimuthal angles.
* **C147** The samples of the sinusoid for a shifted frequency are the same up to a sign (`sin (x + mπ)`); the waveform is antisymmetric, so that the opposite one has
  the same largest sample and is the one run backwards. Half the sampling rate: rounding of the frequency to a multiple.

## 5. Disagreements between code and documentation found while modelling

1. `export_to_file(..., file_type="CSV")` on an unnamed control raises `KeyError` (C11).
2. Documented CSV column titles/order (`rabi_rate,azimuthal_angle,...,maximum_rabi_rate` last) differ from what the code writes: keys `rabi_rates`, `azimuthal_angles`, sorted alphabetically, so for cylindrical coordinates the maximum Rabi rate is the fourth column (C10).
3. `_check_valid_operation` ignores negative detuning rotations; such a pulse loses its detuning part (C52).
4. `np.allclose(pulse_start_ends, 0.0)` uses an absolute tolerance of 1e-8 s: any sequence of 10 ns or less becomes free evolution (C53).
5. Overlaps of up to 1e-8 s between pulses are tolerated; the converted control is then longer than the sequence (C47).
6. `new_modulated_gaussian_control` makes segments *shorter* than `minimum_segment_duration` (C29).
7. `new_xy_concatenated_sequence` is wrong for every order ≥ 3; the pulses end early, by up to a twentieth of the duration (C42).
8. `new_x_concatenated_sequence` omits the documented final X pulse for odd orders (C41).
9. `str(DrivenControl)` prints `0` for all detunings when their maximum is 0 (C14).
10. CORPSE docstring omits `arcsin` in θ₃; periodic docstring omits the factor `i`. The code is right (C19, C38).
11. Rotations of at most 1e-8 are dropped by the conversion (C49).
12. `export_to_file(..., "CSV")` of an unnamed sequence raises `KeyError` as for controls (C55).
13. XY-concatenated sequences of order ≥ 3 can never be converted (coinciding pulses), and order 1 with pre/post rotations cannot either (C61); odd orders ≥ 3 do not refocus static dephasing (C44).
14. Non-finite arguments: NaN is accepted for angles, detunings and rotations, `+inf` for durations and Rabi rates; an infinite count raises `OverflowError` (C64).
15. Exporting a control without drive divides 0 by 0 and writes NaN (C66).
16. Infinite maximum rates are accepted by the conversion, which then drops every pulse (C67).
17. `_derive_segments` (unused) documents a default amplitude of 1 where the code has 2π.
18. WAMF1 for π/2 and π/4 is not exactly first-order insensitive: the constants are rounded to eight digits (C68).
19. Both constructors keep `np.asarray` of their arguments, hence alias float arrays of the caller (C71: an accepted control
    can later have a negative duration).
20. The JSON file of a control without drive contains `NaN`, so it is not JSON (C75).
21. In floating point the Rabi rates of WAMF1 are quotients of quotients and may exceed the maximum by a rounding (C76).
22. In floating point a pulse shorter than the rounding error of its time is silently dropped by the conversion (C77).
23. `DrivenControl` accepts durations and Rabi rates given as columns and any shape of azimuthal angles and detunings; `angles` is
    then a matrix or raises `ValueError` (C79). A number or a matrix as durations raises `TypeError` or `ValueError`.
24. XY-concatenated sequences of order ≥ 3 do not decouple from general static noise (C82), as a consequence of item 7; at least 3/64 of the noise along y remains at every order (C127).
25. In floating point the Gaussian control can have one segment less than the quotient of the durations rounded up (C85).
26. In floating point `times` need not increase strictly, although all durations are positive (C86).
27. A decoupling sequence with an odd number of X or Y pulses (spin echo, odd Carr-Purcell, CPMG, Uhrig) loses its first-order
    insensitivity to detuning when it is converted to pulses of finite width; the XY-concatenated sequence of order one loses it because
    its pulse at the end of the sequence is moved inside (C87).
28. With pre and post rotations it is the other way round: only sequences with an odd number of uncompensated X pulses stay insensitive, and
    none if the minimum segment duration stretches the π/2 rotations (C90).
29. Reassigned attributes are not checked: a control whose `rabi_rates` is replaced by an array of length 1 reports one segment, while
    its `amplitude_x` has one entry per azimuthal angle (C92).
30. Converting a sequence whose offsets were replaced by an empty array gives free evolution, whatever its rotations are; one whose duration
    was set to 0, with one pulse at time 0, gives a control of positive duration (C96).
31. Offsets given as a column that starts at 0 and ends at the duration are not checked to increase; offsets of shape n × 0 lose all rotations
    (C97).
32. Exports are not atomic: the old file is lost as soon as it can be opened, and a CSV file cut off by a full disk is read without error as a
    shorter control (C100).
33. Exporting a control that was accepted with, say, a column of durations to JSON raises `TypeError` only after the file was opened, and destroys
    it (C101); so C13 (a failed export touches no file) holds for 1-D arrays only.
34. `ArgumentsValueError` names arguments that are not at fault: `durations`, which the caller did not give, for a negative rotation; only
    `maximum_rabi_rate` when the duration of a modulated Gaussian is too short for it; only the sequence when the rates of `export_to_file` do not
    admit it (C114). One message says that Rabi rates must be greater than zero, although zero is accepted.
35. A composite pulse accepts an azimuthal angle that is an array with one item; `amplitude_x` and `amplitude_y` of the control are then n × n
    arrays (C120).
36. The class docstring of `DrivenControl` defines σ± = (σx ∓ σy)/2: without the imaginary unit the documented Hamiltonian is not Hermitian,
    with it the sign of the azimuthal angle is the opposite of the documented U_n. The usual σ± = (σx ± iσy)/2 is meant (C07).
37. A duration that is an array with two or more axes and one item is accepted by the predefined sequences; the first axis of the offsets of e.g. a
    CPMG sequence then has length 1, so that `len` no longer counts the pulses (C131).
38. `new_modulated_gaussian_control` with a duration in a 1-D array returns a control whose `durations` is an `n × 1` array, so that `angles` is
    an `n × n` array of which only the diagonal is right (C137).
39. A CPMG sequence of several pulses whose duration is a `1 × 1` array is accepted, but its conversion always raises an exception (C144).
40. `new_wamf1_control` accepts a list with one item as Rabi rotation, which all other schemes refuse with a `TypeError`; a list with one item as azimuthal angle is accepted by six of the nine schemes, and `TypeError` is raised by those that add `np.pi` to it (C146).
41. `new_modulated_gaussian_control` accepts modulation frequencies above half the number of segments per duration, which it cannot represent: it returns the control for a lower frequency (C147).
