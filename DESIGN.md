# Formal model of eprempy in Lean 4

Source modelled: `/repo/src/eprempy` (pinned commit).  Nothing of the source is
executed; the tie between model and code is the citation (file and line range)
on every definition of the model.

## Layout

* `lean/Verif/Model/*.lean` – executable, total models, function by function.
  Every definition cites the file and lines it models and names each
  simplification.
* `lean/Verif/Spec/*.lean` – small independent specifications (valuations,
  abstract maps, syntax trees) used only in theorem statements.
* `lean/Verif/Lemmas/*.lean` – helper lemmas.
* `lean/Verif/Props/*.lean` – one file per area with the property theorems and,
  beside each, an `example` that meets its hypotheses.
* `seeded/mutate.py` – edits one definition of a copy of the model, rebuilds the
  modules that depend on it and records in `seeded/LOG.jsonl` which theorems
  stop proving.

Exceptions are values (`Except`), Python dictionaries are association lists in
insertion order, sets whose iteration order is visible are lists over which a
theorem quantifies all orders, loops are structural recursions or folds,
unbounded recursion of the code is recursion on fuel together with a theorem
that more fuel changes nothing, caches and files are explicit state, and a
command with crash points is a list of atomic steps.

A property that the code violates is kept as it is.  The violation is a theorem
about a concrete input (names with `_not`), and the part that holds is proved
under the hypotheses that exclude it; the manifest then says `partial`.

## Properties: model and method

| id | model | method |
|----|-------|--------|
| C01–C04 | `Model/Symbolic`: `reduce`, `Expression` operators on lists of terms with rational coefficients and exponents | induction over the accumulating dictionary; the value under a valuation as a product; uniqueness of canonical forms |
| C05–C07 | `Model/Symbolic`: character-level tokenizer, operators, parser, printer, `find_bounds` | induction over syntax trees of a printed grammar (`Spec/Grammar`); invariant on nesting depth |
| C08–C14, C63, C64 | `Model/Container` | induction; invariants over histories |
| C15–C18, C65, C66 | `Model/Aliased` | refinement to partial functions, invariants over histories |
| C19–C25, C68, C71 | `Model/MetricTables` (all tables transcribed), `Metric`, `MetricQuantity`, `MetricConvert`, `MetricCache`, `MetricDimension`, `MetricUnit` | a potential on the conversion graph, proved on the whole finite table and lifted to all paths and all visiting orders; caches as histories of requests |
| C26–C29, C33, C40, C67 | `Model/Numpy` (numpy's documented indexing), `NumericIndex`, `NumericArray` | arrays as functions of multi-indices; induction over axes |
| C30–C32, C69, C70 | `Model/NumericArray` | as above, arrays compared through their named points |
| C34, C35, C72 | `Model/Measured` | histories of conversions, algebra over a field |
| C36, C37 | `Model/Physical` | amounts (number times the size of the unit) over the reals |
| C38, C39, C73, C74 | `Model/Axis`, `Axes` | induction over lists of points and axes |
| C41 | `Model/Measurable` | induction on nesting |
| C42–C45, C75–C77 | `Model/Config`, `Derived`, `ConfigTables` | induction over lines; the tables of the package checked as a whole |
| C46–C51 | `Model/Project`, `Attrs` | invariants over histories of commands and crash points |
| C52–C55 | `Model/Observable` | real analysis, for every grid |
| C56–C58 | `Model/Interpolate` | real analysis, induction over grids |
| C59 | `Model/Atomic` | whole table of elements; order on the rationals |
| C60, C78 | `Model/Universal` | whole table of constants |
| C61 | `Model/Exceptions` | case analysis over all functions and classes |
| C62, C79 | `Model/Observer` | lists of file names; patterns as a relation |
| C80–C82 | `Model/Datafile`, `Interfaces` | histories of requests and replacements of the file |
| C83 | `Model/MetricSystem` | plain expressions (names, ones, integral exponents) are closed under the printing and re-reading of the code; finite tables of canonical units |
| C84 | `Model/Standardize` | the standard text is the text of a grammatical expression, whose value is given by C05 |
| C85 | `Model/UnitEquivalence` | decomposition = reduced form of the expansion in base units (finite table); freeness: sizes that double one base unit; dimensions as coherent sizes (finite table) |
| C86 | `Model/ObservableAlgebra` | induction on expressions with the invariant that the operator's array is on the grid of the request in the declared unit; freeness of units for uniqueness of the simplified unit |
| C87 | `Model/Subscript` | C26, C27 and C67 give the data; the axes are selected by the same positions; the part of the grid selected by the indices is shared by operands and results |
| C88 | `Model/Observable`, `Model/Subscript` | the quantities are pointwise on every grid (C52, C53), and pointwise quantities commute with subscription (C87) |
| C89 | `Model/Gradient` | the differences of numpy are compared with interpolating lines and parabolas by field arithmetic; inside, a gradient is a convex combination of the slopes of the two intervals |
| C90 | `Model/Gradient` | C89, and the tables of units by evaluation in the kernel |
| C91 | `Model/Distribution` | the arrays are followed on the grid through each operation; the compound units are converted by evaluation of the model with rational factors, which agrees with the real ones (`Lemmas/ConvertCast`) in any order of the nodes; a weighted mean lies between bounds of its values |
| C92 | `Model/Distribution` | as C91; the inverse by field arithmetic |
| C93 | `Model/Observe` | each kind of argument is shown to become an index with the positions of its meaning (C38, C39, C74), by induction over the dimensions; the selection is that of C87 |
| C94 | `Model/Observe` | as C93, with the arguments that are not on their axis kept as assumptions; the arrays are followed through the interpolation on the grid (C56), by induction over the interpolated axes |
| C95 | `Model/Observe`, `Model/Interpolate` | the request becomes an interpolant with the radii of all times and shells, in the unit of the metric system (C83); the interpolation is that of C57, after that along the other axes (C94) |
| C96 | `Model/RunLog`, `Model/Project` | membership in the dictionaries; that no file is directly in a run directory is an invariant of the commands |
| C97 | `Model/RunLog` | simulation of a function from names to metadata by the file, by induction on the operations |
| C98 | `Model/Transport`, `Model/Observable` | the algebra of arrays on grids (C86, C54), with products of arrays on grids of different sizes |
| C99 | `Model/Acceleration`, `Model/Transport`, `Model/Subscript` | the algebra of arrays on grids (C86), with products of arrays whose axes differ, and subscription (C87) |
| C100 | `Model/IntegralFlux`, `Model/Interpolate`, `Model/Observe` | each row of the flux is a spectrum; the columns by induction over the bounds with the power law of C56; union of axes (C39), then subscription (C87) |
| C101 | `Model/Names`, `Model/Stars`, `Model/Aliased` | the groups of aliases by evaluation of the whole table, the map of names by C18 for any order of iteration; histories by an invariant on the kept objects |
| C102 | `Model/Stars`, `Model/Names`, `Model/ObservableAlgebra` | grammar of compound names as trees; the parser follows the tree by induction, as for C01; the product by induction over the terms with the unit algebra of C71/C86 |
| C103 | `Model/Coordinates`, `Model/Observe` | the request of C93/C94 for one dimension, then the array of converted values on the grid; the speeds by the array algebra of C36 and the units by evaluation |
| C104 | `Model/Declared` | evaluation of the package tables for the units, C85 for the consistency, and a lemma that conversion between these two spellings has factor one after any history; then composition with C54 and C55 |
| C105 | `Model/Create` | induction over the arguments; decimal names are injective by reading them back |
| C106 | `Model/Create` | case analysis over the classes of arguments, with the lemmas of C105 for the axes |
| C107 | Subscription by numpy, the attempt to make a scalar of the result, the three ways of iteration. | Case analysis on the subscript; induction on the loop of the iteration. |
| C108 | The casts of scalars, measurements and arrays, with the registry of operators. | Case analysis; C34 for the value after a conversion. |
| C109 | The index classes, their factories, operations and comparisons on unbounded integers. | Case analysis on the operands, with a specification of floor division and remainder by their defining inequalities. |
| C110 | The three regular expressions, the parsers of their matches and the loading of files, on lists of characters. | Each pattern as a scan from the left, proved equivalent to a declarative description of the line in both directions; induction over the lines of a file. |
| C111 | The texts written and printed by the command configfile, on lists of characters, and the comparison of file objects. | The generated text as a list of well-formed lines (C42), look-up by C43, invariants of the loop over parameters, evaluation of the table of the package. |
| C112 | get_unit, normalize and quantities() on lists of terms and texts; the registries only store what they compute and are left out. | Powers and products of names in parentheses are parsed by the grammar (C05), canonical forms are determined by their values, evaluation of all rows of the table of quantities. |
| C113 | The creation, subscription, casts and rounding of variables, on vectors of any length; conversions and rounding functions of numbers are parameters. | Case analysis over subscripts with the positions of C27; the members of vectors of C107 and the creation of C106. |
| C114 | ismeasurable on the objects of C41. | Induction over the nesting of the input, with the theorems of C41 about parse. |
| C115 | create with its argument forms and full-match modes, term_factory, on the tokenizer of C05. | Induction over the nesting of the written term, with the tokenizer lemmas of C05. |
| C116 | Term.__call__, casts, comparisons and formats. | Case analysis and the round trip of written numbers (C06, C115). |
| C117 | paths.search, locate, find_file_by_template and the start of a run, over an arbitrary disk. | Induction over the list of directories; case analysis. |
| C118 | The relations of NamedUnit to the metric systems, its comparison, hash and shifts; the caches are left out. | Evaluation of the whole tables by the kernel against a list of the units of each system; case analysis. |
| C119 | numpy.squeeze, transpose and trapz of physical scalars and arrays, with trapz's broadcasting of spacings; other uses of these functions (axis of squeeze, physical spacings) are left out. | Arrays on a grid of named positions; the theorems for arrays with named dimensions (C32, C69) give names and values, one lemma the axes and the unit; concrete counterexamples by evaluation. |
| C120 | Positions, membership, counting, search, difference (with any hash function of the terms), hash and apply of expressions. | Induction over the loops; equality of exact terms is identity, so that sets are sets; apply by the theorems on products and powers (C04). |
| C121 | The helpers on None, truth values, integers, text, bytes, lists and tuples (sets, mappings and arrays are left out). | Induction over nested objects and over lists; sorting is compared by permutations. |
| C122 | join, allisinstance, widest over any subtype relation, and the table of sentinels with the identities of the objects. | Induction over items and over the history of calls. |
| C123 | The properties of quantities in each system, the comparison with |, the keys of systems and the tables of singletons with the identities of the objects. | A kernel computation over the whole finite table of quantities; induction over the history of requests. |
| C124 | The dictionaries of definitions and metadata with texts, types and other values; repr of text is left open. | Induction over the parameters, the keys and the history of accesses. |
| C125 | Dimensions with text names, and objects as the operations tell them apart; sets are collections in their order of iteration. | Induction over names; the results of the operations are those of C30. |
| C126 | A session with its cache; objects and functions with numbers as identities; parsing, aliases, methods and consistency of units are parameters. | Invariant over all programs: every identity belongs to one object or function, and the cache only grows. |
| C127 | Arguments with its two caches and its aliased mapping; the conversion of assumptions is a parameter. | Invariant of the caches over all sequences of requests; look-up in the aliased mapping by C15. |
| C128 | The three caches of a Dataset and the directory at each request; the orders of the sets of prefixes are parameters. | Invariant of the caches over all histories; the listings are those of C62. |
| C129 | Reduction objects over reduced expressions, with exact scales; the round trip of expressions through text is left out (C05). | Coefficients and exponents of reduced expressions (C02); induction over the units of an expression. |
| C130 | Views of aliased mappings over names and over groups, mapping equality, union with a standard mapping, flat, freeze; views are of mappings without named groups of keys. | The invariant of reachable aliased mappings (C16), induction over the listed names. |
| C131 | Table.show over entries of texts, truth values and objects without a format; numbers stand for their text, and the lines stand for what is printed. | Induction over names and entries. |
| C132 | Singleton classes as paths of single inheritance, representations by method resolution order, apply, doc2help without replacements; textwrap.wrap is a parameter and lower case is that of ASCII. | Invariants over the history of calls; induction over texts and lists of methods. |
| C133 | The dictionaries of implementations of each class with single inheritance, resolve, implements, the operator methods and __array_ufunc__. | Induction over the history of registrations; the nearest class with a dictionary is invariant. |

## Trusted base

* The kernel of Lean 4.33.0.
* The axioms `propext`, `Classical.choice` and `Quot.sound`, and no others (many
  theorems about lists use only `propext`, or `propext` and `Quot.sound`;
  theorems that go through Mathlib's reals or finite products use all three).
  No axiom is added, no compiled code is trusted.  `decide +kernel` is used only
  for complete finite tables of the package and for concrete witnesses; it is
  evaluated by the kernel.
* The transcription of the Python source into `Model/`, including the tables.
* The specifications in `Spec/` say what the English properties mean.
* The assumptions listed below.

## What is modelled, and what is not

Common to all parts: integers are unbounded, text is a list of characters,
floating-point numbers are exact rational or real numbers (no rounding, no NaN
or infinities) except in `Model/Float`, where the rounding to a double and its
printing decide what the tokenizer reads back.

* **Symbolic algebra** (`symbolic.py`): tokenizer, operators, parser in both
  modes of `exact`, reduction, printing, algebra of expressions.  A scale is
  printed exactly only for powers of ten; an operand's own text is kept only as
  far as the parser uses it.  Not modelled: `Operand` classes as objects,
  `Expression.difference`, the non-default separators.
* **Containers and aliases** (`container.py`, `aliased.py`): `unique`, `merge`,
  `Bijection`, `nearest`, `Graph`, `Table`, `ObjectRegistry`, `slice2range`,
  mappings, groups, name maps.  Not modelled: `wrap`, `separable`, formatting.
* **Projects** (`project.py`): directories and the log as one state; `run`,
  `mv`, `rm`, `reset`, `rename`, reopening, attributes in the database.  The
  program that is run is arbitrary; removal of a directory tree is one step;
  glob patterns with `*`, `?` and `**`.  Not modelled: branches beyond their
  names, `show`, logging text.
* **Units** (`metric/`): the tables of prefixes, base units, quantities,
  conversions and dimensions in full; named units, dimension of units,
  conversion by strings, by swapping, by dimensions, products of units, caches.
  `unit_factory` is modelled for strings; its registry is left out except where
  C23 speaks of it; powers of the C library are taken as correctly rounded; the
  order in which a set of targets is visited is arbitrary but fixed during one
  request.
* **Arrays** (`numeric/`): numpy's semantics is assumed as documented
  (`Model/Numpy`).  No `newaxis`, no boolean masks, no nested tuples as index.
  Subscription of a netCDF variable either agrees with numpy or raises
  `TypeError` or `IndexError`.  Reductions are modelled for two or more
  dimensions; elementwise functions are arbitrary functions.
* **Measured and physical objects** (`measured/`, `physical/`, `quantity.py`):
  operators, functions, conversion, parsing of measurable input.  Translation of
  exceptions is left out except in C61; numpy arrays as operands of scalars,
  gradients along several axes at once, `squeeze` of physical objects and `measure` of non-numbers are not
  modelled.
* **Axes** (`physical/_axis.py`, `_axes.py`): points, symbols, coordinates,
  collections.  Targets of coordinates are numbers with a unit; equality and
  membership of an axis are abstract.
* **Measurable input**: lists, tuples, numbers, text, units.  Not modelled: numpy
  arrays, dictionaries, other iterables.
* **Configuration** (`parameter/`): ASCII text, comment markers of one
  character, translated line ends; the tables of the package in full.  `float`,
  `complex` and `**` are abstract in the general theorems and exact for the
  tables.  Not modelled: extraction of the tables from C source.
* **Atomic** and **universal constants**: exact decimals, times powers of π; a
  dictionary instead of the aliased mapping.
* **Observables** (`observable/`): the formulas of the interfaces on restricted
  arrays, over the reals, with division by zero excluded by hypotheses, on grids
  without empty axes; interpolation with numpy's and scipy's documented
  behaviour.  Not modelled: Simpson integration, assembly of contexts.
* **Observers and files** (`observer/`, `datafile`, `paths`): a directory is a
  list of names; patterns with `*` and `?`; sets of prefixes in any order.  A
  netCDF file is a pair of dictionaries (variables and dimensions); a handle
  keeps the content it was opened on; conversion to physical arrays is an
  abstract function.
* **Conversion to a metric system**: the registry of converters and the cache of
  `UNITS` are left out; the set of ambiguous targets counts equal lists of terms
  once; the parentheses that the code leaves out around a simple operand are
  written.
- **Comparison of units** (`metric/_units.py` 169-352): `&`, `|`, `dimensionless`,
  `dimensions`; operands are units, given by their terms.
- **Algebra of observable quantities** (`observable/_objects.py` 390-601, `_interfaces.py` 1116-1134):
  the operator of a quantity is any function of the parsed arguments; parsing of
  compound names is not modelled.
- **Subscription of physical arrays** (`physical/_array.py` 69-73, `observable/_interfaces.py` 898-909, 1035-1043):
  numpy arrays as indices are not modelled, because comparing them with `slice(None)` raises.
The values of the parameters and constants are given as numbers in the units of the system.The masses and charges are those of the requested species; interpolation is C94.Simpson's rule is a parameter; times between stored ones are C94.The quantities that the properties return are parameters.Powers of units are proved for integers; fractional powers raise float questions that C71 covers for single powers.Real numbers instead of floats.Real numbers instead of floats. The units in which the arrays are computed are those of C52-C55, C90-C92, C98-C100.What quantity.measure reads is abstracted to values and a unit (C41).Files, complex numbers and sharing of memory are not modelled.physical/_vector.py, physical/_tensor.py, measured/_sequence.py, base/mixins.py (Sequence.__iter__)physical/_scalar.py 51-81, physical/_array.py 48-67, quantity/_measurement.py 29-46numeric/_index.py 28-563parameter/_src.py 160-470, paths.py 158-188cli.py 23-203, parameter/_config.py 136-226metric/_systems.py 259-347, metric/_units.py 33-39, 441-476, metric/_dimensions.py 14-34parameter/_runtime.py 25-134, numeric/_objects.py 222-244quantity/_functions.py 32-78, metric/_units.py 534-557, etc.py 477-492symbolic/_operand.py 96-105, 124-352, 373-489, 569-607, 645-667, 815-856symbolic/_operand.py 669-775paths.py 20-22, 46-63, 103-126, 219-257; project.py 934-953metric/_defined.py 379-393, 437-459, 605-727

Everything that depends on netCDF4, numpy's C implementation, scipy, the real
file system, process execution or IEEE rounding is outside the model.

## Violations found

Each is a theorem about a concrete input of the model; the manifest names it.

* **C04** The code violates the full claim (c04_mul_inexact, c04_pow_inexact: results are printed and re-read, which loses multi-digit denominators). Proved unconditionally for coefficient-free integer powers (units), commutativity and a/a for all expressions, and in general whenever the intermediate results are printable.  Theorems: `c04_mul_inexact`, `c04_pow_inexact`.
* **C06** The code violates the claim for denominators of two or more digits and for coefficients that are not doubles; proved for all Printable terms.  Theorems: `c06_print_inexact`.
* **C07** The code violates the claim when a ) precedes the first ( ; proved otherwise, and unconditionally for strings starting with (.
* **C100** The code violates the claim for slices, which are the default for the minimum energy: the result then is the integral from the lowest energy up to each energy, along the axis 'energy' (c100_not_slice), and a slice of one energy weights the fluxes at all energies with the width of that one (c100_not_bin). scipy's Simpson rule is a parameter of the theorems (any function of the values and the energies).  Theorems: `c100_not_slice`, `c100_not_bin`.
* **C101** The code violates two parts: 'ubmag' and 'udotb' are listed, but looking them up, and even testing membership, raises AttributeError (c101_listed_violation); membership tests of strings that can not be parsed raise the exception of the parser, or IndexError for the empty string, instead of being false (c101_unknown_violation).
* **C102** The code violates the claim: every subscription of a quantity that was looked up with a compound name raises an exception (c102_subscription), and a compound name whose powers all cancel, such as 'r/r', raises KeyError (c102_cancelled). The token '**' becomes the regular expression 'zero or more asterisks': 'r*2' and 'r-1' are read as powers, 'r ** 2' is refused, and aliases such as 'J(E)' or '|B|' are not names inside compound names (c102_misread).
* **C103** The code violates the claim: for values that are not on the axis the result keeps the whole stored axis, whose length and values are not those of the result (c103_not_axis), and for energies of several species the subscription raises (c103_not_several).  Theorems: `c103_not_axis`, `c103_not_several`.
* **C104** The code violates the claim: for a dataset with fluxes in place of distributions, subscribing f raises AttributeError (c104_not_distribution); for several species the declared dimensions of the average energy and energy density lack the species (c104_not_species).  Theorems: `c104_not_distribution`, `c104_not_species`.
* **C105** The code violates the claim: a single length raises TypeError (c105_not_one), a mapping overrides pairs although the documentation says the opposite (c105_not_precedence), repeated names silently merge axes (c105_not_twice).  Theorems: `c105_not_one`, `c105_not_axis`, `c105_not_precedence`, `c105_not_twice`.
* **C106** The code violates the claim: scalars made from vectors or measurements and tensors made from vectors lose the unit (c106_not_scalar, c106_not_tensor, c106_not_sequence), the lengths of given axes are not checked (c106_not_lengths), and an empty mapping gives an array without axes (c106_not_empty).  Theorems: `c106_not_scalar`, `c106_not_tensor`, `c106_not_sequence`, `c106_not_lengths`, `c106_not_empty`.
* **C107** Violated by the code in two places: a slice or list that selects exactly one value gives a scalar instead of a sequence (c107_part_one, c107_not_slice), and iteration over a tensor with several dimensions gives its single values instead of its rows, so that there are not len(t) of them (c107_members, c107_not_members). Tuples with lists or ellipses as subscripts are not modelled.  Theorems: `c107_not_slice`, `c107_not_members`.
* **C108** Violated by the code: complex(x) of every scalar raises TypeError, because its operator is registered under the type and looked up under the name 'complex'; vectors and tensors have no casts even if they have a single value.  Theorems: `c108_not_complex`, `c108_not_vector`.
* **C109** Violated by the code: sequences of different lengths are cut to the shorter one, in arithmetic and in comparisons, so that a sequence equals each of its extensions; a power whose exponent is a sequence of several members always raises ValueError; division of a sequence by zero gives zeros; value([i, j, ...]) silently takes the first integer. 64-bit overflow and measurable arguments are not modelled.  Theorems: `c109_not_length`, `c109_not_power`, `c109_not_zero`, `c109_not_equal`, `c109_not_value`.
* **C110** Violated by the code: a comma within a string default cuts it; a comment after a #define value is read as part of the value; a call followed by a comment is not found at all, and the parameter has then no default; arrays of several numbers, negative numbers and numbers with exponents are not found. White space, digits and word characters are restricted to ASCII.  Theorems: `c110_not_comma`, `c110_not_comment`, `c110_not_followed`, `c110_not_arrays`.
* **C111** Violated by the code: lists with a unit (all seven list parameters of the package) are written without brackets and read back as text; an unknown default is written as 'None' and read as text; comparing equal files for differences fails with StopIteration; without the restriction each parameter appears twice, once without values; a file that sets a parameter to its default counts as different from one that does not mention it; an empty value shows as '(default)'; the given source is used for names only; values of 78 characters or more run into the label; file objects cannot be compared to paths given as text. How numbers and arrays are printed is a parameter; paths are not modelled.  Theorems: `c111_not_lists`, `c111_not_none`, `c111_not_same`, `c111_not_once`, `c111_not_default`, `c111_not_empty`, `c111_not_source`, `c111_not_separated`, `c111_not_paths`.
* **C112** Violated by the code: a dimension given as text is found only in the spelling of the table (an energy not as 'M L^2 T^-2'); the dimension of a magnetic field in cgs gives 'statC m^-2', with a unit of the other system; quantities in ohms raise ValueError; an unknown quantity, and a unit whose quantities cancel, recurse without end; normalize with a quantity ignores the unit and misreads names of two words. The listed dimension of permittivity is wrong (C25).  Theorems: `c112_nothing`, `c112_not_spelling`, `c112_not_gauss`, `c112_not_ohm`, `c112_not_unknown`, `c112_not_ratio`, `c112_not_named`.
* **C113** Violated by the code: positions from -2 len(v) to -len(v) - 1 wrap around a second time instead of raising IndexError; empty parts raise TypeError; a list of one position gives a scalar; a numpy array of positions raises ValueError; a variable of several values is converted and rounded as if its first value were the only one, and one without values raises IndexError.  Theorems: `c113_not_outside`, `c113_not_empty`, `c113_not_list`, `c113_not_array`, `c113_not_single`, `c113_not_none`.
* **C114** Violated by the code: an empty list in a list, an empty string with a unit, any string as a unit, and parts with different units are measurable but cannot be measured; numbers given as strings can be measured but are not measurable.  Theorems: `c114_not_empty`, `c114_not_blank`, `c114_not_unit`, `c114_not_same`, `c114_not_strings`.
* **C115** Violated by the code: a symbol directly in front of a parenthesis is dropped, create('a(b)') is the term b.  Theorems: `c115_not_keeps`.
* **C116** Violated by the code: a term evaluated at zero is 1; comparing a term that has a symbol with a number raises TypeError; a term with a fractional coefficient does not equal its own text. Powers of numbers at fractional exponents (C library pow) are outside the model.  Theorems: `c116_not_call`, `c116_not_compares`, `c116_not_own_text`.
* **C117** Violated by the code: a directory that does not exist makes search raise although a later one holds the file; an environment entry that does not exist hides the branch's own program; a program found nowhere raises TypeError instead of being left to the system; the copied configuration stays behind when a program is not found.  Theorems: `c117_not_search`, `c117_not_locate`, `c117_not_own`, `c117_not_leaves`.
* **C118** Violated by the code: the lumen is defined in no system; for the lux every question raises RecursionError (misspelt quantity); norm raises an exception for ten units (Oe, P, Pa, W, ohm, S, H, lm, Gy, lx) because the canonical unit of their quantity in one system is compound.  Theorems: `c118_not_light`, `c118_not_norm`.
* **C119** Violated by the code: numpy.transpose(x, axes=...) reverses the data whatever the axes are, while names and axes are permuted as asked (c119_transpose_axes); an axis given to numpy.trapz by position is used for the data, but the name and axis of the last dimension are dropped (c119_trapz_position, c119_trapz_axes). Spacings that are physical arrays are not modelled.
* **C120** Violated by the code: e[i] with -2 len(e) <= i < -len(e) gives a term instead of IndexError (c120_item_wraps, for every expression); equal expressions whose exponents differ below double precision, such as a^1/3 and a^0.3333333333333333, have different hashes and a non-empty difference (c120_difference_inexact); apply loses numerical coefficients (c120_apply_coefficient). Slices are those of lists and are not modelled. apply is proved for products of integer powers.  Theorems: `c120_difference_inexact`.
* **C121** Violated by the code: wrappers around bytes and None, which are not separable, hold integers and nothing (c121_wrapper_not); wrappers of a text and an integer cannot be compared even with themselves (c121_equal_mixed); unwrap([None], newtype=list) loses the member (c121_newtype_none); size refuses a list of texts although it is separable (c121_size_texts). Equality of wrappers is proved for members that are all integers or all texts.  Theorems: `c121_wrapper_not`.
* **C122** Violated by the code: widest gives the narrower of two related types (c122_widest_partial, c122_widest_not); sentinels are looked up by value but stored by name, so the same name and value give two different, unequal objects (c122_sentinel_twice), a value that is the name of an earlier sentinel gives that sentinel (c122_sentinel), and equality is not transitive (c122_not_transitive); a sentinel of an empty text is true (c122_sentinel_empty).  Theorems: `c122_widest_not`, `c122_not_transitive`.
* **C123** Violated by the code: the quantities measured in ohms (impedance, resistance, resistivity) have no unit in mks, so asking for their properties or comparing them with themselves raises ValueError (c123_ohmic); asking whether an unknown name is in a system ends in RecursionError instead of False (c123_missing, on three names).  Theorems: `c123_ohmic`.
* **C124** Violated by the code: with format='full' and a key that is not defined, ConfigurationC.get does not give the default None but raises TypeError (c124_full). The raw dictionary is proved to have the same items; its order is different (mode comes first). The text given by tostring is proved line by line; that Python reads it back is not.
* **C125** Violated by the code: several dimensions are equal to the text of their letters, so that equality is not transitive (c125_equal_letters, c125_not_transitive); a text equal to a dimension has another hash (c125_hash_partial) and is compared by its letters (c125_compare_letters); other - dimensions and other ^ dimensions are always TypeError unless other is Dimensions (c125_not_reflected); an iterator counts as no names (c125_iterator); permute with a single index is ValueError (c125_permute).  Theorems: `c125_not_transitive`, `c125_not_reflected`.
* **C126** Violated by the code: p + q == p + q is always False, because the functions that _apply defines are compared by identity (c126_not_again); the same holds for two spellings of a compound name, and for every result of an operator.  Theorems: `c126_not_again`.
* **C127** Violated by the code: a default for an axis replaces the index that was given, because only assumptions are looked up (c127_default_replaces_index). Assumptions must have unambiguous names (no two aliases of one another).
* **C128** Violated by the code: streams and points listed at different times are combined, so that observers may be those of no state of the directory (c128_not_one_time).  Theorems: `c128_not_one_time`.
* **C129** Violated by the code: after an operation the coefficient of the expression contains the new scale two more times, because the constructor multiplies by the scale again (c129_mul_partial, c129_mul_coefficient); reduction(unit) multiplies by the scales of the later units only and loses their units (c129_reduction_partial, c129_units_lost).
* **C130** Violated by the code: a view over the names keeps the list of names of the time it was created while `in` and the values are live, so after a deletion iterating over values raises KeyError and after an assignment a new name is missing (c130_by_name_partial, c130_stale); freeze(groups=True) keeps the values and loses every alias (c130_freeze_groups_partial, c130_freeze_groups_loses_aliases).
* **C131** Violated by the code: None, lists and other values without a format of their own are a TypeError (c131_object), a truth value is printed as a digit (Cell.shown in c131_layout_partial), and without names nothing at all is printed (c131_nothing).  Theorems: `c131_nothing`.
* **C132** Violated by the code: once a singleton class has its instance, a class below it gives that instance (c132_base_first); str2repr shows only the name for a class below that inherits __str__ (c132_str2repr_partial); a phrase keeps capital letters after the first, the phrase of an empty docstring is IndexError, and an object without a docstring has the help text 'None' (c132_help_witnesses).
* **C133** Violated by the code: a class without dictionaries of its own registers for its base and for all classes below it (c133_independent_violated), and __object_operator__ gives KeyError for an implemented function that is no operator (c133_object_operator_violated). The groups of operators and __array_function__ are not modelled here; real.Array._get_arg_data is in C-properties on numeric arrays.
* **C14** The code violates the claim for names like f_1 (c14_register_can_lose); proved for all histories of names that do not end in an underscore and a number.  Theorems: `c14_register_can_lose`.
* **C17** The code violates the claim when a group overlaps two groups of the other collection; proved otherwise, for every iteration order of sets.
* **C23** Conversions found by name and named units other than 'cd' are independent of every history; units are, up to the order of their factors, for products of distinct symbols. The code violates the rest (c23_history_matters, c23_not_cd, c23_not_units).  Theorems: `c23_history_matters`, `c23_not_cd`, `c23_not_units`.
* **C24** Proved for compounds that differ by swapping units, and whenever terms can be paired off; the code violates the claim for dimensionless units and for conversion through base dimensions.  Theorems: `c24_not_dimensionless`, `c24_not_by_dimensions`.
* **C25** Proved for every product of integer powers of named units other than ohm and lux, every row of the table but four, and every listed conversion. The code violates the claim on the four rows (c25_wrong_rows), for ohm (c25_ohm) and for lux (c25_lux).  Theorems: `c25_wrong_rows`, `c25_ohm`, `c25_lux`.
* **C26** Proved for at most one ellipsis standing for at least one dimension or coming last; the code violates the claim for too many indices before an ellipsis and for an empty ellipsis that is not last.  Theorems: `c26_not_too_many`.
* **C27** Proved when every slice takes its whole axis; the code ignores the bounds of other slices, reads a bare list as a tuple and an empty array as everything.
* **C28** Proved for one dimension and for the last axis of two; the code violates the claim along the first axis of two dimensions and around repeated values.
* **C30** uniqueness, order and membership proved for union, intersection, difference, insertion, permutation and replacement by a new name; false of the code: symmetric difference always raises, replacing a name by an existing one loses a dimension, superfluous axes of a permutation are ignored
* **C31** alignment by name and independence of the storage order proved for all arrays; refused where numpy would broadcast a length-one axis; arrays with default names cannot be combined
* **C32** proved for transpose by names, by two or more axes and numpy.transpose without axes; false for numpy.transpose(axes=...), a single integer and a second transposition by names
* **C34** proved for all values, histories and chains of units converted by name, and for compound units that differ by such units; false of the code for derived units with a prefix against base units (kJ) and for compounds with angles  Theorems: `c34_not_compound`, `c34_not_dimensionless`.
* **C35** false of the code: the second conversion forgets the first; only the first conversion of an array is right, and the chain is right exactly for zero data or units of equal size  Theorems: `c35_not_chain`, `c35_not_back`.
* **C36** Sums, products, quotients, powers, roots, signs, reductions and functions act on amounts (number times size of unit), over the reals. Violated by: the exponent 0 (keeps the unit), // and % (applied to the numbers whatever the units), trigonometric functions of degrees, numpy.power (drops the unit), powers of arrays by arrays (combined by position, axes of the exponent lost). Not modelled: numpy arrays as operands.  Theorems: `c36_trig_deg_not`, `c36_floordiv_not`, `c36_numpy_power_not`.
* **C37** Proved for the derived operators over a linear order and for scalars with equal units. Violated by unordered values, by different units of the same dimension (unequal, and order comparisons raise) and by comparisons with numbers (unit ignored, never equal).  Theorems: `c37_units_not`, `c37_number_not`.
* **C38** proved for points held in arrays, symbols and coordinates with units; false of the code: points that axes_factory makes from a shape, list or range raise IndexError, and a target just beyond either end of an axis is refused although it is within the tolerance  Theorems: `c38_points_not`, `c38_points_all_not`.
* **C39** proved for all operations; false of the code: insert exchanges before and after, and drops the new axis if the location does not exist; replacing a name by one that exists loses an axis  Theorems: `c39_insert_index_not`.
* **C40** Proved for bounds on the axis; the code violates the claim for bounds beyond it.
* **C41** Every documented form of input, with any nesting, gives its numbers and unit, and nothing else is accepted (for input where a list of values beside a unit holds only numbers and stands alone). Violations proved: values beside a list of values are dropped; values that are no numbers are accepted; numbers given as text are not distributed; a unit object after them raises TypeError; a final text 1 is read as a number. Not modelled: numpy arrays, dictionaries and other iterables.  Theorems: `c41_not_values`, `c41_not_numbers`, `c41_not_distributed`, `c41_not_unit_object`, `c41_not_one`.
* **C42** Every well-formed file gives exactly the mapping of its last values. Violated by lines of white space only and by indented comments (ValueError).  Theorems: `c42_not_blank`, `c42_not_indented`.
* **C44** Proved unless the result is zero (TypeError, c44_not_zero), a term is the number 0 (c44_not_zero_term) or there are more than two terms (the others are ignored, c44_not_three).  Theorems: `c44_not_zero`, `c44_not_three`, `c44_not_zero_term`.
* **C45** Proved for all lists of integers with any blanks around the members. Violated by blanks inside the brackets of an empty list.  Theorems: `c45_not_spaces`.
* **C46** Proved for every history of commands whose run names are single path components and whose rm patterns match only entries of the run directories; the code violates the claim for nested names and for the pattern **.
* **C47** run, mv and rm with a non-empty pattern proved, at every crash point; the code violates the claim for rm with an empty name (removes every run).
* **C48** The code violates the claim: every rename of a logged run has a crash point with a dangling log entry and one with an unreadable log. Proved: at every crash point at most one logged run is missing, none for run.
* **C49** The code violates the claim: no rename updates the log, and the name of the project stays the old one if it has been read (c49_not_name). Proved: the disk is moved as a whole, and an existing target is refused.  Theorems: `c49_not_name`.
* **C50** Reopening restores all attributes (also after a rename) unless the input directory is the root itself (c50_inputs_dot); the code violates the claim for copies.  Theorems: `c50_inputs_dot`.
* **C57** Proved for axes, and for radii that no shell has at any stored time. Interpolation to a radius that some shell has always raises an exception (c57_not_radius).  Theorems: `c57_not_radius`.
* **C58** c58_rows says what is computed in general: the radii of the k-th stored time are used for the k-th target time. This is the claim where the radii do not depend on the time (c58_partial), and violates it otherwise (c58_not).  Theorems: `c58_not`.
* **C59** Proved for all masses and all integral charges. The element itself is not found again from its own mass for Ca, Co, Po, Cm, Db (c59_not_all: exactly these); fractional charges are truncated.  Theorems: `c59_not_all`, `c59_not_fraction`.
* **C60** All 23 constants: 19 agree exactly, e, epsilon0 and mu0 through the Gaussian factors to the printed precision. Violated for c1, whose cgs value is too small by 10^11.  Theorems: `c60_not_c1`.
* **C61** Proved when exceptions are matched by their exact class. A subclass of a registered exception is caught by the except clause but looked up by its own class and therefore fails with another error (c61_not_subclass).  Theorems: `c61_not_subclass`.
* **C62** Look-up by number or name is proved for every directory in which only one file has the number. Violated where two prefixes carry the same number (the answer depends on the order of a set, and a dataset loses one of the files), for points whose names begin with letters of the prefix, and where another data file has the prefix of a stream.  Theorems: `c62_not_observer`, `c62_not_single`, `c62_not_stream_id`, `c62_not_point_id`, `c62_not_stray`, `c62_not_point_key`.
* **C63** The code violates the claim; it holds for single-pair requests (c13_call_single).
* **C65** The code violates the claim; it holds for keys that are not names of key groups.
* **C66** The code violates the claim; it holds for tuples of new names.
* **C67** Proved for slices only, and for integers with plain slices; the code violates the claim for other mixtures.
* **C68** Proved for all mechanical units with all prefixes (exactly) and for every listed conversion but seven (to one part in 500); the code violates the claim on seven: C, A, V, S, ohm, H, H/m.  Theorems: `c68_wrong`.
* **C69** proved without keepdims; false of the code: sum(keepdims=False), mean(keepdims=True) and squeeze(axis=...) with another length-one dimension raise
* **C70** false of the code: the second array is ignored
* **C71** proved for exponents that are multiples of 1/4 (results: of 1/8) and doubles can hold, in either order of the systems; false of the code: a ** 0 is a, and products with a lux raise RecursionError  Theorems: `c71_lux`.
* **C72** false of the code after a conversion: transposing divides the elements by the last conversion factor; proved for arrays that were not converted  Theorems: `c72_not`.
* **C73** proved for integers, lists and slices with bounds on the axis; false of the code for negative and too large bounds of slices, lists of symbols and the full slice of points  Theorems: `c73_not_negative`, `c73_not_beyond`, `c73_not_symbols`, `c73_not_points`.
* **C74** proved for all collections; false of the code: + of collections with different names raises UnboundLocalError, not ValueError  Theorems: `c74_add_not`.
* **C75** Violated: defaults are computed from defaults only; with simStartTime = 10 the simulation stops at 0.0104.  Theorems: `c75_not_followed`, `c75_not_package`.
* **C76** Proved for numbers, for expressions of the grammar of C05 with defined names, and for every constant of the package. Violated by names that are not defined (left out silently) and by numbers with negative decimal exponents inside expressions.  Theorems: `c76_not_undefined`, `c76_not_small`.
* **C77** Products with integral numbers and positive values of parameters; decimal points and negative signs in the expression are left out of the general theorem. Proved for all 119 parameters of the package.
* **C79** Every directory. Violated where two files have the best pattern: the choice then depends on the listing order (c79_not_order).  Theorems: `c79_not_order`.
* **C80** Every history without replacements of the file: exactly its content. Violated after a file was replaced (the view goes on showing the old content, c80_not_replaced) and for a hint given after the first request (c80_not_hint).  Theorems: `c80_not_replaced`, `c80_not_hint`.
* **C81** Every history. Violated in that hasdist may be true although the distribution is not given (files with both arrays, c81_not_hasdist).  Theorems: `c81_not_hasdist`.
* **C82** Proved for complete files and for the names of axes; violated for other attributes of the object (axes["view"] succeeds) and for files without one of the variables.  Theorems: `c82_not_keys`, `c82_not_missing`.
* **C83** The unit of the system is proved for all products of integral powers, in terms of values; the factor where the units are converted by name or can be paired off. Violated: seconds and centimetres cannot be converted to mks (and C / m^2 not to cgs, because of a wrong row of the table), energies per nucleon lose the nucleon, a mass per count is read as a mass number, ratios end in a RecursionError.  Theorems: `c83_not_shared`, `c83_not_per_nucleon`, `c83_not_mass_number`, `c83_not_ratio`.
* **C84** Proved for all numerators without a slash and all denominators. Units with two slashes, which everywhere else are read from left to right, are given another meaning (J/m^2/s becomes J s/m^2).  Theorems: `c84_not_two_slashes`.
* **C85** Proved: a positive answer means equal sizes or the conversion factor one (exponents multiples of a half), and units of equal size with a dimension are found equivalent (integral exponents). Violated: degrees per second are equivalent to radians per second, and steradians to radians; V A / W is not equivalent to 1; MeV / nuc & J / kg raises ValueError while J / kg & MeV / nuc is False; km and Mau are consistent but do not convert.  Theorems: `c85_not_symmetric`, `c85_not_convertible`.
* **C86** Proved for sums, differences, products and quotients of any depth, and for one conversion at the end. Violated: a sum of quantities after conversion to a common unit is accepted but subscription raises; q ** x is accepted but every subscription raises TypeError; hence so does every compound name with more than one term or a power.
* **C87** Proved for tuples with one index for each dimension where subscription of the data selects a product (C27, C67), for one index that is not a list, and for all indices of observers. Violated: a sequence of positions beside a slice that does not take its whole axis keeps the whole dimension in the data but not in the axis; a tuple with fewer indices than dimensions is always refused; a list is read as a tuple.  Theorems: `c87_not_list`, `c87_not_short`, `c87_not_slices`.
* **C88** Proved for x, y, z, bmag, umag, udotb, upara and uperp. Violated by the angle: its axes are always those of the whole dataset, whatever part is requested. Not covered: the other derived quantities.  Theorems: `c88_not_angle`.
* **C89** Proved for arrays along one axis, with coordinates that are an array, a vector, a scalar, a number, or absent; c89_unique shows that the slopes are well defined. Violated for coordinates that are a measurement: their unit is ignored. numpy.gradient itself is modelled after its documentation. Not covered: gradients along several axes at once, of vectors and tensors.  Theorems: `c89_not_measurement`.
* **C93** The first sentence is c93_select, in full. The second is violated by the code: a number of a shell that does not exist gives all shells (c93_not_shell), an empty slice gives the whole dimension (c93_not_empty), a negative number of a shell is a TypeError although negative integers count from the end elsewhere (c93_not_negative), and durations for the shells are read as numbers of shells without their fractions (c93_not_unit).  Theorems: `c93_not_shell`, `c93_not_empty`, `c93_not_negative`, `c93_not_unit`.
* **C94** c94_interpolated and c94_refused are the first two sentences; the interpolation is along one axis after the other in the order of iteration of a Python set, which is arbitrary in the model. The ends of an axis are refused too when they are requested together with values between others (also c94_refused). The last sentence is violated: numbers without a unit that are not on the axis raise an error in the conversion of units (c94_not_plain). Interpolation in radius is C57.  Theorems: `c94_not_plain`.
* **C95** c95_radius_partial is the claim for radii strictly between the first and the last shell at each stored time that no shell has, at stored times. The code violates the rest: a radius that a shell has at any stored time raises an exception (c95_not_shell); so does one that is beyond the shells at a stored time that is not requested (c95_not_outside, which also is the last sentence of the claim); at times between the stored times the radii of the first stored times are used instead of those at the requested times (c95_not_time, c95_not_time_sample); centimetres are refused in mks (c95_not_cm).  Theorems: `c95_not_time`, `c95_not_time_sample`, `c95_not_shell`, `c95_not_outside`, `c95_not_cm`.
* **C96** c96_views and c96_views_single describe the listing on any disk; c96_show and c96_logged are the claim for all histories of commands. The code violates the claim if something else put a file in a run directory: it is listed as a run without branches, and `show` prints a path that does not exist (c96_not_file).  Theorems: `c96_not_file`.
* **C97** c97_log_partial is the claim for metadata without paths that are given directly. The code violates the rest: metadata that are read from a file are stored together with a copy of the whole log (c97_not_load); metadata with a path in them raise an exception after the log file has been emptied, which loses the log (c97_not_path).  Theorems: `c97_not_load`, `c97_not_path`.
* **C98** c98_mfp_partial is the claim for datasets with one species or one energy. The code violates the rest: with several species and several energies an IndexError is raised (c98_not_species), and if the energies depend on the species, as they may in a dataset, a ValueError is raised even for one species (c98_not_energies).  Theorems: `c98_not_species`, `c98_not_energies`.
* **C99** c99_rate_partial is the claim for one species or one energy, and for all shells or a sequence of shells; c99_uniform and c99_nonneg say that the rate is zero in a uniform flow and never negative. The code violates the rest: more than one species and energy (C98), and the request of a single shell (single_shell_request) gives the rates of all shells (c99_not_single).  Theorems: `c99_not_single`.
