{"id": "C01", "title": "Reducing terms never changes the value of an expression", "statement": "For any non-empty collection of symbolic terms, the terms that `symbolic.expression`/`Expression` keeps after algebraic reduction multiply out to exactly the same number as the original terms, for every assignment of positive values to the symbols.", "quantifier": "all non-empty lists of terms (any coefficients, bases, rational exponents) and all assignments of positive reals to symbols", "why_tests_cant": "there are infinitely many term lists and assignments; tests check a few dozen literals", "anchors": ["src/eprempy/symbolic/_expression.py: reduce", "src/eprempy/symbolic/_operand.py: Term"]}
{"id": "C02", "title": "Reduced expressions are canonical", "statement": "After reduction every symbol occurs at most once, no symbol has exponent zero, there is at most one pure number and it is first and different from 1 (unless it is the only term), and symbols are ordered by decreasing exponent and then alphabetically.", "quantifier": "all non-empty lists of terms", "why_tests_cant": "an invariant of the output over an unbounded input domain", "anchors": ["src/eprempy/symbolic/_expression.py: reduce"]}
{"id": "C03", "title": "Expression equality does not depend on the order or grouping of factors", "statement": "Two expressions built from the same factors in any order and any grouping are equal, and reducing an already reduced expression changes nothing.", "quantifier": "all permutations and all splits into groups of all non-empty term lists", "why_tests_cant": "factorially many orders and groupings", "anchors": ["src/eprempy/symbolic/_expression.py: reduce", "src/eprempy/symbolic/_expression.py: Expression.__eq__", "src/eprempy/symbolic/_expression.py: Expression.__mul__"]}
{"id": "C04", "title": "Multiplication, division and powers of reduced term lists obey the laws of algebra", "statement": "Combining term lists the way `*`, `/` and `**` do is commutative and associative, dividing an expression by itself gives the constant 1, multiplying and then dividing by the same expression gives back the original, and (a*b)**n = a**n * b**n for every nonzero integer n.", "quantifier": "all canonical expressions with non-zero coefficients and all nonzero integer powers", "why_tests_cant": "algebraic laws quantify over all expressions", "anchors": ["src/eprempy/symbolic/_expression.py: Expression.__mul__", "src/eprempy/symbolic/_expression.py: Expression.__truediv__", "src/eprempy/symbolic/_expression.py: Expression.__pow__"]}
{"id": "C05", "title": "The parser computes the algebraic meaning of a string", "statement": "For every expression written with symbols, positive coefficients, exponents, `*`, `/`, juxtaposition and nested parentheses, the terms produced by the parser multiply out to the value obtained by reading the string left to right with each `/` applying to the next operand only.", "quantifier": "all syntax trees of the expression language, of any size and nesting depth, with exponents and coefficients the tokenizer reads back exactly", "why_tests_cant": "strings of unbounded length and nesting", "anchors": ["src/eprempy/symbolic/_parser.py: Parser.parse", "src/eprempy/symbolic/_operand.py: OperandFactory.parse", "src/eprempy/symbolic/_operator.py: OperatorFactory.parse"]}
{"id": "C06", "title": "A printed term reads back as the same term", "statement": "Formatting a term and parsing the resulting string gives back the same coefficient, base and exponent; this is what `Expression` arithmetic relies on, because it re-parses its own formatted result.", "quantifier": "all terms with valid base names and rational coefficients and exponents", "why_tests_cant": "infinitely many rationals; the failing ones (multi-digit denominators) are outside the tested literals", "anchors": ["src/eprempy/symbolic/_operand.py: Term.format", "src/eprempy/symbolic/_operand.py: OperandFactory.rational", "src/eprempy/symbolic/_expression.py: expression_factory", "src/eprempy/symbolic/_expression.py: standard"]}
{"id": "C07", "title": "Bounded substrings are found exactly", "statement": "Searching a string for its first parenthesised group returns the position of the first `(` and the position just after the `)` that balances it, or nothing when that parenthesis is never balanced.", "quantifier": "all strings", "why_tests_cant": "unbounded strings and nesting depth", "anchors": ["src/eprempy/symbolic/_operand.py: OperandFactory.find_bounds"]}
{"id": "C08", "title": "Unique keeps the first occurrence of every item, in order", "statement": "`container.unique(*items)` contains exactly the distinct items of its input, once each, in order of first occurrence, and is idempotent.", "quantifier": "all finite sequences", "why_tests_cant": "unbounded sequences", "anchors": ["src/eprempy/container.py: unique"]}
{"id": "C09", "title": "Merging dimension lists respects both orders", "statement": "When `container.merge(a, b)` succeeds on duplicate-free sequences the result contains exactly the members of both without repetition, and the order of members of each argument is preserved; it fails exactly when the members common to both appear in different orders.", "quantifier": "all pairs of duplicate-free sequences", "why_tests_cant": "unbounded sequences; order interaction between two inputs", "anchors": ["src/eprempy/container.py: merge", "src/eprempy/numeric/_array.py: Dimensions.__or__", "src/eprempy/physical/_axes.py: Axes.__or__"]}
{"id": "C10", "title": "A bijection inverts exactly", "statement": "A successfully built `container.Bijection` has distinct values, its inverse maps every value back to its key, inverting twice gives back the original, and construction is refused exactly when a value repeats.", "quantifier": "all finite mappings", "why_tests_cant": "all mappings and all keys", "anchors": ["src/eprempy/container.py: Bijection"]}
{"id": "C11", "title": "Nearest really is nearest and respects its bound", "statement": "`container.nearest(values, target)` returns an index whose value is at minimal distance from the target (the first such), and with bound 'lower'/'upper' on an increasing sequence the returned value is not below/above the target whenever any such value exists.", "quantifier": "all non-empty sequences and all targets", "why_tests_cant": "unbounded numeric domain", "anchors": ["src/eprempy/container.py: nearest", "src/eprempy/physical/_axis.py: Coordinates.index"]}
{"id": "C12", "title": "Connecting units in a conversion graph keeps both directions reciprocal", "statement": "After any sequence of connections of non-zero weights the weight from a to b times the weight from b to a is 1 whenever the connection exists, connections exist in both directions, and an existing connection is never overwritten.", "quantifier": "all histories of add-connection calls", "why_tests_cant": "unbounded histories", "anchors": ["src/eprempy/container.py: Graph"]}
{"id": "C13", "title": "A table look-up returns a matching row or fails", "statement": "`container.Table.find(value, unique=True)` succeeds exactly when one row has the value and returns that row; strict keyword look-up succeeds exactly when all keys are common to all rows and one row matches the whole request; iterative keyword look-up returns only a row that is the single match of a leading non-empty part of the request.", "quantifier": "all tables and all requests", "why_tests_cant": "unbounded tables and requests", "anchors": ["src/eprempy/container.py: Table.find", "src/eprempy/container.py: Table.__call__"]}
{"id": "C14", "title": "Registering objects never loses one", "statement": "Registering an object under a default name in an `ObjectRegistry` leaves all previously registered objects retrievable.", "quantifier": "all histories of register calls", "why_tests_cant": "unbounded histories; collisions of generated names", "anchors": ["src/eprempy/container.py: ObjectRegistry"]}
{"id": "C15", "title": "All aliases of a key read the same value", "statement": "In an aliased mapping with pairwise disjoint alias groups, looking up any alias of an entry gives that entry's value, membership holds exactly for the aliases present, and `len` is the number of aliases.", "quantifier": "all aliased mappings with disjoint groups and all keys", "why_tests_cant": "all mappings and look-ups", "anchors": ["src/eprempy/aliased.py: Mapping.__getitem__", "src/eprempy/aliased.py: Mapping._flat_dict", "src/eprempy/aliased.py: Mapping.__len__"]}
{"id": "C16", "title": "Writing through one alias is visible through all and touches nothing else", "statement": "After `m[k] = v` on a mutable aliased mapping, every alias of k reads v, every other key reads what it read before, and the alias groups stay pairwise disjoint; deleting through one alias removes exactly its group; adding an alias makes it read the same value and is refused exactly when the alias is in use.", "quantifier": "all histories of set, delete and alias operations from an empty mapping", "why_tests_cant": "a state-machine invariant over unbounded histories", "anchors": ["src/eprempy/aliased.py: MutableMapping.__setitem__", "src/eprempy/aliased.py: MutableMapping.__delitem__", "src/eprempy/aliased.py: MutableMapping.alias"]}
{"id": "C17", "title": "Merging alias groups keeps every alias findable", "statement": "Uniting two collections of alias groups leaves each alias of either collection in a group that contains all its original partners.", "quantifier": "all pairs of collections of alias groups", "why_tests_cant": "overlap patterns between unboundedly many groups", "anchors": ["src/eprempy/aliased.py: Groups.merge", "src/eprempy/aliased.py: Groups.__or__"]}
{"id": "C18", "title": "A name map sends every alias to its canonical name", "statement": "In a name map built from disjoint alias groups every alias, and the name itself, resolves to the canonical name, and unknown names are rejected.", "quantifier": "all collections of named disjoint alias groups", "why_tests_cant": "all aliases of all maps", "anchors": ["src/eprempy/aliased.py: NameMap"]}
{"id": "C19", "title": "Converting a unit and back is the identity", "statement": "Whenever the conversion graph yields a factor from u to v and one from v to u, their product is 1; a factor obtained along any route equals the factor along any other route.", "quantifier": "all pairs of unit strings connected in the graph, every search order and every history of cached conversions", "why_tests_cant": "search order over sets is nondeterministic and paths are unboundedly many", "anchors": ["src/eprempy/metric/_conversions.py: _Converter/_recursive_conversion", "src/eprempy/metric/_reference.py: CONVERSIONS"]}
{"id": "C20", "title": "Conversions compose", "statement": "Converting from u to v and then from v to w gives the same factor as converting from u to w directly, when all three conversions exist.", "quantifier": "all triples of unit strings", "why_tests_cant": "all triples and all search orders", "anchors": ["src/eprempy/metric/_conversions.py: _convert", "src/eprempy/metric/_conversions.py: _recursive_conversion"]}
{"id": "C21", "title": "Metric prefixes scale exactly", "statement": "The ratio of two named units with the same base is the quotient of their prefix factors; ratios are reciprocal and compose, and the ratio is refused exactly when the bases differ.", "quantifier": "all pairs and triples of named units", "why_tests_cant": "every pair of the prefix x unit table in both directions", "anchors": ["src/eprempy/metric/_defined.py: ratio", "src/eprempy/metric/_reference.py: _PREFIXES"]}
{"id": "C22", "title": "Every unit name denotes one unit", "statement": "No two different prefixed units share a symbol or a name, apart from the documented collision; a look-up by either alias gives the same unit.", "quantifier": "all prefix/unit pairs in the reference tables", "why_tests_cant": "the full product of the tables (about a thousand units) pairwise", "anchors": ["src/eprempy/metric/_reference.py: _build_named_units", "src/eprempy/metric/_defined.py: NamedUnit"]}
{"id": "C23", "title": "Caching never changes a conversion or a unit", "statement": "The factor returned for a pair of units is the same whatever conversions were requested before; equal unit strings always give equal unit objects.", "quantifier": "all histories of conversion and unit requests", "why_tests_cant": "unbounded histories", "anchors": ["src/eprempy/metric/_conversions.py: conversion_factory", "src/eprempy/metric/_units.py: unit_factory"]}
{"id": "C24", "title": "Compound unit conversion multiplies the factors of its parts", "statement": "Converting a product of powers of units to another such product with matching terms multiplies the individual factors raised to the exponents, for terms whose units are not dimensionless.", "quantifier": "all compound units", "why_tests_cant": "all exponents and term orders", "anchors": ["src/eprempy/metric/_conversions.py: _convert_as_expressions", "src/eprempy/metric/_conversions.py: _resolve_terms", "src/eprempy/metric/_conversions.py: _match_exponents"]}
{"id": "C25", "title": "Unit systems agree on dimensions", "statement": "For every defined quantity the unit listed in each metric system has the dimension listed for that quantity in that system, and the canonical conversion tables are symmetric.", "quantifier": "all rows of the quantity tables in both systems", "why_tests_cant": "every row of every table; a hand-written table is never fully tested", "anchors": ["src/eprempy/metric/_reference.py: _QUANTITIES", "src/eprempy/metric/_reference.py: _CONVERSIONS", "src/eprempy/metric/_systems.py: System"]}
{"id": "C26", "title": "Index expansion addresses every dimension", "statement": "Expanding user indices with at most one Ellipsis on an n-dimensional array yields exactly n indices, keeps the given ones in order, and fills the rest with full slices; more than one Ellipsis or too many indices is an error.", "quantifier": "all numbers of dimensions and all index tuples", "why_tests_cant": "unbounded ranks and positions", "anchors": ["src/eprempy/numeric/_index.py: expand", "src/eprempy/numeric/_index.py: expand_ellipsis"]}
{"id": "C27", "title": "Mixed fancy indexing selects what numpy would select", "statement": "Subscripting an array with a mixture of integer sequences and slices returns the elements of the cartesian product of the selected positions.", "quantifier": "all arrays, index sequences and slices", "why_tests_cant": "all shapes and slice bounds", "anchors": ["src/eprempy/numeric/_index.py: normalize", "src/eprempy/numeric/_array.py: Array.__getitem__"]}
{"id": "C28", "title": "Restricting an axis brackets the target", "statement": "On an increasing reference, `numeric.index.restrict` returns a contiguous range whose first value is not above and whose last value is not below every in-range target, and no smaller such range exists.", "quantifier": "all increasing references and all lists of in-range targets", "why_tests_cant": "unbounded numeric data", "anchors": ["src/eprempy/numeric/_index.py: restrict", "src/eprempy/observable/_objects.py: Context.implement"]}
{"id": "C29", "title": "Shifted indices stay inside their limits", "statement": "Shifting index objects by n adds n to each entry, clamped to the given floor and ceiling; with valid floor and ceiling the result is a valid index of the axis.", "quantifier": "all index sequences, shifts and limits", "why_tests_cant": "all integers", "anchors": ["src/eprempy/numeric/_index.py: Sequence.shift", "src/eprempy/numeric/_index.py: Value.shift"]}
{"id": "C30", "title": "Dimension names behave as an ordered set", "statement": "Dimension names are unique; union, intersection and difference contain exactly the right names in order; replacing and inserting keep uniqueness.", "quantifier": "all dimension-name sequences", "why_tests_cant": "unbounded sequences", "anchors": ["src/eprempy/numeric/_array.py: Dimensions"]}
{"id": "C31", "title": "Broadcasting by name aligns the right axes", "statement": "Multiplying or dividing two arrays whose dimension names overlap combines, at each index of the merged dimensions, exactly the elements addressed by the shared names; results do not depend on the storage order of either operand beyond the order of result axes.", "quantifier": "all pairs of named arrays with compatible sizes", "why_tests_cant": "all shapes, names and values", "anchors": ["src/eprempy/numeric/_array.py: remesh", "src/eprempy/real/_array.py: Array"]}
{"id": "C32", "title": "Transposing permutes data and names together", "statement": "Transposing a named array with an explicit axis order gives an array in which looking up the same named position gives the same element as before.", "quantifier": "all arrays and all axis orders", "why_tests_cant": "all shapes and permutations", "anchors": ["src/eprempy/real/_array.py: Array.transpose", "src/eprempy/physical/_array.py: Array.transpose"]}
{"id": "C33", "title": "Cached array loading is transparent", "statement": "Whatever sequence of reads is made, subscripting an array returns the same elements as subscripting the fully loaded data.", "quantifier": "all histories of reads", "why_tests_cant": "unbounded read histories against lazy state", "anchors": ["src/eprempy/numeric/_array.py: Array._load_array", "src/eprempy/numeric/_array.py: Array._getitem"]}
{"id": "C34", "title": "Converting units never changes the physical value", "statement": "Converting a scalar, vector or tensor to a new unit multiplies its data by the conversion factor and sets the unit, so converting there and back restores the data and a chain of conversions equals the direct conversion.", "quantifier": "all values, all units and all conversion chains", "why_tests_cant": "unbounded chains and values", "anchors": ["src/eprempy/measured/_convert.py", "src/eprempy/measured/_context.py: Context.convert", "src/eprempy/physical/_object.py: Object.withunit"]}
{"id": "C35", "title": "Chained unit conversions of physical arrays are consistent", "statement": "For a physical array, `a.withunit(u).withunit(v)` has the same data as `a.withunit(v)`.", "quantifier": "all arrays and unit chains", "why_tests_cant": "depends on hidden scale state over histories of conversions", "anchors": ["src/eprempy/physical/_array.py: Array", "src/eprempy/physical/_array.py: converter"]}
{"id": "C36", "title": "Unit rules of arithmetic are sound", "statement": "Sums and differences are only formed for equal units and keep it, products and quotients multiply and divide units, powers raise the unit, square roots halve its exponents; hence rescaling the units of the operands rescales the result consistently.", "quantifier": "all measured operands, units and operators in the supported set", "why_tests_cant": "all operand and unit combinations", "anchors": ["src/eprempy/physical/_operations.py", "src/eprempy/real/_objects.py"]}
{"id": "C37", "title": "Order comparisons of quantities are a total order consistent with equality", "statement": "The derived comparison operators satisfy: exactly one of <, ==, > holds; <= is < or ==; != is not ==; a - b is a + (-b).", "quantifier": "all pairs of comparable quantities", "why_tests_cant": "all pairs of values", "anchors": ["src/eprempy/real/_objects.py: Quantity", "src/eprempy/base/mixins.py: Comparable"]}
{"id": "C38", "title": "Axis look-up returns positions of the requested values", "statement": "Looking up symbols, points or coordinates on an axis returns, for every requested value, an in-range index whose axis value equals it (within tolerance for coordinates) and fails when there is none.", "quantifier": "all axes and requested values", "why_tests_cant": "unbounded axes and values", "anchors": ["src/eprempy/physical/_axis.py: Points.index", "src/eprempy/physical/_axis.py: Symbols.index", "src/eprempy/physical/_axis.py: Coordinates.index"]}
{"id": "C39", "title": "Axes operations preserve the other axes", "statement": "Extracting, removing, replacing, permuting and inserting axes of an `Axes` object changes only the named axes and preserves the relative order of the others; union keeps all names.", "quantifier": "all axes collections and names", "why_tests_cant": "unbounded collections", "anchors": ["src/eprempy/physical/_axes.py: Axes"]}
{"id": "C40", "title": "Slices translate to the same positions as Python slicing", "statement": "Converting a slice to an explicit range for a sequence of a given length yields the positions that Python slicing selects, for non-negative bounds and positive steps.", "quantifier": "all lengths, bounds and steps", "why_tests_cant": "all integers", "anchors": ["src/eprempy/container.py: slice2range", "src/eprempy/physical/_axis.py: Axis.normalize"]}
{"id": "C41", "title": "Parsing a measurable sequence preserves its numbers and unit", "statement": "`quantity.parse` of numbers optionally followed by one unit string returns exactly these numbers with that unit; nested wrapping does not matter; two different unit strings are rejected unless each number carries its own.", "quantifier": "all lists of numbers, units and nestings", "why_tests_cant": "unbounded nesting", "anchors": ["src/eprempy/quantity/_functions.py: parse", "src/eprempy/quantity/_functions.py: distribute"]}
{"id": "C42", "title": "Reading back a written configuration file gives the written parameters", "statement": "For key/value pairs whose keys and values contain no `=`, comment character, newline or surrounding white space, parsing the file that lists them gives exactly the mapping in which later lines override earlier ones, with comments and blank lines ignored.", "quantifier": "all lists of lines", "why_tests_cant": "unbounded files", "anchors": ["src/eprempy/parameter/_config.py: _parse_config", "src/eprempy/paths.py: strip_inline_comments"]}
{"id": "C43", "title": "User parameters override defaults and nothing else", "statement": "The runtime value of a parameter is the user's value if the configuration file mentions a known parameter, else the source default, else the local default; unknown parameters in the file have no effect.", "quantifier": "all configuration files, defaults and parameter names", "why_tests_cant": "all combinations of present and absent keys", "anchors": ["src/eprempy/parameter/_runtime.py: interface_factory"]}
{"id": "C44", "title": "Sums in parameter defaults are evaluated faithfully", "statement": "A default defined as the sum or difference of two known parameters evaluates to that sum or difference.", "quantifier": "all parameter values", "why_tests_cant": "fails only for particular values (zero results)", "anchors": ["src/eprempy/parameter/_config.py: Defaults._resolve", "src/eprempy/parameter/_config.py: Defaults._compute_sum"]}
{"id": "C45", "title": "List parameters read back element by element", "statement": "A bracketed, comma-separated list of integers in a configuration file is converted to exactly that list of numbers.", "quantifier": "all lists of integers", "why_tests_cant": "unbounded lists", "anchors": ["src/eprempy/parameter/_config.py: stringlist", "src/eprempy/parameter/_config.py: cast"]}
{"id": "C46", "title": "Every logged run exists on disk", "statement": "After any sequence of run, mv and rm commands (with any process outcomes and any requested branches) every run recorded in the project log is an existing run directory.", "quantifier": "all finite command histories and all process outcomes", "why_tests_cant": "a state-machine invariant over unbounded histories", "anchors": ["src/eprempy/project.py: Interface.run", "src/eprempy/project.py: Interface.mv", "src/eprempy/project.py: Interface.rm", "src/eprempy/project.py: RunLog"]}
{"id": "C47", "title": "Renaming and removing runs never destroys another run", "statement": "`mv` never overwrites an existing run and only the source run directory disappears; `rm` removes only matching run directories; `run` never touches an existing run directory.", "quantifier": "all project states, commands and branch selections", "why_tests_cant": "all states", "anchors": ["src/eprempy/project.py: RunPaths._mv", "src/eprempy/project.py: RunPaths._rm", "src/eprempy/project.py: RunPaths._mkdir", "src/eprempy/project.py: _PathOperation.__iter__"]}
{"id": "C48", "title": "A crash between the disk and the log", "statement": "If the process stops between changing a run directory and updating the log, the log still describes the disk.", "quantifier": "all crash points of all commands", "why_tests_cant": "crash points cannot be enumerated by unit tests", "anchors": ["src/eprempy/project.py: Interface.mv", "src/eprempy/project.py: Interface.rm", "src/eprempy/project.py: RunLog.dump"]}
{"id": "C49", "title": "Renaming a project renames its logged runs", "statement": "After a project is renamed, the log refers to the runs at their new location.", "quantifier": "all projects, logs and target names", "why_tests_cant": "all project states", "anchors": ["src/eprempy/project.py: Interface.rename", "src/eprempy/project.py: RunLog.update_directory", "src/eprempy/project.py: RunPaths.update"]}
{"id": "C50", "title": "Reopening a project restores its attributes", "statement": "Creating a project writes a description from which reopening it restores the same attributes; copying a project copies its attributes.", "quantifier": "all attribute values", "why_tests_cant": "all attribute combinations", "anchors": ["src/eprempy/project.py: Attrs", "src/eprempy/project.py: Interface._restore_project", "src/eprempy/project.py: Interface._init_project"]}
{"id": "C51", "title": "Resetting a project removes all runs", "statement": "After a forced reset no run directory and no log entry of a run remains, whatever happened before.", "quantifier": "all histories followed by reset", "why_tests_cant": "unbounded histories", "anchors": ["src/eprempy/project.py: Interface.reset", "src/eprempy/project.py: Interface.rm"]}
{"id": "C52", "title": "Cartesian observer coordinates lie on the observer sphere", "statement": "The observables x, y, z computed from r, theta, phi satisfy x^2 + y^2 + z^2 = r^2.", "quantifier": "all real coordinates", "why_tests_cant": "continuum of inputs", "anchors": ["src/eprempy/observable/_interfaces.py: Implementations.x", "src/eprempy/observable/_interfaces.py: Implementations.y", "src/eprempy/observable/_interfaces.py: Implementations.z"]}
{"id": "C53", "title": "Parallel and perpendicular flow speeds decompose the flow speed", "statement": "With non-zero magnetic field, |upara| <= umag, the radicand of uperp is never negative and upara^2 + uperp^2 = umag^2; the flow angle lies in [0, pi] and umag*cos(angle) = upara.", "quantifier": "all real field and flow components with non-zero field", "why_tests_cant": "continuum of inputs", "anchors": ["src/eprempy/observable/_interfaces.py: Implementations.upara", "src/eprempy/observable/_interfaces.py: Implementations.uperp", "src/eprempy/observable/_interfaces.py: Implementations.angle"]}
{"id": "C54", "title": "Rigidity obeys the relativistic energy-momentum relation", "statement": "The momentum used for rigidity satisfies (K + m c^2)^2 = (p c)^2 + (m c^2)^2.", "quantifier": "all positive masses and non-negative kinetic energies", "why_tests_cant": "continuum of inputs", "anchors": ["src/eprempy/observable/_interfaces.py: Implementations._compute_rigidity"]}
{"id": "C55", "title": "Fluence accumulates flux over time", "statement": "Fluence is zero at the first time, grows by flux times elapsed time at each later step, is non-decreasing for non-negative flux and non-decreasing times, and for constant flux equals flux times total elapsed time.", "quantifier": "all flux histories and time grids of any length", "why_tests_cant": "unbounded histories", "anchors": ["src/eprempy/observable/_interfaces.py: Implementations.fluence", "src/eprempy/numeric/_index.py: Sequence.shift"]}
{"id": "C56", "title": "Power-law interpolation for integral flux is exact on power laws and bracketed", "statement": "The value inserted at the lower energy bound lies on the power law through the neighbouring points, equals the tabulated value at a tabulated energy, and lies between its neighbours.", "quantifier": "all positive spectra and all bounds inside the grid", "why_tests_cant": "continuum of inputs", "anchors": ["src/eprempy/observable/_interfaces.py: Implementations._check_interp"]}
{"id": "C57", "title": "Interpolation reproduces the data on its own grid and stays within neighbouring values", "statement": "Interpolating to a value on the reference grid returns the tabulated data; between two grid values the result lies between the neighbouring data.", "quantifier": "all increasing grids, data and in-range targets", "why_tests_cant": "continuum of inputs and unbounded grids", "anchors": ["src/eprempy/observable/_objects.py: _apply_interp1d", "src/eprempy/observable/_interfaces.py: _apply_interp1d"]}
{"id": "C58", "title": "Interpolating in time and radius uses the radii at the interpolated time", "statement": "Requesting a quantity at a time between outputs and at a given radius interpolates over the radial grid belonging to that time.", "quantifier": "all datasets, times and radii", "why_tests_cant": "interaction of two interpolations", "anchors": ["src/eprempy/observable/_interfaces.py: interpolate", "src/eprempy/observable/_interfaces.py: Implementations._compute_interpolants"]}
{"id": "C59", "title": "Charge and mass of a species round-trip through its symbol", "statement": "A species made from a mass and a charge has that charge, and its element has that nucleon number; an unknown mass is rejected.", "quantifier": "all masses and all integer charges", "why_tests_cant": "all integers", "anchors": ["src/eprempy/atomic.py: elements", "src/eprempy/atomic.py: Species", "src/eprempy/atomic.py: get_mass_indices"]}
{"id": "C60", "title": "Physical constants agree between unit systems", "statement": "For every constant the mks and cgs values differ exactly by the conversion factor of their units (to the printed precision).", "quantifier": "all rows of the constants table", "why_tests_cant": "a hand-written table; the faulty row is not tested", "anchors": ["src/eprempy/universal.py: _constants"]}
{"id": "C61", "title": "Exceptions are replaced exactly as registered", "statement": "A wrapped call returns the function's result when it succeeds, the registered substitute when it raises a registered exception, and propagates every other exception.", "quantifier": "all functions, arguments and registrations", "why_tests_cant": "exception subclasses", "anchors": ["src/eprempy/exceptions.py: Wrapper.compute"]}
{"id": "C62", "title": "Observer files are identified uniquely", "statement": "An observer look-up opens the single file matching the identifier or fails; different observer files of a dataset get different identifiers.", "quantifier": "all directory contents", "why_tests_cant": "arbitrary file names", "anchors": ["src/eprempy/eprem.py: _build_datapath", "src/eprempy/eprem.py: _get_observer_id", "src/eprempy/eprem.py: Dataset.points"]}
{"id": "C63", "title": "Iterative look-up finds a row the request determines", "statement": "Iterative keyword look-up in a `container.Table` succeeds whenever the whole request determines a single row.", "quantifier": "all tables and all requests", "why_tests_cant": "depends on the distribution of values over the whole table", "anchors": ["src/eprempy/container.py: Table.__call__"]}
{"id": "C64", "title": "Distributing two collections gives every pair", "statement": "`container.distribute(a, b)` gives every pair of members exactly at its row-major position when both are separable, pairs the other argument with each member when one is, and raises when none is.", "quantifier": "all pairs of arguments", "why_tests_cant": "all sizes", "anchors": ["src/eprempy/container.py: distribute"]}
{"id": "C65", "title": "Reading back an assigned key of a mutable aliased mapping", "statement": "After `m[k] = v` the expression `m[k]` gives `v`, also when `k` was used as the name of a key group.", "quantifier": "all mutable aliased mappings with named key groups", "why_tests_cant": "depends on the history of `group` calls", "anchors": ["src/eprempy/aliased.py: MutableMapping.group", "src/eprempy/aliased.py: MutableMapping.__getitem__"]}
{"id": "C66", "title": "Assigning through a tuple of names keeps groups disjoint", "statement": "After `m[(k1, k2, ...)] = v` all the names read `v` together with all their previous aliases, and no other key changes.", "quantifier": "all mutable aliased mappings and all tuples of names", "why_tests_cant": "depends on which names exist", "anchors": ["src/eprempy/aliased.py: MutableMapping.__setitem__"]}
{"id": "C67", "title": "Subscripting keeps every dimension", "statement": "Subscripting a numeric array by integers and slices keeps every dimension: an integer leaves length one, and the elements are those that Python slicing selects along each dimension.", "quantifier": "all arrays, all tuples of integers and slices", "why_tests_cant": "all shapes and index tuples", "anchors": ["src/eprempy/numeric/_array.py: Array.__getitem__", "src/eprempy/numeric/_array.py: Array._get_axis_size"]}
{"id": "C68", "title": "Conversion factors have the values that the definitions of the units give", "statement": "Converting between units whose definitions are related (mechanical units, SI and Gaussian electromagnetic units, times, angles, constants) multiplies by the factor that follows from the definitions.", "quantifier": "all units with all prefixes, and all listed conversions", "why_tests_cant": "a unit test compares the table with itself; the value must be right for every pair of units and prefix", "anchors": ["src/eprempy/metric/_reference.py: _CONVERSIONS", "src/eprempy/metric/_conversions.py: conversion"]}
{"id": "C69", "title": "Reductions keep the names of the remaining dimensions", "statement": "Applying numpy's sum, mean or trapz along one axis of a named array gives an array whose dimensions are the other names in order, and whose element at every named position is the reduction of the elements along the removed dimension; cumsum keeps all names; squeeze removes exactly the dimensions of length one. keepdims is respected.", "quantifier": "all named arrays, axes and element values", "why_tests_cant": "all shapes, names and axes", "anchors": ["src/eprempy/real/_array.py: sum", "src/eprempy/real/_array.py: mean", "src/eprempy/real/_array.py: cumsum", "src/eprempy/real/_array.py: trapz", "src/eprempy/real/_array.py: squeeze"]}
{"id": "C70", "title": "Numpy functions of two arrays use both", "statement": "A binary numpy function applied to two arrays combines the elements of the first with those of the second.", "quantifier": "all pairs of arrays and all binary numpy functions", "why_tests_cant": "all arrays and functions", "anchors": ["src/eprempy/real/_array.py: Array._get_arg_data", "src/eprempy/numeric/_mixins.py: Functions._apply_ufunc"]}
{"id": "C71", "title": "Products of units stand for products of sizes", "statement": "For units a and b, a * b, a / b, 1 / a and a ** p are units whose size is the product, quotient, reciprocal or power of the sizes of a and b, for every assignment of sizes to units in which derived units (J, N, T, G, statC, ...) have the sizes their definitions give them, whichever of the two systems of units is tried first when a derived unit is decomposed.", "quantifier": "all units, powers, coherent assignments of sizes and orders of the systems", "why_tests_cant": "units are unbounded products of powers and the result is decomposed and reprinted; a few examples cannot cover all products nor both orders of the set of systems", "anchors": ["src/eprempy/metric/_units.py: Unit.__mul__, Unit.__truediv__, Unit.__rtruediv__, Unit.__pow__, _apply_operator, _decompose_unit, _decompose_term", "src/eprempy/metric/_defined.py: NamedUnit.decomposed"]}
{"id": "C72", "title": "Transposing keeps the amounts of a converted array", "statement": "Transposing a physical array, whether or not its unit was converted before, keeps its unit and the element at every named position.", "quantifier": "all physical arrays, all histories of unit conversions and all orders of the names", "why_tests_cant": "depends on hidden scale state left by earlier conversions", "anchors": ["src/eprempy/physical/_array.py: Array.transpose", "src/eprempy/physical/_array.py: converter"]}
{"id": "C73", "title": "Subscripted axes remember positions", "statement": "After x[i], an axis reports for each of its values the position that the value has in x.", "quantifier": "all axes and subscripts", "why_tests_cant": "subscripts and axes are unbounded; the reported positions only matter later, when a subscripted observable is indexed again", "anchors": ["src/eprempy/physical/_axis.py: Axis.__getitem__, Axis.indices, Axis.normalize, Points.indices, Symbols.__getitem__"]}
{"id": "C74", "title": "Comparison, equality and addition of collections of axes", "statement": "For collections of axes, == holds exactly if the names agree in order and all axes agree; <, <=, >, >= compare the sets of names and raise ValueError exactly if a common name has two different axes; + of collections with the same names keeps for every name the longer of two compatible axes and raises ValueError exactly if two axes are incompatible or the names differ.", "quantifier": "all pairs of collections of axes", "why_tests_cant": "unbounded collections", "anchors": ["src/eprempy/physical/_axes.py: Axes.__eq__, Axes.__lt__, Axes.__le__, Axes.__gt__, Axes.__ge__, Axes.__add__"]}
{"id": "C75", "title": "Defaults follow the parameters that define them", "statement": "If the default of a parameter is defined by other parameters (`epCalcStartTime` by `simStartTime`, `simStopTime` by `simStartTime` and `tDel`), then without a value in the configuration file its runtime value is computed from the runtime values of those parameters.", "quantifier": "all configuration files and all parameters with derived defaults", "why_tests_cant": "needs every combination of user-defined and default parameters", "anchors": ["src/eprempy/parameter/_runtime.py: interface_factory", "src/eprempy/parameter/_config.py: Defaults._evaluate"]}
{"id": "C76", "title": "Constants have the values of their definitions", "statement": "The value of a constant of baseTypes.h given by a number is that number; of one given by an expression, the value of the expression in the values of the other constants. This holds for every constant of the package.", "quantifier": "all tables of definitions; all 31 constants of the package", "why_tests_cant": "unbounded expressions and tables", "anchors": ["src/eprempy/parameter/_src.py: BaseTypesH._compute, BaseTypesH._evaluate", "src/eprempy/parameter/reference.json"]}
{"id": "C77", "title": "Products in parameter defaults are evaluated faithfully and every default of the package can be computed", "statement": "A default defined as a product or quotient of powers of known parameters and constants evaluates to that product; the default of every parameter of the package can be computed and has the declared type (None for the number of nodes per stream).", "quantifier": "all expressions and parameter values; all 119 parameters of the package", "why_tests_cant": "unbounded expressions", "anchors": ["src/eprempy/parameter/_config.py: Defaults._resolve, Defaults._evaluate", "src/eprempy/parameter/reference.json"]}
{"id": "C78", "title": "The unit of a constant has the dimension of its quantity", "statement": "In both metric systems, the unit of every universal constant has the same physical dimension as the unit that the metric system defines for the constant's declared quantity.", "quantifier": "all constants and both systems", "why_tests_cant": "two hand-written tables in different modules must agree", "anchors": ["src/eprempy/universal.py: _constants", "src/eprempy/universal.py: Constants", "src/eprempy/metric/_systems.py: System"]}
{"id": "C79", "title": "The configuration file is the requested one, or the best candidate of the directory", "statement": "A dataset opened with a configuration name uses exactly that name of the source directory (or that path). Without one, it uses a file of the source directory with the best of the known names (eprem_input_file, then *.cfg, *.ini, *.in), whatever other files are there and in whatever order the directory is listed; if there is none, opening fails with an error instead of using an unrelated file.", "quantifier": "all directory contents, all requested names", "why_tests_cant": "unbounded directories and listing orders", "anchors": ["src/eprempy/eprem.py: _build_confpath, _CONFIG_NAMES"]}
{"id": "C80", "title": "Views of a data file show exactly what the file contains", "statement": "Every property of a view of a data file (units, arrays, scalars, sizes, axes) contains exactly the known quantities that the file contains, with their data, dimensions and units, whatever other files and properties were requested before, in any order; a path that does not exist, or is not a NetCDF file, gives an error.", "quantifier": "all files, all histories of requests (and of replacements of files by other programs)", "why_tests_cant": "views are shared by path and cache every property lazily, so a defect depends on the history", "anchors": ["src/eprempy/datafile/_viewers.py: View, NetCDFViewer, view_factory, VIEWERS", "src/eprempy/datafile/_reference.py: ARRAYS, SCALARS, AXES", "src/eprempy/etc.py: InstanceSet", "src/eprempy/paths.py: PathSet"]}
{"id": "C81", "title": "The arrays of a file depend only on the file", "statement": "Every property of the interface to the arrays of a file is read from its own variable of the file, independently of which properties were read before; the distribution and the flux are never both given, and hasdist and hasflux tell which one is available.", "quantifier": "all files, all histories of accesses", "why_tests_cant": "the answers are cached, and depend on each other; histories are unbounded", "anchors": ["src/eprempy/datafile/_interfaces.py: Arrays"]}
{"id": "C82", "title": "The mapping of axes is consistent", "statement": "The names that iterating over the axes of a file gives are exactly the names that can be looked up, each of them gives an axis, and their number is the length.", "quantifier": "all files, all names", "why_tests_cant": "names and files are unbounded", "anchors": ["src/eprempy/datafile/_interfaces.py: Axes"]}
{"id": "C83", "title": "Converting to a metric system replaces every unit by the unit of its quantity", "statement": "Converting a unit to 'mks' or 'cgs' gives the product of the same powers of the units which that system has for the quantities of its factors, and the number changes by the quotient of the sizes of the two units, whatever was converted before; a conversion is refused only if the unit belongs to several quantities with different units in the system.", "quantifier": "all products of integral powers of named units, both systems, all histories of conversions", "why_tests_cant": "products of units are unbounded, and the result is computed by printing and re-reading the quantity", "anchors": ["src/eprempy/metric/_conversions.py: convert, converter_factory, Converter.to, _get_substitutions, _is_ambiguous", "src/eprempy/metric/_defined.py: get_quantity, UNITS, EQUIVALENT"]}
{"id": "C84", "title": "Standardizing the unit of a variable reads everything after the slash as the denominator", "statement": "The standard form of a unit 'N/D' from a data file is a text that the package reads as N divided by all of D, however many factors D has and however many blanks surround the slash; the units that are particular to EPREM become units of the package; every other unit is left unchanged, and standardizing twice changes nothing more.", "quantifier": "all pairs of expressions, all numbers of blanks", "why_tests_cant": "expressions are unbounded and are read by a recursive parser that would give the second factor of D to the numerator", "anchors": ["src/eprempy/metric/_reference.py: standardize, _NONSTANDARD", "src/eprempy/datafile/_interfaces.py: Arrays, Axes"]}
{"id": "C85", "title": "Equivalence and consistency of units say what they mean", "statement": "`u & v` is true exactly if the units u and v have the same size, whatever the sizes of the base units and counting `#` as one; `u | v` is true exactly if u and v have the same dimension in a metric system or a conversion exists between them. Both are symmetric and never raise an exception for units.", "quantifier": "all pairs of products of powers of named units, prefixed or not", "why_tests_cant": "the comparison passes through six tests (equal terms, counts, dimension, decomposition, expression, conversion), each of which has to be right for unboundedly many products", "anchors": ["src/eprempy/metric/_units.py: Unit.__and__, Unit.__or__, Unit.dimensionless, Unit.decomposed", "src/eprempy/symbolic/_expression.py: Expression.difference"]}
{"id": "C86", "title": "Arithmetic of observable quantities before subscription agrees with arithmetic of the observed arrays", "statement": "Sums, differences, products, quotients, powers and conversions of observable quantities are quantities; subscribing the result gives an array in the declared unit and dimensions, whose numbers times the unit are the same expression of the values of the observed operands. Sums are accepted exactly if units and dimensions agree, products and quotients exactly if the dimensions can be merged; what is accepted can be subscribed. A compound name such as `mfp / r` is the same as the operators.", "quantifier": "all finite expressions of any depth made from any quantities, all requested indices, all histories of unit conversions", "why_tests_cant": "expressions are unboundedly deep, the result unit is simplified at every step, and each operand is an arbitrary function of the user's arguments", "anchors": ["src/eprempy/observable/_objects.py: Quantity.__add__, __sub__, __mul__, __truediv__, __pow__, withunit, __getitem__, _apply", "src/eprempy/observable/_interfaces.py: Quantities._build_observable"]}
{"id": "C87", "title": "Subscription of a physical array selects the same positions in its data and in its axes", "statement": "`array[indices]` keeps the dimensions and the unit of the array; along each dimension the data and the axis of the result are those at the positions that the index of this dimension selects. The indices that a user gives to observe a quantity are always handled so, a dimension without index is kept whole. Subscription before or after a conversion to another unit, or before or after a sum, difference, product or quotient of arrays, gives the same.", "quantifier": "all arrays of any number of dimensions, sizes and axes (points, symbols, coordinates), all indices: integers and sequences of integers of either sign, slices, tuples of these", "why_tests_cant": "data and axes are subscripted by separate code; shapes, numbers of dimensions and kinds of index combine without bound", "anchors": ["src/eprempy/physical/_array.py: Array.__getitem__", "src/eprempy/physical/_axis.py: Axis.__getitem__, Symbols.__getitem__", "src/eprempy/numeric/_index.py: expand, resolve, normalize", "src/eprempy/observable/_interfaces.py: _subscript, _normalize_indices"]}
{"id": "C88", "title": "A derived quantity observed at some indices is the part of the quantity observed everywhere", "statement": "Observing a derived quantity at indices for some dimensions gives the same dimensions, unit, axes and numbers as observing it everywhere and taking the part at these indices.", "quantifier": "all datasets of any size, all indices: absent, one position or any non-empty sequence of positions, of either sign; both metric systems", "why_tests_cant": "the methods subscript their ingredients, not their result, in different orders and with different axes", "anchors": ["src/eprempy/observable/_interfaces.py: x, y, z, bmag, umag, udotb, upara, uperp, angle, _observe, _subscript"]}
{"id": "C89", "title": "The gradient of a physical array is made of slopes, in the quotient of the units", "statement": "numpy.gradient of a physical array along one axis, with respect to increasing coordinates, has the axes of the array and the unit of the array divided by that of the coordinates. At the ends of the axis its elements are the slopes of the lines through the two values there, elsewhere the slopes of the parabolas through a value and its neighbours; they lie between any bounds of the slopes of the intervals. Fewer than two values raise ValueError.", "quantifier": "all arrays of any number of dimensions and sizes, all axes of either sign, all increasing coordinates, given as an array, a vector, a distance, a number or not at all, all units", "why_tests_cant": "the formula for unequal distances and the unit must be right for every array and every set of coordinates", "anchors": ["src/eprempy/physical/_operations.py: gradient, _apply_gradient"]}
{"id": "C90", "title": "The divergence of the flow is the negative relative rate of change of the density", "statement": "The observable divu has the axes of the density and the unit 1/s; its values are the negative slopes of the density in time divided by the density. It vanishes where the density does not change, is not positive where the density never decreases, not negative where it never increases, and does not change if the density is multiplied by a factor that is constant in time.", "quantifier": "all densities and increasing times of datasets of any size with at least two times, both metric systems", "why_tests_cant": "the sign and the unit must be right for every dataset and for unequal time steps", "anchors": ["src/eprempy/observable/_interfaces.py: divu", "src/eprempy/physical/_operations.py: gradient"]}
{"id": "C91", "title": "Energy density and average energy are moments of the isotropic distribution", "statement": "The isotropic distribution is the mean of the distribution over the pitch angles. The observable 'energy density' is the species mass times the sum over energies of v**4 f dv, in the unit of the metric system for energy per volume: it is linear in the distribution, not negative, and zero only without particles. The observable 'average energy' is in the unit of the metric system for energy, lies between the smallest and the largest kinetic energy of the particles that are there, and does not change when the distribution is multiplied by a factor.", "quantifier": "all grids of any sizes and dimensions with at least two energies, all distributions, masses and increasing positive speeds on them, both metric systems, all iteration orders of the tables of units, all histories of conversions", "why_tests_cant": "the formula, the broadcasting of masses and speeds over the distribution, the widths of the energy bins, and the conversion of the compound unit must be right for every dataset", "anchors": ["src/eprempy/observable/_interfaces.py: Implementations.average_energy, Implementations.energy_density, Implementations._fiso", "src/eprempy/physical/_operations.py: mean, sum, gradient"]}
{"id": "C92", "title": "Flux and isotropic distribution are computed from each other without loss", "statement": "For a dataset with distributions the observable 'flux' is 2 f E / m**2 per solid angle, in the unit of the metric system for flux; for a dataset with fluxes the isotropic distribution is m**2 J / (2 E), in the unit of the metric system for distributions. Computing one from the other and back gives the same array.", "quantifier": "all grids of any sizes and dimensions, all distributions, fluxes, energies and masses on them, both metric systems, all iteration orders of the tables of units, all histories of conversions", "why_tests_cant": "the result must be the same for every dataset whichever of the two it stores, although the units are obtained in different ways", "anchors": ["src/eprempy/observable/_interfaces.py: Implementations.flux, Implementations._fiso"]}
{"id": "C93", "title": "Subscription by positions, names, numbers of shells and values on the axes selects exactly what the arguments stand for", "statement": "A stored observable quantity subscribed by any mixture of integers, lists of integers, slices, names of species and measurable values that lie on the axes (in any convertible unit, or without a unit) gives the values of the quantity at exactly the positions those arguments stand for, in their order, in the unit of the quantity, and on axes that hold the selected values. Arguments that stand for nothing in the dataset (a shell that does not exist, an empty slice, a duration for the shells) are an error or give nothing, but not other data.", "quantifier": "all dimensions and sizes of the quantity, all data, all mixtures and orders of arguments, all units convertible to that of the axis, all histories of unit conversions", "why_tests_cant": "any mixture of kinds of arguments over any number of dimensions must be resolved against the right axis, and the selection made on the right dimension", "anchors": ["src/eprempy/observable/_objects.py: Context.implement, Context._parse_user_arg, Quantity.__getitem__, Quantity._shell_or_radius", "src/eprempy/observable/_interfaces.py: Implementations._observe, Implementations._subscript"]}
{"id": "C94", "title": "Values between those of the axes are interpolated linearly, and never extrapolated", "statement": "A stored observable quantity subscribed by values that are strictly between those of one or more of its axes of coordinates is interpolated linearly along each of these axes, while the other arguments select positions as in C93; the new axes hold the requested values in the unit of the old axes. Values outside the range of an axis are refused with a ValueError. Numbers without a unit are taken in the unit of the axis, as for values on the axis.", "quantifier": "all dimensions and sizes of the quantity, all data, all increasing axes, all numbers of interpolated axes, all numbers and orders of targets, all units convertible to that of the axis, all histories of unit conversions", "why_tests_cant": "the targets, units and axes must be paired correctly for every combination of interpolated and selected dimensions, and the bounds must be checked for every target", "anchors": ["src/eprempy/observable/_interfaces.py: Implementations._observe, Implementations._interpolate, Implementations._compute_interpolants, Implementations._get_axis_interpolant, _check_interpolation_bounds", "src/eprempy/observable/_objects.py: Context._parse_user_arg", "src/eprempy/observable/_interfaces.py: interpolate"]}
{"id": "C95", "title": "A quantity requested at a radius has the values between the shells around that radius, at each time", "statement": "A stored observable quantity subscribed by radii instead of shells is interpolated linearly at each requested time between the shells whose radii at that time are next to the requested radius; this combines with values between those of the other axes, and with positions for the other dimensions. The radii may be in any unit of length; the result has an axis of radii in the unit of length of the metric system. Radii that are not reached by the shells at a requested time are refused.", "quantifier": "all dimensions and sizes of the quantity, all data, all radii of shells that rise with their number, all numbers and orders of requested radii, all mixtures with other arguments, all units of length, all histories of unit conversions", "why_tests_cant": "the radii of the shells change from time to time, so that each time must be paired with its own radii, for any number of times, shells and requested radii", "anchors": ["src/eprempy/observable/_interfaces.py: Implementations._get_grid_interpolant, Implementations._interpolate, interpolate, _update_interpolation, _apply_interp1d", "src/eprempy/observable/_objects.py: Context.implement, Quantity._shell_or_radius"]}
{"id": "C96", "title": "The runs a project lists are the run directories on the disk", "statement": "The runs of a project are the names of the directories in its run directories; the branches of a run are those in which it is a directory, and the runs of each branch are the directories in it, so that the two views agree. `show(run)` prints the paths of exactly the existing run directories with that name, or says that there is no such run. If all processes succeeded these are exactly the runs in the log.", "quantifier": "all disks; all roots, sets of branches and names of the run directory; all histories of run, mv, rm and reset, whatever the processes do", "why_tests_cant": "the listing is computed from the disk, with any number of branches and runs in each, after any history of commands", "anchors": ["src/eprempy/project.py: RunPaths.runs, RunPaths.branches, RunPaths.resolve, Interface._show_run, Interface.show"]}
{"id": "C97", "title": "The log of runs holds the metadata it was given", "statement": "After any sequence of operations on the log of a project (create, load, append, mv, rm), each run has exactly the metadata that the operations that succeeded gave it, also when the log is read again from its file; an operation that cannot be done raises an exception and leaves the log as it was; the runs are listed in the order of their names.", "quantifier": "all common attributes, all finite sequences of operations with all keys and all nested metadata, including operations that raise", "why_tests_cant": "any number of operations may be mixed, each of which reads the whole log from the file and writes it again", "anchors": ["src/eprempy/project.py: RunLog.create, RunLog.append, RunLog.load, RunLog.mv, RunLog.rm, RunLog.dump, RunLog.__getitem__, RunLog.__iter__"]}
{"id": "C98", "title": "The mean free path follows its power laws", "statement": "The mean free path of a particle is λ₀ (r / 1 au)^α (P / P₀)^β for the radius r of the shell, the relativistic momentum (equivalently rigidity) P of the particle, its rigidity P₀ at 1 MeV and the parameters λ₀ = lambda0, α = mfpRadialPower and β = rigidityPower. It is computed at each time, shell, species and energy, in the unit of length of the metric system.", "quantifier": "both metric systems and both orders of the systems; all numbers of times, shells, species and energies; all radii, masses, charges, energies and parameters", "why_tests_cant": "the arrays have any shapes and any real values; the momentum is computed through a chain of operations on arrays with different dimensions", "anchors": ["src/eprempy/observable/_interfaces.py: Implementations.mfp, Implementations._compute_rigidity"]}
{"id": "C99", "title": "The acceleration rate compares the neighbouring shells", "statement": "The acceleration rate at a shell is |u₁| |1 - u₁·u₂ / u₁²| / (κ₁/|u₁| + κ₂/|u₂|), where 1 stands for the next shell and 2 for the previous one (each replaced with the shell itself at the ends of the stream) and κ = λ v (cos² θ + (κ⊥/κ∥) sin² θ) / 3 is the diffusion coefficient along the flow u, with the mean free path λ, the speed v and the angle θ between field and flow. It has the unit 1/s and is given at the requested times, shells, species and energies; the values do not depend on which other ones are requested.", "quantifier": "both metric systems and both orders of the systems; all numbers of times, shells, species and energies; all non-zero fields and flows, all masses, charges, energies, speeds and parameters; all requests of indices", "why_tests_cant": "the arrays have any shapes and any real values; the two neighbours are subscripted separately and combined although their axes differ", "anchors": ["src/eprempy/observable/_interfaces.py: Implementations.ar, Implementations._compute_ar, Implementations._kxx_ux", "src/eprempy/numeric/_index.py: Sequence.shift"]}
{"id": "C100", "title": "Integral flux above minimum energies", "statement": "The integral flux for given minimum energies is, at each time, shell and species that is asked for and for each minimum energy, the integral over energy of the flux above that minimum: over the stored energies above it, starting at the minimum itself with the value of the power law through the two stored values around it (over all stored energies if the minimum is below them). It does not depend on fluxes at stored energies below the one next to the minimum. The minimum may be in any unit of energy. The result has the unit of integral flux of the metric system, and the axis 'minimum energy' with the given amounts in place of 'energy'. A minimum at or above the highest stored energy raises ValueError.", "quantifier": "all positive fluxes on any grid whose last dimension is energy, all increasing positive energies, any number of minimum energies, any unit of energy, any time index, both metric systems, any rule of integration", "why_tests_cant": "the interpolation at the bound depends on where each minimum lies between real-valued energies, on the unit conversions and on how arrays are indexed and merged; tests check a few bounds", "anchors": ["src/eprempy/observable/_interfaces.py: Implementations.intflux, Implementations._integrate_flux, Implementations._integrate_flux_slice, Implementations._check_interp, Implementations._observe, Implementations._interpolate"]}
{"id": "C101", "title": "Names and aliases of observables", "statement": "Every name and every alias of an observable in the table of names is a key of the observer: at any time, whatever was looked up before, `key in observer` is true and `observer[key]` is the observable that the table names; the same key gives the same object again, and no other key gives that object. Iteration lists every name and alias of every observable, each once, len is the number of listed keys, and every listed key can be looked up. A key that is no observable raises KeyError and is not in the observer.", "quantifier": "all keys (any string that is a name, an alias, or an unknown python name), all histories of lookups and membership tests, every order in which python iterates over sets", "why_tests_cant": "the table of names is turned into groups of aliases by set operations whose iteration order varies between runs, and the objects are kept from one lookup to the next; a test looks up a few names once", "anchors": ["src/eprempy/reference.py: _metadata, ALIASES, build, OBSERVABLES", "src/eprempy/observable/_interfaces.py: Quantities.__getitem__, Quantities._build_observable, Quantities._get_observable, Quantities.defined, Implementations.definitions", "src/eprempy/eprem.py: Observer.__getitem__, Observer.__iter__, Observer.__len__"]}
{"id": "C102", "title": "Compound names of observables", "statement": "A compound name, made of names and aliases of observables, powers written with `**`, separators `*`, `/` or blanks, and groups in parentheses, is read as the product of the named quantities, each with the sum of its powers. The quantity it looks up has the unit whose size is the product of these powers of the sizes of the units, and the dimensions of all quantities whose powers do not cancel; subscription gives the product of the observed arrays. A compound name with an unknown name whose power does not cancel raises an exception.", "quantifier": "all compound names with any number of names, any nesting of groups, any separators and numbers of blanks, any non-zero powers (integers for the units), all quantities with any units and dimensions, both orders of the metric systems, all histories of lookups", "why_tests_cant": "compound names form an unbounded grammar, parsed with tokens that are inserted into regular expressions; tests look up a few of them", "anchors": ["src/eprempy/observable/_interfaces.py: Quantities._build_observable, Quantities._get_observable", "src/eprempy/symbolic/_parser.py: Parser", "src/eprempy/symbolic/_operand.py: OperandFactory", "src/eprempy/observable/_objects.py: Quantity.__mul__, Quantity.__pow__"]}
{"id": "C103", "title": "Times, energies, pitch-angle cosines and speeds as observables", "statement": "Subscribing the times, energies, pitch-angle cosines or speeds by positions, slices or measurable values on the axis gives the stored values there, on an axis with the values at these positions. Subscribing them by measurable values of which some are not on the axis, in or out of the range of the stored ones and in any unit that converts, gives exactly these values in the unit of the quantity, and for the speeds sqrt(2 E / m) with the mass of the proton, in the unit of velocity; the axis of the result has the requested values.", "quantifier": "all datasets with any numbers of stored values, all positions, lists of positions, slices and lists of measurable values, all convertible units, both metric systems, all histories of unit conversions", "why_tests_cant": "the values, their number and their units are arbitrary; a test subscribes one dataset by a few values", "anchors": ["src/eprempy/observable/_interfaces.py: Quantities._time, Quantities._energy, Quantities._mu, Quantities._v, Implementations.time, Implementations.energy, Implementations.v, Implementations.mu", "src/eprempy/observable/_objects.py: Quantity.__getitem__, Arguments"]}
{"id": "C104", "title": "Observables have the units and the dimensions that they declare", "statement": "Every derived observable of a dataset (coordinates, magnitudes, flow components, angle, divergence, rigidity, mean free path, acceleration rate, average energy, energy density, flux, fluence and integral flux) declares a unit and the dimensions of the array it gives, whether the dataset has distributions or fluxes; the array computed for it always passes the check of its unit, and the user gets the computed numbers unchanged, on the same axes, in the declared unit. The same holds for the stored arrays.", "quantifier": "all datasets, grids and values, both metric systems and either order of the systems, all histories of unit conversions", "why_tests_cant": "the result depends on the values, the grid and on earlier conversions, which are remembered", "anchors": ["src/eprempy/observable/_interfaces.py: Quantities (1146-1759)", "src/eprempy/observable/_objects.py: Quantity.__getitem__ (459-467)", "src/eprempy/metric/_units.py: Unit.__or__"]}
{"id": "C105", "title": "Axes created from lengths, shapes, values and mappings", "statement": "physical.axes gives, for lengths or a shape, one axis per length with the positions 0..n-1 and the names x0, x1, ... (all different) or the given names; for axis-like values (axes, names, positions, measurable values) with or without names, and for pairs or a mapping, one axis per value with these names, this order and exactly these values and unit; pairs take precedence over a mapping; a wrong number of names, names alone, no arguments, or values that are no axis raise.", "quantifier": "all lists of lengths, all names, all axis-like values of any length and unit, all combinations of arguments", "why_tests_cant": "the number of axes, their lengths, names and values are arbitrary", "anchors": ["src/eprempy/physical/_axes.py: axes_factory, _map_axes, convert_to_axis, _convert_to_axis (420-527)", "src/eprempy/physical/__init__.py: axes"]}
{"id": "C106", "title": "Physical objects made from data and from other objects", "statement": "physical.scalar, vector, tensor and array keep the values of their argument in order; the result has the unit of the argument if that has one, and otherwise the given unit or 1; a unit or axes given along with an object that has a unit raise ValueError; the conversion succeeds exactly for arguments of the right shape. An array has one axis per dimension whose length is that of the dimension, with the names, default names or axes asked for; a wrong number of axes raises; a copy has the current values, also after unit conversions, and going to an array and back to a tensor changes nothing.", "quantifier": "all numbers, nested lists, scalars, vectors, tensors, measurements, sequences and arrays of all shapes, values and units, and all axis arguments", "why_tests_cant": "the shapes, values and units are arbitrary and every pair of classes has its own path", "anchors": ["src/eprempy/physical/_object_factories.py: scalar_args, vector_args, tensor_args, array_args, array_data, array_axes", "src/eprempy/physical/_scalar.py: Scalar.__init__", "src/eprempy/physical/__init__.py: scalar, vector, tensor, array"]}
{"id": "C107", "title": "Vectors, tensors and measurements are sequences of measured values", "statement": "A vector, tensor or measurement x is a sequence: len(x) is the number of its members; x[i] for -len(x) <= i < len(x) is the member at that position with the unit of x, and raises IndexError otherwise; iteration gives exactly these members in order; a slice or list of positions gives an object of the same class with the selected members in order and the same unit.", "quantifier": "all objects of any length and shape, all units, all integers, slices and lists of positions", "why_tests_cant": "Tests try a few lengths and subscripts; the rules must hold for every length, negative positions, steps and repeated positions.", "anchors": ["src/eprempy/src/eprempy/physical/_vector.py: Vector.__getitem__, __iter__, __len__", "src/eprempy/src/eprempy/physical/_tensor.py: Tensor.__getitem__, __iter__, __len__", "src/eprempy/src/eprempy/measured/_sequence.py: Sequence.__getitem__", "src/eprempy/src/eprempy/base/mixins.py: Sequence.__iter__", "src/eprempy/src/eprempy/physical/_object_factories.py: scalar_args"]}
{"id": "C108", "title": "Casts to built-in types give the only value in the current unit", "statement": "int(x), float(x) and complex(x) of a measured object with exactly one value give that value in the current unit of x; for an object with any other number of values they raise TypeError.", "quantifier": "all objects, all units, all earlier conversions by name", "why_tests_cant": "Tests try a few objects; the number cast must be the only one, in the current unit, for every object and history of conversions.", "anchors": ["src/eprempy/src/eprempy/physical/_scalar.py: Scalar.__int__, __float__, __complex__", "src/eprempy/src/eprempy/physical/_array.py: Array._as_builtin", "src/eprempy/src/eprempy/quantity/_measurement.py: Measurement._cast_to", "src/eprempy/src/eprempy/physical/_operations.py: cast"]}
{"id": "C109", "title": "Index objects compute and compare like integers", "statement": "Index values and sequences (what the index methods of axes return) are made from the integers that an argument lists: value(x) from exactly one integer, sequence(x) from any number, in order. Arithmetic with index values gives the index value of Python's integer arithmetic (floor division, zero division and negative powers are errors); with sequences it acts member by member and refuses sequences of different lengths; comparisons act member by member; s[i] is the i-th member.", "quantifier": "all integers, all sequences of any length, all six operations, all comparisons, all arguments that list integers", "why_tests_cant": "Tests try a few small sequences; the rules must hold for every length, sign, and mixture of operands.", "anchors": ["src/eprempy/src/eprempy/numeric/_index.py: Value, Sequence, value, sequence, arithmetic, binary, comparative, pow, value_args, sequence_args"]}
{"id": "C110", "title": "Definitions read from the EPREM source files", "statement": "Given the source files of EPREM, the package finds every line `target = readX(\"key\", arguments);` of configuration.c and no other, with its function, key and arguments, in any spacing; every definition of an array with one value; and every `#define NAME value` of baseTypes.h with its value. If several lines define a name, the last counts. A default that names an array is the value of that array; the other arguments are those of the call, without surrounding spaces and quotation marks. Comments after a definition and commas within strings do not change what is read.", "quantifier": "all lines of text, all spacings, all identifiers, all arguments, all files of any number of lines", "why_tests_cant": "Tests read one version of the source files; a user may point the package to any version, and a pattern that misses a line or reads a wrong part silently gives a wrong default for a parameter.", "anchors": ["src/eprempy/src/eprempy/parameter/_src.py: FunctionCall, VariableDefinition, ConfigurationC, BaseTypesH", "src/eprempy/src/eprempy/paths.py: LoadableFile"]}
{"id": "C111", "title": "Generating and comparing configuration files", "statement": "The command that generates a configuration file writes a file that the package can read, with one value for every parameter; using this file gives every parameter its default value. The command that compares configuration files prints one group for each parameter with its default value and its value in each file ('(default)' if the file does not mention it); restricted to differences, it prints exactly the parameters whose values differ, and nothing if there are none. Each printed line shows the label of the file and the value, separated by spaces. Comparing file objects gives the values of all names in either file.", "quantifier": "all sets of parameters with their types, defaults, units and aliases; all files; all ways of printing numbers that read back; the whole table of parameters of the package", "why_tests_cant": "Tests compare a few files; a generated file that is read differently for one type of parameter, or a comparison that misses or invents a difference, only shows for particular types, units and values.", "anchors": ["src/eprempy/src/eprempy/cli.py: generate_config_file, compare_config_files, _build_arg_dict, _map_parameter, _format_arg_string, _get_arg_value", "src/eprempy/src/eprempy/parameter/_config.py: ConfigFile.compare, ConfigFile.diff"]}
{"id": "C112", "title": "The unit that a metric system has for a unit, dimension or quantity", "statement": "A metric system's get_unit uses the unit, the dimension or the quantity that is given, in this order, and raises SearchError if nothing is given or found. For a unit it returns the product of the same powers of the units which the system has for the quantities measured; doing so twice changes nothing. For a dimension it returns the unit of the first quantity listed with that dimension, and that unit has the dimension; quantities() of a dimension returns exactly the quantities listed with it. For a quantity, in letters of any case, it returns the listed unit, which has the listed dimension.", "quantifier": "all products of integral powers of named units, all dimensions, all quantities of the tables, all names, both systems", "why_tests_cant": "Tests try six searches per system; a unit of the wrong system, a missing power or a dimension that is found or not depending on how it is written only shows for particular arguments.", "anchors": ["src/eprempy/src/eprempy/metric/_systems.py: System.get_unit, System._get_unit, System._unit_from_unit, System._unit_from_dimension, System._unit_from_quantity", "src/eprempy/src/eprempy/metric/_units.py: normalize, Unit.normalize", "src/eprempy/src/eprempy/metric/_dimensions.py: Dimension.quantities"]}
{"id": "C113", "title": "Variables of runtime parameters", "statement": "A variable is made exactly from single numbers, lists and one-dimensional measured objects; it has their values in order and their unit, or the given unit or 1. v[i] for an integer is the value at that position with the unit of v and IndexError outside -len(v) ≤ i < len(v); a slice or sequence of positions gives the variable of the selected values with the same unit. A variable of one value can be converted to int, float and complex, and rounding it gives a scalar with its unit; with any other number of values these raise TypeError.", "quantifier": "all variables of all lengths, values and units, all integers, slices and sequences of positions, all built-in conversions and roundings", "why_tests_cant": "Tests subscript one variable of three values by 0 and a slice, and convert variables of one value; wrong negative positions, empty parts and variables of several values are not tried.", "anchors": ["src/eprempy/src/eprempy/parameter/_runtime.py: Variable, variable_factory, variable_args", "src/eprempy/src/eprempy/numeric/_objects.py: _wrap_factory", "src/eprempy/src/eprempy/parameter/__init__.py: variable"]}
{"id": "C114", "title": "ismeasurable tells what can be measured", "statement": "quantity.ismeasurable(x) is true for every documented form: numbers, iterables of numbers, numbers followed by a unit, a list of numbers and a unit, such input in any number of lists, and lists of such lists. If it is true, quantity.measure and parse succeed with at least one number; if they succeed, it is true.", "quantifier": "all nested lists of numbers, strings, units and ranges, of any depth and length", "why_tests_cant": "The input is nested to any depth; tests list some twenty inputs.", "anchors": ["src/eprempy/src/eprempy/quantity/_functions.py: ismeasurable, parse", "src/eprempy/src/eprempy/etc.py: isnull", "src/eprempy/src/eprempy/container.py: unwrap, isseparable, isiterable", "src/eprempy/src/eprempy/metric/_units.py: unitlike"]}
{"id": "C115", "title": "Operands and terms mean what their arguments say", "statement": "OperandFactory().create(c, text, e) of a term written with any depth of parentheses is a single term in the written symbol whose value is c times the written value to the power e; shorter forms fill in ones; wrong numbers or types of arguments, and texts that begin or end with '^', are refused. symbolic.term keeps exactly the coefficient, base and exponent it is given, refuses a base that is no symbol or number, and accepts none, one or three positional arguments, or only keywords. A created operand stands for all of its text.", "quantifier": "all coefficients, exponents and written terms of any length and nesting depth, and every positive value of the symbol", "why_tests_cant": "The text is nested to any depth and recursion follows it; tests list some ten strings.", "anchors": ["src/eprempy/src/eprempy/symbolic/_operand.py: OperandFactory.create, OperandFactory.normalize, OperandFactory.search, OperandFactory.standardize, term_factory, Term.base_is_valid, asterms"]}
{"id": "C116", "title": "Terms can be evaluated, cast, compared and formatted", "statement": "Calling a term with a number gives the constant that is the term's value there; a constant cannot be called. float and int of a term work exactly for constants. A constant compares with a number by value and comparison never raises; a term equals the text it prints as. format('tex') writes the same coefficient, base and exponent in TeX; another style is refused.", "quantifier": "all terms, all exact numbers and all styles", "why_tests_cant": "Values, exponents and texts are unbounded; the failures are at particular values (zero, fractional coefficients).", "anchors": ["src/eprempy/src/eprempy/symbolic/_operand.py: Term.__call__, Term.__int__, Term.__float__, Term.__eq__, Term.format"]}
{"id": "C117", "title": "Files and programs are found where the documentation says", "statement": "paths.search returns the file in the first given directory (or the working directory) that holds it, in the order given, and None if there is none; find_file_by_template gives the first template whose file exists. A run uses the project's own input file of the given name, or else the given path; its programs are those named in the environment, or else the branch's own, or else the system's; a run that cannot start leaves nothing behind.", "quantifier": "all file systems, directories, names and environments, any number of directories", "why_tests_cant": "The outcome depends on what exists on disk, in combinations that tests cannot enumerate.", "anchors": ["src/eprempy/src/eprempy/paths.py: search, fullpath, locate, find_file_by_template", "src/eprempy/src/eprempy/project.py: Interface._create_run"]}
{"id": "C118", "title": "Named units belong to the metric systems that define them", "statement": "A named unit is fundamental in a metric system exactly if it is the system's unit for its quantity (kilogram, centimeter, every other unit without prefix); it is defined in a system exactly if it belongs to the system, whatever its prefix; it is allowed in the systems that define it, or everywhere if none does, and never nowhere. A system has at most one fundamental unit for a quantity, and norm gives it for each system. Two named units are equal exactly if they are the same prefixed unit, under whatever name, and then have the same hash; u >> v and u << v are inverse ratios of the prefixes.", "quantifier": "all named units under all their names, all pairs, both systems in any order", "why_tests_cant": "Around a thousand prefixed units, and every pair of them; the systems are computed through hand-written tables and a parser.", "anchors": ["src/eprempy/src/eprempy/metric/_defined.py: NamedUnit.is_allowed_in, is_defined_in, is_fundamental_in, systems, norm, __eq__, __hash__, __rshift__, __lshift__"]}
{"id": "C119", "title": "Squeezing, transposing and integrating physical arrays with numpy", "statement": "numpy.transpose(x) reverses the dimensions of a physical array and keeps the unit, the axes and the value at every named position; numpy.squeeze(x) keeps exactly the dimensions that are longer than one, with their axes, the unit and the values, or gives a scalar if there are none; numpy.trapz(y, x, axis) gives the trapezoidal sums along that axis over the other dimensions with their axes, in the unit of y; with axes or an axis given, names, axes and data stay together.", "quantifier": "all physical arrays of any dimensions, sizes, units and values, all axes, all spacings given as numbers", "why_tests_cant": "Names, axes and data are rearranged by three separate pieces of code, so a mismatch shows only for particular shapes, axes and ways to pass them.", "anchors": ["src/eprempy/src/eprempy/physical/_operations.py: squeeze, transpose, trapz", "src/eprempy/src/eprempy/real/_array.py: squeeze, transpose, trapz"]}
{"id": "C120", "title": "Expressions are sequences and sets of terms", "statement": "A symbolic expression behaves as the sequence of its terms: e[i] is the i-th term, counted from the end if i is negative, and raises IndexError outside -len(e) <= i < len(e); e.index, e.count and `in` find the terms that are equal to the argument. a.difference(b) has exactly the terms of a that are not in b, the symmetric and split variants accordingly; expressions are equal exactly if the symmetric difference is empty, and then have the same hash. e.apply(f) replaces every symbol by f(symbol).", "quantifier": "all expressions, positions, terms, hash functions and functions on bases", "why_tests_cant": "Equality compares numbers as floats while sets and hashes use exact fractions, and the arithmetic on positions has cases that tests with small positive indices miss.", "anchors": ["src/eprempy/src/eprempy/symbolic/_expression.py: Expression.__getitem__, __iter__, __len__, difference, __hash__, __eq__, apply", "src/eprempy/src/eprempy/symbolic/_operand.py: Operand.__eq__, Term.__hash__"]}
{"id": "C121", "title": "Helpers on arguments tell single objects and collections apart", "statement": "wrap gives a list of the members of a list or tuple, an empty list for None and a list of the object for text and for what cannot be iterated over; wrapping twice is wrapping once. unwrap gives the object that lists and tuples of one member enclose, however deeply, and with newtype a collection of it. The separable objects are the lists and tuples; Wrapper(x) has the members of a separable object and otherwise x as its only member; two wrappers are equal if they hold the same members as often. hastype(x, types, *wrappers) holds if x is of the types or is an instance of a wrapper with a member (strict: only members) of the types, in whatever order the wrappers are given; find_first gives the first object of a type; size counts members at any depth; isshapelike holds exactly for non-empty collections of integers.", "quantifier": "all objects nested to any depth, types, wrappers and sequences of arguments", "why_tests_cant": "The nesting depth and the mixture of texts, bytes, lists and tuples are unbounded; tests try a few.", "anchors": ["src/eprempy/src/eprempy/container.py: wrap, unwrap, Wrapper, isseparable, hastype, find_first, size, length, isshapelike"]}
{"id": "C122", "title": "Lists of words, widest types and sentinels", "statement": "join puts the conjunction between two items and, after commas, before the last of several, and every item's text is in the result. allisinstance holds if all of some objects are of the types and refuses none. widest gives the wider of two related types, the base type for unrelated subtypes of it, and refuses others. sentinel(name, value) is a singleton: it equals its value, has its hash and its truth, and asking again gives the same object.", "quantifier": "all items, conjunctions and formats; all hierarchies of types; all sequences of calls of sentinel", "why_tests_cant": "What a call of sentinel gives depends on the whole history of calls; a hierarchy of types may have any form.", "anchors": ["src/eprempy/src/eprempy/etc.py: join, allisinstance, widest, sentinel, _SentinelType"]}
{"id": "C123", "title": "Metric quantities and systems as objects", "statement": "In each metric system every quantity listed has a unit that is a product of named units and a dimension that is the unit's; p | q holds exactly if p and q have units of the same exponents in every base dimension in all systems, and is an equivalence; a quantity is in a system, however it is spelled, if it is listed, and what is no quantity is not. The quantity and system objects are singletons: two requests give the same object exactly if the names agree up to case, whatever was asked for in between, and an object equals a text exactly if the text is its name up to case.", "quantifier": "all listed quantities (energy, inductance, ...), both systems, all names, and all sequences of requests", "why_tests_cant": "Singletons depend on the whole history of requests; equivalence quantifies over every pair of quantities.", "anchors": ["src/eprempy/src/eprempy/metric/_systems.py: Properties, Quantity.__or__, Quantity.__eq__, quantity_factory, System.__getitem__, System.__contains__, System.__eq__, system_factory"]}
{"id": "C124", "title": "Views of the source files", "statement": "ConfigurationC standardizes what was loaded exactly if every parameter is read by one of the four reading functions; then the parameters and their order are those of the file, each has the type of what is read in place of the function's name, and the rest is as in the file. get(key, format='raw') gives back what was loaded, format='full' names the type and adds the metadata, no format gives the definition, what is not defined gives the default, and any other format is NotImplementedError. todict has an item for each key with what get gives for it, in order or sorted; tolines shows a parameter as one line with its name, one line for each attribute, indented twice as far, and one that closes it. A BaseTypesH object gives the same values whatever was asked for before, successfully or not, and raw texts, values and values with metadata according to the format.", "quantifier": "all loaded dictionaries, metadata, keys, defaults and formats; all sequences of accesses; all indentations and attributes", "why_tests_cant": "Inverse conversions and caching must hold for every file and every history of accesses.", "anchors": ["src/eprempy/src/eprempy/parameter/_src.py: SourceFile.get, todict, tolines, tostring, ConfigurationC.standardize, ConfigurationC.get, _replace, BaseTypesH.get, BaseTypesH.__getitem__"]}
{"id": "C125", "title": "Dimensions compared and combined with other objects", "statement": "Dimensions are equal to dimensions and collections with the same names in the same order, a single dimension also to its name, and to nothing else; equal objects have equal hashes. <, <=, > and >= compare them with dimensions and collections of names as sets. In &, - and | from either side, a text is one name and a collection of names counts as dimensions with these names; other objects are refused with TypeError. permute takes its indices one by one, as a list or as order=.", "quantifier": "all dimensions and all objects (dimensions, texts, collections, iterators, others)", "why_tests_cant": "Any object may meet dimensions; the laws of equality, order and operations range over all pairs and triples.", "anchors": ["src/eprempy/src/eprempy/numeric/_array.py: Dimensions.__eq__, __hash__, _compare, _get_operand, __rand__, __rsub__, __ror__, __rxor__, permute"]}
{"id": "C126", "title": "Observable quantities as objects", "statement": "One name always gives the same quantity object; two names of one primary quantity give equal objects. Two quantities are equal exactly if they observe by the same function, in equal units and with the same dimensions; equality is an equivalence. Asking for a quantity in another unit keeps its function and dimensions, and gives the same object exactly if the unit is equal. Applying the same operator to the same quantities gives equal quantities.", "quantifier": "all programs that ask for names, apply operators and convert, and all pairs and triples of their results", "why_tests_cant": "The cache and the identities depend on the whole history of a session.", "anchors": ["src/eprempy/src/eprempy/observable/_objects.py: Context.__eq__, Quantity.__eq__, _apply, withunit", "src/eprempy/src/eprempy/observable/_interfaces.py: Quantities.__getitem__, _build_observable, _get_observable"]}
{"id": "C127", "title": "Arguments of an observation", "statement": "However often an Arguments object is asked, its indices are those given for the five axes (None where none was given). axes(optional, **defaults) adds the available optional arguments and, for each name with a default, the argument if it is available under that name or an alias, else the default. assumptions is available exactly if every assumption can be converted, and then finds each under its name and aliases. No request changes what a later one gives.", "quantifier": "all indices, assumptions, alias groups, requested names and sequences of requests", "why_tests_cant": "The caches make results depend on the history; names, aliases and defaults meet in every combination.", "anchors": ["src/eprempy/src/eprempy/observable/_objects.py: Arguments.__init__, axes, indices, assumptions, time, shell, species, energy, mu"]}
{"id": "C128", "title": "The observers of a dataset object", "statement": "A dataset's observers are exactly its streams (by number) and points (by text): neither hides the other, whatever was asked before. A listing given once stays the same however the directory changes, and its files were in the directory when it was made. The observers are those of the directory at one time.", "quantifier": "all sequences of requests for observers, streams and points, and all contents of the directory at each request", "why_tests_cant": "The listings are cached separately while files come and go; the result depends on the whole history.", "anchors": ["src/eprempy/src/eprempy/eprem.py: Dataset.observers, Dataset.streams, Dataset.points, _get_observer_id"]}
{"id": "C129", "title": "Reductions of units as objects", "statement": "A reduction is its scale times its units. Multiplying or dividing it by a number changes the scale by that number and keeps the units; an integer power raises the scale and the exponents of the units. The reduction of a unit expression is the product of the reductions of its units: the product of the scales, and the units of all of them.", "quantifier": "all reductions, non-zero numbers, non-zero integer powers and unit expressions", "why_tests_cant": "The laws must hold for every scale and every expression; rounding of examples with scale one hides the errors.", "anchors": ["src/eprempy/src/eprempy/metric/_defined.py: Reduction.__init__, units, __mul__, __truediv__, __pow__", "src/eprempy/src/eprempy/metric/_units.py: reduction"]}
{"id": "C130", "title": "Views of an aliased mapping show what the mapping shows", "statement": "The views of an aliased mapping follow it: at any time keys() lists each name of the mapping once, values() and items() give the values read under those names, `in` agrees with what is listed, and with aliased=True they list each alias group once with its value. Two aliased mappings are equal exactly when every name reads the same in both; `m | d` with a standard mapping is m after assigning the items of d; `flat` has exactly the names with their values; freeze() keeps all values and aliases.", "quantifier": "all histories of set, delete and alias operations, before and after a view is created, all iteration orders of groups, all standard mappings and named groups", "why_tests_cant": "Views are used after further changes of the mapping; the order of a set's members and the history are arbitrary.", "anchors": ["src/eprempy/src/eprempy/aliased.py: MappingView, KeysView, ValuesView, ItemsView", "src/eprempy/src/eprempy/aliased.py: Mapping.keys, values, items, __eq__, __or__, flat", "src/eprempy/src/eprempy/aliased.py: MutableMapping.freeze"]}
{"id": "C131", "title": "Printed tables are aligned", "statement": "Table.show prints the columns asked for that all entries share, once each and in the order asked for: a line of names, a line of dashes and a line for every entry, all of the same length, with every name and value in the middle of a column that is wide enough for the longest of them.", "quantifier": "all tables, all lists of names, all values", "why_tests_cant": "The alignment depends on the longest of unboundedly many values, and must hold for all column widths.", "anchors": ["src/eprempy/src/eprempy/container.py: Table.show"]}
{"id": "C132", "title": "Singletons, texts of objects, first results and help texts", "statement": "All calls of a singleton class give the same object, which is an instance of that class, and different classes have different objects. autostr and str2repr represent an instance by the name of its class with its text in parentheses, also for classes below, without endless recursion when there is no text. apply gives the result of the first method whose result is true and calls no method after it. A help text is the first line of the docstring as written, as a phrase in lower case without a trailing period, or in full.", "quantifier": "all histories of calls of all classes, all class hierarchies with single inheritance, all lists of methods, all docstrings", "why_tests_cant": "The order in which classes of a hierarchy are instantiated and the docstrings are arbitrary.", "anchors": ["src/eprempy/src/eprempy/etc.py: Singleton, autostr, str2repr, apply, doc2help"]}
{"id": "C133", "title": "Custom implementations of operators and numpy functions", "statement": "After any history of registrations, an operator on a numeric object applies the implementation that was registered last for the same operation, whichever of its names, aliases or callables was used, for the class or for the base whose table the class shares, with the operands in the order of the expression; registrations for other classes and operations do not matter, and without any the result is NotImplemented. A numpy universal function applies its custom implementation in the same way and otherwise numpy's own operation on the data of the operands; out is replaced by its data; operands of foreign types give NotImplemented. A registration fails exactly if the operation is unknown or the class does not support it, and then changes nothing. Registering for a class never affects its bases.", "quantifier": "all histories of registrations, all classes with single inheritance, all tables of operators, all operands", "why_tests_cant": "The modules register in an order fixed by imports and users may register anything at any time.", "anchors": ["src/eprempy/src/eprempy/numeric/_mixins.py: Functions, Operators", "src/eprempy/src/eprempy/numeric/_operations.py: resolve", "src/eprempy/src/eprempy/numeric/_implementation.py: unary, binary, doublet"]}
