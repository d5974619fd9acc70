{"id": "C01", "title": "Ordered de-duplication keeps exactly the first occurrences", "statement": "iterables.unique(*items) returns every distinct item exactly once, nothing else, in the order of first appearance, and applying it to its own result changes nothing.", "quantifier": "for every finite sequence of items of any type with decidable equality", "why_tests_cant": "A unit test checks a handful of sequences; duplicates may occur at arbitrary positions and multiplicities.", "anchors": ["src/goats/core/iterables.py: unique"]}
{"id": "C02", "title": "Unwrapping strips every redundant singleton wrapper and nothing else", "statement": "iterables.unwrap(obj) removes list/tuple layers for as long as the object is a list or tuple with exactly one member; the result is never such a singleton, no member of a longer collection is lost or reordered, unwrapping twice is the same as unwrapping once, and unwrap(obj, wrap=f) returns the same members held in an f.", "quantifier": "for every finitely nested list/tuple structure of any depth", "why_tests_cant": "Nesting depth is unbounded; tests try two or three depths.", "anchors": ["src/goats/core/iterables.py: unwrap, whole"]}
{"id": "C03", "title": "Transposing a rectangular table twice gives it back", "statement": "iterables.transpose_list maps an m-by-n table (m,n>0) to the n-by-m table with entry (j,i) equal to the original entry (i,j), so transposing twice is the identity; a table whose first row is longer than some other row raises IndexError instead of returning a table with missing entries.", "quantifier": "for every list of rows", "why_tests_cant": "Shapes and ragged rows are unbounded in number.", "anchors": ["src/goats/core/iterables.py: transpose_list"]}
{"id": "C04", "title": "Converting a slice to a range selects the same positions as the slice", "statement": "iterables.slice_to_range(s, stop=n) describes the same positions as subscripting a length-n sequence with s, for non-negative bounds with stop<=n and positive steps.", "quantifier": "for every length n and every slice with non-negative start, stop <= n and positive step", "why_tests_cant": "Boundary values (stop=0, step omitted) interact with truthiness tests; samples miss the falsy boundary.", "anchors": ["src/goats/core/iterables.py: slice_to_range", "src/goats/core/axis.py: Indexer.normalize"]}
{"id": "C05", "title": "Truncated display shows at most the requested number of items", "statement": "iterables.show_at_most(n, seq, sep) shows the whole sequence when it has at most n members, and otherwise shows n of its members, the last shown being the last of the sequence, with an ellipsis marking the omission.", "quantifier": "for every n and every sequence", "why_tests_cant": "The boundary cases n=0, n=1, len=n, len=n+1 interact; tests use one n.", "anchors": ["src/goats/core/iterables.py: show_at_most"]}
{"id": "C06", "title": "A bijection inverts exactly", "statement": "iterables.Bijection accepts a mapping iff its values are pairwise distinct; for an accepted mapping, looking up the value of any key in the inverse returns that key, and inverting twice gives an equal mapping.", "quantifier": "for every finite mapping", "why_tests_cant": "Injectivity of arbitrary mappings cannot be sampled exhaustively.", "anchors": ["src/goats/core/iterables.py: Bijection"]}
{"id": "C07", "title": "Registering an object never silently discards another registered object", "statement": "After any sequence of register calls without overwrite, every object ever registered is still retrievable under the key returned by its registration.", "quantifier": "for every sequence of registrations with arbitrary (possibly clashing) names", "why_tests_cant": "The clash between user-chosen names and generated names needs a particular history.", "anchors": ["src/goats/core/iterables.py: ObjectRegistry.register, ObjectRegistry._get_default_key"]}
{"id": "C08", "title": "Strict table lookup returns the unique matching entry or fails", "statement": "Calling a non-empty table in strict mode with keys common to all entries returns an entry iff exactly one entry carries all requested key-value pairs (and then it is that entry), and raises TableLookupError otherwise; a requested key that some entry lacks raises TableKeyError. No strict request ever returns an entry that contradicts one of the requested values.", "quantifier": "for every table and every request", "why_tests_cant": "The number of tables and requests is unbounded.", "anchors": ["src/goats/core/iterables.py: Table.__call__, Table.keys"]}
{"id": "C09", "title": "Progressive table lookup never contradicts strict lookup", "statement": "If calling a table in progressive mode returns an entry, that entry matches every requested pair examined, and if it examined all of them strict lookup returns the same entry; whenever strict lookup succeeds progressive lookup succeeds with the same entry.", "quantifier": "for every table and every ordered request", "why_tests_cant": "Depends on the order of keyword arguments and the number of partial matches.", "anchors": ["src/goats/core/iterables.py: Table.__call__"]}
{"id": "C10", "title": "Conversion graphs are always symmetric with reciprocal weights", "statement": "After any history of add_connection calls, each directed edge has a reverse edge, the weight of the reverse of an edge with non-zero numeric weight w between distinct nodes is 1/w, and a connection that is already present is never changed by later additions.", "quantifier": "for every history of additions", "why_tests_cant": "Histories are unbounded, including re-additions of an edge in the opposite direction.", "anchors": ["src/goats/core/iterables.py: Connections.add_connection, Connections.get_weight, Connections.get_adjacencies"]}
{"id": "C11", "title": "A guarded call substitutes for exactly the exceptions the user registered", "statement": "A guarded call returns the callable's own result when it does not raise; when it raises an exception matching a registered type the registered substitute is returned; any other exception propagates unchanged.", "quantifier": "for every set of registered exception types, every exception class in any subclass relation to them, and every callable outcome", "why_tests_cant": "The subclass relation between raised and registered types is an unbounded space; tests raise the registered class itself.", "anchors": ["src/goats/core/iterables.py: Guard"]}
{"id": "C12", "title": "Distribution pairs every member with every member", "statement": "iterables.distribute(a, b) raises TypeError when neither argument is a non-string iterable; otherwise it yields len(a)*len(b) pairs in which every member of a meets every member of b exactly once, in row-major order, a non-iterable argument counting as its own only member.", "quantifier": "for every pair of arguments, iterable or not, of any length", "why_tests_cant": "Sizes are unbounded and the order of the pairs matters.", "anchors": ["src/goats/core/iterables.py: distribute"]}
{"id": "C13", "title": "Alias groups stay pairwise disjoint", "statement": "Starting from an empty collection of alias groups, after any sequence of add, discard, without, update and merge operations no name belongs to two groups, so the group of a name is well defined.", "quantifier": "for every operation sequence", "why_tests_cant": "Overlaps only arise after particular histories (a group bridging two existing groups).", "anchors": ["src/goats/core/aliased.py: Groups"]}
{"id": "C14", "title": "Every alias of an entry is the same entry, after any history of updates", "statement": "In a mutable aliased mapping, after any sequence of assignments, deletions and alias additions, all aliases of an entry read the same value, writing through one alias is visible through all the others and through no name outside the group, and deleting through one removes all of them.", "quantifier": "for every history of set/del/alias operations on an initially well-formed mapping", "why_tests_cant": "Histories are unbounded and the internal flat index must be kept in step with the groups at each operation.", "anchors": ["src/goats/core/aliased.py: MutableMapping, Mapping"]}
{"id": "C15", "title": "An aliased mapping built from user groups resolves every alias to its own entry", "statement": "For a mapping built from entries whose alias groups are disjoint, looking up any alias of an entry returns that entry's value, looking up anything else raises KeyError, and the number of keys equals the number of distinct aliases.", "quantifier": "for every list of entries with pairwise disjoint alias groups (and every reference alias collection)", "why_tests_cant": "Requires all sizes of mappings and groups; overlapping groups silently shadow each other.", "anchors": ["src/goats/core/aliased.py: Mapping, _build_mapping, _build_from_aliases, _build_from_key, keysfrom"]}
{"id": "C16", "title": "Canonical-name lookup is idempotent and total on known aliases", "statement": "NameMap maps every alias of a quantity to the quantity's one canonical name, maps the canonical name to itself, and rejects unknown names.", "quantifier": "for every collection of names with disjoint aliases", "why_tests_cant": "All name/alias collections cannot be sampled.", "anchors": ["src/goats/core/aliased.py: NameMap", "src/goats/core/reference.py: NAMES"]}
{"id": "C17", "title": "Symbolic reduction yields a canonical form", "statement": "symbolic.reduce returns at most one constant term, and at most one term per base, never with a zero exponent, ordered by descending exponent and then by base; reducing a reduced expression changes nothing.", "quantifier": "for every finite list of terms", "why_tests_cant": "Number of terms, repeated bases and cancelling exponents are unbounded.", "anchors": ["src/goats/core/symbolic.py: reduce"]}
{"id": "C18", "title": "Symbolic reduction preserves the value of the expression", "statement": "For any assignment of positive real values to the bases, the product of the terms returned by symbolic.reduce equals the product of the input terms (each being coefficient times base to the exponent).", "quantifier": "for every finite list of terms and every assignment of positive reals to bases", "why_tests_cant": "Semantic equality over all assignments is not testable.", "anchors": ["src/goats/core/symbolic.py: reduce, Term, Expression"]}
{"id": "C19", "title": "Expressions form a commutative group under multiplication", "statement": "Multiplying symbolic expressions is commutative and associative up to equality, (a*b)/b equals a, a/a is the constant 1, and (a*b)**n equals a**n * b**n for non-zero n.", "quantifier": "for all expressions whose coefficients are non-zero and every non-zero exponent", "why_tests_cant": "Algebraic laws quantify over all triples of expressions.", "anchors": ["src/goats/core/symbolic.py: Expression.__mul__, Expression.__truediv__, Expression.__pow__"]}
{"id": "C20", "title": "Expression equality is order-insensitive and semantic", "statement": "Two expressions compare equal iff their reduced terms agree irrespective of order, i.e. iff they have the same value under every assignment of positive reals to the bases.", "quantifier": "for every pair of expressions with positive coefficients", "why_tests_cant": "Requires all pairs and all assignments.", "anchors": ["src/goats/core/symbolic.py: Expression.__eq__"]}
{"id": "C21", "title": "Raising to the power zero gives one", "statement": "Raising any symbolic term to the power zero gives a term whose value is 1 and multiplying any term by zero gives a term whose value is 0.", "quantifier": "for every term", "why_tests_cant": "Falsy-zero handling is invisible unless the test uses exactly zero.", "anchors": ["src/goats/core/symbolic.py: Operand.__init__, Operand.__pow__, Operand.__mul__"]}
{"id": "C22", "title": "Parsing a formatted expression gives the expression back", "statement": "Formatting a reduced symbolic expression as a string and parsing that string yields an equal expression.", "quantifier": "for every expression with valid base names, integer coefficients and exponents", "why_tests_cant": "Round-trip over unbounded term lists, names, and multi-digit numbers.", "anchors": ["src/goats/core/symbolic.py: Term.format, Expression.format, Parser, OperandFactory"]}
{"id": "C23", "title": "Parsing terminates with a result or a parsing error on every string", "statement": "Parsing any string terminates; the outcome is either a list of terms or one of the documented parsing errors, and each parsing step consumes at least one character.", "quantifier": "for every string", "why_tests_cant": "Termination over all strings is not testable.", "anchors": ["src/goats/core/symbolic.py: Parser.parse, Parser._resolve_operations, Parser._parse_operand"]}
{"id": "C24", "title": "Ambiguous operator sequences are rejected", "statement": "With strict operator order, an expression in which, at some nesting level, a division is immediately followed by another division or by a multiplication sign is rejected with RatioError or ProductError, and every other expression gives the same result as when the order is ignored; with operator order ignored every expression is accepted.", "quantifier": "for every sequence of operands (numbers, names, nested groups, with exponents) and operators, written with single blanks around operators", "why_tests_cant": "Positions and lengths of the offending operator sequence are unbounded.", "anchors": ["src/goats/core/symbolic.py: Parser._get_operator, Parser._operator_error, Parser._evaluate"]}
{"id": "C25", "title": "Bracket matching finds exactly the matching bracket", "statement": "The bounds found for a bracketed sub-expression delimit a balanced string: the region starts at the first opening bracket, ends just after its matching closing bracket, and no shorter region starting there is balanced; a string without a matched opening bracket yields no bounds.", "quantifier": "for every string in which no closing bracket precedes the first opening bracket", "why_tests_cant": "Nesting depth is unbounded.", "anchors": ["src/goats/core/symbolic.py: OperandFactory.find_bounds"]}
{"id": "C26", "title": "Rational exponents are read in full", "statement": "An exponent written as a ratio of two integers is read as that ratio wherever it appears in an expression, irrespective of the number of digits.", "quantifier": "for every numerator, denominator and position", "why_tests_cant": "Requires multi-digit denominators in non-final position; tests use 1/2.", "anchors": ["src/goats/core/symbolic.py: OperandFactory, PartFactory regex 'rational'"]}
{"id": "C27", "title": "Every known unit symbol denotes one unit", "statement": "In the table of named units no symbol or name is shared by two different prefix/base-unit pairs, so resolving a symbol is unambiguous.", "quantifier": "for every pair of prefix and base unit in the table", "why_tests_cant": "The product of prefixes and units has thousands of entries; tests look up a few.", "anchors": ["src/goats/core/metric.py: named_units, build_unit_aliases, _prefixes, _units"]}
{"id": "C28", "title": "Scale ratios between units of the same base unit form a groupoid", "statement": "ratio(u, u) is 1, ratio(u, v)*ratio(v, u) is 1, and ratio(u, v)*ratio(v, w) = ratio(u, w) whenever the units share a base unit; units with different base units are rejected.", "quantifier": "for all triples of named units with non-zero prefix factor", "why_tests_cant": "All triples of units.", "anchors": ["src/goats/core/metric.py: ratio, NamedUnit"]}
{"id": "C29", "title": "Conversion search is sound and terminates on every graph", "statement": "For any graph of declared conversions (including cyclic ones), searching for a conversion between two units terminates, and any factor found is the product of the declared weights (or unit ratios) along some chain of declared conversions from source to target.", "quantifier": "for every finite conversion graph and every pair of nodes", "why_tests_cant": "Graphs are arbitrary; cycles could cause non-termination.", "anchors": ["src/goats/core/metric.py: Conversion._convert_as_strings, Conversion._simple_conversion, Conversion._complex_conversion, Conversion._rescale"]}
{"id": "C30", "title": "A declared conversion chain is found", "statement": "If two units are connected by a chain of declared conversions then the conversion search finds a factor.", "quantifier": "for every finite conversion graph and every connected pair", "why_tests_cant": "Completeness over all graphs; the shared list of visited nodes could block a valid path.", "anchors": ["src/goats/core/metric.py: Conversion"]}
{"id": "C31", "title": "Dimension bookkeeping agrees with multiplication of units", "statement": "The physical dimension of a product, quotient or power of units is the product, quotient or power of their dimensions.", "quantifier": "for every pair of unit expressions over the known units", "why_tests_cant": "All compound units.", "anchors": ["src/goats/core/metric.py: Unit.dimensions, NamedUnit.dimensions, Dimension"]}
{"id": "C32", "title": "Merging dimension names is an ordered union", "statement": "Merging the axis names of several operands gives each name once, in order of first appearance; merging is associative, idempotent and has the empty list as identity, so the axes of a product of arrays do not depend on how it is parenthesised.", "quantifier": "for all finite sequences of axis-name lists", "why_tests_cant": "Associativity over all triples.", "anchors": ["src/goats/core/metadata.py: Dimensions.merge", "src/goats/core/iterables.py: unique"]}
{"id": "C33", "title": "Suppressed operand types take precedence over supported ones", "statement": "An operation supports a combination of operand types iff no suppression declared for that number of types matches it (by subtype, or reversed for symmetric declarations) and either a declared support matches or the operation's own type is among the operands; the order of the declarations is irrelevant.", "quantifier": "for every history of support/suppress declarations and every tuple of operand types", "why_tests_cant": "Histories and subclass relations are unbounded.", "anchors": ["src/goats/core/metadata.py: Operation.support, Operation.suppress, Operation.supports"]}
{"id": "C34", "title": "Additive operations require the same metadata, multiplicative ones combine it", "statement": "Adding or subtracting two measured quantities with different units is rejected and leaves units unchanged when they agree; multiplying and dividing yields the product and quotient unit.", "quantifier": "for all pairs of units", "why_tests_cant": "All pairs of compound units.", "anchors": ["src/goats/core/metadata.py: Unit", "src/goats/core/measurable.py: Quantified.implement"]}
{"id": "C35", "title": "The nearest value is nearest", "statement": "find_nearest without bound returns an index into the collection whose value has minimal distance to the target, and the first such index.", "quantifier": "for every non-empty finite collection of numbers and every target", "why_tests_cant": "All sequences and targets.", "anchors": ["src/goats/core/numerical.py: find_nearest"]}
{"id": "C36", "title": "A bounded nearest value respects its bound", "statement": "For an ascending collection that contains a value satisfying the bound, find_nearest with bound 'lower' ('upper') returns the smallest value not below (the largest value not above) the target; when none satisfies the bound the last (first) entry is returned.", "quantifier": "for every ascending collection and every target", "why_tests_cant": "Walks past the ends wrap around in Python; only exact boundary histories reveal it.", "anchors": ["src/goats/core/numerical.py: find_nearest", "src/goats/core/computed.py: _interpolate"]}
{"id": "C37", "title": "Bounding indices bracket the target", "statement": "For an ascending array and a target within its range, the bounding indices are adjacent (or equal, exactly when the target is a member occurring once), the lower entry is not above and the upper entry is not below the target; outside the range they collapse to the nearest end.", "quantifier": "for every ascending array and every target", "why_tests_cant": "All arrays and targets.", "anchors": ["src/goats/core/numerical.py: find_1d_indices, get_bounding_indices"]}
{"id": "C38", "title": "Restricting a coordinate keeps every bracketing row", "statement": "The index range chosen for interpolation along an axis contains, for every slice of the reference array, the indices bracketing the target, and is the smallest such range.", "quantifier": "for every two-dimensional reference array and every target", "why_tests_cant": "All arrays.", "anchors": ["src/goats/core/interpolation.py: restrict_coordinate"]}
{"id": "C39", "title": "An ellipsis in a subscript stands for all unmentioned axes", "statement": "Expanding an ellipsis in a subscript yields one index per array dimension, keeping all explicit indices in place before and after the full slices that replace the ellipsis.", "quantifier": "for every number of dimensions and every subscript with one ellipsis", "why_tests_cant": "Positions and lengths are unbounded; tests use an ellipsis standing for exactly one axis.", "anchors": ["src/goats/core/variable.py: Array._expand_ellipsis", "src/goats/core/physical.py: Array._expand_ellipsis"]}
{"id": "C40", "title": "Subscripting keeps the number of dimensions and the sizes numpy selects", "statement": "Subscripting a variable with integers and slices yields an array of the same number of dimensions, where an integer index gives size one and a slice gives the number of positions it selects.", "quantifier": "for every shape and every tuple of integer/slice indices", "why_tests_cant": "Negative, clipped and strided slices; tests use plain slices.", "anchors": ["src/goats/core/variable.py: Array.__getitem__, Array._get_axis_size, Array._normalize_indices"]}
{"id": "C41", "title": "Reading an array through the cache is invisible", "statement": "Whatever sequence of full reads and subscripted reads has happened before, reading an array (or a subscript of it) returns the scale factor times the corresponding stored values.", "quantifier": "for every history of reads and every subscript", "why_tests_cant": "Cache state depends on history.", "anchors": ["src/goats/core/variable.py: Array._load_array, Array._read_array, Array._get_array", "src/goats/core/physical.py: Array"]}
{"id": "C42", "title": "Changing units is path-independent and reversible", "statement": "Converting an array-like quantity through any chain of consistent units yields the same values as converting directly, and converting back yields the original values; converting to the current unit returns the same object.", "quantifier": "for every chain of unit conversions", "why_tests_cant": "Chains are unbounded.", "anchors": ["src/goats/core/variable.py: Quantity._update_unit", "src/goats/core/physical.py: Array.apply_unit", "src/goats/core/measurable.py: Quantity.apply_unit"]}
{"id": "C43", "title": "Copying a converted quantity preserves its later conversions", "statement": "Building a new quantity from an existing one yields a quantity with the same values and unit, and the two respond identically to any later unit conversion.", "quantifier": "for every quantity, every prior conversion and every later conversion", "why_tests_cant": "Only the combination convert-copy-convert reveals a lost scale factor.", "anchors": ["src/goats/core/variable.py: Array.__init__, Quantity._update_unit, Array._copy_with", "src/goats/core/physical.py: Array"]}
{"id": "C44", "title": "Products of arrays align axes by name", "statement": "In the product or quotient of two variable quantities, the entry at a combination of named axis positions is the product or quotient of the operands' entries at the same named positions, whatever the order and overlap of their axes.", "quantifier": "for all pairs of arrays with consistent axis sizes", "why_tests_cant": "All dimension-name overlaps and orders.", "anchors": ["src/goats/core/variable.py: Quantity._ufunc_hook, Quantity.shape_dict"]}
{"id": "C45", "title": "Removing axes removes exactly the matching names", "statement": "Averaging a variable over one axis removes exactly that axis name, and squeezing removes exactly the names of the axes whose size is one, so names and data always agree in number.", "quantifier": "for every shape and axis", "why_tests_cant": "Negative axes and singular axes; tests use axis 0 and 1.", "anchors": ["src/goats/core/variable.py: _mean, _squeeze"]}
{"id": "C46", "title": "Neighbouring-shell shifts clamp at the ends", "statement": "The shell-ahead shift of an array returns at shell i the value at i+1, and the last value at the last shell; shell-behind returns the value at i-1, and the first value at the first shell; the shape never changes.", "quantifier": "for every positive number of shells", "why_tests_cant": "All row lengths and contents.", "anchors": ["src/goats/core/computed.py: _ahead, _behind"]}
{"id": "C47", "title": "Default axis indexing never yields an out-of-range index", "statement": "The default axis indexer returns the requested indices when all lie in [0, n) and raises otherwise; with no targets it returns every index once in order.", "quantifier": "for every axis length and every list of targets", "why_tests_cant": "All lists of targets.", "anchors": ["src/goats/core/axis.py: indexer, Indexer.normalize", "src/goats/core/index.py: Data"]}
{"id": "C48", "title": "A written configuration file reads back as the same parameters", "statement": "Parsing a configuration file made of comment lines, blank lines and lines 'key=value' yields exactly the listed parameters, the last line winning for repeated keys; a line that is none of these is rejected.", "quantifier": "for every list of lines", "why_tests_cant": "Unbounded files and characters, including '=' and comment characters within values.", "anchors": ["src/goats/eprem/runtime.py: ConfigFile._parse", "src/goats/core/iotools.py: strip_inline_comments"]}
{"id": "C49", "title": "Inline comments never leak into values", "statement": "After stripping inline comments, the value contains none of the comment markers, has no leading or trailing white space, is a prefix of the input up to surrounding white space, and does not depend on the order in which markers are listed.", "quantifier": "for every string and every list of single-character markers", "why_tests_cant": "All strings.", "anchors": ["src/goats/core/iotools.py: strip_inline_comments"]}
{"id": "C50", "title": "A user-supplied parameter overrides the default", "statement": "The value of a runtime parameter is computed from the user's configuration entry when one is present, and from the default otherwise; parameters the user did not mention are unaffected.", "quantifier": "for every set of defaults and every configuration file", "why_tests_cant": "All configurations.", "anchors": ["src/goats/eprem/runtime.py: Runtime._get_argument, Interface._get_argument, Runtime._convert"]}
{"id": "C51", "title": "Parameter references resolve to their values on every acyclic configuration", "statement": "Evaluating a parameter whose definition refers to other parameters terminates on every acyclic set of definitions and yields the value of the definition under ordinary arithmetic, including values equal to zero.", "quantifier": "for every acyclic set of definitions", "why_tests_cant": "Reference depth is unbounded; zero is falsy.", "anchors": ["src/goats/eprem/runtime.py: Runtime._evaluate, Runtime._resolve, Runtime._compute_sum"]}
{"id": "C52", "title": "Changing a path never leaves stale parameters behind", "statement": "After any sequence of path updates and reads, the runtime's values are those of a fresh object created with the current paths.", "quantifier": "for every history of path updates and reads", "why_tests_cant": "Cache staleness depends on history.", "anchors": ["src/goats/eprem/runtime.py: Runtime.path_to, Runtime._reset, Runtime.user, Runtime.reference, Runtime.basetypes"]}
{"id": "C53", "title": "Comparing configurations reports every parameter of either file", "statement": "Comparing two configuration files lists exactly the parameters that occur in at least one of them, each with its value in each file (or nothing when absent), and comparing in the opposite order swaps the columns.", "quantifier": "for every pair of configurations", "why_tests_cant": "All pairs.", "anchors": ["src/goats/eprem/runtime.py: ConfigFile.compare, ConfigFile.diff"]}
{"id": "C54", "title": "Dataset units are standardised once and for all", "statement": "Standardising a unit string replaces known non-standard units and brackets everything after the first division, so the standardised unit has the same dimension factors as the dataset's convention 'everything after the slash is a denominator'.", "quantifier": "for every unit string", "why_tests_cant": "All strings.", "anchors": ["src/goats/eprem/__init__.py: standardize, _UNIT_MAP"]}
{"id": "C55", "title": "Resolved dimensions follow the dataset's axis order", "statement": "Resolving a collection of dimension names in strict mode returns exactly the requested names known to the dataset, in dataset order; append mode adds the unknown ones after them; nothing is lost or repeated.", "quantifier": "for every axis order and every set of names", "why_tests_cant": "All orders and sets.", "anchors": ["src/goats/eprem/__init__.py: Axes.resolve"]}
{"id": "C56", "title": "The axes of a computed quantity are those of its inputs, adjusted once", "statement": "The dimensions of a computed quantity are the dimensions of the variables it depends on (directly or through other computed quantities), minus the removed and plus the added dimensions, in dataset order; asking again gives the same answer.", "quantifier": "for every acyclic dependency graph of computed quantities", "why_tests_cant": "Dependency graphs of any depth; shared accumulators could leak between calls.", "anchors": ["src/goats/eprem/__init__.py: Functions.get_dimensions, Functions._gather_dimensions"]}
{"id": "C57", "title": "An observation depends only on its own constraints", "statement": "Observing with given constraints yields the same constraint set and the same constrained values irrespective of any earlier observations made with the same observer; appended constraints override earlier ones and default constraints apply to everything not mentioned.", "quantifier": "for every history of constrain calls and lookups", "why_tests_cant": "Shared mutable context across observations: only histories reveal leakage.", "anchors": ["src/goats/core/observing.py: Context.constrain, Context.constraints, Observable.observe", "src/goats/eprem/__init__.py: Context.get_value, Context.get_index"]}
{"id": "C58", "title": "Available names reflect the current constraints", "statement": "The set of names available in an observing context always consists of the observable names and the names of the current constraints, whatever was asked before.", "quantifier": "for every history of constrain calls and availability queries", "why_tests_cant": "Only query-constrain-query histories reveal a stale cache.", "anchors": ["src/goats/core/observing.py: Context.available, Context.keys, Context.constrain"]}
{"id": "C59", "title": "Quantities are found by fixed precedence", "statement": "Looking up a quantity by name returns the entry of the first mapping that contains the name, else the current constraint of that name, else nothing.", "quantifier": "for every list of mappings, constraints and every name", "why_tests_cant": "All combinations of presence.", "anchors": ["src/goats/core/observing.py: Context.get_quantity, Context.get_attribute"]}
{"id": "C60", "title": "A composed quantity is observable iff all its parts are", "statement": "An observer can observe a symbolic composition of names iff it can observe each name in it; a collection of alternative names is observable iff one of them is.", "quantifier": "for every composition and every collection of names", "why_tests_cant": "All compositions.", "anchors": ["src/goats/core/observer.py: Interface.observes, Interface._observes"]}
{"id": "C61", "title": "Spelling suggestions are known words within reach, and known words pass", "statement": "A known word gets no suggestions; every suggestion is a known word reachable by at most two single-letter edits; a misspelling that differs from a known word by one deleted, transposed, replaced or inserted letter always gets a suggestion.", "quantifier": "for every vocabulary and every input word", "why_tests_cant": "All words and positions, in particular the last position.", "anchors": ["src/goats/core/spelling.py: SpellChecker"]}
{"id": "C62", "title": "An unknown name raises a key or spelling error, every time", "statement": "Requesting an unknown quantity from an observer raises KeyError or SpellingError, on every request.", "quantifier": "for every sequence of requests for unknown names", "why_tests_cant": "Only a second failing request exercises the cached spell checker.", "anchors": ["src/goats/core/observer.py: Interface.__getitem__, Interface._check_spelling"]}
{"id": "C63", "title": "Operational arguments have consistent truth, length and members", "statement": "An operational argument with numeric data is true (including zero), a boolean argument has the truth of its value, a string argument is true iff it contains a non-space character; the number of members iterated equals the reported length.", "quantifier": "for every argument value", "why_tests_cant": "All values.", "anchors": ["src/goats/core/operational.py: Argument"]}
{"id": "C64", "title": "Species symbols identify element and charge", "statement": "The symbol computed from the mass and charge of a known element is that element's symbol followed by one sign per unit charge, and the charge computed from the symbol is the original charge.", "quantifier": "for every element in the table and every integer charge", "why_tests_cant": "Masses that round to the same integer collide; tests use light elements.", "anchors": ["src/goats/core/fundamental.py: elements, get_mass_indices", "src/goats/core/plasma.py: Species.charge"]}
{"id": "C65", "title": "Physical constants agree between metric systems", "statement": "For every physical constant, the value listed for the MKS system equals the value listed for the CGS system after unit conversion, to the listed precision.", "quantifier": "for every constant in the table", "why_tests_cant": "A whole-table consistency claim; tests look at a few constants.", "anchors": ["src/goats/core/fundamental.py: _constants", "src/goats/core/metric.py: _CONVERSIONS"]}
{"id": "C66", "title": "Searching paths returns the first match", "statement": "Searching a list of directories for a file (or a directory for a list of file-name templates) returns the first existing candidate in order, and nothing if none exists; no later candidate is examined once one is found.", "quantifier": "for every list of candidates and every file-system state", "why_tests_cant": "All file-system states.", "anchors": ["src/goats/core/iotools.py: search, find_file_by_template"]}
{"id": "C67", "title": "One dataset object per path", "statement": "Creating a dataset interface twice from the same path argument yields the same object, and from unequal path arguments different objects.", "quantifier": "for every history of creations and every class using the metaclass", "why_tests_cant": "History-dependent instance cache.", "anchors": ["src/goats/core/iotools.py: PathSet", "src/goats/core/iterables.py: InstanceSet"]}
{"id": "C68", "title": "Customising the viewers of one dataset does not affect another", "statement": "Replacing a viewer on one dataset interface changes the viewer of that dataset only.", "quantifier": "for every history of viewer updates over several datasets", "why_tests_cant": "Shared class-level state is visible only with two live objects.", "anchors": ["src/goats/core/datafile.py: ViewerFactory, Interface.use"]}
{"id": "C69", "title": "A measurable argument list splits into values and one unit", "statement": "Parsing a list of numbers optionally followed by a unit yields exactly the numbers and that unit (dimensionless if absent); pairs of number and unit are accepted only if all units agree.", "quantifier": "for every finite argument list", "why_tests_cant": "All nestings and lengths.", "anchors": ["src/goats/core/measurable.py: parse_measurable, measure"]}
{"id": "C70", "title": "In-place arithmetic on a measured quantity succeeds or leaves it unchanged", "statement": "An in-place arithmetic operation on a measured quantity either updates its value and metadata together or raises an exception leaving the quantity unchanged.", "quantifier": "for every quantity, operand and supported operation", "why_tests_cant": "Failure atomicity over all states.", "anchors": ["src/goats/core/measurable.py: Quantified.implement"]}
{"id": "C71", "title": "Written expressions are read with the conventional meaning", "statement": "Parsing an algebraic expression written with numbers, names, exponents, nested brackets, '*', '/' and blanks (implied product) succeeds, and the product of the resulting terms, as well as of the reduced terms of the resulting Expression, has the conventional value of the expression (operations at one level associate to the left) under every assignment of positive reals to the names.", "quantifier": "for every expression tree (any depth and width) and every assignment of positive reals", "why_tests_cant": "Unbounded nesting and number of operands, and equality over all assignments.", "anchors": ["src/goats/core/symbolic.py: Parser, OperandFactory, OperatorFactory, Expression.__init__"]}
{"id": "C72", "title": "What a unit name denotes does not depend on history", "statement": "Creating the named unit for a string gives the same unit (prefix, base unit, scale) regardless of which named units the program created before.", "quantifier": "for every finite history of creations and every string", "why_tests_cant": "All histories of a shared instance cache.", "anchors": ["src/goats/core/metric.py: NamedUnit.__new__, NamedUnit._instances, identify"]}
{"id": "C73", "title": "Metric prefixes do not affect convertibility", "statement": "If a unit can be converted to another, then the same unit with another metric prefix can be converted to it, and to the other unit with any prefix.", "quantifier": "for every pair of named units and all metric prefixes", "why_tests_cant": "The product of units and prefixes on both sides is far larger than any test table, and the search takes a different route for each.", "anchors": ["src/goats/core/metric.py: Conversion"]}
{"id": "C74", "title": "Conversion factors do not depend on the path", "statement": "The factor found between two named units does not depend on the order in which the program tries intermediate units (a set, hence unordered), converting through an intermediate unit gives the direct factor, and there-and-back is one.", "quantifier": "for every three units, every iteration order of the set of units, every value of pi", "why_tests_cant": "The iteration order of a set of strings changes from run to run; the number of orders is factorial.", "anchors": ["src/goats/core/metric.py: Conversion, CONVERSIONS"]}
{"id": "C75", "title": "Conversions can be inverted", "statement": "Whenever u can be converted to v, v can be converted to u and the factors are reciprocal.", "quantifier": "for every pair of unit expressions", "why_tests_cant": "Infinitely many unit expressions.", "anchors": ["src/goats/core/metric.py: Conversion"]}
{"id": "C76", "title": "Units of different quantities cannot be converted", "statement": "Converting between units whose dimensions differ raises UnitConversionError.", "quantifier": "for every pair of unit expressions", "why_tests_cant": "Infinitely many unit expressions; a test only samples pairs.", "anchors": ["src/goats/core/metric.py: Conversion, Unit.__floordiv__"]}
{"id": "C77", "title": "Products of convertible units can be converted", "statement": "If u0 converts to v0 and u1 to v1, then u0*u1 converts to v0*v1 with the product of the factors, and u0^n to v0^n with the power.", "quantifier": "for all units and exponents", "why_tests_cant": "Compound expressions are unbounded and the pairing of terms is greedy.", "anchors": ["src/goats/core/metric.py: Conversion._resolve_terms, Conversion._convert_as_expressions"]}
{"id": "C78", "title": "Listed dimensions agree with canonical units", "statement": "For each quantity and metric system, the listed dimension is the dimension of the canonical unit.", "quantifier": "for every quantity in the table and both systems", "why_tests_cant": "The whole table, including quantities defined by formulas in other quantities.", "anchors": ["src/goats/core/metric.py: _QUANTITIES, CANONICAL, Dimension.fromunit"]}
{"id": "C79", "title": "Units that compare equal are interchangeable", "statement": "Units that compare equal have the same dimension and a conversion factor of one; symbolically equal units compare equal.", "quantifier": "for every pair of unit expressions", "why_tests_cant": "Infinitely many pairs.", "anchors": ["src/goats/core/metric.py: Unit.__eq__"]}
{"id": "C80", "title": "Every base unit belongs to a known quantity", "statement": "The quantity of every base unit is in the table of quantities, so its dimension can be determined.", "quantifier": "for every base unit", "why_tests_cant": "Needs the whole table.", "anchors": ["src/goats/core/metric.py: _units, _QUANTITIES"]}
{"id": "C81", "title": "Unknown quantities are reported", "statement": "Looking up the dimension or unit of a quantity succeeds for known quantities and raises KeyError for unknown ones.", "quantifier": "for every string", "why_tests_cant": "All strings; recursion through formulas must terminate.", "anchors": ["src/goats/core/metric.py: _Property, CANONICAL"]}
{"id": "C82", "title": "Every unit can be used in unit expressions", "statement": "The symbol and the name of every unit, with or without prefix, can be used as a unit expression.", "quantifier": "for every named unit", "why_tests_cant": "The whole product of prefixes and units through the expression parser.", "anchors": ["src/goats/core/metric.py: Unit.__new__, NamedUnit", "src/goats/core/symbolic.py: Parser"]}
{"id": "C83", "title": "The factor between compatible units is the ratio of their magnitudes", "statement": "Assign to each named unit its magnitude, as determined by prefixes and declared conversions. The factor for two unit expressions is the ratio of their magnitudes.", "quantifier": "for every pair of convertible unit expressions", "why_tests_cant": "Infinitely many expressions, with several algorithms tried one after another.", "anchors": ["src/goats/core/metric.py: Conversion"]}
{"id": "C84", "title": "Equal unit expressions convert alike", "statement": "The result of a conversion does not depend on how the unit expressions are written.", "quantifier": "for all spellings of two unit expressions", "why_tests_cant": "Infinitely many spellings.", "anchors": ["src/goats/core/metric.py: Conversion"]}
{"id": "C85", "title": "Declared conversions cohere with the defining relations of units", "statement": "The declared factors respect the products that define derived units (e.g. F = C/V, Wb = T m^2).", "quantifier": "for every value of pi and every relation among units in the table", "why_tests_cant": "Consistency is an algebraic identity, not a numerical sample.", "anchors": ["src/goats/core/metric.py: CONVERSIONS"]}
{"id": "C86", "title": "Listed dimensions cohere with the defining products of derived units", "statement": "The dimension of a product of units that defines a derived unit is the listed dimension of that unit (e.g. V/A and ohm).", "quantifier": "for every derived unit of both systems", "why_tests_cant": "Needs the whole table.", "anchors": ["src/goats/core/metric.py: _QUANTITIES, Dimension.fromunit"]}
{"id": "C87", "title": "Equality of axis names is an equivalence consistent with hashing", "statement": "Two Dimensions objects compare equal iff they list the same names in the same order; equality is reflexive, symmetric and transitive, and equal objects have equal hashes.", "quantifier": "for all lists of axis names", "why_tests_cant": "Unbounded lists, pairs and triples.", "anchors": ["src/goats/core/metadata.py: Dimensions.__eq__, Dimensions.__hash__"]}
{"id": "C88", "title": "Sums require the same axes", "statement": "Adding two arrays is accepted iff their axes are the same, in the same order; the result has these axes.", "quantifier": "for all pairs of lists of axis names", "why_tests_cant": "All permutations and lengths.", "anchors": ["src/goats/core/metadata.py: Dimensions.__add__"]}
{"id": "C89", "title": "A copy of an operation behaves like the operation", "statement": "Operation.copy gives an object that equals the operation and supports the same operand types.", "quantifier": "for all histories of declarations", "why_tests_cant": "Unbounded histories.", "anchors": ["src/goats/core/metadata.py: Operation.copy, Operation.__eq__"]}
{"id": "C90", "title": "Operands agree iff their attributes are equal wherever present", "statement": "Operands.agree(names) returns whether, for every name, all operands that have the attribute have equal values of it; strict mode additionally requires that all have it.", "quantifier": "for all lists of operands and names", "why_tests_cant": "Combinations of presence and values are unbounded.", "anchors": ["src/goats/core/metadata.py: Operands.agree, Operands.find"]}
{"id": "C91", "title": "The name of a computed quantity denotes the computation", "statement": "When a quantity is computed by multiplying or dividing named quantities, each alias of its name, read as an expression, denotes the product or quotient of what the aliases of the operands denote.", "quantifier": "for all names that are well-formed expressions", "why_tests_cant": "Names are built up by nested computations of any depth.", "anchors": ["src/goats/core/metadata.py: Name._implement", "src/goats/core/symbolic.py: Expression"]}
{"id": "C92", "title": "Interpolating to a target gives the piecewise-linear value", "statement": "Interpolating an array to a target along a reference gives the array value where the reference equals the target, the value of the straight line between the neighbouring points in between, and the nearest end outside of the range when an axis is given; a two-dimensional reference gives one such value per row.", "quantifier": "for every ascending reference array, array of values and target", "why_tests_cant": "All references, values and targets, including targets that coincide with one of many reference values.", "anchors": ["src/goats/core/interpolation.py: apply", "src/goats/core/interpolation.py: _apply_interp1d"]}
{"id": "C93", "title": "Arrays with different sizes along a common axis are not multiplied", "statement": "Multiplying or dividing two variable quantities that share an axis name but differ in size along it raises an exception; no values are dropped.", "quantifier": "for all pairs of arrays that share an axis name", "why_tests_cant": "All sizes and both orders of operands.", "anchors": ["src/goats/core/variable.py: Quantity._ufunc_hook"]}
{"id": "C94", "title": "Lists of positions combine with other subscripts", "statement": "Subscripting a variable with lists of positions along some axes and integers or slices along the others selects along each axis exactly the positions that its own subscript selects.", "quantifier": "for every shape and every tuple of lists, integers and slices", "why_tests_cant": "All mixtures of subscripts.", "anchors": ["src/goats/core/variable.py: Array._normalize_indices", "src/goats/core/physical.py"]}
{"id": "C95", "title": "Blanks around the equals sign do not change a parameter", "statement": "White space before or after the equals sign of a configuration line does not change which parameter the line sets, nor its value.", "quantifier": "for every key, value and white space", "why_tests_cant": "All keys, values and blanks.", "anchors": ["src/goats/eprem/runtime.py: ConfigFile._parse", "src/goats/core/iotools.py: strip_inline_comments"]}
{"id": "C96", "title": "Comment markers given when opening a configuration apply to its parameter values", "statement": "The values of the parameters of an interface opened with given comment markers are those of the configuration file read with these markers.", "quantifier": "for every file and every list of markers", "why_tests_cant": "All files and markers.", "anchors": ["src/goats/eprem/runtime.py: Interface.__init__, ConfigFile._parse"]}
{"id": "C97", "title": "Every argument of a computed quantity receives the dependency of its own name", "statement": "When a computed quantity is evaluated, each positional argument of its function is the value of the dependency with that argument's name.", "quantifier": "for every function signature and every set of dependencies", "why_tests_cant": "All orders and kinds of dependencies.", "anchors": ["src/goats/core/computed.py: Method.parse"]}
{"id": "C98", "title": "Requesting a computed quantity in another unit converts its values", "statement": "Subscripting a computed quantity with another compatible unit changes the unit and converts the values, so that the physical values stay the same.", "quantifier": "for every quantity and every compatible unit", "why_tests_cant": "All values and units.", "anchors": ["src/goats/core/computed.py: Quantity.__getitem__"]}
{"id": "C99", "title": "A misspelled request says so", "statement": "Requesting from an observer a name that is one edit away from an available name raises SpellingError with a suggestion, not a bare KeyError.", "quantifier": "for every set of available names and every unknown, nonempty name one edit away from one of them", "why_tests_cant": "Tests try one misspelling of one name on a fresh observer; the state of the spell checker and the form in which names reach it are not covered.", "anchors": ["src/goats/core/observer.py:65-101", "src/goats/core/spelling.py:27-110"]}
{"id": "C100", "title": "A constraint means the same under every alias", "statement": "Constraining an observation by any alias of an axis or parameter has the same effect on values and indices as constraining it by any other alias.", "quantifier": "for every alias group, every pair of its names, every value and every history", "why_tests_cant": "Tests constrain by canonical names; every pair of aliases over every history cannot be sampled.", "anchors": ["src/goats/core/observing.py:305-366", "src/goats/eprem/__init__.py:556-599"]}
{"id": "C101", "title": "The unit of a composed observable is composed of the units of its parts", "statement": "The unit reported for a symbolic composition of names is the product of the units of the named quantities, each raised to the exponent with which the name enters.", "quantifier": "for every composition of names with known units", "why_tests_cant": "Tests use quotients in which every leading exponent is one; the claim is about all expressions.", "anchors": ["src/goats/core/observing.py:385-415"]}
{"id": "C102", "title": "Updating an observer keeps its metric system", "statement": "An observer created for a given metric system shows quantities in that system, also after its source or configuration was updated.", "quantifier": "for every sequence of updates of source and configuration", "why_tests_cant": "The state carried across updates is not visible in a test of a single update in the default system.", "anchors": ["src/goats/eprem/__init__.py:649-704"]}
{"id": "C103", "title": "An updated observer shows what a new one would", "statement": "After an update of source or configuration an observer shows the same data, with the same configuration, as a new observer created with the same source, configuration and system; if creation would fail, the update fails and the observer is unchanged.", "quantifier": "for every file system and every sequence of updates", "why_tests_cant": "Depends on which files exist in which directories and on cached paths; tests use a single data directory.", "anchors": ["src/goats/eprem/__init__.py:649-762"]}
{"id": "C104", "title": "Observing a composition gives the composition of the observed parts", "statement": "The quantity observed for a symbolic composition of names is the product of the quantities observed for the names, each raised to the exponent with which it enters.", "quantifier": "for every composition of observable names", "why_tests_cant": "Tests observe single quantities and a few quotients.", "anchors": ["src/goats/eprem/__init__.py:395-411"]}
{"id": "C105", "title": "A read-only path refuses to be written", "statement": "Calling write_bytes, write_text, or open in mode w on a path created as read-only raises an exception instead of writing.", "quantifier": "for every existing path and every documented way of writing", "why_tests_cant": "Tests read through such paths; that no way of writing gets through is a universal claim.", "anchors": ["src/goats/core/iotools.py:57-92"]}
{"id": "C106", "title": "Datasets of unsupported file types are rejected on creation", "statement": "Creating the viewers of a dataset from a path with an unknown file type raises an exception, so that every dataset object in existence can be read.", "quantifier": "for every table of supported types and every other file type", "why_tests_cant": "Tests create datasets of supported types only.", "anchors": ["src/goats/core/datafile.py:138-188"]}
{"id": "C107", "title": "Declared electromagnetic conversions obey the laws that define the units", "statement": "The declared factors between SI and Gaussian units (coulomb, ampere, volt, ohm, siemens, henry, farad, tesla, weber) are those that follow from Coulomb's law and the definition of work.", "quantifier": "for every value of pi and every pair of factors that satisfy the two laws", "why_tests_cant": "A test compares with numbers copied from the same source; that all factors follow from two physical laws is an algebraic claim.", "anchors": ["src/goats/core/metric.py:723-765"]}
{"id": "C108", "title": "Arguments convert to the number they hold", "statement": "A single-valued physical argument converts to float unchanged and to int by dropping the fraction; an integer-like option converts to its integer; arguments with several values are rejected.", "quantifier": "for every number, unit, string and list of values", "why_tests_cant": "Tests convert a few numbers; strings of every length and all numbers cannot be sampled.", "anchors": ["src/goats/core/operational.py:141-167"]}
{"id": "C109", "title": "Indexing an argument agrees with iterating it", "statement": "For every argument of length n, the item at index i with -n <= i < n is the member at that place, and every other index raises IndexError.", "quantifier": "for every argument and every integer index", "why_tests_cant": "Out-of-range and negative indices of every size cannot be enumerated.", "anchors": ["src/goats/core/operational.py:169-198"]}
{"id": "C110", "title": "Equality of arguments is symmetric and includes the unit", "statement": "Two arguments are equal iff their values and units are equal; the answer does not depend on the order of the operands.", "quantifier": "for every pair of arguments", "why_tests_cant": "Universal claim over pairs; the asymmetric case arises only when exactly one operand has a unit.", "anchors": ["src/goats/core/operational.py:216-223"]}
{"id": "C111", "title": "Every documented option is accepted", "statement": "Strings, integers and iterables of these are accepted as options without a unit; other numbers require a unit.", "quantifier": "for every value of these kinds, nested to any depth", "why_tests_cant": "Tests try scalars only.", "anchors": ["src/goats/core/operational.py:40-96", "src/goats/core/iterables.py:1506-1594"]}
{"id": "C112", "title": "Velocity components along and across the field", "statement": "v_para and v_perp are the components of the velocity along and across the magnetic field: the velocity is v_para times the unit vector of the field plus a vector orthogonal to the field of length v_perp, and the squares add up to the squared speed.", "quantifier": "for every velocity and every non-zero field", "why_tests_cant": "Geometric identity over all vectors; tests compare a few numbers.", "anchors": ["src/goats/core/computed.py:110-135"]}
{"id": "C113", "title": "Flow angle is the angle between field and flow", "statement": "flow_angle is the angle in [0, pi] whose cosine is B·V / (|B| |V|).", "quantifier": "for every pair of non-zero vectors", "why_tests_cant": "Depends on the scale of the vectors: test data with unit speeds cannot show the error.", "anchors": ["src/goats/core/computed.py:92-107"]}
{"id": "C114", "title": "Cartesian and spherical coordinates round trip", "statement": "Converting (x, y, z) to (r, θ, φ) and back gives the same point, for single points and arrays; θ lies in [0, pi] and r is the distance from the origin.", "quantifier": "for every point", "why_tests_cant": "Continuum of points with special cases on the axes and near the origin.", "anchors": ["src/goats/core/numerical.py:177-228", "src/goats/core/numerical.py:231-277", "src/goats/core/computed.py:30-56"]}
{"id": "C115", "title": "Azimuth lies in [0, 2 pi)", "statement": "The azimuth returned by xyz2rtp lies in [0, 2 pi) and is the angle whose cosine and sine are proportional to x and y; it is 0 for points on the z axis, as documented.", "quantifier": "for every point", "why_tests_cant": "Special cases on a set of measure zero.", "anchors": ["src/goats/core/numerical.py:216-228"]}
{"id": "C116", "title": "Divergence from the continuity equation", "statement": "div_v is exact for exponentially varying densities on any increasing times, does not depend on the unit of density, and is positive where the density falls.", "quantifier": "for every number of times and every spacing", "why_tests_cant": "Universal over series lengths and spacings.", "anchors": ["src/goats/core/computed.py:138-168"]}
{"id": "C117", "title": "Rigidity satisfies the relativistic relation", "statement": "With p = rigidity × charge, (pc)² + (mc²)² = (E + mc²)²; rigidity increases with energy.", "quantifier": "for all non-negative energies and masses and all non-zero charges", "why_tests_cant": "Identity over a continuum.", "anchors": ["src/goats/core/computed.py:171-188"]}
{"id": "C118", "title": "Mean free path scales as documented", "statement": "At 1 au and 1 MeV the mean free path is the reference value; it scales with the radial power of distance and the rigidity power of rigidity.", "quantifier": "for all distances, energies, species and powers", "why_tests_cant": "Universal scaling law; tests fix powers.", "anchors": ["src/goats/core/computed.py:191-209"]}
{"id": "C119", "title": "Average energy lies between the extreme kinetic energies", "statement": "The average energy of a non-negative distribution lies between m v²/2 at the least and the greatest speed.", "quantifier": "for every number of increasing speeds and every non-negative distribution that is not zero", "why_tests_cant": "Inequality over arbitrary distributions.", "anchors": ["src/goats/core/computed.py:254-294"]}
{"id": "C120", "title": "Isotropic distribution is an average", "statement": "The isotropic distribution lies between the bounds of the distribution over pitch angles, is linear, and leaves isotropic distributions unchanged.", "quantifier": "for every number of pitch angles and every distribution", "why_tests_cant": "Universal over distributions.", "anchors": ["src/goats/core/computed.py:297-307"]}
{"id": "C121", "title": "Integral flux of a positive flux is not negative", "statement": "The integral flux of a positive differential flux is not negative.", "quantifier": "for every ascending series of energies and every minimum energy", "why_tests_cant": "The sign of the quadrature weights depends on the spacing of energies; tests use regular spacings.", "anchors": ["src/goats/core/computed.py:352-402"]}
{"id": "C122", "title": "Fluence integrates the flux over time", "statement": "The fluence of a steady flux is the flux times the duration; fluence is linear in the flux, exact for fluxes affine in time at any number of times, and for fluxes quadratic in time exact at odd numbers of times and in excess by c (h³ + k³) / 12 at even numbers, where c is the coefficient of t² and h and k are the first and the last interval.", "quantifier": "for every number of increasing times, however spaced", "why_tests_cant": "Universal over spacings and lengths; the rule differs between odd and even numbers of times.", "anchors": ["src/goats/core/computed.py:320-326"]}
{"id": "C123", "title": "Integral flux is defined for every minimum energy", "statement": "For every minimum energy the integral flux is a number, obtained from the minimum energy and the energies above it; it is 0 above the greatest energy.", "quantifier": "for every ascending series of energies and every minimum energy", "why_tests_cant": "Boundary behaviour at the last energy.", "anchors": ["src/goats/core/computed.py:352-402"]}
{"id": "C124", "title": "Interpolation to the minimum energy is a power law", "statement": "The flux interpolated at the minimum energy is exact for power laws, and at an energy of the series nothing is changed.", "quantifier": "for every ascending series of positive energies", "why_tests_cant": "Universal over exponents and series.", "anchors": ["src/goats/core/computed.py:380-402"]}
{"id": "C125", "title": "Acceleration needs a change of the flow", "statement": "The acceleration rate is zero in uniform flow, never negative, and for a change of speed along one axis is the change over the sum of the diffusion lengths.", "quantifier": "for every number of shells and all parameters", "why_tests_cant": "Universal over shells and parameters.", "anchors": ["src/goats/core/computed.py:212-251"]}
{"id": "C126", "title": "Flux of protons", "statement": "The differential flux of protons with kinetic energy m v²/2 is v²/m times the distribution, linear in the distribution.", "quantifier": "for all speeds and distributions", "why_tests_cant": "Identity over a continuum.", "anchors": ["src/goats/core/computed.py:310-317"]}
{"id": "C127", "title": "Every packaged parameter has the user's value or its documented default", "statement": "For every parameter in the packaged database, the runtime returns the value in the user's configuration file if there is one, and otherwise the documented default; defaults that refer to other parameters follow those parameters, including values that the user has changed.", "quantifier": "for every configuration file with plain values and every table of constants", "why_tests_cant": "115 parameters with cross references, times all configuration files.", "anchors": ["src/goats/eprem/runtime.py:550-760", "src/goats/eprem/runtime.json"]}
{"id": "C128", "title": "Packaged defaults are physical in their declared units", "statement": "In the unit that the interface attaches to it, every default speed is below the speed of light, every default angle lies in a full turn, every default energy is positive, and the default rotation of the Sun takes days or weeks.", "quantifier": "for every configuration file that leaves the parameter unset", "why_tests_cant": "The unit tables and the defaults live in different files; the claim relates the two through conversion for every configuration.", "anchors": ["src/goats/eprem/runtime.py:1003-1308", "src/goats/eprem/runtime.json"]}
{"id": "C129", "title": "Packaged constants have the values of their C definitions", "statement": "Every constant of the packaged baseTypes.h has the value of its definition in C, with literals in double precision and exact arithmetic.", "quantifier": "for every packaged constant and every consistent assignment of values", "why_tests_cant": "Tests compare a few constants to a tolerance; the claim is equality with the semantics of the expressions.", "anchors": ["src/goats/eprem/runtime.py:100-235", "src/goats/eprem/runtime.json"]}
{"id": "C130", "title": "Constants defined by products and quotients of others evaluate to them", "statement": "Looking up a constant whose definition is built from numerals and other constants by products, quotients and brackets terminates and gives the value of the definition in ordinary arithmetic.", "quantifier": "for every acyclic table of definitions", "why_tests_cant": "Unbounded depth of references and of expressions.", "anchors": ["src/goats/eprem/runtime.py:188-225"]}
{"id": "C131", "title": "Reading a header file finds every constant", "statement": "Reading a header file gives every defined constant the text of its last definition, and no other constant.", "quantifier": "for every header file", "why_tests_cant": "All texts, names and layouts.", "anchors": ["src/goats/eprem/runtime.py:60-97, 176-178", "src/goats/core/iotools.py: TextFile.extract"]}
{"id": "C132", "title": "Reading the source describes every parameter as in its call", "statement": "Reading a source file describes each parameter as in the last call that reads it: its type, its name in configuration files, its default, and its bounds or size.", "quantifier": "for every source file of such calls", "why_tests_cant": "All texts, argument lists and layouts.", "anchors": ["src/goats/eprem/runtime.py:228-300, 404-440"]}
{"id": "C133", "title": "Array defaults are replaced by the declared values", "statement": "A parameter whose default is a declared C array gets the values of the array as its default, and otherwise keeps its description.", "quantifier": "for every source file", "why_tests_cant": "All texts; order and number of declarations.", "anchors": ["src/goats/eprem/runtime.py:303-345, 404-440"]}
{"id": "C134", "title": "The database written from the source reads back unchanged", "statement": "Standardising parsed parameters, writing them as a database and reading it back gives the same definitions.", "quantifier": "for every collection of parsed parameters", "why_tests_cant": "All collections.", "anchors": ["src/goats/eprem/runtime.py:142-165, 389-455"]}
{"id": "C135", "title": "Regenerating defaults records the current source", "statement": "After generating defaults from a source, the database describes the parameters as in that source; in mode append, parameters that are only in the old database are kept.", "quantifier": "for all old databases and sources", "why_tests_cant": "All pairs of databases.", "anchors": ["src/goats/eprem/runtime.py:1627-1650"]}
{"id": "C136", "title": "No name of a parameter is ambiguous", "statement": "Every parameter is found under its own name and under all of its documented aliases, always with its own value, and no name leads to two parameters, whatever the order in which the interface enumerates the parameters.", "quantifier": "for every collection of values and every order of enumeration", "why_tests_cant": "The order is that of a Python set and changes from run to run; merging alias groups could join two parameters.", "anchors": ["src/goats/eprem/runtime.py:826-853, 1508-1530", "src/goats/core/reference.py", "src/goats/core/aliased.py"]}
{"id": "C137", "title": "Packaged constants agree with the table of units and their descriptions", "statement": "AU, EV, MEV and GEV equal the factors of the library's own unit conversion; TAU is the light time over AU, DAY and MAS_TIME_CONVERT are times in days, MZERO is the rest energy of MP, and RSAU is the number of solar radii per au.", "quantifier": "for every consistent assignment of values to the constants", "why_tests_cant": "Relates two independent tables through exact conversion factors.", "anchors": ["src/goats/eprem/runtime.py:1311-1507", "src/goats/core/metric.py"]}
{"id": "C138", "title": "Comparing configuration files shows each file's own values", "statement": "Comparing the arguments in configuration files shows, for every parameter (or every parameter on which files differ), the default and the value in each of the files, wherever the files are.", "quantifier": "for every set of existing files, current directory and set of parameters", "why_tests_cant": "All directory layouts and contents.", "anchors": ["src/goats/eprem/runtime.py:1532-1624"]}
{"id": "C139", "title": "Values respect the declared bounds", "statement": "The value of a parameter lies between the minimum and the maximum that its declaration states.", "quantifier": "for every parameter and every configuration file", "why_tests_cant": "All configuration files; bounds may refer to other parameters.", "anchors": ["src/goats/eprem/runtime.py:550-760", "src/goats/eprem/runtime.json"]}
{"id": "C140", "title": "Axis values of an observation belong to the observed points", "statement": "The axis values reported with an observation are the values of that axis at the points that were selected, in the same order and number.", "quantifier": "for every coordinate axis, every unit and every request (nothing, slice, range, integers, measured values)", "why_tests_cant": "All axes and requests; the mismatch shows only when values and points are compared.", "anchors": ["src/goats/eprem/__init__.py:209-262", "src/goats/core/index.py:16-62"]}
{"id": "C141", "title": "A target value selects the physically nearest point", "statement": "A target value on an axis, in any unit of the right kind, selects the axis point physically nearest to it; targets in units of another kind are rejected, and a request that selects no points does not select all of them.", "quantifier": "for every axis, unit and list of targets", "why_tests_cant": "All axes, units and targets.", "anchors": ["src/goats/eprem/__init__.py:225-262", "src/goats/core/axis.py:40-48"]}
{"id": "C142", "title": "Energy targets refer to the observed species", "statement": "When quantities of a species are observed at given energies, the points selected are nearest among the energies of that species.", "quantifier": "for every energy grid, species and list of targets", "why_tests_cant": "Grids of every shape; tests use species that share one grid.", "anchors": ["src/goats/eprem/__init__.py:186-206"]}
{"id": "C143", "title": "Species are selected by symbol or number", "statement": "A species requested by its symbol is the first one with that symbol, one requested by number is the one with that number; an unknown symbol is rejected with ValueError; no request selects all.", "quantifier": "for every list of symbols and every request", "why_tests_cant": "All lists of species and requests.", "anchors": ["src/goats/eprem/__init__.py:209-223"]}
{"id": "C144", "title": "Pitch angles off the grid are interpolated", "statement": "Observing at a pitch angle between grid values gives the linearly interpolated value, as for other coordinates.", "quantifier": "for every pitch-angle grid, values and targets", "why_tests_cant": "All grids and targets.", "anchors": ["src/goats/eprem/__init__.py:449-538", "src/goats/core/interpolation.py:84-141"]}
{"id": "C145", "title": "Interpolation to a time and radius is exact for affine quantities", "statement": "A quantity that is an affine function of radius (and of time) is observed at any time and radius inside the grid as the value of that function there.", "quantifier": "for every grid of times, shells and moving radii, every affine quantity, every time and radius inside", "why_tests_cant": "All grids, functions and targets.", "anchors": ["src/goats/eprem/__init__.py:455-538", "src/goats/core/interpolation.py:84-141"]}
{"id": "C146", "title": "An observation has one entry for each requested time and place", "statement": "The observed array has one row for each requested time and one entry in it for each requested shell, or for the requested radius.", "quantifier": "for every grid, quantity and request", "why_tests_cant": "All combinations of requests on and off the grid.", "anchors": ["src/goats/eprem/__init__.py:383-393", "src/goats/eprem/__init__.py:437-538"]}
{"id": "C147", "title": "The radius of an observation is the requested length", "statement": "A radius in the constraints is a length, converted to the unit of the metric system; values that are not lengths are rejected; several radii can be requested.", "quantifier": "for every unit, metric system and list of values", "why_tests_cant": "All units and values.", "anchors": ["src/goats/eprem/__init__.py:479-491", "src/goats/eprem/__init__.py:591-606", "src/goats/core/physical.py:201-214"]}
{"id": "C148", "title": "Targets outside of the simulated range are rejected", "statement": "Times and radii outside of the range covered by the dataset are rejected rather than replaced by others.", "quantifier": "for every dataset, time and radius outside its range", "why_tests_cant": "All datasets and targets.", "anchors": ["src/goats/eprem/__init__.py:455-538", "src/goats/core/interpolation.py:102-141"]}
{"id": "C149", "title": "Computed arrays hold at each position the value for that time, shell, species and energy", "statement": "The array a computed quantity returns has one entry for each time, shell, species and energy it depends on, and that entry is the value of the defining formula for the inputs at that time, shell, species and energy.", "quantifier": "for every number of times, shells, species, energies and pitch angles and all values", "why_tests_cant": "numpy aligns axes from the right, so that an error shows only for particular combinations of sizes; all sizes and values.", "anchors": ["src/goats/core/computed.py:30-160", "src/goats/core/computed.py:212-326", "src/goats/core/computed.py:352-378"]}
{"id": "C150", "title": "Rigidity and mean free path of each species use its own mass and charge", "statement": "For several species, the rigidity and the mean free path of each species are computed from the mass and charge of that species.", "quantifier": "for every number of species and energies, all masses and charges", "why_tests_cant": "All combinations of sizes.", "anchors": ["src/goats/core/computed.py:171-209"]}
{"id": "C151", "title": "Integral flux of a species does not depend on the other species", "statement": "The integral flux of a species is the same whether or not the dataset contains other species.", "quantifier": "for all energies, fluxes and minimum energies", "why_tests_cant": "All energy grids of several species.", "anchors": ["src/goats/core/computed.py:352-400"]}
{"id": "C152", "title": "The physical value of a computed quantity does not depend on the metric system", "statement": "Computing a quantity from inputs in the units of one metric system, and converting the result to another, gives the value computed from the inputs converted to the other system.", "quantifier": "for all inputs and all ratios of units", "why_tests_cant": "All values and ratios of units.", "anchors": ["src/goats/core/computed.py:30-326"]}
{"id": "C153", "title": "Declared dimensions describe the computed array", "statement": "A computed array has one axis for each of the dimensions reported for it, in the reported order and with the size of that dimension.", "quantifier": "for every dataset, all sizes of dimensions and every registered quantity", "why_tests_cant": "All sizes and orders of dimensions.", "anchors": ["src/goats/core/computed.py:24-378", "src/goats/core/observing.py", "src/goats/eprem/__init__.py"]}
{"id": "C154", "title": "Every observable quantity has units in both metric systems and converts between them", "statement": "Each quantity with a reference entry has an MKS and a CGS unit, and values convert from one to the other and back by the factor that belongs to the dimension of the quantity.", "quantifier": "for every quantity with a reference entry", "why_tests_cant": "Conversions are found by search through tables; the property concerns all quantities and both directions.", "anchors": ["src/goats/core/reference.py", "src/goats/core/metric.py:700-760"]}
{"id": "C155", "title": "The norm of a unit replaces each name by the canonical unit of its quantity", "statement": "Unit(u).norm[system] exists for every valid unit and is the unit that results from replacing each named unit by the canonical unit of the quantity that it measures in that system, without numerical coefficient.", "quantifier": "for every unit made of known names with integer exponents, in any order and with any coefficient, for both systems and every recursion limit", "why_tests_cant": "The norm is computed through strings, two tables and repeated parsing; all products of units.", "anchors": ["src/goats/core/metric.py:2009-2038", "src/goats/core/metric.py:824-851"]}
{"id": "C156", "title": "Normalizing a unit twice gives the same unit", "statement": "The norm of the norm of a unit in the same metric system is that norm.", "quantifier": "for every unit made of known names with integer exponents and both systems", "why_tests_cant": "All products of units.", "anchors": ["src/goats/core/metric.py:2009-2038"]}
{"id": "C157", "title": "The norm in a system does not depend on a previous change of system", "statement": "Normalizing a unit in one system and the result in another gives the norm of the unit in the other.", "quantifier": "for every unit made of known names with integer exponents and all pairs of systems", "why_tests_cant": "All products of units.", "anchors": ["src/goats/core/metric.py:2009-2038"]}
{"id": "C158", "title": "Norms respect products", "statement": "The norm of a product of units is the product of their norms.", "quantifier": "for all pairs of units made of known names with integer exponents", "why_tests_cant": "All pairs of units.", "anchors": ["src/goats/core/metric.py:2009-2038", "src/goats/core/symbolic.py:1301-1332"]}
{"id": "C159", "title": "A metric system finds the unit that was asked for", "statement": "System.get_unit gives the norm of a given unit, otherwise the canonical unit of a quantity with the given dimension, otherwise the canonical unit of the given quantity; equal dimensions give the same unit however they are written; if there is none, it raises SearchError.", "quantifier": "for every combination of arguments, all dimensions and both systems", "why_tests_cant": "All dimensions and spellings; the search runs over a table.", "anchors": ["src/goats/core/metric.py:2669-2765"]}
{"id": "C160", "title": "The unit that a metric system finds for a dimension has that dimension", "statement": "The unit that System.get_unit(dimension=d) returns has the dimension d in that system.", "quantifier": "for all dimensions and both systems", "why_tests_cant": "All dimensions; relates a table to the dimensions computed from units.", "anchors": ["src/goats/core/metric.py:2669-2765"]}
{"id": "C161", "title": "Consistency of units is an equivalence that guarantees a conversion", "statement": "u | v is true exactly if the units have the same dimension in a metric system or a conversion factor; every unit is consistent with itself, and u | v equals v | u.", "quantifier": "for all pairs of units", "why_tests_cant": "All pairs of units; symmetry relates two executions.", "anchors": ["src/goats/core/metric.py:2254-2274"]}
{"id": "C162", "title": "Values take a new unit if and only if it is consistent", "statement": "Changing the unit of a value multiplies it by the conversion factor if the units measure the same kind of quantity; otherwise it raises ValueError.", "quantifier": "for all pairs of units and values", "why_tests_cant": "All pairs of units.", "anchors": ["src/goats/core/measurable.py:214-236", "src/goats/core/metric.py:2254-2274"]}
{"id": "C163", "title": "Equivalence of quantities means equal dimensions in each system", "statement": "Two metric quantities are equivalent (q | r) exactly if they have the same dimension in every metric system; this is an equivalence relation.", "quantifier": "for all quantities whose canonical units have dimensions", "why_tests_cant": "All triples of quantities.", "anchors": ["src/goats/core/metric.py:2593-2610"]}
{"id": "C164", "title": "Conversion within a quantity", "statement": "Quantity(q).convert(u).to(v) gives the factor between two units of the quantity q, where the name of a system stands for the canonical unit of q; converting back is the inverse; units of other quantities are rejected.", "quantifier": "for all quantities, units and names of systems", "why_tests_cant": "All combinations of quantities and units.", "anchors": ["src/goats/core/metric.py:1874-1921", "src/goats/core/metric.py:2564-2570"]}
{"id": "C165", "title": "The name of a metric system can be given for a unit, in any case", "statement": "object[system] is the object in the norm of its unit in that system; names of systems are recognized in upper and lower case.", "quantifier": "for every object, unit and spelling of a system", "why_tests_cant": "All spellings and units, for five implementations.", "anchors": ["src/goats/core/measurable.py:197-211", "src/goats/core/variable.py:571-600", "src/goats/core/index.py:147-186", "src/goats/core/axis.py:130-163", "src/goats/core/observing.py:515-524"]}
{"id": "C166", "title": "Changing the unit works the same way for all kinds of objects", "statement": "The same change of unit gives the same values in the same unit for measurable quantities, variables and arrays of axis values, and the same unit for axes and observable quantities; each of them refuses an inconsistent unit with ValueError.", "quantifier": "for every object, unit and requested unit", "why_tests_cant": "Relates five implementations on all inputs.", "anchors": ["src/goats/core/measurable.py:197-236", "src/goats/core/variable.py:571-600", "src/goats/core/index.py:147-186", "src/goats/core/axis.py:130-163", "src/goats/core/observing.py:515-524"]}
{"id": "C167", "title": "What a unit string denotes does not depend on earlier calls", "statement": "Unit(arg) is the unit that arg denotes, whatever units and named units the process created before; it fails only if arg cannot be read.", "quantifier": "for every history of calls of Unit and NamedUnit, and every argument", "why_tests_cant": "The result depends on a process-wide cache, and thereby on all earlier calls.", "anchors": ["src/goats/core/metric.py:1928-1990", "src/goats/core/metric.py:1066-1108"]}
{"id": "C168", "title": "One object for each unit", "statement": "Two calls of Unit return the same object if and only if their arguments denote the same unit, for example m / s, m s^-1 and s^-1 m.", "quantifier": "for every history before, between the two calls, and all pairs of arguments", "why_tests_cant": "All pairs of spellings and all histories.", "anchors": ["src/goats/core/metric.py:1928-1990"]}
{"id": "C169", "title": "A unit string is parsed exactly once", "statement": "Once Unit(s) was called, further calls with s neither parse it nor create an object.", "quantifier": "for every string and every history of calls", "why_tests_cant": "All histories; a statement about what does not happen.", "anchors": ["src/goats/core/metric.py:1928-1990"]}
{"id": "C170", "title": "Merging two aliased mappings", "statement": "In a | b every name has the value that it has in b, or in a if b does not have it. The result is again an aliased mapping: the aliases of a name all have its value, and every name counts once.", "quantifier": "for all pairs of aliased mappings", "why_tests_cant": "All pairs of mappings, with all ways in which their groups of names may overlap.", "anchors": ["src/goats/core/aliased.py:759-762", "src/goats/core/aliased.py:283-294"]}
{"id": "C171", "title": "Equality of aliased mappings", "statement": "Two aliased mappings are equal just if every name gives the same result in both, whatever the order of names and groups; an aliased mapping is equal to a dictionary just if the dictionary has the same names and values. Hence equality is an equivalence.", "quantifier": "for all pairs of mappings", "why_tests_cant": "A statement about all lookups in all pairs of mappings.", "anchors": ["src/goats/core/aliased.py:751-757"]}
{"id": "C172", "title": "Equal mappings stay equal", "statement": "If two aliased mappings are equal, they are equal after the same assignments, deletions and new aliases.", "quantifier": "for all pairs of mappings and all histories of updates", "why_tests_cant": "All histories of updates.", "anchors": ["src/goats/core/aliased.py:751-757", "src/goats/core/aliased.py:839-887"]}
{"id": "C173", "title": "Squeezing an aliased mapping", "statement": "If each entry of a mapping is a mapping with one key, then squeeze() makes every name give the only value of its entry, with the same aliases; otherwise nothing changes. With strict=True it raises TypeError just if two of the interior keys differ.", "quantifier": "for all mappings of mappings", "why_tests_cant": "All shapes of interior mappings.", "anchors": ["src/goats/core/aliased.py:646-675"]}
{"id": "C174", "title": "Copies, fromkeys and aliases", "statement": "A copy is equal to the original and has the same aliases. fromkeys(names, value) maps exactly the given names to value, with the names of a group as aliases. alias(key) lists exactly the other names of the entry.", "quantifier": "for all mappings, lists of names and keys", "why_tests_cant": "All mappings.", "anchors": ["src/goats/core/aliased.py:677-749", "src/goats/core/aliased.py:788-790"]}
{"id": "C175", "title": "Inverting a name map", "statement": "After inversion each canonical name gives the list of exactly those names that the map sent to it, and nothing else can be looked up. Iteration gives exactly the names that can be looked up, and a copy is the same map.", "quantifier": "for all name maps", "why_tests_cant": "All sets of definitions; a relation between two states of an object.", "anchors": ["src/goats/core/aliased.py:912-923", "src/goats/core/aliased.py:994-1007", "src/goats/core/aliased.py:1038-1040", "src/goats/core/iterables.py:561-570"]}
{"id": "C176", "title": "Comparing quantities", "statement": "For two quantities with the same unit, exactly one of <, == and > holds, as for their values, and <= and >= agree with them; the same holds for a quantity and a number. Quantities with different units are never equal, and cannot be ordered. Equality is an equivalence.", "quantifier": "for all quantities and numbers", "why_tests_cant": "All pairs and triples of values, units and names.", "anchors": ["src/goats/core/measurable.py: Quantified.__eq__, Quantified.implement", "src/goats/core/metadata.py: consistent, OperatorFactory.check"]}
{"id": "C177", "title": "A quantity created from a quantity", "statement": "Creating a quantity, scalar or vector from an existing quantity keeps its value, unit and name.", "quantifier": "for all quantities and classes", "why_tests_cant": "Every class with every kind of argument.", "anchors": ["src/goats/core/measurable.py: Quantity.__init__, Quantity.parse_attrs", "src/goats/core/physical.py: Quantity.__init__, Scalar.__init__, Vector.__init__"]}
{"id": "C178", "title": "Changing the unit changes nothing else", "statement": "q[unit] has the class, the physical value and the name of q, for every unit that is consistent with that of q.", "quantifier": "for all quantities and units", "why_tests_cant": "All units and values.", "anchors": ["src/goats/core/measurable.py: Quantity.__getitem__, Quantity.apply_unit", "src/goats/core/physical.py: Scalar, Vector"]}
{"id": "C179", "title": "Indexing follows Python", "statement": "For a vector, an assumption, a measurement or an expression with n members, v[i] is the member at i for 0 <= i < n and the member at n + i for -n <= i < 0, and IndexError is raised for all other i.", "quantifier": "for all lengths and indices", "why_tests_cant": "All indices, of which tests try few.", "anchors": ["src/goats/core/physical.py: Vector.__getitem__", "src/goats/core/measurable.py: Measurement.__getitem__", "src/goats/core/constant.py: Assumption.__getitem__", "src/goats/core/symbolic.py: Expression.__getitem__"]}
{"id": "C180", "title": "Single values", "statement": "A vector becomes a scalar, and an assumption a number, just if it has one value; value and unit are kept.", "quantifier": "for all vectors", "why_tests_cant": "All lengths.", "anchors": ["src/goats/core/physical.py: scalar", "src/goats/core/constant.py: Assumption._cast_to"]}
{"id": "C181", "title": "Arithmetic with numbers and unary operations", "statement": "Multiplying or dividing a quantity by a number scales its value and keeps its unit. Adding or subtracting a number, dividing a number by a quantity and raising to a quantity are refused. Signs, absolute values and rounding keep the unit.", "quantifier": "for all quantities and numbers", "why_tests_cant": "All values; also that nothing else is accepted.", "anchors": ["src/goats/core/measurable.py: Quantified.implement, Quantity.__init__", "src/goats/core/metadata.py: Unit, Operation.supports, Operator", "src/goats/core/algebraic.py: Quantity, Scalar"]}
{"id": "C182", "title": "Arithmetic is arithmetic of physical values", "statement": "If a sum, difference, product or quotient of quantities and numbers exists, then its physical value is the sum, difference, product or quotient of theirs. The usual laws hold for the results: the absolute value of a positive quantity is equal to it, and so is twice the negative.", "quantifier": "for all quantities, numbers and systems of units", "why_tests_cant": "A relation between all values and units.", "anchors": ["src/goats/core/measurable.py: Quantified.implement", "src/goats/core/metadata.py: Unit, Name._implement"]}
{"id": "C183", "title": "Equality of parameters", "statement": "Two sets of parameters, or a set of parameters and a list of names, are equal just if they contain the same names, in any order; a single parameter is equal to its name. Equality is an equivalence, and parameters can be used as keys of a mapping.", "quantifier": "for all lists of names", "why_tests_cant": "All pairs and triples of lists.", "anchors": ["src/goats/core/observing.py: Parameters.__init__, Parameters.__eq__, Parameters.__hash__"]}
{"id": "C184", "title": "Parameters of products and sums", "statement": "The parameters of a product or quotient are those of its factors, each once; the order of factors, grouping and repetition do not matter, whatever the order in which sets are iterated. A sum or difference is accepted just if its terms have the same parameters.", "quantifier": "for all sets of parameters and all orders of iteration", "why_tests_cant": "The order of iteration over a set of strings changes with every process.", "anchors": ["src/goats/core/observing.py: Parameters.merge, Parameters", "src/goats/core/metadata.py: identity"]}
{"id": "C185", "title": "Looking up parts of an observation", "statement": "observation[x] is the axis named x, if there is one with values; else the assumption named x, if there is one; else the same observation in unit x, which has the same axes and assumptions.", "quantifier": "for all observations and names", "why_tests_cant": "All combinations of axes, assumptions and units.", "anchors": ["src/goats/core/observing.py: Observation.__init__, Observation.__getitem__, Observation.parameters", "src/goats/core/observed.py: Quantity.__getitem__"]}
{"id": "C186", "title": "Equality of observations", "statement": "Two observations are equal just if their data, indices and assumptions are equal.", "quantifier": "for all pairs of observations", "why_tests_cant": "All pairs of observations.", "anchors": ["src/goats/core/observing.py: Observation.__eq__", "src/goats/core/observed.py: Quantity.__eq__"]}
{"id": "C187", "title": "Equality of observable quantities", "statement": "Two observable quantities are equal just if they have equal units, dimensions and parameters and refer to the same physical quantity; each observable quantity is equal to itself.", "quantifier": "for all pairs of observable quantities", "why_tests_cant": "All names, including products and quotients.", "anchors": ["src/goats/core/observing.py: Observable.__eq__, Context.get_parameters, Context.get_metadata"]}
{"id": "C188", "title": "An observation lists the assumptions it depends on", "statement": "The parameters of an observation are exactly the constants on which the observed values depend, directly or through the quantities from which they are computed.", "quantifier": "for all sets of variables, functions and constants, and all products of quantities", "why_tests_cant": "Dependence passes through any number of functions.", "anchors": ["src/goats/eprem/__init__.py: Application.get_observable, Application.compute, Application.get_dependency, Application._build, Application.observe"]}
{"id": "C189", "title": "Comparison of arrays", "statement": "The comparisons <, <=, > and >= of two arrays with units compare physical values at each position, or are refused; a comparison with a number does not depend on the unit in which the array is expressed; a != b is the negation of a == b.", "quantifier": "for all arrays and units", "why_tests_cant": "All pairs of units and values.", "anchors": ["src/goats/core/variable.py: Array.__array_ufunc__", "src/goats/core/metadata.py: Operation.evaluate, Operation.apply, OperatorFactory.implement", "src/goats/core/variable.py: Quantity.__init__"]}
{"id": "C190", "title": "Numpy functions of one argument", "statement": "The physical value of numpy.f(q), where it is accepted, is f of the physical value of q, for functions such as absolute, negative, sqrt and square.", "quantifier": "for all arrays, units and functions that scale with a power of their argument", "why_tests_cant": "All units, and all functions that numpy provides.", "anchors": ["src/goats/core/variable.py: Array.__array_ufunc__", "src/goats/core/metadata.py: OperatorFactory.implement, Operation.apply"]}
{"id": "C191", "title": "Arithmetic of arrays", "statement": "The physical value of a sum, difference, product, quotient or power of arrays, and of products and quotients with numbers, is the sum (and so on) of the physical values. All other functions of two arguments are refused, and so are sums with numbers, quotients of numbers by arrays, and arrays as exponents.", "quantifier": "for all arrays, numbers, units and functions", "why_tests_cant": "All units and values.", "anchors": ["src/goats/core/variable.py: Array.__array_ufunc__, Array._new_from_func", "src/goats/core/physical.py: Array.__array_ufunc__", "src/goats/core/metadata.py: Operation.evaluate, Operation.apply, OperatorFactory.implement"]}
{"id": "C192", "title": "Sums and extremes have a unit", "statement": "The result of numpy.sum, numpy.max, numpy.mean and the like of an array with a unit has this unit, or the result does not depend on the unit in which the array is expressed.", "quantifier": "for all arrays, units and functions", "why_tests_cant": "All functions that numpy provides.", "anchors": ["src/goats/core/variable.py: Array.__array_function__, Array._new_from_func, _squeeze, _mean"]}
{"id": "C193", "title": "Results in existing arrays", "statement": "x += y makes x the sum and changes no other variable. A numpy function with out=c stores its result in c.", "quantifier": "for all arrays, functions and sets of existing objects", "why_tests_cant": "All ways in which variables may share data.", "anchors": ["src/goats/core/variable.py: Array.__array_ufunc__, Array._array, Array._get_array, Array._load_array, Array._copy_with"]}
{"id": "C194", "title": "Names of dataset variables and axes", "statement": "Each variable and each axis of a dataset is found under its own name and under every alias, with its own data, dimensions and unit; other names raise KeyError.", "quantifier": "for all datasets and names", "why_tests_cant": "All combinations of names in a dataset.", "anchors": ["src/goats/core/datafile.py: Interface.variables, Interface.axes, NetCDFVariables.__getitem__, NetCDFVariables._get_unit_from_data, NetCDFAxes.__getitem__", "src/goats/core/reference.py: ALIASES"]}
{"id": "C195", "title": "Units of dataset variables", "statement": "The unit that a dataset lists under a name is the unit of the variable with this name; the same names are listed.", "quantifier": "for all datasets and names", "why_tests_cant": "All combinations of names in a dataset.", "anchors": ["src/goats/core/datafile.py: Interface.units"]}
{"id": "C196", "title": "Available names", "statement": "available lists the names on disk in order, each name that can be looked up just once, and one group of names for each variable or axis.", "quantifier": "for all datasets", "why_tests_cant": "All combinations of names in a dataset.", "anchors": ["src/goats/core/datafile.py: Interface.available, SubsetKeys"]}
{"id": "C197", "title": "Using another viewer", "statement": "After use(variables=viewer), the variables of the dataset are those that the viewer shows.", "quantifier": "for all viewers, before or after other uses of the interface", "why_tests_cant": "All histories of the interface.", "anchors": ["src/goats/core/datafile.py: Interface.use, Interface.variables, Interface.available"]}
{"id": "C198", "title": "Variables as quantities", "statement": "Each variable of an EPREM dataset is available as a quantity with its data, dimensions and unit, no matter what was looked up before.", "quantifier": "for all datasets, names and histories of lookups", "why_tests_cant": "All histories of lookups.", "anchors": ["src/goats/core/variable.py: Interface.__getitem__, Array.__len__, Quantity.__init__", "src/goats/eprem/__init__.py: Variables.build, standardize"]}
{"id": "C199", "title": "Variables of other datasets as quantities", "statement": "The base class of variable interfaces makes each variable of a dataset available as a quantity.", "quantifier": "for all datasets and names", "why_tests_cant": "All datasets.", "anchors": ["src/goats/core/variable.py: Interface.__getitem__, Interface.build", "src/goats/core/datafile.py: Variable"]}
{"id": "C200", "title": "Creating operands", "statement": "An operand created from a coefficient, a base and an exponent, each of which may be left out, has the value of the coefficient times the base raised to the exponent, where the base may be the text of nested operands with coefficients and exponents.", "quantifier": "for all coefficients, exponents and nested operands", "why_tests_cant": "Unbounded nesting; all numbers.", "anchors": ["src/goats/core/symbolic.py: OperandFactory.create, OperandFactory.normalize, OperandFactory.standardize, OperandFactory._match_complex"]}
{"id": "C201", "title": "Comparing terms with text and numbers", "statement": "A term equals the text of a term if and only if they have the same coefficient, base and exponent, and equals a number if and only if it is this number whatever the variables are.", "quantifier": "for all terms, texts of terms and numbers", "why_tests_cant": "All names, coefficients and exponents.", "anchors": ["src/goats/core/symbolic.py: Term.__eq__, Operand.__eq__, Term.format"]}
{"id": "C202", "title": "Equal terms have equal hashes", "statement": "Terms that are equal are the same element of a set and the same key of a dictionary.", "quantifier": "for all pairs of terms", "why_tests_cant": "All coefficients and exponents.", "anchors": ["src/goats/core/symbolic.py: Operand.__eq__, Term.__hash__, OperandFactory._build_constant"]}
{"id": "C203", "title": "Differences between expressions", "statement": "difference(split=True) gives two disjoint sets of terms: those in the first and not in the second expression, and the reverse. Their union is the symmetric difference, both are empty if and only if the expressions are equal, and the quotient of the expressions is that of the two sets.", "quantifier": "for all pairs of expressions", "why_tests_cant": "All expressions.", "anchors": ["src/goats/core/symbolic.py: Expression.difference, Expression.__eq__"]}
{"id": "C204", "title": "Substituting for the bases", "statement": "Applying a substitution to an expression gives the value of the expression at this substitution.", "quantifier": "for all expressions and substitutions", "why_tests_cant": "All expressions and values.", "anchors": ["src/goats/core/symbolic.py: Expression.apply"]}
{"id": "C205", "title": "Expressions and numbers", "statement": "Multiplying and dividing expressions by numbers, and numbers by expressions, multiplies and divides their values.", "quantifier": "for all expressions and numbers", "why_tests_cant": "All expressions and numbers.", "anchors": ["src/goats/core/symbolic.py: Expression.__mul__, Expression.__rmul__, Expression.__truediv__, Expression.__rtruediv__, Expression.__init__"]}
{"id": "C206", "title": "Evaluating, casting and indexing", "statement": "A term evaluated at a number is the constant that has this value; int and float give the value of constants, rounded towards zero for int, and refuse variables; an expression is indexed like the list of its terms.", "quantifier": "for all terms, numbers, expressions and indices", "why_tests_cant": "All numbers and indices.", "anchors": ["src/goats/core/symbolic.py: Term.__call__, Term.__int__, Term.__float__, Term._cast_to, Expression.__getitem__"]}
{"id": "C207", "title": "Expressions in any layout have the conventional meaning", "statement": "Parsing an expression written with numbers (with sign, decimal point and exponent), powers, coefficients, names, nested brackets, square roots, products by '*' or juxtaposition and ratios, with or without white space around the operators and within the brackets, succeeds and gives terms with the conventional value.", "quantifier": "for all written expressions and all assignments of positive reals", "why_tests_cant": "Unbounded nesting and length, all numbers and layouts.", "anchors": ["src/goats/core/symbolic.py: Parser.parse, Parser._resolve_operations, Parser._get_operator, Parser._get_operand, OperandFactory.search, OperandFactory._match_simplex, OperandFactory._match_complex"]}
{"id": "C208", "title": "The layout of an expression does not matter", "statement": "Texts that differ only in white space, in writing a product as '*' or as a blank, and in the way numbers are written, give identical expressions; two texts give equal expressions if and only if they have the same conventional value whatever the variables are.", "quantifier": "for all pairs of written expressions", "why_tests_cant": "All pairs of texts.", "anchors": ["src/goats/core/symbolic.py: Parser.parse, Parser._resolve_operations, Parser._get_operator, Parser._get_operand, OperandFactory.search, OperandFactory._match_simplex, OperandFactory._match_complex"]}
{"id": "C209", "title": "Numbers are read with their value", "statement": "A number written with an optional sign, decimal point and exponent is read as the constant with this value.", "quantifier": "for all texts of numbers", "why_tests_cant": "All digits and lengths.", "anchors": ["src/goats/core/symbolic.py: OperandFactory._match_simplex, OperandFactory._build_constant, OperandFactory.standardize"]}
{"id": "C210", "title": "Square roots", "statement": "sqrt in front of an operand anywhere in an expression takes the square root of this operand.", "quantifier": "for all operands and positions", "why_tests_cant": "All expressions.", "anchors": ["src/goats/core/symbolic.py: Parser._get_operator, Parser._compute_operand, Parser._evaluate, OperandFactory.search"]}
{"id": "C211", "title": "Arithmetic of reductions", "statement": "Multiplying or dividing a reduction by a number, or raising it to a whole power, does the same to its scale, multiplies the exponents of its units by the power, and its printed form has the number that follows from that of the original in front of its units.", "quantifier": "for all reductions and numbers", "why_tests_cant": "All expressions and numbers.", "anchors": ["src/goats/core/metric.py: Reduction.__init__, Reduction.units, Reduction.__mul__, Reduction.__truediv__, Reduction.__pow__"]}
{"id": "C212", "title": "Reductions agree with the definitions of the units", "statement": "NamedUnit(u).reduce(system) gives a reduction exactly if the unit is defined in the metric system, and then the scale and the powers of base units that define the unit in SI or Gaussian units, times the prefix.", "quantifier": "for all named units and both systems", "why_tests_cant": "All combinations of prefixes, units and systems; the definitions are independent of the tables of the package.", "anchors": ["src/goats/core/metric.py: NamedUnit.reduce, NamedUnit._reduce, NamedUnit.is_defined_in, NamedUnit.norm"]}
{"id": "C213", "title": "Reducing a unit expression", "statement": "reduction(unit, system) gives the product of the reductions of the terms of the expression, each raised to the exponent of the term.", "quantifier": "for all unit expressions", "why_tests_cant": "Unbounded expressions.", "anchors": ["src/goats/core/metric.py: reduction, NamedUnit.reduce, Reduction.__pow__, Reduction.__mul__"]}
{"id": "C214", "title": "Quantities with a dimension", "statement": "Dimension(d).quantities(system) has exactly those quantities whose dimension in the system has the same meaning as d, however d is written; each quantity is among those with its own dimension.", "quantifier": "for all dimensions, quantities and both systems", "why_tests_cant": "All expressions, all quantities.", "anchors": ["src/goats/core/metric.py: Dimension.quantities"]}
{"id": "C215", "title": "Dimensions in several systems", "statement": "Dimensions(common, **systems) has for each metric system the dimension given for it, or else the common one; they are found by the name of the system regardless of case.", "quantifier": "for all common dimensions and dimensions by system", "why_tests_cant": "All combinations of arguments, including missing and empty ones.", "anchors": ["src/goats/core/metric.py: Dimensions.__init__, Dimensions._init_from, Dimensions.__getitem__"]}
{"id": "C216", "title": "One object for each quantity and each system", "statement": "Quantity(name) and System(name) give the same object whenever they are called with the same name, up to case, and different objects otherwise, and an unknown name raises the exception of the lookup, whatever was created before. Quantities, and systems, are equal exactly if their names are the same, also to a name given as a string.", "quantifier": "for all sequences of calls and pairs of names", "why_tests_cant": "Unbounded histories.", "anchors": ["src/goats/core/metric.py: Quantity.__new__, Quantity.__eq__, System.__new__, System.__eq__"]}
{"id": "C217", "title": "Restricting an array along an axis", "statement": "Restriction.apply(array, axis) gives the array with the chosen positions along the axis, in order, and everything else unchanged; the axis may count from the end and is the last one by default; positions and axes that do not exist raise IndexError and AxisError.", "quantifier": "for all arrays of any dimension, axes and lists of indices", "why_tests_cant": "All shapes, axes and indices.", "anchors": ["src/goats/core/interpolation.py: Restriction.apply"]}
{"id": "C218", "title": "Replacing characters in a string", "statement": "batch_replace(string, replacement) replaces each character that is a key of the mapping by its text, and nothing else.", "quantifier": "for all strings and mappings", "why_tests_cant": "All strings and tables.", "anchors": ["src/goats/core/iterables.py: batch_replace"]}
{"id": "C219", "title": "Attributes by name", "statement": "setattrval sets a plain attribute such that getattrval returns the new value and other attributes are unchanged; both call methods with the given arguments; getattrval returns an object that lacks the attribute itself; equal_attrs is true exactly if all objects have equal values, in whatever order.", "quantifier": "for all objects, names and values", "why_tests_cant": "All objects and histories of values.", "anchors": ["src/goats/core/utilities.py: getattrval, setattrval, equal_attrs"]}
{"id": "C220", "title": "One instance of a singleton", "statement": "Every call of a class derived from Singleton gives the same object, which is an instance of this class; different classes have different objects.", "quantifier": "for all class hierarchies and sequences of calls", "why_tests_cant": "Unbounded histories.", "anchors": ["src/goats/core/iterables.py: Singleton.__new__"]}
{"id": "C221", "title": "Uniform mappings", "statement": "UniformMapping(mapping, type)[key] is the instance of the type that the items of the interior mapping give.", "quantifier": "for all mappings and constructors", "why_tests_cant": "All combinations of parameters and items.", "anchors": ["src/goats/core/iterables.py: UniformMapping.__init__, UniformMapping.__getitem__"]}
{"id": "C222", "title": "Values of an attribute in a class hierarchy", "statement": "class_attribute(cls, name) lists the values of the attribute of each class in the hierarchy once, those of the most basic class first.", "quantifier": "for all chains of classes", "why_tests_cant": "Unbounded hierarchies.", "anchors": ["src/goats/core/iterables.py: class_attribute"]}
{"id": "C223", "title": "The first method with a result", "statement": "apply(methods, ...) gives the first result that is not null and calls no further method.", "quantifier": "for all lists of methods", "why_tests_cant": "Unbounded lists.", "anchors": ["src/goats/core/iterables.py: apply"]}
{"id": "C224", "title": "Arithmetic with expressions agrees with arithmetic written in texts", "statement": "Multiplying, dividing or raising to an integral power the expressions read from texts t and u gives the expression read from '(t)*(u)', '(t)/(u)' or '(t)^n'.", "quantifier": "for all texts, white space and integers other than zero", "why_tests_cant": "All pairs of texts; the results depend on formatting and reading back numbers with any number of digits.", "anchors": ["src/goats/core/symbolic.py: Expression.__mul__", "src/goats/core/symbolic.py: Expression.__truediv__", "src/goats/core/symbolic.py: Expression.__pow__", "src/goats/core/symbolic.py: Parser"]}
{"id": "C225", "title": "Subscripting a physical array selects the named entries", "statement": "For a physical.Array a, subscripting with integers, slices, '...' and None gives what numpy gives for the values of a: the same shape, each entry equal to the entry of a at the positions that the subscript names (negative integers count from the end; slices may have any bounds and steps), the same unit and name, and a Scalar exactly if no axes remain. A subscript with a position outside of its axis, a step of zero or too many entries raises an exception.", "quantifier": "for all arrays of any number of axes and all such subscripts", "why_tests_cant": "There are infinitely many shapes, slices and combinations; the unwrapping of subscripts and the treatment of missing subscripts depend on their form.", "anchors": ["src/goats/core/physical.py:330-373", "src/goats/core/physical.py:517-590"]}
{"id": "C226", "title": "Lists of positions are taken along each axis independently", "statement": "Subscripting an array with lists of positions takes the listed positions along each axis, in the order of the list, with one axis of the length of the list for each; other axes, the unit and the name are kept. This holds for physical arrays and variables.", "quantifier": "for all arrays of any number of axes and all lists of positions", "why_tests_cant": "The paths for lists, single lists, lists of length one and empty lists differ; every shape and list is a case of its own.", "anchors": ["src/goats/core/physical.py:358-388", "src/goats/core/variable.py:140-174", "src/goats/core/iterables.py:121-128"]}
{"id": "C227", "title": "Subarrays of variables have the right entries", "statement": "The entry at each position of v[...] for a variable v is the entry of v at the position that the subscript names, where an integer keeps an axis with one position; the unit and the name are kept.", "quantifier": "for all variables of any number of axes and all subscripts with integers and slices", "why_tests_cant": "numpy drops the axis of an integer and the code reshapes the result by sizes that it computes separately; only for all shapes and subscripts is it clear that entries stay in place.", "anchors": ["src/goats/core/variable.py:117-138", "src/goats/core/variable.py:559-569"]}
{"id": "C228", "title": "Subscripting commutes with unit conversion", "statement": "For a physical array a, a subscript s and a unit u, a[u][s] and a[s][u] have the same values and the same unit; if one raises an exception, so does the other.", "quantifier": "for all arrays, subscripts of any form, and factors", "why_tests_cant": "Conversion changes a factor that is applied when data are loaded, subscripting applies it and resets it; the order matters only for combinations that tests do not enumerate.", "anchors": ["src/goats/core/physical.py:330-373", "src/goats/core/measurable.py:226-236"]}
{"id": "C229", "title": "Name maps from groups of aliases", "statement": "A name map made from groups of aliases and a list of reference names sends every reference name to itself and every alias in a group with a reference name to that name, raises KeyError for all other names, and is refused if a group holds two reference names.", "quantifier": "for every collection of groups and every list of reference names", "why_tests_cant": "All collections of groups; groups that share a reference name silently replace each other.", "anchors": ["src/goats/core/aliased.py:912-987"]}
{"id": "C230", "title": "Shells are selected by position", "statement": "A request on the shell axis selects exactly the shells at the given positions, in order, and the values of the axis are the positions; no request selects all shells; anything that is not an integer, and positions that do not exist, are refused.", "quantifier": "for every number of shells and every request (nothing, slice, range, integers, measured values)", "why_tests_cant": "All requests; the missing check of the range shows only later, as another error or as a shell counted from the end.", "anchors": ["src/goats/eprem/__init__.py:158-167", "src/goats/core/index.py:13-55", "src/goats/core/axis.py:40-48"]}
{"id": "C231", "title": "Withheld names are not observable under any alias", "statement": "A quantity that an observer withholds from observation under any of its names is not observable under any other, while a request for it still gives the quantity; all other listed names are observable.", "quantifier": "for all groups of names that share no name, all lists of withheld names, all names without operators and all states of the spell checker", "why_tests_cant": "All groups of aliases; the withheld names are one alias each.", "anchors": ["src/goats/core/observer.py:47-72", "src/goats/core/aliased.py:197-210"]}
{"id": "C232", "title": "Equal expressions have equal hashes", "statement": "Two symbolic expressions are equal if and only if the values that their hashes are taken of are equal, so that equal expressions are the same member of a set and the same key of a dictionary.", "quantifier": "for all pairs of expressions", "why_tests_cant": "The comparison ignores the order of the terms and the hash does not; that the two agree rests on the order in which every expression is reduced.", "anchors": ["src/goats/core/symbolic.py:1543-1545", "src/goats/core/symbolic.py:1547-1567", "src/goats/core/symbolic.py:413-418"]}
{"id": "C233", "title": "ismeasurable agrees with measure", "statement": "An object is reported to be measurable if and only if it can be measured.", "quantifier": "for all nested collections of numbers, strings and None", "why_tests_cant": "Two recursive functions over nested collections written independently of each other; a test compares them on samples.", "anchors": ["src/goats/core/measurable.py:280-319", "src/goats/core/measurable.py:336-439"]}
{"id": "C234", "title": "Named units are equal exactly if they are the same unit", "statement": "Comparing a named unit with another, or with any way to write it, is true exactly if both have the same base unit and metric prefix, that is, if their ratio is one; equal units have equal hashes; comparing with something that is not a unit is false.", "quantifier": "for every pair of spellings of named units", "why_tests_cant": "There are thousands of combinations of prefixes and units, written in several ways, and equality and hash are written independently of the ratio.", "anchors": ["src/goats/core/metric.py: NamedUnit.__eq__, NamedUnit.__hash__, ratio"]}
{"id": "C235", "title": "An impossible conversion is an exception only if asked for", "statement": "conversion(u0, u1) returns the factor of Conversion(u0, u1) if there is one, and None if there is none; with strict=True it raises UnitConversionError in the latter case and never returns None.", "quantifier": "for all texts u0 and u1", "why_tests_cant": "Which texts can be converted depends on the whole table of units; a test samples a few pairs.", "anchors": ["src/goats/core/metric.py: conversion"]}
{"id": "C236", "title": "Numbers in units count", "statement": "Converting c u0 to u1 multiplies the factor from u0 to u1 by c.", "quantifier": "for all units, with or without a numerical coefficient", "why_tests_cant": "The terms of the two expressions are merged, filtered and paired; where a number gets lost is not visible in examples without numbers.", "anchors": ["src/goats/core/metric.py: Conversion._convert_as_expressions"]}
{"id": "C237", "title": "Ratios, conversions and relative magnitudes agree", "statement": "For two named units with the same base unit, ratio(u, v), the conversion factor from u to v, v // u of named units, and v // u of units are the same number, and u // v is its inverse.", "quantifier": "for all spellings of named units and all prefixes, whatever conversions are declared", "why_tests_cant": "Declared conversions take precedence over the ratio, and the four are computed by different code.", "anchors": ["src/goats/core/metric.py: ratio, NamedUnit.__floordiv__, Unit.__floordiv__, Unit.__rfloordiv__, conversion"]}
{"id": "C238", "title": "Coordinates are observed at the requested time", "statement": "Observing radius, theta, phi or any other coordinate at a time between two time steps gives the value interpolated in time, as for every other quantity; at a time step it gives the stored value.", "quantifier": "for all names and aliases, grids, stored values, times, shells and radii", "why_tests_cant": "There are infinitely many times, and a test at a stored time cannot tell interpolation from selection.", "anchors": ["src/goats/eprem/__init__.py:383-393", "src/goats/eprem/__init__.py:540-554"]}
{"id": "C239", "title": "Quantities at energies off the grid are interpolated for each species", "statement": "Observing a quantity at given energies gives, for every requested species, the value interpolated along the energies of that species, whether or not the energies are on the grid of this or another species.", "quantifier": "for all grids of energies, values, lists of species and lists of energies", "why_tests_cant": "Whether an energy coincides with the grid of another species depends on the data; tests with one species never meet the case.", "anchors": ["src/goats/eprem/__init__.py:449-538", "src/goats/core/interpolation.py:84-141"]}
{"id": "C240", "title": "Equal arrays are interchangeable", "statement": "Arrays compare equal exactly if they have the same attributes (unit, axes, name) and the same values; equality is an equivalence relation, and equal quantities have the same value wherever their axes are at the same positions.", "quantifier": "for all arrays of all shapes, units, axes and values", "why_tests_cant": "Equivalence is a property of all pairs and triples of arrays; tests compare few, and usually with axes in the same order.", "anchors": ["src/goats/core/variable.py:70-74", "src/goats/core/variable.py:538-545", "src/goats/core/physical.py:269-275"]}
{"id": "C241", "title": "The text of a quantity shows its current name, value and unit", "statement": "str of a quantity is its name in quotes, a colon, its data (for an array the type of the data) and its unit in brackets, as they are at the time of the call; without a name it is the data and the unit. repr has the same parts after the class.", "quantifier": "for all data, units and names, before and after renaming; in general for all format strings and attributes", "why_tests_cant": "Texts of data and units are arbitrary, may contain braces or separators, and names can change after construction.", "anchors": ["src/goats/core/iterables.py:246-356", "src/goats/core/measurable.py:181-184", "src/goats/core/physical.py:39-47", "src/goats/core/constant.py:55-70", "src/goats/core/metadata.py:886-901"]}
{"id": "C242", "title": "Displays behave like lists of parts", "statement": "A display string is the list of its parts joined by its separator: appending adds a last part, inserting puts a part at the given position as for lists, subscripting gives a part, and the other parts are unchanged.", "quantifier": "for all separators, parts, positions and texts", "why_tests_cant": "Splitting at separators depends on all characters of all parts, and positions can be negative or out of range.", "anchors": ["src/goats/core/iterables.py:259-284"]}
{"id": "C243", "title": "Parameters are read from the given source", "statement": "If a source is given, constants and parameters are those of baseTypes.h and configuration.c in it, and if that is not possible an exception is raised; only without a source are they those of the package.", "quantifier": "for all file systems, contents of files and paths", "why_tests_cant": "Depends on which files exist in the directory; the fallback to packaged values is silent and gives plausible results.", "anchors": ["src/goats/eprem/runtime.py:100-158", "src/goats/eprem/runtime.py:168-171", "src/goats/eprem/runtime.py:398-399", "src/goats/eprem/runtime.py:653-675"]}
{"id": "C244", "title": "Raising the minimum energy does not raise the integral flux", "statement": "For a differential flux that is not negative, the integral flux above a greater minimum energy is not greater than that above a smaller one.", "quantifier": "for every ascending series of energies, every flux and all pairs of minimum energies", "why_tests_cant": "The quadrature rule changes with the number of energies above the minimum; tests use smooth spectra.", "anchors": ["src/goats/core/computed.py:352-402"]}
{"id": "C245", "title": "Quantities of fields do not depend on the directions of the axes", "statement": "Magnitudes, components along and across the field, the flow angle and the acceleration rate are the same if field and velocity are expressed in axes that are rotated or reflected.", "quantifier": "for all rotations and reflections, all fields and velocities, every number of shells", "why_tests_cant": "Invariance under a continuum of rotations.", "anchors": ["src/goats/core/computed.py:60-135", "src/goats/core/computed.py:212-251"]}
{"id": "C246", "title": "Energies without an axis of species apply to every species", "statement": "If the energies have no axis of species, the integral flux of every species is the integral of its flux over these energies; without species it is that of the only series.", "quantifier": "for all numbers of times, shells, species and energies and all data", "why_tests_cant": "All combinations of shapes.", "anchors": ["src/goats/core/computed.py:352-378"]}
{"id": "C247", "title": "The axes of an observer show all values", "statement": "The times, pitch angles, energies, shells and species that an observer shows are all those of the dataset, in their order and unit: as a numpy array, by their number, by position and in a loop.", "quantifier": "for all datasets", "why_tests_cant": "All datasets; by position and in a loop the members are positions, which a test of the numpy array does not see.", "anchors": ["src/goats/eprem/__init__.py:779-802", "src/goats/core/axis.py:111-116", "src/goats/core/index.py:40-60", "src/goats/core/index.py:112-166"]}
{"id": "C248", "title": "Species have one symbol, mass and charge", "statement": "A species has one symbol, one mass in nucleons and one charge in elementary charges, whichever of them it was created from and in whatever order they are asked for.", "quantifier": "for all elements, charges, masses near that of an element and series of questions", "why_tests_cant": "All elements, charges and orders of access, since answers are stored.", "anchors": ["src/goats/core/plasma.py:6-65", "src/goats/core/fundamental.py:281-297"]}
{"id": "C249", "title": "Collections of alias groups behave like sets of groups", "statement": "Collections of alias groups are equal iff they have the same groups, included in each other and disjoint as sets of groups are; removing a name removes its group; unions, intersections and differences are collections of groups; clearing removes all groups.", "quantifier": "for all collections of groups", "why_tests_cant": "All collections; the methods are inherited and depend on how membership and creation are defined.", "anchors": ["src/goats/core/aliased.py:100-130", "src/goats/core/aliased.py:176-195"]}
{"id": "C250", "title": "Operations compute the registered attributes", "statement": "Whatever attributes are registered, in whatever order with uses of the operations, every operation gives one value for each registered attribute and for no others.", "quantifier": "for all series of registrations and uses", "why_tests_cant": "All series: operations are created at first use, and registration changes those that exist.", "anchors": ["src/goats/core/metadata.py:375-464", "src/goats/core/metadata.py:219-226", "src/goats/core/metadata.py:322-356"]}
{"id": "C251", "title": "A group of aliases combines like a set of names", "statement": "A group of aliases may be combined with a name, a list, tuple or set of names or another group, on either side of |, &, - and ^, and compared with them; the result is the group of the names that sets give, a single name counts as one name, and equal groups have equal hashes.", "quantifier": "for all groups and all objects made of names", "why_tests_cant": "All combinations of operand types and operators, on both sides; the operators are partly inherited and partly redefined.", "anchors": ["src/goats/core/aliased.py:31-78"]}
{"id": "C252", "title": "Fluence does not depend on how times are counted, and adds up", "statement": "The fluence is the same if times are counted from another origin or in the opposite direction, is multiplied by the factor of a change of the unit of time, adds up over consecutive periods, and is greater for a greater flux.", "quantifier": "for all fluxes and all increasing times", "why_tests_cant": "All numbers of times and spacings; the integration rule differs between odd and even numbers.", "anchors": ["src/goats/core/computed.py:320-326"]}
{"id": "C253", "title": "Energies and fluxes of every species are those of particles of its mass", "statement": "The average energy of a species lies between the kinetic energies its particles have at the least and the greatest of its speeds, and its differential flux is v²/m times the distribution, where m is the mass of its particles.", "quantifier": "for all species, speeds and distributions", "why_tests_cant": "All masses and data; tests use protons.", "anchors": ["src/goats/core/computed.py:254-317"]}
{"id": "C254", "title": "Observing at the points of the grid gives the stored values", "statement": "A variable of any number of axes that is observed at values of its axes, at positions, or at the axes that the observer shows, has at each entry the value that is stored for these values of the axes; nothing is interpolated.", "quantifier": "for all variables of any number of axes and all requests on the grid", "why_tests_cant": "All combinations of axes and requests: the positions found along each axis, the decision about interpolation and the subscription of all axes at once must agree, for arrays of any shape.", "anchors": ["src/goats/eprem/__init__.py:383-393", "src/goats/eprem/__init__.py:437-469", "src/goats/eprem/__init__.py:556-578", "src/goats/core/index.py:141-143", "src/goats/core/variable.py:117-159"]}
{"id": "C255", "title": "A numpy function implemented for one class of arrays does not change it for other classes", "statement": "After `@A.implements(f)`, `numpy.f` uses that implementation for objects of class A and of classes derived from A, and works as before for all others.", "quantifier": "for all classes, functions and sequences of registrations", "why_tests_cant": "Depends on which classes share a dictionary, for every hierarchy and every order of registrations.", "anchors": ["src/goats/core/variable.py: Array.implements, Array.__array_function__", "src/goats/core/variable.py: Quantity, _squeeze, _mean", "src/goats/core/physical.py: Array.implements, Array.__array_function__"]}
{"id": "C256", "title": "numpy.mean and numpy.squeeze of variables accept the arguments that numpy documents", "statement": "`numpy.mean(v, axis, keepdims=...)` and `numpy.squeeze(v)` have a result exactly if they have one for the numbers of `v` alone, the shape is the same, and the names are those of the remaining axes.", "quantifier": "for all quantities and all arguments", "why_tests_cant": "All shapes, names and combinations of arguments.", "anchors": ["src/goats/core/variable.py: _mean, _squeeze"]}
{"id": "C257", "title": "numpy functions of several arrays accept arrays of all classes", "statement": "A numpy function of several arrays is computed whichever classes of the package the arrays belong to, in every order of the arguments.", "quantifier": "for all numbers and classes of arguments and all functions", "why_tests_cant": "All combinations of classes and functions.", "anchors": ["src/goats/core/variable.py: Array.__array_function__", "src/goats/core/physical.py: Array.__array_function__", "src/goats/core/observing.py: Observation"]}
{"id": "C258", "title": "Collections of independent members are equal exactly if they have the same members", "statement": "Two `whole` collections, and two collections of operands, compare equal exactly if they have the same members, each as often, in any order; comparing never fails and does not depend on which one is on the left.", "quantifier": "for all collections of members of any kinds", "why_tests_cant": "All lists of members, of any length.", "anchors": ["src/goats/core/iterables.py: whole.__eq__", "src/goats/core/metadata.py: Operands.__eq__"]}
{"id": "C259", "title": "A parameter that the configuration file sets is reported as set under each of its names", "statement": "`arguments.config(name)` gives the value of the parameter if the configuration file sets it, and the default otherwise, for each of the names of the parameter.", "quantifier": "for all files, parameters and names", "why_tests_cant": "All files, all values, and all names of all parameters.", "anchors": ["src/goats/eprem/runtime.py: Interface.config, Interface.get, Interface.__init__"]}
{"id": "C260", "title": "Quantities of particles are proportional to the distribution", "statement": "If the distribution is multiplied by a positive factor at every position, the isotropic distribution, flux, fluence, energy density and integral flux are multiplied by that factor, the average energy is the same, and the same exceptions are raised. Isotropic distribution, flux, fluence and energy density of a sum of distributions are the sums of those of each.", "quantifier": "for all arrays of any shape, all positive factors, energies, speeds, times and minimum energies", "why_tests_cant": "Proportionality relates the results for infinitely many factors and arrays; the interpolation to the minimum energy goes through logarithms of ratios.", "anchors": ["src/goats/core/computed.py:254-402"]}
{"id": "C261", "title": "Integral fluxes of several populations add up", "statement": "The integral flux above a minimum energy of the sum of two differential fluxes is the sum of their integral fluxes.", "quantifier": "for all energies in ascending order, all differential fluxes and minimum energies", "why_tests_cant": "The sum holds or fails depending on whether the minimum energy is one of the energies; no finite set of samples decides it.", "anchors": ["src/goats/core/computed.py:329-402"]}
{"id": "C262", "title": "Spherical coordinates survive the way to Cartesian coordinates and back", "statement": "`xyz2rtp` of the Cartesian coordinates of positions, as computed by `rtp2xyz` or by the observables `x`, `y` and `z`, gives the radii, polar angles and azimuths of the positions.", "quantifier": "for all lists of positions with a positive radius, a polar angle strictly between 0 and π and an azimuth from 0 up to 2π", "why_tests_cant": "All radii and angles of a continuum; the result switches between branches of the arctangent, and a test at a few angles misses the one azimuth at which the branch is wrong.", "anchors": ["src/goats/core/numerical.py:177-270", "src/goats/core/computed.py: x, y, z"]}
{"id": "C263", "title": "The integral flux does not depend on the unit of energy", "statement": "If energies and minimum energies are expressed in another unit (multiplied by a positive factor) and the flux is counted per that unit (divided by the factor), the integral flux is the same; in general, it is multiplied by the product of both factors, and the same exceptions are raised.", "quantifier": "for all arrays of any shape, all positive factors and minimum energies, and all energies that exceed the least normal floating-point number in both units", "why_tests_cant": "The interpolation to the minimum energy goes through logarithms of energies, the search for the nearest energy through differences, and the integral through Simpson weights; that units cancel holds for all factors or not at all.", "anchors": ["src/goats/core/computed.py:329-402"]}
{"id": "C264", "title": "Interpolation does not depend on units", "statement": "If the reference and the target are expressed in another unit, or relative to another origin, the interpolated value is the same; if the array is, the interpolated value is expressed in that unit as well. The same exceptions are raised.", "quantifier": "for all arrays and ascending references of one or two dimensions, all targets, all positive factors of the reference, all factors of the array and all origins", "why_tests_cant": "All units and all targets: nearest positions, bounding indices and lines must each commute with the change of unit.", "anchors": ["src/goats/core/interpolation.py:14-141", "src/goats/core/numerical.py:9-123"]}
{"id": "C265", "title": "The interpolated sum is the sum of the interpolated values", "statement": "Interpolating the sum of two arrays to a target gives the sum of the values interpolated for each, and fails if and only if these do.", "quantifier": "for all arrays of the same length, ascending references of one dimension and targets", "why_tests_cant": "The sum holds for all pairs of arrays or not at all; the branches on members, ends and restricted ranges have to agree for both.", "anchors": ["src/goats/core/interpolation.py:83-141"]}
{"id": "C266", "title": "Interpolated values neither overshoot nor change the order", "statement": "An interpolated value lies within all bounds that hold for the values of the array, and if the values of the array do not descend along the reference, a greater target does not give a lower value.", "quantifier": "for all arrays, strictly ascending references of one dimension and targets, with or without an axis", "why_tests_cant": "Bounds and order are statements about all targets between, on and beyond the points of the reference.", "anchors": ["src/goats/core/interpolation.py:83-141"]}
{"id": "C267", "title": "An observation does not depend on the units of the dataset", "statement": "If the times of the dataset and of the request are expressed in another unit, and the radii of the dataset and of the request as well, an observation has the same values; if the quantity is stored in another unit, or relative to another origin, the observed values are expressed in that unit. The same exceptions are raised.", "quantifier": "for all datasets, quantities over time and shells, times, shells and radii, all positive factors of times and radii, all factors of the quantity and all origins", "why_tests_cant": "Whether a target counts as a member of the axis, which points bound it, and the interpolated values all have to commute with every change of units.", "anchors": ["src/goats/eprem/__init__.py:383-538", "src/goats/core/interpolation.py:14-141", "src/goats/core/variable.py:242-263"]}
{"id": "C268", "title": "Observed values do not overshoot the stored values", "statement": "All observed values, interpolated over time, shell or radius or not interpolated, are within all bounds that hold for the stored values of the quantity; in particular a quantity that is nowhere negative is not observed as negative.", "quantifier": "for all datasets with strictly ascending times, shells and radii, all quantities over time and shells, times, shells and radii", "why_tests_cant": "All targets on, between and beyond the points of three axes, in all combinations.", "anchors": ["src/goats/eprem/__init__.py:383-538", "src/goats/core/interpolation.py:14-141", "src/goats/core/variable.py:242-263"]}
{"id": "C269", "title": "The observation of a sum is the sum of the observations", "statement": "Observing the sum of two quantities of the same shape at given times, shells and radius gives the sum of the two observations, and fails if and only if these do, with the same exception.", "quantifier": "for all datasets, pairs of quantities over time and shells, times, shells and radii", "why_tests_cant": "The sum holds for all pairs of arrays and all combinations of interpolated axes or not at all.", "anchors": ["src/goats/eprem/__init__.py:383-538", "src/goats/core/interpolation.py:14-141", "src/goats/core/variable.py:242-263"]}
{"id": "C270", "title": "An observation at several times consists of the observations at each of them", "statement": "Observing a quantity at a list of times gives, one after another, what observing it at each of these times gives, and fails if and only if one of these observations does.", "quantifier": "for all datasets, quantities over time and shells, lists of times, shells and radii", "why_tests_cant": "Whether values are interpolated is decided for the whole list at once; all lists that mix stored and other times have to agree with all their members.", "anchors": ["src/goats/eprem/__init__.py:383-538", "src/goats/core/interpolation.py:83-141", "src/goats/core/variable.py:242-263"]}
{"id": "C271", "title": "The order of lines in a configuration file does not matter", "statement": "A file whose lines set different parameters gives the same parameters in whichever order the lines stand. Empty lines and lines of comments can be added anywhere without effect. A file made of two parts gives the values of the second part, and those of the first for the parameters that the second does not set. A file is rejected if and only if a part of it is.", "quantifier": "for all lists of lines, orders of them, places of insertion and markers of comments", "why_tests_cant": "All orders of all files; a single pass that overwrites what it read earlier depends on the order in general.", "anchors": ["src/goats/eprem/runtime.py:560-574", "src/goats/eprem/runtime.py:536-558"]}
{"id": "C272", "title": "An observation at several shells consists of the observations at each of them", "statement": "Observing a quantity at a list of shells gives, side by side, what observing it at each of these shells gives, and fails if and only if one of these observations does.", "quantifier": "for all datasets, quantities over time and shells, times and lists of shells", "why_tests_cant": "Whether values are interpolated is decided for the whole list at once, and positions may be applied to what was interpolated; all lists have to agree with all their members, whether or not the dataset has these shells.", "anchors": ["src/goats/eprem/__init__.py:383-538", "src/goats/core/interpolation.py:83-141", "src/goats/core/variable.py:242-263"]}
{"id": "C273", "title": "Powers of units obey the laws of exponents", "statement": "For every unit expression and all integers m and n, the product of its powers m and n is its power m + n, their quotient is its power m - n, and the power n of its power m is its power m n. The power 1 is the expression itself, the power 0 is 1 and the power -1 is the inverse. The power of a quotient is the quotient of the powers.", "quantifier": "for all unit expressions and integers", "why_tests_cant": "Results are formatted and parsed again after every operation; the laws must survive this for all names and exponents.", "anchors": ["src/goats/core/symbolic.py:1604-1615", "src/goats/core/symbolic.py:1568-1602", "src/goats/core/symbolic.py:1669-1718"]}
{"id": "C274", "title": "Products of variables do not depend on order and grouping", "statement": "For variables whose common axes have the same size: the product in the other order has the same axes up to order and the same entry at every combination of named positions; three factors have the same product, with the axes in the same order, in whichever way they are grouped; dividing a product by a factor without zeros gives back the other factor, repeated along the axes that it does not have.", "quantifier": "for all variables with any number of axes, in any order, and all elementwise operations", "why_tests_cant": "All combinations of numbers, orders and overlaps of axes; alignment reshapes both operands.", "anchors": ["src/goats/core/variable.py:602-623", "src/goats/core/metadata.py:790-820"]}
{"id": "C275", "title": "The nearest value does not depend on units and keeps the order of targets", "statement": "In every other unit of the values and the target, with any origin and direction, the nearest value is found at the same position; a search with a bound finds the same position in every unit of the same direction. The nearest value of a greater target is never smaller. A value of the collection is its own nearest value.", "quantifier": "for all collections in any order, targets, bounds and units", "why_tests_cant": "All collections with ties and repetitions; the first minimum of distances and the walk to a bound depend on comparisons of all values.", "anchors": ["src/goats/core/numerical.py:66-123"]}
{"id": "C276", "title": "Observing keeps the order of quantities", "statement": "If one quantity is nowhere greater than another of the same shape, its observation at given times, shells and radius, interpolated or not, is nowhere greater than the observation of the other, and both observations fail alike.", "quantifier": "for all datasets with strictly ascending times, shells and radii, pairs of quantities over time and shells, times, shells and radii", "why_tests_cant": "A comparison of observations stands for a comparison of stored values only if it holds for all pairs of arrays and all combinations of interpolated axes.", "anchors": ["src/goats/eprem/__init__.py:383-538", "src/goats/core/interpolation.py:14-141", "src/goats/core/variable.py:242-263"]}
{"id": "C277", "title": "The divergence of the flow does not depend on how times are counted", "statement": "The divergence is the same if times are counted from another origin, is divided by the factor of a change of the unit of time, and has the opposite sign if the series runs backwards. For the product of two densities it is the sum of the two divergences.", "quantifier": "for all positive series of densities and all times, every number of times", "why_tests_cant": "All numbers of times and spacings; the formula at both ends differs from that in between.", "anchors": ["src/goats/core/computed.py:138-160"]}
{"id": "C278", "title": "Strength and polarity of the field", "statement": "The components of the velocity along and across the field and the flow angle do not depend on the strength of the field. If the field is reversed, the component along the field changes its sign, the flow angle becomes its supplement, and the component across the field and the acceleration rate are the same.", "quantifier": "for all fields and velocities, every number of shells", "why_tests_cant": "Relations over a continuum of fields.", "anchors": ["src/goats/core/computed.py:82-135", "src/goats/core/computed.py:212-251"]}
{"id": "C279", "title": "Rigidity and mean free path of species", "statement": "At the same energy per mass the rigidity is proportional to the mass, and it is inversely proportional to the charge; at the same energy heavier particles do not have a smaller rigidity. The mean free path does not depend on the charge, and paths for sums of powers are products of paths in units of the reference length.", "quantifier": "for all masses, charges, energies, distances and powers", "why_tests_cant": "Scaling laws over all real parameters.", "anchors": ["src/goats/core/computed.py:171-209"]}
{"id": "C280", "title": "The acceleration rate and the speeds", "statement": "If the flow is s times as fast, the acceleration rate is s squared times as great. It is inversely proportional to the mean free path and to the speed of the particles.", "quantifier": "for all flows, angles and mean free paths, every number of shells", "why_tests_cant": "Scaling laws over all real parameters and numbers of shells.", "anchors": ["src/goats/core/computed.py:212-251"]}
{"id": "C281", "title": "A constraint affects what it names, in whatever order constraints are given", "statement": "A constraint that is appended to those of an observer changes no look-up under another name, whatever was asked or constrained before and is asked or constrained afterwards. Constraints with different names may be given in any order, in one call or in several, with look-ups in between; two appended calls with different names can be exchanged.", "quantifier": "for all histories of look-ups and calls, all constraints, all names", "why_tests_cant": "A relation between pairs of arbitrary histories of a context with a cache.", "anchors": ["src/goats/core/observing.py:305-366", "src/goats/eprem/__init__.py:556-616"]}
{"id": "C282", "title": "The names of a parsed expression are written in the text", "statement": "Whatever text is parsed, every term of the result is a constant or has for its base a name, a letter followed by letters and digits, that occurs in the text.", "quantifier": "for all texts, also ill-formed ones that are accepted", "why_tests_cant": "The parser recurses over arbitrary nesting and its regular expressions cut the text in many ways; tests see a few texts.", "anchors": ["src/goats/core/symbolic.py:835-924", "src/goats/core/symbolic.py:1182-1294", "src/goats/core/symbolic.py:1438-1442", "src/goats/core/symbolic.py:1669-1717"]}
{"id": "C283", "title": "The value of a parameter depends on nothing but the definitions that it refers to", "statement": "Two configuration files give the same value to a parameter, or raise the same exception, unless its name, its definition, or a definition that one of these refers to contains the name of a parameter that the files define differently. In particular a name that is part of no other definition can be set at will without effect on other parameters.", "quantifier": "for all tables of defaults, all pairs of configuration files, all parameters", "why_tests_cant": "Definitions refer to each other to any depth, through sums, products, powers and members of the configuration.", "anchors": ["src/goats/eprem/runtime.py:660-759", "src/goats/eprem/runtime.py:865-932"]}
{"id": "C284", "title": "An interpolated value depends only on its neighbours, and a grid can be refined along the line", "statement": "The value that is interpolated at a target depends on the two points between which the target lies, and on no other point of the grid. A further point on the straight line between two neighbours changes the result for no target: neither for targets among or between the points, nor for those outside of the grid, which give the value at the end or are rejected.", "quantifier": "for all strictly ascending grids of two points or more, all values, all targets", "why_tests_cant": "A relation between grids of any size, over all numbers.", "anchors": ["src/goats/core/interpolation.py:102-141", "src/goats/core/numerical.py:44-123"]}
{"id": "C285", "title": "Strict look-ups in a table do not depend on order, and never change their answer", "statement": "A strict look-up does not depend on the order of the entries or of the requested pairs. If it finds an entry, then with further pairs it finds the same entry or nothing, and exactly the same entry if that has all the pairs and all entries have the keys; and with further entries it finds the same entry or nothing, and exactly the same entry if no new entry matches.", "quantifier": "for all tables, all requests", "why_tests_cant": "A relation between pairs of tables and requests of any size.", "anchors": ["src/goats/core/iterables.py:1004-1115"]}
{"id": "C286", "title": "Further declarations of conversions", "statement": "If all declared conversions agree with magnitudes of the units, then declaring further ones changes the factor of no two units that are joined by declared conversions, nor does it make their conversion impossible; the order in which conversions and units are listed does not matter, and factors along a chain multiply.", "quantifier": "for all consistent graphs of conversions, all tables of named units, all orders", "why_tests_cant": "The search visits the graph in an order that depends on all declarations; tests see one graph.", "anchors": ["src/goats/core/metric.py:1480-1532", "src/goats/core/metric.py:1612-1737"]}
{"id": "C287", "title": "Reduction and comparison of expressions do not depend on what the names are", "statement": "If the names in an expression are exchanged for others, different ones for different ones, then the reduced expression has the exchanged names, with the same exponents and the same number, up to the order of the terms; and two expressions are equal exactly if they are equal after the exchange.", "quantifier": "for all one-to-one changes of names, all terms", "why_tests_cant": "Terms are sorted by name, and the parts of the code that depend on names cannot be told from a few examples.", "anchors": ["src/goats/core/symbolic.py:1547-1566", "src/goats/core/symbolic.py:1669-1717"]}
{"id": "C288", "title": "Values that are farther away do not change the nearest value", "statement": "If a value is inserted anywhere into a collection and is farther from the target than the nearest value, the same value is found, at its new position. The order of the values does not change the distance between the target and the value that is found.", "quantifier": "for all collections, targets and places of insertion", "why_tests_cant": "A relation between collections of any size, over all numbers.", "anchors": ["src/goats/core/numerical.py:66-123"]}
{"id": "C289", "title": "More known words", "statement": "The order of the known words affects only the order of the suggestions. With more known words, all earlier suggestions for a misspelled word remain, or all suggestions are among the new words; and a word that was reported as misspelled is still reported unless it is itself one of the new words.", "quantifier": "for all sets of known words, all words", "why_tests_cant": "A relation between sets of words of any size.", "anchors": ["src/goats/core/spelling.py:37-112"]}
{"id": "C290", "title": "Every listed quantity can be computed", "statement": "Every quantity that an observer lists can be computed: looking up its dependencies ends, each parameter of its function is found as a variable of the dataset, as another computed quantity or as a parameter of the configuration, and the function receives one argument for each of its parameters, in order.", "quantifier": "All values of the variables and parameters, all results of the functions, all names of all registered functions.", "why_tests_cant": "Tests compute some quantities of one dataset under one name; dependencies are found by name at run time, through other functions and aliases, and a missing one is dropped silently.", "anchors": ["src/goats/eprem/__init__.py:413-435", "src/goats/core/computed.py:436-454", "src/goats/core/reference.py:19-149"]}
{"id": "C291", "title": "Subscripting in steps is subscripting at once", "statement": "For a physical.Array a with two or more axes, a[i][xs] gives the same as a[i, xs], where i is an integer and xs are any integers, slices, '...' and None: the same values, unit and name, or the same exception. For any array and any slice s, a[s][j, xs] is a[k, xs], where k is the position that s selects in the j-th place.", "quantifier": "for all arrays, all integers i and j, all slices and all further subscripts", "why_tests_cant": "There are infinitely many arrays and subscripts; the result of a subscript is a new array with its own scale and cache, and the treatment of a subscript depends on its form.", "anchors": ["src/goats/core/physical.py:330-373", "src/goats/core/physical.py:517-590"]}
{"id": "C292", "title": "Averages over pitch angles and speeds", "statement": "The isotropic distribution does not depend on the order of the pitch angles. The average energy of two populations of particles together lies between the average energies of each; it is proportional to the mass and to the square of the unit of speed, and does not depend on whether speeds ascend or descend. The energy density is proportional to the mass and to the fifth power of the unit of speed (for the same numbers of the distribution), and changes its sign for descending speeds.", "quantifier": "for all numbers of pitch angles and speeds, all distributions that are not negative, all masses and units", "why_tests_cant": "There are infinitely many grids and distributions; the weights of the sums depend on the position in the grid and differ at the ends.", "anchors": ["src/goats/core/computed.py:254-307"]}
{"id": "C293", "title": "The order of updates of an aliased mapping", "statement": "For a mutable aliased mapping: assignments through names of different entries can be exchanged, and so can an assignment and a deletion of another entry, any two deletions, and a new alias and an assignment; of two assignments through names of one entry the last counts; an assignment through a new alias is one through the old name; deleting a new entry restores the mapping, and assigning the value that an entry has changes nothing. Exchanging means that afterwards all names have the same values and the same aliases.", "quantifier": "for all aliased mappings, all names and all values", "why_tests_cant": "There are infinitely many mappings and pairs of updates; entries are found again through names that earlier updates may have moved to other groups.", "anchors": ["src/goats/core/aliased.py:830-887"]}
{"id": "C294", "title": "Lists of numbers in configuration files are read as written", "statement": "A text of brackets with numbers between them, separated by commas and with any blanks or quotes around each, is read as the list of these numbers; in particular the text that Python writes for a list of integers is read as that list. Brackets with nothing or only blanks between them are the empty list. A text without brackets at both ends, or with an entry that is not a number, is rejected with TypeError.", "quantifier": "for all lists of texts that can be read as numbers, all blanks and quotes around them", "why_tests_cant": "There are infinitely many lists and ways to write them; brackets, blanks and quotes are removed at several places by stripping sets of characters.", "anchors": ["src/goats/core/iterables.py:198-206", "src/goats/core/numerical.py:130-166"]}
{"id": "C295", "title": "Bounding indices along an axis of an array", "statement": "For an array of any number of dimensions, get_bounding_indices(array, target, axis) has the shape of the array, but for two entries along the axis, which may be counted from either end and is the last one by default. At each position, these two entries bound the target on the line along the axis through that position: if the target is in the range of the line, the entry at the first index is not above it, that at the second not below it, and they are the same position if the target is on the line, and neighbours if it is not; out of the range both are the nearer end. Each line is treated as if it were given alone. An axis that the array does not have is refused.", "quantifier": "for all shapes, all axes, all entries and all targets", "why_tests_cant": "There are infinitely many shapes, arrays and targets; the positions of the results are found by numpy from the axis.", "anchors": ["src/goats/core/numerical.py:9-53"]}
{"id": "C296", "title": "Restricting an array in several steps", "statement": "Restrictions of an array along different axes can be exchanged. Restricting twice along one axis is restricting once, to the indices that the second restriction picks of those of the first. Restricting an axis to all of its indices in order changes nothing. The bounding indices of an array that was restricted along another axis are the bounding indices of the array, restricted in the same way.", "quantifier": "for all shapes, all axes counted from either end, all lists of indices within the axes, also negative ones, and all targets", "why_tests_cant": "There are infinitely many arrays, axes and lists of indices; each restriction moves an axis to the front and back again.", "anchors": ["src/goats/core/interpolation.py:60-81", "src/goats/core/numerical.py:9-53"]}
