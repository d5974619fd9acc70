# Formal model of goats: design

Subject: `myoung-space-science/goats`, read as text from `/repo` (never built or run).
Technique: shallow functional models in Lean 4 with machine-checked proofs.

## 1. Trusted base

* Lean 4.33.0's kernel, and Mathlib where imported (single modules only).
* Axioms: at most `propext`, `Classical.choice`, `Quot.sound`. No project axiom,
  no `sorry`/`admit`, no `native_decide`/`bv_decide`.
* The reading of the Python source. No code is executed, so the only tie between
  model and code is the citation (file and lines) on each definition.

## 2. General modelling decisions

* Exceptions are values: a function that may raise returns `Except Err α`, one
  constructor of `Err` per exception class we distinguish.
* Python `dict` is an association list with distinct keys in insertion order
  (assignment to a present key keeps its position, deletion removes it).
  Python `set`s are duplicate-free lists; where the code's result depends on the
  (unspecified) iteration order of a set, the theorem is stated up to permutation
  or for every enumeration order.
* Objects with mutable state are state structures with one pure step function per
  method; histories are lists of operations.
* Names are an arbitrary type with decidable equality where the code only compares
  them, and `List Char` where the code looks at characters.
* Python floats are modelled by rationals (`Rat`), or, in semantic statements
  with fractional powers, by reals. Arithmetic on them is exact: its rounding, NaN and infinities are NOT modelled.
* The conversion `float(x)` of a rational is modelled in `Py/Float.lean` (`toFloat`: binary64, to the nearest, ties to even,
  subnormal numbers, `OverflowError`) and used where the code converts: constants that the symbolic parser reads, powers of
  expressions, comparison of terms (C20), hashes of terms (C202), and decimals in configuration files and C headers. `IsDouble` is
  the independent specification of the numbers that are floats; `toFloat_nearest` and `isDouble_toFloat` show that the result
  is a float that is nearest to the number.
* numpy arrays are functions from index vectors, or (nested) lists. numpy, scipy,
  netCDF4, `re`, the file system and `inspect` are external: their behaviour enters
  as parameters or small models stated in the file that uses them.
* Not modelled: string formatting of displays/reprs, docstrings, deprecated
  constructor overloads, `__hash__`, threads.

## 3. Layout

`lean/Verif/<Area>/Model.lean` mirrors the code, `Spec.lean` (when needed) holds the
independent specification, `Lemmas.lean` the helper lemmas and `Props.lean` the
property theorems with their non-vacuity examples and counterexamples.

When the code violates the stated property there is a counterexample theorem
(`..._counterexample`), plus a `..._partial` theorem for the part that holds.

## 4. Plan per property

| id | modelled | proof |
|----|----------|-------|
| C01 | `unique` as a left fold | induction; Nodup, membership, first-occurrence order, idempotence |
| C02 | `unwrap`, `whole.parse` on a rose tree of lists/tuples/atoms | structural induction |
| C03 | `transpose_list` with indexing errors | index-wise equality |
| C04 | `slice_to_range` with truthiness of `0`/`None` | counterexample `stop=0`; partial for `stop≠0` |
| C05 | `show_at_most` on lists | length computation; counterexample `n=0` |
| C06 | `Bijection` over dict model | lookup of inverse; involution |
| C07 | `ObjectRegistry` state machine | counterexample history; partial with no clash |
| C08, C09 | `Table` search modes | exactly-one characterisation; agreement of modes |
| C10 | `Connections` state machine | invariant by induction over additions |
| C11 | `Guard.call` over an abstract subclass relation | case analysis; counterexample proper subclass |
| C12 | `distribute` | case analysis, length/index equations |
| C13 | `Groups` operations | invariant; counterexample for `merge`/constructor bridging |
| C14 | `MutableMapping` state machine | refinement to a list of (group, value) |
| C15 | `Mapping` construction | invariant of the build fold |
| C16 | `NameMap` | lookup equation |
| C17-C20 | `Term`, `reduce`, `Expression` operators | canonical form by sortedness + permutation; semantics by multiplicative valuation |
| C21 | `Operand` constructor with `or 1` | counterexamples and the non-zero partial |
| C22-C24, C26 | tokenizer/parser over `List Char` | well-founded recursion, round-trip by induction on terms |
| C25 | `find_bounds` scan | invariant relating count and depth |
| C27 | whole unit/prefix table | `decide +kernel` on the whole table, collision list |
| C28 | `ratio` | field arithmetic |
| C29, C30 | `Conversion` graph search with visited set | decreasing measure; soundness by induction; completeness or counterexample |
| C31 | dimension of unit expressions | homomorphism proof |
| C32 | `Dimensions.merge` | ordered-union laws |
| C33 | `Operation` declarations | decision-logic theorem by induction over declarations |
| C34 | unit metadata of operators | case analysis |
| C35-C38 | searches over rational lists | induction, sortedness |
| C39, C40 | index normalisation | arithmetic; exact conditions for ellipses and for `reshape`; counterexamples |
| C41-C43 | array object state machine | refinement to `scale * values`; counterexample for copies |
| C44 | broadcasting by axis name | index calculation |
| C45, C46 | list operations on names/rows | index-wise equality |
| C47 | axis indexer | case analysis |
| C48, C49 | config-file lines over `List Char` | round trip by induction over lines |
| C50-C52 | runtime parameter evaluation and caches | fuel/rank induction; counterexamples for zero |
| C53 | config comparison | dict lemmas |
| C54-C56 | EPREM helpers | list lemmas, dependency-rank induction |
| C57-C59 | observing context state machine | invariant/refinement, counterexample for stale names |
| C60-C62 | observer lookups, spell checker | edit characterisation, counterexamples |
| C63 | operational argument | case analysis |
| C64, C65 | element and constant tables | whole-table `decide`, counterexamples |
| C66-C68 | path search, instance cache, viewers | list search lemmas, state machines |
| C69, C70 | measurable parsing, in-place operators | case analysis, counterexample |
| C72 | the instance cache of `NamedUnit` as a state machine | invariant of the cache, uniqueness of spellings; counterexample `cd` |
| C71 | abstract syntax trees, rendering, valuation in the reals | induction over trees: parser loop on rendered text, then value of the terms |

| C73-C77, C83, C84 | `Conversion` on strings and on expressions, any table, any iteration order | magnitudes as an invariant of chains; counterexamples evaluated in the kernel |
| C78, C80, C81, C86 | quantities table, recursive formula evaluation with a recursion limit | whole-table `decide +kernel`, monotonicity in the limit |
| C79 | `Unit.__eq__` | case analysis; counterexamples |
| C82 | parser on names | round trip of C22; counterexamples with non-ASCII symbols |
| C85 | declared conversions with symbolic pi | field identities |
| C87, C88 | `Dimensions` comparison and sums | permutations; counterexamples |
| C89 | `Operation.copy` | case analysis; counterexample |
| C90 | `Operands.agree` | induction over names and operands; counterexample |
| C91 | `Name` operators | meaning of rendered trees (C71); counterexample |
| C92 | `interpolation.apply` for one- and two-dimensional references | piecewise-linear specification; counterexample |
| C93 | `_ufunc_hook` with mismatched sizes (`Arrays/MismatchProps.lean` for any axes) | evaluation of the bounds check, induction on the axes; counterexample |
| C94 | `_normalize_indices` with lists | induction over axes; counterexample |
| C95, C96 | configuration lines, `Interface.__init__` | string lemmas, independence of marker order; counterexamples |
| C97, C98 | `Method.parse`, units of computed quantities | induction over the signature; counterexamples |
| C99-C101 | spelling of requests, aliases of constraints, units of compositions | state machine, parser reuse, counterexamples |
| C102-C103 | updates of an EPREM observer | state machine with invariant, counterexamples |
| C104 | observing compositions | parser reuse, additive exponents |
| C105, C106 | read-only paths, unsupported file types | case analysis, counterexamples |
| C107 | declared electromagnetic conversions | field algebra from Coulomb's law, counterexamples |
| C108-C111 | operational arguments: casts, items, equality, construction | case analysis, counterexamples |
| C112, C113 | `v_para`, `v_perp`, `flow_angle` over the reals | algebra with square roots; counterexample for the angle |
| C114, C115 | `xyz2rtp`, `rtp2xyz`; `arctan2` is the argument of a complex number | trigonometry, case analysis, counterexamples |
| C116-C118, C126 | `div_v`, `density_ratio`, `rigidity`, `mean_free_path`, `flux` | exact evaluation of the difference formulas; algebra |
| C119, C120, C122 | sums over speeds, pitch angles and times | induction and bounds on finite sums |
| C121, C123, C124 | `integral_flux`, `_interpolate` with the search of C36 | sign of quadrature weights; counterexamples |
| C125 | `acceleration_rate` along shells | case analysis at the ends |
| C127, C128, C139 | the shipped database and metadata, every configuration file | evaluation lemmas of C51 plus kernel evaluation over the whole table; counterexamples |
| C129, C130, C137 | constants of `baseTypes.h`, evaluated through the parser of C17-C26 | induction on the rank of definitions; semantics of C expressions; counterexamples |
| C131-C133 | regular expressions for headers and sources, as scanners | string lemmas; induction over lines; counterexamples |
| C134, C135 | standard definitions and the JSON database | induction over entries; counterexamples |
| C136 | alias groups of the shipped tables | every order of enumeration, by disjointness of the groups |
| C140-C143 | axis indexers: positions and values for every kind of request, over abstract units | the nearest value of C35 and measuring of C69; counterexamples |
| C144-C148 | `Context._observe` for quantities over time and shells, or along pitch angles | interpolation lemmas of C92, affine functions, shape of nested lists; counterexamples |
| C149-C151, C153 | the functions of `computed.py` on whole arrays of any size; registered signatures | numpy broadcasting by shapes and positions; evaluation at each position; counterexamples |
| C152 | the pointwise functions under a change of units | homogeneity of each formula; counterexamples for formulas with constants |
| C154 | reference quantities, units and conversions | kernel evaluation over the whole table, monotone in the recursion limit |
| C155-C158 | `Unit.quantity`, `Unit.norm` over the tables, with the recursion limit as a parameter | specification by exponents (`normExp`); general lemma for arbitrary tables, then facts about the tables by kernel evaluation |
| C159, C160 | `System.get_unit` and its searches | induction over the table; C78 for the dimensions |
| C161, C162 | `Unit.__or__`, `_validate_unit`, `apply_unit` | case analysis for arbitrary tables; counterexamples by kernel evaluation |
| C163, C164 | `Quantity.__or__`, `_Converter` | as C161 |
| C165, C166 | five implementations of `object[unit]` | case analysis with the operations on units as parameters |
| C167-C169 | `_UnitMeta.__call__`, threaded with the cache of `NamedUnit` through any history of calls | invariants of both caches, induction over the history |
| C170-C175 | `|`, `==`, `copy`, `squeeze`, `fromkeys`, `alias(key)` of aliased mappings; `NameMap` as an object with `invert`, iteration, `copy` | invariant of the groups; lookup equations; a simulation for C172; counterexamples for overlapping groups, equality without aliases, strict squeeze of an empty mapping, and inverted maps |
| C176, C177, C178 | creation, comparison and change of unit of `measurable.Quantity`, `physical.Quantity`, `Scalar`, `Vector` | case analysis, order of rational numbers, magnitudes of units; counterexamples |
| C179, C180 | `__getitem__` of vectors, assumptions, measurements and expressions; casts | Python's rule for indices; double wrapping proved for all lengths |
| C181, C182 | `Quantified.implement` with metadata of results, over abstract operations on units | inversion of successful operations; magnitudes as homomorphism |
| C183, C184 | `Parameters` as lists of names; `set` iterates in an arbitrary order | equality of lists without repetition is permutation |
| C185, C186 | `Observation` and `observed.Quantity` over arbitrary data, axes and assumptions | case analysis; lookups in dictionaries |
| C187 | `Observable.__eq__` with attributes from the context | inversion; witnesses |
| C188 | names with functions and their arguments; parameters as collected by `get_observable` and `_build` | inductive dependency relation; the registered functions (`Shapes`) as witness |
| C189, C190 | `__array_ufunc__` for functions of one and two arguments, over real data and abstract units | magnitudes as homomorphism; homogeneous functions |
| C191 | the same, for the five arithmetic functions and all other functions of two arguments | inversion of successful calls |
| C192 | `__array_function__` | case analysis |
| C193 | numpy arrays and objects with identities; `out=` | objects refer to numpy arrays that are only appended |
| C194-C196 | mappings built from the members of a dataset and groups of aliases | disjoint entries (C15); the groups of `reference.py` are disjoint |
| C197 | interface with cached mappings | case analysis |
| C198, C199 | lookup with a cache, over abstract units | invariant of the cache; inversion |
| C200 | `OperandFactory.create` with one to three arguments | texts of nested operands with a denotation; induction over the nesting, patterns of the parser (C22) |
| C201, C202 | comparison of terms with strings, numbers and terms; attributes that are hashed | round trip through C200; an arbitrary rounding function |
| C203 | `difference` on lists of terms | sets as lists; permutations |
| C204, C205 | `apply`; products with numbers | fold over terms; totals of expressions (C19) |
| C206 | evaluation, casts, indices | case analysis; Euclidean division |
| C207 | expressions as people write them (`Layout`) | induction over written expressions, with the text that follows as a parameter |
| C208 | layout does not matter; equality of written expressions | from C207 and C20 |
| C209 | numbers as written | decimal grammar, induction over digits |
| C210 | square roots | from C207 |
| C211 | arithmetic of reductions (`Reductions`) | assembled form of expressions; exact factor of the printed number |
| C212 | reductions against definitions of units | independent definitions; tables checked by the kernel, the printed and parsed scale in general |
| C213 | the function `reduction` | induction over terms; definitions of C212 |
| C214 | `Dimension.quantities` | C20 for arbitrary tables; the actual table parses (kernel) |
| C215 | `Dimensions` | dictionaries |
| C216 | instances of `Quantity` and `System` | invariant over histories of calls |
| C217 | `Restriction.apply` (`Helpers`) | arrays of any dimension as functions of positions |
| C218 | `batch_replace` | induction over the table; simultaneous substitution as specification |
| C219 | `getattrval`, `setattrval`, `equal_attrs` | objects as dictionaries |
| C220 | `Singleton` | invariant over histories, class attributes found by the order of lookup |
| C221 | `UniformMapping` | dictionaries; call of a constructor |
| C222 | `class_attribute` | induction over the chain of classes |
| C223 | `apply` | induction over methods |
| C224 | operators on expressions agree with written operators (`Layout/ArithProps.lean`) | totals of the terms of a text under integral powers (induction over texts), C207 and C19 |
| C225 | `physical.Array.__getitem__` with entries (`Subscripts`) | entries in C order; induction over axes; slices by `positions_selects` |
| C226 | lists of positions in subscripts | induction over axes, `numpy.ix_` as independent positions |
| C227 | entries of `variable.Array.__getitem__` | C40 for the shape, offsets are not changed by axes of one position |
| C228 | subscripts and units | selection commutes with functions on entries |
| C229 | `NameMap(groups, refs)` (`Aliased/GroupProps.lean`) | invariant of `alias` (C14, C16); members of the dictionary of updates |
| C230 | index of the shell axis (`Axes`) | cases of requests |
| C231 | `observables`, `without`, `__getitem__` of observers (`Observing/WithheldProps.lean`) | C13 and C60 for plain names |
| C232 | `Expression.__hash__`, `__eq__` (`Terms/HashProps.lean`) | C20 for floats; reduced expressions with the same terms are the same list |
| C233 | `ismeasurable`, `measure` (`Measurable/Is.lean`, `IsProps.lean`) | induction over the specification of measurable objects of C69; cases of flat collections |
| C77 (products) | `_resolve_terms` on any number of pairs (`Metric/ProductProps.lean`) | invariant of the loop: the unmatched terms are those of the remaining pairs; units of different quantities are not connected |
| C234 | `NamedUnit.__eq__`, `__hash__` (`Metric/Compare.lean`, `CompareProps.lean`) | prefixes differ in their factors (whole table) |
| C235 | `conversion` | cases; counterexamples evaluated in the kernel |
| C236 | `_convert_as_expressions` on units with numbers | the terms that are paired are determined by the exponents |
| C237 | `ratio`, both `__floordiv__`, `conversion` | units that differ in the prefix are converted at once, with the ratio of the magnitudes |
| C238 | coordinates in `Context._observe` (`Axes/Reference.lean`) | the names of coordinates from the table of aliases; C140-C148 for the rest; counterexample |
| C239 | energies off the grid in `Context._observe` (`Axes/Reference.lean`) | C92 for each species; counterexample |
| C240 | `__eq__` of arrays (`Arrays/Equality.lean`) | case analysis, lists without repetition that contain each other are permutations; counterexamples |
| C241 | `Display`, `ReprStrMixin` and the displays of quantities and options (`Display`) | induction on format strings as lists of characters and fields; counterexamples |
| C242 | `DisplayString` (`Display`) | split and join are inverse to each other, by induction |
| C243 | `SourceFile` (`Files/Source.lean`) | case analysis over file systems; counterexample |
| C244 | `integral_flux` (`Physics/InvarianceProps.lean`) | exactness of the quadrature for affine fluxes, positive panels; counterexample |
| C245 | functions of field and velocity (`Physics/InvarianceProps.lean`) | all of them are functions of products of vectors |
| C246 | `integral_flux` with inserted axes (`Shapes/SingleProps.lean`) | reduction to C149; counterexample |
| C247 | `Observer.time`, `shell`, `species`, `energy`, `mu`, `index.Array` (`Axes/Whole.lean`, `Axes/WholeProps.lean`) | induction over the positions; counterexample |
| C248 | `plasma.Species` as an object (`Fundamental/Species.lean`) | invariant of the stored answers; C64; counterexample |
| C249 | `aliased.Groups` with the methods of `MutableSet` (`Aliased/Sets.lean`); `str(group)` is any function | finite sets; induction; counterexample |
| C250 | `OperatorFactory`: `register`, `operations`, `implement` (`Metadata/Factory.lean`) | invariant of all lists of parameters, by induction over the events |
| C251 | Operators of `aliased.Group`, `iterables.unwrap`, `whole` (`Aliased/Operators.lean`); hashes for small numbers as in CPython | induction over the nesting; finite sets; counterexample |
| C252 | `fluence` as in C122 (`Physics/FluenceProps.lean`) | sums over panels: reindexing, reflection; counterexample |
| C253 | `average_energy`, `flux` as in C149 (`Shapes/MassProps.lean`) | C119 and C149; algebra; wrong for all other masses |
| C254 | `compute_index`, `_subscript`, `_observe` without interpolation for any number of axes (`Axes/Stored.lean`) | induction over axes, with C226 and C140; `IndexError` for every shown axis of numbers that are not integers |
| C255 | `implements`, `__array_function__` and `_HANDLED_FUNCTIONS`, for any hierarchy of classes (`Dispatch`) | induction over registrations; the class that owns the dictionary; counterexample in the classes of goats |
| C256 | `_mean`, `_squeeze` with axes by position or keyword and `keepdims` (`Dispatch`) | shapes compared with those of numpy; fails for every quantity of two axes or more |
| C257 | numpy's choice of a method among the arguments (`Dispatch`) | case analysis over the classes, any number of arguments; fails for every mixture |
| C258 | `whole.__eq__`, `Operands.__eq__` (`Iterables/Equality.lean`) | sorted lists are equal iff permutations; errors characterised; counterexamples |
| C259 | `Interface.config` on the mapping of C136 (`Defaults/ConfigProps.lean`) | from C136; counterexample for all values |
| C260 | the functions of C149 on arrays of any shape (`Shapes/AmountProps.lean`) | linearity of each numpy operation, composed; exceptions included |
| C261 | `integral_flux` for one series (`Shapes/AmountProps.lean`) | linearity of Simpson's rule and C124; counterexample |
| C262 | `rtp2xyz`, `xyz2rtp`, and the observables `x`, `y`, `z` over real numbers (`Physics/PositionProps.lean`) | C114 and C115 composed with `arccos (cos θ) = θ`; counterexample at the azimuth 3π/2 |
| C263 | `integral_flux` on arrays of any shape (`Shapes/EnergyUnitProps.lean`) | scaling of the search for the nearest energy, of the power-law fit and of Simpson's rule, composed; exceptions included |
| C264 | `_apply_interp1d` for references of one and two dimensions, ascending, over ordered fields (`Numerical/UnitProps.lean`) | every step (nearest position, bounding indices, selection, line) commutes with an affine change of the reference and of the array |
| C265 | the same for one dimension | linearity of each step; exceptions included |
| C266 | the same for one dimension | C92 and the position of the target relative to the reference; a line between two points is monotone and between their values |
| C267 | `Context._observe` with interpolation in time, shell and radius, as in C145 (`Axes/UnitProps.lean`) | C264 for each step; membership with the relative tolerance of `numpy.isclose` is invariant |
| C268 | the same | C266 for one-dimensional references; for two dimensions the restricted reference is still ascending |
| C269 | the same (`Axes/SumProps.lean`) | a relation between three results (all fail alike, or the third is the sum) that each step preserves |
| C270 | the same (`Axes/TimesProps.lean`) | each step acts on rows independently; C92 at stored times; counterexamples |
| C271 | `ConfigFile._parse` (`Runtime/OrderProps.lean`) | the pass is an update of an empty dictionary by the pairs of the accepted lines; lookup in permuted lists with distinct keys |
| C272 | the same (`Axes/ShellProps.lean`) | columns are selected independently; a shell beyond the dataset fails in every list; counterexample |
| C273 | `Expression.__pow__`, products and quotients (`Symbolic/PowerProps.lean`) | expressions are determined by their total coefficient and exponents, which powers multiply; counterexample for the power 0 |
| C274 | as C44 (`Arrays/ProductProps.lean`) | C44 for the entries, C32 for the order of axes |
| C275 | `find_nearest` (`Numerical/NearestProps.lean`) | the steps compare distances, which a unit multiplies by a positive number; the middle between two nearest values separates the targets |
| C276 | the same (`Axes/OrderProps.lean`) | the difference is nowhere negative: its observation is not negative (C268), and adds up with that of the lesser quantity to that of the greater (C269) |
| C277 | `div_v` (`Physics/LawProps.lean`) | each of the three formulas of numpy's gradient is homogeneous in the times and linear in the logarithms |
| C278 | `v_para`, `v_perp`, `flow_angle`, `acceleration_rate` (same file) | over the reals; the acceleration depends on the squares of sine and cosine of the angle only |
| C279 | `rigidity`, `mean_free_path` (same file) | over the reals; the charge cancels in the ratio of rigidities |
| C280 | `acceleration_rate` (same file) | over the reals; the change of speed scales with the flow, the diffusion length inversely |
| C281 | `Observing.found` after any history | the constraints in force after the event agree as finite maps; look-ups depend on nothing else |
| C282 | the parser (`Symbolic.parse`, `ofString`) | every text that the parser passes on is part of the original; names are matched by the regular expression |
| C283 | `Runtime.evaluate`, `lookup` | `Concerns` is the least set of texts that reach a difference; induction on the depth of the evaluation, parts of a sum, factor bases (C282) and members are parts of the text |
| C284 | `applyOne` on lists of points | from the characterisation of C92; the target lies between two neighbours that the refinement leaves alone, between the two where the point is added, or outside |
| C285 | `tableCall`, strict | from C08: the result is a function of the list of matching entries |
| C286 | `convertStrings` on graphs of declarations | existence from C30, uniqueness of the factor from C29 |
| C287 | `reduce`, `exprEq` | the dictionary of the reduction commutes with the change of its keys; sorting is a permutation |
| C288 | `findNearest` | from C35: the first position of the least distance is moved by the insertion and stays the first |
| C289 | `suggestions`, `check` | filters of lists of words; the words at one edit are empty or not before and after |
| C290 | `getObservable`, `dependency` (Shapes/Depend) over the registry | levels of the registered functions by decision over the table; induction over levels; the arguments are those of C97, as numbers come last in every signature. **Fails in the code** for datasets without the particle distribution |
| C291 | `physical.Array.__getitem__` twice (`Subscripts`) | the scale of the result is 1; chunks of chunks; induction over axes; `a[i][None]` has no new axis |
| C292 | `isotropic_distribution`, `energy_density`, `average_energy` (`Physics`) | bijection of summands; mediant inequality; weights of the reversed grid |
| C293 | `MutableMapping.__setitem__`, `__delitem__`, `alias` (`Aliased`) | lookups and aliases after each update as functions of those before (C14, C172); cases |
| C294 | `string_to_list` (`Runtime/ListProps`), given what `cast` reads | induction over entries; stripping of paddings; digits of integers. **Fails in the code**: `[ ]` is rejected |
| C295 | `get_bounding_indices` with `numpy.apply_along_axis` for arrays as shapes with entries at positions (`Helpers/BoundProps.lean`) | each line is given to `find_1d_indices` (C37); violated for descending lines |
| C296 | `Restriction.apply` and `get_bounding_indices` (`Helpers/RestrictProps.lean`) | entries are followed through both orders of steps with C217; writing to different places of a position can be exchanged |
| C138 | `compare_arguments` on a disk with a current directory | longest common prefix; counterexamples |

## 5. What is modelled, per area

### iterables (C01-C12), aliased (C13-C16, C170-C175)

`lean/Verif/Iterables`, `lean/Verif/Aliased`. Function by function; see the comments on the
definitions. Other iterable types than list/tuple are not modelled in C02. `Aliased/Views.lean` has the operations that make
or compare whole mappings. A value of a mapping is opaque there: values that are themselves mappings with a key `aliases`, from
which the constructor would take names, are not modelled, and `fromkeys` is modelled for names and groups of names.

### symbolic (C17-C26, C71)

* `Model.lean`: `Operand`/`Term`, powers and scaling with the `or 1` defaults, `reduce`,
  `Expression.__eq__`.
* `Parser.lean`: the regular expressions as backtracking matchers that list all matches in Python's
  order of preference (each definition cites the pattern), `find_bounds`, operand and operator factories, the parsing loop with its strict
  order check, formatting, and the operators of `Expression` (which format and parse again).
* A power `x ** q` of a number with fractional `q` is only modelled where it is exact; otherwise
  the model reports `inexact`. Only ASCII digits and blanks are considered.
* Constants are converted by `float` when they are read, and `Expression.__pow__` converts the exponent and hence all numbers of
  the result. So theorems on written numbers assume floats (`IsDouble`), and those on powers that the exponents stay exact
  (`FloatPow`; for units a bound of 2^53 on the exponents). `c22_float_counterexample` shows an expression, `a/3`, that is not
  what is read from its own text. Products and sums are exact, in the code too (`fractions.Fraction`).
* Comparison in `exprEq` is exact, while the code compares floats. `FloatProps.lean` has the comparison of the code, `exprEqFloat`;
  it agrees for floats (`c20_float_partial`) and not in general (`c20_float_counterexample`).
* Recursion of the parser is modelled with fuel; `c23_parse_total_partial` shows that the fuel
  is never exhausted and that more fuel changes nothing.
* `Spec.lean`: expression trees, how they are written, when a tree is well formed.
  `Semantics.lean`: values in the reals.
* Defects found: falsy zero (C21); only one digit of a denominator is read (C26), which also
  breaks the group laws since results are formatted and parsed again (C19); names that start with
  `sqrt` (C22); undocumented arithmetic errors (C23).

### metric (C27-C31, C72-C86)

* `Tables.lean`: prefixes, base units and quantities, transcribed entry by entry.
* `Units.lean`: the table of named units (as an aliased mapping, in the order of the code, so that
  later entries win), `identify`, `ratio`, and the instance cache of `NamedUnit.__new__`.
* `Convert.lean`: string-level conversion: the search through declared conversions with its list of
  checked units, and the prefix-rescaling shortcuts. Stated for any graph, any table of named units
  and any order of the (unordered) set of units. The factors live in a field; `1/0` is guarded as in
  the code, and prefix factors are assumed non-zero (Python raises `ZeroDivisionError` for the blank
  prefix).
* `Conversions.lean`: the declared conversions, with `numpy.pi` as a parameter.
* Defects found: `cd` means both candela and centiday (C27), and what it denotes depends on the
  named units created before (C72).
* `Quantities.lean`, `Canonical.lean`: the table of quantities and the recursive evaluation of
  formulas (`_Property`), with the recursion limit of Python as a parameter. The evaluated
  tables are stored and proved equal to the evaluation.
* `Dims.lean`, `Actual.lean`: decomposition of units, dimensions of units in both systems, and
  the conversion of unit expressions (pairing of terms, reduction to base units); `Actual` instantiates
  them with the tables of the module and a fast lookup proved equal to the modelled one.
* `Magnitudes.lean`: the magnitude of each named unit as determined by the declared conversions
  (specification, used in C74, C83). `ExprConvert.lean`: soundness of the pairing of terms.
* Real powers: the factor of a term `u^q` is `f^q`. In evaluated examples only integral `q` occur.
* Defects found: prefixed electromagnetic units cannot be converted (C73); conversions that work in
  one direction only (C75, C77); au to eV, ohm to V, min to 1 "converted" with factor one (C76, C79);
  `kg km s^-2` to `N` is 1 instead of 1000 (C83); `A m^-1` to `Oe` fails while `A / m` works (C84);
  wrong dimension of permittivity and resistance, misspelt `illumunance` (C78, C80, C86); RecursionError
  for unknown quantities (C81); the farad and henry-per-meter factors (C85); `Ω` and `μ` are not
  accepted by the parser (C82).

### metadata (C32, C33, C87-C91)

* `Dimensions` as lists of names (merge, equality, sums, hashing); `Operation` with its lists of supported and
  suppressed types over any subtype relation; `Operands.agree` over dictionaries of attributes; `Name` as lists of
  aliases with the operators that build the names of computed quantities.
* Not modelled: the dispatch of numpy ufuncs, `Attribute` registration, and the display classes.
* Defects found: equality of axes ignores order and duplicates and accepts strings (C87), so that transposed
  arrays can be added (C88); suppressing fewer types than operands suppresses too much (C33); copies of operations
  lose their declarations (C89); `agree` raises IndexError or skips operands (C90); names of nested quotients
  and powers denote something else (C91).

### measurable (C34, C69, C70)

* `parse_measurable` for nested lists and tuples of numbers, strings and `None` (`Unit` objects and arrays are not
  modelled), with `distribute=False`; `Unit._add_sub`, `Unit.__mul__`, `Unit.__truediv__`; `Quantified.implement` in the forward
  and in-place modes for scalar quantities. Nesting is bounded by fuel; the theorems hold for all sufficient fuel.
* Defects found: sums of unlike units are accepted when unit equality is wrong (C34); values are dropped
  silently while parsing (C69); in-place operators always raise `ValueError` after the data were changed (C70).

### numerical, interpolation, physical (C35-C38, C92)

* `lean/Verif/Numerical`: `find_nearest` with its three modes (the walk to a bound with Python's negative
  indices), `find_1d_indices`, the restriction of coordinates along either axis, and `apply` with `interp1d` as the
  straight line between neighbours. Values live in any linearly ordered field; NaN is not modelled.
* Defects found: repeated reference values invert the bounds and empty the range (C37, C38); along the first axis
  only two columns are used (C38); a two-dimensional reference that contains the target gives one value only (C92).

### variable, physical arrays, axis (C39-C47, C93, C94)

* `lean/Verif/Arrays`: subscripts (integers, slices with Python's clipping for both signs of the step, ellipses,
  lists), shapes of subarrays and numpy's `reshape`; the object state of an array quantity (data, cache, scale factor, unit),
  reads, copies and conversions; products aligned by axis names (`numpy.ix_`, integer-array indexing with its bounds
  check, broadcasting of arrays of equal rank); names after `mean` and `squeeze`; shifts of shells; the default indexer.
* The behaviour of numpy itself is part of the model and hence of the trusted base. Arrays are functions from positions;
  dtype, memory order and views are not modelled. `Unit.__or__` leaves out the comparison of named quantities.
* Defects found: entries after an ellipsis are dropped (C39); slices next to lists are ignored and integers rejected
  (C94); integers with strided, negative or overlong slices, with trailing axes or with an ellipsis raise ValueError, or exchange the sizes
  of two axes silently (C40);
  conversions depend on the path for compound units (C42); copies of converted quantities forget their scale (C43);
  axes given by negative numbers (C45); fractional targets are truncated (C47); longer operands are truncated (C93).

### runtime parameters (C48-C53, C95, C96)

* `lean/Verif/Runtime`: `strip_inline_comments`, `ConfigFile._parse` (texts with line ends read as line feeds),
  `compare`/`diff`; the evaluation of parameters (`_evaluate`, `_resolve`, `_compute_sum`, `_get_argument`, `_convert`) with
  a bound on the recursion depth; the caches of `Runtime` under updates of paths; `Interface.__init__`.
* `int`, `float`, `string_to_list` and `**` are parameters of the model (any reader; in examples and for the shipped tables,
  decimals are read as the nearest float, and those too large are not read); the reading of
  `configuration.c` and `baseTypes.h` is not modelled, their contents are arbitrary tables.
* Defects found: white lines, `=` in comments, indented comments (C48); empty entries (C50); sums equal to zero, more than two
  terms, negative numbers in products (C51); stale names (C52); blanks before `=` (C95); ignored options (C96).

### EPREM datasets (C54-C56, C97, C98)

* `lean/Verif/Eprem`: `standardize`, `Axes.resolve`, `Functions.get_dimensions` with its accumulators and cache, `Method.parse`,
  `computed.Quantity.__getitem__`. Python sets are duplicate-free lists. netCDF access is not modelled.
* Defects found: fractional exponents in units (C54); arguments in the wrong order (C97); relabelled units (C98).

### spelling, observing contexts and observers (C57-C62, C99-C104)

* `lean/Verif/Spelling`: the four kinds of edits as the code enumerates them, suggestions and the modes of `check`. The specification
  is an inductive relation `Edit` that does not mention the enumeration.
* `lean/Verif/Observing`: a context as a state machine with its caches (constraints, names, values, indices); the
  mappings, aliases, constants and axes are arbitrary tables and functions. `get_metadata`, `_build` and `_observes` run the modelled
  parser of symbolic expressions. Units and observed quantities are written additively (a vector space over the rationals), because
  `*` and `**` of the real ones were modelled elsewhere. Requests through `Interface.__getitem__` keep the state of the spell checker.
* `lean/Verif/Eprem/Observer.lean`: creation and updates of an observer over a model of the file system, with cached paths.
* Not modelled: interpolation of observations, the wiring of `Observation` objects, plotting.
* Defects found: available names are those of the first query (C58); names that cancel decide nothing, and only the first of a collection
  is looked at (C60); no insertion at the end of a word, so short words get no suggestions (C61); the second unknown name raises `TypeError`
  (C62); the spell checker gets groups of aliases, so that `SpellingError` is never raised (C99); constraints act under the given
  alias only (C100); the exponent of the first name is ignored in units (C101); updates return to MKS (C102) and combine new
  data with an old configuration file (C103); multiples of quantities cannot be observed (C104).

### files (C66-C68, C105, C106)

* `lean/Verif/Files`: a file system as two lists of absolute paths (no links, permissions or user directories), `search`,
  `find_file_by_template`, the metaclass cache of path-based objects, the table of viewers, and the methods of `ReadOnlyPath`.
* Defects found: a missing directory ends the search with an exception (C66); the cache is shared between classes (C67); viewers are
  replaced for all datasets of the type (C68); read-only paths are ordinary paths (C105); any file type is accepted (C106).

### elements, species and constants (C64, C65, C107)

* `lean/Verif/Fundamental`: the tables of elements and constants, copied by a script with exact decimals; `elements` with Python's
  rounding; `Species.charge` and `Species.mass`. Constants are compared by an independent table of SI values and dimensions, and by
  the modelled conversion of units. `lean/Verif/Metric/GaussProps.lean`: the laws that determine the electromagnetic factors.
* Defects found: Ca, Co, Po, Cm and Db get the symbols of other elements (C64); the CGS value of c1; conversions of the units of six
  constants (C65); factors written for c in m/s but evaluated with c in cm/s, and `1e7 / 4*PI` (C107).

### operational arguments (C63, C108-C111)

* `lean/Verif/Operational`: `Argument` over numbers, Booleans, strings, sequences and arrays (by their items). Conversions of types
  within numpy arrays, and making `Scalar` objects of the items, are not modelled.
* Defects found: truth of several physical values (C63); strings such as `42` are not converted (C108); indices before the start wrap
  twice, single values have no items (C109); equality depends on the order (C110); lists of options are rejected (C111).

### physical quantities (C112-C126, C244, C245)

* `lean/Verif/Physics`: the functions of `computed.py` that act element by element, at one element; those that combine elements
  along an axis, for any number of elements. Roots, logarithms, powers and angles are those of the real numbers; rounding, NaN
  and infinities are not modelled, so theorems exclude division by zero. `numpy.gradient` and `scipy.integrate.simpson`
  (of scipy 1.9.3, the version in poetry.lock) are part of the model and hence of the trusted base. Alignment of array axes is the subject of `Shapes`.
* Defects found: `flow_angle` calls `v_para` with the fields exchanged and so divides by the speed twice (C113); plain numbers in
  `xyz2rtp` (C114); azimuths on the negative y axis and the z axis (C115); negative integral fluxes on uneven energies (C121); minimum
  energies from the greatest energy on (C123); integral fluxes that rise with the minimum energy (C244).

### packaged definitions (C127-C139)

* `lean/Verif/Defaults`: `Tables` holds `runtime.json` and the metadata of `runtime.py` entry by entry; `Model` the
  evaluation of constants, the scanners for `baseTypes.h` and `configuration.c`, the standard definitions and
  `generate_defaults`; `Compare` the comparison of configuration files.
* Literals are the nearest floats, and arithmetic is exact (in a field); character classes are ASCII; the regular expressions are scanners, which needs no
  backtracking because the lines are stripped and neighbouring classes are disjoint. JSON is a bijection on texts. The
  layout of printed comparisons and the texts of the values in them are not modelled.
* Roots of coefficients are computed by the symbolic model only for perfect squares (below 2^53, where floats are exact), which
  suffices for `MAS_B_CONVERT` in C129.
* Defects found: speeds in `cm/s` labelled `km/s`, the unit of `omegaSun` (C128); unknown names skipped, zero taken as one,
  constants without metadata (C130); digits in names, comments (C131, C132); commas in arguments (C132); arrays of several values,
  lost labels (C133); appending never adds (C135); `RSAU` inverted (C137); comparisons of one file, from another directory, and of
  equal files (C138); bounds never checked (C139).

### axes and observing (C140-C148)

* `lean/Verif/Axes`: the indexing methods of the EPREM axes, `axis.Indexer.normalize`, `index.Data`; the choice of axes to
  interpolate, interpolation over time, shell and radius and the final subscription, for one position along all further
  axes. Units are any type with the operations of `metadata.Unit` as parameters, and sizes as their meaning (`Sizes`); C27-C31
  and C73 relate the real units to such sizes. Numbers are rational.
* Not modelled: caching, constraints given as `index.Quantity`, energies interpolated on a grid of two dimensions together with
  other axes. For a radius exactly on the grid at some time, the model raises `AxisError`, as numpy does for quantities without
  further axes; with further axes numpy gives an array of the wrong shape.
* Defects found: all axis values are reported for a selection by position (C140); units of another kind ignored, empty slices
  (C141); energies of the first species (C142); pitch angles off the grid (C144); time and radius together: radii of the first
  times are used (C145), `IndexError` or missing rows (C146); radii in seconds, several radii (C147); times outside of the
  range (C148).

### arrays (C149-C154)

* `lean/Verif/Shapes`: an array is its shape together with an entry for every position; broadcasting, outer products,
  transposition and reduction along the last axis as numpy defines them are part of the model and hence of the trusted base.
  Entries are real numbers. `Registry` holds names, parameters and removed dimensions of the registered functions.
* The declared dimensions are those of `get_dimensions` (C56) for the names under which EPREM files store variables.
* Not modelled: data types.
* Defects found: several species (C150, C151); constants in MKS whatever the system (C152); files that list their dimensions
  in another order (C153); energies common to several species, where all but the first get zero (C246); members of the times an observer shows, which are positions (C247); masses and charges of species given as numbers (C248); unions of alias groups (C249); a name on the left of a group (C251); the factor for charge (C154, C107).

### metric systems (C155-C169)

* `lean/Verif/Systems`: quantities and norms of units, `System.get_unit`, `Unit.__or__`, `Quantity.__or__`, `_Converter`, and the
  five copies of the code that changes a unit by subscription (`Request`). Strings are built and parsed as in the code; the
  recursion limit of the interpreter is a parameter, since `UNITS[...]` recurses over compound names.
* `Dimensions.__init__` raises `TypeError` when a unit has no dimension in either system; this is left out, since each named unit
  is allowed in at least one system. The order of the two systems, which is that of a set, does not matter to the results.
* `Reduction` objects (metric.py 975-1026) are built by formatting and parsing the scale; the coefficient of the expression is
  exact in the model. A scale such as `1e-06` is parsed by `symbolic` as a product with a variable `e`, in the model as in the code.
* `Cache`: the process-wide mapping of `Unit` objects with that of `NamedUnit`. An object is a number (its identity) and its terms.
  All other parts of the model read a unit string afresh, as in a new process; C167 is what justifies this.
* The function `reduction` (metric.py 2791-2813) is part of `Reductions` (C213).
* Defects found: no norm for ratios such as `m / cm` (C155); `cd` (C156); capacitance and magnetic intensity between systems (C157);
  dimensions as text (C159); dimensions of permittivity and in `cgs` (C160); consistency not symmetric (C161); volts and ohms
  (C162); conversion outside of the quantity (C164); `'MKS'` (C165); exceptions of axis values, observable quantities in any unit
  (C166); units that depend on earlier calls: `cd` after `candela`, `astronomical unit`, `Ω` (C167); a new object for each `Unit('um')`
  (C168); strings parsed more than once (C169).

### quantities (C176-C182)

* `lean/Verif/Quantities`: single-valued quantities of the three classes and vectors, with unit and name. Units are any type with
  the operations of `metadata.Unit` as parameters; C34 and C83 relate the real ones to magnitudes. Numbers are rational.
* The suppressed combinations of operand types (C33) are written out for the declarations of `measurable.Quantity.__init__`.
* Not modelled: in-place operators (C70), arrays as operands (C41-C44), the text of floats in names (numbers are integers or
  fractions).
* Defects found: quantities with different names cannot be ordered, equality not transitive (C176); `Scalar(scalar)` and
  `Vector(vector)` without unit (C177); names lost by a change of unit (C178); `v[-n-1]` (C179); `abs(x) != x` (C182).

### observations and observable quantities (C183-C188)

* `lean/Verif/Results`: `Parameters`, lookups and equality of observations, equality of observable quantities, and the parameters that
  an EPREM observation lists. Data, axes, units and assumptions are arbitrary types.
* Iteration over a `set` is a parameter: any order of the members, each once.
* `Observation` objects are compared with their identities, since Python falls back to these.
* Simplified: the indices of an observation are a dictionary (as given by `Application.observe`), not an aliased mapping; the
  parameters of an interpolated or subscripted quantity, which copies its attributes, are those before.
* Defects found: repetitions, strings of letters, and hashes of parameters (C183); observations without assumptions,
  `observed.Quantity[unit]` (C185); equality of observations (C186); `Br == Bphi`, products of observables (C187); the acceleration
  rate does not list the parameters of the mean free path (C188).

### numpy functions (C189-C193)

* `lean/Verif/Ufunc`: `__array_ufunc__` and `__array_function__` of `variable.Array` and `physical.Array`. An array is a function from
  positions to real numbers, with a unit; units are any type with the operations of `metadata.Unit` as parameters.
* Names of numpy functions are those of the installed release (1.22), and select the entry of the table of operations
  (metadata.py 1059-1127), or none.
* Only the attribute `unit` is followed; dimensions and names have their own claims (C32, C44, C182).
* Not modelled: arrays without axes, for which numpy returns a number rather than an array; the methods `reduce`, `at` and others of a
  numpy function; broadcasting (both operands have the same positions); rounding.
* Defects found: comparisons ignore units, `a != b` raises an exception (C189); `numpy.square(q)` and other powers keep the unit (C190);
  `numpy.sum(q)` and others lose the unit (C192); `out=` is ignored (C193).

### datasets (C194-C199)

* `lean/Verif/Datasets`: what `datafile.Interface` makes of the variables and axes that a file contains, and the quantities made from
  them. The contents of the file (names, attributes, shapes) are given; data are any type; reading and converting units are parameters
  (C54, C154, C166).
* Two groups of aliases are the same key of a dictionary if they are the same list. In Python they are sets, and the hash of a group
  depends on the order of iteration, so that equal groups may or may not be the same key. In `c194_counterexample` both give the same
  result; `c195_counterexample` and `c196_counterexample` are for groups that iterate in different orders.
* Not modelled: netCDF itself, masks and fill values.
* Defects found: two variables in one group of aliases, such as `r` and `R` (C194-C196); `use` after the first use (C197); variables
  without units or axes (C198); `variable.Interface` reads an attribute that variables do not have (C199).

### terms (C200-C206)

* `lean/Verif/Terms`: what the documentation of `symbolic.py` says about operands, terms and expressions as objects: creation from
  arguments, evaluation, casts, comparison, hashes, differences, indices, and arithmetic with numbers.
* `Nest` in `Terms/Spec.lean` is the language of operands for C200: numbers, variables with a coefficient and exponent, and powers of
  operands in round brackets, with their value. Names consist of letters followed by digits.
* Numbers are rational. Comparison and hashing of terms use an arbitrary function in the place of `float` (C202).
* Not modelled: arguments of other types than numbers and strings; `strict=True`; square brackets and braces as separators.
* Defects found: a coefficient or exponent of zero counts as 1, in `create`, `Term.__call__` and products with numbers (C200, C205, C206);
  `create(2, '3')` (C200); terms that differ from their own text (C201); equal terms with different hashes (C202); `apply` drops
  coefficients (C204); `e * Fraction(1, 12)` is `2e` (C205); `e[-n-1]` (C206).

### written expressions (C207-C210, C224)

* `lean/Verif/Layout` has no model of its own: it is about the parser modelled in `Symbolic/Model.lean` (`symbolic.py` 700-1256), for a
  much larger language than C71. `Lay` in `Layout/Spec.lean` has numbers with signs, points and exponents (`Lit`), powers of numbers,
  coefficients of variables, brackets with white space inside, square roots, and operands joined by `*`, `/`, nothing or `sqrt`, each with
  any amount of white space (including none) on either side. `Link.Clear` says where white space is needed to tell operands apart.
* C207 assumes that numbers and coefficients are positive (the meaning is that of real powers), and that numbers are raised to integral
  powers (`Exact`), since fractional powers of numbers are floating-point numbers in Python.
* Decimal numbers are assumed to be floats (section 2); others are rounded when they are read.
* Defects found: a sign in the exponent of a number makes the `e` a variable, `1e-5` is -5 times `e` (C209); this concerns every
  number that Python prints in this form, hence also products and powers of expressions with such coefficients, which print and parse.
  `sqrt` after `*` or `/` is a variable (C210).
* C224 compares the operators of `Expression` with the operators in a text. Operators format their result and read it again, so they
  need results whose numbers are floats with one-digit denominators: `0.1 a` is read with the coefficient
  3602879701896397/36028797018963968, and multiplying it by `b` gives a coefficient of about 7.2e30 (counterexample).

### remaining uses of modelled code (C229-C233)

* C229: a group may be any iterable of names; two groups with the same reference name overwrite each other in a dictionary, so that the
  aliases of the first are lost (defect). C16 is the same for definitions in a mapping.
* C230: the shell axis returns the positions it is given; there is no check against its size. An empty selection raises `IndexError`
  when `index.Quantity` looks at the first value.
* C231 is about plain names; for compositions see C60, which holds for any list of observable groups.
* C232: Python's hash of a tuple is a function of the values, and equal numbers have equal hashes; the model keeps the values. Numbers
  that are not floats (large integers, fractions) are compared as floats but hashed exactly, so equal expressions can have different
  hashes (defect).
* C233: the depth of nesting is a parameter, as for `measure`. `ismeasurable` says yes to an empty collection, to items with different
  units and to values followed by two units, which `measure` refuses; it says no to `(1, None)` and to a string of one
  character, which `measure` accepts (defects).

### comparing units and relative magnitudes (C234-C237)

* `Metric/Compare.lean`: a named unit is compared with a unit or with the text of anything else. `conversion` is a function of what
  `float(Conversion(...))` gives. Hashes of pairs are any function.
* Defects found: `NamedUnit('m') == 'foo'` raises `UnitParsingError`, and `NamedUnit('m') == 'm'` although the hashes differ (C234);
  `conversion` raises `SystemAmbiguityError` for nT to mG and for the elementary charge, `KeyError` for the lux and `UnitParsingError` for
  unknown units, although it is documented to return silently (C235); `2 m` to `m` is 1, `2 km` to `m` is 1000 (C236). The documentation of
  `NamedUnit.__floordiv__` calls the result the factor to convert from `self` to `other`, but it is the inverse (C237), as its notes say.

### coordinates, equality and texts (C238-C243)

* C238, C239: as for C140-C148. `self.variables.alias(k, include=True)` is a parameter; the statement holds for all of them.
  A quantity is given for one position along all further axes. Defects found: coordinates are never interpolated, although
  they change with time on a moving grid (C238); an energy that belongs to the grid of any species is looked up by position for
  all species, and a mixture of energies on and off the grids makes a ragged list (C239).
* C240: arrays have shapes and values without NaN; equality of units is a parameter (C79). The order of `__eq__` calls is that of
  Python (subclass first, then reflected). Defects found: order of axes ignored (from C87), quantities of different units
  equal to the same plain array, names of physical arrays ignored.
* C241, C242: `str.format_map` for plain fields, `str.split`, `str.join` and `list.insert` are modelled by their documented
  effect. Attributes are given by their texts; the order of aliases in the text of a name, which is that of a set, is an
  input. `Display(**kwargs)` with arguments, and fields called `__str__` or `__repr__`, are left out. Defects found: a quantity without a
  name that is given one later does not show it; names are quoted twice (`''mass'': 1.0 [kg]`); an option without a name shows an
  empty one, since a group of aliases is always true; a new display is not empty.
* C243: what reading a file gives is a parameter (C131-C133). `~` and relative paths are left out as in C66. Defects
  found: without the files the directory is ignored silently; a path of a file is read as both files.

### stored values (C254)

`Axes/Stored.lean` puts together the indices of axes (C140, C230) and the subscription of all axes (C226).

* An `index.Quantity` is a sequence of its points for numpy; an `index.Array` has `__array__`, which gives the values. That numpy
  prefers `__array__`, and raises `IndexError` for positions that are not integers, is part of the trusted base.
* `observeStored` is `none` if something is to be interpolated, which C142 and others deal with.
* Defects found: `observe(time=observer.time)` raises `IndexError`, for `compute_index` returns the shown axis as it is, and its values
  are used as positions; the unit of such an index is ignored, so that times in minutes are taken for seconds.

### numpy functions implemented by classes (C255-C257)

`Dispatch/Model.lean` models the dictionaries `_HANDLED_FUNCTIONS`, the decorator `implements`, and what numpy does when it is called.

* Classes are given by their method resolution order and by whether they define a dictionary. The theorems on registrations hold for
  all such hierarchies; the classes of goats are one of them.
* numpy asks the arguments in order, subclasses first, and uses the first method that does not return `NotImplemented`; if there is
  none, it raises `TypeError`. This protocol, and the shapes that `mean` and `squeeze` have in numpy, are part of the trusted base.
* For `numpy.mean`, the shape and the names of the result are modelled, or the exception; the numbers are those of numpy. The
  arguments `dtype`, `out` and `where`, several axes, and axes that are not integers are not modelled.
* Defects found: `numpy.squeeze` of a `variable.Array` raises `AttributeError` (C255); `numpy.mean(v, 0)` raises `TypeError`,
  `keepdims` and negative axes `ValueError` (C256); `numpy.trapz(observation.data, observation['time'])` raises `TypeError` (C257).

### equality of collections (C258) and parameters set by the user (C259)

* C258: members are of two kinds, each ordered, that cannot be compared with each other. That `sorted` compares members of both kinds
  whenever there are any is argued in the comment on `sortedMembers`: the comparisons of a sort connect all members. Orders that are not
  total (nan, sets) are not modelled. `isinstance(other, whole)` is true for every iterable but texts, hence `other` is a list.
* C259: the mapping is that of C136. `config` looks for the very name in the file, while values are found under all names, and the
  file is only asked for the own names of parameters.

### subscripts with entries (C225-C228)

`Subscripts/Model.lean` models arrays of any number of axes with their entries in C order, numpy's subscripts with integers, slices,
`...` and `None`, `numpy.ix_`, and `__getitem__` of `physical.Array` and `variable.Array` with the factor, unit and name.

* numpy itself is trusted to do what the model says. Entries are in a structure with a product and a one; C225-C227 need nothing else
  than that one is neutral, hence hold for floats. C228 needs a commutative and associative product.
* The specification (`Subscripts/Spec.lean`) says which position an entry of the result comes from; positions of a slice are those that
  `Arrays/Spec.lean` names, in increasing or decreasing order.
* Not modelled: boolean masks and arrays as subscripts; lists within lists; nested tuples; the cache (C41); which exception is raised.
* Defects found: `a[None]` gives the whole array without a new axis (C225); `a[[0, 1]]` raises `ValueError`, `a[[]]` gives the whole
  array, `a[[0]]` drops the axis, and integers of numpy types are refused (C226).
  `a[..., [i, j]]` gives the whole array, whatever the positions, if the array has three axes or more.

### reductions, dimensions and instances (C211-C216)

`Reductions/Model.lean` models the arithmetic of `Reduction`, the function `reduction`, `Dimension.quantities`, `Dimensions`, and how
`Quantity` and `System` create their instances. `NamedUnit.reduce` itself is that of the metric systems area.

* A number becomes the text of a term before it is parsed. Which text that is, is a parameter (`num`) of the arithmetic; theorems
  assume that it is read with its value (C209, C205 say when), and examples use a fraction. `NamedUnit.reduce` uses the text that
  Python prints, as modelled in the metric systems area.
* C211: `__mul__` multiplies the expression by the new scale, and the constructor does so again; both on top of the old scale. The
  scale and units are right, and what is printed is wrong by exactly the square of the new scale divided by the factor.
* C212: the specification is a table of definitions of units in SI and Gaussian units, written down independently of the source.
  The conditions on the scale exclude fractions, for which the text is that of a floating-point number; `1e-06` is parsed as a product
  that has a unit `e` (C209), which the counterexample shows for the micrometre.
  All powers of ten involved are floats (up to 10^22).
* C213: `result *= other.scale` loses the units of all terms but the first. `SystemAmbiguityError` and `UnitParsingError` are caught;
  other exceptions (`lx`) propagate.
* C214: `system` is a key of a dictionary, hence case-sensitive here; the model has a value for each system instead of a name. The
  cache of results is not modelled, since it is filled with the results themselves.
* C215: arguments are `None` or strings. `any(created.values())` uses the length of an expression, which is never zero, hence an
  expression is true. Keys other than the two systems are accepted; with capitals they cannot be retrieved.
* C216: the check of the tables by the constructor is a parameter. Objects have identities. Both classes define `__eq__` without
  `__hash__`, so that neither can be a member of a set or a key of a dictionary; that is a rule of the language and not modelled.
  The docstring of `System` says that names are case-sensitive, which they are not.

### helper functions (C217-C223)

`Helpers/Model.lean` models small functions of `interpolation.py`, `iterables.py` and `utilities.py` that the rest relies on.

* C217: `numpy.moveaxis` and indexing by a list of integers are modelled by their documented effect, and part of the trusted base;
  arrays are those of `Shapes`. Where the indices come from is C38.
* C218: `str.replace` is modelled. Longer keys are part of the model, but not of the theorem.
* C219: methods return a value and may set plain attributes. Properties are plain attributes.
* C220: `_exists` and `_instance` are class attributes and hence inherited; `Single` says that the order of lookup of a class is
  the class followed by the order of its base, as for single inheritance in Python.
* C221: a constructor has named parameters, with or without defaults; an instance is the list of their values. Constructors with
  `*args` or `**kwargs`, and classes derived from named tuples, are not modelled (their signature is that of `tuple.__init__`, so that
  every lookup fails).
* C222: `own` has the values after `whole`. Lookup is that of single inheritance.
* C223: a method is the result of its call; the number of methods called is counted.
* Not modelled: `missing`, `naked`, `oftype`, `extract_single`, `pop`, `NothingType`, `get_nested_element`, whose code is their statement.

## 6. How to read `seeded/LOG.jsonl`

Each line is one edit of a definition in a scratch copy, followed by a build. `theorems_failed` lists the declarations in which
the build reported errors. This shows that the edit does not pass unnoticed; it is not a proof that the statement of a listed
theorem is false for the edited definition, since a proof may fail for a statement that is still true.

* The note "Props not reached" means that a lemma on which the property theorems rest failed first, so that these theorems were
  not checked. About 350 lines have this note, and about 300 lines list no property theorem at all. Some of the lemmas restate a
  definition (`boundingIndices_ok`, for instance), and fail for any edit of it.
* `claim_broken` is the claim that the edit was meant to break, judged from the text of the claim before the build. It was not
  proved to be false for each edit. Where a later look showed that the edit breaks no claim, it is `none`, with a note.
* Two lines had been recorded as found although no theorem was listed: in one build an example had exhausted the memory, the
  other was not found by the claim that it named. Both were repeated, and say so. The second showed that the specification of
  C107 took the speed of light from the model; it now states the value itself.
