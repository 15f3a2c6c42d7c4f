{"id": "C01", "title": "contract is the Einstein sum", "statement": "For two arrays whose axes all have the same length n, contract(array1, array2, (a1,b1), ..., (ak,bk)) with in-range pairwise distinct axes on each side returns an array of rank r1+r2-2k whose component at (free indices of array1 in order, then free indices of array2 in order) is the sum over all values s1..sk in 0..n-1 of array1 with axes a_j set to s_j times array2 with axes b_j set to s_j. With no pairs it is the outer product.", "quantifier": "all ranks, all dimensions, all numbers and positions of contracted pairs, all components", "why_tests_cant": "rank, dimension, number of pairs and their positions are unbounded and tests fix a few 4x4 cases", "anchors": ["src/PyOGRe/Utils.py:contract"]}
{"id": "C02", "title": "contract rejects exactly the malformed axis pairs", "statement": "contract raises ValueError if some pair has a negative entry, an entry not below the rank of its array, or if an axis is used twice on one side; for arrays of one common axis length it raises in no other case and never returns a value for a malformed pair list.", "quantifier": "all arrays of a common axis length and all lists of integer pairs", "why_tests_cant": "the set of malformed pair lists is infinite", "anchors": ["src/PyOGRe/Utils.py:contract"]}
{"id": "C03", "title": "gradient", "statement": "partial_contract(coordinates, array) without an axis returns the array of rank r+1 whose component (i, I) is the derivative of component I with respect to the i-th coordinate: the derivative axis comes first.", "quantifier": "all ranks, dimensions and components, any differentiation", "why_tests_cant": "unbounded rank", "anchors": ["src/PyOGRe/Utils.py:partial_contract"]}
{"id": "C04", "title": "divergence over any axis", "statement": "partial_contract(coordinates, array, k) with k a valid axis of array returns the rank r-1 array whose component I is the sum over i of the derivative with respect to coordinate i of the component with i inserted at axis k; an axis that does not exist is rejected with ValueError.", "quantifier": "all ranks, dimensions, axes and components", "why_tests_cant": "the failing axes only occur at rank 3 and above", "anchors": ["src/PyOGRe/Utils.py:partial_contract"]}
{"id": "C05", "title": "zero_tensor", "statement": "zero_tensor(dim, rank) has rank axes of length dim and every component 0; negative rank, or dim below 1 with positive rank, raises ValueError.", "quantifier": "all integers dim, rank", "why_tests_cant": "infinitely many pairs", "anchors": ["src/PyOGRe/Utils.py:zero_tensor"]}
{"id": "C06", "title": "elements enumerates every component exactly once", "statement": "The dictionary returned by elements(array) has as keys exactly the valid positions of the array, each once, in row-major order, each mapped to the component at that position.", "quantifier": "all shapes, uniform or not", "why_tests_cant": "recursion over arbitrary rank", "anchors": ["src/PyOGRe/Utils.py:elements"]}
{"id": "C07", "title": "map_to_array is pointwise", "statement": "map_to_array(f, array) has the shape of array and component f(array[I]) at every position I.", "quantifier": "all arrays, all functions", "why_tests_cant": "the function is arbitrary, and only non-square shapes show a difference", "anchors": ["src/PyOGRe/Utils.py:map_to_array", "src/PyOGRe/BaseTensor.py:BaseTensor.show"]}
{"id": "C08", "title": "index raising and lowering is metric contraction", "statement": "Requesting a tensor's components in its own coordinates with any index configuration gives, for every rank, the stored components contracted on each axis with the inverse metric (lower to upper), the metric (upper to lower) or left alone (unchanged), with every axis staying in place.", "quantifier": "all ranks, source and target configurations, metrics and components", "why_tests_cant": "2^r configurations for each rank, arbitrary components", "anchors": ["src/PyOGRe/Tensor.py:Tensor._raise_lower", "src/PyOGRe/Tensor.py:Tensor._check_representation", "src/PyOGRe/BaseTensor.py:BaseTensor.get_components"]}
{"id": "C09", "title": "raising and lowering is reversible", "statement": "Raising or lowering indices into any configuration and back returns the original components, whatever configurations are visited in between.", "quantifier": "all ranks, configurations and invertible metrics", "why_tests_cant": "unbounded paths of configurations", "anchors": ["src/PyOGRe/Tensor.py:Tensor._raise_lower"]}
{"id": "C10", "title": "representation cache is history independent in one coordinate system", "statement": "After any sequence of get_components requests in a tensor's own coordinates, a further request returns the same components it would have returned on the freshly created tensor.", "quantifier": "all request histories", "why_tests_cant": "the cache picks the first stored representation as the source, so results could depend on history", "anchors": ["src/PyOGRe/Tensor.py:Tensor._raise_lower", "src/PyOGRe/Tensor.py:Tensor._check_representation", "src/PyOGRe/BaseTensor.py:BaseTensor._get_representation"]}
{"id": "C11", "title": "a metric's four representations fit together", "statement": "In the coordinates it was declared in, the (1,1) components of a metric are the matrix inverse of its (-1,-1) components, both mixed representations are the identity, whichever of (-1,-1) or (1,1) it was declared with.", "quantifier": "all metrics accepted by the constructor", "why_tests_cant": "arbitrary symbolic matrices", "anchors": ["src/PyOGRe/Metric.py:Metric.__init__"]}
{"id": "C12", "title": "a metric can be requested in new coordinates in any order", "statement": "After a transformation rule is added, requesting a metric's components in the new coordinates with any index configuration succeeds and yields the transformed metric, its inverse or the identity, whatever was requested before.", "quantifier": "all request histories and configurations", "why_tests_cant": "only the order in which representations are first requested matters", "anchors": ["src/PyOGRe/Metric.py:Metric._transform_coordinates", "src/PyOGRe/Metric.py:Metric._check_representation"]}
{"id": "C13", "title": "tensor transformation law", "statement": "Requesting a tensor's components in other coordinates gives, for every rank and index configuration, one Jacobian factor per lower index and one inverse-Jacobian factor per upper index contracted with the components, followed by substitution of the coordinate rules.", "quantifier": "all ranks, configurations, Jacobians and components", "why_tests_cant": "unbounded rank", "anchors": ["src/PyOGRe/BaseTensor.py:BaseTensor._transform_coordinates"]}
{"id": "C14", "title": "changing coordinates commutes with raising and lowering", "statement": "Raising or lowering in the old coordinates and then transforming gives the same components as transforming first and then raising or lowering with the transformed metric; in particular full contractions are scalars.", "quantifier": "all ranks, configurations, metrics, invertible Jacobians", "why_tests_cant": "two computation paths over arbitrary data", "anchors": ["src/PyOGRe/BaseTensor.py:BaseTensor._transform_coordinates", "src/PyOGRe/Tensor.py:Tensor._raise_lower"]}
{"id": "C15", "title": "transforming there and back", "statement": "If the rules of two coordinate systems are mutually inverse then transforming a tensor's components to the other system and back returns the original components.", "quantifier": "all ranks, configurations and invertible Jacobians", "why_tests_cant": "arbitrary components", "anchors": ["src/PyOGRe/BaseTensor.py:BaseTensor._transform_coordinates", "src/PyOGRe/BaseTensor.py:BaseTensor.change_default_coords"]}
{"id": "C16", "title": "changing a transformation rule takes effect", "statement": "After add_coord_transformation replaces or removes the rules to another system, later transformations use the new rules, or are refused when there are none.", "quantifier": "all histories of rule changes and requests", "why_tests_cant": "depends on a cache filled earlier in the history", "anchors": ["src/PyOGRe/Coordinates.py:Coordinates.add_coord_transformation", "src/PyOGRe/Coordinates.py:Coordinates._check_jacobians"]}
{"id": "C17", "title": "the Jacobian is the matrix of derivatives of the old coordinates", "statement": "The Jacobian used for a transformation has entry (i,j) equal to the derivative of the rule for old coordinate i with respect to new coordinate j; an old coordinate without rule is taken to be the same symbol in the new system.", "quantifier": "all coordinate lists and rule lists", "why_tests_cant": "arbitrary coordinate lists, the failing cases permute the coordinates", "anchors": ["src/PyOGRe/Coordinates.py:Coordinates._calculate_jacobian"]}
{"id": "C18", "title": "rules are substituted simultaneously", "statement": "When components are transformed every occurrence of an old coordinate is replaced by its rule in one simultaneous substitution, also when old and new systems share symbols.", "quantifier": "all rule lists and expressions", "why_tests_cant": "only visible when the right-hand side of one rule mentions the left-hand side of a later one", "anchors": ["src/PyOGRe/BaseTensor.py:BaseTensor._transform_coordinates"]}
{"id": "C19", "title": "constructors accept exactly the well-formed tensors", "statement": "A tensor is accepted iff its name is a string, its symbol a string or symbol, its indices are a tuple of 1 and -1 of the same length as the rank of the components, and every axis is as long as the coordinate system; a refused constructor call leaves the list of instances unchanged.", "quantifier": "all argument values", "why_tests_cant": "infinitely many malformed inputs", "anchors": ["src/PyOGRe/OGReObject.py:ValidateOGReObject", "src/PyOGRe/OGReObject.py:ValidateIndices", "src/PyOGRe/BaseTensor.py:ValidateBaseTensor", "src/PyOGRe/Coordinates.py:ValidateCoordinates"]}
{"id": "C20", "title": "the metric constructor accepts exactly the non-degenerate symmetric matrices", "statement": "A metric with configuration (-1,-1) or (1,1) is accepted iff its matrix is symmetric with non-zero determinant; mixed or wrong-length configurations are refused.", "quantifier": "all square matrices and configurations", "why_tests_cant": "arbitrary matrices", "anchors": ["src/PyOGRe/Metric.py:ValidateMetric"]}
{"id": "C21", "title": "addition of labelled tensors", "statement": "A('..') + B('..') evaluated at any assignment of values to the index labels is the sum of A and B at that assignment, in the label order and index configuration of A, whatever label order and configuration B has; different label sets, ranks or metrics are refused.", "quantifier": "all ranks, label permutations, configurations and components", "why_tests_cant": "r! label orders and 2^r configurations for each rank", "anchors": ["src/PyOGRe/Calc.py:CalcObject.__add__"]}
{"id": "C22", "title": "negation, subtraction and scaling are pointwise", "statement": "-A, A - B, x*A, A*x and A/x evaluated at any label assignment are the negative, difference, multiple and quotient.", "quantifier": "all operands", "why_tests_cant": "arbitrary rank and labels", "anchors": ["src/PyOGRe/Calc.py:CalcObject.__neg__", "src/PyOGRe/Calc.py:CalcObject.__sub__", "src/PyOGRe/Calc.py:CalcObject.__mul__", "src/PyOGRe/Calc.py:CalcObject.__truediv__"]}
{"id": "C23", "title": "subtracting a tensor from a non-zero number is refused", "statement": "x - A raises an error unless x is 0 (the start value of sum) or a compatible operand.", "quantifier": "all numbers x", "why_tests_cant": "all numbers", "anchors": ["src/PyOGRe/Calc.py:CalcObject.__rsub__"]}
{"id": "C24", "title": "a repeated label in one tensor is a trace", "statement": "A('.. a .. a ..') evaluated at any assignment of the remaining labels is the sum over a of A with one of the two indices raised or lowered against the other by the metric in the same coordinates; several repeated labels are traced independently, and a label occurring three times is refused.", "quantifier": "all ranks, label lists, configurations", "why_tests_cant": "all label lists", "anchors": ["src/PyOGRe/Calc.py:CalcObject.__init__"]}
{"id": "C25", "title": "A @ B contracts the shared labels", "statement": "A('..') @ B('..') evaluated at any assignment of the unshared labels is the sum over all values of the shared labels of the product, with the shared indices of B brought to the opposite position of those of A; the result has the free labels of A in order then those of B with their own configurations.", "quantifier": "all ranks, label lists and configurations", "why_tests_cant": "unbounded rank and number of shared labels", "anchors": ["src/PyOGRe/Calc.py:CalcObject.__matmul__"]}
{"id": "C26", "title": "A @ B converts operands to common coordinates", "statement": "When A and B have different default coordinates related by a rule, A @ B is the product of their components in one coordinate system.", "quantifier": "all coordinate systems and operands", "why_tests_cant": "requires multi-coordinate histories", "anchors": ["src/PyOGRe/Calc.py:CalcObject.__matmul__"]}
{"id": "C27", "title": "A @ B and B @ A are the same tensor", "statement": "A @ B and B @ A agree at every label assignment once index positions are matched.", "quantifier": "all operands", "why_tests_cant": "arbitrary rank", "anchors": ["src/PyOGRe/Calc.py:CalcObject.__matmul__"]}
{"id": "C28", "title": "Calc reorders indices by label", "statement": "Calc(expr, indices=order) with order a permutation of the free labels returns the tensor whose axes are in that order, with the matching index configuration; any other order is refused with ValueError.", "quantifier": "all label permutations", "why_tests_cant": "r! orders", "anchors": ["src/PyOGRe/Calc.py:Calc"]}
{"id": "C29", "title": "partial derivative applied from the left", "statement": "PartialD('a') @ T('..') at any label assignment is the derivative of T with respect to coordinate a, and when a is one of T's labels it is the sum over a of the derivative of T with that index raised.", "quantifier": "all ranks, labels and configurations", "why_tests_cant": "arbitrary rank, and axis >= 2 only occurs at rank 3", "anchors": ["src/PyOGRe/Calc.py:CalcObject.__matmul__", "src/PyOGRe/Utils.py:partial_contract"]}
{"id": "C30", "title": "partial derivative applied from the right", "statement": "T('..') @ PartialD('a') denotes the same labelled tensor as PartialD('a') @ T('..').", "quantifier": "all ranks and labels", "why_tests_cant": "components agree, only the labels attached to the axes differ", "anchors": ["src/PyOGRe/Calc.py:CalcObject.__matmul__"]}
{"id": "C31", "title": "covariant derivative applied from the left", "statement": "CovariantD('a') @ T('..') at any label assignment is the partial derivative plus one +Gamma term for every upper index and one -Gamma term for every lower index of T; when a is one of T's labels the result is the corresponding covariant divergence.", "quantifier": "all ranks, configurations and labels", "why_tests_cant": "one correction term per index, unbounded rank", "anchors": ["src/PyOGRe/Calc.py:CalcObject.__matmul__"]}
{"id": "C32", "title": "covariant derivative applied from the right", "statement": "T('..') @ CovariantD('a') denotes the same labelled tensor as CovariantD('a') @ T('..').", "quantifier": "all ranks and labels", "why_tests_cant": "only wrong from rank 2", "anchors": ["src/PyOGRe/Calc.py:CalcObject.__matmul__"]}
{"id": "C33", "title": "metric compatibility", "statement": "The covariant derivative of every metric vanishes identically.", "quantifier": "all metrics in all dimensions", "why_tests_cant": "arbitrary symbolic metrics", "anchors": ["src/PyOGRe/Calc.py:CalcChristoffel", "src/PyOGRe/Calc.py:CalcObject.__matmul__"]}
{"id": "C34", "title": "covariant derivative obeys the Leibniz rule", "statement": "The covariant derivative of a sum is the sum and of an outer product is the Leibniz sum of the covariant derivatives.", "quantifier": "all ranks and configurations", "why_tests_cant": "arbitrary rank", "anchors": ["src/PyOGRe/Calc.py:CalcObject.__matmul__"]}
{"id": "C35", "title": "Christoffel symbols", "statement": "calc_christoffel returns Gamma^l_{mn} = 1/2 g^{ls}(d_m g_{ns} + d_n g_{sm} - d_s g_{mn}), symmetric in the lower indices, with default configuration (1,-1,-1).", "quantifier": "all metrics", "why_tests_cant": "arbitrary symbolic metrics", "anchors": ["src/PyOGRe/Calc.py:CalcChristoffel"]}
{"id": "C36", "title": "Riemann tensor", "statement": "calc_riemann_tensor returns R^r_{smn} = d_m Gamma^r_{ns} - d_n Gamma^r_{ms} + Gamma^r_{ml}Gamma^l_{ns} - Gamma^r_{nl}Gamma^l_{ms}; it is antisymmetric in m,n and satisfies the first Bianchi identity, and with all indices lowered it is antisymmetric in the first pair and symmetric under exchange of pairs.", "quantifier": "all metrics", "why_tests_cant": "arbitrary symbolic metrics", "anchors": ["src/PyOGRe/Calc.py:CalcRiemannTensor"]}
{"id": "C37", "title": "Ricci tensor and scalar", "statement": "calc_ricci_tensor is the contraction R^l_{mln}, is symmetric, and calc_ricci_scalar is its trace with the inverse metric.", "quantifier": "all metrics", "why_tests_cant": "arbitrary symbolic metrics", "anchors": ["src/PyOGRe/Calc.py:CalcRicciTensor", "src/PyOGRe/Calc.py:CalcRicciScalar"]}
{"id": "C38", "title": "Einstein tensor", "statement": "calc_einstein_tensor is R_{mn} - 1/2 R g_{mn}, is symmetric, has trace (1 - n/2) R and zero covariant divergence.", "quantifier": "all metrics in all dimensions", "why_tests_cant": "arbitrary symbolic metrics", "anchors": ["src/PyOGRe/Calc.py:CalcEinsteinTensor"]}
{"id": "C39", "title": "Weyl tensor", "statement": "calc_weyl_tensor in dimension at least 3 has all indices lowered, the symmetries of the Riemann tensor and every trace zero; in dimension 2 it raises.", "quantifier": "all metrics and dimensions", "why_tests_cant": "arbitrary symbolic metrics", "anchors": ["src/PyOGRe/Calc.py:CalcWeylTensor"]}
{"id": "C40", "title": "norm squared", "statement": "calc_norm_squared of a tensor is the full contraction of the tensor with itself.", "quantifier": "all ranks and configurations", "why_tests_cant": "unbounded rank", "anchors": ["src/PyOGRe/Calc.py:CalcNormSquared"]}
{"id": "C41", "title": "Christoffel symbols in new coordinates", "statement": "The components of calc_christoffel requested in new coordinates follow the inhomogeneous transformation law, for every index configuration and whatever was requested before.", "quantifier": "all metrics, rules and request histories", "why_tests_cant": "history dependent", "anchors": ["src/PyOGRe/Christoffel.py:Christoffel._transform_coordinates"]}
{"id": "C42", "title": "Lagrangian", "statement": "calc_lagrangian is g_{mn} xdot^m xdot^n.", "quantifier": "all metrics", "why_tests_cant": "arbitrary metrics", "anchors": ["src/PyOGRe/Calc.py:CalcLagrangian"]}
{"id": "C43", "title": "the two geodesic equations are equivalent", "statement": "The components of calc_geodesic_from_lagrangian vanish exactly when those of calc_geodesic_from_christoffel vanish: the former are, up to common denominators, the latter with the index lowered.", "quantifier": "all metrics, positions, velocities and accelerations", "why_tests_cant": "arbitrary metrics", "anchors": ["src/PyOGRe/Calc.py:CalcGeodesicFromLagrangian", "src/PyOGRe/Calc.py:CalcGeodesicFromChristoffel"]}
{"id": "C44", "title": "time-parametrised geodesic equation", "statement": "calc_geodesic_with_time_parameter has zeroth component 0 and i-th component a^i + (Gamma^i_{mn} - Gamma^0_{mn} v^i) v^m v^n with v^0 = 1, a^0 = 0 up to a common denominator.", "quantifier": "all metrics", "why_tests_cant": "arbitrary metrics", "anchors": ["src/PyOGRe/Calc.py:CalcGeodesicWithTimeParameter"]}
{"id": "C45", "title": "geodesic equations in new coordinates", "statement": "Requesting the components of a geodesic equation in new coordinates returns equations in the new coordinates.", "quantifier": "all metrics and rules", "why_tests_cant": "equality test with itself passes because both sides are computed the same way", "anchors": ["src/PyOGRe/Geodesic.py:GeodesicLagrangian._transform_coordinates", "src/PyOGRe/Geodesic.py:GeodesicChristoffel._transform_coordinates", "src/PyOGRe/Geodesic.py:GeodesicTime._transform_coordinates"]}
{"id": "C46", "title": "delete refuses to orphan other objects", "statement": "obj.delete() raises PermissionError and changes nothing iff some other registered object uses obj as its metric, its coordinates, a key of its stored components or a key of its transformations; otherwise obj and only obj disappears from get_instances().", "quantifier": "all registries", "why_tests_cant": "arbitrary reference graphs", "anchors": ["src/PyOGRe/OGReObject.py:OGReObject.delete"]}
{"id": "C47", "title": "registered objects never refer to deleted ones", "statement": "In every reachable session state every registered object's metric, coordinates, component keys and transformation keys are not deleted.", "quantifier": "all histories of create, transform, request, rename, delete, clear", "why_tests_cant": "unbounded histories", "anchors": ["src/PyOGRe/OGReObject.py:OGReObject.delete", "src/PyOGRe/Options.py:clear_instances"]}
{"id": "C48", "title": "delete_results removes every result", "statement": "After delete_results() no instance named 'Result' remains that is not in use.", "quantifier": "all registries", "why_tests_cant": "only fails from a number of adjacent results on", "anchors": ["src/PyOGRe/Options.py:delete_results"]}
{"id": "C49", "title": "clear_instances empties the session", "statement": "After clear_instances() get_instances() is empty.", "quantifier": "all registries", "why_tests_cant": "all reference graphs", "anchors": ["src/PyOGRe/Options.py:clear_instances"]}
{"id": "C50", "title": "Calc cleans up its temporaries", "statement": "After Calc(expr) no instance named 'TEMP' remains registered.", "quantifier": "all expressions", "why_tests_cant": "depends on how many temporaries the expression leaves in a row", "anchors": ["src/PyOGRe/Calc.py:Calc"]}
{"id": "C51", "title": "Calc leaves operands and the user's tensors alone", "statement": "Evaluating an expression or calling Calc never deletes an object created by the user nor a tensor that a later part of the same expression still needs.", "quantifier": "all expressions and registries", "why_tests_cant": "depends on registry position", "anchors": ["src/PyOGRe/Calc.py:Calc", "src/PyOGRe/Calc.py:CalcObject.__matmul__"]}
{"id": "C52", "title": "calc_* returns the result for the given metric", "statement": "metric.calc_christoffel() and the other calc_* methods return components derived from that metric, whatever other objects exist.", "quantifier": "all registries", "why_tests_cant": "depends on the names of unrelated objects", "anchors": ["src/PyOGRe/Calc.py:CalcChristoffel", "src/PyOGRe/Calc.py:CalcRiemannTensor", "src/PyOGRe/Calc.py:CalcRicciTensor"]}
{"id": "C53", "title": "calc_weyl_tensor does not destroy other results", "statement": "After calc_weyl_tensor, tensors returned by earlier calc_* calls are still usable and no intermediate tensor is left registered.", "quantifier": "all histories", "why_tests_cant": "history property", "anchors": ["src/PyOGRe/Calc.py:CalcWeylTensor"]}
{"id": "C54", "title": "the lexer is total and accounts for every character", "statement": "Generating the tokens of any string terminates, either raising or consuming the whole string, and the tokens of the printed form of a token list are that list.", "quantifier": "all strings", "why_tests_cant": "infinitely many strings", "anchors": ["src/PyOGRe/MathematicaParser/Lexer.py:Lexer.generate_tokens", "src/PyOGRe/MathematicaParser/Lexer.py:Lexer.generate_expr"]}
{"id": "C55", "title": "string literals survive the lexer", "statement": "A double-quoted string without double quotes inside is read as one token with exactly that content.", "quantifier": "all strings", "why_tests_cant": "empty strings and strings ending in a quote character", "anchors": ["src/PyOGRe/MathematicaParser/Lexer.py:Lexer.generate_str"]}
{"id": "C56", "title": "parsing terminates", "statement": "Parsing any token list terminates with a tree or an exception.", "quantifier": "all token lists", "why_tests_cant": "an infinite loop cannot be observed by a test", "anchors": ["src/PyOGRe/MathematicaParser/MathematicaParser.py:Parser.parse", "src/PyOGRe/MathematicaParser/MathematicaParser.py:Parser.list"]}
{"id": "C57", "title": "operator precedence and associativity", "statement": "Parsing the printed form of an arithmetic expression gives back an expression with the same value, with ^ binding tighter than unary minus, * and / tighter than + and -, left-associative - and /, right-associative ^.", "quantifier": "all expressions", "why_tests_cant": "infinitely many trees", "anchors": ["src/PyOGRe/MathematicaParser/MathematicaParser.py:Parser.expr", "src/PyOGRe/MathematicaParser/MathematicaParser.py:Parser.term", "src/PyOGRe/MathematicaParser/MathematicaParser.py:Parser.factor"]}
{"id": "C58", "title": "lists and associations are read back", "statement": "Parsing the printed form of nested lists and associations gives back the same nesting, order and entries.", "quantifier": "all nestings", "why_tests_cant": "unbounded depth", "anchors": ["src/PyOGRe/MathematicaParser/MathematicaParser.py:Parser.list", "src/PyOGRe/MathematicaParser/MathematicaParser.py:Parser.assoc"]}
{"id": "C59", "title": "export then import restores a tensor", "statement": "import_from_string(t.export()) yields a tensor with the same name, class, symbol, default indices, default coordinates and default components.", "quantifier": "all tensors", "why_tests_cant": "arbitrary names, ranks and dimensions", "anchors": ["src/PyOGRe/Export.py:tensor_to_dict", "src/PyOGRe/Export.py:string_to_tensor", "src/PyOGRe/Export.py:import_from_string"]}
{"id": "C60", "title": "a failed import leaves the session alone", "statement": "If import_all_from_string raises, the registered instances are as before.", "quantifier": "all strings and sessions", "why_tests_cant": "crash points inside the import", "anchors": ["src/PyOGRe/Export.py:import_all_from_string", "src/PyOGRe/Export.py:import_all_from_file"]}
{"id": "C61", "title": "export_all then import_all restores the session", "statement": "import_all_from_string(export_all()) recreates every coordinate system, metric and tensor of the session.", "quantifier": "all sessions", "why_tests_cant": "arbitrary sessions, name clashes", "anchors": ["src/PyOGRe/Export.py:export_all_to_string", "src/PyOGRe/Export.py:import_all_from_string"]}
{"id": "C62", "title": "list shows every non-zero component exactly once", "statement": "In the output of list() every position with a non-zero component occurs in exactly one group, with a minus sign iff the component is the negative of the group's value; positions with zero components do not occur.", "quantifier": "all tensors", "why_tests_cant": "arbitrary components", "anchors": ["src/PyOGRe/BaseTensor.py:BaseTensor.list"]}
{"id": "C63", "title": "line breaking in list loses nothing", "statement": "Splitting a group into lines by the configured number per line keeps every entry once and in order and shows the value after the last one.", "quantifier": "all group sizes and per-line settings", "why_tests_cant": "all pairs of sizes", "anchors": ["src/PyOGRe/BaseTensor.py:BaseTensor.list", "src/PyOGRe/Options.py:set_list_per_line"]}
{"id": "C64", "title": "index letters suffice", "statement": "After set_index_letters(s) succeeds, info, show and list of a tensor of rank r work whenever s has at least r letters.", "quantifier": "all letter strings and ranks", "why_tests_cant": "all strings", "anchors": ["src/PyOGRe/Options.py:set_index_letters", "src/PyOGRe/OGReObject.py:OGReObject._eq_symbol"]}
{"id": "C65", "title": "line element and volume element", "statement": "line_element is the sum over all i,j of g_{ij} dx_i dx_j and volume_element shows dV^2 equal to the determinant of the lower-index metric, both in the chosen coordinates and whatever index configuration the metric was declared with.", "quantifier": "all metrics", "why_tests_cant": "arbitrary metrics", "anchors": ["src/PyOGRe/Metric.py:Metric.line_element", "src/PyOGRe/Metric.py:Metric.volume_element"]}
{"id": "C66", "title": "covariant quantities do not depend on dummy labels", "statement": "Renaming contracted labels in an expression does not change its value.", "quantifier": "all expressions and renamings", "why_tests_cant": "infinitely many renamings", "anchors": ["src/PyOGRe/Calc.py:CalcObject.__matmul__", "src/PyOGRe/Calc.py:CalcObject.__init__"]}
{"id": "C67", "title": "one geometry explains all answers of a session", "statement": "Whatever coordinate systems, metrics and tensors are declared and whatever components are requested, in any order: if the declarations agree with one geometry, every answered request shows that geometry's components, so the same question always has the same answer.", "quantifier": "all sessions: all finite interleavings of declarations and component requests over any number of charts", "why_tests_cant": "unbounded histories and charts", "anchors": ["src/PyOGRe/BaseTensor.py:BaseTensor.get_components", "src/PyOGRe/Coordinates.py:Coordinates._check_jacobians", "src/PyOGRe/Metric.py:Metric._transform_coordinates", "src/PyOGRe/Tensor.py:Tensor._raise_lower"]}
{"id": "C68", "title": "labels must match the rank", "statement": "Labelling a tensor with a number of labels different from its rank is refused with an exception.", "quantifier": "all tensors and label strings", "why_tests_cant": "infinitely many label strings", "anchors": ["src/PyOGRe/Tensor.py:Tensor.__call__", "src/PyOGRe/Calc.py:CalcObject.__init__"]}
{"id": "C69", "title": "nested formulae mean what they say", "statement": "A formula built from labelled tensors with sums, differences, negatives, multiples, products and partial derivatives, nested to any depth, evaluates to the tensor obtained by Einstein's conventions from the components of the tensors in it; the tensors in it keep their values.", "quantifier": "all formulae of any depth, tensors, labels and metrics", "why_tests_cant": "unbounded nesting of operations, infinitely many operands", "anchors": ["src/PyOGRe/Calc.py:CalcObject.__init__", "src/PyOGRe/Calc.py:CalcObject.__add__", "src/PyOGRe/Calc.py:CalcObject.__sub__", "src/PyOGRe/Calc.py:CalcObject.__mul__", "src/PyOGRe/Calc.py:CalcObject.__matmul__"]}
{"id": "C70", "title": "several covariant derivatives in one formula", "statement": "Formulae with more than one covariant derivative can be evaluated: sums, differences and products of covariant derivatives, and covariant derivatives of covariant derivatives, give what the conventions say.", "quantifier": "all formulae with two or more covariant derivatives", "why_tests_cant": "depends on which temporary tensors are registered when, for every formula", "anchors": ["src/PyOGRe/Calc.py:CalcObject.__matmul__", "src/PyOGRe/Calc.py:Calc"]}
{"id": "C71", "title": "info works and lists exactly the users", "statement": "After any sequence of calls, whether they returned or raised, info of every registered object works without any effect and shows its name, class, coordinates and metric; for a coordinate system it lists exactly the coordinate systems it has rules for and the registered objects whose default coordinates it is, and for a metric exactly the registered objects that use it.", "quantifier": "all histories and registered objects", "why_tests_cant": "unbounded histories with deletions and failures", "anchors": ["src/PyOGRe/OGReObject.py:OGReObject.info", "src/PyOGRe/Coordinates.py:Coordinates._get_info", "src/PyOGRe/Metric.py:Metric._get_info", "src/PyOGRe/Tensor.py:Tensor._get_info"]}
{"id": "C72", "title": "curvature does not depend on the chart", "statement": "The Riemann, Ricci, Einstein and Weyl tensors and the curvature scalar of a metric, requested in other coordinates related by an invertible transformation, are the curvature of the metric's components in those coordinates: transforming the curvature and computing it after transforming the metric agree.", "quantifier": "all metrics, dimensions, coordinate systems, invertible transformation rules", "why_tests_cant": "infinitely many metrics, charts and transformations", "anchors": ["src/PyOGRe/BaseTensor.py:BaseTensor.get_components", "src/PyOGRe/BaseTensor.py:BaseTensor._transform_coordinates", "src/PyOGRe/Calc.py:CalcRiemannTensor", "src/PyOGRe/Calc.py:CalcRicciTensor", "src/PyOGRe/Calc.py:CalcRicciScalar", "src/PyOGRe/Calc.py:CalcEinsteinTensor", "src/PyOGRe/Calc.py:CalcWeylTensor"]}
{"id": "C73", "title": "simplify keeps values", "statement": "simplify of a tensor returns the tensor and changes only the form of its stored components: every component of every representation keeps its value, so all later answers are the same, and no other object is affected.", "quantifier": "all tensors, ranks and sessions", "why_tests_cant": "infinitely many tensors and histories of stored representations", "anchors": ["src/PyOGRe/BaseTensor.py:BaseTensor.simplify", "src/PyOGRe/BaseTensor.py:simplify"]}
{"id": "C74", "title": "optional arguments of get_components only affect the answer", "statement": "get_components with function, replace and mode leaves the session exactly as the plain request does, raises what it raises, and returns the plain answer with the function and then the replacement applied to every component; an unknown mode is refused with ValueError before anything happens.", "quantifier": "all sessions, tensors, functions, replacements and modes", "why_tests_cant": "infinitely many functions, tensors and sessions", "anchors": ["src/PyOGRe/BaseTensor.py:BaseTensor.get_components", "src/PyOGRe/Utils.py:map_to_array"]}
{"id": "C75", "title": "wrong kinds of arguments are refused", "statement": "Functions that compute something from a metric refuse every other object with TypeError; requests for components, changes of default coordinates, line and volume elements, curves and new tensors refuse with TypeError everything that is not a coordinate system where one is asked for; a coordinate system cannot be evaluated as a tensor. In all these cases the session is exactly as before.", "quantifier": "all sessions, objects and functions", "why_tests_cant": "all sessions and combinations of arguments", "anchors": ["src/PyOGRe/Calc.py:CalcChristoffel", "src/PyOGRe/Calc.py:CalcRiemannTensor", "src/PyOGRe/Calc.py:CalcLagrangian", "src/PyOGRe/BaseTensor.py:BaseTensor.get_components", "src/PyOGRe/Tensor.py:Tensor.__init__", "src/PyOGRe/Metric.py:Metric.line_element"]}
{"id": "C76", "title": "show displays what get_components returns", "statement": "show displays the name, the symbol with an index letter for each index of the requested configuration, the symbols of the requested coordinates, and the components that get_components returns with function and then replace applied to each of them; the session changes as with get_components.", "quantifier": "all tensors, configurations, coordinate systems, functions, replacements and settings", "why_tests_cant": "infinitely many tensors and functions", "anchors": ["src/PyOGRe/BaseTensor.py:BaseTensor.show", "src/PyOGRe/OGReObject.py:OGReObject._eq_symbol"]}
{"id": "C77", "title": "options have the value that was last asked for", "statement": "After any sequence of calls of the functions that set options, each option has the value of the last call that gave an acceptable value for it; calls with other arguments raise or are ignored and change nothing, and no function changes another option.", "quantifier": "all sequences of setting calls with any arguments", "why_tests_cant": "unbounded sequences, arbitrary strings", "anchors": ["src/PyOGRe/Options.py:set_list_per_line", "src/PyOGRe/Options.py:set_index_letters", "src/PyOGRe/Options.py:set_curve_parameter", "src/PyOGRe/Options.py:set_parallelization"]}
{"id": "C78", "title": "labels are read from text", "statement": "Calling a tensor, a derivative or Calc with a string uses the names in it, in their order, however they are separated with white space and commas; a string with a part without a name is refused and nothing changes; coordinate systems cannot be labelled.", "quantifier": "all strings without ranges and escapes, tensors and derivatives", "why_tests_cant": "infinitely many strings", "anchors": ["src/PyOGRe/Tensor.py:Tensor.__call__", "src/PyOGRe/Calc.py:CalcObject.__init__", "src/PyOGRe/Calc.py:PartialD", "src/PyOGRe/Calc.py:CovariantD", "src/PyOGRe/Calc.py:Calc"]}
{"id": "C79", "title": "rules given to the constructor are rules added afterwards", "statement": "A coordinate system declared with transformations behaves as one declared without them to which the transformations are then added; a rule that is neither an equation nor None is refused, and nothing is registered.", "quantifier": "all coordinate systems and dictionaries of rules, of any size", "why_tests_cant": "infinitely many rules", "anchors": ["src/PyOGRe/Coordinates.py:Coordinates.__init__", "src/PyOGRe/Coordinates.py:Coordinates.add_coord_transformation"]}
{"id": "C80", "title": "displays of coordinate systems", "statement": "list and show of a coordinate system display each coordinate exactly once and in order, with its name and symbol; get_components returns the coordinates; none of them changes anything.", "quantifier": "all coordinate systems and settings", "why_tests_cant": "arbitrary dimension", "anchors": ["src/PyOGRe/Coordinates.py:Coordinates.list", "src/PyOGRe/Coordinates.py:Coordinates.show", "src/PyOGRe/Coordinates.py:Coordinates.get_components"]}
{"id": "C81", "title": "attributes change only on request", "statement": "After any calls, whether they returned or raised, every object that existed before still has its class, metric, coordinate symbols and rank; its name and symbol are the ones last given with change_name and change_symbol; its default indices, default coordinates and rules are the old ones unless a call asked to change them for this very object (a Lagrangian or geodesic equation is also moved to the coordinates of a later request for the same equations); a deleted object stays deleted.", "quantifier": "all sessions, objects and histories of arbitrary calls", "why_tests_cant": "unbounded histories of calls on arbitrarily many objects", "anchors": ["src/PyOGRe/OGReObject.py:OGReObject.change_name", "src/PyOGRe/OGReObject.py:OGReObject.change_symbol", "src/PyOGRe/BaseTensor.py:BaseTensor.change_default_indices", "src/PyOGRe/BaseTensor.py:BaseTensor.change_default_coords", "src/PyOGRe/Coordinates.py:Coordinates.add_coord_transformation"]}
{"id": "C82", "title": "the same question gets the same answer", "statement": "Once get_components has answered, it gives exactly the same answer whenever it is called again with the same arguments, and changes nothing, whatever has been done in between (other requests, calculations, deletions of other objects, imports, new rules, calls that raised), provided the object still exists, was not simplified, and the defaults that were used have not been changed.", "quantifier": "all sessions, tensors, Lagrangians and geodesic equations, arguments and histories of arbitrary calls", "why_tests_cant": "unbounded histories of calls", "anchors": ["src/PyOGRe/BaseTensor.py:BaseTensor.get_components", "src/PyOGRe/BaseTensor.py:BaseTensor._get_representation", "src/PyOGRe/Lagrangian.py:Lagrangian.get_components", "src/PyOGRe/Geodesic.py:GeodesicTime.get_components"]}
{"id": "C83", "title": "a Mathematica text is read as a whole", "statement": "If a Mathematica text is accepted, the names, numbers, strings and operators of the result are exactly those of the text, in the same order: nothing is dropped, added or moved; text that goes on after a complete expression, or whose brackets do not match, is refused.", "quantifier": "all token lists", "why_tests_cant": "unboundedly many texts; tests only show accepted examples", "anchors": ["src/PyOGRe/MathematicaParser/MathematicaParser.py:Parser.parse", "src/PyOGRe/MathematicaParser/MathematicaParser.py:Parser.expr", "src/PyOGRe/MathematicaParser/MathematicaParser.py:Parser.factor"]}
{"id": "C84", "title": "special characters in Mathematica text", "statement": "In an expression \\[Alpha] is the symbol alpha, \\[CapitalAlpha] the symbol Alpha, and so on for all Greek letters, and another \\[Name] is the symbol Name; in a string they are replaced by the same names wherever they occur, \\[DottedSquare] is dropped, and everything else stays.", "quantifier": "all names and all strings built from characters and special characters", "why_tests_cant": "infinitely many texts", "anchors": ["src/PyOGRe/MathematicaParser/Interpreter.py:replace_greek_commands", "src/PyOGRe/MathematicaParser/Interpreter.py:Interpreter.visit_GreekNode", "src/PyOGRe/MathematicaParser/Interpreter.py:Interpreter.visit_StrNode"]}
{"id": "C85", "title": "function calls in Mathematica text", "statement": "f[a, b, ...] is read as the function applied to the values that the arguments have elsewhere; Sin, ArcSinh, Exp, ... are sympy's functions, other names undefined functions.", "quantifier": "all names and lists of arguments", "why_tests_cant": "infinitely many arguments", "anchors": ["src/PyOGRe/MathematicaParser/Interpreter.py:Interpreter.visit_FunctionNode", "src/PyOGRe/MathematicaParser/Nodes.py"]}
{"id": "C86", "title": "derivatives in Mathematica text", "statement": "Derivative[n, m, ...][f][a, b, ...] is read as f(a, b, ...) differentiated n times by a, m times by b, and so on.", "quantifier": "all orders, functions and lists of arguments", "why_tests_cant": "infinitely many orders and arguments", "anchors": ["src/PyOGRe/MathematicaParser/Interpreter.py:Interpreter.visit_FunctionNode", "src/PyOGRe/MathematicaParser/MathematicaParser.py:Parser.func"]}
{"id": "C87", "title": "replacements along curves", "statement": "get_components, show and list of a Lagrangian or geodesic equation with function and replace apply first function and then replace to the components of the plain request, then get_components writes functions of the parameter for the coordinates and answers in the requested mode. Replacing a coordinate by an expression also replaces its velocity and acceleration by the first and second derivative of the expression along the curve; replacing a constant or a velocity replaces it everywhere; everything else stays. The session changes as with the plain request.", "quantifier": "all sessions, Lagrangians and geodesic equations, coordinates, replacements and functions", "why_tests_cant": "infinitely many expressions and replacements", "anchors": ["src/PyOGRe/Lagrangian.py:Lagrangian.get_components", "src/PyOGRe/Lagrangian.py:Lagrangian.show", "src/PyOGRe/Lagrangian.py:Lagrangian.list", "src/PyOGRe/Geodesic.py:GeodesicTime.get_components", "src/PyOGRe/Coordinates.py:Coordinates._inverse_coord_functions"]}
{"id": "C88", "title": "roles of the Mathematica package", "statement": "An exported object with one of the roles Calculated, NormSquared, Riemann, Ricci Tensor, Ricci Scalar and Einstein of the Mathematica package is imported exactly as the same object with the role Tensor; an object with an unknown role raises KeyError and nothing is imported.", "quantifier": "all sessions, texts and sets of objects", "why_tests_cant": "infinitely many exported objects", "anchors": ["src/PyOGRe/Export.py:string_to_tensor", "src/PyOGRe/Export.py:import_from_string", "src/PyOGRe/Export.py:import_all_from_string"]}
{"id": "C89", "title": "files hold the exported text", "statement": "export and export_all with a file name return nothing and leave in the file exactly the text that they return without one, and all other files as they are; if they raise, no file has been touched. Importing a file does what importing its text does (for texts without carriage returns, which Python turns into line feeds).", "quantifier": "all sessions, objects, file names and contents of the disk", "why_tests_cant": "infinitely many texts and sessions", "anchors": ["src/PyOGRe/OGReObject.py:OGReObject.export", "src/PyOGRe/Export.py:export_all", "src/PyOGRe/Export.py:import_from_file", "src/PyOGRe/Export.py:import_all_from_file"]}
{"id": "C90", "title": "a wrong file name changes nothing", "statement": "If import_from_file or import_all_from_file is called with the name of a file that does not exist, or with something that is not a string, it raises and the session is as before.", "quantifier": "all sessions, disks and arguments", "why_tests_cant": "unbounded histories before the call", "anchors": ["src/PyOGRe/Export.py:import_from_file", "src/PyOGRe/Export.py:import_all_from_file"]}
{"id": "C91", "title": "an interrupted export loses nothing", "statement": "If the program is stopped at any time while it exports to a file, other files are as before and the file holds its old content or the complete new text.", "quantifier": "all sessions, disks, and times at which the program may stop", "why_tests_cant": "crash points cannot be enumerated by tests", "anchors": ["src/PyOGRe/OGReObject.py:OGReObject.export", "src/PyOGRe/Export.py:export_all"]}
{"id": "C92", "title": "the Einstein tensor is conserved", "statement": "CovariantD(a) @ E(b c), where E is the Einstein tensor computed from the metric and a is one of the labels b and c, is zero in every index configuration.", "quantifier": "all metrics, dimensions, sessions and choices of labels", "why_tests_cant": "an identity between second derivatives of arbitrary metrics", "anchors": ["src/PyOGRe/Calc.py:CovariantD", "src/PyOGRe/Calc.py:CalcObject.__matmul__", "src/PyOGRe/Calc.py:CalcEinsteinTensor"]}
{"id": "C93", "title": "the second Bianchi identity holds", "statement": "With D = CovariantD(e) @ R(a b c d), where R is the Riemann tensor computed from the metric, D(e a b c d) + D(c a b d e) + D(d a b e c) is zero in every index configuration.", "quantifier": "all metrics, dimensions, sessions and choices of labels", "why_tests_cant": "an identity between third derivatives of arbitrary metrics", "anchors": ["src/PyOGRe/Calc.py:CovariantD", "src/PyOGRe/Calc.py:CalcObject.__matmul__", "src/PyOGRe/Calc.py:CalcRiemannTensor"]}
{"id": "C94", "title": "covariant derivatives commute up to curvature", "statement": "For B = Calc(CovariantD(c) @ A(a ...)) with A = Calc(CovariantD(a) @ T(...)), the difference between B and B with the labels a and c exchanged is the contraction of T with the Riemann tensor computed from the metric: one term for every index of T, for every choice of upper and lower positions of these indices.", "quantifier": "all metrics, tensors of any rank, sessions, positions and choices of labels", "why_tests_cant": "an identity for tensors of every rank and arbitrary metrics", "anchors": ["src/PyOGRe/Calc.py:CovariantD", "src/PyOGRe/Calc.py:CalcObject.__matmul__", "src/PyOGRe/Calc.py:Calc", "src/PyOGRe/Calc.py:CalcRiemannTensor"]}
{"id": "C95", "title": "the Lagrangian is constant along geodesics", "statement": "The derivative of the components of CalcLagrangian by the curve parameter vanishes for all values of the coordinates, velocities and accelerations that satisfy the equations of CalcGeodesicFromLagrangian, or those of CalcGeodesicFromChristoffel.", "quantifier": "all metrics, dimensions and sessions, all values of coordinates, velocities and accelerations", "why_tests_cant": "an identity for arbitrary metrics and all points of all geodesics", "anchors": ["src/PyOGRe/Lagrangian.py:Lagrangian.get_components", "src/PyOGRe/Calc.py:CalcGeodesicFromLagrangian", "src/PyOGRe/Geodesic.py:GeodesicChristoffel", "src/PyOGRe/Calc.py:CalcLagrangian"]}
{"id": "C96", "title": "activate decides the form of the geodesic equations", "statement": "CalcGeodesicFromLagrangian with activate=True returns the explicit equations, with the derivative by the curve parameter carried out, and with activate=False it returns the unsimplified equations in which that derivative is not carried out.", "quantifier": "all metrics, dimensions, sessions and values of activate", "why_tests_cant": "unbounded histories of earlier requests", "anchors": ["src/PyOGRe/Calc.py:CalcGeodesicFromLagrangian", "src/PyOGRe/Metric.py:Metric.calc_geodesic_from_lagrangian"]}
{"id": "C97", "title": "curvature in low dimensions", "statement": "The Riemann tensor computed from a metric in one dimension, the Einstein tensor computed from a metric in two dimensions and the Weyl tensor computed from a metric in three dimensions are zero in every index configuration.", "quantifier": "all metrics in one, two and three dimensions, all sessions", "why_tests_cant": "identities for arbitrary functions as components of the metric", "anchors": ["src/PyOGRe/Calc.py:CalcRiemannTensor", "src/PyOGRe/Calc.py:CalcEinsteinTensor", "src/PyOGRe/Calc.py:CalcWeylTensor"]}
{"id": "C98", "title": "constant metrics are flat", "statement": "If no component of a metric depends on a coordinate, then CalcChristoffel, CalcRiemannTensor, CalcRicciTensor, CalcRicciScalar, CalcEinsteinTensor and, in more than two dimensions, CalcWeylTensor return tensors that are zero in every index configuration.", "quantifier": "all constant metrics with either default configuration, all dimensions and sessions", "why_tests_cant": "infinitely many metrics in infinitely many dimensions", "anchors": ["src/PyOGRe/Calc.py:CalcChristoffel", "src/PyOGRe/Calc.py:CalcRiemannTensor", "src/PyOGRe/Calc.py:CalcRicciTensor", "src/PyOGRe/Calc.py:CalcRicciScalar", "src/PyOGRe/Calc.py:CalcEinsteinTensor", "src/PyOGRe/Calc.py:CalcWeylTensor"]}
{"id": "C99", "title": "constant factors of the metric", "statement": "If the components of a metric are those of another one, with the same coordinates and the same default configuration, multiplied by a constant c, then the functions that compute the Christoffel symbols and the Riemann, Ricci and Einstein tensors return the same components for both; the Ricci scalar is divided by c and the Weyl tensor is multiplied by c (c is the factor of the components with lower indices).", "quantifier": "all pairs of metrics, constants, dimensions and sessions", "why_tests_cant": "infinitely many metrics and factors", "anchors": ["src/PyOGRe/Calc.py:CalcChristoffel", "src/PyOGRe/Calc.py:CalcRiemannTensor", "src/PyOGRe/Calc.py:CalcRicciTensor", "src/PyOGRe/Calc.py:CalcRicciScalar", "src/PyOGRe/Calc.py:CalcEinsteinTensor", "src/PyOGRe/Calc.py:CalcWeylTensor"]}
{"id": "C100", "title": "geodesics of constant metrics are straight", "statement": "If the components of a metric do not depend on the coordinates (nor on velocities or the curve parameter), then the geodesic equations from the Lagrangian, from the Christoffel symbols and with the time parameter are satisfied by exactly the motions whose accelerations (with respect to the curve parameter, or to the zeroth coordinate for the last one) are zero, whichever default configuration the metric has.", "quantifier": "all metrics with constant components, dimensions, sessions in which no other object has the name of a result, and all values of coordinates, velocities and accelerations", "why_tests_cant": "infinitely many metrics and motions", "anchors": ["src/PyOGRe/Calc.py:CalcLagrangian", "src/PyOGRe/Calc.py:CalcGeodesicFromLagrangian", "src/PyOGRe/Calc.py:CalcGeodesicFromChristoffel", "src/PyOGRe/Calc.py:CalcGeodesicWithTimeParameter"]}
{"id": "C101", "title": "constant factors and geodesics", "statement": "If the components of a metric are those of another one, with the same coordinates and the same default configuration, multiplied by a constant c, then the geodesic equations from the Christoffel symbols and those with the time parameter are the same, the Lagrangian is multiplied by c, and the geodesic equations from the Lagrangian have the same solutions (c is the factor of the components with lower indices).", "quantifier": "all pairs of metrics that depend on the coordinates only, constants, dimensions, and sessions in which no other object has the name of a result", "why_tests_cant": "infinitely many metrics and factors", "anchors": ["src/PyOGRe/Calc.py:CalcLagrangian", "src/PyOGRe/Calc.py:CalcGeodesicFromLagrangian", "src/PyOGRe/Calc.py:CalcGeodesicFromChristoffel", "src/PyOGRe/Calc.py:CalcGeodesicWithTimeParameter"]}
{"id": "C102", "title": "rules of one coordinate system concern nobody else", "statement": "Adding, replacing or removing the transformation rules of a coordinate system with add_coord_transformation changes no other object and no dictionary of the caller, and a coordinate system keeps the rules it was declared with until add_coord_transformation is called for it. (False: the constructor keeps the dictionary it was given, so all coordinate systems declared with the same dictionary always have the rules that are in it at the moment, and the dictionary of the caller changes with them.)", "quantifier": "all sequences of declarations with and without dictionaries, changes of these dictionaries by the caller and other calls; all coordinate systems and rules", "why_tests_cant": "it is about the interplay of any number of objects and dictionaries over arbitrary histories; tests use a new dictionary for each declaration", "anchors": ["src/PyOGRe/Coordinates.py:Coordinates.__init__", "src/PyOGRe/Coordinates.py:Coordinates.add_coord_transformation"]}
{"id": "C103", "title": "momenta are constant along geodesics", "statement": "If the components of a metric with lower indices do not depend on one of the coordinates, then the derivative of the Lagrangian of CalcLagrangian by the velocity of this coordinate is constant along geodesics: its derivative by the curve parameter is zero for all motions that satisfy the equations of CalcGeodesicFromLagrangian, and for all that satisfy those of CalcGeodesicFromChristoffel. (False for the second when the default configuration of the metric is (1,1).)", "quantifier": "all metrics that depend on the coordinates only, dimensions, coordinates that do not occur in the metric, sessions, and all values of coordinates, velocities and accelerations", "why_tests_cant": "infinitely many metrics and motions", "anchors": ["src/PyOGRe/Calc.py:CalcLagrangian", "src/PyOGRe/Calc.py:CalcGeodesicFromLagrangian", "src/PyOGRe/Calc.py:CalcGeodesicFromChristoffel"]}
{"id": "C104", "title": "the time parameter is a change of parameter", "statement": "The equations of CalcGeodesicWithTimeParameter describe the same curves as those of CalcGeodesicFromChristoffel: whenever the zeroth coordinate moves along a curve and the velocities and accelerations with respect to it are those of the curve by the chain rule, all equations of CalcGeodesicFromChristoffel hold exactly if all equations of CalcGeodesicWithTimeParameter and the zeroth equation of CalcGeodesicFromChristoffel (the parameter is affine) hold. This is so for both default configurations that a metric can have.", "quantifier": "all metrics, dimensions, sessions in which no other object has the name of a result, and all values of the metric, its derivatives, velocities and accelerations", "why_tests_cant": "infinitely many metrics and motions", "anchors": ["src/PyOGRe/Calc.py:CalcGeodesicFromChristoffel", "src/PyOGRe/Calc.py:CalcGeodesicWithTimeParameter"]}
{"id": "C105", "title": "delete_results reports what it deleted", "statement": "After any sequence of calls, delete_results returns without raising; all objects it deletes are called 'Result', all other objects stay as they were and in the same order, and it shows one message for each deleted object and then the exact number of deleted objects (nothing with silent=True).", "quantifier": "all sequences of calls before it, registries of any length, both display modes", "why_tests_cant": "it is about all histories; the loop deletes from the list that it iterates over", "anchors": ["src/PyOGRe/Options.py:delete_results", "src/PyOGRe/OGReObject.py:OGReObject.delete"]}
{"id": "C106", "title": "str and info show all attributes in a fixed order", "statement": "After any sequence of calls, str(obj) and obj.info() work for every registered object without changing anything, and show exactly: name, symbol, class, rank, metric (not for coordinate systems and metrics), default coordinates (not for coordinate systems), default indices, and for coordinate systems the objects that use them and the systems they have rules for, for metrics the objects that use them; in this order, with the current values. (False if an object was given rules to coordinates that had been deleted.)", "quantifier": "all sequences of calls, all registered objects, both display modes", "why_tests_cant": "it is about all histories and all texts", "anchors": ["src/PyOGRe/OGReObject.py:OGReObject.__str__", "src/PyOGRe/OGReObject.py:OGReObject.info", "src/PyOGRe/OGReObject.py:OGReObject._get_info", "src/PyOGRe/Coordinates.py:Coordinates._get_info", "src/PyOGRe/BaseTensor.py:BaseTensor._get_info", "src/PyOGRe/Metric.py:Metric._get_info", "src/PyOGRe/Tensor.py:Tensor._get_info", "src/PyOGRe/Options.py:Options"]}
{"id": "C107", "title": "str identifies an object", "statement": "Without LaTeX, two objects with the same str(obj) have the same name, symbol, class, rank and default indices, and the names of their default coordinates and metrics are the same. (False if names or symbols may contain line breaks.)", "quantifier": "all pairs of objects of all sessions", "why_tests_cant": "all texts", "anchors": ["src/PyOGRe/OGReObject.py:OGReObject.__str__", "src/PyOGRe/OGReObject.py:OGReObject._get_info"]}
{"id": "C108", "title": "set functions show the option", "statement": "Each of set_parallelization, set_list_per_line, set_font_size, set_index_letters and set_curve_parameter, called without argument, shows the value that the last accepted call asked for, as Python writes it (typeset by LaTeX for letters and the curve parameter in Jupyter mode), and changes nothing. With an argument, set_index_letters and set_curve_parameter show the new value, the other functions nothing; a call that raises shows nothing.", "quantifier": "all sequences of calls with all arguments", "why_tests_cant": "all histories of calls", "anchors": ["src/PyOGRe/Options.py:set_index_letters", "src/PyOGRe/Options.py:set_curve_parameter", "src/PyOGRe/Options.py:set_list_per_line", "src/PyOGRe/Options.py:set_font_size", "src/PyOGRe/Options.py:set_parallelization"]}
{"id": "C109", "title": "get_options tells all options", "statement": "get_options prints one line with the present value for each option, and after any two sequences of calls the same text means that all options are the same (for index letters without ranges and escapes).", "quantifier": "all pairs of sequences of calls", "why_tests_cant": "all pairs of texts", "anchors": ["src/PyOGRe/Options.py:get_options", "src/PyOGRe/Options.py:Options"]}
{"id": "C110", "title": "the Weyl tensor is conformally invariant", "statement": "If the components of a metric declared with default indices (-1,-1), in three or more dimensions, are those of another one with the same coordinates multiplied by a function c of the coordinates that has an inverse, then CalcWeylTensor of the former returns, in its default configuration (-1,-1,-1,-1), c times the components of the Weyl tensor of the latter; in the configuration (1,-1,-1,-1) both have the same components.", "quantifier": "all pairs of metrics that differ by a factor, all factors, dimensions greater than two, and sessions in which all objects with the name of a result are results", "why_tests_cant": "infinitely many metrics and factors", "anchors": ["src/PyOGRe/Calc.py:CalcWeylTensor", "src/PyOGRe/Calc.py:CalcRiemannTensor", "src/PyOGRe/Calc.py:CalcRicciTensor", "src/PyOGRe/Calc.py:CalcRicciScalar", "src/PyOGRe/Calc.py:CalcChristoffel"]}
{"id": "C111", "title": "vacuum", "statement": "For every metric, in every dimension except two, and every function x, CalcEinsteinTensor returns -x times the metric exactly if (n-2) times the tensor of CalcRicciTensor is 2x times the metric (all with lower indices); so for x = 0 the Einstein tensor vanishes exactly if the Ricci tensor does. If the Ricci tensor vanishes in three or more dimensions, then CalcRiemannTensor and CalcWeylTensor return tensors with the same components in the configuration (1,-1,-1,-1).", "quantifier": "all metrics with both default configurations, dimensions other than two (greater than two), functions, and sessions in which all objects with the name of a result are results", "why_tests_cant": "infinitely many metrics", "anchors": ["src/PyOGRe/Calc.py:CalcEinsteinTensor", "src/PyOGRe/Calc.py:CalcRicciTensor", "src/PyOGRe/Calc.py:CalcRicciScalar", "src/PyOGRe/Calc.py:CalcRiemannTensor", "src/PyOGRe/Calc.py:CalcWeylTensor"]}
{"id": "C112", "title": "clear_instances deletes all objects", "statement": "After any sequence of calls, clear_instances returns without raising and leaves an empty registry, and every object that was registered is deleted. (False with more than four objects or with circles of rules: then objects may survive without being registered. True with at most four objects without circles. The survivors are always unchanged and refer to no deleted object that was registered.)", "quantifier": "all sequences of calls before it, registries of any length", "why_tests_cant": "it is about all histories; the loops delete from the list that they iterate over", "anchors": ["src/PyOGRe/Options.py:clear_instances", "src/PyOGRe/Options.py:delete_results", "src/PyOGRe/OGReObject.py:OGReObject.delete"]}
{"id": "C113", "title": "get_instances returns a live list", "statement": "The list that get_instances returns shows, whenever it is read later, the objects registered at that time, in the order of the registry. (False after clear_instances and import_all_*, which begin a new list: then the old list shows forever exactly the objects registered before that clear_instances did not delete.)", "quantifier": "all sequences of calls before and after get_instances", "why_tests_cant": "it is about all histories and about the identity of a Python list", "anchors": ["src/PyOGRe/Options.py:get_instances", "src/PyOGRe/Options.py:clear_instances", "src/PyOGRe/OGReObject.py:OGReObject"]}
{"id": "C114", "title": "divergences and the volume element", "statement": "For every metric, with v the determinant that volume_element shows in the default coordinates: twice v times the sum over a of the Christoffel symbols with components (a,a,k) that CalcChristoffel returns is the derivative of v by the coordinate k; and for every vector V with default indices (1,) the formula CovariantD('a') @ V('a') makes a scalar s with 2 v s = 2 v (sum of the derivatives of the components of V) + (sum of V^k times the derivative of v by the coordinate k); the same holds of every component of CovariantD('a') @ F('a b') for an antisymmetric tensor F with default indices (1,1). (False for metrics with default indices (1,1), where the sum of the Christoffel symbols has the opposite sign; proved for (-1,-1).)", "quantifier": "all metrics, dimensions, vectors and sessions in which all objects with the name of a result are results; engines that know the determinants of invertible matrices", "why_tests_cant": "infinitely many metrics and vectors", "anchors": ["src/PyOGRe/Metric.py:Metric.volume_element", "src/PyOGRe/Calc.py:CalcChristoffel", "src/PyOGRe/Calc.py:CalcObject.__matmul__", "src/PyOGRe/Calc.py:CovariantD"]}
{"id": "C115", "title": "Killing vectors give constants of motion", "statement": "For every metric and every tensor X with default indices (-1,) whose components depend only on the coordinates: the derivative by the curve parameter of the sum of the components of X times the velocities is z_ij times the velocities i and j, summed, with z the tensor CovariantD('a') @ X('b'), plus a combination of the equations of CalcGeodesicFromChristoffel. So if z is antisymmetric, the sum is constant along every curve for which these equations hold.", "quantifier": "all metrics with both default configurations, dimensions, vectors, values of coordinates, velocities and accelerations, and sessions in which all objects with the name of a result are results", "why_tests_cant": "infinitely many metrics, vectors and curves", "anchors": ["src/PyOGRe/Calc.py:CalcGeodesicFromChristoffel", "src/PyOGRe/Calc.py:CalcObject.__matmul__", "src/PyOGRe/Calc.py:CovariantD"]}
{"id": "C116", "title": "exterior derivatives do not need the connection", "statement": "For every metric and every tensor A with default indices (-1,): for z = CovariantD('a') @ A('b') the antisymmetric part z_ij - z_ji is the derivative of the component j of A by the coordinate i minus the derivative of the component i by the coordinate j. For every antisymmetric tensor F with default indices (-1,-1) the cyclic sum of the components of CovariantD('a') @ F('b c') is the cyclic sum of the derivatives of the components of F (the homogeneous Maxwell equations).", "quantifier": "all metrics with both default configurations, dimensions, tensors, and sessions in which all objects with the name of a result are results", "why_tests_cant": "infinitely many metrics and tensors", "anchors": ["src/PyOGRe/Calc.py:CalcObject.__matmul__", "src/PyOGRe/Calc.py:CovariantD", "src/PyOGRe/Calc.py:CalcChristoffel"]}
{"id": "C117", "title": "a deleted object cannot be used", "statement": "After obj.delete() has returned, and whatever calls follow (other than change_name and change_symbol of obj itself), every request to obj raises an exception and changes nothing: get_components, show, list, info, str, change_default_indices, change_default_coords, add_coord_transformation, simplify, the calc_ methods (those of Lagrangians and geodesics without the argument coords), line_element, volume_element, a second delete with messages, and export, which does not touch the file. A formula in which obj occurs anywhere raises.", "quantifier": "all sessions, deleted objects of every class, later histories of arbitrary calls, arguments and formulae", "why_tests_cant": "unbounded histories and formulae", "anchors": ["src/PyOGRe/OGReObject.py:OGReObject.delete", "src/PyOGRe/BaseTensor.py:BaseTensor.get_components", "src/PyOGRe/Calc.py:CalcObject"]}
{"id": "C118", "title": "rules stay as they were given", "statement": "After c.add_coord_transformation(coords, rules) has returned, the rules of c for coords are the ones that were in the list at that time, until add_coord_transformation is called for these two again. (False: the list itself is kept, so the rules are always the present content of the caller's list, in every coordinate system that was given this list.)", "quantifier": "all sessions, coordinate systems, lists of rules, and later sequences of calls and of changes to the lists of the caller", "why_tests_cant": "it is about the interplay of any number of objects and lists over arbitrary histories; tests write the list into the call", "anchors": ["src/PyOGRe/Coordinates.py:Coordinates.add_coord_transformation"]}
{"id": "C119", "title": "norms change by covariant derivatives", "statement": "The derivative of the norm of a tensor (calc_norm_squared) with respect to a coordinate is twice the contraction of the covariant derivative of the tensor (CovariantD) with the tensor itself, whatever its rank and default indices; so the norm of a tensor whose covariant derivative vanishes is constant.", "quantifier": "every metric and dimension, every tensor of any rank, configuration and components", "why_tests_cant": "it relates two results that are computed in different ways, over all components, ranks and metrics", "anchors": ["src/PyOGRe/Calc.py:CalcNormSquared", "src/PyOGRe/Calc.py:CalcObject.__matmul__", "src/PyOGRe/Calc.py:CalcChristoffel"]}
{"id": "C120", "title": "the Laplace operator", "statement": "The covariant divergence (CovariantD) of the gradient (PartialD, stored with Calc) of a scalar f is g^{kl} (d_k d_l f - Gamma^m_{kl} d_m f), and with the volume element v (the determinant of the metric) it satisfies 2 v div grad f = 2 v d_k (g^{kl} d_l f) + g^{kl} d_l f d_k v, which is the usual formula with the square root of v.", "quantifier": "every metric and dimension and every scalar", "why_tests_cant": "it relates three results that are computed in different ways, over all metrics and scalars", "anchors": ["src/PyOGRe/Calc.py:Calc", "src/PyOGRe/Calc.py:CalcObject.__matmul__", "src/PyOGRe/Metric.py:Metric.volume_element"]}
{"id": "C121", "title": "the laws of tensor algebra hold for labelled tensors", "statement": "Formulae that can be turned into each other by the laws of tensor algebra (sums and products in any order and grouping, distributivity of @ over +, numbers taken out of sums and products, -f = (-1)*f, f-g = f+(-g)) evaluate to the same labelled tensor, and the tensors that Calc makes of them have the same components in every index configuration. Two limits are sharp: a product may be regrouped only if no label is common to all three factors, and the laws may not be used below a partial derivative, because the components that are differentiated are those in the default configuration of the first summand.", "quantifier": "all formulae of any depth, all uses of the laws anywhere in them outside derivatives, all sessions, all positions and values of the labels", "why_tests_cant": "there are infinitely many formulae and ways to regroup them, and the components are arbitrary", "anchors": ["src/PyOGRe/Calc.py:Calc.__add__", "src/PyOGRe/Calc.py:Calc.__matmul__", "src/PyOGRe/Calc.py:Calc.__mul__", "src/PyOGRe/Calc.py:Calc.__sub__", "src/PyOGRe/Calc.py:Calc.__neg__"]}
{"id": "C122", "title": "partial derivatives obey the rules of calculus", "statement": "In a formula, PartialD(a) @ (PartialD(b) @ f) and PartialD(b) @ (PartialD(a) @ f) are the same labelled tensor, a constant factor may be taken out of a derivative, the derivative of a sum is the sum of the derivatives, and the derivative of a product is given by Leibniz' rule.", "quantifier": "all formulae f and g, all labels, all metrics, coordinates and components, all starting states", "why_tests_cant": "the operands are arbitrary formulae over arbitrary tensors, and the rules hold or fail depending on default index positions that examples with constant metrics do not show", "anchors": ["src/PyOGRe/Calc.py:CalcObject.__matmul__", "src/PyOGRe/Calc.py:CalcObject.__add__", "src/PyOGRe/Calc.py:PartialD"]}
{"id": "C123", "title": "curvature of product spaces", "statement": "If the metric consists of two blocks, each of which depends only on its own coordinates, then CalcChristoffel, CalcRiemannTensor and CalcRicciTensor return the two blocks that they return for the factors, and all components with indices of both factors are zero; CalcRicciScalar returns the sum of the scalars of the factors, and each block of CalcEinsteinTensor is that of the factor minus half of the scalar of the other factor times the metric.", "quantifier": "all pairs of metrics of any dimensions and signatures with the same default configuration (-1,-1) or (1,1), all sessions in which objects with the name of a result are that result", "why_tests_cant": "it relates results of three computations with metrics of arbitrary components and dimensions", "anchors": ["src/PyOGRe/Calc.py:CalcChristoffel", "src/PyOGRe/Calc.py:CalcRiemannTensor", "src/PyOGRe/Calc.py:CalcRicciTensor", "src/PyOGRe/Calc.py:CalcRicciScalar", "src/PyOGRe/Calc.py:CalcEinsteinTensor"]}
{"id": "C124", "title": "motion in product spaces", "statement": "If the metric consists of two blocks, each of which depends only on its own coordinates, then the equations that CalcGeodesicFromLagrangian and CalcGeodesicFromChristoffel return are satisfied exactly by the curves whose projections satisfy the equations returned for the two factors, the Lagrangian that CalcLagrangian returns is the sum of those of the factors, and the first equations of CalcGeodesicWithTimeParameter are equivalent to those that it returns for the first factor, the one that contains the time.", "quantifier": "all pairs of metrics of any dimensions and signatures with the same default configuration (-1,-1) or (1,1) that do not contain the parameter or velocities, all sessions without objects that already have the names of the results, all substitutions of values for the functions", "why_tests_cant": "it relates results of three computations with metrics of arbitrary components and dimensions, and all curves", "anchors": ["src/PyOGRe/Calc.py:CalcLagrangian", "src/PyOGRe/Calc.py:CalcGeodesicFromLagrangian", "src/PyOGRe/Calc.py:CalcGeodesicFromChristoffel", "src/PyOGRe/Calc.py:CalcGeodesicWithTimeParameter"]}
{"id": "C125", "title": "changed defaults are what was asked for", "statement": "change_default_coords(c) makes c the default coordinates of a tensor, Lagrangian or geodesic equation, and change_default_indices(ix) makes ix the default index configuration: afterwards get_components() returns what get_components(coords=c) or get_components(indices=ix) returned before, and nothing else has changed, apart from components that such a request stores, too. Where there are no rules TransformationError is raised; whenever an exception is raised, the defaults stay as they are.", "quantifier": "all objects, coordinates, configurations and sessions in which the components can be requested", "why_tests_cant": "the object may have any stored representations from any history, and the state after each exception matters", "anchors": ["src/PyOGRe/BaseTensor.py:BaseTensor.change_default_coords", "src/PyOGRe/BaseTensor.py:BaseTensor.change_default_indices", "src/PyOGRe/BaseTensor.py:BaseTensor.get_components"]}
{"id": "C126", "title": "the labels that str_symbols makes", "statement": "If the symbols that sympy makes of a string have names without white space, commas, colons and backslashes, then str_symbols returns a string that, as an argument of a tensor or as the indices of Calc, stands for exactly these symbols, in this order. This is so for every string without ranges and escapes; a string that sympy does not accept raises ValueError, and something that is not a string raises TypeError.", "quantifier": "all strings, all tensors, formulae and sessions", "why_tests_cant": "strings may have any length and any separators, and the result is read again by other functions", "anchors": ["src/PyOGRe/Utils.py:str_symbols", "src/PyOGRe/Tensor.py:Tensor.__call__", "src/PyOGRe/Calc.py:Calc"]}
{"id": "C127", "title": "the shape of an answer", "statement": "The array that get_components returns has one axis for every index of the tensor, and every axis is as long as the coordinate system asked for; and a tensor never changes the shape it was created with, whatever is computed, moved or raised and lowered afterwards", "quantifier": "every session of calls, every tensor in it, every coordinate system and index configuration asked for", "why_tests_cant": "Shapes are carried through cached representations, contractions, Jacobians and inverses, in an order set by the history of requests; a test sees one order", "anchors": ["src/PyOGRe/BaseTensor.py:BaseTensor.get_components", "src/PyOGRe/Coordinates.py:Coordinates._calculate_jacobian", "src/PyOGRe/Geodesic.py:GeodesicChristoffel.get_components"]}
{"id": "C128", "title": "what an imported text makes", "statement": "When import_from_string returns, exactly one object has been added and nothing else has changed; the object is what the first entry of the text describes: class from the role, name from the key, symbol from the text or the default of the class if the text has none, default indices, the components listed for them, the first registered coordinates and the last registered metric of the given names", "quantifier": "every text that can be read, whoever wrote it, and every session in which it is imported", "why_tests_cant": "Texts come from other programs with entries in any order and any names already in the session; tests import a few texts that PyOGRe wrote itself", "anchors": ["src/PyOGRe/Export.py:string_to_tensor", "src/PyOGRe/Export.py:import_from_string"]}
{"id": "C129", "title": "what an import of everything makes", "statement": "When import_all_from_string returns, the registry consists of exactly one object for every entry of the text other than the options, coordinates first, then metrics, then the rest, each group in the order of the text; every object is what its entry describes, and its coordinates and metric are the first registered objects with the names its entry gives", "quantifier": "every text that can be read, whoever wrote it, with its entries in any order, and every history of the session before", "why_tests_cant": "Entries may come in any order and number, and refer to each other by names that later passes resolve; tests import a few texts that PyOGRe wrote itself", "anchors": ["src/PyOGRe/Export.py:import_all_from_string", "src/PyOGRe/Export.py:string_to_tensor"]}
{"id": "C130", "title": "the rules that an import of everything adds", "statement": "When import_all_from_string returns, the imported coordinate systems have exactly the transformations that the text lists: every rule list they have comes from an entry for coordinates with their name and leads to the first registered object with the name of the target, and every target that such an entry lists has got rules", "quantifier": "every text that can be read, with coordinate systems in any order and number and any targets, and every history of the session before", "why_tests_cant": "Rules refer to coordinate systems that may come later in the text and are added in a separate pass over the registry; tests import one or two systems", "anchors": ["src/PyOGRe/Export.py:import_all_from_string", "src/PyOGRe/Coordinates.py:Coordinates.add_coord_transformation"]}
{"id": "C131", "title": "the rules of coordinates imported alone", "statement": "Coordinates that import_from_string makes have exactly the transformations that the text lists for objects registered at that time: every rule list they have is one listed in the first entry for the name of its target, and every registered object whose name is listed has got rules", "quantifier": "every text that can be read and every session in which it is imported", "why_tests_cant": "The targets are looked up by name among all registered objects, of which there may be none or several with the name; tests import into one prepared session", "anchors": ["src/PyOGRe/Export.py:import_from_string", "src/PyOGRe/Export.py:string_to_tensor", "src/PyOGRe/Coordinates.py:Coordinates.__init__"]}
