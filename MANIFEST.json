{"claims": [
 {"property": "C01", "status": "proved", "theorems": ["PyOGRe.C01_contract_einstein_sum", "PyOGRe.C01_contract_outer_product"], "note": ""},
 {"property": "C02", "status": "proved", "theorems": ["PyOGRe.C02_contract_rejects"], "note": ""},
 {"property": "C03", "status": "proved", "theorems": ["PyOGRe.C03_gradient"], "note": ""},
 {"property": "C04", "status": "partial", "theorems": ["PyOGRe.C04_divergence_partial", "PyOGRe.C04_divergence_axis2_refused", "PyOGRe.C04_divergence_missing_axis_not_valueError"], "note": "False of the code for an axis other than 0 or 1: refused although legal; proved for axes 0 and 1."},
 {"property": "C05", "status": "proved", "theorems": ["PyOGRe.C05_zero_tensor"], "note": ""},
 {"property": "C06", "status": "proved", "theorems": ["PyOGRe.C06_elements"], "note": ""},
 {"property": "C07", "status": "partial", "theorems": ["PyOGRe.C07_map_to_array_partial", "PyOGRe.C07_map_to_array_not_pointwise"], "note": "False of the code for arrays that are not hypercubes; proved for hypercubes."},
 {"property": "C08", "status": "proved", "theorems": ["PyOGRe.C08_raise_lower"], "note": "any rank, configuration and history of requests; metric components as returned by the library"},
 {"property": "C09", "status": "proved", "theorems": ["PyOGRe.C09_reversible"], "note": "any list of visited configurations; each result is declared as a new tensor"},
 {"property": "C10", "status": "proved", "theorems": ["PyOGRe.C10_history_independent"], "note": "any history of requests of any objects, exceptions included"},
 {"property": "C11", "status": "proved", "theorems": ["PyOGRe.C11_metric_representations"], "note": "also after any history of requests; reading has no effect"},
 {"property": "C19", "status": "proved", "theorems": ["PyOGRe.C19_tensor_constructor", "PyOGRe.C19_coordinates_constructor"], "note": "refused calls change nothing"},
 {"property": "C20", "status": "proved", "theorems": ["PyOGRe.C20_metric_constructor", "PyOGRe.C20_metric_without_indices_stays_registered"], "note": "assumes that sympy inverts matrices with non-zero determinant (EngineTotal); a metric refused for indices=None stays registered"},
 {"property": "C12", "status": "partial", "theorems": ["PyOGRe.C12_metric_in_new_coordinates_partial", "PyOGRe.C12_false"], "note": "False of the code when the first request in a new chart is not for the default configuration (C12_false, a KeyError that also poisons the cache); proved when it is."},
 {"property": "C13", "status": "partial", "theorems": ["PyOGRe.C13_transformation_law_partial", "PyOGRe.C13_transformation_law_sessions", "PyOGRe.C13_false"], "note": "One step between charts with rules, and all answers of a whole session. False of the code for scalars whose default coordinates have been changed: requests in further systems are never answered (C13_false)."},
 {"property": "C14", "status": "proved", "theorems": ["PyOGRe.C14_transform_commutes", "PyOGRe.C14_full_contractions_are_scalars"], "note": ""},
 {"property": "C15", "status": "proved", "theorems": ["PyOGRe.C15_there_and_back"], "note": ""},
 {"property": "C16", "status": "partial", "theorems": ["PyOGRe.C16_new_rules_take_effect_partial", "PyOGRe.C16_removed_rules_are_gone", "PyOGRe.C16_refused_without_rules", "PyOGRe.C16_old_jacobian_is_kept", "PyOGRe.C16_false"], "note": "False of the code once a Jacobian was computed with the old rules (C16_false); proved before that."},
 {"property": "C17", "status": "partial", "theorems": ["PyOGRe.C17_jacobian_partial", "PyOGRe.C17_false"], "note": "False of the code when a coordinate without rule is not at the same position in the new chart (C17_false); proved otherwise."},
 {"property": "C18", "status": "partial", "theorems": ["PyOGRe.C18_simultaneous_partial", "PyOGRe.C18_false"], "note": "False of the code when an old symbol occurs in a later rule (C18_false); proved otherwise."},
 {"property": "C67", "status": "proved", "theorems": ["PyOGRe.C67_session_sound", "PyOGRe.C67_same_answer", "PyOGRe.C67_requests_succeed"], "note": "whole sessions: declarations and requests in any number of charts; C67_requests_succeed: for sessions in which metrics keep their lower indices and scalars their coordinates"},
 {"property": "C21", "status": "proved", "theorems": ["PyOGRe.C21_addition", "PyOGRe.C21_refuses_labels", "PyOGRe.C21_refuses_ranks", "PyOGRe.C21_refuses_metrics", "PyOGRe.C21_refuses_derivatives"], "note": "operands in the metric's chart, as declared or computed"},
 {"property": "C22", "status": "partial", "theorems": ["PyOGRe.C22_negation_partial", "PyOGRe.C22_subtraction", "PyOGRe.C22_scaling", "PyOGRe.C22_division_partial", "PyOGRe.C22_scalar_product", "PyOGRe.C22_product_refused", "PyOGRe.C22_false"], "note": "Proved for all operands whose default components are arrays. False of the code for scalars whose default coordinates have been changed: negation and division raise TypeError (C22_false)."},
 {"property": "C23", "status": "partial", "theorems": ["PyOGRe.C23_numbers_refused_partial", "PyOGRe.C23_false"], "note": "False of the code: v - A is never refused and is -A whatever v is (C23_false); A - v and A + v are refused unless v is 0."},
 {"property": "C24", "status": "partial", "theorems": ["PyOGRe.C24_trace_partial", "PyOGRe.C24_label_thrice_refused", "PyOGRe.C24_trace_code", "PyOGRe.C24_false"], "note": "Proved when the default coordinates of the metric are those of the tensor; otherwise false: the code uses the metric's components in its own coordinates (C24_false)."},
 {"property": "C25", "status": "proved", "theorems": ["PyOGRe.C25_product", "PyOGRe.C25_refuses_metrics"], "note": "any ranks, labels and configurations"},
 {"property": "C27", "status": "proved", "theorems": ["PyOGRe.C27_products_commute"], "note": ""},
 {"property": "C28", "status": "proved", "theorems": ["PyOGRe.C28_reorder", "PyOGRe.C28_same_order", "PyOGRe.C28_other_order_refused"], "note": ""},
 {"property": "C29", "status": "partial", "theorems": ["PyOGRe.C29_gradient", "PyOGRe.C29_divergence_partial", "PyOGRe.C29_false"], "note": "False of the code when the label is the third or a later one of the tensor (refused); proved otherwise."},
 {"property": "C30", "status": "partial", "theorems": ["PyOGRe.C30_right_derivative", "PyOGRe.C30_right_derivative_partial", "PyOGRe.C30_false"], "note": "False of the code for tensors: the result of A @ PartialD is labelled in the order of the labels although the derivative index comes first."},
 {"property": "C68", "status": "partial", "theorems": ["PyOGRe.C68_false"], "note": "False of the code: the number of labels is never compared with the rank."},
 {"property": "C66", "status": "proved", "theorems": ["PyOGRe.C66_dummy_labels"], "note": "any injective renaming of summed labels in any nested formula of the model's operators"},
 {"property": "C69", "status": "proved", "theorems": ["PyOGRe.C69_formula", "PyOGRe.C69_calc"], "note": "every nested formula of sums, scalings, products, traces and left partial derivatives"},
 {"property": "C26", "status": "partial", "theorems": ["PyOGRe.C25_product", "PyOGRe.C26_product_code", "PyOGRe.C26_false"], "note": "False of the code: each factor is taken in its own default coordinates (C26_product_code, C26_false).  C25_product covers operands with the same default coordinates."},
 {"property": "C35", "status": "partial", "theorems": ["PyOGRe.C35_christoffel_partial", "PyOGRe.C35_upper_sign", "PyOGRe.C35_false", "PyOGRe.C35_components"], "note": "Proved for metrics with default configuration (-1,-1).  False for metrics with default configuration (1,1): every component has the wrong sign (C35_upper_sign, C35_false)."},
 {"property": "C36", "status": "partial", "theorems": ["PyOGRe.C36_riemann_partial", "PyOGRe.C36_upper", "PyOGRe.C36_false"], "note": "Proved for metrics with default configuration (-1,-1), all dimensions.  False for metrics with default configuration (1,1): the derivative terms have the wrong sign (C36_upper, C36_false)."},
 {"property": "C37", "status": "partial", "theorems": ["PyOGRe.C37_ricci_partial", "PyOGRe.C37_scalar_partial", "PyOGRe.C37_upper", "PyOGRe.C37_false"], "note": "Proved for metrics with default configuration (-1,-1), all dimensions.  False for metrics with default configuration (1,1); C37_upper says what is returned instead."},
 {"property": "C38", "status": "partial", "theorems": ["PyOGRe.C38_einstein_partial", "PyOGRe.C38_upper", "PyOGRe.C38_false"], "note": "Proved for metrics with default configuration (-1,-1), all dimensions, including the contracted Bianchi identity.  False for metrics with default configuration (1,1); C38_upper says what is returned instead."},
 {"property": "C39", "status": "partial", "theorems": ["PyOGRe.C39_weyl_partial", "PyOGRe.C39_two_dimensions", "PyOGRe.C39_upper", "PyOGRe.C39_false"], "note": "Proved for metrics with default configuration (-1,-1), all dimensions above 2; in dimension 2 ZeroDivisionError.  False for metrics with default configuration (1,1); C39_upper says what is returned instead."},
 {"property": "C40", "status": "partial", "theorems": ["PyOGRe.C40_norm_partial", "PyOGRe.C40_metric", "PyOGRe.C40_found_by_name", "PyOGRe.C40_false"], "note": "All ranks, index configurations and dimensions, provided no registered object already has the name of the result; otherwise that object is returned (C40_found_by_name), and two tensors with the same name get the same norm (C40_false)."},
 {"property": "C52", "status": "partial", "theorems": ["PyOGRe.C52_named_partial", "PyOGRe.C52_found_by_name", "PyOGRe.C52_false"], "note": "False of the code: results are looked up by name (C52_found_by_name, C52_false).  C52_named_partial: right whenever registered objects with such names are what the name says, which is preserved."},
 {"property": "C53", "status": "partial", "theorems": ["PyOGRe.C53_ricci_deleted", "PyOGRe.C53_false", "PyOGRe.C53_others_partial"], "note": "False of the code: the Ricci tensor is deleted and an intermediate tensor stays registered.  C53_others_partial: all other tensors survive."},
 {"property": "C31", "status": "partial", "theorems": ["PyOGRe.C31_gradient_partial", "PyOGRe.C31_divergence_partial", "PyOGRe.C31_temporary_false", "PyOGRe.C31_upper_gradient", "PyOGRe.C31_upper_divergence", "PyOGRe.C33_false"], "note": "Any rank, configuration and dimension, for tensors the user declared (or Calc returned) and metrics with default configuration (-1,-1).  False of operands that are intermediate results inside a formula (C31_temporary_false), and of metrics with default configuration (1,1) (C33_false; C31_upper_gradient and C31_upper_divergence say what is computed)."},
 {"property": "C32", "status": "partial", "theorems": ["PyOGRe.C32_right_derivative", "PyOGRe.C32_right_derivative_partial", "PyOGRe.C32_false"], "note": "False of the code: the labels of the result are in the wrong order (C32_false); C32_right_derivative says exactly what is computed."},
 {"property": "C33", "status": "partial", "theorems": ["PyOGRe.C33_metric_compatibility_partial", "PyOGRe.C33_upper", "PyOGRe.C33_false"], "note": "All dimensions and configurations of the result, for metrics with default configuration (-1,-1).  False for metrics with default configuration (1,1): the result is twice the partial derivative (C33_upper, C33_false)."},
 {"property": "C34", "status": "partial", "theorems": ["PyOGRe.C34_sum_partial", "PyOGRe.C34_product_partial", "PyOGRe.C34_upper_sum", "PyOGRe.C34_upper_product", "PyOGRe.C34_false"], "note": "Sums, and products with any contraction, for tensors of any rank and metrics with default configuration (-1,-1). For the default configuration (1,1) the rules hold for the derivative that the library computes if each operand is used in its default configuration (C34_upper_*), and fail otherwise: C34_false has the product of the metric with itself."},
 {"property": "C46", "status": "proved", "theorems": ["PyOGRe.C46_delete"], "note": "after every history of the calls in Spec.Call: constructors, transformations, requests, changes of defaults, names and symbols, deletions, Calc of any expression, curvature, norms, curves, simplify, line and volume elements, imports"},
 {"property": "C47", "status": "partial", "theorems": ["PyOGRe.C47_references_partial", "PyOGRe.C47_references_false", "PyOGRe.C47_deleted_metric_false"], "note": "False of the code: deleted coordinates and metrics are accepted as arguments (C47_references_false, C47_deleted_metric_false).  Proved for every history in which the arguments of each call are registered at that time."},
 {"property": "C48", "status": "partial", "theorems": ["PyOGRe.C48_delete_results_partial", "PyOGRe.C48_delete_results_false"], "note": "False of the code: the loops delete while iterating, so that of 16 unused results in a row one stays (C48_delete_results_false).  Proved when there is no such run of 16 and used results are used by objects that stay."},
 {"property": "C49", "status": "proved", "theorems": ["PyOGRe.C49_clear"], "note": ""},
 {"property": "C50", "status": "partial", "theorems": ["PyOGRe.C50_temporaries_exact", "PyOGRe.C50_temporaries_partial", "PyOGRe.C50_temporaries_false"], "note": "False of the code for every formula with four or more temporary tensors (C50_temporaries_false); exactly a quarter of them, rounded down, stays (C50_temporaries_exact)."},
 {"property": "C51", "status": "partial", "theorems": ["PyOGRe.C51_users_objects_partial", "PyOGRe.C51_users_objects_false", "PyOGRe.C31_temporary_false"], "note": "False of the code: a user's tensor called TEMP is deleted (C51_users_objects_false), and temporary tensors that are still needed are deleted (C31_temporary_false).  Proved: all objects not called TEMP survive every evaluation, even one that raises."},
 {"property": "C70", "status": "partial", "theorems": ["PyOGRe.C70_two_covariant_derivatives_false", "PyOGRe.C34_sum_partial", "PyOGRe.C34_product_partial"], "note": "False of the code: sums, differences and products of covariant derivatives and second covariant derivatives raise.  The Leibniz theorems (C34) cover covariant derivatives that are turned into tensors with Calc one at a time."},
 {"property": "C54", "status": "partial", "theorems": ["PyOGRe.C54_total", "PyOGRe.C54_printed", "PyOGRe.C54_accounted", "PyOGRe.C54_unknown", "PyOGRe.C54_false", "PyOGRe.C54_decimal_false"], "note": "Totality, tokens of printed tokens and full accounting of plain text are proved; false with a lone <, > or | (it disappears with the next character) and with decimals (1.5 becomes 1 and 0.5)."},
 {"property": "C55", "status": "partial", "theorems": ["PyOGRe.C55_partial", "PyOGRe.C55_content", "PyOGRe.C55_false", "PyOGRe.C55_empty_false", "PyOGRe.C55_open_false", "PyOGRe.C55_spaces_false", "PyOGRe.C55_escape_false", "PyOGRe.C55_number_false", "PyOGRe.C55_path_false", "PyOGRe.C55_triple", "PyOGRe.C55_triple_false"], "note": "Proved for non-empty contents without double quotes that do not end in a single quote; false for the empty string, for a final single quote, for repeated spaces and for escapes."},
 {"property": "C56", "status": "partial", "theorems": ["PyOGRe.C56_partial", "PyOGRe.C56_settled", "PyOGRe.C56_grammar", "PyOGRe.C56_false"], "note": "Proved when none of ) [ ] |> comes after a {, and for every text of the grammar; a linear number of steps decides; false on {) which loops for ever."},
 {"property": "C57", "status": "proved", "theorems": ["PyOGRe.C57", "PyOGRe.C57_grammar"], "note": "Printed forms with minimal parentheses; C57_grammar for the whole grammar with optional spaces and juxtaposition."},
 {"property": "C58", "status": "partial", "theorems": ["PyOGRe.C58_partial", "PyOGRe.C58_false"], "note": "Strings must be legible (non-empty, no quotes, no backslash, single spaces); false for an empty list with a space inside."},
 {"property": "C59", "status": "partial", "theorems": ["PyOGRe.C59_tensor_partial", "PyOGRe.C59_deleted", "PyOGRe.C59_metric_partial", "PyOGRe.C59_coordinates_partial", "PyOGRe.C59_line_false", "PyOGRe.C59_options_false", "PyOGRe.C59_symbol_false", "PyOGRe.C59_name_false", "PyOGRe.C59_geodesic_false", "PyOGRe.C59_metric_false", "PyOGRe.C59_scalar_false"], "note": "Proved for every tensor, metric and coordinate system whose printed names, symbols and components belong to the Mathematica grammar (texts of any length): the imported object has the same class, name, symbol, indices, coordinates, metric and default components and nothing else changes. False as stated: dimension one, the name Options, an empty symbol, repeated spaces in names, geodesic equations (symbol 0), metrics with mixed default indices, scalars whose default coordinates have been changed."},
 {"property": "C60", "status": "partial", "theorems": ["PyOGRe.C60_one_partial", "PyOGRe.C60_false"], "note": "False as stated: import_all_from_string clears the registry before it reads the text, so for every session and every unreadable text everything is lost. For import_from_string it holds for every text: if it raises, nothing has changed."},
 {"property": "C61", "status": "partial", "theorems": ["PyOGRe.C61_partial", "PyOGRe.C61_false"], "note": "Proved for every registry, of any size, whose names are all different and whose objects can be exported (readable texts, dimension at least two, coordinates, metrics and transformation targets registered): every object is created again over the new coordinates and metrics. False as stated when two objects have the same name, as all unnamed results of Calc have; rules that are None and the Jacobian matrices are not restored."},
 {"property": "C62", "status": "partial", "theorems": ["PyOGRe.C62_list", "PyOGRe.C62_scalar_false", "PyOGRe.C62_infinite_false"], "note": "C62_list is the full statement for components in a ring and tensors of positive rank, with and without LaTeX, after any history.  False as stated for scalars, which are shown even when zero, and for infinite components, of which only the last is shown."},
 {"property": "C63", "status": "partial", "theorems": ["PyOGRe.C63_lines", "PyOGRe.C63_setting", "PyOGRe.C63_false"], "note": "Proved for every positive number per line; set_list_per_line also accepts zero, and then list raises ZeroDivisionError."},
 {"property": "C64", "status": "partial", "theorems": ["PyOGRe.C64_index_letters_partial", "PyOGRe.C64_setting", "PyOGRe.C64_false"], "note": "False as stated: a string with a single name is accepted, and then show raises TypeError for every object.  Proved for strings with two or more names or a final comma (without the ranges and escapes of sympy)."},
 {"property": "C65", "status": "partial", "theorems": ["PyOGRe.C65_elements", "PyOGRe.C65_declared_metric", "PyOGRe.C65_false"], "note": "Proved whenever the lower components can be had, in particular for every declared metric in its own coordinates, after any requests.  False in new coordinates for metrics declared with upper indices: KeyError."},
 {"property": "C71", "status": "partial", "theorems": ["PyOGRe.C71_info_partial", "PyOGRe.C71_false"], "note": "Proved after every history in which the arguments of each call are registered at that time; false when rules to deleted coordinates have been added."},
 {"property": "C41", "status": "partial", "theorems": ["PyOGRe.C41_law_partial", "PyOGRe.C41_levi_civita_partial", "PyOGRe.C41_refused", "PyOGRe.C41_lowered", "PyOGRe.C41_false"], "note": "The default configuration obeys the law, and what is returned is the Levi-Civita connection of the transformed metric, whatever was requested before, provided old coordinates without a rule are the new ones at the same place and no cached Jacobian is stale. Other configurations raise KeyError unless they were requested in the old coordinates before (C41_refused), and then the inhomogeneous term is wrong: C41_lowered gives the exact error term and C41_false a case in which it does not vanish."},
 {"property": "C42", "status": "partial", "theorems": ["PyOGRe.C42_lagrangian_partial", "PyOGRe.C42_new_coordinates_partial", "PyOGRe.C42_found_by_name", "PyOGRe.C42_false"], "note": "The value of the Lagrangian in the coordinates of the metric (or others in which the session holds it), and of a new Lagrangian requested in new coordinates. sympy's functions of the curve parameter are an abstract structure with stated laws. Old coordinates without a rule have to be the new ones at the same place. The property is false when another metric has the same name: the Lagrangian of the first one is returned."},
 {"property": "C43", "status": "partial", "theorems": ["PyOGRe.C43_lagrangian", "PyOGRe.C43_christoffel", "PyOGRe.C43_equivalent_partial", "PyOGRe.C43_upper", "PyOGRe.C43_false"], "note": "Each system of equations is the textbook one up to units, and the two vanish together for every value of coordinates, velocities and accelerations. The property is false of metrics with default configuration (1,1): the equations from the Christoffel symbols have the wrong sign there, for every such metric (C43_upper). Missing: metrics that contain velocities or the curve parameter."},
 {"property": "C44", "status": "partial", "theorems": ["PyOGRe.C44_time_partial", "PyOGRe.C44_upper", "PyOGRe.C44_false"], "note": "In the default coordinates of the metric, for a metric with lower default indices; the property is false of metrics with default configuration (1,1), for which all Christoffel symbols have the wrong sign (C44_upper)."},
 {"property": "C45", "status": "partial", "theorems": ["PyOGRe.C45_false"], "note": "The property is false: the components that are returned in new coordinates are those of the old ones, whatever the rules are; the equations are right in the coordinates in which they are computed (C43)."},
 {"property": "C72", "status": "partial", "theorems": ["PyOGRe.C72_first_partial", "PyOGRe.C72_sessions_partial", "PyOGRe.C72_weyl_partial", "PyOGRe.C72_false"], "note": "Proved for the first request in the new coordinates, from any state without stale Jacobians, for metrics declared by their lower components, when old coordinates without a rule are the new ones at the same place. False when a coordinate without a rule is at another place in the new coordinates (C72_false: a metric that is flat in the new coordinates with a Riemann tensor that does not vanish there), and, like C16, after rules have been replaced."},
 {"property": "C73", "status": "partial", "theorems": ["PyOGRe.C73_simplify_partial", "PyOGRe.C73_sessions_partial", "PyOGRe.C73_every_component", "PyOGRe.C73_false"], "note": "Proved for all tensors with indices.  False of scalars: ValueError for every scalar (the components of a scalar are indexed with [0])."},
 {"property": "C74", "status": "partial", "theorems": ["PyOGRe.C74_arguments_partial", "PyOGRe.C74_false"], "note": "For every answer with components (positive dimension); sympy's printers are parameters. False of the code for scalars in coordinates other than those in which they were made: function raises TypeError (C74_false)."},
 {"property": "C75", "status": "proved", "theorems": ["PyOGRe.C75_metric", "PyOGRe.C75_tensor", "PyOGRe.C75_coordinates", "PyOGRe.C75_declarations"], "note": "for objects of the session; values that are not objects of the library are outside the model"},
 {"property": "C76", "status": "partial", "theorems": ["PyOGRe.C76_show_partial", "PyOGRe.C76_false", "PyOGRe.C76_scalar_false"], "note": "Proved for all ranks, functions and replacements except vectors with a function and scalars in other coordinates with a function. False for these: for every vector and every function an n by n array is displayed, and for scalars in other coordinates TypeError is raised."},
 {"property": "C77", "status": "proved", "theorems": ["PyOGRe.C77_last_setting", "PyOGRe.C77_refused"], "note": "for strings without the ranges and escapes of sympy.symbols"},
 {"property": "C78", "status": "proved", "theorems": ["PyOGRe.C78_call", "PyOGRe.C78_coordinates", "PyOGRe.C78_derivative", "PyOGRe.C78_calc"], "note": "for strings without the ranges and escapes of sympy.symbols"},
 {"property": "C79", "status": "partial", "theorems": ["PyOGRe.C79_initial_rules", "PyOGRe.C79_refused", "PyOGRe.C79_unchecked_false"], "note": "False with indices=None: the rules are not checked. Simplification: the dictionary of the caller is copied; the code keeps a reference to it."},
 {"property": "C80", "status": "proved", "theorems": ["PyOGRe.C80_list", "PyOGRe.C80_show", "PyOGRe.C80_components"], "note": ""},
 {"property": "C81", "status": "proved", "theorems": ["PyOGRe.C81_attributes"], "note": ""},
 {"property": "C82", "status": "proved", "theorems": ["PyOGRe.C82_same_answer", "PyOGRe.C82_same_equations"], "note": "the second theorem is for Lagrangians and geodesic equations"},
 {"property": "C83", "status": "partial", "theorems": ["PyOGRe.C83_whole_text_partial", "PyOGRe.C83_false", "PyOGRe.C83_operator_false", "PyOGRe.C83_brackets_false"], "note": "Proved for names, numbers, strings and operators of every text in which lists and associations stand only where an operand or entry begins and no operator stands in place of a name. False otherwise: {a {b} is read as {{b}}, \\\\[+] is accepted, and brackets that do not match are accepted."},
 {"property": "C84", "status": "proved", "theorems": ["PyOGRe.C84_letters", "PyOGRe.C84_strings", "PyOGRe.C57"], "note": "For every name and every string; C57 covers letters inside arithmetic expressions. Arguments of functions are the subject of C85."},
 {"property": "C85", "status": "partial", "theorems": ["PyOGRe.C85_partial", "PyOGRe.C85_false", "PyOGRe.C85_nested_false", "PyOGRe.C85_letter_false"], "note": "Arguments are converted to Python text, which sympy reads: proved that the text has, by Python's rules, the value of the argument, for arithmetic arguments without calls, letters and powers of negated expressions. False otherwise: f[(-x)^2] is read as f(-x^2), and calls and Greek letters inside a call are handed over as text that sympy refuses."},
 {"property": "C86", "status": "partial", "theorems": ["PyOGRe.C86_partial", "PyOGRe.C86_false"], "note": "For any number of variables and any orders, with arguments as in C85. False for order zero of one variable, where sympy is asked to differentiate by nothing and takes the only variable."},
 {"property": "C87", "status": "partial", "theorems": ["PyOGRe.C87_components_partial", "PyOGRe.C87_show_partial", "PyOGRe.C87_list_partial", "PyOGRe.C87_refused", "PyOGRe.C87_velocity_false", "PyOGRe.C87_constant_false"], "note": "For replacements of coordinates by functions of the parameter and the other coordinates and of constants by constants, in any session. False of the code for velocities, which are not replaced, and for constants replaced by functions of the coordinates, where components that are 0 become the second derivative of the function. show with function is proved except for vectors (as in C76), and function is proved except for scalars in other coordinates (as in C74)."},
 {"property": "C88", "status": "proved", "theorems": ["PyOGRe.C88_roles", "PyOGRe.C88_unknown"], "note": "For any texts, any values the text is read as, and any session; the entries before and after the role are arbitrary."},
 {"property": "C89", "status": "proved", "theorems": ["PyOGRe.C89_export", "PyOGRe.C89_export_all", "PyOGRe.C89_import", "PyOGRe.C89_round"], "note": "For any session, printer, disk, file name and way in which the text is cut into pieces when written."},
 {"property": "C90", "status": "partial", "theorems": ["PyOGRe.C90_one_partial", "PyOGRe.C90_false"], "note": "False as stated: for every session, import_all_from_file with a wrong file name, or with something that is not a string, raises after the session has been emptied. For import_from_file it holds for all arguments."},
 {"property": "C91", "status": "partial", "theorems": ["PyOGRe.C91_partial", "PyOGRe.C91_false"], "note": "Proved: at every time the other files are as before and the file holds its old text or a beginning of the new one. False as stated: there is always a time at which the file is empty, so a crash loses the earlier export."},
 {"property": "C92", "status": "partial", "theorems": ["PyOGRe.C92_conserved_partial", "PyOGRe.C92_false"], "note": "Proved for metrics with default configuration (-1,-1). False for metrics with default configuration (1,1), where the library computes with the wrong sign of the Christoffel symbols (C35); the witness is a metric of the plane."},
 {"property": "C93", "status": "proved", "theorems": ["PyOGRe.C93_bianchi", "PyOGRe.C93_bianchi_upper"], "note": "The two theorems are for the two default configurations that a metric can have (C20). For (1,1) the identity holds although the Riemann tensor and the derivative are not those of the metric."},
 {"property": "C94", "status": "partial", "theorems": ["PyOGRe.C94_ricci_identity_partial", "PyOGRe.C94_ricci_identity_upper", "PyOGRe.C94_false"], "note": "Proved for metrics with default configuration (-1,-1), tensors of every rank and all positions. For metrics with default configuration (1,1), where the library computes with the wrong sign of the Christoffel symbols, it holds in the default configuration of the tensor and is false in others."},
 {"property": "C95", "status": "partial", "theorems": ["PyOGRe.C95_conserved_partial", "PyOGRe.C95_christoffel_partial", "PyOGRe.C95_false"], "note": "Proved for the equations from the Lagrangian and metrics of both default configurations, and for the equations from the Christoffel symbols and metrics with default configuration (-1,-1), if the components of the metric contain only the coordinates. False for the equations from the Christoffel symbols and metrics with default configuration (1,1), where the library computes with the wrong sign."},
 {"property": "C96", "status": "partial", "theorems": ["PyOGRe.C96_first_partial", "PyOGRe.C96_found_by_name", "PyOGRe.C96_false"], "note": "Proved for the first request. False of later ones: whatever form was computed first is returned for both values, in every session (C96_found_by_name). What sympy does with a derivative that is not carried out is a function about which nothing is assumed."},
 {"property": "C97", "status": "partial", "theorems": ["PyOGRe.C97_dimensions_partial", "PyOGRe.C97_one_upper", "PyOGRe.C97_false"], "note": "Proved for metrics with default configuration (-1,-1), and in one dimension also for (1,1). False in two and three dimensions for metrics with default configuration (1,1), where the library computes with the wrong sign of the Christoffel symbols (C35)."},
 {"property": "C98", "status": "proved", "theorems": ["PyOGRe.C98_flat"], "note": "For both default configurations that a metric can have (C20). Objects that already have the names of the computed tensors are assumed to be zero, because the library returns them (C52)."},
 {"property": "C99", "status": "proved", "theorems": ["PyOGRe.C99_scaled", "PyOGRe.C99_scaled_upper"], "note": "The two theorems are for the two default configurations that a metric can have (C20). For (1,1) the tensors are not those of the metrics, but the factors are right."},
 {"property": "C100", "status": "proved", "theorems": ["PyOGRe.C100_straight"], "note": "For both default configurations that a metric can have (C20). Equality of solutions is stated for every homomorphism from the expressions to a ring."},
 {"property": "C101", "status": "proved", "theorems": ["PyOGRe.C101_scaled"], "note": "For both default configurations that a metric can have (C20)."},
 {"property": "C102", "status": "partial", "theorems": ["PyOGRe.C102_false", "PyOGRe.C102_shared", "PyOGRe.C102_independent_partial", "PyOGRe.C102_copied_partial"], "note": "The claim is false when a dictionary is given to two constructors or used by the caller afterwards; what happens then is C102_shared, and the claim holds otherwise."},
 {"property": "C103", "status": "partial", "theorems": ["PyOGRe.C103_momentum_partial", "PyOGRe.C103_christoffel_partial", "PyOGRe.C103_false"], "note": "The claim is false of CalcGeodesicFromChristoffel for metrics with default configuration (1,1), whose equations have the wrong sign; the other two theorems are the claim in the remaining cases."},
 {"property": "C104", "status": "proved", "theorems": ["PyOGRe.C104_time"], "note": "For both default configurations that a metric can have (C20)."},
 {"property": "C105", "status": "proved", "theorems": ["PyOGRe.C105_report"], "note": ""},
 {"property": "C106", "status": "partial", "theorems": ["PyOGRe.C106_text_partial", "PyOGRe.C106_false"], "note": "The claim is false when rules to deleted coordinates were added (as C71); C106_text_partial is the claim for sessions in which the arguments of all calls are registered."},
 {"property": "C107", "status": "partial", "theorems": ["PyOGRe.C107_identified_partial", "PyOGRe.C107_false"], "note": "The claim is false for names with line breaks; C107_identified_partial is the claim for names and symbols with one line, in sessions in which the arguments of all calls are registered."},
 {"property": "C108", "status": "proved", "theorems": ["PyOGRe.C108_asked", "PyOGRe.C108_confirmed"], "note": "For label strings without ranges and escapes, which sympy treats in its own way (as C77)."},
 {"property": "C109", "status": "proved", "theorems": ["PyOGRe.C109_lines", "PyOGRe.C109_identified"], "note": ""},
 {"property": "C110", "status": "proved", "theorems": ["PyOGRe.C110_conformal"], "note": ""},
 {"property": "C111", "status": "proved", "theorems": ["PyOGRe.C111_vacuum"], "note": ""},
 {"property": "C112", "status": "partial", "theorems": ["PyOGRe.C112_four_partial", "PyOGRe.C112_rest", "PyOGRe.C112_false"], "note": "false as stated: each loop skips the object after a deleted one and there are only four of them, so a coordinate system with a metric and four tensors may survive, unregistered; proved for at most four objects without circles, and what holds of the survivors in every case"},
 {"property": "C113", "status": "partial", "theorems": ["PyOGRe.C113_live_partial", "PyOGRe.C113_afterwards", "PyOGRe.C113_false"], "note": "false after clear_instances and import_all, which replace the list; proved for all other calls, and what the old list shows afterwards"},
 {"property": "C114", "status": "partial", "theorems": ["PyOGRe.C114_trace_partial", "PyOGRe.C114_divergence_partial", "PyOGRe.C114_vector_partial", "PyOGRe.C114_antisymmetric_partial", "PyOGRe.C114_upper", "PyOGRe.C114_false"], "note": "false for metrics with default indices (1,1), where the trace of the Christoffel symbols has the opposite sign (C114_upper); proved for (-1,-1)"},
 {"property": "C115", "status": "proved", "theorems": ["PyOGRe.C115_killing"], "note": ""},
 {"property": "C116", "status": "proved", "theorems": ["PyOGRe.C116_curl", "PyOGRe.C116_cyclic"], "note": ""},
 {"property": "C117", "status": "proved", "theorems": ["PyOGRe.C117_unusable", "PyOGRe.C117_formula"], "note": "Every request to a deleted object, after any history, is refused; formulae with it raise."},
 {"property": "C118", "status": "partial", "theorems": ["PyOGRe.C118_current", "PyOGRe.C118_kept_partial", "PyOGRe.C118_copied_partial", "PyOGRe.C118_false"], "note": "False in general: the rules are the present content of the list of the caller (C118_current). True if the caller does not change a list after passing it."},
 {"property": "C119", "status": "partial", "theorems": ["PyOGRe.C119_norm_partial", "PyOGRe.C119_constant_partial", "PyOGRe.C119_false"], "note": "Proved for metrics with default indices (-1,-1), for tensors of every rank and configuration; false for metrics with default indices (1,1), whose Christoffel symbols have the wrong sign."},
 {"property": "C120", "status": "partial", "theorems": ["PyOGRe.C120_laplace_partial", "PyOGRe.C120_false"], "note": "Proved for metrics with default indices (-1,-1) and every scalar; false for metrics with default indices (1,1), whose Christoffel symbols have the wrong sign."},
 {"property": "C121", "status": "proved", "theorems": ["PyOGRe.C121_laws", "PyOGRe.C121_calc", "PyOGRe.C121_threefold_false", "PyOGRe.C121_derivative_false"], "note": "the two theorems ending in _false show that the two conditions in the statement cannot be dropped: products with a label common to three factors, and sums below a partial derivative"},
 {"property": "C122", "status": "partial", "theorems": ["PyOGRe.C122_order", "PyOGRe.C122_number", "PyOGRe.C122_sum_partial", "PyOGRe.C122_product_partial", "PyOGRe.C122_sum_false", "PyOGRe.C122_product_false"], "note": "order of derivatives and constant factors: in full. Sums and products: false as stated, since the components that are differentiated are those in the default configuration of the whole operand (the two theorems ending in _false); proved if the default positions of each label agree in the two terms of a sum and are opposite for the contracted labels of a product"},
 {"property": "C123", "status": "proved", "theorems": ["PyOGRe.C123_product", "PyOGRe.C123_product_upper"], "note": "the second theorem is the same for metrics with default indices (1,1), whose tensors have other signs than usual"},
 {"property": "C124", "status": "proved", "theorems": ["PyOGRe.C124_product"], "note": ""},
 {"property": "C125", "status": "proved", "theorems": ["PyOGRe.C125_coords", "PyOGRe.C125_curve", "PyOGRe.C125_indices"], "note": ""},
 {"property": "C126", "status": "proved", "theorems": ["PyOGRe.C126_labels", "PyOGRe.C126_plain"], "note": "what sympy makes of ranges and escapes is an arbitrary function of the string"},
 {"property": "C127", "status": "partial", "theorems": ["PyOGRe.C127_shapes_partial", "PyOGRe.C127_curve_partial", "PyOGRe.C127_lasting_partial", "PyOGRe.C127_false"], "note": "proved for sessions whose coordinate systems all have the same number of coordinates; with different numbers the full claim is false (C127_false): rules to a system with more coordinates are accepted and the answer keeps the old number"},
 {"property": "C128", "status": "proved", "theorems": ["PyOGRe.C128_imported"], "note": "for every text the parser reads and every session; transformation rules of imported coordinates are the subject of C131"},
 {"property": "C129", "status": "proved", "theorems": ["PyOGRe.C129_imported_all"], "note": "for every text the parser reads and every history before; the transformation rules that the import adds to coordinates are the subject of C130"},
 {"property": "C130", "status": "proved", "theorems": ["PyOGRe.C130_imported_rules"], "note": "for every text the parser reads and every history before; equations whose left side is no symbol are taken to raise"},
 {"property": "C131", "status": "proved", "theorems": ["PyOGRe.C131_imported_rules_alone"], "note": "transformations whose target is not registered have a string as key, which no lookup finds, and are left out of the model"}
]}
