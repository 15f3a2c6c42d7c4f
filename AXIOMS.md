# Axioms of every theorem in MANIFEST.json

As printed by `#print axioms`.

| property | theorem | axioms |
|---|---|---|
| C01 | `PyOGRe.C01_contract_einstein_sum` | propext, Classical.choice, Quot.sound |
| C01 | `PyOGRe.C01_contract_outer_product` | propext, Classical.choice, Quot.sound |
| C02 | `PyOGRe.C02_contract_rejects` | propext, Classical.choice, Quot.sound |
| C03 | `PyOGRe.C03_gradient` | propext, Classical.choice, Quot.sound |
| C04 | `PyOGRe.C04_divergence_partial` | propext, Classical.choice, Quot.sound |
| C04 | `PyOGRe.C04_divergence_axis2_refused` | propext, Quot.sound |
| C04 | `PyOGRe.C04_divergence_missing_axis_not_valueError` | propext, Quot.sound |
| C05 | `PyOGRe.C05_zero_tensor` | propext, Classical.choice, Quot.sound |
| C06 | `PyOGRe.C06_elements` | propext, Classical.choice, Quot.sound |
| C07 | `PyOGRe.C07_map_to_array_partial` | propext, Classical.choice, Quot.sound |
| C07 | `PyOGRe.C07_map_to_array_not_pointwise` | propext, Classical.choice, Quot.sound |
| C08 | `PyOGRe.C08_raise_lower` | propext, Classical.choice, Quot.sound |
| C09 | `PyOGRe.C09_reversible` | propext, Classical.choice, Quot.sound |
| C10 | `PyOGRe.C10_history_independent` | propext, Classical.choice, Quot.sound |
| C100 | `PyOGRe.C100_straight` | propext, Classical.choice, Quot.sound |
| C101 | `PyOGRe.C101_scaled` | propext, Classical.choice, Quot.sound |
| C102 | `PyOGRe.C102_false` | propext, Classical.choice, Quot.sound |
| C102 | `PyOGRe.C102_shared` | propext, Classical.choice, Quot.sound |
| C102 | `PyOGRe.C102_independent_partial` | propext, Classical.choice, Quot.sound |
| C102 | `PyOGRe.C102_copied_partial` | propext, Classical.choice, Quot.sound |
| C103 | `PyOGRe.C103_momentum_partial` | propext, Classical.choice, Quot.sound |
| C103 | `PyOGRe.C103_christoffel_partial` | propext, Classical.choice, Quot.sound |
| C103 | `PyOGRe.C103_false` | propext, Classical.choice, Quot.sound |
| C104 | `PyOGRe.C104_time` | propext, Classical.choice, Quot.sound |
| C105 | `PyOGRe.C105_report` | propext, Classical.choice, Quot.sound |
| C106 | `PyOGRe.C106_text_partial` | propext, Classical.choice, Quot.sound |
| C106 | `PyOGRe.C106_false` | propext, Classical.choice, Quot.sound |
| C107 | `PyOGRe.C107_identified_partial` | propext, Classical.choice, Quot.sound |
| C107 | `PyOGRe.C107_false` | propext, Classical.choice, Quot.sound |
| C108 | `PyOGRe.C108_asked` | propext, Classical.choice, Quot.sound |
| C108 | `PyOGRe.C108_confirmed` | propext, Classical.choice, Quot.sound |
| C109 | `PyOGRe.C109_lines` | propext, Classical.choice, Quot.sound |
| C109 | `PyOGRe.C109_identified` | propext, Classical.choice, Quot.sound |
| C11 | `PyOGRe.C11_metric_representations` | propext, Classical.choice, Quot.sound |
| C110 | `PyOGRe.C110_conformal` | propext, Classical.choice, Quot.sound |
| C111 | `PyOGRe.C111_vacuum` | propext, Classical.choice, Quot.sound |
| C112 | `PyOGRe.C112_four_partial` | propext, Classical.choice, Quot.sound |
| C112 | `PyOGRe.C112_rest` | propext, Classical.choice, Quot.sound |
| C112 | `PyOGRe.C112_false` | propext, Classical.choice, Quot.sound |
| C113 | `PyOGRe.C113_live_partial` | propext, Classical.choice, Quot.sound |
| C113 | `PyOGRe.C113_afterwards` | propext, Classical.choice, Quot.sound |
| C113 | `PyOGRe.C113_false` | propext, Classical.choice, Quot.sound |
| C114 | `PyOGRe.C114_trace_partial` | propext, Classical.choice, Quot.sound |
| C114 | `PyOGRe.C114_divergence_partial` | propext, Classical.choice, Quot.sound |
| C114 | `PyOGRe.C114_vector_partial` | propext, Classical.choice, Quot.sound |
| C114 | `PyOGRe.C114_antisymmetric_partial` | propext, Classical.choice, Quot.sound |
| C114 | `PyOGRe.C114_upper` | propext, Classical.choice, Quot.sound |
| C114 | `PyOGRe.C114_false` | propext, Classical.choice, Quot.sound |
| C115 | `PyOGRe.C115_killing` | propext, Classical.choice, Quot.sound |
| C116 | `PyOGRe.C116_curl` | propext, Classical.choice, Quot.sound |
| C116 | `PyOGRe.C116_cyclic` | propext, Classical.choice, Quot.sound |
| C117 | `PyOGRe.C117_unusable` | propext, Classical.choice, Quot.sound |
| C117 | `PyOGRe.C117_formula` | propext, Classical.choice, Quot.sound |
| C118 | `PyOGRe.C118_current` | propext, Classical.choice, Quot.sound |
| C118 | `PyOGRe.C118_kept_partial` | propext, Classical.choice, Quot.sound |
| C118 | `PyOGRe.C118_copied_partial` | propext, Classical.choice, Quot.sound |
| C118 | `PyOGRe.C118_false` | propext, Classical.choice, Quot.sound |
| C119 | `PyOGRe.C119_norm_partial` | propext, Classical.choice, Quot.sound |
| C119 | `PyOGRe.C119_constant_partial` | propext, Classical.choice, Quot.sound |
| C119 | `PyOGRe.C119_false` | propext, Classical.choice, Quot.sound |
| C12 | `PyOGRe.C12_metric_in_new_coordinates_partial` | propext, Classical.choice, Quot.sound |
| C12 | `PyOGRe.C12_false` | propext, Classical.choice, Quot.sound |
| C120 | `PyOGRe.C120_laplace_partial` | propext, Classical.choice, Quot.sound |
| C120 | `PyOGRe.C120_false` | propext, Classical.choice, Quot.sound |
| C121 | `PyOGRe.C121_laws` | propext, Classical.choice, Quot.sound |
| C121 | `PyOGRe.C121_calc` | propext, Classical.choice, Quot.sound |
| C121 | `PyOGRe.C121_threefold_false` | propext, Classical.choice, Quot.sound |
| C121 | `PyOGRe.C121_derivative_false` | propext, Classical.choice, Quot.sound |
| C122 | `PyOGRe.C122_order` | propext, Classical.choice, Quot.sound |
| C122 | `PyOGRe.C122_number` | propext, Classical.choice, Quot.sound |
| C122 | `PyOGRe.C122_sum_partial` | propext, Classical.choice, Quot.sound |
| C122 | `PyOGRe.C122_product_partial` | propext, Classical.choice, Quot.sound |
| C122 | `PyOGRe.C122_sum_false` | propext, Classical.choice, Quot.sound |
| C122 | `PyOGRe.C122_product_false` | propext, Classical.choice, Quot.sound |
| C123 | `PyOGRe.C123_product` | propext, Classical.choice, Quot.sound |
| C123 | `PyOGRe.C123_product_upper` | propext, Classical.choice, Quot.sound |
| C124 | `PyOGRe.C124_product` | propext, Classical.choice, Quot.sound |
| C125 | `PyOGRe.C125_coords` | propext, Classical.choice, Quot.sound |
| C125 | `PyOGRe.C125_curve` | propext, Classical.choice, Quot.sound |
| C125 | `PyOGRe.C125_indices` | propext, Classical.choice, Quot.sound |
| C126 | `PyOGRe.C126_labels` | propext, Classical.choice, Quot.sound |
| C126 | `PyOGRe.C126_plain` | propext, Classical.choice, Quot.sound |
| C127 | `PyOGRe.C127_shapes_partial` | propext, Classical.choice, Quot.sound |
| C127 | `PyOGRe.C127_curve_partial` | propext, Classical.choice, Quot.sound |
| C127 | `PyOGRe.C127_lasting_partial` | propext, Classical.choice, Quot.sound |
| C127 | `PyOGRe.C127_false` | propext, Classical.choice, Quot.sound |
| C128 | `PyOGRe.C128_imported` | propext, Classical.choice, Quot.sound |
| C129 | `PyOGRe.C129_imported_all` | propext, Classical.choice, Quot.sound |
| C13 | `PyOGRe.C13_transformation_law_partial` | propext, Classical.choice, Quot.sound |
| C13 | `PyOGRe.C13_transformation_law_sessions` | propext, Classical.choice, Quot.sound |
| C13 | `PyOGRe.C13_false` | propext, Classical.choice, Quot.sound |
| C130 | `PyOGRe.C130_imported_rules` | propext, Classical.choice, Quot.sound |
| C131 | `PyOGRe.C131_imported_rules_alone` | propext, Classical.choice, Quot.sound |
| C14 | `PyOGRe.C14_transform_commutes` | propext, Classical.choice, Quot.sound |
| C14 | `PyOGRe.C14_full_contractions_are_scalars` | propext, Classical.choice, Quot.sound |
| C15 | `PyOGRe.C15_there_and_back` | propext, Classical.choice, Quot.sound |
| C16 | `PyOGRe.C16_new_rules_take_effect_partial` | propext, Classical.choice, Quot.sound |
| C16 | `PyOGRe.C16_removed_rules_are_gone` | propext, Classical.choice, Quot.sound |
| C16 | `PyOGRe.C16_refused_without_rules` | propext, Classical.choice, Quot.sound |
| C16 | `PyOGRe.C16_old_jacobian_is_kept` | propext, Classical.choice, Quot.sound |
| C16 | `PyOGRe.C16_false` | propext, Classical.choice, Quot.sound |
| C17 | `PyOGRe.C17_jacobian_partial` | propext, Classical.choice, Quot.sound |
| C17 | `PyOGRe.C17_false` | propext, Classical.choice, Quot.sound |
| C18 | `PyOGRe.C18_simultaneous_partial` | propext, Classical.choice, Quot.sound |
| C18 | `PyOGRe.C18_false` | propext, Classical.choice, Quot.sound |
| C19 | `PyOGRe.C19_tensor_constructor` | propext, Classical.choice, Quot.sound |
| C19 | `PyOGRe.C19_coordinates_constructor` | propext, Classical.choice, Quot.sound |
| C20 | `PyOGRe.C20_metric_constructor` | propext, Classical.choice, Quot.sound |
| C20 | `PyOGRe.C20_metric_without_indices_stays_registered` | propext, Classical.choice, Quot.sound |
| C21 | `PyOGRe.C21_addition` | propext, Classical.choice, Quot.sound |
| C21 | `PyOGRe.C21_refuses_labels` | propext, Classical.choice, Quot.sound |
| C21 | `PyOGRe.C21_refuses_ranks` | propext, Classical.choice, Quot.sound |
| C21 | `PyOGRe.C21_refuses_metrics` | propext, Quot.sound |
| C21 | `PyOGRe.C21_refuses_derivatives` | propext |
| C22 | `PyOGRe.C22_negation_partial` | propext, Classical.choice, Quot.sound |
| C22 | `PyOGRe.C22_subtraction` | propext, Classical.choice, Quot.sound |
| C22 | `PyOGRe.C22_scaling` | propext, Classical.choice, Quot.sound |
| C22 | `PyOGRe.C22_division_partial` | propext, Classical.choice, Quot.sound |
| C22 | `PyOGRe.C22_scalar_product` | propext, Classical.choice, Quot.sound |
| C22 | `PyOGRe.C22_product_refused` | propext, Classical.choice, Quot.sound |
| C22 | `PyOGRe.C22_false` | propext, Quot.sound |
| C23 | `PyOGRe.C23_numbers_refused_partial` | propext |
| C23 | `PyOGRe.C23_false` | propext, Classical.choice, Quot.sound |
| C24 | `PyOGRe.C24_trace_partial` | propext, Classical.choice, Quot.sound |
| C24 | `PyOGRe.C24_label_thrice_refused` | propext, Classical.choice, Quot.sound |
| C24 | `PyOGRe.C24_trace_code` | propext, Classical.choice, Quot.sound |
| C24 | `PyOGRe.C24_false` | propext, Classical.choice, Quot.sound |
| C25 | `PyOGRe.C25_product` | propext, Classical.choice, Quot.sound |
| C25 | `PyOGRe.C25_refuses_metrics` | propext, Classical.choice, Quot.sound |
| C26 | `PyOGRe.C25_product` | propext, Classical.choice, Quot.sound |
| C26 | `PyOGRe.C26_product_code` | propext, Classical.choice, Quot.sound |
| C26 | `PyOGRe.C26_false` | propext, Classical.choice, Quot.sound |
| C27 | `PyOGRe.C27_products_commute` | propext, Classical.choice, Quot.sound |
| C28 | `PyOGRe.C28_reorder` | propext, Classical.choice, Quot.sound |
| C28 | `PyOGRe.C28_same_order` | propext, Classical.choice, Quot.sound |
| C28 | `PyOGRe.C28_other_order_refused` | propext, Classical.choice, Quot.sound |
| C29 | `PyOGRe.C29_gradient` | propext, Classical.choice, Quot.sound |
| C29 | `PyOGRe.C29_divergence_partial` | propext, Classical.choice, Quot.sound |
| C29 | `PyOGRe.C29_false` | propext, Classical.choice, Quot.sound |
| C30 | `PyOGRe.C30_right_derivative` | propext, Classical.choice, Quot.sound |
| C30 | `PyOGRe.C30_right_derivative_partial` | propext, Classical.choice, Quot.sound |
| C30 | `PyOGRe.C30_false` | propext, Classical.choice, Quot.sound |
| C31 | `PyOGRe.C31_gradient_partial` | propext, Classical.choice, Quot.sound |
| C31 | `PyOGRe.C31_divergence_partial` | propext, Classical.choice, Quot.sound |
| C31 | `PyOGRe.C31_temporary_false` | propext, Classical.choice, Quot.sound |
| C31 | `PyOGRe.C31_upper_gradient` | propext, Classical.choice, Quot.sound |
| C31 | `PyOGRe.C31_upper_divergence` | propext, Classical.choice, Quot.sound |
| C31 | `PyOGRe.C33_false` | propext, Classical.choice, Quot.sound |
| C32 | `PyOGRe.C32_right_derivative` | propext, Classical.choice, Quot.sound |
| C32 | `PyOGRe.C32_right_derivative_partial` | propext, Classical.choice, Quot.sound |
| C32 | `PyOGRe.C32_false` | propext, Classical.choice, Quot.sound |
| C33 | `PyOGRe.C33_metric_compatibility_partial` | propext, Classical.choice, Quot.sound |
| C33 | `PyOGRe.C33_upper` | propext, Classical.choice, Quot.sound |
| C33 | `PyOGRe.C33_false` | propext, Classical.choice, Quot.sound |
| C34 | `PyOGRe.C34_sum_partial` | propext, Classical.choice, Quot.sound |
| C34 | `PyOGRe.C34_product_partial` | propext, Classical.choice, Quot.sound |
| C34 | `PyOGRe.C34_upper_sum` | propext, Classical.choice, Quot.sound |
| C34 | `PyOGRe.C34_upper_product` | propext, Classical.choice, Quot.sound |
| C34 | `PyOGRe.C34_false` | propext, Classical.choice, Quot.sound |
| C35 | `PyOGRe.C35_christoffel_partial` | propext, Classical.choice, Quot.sound |
| C35 | `PyOGRe.C35_upper_sign` | propext, Classical.choice, Quot.sound |
| C35 | `PyOGRe.C35_false` | propext, Classical.choice, Quot.sound |
| C35 | `PyOGRe.C35_components` | propext, Classical.choice, Quot.sound |
| C36 | `PyOGRe.C36_riemann_partial` | propext, Classical.choice, Quot.sound |
| C36 | `PyOGRe.C36_upper` | propext, Classical.choice, Quot.sound |
| C36 | `PyOGRe.C36_false` | propext, Classical.choice, Quot.sound |
| C37 | `PyOGRe.C37_ricci_partial` | propext, Classical.choice, Quot.sound |
| C37 | `PyOGRe.C37_scalar_partial` | propext, Classical.choice, Quot.sound |
| C37 | `PyOGRe.C37_upper` | propext, Classical.choice, Quot.sound |
| C37 | `PyOGRe.C37_false` | propext, Classical.choice, Quot.sound |
| C38 | `PyOGRe.C38_einstein_partial` | propext, Classical.choice, Quot.sound |
| C38 | `PyOGRe.C38_upper` | propext, Classical.choice, Quot.sound |
| C38 | `PyOGRe.C38_false` | propext, Classical.choice, Quot.sound |
| C39 | `PyOGRe.C39_weyl_partial` | propext, Classical.choice, Quot.sound |
| C39 | `PyOGRe.C39_two_dimensions` | propext, Classical.choice, Quot.sound |
| C39 | `PyOGRe.C39_upper` | propext, Classical.choice, Quot.sound |
| C39 | `PyOGRe.C39_false` | propext, Classical.choice, Quot.sound |
| C40 | `PyOGRe.C40_norm_partial` | propext, Classical.choice, Quot.sound |
| C40 | `PyOGRe.C40_metric` | propext, Classical.choice, Quot.sound |
| C40 | `PyOGRe.C40_found_by_name` | propext, Classical.choice, Quot.sound |
| C40 | `PyOGRe.C40_false` | propext, Classical.choice, Quot.sound |
| C41 | `PyOGRe.C41_law_partial` | propext, Classical.choice, Quot.sound |
| C41 | `PyOGRe.C41_levi_civita_partial` | propext, Classical.choice, Quot.sound |
| C41 | `PyOGRe.C41_refused` | propext, Classical.choice, Quot.sound |
| C41 | `PyOGRe.C41_lowered` | propext, Classical.choice, Quot.sound |
| C41 | `PyOGRe.C41_false` | propext, Classical.choice, Quot.sound |
| C42 | `PyOGRe.C42_lagrangian_partial` | propext, Classical.choice, Quot.sound |
| C42 | `PyOGRe.C42_new_coordinates_partial` | propext, Classical.choice, Quot.sound |
| C42 | `PyOGRe.C42_found_by_name` | propext, Classical.choice, Quot.sound |
| C42 | `PyOGRe.C42_false` | propext, Classical.choice, Quot.sound |
| C43 | `PyOGRe.C43_lagrangian` | propext, Classical.choice, Quot.sound |
| C43 | `PyOGRe.C43_christoffel` | propext, Classical.choice, Quot.sound |
| C43 | `PyOGRe.C43_equivalent_partial` | propext, Classical.choice, Quot.sound |
| C43 | `PyOGRe.C43_upper` | propext, Classical.choice, Quot.sound |
| C43 | `PyOGRe.C43_false` | propext, Classical.choice, Quot.sound |
| C44 | `PyOGRe.C44_time_partial` | propext, Classical.choice, Quot.sound |
| C44 | `PyOGRe.C44_upper` | propext, Classical.choice, Quot.sound |
| C44 | `PyOGRe.C44_false` | propext, Classical.choice, Quot.sound |
| C45 | `PyOGRe.C45_false` | propext, Classical.choice, Quot.sound |
| C46 | `PyOGRe.C46_delete` | propext, Classical.choice, Quot.sound |
| C47 | `PyOGRe.C47_references_partial` | propext, Classical.choice, Quot.sound |
| C47 | `PyOGRe.C47_references_false` | propext, Classical.choice, Quot.sound |
| C47 | `PyOGRe.C47_deleted_metric_false` | propext, Classical.choice, Quot.sound |
| C48 | `PyOGRe.C48_delete_results_partial` | propext, Classical.choice, Quot.sound |
| C48 | `PyOGRe.C48_delete_results_false` | propext, Classical.choice, Quot.sound |
| C49 | `PyOGRe.C49_clear` | propext, Classical.choice, Quot.sound |
| C50 | `PyOGRe.C50_temporaries_exact` | propext, Classical.choice, Quot.sound |
| C50 | `PyOGRe.C50_temporaries_partial` | propext, Classical.choice, Quot.sound |
| C50 | `PyOGRe.C50_temporaries_false` | propext, Classical.choice, Quot.sound |
| C51 | `PyOGRe.C51_users_objects_partial` | propext, Classical.choice, Quot.sound |
| C51 | `PyOGRe.C51_users_objects_false` | propext, Classical.choice, Quot.sound |
| C51 | `PyOGRe.C31_temporary_false` | propext, Classical.choice, Quot.sound |
| C52 | `PyOGRe.C52_named_partial` | propext, Classical.choice, Quot.sound |
| C52 | `PyOGRe.C52_found_by_name` | propext, Classical.choice, Quot.sound |
| C52 | `PyOGRe.C52_false` | propext, Classical.choice, Quot.sound |
| C53 | `PyOGRe.C53_ricci_deleted` | propext, Classical.choice, Quot.sound |
| C53 | `PyOGRe.C53_false` | propext, Classical.choice, Quot.sound |
| C53 | `PyOGRe.C53_others_partial` | propext, Classical.choice, Quot.sound |
| C54 | `PyOGRe.C54_total` | propext, Quot.sound |
| C54 | `PyOGRe.C54_printed` | propext, Classical.choice, Quot.sound |
| C54 | `PyOGRe.C54_accounted` | propext, Classical.choice, Quot.sound |
| C54 | `PyOGRe.C54_unknown` | propext, Classical.choice, Quot.sound |
| C54 | `PyOGRe.C54_false` | propext, Classical.choice, Quot.sound |
| C54 | `PyOGRe.C54_decimal_false` | propext, Classical.choice, Quot.sound |
| C55 | `PyOGRe.C55_partial` | propext, Classical.choice, Quot.sound |
| C55 | `PyOGRe.C55_content` | propext, Classical.choice, Quot.sound |
| C55 | `PyOGRe.C55_false` | propext, Classical.choice, Quot.sound |
| C55 | `PyOGRe.C55_empty_false` | propext, Classical.choice, Quot.sound |
| C55 | `PyOGRe.C55_open_false` | propext, Classical.choice, Quot.sound |
| C55 | `PyOGRe.C55_spaces_false` | propext, Classical.choice, Quot.sound |
| C55 | `PyOGRe.C55_escape_false` | propext, Classical.choice, Quot.sound |
| C55 | `PyOGRe.C55_number_false` | propext, Classical.choice, Quot.sound |
| C55 | `PyOGRe.C55_path_false` | propext, Classical.choice, Quot.sound |
| C55 | `PyOGRe.C55_triple` | propext, Classical.choice, Quot.sound |
| C55 | `PyOGRe.C55_triple_false` | propext, Classical.choice, Quot.sound |
| C56 | `PyOGRe.C56_partial` | propext, Classical.choice, Quot.sound |
| C56 | `PyOGRe.C56_settled` | propext, Classical.choice, Quot.sound |
| C56 | `PyOGRe.C56_grammar` | propext, Classical.choice, Quot.sound |
| C56 | `PyOGRe.C56_false` | propext |
| C57 | `PyOGRe.C57` | propext, Classical.choice, Quot.sound |
| C57 | `PyOGRe.C57_grammar` | propext, Quot.sound |
| C58 | `PyOGRe.C58_partial` | propext, Classical.choice, Quot.sound |
| C58 | `PyOGRe.C58_false` | propext, Classical.choice, Quot.sound |
| C59 | `PyOGRe.C59_tensor_partial` | propext, Classical.choice, Quot.sound |
| C59 | `PyOGRe.C59_deleted` | propext, Classical.choice, Quot.sound |
| C59 | `PyOGRe.C59_metric_partial` | propext, Classical.choice, Quot.sound |
| C59 | `PyOGRe.C59_coordinates_partial` | propext, Classical.choice, Quot.sound |
| C59 | `PyOGRe.C59_line_false` | propext, Classical.choice, Quot.sound |
| C59 | `PyOGRe.C59_options_false` | propext, Classical.choice, Quot.sound |
| C59 | `PyOGRe.C59_symbol_false` | propext, Classical.choice, Quot.sound |
| C59 | `PyOGRe.C59_name_false` | propext, Classical.choice, Quot.sound |
| C59 | `PyOGRe.C59_geodesic_false` | propext, Classical.choice, Quot.sound |
| C59 | `PyOGRe.C59_metric_false` | propext, Classical.choice, Quot.sound |
| C59 | `PyOGRe.C59_scalar_false` | propext, Classical.choice, Quot.sound |
| C60 | `PyOGRe.C60_one_partial` | propext, Classical.choice, Quot.sound |
| C60 | `PyOGRe.C60_false` | propext, Classical.choice, Quot.sound |
| C61 | `PyOGRe.C61_partial` | propext, Classical.choice, Quot.sound |
| C61 | `PyOGRe.C61_false` | propext, Classical.choice, Quot.sound |
| C62 | `PyOGRe.C62_list` | propext, Classical.choice, Quot.sound |
| C62 | `PyOGRe.C62_scalar_false` | propext, Classical.choice, Quot.sound |
| C62 | `PyOGRe.C62_infinite_false` | propext, Classical.choice, Quot.sound |
| C63 | `PyOGRe.C63_lines` | propext, Classical.choice, Quot.sound |
| C63 | `PyOGRe.C63_setting` | propext, Quot.sound |
| C63 | `PyOGRe.C63_false` | propext, Classical.choice, Quot.sound |
| C64 | `PyOGRe.C64_index_letters_partial` | propext, Classical.choice, Quot.sound |
| C64 | `PyOGRe.C64_setting` | propext, Classical.choice, Quot.sound |
| C64 | `PyOGRe.C64_false` | propext, Classical.choice, Quot.sound |
| C65 | `PyOGRe.C65_elements` | propext, Classical.choice, Quot.sound |
| C65 | `PyOGRe.C65_declared_metric` | propext, Classical.choice, Quot.sound |
| C65 | `PyOGRe.C65_false` | propext, Classical.choice, Quot.sound |
| C66 | `PyOGRe.C66_dummy_labels` | propext, Classical.choice, Quot.sound |
| C67 | `PyOGRe.C67_session_sound` | propext, Classical.choice, Quot.sound |
| C67 | `PyOGRe.C67_same_answer` | propext, Classical.choice, Quot.sound |
| C67 | `PyOGRe.C67_requests_succeed` | propext, Classical.choice, Quot.sound |
| C68 | `PyOGRe.C68_false` | propext, Classical.choice, Quot.sound |
| C69 | `PyOGRe.C69_formula` | propext, Classical.choice, Quot.sound |
| C69 | `PyOGRe.C69_calc` | propext, Classical.choice, Quot.sound |
| C70 | `PyOGRe.C70_two_covariant_derivatives_false` | propext, Classical.choice, Quot.sound |
| C70 | `PyOGRe.C34_sum_partial` | propext, Classical.choice, Quot.sound |
| C70 | `PyOGRe.C34_product_partial` | propext, Classical.choice, Quot.sound |
| C71 | `PyOGRe.C71_info_partial` | propext, Classical.choice, Quot.sound |
| C71 | `PyOGRe.C71_false` | propext, Classical.choice, Quot.sound |
| C72 | `PyOGRe.C72_first_partial` | propext, Classical.choice, Quot.sound |
| C72 | `PyOGRe.C72_sessions_partial` | propext, Classical.choice, Quot.sound |
| C72 | `PyOGRe.C72_weyl_partial` | propext, Classical.choice, Quot.sound |
| C72 | `PyOGRe.C72_false` | propext, Classical.choice, Quot.sound |
| C73 | `PyOGRe.C73_simplify_partial` | propext, Classical.choice, Quot.sound |
| C73 | `PyOGRe.C73_sessions_partial` | propext, Classical.choice, Quot.sound |
| C73 | `PyOGRe.C73_every_component` | propext, Classical.choice, Quot.sound |
| C73 | `PyOGRe.C73_false` | propext, Classical.choice, Quot.sound |
| C74 | `PyOGRe.C74_arguments_partial` | propext, Classical.choice, Quot.sound |
| C74 | `PyOGRe.C74_false` | propext, Classical.choice, Quot.sound |
| C75 | `PyOGRe.C75_metric` | propext, Classical.choice, Quot.sound |
| C75 | `PyOGRe.C75_tensor` | propext, Classical.choice, Quot.sound |
| C75 | `PyOGRe.C75_coordinates` | propext, Classical.choice, Quot.sound |
| C75 | `PyOGRe.C75_declarations` | propext, Classical.choice, Quot.sound |
| C76 | `PyOGRe.C76_show_partial` | propext, Classical.choice, Quot.sound |
| C76 | `PyOGRe.C76_false` | propext, Classical.choice, Quot.sound |
| C76 | `PyOGRe.C76_scalar_false` | propext, Classical.choice, Quot.sound |
| C77 | `PyOGRe.C77_last_setting` | propext, Classical.choice, Quot.sound |
| C77 | `PyOGRe.C77_refused` | propext, Classical.choice, Quot.sound |
| C78 | `PyOGRe.C78_call` | propext, Classical.choice, Quot.sound |
| C78 | `PyOGRe.C78_coordinates` | propext |
| C78 | `PyOGRe.C78_derivative` | propext, Classical.choice, Quot.sound |
| C78 | `PyOGRe.C78_calc` | propext, Classical.choice, Quot.sound |
| C79 | `PyOGRe.C79_initial_rules` | propext, Classical.choice, Quot.sound |
| C79 | `PyOGRe.C79_refused` | propext, Classical.choice, Quot.sound |
| C79 | `PyOGRe.C79_unchecked_false` | propext, Quot.sound |
| C80 | `PyOGRe.C80_list` | propext, Classical.choice, Quot.sound |
| C80 | `PyOGRe.C80_show` | propext, Classical.choice, Quot.sound |
| C80 | `PyOGRe.C80_components` | propext, Classical.choice, Quot.sound |
| C81 | `PyOGRe.C81_attributes` | propext, Classical.choice, Quot.sound |
| C82 | `PyOGRe.C82_same_answer` | propext, Classical.choice, Quot.sound |
| C82 | `PyOGRe.C82_same_equations` | propext, Classical.choice, Quot.sound |
| C83 | `PyOGRe.C83_whole_text_partial` | propext, Classical.choice, Quot.sound |
| C83 | `PyOGRe.C83_false` | propext |
| C83 | `PyOGRe.C83_operator_false` | propext |
| C83 | `PyOGRe.C83_brackets_false` | propext |
| C84 | `PyOGRe.C84_letters` | propext, Classical.choice, Quot.sound |
| C84 | `PyOGRe.C84_strings` | propext, Classical.choice, Quot.sound |
| C84 | `PyOGRe.C57` | propext, Classical.choice, Quot.sound |
| C85 | `PyOGRe.C85_partial` | propext, Classical.choice, Quot.sound |
| C85 | `PyOGRe.C85_false` | propext, Classical.choice, Quot.sound |
| C85 | `PyOGRe.C85_nested_false` | propext, Classical.choice, Quot.sound |
| C85 | `PyOGRe.C85_letter_false` | propext, Classical.choice, Quot.sound |
| C86 | `PyOGRe.C86_partial` | propext, Classical.choice, Quot.sound |
| C86 | `PyOGRe.C86_false` | propext, Classical.choice, Quot.sound |
| C87 | `PyOGRe.C87_components_partial` | propext, Classical.choice, Quot.sound |
| C87 | `PyOGRe.C87_show_partial` | propext, Classical.choice, Quot.sound |
| C87 | `PyOGRe.C87_list_partial` | propext, Classical.choice, Quot.sound |
| C87 | `PyOGRe.C87_refused` | propext, Classical.choice, Quot.sound |
| C87 | `PyOGRe.C87_velocity_false` | propext, Classical.choice, Quot.sound |
| C87 | `PyOGRe.C87_constant_false` | propext, Classical.choice, Quot.sound |
| C88 | `PyOGRe.C88_roles` | propext, Classical.choice, Quot.sound |
| C88 | `PyOGRe.C88_unknown` | propext, Classical.choice, Quot.sound |
| C89 | `PyOGRe.C89_export` | propext, Classical.choice, Quot.sound |
| C89 | `PyOGRe.C89_export_all` | propext, Classical.choice, Quot.sound |
| C89 | `PyOGRe.C89_import` | propext, Classical.choice, Quot.sound |
| C89 | `PyOGRe.C89_round` | propext, Classical.choice, Quot.sound |
| C90 | `PyOGRe.C90_one_partial` | propext, Classical.choice, Quot.sound |
| C90 | `PyOGRe.C90_false` | propext, Classical.choice, Quot.sound |
| C91 | `PyOGRe.C91_partial` | propext, Classical.choice, Quot.sound |
| C91 | `PyOGRe.C91_false` | propext, Classical.choice, Quot.sound |
| C92 | `PyOGRe.C92_conserved_partial` | propext, Classical.choice, Quot.sound |
| C92 | `PyOGRe.C92_false` | propext, Classical.choice, Quot.sound |
| C93 | `PyOGRe.C93_bianchi` | propext, Classical.choice, Quot.sound |
| C93 | `PyOGRe.C93_bianchi_upper` | propext, Classical.choice, Quot.sound |
| C94 | `PyOGRe.C94_ricci_identity_partial` | propext, Classical.choice, Quot.sound |
| C94 | `PyOGRe.C94_ricci_identity_upper` | propext, Classical.choice, Quot.sound |
| C94 | `PyOGRe.C94_false` | propext, Classical.choice, Quot.sound |
| C95 | `PyOGRe.C95_conserved_partial` | propext, Classical.choice, Quot.sound |
| C95 | `PyOGRe.C95_christoffel_partial` | propext, Classical.choice, Quot.sound |
| C95 | `PyOGRe.C95_false` | propext, Classical.choice, Quot.sound |
| C96 | `PyOGRe.C96_first_partial` | propext, Classical.choice, Quot.sound |
| C96 | `PyOGRe.C96_found_by_name` | propext, Classical.choice, Quot.sound |
| C96 | `PyOGRe.C96_false` | propext, Classical.choice, Quot.sound |
| C97 | `PyOGRe.C97_dimensions_partial` | propext, Classical.choice, Quot.sound |
| C97 | `PyOGRe.C97_one_upper` | propext, Classical.choice, Quot.sound |
| C97 | `PyOGRe.C97_false` | propext, Classical.choice, Quot.sound |
| C98 | `PyOGRe.C98_flat` | propext, Classical.choice, Quot.sound |
| C99 | `PyOGRe.C99_scaled` | propext, Classical.choice, Quot.sound |
| C99 | `PyOGRe.C99_scaled_upper` | propext, Classical.choice, Quot.sound |
