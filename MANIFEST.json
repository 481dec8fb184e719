{"claims": [
{"property": "C01", "status": "proved", "theorems": ["Verif.C01_every_device_row", "Verif.C01_matrix_is_jacobian", "Verif.C01_stamps_are_newton_row", "Verif.C01_entry_columns", "Verif.C01_sin_of_variable_misclassified"], "note": "C01_sin_of_variable_misclassified records that the classification would be wrong for sin of a variable; no device in the repository has such an equation (C01_every_device_row)."},
{"property": "C02", "status": "proved", "theorems": ["Verif.C02_linearisation_identity", "Verif.C02_fixed_point_iff_solution", "Verif.C02_network_fixed_points", "Verif.C02_network_solutions", "Verif.C02_newton_step", "Verif.C02_network_newton_step"], "note": ""},
{"property": "C03", "status": "partial", "theorems": ["Verif.C03_success_residual_partial", "Verif.C03_success_residual_fails"], "note": "The code violates the property: calc_residuals is called with the iteration number of the linearisation, so it evaluates the previous vector (C03_success_residual_fails: success on a network without any solution). The partial theorem says what a success does guarantee."},
{"property": "C04", "status": "partial", "theorems": ["Verif.C04_matrix_current_fails", "Verif.C04_matrix_current_partial", "Verif.C04_error_is_stale_tail"], "note": "The code violates the property: to_matrix keeps stale entries when a round stamps fewer entries than the previous one (witness in C04_matrix_current_fails). The partial theorem proves it when each round stamps at least as many entries as the previous one; C04_error_is_stale_tail says exactly what is left over otherwise."},
{"property": "C05", "status": "proved", "theorems": ["Verif.C05_linear_stamps_survive"], "note": ""},
{"property": "C06", "status": "proved", "theorems": ["Verif.C06_debug_never_garbage"], "note": ""},
{"property": "C07", "status": "partial", "theorems": ["Verif.C07_columns_are_a_numbering", "Verif.C07_distinct_and_dense", "Verif.C07_L1_multipliers_fails"], "note": "Proved for every network without L1 infeasibility; with L1 the bound multipliers share the indices of the currents (C07_L1_multipliers_fails)."},
{"property": "C08", "status": "proved", "theorems": ["Verif.C08_rows_are_columns", "Verif.C08_rows_injective", "Verif.C08_no_ground_row", "Verif.C08_network_in_range"], "note": ""},
{"property": "C09", "status": "proved", "theorems": ["Verif.C09_two_terminal_conserves_current"], "note": ""},
{"property": "C10", "status": "proved", "theorems": ["Verif.C10_constant_power_load"], "note": ""},
{"property": "C11", "status": "proved", "theorems": ["Verif.C11_load_current"], "note": ""},
{"property": "C12", "status": "proved", "theorems": ["Verif.C12_pv_generator"], "note": ""},
{"property": "C13", "status": "proved", "theorems": ["Verif.C13_slack_pins_voltage", "Verif.C13_voltage_source", "Verif.C13_switch", "Verif.C13_open_capacitor"], "note": ""},
{"property": "C14", "status": "proved", "theorems": ["Verif.C14_ideal_transformer", "Verif.C14_transformer_parts"], "note": ""},
{"property": "C15", "status": "proved", "theorems": ["Verif.C15_center_tap"], "note": ""},
{"property": "C16", "status": "proved", "theorems": ["Verif.C16_line_pi_model"], "note": ""},
{"property": "C17", "status": "proved", "theorems": ["Verif.C17_undeformed_parts", "Verif.C17_branch_scaling", "Verif.C17_transformer_endpoints", "Verif.C17_continuous_in_factor", "Verif.C17_center_tap_ratio_sign"], "note": "Endpoint, continuity and scaling theorems per device."},
{"property": "C18", "status": "proved", "theorems": ["Verif.C18_accepted_is_inverse", "Verif.C18_exact", "Verif.C18_line_currents", "Verif.C18_ohm"], "note": ""},
{"property": "C19", "status": "proved", "theorems": ["Verif.C19_gradient", "Verif.C19_critical_points", "Verif.C19_matrix_symmetric", "Verif.C19_reciprocity_needed"], "note": "Proved for every network whose line matrices are symmetric, as physical ones are; C19_reciprocity_needed shows that an unsymmetric coupled line gives an unsymmetric matrix."},
{"property": "C20", "status": "proved", "theorems": ["Verif.C20_stationary", "Verif.C20_residual", "Verif.C20_zero_iff", "Verif.C20_feasible_solution", "Verif.C20_least_squares"], "note": "Least squares (C20_least_squares) is stated for networks of linear devices; the other theorems hold for every network."},
{"property": "C21", "status": "proved", "theorems": ["Verif.C21_bookkeeping", "Verif.C21_nan_raises"], "note": ""},
{"property": "C22", "status": "partial", "theorems": ["Verif.C22_converged_is_success_fails", "Verif.C22_converged_is_success_partial"], "note": "The code violates the property at iteration counts divisible by 50 with a rising trend (C22_converged_is_success_fails); otherwise it holds (partial theorem)."},
{"property": "C23", "status": "proved", "theorems": ["Verif.C23_homotopy"], "note": ""},
{"property": "C24", "status": "partial", "theorems": ["Verif.C24_percentage_fails", "Verif.C24_percentage_partial"], "note": "The code violates the property after successful stepping: it reports -0.01 (C24_percentage_fails). The partial theorem gives the exact value in every case."},
{"property": "C25", "status": "partial", "theorems": ["Verif.C25_first_step_partial", "Verif.C25_second_run_fails"], "note": "The code violates the property when the previous run on the same stamper ended at iteration 0 (C25_second_run_fails); otherwise it holds (partial theorem)."},
{"property": "C26", "status": "proved", "theorems": ["Verif.C26_device_loop", "Verif.C26_unsettled_raises", "Verif.C26_returned_solution"], "note": ""},
{"property": "C27", "status": "proved", "theorems": ["Verif.C27_fuse_history", "Verif.C27_adjustments_bounded"], "note": ""},
{"property": "C28", "status": "partial", "theorems": ["Verif.C28_no_blown_fuse_partial", "Verif.C28_overload_raises", "Verif.C28_blown_fuse_fails"], "note": "The code violates the property: after a fuse blows the next solve raises (C28_blown_fuse_fails, a network solved exactly whose run ends in an exception; C28_overload_raises: this happens for every overloaded fuse). The partial theorem says that a run that returns never met a blown fuse."},
{"property": "C29", "status": "proved", "theorems": ["Verif.C29_regulator_taps", "Verif.C29_control_leaves_taps"], "note": ""},
{"property": "C30", "status": "partial", "theorems": ["Verif.C30_capacitor_partial", "Verif.C30_direction_fails"], "note": "The code switches in the wrong direction (C30_direction_fails). The partial theorem proves the rest: manual banks never change, unsupported modes raise, exact behaviour in VOLT mode, re-evaluation changes nothing."},
{"property": "C31", "status": "proved", "theorems": ["Verif.C31_capacitor_supplies_rated_vars", "Verif.C31_zero_nominal_rejected"], "note": ""},
{"property": "C32", "status": "proved", "theorems": ["Verif.C32_limiting"], "note": ""},
{"property": "C33", "status": "proved", "theorems": ["Verif.C33_residual_report", "Verif.C33_order_irrelevant"], "note": ""},
{"property": "C34", "status": "partial", "theorems": ["Verif.C34_slack_power_fails", "Verif.C34_slack_power_partial"], "note": "False in the code: P = Vr*Ir and Q = Vi*Ii are reported. C34_slack_power_fails shows a solved network; the partial theorem gives the exact error and the case of a real slack voltage."},
{"property": "C35", "status": "partial", "theorems": ["Verif.C35_totals_formula_partial", "Verif.C35_zero_partial", "Verif.C35_totals_fails"], "note": "The code violates the property: the totals are the sums of Re V*Re I and Im V*Im I with negative terms cut to zero, and can vanish although currents do not (witness in C35_totals_fails). C35_totals_formula_partial says what is reported, C35_zero_partial proves the direction that holds."},
{"property": "C36", "status": "partial", "theorems": ["Verif.C36_tiny_fails", "Verif.C36_polar_partial"], "note": "True except for voltages smaller than 1e-8, whose angle is reported as 0; the partial theorem bounds the error by 2e-8."},
{"property": "C37", "status": "partial", "theorems": ["Verif.C37_generator_sign_fails", "Verif.C37_generator_power_partial"], "note": "False in the code: the stored negated power is reported. The partial theorem shows -(P+jQ) is the injected power."},
{"property": "C38", "status": "partial", "theorems": ["Verif.C38_center_tap", "Verif.C38_transformer_partial", "Verif.C38_transformer_fails"], "note": "False for Transformer (P = Vr*Ir, Q = Vi*Ii), proved for CenterTapTransformer."},
{"property": "C39", "status": "partial", "theorems": ["Verif.C39_factor", "Verif.C39_explicit_partial", "Verif.C39_default_fails"], "note": "The code violates the property: without --load_factor every constant power is multiplied by -1 (C39_default_fails). C39_factor covers every run, C39_explicit_partial a run with factor one."},
{"property": "C40", "status": "proved", "theorems": ["Verif.C40_scales", "Verif.C40_compose", "Verif.C40_one", "Verif.C40_inverse", "Verif.C40_current"], "note": ""},
{"property": "C41", "status": "partial", "theorems": ["Verif.C41_power_factor_partial", "Verif.C41_magnitude", "Verif.C41_zero_hour_fails"], "note": "The code violates the property after an hour of zero: the angle is read back from the load (C41_zero_hour_fails). C41_power_factor_partial covers every sequence of positive hours, C41_magnitude every single hour."},
{"property": "C42", "status": "partial", "theorems": ["Verif.C42_hours_partial", "Verif.C42_missing_hour_fails", "Verif.C42_same_name_fails"], "note": "C42_hours_partial: one result per hour, in order, each with the hour's values for loads that are the last of their name and have a value. False for hours without a value (C42_missing_hour_fails) and loads that share a name (C42_same_name_fails)."},
{"property": "C43", "status": "partial", "theorems": ["Verif.C43_round", "Verif.C43_round_total", "Verif.C43_stops_balanced_partial", "Verif.C43_not_configured", "Verif.C43_may_not_stop", "Verif.C43_exchange_fails"], "note": "C43_stops_balanced_partial is about the powers reported for the swing bus. The powers exchanged may be large, since reactive power at a real voltage is reported as zero (C43_exchange_fails). What each round adds is proved in full; the loop need not end (C43_may_not_stop)."},
{"property": "C44", "status": "partial", "theorems": ["Verif.C44_buses", "Verif.C44_carriers", "Verif.C44_hanging_partial", "Verif.C44_grounded_fails"], "note": "The code violates the property: every load and capacitor to ground is dropped (C44_grounded_fails). Buses, lines, transformers and switches are kept exactly (C44_buses, C44_carriers), the rest when no terminal is grounded (C44_hanging_partial)."},
{"property": "C45", "status": "proved", "theorems": ["Verif.C45_one_island", "Verif.C45_refused_iff"], "note": "C45_one_island needs no assumption on the network; C45_refused_iff is for networks whose elements end at named nodes."},
{"property": "C46", "status": "proved", "theorems": ["Verif.C46_spread", "Verif.C46_accepts", "Verif.C46_bound_sharp", "Verif.C46_parallel_unchecked"], "note": "For links whose first element in get_all_elements order is neither transformer nor regulator, as in the code; C46_parallel_unchecked shows that a switch across a transformer is not looked at. The bound 20 is attained (C46_bound_sharp)."},
{"property": "C47", "status": "partial", "theorems": ["Verif.Raw.C47_injection_partial", "Verif.Raw.C47_no_two_regulate", "Verif.Raw.C47_merge_fails"], "note": "The code violates the property: a second regulating machine on a bus raises AttributeError (C47_merge_fails), so no loaded case has two (C47_no_two_regulate). C47_injection_partial: whenever a case loads, net active injection per bus (machines at type-2 buses minus loads) is the sum over the records, in per unit of 100 MVA. The text reader Data.py is not modelled."},
{"property": "C48", "status": "proved", "theorems": ["Verif.Raw.C48_only_in_service", "Verif.Raw.C48_loads_once", "Verif.Raw.C48_shunts_once", "Verif.Raw.C48_branches_once", "Verif.Raw.C48_two_winding_once"], "note": "For every case with distinct bus numbers that loads: nothing out of service is loaded, and in-service loads, fixed shunts, branches and two-winding transformers are loaded once each, in order. Three-winding transformers in service make the load raise, see C78. The text reader Data.py is not modelled."},
{"property": "C49", "status": "partial", "theorems": ["Verif.Raw.C49_constant_power_partial", "Verif.Raw.C49_rated_iff_partial", "Verif.Raw.C49_parts_fails"], "note": "The code violates the property: constant-current parts are taken in MW without dividing by the base and admittance parts are dropped (C49_parts_fails). C49_constant_power_partial covers records without current part; C49_rated_iff_partial says exactly when the load at unit voltage is right."},
{"property": "C50", "status": "partial", "theorems": ["Verif.Raw.C50_leading_partial", "Verif.Raw.C50_trailing_partial", "Verif.Raw.C50_within_partial", "Verif.Raw.C50_sums_fails"], "note": "The code violates the property: blocks after the first zero block are ignored (C50_sums_fails). C50_trailing_partial: with only trailing zero blocks the limits are the sums; C50_within_partial: the limits never exceed the sums."},
{"property": "C51", "status": "proved", "theorems": ["Verif.Raw.C51_star", "Verif.Raw.C51_star_unique"], "note": "C51_star on the converted data of every record; C51_star_unique shows they are the only such values. That the record then fails to load is C78_three_winding_fails."},
{"property": "C52", "status": "partial", "theorems": ["Verif.Glm.C52_separator_fails", "Verif.Glm.C52_letters_partial"], "note": "Refused: `|` between phases, the notation GridLAB-D itself writes, turns into phases of that name (`C52_separator_fails`). For texts without `|` the result is characterised completely, including which texts are refused."},
{"property": "C53", "status": "proved", "theorems": ["Verif.Glm.C53_elimination", "Verif.Glm.C53_singular", "Verif.Glm.C53_symmetric"], "note": "For every field and every finite size: existence and uniqueness of the neutral current, equality of voltage drops, refusal of singular neutral blocks, symmetry."},
{"property": "C54", "status": "partial", "theorems": ["Verif.Glm.C54_distance_partial", "Verif.Glm.C54_spare_conductor_fails", "Verif.Glm.C54_unit_fails"], "note": "Fails for lines with fewer conductors than the spacing object has distances for (`C54_spare_conductor_fails`) and for units other than feet (`C54_unit_fails`). Holds if the conductors are exactly those of the spacing object."},
{"property": "C55", "status": "partial", "theorems": ["Verif.Glm.C55_file_partial", "Verif.Glm.C55_overhead_partial", "Verif.Glm.C55_cables_partial", "Verif.Glm.C55_charging_fails"], "note": "Fails: the charging is halved when computed and again when stamped at each end, so both ends together carry half of it (`C55_charging_fails`; the two partial theorems show it is exactly half for all overhead lines and cables). `C55_file_partial` says the same of all lines of a file, from the data in the file; `wiredFeeder` in Props/LineAcceptance meets its hypotheses."},
{"property": "C56", "status": "partial", "theorems": ["Verif.Glm.C56_wires_fails", "Verif.Glm.C56_status_partial", "Verif.Glm.C56_each_partial"], "note": "Fails for a switch or fuse on several phases without any status attribute: only the first phase gets a wire (`C56_wires_fails`). Holds with one status for all phases and with one status per listed phase."},
{"property": "C57", "status": "partial", "theorems": ["Verif.C57_bus_entries_partial", "Verif.C57_second_multiplier_fails", "Verif.C57_distribution_partial", "Verif.C57_distribution_multipliers_fails"], "note": "The code violates the property: the second multiplier of a bus is never set (C57_second_multiplier_fails), and distribution networks set no multiplier (C57_distribution_multipliers_fails). The partial theorems prove the voltages and the first multiplier, for every network."},
{"property": "C58", "status": "proved", "theorems": ["Verif.C58_sharing_does_not_mix", "Verif.C58_same_column_same_input", "Verif.C58_network"], "note": ""},
{"property": "C59", "status": "proved", "theorems": ["Verif.C59_ground_reads_zero"], "note": ""},
{"property": "C60", "status": "proved", "theorems": ["Verif.Glm.C60_cycle", "Verif.Glm.C60_coils"], "note": ""},
{"property": "C61", "status": "proved", "theorems": ["Verif.C61_linear_entries_do_not_depend_on_variables"], "note": ""},
{"property": "C62", "status": "proved", "theorems": ["Verif.C62_files"], "note": ""},
{"property": "C63", "status": "partial", "theorems": ["Verif.C63_ratings_partial", "Verif.C63_ratings_fails"], "note": "False for lines with mutual coupling (only the diagonal admittance is used) and rated two-winding transformers; proved for the rest."},
{"property": "C64", "status": "partial", "theorems": ["Verif.Glm.C64_space_fails", "Verif.Glm.C64_exponent_fails", "Verif.Glm.C64_length_partial"], "note": "Fails with a space before the unit and with an exponent (`C64_space_fails`, `C64_exponent_fails`, both run from the text of a file). Holds for plain decimal numerals directly followed by km or ft, or without unit (feet)."},
{"property": "C65", "status": "partial", "theorems": ["Verif.C65_rejects_partial", "Verif.C65_accepted_closed_partial", "Verif.C65_imaginary_fails"], "note": "The code violates the property: with both to-side equations given, the imaginary from-side equation is not checked (C65_imaginary_fails). The partial theorems prove rejection for every other equation and closure of the Lagrangian when the to side is left out."},
{"property": "C66", "status": "partial", "theorems": ["Verif.C66_zero_impedance_winding_fails", "Verif.C66_winding_current_partial"], "note": "The code violates the property for a winding with r = x = 0 (witness in C66_zero_impedance_winding_fails); the partial theorem proves it for non-zero impedance."},
{"property": "C67", "status": "proved", "theorems": ["Verif.C67_equations_are_kirchhoff"], "note": ""},
{"property": "C68", "status": "partial", "theorems": ["Verif.C68_report_partial", "Verif.C68_report_fails"], "note": "The code violates the property: the report is evaluated at the vector of the last linearisation (C68_report_fails, C68_report_partial)."},
{"property": "C69", "status": "proved", "theorems": ["Verif.C69_linear_network", "Verif.C69_linear_returns", "Verif.C69_linear_homotopy"], "note": "Arithmetic is exact and the linear solver is assumed to solve the system it is given."},
{"property": "C70", "status": "partial", "theorems": ["Verif.C70_L1_is_L2", "Verif.C70_L1_parts_sum", "Verif.C70_L1_nonnegative_fails"], "note": "The code violates the property: bound multipliers share the indices of the currents, so the parts sum to -1 at every solution (C70_L1_nonnegative_fails) and the L1 option finds exactly the solutions of the L2 option (C70_L1_is_L2)."},
{"property": "C71", "status": "partial", "theorems": ["Verif.C71_files_partial", "Verif.C71_swing_bus_fails"], "note": "The code violates the property for runs with a swing bus and no load file (C71_swing_bus_fails); C71_files_partial covers the others."},
{"property": "C72", "status": "partial", "theorems": ["Verif.C72_failure_masked_fails", "Verif.C72_error_shown_partial"], "note": "The code violates the property: the exception is swallowed and a plain power flow shown and written (C72_failure_masked_fails). C72_error_shown_partial: the text of the exception is printed."},
{"property": "C73", "status": "partial", "theorems": ["Verif.C73_floating_rows", "Verif.C73_floating_bus_fails"], "note": "The code violates the property: connectivity is checked by node name, so a phase with nothing attached passes (C73_floating_bus_fails). C73_floating_rows: the equations of such a bus are void."},
{"property": "C74", "status": "partial", "theorems": ["Verif.C74_order_fails"], "note": "The code violates the property: the reference voltage is that of the first node visited in a python set (C74_order_fails). C46_accepts: order does not matter when nominal voltages differ by at most 9.5."},
{"property": "C75", "status": "partial", "theorems": ["Verif.Raw.C75_base_partial", "Verif.Raw.C75_base_fails"], "note": "The code violates the property: loads and machines divide by 100 whatever the base (C75_base_fails). C75_base_partial: true at 100 MVA."},
{"property": "C76", "status": "partial", "theorems": ["Verif.Raw.C76_fixed_power_factor_partial", "Verif.Raw.C76_limits_fails"], "note": "The code violates the property for mode 2 (C76_limits_fails). C76_fixed_power_factor_partial: true for mode 3."},
{"property": "C77", "status": "proved", "theorems": ["Verif.Raw.C77_ratio", "Verif.Raw.C77_circuit"], "note": "For non-zero base voltages and non-negative nominal voltages. Magnetising admittances are parsed but not stamped (transformer.py 155-157) and are outside this statement."},
{"property": "C78", "status": "partial", "theorems": ["Verif.Raw.C78_supported_loads_partial", "Verif.Raw.C78_line_shunt_fails", "Verif.Raw.C78_three_winding_fails", "Verif.Raw.C78_two_holders_fails"], "note": "The code violates the property for line shunts, in-service three-winding transformers, and two voltage holders on a bus (three _fails theorems, each for all such cases). C78_supported_loads_partial: every case in the stated class loads."},
{"property": "C79", "status": "partial", "theorems": ["Verif.Raw.C79_power_flow_partial"], "note": "C79_power_flow_partial: an equivalence, for cases with base 100 MVA, no wind modes, constant-power loads, no magnetising admittance and no three-winding transformer in service. Outside this class the claim is false or the case does not load: see C49, C75, C76, C78. The text of the file is the subject of C109 - C112; the equations are at homotopy factor 0."},
{"property": "C80", "status": "proved", "theorems": ["Verif.Raw.C80_machine_limits", "Verif.Raw.C80_shunt_limits"], "note": "Machine limits from the record; limits of continuous switched shunts from their blocks when no zero block precedes a non-zero one (C50_sums_fails otherwise)."},
{"property": "C81", "status": "proved", "theorems": ["Verif.Glm.C81_written"], "note": "Rows as a fold over explicit reader state; `#include` and opening files are not modelled, the schema is a parameter."},
{"property": "C82", "status": "partial", "theorems": ["Verif.Glm.C82_rows_partial", "Verif.Glm.C82_comment_partial", "Verif.Glm.C82_closing_comment_fails"], "note": "Holds for whole comment rows, and for a comment set directly behind the last character of a row; a comment behind a closing brace and white space leaves the object open (C82_closing_comment_fails)."},
{"property": "C83", "status": "partial", "theorems": ["Verif.Glm.C83_nested_fails", "Verif.Glm.C83_distinct_partial"], "note": "Attributes of a nested object overwrite those of the enclosing one (C83_nested_fails); the enclosing object keeps its own attributes when the two share none."},
{"property": "C88", "status": "partial", "theorems": ["Verif.Glm.C88_second_line_fails", "Verif.Glm.C88_units_partial"], "note": "Fails for the second line using a conductor with metric units, since the units are removed from the object by the first reading (`C88_second_line_fails`). Holds for the first line."},
{"property": "C89", "status": "proved", "theorems": ["Verif.Glm.C89_symmetric", "Verif.Glm.C89_passive"], "note": "Symmetry for every spacing and wire list the reader accepts; passivity by the loss formula (conductor losses plus earth losses), preserved by the reduction of the neutral."},
{"property": "C93", "status": "proved", "theorems": ["Verif.Glm.C93_accepted"], "note": "Acceptance with exact inversion, from the strict passivity of the matrix."},
{"property": "C94", "status": "partial", "theorems": ["Verif.Glm.C94_radius_fails", "Verif.Glm.C94_mutual_partial"], "note": "Fails: the conductor diameter in inches is used with distances in feet (`C94_radius_fails`, for every conductor). Mutual coefficients at equal heights are right."},
{"property": "C95", "status": "partial", "theorems": ["Verif.Glm.C95_symmetric_fails", "Verif.Glm.C95_level_partial"], "note": "Fails for conductors at different heights (`C95_symmetric_fails`). Holds for conductors of one height without neutral."},
{"property": "C84", "status": "partial", "theorems": ["Verif.Glm.C84_buses", "Verif.Glm.C84_places", "Verif.Glm.C84_sources_partial", "Verif.Glm.C84_child_source_fails"], "note": "Buses and places hold. Fails for a source that is a child of a node: it gets the voltage of the node read last (`C84_child_source_fails`); the voltage is proved for sources without parent."},
{"property": "C85", "status": "proved", "theorems": ["Verif.Glm.C85_loads", "Verif.Glm.C85_currents"], "note": "For every accepted file whose loads are not given by base power (those are C96)."},
{"property": "C86", "status": "partial", "theorems": ["Verif.Glm.C86_fuses_partial", "Verif.Glm.C86_state_fails"], "note": "Fails: a blown fuse is read as good (`C86_state_fails`). Place, number and limit are proved for fuses that give the state of each phase."},
{"property": "C87", "status": "partial", "theorems": ["Verif.Glm.C87_switches_partial", "Verif.Glm.C87_silent_fails"], "note": "Fails for switches that say nothing of their state or of some phases only (`C87_silent_fails`). Proved for all other files."},
{"property": "C90", "status": "partial", "theorems": ["Verif.Glm.C90_banks_partial", "Verif.Glm.C90_shunt_fails"], "note": "Fails for the shunt impedance, which is dropped (`C90_shunt_fails`). Ratio and series impedance are proved for every coil of every bank."},
{"property": "C91", "status": "partial", "theorems": ["Verif.Glm.C91_capacitors_partial", "Verif.Glm.C91_delta_fails"], "note": "Fails for delta banks, which are put between phase and ground (`C91_delta_fails`). Proved otherwise."},
{"property": "C96", "status": "partial", "theorems": ["Verif.Glm.C96_fractions_fails", "Verif.Glm.C96_whole_power_partial"], "note": "Fails for almost every division (`C96_fractions_fails`); only whole power at power factor 1 is right."},
{"property": "C97", "status": "partial", "theorems": ["Verif.Glm.C97_center_taps_partial", "Verif.Glm.C97_kilovolts_fails", "Verif.Glm.C97_windings_fails"], "note": "Fails for kV (`C97_kilovolts_fails`) and for impedances per winding (`C97_windings_fails`). Proved for volts and whole impedances."},
{"property": "C98", "status": "partial", "theorems": ["Verif.Glm.C98_regulators_partial", "Verif.Glm.C98_two_phases_fails"], "note": "Fails for regulators on two phases, which are refused (`C98_two_phases_fails`). Proved for accepted files without stray settings."},
{"property": "C99", "status": "partial", "theorems": ["Verif.Glm.C99_nominal_partial", "Verif.Glm.C99_child_voltage_fails"], "note": "Fails for a node that is the parent of a node or meter of another nominal voltage (`C99_child_voltage_fails`); proved for all sources and all other nodes."},
{"property": "C100", "status": "proved", "theorems": ["Verif.Glm.C100_lines"], "note": "The admittance matrices are `mats` of the data the line reader gives; `makes_unbalanced` shows that the constructor `UnbalancedLine` with exact inversion is such a constructor. How the data is read is C64, C88 and C89."},
{"property": "C101", "status": "partial", "theorems": ["Verif.Glm.C101_circuit_partial"], "note": "For files without the constructs known to be misread (`PlainFeeder`), with the states devices have before control acts. Missing: everything `PlainFeeder` leaves out (each has a `_fails` theorem), and the data of lines, which is a parameter."},
{"property": "C102", "status": "partial", "theorems": ["Verif.Glm.C102_real", "Verif.Glm.C102_complex", "Verif.Glm.C102_polar_fails"], "note": "`pyFloat` and `pyComplex` model python's `float` and `complex` on ASCII texts without `inf`, `nan` and underscores. The polar notation of GridLAB-D (`7200+30d`) is refused: `C102_polar_fails`."},
{"property": "C103", "status": "partial", "theorems": ["Verif.Glm.C103_units_partial", "Verif.Glm.C103_other_units_fails"], "note": "Only inches of spacings and MVAr of capacitors are converted, given that python reads back the floats it writes. Every other unit is dropped: `C103_other_units_fails`."},
{"property": "C104", "status": "partial", "theorems": ["Verif.Glm.C104_own_spacing_partial", "Verif.Glm.C104_lines_partial", "Verif.Glm.C104_spacing_fails"], "note": "Proved for lines whose configuration names a spacing and whose cables have outer diameters. Without, the distances of the line before are used: `C104_spacing_fails`. A missing attribute `configuration`, for which the code also takes what the line before had, raises in the model."},
{"property": "C105", "status": "partial", "theorems": ["Verif.Glm.C105_reciprocal", "Verif.Glm.C105_passive_partial", "Verif.Glm.C105_incomplete_fails"], "note": "Symmetry is proved for every line. Passivity is proved for conductors without negative resistance, where bare conductors (overhead, triplex) must have both resistance and geometric mean radius: without, the diagonal entry is zero and the line gives power, `C105_incomplete_fails`."},
{"property": "C106", "status": "partial", "theorems": ["Verif.Glm.C106_built_partial", "Verif.Glm.C106_phases_fails"], "note": "Proved for complete conductors of positive resistance and lines with a conductor for each of their phases. An overhead line with fewer phases than its configuration has conductors is read with a matrix of too few rows and is refused by the constructor: `C106_phases_fails`."},
{"property": "C107", "status": "partial", "theorems": ["Verif.Glm.C107_carson_partial", "Verif.Glm.C107_touching_fails", "Verif.Glm.C107_strands_fails"], "note": "Proved for all lines whose numbers have no units (other than the length), whose spacings are those of their conductors and whose cables have the same number of strands and do not touch. Touching cables are placed one foot apart for every inch of diameter: `C107_touching_fails`. The distances of the strands of all cables are computed with the number of strands of the last: `C107_strands_fails`."},
{"property": "C108", "status": "partial", "theorems": ["Verif.Glm.C108_circuit_partial"], "note": "An equivalence, for plain feeders (see C101) whose lines have conductors the equations of C107 are about. Every line is read with a spacing of its own; a line without one would get that of the line before (C104). The charging of lines is left out, since the program applies half of it (C55)."},
{"property": "C92", "status": "partial", "theorems": ["Verif.Glm.C92_accepted_partial", "Verif.Glm.C92_order_fails", "Verif.Glm.C92_child_fails", "Verif.Glm.C92_delta_fails", "Verif.Glm.C92_regulator_fails", "Verif.Glm.C92_lines_partial"], "note": "`SoundFeeder` is a condition on the objects of the file alone. Missing: parents must come before their children (`C92_order_fails`), children must have a nominal voltage of their own (`C92_child_fails`), loads in delta must be given by the first of two phases (`C92_delta_fails`), regulators must have three phases (`C92_regulator_fails`), loads must not have a base power. Lines: `C92_lines_partial` derives from conditions on the objects of the file that they are read and built, for all three kinds of lines; assumed is only that the potential coefficients of overhead conductors can be inverted (`PotentialsInvert.pair` proves this for two conductors at one height)."},
{"property": "C109", "status": "proved", "theorems": ["Verif.Raw.C109_rows", "Verif.Raw.C109_unique"], "note": "The first line has two fields or more, so that the separator is a comma. The rules are those of the python module csv, which `csvGo` follows."},
{"property": "C110", "status": "partial", "theorems": ["Verif.Raw.C110_rows_partial", "Verif.Raw.C110_determined", "Verif.Raw.C110_text_partial", "Verif.Raw.C110_name_fails", "Verif.Raw.C110_terminator_fails", "Verif.Raw.C110_blank_line_fails", "Verif.Raw.C110_comment_fails", "Verif.Raw.C110_short_fails", "Verif.Raw.C110_generator_fails", "Verif.Raw.C110_wind_fails", "Verif.Raw.C110_branch_status_fails", "Verif.Raw.C110_transformer_fails", "Verif.Raw.C110_control_fails", "Verif.Raw.C110_last_comment_fails", "Verif.Raw.C110_bus_shunt_fails"], "note": "`Document` holds the rows of the records, `FileOf` lays them out, `Document.Sound` is the condition on their fields, `Document.Means` compares them column by column with the case. Missing: version 30, tap control in version 34 (`C110_control_fails`), and what the format allows and the reader refuses or misreads, see the other `C110_\u2026_fails`."},
{"property": "C111", "status": "partial", "theorems": ["Verif.Raw.C111_order_partial", "Verif.Raw.C111_names_fails"], "note": "Records with the same name are excluded (`C111_names_fails`)."},
{"property": "C112", "status": "partial", "theorems": ["Verif.Raw.C112_loads_partial", "Verif.Raw.C112_power_flow_partial"], "note": "Composition of C109, C110, C78 and C79, with their conditions."},
{"property": "C113", "status": "proved", "theorems": ["Verif.Raw.C113_version"], "note": "Also if the file has no bus."},
{"property": "C114", "status": "partial", "theorems": ["Verif.C114_own_derivatives_partial", "Verif.C114_directory_stays_sound", "Verif.C114_keys_tell_apart", "Verif.C114_only_writing_stops", "Verif.C114_asked_again", "Verif.C114_ten_digits_fails", "Verif.C114_rounded_numbers_fails", "Verif.C114_version_not_raised_fails"], "note": "Proved for directories filled by runs of the program, under the explicit assumptions that the ten hex digits of the segments in use differ (`NoCollision`) and that the printer tells their Lagrangians apart (`Faithful`). Without these the claim is false, see the `C114_\u2026_fails`. Hash and printer are parameters."},
{"property": "C115", "status": "partial", "theorems": ["Verif.C115_display_partial", "Verif.C115_run_partial", "Verif.C115_verbose_fails"], "note": "With `--verbose` every display raises an exception (`C115_verbose_fails`)."},
{"property": "C116", "status": "partial", "theorems": ["Verif.C116_own_names_partial", "Verif.C116_same_name_fails"], "note": "Proved for networks whose buses all have names of their own; false otherwise, see `C116_same_name_fails`."},
{"property": "C117", "status": "partial", "theorems": ["Verif.C117_load_power_partial", "Verif.C117_parts_fails"], "note": "Proved for loads of constant power; the other parts are left out of the report, see `C117_parts_fails`."},
{"property": "C118", "status": "partial", "theorems": ["Verif.C118_per_unit_partial", "Verif.C118_unit_fails"], "note": "Proved is the unit that is reported, per unit of 100 MVA; it is not that of the heading, see `C118_unit_fails`."},
{"property": "C119", "status": "partial", "theorems": ["Verif.C119_local_partial", "Verif.C119_download_partial", "Verif.C119_reader_fails", "Verif.C119_overwrites_fails"], "note": "Missing: `.glm` elsewhere in the path, extensions in the other case of letters, and files in the temporary directory, see the `C119_\u2026_fails`."},
{"property": "C120", "status": "partial", "theorems": ["Verif.C120_voltage_file_partial", "Verif.C120_power_file_partial", "Verif.C120_comma_fails", "Verif.C120_bus_column_fails"], "note": "Names without commas and line ends. Numbers are exact reals rounded to the nearest, ties to even; the sign of a negative zero is left out."},
{"property": "C121", "status": "proved", "theorems": ["Verif.C121_balance", "Verif.C121_losses"], "note": "Solutions of the network equations with the homotopy off, in exact arithmetic; devices are off their singular voltages."},
{"property": "C122", "status": "partial", "theorems": ["Verif.C122_reported_balance_partial", "Verif.C122_angle_fails"], "note": "Proved for slacks of angle zero, loads of constant power and networks without voltage sources; false for slacks at another angle, see `C122_angle_fails`."},
{"property": "C123", "status": "partial", "theorems": ["Verif.C123_converges_partial", "Verif.C123_solve_partial", "Verif.C123_elements_partial"], "note": "Exact arithmetic, ideal linear solver, fresh stamper; with or without voltage limiting and debug mode. The number of nonzero nonlinear matrix stamps must not change near the solution, because with fewer of them the matrix builder keeps entries of an earlier pass. `C123_elements_partial` derives this from the voltages at the loads and generators, outside of infeasibility analysis."},
{"property": "C124", "status": "proved", "theorems": ["Verif.C124_accuracy", "Verif.C124_run"], "note": "Exact arithmetic and linear solver. The factor depends on the solution, not on the run. The run theorem covers successes in debug mode or at the first iteration, on a fresh stamper; C123 covers the others under its condition on the fill."},
{"property": "C125", "status": "partial", "theorems": ["Verif.C125_debug_partial", "Verif.C125_unique_partial", "Verif.C125_solved_partial", "Verif.C125_switches_fails"], "note": "Holds where ideal conductors (closed switches, fuses, sources, regulator outputs) form no loop. With two closed switches in parallel every solve raises an exception (`C125_switches_fails`). Exact arithmetic and ideal linear solver, without voltage limiting; debug mode on a fresh stamper. Resistive means a positive series conductance; a purely reactive branch is not covered."},
{"property": "C126", "status": "proved", "theorems": ["Verif.C126_solutions", "Verif.C126_results", "Verif.C126_solved"], "note": "Exact arithmetic. Solutions are proved to correspond in all networks; that both solves return them, for the networks of C125."},
{"property": "C127", "status": "partial", "theorems": ["Verif.C127_solutions_partial", "Verif.C127_results_partial", "Verif.C127_current_fails", "Verif.C127_slack_fails"], "note": "False for loads with a constant current, whose phasor is fixed (`C127_current_fails`), and for the reported slack power (`C127_slack_fails`). Proved for all other equipment and results."},
{"property": "C128", "status": "partial", "theorems": ["Verif.C128_names_partial", "Verif.C128_identify_partial", "Verif.C128_shared_fails", "Verif.C128_other_fails"], "note": "Names are right for buses, slacks and transformers, and tell equations apart when no bus carries two devices of one kind. Transformers sharing a bus share labels and generators have none (`C128_shared_fails`, `C128_other_fails`)."},
{"property": "C129", "status": "partial", "theorems": ["Verif.C129_result", "Verif.C129_files_partial", "Verif.C129_read", "Verif.C129_names", "Verif.C129_given_up_fails", "Verif.C129_left_over_fails"], "note": "Result, files of a returned run, readability and names are proved; runs that are given up leave the old voltage file and older iterations' files stay (`C129_given_up_fails`, `C129_left_over_fails`)."},
{"property": "C130", "status": "partial", "theorems": ["Verif.C130_solution_partial", "Verif.C130_light_partial", "Verif.C130_overload", "Verif.C130_healthy_partial"], "note": "Missing: for the solver, loads whose power, turned back by twice the angle of the no-load voltage, is real or imaginary (the builder may keep stale entries there, see C04), voltage limiting, and an explicit bound on the factor; generators. C135 has an explicit bound for the existence of a solution."},
{"property": "C131", "status": "partial", "theorems": ["Verif.C131_hours_partial", "Verif.C131_no_end_fails", "Verif.C131_refused_hour_fails", "Verif.C131_plain", "Verif.C131_default_factor_fails", "Verif.C131_transmission_fails", "Verif.C131_refused_factor", "Verif.C131_select_text", "Verif.C131_select_empty", "Verif.C131_select_raises", "Verif.C131_select_ignored_fails", "Verif.C131_run", "Verif.C131_select_fails"], "note": "Hours, plain runs, the load factor and the refinement to the runs of C39, C42, C71, C72 and C115 are proved. False: without --loadend nothing is done at all (C131_no_end_fails), hours that are no integers give a plain power flow (C131_refused_hour_fails), transmission networks always print an error (C131_transmission_fails), `--select_island False` selects the island (C131_select_fails) without swing bus the option is ignored (C131_select_ignored_fails), and without --load_factor every load is negated (C131_default_factor_fails). argparse is not modelled."},
{"property": "C132", "status": "partial", "theorems": ["Verif.C132_solvable_partial", "Verif.C132_others_raise", "Verif.C132_located_fails", "Verif.C132_zero"], "note": "`C132_solvable_partial`: with one solution the analysis returns it with all currents and both totals zero. `C132_others_raise`: with no or several solutions every run raises. `C132_zero`: any returned result has zero currents. `C132_located_fails`: a current load without a source, whose missing current the analysis is meant to find. Linear solver ideal; voltage limiting and debug mode off for the positive part."},
{"property": "C133", "status": "partial", "theorems": ["Verif.Glm.C133_lines", "Verif.Glm.C133_transformers_partial", "Verif.Glm.C133_bank_fails"], "note": "`C133_lines`: each phase is tested against the rating of its own conductor, and the test never raises. `C133_transformers_partial`: coils and center taps are tested against the rated power of their configuration. `C133_bank_fails`: for a bank this is the power of all coils together. What quantity is compared with the ratings is the subject of C63."},
{"property": "C134", "status": "partial", "theorems": ["Verif.C134_solutions_partial", "Verif.C134_results_partial", "Verif.C134_fuse_fails"], "note": "`C134_solutions_partial`: solutions carry over with voltages and own values in the new units. `C134_results_partial`: so do the results. `C134_fuse_fails`: a fuse before a shunt gives half the slack voltage in one unit of admittance and a third in another. Tolerances and voltage limits of the Newton method are absolute numbers and not part of the claim."},
{"property": "C135", "status": "partial", "theorems": ["Verif.C135_bound_partial", "Verif.C135_responds_partial", "Verif.C135_sharp"], "note": "`C135_bound_partial`: existence and uniqueness under the bound, by a contraction on the voltages of the loads. `C135_responds_partial`: the numbers Z exist. `C135_sharp`: a feeder is solvable below a quarter of a watt and unsolvable above. Missing: generators and equipment that is not resistive (C125)."},
{"property": "C136", "status": "partial", "theorems": ["Verif.C136_balance", "Verif.C136_shortage", "Verif.C136_reported_fails"], "note": "`C136_balance` and `C136_shortage` in full for the currents the equations contain. `C136_reported_fails`: the totals reported are not this power; one watt is brought in and zero is reported."},
{"property": "C137", "status": "proved", "theorems": ["Verif.C137_balanced", "Verif.C137_solved"], "note": "`C137_balanced` for all connections listed; `C137_solved` for the run."},
{"property": "C138", "status": "proved", "theorems": ["Verif.C138_solutions", "Verif.C138_solved"], "note": "Proved for every network and every homotopy factor by showing for each exchange that the second side can draw the same current at every bus with laws obeyed; the run follows from C125 for resistive connected networks."},
{"property": "C139", "status": "proved", "theorems": ["Verif.C139_joined", "Verif.C139_split", "Verif.C139_solved"], "note": "Both directions at every homotopy factor; the current of the switch is what the equipment moved behind it draws. The run follows from C125 for resistive connected networks."},
{"property": "C140", "status": "proved", "theorems": ["Verif.C140_untapped", "Verif.C140_tapped", "Verif.C140_stub"], "note": "Both directions. Lines with charging are outside: two pi-sections are not one pi-section."},
{"property": "C141", "status": "proved", "theorems": ["Verif.C141_superposition", "Verif.C141_solved"], "note": "For every linear network at every homotopy factor; constant-current loads are fixed phasors, so they superpose. The run follows from C125."},
{"property": "C142", "status": "proved", "theorems": ["Verif.C142_reciprocity", "Verif.C142_solved"], "note": "By pairing the currents of one state with the voltages of another (Tellegen), element by element, for the differences to the unloaded state. The run follows from C125."},
{"property": "C143", "status": "partial", "theorems": ["Verif.Raw.C143_case_partial", "Verif.Raw.C143_run_partial", "Verif.Raw.C143_flat"], "note": "Partial: small loads only, no generators besides the swing buses, no voltage limiting, linear solver exact. The bound is not computed; it exists for every case."},
{"property": "C144", "status": "partial", "theorems": ["Verif.C144_execute", "Verif.C144_islands_refused", "Verif.C144_names_fails", "Verif.C144_raw_partial"], "note": "C144_execute and C144_islands_refused hold without restriction. C144_names_fails: buses are told apart by name, so equal names hide separate islands. C144_raw_partial: as C143, with one swing bus."},
{"property": "C145", "status": "partial", "theorems": ["Verif.Glm.C145_circuit", "Verif.Glm.C145_one", "Verif.Glm.C145_idle", "Verif.Glm.C145_solution_partial", "Verif.Glm.C145_run_partial"], "note": "C145_circuit, C145_one and C145_idle hold as stated. Partial: small loads only, no voltage limiting, linear solver exact; with device control no fuses and capacitors switched by hand. The bound is not computed; it exists for every feeder."},
{"property": "C146", "status": "partial", "theorems": ["Verif.Glm.C146_islands", "Verif.Glm.C146_alone", "Verif.Glm.C146_accepted", "Verif.Glm.C146_execute_partial"], "note": "C146_islands, C146_alone and C146_accepted hold as stated. C146_execute_partial: as C145 (small loads, linear solver exact, with device control no fuses and capacitors switched by hand); loads must have voltage at the start values of the buses."},
{"property": "C147", "status": "partial", "theorems": ["Verif.Glm.C147_start_partial", "Verif.Glm.C147_live", "Verif.Glm.C147_execute_partial", "Verif.Glm.C147_nominal_fails"], "note": "C147_live holds as stated. C147_start_partial leaves out nodes that are no sources and are the parent of another node or meter, whose nominal voltage the child overwrites (C99_child_voltage_fails). C147_nominal_fails: triplex legs and buses with capacitors do not start at the nominal voltage of the file. C147_execute_partial: as C146_execute_partial without its hypothesis about the start."},
{"property": "C148", "status": "partial", "theorems": ["Verif.Glm.C148_losses", "Verif.Glm.C148_supplied", "Verif.Glm.C148_circuit", "Verif.Glm.C148_execute_partial"], "note": "C148_losses, C148_supplied and C148_circuit hold as stated. C148_execute_partial leaves out what PlainFeeder (C101) and FileSpan (C107) leave out, the charging of lines (on by default), and all but light loads."},
{"property": "C149", "status": "partial", "theorems": ["Verif.Glm.C149_supplied", "Verif.Glm.C149_circuit_partial", "Verif.Glm.C149_idle", "Verif.Glm.C149_execute_partial", "Verif.Glm.C149_total_partial"], "note": "C149_supplied and C149_idle hold as stated. C149_circuit_partial has a quarter of the charging at each end (C55_charging_fails) and wires of twelve times their radius (C94_radius_fails); C149_execute_partial and C149_total_partial leave out in addition overhead lines that are not level or have a neutral, what PlainFeeder (C101) and FileSpan (C107) leave out, and all but light loads."},
{"property": "C150", "status": "partial", "theorems": ["Verif.Glm.C150_file", "Verif.Glm.C150_files", "Verif.Glm.C150_includes_partial", "Verif.Glm.C150_order_fails", "Verif.Glm.C150_nested_fails"], "note": "C150_file holds as stated; C150_files says in which order objects are read. C150_includes_partial has the objects up to their order and files that include none: included objects come last (C150_order_fails) and files included by included files are left out (C150_nested_fails)."},
{"property": "C151", "status": "partial", "theorems": ["Verif.C151_fetched", "Verif.C151_feeder_partial", "Verif.C151_case_partial"], "note": "C151_feeder_partial has included objects after the others, as they are read (C150_order_fails), and leaves out what C149_execute_partial leaves out; C151_case_partial leaves out what C110_rows_partial and C144_raw_partial leave out. Both are about light loads. C151_fetched: a file fetched from an address gives the results of the same file on the disk."},
{"property": "C152", "status": "partial", "theorems": ["Verif.Glm.C152_names", "Verif.Glm.C152_columns", "Verif.Glm.C152_unnamed", "Verif.Glm.C152_shared", "Verif.Glm.C152_negative", "Verif.Glm.C152_shared_fails", "Verif.Glm.C152_impedance_fails"], "note": "C152_names, C152_columns, C152_unnamed and C152_negative hold as stated; C152_columns is about the last load of a column, C152_shared says the others keep the power of the file (C152_shared_fails). A load given by its impedance gets the power of the column in addition (C152_impedance_fails). Loads given by a base power are left out."},
{"property": "C153", "status": "partial", "theorems": ["Verif.Raw.C153_case_lines", "Verif.Raw.C153_case_buses_partial", "Verif.Raw.C153_case_nodes_partial", "Verif.Raw.C153_case_loads_partial", "Verif.Raw.C153_case_nodes_fails", "Verif.Glm.C153_lines", "Verif.Glm.C153_phase_loads", "Verif.Glm.C153_buses", "Verif.Glm.C153_nodes_partial", "Verif.Glm.C153_loads_partial", "Verif.Glm.C153_loads_fails", "Verif.Glm.C153_nodes_fails"], "note": "Lines and phase loads of feeders hold as stated; C153_buses says which buses are printed beside those of the file. Nodes and loads hold without fuses, regulators and center taps and for names that do not end alike (C153_nodes_fails, C153_loads_fails). For RAW cases, C153_case_lines holds as stated, buses and nodes without three-winding transformers and, for nodes, with names that differ (C153_case_nodes_fails: buses left without a name count once), and loads if no generator is in service at a bus of type 2; such generators can be printed as loads."},
{"property": "C154", "status": "partial", "theorems": ["Verif.Glm.C154_network", "Verif.Glm.C154_hours_partial", "Verif.Glm.C154_default_fails"], "note": "C154_network holds as stated. C154_hours_partial is for light loads of feeders as in C149, all constant powers at one factor in an hour, without balancing; the check of the ratings is that of C155. C154_default_fails: without --load_factor all loads are multiplied by -1 first, and all hours are then solved with loads producing the powers of the load file."},
{"property": "C155", "status": "partial", "theorems": ["Verif.C155_raises", "Verif.C155_marks", "Verif.C155_feeder_partial", "Verif.C155_zero_fails"], "note": "C155_raises says for all networks when the check raises; C155_marks that otherwise only the flag is set; C155_feeder_partial that feeders without zero voltages and without parents that are no sources pass. C155_zero_fails: a node of nominal voltage zero ends the series in a division by zero."},
{"property": "C156", "status": "partial", "theorems": ["Verif.C156_written", "Verif.C156_hours_partial", "Verif.C156_plain", "Verif.C156_runs", "Verif.C156_stale_fails", "Verif.C156_overwritten_fails"], "note": "C156_runs, for all runs however they end, C156_written and C156_plain hold as stated; C156_hours_partial needs both hours given as integers (see C131). C156_stale_fails: hours beyond the end of a later run keep the files of the run before. C156_overwritten_fails: the name n_3 of a plain run is that of the hour 3 of a series n."},
{"property": "C157", "status": "partial", "theorems": ["Verif.C157_series_partial", "Verif.C157_default_fails"], "note": "C157_series_partial is for feeders, light loads and load files as in C154, and both hours given as integers. C157_default_fails: without --load_factor the same run shows and writes, as successful, the voltages with all loads producing."},
{"property": "C158", "status": "partial", "theorems": ["Verif.C158_rows", "Verif.C158_cols", "Verif.C158_symbolic_partial", "Verif.C158_symbolic_fails", "Verif.C158_empty_fails"], "note": "C158_rows and C158_cols hold for every history. C158_symbolic_partial needs at least one stamp that counts and no more of them earlier in the history. C158_symbolic_fails: after a clear the symbolic matrix still shows the old stamps. C158_empty_fails: without stamps it raises."},
{"property": "C159", "status": "partial", "theorems": ["Verif.C159_again_partial", "Verif.C159_once_partial", "Verif.C159_untouched", "Verif.C159_prompted_partial"], "note": "C159_untouched holds as stated for transmission networks and runs without control. With control, C159_again_partial and C159_once_partial need start values that prompt none of the devices the first run left, and C159_prompted_partial start values that prompt every capacitor and no fuse. Mixed cases are missing: there some capacitors are set back before the second run and others are not."},
{"property": "C160", "status": "partial", "theorems": ["Verif.C160_nothing_partial", "Verif.C160_equations_fails"], "note": "C160_nothing_partial holds without equations and objective. C160_equations_fails: with any of them the constructor raises, because the check of the symbols is called as a method and is none."}
]}
