{
 "C04": {"status": "partial", "note": "The code violates the property: to_matrix keeps stale entries when a round stamps fewer entries than the previous one (witness in C04_matrix_current_fails). The partial theorem proves it when each round stamps at least as many entries as the previous one; C04_error_is_stale_tail says exactly what is left over otherwise."},
 "C66": {"status": "partial", "note": "The code violates the property for a winding with r = x = 0 (witness in C66_zero_impedance_winding_fails); the partial theorem proves it for non-zero impedance."},
 "C01": "C01_sin_of_variable_misclassified records that the classification would be wrong for sin of a variable; no device in the repository has such an equation (C01_every_device_row).",
 "C17": "Endpoint, continuity and scaling theorems per device.",
 "C03": {"status": "partial", "note": "The code violates the property: calc_residuals is called with the iteration number of the linearisation, so it evaluates the previous vector (C03_success_residual_fails: success on a network without any solution). The partial theorem says what a success does guarantee."},
 "C07": {"status": "partial", "note": "Proved for every network without L1 infeasibility; with L1 the bound multipliers share the indices of the currents (C07_L1_multipliers_fails)."},
 "C22": {"status": "partial", "note": "The code violates the property at iteration counts divisible by 50 with a rising trend (C22_converged_is_success_fails); otherwise it holds (partial theorem)."},
 "C24": {"status": "partial", "note": "The code violates the property after successful stepping: it reports -0.01 (C24_percentage_fails). The partial theorem gives the exact value in every case."},
 "C25": {"status": "partial", "note": "The code violates the property when the previous run on the same stamper ended at iteration 0 (C25_second_run_fails); otherwise it holds (partial theorem)."},
 "C68": {"status": "partial", "note": "The code violates the property: the report is evaluated at the vector of the last linearisation (C68_report_fails, C68_report_partial)."},
 "C28": {"status": "partial", "note": "The code violates the property: after a fuse blows the next solve raises (C28_blown_fuse_fails, a network solved exactly whose run ends in an exception; C28_overload_raises: this happens for every overloaded fuse). The partial theorem says that a run that returns never met a blown fuse."},
 "C30": {"status": "partial", "note": "The code switches in the wrong direction (C30_direction_fails). The partial theorem proves the rest: manual banks never change, unsupported modes raise, exact behaviour in VOLT mode, re-evaluation changes nothing."},
 "C69": "Arithmetic is exact and the linear solver is assumed to solve the system it is given.",
 "C34": {"note": "False in the code: P = Vr*Ir and Q = Vi*Ii are reported. C34_slack_power_fails shows a solved network; the partial theorem gives the exact error and the case of a real slack voltage."},
 "C36": {"note": "True except for voltages smaller than 1e-8, whose angle is reported as 0; the partial theorem bounds the error by 2e-8."},
 "C37": {"note": "False in the code: the stored negated power is reported. The partial theorem shows -(P+jQ) is the injected power."},
 "C38": {"note": "False for Transformer (P = Vr*Ir, Q = Vi*Ii), proved for CenterTapTransformer."},
 "C63": {"note": "False for lines with mutual coupling (only the diagonal admittance is used) and rated two-winding transformers; proved for the rest."},
 "C19": "Proved for every network whose line matrices are symmetric, as physical ones are; C19_reciprocity_needed shows that an unsymmetric coupled line gives an unsymmetric matrix.",
 "C20": "Least squares (C20_least_squares) is stated for networks of linear devices; the other theorems hold for every network.",
 "C35": {"status": "partial", "note": "The code violates the property: the totals are the sums of Re V*Re I and Im V*Im I with negative terms cut to zero, and can vanish although currents do not (witness in C35_totals_fails). C35_totals_formula_partial says what is reported, C35_zero_partial proves the direction that holds."},
 "C70": {"status": "partial", "note": "The code violates the property: bound multipliers share the indices of the currents, so the parts sum to -1 at every solution (C70_L1_nonnegative_fails) and the L1 option finds exactly the solutions of the L2 option (C70_L1_is_L2)."},
 "C39": {"note": "The code violates the property: without --load_factor every constant power is multiplied by -1 (C39_default_fails). C39_factor covers every run, C39_explicit_partial a run with factor one."},
 "C41": {"note": "The code violates the property after an hour of zero: the angle is read back from the load (C41_zero_hour_fails). C41_power_factor_partial covers every sequence of positive hours, C41_magnitude every single hour."},
 "C42": {"note": "C42_hours_partial: one result per hour, in order, each with the hour's values for loads that are the last of their name and have a value. False for hours without a value (C42_missing_hour_fails) and loads that share a name (C42_same_name_fails)."},
 "C43": {"note": "C43_stops_balanced_partial is about the powers reported for the swing bus. The powers exchanged may be large, since reactive power at a real voltage is reported as zero (C43_exchange_fails). What each round adds is proved in full; the loop need not end (C43_may_not_stop)."},
 "C71": {"note": "The code violates the property for runs with a swing bus and no load file (C71_swing_bus_fails); C71_files_partial covers the others."},
 "C72": {"note": "The code violates the property: the exception is swallowed and a plain power flow shown and written (C72_failure_masked_fails). C72_error_shown_partial: the text of the exception is printed."},
 "C44": {"note": "The code violates the property: every load and capacitor to ground is dropped (C44_grounded_fails). Buses, lines, transformers and switches are kept exactly (C44_buses, C44_carriers), the rest when no terminal is grounded (C44_hanging_partial)."},
 "C45": "C45_one_island needs no assumption on the network; C45_refused_iff is for networks whose elements end at named nodes.",
 "C46": "For links whose first element in get_all_elements order is neither transformer nor regulator, as in the code; C46_parallel_unchecked shows that a switch across a transformer is not looked at. The bound 20 is attained (C46_bound_sharp).",
 "C73": {"note": "The code violates the property: connectivity is checked by node name, so a phase with nothing attached passes (C73_floating_bus_fails). C73_floating_rows: the equations of such a bus are void."},
 "C74": {"note": "The code violates the property: the reference voltage is that of the first node visited in a python set (C74_order_fails). C46_accepts: order does not matter when nominal voltages differ by at most 9.5.", "status": "partial"},
 "C47": "The code violates the property: a second regulating machine on a bus raises AttributeError (C47_merge_fails), so no loaded case has two (C47_no_two_regulate). C47_injection_partial: whenever a case loads, net active injection per bus (machines at type-2 buses minus loads) is the sum over the records, in per unit of 100 MVA. The text reader Data.py is not modelled.",
 "C48": "For every case with distinct bus numbers that loads: nothing out of service is loaded, and in-service loads, fixed shunts, branches and two-winding transformers are loaded once each, in order. Three-winding transformers in service make the load raise, see C78. The text reader Data.py is not modelled.",
 "C49": "The code violates the property: constant-current parts are taken in MW without dividing by the base and admittance parts are dropped (C49_parts_fails). C49_constant_power_partial covers records without current part; C49_rated_iff_partial says exactly when the load at unit voltage is right.",
 "C50": "The code violates the property: blocks after the first zero block are ignored (C50_sums_fails). C50_trailing_partial: with only trailing zero blocks the limits are the sums; C50_within_partial: the limits never exceed the sums.",
 "C51": "C51_star on the converted data of every record; C51_star_unique shows they are the only such values. That the record then fails to load is C78_three_winding_fails.",
 "C75": "The code violates the property: loads and machines divide by 100 whatever the base (C75_base_fails). C75_base_partial: true at 100 MVA.",
 "C76": "The code violates the property for mode 2 (C76_limits_fails). C76_fixed_power_factor_partial: true for mode 3.",
 "C77": "For non-zero base voltages and non-negative nominal voltages. Magnetising admittances are parsed but not stamped (transformer.py 155-157) and are outside this statement.",
 "C78": "The code violates the property for line shunts, in-service three-winding transformers, and two voltage holders on a bus (three _fails theorems, each for all such cases). C78_supported_loads_partial: every case in the stated class loads.",
 "C79": "C79_power_flow_partial: an equivalence, for cases with base 100 MVA, no wind modes, constant-power loads, no magnetising admittance and no three-winding transformer in service. Outside this class the claim is false or the case does not load: see C49, C75, C76, C78. The text of the file is the subject of C109 - C112; the equations are at homotopy factor 0.",
 "C57": {"status": "partial", "note": "The code violates the property: the second multiplier of a bus is never set (C57_second_multiplier_fails), and distribution networks set no multiplier (C57_distribution_multipliers_fails). The partial theorems prove the voltages and the first multiplier, for every network."},
 "C65": {"status": "partial", "note": "The code violates the property: with both to-side equations given, the imaginary from-side equation is not checked (C65_imaginary_fails). The partial theorems prove rejection for every other equation and closure of the Lagrangian when the to side is left out."},
 "C80": "Machine limits from the record; limits of continuous switched shunts from their blocks when no zero block precedes a non-zero one (C50_sums_fails otherwise).",
 "C81": "Rows as a fold over explicit reader state; `#include` and opening files are not modelled, the schema is a parameter.",
 "C82": "Holds for whole comment rows, and for a comment set directly behind the last character of a row; a comment behind a closing brace and white space leaves the object open (C82_closing_comment_fails).",
 "C83": "Attributes of a nested object overwrite those of the enclosing one (C83_nested_fails); the enclosing object keeps its own attributes when the two share none.",
 "C52": "Refused: `|` between phases, the notation GridLAB-D itself writes, turns into phases of that name (`C52_separator_fails`). For texts without `|` the result is characterised completely, including which texts are refused.",
 "C56": "Fails for a switch or fuse on several phases without any status attribute: only the first phase gets a wire (`C56_wires_fails`). Holds with one status for all phases and with one status per listed phase.",
 "C64": "Fails with a space before the unit and with an exponent (`C64_space_fails`, `C64_exponent_fails`, both run from the text of a file). Holds for plain decimal numerals directly followed by km or ft, or without unit (feet).",
 "C88": "Fails for the second line using a conductor with metric units, since the units are removed from the object by the first reading (`C88_second_line_fails`). Holds for the first line.",
 "C53": "For every field and every finite size: existence and uniqueness of the neutral current, equality of voltage drops, refusal of singular neutral blocks, symmetry.",
 "C54": "Fails for lines with fewer conductors than the spacing object has distances for (`C54_spare_conductor_fails`) and for units other than feet (`C54_unit_fails`). Holds if the conductors are exactly those of the spacing object.",
 "C55": "Fails: the charging is halved when computed and again when stamped at each end, so both ends together carry half of it (`C55_charging_fails`; the two partial theorems show it is exactly half for all overhead lines and cables). `C55_file_partial` says the same of all lines of a file, from the data in the file; `wiredFeeder` in Props/LineAcceptance meets its hypotheses.",
 "C89": "Symmetry for every spacing and wire list the reader accepts; passivity by the loss formula (conductor losses plus earth losses), preserved by the reduction of the neutral.",
 "C93": "Acceptance with exact inversion, from the strict passivity of the matrix.",
 "C94": "Fails: the conductor diameter in inches is used with distances in feet (`C94_radius_fails`, for every conductor). Mutual coefficients at equal heights are right.",
 "C95": "Fails for conductors at different heights (`C95_symmetric_fails`). Holds for conductors of one height without neutral.",
 "C84": "Buses and places hold. Fails for a source that is a child of a node: it gets the voltage of the node read last (`C84_child_source_fails`); the voltage is proved for sources without parent.",
 "C85": "For every accepted file whose loads are not given by base power (those are C96).",
 "C86": "Fails: a blown fuse is read as good (`C86_state_fails`). Place, number and limit are proved for fuses that give the state of each phase.",
 "C87": "Fails for switches that say nothing of their state or of some phases only (`C87_silent_fails`). Proved for all other files.",
 "C90": "Fails for the shunt impedance, which is dropped (`C90_shunt_fails`). Ratio and series impedance are proved for every coil of every bank.",
 "C91": "Fails for delta banks, which are put between phase and ground (`C91_delta_fails`). Proved otherwise.",
 "C96": "Fails for almost every division (`C96_fractions_fails`); only whole power at power factor 1 is right.",
 "C97": "Fails for kV (`C97_kilovolts_fails`) and for impedances per winding (`C97_windings_fails`). Proved for volts and whole impedances.",
 "C98": "Fails for regulators on two phases, which are refused (`C98_two_phases_fails`). Proved for accepted files without stray settings.",
 "C99": "Fails for a node that is the parent of a node or meter of another nominal voltage (`C99_child_voltage_fails`); proved for all sources and all other nodes.",
 "C100": "The admittance matrices are `mats` of the data the line reader gives; `makes_unbalanced` shows that the constructor `UnbalancedLine` with exact inversion is such a constructor. How the data is read is C64, C88 and C89.",
 "C101": "For files without the constructs known to be misread (`PlainFeeder`), with the states devices have before control acts. Missing: everything `PlainFeeder` leaves out (each has a `_fails` theorem), and the data of lines, which is a parameter.",
 "C102": "`pyFloat` and `pyComplex` model python's `float` and `complex` on ASCII texts without `inf`, `nan` and underscores. The polar notation of GridLAB-D (`7200+30d`) is refused: `C102_polar_fails`.",
 "C103": "Only inches of spacings and MVAr of capacitors are converted, given that python reads back the floats it writes. Every other unit is dropped: `C103_other_units_fails`.",
 "C104": "Proved for lines whose configuration names a spacing and whose cables have outer diameters. Without, the distances of the line before are used: `C104_spacing_fails`. A missing attribute `configuration`, for which the code also takes what the line before had, raises in the model.",
 "C105": "Symmetry is proved for every line. Passivity is proved for conductors without negative resistance, where bare conductors (overhead, triplex) must have both resistance and geometric mean radius: without, the diagonal entry is zero and the line gives power, `C105_incomplete_fails`.",
 "C106": "Proved for complete conductors of positive resistance and lines with a conductor for each of their phases. An overhead line with fewer phases than its configuration has conductors is read with a matrix of too few rows and is refused by the constructor: `C106_phases_fails`.",
 "C107": "Proved for all lines whose numbers have no units (other than the length), whose spacings are those of their conductors and whose cables have the same number of strands and do not touch. Touching cables are placed one foot apart for every inch of diameter: `C107_touching_fails`. The distances of the strands of all cables are computed with the number of strands of the last: `C107_strands_fails`.",
 "C108": "An equivalence, for plain feeders (see C101) whose lines have conductors the equations of C107 are about. Every line is read with a spacing of its own; a line without one would get that of the line before (C104). The charging of lines is left out, since the program applies half of it (C55).",
 "C92": "`SoundFeeder` is a condition on the objects of the file alone. Missing: parents must come before their children (`C92_order_fails`), children must have a nominal voltage of their own (`C92_child_fails`), loads in delta must be given by the first of two phases (`C92_delta_fails`), regulators must have three phases (`C92_regulator_fails`), loads must not have a base power. Lines: `C92_lines_partial` derives from conditions on the objects of the file that they are read and built, for all three kinds of lines; assumed is only that the potential coefficients of overhead conductors can be inverted (`PotentialsInvert.pair` proves this for two conductors at one height).",
 "C109": "The first line has two fields or more, so that the separator is a comma. The rules are those of the python module csv, which `csvGo` follows.",
 "C110": "`Document` holds the rows of the records, `FileOf` lays them out, `Document.Sound` is the condition on their fields, `Document.Means` compares them column by column with the case. Missing: version 30, tap control in version 34 (`C110_control_fails`), and what the format allows and the reader refuses or misreads, see the other `C110_…_fails`.",
 "C111": "Records with the same name are excluded (`C111_names_fails`).",
 "C112": "Composition of C109, C110, C78 and C79, with their conditions.",
 "C113": "Also if the file has no bus.",
 "C114": "Proved for directories filled by runs of the program, under the explicit assumptions that the ten hex digits of the segments in use differ (`NoCollision`) and that the printer tells their Lagrangians apart (`Faithful`). Without these the claim is false, see the `C114_…_fails`. Hash and printer are parameters.",
 "C115": "With `--verbose` every display raises an exception (`C115_verbose_fails`).",
 "C116": "Proved for networks whose buses all have names of their own; false otherwise, see `C116_same_name_fails`.",
 "C117": "Proved for loads of constant power; the other parts are left out of the report, see `C117_parts_fails`.",
 "C118": "Proved is the unit that is reported, per unit of 100 MVA; it is not that of the heading, see `C118_unit_fails`.",
 "C119": "Missing: `.glm` elsewhere in the path, extensions in the other case of letters, and files in the temporary directory, see the `C119_…_fails`.",
 "C120": "Names without commas and line ends. Numbers are exact reals rounded to the nearest, ties to even; the sign of a negative zero is left out.",
 "C121": "Solutions of the network equations with the homotopy off, in exact arithmetic; devices are off their singular voltages.",
 "C122": "Proved for slacks of angle zero, loads of constant power and networks without voltage sources; false for slacks at another angle, see `C122_angle_fails`.",
 "C123": "Exact arithmetic, ideal linear solver, fresh stamper; with or without voltage limiting and debug mode. The number of nonzero nonlinear matrix stamps must not change near the solution, because with fewer of them the matrix builder keeps entries of an earlier pass. `C123_elements_partial` derives this from the voltages at the loads and generators, outside of infeasibility analysis.",
 "C124": "Exact arithmetic and linear solver. The factor depends on the solution, not on the run. The run theorem covers successes in debug mode or at the first iteration, on a fresh stamper; C123 covers the others under its condition on the fill.",
 "C125": "Holds where ideal conductors (closed switches, fuses, sources, regulator outputs) form no loop. With two closed switches in parallel every solve raises an exception (`C125_switches_fails`). Exact arithmetic and ideal linear solver, without voltage limiting; debug mode on a fresh stamper. Resistive means a positive series conductance; a purely reactive branch is not covered.",
 "C126": "Exact arithmetic. Solutions are proved to correspond in all networks; that both solves return them, for the networks of C125.",
 "C127": "False for loads with a constant current, whose phasor is fixed (`C127_current_fails`), and for the reported slack power (`C127_slack_fails`). Proved for all other equipment and results.",
 "C128": "Names are right for buses, slacks and transformers, and tell equations apart when no bus carries two devices of one kind. Transformers sharing a bus share labels and generators have none (`C128_shared_fails`, `C128_other_fails`).",
 "C129": "Result, files of a returned run, readability and names are proved; runs that are given up leave the old voltage file and older iterations' files stay (`C129_given_up_fails`, `C129_left_over_fails`).",
 "C130": "Missing: for the solver, loads whose power, turned back by twice the angle of the no-load voltage, is real or imaginary (the builder may keep stale entries there, see C04), voltage limiting, and an explicit bound on the factor; generators. C135 has an explicit bound for the existence of a solution.",
 "C131": "Hours, plain runs, the load factor and the refinement to the runs of C39, C42, C71, C72 and C115 are proved. False: without --loadend nothing is done at all (C131_no_end_fails), hours that are no integers give a plain power flow (C131_refused_hour_fails), transmission networks always print an error (C131_transmission_fails), `--select_island False` selects the island (C131_select_fails) without swing bus the option is ignored (C131_select_ignored_fails), and without --load_factor every load is negated (C131_default_factor_fails). argparse is not modelled.",
 "C132": "`C132_solvable_partial`: with one solution the analysis returns it with all currents and both totals zero. `C132_others_raise`: with no or several solutions every run raises. `C132_zero`: any returned result has zero currents. `C132_located_fails`: a current load without a source, whose missing current the analysis is meant to find. Linear solver ideal; voltage limiting and debug mode off for the positive part.",
 "C133": "`C133_lines`: each phase is tested against the rating of its own conductor, and the test never raises. `C133_transformers_partial`: coils and center taps are tested against the rated power of their configuration. `C133_bank_fails`: for a bank this is the power of all coils together. What quantity is compared with the ratings is the subject of C63.",
 "C134": "`C134_solutions_partial`: solutions carry over with voltages and own values in the new units. `C134_results_partial`: so do the results. `C134_fuse_fails`: a fuse before a shunt gives half the slack voltage in one unit of admittance and a third in another. Tolerances and voltage limits of the Newton method are absolute numbers and not part of the claim.",
 "C135": "`C135_bound_partial`: existence and uniqueness under the bound, by a contraction on the voltages of the loads. `C135_responds_partial`: the numbers Z exist. `C135_sharp`: a feeder is solvable below a quarter of a watt and unsolvable above. Missing: generators and equipment that is not resistive (C125).",
 "C136": "`C136_balance` and `C136_shortage` in full for the currents the equations contain. `C136_reported_fails`: the totals reported are not this power; one watt is brought in and zero is reported.",
 "C137": "`C137_balanced` for all connections listed; `C137_solved` for the run.",
 "C138": "Proved for every network and every homotopy factor by showing for each exchange that the second side can draw the same current at every bus with laws obeyed; the run follows from C125 for resistive connected networks.",
 "C139": "Both directions at every homotopy factor; the current of the switch is what the equipment moved behind it draws. The run follows from C125 for resistive connected networks.",
 "C140": "Both directions. Lines with charging are outside: two pi-sections are not one pi-section.",
 "C141": "For every linear network at every homotopy factor; constant-current loads are fixed phasors, so they superpose. The run follows from C125.",
 "C142": "By pairing the currents of one state with the voltages of another (Tellegen), element by element, for the differences to the unloaded state. The run follows from C125.",
 "C143": "Partial: small loads only, no generators besides the swing buses, no voltage limiting, linear solver exact. The bound is not computed; it exists for every case.",
 "C144": "C144_execute and C144_islands_refused hold without restriction. C144_names_fails: buses are told apart by name, so equal names hide separate islands. C144_raw_partial: as C143, with one swing bus.",
 "C145": "C145_circuit, C145_one and C145_idle hold as stated. Partial: small loads only, no voltage limiting, linear solver exact; with device control no fuses and capacitors switched by hand. The bound is not computed; it exists for every feeder.",
 "C146": "C146_islands, C146_alone and C146_accepted hold as stated. C146_execute_partial: as C145 (small loads, linear solver exact, with device control no fuses and capacitors switched by hand); loads must have voltage at the start values of the buses.",
 "C147": "C147_live holds as stated. C147_start_partial leaves out nodes that are no sources and are the parent of another node or meter, whose nominal voltage the child overwrites (C99_child_voltage_fails). C147_nominal_fails: triplex legs and buses with capacitors do not start at the nominal voltage of the file. C147_execute_partial: as C146_execute_partial without its hypothesis about the start.",
 "C148": "C148_losses, C148_supplied and C148_circuit hold as stated. C148_execute_partial leaves out what PlainFeeder (C101) and FileSpan (C107) leave out, the charging of lines (on by default), and all but light loads.",
 "C149": "C149_supplied and C149_idle hold as stated. C149_circuit_partial has a quarter of the charging at each end (C55_charging_fails) and wires of twelve times their radius (C94_radius_fails); C149_execute_partial and C149_total_partial leave out in addition overhead lines that are not level or have a neutral, what PlainFeeder (C101) and FileSpan (C107) leave out, and all but light loads.",
 "C150": "C150_file holds as stated; C150_files says in which order objects are read. C150_includes_partial has the objects up to their order and files that include none: included objects come last (C150_order_fails) and files included by included files are left out (C150_nested_fails).",
 "C151": "C151_feeder_partial has included objects after the others, as they are read (C150_order_fails), and leaves out what C149_execute_partial leaves out; C151_case_partial leaves out what C110_rows_partial and C144_raw_partial leave out. Both are about light loads. C151_fetched: a file fetched from an address gives the results of the same file on the disk.",
 "C152": "C152_names, C152_columns, C152_unnamed and C152_negative hold as stated; C152_columns is about the last load of a column, C152_shared says the others keep the power of the file (C152_shared_fails). A load given by its impedance gets the power of the column in addition (C152_impedance_fails). Loads given by a base power are left out.",
 "C153": "Lines and phase loads of feeders hold as stated; C153_buses says which buses are printed beside those of the file. Nodes and loads hold without fuses, regulators and center taps and for names that do not end alike (C153_nodes_fails, C153_loads_fails). For RAW cases, C153_case_lines holds as stated, buses and nodes without three-winding transformers and, for nodes, with names that differ (C153_case_nodes_fails: buses left without a name count once), and loads if no generator is in service at a bus of type 2; such generators can be printed as loads.",
 "C154": "C154_network holds as stated. C154_hours_partial is for light loads of feeders as in C149, all constant powers at one factor in an hour, without balancing; the check of the ratings is that of C155. C154_default_fails: without --load_factor all loads are multiplied by -1 first, and all hours are then solved with loads producing the powers of the load file.",
 "C155": "C155_raises says for all networks when the check raises; C155_marks that otherwise only the flag is set; C155_feeder_partial that feeders without zero voltages and without parents that are no sources pass. C155_zero_fails: a node of nominal voltage zero ends the series in a division by zero.",
 "C156": "C156_runs, for all runs however they end, C156_written and C156_plain hold as stated; C156_hours_partial needs both hours given as integers (see C131). C156_stale_fails: hours beyond the end of a later run keep the files of the run before. C156_overwritten_fails: the name n_3 of a plain run is that of the hour 3 of a series n.",
 "C157": "C157_series_partial is for feeders, light loads and load files as in C154, and both hours given as integers. C157_default_fails: without --load_factor the same run shows and writes, as successful, the voltages with all loads producing.",
 "C158": "C158_rows and C158_cols hold for every history. C158_symbolic_partial needs at least one stamp that counts and no more of them earlier in the history. C158_symbolic_fails: after a clear the symbolic matrix still shows the old stamps. C158_empty_fails: without stamps it raises.",
 "C159": "C159_untouched holds as stated for transmission networks and runs without control. With control, C159_again_partial and C159_once_partial need start values that prompt none of the devices the first run left, and C159_prompted_partial start values that prompt every capacitor and no fuse. Mixed cases are missing: there some capacitors are set back before the second run and others are not.",
 "C160": "C160_nothing_partial holds without equations and objective. C160_equations_fails: with any of them the constructor raises, because the check of the symbols is called as a method and is none."
}
