{"id": "C01", "title": "Stamps are the exact Newton linearisation of the device equations", "statement": "For a device equation F, the matrix coefficients and right-hand side the stamping layer derives from it satisfy, at every operating point v: (a) sum over variables x of Y_x(v)*v_x minus J(v) equals F(v); (b) Y_x(v) is the partial derivative of F with respect to x at v. The linear-term shortcut and the full linearisation shortcut must therefore agree with plain differentiation.", "quantifier": "every device expression in the supported term language, every variable list, every operating point (real vector) where F is defined", "why_tests_cant": "A test checks a handful of expressions at a handful of points; the claim is an identity over all expressions and all reals.", "anchors": ["src/logic/stamping/lagrangesegment.py: is_constant, is_linear, get_linear_term, linearize_expr, split_expr, DerivativeEntry"]}
{"id": "C02", "title": "A Newton fixed point solves the network equations", "statement": "If solving the assembled linear system built from an operating point v returns v itself, then every assembled network equation (sum of all device contributions on each row) is exactly zero at v; conversely, at a point where all equations vanish, v solves the assembled linear system.", "quantifier": "every collection of device segments with any row/column placement, every operating point", "why_tests_cant": "Needs to hold for all networks and all solutions, not for sample cases.", "anchors": ["src/logic/stamping/matrixstamper.py: MatrixStamper.stamp_linear, stamp_nonlinear, calc_residuals", "src/logic/nrsolver.py: NRSolver.run_powerflow"]}
{"id": "C03", "title": "A reported success means the returned voltages satisfy the tolerance", "statement": "If NRSolver.run_powerflow returns success with voltages v, then the maximum absolute residual evaluated at v is below settings.tolerance.", "quantifier": "every stamper, linear solver behaviour, initial vector, tolerance and iteration limit", "why_tests_cant": "Tests compare against reference voltages of a few cases; the guarantee is about all histories of iterations and what point the residual was measured at.", "anchors": ["src/logic/nrsolver.py: NRSolver.run_powerflow", "src/logic/stamping/matrixstamper.py: InputBuilder.update_vprev, MatrixStamper.calc_residuals"]}
{"id": "C04", "title": "The matrix handed to the linear solver holds exactly the current iteration's stamps", "statement": "At every Newton iteration the sparse matrix equals the sum of the linear stamps and this iteration's nonlinear stamps; nothing from an earlier iteration remains in it.", "quantifier": "every sequence of stamp values over every number of iterations, including values that become zero", "why_tests_cant": "The buffer is reused across iterations and skips zero values; only particular histories of zero/non-zero values expose stale entries.", "anchors": ["src/logic/stamping/matrixbuilder.py: MatrixBuilder.stamp, clear, to_matrix, get_usage", "src/logic/nrsolver.py: NRSolver.run_powerflow"]}
{"id": "C05", "title": "Linear stamps survive every iteration unchanged", "statement": "Entries stamped before the first Newton iteration are present with the same row, column and value in the matrix of every later iteration.", "quantifier": "every sequence of linear stamps followed by any number of clear/stamp iterations", "why_tests_cant": "Holds over all histories of the buffer.", "anchors": ["src/logic/stamping/matrixbuilder.py: MatrixBuilder.stamp, clear", "src/logic/nrsolver.py: NRSolver.run_powerflow"]}
{"id": "C06", "title": "Debug mode never hands garbage to the solver", "statement": "With settings.debug, to_matrix either raises or returns exactly the entries stamped since the last clear plus the retained prefix.", "quantifier": "every history of stamp/clear calls", "why_tests_cant": "All histories.", "anchors": ["src/logic/stamping/matrixbuilder.py: MatrixBuilder.to_matrix"]}
{"id": "C07", "title": "Unknowns get unique, gap-free matrix indices", "statement": "After NetworkModel.assign_matrix every index handed to an element is handed out once only, the indices are exactly 0..size_Y-1, and size_Y is their count.", "quantifier": "every network: any list of elements of every kind, in both plain and optimization mode", "why_tests_cant": "Must hold for all element mixes and orders.", "anchors": ["src/logic/network/networkmodel.py: NetworkModel.assign_matrix", "src/models/components/*.py: assign_nodes", "src/logic/stamping/lagrangestampdetails.py: build_two_terminal_stamp_details"]}
{"id": "C08", "title": "Every equation lands on its own row: system is square", "statement": "In plain mode each segment's constraint equations are placed on rows so that the set of non-ground rows of a segment equals the set of its non-ground variable columns; no residual or stamp is ever placed on a ground row or column.", "quantifier": "every segment, every index assignment, ground on any terminal", "why_tests_cant": "All devices times all index assignments.", "anchors": ["src/logic/stamping/lagrangestampdetails.py: LagrangeStampDetails.get_eqn_row_index_str", "src/logic/stamping/matrixstamper.py: __build_stamps, __build_residuals", "src/logic/stamping/lagrangesegment.py: LagrangeSegment.get_duals_corresponding_primal"]}
{"id": "C09", "title": "Two-terminal devices conserve current", "statement": "For a two-terminal device between two buses, the current it contributes to the from-bus balance and the current it contributes to the to-bus balance sum to zero; for ground-referenced devices the from-bus contribution is the whole device current.", "quantifier": "every device equation, every operating point, both phases (real and imaginary)", "why_tests_cant": "For all voltages and all devices.", "anchors": ["src/logic/stamping/lagrangesegment.py: TwoTerminalModelDefinition"]}
{"id": "C10", "title": "A constant-power load draws exactly P + jQ", "statement": "At every non-zero terminal voltage V the current contributed by a constant-power load satisfies V*conj(I) = P + jQ; with P = Q = 0 nothing is stamped and the power is zero.", "quantifier": "all P, Q and all non-zero complex terminal voltages", "why_tests_cant": "Continuum of operating points.", "anchors": ["src/models/components/load.py: kcl_r, kcl_i, Load.assign_nodes, Load.get_stamps"]}
{"id": "C11", "title": "A load's impedance and current parts draw the specified power", "statement": "The impedance part of a load with impedance Z carries current V/Z; the constant-current part carries IP + jIQ; the load's total current is the sum of its three parts and parts that are zero contribute nothing.", "quantifier": "all Z, IP, IQ, P, Q, all voltages", "why_tests_cant": "Continuum of parameters.", "anchors": ["src/models/components/load.py: Load.__init__, lh_Ic, Load.assign_nodes, Load.get_stamps"]}
{"id": "C12", "title": "A PV generator injects its scheduled P and holds |V| at the set point", "statement": "At every solution of the generator's equations |V| = |Vset| and the real power delivered to the bus is exactly the scheduled P; reactive power delivered is minus the solved Q unknown.", "quantifier": "all P, Vset != 0, all solutions", "why_tests_cant": "All solutions of a nonlinear system.", "anchors": ["src/models/components/generator.py: kcl_r, kcl_i, F_Q, Generator.__init__"]}
{"id": "C13", "title": "Slack, voltage source and closed switch pin voltages; open switch and open capacitor contribute nothing", "statement": "Any solution has slack bus voltage equal to Vset at the given angle, a voltage source's terminal difference equal to its set value, and equal voltages on both sides of a closed switch or current sensor; an open switch creates no unknowns, no equations and no graph connection, and an open capacitor creates no equations.", "quantifier": "all solutions, all set points", "why_tests_cant": "All solutions.", "anchors": ["src/models/components/slack.py", "src/models/components/voltagesource.py", "src/models/components/switch.py", "src/models/components/capacitor.py: get_stamps"]}
{"id": "C14", "title": "The ideal transformer is lossless and enforces ratio and phase shift", "statement": "At every solution of the transformer equations V_primary = t*e^{j*theta}*V_secondary with the (homotopy-scaled) ratio t and angle theta, and the complex power entering the primary equals the complex power leaving the internal secondary.", "quantifier": "all ratios, angles, homotopy factors and all solutions", "why_tests_cant": "Identity over reals with trigonometric coefficients.", "anchors": ["src/models/components/transformer.py: eqns"]}
{"id": "C15", "title": "The center-tap transformer is lossless with opposite secondaries", "statement": "At every solution with non-zero (scaled) ratio, V_L1 = V_pri/tr, V_L2 = -V_pri/tr, and the total complex power entering through the primary and both secondaries is zero.", "quantifier": "all ratios != 0, all solutions", "why_tests_cant": "Identity over reals.", "anchors": ["src/models/components/center_tap_transformer.py: eqns"]}
{"id": "C16", "title": "Series/shunt branch model is the pi-equivalent with passive losses", "statement": "A positive-sequence line with r, x (not both zero) and charging b carries series current (V_from-V_to)/(r+jx), injects jb/2*V at each end, and for r >= 0 dissipates non-negative real power at every operating point.", "quantifier": "all r, x, b, all voltages", "why_tests_cant": "Continuum.", "anchors": ["src/models/components/line.py: Line.__init__, line_lh, shunt_lh"]}
{"id": "C17", "title": "Homotopy deforms the network and ends at the original one", "statement": "At homotopy factor 0 every device equation is the unscaled physical one; at factor 1 shunt admittances vanish, transformer ratios are 1 and phase shifts 0, and series admittances are 21 times larger; equations are continuous in the factor.", "quantifier": "all device parameters, all homotopy factors", "why_tests_cant": "Continuum.", "anchors": ["src/models/components/line.py: G, B", "src/models/components/transformer.py: scaled_tr, scaled_angle", "src/models/components/center_tap_transformer.py: tr"]}
{"id": "C18", "title": "Unbalanced line currents equal the admittance matrix applied to the voltage drops", "statement": "The current each phase of an unbalanced line contributes at its from end equals row i of Y*(V_from - V_to) plus its share of shunt current, and the negative series part at its to end; an accepted line has Z*Y = I.", "quantifier": "all admittance matrices, all voltages, any number of phases", "why_tests_cant": "Continuum of matrices.", "anchors": ["src/models/components/unbalanced_line.py: UnbalancedLine.assign_nodes, get_stamps, calcInverse"]}
{"id": "C19", "title": "In optimization mode the stamped system is the gradient of one Lagrangian", "statement": "In optimization mode, when line matrices are symmetric, every assembled row is the partial derivative of one function of all unknowns - multipliers times the equations of the same network without optimization, plus the cost of the infeasibility currents - so the solutions are exactly its critical points and the coefficient matrix is symmetric after any history of updates. With an unsymmetric coupled-line matrix this does not hold.", "quantifier": "all networks with symmetric line matrices, all values of the unknowns, homotopy factors and update histories; L1 and L2", "why_tests_cant": "All matrices.", "anchors": ["src/models/components/unbalanced_line.py: assign_nodes (eqn_map/var_map)", "src/logic/stamping/lagrangestampdetails.py: get_eqn_row_index_str"]}
{"id": "C20", "title": "L2 infeasibility: stationarity and zero slack on feasible networks", "statement": "At every solution the infeasibility current at a bus is minus one half of that bus's multiplier and equals what the plain balance is short of; currents are all zero iff all bus multipliers are zero iff the plain power-flow equations hold; every plain solution completed by zeros solves the optimization system; on linear networks the currents found are the least-squares smallest of any operating point.", "quantifier": "all solutions of the optimization-mode system", "why_tests_cant": "All solutions.", "anchors": ["src/models/optimization/L2infeasibility.py: lagrange, L2InfeasibilityCurrent"]}
{"id": "C21", "title": "Newton loop bookkeeping", "statement": "run_powerflow performs at most max_iters linear solves; the reported iteration number is the number of solves minus one; it reports failure only after max_iters solves or at a solve count divisible by 50 with rising residual trend; NaN from the linear solver always raises.", "quantifier": "every solver behaviour, max_iters >= 1", "why_tests_cant": "All iteration histories.", "anchors": ["src/logic/nrsolver.py: NRSolver.run_powerflow"]}
{"id": "C22", "title": "A converged iterate is never reported as failure", "statement": "If at some iteration the measured maximum residual is below tolerance, run_powerflow returns success at that iteration.", "quantifier": "every residual history", "why_tests_cant": "The progress check runs only every 50 iterations, before the tolerance check; ordinary tests converge in a few iterations.", "anchors": ["src/logic/nrsolver.py: NRSolver.run_powerflow lines 66-79"]}
{"id": "C23", "title": "Homotopy success means the undeformed network was solved", "statement": "If HomotopyController.run_powerflow reports success, the last Newton run that produced the returned voltages was for homotopy factor 0; if it fails during stepping the reported factor is the one that failed; factors are visited from 1 down to 0 in steps of 0.01, each started from the previous solution.", "quantifier": "every behaviour of the Newton solver", "why_tests_cant": "All success/failure patterns over 101 steps.", "anchors": ["src/logic/homotopycontroller.py: HomotopyController.run_powerflow"]}
{"id": "C24", "title": "Reported homotopy percentage is in [0,1] and 0 on success", "statement": "The tx_percent returned with a successful solve is 0.", "quantifier": "every behaviour of the Newton solver", "why_tests_cant": "All histories.", "anchors": ["src/logic/homotopycontroller.py: HomotopyController.run_powerflow line 44", "src/logic/powerflowresults.py: PowerFlowResults"]}
{"id": "C25", "title": "Each Newton run linearises at the vector it was given", "statement": "The first linearisation of every Newton run, including the runs of a homotopy sequence that share one stamper, is taken at the initial vector handed to that run.", "quantifier": "every sequence of Newton runs on one stamper", "why_tests_cant": "Depends on the iteration number at which the previous run stopped.", "anchors": ["src/logic/stamping/matrixstamper.py: InputBuilder.update_vprev", "src/logic/homotopycontroller.py"]}
{"id": "C26", "title": "Device control returns only settled solutions, within ten solves", "statement": "DeviceController.run_powerflow calls the solver at most 10 times; with device control on, a returned success is for a state in which re-evaluating all devices at the returned voltages changes nothing; if ten successful solves all needed adjustment it raises; a failed solve is returned immediately.", "quantifier": "every solver and device behaviour", "why_tests_cant": "All adjustment histories.", "anchors": ["src/logic/devicecontroller.py: DeviceController.run_powerflow, try_adjust_devices"]}
{"id": "C27", "title": "A fuse blows at most once and never resets", "statement": "Once a fuse is blown it stays blown under every later control evaluation; it blows exactly when the measured current magnitude exceeds the limit; therefore fuses cause at most (number of fuses) adjustments in any run.", "quantifier": "every sequence of voltage vectors", "why_tests_cant": "All histories.", "anchors": ["src/models/components/fuse.py: Fuse.try_adjust_device"]}
{"id": "C28", "title": "A blown fuse removes the branch from the solve", "statement": "After a fuse blows, the network can still be solved with that branch open.", "quantifier": "every network containing a fuse", "why_tests_cant": "Requires a fault history.", "anchors": ["src/models/components/fuse.py: Fuse.get_stamps", "src/logic/devicecontroller.py"]}
{"id": "C29", "title": "Regulator tap stays in range and ratio matches tap", "statement": "After construction and any sequence of tap increments the tap position lies in [-lower_taps, raise_taps], the transformer ratio equals the type A/B formula at that tap, and the operation reports a change iff the tap changed.", "quantifier": "any initial tap, any increment sequence, lower_taps, raise_taps >= 0", "why_tests_cant": "All histories.", "anchors": ["src/models/components/regulator.py: Regulator.try_increment_tap_position"]}
{"id": "C30", "title": "Voltage-controlled capacitor switching regulates voltage", "statement": "In VOLT mode a capacitor bank is switched in when the voltage is below the low set point and out when above the high set point; manual banks never change; re-evaluating at the same voltage makes no further change.", "quantifier": "all voltages, set points, switch states", "why_tests_cant": "All histories/voltages.", "anchors": ["src/models/components/capacitor.py: Capacitor.try_adjust_device"]}
{"id": "C31", "title": "A closed capacitor supplies its rated vars at nominal voltage", "statement": "At |V| = nominal voltage a closed bank supplies exactly var reactive power and no real power; in general it scales with |V|^2.", "quantifier": "all var, nominal voltage != 0, all voltages", "why_tests_cant": "Continuum.", "anchors": ["src/models/components/capacitor.py: Capacitor.__init__, get_stamps"]}
{"id": "C32", "title": "Voltage limiting clips bus voltages only", "statement": "After limiting, each bus component moved at most 1 from the previous iterate or lies on the +-2 bound, lies in [-2,2], non-bus unknowns are unchanged, and an update already inside the limits is not altered.", "quantifier": "all vectors, all bus index sets", "why_tests_cant": "Continuum.", "anchors": ["src/logic/v_limiting.py: PositiveSeqVoltageLimiting"]}
{"id": "C33", "title": "Residual report is the true max-norm of the summed contributions", "statement": "max_residual bounds every row's absolute summed contribution, is attained at max_residual_idx (the first such row), and does not depend on the order of contributions.", "quantifier": "all contribution lists", "why_tests_cant": "All lists and orders.", "anchors": ["src/logic/residualdetails.py: ResidualDetails"]}
{"id": "C34", "title": "Reported slack power is the physical complex power", "statement": "The (P, Q) reported for a slack bus equals V*conj(I) of the solved slack voltage and current.", "quantifier": "all solved values", "why_tests_cant": "Continuum.", "anchors": ["src/logic/powerflowresults.py: PowerFlowResults.__init__ lines 150-157"]}
{"id": "C35", "title": "Reported infeasibility totals equal the infeasibility power", "statement": "infeasibility_totals is the sum over buses of V*conj(I_inf), and it is zero only if every infeasibility current is zero.", "quantifier": "all solved values", "why_tests_cant": "Continuum.", "anchors": ["src/logic/powerflowresults.py: try_load_infeasibility_data"]}
{"id": "C36", "title": "Reported bus voltage is the polar form of the solution", "statement": "V_mag and V_deg satisfy V_mag*exp(j*V_deg*pi/180) = V_r + jV_i, V_mag >= 0, -180 < V_deg <= 180, one result per non-virtual bus in bus order.", "quantifier": "all solved values, all bus lists", "why_tests_cant": "Continuum.", "anchors": ["src/logic/powerflowresults.py: BusResult, PowerFlowResults.__init__"]}
{"id": "C37", "title": "Reported generator power has the sign of generation", "statement": "The P reported for a PV generator equals its scheduled (positive for generation) output.", "quantifier": "all generators", "why_tests_cant": "All parameter values.", "anchors": ["src/logic/powerflowresults.py: PowerFlowResults.__init__ lines 138-142", "src/models/components/generator.py: Generator.__init__"]}
{"id": "C38", "title": "Reported transformer power is the physical complex power", "statement": "TransformerResult and CenterTapTransformerResult report the complex power V*conj(I) of their winding.", "quantifier": "all solved values", "why_tests_cant": "Continuum.", "anchors": ["src/logic/powerflowresults.py: TransformerResult, CenterTapTransformerResult"]}
{"id": "C39", "title": "Command line default leaves loads unchanged", "statement": "Running the solver without --load_factor solves the loads given in the case file.", "quantifier": "every case", "why_tests_cant": "The default path multiplies every load; tests call the library and not main().", "anchors": ["src/run_solver.py: main", "src/logic/network/loadfactor.py: modify_load_factor"]}
{"id": "C40", "title": "Load factor scales and composes", "statement": "modify_load_factor(a,b) multiplies every load's P by a and Q by b, touches nothing else, composes multiplicatively and is undone by the reciprocal factors.", "quantifier": "all load lists and factors", "why_tests_cant": "All values.", "anchors": ["src/logic/network/loadfactor.py: modify_load_factor"]}
{"id": "C41", "title": "Hourly load values keep the power factor", "statement": "Setting an hour's load magnitude m >= 0 gives apparent power m with the load's original power-factor angle, whatever hours were applied before.", "quantifier": "all loads, all sequences of magnitudes", "why_tests_cant": "Depends on the history of magnitudes (a zero hour).", "anchors": ["src/logic/network/timeseriesprocessor.py: set_load_values"]}
{"id": "C42", "title": "Quasi time series covers exactly the requested hours", "statement": "execute_quasi_time_series returns one result per hour in range(start, end), each computed with that hour's load values, in order.", "quantifier": "all start, end, load data", "why_tests_cant": "All ranges.", "anchors": ["src/logic/network/timeseriesprocessor.py: execute_quasi_time_series", "src/logic/network/timeseriessettings.py"]}
{"id": "C43", "title": "Swing-bus balancing stops only when balanced", "statement": "When a balanced run returns, the artificial swing bus exchanges less than the threshold apparent power in the last snapshot (when balancing is configured); each round adds exactly the swing bus output to the negative loads.", "quantifier": "every behaviour of the power-flow solver", "why_tests_cant": "All histories.", "anchors": ["src/logic/network/timeseriesprocessor.py: execute_powerflow, adjust_generator_output"]}
{"id": "C44", "title": "Island selection keeps the selected island intact", "statement": "After select_island the network holds exactly the elements of the chosen island; loads and capacitors of that island are kept.", "quantifier": "every network", "why_tests_cant": "All networks.", "anchors": ["src/logic/network/timeseriesprocessor.py: select_island"]}
{"id": "C45", "title": "A solved network is one connected island", "statement": "PowerFlow.execute goes on to solve only if the graph of named nodes has exactly one connected component, i.e. any two nodes are joined by a path of connected elements.", "quantifier": "every network", "why_tests_cant": "All graphs.", "anchors": ["src/logic/powerflow.py: PowerFlow.execute", "src/logic/graphanalyzer.py: GraphAnalyzer.__init__, get_island_count"]}
{"id": "C46", "title": "Voltage-island validation bounds nominal voltage spread", "statement": "If validation passes, any two nodes joined by non-transformer edges have first-bus nominal voltages within 20 of each other.", "quantifier": "every network", "why_tests_cant": "All graphs; depends on which node is visited first.", "anchors": ["src/logic/graphanalyzer.py: validate_voltage_islands, get_nominal_voltage_islands"]}
{"id": "C47", "title": "Merging generators on one bus adds their output", "statement": "Two in-service PV generators on one bus in a RAW file load as one generator injecting the sum of their P.", "quantifier": "every RAW case", "why_tests_cant": "All files.", "anchors": ["src/logic/network/parsers/raw/parser.py: parse_raw lines 188-223", "src/models/components/generator.py: Generator.__init__"]}
{"id": "C48", "title": "Out-of-service equipment is not loaded from RAW files", "statement": "No load, shunt, branch, generator or transformer with status off, nor one attached to an offline bus, appears in the loaded network; every in-service load and fixed shunt with non-zero admittance at an online bus appears exactly once.", "quantifier": "every RAW case", "why_tests_cant": "All files.", "anchors": ["src/logic/network/parsers/raw/parser.py: parse_raw"]}
{"id": "C49", "title": "RAW load quantities are converted to per unit consistently", "statement": "All power quantities of a load record (constant power, constant current and constant admittance parts) are represented in per unit of the same base in the loaded network.", "quantifier": "every load record", "why_tests_cant": "All values.", "anchors": ["src/logic/network/parsers/raw/data_classes.py: Load_data.integrate"]}
{"id": "C50", "title": "Switched-shunt limits are the sum of its capacitive and reactive blocks", "statement": "compute_bmin_bmax returns the sum of all negative and the sum of all positive block susceptances.", "quantifier": "all block lists", "why_tests_cant": "All lists.", "anchors": ["src/logic/network/parsers/raw/parser.py: compute_bmin_bmax"]}
{"id": "C51", "title": "Three-winding delta-star conversion reproduces pairwise impedances", "statement": "The star branch impedances computed for a three-winding transformer satisfy Z1+Z2=Z12, Z2+Z3=Z23, Z3+Z1=Z31.", "quantifier": "all impedances", "why_tests_cant": "Continuum.", "anchors": ["src/logic/network/parsers/raw/parse_transformers.py"]}
{"id": "C52", "title": "Phase string parsing", "statement": "parse_phases returns exactly the phase letters in order without N, S, D, G; flags neutral iff N present, triplex iff S present, delta iff neither; rejects empty phases and multi-phase triplex.", "quantifier": "all strings", "why_tests_cant": "All strings.", "anchors": ["src/ditto/readers/gridlabd/helpers.py: parse_phases"]}
{"id": "C53", "title": "Kron reduction is exact neutral elimination", "statement": "For invertible Znn, the reduced impedance applied to any phase currents equals the full impedance applied with the neutral current that makes the neutral voltage zero; and symmetric input gives symmetric output.", "quantifier": "all matrices of every size with invertible neutral block", "why_tests_cant": "All matrices.", "anchors": ["src/ditto/readers/gridlabd/line_impedance.py: kron_reduction"]}
{"id": "C54", "title": "Line impedance uses the spacing of its own conductors", "statement": "The mutual impedance between two conductors of an overhead line is computed from the spacing given for that pair of phases.", "quantifier": "all spacing tables and conductor sets", "why_tests_cant": "All configurations.", "anchors": ["src/ditto/readers/gridlabd/line_impedance.py: compute_overhead_impedance, compute_overhead_spacing", "src/ditto/readers/gridlabd/read.py lines 935-943"]}
{"id": "C55", "title": "Line charging is applied once in total", "statement": "The total shunt susceptance connected at the two ends of an overhead or underground line equals the line's computed charging susceptance.", "quantifier": "all lines", "why_tests_cant": "Continuum.", "anchors": ["src/ditto/readers/gridlabd/line_impedance.py: compute_overhead_capacitance, compute_underground_capacitance", "src/models/components/unbalanced_line.py: get_stamps"]}
{"id": "C56", "title": "Multi-phase switches and fuses connect every listed phase", "statement": "A switch or fuse object listed on several phases yields one wire per listed phase.", "quantifier": "every switch/fuse object, with or without status attributes", "why_tests_cant": "Depends on which optional attributes are present.", "anchors": ["src/ditto/readers/gridlabd/read.py lines 682-823"]}
{"id": "C57", "title": "Initial vector assigns every multiplier", "statement": "In optimization mode the initial vector sets both multipliers of every bus to the documented small start value and every bus voltage to its initial (or flat) value.", "quantifier": "every network", "why_tests_cant": "All networks.", "anchors": ["src/logic/network/networkmodel.py: TxNetworkModel.generate_v_init", "src/models/components/bus.py: get_Lr_init, get_Li_init"]}
{"id": "C58", "title": "Input sharing does not mix devices", "statement": "Devices that share one evaluation column have identical constants and indices, and each stamp receives the value of its own device's expression at its own arguments.", "quantifier": "every list of stamps", "why_tests_cant": "All lists.", "anchors": ["src/logic/stamping/matrixstamper.py: InputBuilder.add_input, freeze_inputs, StampSet.stamp"]}
{"id": "C59", "title": "Terminals on ground read as zero voltage", "statement": "A terminal tied to ground has no unknown and is evaluated as zero volts in every stamp and residual.", "quantifier": "all devices, all vectors", "why_tests_cant": "All vectors.", "anchors": ["src/logic/stamping/matrixstamper.py: InputBuilder.freeze_inputs, update_vprev"]}
{"id": "C60", "title": "Phase pairing of three-phase transformer windings", "statement": "For wye windings each phase pairs with neutral; for delta windings the n phases form a single cycle: each phase is positive terminal of exactly one coil and negative terminal of exactly one coil.", "quantifier": "all phase lists", "why_tests_cant": "All lists.", "anchors": ["src/logic/network/parsers/threephase/transformerparser.py: get_phase_list"]}
{"id": "C61", "title": "Stamped-once classification is sound", "statement": "An expression stamped only once per run (flagged linear) has a value that does not depend on the operating point; so skipping it in later iterations is correct.", "quantifier": "every expression, every pair of operating points", "why_tests_cant": "All expressions.", "anchors": ["src/logic/stamping/lagrangesegment.py: DerivativeEntry"]}
{"id": "C62", "title": "Output files distinguish failure", "statement": "The result files of a failed solve contain only FAILURE and no numeric rows; a successful solve writes one row per non-virtual bus and the rating-violation trailer iff violations were found.", "quantifier": "every result", "why_tests_cant": "All results.", "anchors": ["src/logic/powerflowresults.py: PowerFlowResults.output"]}
{"id": "C63", "title": "Rating violations are reported iff one exists", "statement": "violates_equipment_ratings is true iff some line current magnitude exceeds its ampacity, some transformer power its rating, or some bus magnitude deviates by at least five percent of nominal.", "quantifier": "all results", "why_tests_cant": "All results.", "anchors": ["src/logic/network/timeseriesprocessor.py: violates_equipment_ratings"]}
{"id": "C64", "title": "Line length units", "statement": "A line length is interpreted in the unit written in the file (km or feet) whether or not a space separates number and unit.", "quantifier": "all length strings", "why_tests_cant": "All strings.", "anchors": ["src/ditto/readers/gridlabd/read.py: parse_line_length, read_gld_objects_and_schedules"]}
{"id": "C65", "title": "Two-terminal constructor rejects undeclared symbols", "statement": "Constructing a two-terminal model whose equations mention a symbol that is neither a declared variable nor a declared constant raises; so no accepted model has an equation with an undeclared symbol.", "quantifier": "every argument list", "why_tests_cant": "All expressions; tests only try a few.", "anchors": ["src/logic/stamping/lagrangesegment.py: TwoTerminalModelDefinition.__init__, check_missing_symbols"]}
{"id": "C66", "title": "A low-impedance transformer winding conducts", "statement": "The loss branch of a center-tap winding with impedance r + jx carries the current V/(r + jx); in particular as the impedance goes to zero the winding behaves as a short, never as an open circuit.", "quantifier": "all r, x including zero", "why_tests_cant": "All impedances; the zero case is a branch in the code.", "anchors": ["src/models/components/center_tap_transformer.py: get_stamps"]}
{"id": "C67", "title": "The assembled system is Kirchhoff's laws", "statement": "For any network built from the component classes (no infeasibility analysis), a vector makes every assembled equation vanish exactly when the bus voltages, device currents and generator reactive powers it stores satisfy Kirchhoff's current law at every bus and the defining law of every device (voltage source, slack, generator set point, transformer ratio, ...), in complex arithmetic. Hence the fixed points of a Newton iteration are exactly the physical solutions.", "quantifier": "every network of the modelled component types, every vector, every homotopy factor", "why_tests_cant": "Unbounded networks and all real vectors; tests compare a few solved cases.", "anchors": ["src/logic/network/networkmodel.py: assign_matrix", "src/logic/stamping/matrixstamper.py: MatrixStamper", "src/models/components/*.py: get_stamps"]}
{"id": "C68", "title": "The reported residuals are those of the returned voltages", "statement": "The residual report returned by HomotopyController.run_powerflow beside the voltages (and shown in the results) contains the network equations, at homotopy factor 0, evaluated at the returned voltages.", "quantifier": "every network, start vector, tolerance and solver behaviour", "why_tests_cant": "On converged cases both vectors give tiny residuals; only a case whose last Newton step is large tells them apart, and such cases are not enumerable.", "anchors": ["src/logic/homotopycontroller.py:24", "src/logic/homotopycontroller.py:44", "src/logic/stamping/matrixstamper.py:451-468"]}
{"id": "C69", "title": "A network without nonlinear devices is solved exactly in at most two Newton iterations", "statement": "If no generator is present and every constant power load draws nothing (lines, transformers, centre taps, regulators, fuses, switches, sources, slacks, shunts, capacitors and impedance/current loads are all allowed), then from every start vector, with a fresh or a reused stamper, NRSolver.run_powerflow that returns reports success after at most two iterations and the returned voltages satisfy Kirchhoff's laws of the network exactly; the homotopy controller makes one run and reports factor 0. If the network has exactly one solution, the run does return.", "quantifier": "every network of linear devices, start vector, homotopy factor that leaves the scaled ratios non-zero, tolerance > 0, max_iters >= 2, exact linear solver, no voltage limiting", "why_tests_cant": "All networks and all start vectors.", "anchors": ["src/logic/nrsolver.py:21-89", "src/logic/stamping/matrixstamper.py", "src/logic/homotopycontroller.py:7-44"]}
{"id": "C70", "title": "L1 infeasibility minimises the sum of absolute currents with nonnegative parts", "statement": "At every solution of the L1 option the positive and negative parts of each infeasibility current are nonnegative, and the option solves the L1 rather than the L2 problem.", "quantifier": "all networks with at least one bus, all solutions of the L1 system", "why_tests_cant": "All networks and all solutions.", "anchors": ["src/models/optimization/L1infeasibility.py:21-70", "src/logic/powerflowresults.py:163-191"]}
{"id": "C71", "title": "A run with --outputfile that shows results writes them", "statement": "If --outputfile is given and a run of the command line shows results, the results and residuals files for exactly those results are written.", "quantifier": "every case, every combination of the time-series options, every behaviour of the power-flow solver", "why_tests_cant": "The files depend on the option path taken; tests call the library and not main().", "anchors": ["src/run_solver.py:66-97", "src/logic/network/timeseriesprocessor.py:209-244"]}
{"id": "C72", "title": "A failed time-series run is reported as failed", "statement": "If a time-series or swing-bus run raises, the command line shows the failure; it does not replace the run by a plain power flow of the loads left behind.", "quantifier": "every behaviour of the power-flow solver, every load file", "why_tests_cant": "Depends on where in the series the failure happens.", "anchors": ["src/run_solver.py:66-97", "src/logic/network/timeseriesprocessor.py:209-244"]}
{"id": "C73", "title": "Every bus of an accepted network is connected", "statement": "If PowerFlow.execute goes on to solve, every bus (every phase of every node) is connected to something, so its voltage is determined by the equations.", "quantifier": "every network", "why_tests_cant": "All networks; the check is made on node names, not on phases.", "anchors": ["src/logic/graphanalyzer.py:24-49", "src/logic/powerflow.py:21-26"]}
{"id": "C74", "title": "Acceptance of a network does not vary between runs", "statement": "Whether PowerFlow.execute accepts a network is a function of the network alone.", "quantifier": "every network, every iteration order of the node sets (python randomises string hashing per process)", "why_tests_cant": "A test sees one iteration order.", "anchors": ["src/logic/graphanalyzer.py:66-84", "src/logic/powerflow.py:21-26"]}
{"id": "C75", "title": "Every per-unit quantity of a RAW case uses the file's system base", "statement": "Loads, fixed shunts, machine outputs and impedances of a loaded RAW case are in per unit of the system base given in the file's first record.", "quantifier": "every RAW case, every system base", "why_tests_cant": "Test files use a base of 100 MVA; a continuum of bases exists.", "anchors": ["src/logic/network/parsers/raw/data_classes.py: integrate methods", "src/logic/network/parsers/raw/parse_transformers.py"]}
{"id": "C76", "title": "Wind machines get reactive limits from their power factor", "statement": "A machine with wind control mode 2 may range over plus and minus the reactive power of its power factor; one with mode 3 produces exactly that reactive power, signed by the power factor.", "quantifier": "every generator record", "why_tests_cant": "All values of output and power factor.", "anchors": ["src/logic/network/parsers/raw/data_classes.py: Generator_data"]}
{"id": "C77", "title": "A two-winding transformer of a RAW case is the circuit its record describes", "statement": "Whatever winding-voltage code and impedance code a record uses, the loaded transformer has the off-nominal ratio, phase shift and series impedance the record describes.", "quantifier": "every two-winding record, every pair of terminal voltages", "why_tests_cant": "All codes and a continuum of values.", "anchors": ["src/logic/network/parsers/raw/parse_transformers.py", "src/models/components/transformer.py"]}
{"id": "C78", "title": "Sound RAW cases load", "statement": "parse_raw raises no exception on a case whose records refer to existing buses and have non-zero impedances.", "quantifier": "every RAW case", "why_tests_cant": "All files.", "anchors": ["src/logic/network/parsers/raw/parser.py: parse_raw", "src/logic/network/parsers/raw/data_classes.py"]}
{"id": "C79", "title": "Solving a loaded RAW case solves the power flow of its records", "statement": "The equations assembled for a loaded RAW case have a solution with given bus voltages exactly when these voltages satisfy the power flow equations stated by the records: active balance away from swing buses, reactive balance where nothing holds the voltage, machine and swing set points.", "quantifier": "every RAW case, every assignment of non-zero bus voltages", "why_tests_cant": "A test compares a few solved cases; it cannot show that no solution is lost or invented.", "anchors": ["src/logic/network/parsers/raw/parser.py: parse_raw", "src/logic/network/networkloader.py:61-82", "src/logic/stamping/matrixbuilder.py", "src/models/components"]}
{"id": "C80", "title": "Loaded generators carry the reactive limits of their records", "statement": "Every machine of a RAW case that holds a bus voltage is loaded with its recorded active power, set point and reactive limits in per unit; every continuous switched shunt with the sums of its capacitor and reactor blocks at the upper end of its voltage range.", "quantifier": "every RAW case that loads, every such record", "why_tests_cant": "All records; tests look at solved voltages, which do not depend on the limits.", "anchors": ["src/logic/network/parsers/raw/parser.py lines 151-319", "src/logic/network/parsers/raw/data_classes.py: Generator_data.integrate", "src/models/components/generator.py: Generator.__init__"]}
{"id": "C81", "title": "A GridLAB-D file reads back as the objects written in it", "statement": "A file that writes objects down, one attribute per row, with any indentation, blank rows, comments on attribute rows and quotes around values, reads as exactly these objects with exactly these attributes, in the order of the file and under the name each gives itself; a link without a name is filed under the names of its two ends.", "quantifier": "every list of objects whose attributes belong to their class, every such layout of rows", "why_tests_cant": "All files and layouts.", "anchors": ["src/ditto/readers/gridlabd/read.py: read_gld_objects_and_schedules", "src/ditto/formats/gridlabd/base.py"]}
{"id": "C82", "title": "Comments do not change what a file means", "statement": "Putting a `//` comment behind a row of a GridLAB-D file, or a row with only a comment between two rows, does not change the objects read.", "quantifier": "every file, every row, every comment", "why_tests_cant": "All files, all places of a comment.", "anchors": ["src/ditto/readers/gridlabd/read.py: read_gld_objects_and_schedules lines 97-107, 141-146"]}
{"id": "C83", "title": "A nested object does not disturb the object around it", "statement": "An object written inside another is either read as an object of its own or left out; the attributes of the enclosing object are those of its own rows.", "quantifier": "every file with an object inside another", "why_tests_cant": "All files.", "anchors": ["src/ditto/readers/gridlabd/read.py: read_gld_objects_and_schedules lines 108-121, 139-148"]}
{"id": "C88", "title": "Conductor data are read in the units written", "statement": "Every line that uses an overhead conductor gets its geometric mean radius in feet and its resistance in ohms per mile, converted from the unit written in the file, no matter how many lines use the conductor.", "quantifier": "all conductor objects, all sequences of lines using them", "why_tests_cant": "The reader rewrites the object it reads, so the result depends on the history of readings.", "anchors": ["src/ditto/readers/gridlabd/read.py lines 840-905"]}
{"id": "C89", "title": "Overhead line impedance is reciprocal and passive", "statement": "The impedance matrix computed for an overhead line is symmetric, and for conductors with non-negative resistance no set of phase currents makes the line deliver power.", "quantifier": "every spacing object, wire list, phase set, with or without neutral, all complex currents", "why_tests_cant": "Continuum of currents and geometries.", "anchors": ["src/ditto/readers/gridlabd/line_impedance.py: compute_overhead_spacing, compute_overhead_impedance, kron_reduction"]}
{"id": "C93", "title": "A complete overhead line is accepted", "statement": "If every phase of a line (and its neutral) has a conductor with positive resistance and readable geometry, the impedance matrix is computed and the line model is built for every non-zero length.", "quantifier": "all such lines", "why_tests_cant": "Invertibility for a continuum of data.", "anchors": ["src/ditto/readers/gridlabd/line_impedance.py: compute_overhead_impedance", "src/models/components/unbalanced_line.py: __init__"]}
{"id": "C94", "title": "Potential coefficients use one length unit", "statement": "The potential coefficient of conductors is 11.17689 times the logarithm of image distance over distance (or radius), all in the same unit.", "quantifier": "all conductors and heights", "why_tests_cant": "Continuum.", "anchors": ["src/ditto/readers/gridlabd/line_impedance.py: compute_overhead_capacitance"]}
{"id": "C95", "title": "Overhead line charging is reciprocal", "statement": "The shunt admittance matrix computed for an overhead line is symmetric.", "quantifier": "all spacings and wire lists", "why_tests_cant": "Continuum.", "anchors": ["src/ditto/readers/gridlabd/line_impedance.py: compute_overhead_capacitance"]}
{"id": "C84", "title": "Every phase of every node of a feeder is one bus", "statement": "Reading a feeder file makes one bus for each phase of each node, meter and load that has no parent, and no other node bus; every phase of a node with a parent is at the bus of its parent; the slack generators are the phases of the SWING nodes with the voltage of the file.", "quantifier": "all files the reader accepts, all nestings of parents", "why_tests_cant": "Parents chain to any depth and nodes come in any number and order.", "anchors": ["src/logic/network/parsers/threephase/threephaseparser.py: create_buses", "src/ditto/readers/gridlabd/read.py: Reader.parse 249-330"]}
{"id": "C85", "title": "Every load of a feeder is in the network where the file puts it", "statement": "The loads of the network are, in order, the constant power, impedance and current loads of the file, between the phases named by the attribute, and each draws the current its kind describes under every voltage.", "quantifier": "all accepted files without base power, all voltages", "why_tests_cant": "Unbounded number of loads, all connection letters, continuum of voltages.", "anchors": ["src/ditto/readers/gridlabd/read.py: Reader.parse 677-681", "src/ditto/readers/gridlabd/load_parser.py", "src/logic/network/parsers/threephase/threephaseparser.py: create_load, get_load_connection"]}
{"id": "C86", "title": "Every fuse of a feeder is in the network", "statement": "Each phase of each fuse of the file is a fuse of the network between the phase at its two ends, with the limit and the state of the file.", "quantifier": "all accepted files", "why_tests_cant": "Unbounded files and all combinations of states.", "anchors": ["src/ditto/readers/gridlabd/read.py: Reader.parse 682-754", "src/logic/network/parsers/threephase/threephaseparser.py: create_transmission_line"]}
{"id": "C87", "title": "Every switch of a feeder is in the network", "statement": "Each phase of each switch of the file is a switch of the network between the phase at its two ends, open exactly if the file says so.", "quantifier": "all accepted files", "why_tests_cant": "Unbounded files and all combinations of states.", "anchors": ["src/ditto/readers/gridlabd/read.py: Reader.parse 755-824", "src/logic/network/parsers/threephase/threephaseparser.py: create_transmission_line"]}
{"id": "C90", "title": "Transformer banks have the ratio and impedance of their configuration", "statement": "Each coil of a bank has as ratio the ratio of the rated coil voltages and as series impedance the per unit impedance of the configuration on the base of one coil; a shunt impedance of the file is in the network.", "quantifier": "all accepted files, all ratings and connections", "why_tests_cant": "Continuum of ratings.", "anchors": ["src/ditto/readers/gridlabd/read.py: Reader.parse 331-676", "src/logic/network/parsers/threephase/transformerparser.py: create_three_phase_transformer", "src/models/components/transformer.py"]}
{"id": "C91", "title": "Every capacitor of a feeder is in the network", "statement": "Each phase of each capacitor of the file is a capacitor at that phase of its parent with the rated reactive power, nominal voltage, control and switch of the file, connected as the phases say.", "quantifier": "all accepted files", "why_tests_cant": "Unbounded files, continuum of ratings.", "anchors": ["src/ditto/readers/gridlabd/read.py: Reader.parse 1254-1346", "src/logic/network/parsers/threephase/threephaseparser.py: create_capacitor"]}
{"id": "C96", "title": "Base power loads are divided as the file says", "statement": "A load given by base power, fractions and power factors draws the three parts these numbers describe.", "quantifier": "all numbers", "why_tests_cant": "Continuum of numbers.", "anchors": ["src/ditto/readers/gridlabd/read.py: Reader.parse 677-681", "src/ditto/readers/gridlabd/load_parser.py"]}
{"id": "C97", "title": "Center tap transformers have the ratio and impedances of their configuration", "statement": "A center tap transformer of the file is in the network with the ratio of its rated voltages and the per unit impedances of its windings on their bases, whether given as a whole or per winding, in V or kV.", "quantifier": "all accepted files, all ratings", "why_tests_cant": "Continuum of ratings.", "anchors": ["src/ditto/readers/gridlabd/read.py: Reader.parse 331-676", "src/logic/network/parsers/threephase/transformerparser.py: create_center_tap_transformer", "src/models/components/center_tap_transformer.py"]}
{"id": "C98", "title": "Every regulator of a feeder is in the network", "statement": "Each phase of each regulator of the file is a regulator between the phase at its two ends, at the tap and with the limits of its configuration.", "quantifier": "all accepted files, regulators on any phases", "why_tests_cant": "Unbounded files, all combinations of settings.", "anchors": ["src/ditto/readers/gridlabd/read.py: Reader.parse 1347-", "src/logic/network/parsers/threephase/threephaseparser.py: create_regulator"]}
{"id": "C99", "title": "A bus has the voltage of its node", "statement": "The nominal voltage (and start value) of the buses of a node is the voltage the file gives for this node: that of the phase if given, otherwise its nominal voltage at the angle of the phase.", "quantifier": "all accepted files", "why_tests_cant": "Every order and nesting of nodes and meters.", "anchors": ["src/ditto/readers/gridlabd/read.py: Reader.parse 249-330", "src/logic/network/parsers/threephase/threephaseparser.py: create_buses"]}
{"id": "C100", "title": "The lines of a file are the lines of the network", "statement": "Every overhead, underground and triplex line of a GridLAB-D file becomes one line of the network, between the phases it has at the two nodes it names (or the roots of their parents), with the admittance matrices of the data read for this line; there is no other line.", "quantifier": "all accepted files, any reading of line data", "why_tests_cant": "Which buses a line gets depends on the parents of the nodes it names and on how phases were read; tests compare a few solved voltages.", "anchors": ["src/ditto/readers/gridlabd/read.py: Reader.parse 825-1252", "src/logic/network/parsers/threephase/threephaseparser.py: create_lines", "src/models/components/unbalanced_line.py: 37-91"]}
{"id": "C101", "title": "Solving a GridLAB-D file solves its circuit", "statement": "Voltages at the phases of the nodes of a file extend to a solution of the equations the program assembles exactly if they are voltages of the circuit the file describes: children are at the voltage of their parents, sources keep their voltage, every load, switch, fuse, capacitor, regulator, transformer and line draws currents by its physical law, and at each phase of each node the currents add up to zero.", "quantifier": "all plain files (without the constructs for which a `_fails` theorem exists), all voltages, any reading of line data", "why_tests_cant": "End to end over parser, node numbering, device models and assembly; a test only sees one solution of one file and cannot exclude further or missing solutions.", "anchors": ["src/ditto/readers/gridlabd/read.py: Reader.parse", "src/logic/network/parsers/threephase/threephaseparser.py", "src/models/components", "src/logic/matrixbuilder.py"]}
{"id": "C102", "title": "Numbers in a file are read as the numbers they denote", "statement": "A text is accepted as a real number exactly if it is, between spaces, an optional sign, digits with at most one point and an optional exponent with its own sign, and its value is then the one the decimal notation denotes. A text is accepted as a complex number exactly if it is a real part, an imaginary part with its sign and the letter j, or the sum of both.", "quantifier": "all texts", "why_tests_cant": "There are infinitely many spellings of a number; tests try a few, and a wrong sign or a lost exponent only shows in spellings nobody tried.", "anchors": ["src/ditto/readers/gridlabd/read.py: complex and float conversions of attributes, e.g. 640-700", "src/logic/network/parsers/threephase/threephaseparser.py: complex(...) conversions"]}
{"id": "C103", "title": "A quantity written with a unit is read in that unit", "statement": "A row `key value unit;` gives the attribute the quantity meant: distances in inches become feet, reactive powers in MVAr or kVAr become VAr, and so on.", "quantifier": "all objects with such a row, all numbers and spellings of the row", "why_tests_cant": "Dropping a unit gives a plausible number a thousand times too small; tests only use files whose units are the default ones.", "anchors": ["src/ditto/readers/gridlabd/read.py: Reader.parse 131-139"]}
{"id": "C104", "title": "A line is read from its own objects", "statement": "What a line gets for its impedance depends on its own attributes, its configuration, the conductors and the spacing these name, not on the lines before it in the file.", "quantifier": "all files, all lines, all orders", "why_tests_cant": "A test of a file with one line, or with lines that all have complete configurations, cannot see a variable that keeps its value from one line to the next.", "anchors": ["src/ditto/readers/gridlabd/read.py: 924-941, 1221-1241 (variable `distances`)"]}
{"id": "C105", "title": "Lines of a file are reciprocal and passive", "statement": "The series impedance matrix computed for a line of a GridLAB-D file is symmetric, and no set of phase currents gains real power from the line as long as the resistances in the file are not negative.", "quantifier": "all files, all overhead, triplex and underground lines, all phase currents", "why_tests_cant": "A test compares the matrices of some configurations with tables; whether any combination of conductors, spacings and neutrals can give a line that produces power is a statement on all of them and all currents.", "anchors": ["src/ditto/readers/gridlabd/read.py: overhead, triplex and underground lines", "src/ditto/readers/gridlabd/line_impedance.py: compute_overhead_impedance, compute_triplex_impedance, compute_underground_impedance, kron_reduction"]}
{"id": "C106", "title": "Lines that are read are built", "statement": "Every line of a GridLAB-D file for which an impedance matrix is computed becomes a line of the network: the matrix has a row for every phase and is invertible.", "quantifier": "all files, all overhead, triplex and underground lines with positive resistances and nonzero length, all buses", "why_tests_cant": "Whether a matrix is invertible depends on all conductors and distances and on the elimination of neutrals; examples do not show that none of the lines that are accepted by the reader is refused by the network.", "anchors": ["src/ditto/readers/gridlabd/read.py: overhead, triplex and underground lines", "src/models/components/unbalanced_line.py: UnbalancedLine.__init__"]}
{"id": "C107", "title": "Lines obey Carson's equations", "statement": "The voltage drops and currents of the phases of a line of a GridLAB-D file satisfy the matrix the program computes for it, over its length, exactly if there are currents in its neutrals, grounded at both ends, with which every conductor of the line satisfies Carson's equations with the resistances, radii and distances written in the file.", "quantifier": "all files, all overhead, triplex and underground lines, all voltages and currents", "why_tests_cant": "The matrix is the result of reading numbers and references, converting units, matching distances to conductors by position, and eliminating neutrals; a test compares it with a number computed by the same formula for one line, not with the equations of all conductors for all currents.", "anchors": ["src/ditto/readers/gridlabd/read.py: overhead, triplex and underground lines", "src/ditto/readers/gridlabd/line_impedance.py: compute_overhead_impedance, compute_triplex_impedance, compute_underground_impedance, kron_reduction"]}
{"id": "C108", "title": "Solving a GridLAB-D file solves its circuit, lines included", "statement": "With line charging switched off, voltages at the phases of the nodes of a file extend to a solution of the equations the program assembles exactly if they are voltages of the circuit of the file, in which the conductors of every line obey Carson's equations with the numbers written in the file, neutrals being grounded at both ends.", "quantifier": "all files, all voltages", "why_tests_cant": "It is a statement about all voltages, and about the reading of every object, the building of every device and the assembly of all equations at once; a solved example shows one solution of one file.", "anchors": ["src/logic/network/parsers/threephase/threephaseparser.py: ThreePhaseParser.parse", "src/ditto/readers/gridlabd/read.py: Reader.parse", "src/ditto/readers/gridlabd/line_impedance.py", "src/models/components/unbalanced_line.py: UnbalancedLine"]}
{"id": "C92", "title": "A sound GridLAB-D feeder is accepted", "statement": "If in a GridLAB-D file every number is a number, every name refers to an object of the file, both ends of every device have its phases, and nothing a device needs is missing, the file is read and its network is built; no exception is raised on the way.", "quantifier": "all files, with any number of objects", "why_tests_cant": "An exception can come from any combination of objects, since objects are merged with their parents, devices find their nodes by name and phase, and the data of lines outlive them; a test file shows that one combination is accepted.", "anchors": ["src/logic/network/parsers/threephase/threephaseparser.py: ThreePhaseParser.parse", "src/ditto/readers/gridlabd/read.py: Reader.parse"]}
{"id": "C109", "title": "The lines of a RAW file are cut into their fields", "statement": "Reading a RAW file cuts every line into the fields that are written on it: fields are separated by commas, a field may stand between single quotes and then contain commas and, doubled, quotes, and white space around the content does not count.", "quantifier": "all texts made of such lines", "why_tests_cant": "A field may be empty, quoted, padded, at the end of the file or contain the characters that separate fields; tests cover a few combinations.", "anchors": ["src/logic/network/parsers/raw/Data.py: Data.read", "src/logic/network/parsers/raw/Data.py: Raw.find_delim"]}
{"id": "C110", "title": "The case that is loaded is the case the file states", "statement": "From a RAW file that lays out the sections of the format, every record becomes one bus, load, shunt, generator, branch or transformer with the values of its columns, blank fields having the defaults of the format, and there are no others.", "quantifier": "all files of the versions the reader knows, with any number of records and comments", "why_tests_cant": "Rows are read by position, with layouts that depend on the version and on the number of fields; a field read from the wrong column, or a record lost, gives another case that still solves.", "anchors": ["src/logic/network/parsers/raw/Data.py: Raw.read_from_rows", "src/logic/network/parsers/raw/Data.py: Bus.read_from_row", "src/logic/network/parsers/raw/Data.py: Generator.read_from_row", "src/logic/network/parsers/raw/Data.py: Two_xfmr.read_from_row", "src/logic/network/parsers/raw/parser.py: RawFileParser.parse_raw"]}
{"id": "C111", "title": "The order of records does not matter", "statement": "Two RAW files with the same records, in another order within their sections or with other comments between them, load as the same network.", "quantifier": "all pairs of files with the same records", "why_tests_cant": "A test compares two orders of one file; the number of orders is exponential.", "anchors": ["src/logic/network/parsers/raw/Data.py: Raw.get_buses", "src/logic/network/parsers/raw/Data.py: Raw.get_generators", "src/logic/network/parsers/raw/parser.py: RawFileParser.parse_raw"]}
{"id": "C112", "title": "From the text of a RAW file to the solution", "statement": "A RAW file whose case is supported is loaded, and the equations that are solved have as solutions the bus voltages that satisfy the power flow equations of the records written in the file.", "quantifier": "all files and all bus voltages", "why_tests_cant": "The claim crosses the reader, the loader and all stamps; a test sees only that one solution of one file agrees with a reference.", "anchors": ["src/logic/network/parsers/raw/Data.py: Data.read", "src/logic/network/parsers/raw/parser.py: RawFileParser.parse_raw"]}
{"id": "C113", "title": "Files of unknown versions are refused", "statement": "A RAW file whose case identification states a version other than 30, 32, 33 and 34 is never loaded as if it were one of these.", "quantifier": "all texts", "why_tests_cant": "The refusal is a side effect of a variable that stays unbound; a test shows it for one file of one version.", "anchors": ["src/logic/network/parsers/raw/Data.py: CaseIdentification.read_record_1_from_row", "src/logic/network/parsers/raw/parser.py: RawFileParser.parse_raw"]}
{"id": "C114", "title": "The cache of derivatives never changes a result", "statement": "Derivatives that are read from the cache on disk are those of the segment that asks for them, whatever was cached before, by whatever earlier runs, and whatever cached files were deleted or cut short.", "quantifier": "all histories of runs, segments, deletions and torn files", "why_tests_cant": "The cache survives between runs, so an error depends on what earlier programs left behind; a test starts from one known directory.", "anchors": ["src/logic/stamping/lagrangesegment.py: LagrangeSegment.get_derivatives", "src/logic/stamping/lagrangepickler.py: LagrangePickler.try_unpickle", "src/logic/stamping/lagrangepickler.py: LagrangePickler.try_pickle"]}
{"id": "C115", "title": "A run that solves ends with its results shown and written", "statement": "After a solved power flow the display shows whether the run succeeded, its iterations, its largest residual and the infeasible power, in every form of the display, and the run then writes its files.", "quantifier": "all networks, results and options", "why_tests_cant": "The verbose form runs over all residuals of a real run; tests call the solver, not the display, and no test runs the command line with the switch.", "anchors": ["src/logic/powerflowresults.py: PowerFlowResults.display", "src/logic/powerflowresults.py: PowerFlowResults.report_infeasible", "src/run_solver.py: main"]}
{"id": "C116", "title": "Buses are told apart in the check for islands", "statement": "A network is accepted as one island only if every two of its buses are joined by a path of elements, whatever their names.", "quantifier": "all networks and all names", "why_tests_cant": "The graph has one node per name; names in test files are unique.", "anchors": ["src/logic/graphanalyzer.py: GraphAnalyzer.__init__", "src/logic/network/parsers/raw/data_classes.py: Bus_data.integrate"]}
{"id": "C117", "title": "Reported load power is the power drawn", "statement": "The active and reactive power reported for a load are those it draws at the solution.", "quantifier": "all networks, loads and voltages", "why_tests_cant": "Loads of test files are mostly of constant power, for which the two agree.", "anchors": ["src/logic/powerflowresults.py: PowerFlowResults.__init__", "src/logic/powerflowresults.py: LoadResult"]}
{"id": "C118", "title": "Reported powers are in the unit of the heading", "statement": "The columns `P(MW)` and `Q(MVar)` of the power file hold megawatts and megavars.", "quantifier": "all RAW cases and all loads in service", "why_tests_cant": "Tests compare voltages; the numbers in the file are plausible in either unit.", "anchors": ["src/logic/powerflowresults.py: PowerFlowResults.output", "src/logic/powerflowresults.py: LoadResult.csv_string"]}
{"id": "C119", "title": "A file is read by the reader for its format", "statement": "The network that is loaded is the one in the named file or at the named address, read by the reader of the format its extension states, and loading changes no other file.", "quantifier": "all paths, addresses and contents of the disk", "why_tests_cant": "The reader is chosen by text that may stand anywhere in the path; tests use a few fixed paths.", "anchors": ["src/logic/network/networkloader.py: NetworkLoader.from_file", "src/logic/network/networkloader.py: pull_network_file"]}
{"id": "C120", "title": "Output files read back as the results", "statement": "Read as comma separated files, the two output files have one row per result, in order, with the bus number, the name and the reported numbers rounded to the digits shown.", "quantifier": "all results, names and numbers", "why_tests_cant": "Names and numbers are arbitrary; a test looks at the file of one network.", "anchors": ["src/logic/powerflowresults.py: BusResult.csv_string", "src/logic/powerflowresults.py: GeneratorResult.csv_string", "src/logic/powerflowresults.py: LoadResult.csv_string", "src/logic/powerflowresults.py: PowerFlowResults.output"]}
{"id": "C121", "title": "Power delivered is power demanded plus losses", "statement": "At every solution of a network without infeasibility analysis the complex power delivered by slacks, generators and voltage sources is the power demanded by the loads plus the power taken by the equipment; if no resistance is negative, at least the real power demanded is delivered.", "quantifier": "all networks, all solutions", "why_tests_cant": "The balance couples every element of a network through the solution; tests compare bus voltages of a few networks.", "anchors": ["src/models/components/*.py: get_stamps", "src/logic/stamping/matrixstamper.py: MatrixStamper"]}
{"id": "C122", "title": "Reported powers balance up to the losses", "statement": "The real powers of all reported generators and loads add up to what the equipment loses.", "quantifier": "all networks, all solutions", "why_tests_cant": "A test compares single reported powers; the sum is exact only over all devices and for any solution.", "anchors": ["src/logic/powerflowresults.py: PowerFlowResults.__init__", "src/logic/powerflowresults.py: GeneratorResult"]}
{"id": "C123", "title": "The solver finds solutions it is started near", "statement": "Around every solution at which the network equations are nondegenerate there is a radius so that a Newton run started within it succeeds and returns a vector near that solution, the distance being squared with every iteration; no other solution lies within the radius.", "quantifier": "all networks, all nondegenerate solutions, all starting vectors within the radius, all tolerances", "why_tests_cant": "A test starts one solve of one network; that every start in a whole neighbourhood works, and how fast, is a statement on a continuum of runs.", "anchors": ["src/logic/nrsolver.py: NRSolver.run_powerflow", "src/logic/stamping/matrixstamper.py: MatrixStamper", "src/logic/stamping/matrixbuilder.py: MatrixBuilder", "src/logic/homotopycontroller.py: HomotopyController.run_powerflow"]}
{"id": "C124", "title": "Near a solution, the tolerance bounds the error of the voltages", "statement": "Around every solution at which the network equations are nondegenerate there are a radius and a factor G so that a vector inside the radius with residuals of at most e is within G*e of the solution, and one Newton step from it is within G*e^2 and has no larger residual than e. A run that succeeds from such a vector therefore returns voltages within G times the square of the tolerance.", "quantifier": "all networks, all nondegenerate solutions, all vectors within the radius, all tolerances and runs", "why_tests_cant": "The solver compares currents with its tolerance, the user reads voltages; how the one bounds the other is a statement on all vectors near all solutions, of which a test sees one.", "anchors": ["src/logic/nrsolver.py: NRSolver.run_powerflow", "src/logic/powerflowsettings.py: PowerFlowSettings.tolerance", "src/logic/powerflow.py: FilePowerFlow.execute"]}
{"id": "C125", "title": "Connected networks of resistive equipment are solved from every start", "statement": "A network of linear equipment with resistance in every branch, in which the voltage of every bus is fixed through a path of equipment to a slack or to ground, has exactly one solution of the circuit laws, and a solve finds it from every start vector: it returns after one Newton run of at most two iterations, reports success, and its vector is that solution.", "quantifier": "all networks of lines, unbalanced lines, transformers, center taps, regulators, switches, fuses, sources, shunts, capacitors and loads without constant power; all start vectors; fresh and reused stampers", "why_tests_cant": "That a matrix is never singular for any admissible wiring is a statement on all networks; tests invert matrices one network at a time.", "anchors": ["src/logic/nrsolver.py: NRSolver.run_powerflow", "src/logic/homotopycontroller.py: HomotopyController.run_powerflow", "src/models/components/switch.py: Switch", "src/models/components/transformer.py: Transformer", "src/models/components/center_tap_transformer.py: CenterTapTransformer"]}
{"id": "C126", "title": "The order of equipment and the numbers of buses do not matter", "statement": "If a network is written down with its equipment in another order and its buses numbered differently, every solution of the one description has a counterpart in the other with the same voltage at every bus and the same current in every device, and the results list the same buses, generators and loads. For connected networks of resistive equipment the two solves return these results from any start vectors.", "quantifier": "all networks outside of infeasibility analysis, all orders and numberings, all solutions, every homotopy factor", "why_tests_cant": "Unknowns are numbered in the order of the lists, so every index changes; a test compares a few shuffles of one network.", "anchors": ["src/logic/network/networkmodel.py: NetworkModel.assign_matrix", "src/logic/stamping/matrixstamper.py: build_matrix_stamper", "src/logic/powerflowresults.py: PowerFlowResults"]}
{"id": "C127", "title": "The angle of the slack is only a reference", "statement": "Turning the voltages of all sources by one angle turns all voltages of a solution by that angle and changes nothing else: the results list the same voltage magnitudes and the same powers of slacks, generators and loads.", "quantifier": "all networks outside of infeasibility analysis, all angles, all solutions", "why_tests_cant": "Metamorphic: relates the solutions of two problems for every angle and network.", "anchors": ["src/models/components/slack.py: Slack", "src/models/components/load.py: Load", "src/models/components/generator.py: Generator", "src/logic/powerflowresults.py: PowerFlowResults"]}
{"id": "C128", "title": "The place printed for the largest residual is the right place", "statement": "In every iteration the solver prints the largest residual and a text naming the equation it belongs to. For a bus voltage, a slack current, or an unknown of a transformer, the text names that bus or device and that quantity; and if no two buses share a name and no bus has two slacks or feeds two transformers of one kind, two equations printed under the same text other than 'other' are the same equation. The full claim, that every equation is printed under a text of its own, fails: two transformers fed from one bus share their texts, and the equation of a generator's set point is printed as 'other'.", "quantifier": "for every network, every list of bus names, and every index", "why_tests_cant": "the texts depend on the indices given to the unknowns of every device and on the order in which a dictionary is filled; a test sees the text of one index in one network", "anchors": ["src/logic/network/networkmodel.py: NetworkModel.assign_matrix", "src/logic/nrsolver.py: NRSolver.run_powerflow"]}
{"id": "C129", "title": "Dumped matrices are the solved systems and dumping changes no result", "statement": "With dump_matrix set, a run returns or raises exactly what it does without. After a run that returns, lookup.txt holds the label of every index, Yk_output.txt and Jk_output.txt hold the nonzero entries of the matrix and right-hand side solved in iteration k, and v_output.txt holds the returned voltages; no two of these share a file, and reading a file back line by line gives exactly the nonzero entries with their indices. The full claim, that the directory describes the run, fails in two ways: a run given up for lack of progress does not write its voltages, so the file of an earlier run stays, and files of later iterations of an earlier run are not removed.", "quantifier": "for every stamper, every setting, every start vector, every former content of the directory, and every number of iterations", "why_tests_cant": "a test compares the files of one run of one network; it does not follow a run through fifty rising residuals or a directory with older files", "anchors": ["src/logic/nrsolver.py: NRSolver.run_powerflow", "src/logic/nrsolver.py: dump_matrix_map", "src/logic/nrsolver.py: dump_Y", "src/logic/nrsolver.py: dump_J", "src/logic/nrsolver.py: dump_v"]}
{"id": "C130", "title": "Lightly loaded networks are solved", "statement": "Scale the constant-power loads of a connected network of resistive equipment by a load factor. If the factor is small enough, the network has a solution near the voltages without load and no other one near them, and the solver, started from any vector at which the loads have voltage, returns with success after one Newton run of at most two iterations, with voltages as near to the no-load voltages as wanted. There is a limit: a feeder of one siemens at one volt has no solution above a quarter of a watt.", "quantifier": "for every valid network that is sturdy without its constant-power loads, every start vector with voltage at the loads, every tolerance above zero, and all load factors below a bound that depends on these", "why_tests_cant": "tests solve a few cases at a few load factors; that every smaller factor works, whatever the network and the start, is a statement about limits", "anchors": ["src/logic/network/loadfactor.py: modify_load_factor", "src/logic/nrsolver.py: NRSolver.run_powerflow", "src/logic/homotopycontroller.py: HomotopyController.run_powerflow", "src/run_solver.py: main"]}
{"id": "C131", "title": "Options of the command line have the effect they name", "statement": "A run of run_solver.py with a load file and integer texts a and b for --loadstart and --loadend shows one result for each hour from a to b-1, in order, and writes each to the file of its hour. Without a load file and swing bus it is a plain power flow of the loads times the number given as --load_factor, and a text that is no number is refused before anything is solved. --select_island selects an island exactly if it says so, and options that cannot be followed are reported.", "quantifier": "for every combination of options and all their texts, every network, power flow and load file", "why_tests_cant": "tests call the processor with integers and never pass texts through main; the effect of an option depends on the others and on its text", "anchors": ["src/run_solver.py: main", "src/logic/network/timeseriessettings.py: TimeSeriesSettings", "src/logic/network/timeseriesprocessor.py: TimeSeriesProcessor"]}
{"id": "C132", "title": "Infeasibility analysis locates what a linear network lacks", "statement": "Run on a network of linear, reciprocal equipment whose laws have exactly one solution, infeasibility analysis (`L1` or `L2`) succeeds from every start vector, reports no infeasibility current and returns the ordinary operating point; run on one whose laws have no solution, it should return the currents that are missing and where. The second half does not hold: on every linear network whose laws do not have exactly one solution the analysis raises an exception, so whatever it returns for a linear network is zero.", "quantifier": "all networks of linear reciprocal equipment, both analyses, all start vectors and stamper histories, all settings without voltage limiting", "why_tests_cant": "Whether the enlarged matrix of multipliers and infeasibility currents is regular is a statement about every network at once; a test sees one matrix.", "anchors": ["src/models/optimization/L2infeasibility.py: L2InfeasibilityCurrent", "src/models/optimization/L1infeasibility.py: L1InfeasibilityCurrent", "src/logic/nrsolver.py: NRSolver.run_powerflow"]}
{"id": "C133", "title": "Equipment is checked against the ratings of the file", "statement": "When a time-series run flags overloaded equipment, every phase of a line is compared with the emergency rating that the file gives for the conductor of that phase (no rating: never flagged, no exception, and a neutral conductor does not shift the ratings), every center-tapped transformer with its rated power, and every coil of a bank with its share of the rated power. The last does not hold: each coil of a bank is compared with the rating of the whole bank, so a three-coil bank carrying almost three times its rated power passes.", "quantifier": "all GridLAB-D files read, all lines and transformers in them, whatever was read before, all results", "why_tests_cant": "Ratings are matched to phases by position in two separately filtered lists; a test looks at one configuration of conductors.", "anchors": ["src/ditto/readers/gridlabd/read.py: Reader.parse", "src/logic/network/parsers/threephase/threephaseparser.py: ThreePhaseParser.create_transmission_line", "src/logic/network/parsers/threephase/transformerparser.py: TransformerParser.create_three_phase_transformer", "src/logic/network/timeseriesprocessor.py: TimeSeriesProcessor.violates_equipment_ratings"]}
{"id": "C134", "title": "The units a network is written in do not matter", "statement": "Nothing in the code says in which units voltages, admittances and powers are: if a network is written with all voltages a times and all admittances k times as large numbers (currents a*k, powers a^2*k), then every solution of the old equations is a solution of the new ones in the new units, and all reported voltages, generator, slack and load powers are the old ones in the new units. This holds with one exception: a fuse has the fixed admittance 10000 + 10000j in whatever unit is in use, so a network with a fuse solved in per unit and in volts gives different answers.", "quantifier": "all networks outside optimization, all factors a and k (k = 1 if there are fuses), all homotopy factors, all solutions", "why_tests_cant": "A test compares two unit systems for one network; here every element type must scale consistently in every row, including its private unknowns.", "anchors": ["src/models/components: stamps of every element", "src/models/components/fuse.py: Fuse", "src/logic/powerflowresults.py: PowerFlowResults"]}
{"id": "C135", "title": "Loads within a simple bound leave the network with a solution", "statement": "Whether a loaded network has a solution can be judged before solving: take the voltages V0 without the constant powers, and numbers Z(k,j) that bound how far the voltage across load k moves per ampere drawn by load j. If for every load k the sum over j of Z(k,j)*|S(j)|/|V0(j)| is at most r*|V0(k)| with r < 1/4, then the equations the code assembles have a solution in which no load loses more than the part 2r of its voltage, and it is the only solution in which every load keeps half of its voltage. Such numbers Z exist for every connected network of resistive equipment. The constant 1/4 cannot be improved.", "quantifier": "all networks that are resistive, connected and free of loops of ideal conductors without their constant powers; all loads within the bound; all solutions", "why_tests_cant": "A solver run that fails says nothing about whether a solution exists, and one that succeeds nothing about other solutions; no finite set of runs can.", "anchors": ["src/models/components/load.py: Load", "src/logic/stamping/matrixbuilder.py: MatrixBuilder", "src/logic/stamping/matrixstamper.py: MatrixStamper"]}
{"id": "C136", "title": "Infeasibility currents bring in exactly the power that is missing", "statement": "In an infeasibility analysis (L1 or L2), at every solution of the assembled equations the complex power delivered by slacks, generators and voltage sources together with the power brought in by the infeasibility currents equals the power the loads are specified to take plus the losses of the equipment; without negative resistances the infeasibility currents bring in at least the demanded real power that is not delivered.", "quantifier": "all valid networks, both kinds of infeasibility analysis, all solutions of the assembled equations, nonlinear devices included", "why_tests_cant": "The balance is an identity over all networks and all solutions; tests compare a few solved cases and would accept a wrong sign wherever the currents are zero.", "anchors": ["src/models/optimization/L2infeasibility.py", "src/models/optimization/L1infeasibility.py", "src/logic/powerflowresults.py: PowerFlowResults.try_load_infeasibility_data"]}
{"id": "C137", "title": "A balanced three-phase network behaves as its single-phase equivalent", "statement": "Take a three-phase network made of balanced equipment: one copy per phase with sources a third of a turn apart, wye or delta loads, delta capacitors, lines with alike coupled conductors, and transformers connected wye-wye, delta-wye, wye-delta or delta-delta. Every solution of its single-phase equivalent, repeated in phases B and C one and two thirds of a turn behind, solves the assembled three-phase equations. If the equipment is resistive, connected and without loops of ideal conductors, a run returns this state, so all phases of a bus have the magnitude of the single-phase result.", "quantifier": "all networks with a single-phase equivalent in this sense, of any size and with nonlinear loads included; for the run all tolerances, start vectors and homotopy settings", "why_tests_cant": "Tests compare single-phase and three-phase cases separately; a wrong factor of three or root of three in one winding connection shows only where both are set side by side, for all values.", "anchors": ["src/models/components/transformer.py", "src/models/components/unbalanced_line.py", "src/models/components/load.py", "src/models/components/capacitor.py", "src/logic/powerflow.py: PowerFlow.execute"]}
{"id": "C138", "title": "Equipment may be exchanged for equivalent equipment", "statement": "Replacing equipment by equivalent equipment changes no bus voltage. Equivalent are: lines side by side and one line with their sums; a line seen from its other end; a line with charging and a line with two shunts; a line of one conductor of the unbalanced kind and a plain line; loads side by side and their sum; a load from its other end (constant currents reversed); a load of nothing and no load; shunts side by side; a shunt and a constant-impedance load; closed capacitors side by side; a closed capacitor to ground and a shunt; an open capacitor or switch and nothing; a closed switch and a source of no voltage; a voltage source from its other end (reversed); a slack and a voltage source to ground; a fuse and a short line with a closed switch; a regulator and a transformer with a closed switch. Every solution of one network is a solution of the other with the same voltages, at every homotopy factor, and runs on resistive connected networks return the same voltages from any start.", "quantifier": "all networks, all sets of exchanges at any places, all homotopy factors, all solutions; for runs all start vectors and both settings of homotopy", "why_tests_cant": "A test compares two descriptions of one circuit; that any mixture of exchanges leaves every solution of every network unchanged is a statement about all equations.", "anchors": ["src/models/components/line.py", "src/models/components/load.py", "src/models/components/switch.py", "src/models/components/regulator.py", "src/logic/network/networkmodel.py"]}
{"id": "C139", "title": "A closed switch makes two buses one", "statement": "Two buses joined by a closed switch behave as one bus: every solution of the network with the switch gives both ends the same voltage and solves the network in which the equipment of both buses is at one bus, and every solution of that network comes from one with the switch. Runs on resistive connected networks return the same voltages for both.", "quantifier": "all networks, all places of the switch, all equipment at both buses, all homotopy factors, all solutions; for runs all start vectors", "why_tests_cant": "Tests look at single networks; the equality of the two solution sets is for every network.", "anchors": ["src/models/components/switch.py", "src/logic/network/networkmodel.py"]}
{"id": "C140", "title": "A bus in the middle or at the open end of a line changes nothing elsewhere", "statement": "A line without charging may be cut by a bus into two lines of admittances y and z with y z / (y + z) the admittance of the whole: the solutions are the same elsewhere, and the new bus has the voltage (y V_from + z V_to) / (y + z). A bus at the open end of a line has the voltage of the other end and changes nothing elsewhere.", "quantifier": "all networks, all lines and admittances with y + z not zero, all homotopy factors (with 1 + 20 t not zero), all solutions", "why_tests_cant": "A test samples one cut of one line; the equality of the solution sets holds for every network and cut.", "anchors": ["src/models/components/line.py", "src/logic/network/networkmodel.py"]}
{"id": "C141", "title": "Superposition", "statement": "Linear networks obey superposition. If two networks differ only in their sources (slack voltages, voltage sources, constant currents of loads), then the network whose sources are a times the first plus b times the second, for any complex a and b, has a solution whose voltages are a times the first plus b times the second. Runs on resistive connected networks return such voltages from any start.", "quantifier": "all linear networks, all complex factors, all homotopy factors, all solutions; for runs all start vectors", "why_tests_cant": "Linearity in the sources is a statement about all pairs of excitations; a sign or a conjugation wrong in one device keeps single results plausible.", "anchors": ["src/models/components/load.py", "src/models/components/slack.py", "src/models/components/voltagesource.py", "src/logic/stamping/lagrangesegment.py"]}
{"id": "C142", "title": "Reciprocity", "statement": "In a linear network without phase-shifting transformers and with symmetric line matrices, the voltage change at one place caused by drawing a current at another equals the voltage change at the other place caused by drawing the same current at the first. This holds for all equipment (lines, transformers, center taps, regulators, switches, fuses, capacitors, loads) and for the voltages runs return on resistive connected networks.", "quantifier": "all such networks, all pairs of places, all currents, all homotopy factors, all solutions; for runs all start vectors", "why_tests_cant": "A winding equation with a wrong sign or ratio on one side still gives plausible voltages; only comparing every pair of places reveals it.", "anchors": ["src/models/components/transformer.py", "src/models/components/center_tap_transformer.py", "src/models/components/unbalanced_line.py", "src/models/components/regulator.py"]}
{"id": "C143", "title": "Lightly loaded cases are solved", "statement": "Take a RAW case in which every bus in service is fed from a swing bus by lines and transformers. If its loads are small enough, the power flow equations written down from the records have exactly one solution with healthy voltages, near the voltages without load. The whole run (loading, device control, homotopy, Newton's method) from any start without zero voltages, flat start included, reports success and returns voltages as near to that solution as wanted.", "quantifier": "all such cases, all start vectors, all tolerances and distances, all load factors below a bound", "why_tests_cant": "Existence and uniqueness of a solution and convergence from every start are statements about a continuum; tests see single cases that happen to converge.", "anchors": ["src/logic/network/networkloader.py:61-82", "src/logic/nrsolver.py", "src/logic/homotopycontroller.py", "src/logic/devicecontroller.py:19-36"]}
{"id": "C144", "title": "What execute returns", "statement": "If PowerFlow.execute returns, the network was connected and its nominal voltages are consistent along lines, and the results are those of one vector read in the network left behind. If they say success, all equations of that network are below the tolerance, no fuse is blown and device control has nothing more to change. A network with two separate parts is refused. A lightly loaded RAW case is reported bus by bus in the order of the file, with voltages near the solution of the power flow equations of the records.", "quantifier": "all networks, settings, linear solvers and lists of islands; for RAW cases all cases as in C143 with one swing bus", "why_tests_cant": "The parts (checks, start, loop, results) are tested one by one; that they fit together for every network, with the results read in the final network, is not.", "anchors": ["src/logic/powerflow.py:18-54", "src/logic/graphanalyzer.py:24-49", "src/models/components/bus.py", "src/logic/powerflowresults.py"]}
{"id": "C145", "title": "Lightly loaded feeders are solved", "statement": "Take a GridLAB-D file in which every phase of every node is fed from a source over lines, closed switches, fuses, regulators and transformers, and all of these have resistance. Multiplying the loads of the network by a factor is the same as multiplying the constant power in the file. Without constant power the circuit of the file has exactly one set of voltages. If the constant power is small enough, it has exactly one with at least half of these voltages at every load, and the whole run (device control, homotopy, Newton's method) reports success, changes no device and returns voltages as near to it as wanted, by name and phase.", "quantifier": "all such files, all start vectors under which loads have voltage, all tolerances and distances, all load factors below a bound", "why_tests_cant": "Existence and uniqueness of a solution and convergence from every start are statements about a continuum; tests see single feeders that happen to converge.", "anchors": ["src/logic/network/parsers/threephase/threephaseparser.py", "src/logic/network/loadfactor.py:3-6", "src/logic/nrsolver.py", "src/logic/homotopycontroller.py", "src/logic/devicecontroller.py:19-36"]}
{"id": "C146", "title": "What execute refuses and returns for feeders", "statement": "A GridLAB-D file is refused because of several islands exactly if two of its nodes or loads without parent have no way between them over lines, closed switches, fuses, regulators and transformers of the file; a single node that nothing leads to is enough. If there is always a way, and nominal voltages agree along ways without transformers and regulators, the checks pass. Then, with small enough constant power, execute returns results that say success and list every phase of every node and load without parent once, in the order of the file, with voltages as near to the circuit of the file as wanted.", "quantifier": "all plain feeders, load factors, settings and answers of the graph library", "why_tests_cant": "Connectedness of a file and convergence for all small loads are statements about all files and a continuum of loads; tests see a few connected feeders.", "anchors": ["src/logic/powerflow.py:18-54", "src/logic/graphanalyzer.py:16-82", "src/models/components/bus.py:25-39", "src/logic/network/parsers/threephase/threephaseparser.py:90-138"]}
{"id": "C147", "title": "Where feeders start", "statement": "Before the first iteration every phase of a node of a GridLAB-D file has the nominal voltage of the last capacitor of the file at that phase, at the angle of the phase; without a capacitor the legs 1 and 2 of triplex nodes have 120 V at 120 and 300 degrees whatever the file says, and every other phase the voltage of the file. If the three phases have nominal voltages above zero wherever there are loads of constant power, no load starts without voltage, so no run begins with a division by zero, and lightly loaded feeders are solved from there. Starts are not always nominal.", "quantifier": "all plain feeders, for the run all small loads and settings", "why_tests_cant": "Which of many capacitors sets the start and that no load is dead at the start must hold for every file; tests start a few feeders.", "anchors": ["src/logic/network/parsers/threephase/threephaseparser.py:90-138", "src/logic/network/parsers/threephase/threephaseparser.py:189-222", "src/models/components/bus.py:25-39", "src/logic/powerflow.py:30-54"]}
{"id": "C148", "title": "Feeders with lines by their conductors are solved from file to results", "statement": "Take a GridLAB-D file whose lines are given by conductors with resistance, spacings and lengths above zero, with line charging switched off, every phase fed from a source. Every line loses active power whenever one of its phases carries a current. If the file is one island of places rated alike, then for every distance and tolerance all small enough load factors make the program return results that say success and list every phase of every node once, with voltages within that distance of the circuit the file describes, in which the conductors of every line obey Carson's equations.", "quantifier": "all supplied files, all small loads, distances, tolerances and settings", "why_tests_cant": "That conductor data never yields a line that creates power, and that the whole way from the conductors to the returned voltages is right, are statements about all files; tests compare a few feeders with recorded voltages.", "anchors": ["src/logic/network/parsers/threephase/threephaseparser.py: ThreePhaseParser.parse", "src/ditto/readers/gridlabd/read.py: overhead, triplex and underground lines", "src/ditto/readers/gridlabd/line_impedance.py: compute_overhead_impedance, compute_triplex_impedance, compute_underground_impedance, kron_reduction", "src/models/components/unbalanced_line.py: UnbalancedLine", "src/logic/powerflow.py:30-54"]}
{"id": "C149", "title": "Feeders with charged lines are solved from file to results", "statement": "Take a sound GridLAB-D file fed from its sources, the wires of its overhead lines level and without neutral, its underground lines with concentric neutrals, and read it with line charging, as is the default. It is read, its network is built, and it has exactly one set of voltages without constant power. The voltages of the network are, at every load factor, those of the circuit in which conductors obey Carson's equations and each end of a line takes its share of the charging current. If the file is one island of places rated alike, then for every distance and tolerance all small enough load factors make the program return results that say success and list every phase of every node once, with voltages within that distance of this circuit.", "quantifier": "all such files, all small loads, distances, tolerances and settings", "why_tests_cant": "That charging never makes the network singular and that the file alone decides the outcome, with nothing assumed of the reader or the builder, are statements about all files; tests compare a few feeders with recorded voltages.", "anchors": ["src/logic/network/parsers/threephase/threephaseparser.py:313-325", "src/ditto/readers/gridlabd/line_impedance.py:482-595", "src/models/components/unbalanced_line.py: UnbalancedLine", "src/logic/powerflow.py:30-54"]}
{"id": "C150", "title": "A feeder in several files reads as one", "statement": "A GridLAB-D file is read as exactly the objects its rows write down, with either kind of line ends and with or without one at the end. A file that includes others reads as the objects of all of them, each once, in the order in which they would stand if the others were written in the place of the rows that include them.", "quantifier": "all disks, files and included files", "why_tests_cant": "Tests read a few files; how rows are cut and where included objects end up is a statement about all files.", "anchors": ["src/ditto/readers/gridlabd/read.py:68-199"]}
{"id": "C151", "title": "From a path to the results", "statement": "Give the program the path of a feeder or of a RAW case on the disk and a load factor. The file is found by its extension, read and turned into a network. If the case is fed from its sources and is one island, then for every distance all small enough load factors make the program, with the settings the command line makes, return results that say success and list every bus in service once, in the order of the file, with a voltage within that distance of a power flow of what the file says with its loads scaled.", "quantifier": "all disks, paths, files, small load factors, distances, and all islands networkx may report", "why_tests_cant": "It joins loader, reader, builder, checks, Newton's method, device control and results into one statement about texts on a disk and reported voltages, with nothing assumed of the stages in between; tests run a few files.", "anchors": ["src/run_solver.py:52-92", "src/logic/networkloader.py:41-82", "src/logic/powerflow.py:18-54", "src/ditto/readers/gridlabd/read.py:68-199", "src/logic/network/parsers/raw/parser.py: parse_raw"]}
{"id": "C152", "title": "A column of the load file reaches the load it names", "statement": "Read a feeder and run it with a load file. The values of an hour in a column go to the load object whose name ends in the number of the column, on the phases of the column: the load gets the magnitude of the column with the power factor of the feeder file and nothing else changes. Loads without a column keep the power of the feeder file. Loads named as negative loads are the ones that balance, on the phase of the feeder they are at.", "quantifier": "all feeders, load files, hours and loads", "why_tests_cant": "The name of a column is put together in one module from what another module cut out of the names of objects; that the two meet for every name and every combination of phases is no matter of samples.", "anchors": ["src/logic/network/timeseriesprocessor.py:125-156", "src/logic/network/parsers/threephase/threephaseparser.py:140-155", "src/ditto/readers/gridlabd/load_parser.py:6-71"]}
{"id": "C153", "title": "The printed summary counts what is in the file", "statement": "Before a feeder is solved, its numbers of nodes, phase buses, lines, loads and phase loads are printed. They are the numbers of nodes, meters and loads without parent, of their phases, of lines, of load objects, and of loads the file declares. For a RAW case they are the numbers of energised buses, of these again, of branches in service, and of loads in service twice.", "quantifier": "all feeders and cases", "why_tests_cant": "It compares counts of what the reader builds with counts of what is written in the file, for all files.", "anchors": ["src/logic/network/networkmodel.py:58-69", "src/run_solver.py:68", "src/logic/network/parsers/threephase/threephaseparser.py:29-69", "src/logic/network/parsers/raw/data_classes.py:68-94"]}
{"id": "C154", "title": "The hours of a load file are solved, each at its own loads", "statement": "Run a feeder with a load file whose columns hold, hour by hour, a multiple of the magnitude of each constant power. The time series returns one result for each hour from the first to before the last, in order, each says success, and its voltages are those of the feeder with its powers multiplied by the factor of that hour, whatever the hours before were.", "quantifier": "all feeders, load files of this kind, ranges of hours and settings", "why_tests_cant": "It goes from the text of two files through the reader, the name map, the loads changed in place hour after hour and the solver to the voltages returned; tests run a few hours of one feeder and compare numbers recorded before.", "anchors": ["src/logic/network/timeseriesprocessor.py:125-156", "src/logic/network/timeseriesprocessor.py:209-244", "src/logic/powerflow.py:18-54", "src/logic/network/networkmodel.py:48-56"]}
{"id": "C155", "title": "Checking the ratings never breaks a run", "statement": "After each solved hour of a time series the equipment is checked against its ratings. The check always answers and only sets a flag: for every feeder, whatever voltages and currents the solver found, the solved result is returned.", "quantifier": "all feeders, load factors and results of the solver", "why_tests_cant": "An exception in the check loses the results of all hours solved before; which of the networks that can be read run into one is no matter of samples.", "anchors": ["src/logic/network/timeseriesprocessor.py:178-207", "src/logic/network/timeseriesprocessor.py:226-233", "src/logic/powerflowresults.py:93-161", "src/logic/network/parsers/threephase/threephaseparser.py:312-327"]}
{"id": "C156", "title": "The files of a run hold its results, each under its own name", "statement": "After a run of hours with an output name, for each hour the voltage file and the power file of this hour hold the result shown for it, no result has overwritten another, and no other file on the disk has changed. After a plain run this holds for the two files of the output name. What stands under the output name is from this run.", "quantifier": "all networks, options, hours (also negative), output names and disks", "why_tests_cant": "Two results under one name show only for the right pair of hours and names, and a file of an earlier run looks like one of this run.", "anchors": ["src/logic/powerflowresults.py:249-283", "src/logic/network/timeseriesprocessor.py:209-223", "src/run_solver.py:85-97"]}
{"id": "C157", "title": "From the options of a time series to its files", "statement": "Run the program on a feeder with a load file, hours and an output name. It raises nothing and prints no error, shows one successful result for each hour, whose voltages are those of the circuit of the file at the loads of the hour, and the two files of each hour hold this result, whatever was on the disk before.", "quantifier": "all feeders, load files, hours, output names and disks", "why_tests_cant": "The claim goes through all parts of the program, from the texts of the options over the loads of the hours and the equations solved to the names of the files; tests of the parts do not show that each hour's file belongs to that hour's loads.", "anchors": ["src/run_solver.py:46-97", "src/logic/network/timeseriesprocessor.py:209-244", "src/logic/powerflow.py:18-54", "src/logic/powerflowresults.py:249-283"]}
{"id": "C158", "title": "All views of a matrix show the same matrix", "statement": "Whatever stamps and clears a MatrixBuilder has been given, the values of get_row and of get_col at a place and the entry of to_symbolic_matrix at this place add up to the same number, the sum of the stamps that count; and the symbolic matrix is as large as needed for these stamps.", "quantifier": "all histories of stamps and clears that only retain what exists, all places", "why_tests_cant": "The lists behind a builder are reused after a clear, so what a view shows depends on the whole history of calls; tests look at fresh builders.", "anchors": ["src/logic/stamping/matrixbuilder.py:15-68"]}
{"id": "C159", "title": "Solving a network again gives the same answer", "statement": "Solve a network with device control, then solve it again from the same start with fuses and capacitors as the first run left them, as often as wanted: every run returns the result of the first and leaves the devices as they are.", "quantifier": "all networks, device states, start vectors, solver settings and numbers of repetitions", "why_tests_cant": "Runs change the devices of the network in place, so a second run starts from another network than the first; tests solve each network once.", "anchors": ["src/logic/devicecontroller.py:19-49", "src/models/components/capacitor.py:45-66", "src/models/components/fuse.py:56-67"]}
{"id": "C160", "title": "Models can be given by equations alone", "statement": "A ModelDefinition made of variables, constants, equalities and an objective that use only declared symbols is accepted, and its Lagrangian is the objective plus every equation times a multiplier of its own.", "quantifier": "all lists of variables, constants and equations, and all objectives", "why_tests_cant": "The claim is about all models that could be written; no model of the repository uses this constructor, so no run of the program reaches it.", "anchors": ["src/logic/stamping/lagrangesegment.py:275-299"]}
