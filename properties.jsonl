{"id": "C01", "title": "DrivenControl accepts exactly the well-formed inputs", "statement": "DrivenControl(durations, rabi_rates, azimuthal_angles, detunings) returns a control if and only if every duration is > 0, every supplied array has as many entries as durations, and every supplied Rabi rate is >= 0. In every other case it raises ArgumentsValueError and never another exception.", "quantifier": "every list of durations, every optional list for each other argument, every length, and every arithmetic (so also IEEE doubles with NaN and infinities)", "why_tests_cant": "The input space is all tuples of arrays of all lengths; tests try three bad inputs.", "anchors": ["qctrlopencontrols/driven_controls/driven_control.py: DrivenControl.__init__", "qctrlopencontrols/utils.py: check_arguments"]}
{"id": "C02", "title": "DrivenControl stores what it was given, and zeros for what was omitted", "statement": "On success the attributes durations, rabi_rates, azimuthal_angles, detunings and name equal the arguments; an omitted array reads back as zeros, one per duration; all four arrays have number_of_segments entries.", "quantifier": "every list of durations, every optional list for each other argument, every length", "why_tests_cant": "Must hold for every length and every combination of omitted arguments.", "anchors": ["qctrlopencontrols/driven_controls/driven_control.py: DrivenControl.__init__, number_of_segments"]}
{"id": "C03", "title": "Segment boundary times", "statement": "times has number_of_segments+1 entries, starts at 0, is strictly increasing, its n-th difference is durations[n], and its last entry is duration.", "quantifier": "every successfully constructed control", "why_tests_cant": "Quantifies over all controls of all lengths.", "anchors": ["qctrlopencontrols/driven_controls/driven_control.py: DrivenControl.times, duration"]}
{"id": "C04", "title": "Extrema and totals are the true extrema and totals", "statement": "For a control with at least one segment maximum_rabi_rate, maximum_detuning, maximum_duration and minimum_duration are attained by some segment and bound every segment; duration is at least maximum_duration. For a control without segments the extrema raise an error rather than return a number.", "quantifier": "every successfully constructed control", "why_tests_cant": "Quantifies over all controls.", "anchors": ["qctrlopencontrols/driven_controls/driven_control.py: maximum_rabi_rate, maximum_detuning, maximum_duration, minimum_duration, duration"]}
{"id": "C05", "title": "Rotation angle of every segment", "statement": "angles[n] = sqrt(rabi_rates[n]^2 + detunings[n]^2) * durations[n]; in particular it does not depend on the azimuthal angle, is non-negative, and is zero exactly when the segment has neither drive nor detuning.", "quantifier": "every control, every segment", "why_tests_cant": "All real-valued controls.", "anchors": ["qctrlopencontrols/driven_controls/driven_control.py: angles, amplitude_x, amplitude_y"]}
{"id": "C06", "title": "Rotation direction of every segment is a unit vector", "statement": "directions[n] is the unit vector v/||v|| with v = (amplitude_x, amplitude_y, detuning) for every segment whose v is non-zero, and the zero vector when v is zero. (The code only guarantees this when ||v|| exceeds min(1e-20*max||v||, 1e-8).)", "quantifier": "every control, every segment", "why_tests_cant": "Depends on the ratio of amplitudes between segments; tests use two amplitude scales.", "anchors": ["qctrlopencontrols/driven_controls/driven_control.py: directions"]}
{"id": "C07", "title": "angles and directions describe the Schroedinger evolution of the documented Hamiltonian", "statement": "For every segment, exp(-i * angles[n]/2 * directions[n].sigma) equals exp(-i * H_n * durations[n]) where H_n = (Omega_n cos(phi_n) sigma_x + Omega_n sin(phi_n) sigma_y + Delta_n sigma_z)/2.", "quantifier": "every control, every segment (above the tolerance of C06)", "why_tests_cant": "A statement about matrix exponentials for all real parameters.", "anchors": ["qctrlopencontrols/driven_controls/driven_control.py: class docstring, angles, directions"]}
{"id": "C08", "title": "export() in the two coordinate systems describes the same control", "statement": "For every control, export('cartesian') and export('cylindrical') have one entry per segment with that segment's duration, equal Detuning lists, and value_cylindrical[n] = X[n] + i*Y[n]; with dimensionless_rabi_rate=False the values are the raw drive Omega_n e^{i phi_n}.", "quantifier": "every control with at least one segment, both values of dimensionless_rabi_rate", "why_tests_cant": "All controls and lengths.", "anchors": ["qctrlopencontrols/driven_controls/driven_control.py: export"]}
{"id": "C09", "title": "Dimensionless export is normalised by the maximum Rabi rate", "statement": "With dimensionless_rabi_rate=True and a non-zero maximum Rabi rate, every exported drive value has modulus <= 1, some segment has modulus exactly 1, and multiplying by maximum_rabi_rate gives back the raw drive.", "quantifier": "every control with a non-zero Rabi rate", "why_tests_cant": "All controls.", "anchors": ["qctrlopencontrols/driven_controls/driven_control.py: export, maximum_rabi_rate"]}
{"id": "C10", "title": "CSV export is faithful", "statement": "For every named control with non-zero maximum Rabi rate the CSV file has a header and exactly number_of_segments rows, in segment order; reading the columns back and multiplying by the maximum_rabi_rate column recovers rabi_rates, azimuthal_angles (or the Cartesian amplitudes), detunings and durations.", "quantifier": "every named control, both coordinate systems", "why_tests_cant": "Round trip over all controls.", "anchors": ["qctrlopencontrols/driven_controls/driven_control.py: _qctrl_expanded_export_content, _export_to_qctrl_expanded_format, export_to_file"]}
{"id": "C11", "title": "Every valid control can be exported to CSV", "statement": "export_to_file with file_type CSV (the default) succeeds for every control with at least one segment. (FALSE of the code: an unnamed control raises KeyError('name'); proved as a negation, with the exact success condition.)", "quantifier": "every control, named or not", "why_tests_cant": "The test-suite only exports named controls.", "anchors": ["qctrlopencontrols/driven_controls/driven_control.py: _export_to_qctrl_expanded_format (line 393)"]}
{"id": "C12", "title": "JSON export is faithful", "statement": "For every control with at least one segment the JSON object contains maximum_rabi_rate, detuning, duration, the two drive arrays of the requested coordinate system, and 'name' exactly when the control is named; the arrays have one entry per segment and, if the maximum Rabi rate is non-zero, recover the control.", "quantifier": "every control, both coordinate systems", "why_tests_cant": "Round trip over all controls.", "anchors": ["qctrlopencontrols/driven_controls/driven_control.py: _qctrl_expanded_export_content, _export_to_qctrl_expanded_format"]}
{"id": "C13", "title": "A failing export never touches the file system, a succeeding one touches one file", "statement": "If export_to_file raises, no file has been created or modified; if it succeeds exactly the file `filename` changed. Unsupported file_format, file_type or coordinates always raise ArgumentsValueError.", "quantifier": "every control with 1-D arrays (other shapes: C101), every argument string, every prior state of a file system that does not fail (failures: C100)", "why_tests_cant": "Quantifies over all strings and all failure points.", "anchors": ["qctrlopencontrols/driven_controls/driven_control.py: export_to_file"]}
{"id": "C14", "title": "str(control) shows the control", "statement": "In str(DrivenControl), multiplying each printed list entry by the printed factor gives back the corresponding attribute, for Rabi rates, azimuthal angles, detunings and durations. (FALSE for detunings whose maximum is 0 but which are not all 0; proved for the rest.)", "quantifier": "every control with at least one segment", "why_tests_cant": "All controls; the failing inputs are not in the tests.", "anchors": ["qctrlopencontrols/driven_controls/driven_control.py: __str__"]}
{"id": "C15", "title": "repr and error messages carry every field", "statement": "repr of a control / sequence is ClassName(attr=repr,...) listing every constructor argument exactly once in a fixed order; an ArgumentsValueError message is its description followed by one line 'name=repr' for every argument and then every extra; create_repr_from_attributes rejects a missing object or attribute list.", "quantifier": "every object, every attribute list, every argument dictionary", "why_tests_cant": "All lists of attributes.", "anchors": ["qctrlopencontrols/utils.py: create_repr_from_attributes", "qctrlopencontrols/exceptions.py: ArgumentsValueError", "qctrlopencontrols/driven_controls/driven_control.py: __repr__", "qctrlopencontrols/dynamic_decoupling_sequences/dynamic_decoupling_sequence.py: __repr__"]}
{"id": "C16", "title": "Primitive control performs the requested rotation", "statement": "new_primitive_control(theta, Omega, phi) succeeds exactly when theta > 0 and Omega > 0 (ArgumentsValueError otherwise); it has one segment at rate Omega and its evolution is the rotation by theta about the axis (cos phi, sin phi, 0).", "quantifier": "all real theta, Omega, phi", "why_tests_cant": "All real arguments.", "anchors": ["qctrlopencontrols/driven_controls/predefined.py: new_primitive_control, _validate_rabi_parameters"]}
{"id": "C17", "title": "BB1 control performs the requested rotation", "statement": "new_bb1_control(theta, Omega, phi) succeeds exactly when 0 < theta <= 4pi and Omega > 0; its segments are the documented table and its noise-free evolution equals the primitive rotation (theta, phi).", "quantifier": "all real theta, Omega, phi", "why_tests_cant": "All real arguments; needs trigonometric identities.", "anchors": ["qctrlopencontrols/driven_controls/predefined.py: new_bb1_control, _get_transformed_rabi_rotation_wimperis"]}
{"id": "C18", "title": "SK1 control performs the requested rotation", "statement": "new_sk1_control(theta, Omega, phi) succeeds exactly when 0 < theta <= 4pi and Omega > 0; its segments are the documented table and its noise-free evolution equals the primitive rotation.", "quantifier": "all real theta, Omega, phi", "why_tests_cant": "All real arguments.", "anchors": ["qctrlopencontrols/driven_controls/predefined.py: new_sk1_control"]}
{"id": "C19", "title": "CORPSE control performs the requested rotation", "statement": "new_corpse_control(theta, Omega, phi) succeeds exactly when theta > 0 and Omega > 0; its noise-free evolution equals the primitive rotation (theta, phi).", "quantifier": "all real theta, Omega, phi", "why_tests_cant": "All real arguments.", "anchors": ["qctrlopencontrols/driven_controls/predefined.py: new_corpse_control"]}
{"id": "C20", "title": "SCROFULOUS control performs the requested rotation", "statement": "new_scrofulous_control succeeds exactly when Omega > 0 and theta is (up to np.isclose) pi, pi/2 or pi/4; every arccos argument it forms lies in [-1,1], so no NaN is produced; the evolution has a rotation angle fixed by theta_1 and equals the target rotation up to a global phase whenever theta_1 solves the documented sinc equation (exactly so for theta=pi), and approximates it with the tabulated degrees otherwise: within 3e-3 in each entry, but never exactly, the error being at least 1.9e-4 whatever the global phase.", "quantifier": "all real theta, Omega, phi", "why_tests_cant": "All real arguments including the isclose neighbourhoods.", "anchors": ["qctrlopencontrols/driven_controls/predefined.py: new_scrofulous_control"]}
{"id": "C21", "title": "CORPSE in BB1 performs the requested rotation", "statement": "new_corpse_in_bb1_control succeeds exactly when 0 < theta <= 4pi and Omega > 0, is the BB1 control with its first segment replaced by the CORPSE control, and its noise-free evolution equals the primitive rotation.", "quantifier": "all real theta, Omega, phi", "why_tests_cant": "All real arguments.", "anchors": ["qctrlopencontrols/driven_controls/predefined.py: new_corpse_in_bb1_control"]}
{"id": "C22", "title": "CORPSE in SK1 performs the requested rotation", "statement": "new_corpse_in_sk1_control succeeds exactly when 0 < theta <= 4pi and Omega > 0, is the SK1 control with its first segment replaced by the CORPSE control, and its noise-free evolution equals the primitive rotation.", "quantifier": "all real theta, Omega, phi", "why_tests_cant": "All real arguments.", "anchors": ["qctrlopencontrols/driven_controls/predefined.py: new_corpse_in_sk1_control"]}
{"id": "C23", "title": "CORPSE in SCROFULOUS equals SCROFULOUS with each segment replaced by CORPSE", "statement": "new_corpse_in_scrofulous_control succeeds on exactly the same arguments as new_scrofulous_control, has nine segments, three per SCROFULOUS segment, and its noise-free evolution equals that of the SCROFULOUS control. Like SCROFULOUS it is exact only for theta = pi.", "quantifier": "all real theta, Omega, phi", "why_tests_cant": "All real arguments.", "anchors": ["qctrlopencontrols/driven_controls/predefined.py: new_corpse_in_scrofulous_control"]}
{"id": "C24", "title": "WAMF1 performs the requested rotation", "statement": "new_wamf1_control succeeds exactly when Omega > 0 and theta is (up to np.isclose) pi, pi/2 or pi/4; it has four equal segments and its noise-free evolution is, up to a global phase, the rotation by the nominal angle about (cos phi, sin phi, 0).", "quantifier": "all real theta, Omega, phi", "why_tests_cant": "All real arguments.", "anchors": ["qctrlopencontrols/driven_controls/predefined.py: new_wamf1_control"]}
{"id": "C25", "title": "Predefined controls respect the maximum Rabi rate", "statement": "For every predefined composite control all Rabi rates are in [0, maximum_rabi_rate], the maximum is attained, all detunings are 0, and the total duration scales as 1/maximum_rabi_rate.", "quantifier": "all nine composite constructors, all real arguments", "why_tests_cant": "All real arguments.", "anchors": ["qctrlopencontrols/driven_controls/predefined.py: all new_*_control"]}
{"id": "C26", "title": "SK1 is insensitive to amplitude errors to first order", "statement": "If every Rabi rate of an SK1 control is scaled by (1+e), the derivative of its evolution with respect to e at 0 vanishes.", "quantifier": "all accepted theta, Omega, phi", "why_tests_cant": "A derivative statement over all parameters.", "anchors": ["qctrlopencontrols/driven_controls/predefined.py: new_sk1_control"]}
{"id": "C27", "title": "BB1 is insensitive to amplitude errors to first and second order", "statement": "If every Rabi rate of a BB1 control is scaled by (1+e), the first and second derivative of its evolution with respect to e at 0 vanish.", "quantifier": "all accepted theta, Omega, phi", "why_tests_cant": "A derivative statement over all parameters.", "anchors": ["qctrlopencontrols/driven_controls/predefined.py: new_bb1_control"]}
{"id": "C28", "title": "CORPSE is insensitive to detuning errors to first order", "statement": "If a constant d is added to every detuning of a CORPSE control, the derivative of its evolution with respect to d at 0 vanishes; the same for CORPSE-in-BB1 and CORPSE-in-SK1 relative to the enclosing control's first segment.", "quantifier": "all accepted theta, Omega, phi", "why_tests_cant": "A derivative statement over all parameters.", "anchors": ["qctrlopencontrols/driven_controls/predefined.py: new_corpse_control"]}
{"id": "C29", "title": "Modulated Gaussian control: segmentation", "statement": "An accepted call of new_modulated_gaussian_control yields at least two equal segments whose durations sum exactly to `duration`, and every segment is at least minimum_segment_duration long. (The last part is FALSE: segments are never longer, and strictly shorter unless duration/minimum_segment_duration is an integer.)", "quantifier": "all real arguments", "why_tests_cant": "All real arguments; the tests use an integer ratio.", "anchors": ["qctrlopencontrols/driven_controls/predefined.py: new_modulated_gaussian_control (line 1044)"]}
{"id": "C30", "title": "Modulated Gaussian control: Rabi rate bound", "statement": "With non-zero modulation frequency (and a not identically vanishing modulation) the largest Rabi rate equals maximum_rabi_rate; with zero frequency it is at most maximum_rabi_rate whenever one full rotation fits.", "quantifier": "all accepted real arguments", "why_tests_cant": "All real arguments.", "anchors": ["qctrlopencontrols/driven_controls/predefined.py: new_modulated_gaussian_control"]}
{"id": "C31", "title": "Modulated Gaussian control: net identity", "statement": "The noise-free evolution of an accepted modulated Gaussian control is the identity (up to a sign).", "quantifier": "all accepted real arguments for which the modulation does not vanish at every sample", "why_tests_cant": "All real arguments and segment counts.", "anchors": ["qctrlopencontrols/driven_controls/predefined.py: new_modulated_gaussian_control"]}
{"id": "C32", "title": "Azimuthal angle rotates the control about z", "statement": "Adding a to azimuthal_angle of any predefined composite control adds a to every segment's azimuthal angle and changes nothing else; the evolution is conjugated by the z-rotation by a.", "quantifier": "all nine constructors, all real arguments", "why_tests_cant": "All real arguments.", "anchors": ["qctrlopencontrols/driven_controls/predefined.py: all new_*_control"]}
{"id": "C33", "title": "DynamicDecouplingSequence accepts exactly the well-formed inputs", "statement": "DynamicDecouplingSequence(...) succeeds iff duration > 0, all offsets lie in [0, duration] and the other three arrays have as many entries as offsets; it raises ArgumentsValueError otherwise; on success the attributes equal the arguments.", "quantifier": "all durations and lists, all lengths, every arithmetic", "why_tests_cant": "All inputs.", "anchors": ["qctrlopencontrols/dynamic_decoupling_sequences/dynamic_decoupling_sequence.py: DynamicDecouplingSequence.__init__"]}
{"id": "C34", "title": "Pre/post rotations leave an identity or a Z", "statement": "For every sequence consisting of X, Y and Z pi-pulses, with pre_post_rotation the product of all pulses is, up to a global phase, the identity or Z; a sequence containing any other pulse is rejected with ArgumentsValueError.", "quantifier": "all finite sequences of X/Y/Z pi-pulses", "why_tests_cant": "Induction over all pulse lists.", "anchors": ["qctrlopencontrols/dynamic_decoupling_sequences/predefined.py: _add_pre_post_rotations"]}
{"id": "C35", "title": "Ramsey and spin echo", "statement": "new_ramsey_sequence has no pulses (with pre/post: X(pi/2) at 0 and X(-pi/2) at duration, net identity); new_spin_echo_sequence has exactly one X(pi) at duration/2. Both succeed exactly for duration > 0.", "quantifier": "all real durations", "why_tests_cant": "All real arguments.", "anchors": ["qctrlopencontrols/dynamic_decoupling_sequences/predefined.py: new_ramsey_sequence, new_spin_echo_sequence"]}
{"id": "C36", "title": "Carr-Purcell and CPMG timing", "statement": "new_carr_purcell_sequence / new_cpmg_sequence succeed exactly when duration > 0 and offset_count >= 1; they have n = floor(offset_count) X (resp. Y) pi-pulses, the i-th at (duration/n)(i-1/2); times are strictly increasing, strictly inside (0,duration) and symmetric about duration/2.", "quantifier": "all real durations, all n", "why_tests_cant": "All n.", "anchors": ["qctrlopencontrols/dynamic_decoupling_sequences/predefined.py: new_carr_purcell_sequence, new_cpmg_sequence, _carr_purcell_meiboom_gill_offsets"]}
{"id": "C37", "title": "Uhrig timing", "statement": "new_uhrig_sequence has n Y pi-pulses, the i-th at duration*sin^2(i*pi/(2(n+1))); times are strictly increasing, strictly inside (0,duration), symmetric about duration/2.", "quantifier": "all real durations, all n", "why_tests_cant": "All n.", "anchors": ["qctrlopencontrols/dynamic_decoupling_sequences/predefined.py: new_uhrig_sequence, _uhrig_single_axis_offsets"]}
{"id": "C38", "title": "Periodic timing", "statement": "new_periodic_sequence has n X pi-pulses, the i-th at i*duration/(n+1), strictly increasing inside (0,duration).", "quantifier": "all real durations, all n", "why_tests_cant": "All n.", "anchors": ["qctrlopencontrols/dynamic_decoupling_sequences/predefined.py: new_periodic_sequence"]}
{"id": "C39", "title": "Walsh sequence switches exactly like the Walsh function", "statement": "For every Paley order k in 1..2000 the sign (-1)^(number of pulses before t) equals the documented PAL_k(t/duration) at every time t in (0,duration) that is not a switching point; pulses are X(pi), strictly increasing.", "quantifier": "all durations, all Paley orders, all times t", "why_tests_cant": "All k and a continuum of t.", "anchors": ["qctrlopencontrols/dynamic_decoupling_sequences/predefined.py: new_walsh_sequence"]}
{"id": "C40", "title": "Quadratic sequence nests Uhrig in Uhrig", "statement": "new_quadratic_sequence has n1 + n2(n1+1) pulses: X(pi) at the Uhrig times of the whole interval, Z(pi) at the Uhrig times of each sub-interval, in strictly increasing time order.", "quantifier": "all durations, all n1, n2", "why_tests_cant": "All n1, n2.", "anchors": ["qctrlopencontrols/dynamic_decoupling_sequences/predefined.py: new_quadratic_sequence"]}
{"id": "C41", "title": "X-concatenated sequence matches its recursion", "statement": "For every order l the pulse times of new_x_concatenated_sequence are exactly the times that occur an odd number of times in the documented recursion C_l = C_{l-1} X C_{l-1} X, strictly increasing. (The code additionally drops the pulse at time `duration` that the recursion has for odd l.)", "quantifier": "all durations, all orders l", "why_tests_cant": "All l, by induction.", "anchors": ["qctrlopencontrols/dynamic_decoupling_sequences/predefined.py: new_x_concatenated_sequence, _concatenation_x"]}
{"id": "C42", "title": "XY-concatenated sequence matches its recursion", "statement": "For every order l the pulses of new_xy_concatenated_sequence are, time by time, the products of X and Y of the documented recursion C_l = C_{l-1} X C_{l-1} Y C_{l-1} X C_{l-1} Y. (True for l = 1, 2; FALSE for every l >= 3: free-evolution units are overwritten.)", "quantifier": "all durations, all orders l", "why_tests_cant": "Tests compare l=2 only.", "anchors": ["qctrlopencontrols/dynamic_decoupling_sequences/predefined.py: new_xy_concatenated_sequence, _concatenation_xy"]}
{"id": "C43", "title": "Every predefined sequence is well formed", "statement": "For valid arguments every predefined constructor (with or without pre/post rotation) succeeds, its offsets lie in [0,duration] and increase strictly (for XY-concatenated sequences: are non-decreasing), every pulse is an X, Y or Z pi-pulse or a pre/post X(pi/2), and scaling the duration scales all offsets by the same factor and changes nothing else.", "quantifier": "all constructors, all valid arguments", "why_tests_cant": "All arguments.", "anchors": ["qctrlopencontrols/dynamic_decoupling_sequences/predefined.py: all new_*_sequence"]}
{"id": "C44", "title": "Dephasing cancellation to lowest order", "statement": "The sensitivity to dephasing (a sign flipped by each pi-pulse about an axis in the XY plane) of spin echo, Carr-Purcell, CPMG, Uhrig, Walsh, quadratic and X-concatenated sequences of every order, and of XY-concatenated ones of order 1 and of every even order, integrates to zero over [0,duration] (so static dephasing is refocused), with or without pre/post rotation; for the periodic sequence exactly when n is odd. Ramsey, periodic with even n and XY-concatenated sequences of odd order 2k+1 >= 3 do not refocus it: they leave T, T/(n+1) and -T(1-16^-k)/10.", "quantifier": "all durations and orders", "why_tests_cant": "All n.", "anchors": ["qctrlopencontrols/dynamic_decoupling_sequences/predefined.py: new_spin_echo_sequence, new_carr_purcell_sequence, new_cpmg_sequence, new_uhrig_sequence, new_periodic_sequence, new_walsh_sequence, new_x_concatenated_sequence, new_xy_concatenated_sequence"]}
{"id": "C45", "title": "Uhrig cancels dephasing to order n", "statement": "For the n-pulse Uhrig sequence the integral of the dephasing sensitivity times t^k over [0,duration] vanishes for every k < n; likewise for a quadratic sequence with n outer pulses.", "quantifier": "all durations, all n, all k<n", "why_tests_cant": "All n, k.", "anchors": ["qctrlopencontrols/dynamic_decoupling_sequences/predefined.py: new_uhrig_sequence, _uhrig_single_axis_offsets"]}
{"id": "C46", "title": "convert_dds_to_driven_control only fails with ArgumentsValueError", "statement": "For every sequence and every rates, the conversion returns a valid control or raises ArgumentsValueError; it raises exactly when a rate is not positive, the minimum segment duration is negative, a Rabi rotation is negative, a pulse has both positive Rabi and positive detuning rotation, offsets are not strictly increasing, or two neighbouring pulses leave less than the minimum gap (up to np.isclose).", "quantifier": "all sequences, all rates", "why_tests_cant": "All sequences of all lengths.", "anchors": ["qctrlopencontrols/dynamic_decoupling_sequences/dynamic_decoupling_sequence.py: convert_dds_to_driven_control, _check_valid_operation"]}
{"id": "C47", "title": "Conversion preserves total duration", "statement": "The converted control lasts as long as the sequence. (True exactly when no tolerated overlap occurs, in particular when minimum_segment_duration > 1.0001e-8; in general the error is at most 1e-8 per gap and never negative; a witness shows it can be non-zero.)", "quantifier": "all convertible sequences", "why_tests_cant": "All sequences.", "anchors": ["qctrlopencontrols/dynamic_decoupling_sequences/dynamic_decoupling_sequence.py: convert_dds_to_driven_control"]}
{"id": "C48", "title": "Conversion respects the rate limits", "statement": "Every segment of the converted control has Rabi rate <= maximum_rabi_rate and |detuning| <= maximum_detuning_rate, and never both non-zero.", "quantifier": "all convertible sequences", "why_tests_cant": "All sequences.", "anchors": ["qctrlopencontrols/dynamic_decoupling_sequences/dynamic_decoupling_sequence.py: convert_dds_to_driven_control"]}
{"id": "C49", "title": "Conversion preserves the unitary operations", "statement": "The evolution of the converted control equals the time-ordered product of the ideal pulses of the sequence. (Requires the sequence to last longer than 1e-8 and each pulse to be purely Rabi or purely detuning and not in the np.isclose dead zone.)", "quantifier": "all convertible sequences", "why_tests_cant": "Induction over all sequences.", "anchors": ["qctrlopencontrols/dynamic_decoupling_sequences/dynamic_decoupling_sequence.py: convert_dds_to_driven_control"]}
{"id": "C50", "title": "Conversion respects the minimum segment duration", "statement": "Every pulse segment of the converted control lasts at least minimum_segment_duration, and every gap segment at least minimum_segment_duration up to np.isclose tolerance.", "quantifier": "all convertible sequences", "why_tests_cant": "All sequences.", "anchors": ["qctrlopencontrols/dynamic_decoupling_sequences/dynamic_decoupling_sequence.py: convert_dds_to_driven_control"]}
{"id": "C51", "title": "Converted pulses sit where the sequence put them", "statement": "Without tolerated overlaps, at every time t the converted control drives with pulse j's rate and phase if t is in pulse j's window (width rotation/rate or the minimum duration, centred on its offset, shifted inside at 0 and at duration), and is idle otherwise.", "quantifier": "all convertible sequences, all times t", "why_tests_cant": "All sequences and a continuum of times.", "anchors": ["qctrlopencontrols/dynamic_decoupling_sequences/dynamic_decoupling_sequence.py: convert_dds_to_driven_control"]}
{"id": "C52", "title": "Simultaneous Rabi and detuning rotations are rejected", "statement": "A sequence with a pulse having both a Rabi and a detuning rotation is rejected by the conversion. (FALSE of the code when the detuning rotation is negative: it is silently dropped.)", "quantifier": "all sequences", "why_tests_cant": "The tests only try positive detuning.", "anchors": ["qctrlopencontrols/dynamic_decoupling_sequences/dynamic_decoupling_sequence.py: _check_valid_operation"]}
{"id": "C53", "title": "Conversion works on every time scale", "statement": "Converting a sequence is independent of the unit of time. (FALSE: every sequence with duration <= 1e-8 is converted into free evolution, its pulses silently dropped; witness and characterisation.)", "quantifier": "all sequences", "why_tests_cant": "Tests use durations of order 1 or microseconds.", "anchors": ["qctrlopencontrols/dynamic_decoupling_sequences/dynamic_decoupling_sequence.py: convert_dds_to_driven_control (line 467)"]}
{"id": "C54", "title": "Sequence export lists every pulse", "statement": "DynamicDecouplingSequence.export() has one Rabi entry omega*e^{i phi} and one Detuning entry per offset, in order, from which the sequence's offsets, detuning rotations and complex Rabi rotations can be read back.", "quantifier": "all sequences", "why_tests_cant": "All lengths.", "anchors": ["qctrlopencontrols/dynamic_decoupling_sequences/dynamic_decoupling_sequence.py: export"]}
{"id": "C55", "title": "Sequence export_to_file is conversion followed by control export", "statement": "DynamicDecouplingSequence.export_to_file writes exactly what exporting the converted control writes, fails iff conversion or that export fails, and a failure leaves the file system untouched. In particular an unnamed sequence (the default) can never be exported as CSV: KeyError.", "quantifier": "all sequences, all arguments", "why_tests_cant": "All sequences and failure points.", "anchors": ["qctrlopencontrols/dynamic_decoupling_sequences/dynamic_decoupling_sequence.py: export_to_file"]}
{"id": "C56", "title": "str(sequence) shows the sequence", "statement": "In str(DynamicDecouplingSequence), multiplying each printed list entry by the printed factor gives back the corresponding attribute (offsets, Rabi rotations, azimuthal angles, detuning rotations).", "quantifier": "every constructed sequence, every number formatting", "why_tests_cant": "ranges over all sequences", "anchors": ["qctrlopencontrols/dynamic_decoupling_sequences/dynamic_decoupling_sequence.py:DynamicDecouplingSequence.__str__"]}
{"id": "C57", "title": "CORPSE nesting keeps the amplitude behaviour", "statement": "Under any relative error e of all Rabi rates, CORPSE, CORPSE-in-BB1, CORPSE-in-SK1 and CORPSE-in-SCROFULOUS evolve exactly like the primitive, BB1, SK1 and SCROFULOUS control; hence CORPSE-in-SK1 is insensitive to amplitude errors to first order and CORPSE-in-BB1 to second order. A primitive pi pulse is not.", "quantifier": "all accepted theta, Omega, phi, all real e", "why_tests_cant": "All parameters and errors, derivatives.", "anchors": ["qctrlopencontrols/driven_controls/predefined.py: new_corpse_in_bb1_control, new_corpse_in_sk1_control, new_corpse_in_scrofulous_control"]}
{"id": "C58", "title": "SCROFULOUS is insensitive to amplitude errors to first order", "statement": "If every Rabi rate of an accepted SCROFULOUS control is scaled by (1+e), the derivative of its evolution with respect to e at 0 vanishes.", "quantifier": "all accepted theta, Omega, phi", "why_tests_cant": "A derivative statement over all parameters.", "anchors": ["qctrlopencontrols/driven_controls/predefined.py: new_scrofulous_control"]}
{"id": "C59", "title": "CORPSE in SCROFULOUS is insensitive to both kinds of error to first order", "statement": "The derivatives of the evolution of an accepted CORPSE-in-SCROFULOUS control with respect to a relative amplitude error and with respect to a constant detuning error vanish at 0.", "quantifier": "all accepted theta, Omega, phi", "why_tests_cant": "A derivative statement over all parameters.", "anchors": ["qctrlopencontrols/driven_controls/predefined.py: new_corpse_in_scrofulous_control"]}
{"id": "C60", "title": "Predefined sequences convert on fast enough hardware and keep their effect", "statement": "For every predefined sequence with at most one pulse at each time: if between any two of the instants 0, T and its pulse times there is room for two pi-pulses and a minimum segment, convert_dds_to_driven_control returns a control that lasts exactly T and (for T > 1e-8) performs exactly the product of the ideal pulses, which with pre/post rotations is the identity or Z up to a phase. In particular there are rates above which the conversion always succeeds.", "quantifier": "all predefined constructors, all their valid arguments, all hardware parameters", "why_tests_cant": "Unbounded orders and all real hardware rates.", "anchors": ["qctrlopencontrols/dynamic_decoupling_sequences/predefined.py", "qctrlopencontrols/dynamic_decoupling_sequences/dynamic_decoupling_sequence.py: convert_dds_to_driven_control"]}
{"id": "C61", "title": "Which predefined sequences can be converted at all", "statement": "A predefined sequence can be converted for some hardware parameters if and only if it is not an XY-concatenated sequence of order three or more, nor one of order one with pre/post rotations: those have two pulses at the same time and every conversion raises ArgumentsValueError.", "quantifier": "all predefined constructors, all their valid arguments, all hardware parameters", "why_tests_cant": "A universal negative over all real hardware rates and all orders.", "anchors": ["qctrlopencontrols/dynamic_decoupling_sequences/predefined.py: new_xy_concatenated_sequence", "qctrlopencontrols/dynamic_decoupling_sequences/dynamic_decoupling_sequence.py: convert_dds_to_driven_control"]}
{"id": "C62", "title": "Predefined sequences that coincide", "statement": "Calls that describe the same sequence return equal objects: spin echo, Carr-Purcell with one pulse, periodic with one pulse, Walsh of order one and X-concatenated of order one; Walsh of order 2^m and periodic with 2^(m+1)-1 pulses; Walsh of order 3*2^m and Carr-Purcell with 2^(m+1) pulses; X-concatenated of order l and Walsh of order 2^l-1; and Uhrig and CPMG with the same count exactly when the count is below three.", "quantifier": "all durations (valid or not), all orders in the documented ranges, both pre/post settings, all names", "why_tests_cant": "All orders and all real durations.", "anchors": ["qctrlopencontrols/dynamic_decoupling_sequences/predefined.py: new_spin_echo_sequence, new_carr_purcell_sequence, new_periodic_sequence, new_walsh_sequence, new_x_concatenated_sequence, new_uhrig_sequence, new_cpmg_sequence"]}
{"id": "C63", "title": "Predefined sequences survive floating-point rounding", "statement": "Run in floating-point arithmetic, every predefined sequence constructor accepts what it accepts in exact arithmetic and returns the same sequence up to rounding: the same duration, name and number of pulses, each pulse moved by at most a small multiple of the unit roundoff times the duration, all angles correctly rounded, and the temporal order and coincidences of the pulses, the start and the end (which the concatenated and Walsh constructors compute by comparing floats for equality) exactly as in exact arithmetic.", "quantifier": "all floating-point arithmetics with unit roundoff at most 2^-20 (doubles in particular), all positive durations, all valid counts and orders up to an explicit bound given by the unit roundoff (all 2000 orders for Walsh), both pre/post settings, all names", "why_tests_cant": "Whether equality tests on accumulated floats select the right pulses depends on the rounding of the particular duration; tests use a handful of durations.", "anchors": ["qctrlopencontrols/dynamic_decoupling_sequences/predefined.py: new_ramsey_sequence, new_spin_echo_sequence, new_carr_purcell_sequence, new_cpmg_sequence, new_uhrig_sequence, new_periodic_sequence, new_walsh_sequence, new_quadratic_sequence, new_x_concatenated_sequence, new_xy_concatenated_sequence, _add_pre_post_rotations"]}
{"id": "C64", "title": "Infinities and NaN as arguments", "statement": "Which non-finite arguments get past the argument checks: durations and Rabi rates may be +inf but not -inf or NaN; azimuthal angles, detunings and rotations may be anything including NaN; composite pulses need a finite positive Rabi rate and a finite rotation, except that the primitive pulse takes an infinite rotation; predefined sequences reject NaN everywhere, but an infinite pulse count or order (other than a Walsh order) and an infinite Gaussian duration end in OverflowError instead of ArgumentsValueError.", "quantifier": "all extended-real or NaN arguments, all array lengths, all composite schemes and predefined sequences, both pre/post settings, all names", "why_tests_cant": "Every combination of special values and arbitrary finite ones; tests only use finite arguments.", "anchors": ["qctrlopencontrols/driven_controls/driven_control.py: DrivenControl.__init__", "qctrlopencontrols/dynamic_decoupling_sequences/dynamic_decoupling_sequence.py: DynamicDecouplingSequence.__init__", "qctrlopencontrols/driven_controls/predefined.py: new_primitive_control, new_bb1_control, new_sk1_control, new_scrofulous_control, new_corpse_control, new_modulated_gaussian_control", "qctrlopencontrols/dynamic_decoupling_sequences/predefined.py: new_ramsey_sequence, new_spin_echo_sequence, new_carr_purcell_sequence, new_cpmg_sequence, new_uhrig_sequence, new_periodic_sequence, new_walsh_sequence, new_quadratic_sequence, new_x_concatenated_sequence, new_xy_concatenated_sequence"]}
{"id": "C65", "title": "Finite arguments never produce infinities or NaN", "statement": "If all numeric arguments are ordinary numbers then no division by zero and no function outside its domain happens in any composite pulse, predefined sequence, conversion or accessor of the library: the result is the one of exact real arithmetic and contains no infinity and no NaN. The same holds for an accepted Gaussian pulse; a Gaussian whose samples all vanish is rejected.", "quantifier": "all finite arguments, valid or not, of all constructors, of the conversion and of all properties of all controls", "why_tests_cant": "The absence of a singularity anywhere in the real parameter space cannot be sampled.", "anchors": ["qctrlopencontrols/driven_controls/predefined.py: all constructors", "qctrlopencontrols/dynamic_decoupling_sequences/predefined.py: all constructors", "qctrlopencontrols/dynamic_decoupling_sequences/dynamic_decoupling_sequence.py: convert_dds_to_driven_control", "qctrlopencontrols/driven_controls/driven_control.py: DrivenControl.directions, angles, times, __str__"]}
{"id": "C66", "title": "Exported numbers are finite exactly if there is drive", "statement": "Files and dimensionless plot data exported from a control contain only finite numbers if some Rabi rate is non-zero; if all Rabi rates are zero (for example the control converted from a Ramsey sequence) the export still succeeds and writes NaN amplitudes for every segment. Dimensional plot data are always finite.", "quantifier": "all constructed controls of finite numbers, all file formats, coordinates and initial file systems", "why_tests_cant": "All controls; the tests only export controls with drive.", "anchors": ["qctrlopencontrols/driven_controls/driven_control.py: DrivenControl.export_to_file, export, _export_to_qctrl_expanded_format"]}
{"id": "C67", "title": "Conversion with infinite rates or an infinite minimum segment duration", "statement": "convert_dds_to_driven_control accepts infinite maximum Rabi and detuning rates; with no minimum segment duration it then does what it does for the same sequence without its pulses: a sequence is accepted exactly if its instants are strictly increasing, however close they are, no Rabi rotation is negative and no pulse has positive rotations of both kinds, and all pulses are silently dropped. NaN as a rate or as the minimum segment duration, and an infinite minimum segment duration, raise ArgumentsValueError for every sequence.", "quantifier": "all sequences of finite numbers, all names; all rates for the infinite minimum segment duration", "why_tests_cant": "All sequences; tests never use infinite rates.", "anchors": ["qctrlopencontrols/dynamic_decoupling_sequences/dynamic_decoupling_sequence.py: convert_dds_to_driven_control"]}
{"id": "C68", "title": "WAMF1 suppresses a constant detuning", "statement": "Every WAMF1 control has a first-order sensitivity to a constant detuning error of at most 1e-8/Omega (the primitive pi pulse: 1/Omega). It vanishes exactly for a rotation by pi; for pi/2 and pi/4 the eight-digit optimised constants leave a non-zero residue.", "quantifier": "all accepted rotation angles, maximum Rabi rates, azimuthal angles and names", "why_tests_cant": "The derivative of a matrix exponential at an error is not observable from a table of segment values; the tests compare the table with itself.", "anchors": ["qctrlopencontrols/driven_controls/predefined.py: new_wamf1_control"]}
{"id": "C69", "title": "Segments derived from polar angles perform the rotations", "statement": "The segments derived from a list of (polar angle, azimuthal angle) pairs perform exactly these rotations one after the other, with no detuning and total amplitude equal to the given amplitude; the default amplitude is 2 pi.", "quantifier": "all lists of angle pairs, all non-zero amplitudes", "why_tests_cant": "All lists and amplitudes; the function is not tested.", "anchors": ["qctrlopencontrols/driven_controls/predefined.py: _derive_segments"]}
{"id": "C70", "title": "Conversion does not touch its input", "statement": "convert_dds_to_driven_control changes no array that existed before the call, in particular no array of the sequence, whether it returns or raises; the returned control shares no array with anything that existed before and its four arrays are pairwise distinct, so later item assignments on the sequence do not change the control and vice versa. The item-assignment loops of the implementation compute the same control as the per-segment description used by the other properties.", "quantifier": "all heaps of arrays, all constructed sequences after any later item assignments, all rates, minimum durations, names, and all later item assignments; any arithmetic", "why_tests_cant": "A statement about every array in the program and every later assignment; tests only look at the returned values.", "anchors": ["qctrlopencontrols/dynamic_decoupling_sequences/dynamic_decoupling_sequence.py: convert_dds_to_driven_control"]}
{"id": "C71", "title": "Constructors share the caller's float arrays", "statement": "DrivenControl and DynamicDecouplingSequence change no array, but keep float arrays they are given without copying: every later item assignment by the caller is visible in the object, so the validation at construction is not a lasting guarantee (an accepted object can later have attributes its constructor rejects). Objects made from lists or defaults share no array with anything that existed before.", "quantifier": "all heaps of arrays, all arguments (arrays or lists), all later item assignments; any arithmetic", "why_tests_cant": "Sharing shows only through later assignments to other variables; all later histories are quantified over.", "anchors": ["qctrlopencontrols/driven_controls/driven_control.py: DrivenControl.__init__", "qctrlopencontrols/dynamic_decoupling_sequences/dynamic_decoupling_sequence.py: DynamicDecouplingSequence.__init__"]}
{"id": "C72", "title": "Exact order of cancellation of dephasing noise", "statement": "Every predefined dynamical decoupling sequence cancels dephasing noise to exactly a known order: the sensitivity (sign flipped by every pi-pulse in the XY plane) is orthogonal over the duration to 1, t, ..., t^(m-1) and not to t^m, with m = 0 for Ramsey, 1 for spin echo, 1 / 2 for Carr-Purcell and CPMG with an odd / even number of pulses, 1 / 0 for periodic sequences with an odd / even number, the number of pulses for Uhrig and of outer pulses for quadratic sequences, the number of binary ones of the Paley order for Walsh sequences, the level for X-concatenated ones, and for XY-concatenated ones 1 at level one, 2 at level two, and from then on only 0 at odd and 1 at even levels.", "quantifier": "all ten families, all accepted durations and orders of any size, with or without pre and post rotations", "why_tests_cant": "An integral identity and a nonvanishing statement for every order of every family; numerical integration can show neither an exact zero nor cover all orders.", "anchors": ["qctrlopencontrols/dynamic_decoupling_sequences/predefined.py: new_ramsey_sequence, new_spin_echo_sequence, new_carr_purcell_sequence, new_cpmg_sequence, new_uhrig_sequence, new_periodic_sequence, new_walsh_sequence, new_quadratic_sequence, new_x_concatenated_sequence, new_xy_concatenated_sequence"]}
{"id": "C73", "title": "Exported CSV files are read correctly by standard readers", "statement": "A CSV file exported from a named control, in either coordinate system, is accepted by any reader following RFC 4180, which finds the titles and exactly one record per segment; looking up each documented column by its title gives the printed values of the attribute (Rabi rates or amplitudes divided by the maximum), in order, whatever characters the printed numbers contain.", "quantifier": "all constructed named controls of any size, both coordinate systems, all ways of printing numbers; any arithmetic", "why_tests_cant": "Needs an independent reader and every file; quoting and row separation must be right for every content.", "anchors": ["qctrlopencontrols/driven_controls/driven_control.py: DrivenControl.export_to_file, _export_to_qctrl_expanded_format"]}
{"id": "C74", "title": "Exported JSON files are ASCII, readable and keep the name", "statement": "A JSON file exported from a control contains only ASCII characters whatever the name of the control. If every number prints as a JSON number, any reader following RFC 8259 gets one object without duplicate keys, with exactly the printed attributes and the unchanged name (quotes, control characters and characters outside the basic plane included; no name member if the control has none). If a number prints as NaN or Infinity the file is not JSON.", "quantifier": "all controls and names, both coordinate systems, all ways of printing numbers; any arithmetic", "why_tests_cant": "All Unicode names and contents of any size, and an independent reader.", "anchors": ["qctrlopencontrols/driven_controls/driven_control.py: DrivenControl.export_to_file, _export_to_qctrl_expanded_format"]}
{"id": "C75", "title": "Which controls export to valid JSON", "statement": "Exporting a control with finite attributes and at least one segment to JSON always succeeds, and the file is valid JSON exactly if some Rabi rate is non-zero; without drive the file contains NaN and is rejected by standard JSON readers.", "quantifier": "all constructed controls with finite attributes and at least one segment; both coordinate systems; extended arithmetic with infinities and NaN", "why_tests_cant": "An equivalence over all controls, about rejection by every standard-conforming reader.", "anchors": ["qctrlopencontrols/driven_controls/driven_control.py: DrivenControl.export_to_file, _export_to_qctrl_expanded_format"]}
{"id": "C76", "title": "Composite pulses computed in floating point perform the requested rotation", "statement": "In floating-point arithmetic the composite-pulse constructors accept exactly the positive rotation angles and Rabi rates (up to four times the rounded pi for BB1, SK1 and the CORPSE variants of them; for SCROFULOUS and WAMF1 every angle within 5e-6 of pi, pi/2 or pi/4 and none further than 4e-5 away), use exactly the maximum Rabi rate (WAMF1: at most (1+3u) times it), and the evolution under the returned control differs from the requested rotation by a stated small multiple of the unit roundoff u in each matrix entry (plus the table accuracy 3e-3 for SCROFULOUS).", "quantifier": "all floating-point arithmetics with unit roundoff at most 2^-20 (no overflow or underflow), all nine schemes, all rotation angles, Rabi rates, azimuthal angles and names", "why_tests_cant": "Rounding errors for all arguments; the evolution of the computed control is not an output of the library.", "anchors": ["qctrlopencontrols/driven_controls/predefined.py: new_primitive_control, new_bb1_control, new_sk1_control, new_scrofulous_control, new_corpse_control, new_corpse_in_bb1_control, new_corpse_in_sk1_control, new_corpse_in_scrofulous_control, new_wamf1_control"]}
{"id": "C77", "title": "Converting a sequence in floating point carries out its pulses", "statement": "In floating-point arithmetic with unit roundoff u, a sequence of duration T that fits on the hardware with 32uT to spare between pulses is converted; the control performs the pulses up to u/2 per radian, its duration is T up to 6uT, and its rates and shortest segment respect the limits up to the factor 1\u00b1\u03ba, where the pulses last at least 64uT/\u03ba. Every accepted sequence whose pulses last longer than 16uT is carried out to the same accuracy and takes T up to rounding and the 1e-8 tolerance per gap; a sequence with a gap too short by more than tolerance and rounding is rejected with ArgumentsValueError. Pulses shorter than the rounding error of times may be silently lost.", "quantifier": "all floating-point arithmetics with unit roundoff at most 2^-20 (no overflow or underflow), all sequences lasting at least 2e-8 with no rotation within rounding of 1e-8, all hardware limits and names; the lost pulse is in double precision", "why_tests_cant": "Rounding errors for all sequences and hardware limits; the evolution of the computed control is not an output of the library.", "anchors": ["qctrlopencontrols/dynamic_decoupling_sequences/dynamic_decoupling_sequence.py: convert_dds_to_driven_control"]}
{"id": "C78", "title": "Predefined sequences computed and converted in floating point do what the ideal sequence does", "statement": "In floating-point arithmetic with unit roundoff u, a call of a predefined sequence constructor followed by convert_dds_to_driven_control succeeds whenever between any two instants of the exact sequence there is room for two pi pulses, a minimum segment and the rounding error of the times. The evolution under the resulting control differs from the product of the ideal pulses of the exact sequence by at most 7u per pulse in each entry; with pre and post rotations it is within that error of the identity or Z up to a phase. The control takes the time T up to 6uT and respects the maximum rates and the minimum duration up to the factor 1\u00b1\u03ba, where every pulse lasts at least 65uT/\u03ba.", "quantifier": "all floating-point arithmetics with unit roundoff at most 2^-20 (no overflow or underflow), all ten schemes with valid arguments up to the size bounds of C63 and at most one pulse at each time, all durations of at least 2e-8, both pre/post settings, all names, all positive maximum rates and non-negative minimum durations", "why_tests_cant": "Rounding errors of two chained computations for all arguments; the evolution under the computed control is not an output of the library.", "anchors": ["qctrlopencontrols/dynamic_decoupling_sequences/predefined.py: new_ramsey_sequence, new_spin_echo_sequence, new_carr_purcell_sequence, new_cpmg_sequence, new_uhrig_sequence, new_periodic_sequence, new_walsh_sequence, new_quadratic_sequence, new_x_concatenated_sequence, new_xy_concatenated_sequence", "qctrlopencontrols/dynamic_decoupling_sequences/dynamic_decoupling_sequence.py: convert_dds_to_driven_control"]}
{"id": "C79", "title": "Arguments that are not one-dimensional arrays", "statement": "A single number for the durations of DrivenControl raises TypeError and a matrix ValueError, not ArgumentsValueError. Otherwise a control is accepted exactly if the durations and Rabi rates have one number per place along the first axis (1-D arrays or columns) with the right signs and all arguments have the same number of items, whatever the shapes of azimuthal angles and detunings; for 1-D arguments everything is as in C01. Consequences: durations given as a column are accepted and from two segments on `angles` is silently the matrix of all products of amplitudes and durations instead of the rotation angles; a k x l matrix of azimuthal angles is accepted and makes the accessors raise ValueError. DynamicDecouplingSequence compares only lengths along the first axes.", "quantifier": "all arrays of any number of dimensions and any shape, all items (in exact arithmetic for the acceptance conditions, in any arithmetic for the rest), all names", "why_tests_cant": "Infinitely many combinations of shapes; the wrong results are silent.", "anchors": ["qctrlopencontrols/driven_controls/driven_control.py: DrivenControl.__init__, angles, amplitude_x", "qctrlopencontrols/dynamic_decoupling_sequences/dynamic_decoupling_sequence.py: DynamicDecouplingSequence.__init__"]}
{"id": "C80", "title": "Predefined sequences own their arrays", "statement": "A call of any of the ten predefined sequence constructors changes no array that existed before, whether it returns or raises. The sequence it returns has four new arrays, pairwise different, so that later changes to any earlier array do not change the sequence, later changes to its arrays change no earlier array and not the other three, and two predefined sequences never share an array. The loops, item assignments and slice assignments that fill the arrays (the in-place products of the Walsh sequence, the rows and columns of the quadratic sequence, the merge and the insertion of Z pulses of the XY-concatenated sequence) write exactly the values of the array-as-value description, with no index out of range and no slice of the wrong length.", "quantifier": "all states of the heap of arrays, all ten constructors, all arguments, both pre/post settings, all names, all later sequences of item assignments, in any arithmetic (the absence of exceptions other than the argument check in exact arithmetic)", "why_tests_cant": "All orders and counts, hence loops of any length; aliasing is visible only through later writes.", "anchors": ["qctrlopencontrols/dynamic_decoupling_sequences/predefined.py: _add_pre_post_rotations, new_walsh_sequence, new_quadratic_sequence, new_xy_concatenated_sequence", "qctrlopencontrols/dynamic_decoupling_sequences/dynamic_decoupling_sequence.py: DynamicDecouplingSequence.__init__"]}
{"id": "C81", "title": "Evolution under dephasing noise", "statement": "On a qubit with dephasing noise of any (continuous) time dependence, every predefined sequence without pre and post rotations does exactly what its ideal pulses do, preceded by a Z rotation by the integral of the noise weighted with the sign that flips at each X or Y pulse. With pre and post rotations, the probability to find the qubit back in its initial state is the squared cosine of half that integral. Noise that is a polynomial in time of a degree below the order of cancellation of the sequence (C72) has no effect at all, whatever its strength.", "quantifier": "all ten predefined sequences, all durations, counts and orders, all continuous noises, all noise strengths", "why_tests_cant": "Infinitely many noise histories and orders; the evolution operator is a product of matrix exponentials.", "anchors": ["qctrlopencontrols/dynamic_decoupling_sequences/predefined.py: new_ramsey_sequence ... new_xy_concatenated_sequence, _add_pre_post_rotations"]}
{"id": "C82", "title": "Decoupling from noise in every direction", "statement": "A predefined sequence removes the effect of static noise in every direction (x, y and z), to first order in the noise, exactly if it is a quadratic sequence (any inner and outer counts) or an XY-concatenated one of order one or two; XY-concatenated sequences of order three or more, as computed by the code, do not, and the single-axis sequences never do. The quadratic sequence is also insensitive, to first order, to noise along x and y that is a polynomial in time of a degree below the number of inner pulses.", "quantifier": "all ten predefined sequences, all durations, counts and orders, with and without pre and post rotations, all noise directions", "why_tests_cant": "All orders and all directions; first-order insensitivity is a statement about a derivative.", "anchors": ["qctrlopencontrols/dynamic_decoupling_sequences/predefined.py: new_quadratic_sequence, new_xy_concatenated_sequence, new_uhrig_sequence, new_carr_purcell_sequence"]}
{"id": "C83", "title": "Which composite pulse cancels which error", "statement": "For every accepted call of the nine composite-pulse constructors: a relative error of all Rabi rates has no effect to first order exactly for BB1, SK1, SCROFULOUS and the three pulses combining CORPSE with them (never for the primitive pulse, CORPSE and WAMF1); it has no effect to second order either exactly for BB1 and CORPSE-in-BB1, and for SK1 and CORPSE-in-SK1 only if the rotation angle is 4 pi; a constant detuning error has no effect to first order exactly for the four pulses containing CORPSE, for WAMF1 with rotation angle pi (up to the tolerance), never for SCROFULOUS, and for the primitive pulse, BB1 and SK1 only if the rotation angle is a multiple of 2 pi.", "quantifier": "all nine constructors, all rotation angles, Rabi rates, azimuthal angles and names", "why_tests_cant": "Statements about derivatives of products of matrix exponentials for a continuum of angles; both directions of an equivalence.", "anchors": ["qctrlopencontrols/driven_controls/predefined.py: new_primitive_control, new_bb1_control, new_sk1_control, new_scrofulous_control, new_corpse_control, new_corpse_in_bb1_control, new_corpse_in_sk1_control, new_corpse_in_scrofulous_control, new_wamf1_control"]}
{"id": "C84", "title": "Wrong rotation angles of the decoupling pulses", "statement": "With pre and post rotations, a CPMG or Uhrig sequence brings the qubit back to its initial state with certainty even if every decoupling pulse has its own arbitrary relative error of the rotation angle. For the sequences made of X pulses (Ramsey, spin echo, Carr-Purcell, periodic, Walsh, X-concatenated) and for the quadratic sequence the errors add up instead, with a sign that changes at every Z pulse: the probability of return is cos^2(pi/2 times that sum). In particular n Carr-Purcell pulses with error e return with probability cos^2(n pi e / 2), while n CPMG pulses at the same times return with certainty.", "quantifier": "nine of the ten predefined sequences (all but XY-concatenated), all durations, counts and orders, all errors of the individual pulses", "why_tests_cant": "A product of arbitrarily many rotations by arbitrary angles.", "anchors": ["qctrlopencontrols/dynamic_decoupling_sequences/predefined.py: new_cpmg_sequence, new_carr_purcell_sequence, new_uhrig_sequence, new_quadratic_sequence, _add_pre_post_rotations"]}
{"id": "C85", "title": "The modulated Gaussian control in floating-point arithmetic", "statement": "Computed in floating point, new_modulated_gaussian_control still accepts and rejects as documented up to a relative error of 11 roundings in the smallest admissible maximum Rabi rate; its segments are equal, fill the duration up to one rounding and are at most one fewer than in exact arithmetic (and this happens, in double precision). Without modulation the rates integrate to a whole number of full rotations, which is the number fitting in the Gaussian at the maximum rate, with a relative error growing at most linearly in the number of segments, so that the control is the identity up to sign and that error; rates exceed the maximum only by rounding. With modulation the control is the identity up to the error of the samples relative to the largest sample, and rates exceed the maximum by at most five times that.", "quantifier": "every floating-point arithmetic with unit roundoff at most 2^-20, all argument values in it, any number of segments up to 1/(200 u)", "why_tests_cant": "Bounds on accumulated rounding errors for all arguments, any number of segments and any order of summation; a test sees one platform and a few values.", "anchors": ["qctrlopencontrols/driven_controls/predefined.py: new_modulated_gaussian_control"]}
{"id": "C86", "title": "Reading and exporting a control in floating-point arithmetic", "statement": "Computed in floating point, the times of a control never decrease, and each is the sum of the durations before it up to a relative error of three roundings per segment (a short segment can be lost: two times can be equal); the duration agrees with the sum and with the last time up to such an error; maxima and minima are exact. Angles and directions are exact up to a few roundings, directions are unit vectors up to a few roundings unless the segment is below the tolerance, and together they generate the evolution of the segment up to a few roundings times its angle. Dimensionless exported Rabi rates lie in [0, 1] with the largest exactly 1, Cartesian amplitudes in [-1, 1] up to a few roundings; a control with drive written to a CSV or JSON file, in either coordinate system, and read back generates the same evolution up to a few roundings times the sum of its rotation angles.", "quantifier": "every floating-point arithmetic with unit roundoff at most 2^-20, every constructed control in it with any number of segments, every file name and file system", "why_tests_cant": "Error bounds for all controls, any number of segments and any conforming arithmetic, measured in the operator norm of the evolution; a test compares a few values on one platform with a chosen tolerance.", "anchors": ["qctrlopencontrols/driven_controls/driven_control.py: DrivenControl.times", "qctrlopencontrols/driven_controls/driven_control.py: DrivenControl.duration", "qctrlopencontrols/driven_controls/driven_control.py: DrivenControl.angles", "qctrlopencontrols/driven_controls/driven_control.py: DrivenControl.directions", "qctrlopencontrols/driven_controls/driven_control.py: DrivenControl.export", "qctrlopencontrols/driven_controls/driven_control.py: DrivenControl.export_to_file"]}
{"id": "C87", "title": "Pulses of finite width under a constant detuning error", "statement": "A dynamical decoupling sequence of pi-pulses about X, Y and Z, converted to a driven control whose pulses have finite width and do not overlap, responds to a small constant detuning error d as follows, to first order: the control does what the ideal pulses do, preceded by the error exp(-i d/2 (A sx + B sy + C sz)). C is the integral of the switching function of the sequence with each pulse at the centre of its window; with W the width of a pi-pulse, B is 2W/pi times the number of X pulses signed by the noise along Y, and A is -2W/pi times the number of Y pulses signed by the noise along X. The control is insensitive exactly if all three vanish. Of the predefined sequences without pre and post rotations these are Carr-Purcell, CPMG, Uhrig and X-concatenated sequences with an even number or order, Walsh sequences whose Paley order has an even number of binary ones, quadratic sequences with both numbers even, and the XY-concatenated sequence of order two.", "quantifier": "every constructed sequence of pi-pulses longer than 10 ns with any number of pulses, every maximum rate and minimum segment duration for which the pulses do not overlap; every predefined family, every number or order", "why_tests_cant": "A derivative of the evolution for sequences of any length and an equivalence over all families and orders; tests compare ideal pulses or a single numerical simulation.", "anchors": ["qctrlopencontrols/dynamic_decoupling_sequences/dynamic_decoupling_sequence.py: convert_dds_to_driven_control", "qctrlopencontrols/dynamic_decoupling_sequences/predefined.py: new_cpmg_sequence", "qctrlopencontrols/dynamic_decoupling_sequences/predefined.py: new_walsh_sequence", "qctrlopencontrols/dynamic_decoupling_sequences/predefined.py: new_quadratic_sequence", "qctrlopencontrols/dynamic_decoupling_sequences/predefined.py: new_xy_concatenated_sequence"]}
{"id": "C88", "title": "Modulated Gaussian controls under amplitude noise", "statement": "If the Rabi rate of every segment of an accepted Gaussian control is off by its own relative error, the evolution is exactly the rotation about X by the sum of the noisy signed angles. A modulated control therefore still does nothing under any noise symmetric about its middle, in particular under the same relative error of all rates, whatever its size; an unmodulated one rotates by 1 + e times its full turns (at least one). To first order a Gaussian control is insensitive to an amplitude error exactly if it is modulated.", "quantifier": "every accepted call of new_modulated_gaussian_control, any number of segments, every real relative error, constant or per segment", "why_tests_cant": "An exact evolution under arbitrary noise of any size for any number of segments; tests look at the rates of a few controls.", "anchors": ["qctrlopencontrols/driven_controls/predefined.py: new_modulated_gaussian_control"]}
{"id": "C89", "title": "Predefined driven controls own their arrays", "statement": "A call of any of the ten functions that create a driven control changes no array that existed before, whether it returns or raises. The arrays of a returned control are new and pairwise different, so assigning to items of other arrays never changes the control, assigning to one of its arrays changes no other array, and two controls never share an array.", "quantifier": "every call of the nine composite-pulse functions and of the modulated Gaussian function with any arguments in any arithmetic, every earlier heap of arrays, every sequence of item assignments", "why_tests_cant": "Absence of sharing for all arguments, heaps and later mutations; a test mutates one array of one control.", "anchors": ["qctrlopencontrols/driven_controls/predefined.py: new_corpse_in_scrofulous_control", "qctrlopencontrols/driven_controls/predefined.py: new_modulated_gaussian_control", "qctrlopencontrols/driven_controls/predefined.py: new_bb1_control", "qctrlopencontrols/driven_controls/driven_control.py: DrivenControl.__init__"]}
{"id": "C90", "title": "Pre and post rotations of finite width under a constant detuning error", "statement": "A predefined sequence with pre and post rotations, converted to a driven control whose pulses do not overlap, responds to a small constant detuning error d as follows, to first order: the control does what the ideal pulses do, preceded by exp(-i d/2 (A sx + B sy + C sz)). With W the width of a pi-pulse and w that of a pi/2 rotation, A is -2W/pi times the signed number of Y pulses; B is the integral of the switching function less (1 - 2/pi) w (1 + its value at the end); C is 4w/pi less 2W/pi times the signed number of X pulses. Spin echo, Carr-Purcell, periodic and X-concatenated sequences of odd order, Walsh sequences whose order has an odd number of binary ones, and quadratic sequences with even inner and odd outer order are insensitive, but only if the minimum duration is at most that of a pi/2 rotation at the full Rabi rate; no other predefined sequence is.", "quantifier": "every predefined sequence with pre and post rotations and every order, every duration above the tolerance, all rates and minimum durations for which the conversion returns and the pulses do not overlap", "why_tests_cant": "A derivative of the evolution for unboundedly many sequences and hardware parameters, with an exact condition; tests convert a few sequences and compare rates.", "anchors": ["qctrlopencontrols/dynamic_decoupling_sequences/dynamic_decoupling_sequence.py: convert_dds_to_driven_control", "qctrlopencontrols/dynamic_decoupling_sequences/predefined.py: _add_pre_post_rotations", "qctrlopencontrols/dynamic_decoupling_sequences/predefined.py: new_spin_echo_sequence"]}
{"id": "C91", "title": "How far a converted control is from the ideal pulses", "statement": "The evolution under a control converted from a sequence longer than 1e-8 differs from the time-ordered product of the ideal pulses, in the operator norm, by at most half of the rotation angles the conversion leaves out (the detuning rotation of a pulse with a Rabi rotation, negligible rotations). If every pulse is a rotation of a single kind the difference is at most 0.5e-8 per pulse. For shorter sequences without overlaps it is at most half of all rotation angles.", "quantifier": "every constructed sequence, all pulses (also mixed and tiny ones), all rates and minimum durations for which the conversion returns", "why_tests_cant": "A bound on the distance of evolutions over all sequences and hardware parameters.", "anchors": ["qctrlopencontrols/dynamic_decoupling_sequences/dynamic_decoupling_sequence.py: convert_dds_to_driven_control"]}
{"id": "C92", "title": "Reading has no side effects and nothing is cached", "statement": "Reading a control or a sequence in any public way (properties, plot data, printed text, export to a file) changes no array, whether it returns or raises. An array returned by a property is a new one: changing it does not change the control and vice versa. After any history of item assignments and readings, a reading is determined by the current contents of the arrays. Attributes can be reassigned to arrays of other lengths without a check: then amplitude_x raises ValueError exactly if the lengths differ and none is 1, and an array of length 1 is used for all segments.", "quantifier": "every control and sequence that the constructors, the conversion or the predefined functions return, every further assignments to array items, all histories of assignments and readings of any length, all ways of reading", "why_tests_cant": "Quantifies over all histories of assignments and readings and over all objects sharing arrays.", "anchors": ["qctrlopencontrols/driven_controls/driven_control.py: DrivenControl.amplitude_x, amplitude_y, angles, directions, times, export, export_to_file, __str__", "qctrlopencontrols/dynamic_decoupling_sequences/dynamic_decoupling_sequence.py: DynamicDecouplingSequence.export, export_to_file, __str__"]}
{"id": "C93", "title": "Better hardware never makes a conversion fail", "statement": "If a sequence converts for some maximum Rabi rate, maximum detuning rate and minimum segment duration, it converts for all larger rates and shorter minimum durations; for larger rates this holds in floating point too. Every sequence with pulses at increasing times, no negative Rabi rotation and no pulse with positive rotations of both kinds converts for all large enough rates and short enough minimum durations. For each of the three limits there is a sharp threshold, attained, such that the conversion returns exactly on the better side of it.", "quantifier": "every sequence the constructor returns, all rates and minimum durations, for the rates all floating-point arithmetics with small enough roundoff", "why_tests_cant": "Monotonicity and attained thresholds quantify over all real limits and all sequences; a test samples a few.", "anchors": ["qctrlopencontrols/dynamic_decoupling_sequences/dynamic_decoupling_sequence.py: convert_dds_to_driven_control"]}
{"id": "C94", "title": "Converted controls on hardware with miscalibrated rates", "statement": "If the hardware multiplies all Rabi rates of a converted control by one factor and all detunings by another, it performs the pulses of the sequence with their rotation angles multiplied by these factors; the finite width of the pulses and the clipping to the maximum rates make no difference. With pre and post rotations and a relative error e of all Rabi rates, a converted CPMG or Uhrig sequence returns the qubit with probability at least cos^2(pi e/2), whatever the number of pulses, and one with pulses about X (and Z) with probability cos^2(e a/2), where a is the signed sum of all X rotations; for n Carr-Purcell pulses cos^2(pi e ceil(n/2)).", "quantifier": "every sequence longer than 1e-8 that converts, all hardware limits, all factors; for the return probabilities all parameters of the predefined sequences and all errors e", "why_tests_cant": "An identity of unitaries for all sequences, hardware limits and real factors.", "anchors": ["qctrlopencontrols/dynamic_decoupling_sequences/dynamic_decoupling_sequence.py: convert_dds_to_driven_control", "qctrlopencontrols/dynamic_decoupling_sequences/predefined.py: _add_pre_post_rotations, new_carr_purcell_sequence, new_cpmg_sequence, new_uhrig_sequence, new_quadratic_sequence"]}
{"id": "C95", "title": "Conversion of reversed, turned and undoing sequences", "statement": "A sequence converts exactly if the same sequence run backwards does, and the control of the one is the control of the other with its segments in opposite order. Adding an angle to all azimuthal angles of a sequence adds it to the azimuthal angles of the segments with a Rabi rate and changes nothing else. All predefined sequences without pre and post rotations, except XY-concatenated ones, are the same run backwards, hence so are their controls. If no pulse has both kinds of rotation, the sequence of opposite pulses in opposite order converts too, and its control undoes the evolution of the first; the segments of any control in opposite order with opposite axes and detunings undo its evolution.", "quantifier": "every sequence longer than 1e-8 the constructor returns (any duration for the turned ones), all hardware limits, all angles, all parameters of the predefined sequences, every control the constructor returns", "why_tests_cant": "Equivariance of the conversion for all sequences and limits, and symmetry of the pulse times of the families for every number of pulses.", "anchors": ["qctrlopencontrols/dynamic_decoupling_sequences/dynamic_decoupling_sequence.py: convert_dds_to_driven_control", "qctrlopencontrols/dynamic_decoupling_sequences/predefined.py: new_carr_purcell_sequence, new_cpmg_sequence, new_uhrig_sequence, new_periodic_sequence, new_walsh_sequence, new_quadratic_sequence, new_x_concatenated_sequence, new_xy_concatenated_sequence"]}
{"id": "C96", "title": "Converting a sequence after its attributes were changed", "statement": "Attributes of a sequence can be assigned without checks. Whatever they are set to, converting the sequence changes no array that existed before, and the control returned shares none. If there are offsets and the arrays differ in length the conversion raises an error. If there are none the other arrays are checked and then ignored: the result is free evolution for the duration, and their rotations are lost. Otherwise, a conversion that returns has checked what the constructor checks, so that the result is that of a sequence that could have been constructed; the only exception is a single pulse at time 0 in a sequence whose duration was set to 0, which gives a control as long as the pulse.", "quantifier": "every heap of arrays, every object with a duration and four arrays in it, of any lengths and contents, all hardware limits", "why_tests_cant": "States after arbitrary assignments by the caller; the absence of side effects on all arrays.", "anchors": ["qctrlopencontrols/dynamic_decoupling_sequences/dynamic_decoupling_sequence.py: convert_dds_to_driven_control, _check_valid_operation"]}
{"id": "C97", "title": "Converting sequences given by columns or matrices", "statement": "The constructor of a sequence accepts arrays with several axes. If there are offsets, the conversion returns only if every array is 1-D or a column (one number at each place along the first axis); arrays that need no idle pulse added at either end must moreover have equal shapes. The control is then that of the sequence with flattened arrays, with one exception: columns of offsets that start at 0 and end at the duration are not checked to increase, so that some sequences rejected as 1-D arrays are converted (but no offset can precede its predecessor by more than 1e-8). Otherwise ArgumentsValueError or ValueError is raised. An array of offsets without items but with places along the first axis (shape n x 0) is converted to free evolution, whatever the rotations.", "quantifier": "every duration, every four arrays of any shapes accepted by the constructor, all hardware limits", "why_tests_cant": "All shapes with any number of axes; equality of two conversions for all contents.", "anchors": ["qctrlopencontrols/dynamic_decoupling_sequences/dynamic_decoupling_sequence.py: convert_dds_to_driven_control, _check_valid_operation, DynamicDecouplingSequence.__init__"]}
{"id": "C98", "title": "Suppression of noise that varies slowly", "statement": "Let a predefined sequence of duration T cancel dephasing noise to order m (C72). For every k up to m and every noise with k continuous derivatives, the k-th bounded by B during the sequence, the phase error of the qubit is at most B T^(k+1) / (2^k (k+1)!). The evolution differs from that of the ideal pulses by at most half of that in the operator norm, and with pre and post rotations the qubit returns to its initial state with probability at least one minus the square of that half.", "quantifier": "all ten predefined sequences, all durations, counts and orders, with and without pre and post rotations, all k up to the order of cancellation, all noises with k continuous derivatives, all bounds", "why_tests_cant": "All noises with bounded derivatives and sequences of any length; a test simulates a few noise traces.", "anchors": ["qctrlopencontrols/dynamic_decoupling_sequences/predefined.py: new_ramsey_sequence, new_spin_echo_sequence, new_carr_purcell_sequence, new_cpmg_sequence, new_uhrig_sequence, new_periodic_sequence, new_walsh_sequence, new_quadratic_sequence, new_x_concatenated_sequence, new_xy_concatenated_sequence"]}
{"id": "C99", "title": "From a control to the text of a file and back", "statement": "If printing and parsing a number gives the number back, then reading the text of an exported CSV or JSON file, picking the columns or entries by their titles and multiplying by the maximum Rabi rate, recovers the control: in exact arithmetic it is the same control (name included for JSON), and in Cartesian coordinates the segments generate the same evolution; in floating-point arithmetic the evolution differs by at most 3 u (cylindrical) or 7 u (Cartesian) times the total rotation of the control.", "quantifier": "all constructed controls with some drive, all ways of printing numbers that can be parsed back, both file types, both coordinate systems, all file names and contents of the file system, all floating-point arithmetics", "why_tests_cant": "All controls and names, including names and numbers that need quoting, and all rounding behaviours; tests compare a few files.", "anchors": ["qctrlopencontrols/driven_controls/driven_control.py: DrivenControl.export_to_file, DrivenControl._export_to_qctrl_expanded_format"]}
{"id": "C100", "title": "Exports interrupted by the operating system", "statement": "Whatever the operating system does while a control or sequence is exported (open, any write or the final flush may fail), no other file is touched; if the file cannot be opened it stays as it was; otherwise it contains the beginning of the text afterwards, and all of it unless OSError is raised. Exports are not atomic: every beginning of the text can be what is left. An incomplete JSON file is never valid JSON, so a reader notices; an incomplete CSV file may be read without error as the control made of the first segments only.", "quantifier": "all controls and sequences, all arguments of the exporters, all behaviours of the operating system (which call fails, how much was written), all previous contents of the disk, all points of interruption", "why_tests_cant": "Tests do not inject failures of the operating system, and there are arbitrarily many points of interruption.", "anchors": ["qctrlopencontrols/driven_controls/driven_control.py: DrivenControl.export_to_file, DrivenControl._export_to_qctrl_expanded_format", "qctrlopencontrols/dynamic_decoupling_sequences/dynamic_decoupling_sequence.py: DynamicDecouplingSequence.export_to_file"]}
{"id": "C101", "title": "Exporting controls whose arrays are not 1-D", "statement": "What export_to_file does with a control whose arrays have any shape. With 1-D arrays it is the export described elsewhere. If an exported array is a single number, TypeError is raised and no file is touched. JSON: if all arrays are 1-D (or have no item along the first axis) the export returns and the file reads back; otherwise TypeError is raised after the file was opened, so its old contents are lost and what is left is not JSON. CSV of a named control: rows are written while every array has a place left along its first axis, at most as many as the Rabi rates have; fewer rows than that end in IndexError with a truncated but readable table; items that are arrays are written as text. Without a name, KeyError and no file is touched. Of the controls the constructor accepts, exactly those with four 1-D arrays can be exported to JSON, and exactly the named ones whose azimuthal angles and detunings are 1-D or columns to CSV.", "quantifier": "all controls with arrays of any shapes and contents, both file types, both coordinate systems, all previous contents of the disk, all operating systems for the 1-D case", "why_tests_cant": "Shapes are unbounded and the tests only export 1-D arrays.", "anchors": ["qctrlopencontrols/driven_controls/driven_control.py: DrivenControl.export_to_file, DrivenControl._export_to_qctrl_expanded_format, DrivenControl._qctrl_expanded_export_content, DrivenControl.__init__"]}
{"id": "C102", "title": "How large the remaining error of a composite pulse is", "statement": "For a control with a systematic error of any size (all Rabi rates off by a relative error e, or all detunings off by d) the evolution differs from the intended one, in the operator norm, by at most x, where x is half the swept angle times |e|, or half the duration times |d|; by at most x^2/2 if the control is insensitive to the error to first order, and x^3/6 if to second order. So BB1 for a rotation theta is within ((theta/2+2pi)|e|)^3/6 of the requested rotation, SK1 within ((theta/2+2pi)|e|)^2/2, CORPSE under a detuning error within ((theta/2+2pi-2k)|d|/Omega)^2/2, and the primitive pulse is off by exactly 2|sin(theta e/4)|. BB1 is closer to the request than the primitive pulse for every nonzero error with pi (theta/2+2pi)^3 e^2 < 6 theta.", "quantifier": "all controls, all nine composite schemes with all accepted arguments, all error sizes", "why_tests_cant": "Errors, angles and controls are real-valued; a test samples a few error sizes and cannot give a bound valid for all.", "anchors": ["qctrlopencontrols/driven_controls/predefined.py: new_bb1_control, new_sk1_control, new_corpse_control, new_primitive_control", "qctrlopencontrols/driven_controls/driven_control.py: DrivenControl"]}
{"id": "C103", "title": "From the arguments of a predefined sequence to the numbers in a file", "statement": "In floating-point arithmetic with unit roundoff u: for every predefined sequence with at most one pulse at each time and at least one pulse about an axis in the XY plane, if between any two instants there is room for two pi-pulses and the rounding errors of times, and the pulses are long compared with those errors, then the constructor returns, export_to_file of the sequence writes the file, and what a reader makes of the text of the file (amplitudes times the maximum Rabi rate) does what the ideal pulses do up to 17 u per pulse in cylindrical and 29 u per pulse in Cartesian coordinates, CSV (named sequences) and JSON; with pre and post rotations it is the identity or Z up to a phase and the same error; it takes the requested duration T up to 6 u T.", "quantifier": "all rounding functions, all ten families with all accepted arguments, durations, rates, names, file systems, ways of printing numbers that can be read back", "why_tests_cant": "A test exports a few sequences on one platform; the bound is for all arguments, all pulse counts and all roundings, over the whole chain of calls.", "anchors": ["qctrlopencontrols/dynamic_decoupling_sequences/dynamic_decoupling_sequence.py: DynamicDecouplingSequence.export_to_file, convert_dds_to_driven_control", "qctrlopencontrols/dynamic_decoupling_sequences/predefined.py: new_*_sequence", "qctrlopencontrols/driven_controls/driven_control.py: export_to_file"]}
{"id": "C104", "title": "Reading controls whose arrays are not 1-D", "statement": "Let S be the smallest shape to which the arrays of a control can be stretched by numpy's broadcasting. amplitude_x, amplitude_y and angles are arrays of shape S with the numbers of the 1-D control that has one segment for every place of S, and raise ValueError if there is no S. directions has one more axis, of length three, after the first, and the directions of that control; it raises IndexError if S has no axes and ValueError if an axis has length zero or there is no S. For 1-D arrays all accessors, export and str agree with the 1-D behaviour. Detunings given as a column are accepted, and directions is then silently an n x 3 x n array whose entry [i, :, j] is the direction of segment j with the detuning of segment i. Detunings given as a row are accepted, and export then silently returns a single detuning entry for the whole control, with the duration of the first segment. Azimuthal angles given as a row likewise reduce the drive to one entry. In general export has as many entries as the shortest first axis; for 1-D arrays and columns in any mixture that can be combined, its cylindrical entries are the 1-D numbers, each as a number or as an array with one number in it.", "quantifier": "all controls with arrays of any shape, all arithmetics", "why_tests_cant": "There are infinitely many combinations of shapes and the failures are silent: results of the wrong shape, or with segments missing.", "anchors": ["qctrlopencontrols/driven_controls/driven_control.py: DrivenControl.amplitude_x, amplitude_y, angles, directions, number_of_segments, maximum_rabi_rate, maximum_detuning, export, __str__"]}
{"id": "C105", "title": "Composite pulses computed in floating-point arithmetic still cancel systematic errors", "statement": "Let a composite pulse be computed in floating-point arithmetic with unit roundoff u, and let the same scheme accept the same numbers in exact arithmetic. The two controls have the same number of segments; the rotation angles, azimuthal angles and durations of corresponding segments differ by at most a small multiple of u, for BB1 and SK1 with a rotation angle above 3 pi a small multiple of the square root of u (arccos(-theta/4 pi) has a vertical tangent at 4 pi). Under any relative error e of the Rabi rates and any error d of the detuning the two evolutions differ by at most a small multiple of that. So the computed control keeps to the bounds of C102 up to rounding: for example the computed BB1 control is within ((theta/2 + 2 pi) |e|)^3/6 of the requested rotation plus a multiple of u (of sqrt u above 3 pi).", "quantifier": "all floating-point arithmetics with u at most 2^-20, all arguments, all errors e and d", "why_tests_cant": "Tests compare numbers with tolerances at a few angles; that rounding does not spoil the cancellation of errors is a statement about all of them and about evolutions.", "anchors": ["qctrlopencontrols/driven_controls/predefined.py: new_primitive_control, new_bb1_control, new_sk1_control, new_scrofulous_control, new_corpse_control, new_corpse_in_bb1_control, new_corpse_in_sk1_control, new_corpse_in_scrofulous_control, new_wamf1_control"]}
{"id": "C106", "title": "Which Python objects the constructors accept", "statement": "DrivenControl accepts exactly those objects that stand for arrays of floats (single items, or nested lists of equal lengths of items; an item is a real number, a boolean, None, or a string that shows a number) from which a control can be made, and None for an omitted optional argument; the stored arrays are the ones the objects stand for. Anything else among the durations raises an exception of numpy, not ArgumentsValueError. None inside a list is stored as NaN among the azimuthal angles and detunings, and refused with ArgumentsValueError among the durations and Rabi rates. DynamicDecouplingSequence accepts a real duration, real or complex offsets inside the sequence (complex ones by their real part), and rotations with as many items by Python's len as there are offsets; so a string of n characters showing one number passes for n rotations and is stored as one number.", "quantifier": "all Python objects built of numbers, booleans, None, strings, complex numbers, nested lists and other objects, all arithmetics", "why_tests_cant": "Objects can be nested to any depth with any mixture of items; tests use well-formed arrays.", "anchors": ["qctrlopencontrols/driven_controls/driven_control.py: DrivenControl.__init__", "qctrlopencontrols/dynamic_decoupling_sequences/dynamic_decoupling_sequence.py: DynamicDecouplingSequence.__init__", "qctrlopencontrols/utils.py: check_arguments"]}
{"id": "C107", "title": "Exactly what is left of an error after the composite pulses", "statement": "When all Rabi rates are wrong by a factor 1+e, the evolution of a BB1, SK1, CORPSE-in-BB1 or CORPSE-in-SK1 control misses the requested rotation by exactly sqrt(2-2w), where w is an explicit trigonometric function of t = angle/4pi and e; CORPSE misses it by exactly as much as the primitive pulse. To leading order the distance is pi^3/3 t sqrt((1-t^2)(1+8t^2)) |e|^3 for BB1 and 2 pi^2 t sqrt(1-t^2) e^2 for SK1. BB1 and SK1 are immune to every amplitude error exactly at the angle 4pi. Under a constant detuning of e times the largest Rabi rate the primitive pulse misses by an explicit amount, and CORPSE by |sin 2k - (angle + sin angle)/4| e^2 to leading order, k = arcsin(sin(angle/2)/2); this coefficient is sqrt(3)/2 - pi/4 at pi and vanishes at some angle between pi and 2pi.", "quantifier": "all angles and azimuthal angles accepted, all Rabi rates, all sizes of the error", "why_tests_cant": "The size of a remaining error as a function of the error and the angle is a statement about all of them; tests evaluate none.", "anchors": ["qctrlopencontrols/driven_controls/predefined.py: new_bb1_control, new_sk1_control, new_corpse_control, new_corpse_in_bb1_control, new_corpse_in_sk1_control, new_primitive_control"]}
{"id": "C108", "title": "Which Python objects the functions accept", "statement": "The predefined controls and sequences, the Gaussian control and the conversion accept for their numbers exactly booleans, integers and floats, and give with them what they give with the numbers. In place of a number they would accept, any other scalar object raises TypeError, not the ArgumentsValueError of the library. The exception is the azimuthal angle of the primitive and WAMF1 pulses, which is only stored: None is stored as NaN, a string that shows a number as this number, and other strings raise numpy's ValueError. pre_post_rotation and dimensionless_rabi_rate count by truth value, so that the string 'False' switches them on. The selectors of the exports must be the strings themselves: every other object, also the member of the enumeration with the string as its value, raises ArgumentsValueError and changes no file.", "quantifier": "all scalar Python objects (None, booleans, integers, floats, strings, others) as arguments of the 20 predefined functions, the conversion and the exports; every arithmetic", "why_tests_cant": "Tests try a handful of invalid arguments; which exception any object raises in any position, and which unusual objects are silently accepted, is a statement about all of them.", "anchors": ["qctrlopencontrols/driven_controls/predefined.py: all new_* functions, _validate_rabi_parameters", "qctrlopencontrols/dynamic_decoupling_sequences/predefined.py: all new_* functions", "qctrlopencontrols/dynamic_decoupling_sequences/dynamic_decoupling_sequence.py: convert_dds_to_driven_control, DynamicDecouplingSequence.export_to_file", "qctrlopencontrols/driven_controls/driven_control.py: DrivenControl.export, DrivenControl.export_to_file"]}
{"id": "C109", "title": "Overflow and underflow in the predefined driven controls", "statement": "In arithmetic with a largest and a smallest positive number (IEEE doubles), the predefined driven controls are those of the arithmetic without limits as long as the angle and the rate are between 2^-100 and 2^100 and the azimuthal angle is at most 2^100 in size (for CORPSE also sin(angle/2) must not be below 2^-100). Outside of it: a pulse with a finite positive rate is accepted exactly if no duration underflows to zero, which for a primitive pulse means that the angle exceeds half of the smallest number times the rate; otherwise ArgumentsValueError is raised although all arguments are valid. An infinite rate is rejected. If an angle exceeds the rate by more than the largest number, the control is returned with an infinite duration, WAMF1 with infinite durations and zero Rabi rates. The reported angle of a pulse along x is zero if the square of the rate underflows (NaN with an infinite duration) and infinite if it overflows.", "quantifier": "all nine predefined controls, all double-precision arguments (finite, infinite, NaN); every rounding with limits that satisfies the stated laws, of which IEEE double precision is an instance", "why_tests_cant": "Tests use moderate rates; whether all moderate arguments are free of overflow and where exactly the extremes fail is a statement about all pairs of doubles.", "anchors": ["qctrlopencontrols/driven_controls/predefined.py: all new_* functions, _validate_rabi_parameters", "qctrlopencontrols/driven_controls/driven_control.py: DrivenControl.__init__, DrivenControl.angles"]}
{"id": "C110", "title": "Predefined sequences and their conversion do not overflow or underflow in a wide range", "statement": "In arithmetic with a largest and a smallest positive number (IEEE doubles), each of the ten predefined sequences with a duration between 2^-100 and 2^100, and a number of pulses for which rounding keeps them apart, is the sequence of the arithmetic without limits, and invalid arguments raise the same exception. Converting a sequence with maximum rates between 2^-100 and 2^100, a minimum duration that is zero or in the same range, and times and angles up to 2^100 gives the same control or the same exception as without limits, provided the rates of that control are at most 2^110. Therefore the statements about rounding in the whole pipeline (C78) hold for IEEE doubles with their limited range: both calls succeed and the evolution is that of the ideal pulses up to 7 units of rounding per pulse. Outside of the range the pulses can be lost silently: an X-concatenated sequence whose duration divided by 2^order underflows is accepted without pulses (odd orders) or with a single pulse at time zero (even orders), and the spin echo with the smallest positive duration has its pulse at time zero.", "quantifier": "all ten constructors, all arguments in the range, with and without pre and post rotations; every rounding with limits that satisfies the stated laws and has at most 60 bits, of which IEEE double precision is an instance", "why_tests_cant": "Absence of overflow in every intermediate result is a statement about all durations, rates and numbers of pulses; tests use a few moderate ones.", "anchors": ["qctrlopencontrols/dynamic_decoupling_sequences/predefined.py: new_ramsey_sequence, new_spin_echo_sequence, new_carr_purcell_sequence, new_cpmg_sequence, new_uhrig_sequence, new_periodic_sequence, new_walsh_sequence, new_quadratic_sequence, new_x_concatenated_sequence, new_xy_concatenated_sequence", "qctrlopencontrols/dynamic_decoupling_sequences/dynamic_decoupling_sequence.py: convert_dds_to_driven_control"]}
{"id": "C111", "title": "How much of static noise in any direction a predefined sequence leaves", "statement": "A qubit subject to a constant noise Hamiltonian (x sigma_x + y sigma_y + z sigma_z)/2 while the pulses of a predefined sequence of duration T are played evolves, up to (x^2+y^2+z^2) T^2/8 in the operator norm, as under the ideal pulses preceded by the first-order effect of the noise: the noise along each axis times the integral of the sign with which the sequence lets it act. For quadratic sequences and XY-concatenated ones of order one or two the first-order effect vanishes, so the evolution is that of the pulses up to (x^2+y^2+z^2) T^2/8, with or without pre and post rotations; with them the qubit is found in its initial state with probability at least 1-((x^2+y^2+z^2) T^2/8)^2.", "quantifier": "all ten constructors with all their arguments, all durations, and static noise of every strength and direction", "why_tests_cant": "A bound on the error of the evolution for every noise vector, duration and number of pulses is not settled by simulating a few of them.", "anchors": ["qctrlopencontrols/dynamic_decoupling_sequences/predefined.py: new_quadratic_sequence, new_xy_concatenated_sequence, new_uhrig_sequence, new_carr_purcell_sequence"]}
{"id": "C112", "title": "Predefined sequences computed in floating point on a noisy qubit", "statement": "The times and angles of a predefined sequence are rounded. Played on a qubit with dephasing noise of at most M, the computed sequence gives the evolution of the exact one up to 5u + M*eps*T per pulse, where u is the unit roundoff and eps the relative error of the times; the same holds for static noise of any direction with its strength for M. Hence the noise suppression of the exact sequence (C98 for slow dephasing noise, C111 for static noise) holds of the computed one up to this error, and with pre and post rotations the qubit is found in its initial state with probability at least one minus the square of the sum of both errors.", "quantifier": "all ten constructors, all arguments for which rounding keeps the pulses apart, every rounding of the model (IEEE double precision is an instance), every continuous dephasing noise, every static noise", "why_tests_cant": "It compares two evolutions under every noise for every number of pulses; rounding errors of single runs say nothing about the others.", "anchors": ["qctrlopencontrols/dynamic_decoupling_sequences/predefined.py: new_ramsey_sequence, new_spin_echo_sequence, new_carr_purcell_sequence, new_cpmg_sequence, new_uhrig_sequence, new_periodic_sequence, new_walsh_sequence, new_quadratic_sequence, new_x_concatenated_sequence, new_xy_concatenated_sequence", "qctrlopencontrols/dynamic_decoupling_sequences/dynamic_decoupling_sequence.py: convert_dds_to_driven_control"]}
{"id": "C113", "title": "Converted controls on a noisy qubit", "statement": "Schroedinger's equation for a driven control together with a noise Hamiltonian (x(t) sigma_x + y(t) sigma_y + z(t) sigma_z)/2 has exactly one solution for continuous noise; without noise it ends with the evolution of the control. When a sequence of rotations in the XY plane or about Z is converted to a control whose pulses do not overlap, the qubit evolves under noise never stronger than M as with instantaneous pulses, up to M times the time the pulses take on the hardware, so on hardware fast enough up to any epsilon. Hence predefined sequences on the hardware suppress slow dephasing noise and (quadratic and XY-concatenated ones) static noise of every direction as the ideal ones do, up to this term; with pre and post rotations the qubit is found in its initial state with probability at least one minus the square of the sum of both terms.", "quantifier": "all controls, all noise (also time dependent and in every direction), all sequences with such pulses, all ten constructors with all arguments, all rates and minimum segment durations for which the pulses do not overlap", "why_tests_cant": "It is about the solution of a differential equation for every noise, sequence and hardware; a simulation checks one of each.", "anchors": ["qctrlopencontrols/dynamic_decoupling_sequences/dynamic_decoupling_sequence.py: convert_dds_to_driven_control", "qctrlopencontrols/driven_controls/driven_control.py: DrivenControl", "qctrlopencontrols/dynamic_decoupling_sequences/predefined.py: new_quadratic_sequence, new_xy_concatenated_sequence, new_uhrig_sequence, new_carr_purcell_sequence"]}
{"id": "C114", "title": "An ArgumentsValueError names the arguments at fault", "statement": "When a constructor, a predefined control or sequence, the conversion or an export raises ArgumentsValueError, the error names at least one argument, it names only parameters of the function that was called, each with the value the caller gave, and these values are the reason: every call with the same values for the named parameters, whatever the others are, raises ArgumentsValueError too. The message shows each of them on a line name=repr(value). False of the code in three cases: a negative rotation of the predefined controls without a table of angles (the error names durations), a Rabi rate too small for a modulated Gaussian control of the given duration (names only the rate), a sequence that cannot be converted in export_to_file (names dynamic_decoupling_sequence).", "quantifier": "all arguments of DrivenControl, DynamicDecouplingSequence, the ten predefined controls, the ten predefined sequences, the conversion, export and both export_to_file", "why_tests_cant": "That the named values are the reason is about all calls that share them; a test tries one call.", "anchors": ["qctrlopencontrols/exceptions.py: ArgumentsValueError", "qctrlopencontrols/utils.py: check_arguments", "qctrlopencontrols/driven_controls/driven_control.py: DrivenControl", "qctrlopencontrols/driven_controls/predefined.py", "qctrlopencontrols/dynamic_decoupling_sequences/predefined.py", "qctrlopencontrols/dynamic_decoupling_sequences/dynamic_decoupling_sequence.py: convert_dds_to_driven_control"]}
{"id": "C115", "title": "Sequences computed and converted in floating point on a noisy qubit", "statement": "When a sequence of rotations in the XY plane or about Z is converted in floating point, with unit roundoff u, to a control with time to spare between the pulses, a qubit under noise never stronger than M evolves under the control as with instantaneous pulses, up to M times the time the n pulses take on the hardware, M times 28 (n + 2) u T, and u/2 times the sum of the angles. When a predefined sequence with at most one pulse at each time is computed and converted in floating point, and there is room for the pulses and the rounding errors, both calls succeed and the qubit evolves as with the instantaneous pulses of the exact sequence up to n (7 u + M e T) + M (n w + 29 (n + 2) u T), where e is the error of the times and w the time of a pi-pulse. Hence the control suppresses slow dephasing noise, and static noise of every direction if the sequence decouples from it, as the ideal sequence does, up to this term; with pre and post rotations the qubit is found in its initial state with probability at least one minus the square of the sum. For continuous noise the evolution exists and is unique.", "quantifier": "all floating-point arithmetics with unit roundoff up to 2^-20, all noise (also time dependent and in every direction), all such sequences, all ten predefined constructors with all arguments, all rates and minimum segment durations that leave room", "why_tests_cant": "It bounds the rounding errors of two calls and the solution of a differential equation for every noise, sequence and hardware; a simulation checks one of each.", "anchors": ["qctrlopencontrols/dynamic_decoupling_sequences/dynamic_decoupling_sequence.py: convert_dds_to_driven_control", "qctrlopencontrols/dynamic_decoupling_sequences/predefined.py: the ten functions new_..._sequence"]}
{"id": "C116", "title": "Controls under errors that change during the control", "statement": "When the relative error of the Rabi rate, the error of the phase of the drive and the error of the detuning change with time, Schroedinger's equation for the control has exactly one solution (for continuous errors); for constant errors it ends with the evolution of the control with the errors added. Two pieces of hardware whose errors never differ by more than A, P and D carry out the control equally up to half of (swept angle)(A + G P) + (duration) D, G bounding the Rabi rate relative to the requested one. So composite pulses suppress the constant part of an error to the order of C83, with the bounds of C102, and the rest is not amplified beyond this. Of an amplitude error of a control without detunings only the averages over the segments matter; a primitive pulse rotates by exactly the requested angle plus the Rabi rate times the integral of the error.", "quantifier": "all constructed controls, all errors as functions of time, all nine composite pulses with all accepted arguments", "why_tests_cant": "It is about the solution of a differential equation for every course of the errors.", "anchors": ["qctrlopencontrols/driven_controls/driven_control.py: DrivenControl", "qctrlopencontrols/driven_controls/predefined.py: new_bb1_control", "qctrlopencontrols/driven_controls/predefined.py: new_primitive_control"]}
{"id": "C117", "title": "Texts of floats in files", "statement": "The text that is written for a float (the decimal number with fewest digits that is rounded to the float, the nearest one of these, in positional or exponential notation) always exists, is a number in JSON and in CSV files, and is read back as exactly the same float, so different floats have different texts. No text with fewer significant digits is read as the float, and none with as many is nearer; doubles, also subnormal ones, need at most 17 digits. So a control with drive that is exported and read back, in CSV or JSON, generates its evolution up to the rounding of the division by the maximum Rabi rate, without assumptions on how numbers are printed; a JSON file is valid exactly if all its numbers are finite.", "quantifier": "all floats of every binary precision from 20 bits and of double precision with its limits, all texts, all constructed controls", "why_tests_cant": "It is about every float and every text that could be read as it.", "anchors": ["qctrlopencontrols/driven_controls/driven_control.py: DrivenControl.export_to_file", "qctrlopencontrols/driven_controls/driven_control.py: DrivenControl._export_to_qctrl_expanded_format"]}
{"id": "C118", "title": "What is printed can be typed in again", "statement": "Someone who reads the text of a printed control with at least one segment, or of a printed sequence, multiplies each entry by the factor of its line and passes the results to the constructor gets a control or sequence that is accepted, whatever the name is. Computed in floating point, with unit roundoff u, each attribute agrees with the printed one up to a relative error 5 u; the evolution agrees up to 5 u times the sum of duration (Rabi rate (1 + |azimuthal angle|) + |detuning|), the product of the pulses up to 3 u times the sum of |rotation| (1 + |azimuthal angle|) + |detuning rotation|, and the duration of a sequence is the same. Excepted are controls whose largest detuning is 0 and another is negative; then all detunings are 0 in the control typed in.", "quantifier": "all constructed controls with fewer than 2^(p-1) segments and all constructed sequences, in every binary precision p from 20 bits, with the texts of floats of C117; all names", "why_tests_cant": "The printed numbers are quotients that are rounded, for every control and every name.", "anchors": ["qctrlopencontrols/driven_controls/driven_control.py: DrivenControl.__str__", "qctrlopencontrols/dynamic_decoupling_sequences/dynamic_decoupling_sequence.py: DynamicDecouplingSequence.__str__"]}
{"id": "C119", "title": "Files of composite pulses are read back exactly", "statement": "A control whose Rabi rates are all equal to their maximum or zero, exported to a CSV file (with a name) or JSON file in cylindrical coordinates, is read back from the text of the file exactly as it was, although rates are divided by their maximum and all numbers are written in decimal. This includes every predefined composite pulse except WAMF1, whatever the arguments. In double precision with overflow and underflow it holds if all numbers are finite; so from the arguments of a BB1 pulse, through the file, to the control that is read back, the rotation is performed up to (angle / 2 + 13) u. For other rates it can fail: of the rates 49 and 1, in 53 bits, the second is read back as less than 1.", "quantifier": "all constructed controls of this kind and all arguments of the composite pulses, in every binary precision p from 20 bits and in double precision with its limits, with the texts of floats of C117; all file names", "why_tests_cant": "Equality of all floats for every control; a test on samples can miss the floats for which dividing and multiplying is lossy.", "anchors": ["qctrlopencontrols/driven_controls/driven_control.py: DrivenControl.export_to_file", "qctrlopencontrols/driven_controls/predefined.py"]}
{"id": "C120", "title": "Composite pulses called with arrays", "statement": "The predefined composite pulses are not vectorised, and do not pretend to be. Called with numpy arrays as Rabi rotation, maximum Rabi rate and azimuthal angle, each of them returns a control only if every argument has exactly one item, and then the control has exactly the numbers of the call with these items; the axes of the rate are appended to Rabi rates and durations, those of the azimuthal angle to the azimuthal angles. Several rates or rotations raise ValueError, none raise ArgumentsValueError; several azimuthal angles or none raise ArgumentsValueError about the lengths (ValueError for CORPSE in SCROFULOUS). But an azimuthal angle given as an array with one item is accepted, and amplitude_x and amplitude_y of the control are then silently n x n arrays, with every Rabi rate and every azimuthal angle.", "quantifier": "all nine schemes, arrays of every shape, all items and names, all arithmetics; a Rabi rotation with one item is a number or an array without axes", "why_tests_cant": "There are infinitely many shapes; a test shows a few of them, and a wrong control of a plausible shape raises no exception.", "anchors": ["qctrlopencontrols/driven_controls/predefined.py: new_primitive_control, new_bb1_control, new_sk1_control, new_scrofulous_control, new_corpse_control, new_corpse_in_bb1_control, new_corpse_in_sk1_control, new_corpse_in_scrofulous_control, new_wamf1_control, _validate_rabi_parameters", "qctrlopencontrols/utils.py: check_arguments", "qctrlopencontrols/driven_controls/driven_control.py: DrivenControl.__init__, amplitude_x, amplitude_y"]}
{"id": "C121", "title": "No control is faster than the primitive one", "statement": "A control whose area (the sum of Rabi rate times duration) is A, at most pi, flips a qubit with amplitude at most sin(A/2), whatever its segments, azimuthal angles and detunings. So a control that performs a rotation by theta, up to a phase, about an axis of the equator has an area of at least theta if theta is at most pi, and with Rabi rates of at most Omega it takes at least the time theta / Omega. The primitive control takes exactly this time: it is the fastest control for its rotation if and only if the rotation is by at most pi. The durations of the other composite pulses are given in closed form; all of them take longer.", "quantifier": "all constructed controls (any number of segments, any detunings), all rotation angles, rates and azimuthal angles; exact arithmetic", "why_tests_cant": "It compares the primitive control with all controls of any number of segments; a test can only compare it with some.", "anchors": ["qctrlopencontrols/driven_controls/predefined.py: new_primitive_control and the other composite pulses", "qctrlopencontrols/driven_controls/driven_control.py: DrivenControl.duration"]}
{"id": "C122", "title": "Uhrig sequences are the best, and the only best", "statement": "A sequence with n pi-pulses about axes in the XY plane, wherever and in whatever order they are given, cancels at most the n lowest orders (powers of time) of dephasing noise. It cancels n orders if and only if its pulses are at Uhrig's times T sin^2(i pi/(2n+2)). new_uhrig_sequence therefore returns a sequence that no other of the same duration and number of pulses surpasses, and that only sequences with the same pulse times equal; no predefined sequence cancels more orders than it has pi-pulses, and it cancels as many exactly if its pulses are at Uhrig's times.", "quantifier": "all sequences of positive duration with any number of pulses at any offsets and with any other rotations, all predefined sequences with all their arguments; exact arithmetic", "why_tests_cant": "Optimality and uniqueness compare the returned sequence with all sequences of the same number of pulses, a continuum of many dimensions.", "anchors": ["qctrlopencontrols/dynamic_decoupling_sequences/predefined.py: new_uhrig_sequence and the other predefined sequences", "qctrlopencontrols/dynamic_decoupling_sequences/dynamic_decoupling_sequence.py: DynamicDecouplingSequence"]}
{"id": "C123", "title": "Response of the sequences to noise of one frequency", "statement": "The phase picked up under dephasing noise cos(wt + phi) is the real part of e^(i phi) F(w), where F is the Fourier transform of the sensitivity. For low frequencies |F(w)| is proportional to |w|^m, with a factor that is not zero, where m is the order of cancellation of the predefined sequence (C72); it is at most |w|^k T^(k+1)/(2^k (k+1)!) for every k up to m and every w. For any sequence the power is at most the number of pi-pulses. |w F(w)| is 2|sin(wT/2)| for Ramsey, 4 sin^2(wT/4) for spin echo, 4 sin^2(wT/4n)|sin(wT/2)|/|cos(wT/2n)| (cosine instead of sine of wT/2 for odd n) for Carr-Purcell and CPMG, 2|tan(wT/(2n+2))| times the sine or cosine of wT/2 for periodic sequences, and a product of sines and cosines, one for each binary digit of the order, for Walsh and X-concatenated sequences. At the resonance w = n pi/T of Carr-Purcell and CPMG the response is 2T/pi.", "quantifier": "all predefined sequences with all arguments (and, for the bound on the power, all sequences), all real frequencies and phases; exact arithmetic", "why_tests_cant": "The formulas hold for every frequency, duration and number of pulses; the power law is a limit.", "anchors": ["qctrlopencontrols/dynamic_decoupling_sequences/predefined.py: all new_*_sequence functions", "qctrlopencontrols/dynamic_decoupling_sequences/dynamic_decoupling_sequence.py: DynamicDecouplingSequence"]}
{"id": "C124", "title": "The hardware the predefined sequences need", "statement": "A predefined sequence of pi-pulses about an axis in the XY plane converts on hardware with maximum Rabi rate R, maximum detuning rate D and minimum segment duration m if and only if R and D are positive, m is not negative, every pulse has room for half of itself, for the pi/2 rotation (if there is one) and for a shortest gap between its centre and either end, and any two pulses have room for one pulse and a shortest gap between their centres. The shortest gap is m less numpy's tolerance 1e-8 + 1e-5 m. The distances are given in closed form: T/2n at the ends and T/n between the pulses for Carr-Purcell and CPMG, T sin^2 a and T sin a sin 3a with a = pi/(2n+2) for Uhrig, T/(n+1) for periodic, T/2^d for Walsh sequences of d binary digits (twice as much between the pulses for the orders 3, 6, 12, ...), T/2^l for X-concatenated of order l (T/2 between the pulses of order 2). For quadratic sequences the first interval between the outer pulses decides: T sin^2 a sin^2 b from its ends to an inner pulse and T sin^2 a sin b sin 3b between inner pulses. Of the XY-concatenated sequences only orders 1 (without pre and post rotations) and 2 convert, and the conditions are given for T/4 and T/16. So with m = 0 the least Rabi rate of CPMG is pi/(T/n + 1e-8), with pre and post rotations pi/(T/2n + 1e-8); that of Uhrig with them is pi/(T sin^2 a + 1e-8).", "quantifier": "all predefined sequences, all durations, pulse numbers and orders, all hardware limits, with and without pre and post rotations; exact arithmetic", "why_tests_cant": "It is an equivalence for all pulse numbers and all real limits; a test tries some of them.", "anchors": ["qctrlopencontrols/dynamic_decoupling_sequences/dynamic_decoupling_sequence.py: convert_dds_to_driven_control", "qctrlopencontrols/dynamic_decoupling_sequences/predefined.py: all new_*_sequence functions"]}
{"id": "C125", "title": "How many pulses and segments", "statement": "The number N of pi-pulses of a predefined sequence is: 0 for Ramsey, 1 for spin echo, the integer part of the count for Carr-Purcell, CPMG, Uhrig and periodic; for Walsh the one number whose Gray code (N xor N/2) is the Paley order; m + (m+1) n for quadratic with n inner and m outer pulses; a third of 2^(l+1), rounded down, for X-concatenated of order l; (11 * 4^l - 8)/12 for even and (11 * 4^l + 4)/12 for odd orders l of XY-concatenated. Pre and post rotations are two more. A sequence whose pulses do not touch converts to a control with one segment for each pulse and one for each gap, so 2N + 1 less the number of pulses at the very start or end; a predefined sequence other than XY-concatenated to one with 2N + 1 segments, or 2N + 3 with pre and post rotations, if the minimum segment duration is above numpy's tolerance. The XY-concatenated sequence of order 1 converts to 8 segments, that of order 2 to 29, or 31 with pre and post rotations; no other order converts.", "quantifier": "all predefined sequences with all arguments that are accepted; all sequences and hardware limits that convert; exact arithmetic", "why_tests_cant": "The counts are closed forms for all orders; the code builds the pulses by sampling a sign function and by recursion.", "anchors": ["qctrlopencontrols/dynamic_decoupling_sequences/predefined.py: all new_*_sequence functions", "qctrlopencontrols/dynamic_decoupling_sequences/dynamic_decoupling_sequence.py: DynamicDecouplingSequence.offsets", "qctrlopencontrols/dynamic_decoupling_sequences/dynamic_decoupling_sequence.py: convert_dds_to_driven_control"]}
{"id": "C126", "title": "XY-concatenated sequences with wrong rotation angles", "statement": "Suppose all X pulses of an XY-concatenated sequence have the same relative error of the rotation angle and all Y pulses have the same relative error. For even orders the pulses together do exactly what exact pulses do. For odd orders from three on they do what exact pulses do after a rotation by pi times the error of a single Y pulse. With pre and post rotations the qubit returns to its initial state with certainty for all orders from two on, and with probability 1 - sin^2(pi ex) sin^2(pi ey / 2) for order one. Converted to a driven control and played on hardware that multiplies all Rabi rates by 1 + e, the sequence of order two still does exactly what its ideal pulses do, with or without pre and post rotations; that of order one has, up to a sign, half the trace 1 - 2 sin^4(pi e/2).", "quantifier": "all durations, orders and names; all errors ex of the X pulses and ey of the Y pulses; all hardware on which the sequence converts; exact arithmetic", "why_tests_cant": "A product of exponentially many rotations by arbitrary angles.", "anchors": ["qctrlopencontrols/dynamic_decoupling_sequences/predefined.py: new_xy_concatenated_sequence, _add_pre_post_rotations", "qctrlopencontrols/dynamic_decoupling_sequences/dynamic_decoupling_sequence.py: convert_dds_to_driven_control"]}
{"id": "C127", "title": "How much of static noise the XY-concatenated sequences leave", "statement": "The integral of the sensitivity to static noise along an axis (a sign that flips at every pulse about another axis) over an XY-concatenated sequence of duration T is, for even orders 2k+2, T (1 - 16^-k)/20 along x and y and 0 along z; for odd orders 2k+1 from three on, T (6 * 16^-k - 1)/20 along x, T (4 * 16^-k + 1)/20 along y and -T (1 - 16^-k)/10 along z. So concatenation stops helping at order two: from order three on between 3/64 and 1/16 of the noise along y remains, whatever the order.", "quantifier": "all orders from two on, all durations and names, with or without pre and post rotations; exact arithmetic", "why_tests_cant": "A sum over exponentially many intervals, in closed form for every order.", "anchors": ["qctrlopencontrols/dynamic_decoupling_sequences/predefined.py: new_xy_concatenated_sequence"]}
{"id": "C128", "title": "Z pulses with wrong rotation angles", "statement": "If every Z pulse of a predefined sequence has its own relative error of the rotation angle, the pulses together do what exact pulses do, preceded by a rotation about Z by pi times the sum of the errors, each with a sign that changes at every X or Y pulse; with pre and post rotations the qubit returns with probability cos^2(pi/2 times that sum). With the same error e of all Z pulses, a quadratic sequence with an odd number of outer pulses returns it with certainty and one with an even number with probability cos^2(pi e n/2), n being the number of inner pulses; an XY-concatenated sequence of order l from two on with probability cos^2(pi e (4^(l-1) + 2)/6).", "quantifier": "all predefined sequences, durations, counts and orders; all errors of the Z pulses; exact arithmetic", "why_tests_cant": "A product of arbitrarily many rotations by arbitrary angles.", "anchors": ["qctrlopencontrols/dynamic_decoupling_sequences/predefined.py: new_quadratic_sequence, new_xy_concatenated_sequence, _add_pre_post_rotations"]}
{"id": "C129", "title": "Playing a sequence several times", "statement": "The constructor accepts the arrays of any sequence repeated m times, with the offsets of each copy moved by the duration. The result takes m times as long and its pulses do the m-th power of what those of the sequence do; under noise that repeats with the sequence, such as static noise, the qubit evolves by the m-th power of its evolution. Errors therefore grow at most linearly: quadratic sequences and XY-concatenated ones of order one or two under static noise (x sx + y sy + z sz)/2 do what the pulses do up to m (x^2+y^2+z^2) T^2/8. The order to which dephasing noise is cancelled stays the same, except that it is higher by exactly one if a sequence with an odd number of pi-pulses about axes in the XY plane is played an even number of times. Carr-Purcell and CPMG sequences played m times are exactly the Carr-Purcell and CPMG sequences with m times as many pulses in m times the duration, and a Walsh sequence whose Paley order has an even number of binary ones, played 2^a times, is exactly the Walsh sequence of 2^a times the order. The response to noise of frequency w is that of the sequence times the sum of (s e^(iwT))^j over the copies j, s = -1 for an odd number of pi-pulses and 1 otherwise: in absolute value |sin(m w T/2)/sin(w T/2)| for an even number, m at the resonances w = 2 pi k/T.", "quantifier": "all constructible sequences; all numbers of repetitions; all noise that repeats with the sequence; all predefined sequences, durations and counts; all frequencies; exact arithmetic", "why_tests_cant": "Arbitrary sequences and any number of repetitions.", "anchors": ["qctrlopencontrols/dynamic_decoupling_sequences/dynamic_decoupling_sequence.py: DynamicDecouplingSequence", "qctrlopencontrols/dynamic_decoupling_sequences/predefined.py: new_carr_purcell_sequence, new_cpmg_sequence, new_walsh_sequence, new_quadratic_sequence, new_xy_concatenated_sequence"]}
{"id": "C130", "title": "Playing controls and sequences one after another", "statement": "The constructors accept the concatenated arrays of any two controls, and those of any two sequences if the offsets of the second one are moved by the duration of the first. The joined control drives at each time like the first control and then like the second one, performs the product of the two evolutions, and its times, amplitudes, angles and exported values are those of the two, one after the other. The pulses of a joined sequence do the product of what those of the two do, and under any noise the qubit evolves by the product of its evolutions during the two. If two sequences longer than 1e-8, without a pulse at the joint and without overlapping windows, can be converted, the joined sequence can be converted on the same hardware, and its control drives at each time like that of the first sequence and then like that of the second; likewise a sequence without pulses at its ends that is played several times gives its control several times in a row. A pulse on one side of the joint only is carried out half before and half after it, and the evolution is still the product of the two. With a pulse on both sides of the joint, as with pre and post rotations, the joined sequence is never converted. In floating-point arithmetic controls and sequences can be joined as well: arrays, amplitudes and angles are concatenated exactly, durations and offsets are off by rounding only, no pulse leaves the joined sequence and none overtakes another; but pulses that are closer than the rounding of the new offsets can coincide.", "quantifier": "all constructible controls and sequences; all hardware; all times; all numbers of repetitions; all noise; exact and floating-point arithmetic", "why_tests_cant": "Arbitrary controls, sequences, hardware and times; a conversion that moved, merged or dropped anything at a joint would need particular sequences to be seen.", "anchors": ["qctrlopencontrols/driven_controls/driven_control.py: DrivenControl", "qctrlopencontrols/dynamic_decoupling_sequences/dynamic_decoupling_sequence.py: DynamicDecouplingSequence, convert_dds_to_driven_control"]}
{"id": "C131", "title": "Predefined sequences with an array as duration", "statement": "Called with a numpy array as duration and without pre and post rotation, a predefined sequence function (except the quadratic one) accepts the array exactly if it has one item and the call with this number is accepted. The sequence then has the times and rotations of the sequence for the number, with the array as duration; the shapes of its arrays follow from the shape of the duration by broadcasting: a duration with two or more axes gives Carr-Purcell, CPMG, Uhrig, periodic and Walsh sequences whose first axis has length 1 however many pulses there are, and they are accepted. An array with several items raises ValueError, not the exception of the library; one without items and one with an invalid item raise ArgumentsValueError.", "quantifier": "nine functions, arrays of any shape, all counts and orders; any arithmetic (acceptance in terms of the documented conditions: exact arithmetic)", "why_tests_cant": "All shapes, items and counts; the tests call the functions with numbers only.", "anchors": ["qctrlopencontrols/dynamic_decoupling_sequences/predefined.py: new_ramsey_sequence, new_spin_echo_sequence, new_carr_purcell_sequence, new_cpmg_sequence, new_uhrig_sequence, new_periodic_sequence, new_walsh_sequence, new_x_concatenated_sequence, new_xy_concatenated_sequence", "qctrlopencontrols/dynamic_decoupling_sequences/dynamic_decoupling_sequence.py: DynamicDecouplingSequence.__init__", "qctrlopencontrols/utils.py: check_arguments"]}
{"id": "C132", "title": "One control for a list of gates", "statement": "The arrays of any list of controls, concatenated, are accepted by the constructor; the control has their segments and no others, takes as long as they take together and performs what they perform in turn, with and without systematic errors of the Rabi rates and the detuning. Errors add up and do not multiply: whatever the controls should perform, the control for the list is off by at most the sum of what they are off. If all of them are insensitive to an error to first (second) order, so is the control for the list. A circuit of exact composite pulses performs the requested rotations in turn; a circuit of BB1, SK1 or CORPSE pulses is within the sum of the bounds of its gates for every error, also when the BB1 pulses are computed in floating-point arithmetic (plus rounding), whereas n equal primitive pulses are off by exactly 2|sin(n theta e / 4)|.", "quantifier": "all lists of controls (any length); all lists of composite pulses; all errors; all target operations; any arithmetic for acceptance; all roundings for BB1", "why_tests_cant": "Ranges over lists of any length, all gates and all errors; the tests look at single controls.", "anchors": ["qctrlopencontrols/driven_controls/driven_control.py: DrivenControl.__init__, duration", "qctrlopencontrols/driven_controls/predefined.py: new_primitive_control, new_bb1_control, new_sk1_control, new_corpse_control, new_corpse_in_bb1_control, new_corpse_in_sk1_control"]}
{"id": "C133", "title": "The control that undoes another control", "statement": "For every control the constructor accepts the arrays in opposite order with np.pi added to the azimuthal angles and the opposite detunings. This control takes as long as the other one and undoes it, in either order, for every error of the Rabi rates: the same error of both cancels. A detuning error does not cancel: what is undone is the control under the opposite error, and there are controls that are not undone. Any list of controls followed by what undoes them in opposite order does nothing, whatever the error of the Rabi rates. What undoes a control is insensitive to first (second) order to the errors the control is insensitive to. What undoes an exact composite pulse performs the rotation about the opposite axis, and for primitive, SCROFULOUS and WAMF1 pulses it is the pulse of the same kind about the opposite axis. In floating-point arithmetic a control followed by what undoes it does nothing up to (A + 7)/2 u times the total rotation, A the largest azimuthal angle.", "quantifier": "all controls and lists of controls, all errors, all composite pulses, all roundings; any arithmetic for acceptance", "why_tests_cant": "Ranges over all controls, lists of any length and all errors; the tests never play a control backwards.", "anchors": ["qctrlopencontrols/driven_controls/driven_control.py: DrivenControl.__init__, duration", "qctrlopencontrols/driven_controls/predefined.py: new_primitive_control, new_scrofulous_control, new_wamf1_control, new_bb1_control"]}
{"id": "C134", "title": "Conversion and export with arrays as limits", "statement": "convert_dds_to_driven_control called with numpy arrays as maximum Rabi rate, maximum detuning rate and minimum segment duration accepts them exactly if each has one item and the call with these numbers is accepted, and returns the control of that call. It is never vectorised: an array with several items raises ValueError (not the exception of the library), one without items ArgumentsValueError naming the limit, the detuning rate being looked at first, then the Rabi rate, then the minimum segment duration. export_to_file of a sequence behaves in the same way and touches no file if one of its rates does not have one item.", "quantifier": "all sequences with 1-D arrays, arrays of any shape as limits, all file systems; any arithmetic (acceptance in terms of the documented conditions: exact arithmetic)", "why_tests_cant": "All shapes, items and sequences; the tests call the conversion with numbers only.", "anchors": ["qctrlopencontrols/dynamic_decoupling_sequences/dynamic_decoupling_sequence.py: convert_dds_to_driven_control, DynamicDecouplingSequence.export_to_file", "qctrlopencontrols/utils.py: check_arguments"]}
{"id": "C135", "title": "The unit of time", "statement": "Every composite pulse, the modulated Gaussian control and every predefined sequence depend on the unit of time only through the unit: called with times k times as large and rates k times as small they return the same control or sequence with its times multiplied and its rates divided by k, and they refuse the same arguments with the same exceptions. In floating-point arithmetic this holds to the last bit for every power of two k, in exact arithmetic for every positive k. The angles of such a control are the same, times and rates are those of the original in the other unit, the exported dictionary has the same relative amplitudes, and the control performs the same operation, also under a relative error of the Rabi rates and a detuning error in the other unit. (The conversion is different: C53.)", "quantifier": "all schemes, all ten sequence functions, all arguments (also refused ones), all powers of two and all roundings, all positive factors in exact arithmetic", "why_tests_cant": "Relates pairs of calls with all arguments and all factors; exact equality of rounded results cannot be sampled.", "anchors": ["qctrlopencontrols/driven_controls/predefined.py: all functions", "qctrlopencontrols/dynamic_decoupling_sequences/predefined.py: all functions", "qctrlopencontrols/driven_controls/driven_control.py: angles, times, amplitude_x, amplitude_y, maximum_rabi_rate, export"]}
{"id": "C136", "title": "A list of gates on hardware whose errors drift", "statement": "If controls are put together into one control, then on hardware whose Rabi rate, phase and detuning errors change with time the whole performs exactly the product of the operations of the single controls, each met by the errors of the time at which it is played; what the whole is off is at most the sum of what the single controls are off. For BB1 pulses, a Rabi rate error up to E that drifts by at most L per unit of time contributes per gate a term of third order in E and a term proportional only to the drift during this gate, however long the list is.", "quantifier": "all lists of accepted controls, all time-dependent errors for which Schroedinger's equation has a solution (all continuous ones have), all lists of BB1 gates with all angles and rates", "why_tests_cant": "Solutions of a differential equation with arbitrary time-dependent coefficients for arbitrarily long lists of controls.", "anchors": ["qctrlopencontrols/driven_controls/driven_control.py: DrivenControl.__init__", "qctrlopencontrols/driven_controls/predefined.py: new_bb1_control"]}
{"id": "C137", "title": "The modulated Gaussian control called with arrays", "statement": "new_modulated_gaussian_control called with numpy arrays instead of numbers is not vectorised: a control is returned exactly if rate, minimum segment duration and duration have one item, the frequency at most one, rate, duration and a non-zero frequency have at most one axis, and the call with the numbers is accepted; it has the values of that call. Several items, or two axes, raise ValueError; an empty rate or duration raises ArgumentsValueError; an empty frequency is taken as zero. If the duration has an axis, the segment durations are an n x 1 array and angles is an n x n array.", "quantifier": "all arrays of all shapes for the four arguments; values and exceptions in any arithmetic", "why_tests_cant": "Ranges over arrays of all shapes and sizes for four arguments and over all their items.", "anchors": ["qctrlopencontrols/driven_controls/predefined.py: new_modulated_gaussian_control", "qctrlopencontrols/driven_controls/driven_control.py: DrivenControl.__init__, angles"]}
{"id": "C138", "title": "Sequences under random dephasing noise with a given spectrum", "statement": "Under stationary random dephasing noise with the spectrum S the phase picked up during any sequence is zero on average and its mean square is the integral of |F(w)|^2 over S, F the response of C123 (the filter-function formula). For a predefined sequence it is at most (T^(k+1)/(2^k (k+1)!))^2 times the moment of w^(2k), for every k up to the order of cancellation; if the noise is slowed down by a factor e, it vanishes exactly as e^(2m), m the order of cancellation. With pre- and post-rotations the qubit returns to its initial state with average probability at least 1 - (integral)/4, and exactly (1 + exp(-(integral)/2))/2 for Gaussian noise. Noise of several tones with independent random phases is of this kind: the mean square is half the sum of A^2 |F(w)|^2.", "quantifier": "all sequences (filter function) or all predefined sequences with all arguments (suppression, return probability), all stationary noise with continuous paths and finite power, all spectra (discrete, continuous or mixed); exact arithmetic", "why_tests_cant": "Ranges over all random processes and all spectra; a test can only average over finitely many runs of finitely many noises.", "anchors": ["qctrlopencontrols/dynamic_decoupling_sequences/predefined.py: new_ramsey_sequence, new_spin_echo_sequence, new_carr_purcell_sequence, new_cpmg_sequence, new_uhrig_sequence, new_periodic_sequence, new_walsh_sequence, new_quadratic_sequence, new_x_concatenated_sequence, new_xy_concatenated_sequence", "qctrlopencontrols/dynamic_decoupling_sequences/dynamic_decoupling_sequence.py: DynamicDecouplingSequence"]}
{"id": "C139", "title": "Predefined sequences called with arrays as counts, orders and switch", "statement": "The ten predefined sequences called with numpy arrays as number of offsets, Paley order, concatenation order or pre_post_rotation are not vectorised: a sequence is returned exactly if every count or order has one item (whatever its axes), the switch at most one, and the call with the numbers is accepted; it is the sequence of that call. Of the first count or order that is looked at after an accepted duration, several items raise ValueError and none ArgumentsValueError; several switches raise ValueError; an empty switch counts as False.", "quantifier": "all arrays of all shapes for counts, orders and switch, all durations and names, in any arithmetic", "why_tests_cant": "Ranges over arrays of all shapes and sizes and over all their items, for ten functions.", "anchors": ["qctrlopencontrols/dynamic_decoupling_sequences/predefined.py: new_ramsey_sequence, new_spin_echo_sequence, new_carr_purcell_sequence, new_cpmg_sequence, new_uhrig_sequence, new_periodic_sequence, new_walsh_sequence, new_quadratic_sequence, new_x_concatenated_sequence, new_xy_concatenated_sequence"]}
{"id": "C140", "title": "Converted controls under random dephasing noise", "statement": "A predefined sequence is converted for some hardware without overlapping pulses and applied under stationary random dephasing noise with the spectrum S that never exceeds M. Averaged over the runs, the squared distance between the evolution of the qubit and that of the ideal pulses is at most (sqrt(overlap)/2 + M w)^2, where the overlap is the integral of |F|^2 over S and w the time of all pulses; with pre- and post-rotations the average probability to return to the initial state is at least one minus this. The same holds for the sequence computed and converted in floating-point arithmetic, with the rounding errors added to M w.", "quantifier": "all predefined sequences with all arguments, all hardware limits with room for the pulses, all stationary bounded noise with continuous paths, all spectra; exact and floating-point arithmetic", "why_tests_cant": "Ranges over all random processes, spectra and hardware; a test can only average over finitely many runs.", "anchors": ["qctrlopencontrols/dynamic_decoupling_sequences/dynamic_decoupling_sequence.py: convert_dds_to_driven_control", "qctrlopencontrols/dynamic_decoupling_sequences/predefined.py: new_ramsey_sequence, new_spin_echo_sequence, new_carr_purcell_sequence, new_cpmg_sequence, new_uhrig_sequence, new_periodic_sequence, new_walsh_sequence, new_quadratic_sequence, new_x_concatenated_sequence, new_xy_concatenated_sequence"]}
{"id": "C141", "title": "Lists, tuples and complex numbers as arguments", "statement": "The ten predefined sequences, the modulated Gaussian control and convert_dds_to_driven_control do not accept lists, tuples or complex numbers for their numbers: a result is returned exactly if all numbers are booleans, integers or floats and the call with them returns it. In place of a number that would be accepted they raise TypeError, not the ArgumentsValueError of the library; a list or complex number as duration of a sequence always does, whatever else is given. A duration that is not positive raises ArgumentsValueError, whatever else is given. pre_post_rotation and dimensionless_rabi_rate count by truth value, so that [False] switches them on and [] off. As a selector of the exports they raise ArgumentsValueError and change no file.", "quantifier": "all lists, tuples, complex numbers and scalar objects as arguments of the ten sequences, the Gaussian control (frequency not complex), the conversion and the exports; every arithmetic", "why_tests_cant": "Which exception any such object raises in any position is a statement about all of them and all other arguments.", "anchors": ["qctrlopencontrols/dynamic_decoupling_sequences/predefined.py: new_ramsey_sequence, new_spin_echo_sequence, new_carr_purcell_sequence, new_cpmg_sequence, new_uhrig_sequence, new_periodic_sequence, new_walsh_sequence, new_quadratic_sequence, new_x_concatenated_sequence, new_xy_concatenated_sequence", "qctrlopencontrols/driven_controls/predefined.py: new_modulated_gaussian_control", "qctrlopencontrols/dynamic_decoupling_sequences/dynamic_decoupling_sequence.py: convert_dds_to_driven_control", "qctrlopencontrols/driven_controls/driven_control.py: DrivenControl.export, DrivenControl.export_to_file"]}
{"id": "C142", "title": "Noise with a symmetry in time", "statement": "Every predefined sequence except the XY-concatenated ones removes all dephasing noise of one parity about its middle, however fast it varies and with or without pre and post rotations: the qubit does exactly what the pulses alone do. Spin echo, Carr-Purcell, CPMG, Uhrig and periodic sequences with an odd count, Walsh sequences whose Paley order has an odd number of binary ones, quadratic sequences with an odd outer count and X-concatenated sequences of odd order remove the symmetric noise; the others the antisymmetric noise. Of the other parity there is noise that each of them leaves: a power of the time from the middle. Noise run backwards gives the same phase up to a sign.", "quantifier": "all predefined sequences but the XY-concatenated ones, all arguments they accept, all noise functions (continuous ones for the evolution); exact arithmetic", "why_tests_cant": "The claim is about all noise functions, whatever their bandwidth, and all counts and orders.", "anchors": ["qctrlopencontrols/dynamic_decoupling_sequences/predefined.py: new_ramsey_sequence, new_spin_echo_sequence, new_carr_purcell_sequence, new_cpmg_sequence, new_uhrig_sequence, new_periodic_sequence, new_walsh_sequence, new_quadratic_sequence, new_x_concatenated_sequence"]}
{"id": "C143", "title": "Controls that are the same run backwards", "statement": "Primitive, SCROFULOUS and WAMF1 controls never acquire a rotation about Z from wrong Rabi rates, however large, if the errors of the segments are symmetric about the middle (constant ones in particular). If the detuning is wrong as well, primitive and WAMF1 controls rotate about an axis in the plane of the intended axis and Z. The same holds for the control any predefined sequence without pre and post rotations, except the XY-concatenated ones, converts to: its axis stays in the plane of Z and the axis of its pulses. SK1 is not of this kind: a wrong Rabi rate gives it a rotation about Z.", "quantifier": "all arguments the constructors and the conversion accept, all errors symmetric about the middle; durations above 1e-8 for converted sequences; exact arithmetic", "why_tests_cant": "The claim is about errors of any size and controls with any number of segments.", "anchors": ["qctrlopencontrols/driven_controls/predefined.py: new_primitive_control, new_scrofulous_control, new_wamf1_control, new_sk1_control", "qctrlopencontrols/dynamic_decoupling_sequences/dynamic_decoupling_sequence.py: convert_dds_to_driven_control"]}
{"id": "C144", "title": "Converting a sequence whose duration is an array", "statement": "A sequence whose duration is an array with one item converts exactly if the sequence with this number as duration does, raises the same otherwise, and the control has the same numbers. Above 1e-8 the control has 1-D arrays whatever the shape of the duration; a shorter one can have durations with as many axes as the duration and one more. The nine predefined sequences that accept an array as duration convert like those for the number if the array has at most one axis. With two or more axes the Carr-Purcell, CPMG, Uhrig, periodic and Walsh sequences of several pulses are accepted but can never be converted.", "quantifier": "all sequences the constructor accepts with an array as duration, arrays of any shape, all hardware limits; the first and last part in any arithmetic, the rest in exact arithmetic", "why_tests_cant": "Ranges over all shapes and all arguments.", "anchors": ["qctrlopencontrols/dynamic_decoupling_sequences/dynamic_decoupling_sequence.py: convert_dds_to_driven_control, DynamicDecouplingSequence.__init__", "qctrlopencontrols/dynamic_decoupling_sequences/predefined.py: new_cpmg_sequence, new_ramsey_sequence, new_spin_echo_sequence"]}
{"id": "C145", "title": "Modulated Gaussian control under detuning errors", "statement": "Whatever the errors of Rabi rates and detunings of a modulated Gaussian control, if they are symmetric about its middle (in particular constant ones), the control never rotates about the axis it drives along: the axis of its rotation is in the YZ plane. Without a modulation the axis is in the XZ plane.", "quantifier": "all accepted arguments with a waveform that does not vanish, all modulation frequencies, all symmetric errors of any size, any number of segments, in exact arithmetic", "why_tests_cant": "Ranges over all arguments and all symmetric errors, hence over products of unboundedly many rotations about different axes.", "anchors": ["qctrlopencontrols/driven_controls/predefined.py: new_modulated_gaussian_control"]}
{"id": "C146", "title": "Composite pulses called with lists", "statement": "A predefined driven control called with lists or tuples of numbers in place of numbers is made exactly in these cases: the rate is a number; the rotation is a number, or for WAMF1 a list with one item; the azimuthal angle is a number, or a list with one item unless the scheme adds pi to it (CORPSE, CORPSE in BB1, CORPSE in SK1). The control then has the numbers of the call with the items. In all other cases an exception is raised, and which one is stated: TypeError for a list as rate and for most lists as rotation, also empty ones, which are not taken for zero; ArgumentsValueError or ValueError for lists as rotation of the schemes with tabulated rotations.", "quantifier": "all nine composite pulses, numbers and flat lists of any length for each of the three arguments, in any arithmetic", "why_tests_cant": "Ranges over all schemes, all lists and all numbers.", "anchors": ["qctrlopencontrols/driven_controls/predefined.py: _validate_rabi_parameters, new_wamf1_control, new_corpse_control, new_bb1_control, new_scrofulous_control"]}
{"id": "C147", "title": "Modulation frequencies the modulated Gaussian control cannot tell apart", "statement": "The modulation is sampled once per segment. The opposite modulation frequency gives the control run backwards. Frequencies that differ by a multiple of the sampling rate (segments per duration) give the same control, or, if the multiple is odd and the number of segments even, the control run backwards. So every modulated control is one with a positive frequency up to half the sampling rate, or one run backwards. A frequency that is a multiple of the sampling rate has no sample to normalise by.", "quantifier": "all accepted arguments with a waveform that does not vanish, all modulation frequencies and all multiples, in exact arithmetic", "why_tests_cant": "Ranges over all frequencies, numbers of segments and multiples.", "anchors": ["qctrlopencontrols/driven_controls/predefined.py: new_modulated_gaussian_control"]}
