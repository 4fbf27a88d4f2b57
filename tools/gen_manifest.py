#!/usr/bin/env python3
"""Writes /verif/MANIFEST.json. One call per property."""
import json, os
claims = []
def c(prop, status, ns, theorems, note=""):
    claims.append({"property": prop, "status": status,
                   "theorems": [(ns + "." + t if not t.startswith("Verif.") else t) for t in theorems], "note": note})

S = "Verif.Sched"; Q = "Verif.Queue"
c("C01", "proved", S, ["c01_at_most_once", "c01_exactly_once", "c01_reaches_end", "Verif.Prepare.c01_whole_run", "Verif.Api.api_run"])
c("C02", "proved", S, ["c02_dependencies", "Verif.Api.api_run"])
c("C03", "proved", S, ["c03_mutual_exclusion", "Verif.Api.api_run"])
c("C04", "proved", S, ["c04_no_residue"])
c("C05", "proved", S, ["c05_ready_task", "c05_can_finish", "c05_not_stuck", "c05_one_thread_terminates", "c05_self_conflict_hangs"],
  "No deadlock: from every reachable state every task can still be completed whatever the random choices are. Termination under "
  "every fair schedule does not hold for the code (trylock retry loops), except with one thread, which is proved. Tasks that lock "
  "conflicting resources themselves never run, which is proved too.")
c("C09", "proved", Q, ["c09_heap_order", "c09_put", "c09_get", "c09_history", "c09_capacity",
  "Verif.Sched.c09_queue_exclusive", "Verif.Sched.c09_queue_changes"])
c("C10", "proved", Q, ["c10_get_lockable", "c10_get_none", "Verif.Sched.c10_all_tried"])
c("C18", "proved", S, ["c18_thread_ids", "c18_thread_id_value"])
P = "Verif.Prepare"
c("C06", "proved", P, ["c06_cycle_detection", "c06_order", "c06_no_overflow"])
c("C07", "proved", P, ["c07_critical_path"])
c("C11", "proved", P, ["c11_pick", "c11_enqueue"])
c("C14", "proved", P, ["c14_prepared", "c14_again", "c14_twice_fails"])
T = "Verif.Store"
c("C08", "proved", T, ["c08_links", "c08_safe"])
c("C12", "proved", T, ["c12_nothing_lost", "c12_reserve", "c08_links"])
c("C13", "partial", T, ["c13_payload_partial", "c13_violated"],
  "Proved for payloads up to 8000 bytes; the code overruns its buffer for a first payload of more than 16000 bytes, which is proved.")
c("C15", "partial", "Verif.Flags", ["c15_skip_or_virtual_root_hangs", "c15_flags_partial"],
  "The property is false when a task is skipped or a virtual task has no predecessor (proved: the run never ends); proved for all other task sets.")
c("C16", "proved", "Verif.Wrapper", ["c16_type_numbers"])
c("C17", "partial", "Verif.Wrapper", ["c17_violated", "c17_counting_partial", "c17_one_thread", "c17_message_lost"],
  "False below 50 tasks (division by zero, proved) and a message can be lost with two threads (proved); the rest is proved.")
G = "Verif.Graph"
c("C19", "proved", G, ["c19_acyclic", "c19_total", "c19_violated", "graph_run"],
  "Acyclic whenever the graph can be generated; with minimum order = maximum order the generation itself dereferences a null pointer (c19_violated).")
c("C22", "proved", G, ["c22_reads", "graph_run"])
c("C23", "proved", G, ["c23_slots", "c22_reads"])
c("C24", "proved", G, ["c24_ordered", "graph_run"])
B = "Verif.Table"
c("C20", "proved", B, ["c20_table", "c20_index_injective", "c20_index_range"])
c("C21", "partial", B, ["c21_user_order_partial", "c21_violated"],
  "generate_tasks sorts the sizes and wavelengths, so the table is in the order of the arguments only if these are sorted: both directions are proved.")
c("C55", "proved", B, ["c20_table"])
A = "Verif.Account"
c("C25", "proved", A, ["c25_accounting"])
c("C26", "partial", A, ["c26_slots", "c26_limit_partial", "c26_violated_pointers", "c26_violated_table", "c26_violated_wrap", "c26_violated_scattering"],
  "The number of slots is proved to be the largest that fits by the estimate; the accounted memory can exceed the limit in the situations of the c26_violated theorems.")
c("C59", "proved", A, ["c59_lookup"])
M = "Verif.Matrix"
c("C27", "proved", M, ["c27_elements", "c27_new", "c27_reset"])
c("C28", "proved", M, ["c28_inverse", "c28_pivots", "c28_involution"])
c("C54", "proved", M, ["c54_dump", "c54_violated_large"],
  "Proved for shapes that fit the 32-bit header; beyond that the header loses information (c54_violated_large).")
S = "Verif.Special"
c("C32", "proved", S, ["c32_symmetric", "c32_interval", "c32_newton", "c32_middle"],
  "Under the hypothesis that the Newton iteration ends (as for every terminating call).")
claims[-1]["theorems"] += ["Verif.Quadrature.c32_accurate", "Verif.Quadrature.c32_exact"]
c("C33", "proved", S, ["c33_spheroid"])
c("C63", "proved", S, ["c63_wigner", "c63_wigner_sinx"],
  "For the version divided by the sine: all angles outside the strip |1-|cos|| <= 1e-10 and the poles themselves; strictly inside the strip the code returns the polar values.")
c("C31", "partial", "Verif.WignerTable", ["c31_tables_partial", "c31_lookup", "c31_sines", "c31_violated_sign"],
  "Products of two tabulated values are right for every m; the individual values in the mirrored half have the wrong sign for odd m (proved).")
c("C62", "partial", "Verif.Bessel", ["c62_second_kind_partial", "c62_first_kind_partial", "c62_first_kind_exact", "c62_first_kind_real", "c62_first_kind_real_500", "c62_first_kind_small", "c62_no_division_by_zero", "c62_violated_nmax_one", "c62_violated_large", "c62_violated_pi"],
  "Second kind: exact for nmax >= 2, violated for nmax = 1 (second element written). First kind: exact formula for what is returned (the combination of both kinds that vanishes at order 801); error at most 1e-59/|sin z| for every real argument up to 500 and relative error at most 4^(n-800) for complex arguments up to 1; violated at the zeros of the sine and for orders above 800.")
T = "Verif.TMatrix"
c("C29", "proved", T, ["c29_in_bounds", "c29_get_set", "c29_other_degree"])
c("C37", "proved", T, ["c37_run", "c37_frozen", "c37_reset", "crossSections_sums"])
c("C56", "partial", T, ["c56_factors_partial", "c56_violated_order"],
  "Right with the argument order used by the tasks; the documented argument order is the opposite (proved).")
c("C60", "proved", T, ["c60_run", "c60_m0", "c60_mAll", "c60_tables", "c60_constants"],
  "Exact arithmetic; the Bessel routines enter through the values they return (C62), and Q is assumed regular.")
c("C64", "partial", T, ["c64_stops_partial", "c64_violated_zero_change"],
  "An exactly zero change of the scattering is not recognised (proved).")
AL = "Verif.Alignment"
c("C57", "proved", AL, ["c57_copy", "c57_average", "c57_perfect", "c57_random", "Verif.Calculator.c57_standalone"])
c("C61", "partial", AL, ["c61_workspace_partial", "c61_bounds", "c61_violation"],
  "In bounds for orders up to half the maximum order; the exact condition is proved, and the workspace is too small when the maximum order is used (proved).")
c("C65", "proved", "Verif.Clebsch", ["c65_coefficients", "c65_coefficient", "c65_orthonormal", "c65_complete", "c65_ladder", "c65_highest", "c65_selection"])
SC = "Verif.Scatter"
c("C30", "proved", SC, ["c30_in_range", "c30_injective", "c30_shapes", "c30_lookup", "c30_sines", "c30_tables"])
c("C53", "proved", SC, ["c53_stokes", "c53_unique", "c53_execute", "c53_scattering"])
c("C66", "proved", SC, ["c66_amplitude", "c66_directions"], "Exact arithmetic; angles in the strip in which the code takes polar values without being at a pole are excluded (as in C63).")
c("C67", "proved", SC, ["c67_extinction", "c67_absorption"], "Exact arithmetic.")
IN = "Verif.Interp"
c("C34", "proved", IN, ["c34_absorption", "c34_extinction", "c34_scattering", "c34_bounds", "c34_single", "c34_inputs", "c34_missing"], "Exact arithmetic.")
c("C35", "proved", IN, ["c35_inside", "c35_between", "c35_nodes", "c35_exact", "c35_outside", "c35_degenerate"], "Exact arithmetic.")
c("C36", "proved", IN, ["c36_locate", "c36_one"])
c("C70", "partial", "Verif.Quadrature", ["c70_adaptive_partial", "c70_violated_silent"],
  "For starting orders up to the maximum; above it zero is returned without a warning (proved). Exact arithmetic.")
c("C39", "proved", "Verif.Orientation", ["c39_mishchenko", "c39_mishchenko_coefficients", "c39_davis_greenstein", "c39_integrand", "c39_initialise", "c39_copy", "c39_choice"],
  "Exact arithmetic; a Mishchenko distribution of order below 2 is out of bounds (stated in the theorem).")
O = "Verif.Optics"
c("C40", "proved", O, ["c40_square", "c40_unique"], "Exact arithmetic.")
c("C52", "proved", O, ["c52_refraction"], "Exact arithmetic; grazing incidence between equal media excluded (0/0).")
c("C69", "proved", O, ["c69_tabulated", "c69_between", "c69_absorbs"], "Exact arithmetic.")
c("C68", "proved", "Verif.Shape", ["c68_jacobian", "c68_sphere", "c68_strip", "c68_everywhere", "c68_density", "c68_probability", "c68_probability_all", "c68_limits", "c68_limits_exist", "c68_fraction", "c68_points"],
  "Exact arithmetic. In the strip around the sphere the series used by the code is within 1e-14 of the derivative (proved).")
c("C38", "partial", "Verif.Calculator", ["c38_partial", "c38_success", "c38_violated_last", "c38_violated_above", "c38_violated_null", "c38_violated_tolerance", "c38_start", "c38_start_ratio"],
  "For a first guess up to the maximum order and a tolerance below 1. The last order tried is reported as a failure even if it meets the tolerance, and other cases are accepted unchecked or follow a null pointer (all proved).")
TX = "Verif.Text"
c("C47", "partial", TX, ["c47_decimal", "c47_exponent", "c47_hexadecimal", "c47_blank", "c47_no_digits", "c47_violated_lowest", "c47_roundtrip"],
  "Every number in range is converted, except that the lowest value of a signed type is undefined behaviour (proved) and strings without digits give 0 (proved).")
c("C48", "partial", TX, ["c48_convert", "c48_cases", "c48_blank", "c48_roundtrip"],
  "Every string with a character other than a blank; for blank strings the code reads outside the string (proved).")
c("C49", "partial", TX, ["c49_time", "c49_bytes_partial", "c49_violated_1024"],
  "Exact arithmetic. The displayed number of a size can reach 1024 by rounding (proved).")
c("C50", "proved", TX, ["c50_decompose", "c50_binary", "c50_argsort"], "std::sort enters through its contract.")
c("C58", "proved", TX, ["c58_suffix", "c58_compose", "c58_injective", "c58_split"])
UN = "Verif.Units"
c("C41", "partial", UN, ["c41_mul_div", "c41_pow_partial", "c41_pow_laws", "c41_violated_zero", "c41_equivalent", "c41_convert", "c41_to_SI", "c41_to_unit", "c41_roundtrip", "c41_zero"],
  "Exact arithmetic. Everything but the power zero, for which the value is kept (proved).")
c("C42", "proved", UN, ["c42_parse", "c42_order", "c42_si", "c42_unknown", "c42_sound", "c42_table", "c42_show", "c42_show_current"])
YA = "Verif.Yaml"
c("C43", "proved", YA, ["c43_roundtrip", "c43_used", "c43_read_wellformed", "c43_read_print_read"])
c("C44", "partial", YA, ["c44_undefined_iff", "c44_violated", "c44_defined_partial"],
  "Violated for exactly the texts of c44_undefined_iff; every other text is read or rejected.")
c("C45", "partial", YA, ["c45_string_partial", "c45_value_partial", "c45_physical_partial", "c45_present", "c45_present_value", "c45_absent", "c45_frame", "c45_frame_value", "c45_frame_physical", "c45_add", "c45_marker_violated", "c45_phantom_violated"],
  "All histories of queries. Excluded: a given value that is the marker text, an empty text for a typed query; after a query with a default the key exists (proved).")
c("C71", "proved", YA, ["c71_nested", "c71_comments", "c71_no_colon", "c71_orphan"])
c("C46", "proved", "Verif.CommandLine", ["c46_success", "c46_accepts", "c46_help", "c46_rejects", "c46_orphan", "c46_required", "c46_swallowed", "c46_reserved"],
  "Conversion of floating point arguments is a parameter.")
c("C51", "proved", "Verif.Md5", ["c51_checksum", "c51_no_stale_bytes", "c51_format"], "RFC 1321 as the specification, including T[i] as the integer part of 4294967296 |sin i| for the real sine")
DI = "Verif.Direct"
c("C72", "proved", DI, ["c72_transition", "c72_spheroid"], "Exact arithmetic; the routines for Bessel functions are parameters that return the values of the given functions (C62 is about them).")
c("C73", "partial", DI, ["c73_violated_twice", "c73_repeat_partial"],
  "Violated: the elements are accumulated without being reset, a second call doubles every element of degree m > 0. Proved: degree 0 and the tables do not change for any number of calls.")
c("C74", "proved", "Verif.TMatrix", ["c74_parity", "c74_negative", "c74_zero", "c74_stores", "Verif.Direct.c74_class"], "Exact arithmetic; Q regular. c74_stores and c74_parity apply to any T-matrix that satisfies the equations of C60 or C72.")
c("C75", "proved", DI, ["c75_forward", "c75_oriented", "c75_axis", "c75_rotate"], "Exact arithmetic; angles outside the strip near the poles in which the code uses the values at the poles (1 - |cos| <= 1e-10), and the poles themselves.")
c("C76", "proved", DI, ["c76_scattering", "c76_extinction", "c76_reduced"], "Exact arithmetic.")
c("C77", "proved", DI, ["c77_scattering", "c77_extinction", "c77_class", "c77_one", "c77_pairs", "c77_array", "c77_average"], "Exact arithmetic; fuel for the Newton iteration of the quadrature rules.")
MR = "Verif.MatRes"
c("C78", "proved", MR, ["c78_scattering", "c78_class", "c78_extinction"], "Exact arithmetic; regular angles as in C75.")
c("C79", "partial", MR, ["c79_extinction_partial", "c79_violated", "c79_second"], "Holds for extinction matrix resources (c79_extinction_partial). Violated by ScatteringMatrixResource: its temporary matrices C, R_in, R_out and S are members that accumulate and are never reset (c79_violated; c79_second gives the factor for particles with their axis along z).")
c("C80", "proved", "Verif.Graph", ["c80_table", "c80_same", "order_exists", "Verif.Api.c80_api"], "Every read and write of a task is a step of its own. Tasks are arbitrary programs that touch only what Spec/Graph lists for them, with results independent of the auxiliary space (proved for the T-matrix tasks in C60 and the averaging in C57).")
c("C81", "proved", "Verif.Graph", ["c81_memory_limit"], "Task bodies as in C80; they find the objects of their slot through the references they are constructed with, and the clearing tasks restore the content the constructors set.")
c("C82", "proved", "Verif.Graph", ["c82_plain", "plain_order"], "Task bodies as in C80 and C81.")
c("C83", "proved", "Verif.Graph", ["c83_entry", "plain_alone"], "Task bodies as in C80 and C81.")
c("C84", "proved", "Verif.Content", ["c84_values", "c84_unique", "alone_value"], "The conditions named in the statement are the hypotheses Proper and Directions; the work space is too small for the largest orders (C61, c61_violation).")
c("C85", "proved", "Verif.Spheroid", ["c85_ratio", "c85_exists", "c85_sphere", "c85_isoperimetric", "c85_radius"], "Exact arithmetic.")
c("C86", "partial", "Verif.Numpy", ["c86_unpack_partial", "c86_data_partial", "c86_violated_int", "c86_violated_stride", "c86_violated_axes", "c86_violated_single"],
  "Holds for contiguous arrays of doubles. Violated by integer, single precision, strided and transposed arrays, whose memory is reinterpreted.")
c("C87", "partial", "Verif.Python", ["c87_extinction", "c87_scattering", "c87_extinction_shape_partial", "c87_scattering_shape_partial", "c87_absorption", "c87_absorptions", "c87_violated_singleton", "c87_violated_scalar"],
  "The contents are proved; the shape is not always that of the arguments (also arrays of one element lose their axis, and the absorption cross sections of a scalar keep one).")
c("C88", "partial", "Verif.Python", ["c88_choice_partial", "c88_init_partial", "c88_radius", "c88_violated_oblate", "c88_violated_prolate", "c88_violated_range"],
  "Violated: perfect alignment is chosen from the axis ratio and not from the requested value; values with 35 c^2 - 30 c + 3 > 0 give a weight that is negative somewhere.")
c("C89", "partial", "Verif.Python", ["c89_evaluate_partial", "c89_density_partial", "c89_mishchenko", "c89_coefficients", "c89_violated_last", "c89_violated_mishchenko", "c89_violated_zero"],
  "The series is truncated one order too early: the coefficient of the maximum order is dropped; with maximum order 0 memory outside the array is read.")
c("C90", "partial", "Verif.Callback", ["c90_float_partial", "c90_complex_partial", "c90_arguments", "c90_violated_exception", "c90_violated_type", "c90_violated_single", "c90_violated_wrap"],
  "Holds for Python floats and complex numbers and for arrays without axes in double precision. Violated: exceptions (null pointer), integers and NumPy scalars of other types (abort), single precision arrays (read beyond the end), types outside 32 bits.")
c("C91", "partial", "Verif.Python", ["c91_aligned_partial", "c91_disabled", "c91_custom_partial", "c91_violated_custom", "c91_violated_order", "c91_violated_missing"],
  "Holds for orders up to the maximum order given to the alignment object (up to 50 for the user's own distributions, which have 100 coefficients by default). Violated beyond: the coefficients are read outside their array.")
c("C92", "proved", "Verif.Rotation", ["c92_average", "c92_task", "c92_table", "c92_compose", "c92_identity"], "Exact arithmetic; work space and coefficient arrays large enough (C61, C91).")
c("C93", "proved", "Verif.Rotation", ["c93_average", "c93_oriented", "c93_exists_unique", "c93_code", "c93_ensemble", "c93_table"], "Exact arithmetic; directions that the code does not treat as poles although they are not (Regular).")
c("C94", "partial", "Verif.Rotation", ["c94_intensity_partial", "c94_coefficients_partial", "c94_absorption_partial", "c94_violated_intensity", "c94_violated_absorption"], "The full property is false of the code: quantities quadratic in the fields are computed from the averaged T-matrix. Proved: the scattered intensity and the scattering coefficient are never above the average, the extinction coefficient is exact, the absorption in the table never below the average; and two witnesses where the inequality is strict (two thirds of the intensity; absorption by grains that do not absorb).")
c("C95", "proved", "Verif.Rotation", ["c95_scattering", "c95_extinction", "c95_energy", "c95_lossless"], "Exact arithmetic; the amplitude matrices are the unique ones of C93, which the code computes (c93_code) except in the strip around the poles (C63).")
c("C96", "proved", "Verif.Rotation", ["c96_forward", "c96_mean", "c96_table", "c96_isotropic"], "Exact arithmetic; the strip around the poles (C63) is excluded where the code computes.")
c("C97", "proved", "Verif.Text", ["c97_literal", "c97_only", "c97_refused", "c97_print", "c97_exact", "c97_twice", "c97_complex", "c97_physical", "c97_unit"], "Exact real numbers: rounding of the decimal value to the nearest double is not modelled. Texts nan, inf and hexadecimal numbers are outside the model (separate outcome).")
c("C98", "partial", "Verif.Program", ["c98_parameters", "c98_rerun_partial", "c98_violated_rerun", "c98_run", "c98_only", "c98_required"], "The last clause is false: the used values are written with six significant digits, so a rerun has rounded parameters (c98_violated_rerun: the default wavelength). Proved: it has the rounded parameters, and from then on reruns are identical. Files with the reserved text 'default value' as a value are excluded from c98_parameters (C45).")
c("C99", "partial", "Verif.GetTable", ["c99_arguments_partial", "c99_problem", "c99_user_order_partial", "c99_values", "c99_violated_order", "c99_violated_range", "c99_violated_objects", "c99_violated_nothing"], "Three clauses are false and refuted: positions are those of the sorted sizes and wavelengths (c99_violated_order), options out of range are reduced modulo 2^32 (c99_violated_range), objects of the wrong class or without initialisation are used (c99_violated_objects); with nothing requested a null pointer without an exception is returned. Log files and verbose output are not modelled.")
c("C100", "proved", "Verif.Refine", ["c100_refined", "c100_reciprocity", "c100_absorption", "c100_nonnegative", "c100_lossless", "c100_bounds", "c100_transparent", "c100_mirror", "averaged_reciprocal", "averaged_passive"], "For the coefficients of C84 with exact Gauss-Legendre rules (C32). That a T-matrix is reciprocal and does not amplify is a hypothesis (a truncated one of a spheroid is so only approximately); that it is symmetric is proved (c100_mirror).")
c("C101", "proved", "Verif.Mie", ["c101_coefficients", "c101_solvable", "c101_mie", "averaged_mie", "c101_proper", "close_iff", "order_cutoff", "c101_extinction", "c101_absorption", "c101_run"], "In exact arithmetic, with exact quadrature rules (C32) and Bessel functions (C62). The specification is Bohren & Huffman's (Spec/Mie). The energy balance of the coefficients is proved from the Bessel functions, so here reciprocity and passivity (hypotheses of C100) hold.")
c("C102", "partial", "Verif.Lifetime", ["c102_safe", "c102_value", "c102_created", "c102_initialised", "c102_independent", "c102_released_partial", "c102_violated_lost", "c102_violated_new", "c102_violated_names", "step_spec"], "Reference counts of Python objects, NumPy arrays and C++ objects. Partial: complete release holds for histories of actions that lose nothing (Tidy); exactly the others lose an object for ever (step_spec, c102_violated_lost). Values are abstract; the garbage collector for cycles is not modelled.")
c("C103", "partial", "Verif.ShapeObject", ["c103_single", "c103_table", "evaluated_code", "c103_object", "c103_between", "c103_converges", "c103_refined", "c103_violated_high", "c103_violated_low", "c103_violated_fraction", "c103_violated_points"], "Exact arithmetic; Gauss-Legendre rules as the code computes them (C32, evaluated_code); the value of a table entry is this average (c103_table, C84). Partial: arguments outside the range of c103_object are not refused (c103_violated_*); limits from a fraction are those of C68.")
c("C104", "partial", "Verif.Memory", ["c104_once", "c104_sizes_partial", "c104_total_partial", "c104_extinction", "c104_violated", "c104_violated_nbased", "c104_violated_grid", "c104_violated_wigner", "c104_scattering_grid", "c104_violated_scattering", "c104_violated_headers", "c104_workspace"], "Partial because the sizes of six kinds of objects are wrong in the code (c104_violated_*). Bytes of objects, vectors and matrices; the tables of the scheduler are those of C26; allocator overhead is not modelled.")
c("C105", "partial", "Verif.TableFile", ["c105_read", "c105_missing", "c105_count", "c105_short_violation", "c105_blank_violation", "Verif.DustFiles.c105_data", "Verif.DustFiles.c105_created", "Verif.DustFiles.c105_silicate", "Verif.DustFiles.c105_carbon", "Verif.DustFiles.c105_outside_violation"], "Partial because damaged files and wavelengths out of range are accepted (c105_*_violation). Numbers are exact; the operator >> of the standard library is modelled for decimal numbers. The numbers of the data files are transcribed by tools/gen_dust_data.py; that they are ordered and positive is decided by the kernel over the complete files, everything else is proved for all wavelengths.")
c("C106", "proved", "Verif.Times", ["c106_interval", "c106_order", "c106_exclusion", "c106_thread", "c106_busy", "c106_chain", "c106_untimed"], "The clock read by getticks is one clock for all threads that never goes back and does not wrap around; one thread number per thread needs at least as many queues as threads, which is what the wrapper creates.")
c("C107", "proved", "Verif.LogFile", ["c107_graph_rows", "c107_graph_injective", "c107_scheduler", "c107_parents", "c107_task_log", "c107_type_log"], "Names of types are texts without tabs and newlines (mangled C++ names have none). That the operating system stores what is written is not modelled.")
c("C108", "partial", "Verif.Cost", ["c108_exact", "c108_first_run", "c108_measured", "c108_next_run", "c108_measured_violation", "c108_priority_violation", "c108_announced_violation"], "Partial because the code violates the property for measured durations of 2^31 ticks and more and ignores get_cost (c108_*_violation). Conversions to int keep the lowest 32 bits.")
c("C109", "partial", "Verif.CommandLine", ["c109_flag", "c109_int_given", "c109_int_default", "c109_real_given", "c109_real_default", "c109_text", "c109_required", "c109_unknown", "c109_help", "c46_unique", "c109_rounding_violation", "c109_flag_violation", "c109_negative_violation", "c109_help_violation"], "Partial because the code violates the property (c109_*_violation): six digits, ignored default of flags, negative arguments, help for empty defaults. Integers of absolute value less than 2^63.")
c("C110", "partial", "Verif.TaskGraph", ["c110_picture", "c110_label", "c110_dot", "c110_label_violation", "c110_parent_violation"], "Partial because the script violates the property for very long names and for resources that are only used through their parts (c110_*_violation). Class names as GCC writes them, without blanks, outside namespaces.")
c("C111", "partial", "Verif.RandomNumbers", ["c111_double", "c111_within", "c111_exclusive_partial", "c111_uniform_partial", "c111_maximum_violation", "c111_negative_violation", "c111_negative_values", "c111_zero_violation"], "Partial because the code violates the property (c111_*_violation): it holds for bounds that are not negative and values of rand below RAND_MAX. The distribution is counted in exact arithmetic.")
c("C112", "partial", "Verif.TaskPlot", ["c112_plot", "c112_load", "c112_colours", "c112_columns_violation", "c112_name_violation", "c112_colours_violation"], "Partial because the script violates the property with newer versions of numpy, for names of 99 characters and for more than 20 types (c112_*_violation). How loadtxt reads a text is taken from its documentation; drawing is not modelled.")
c("C113", "proved", "Verif.Mie", ["c113_amplitude", "c113_unique", "c113_intensity", "c113_scattered", "c113_matrix", "c113_run", "c113_object", "c113_energy"], "")
c("C114", "proved", "Verif.Mie", ["c114_extinction", "c114_scattering", "c114_absorption", "c114_sign", "c114_phase", "c114_run_extinction", "c114_run_scattering", "c114_table_absorption"], "")
c("C115", "proved", "Verif.Mie", ["c115_extinction", "c115_scattering", "c115_converged", "c115_order", "c115_run"], "")
c("C116", "proved", "Verif.Mie", ["c116_amplitudes", "c116_intensity", "c116_absorption", "c116_table_absorption", "c116_run"], "")
c("C117", "proved", "Verif.Content", ["c117_grain", "c117_entry", "c117_run"], "")
c("C118", "proved", "Verif.Content", ["c118_entry", "c118_run"], "")
c("C119", "proved", "Verif.Content", ["c119_entry", "c119_run"], "")
c("C120", "proved", "Verif.Content", ["c120_entry", "c120_run"], "")
c("C121", "proved", "Verif.Content", ["c121_entry", "c121_without", "c121_run"], "")
#--- more below
out = os.path.join(os.path.dirname(os.path.abspath(__file__)), "..", "MANIFEST.json")
json.dump({"claims": sorted(claims, key=lambda x: x["property"])}, open(out, "w"), indent=1)
