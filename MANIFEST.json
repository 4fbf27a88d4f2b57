{
 "claims": [
  {
   "property": "C01",
   "status": "proved",
   "theorems": [
    "Verif.Sched.c01_at_most_once",
    "Verif.Sched.c01_exactly_once",
    "Verif.Sched.c01_reaches_end",
    "Verif.Prepare.c01_whole_run",
    "Verif.Api.api_run"
   ],
   "note": ""
  },
  {
   "property": "C02",
   "status": "proved",
   "theorems": [
    "Verif.Sched.c02_dependencies",
    "Verif.Api.api_run"
   ],
   "note": ""
  },
  {
   "property": "C03",
   "status": "proved",
   "theorems": [
    "Verif.Sched.c03_mutual_exclusion",
    "Verif.Api.api_run"
   ],
   "note": ""
  },
  {
   "property": "C04",
   "status": "proved",
   "theorems": [
    "Verif.Sched.c04_no_residue"
   ],
   "note": ""
  },
  {
   "property": "C05",
   "status": "proved",
   "theorems": [
    "Verif.Sched.c05_ready_task",
    "Verif.Sched.c05_can_finish",
    "Verif.Sched.c05_not_stuck",
    "Verif.Sched.c05_one_thread_terminates",
    "Verif.Sched.c05_self_conflict_hangs"
   ],
   "note": "No deadlock: from every reachable state every task can still be completed whatever the random choices are. Termination under every fair schedule does not hold for the code (trylock retry loops), except with one thread, which is proved. Tasks that lock conflicting resources themselves never run, which is proved too."
  },
  {
   "property": "C06",
   "status": "proved",
   "theorems": [
    "Verif.Prepare.c06_cycle_detection",
    "Verif.Prepare.c06_order",
    "Verif.Prepare.c06_no_overflow"
   ],
   "note": ""
  },
  {
   "property": "C07",
   "status": "proved",
   "theorems": [
    "Verif.Prepare.c07_critical_path"
   ],
   "note": ""
  },
  {
   "property": "C08",
   "status": "proved",
   "theorems": [
    "Verif.Store.c08_links",
    "Verif.Store.c08_safe"
   ],
   "note": ""
  },
  {
   "property": "C09",
   "status": "proved",
   "theorems": [
    "Verif.Queue.c09_heap_order",
    "Verif.Queue.c09_put",
    "Verif.Queue.c09_get",
    "Verif.Queue.c09_history",
    "Verif.Queue.c09_capacity",
    "Verif.Sched.c09_queue_exclusive",
    "Verif.Sched.c09_queue_changes"
   ],
   "note": ""
  },
  {
   "property": "C10",
   "status": "proved",
   "theorems": [
    "Verif.Queue.c10_get_lockable",
    "Verif.Queue.c10_get_none",
    "Verif.Sched.c10_all_tried"
   ],
   "note": ""
  },
  {
   "property": "C100",
   "status": "proved",
   "theorems": [
    "Verif.Refine.c100_refined",
    "Verif.Refine.c100_reciprocity",
    "Verif.Refine.c100_absorption",
    "Verif.Refine.c100_nonnegative",
    "Verif.Refine.c100_lossless",
    "Verif.Refine.c100_bounds",
    "Verif.Refine.c100_transparent",
    "Verif.Refine.c100_mirror",
    "Verif.Refine.averaged_reciprocal",
    "Verif.Refine.averaged_passive"
   ],
   "note": "For the coefficients of C84 with exact Gauss-Legendre rules (C32). That a T-matrix is reciprocal and does not amplify is a hypothesis (a truncated one of a spheroid is so only approximately); that it is symmetric is proved (c100_mirror)."
  },
  {
   "property": "C101",
   "status": "proved",
   "theorems": [
    "Verif.Mie.c101_coefficients",
    "Verif.Mie.c101_solvable",
    "Verif.Mie.c101_mie",
    "Verif.Mie.averaged_mie",
    "Verif.Mie.c101_proper",
    "Verif.Mie.close_iff",
    "Verif.Mie.order_cutoff",
    "Verif.Mie.c101_extinction",
    "Verif.Mie.c101_absorption",
    "Verif.Mie.c101_run"
   ],
   "note": "In exact arithmetic, with exact quadrature rules (C32) and Bessel functions (C62). The specification is Bohren & Huffman's (Spec/Mie). The energy balance of the coefficients is proved from the Bessel functions, so here reciprocity and passivity (hypotheses of C100) hold."
  },
  {
   "property": "C102",
   "status": "partial",
   "theorems": [
    "Verif.Lifetime.c102_safe",
    "Verif.Lifetime.c102_value",
    "Verif.Lifetime.c102_created",
    "Verif.Lifetime.c102_initialised",
    "Verif.Lifetime.c102_independent",
    "Verif.Lifetime.c102_released_partial",
    "Verif.Lifetime.c102_violated_lost",
    "Verif.Lifetime.c102_violated_new",
    "Verif.Lifetime.c102_violated_names",
    "Verif.Lifetime.step_spec"
   ],
   "note": "Reference counts of Python objects, NumPy arrays and C++ objects. Partial: complete release holds for histories of actions that lose nothing (Tidy); exactly the others lose an object for ever (step_spec, c102_violated_lost). Values are abstract; the garbage collector for cycles is not modelled."
  },
  {
   "property": "C103",
   "status": "partial",
   "theorems": [
    "Verif.ShapeObject.c103_single",
    "Verif.ShapeObject.c103_table",
    "Verif.ShapeObject.evaluated_code",
    "Verif.ShapeObject.c103_object",
    "Verif.ShapeObject.c103_between",
    "Verif.ShapeObject.c103_converges",
    "Verif.ShapeObject.c103_refined",
    "Verif.ShapeObject.c103_violated_high",
    "Verif.ShapeObject.c103_violated_low",
    "Verif.ShapeObject.c103_violated_fraction",
    "Verif.ShapeObject.c103_violated_points"
   ],
   "note": "Exact arithmetic; Gauss-Legendre rules as the code computes them (C32, evaluated_code); the value of a table entry is this average (c103_table, C84). Partial: arguments outside the range of c103_object are not refused (c103_violated_*); limits from a fraction are those of C68."
  },
  {
   "property": "C104",
   "status": "partial",
   "theorems": [
    "Verif.Memory.c104_once",
    "Verif.Memory.c104_sizes_partial",
    "Verif.Memory.c104_total_partial",
    "Verif.Memory.c104_extinction",
    "Verif.Memory.c104_violated",
    "Verif.Memory.c104_violated_nbased",
    "Verif.Memory.c104_violated_grid",
    "Verif.Memory.c104_violated_wigner",
    "Verif.Memory.c104_scattering_grid",
    "Verif.Memory.c104_violated_scattering",
    "Verif.Memory.c104_violated_headers",
    "Verif.Memory.c104_workspace"
   ],
   "note": "Partial because the sizes of six kinds of objects are wrong in the code (c104_violated_*). Bytes of objects, vectors and matrices; the tables of the scheduler are those of C26; allocator overhead is not modelled."
  },
  {
   "property": "C105",
   "status": "partial",
   "theorems": [
    "Verif.TableFile.c105_read",
    "Verif.TableFile.c105_missing",
    "Verif.TableFile.c105_count",
    "Verif.TableFile.c105_short_violation",
    "Verif.TableFile.c105_blank_violation",
    "Verif.DustFiles.c105_data",
    "Verif.DustFiles.c105_created",
    "Verif.DustFiles.c105_silicate",
    "Verif.DustFiles.c105_carbon",
    "Verif.DustFiles.c105_outside_violation"
   ],
   "note": "Partial because damaged files and wavelengths out of range are accepted (c105_*_violation). Numbers are exact; the operator >> of the standard library is modelled for decimal numbers. The numbers of the data files are transcribed by tools/gen_dust_data.py; that they are ordered and positive is decided by the kernel over the complete files, everything else is proved for all wavelengths."
  },
  {
   "property": "C106",
   "status": "proved",
   "theorems": [
    "Verif.Times.c106_interval",
    "Verif.Times.c106_order",
    "Verif.Times.c106_exclusion",
    "Verif.Times.c106_thread",
    "Verif.Times.c106_busy",
    "Verif.Times.c106_chain",
    "Verif.Times.c106_untimed"
   ],
   "note": "The clock read by getticks is one clock for all threads that never goes back and does not wrap around; one thread number per thread needs at least as many queues as threads, which is what the wrapper creates."
  },
  {
   "property": "C107",
   "status": "proved",
   "theorems": [
    "Verif.LogFile.c107_graph_rows",
    "Verif.LogFile.c107_graph_injective",
    "Verif.LogFile.c107_scheduler",
    "Verif.LogFile.c107_parents",
    "Verif.LogFile.c107_task_log",
    "Verif.LogFile.c107_type_log"
   ],
   "note": "Names of types are texts without tabs and newlines (mangled C++ names have none). That the operating system stores what is written is not modelled."
  },
  {
   "property": "C108",
   "status": "partial",
   "theorems": [
    "Verif.Cost.c108_exact",
    "Verif.Cost.c108_first_run",
    "Verif.Cost.c108_measured",
    "Verif.Cost.c108_next_run",
    "Verif.Cost.c108_measured_violation",
    "Verif.Cost.c108_priority_violation",
    "Verif.Cost.c108_announced_violation"
   ],
   "note": "Partial because the code violates the property for measured durations of 2^31 ticks and more and ignores get_cost (c108_*_violation). Conversions to int keep the lowest 32 bits."
  },
  {
   "property": "C109",
   "status": "partial",
   "theorems": [
    "Verif.CommandLine.c109_flag",
    "Verif.CommandLine.c109_int_given",
    "Verif.CommandLine.c109_int_default",
    "Verif.CommandLine.c109_real_given",
    "Verif.CommandLine.c109_real_default",
    "Verif.CommandLine.c109_text",
    "Verif.CommandLine.c109_required",
    "Verif.CommandLine.c109_unknown",
    "Verif.CommandLine.c109_help",
    "Verif.CommandLine.c46_unique",
    "Verif.CommandLine.c109_rounding_violation",
    "Verif.CommandLine.c109_flag_violation",
    "Verif.CommandLine.c109_negative_violation",
    "Verif.CommandLine.c109_help_violation"
   ],
   "note": "Partial because the code violates the property (c109_*_violation): six digits, ignored default of flags, negative arguments, help for empty defaults. Integers of absolute value less than 2^63."
  },
  {
   "property": "C11",
   "status": "proved",
   "theorems": [
    "Verif.Prepare.c11_pick",
    "Verif.Prepare.c11_enqueue"
   ],
   "note": ""
  },
  {
   "property": "C110",
   "status": "partial",
   "theorems": [
    "Verif.TaskGraph.c110_picture",
    "Verif.TaskGraph.c110_label",
    "Verif.TaskGraph.c110_dot",
    "Verif.TaskGraph.c110_label_violation",
    "Verif.TaskGraph.c110_parent_violation"
   ],
   "note": "Partial because the script violates the property for very long names and for resources that are only used through their parts (c110_*_violation). Class names as GCC writes them, without blanks, outside namespaces."
  },
  {
   "property": "C111",
   "status": "partial",
   "theorems": [
    "Verif.RandomNumbers.c111_double",
    "Verif.RandomNumbers.c111_within",
    "Verif.RandomNumbers.c111_exclusive_partial",
    "Verif.RandomNumbers.c111_uniform_partial",
    "Verif.RandomNumbers.c111_maximum_violation",
    "Verif.RandomNumbers.c111_negative_violation",
    "Verif.RandomNumbers.c111_negative_values",
    "Verif.RandomNumbers.c111_zero_violation"
   ],
   "note": "Partial because the code violates the property (c111_*_violation): it holds for bounds that are not negative and values of rand below RAND_MAX. The distribution is counted in exact arithmetic."
  },
  {
   "property": "C112",
   "status": "partial",
   "theorems": [
    "Verif.TaskPlot.c112_plot",
    "Verif.TaskPlot.c112_load",
    "Verif.TaskPlot.c112_colours",
    "Verif.TaskPlot.c112_columns_violation",
    "Verif.TaskPlot.c112_name_violation",
    "Verif.TaskPlot.c112_colours_violation"
   ],
   "note": "Partial because the script violates the property with newer versions of numpy, for names of 99 characters and for more than 20 types (c112_*_violation). How loadtxt reads a text is taken from its documentation; drawing is not modelled."
  },
  {
   "property": "C113",
   "status": "proved",
   "theorems": [
    "Verif.Mie.c113_amplitude",
    "Verif.Mie.c113_unique",
    "Verif.Mie.c113_intensity",
    "Verif.Mie.c113_scattered",
    "Verif.Mie.c113_matrix",
    "Verif.Mie.c113_run",
    "Verif.Mie.c113_object",
    "Verif.Mie.c113_energy"
   ],
   "note": ""
  },
  {
   "property": "C114",
   "status": "proved",
   "theorems": [
    "Verif.Mie.c114_extinction",
    "Verif.Mie.c114_scattering",
    "Verif.Mie.c114_absorption",
    "Verif.Mie.c114_sign",
    "Verif.Mie.c114_phase",
    "Verif.Mie.c114_run_extinction",
    "Verif.Mie.c114_run_scattering",
    "Verif.Mie.c114_table_absorption"
   ],
   "note": ""
  },
  {
   "property": "C115",
   "status": "proved",
   "theorems": [
    "Verif.Mie.c115_extinction",
    "Verif.Mie.c115_scattering",
    "Verif.Mie.c115_converged",
    "Verif.Mie.c115_order",
    "Verif.Mie.c115_run"
   ],
   "note": ""
  },
  {
   "property": "C116",
   "status": "proved",
   "theorems": [
    "Verif.Mie.c116_amplitudes",
    "Verif.Mie.c116_intensity",
    "Verif.Mie.c116_absorption",
    "Verif.Mie.c116_table_absorption",
    "Verif.Mie.c116_run"
   ],
   "note": ""
  },
  {
   "property": "C117",
   "status": "proved",
   "theorems": [
    "Verif.Content.c117_grain",
    "Verif.Content.c117_entry",
    "Verif.Content.c117_run"
   ],
   "note": ""
  },
  {
   "property": "C118",
   "status": "proved",
   "theorems": [
    "Verif.Content.c118_entry",
    "Verif.Content.c118_run"
   ],
   "note": ""
  },
  {
   "property": "C119",
   "status": "proved",
   "theorems": [
    "Verif.Content.c119_entry",
    "Verif.Content.c119_run"
   ],
   "note": ""
  },
  {
   "property": "C12",
   "status": "proved",
   "theorems": [
    "Verif.Store.c12_nothing_lost",
    "Verif.Store.c12_reserve",
    "Verif.Store.c08_links"
   ],
   "note": ""
  },
  {
   "property": "C120",
   "status": "proved",
   "theorems": [
    "Verif.Content.c120_entry",
    "Verif.Content.c120_run"
   ],
   "note": ""
  },
  {
   "property": "C121",
   "status": "proved",
   "theorems": [
    "Verif.Content.c121_entry",
    "Verif.Content.c121_without",
    "Verif.Content.c121_run"
   ],
   "note": ""
  },
  {
   "property": "C13",
   "status": "partial",
   "theorems": [
    "Verif.Store.c13_payload_partial",
    "Verif.Store.c13_violated"
   ],
   "note": "Proved for payloads up to 8000 bytes; the code overruns its buffer for a first payload of more than 16000 bytes, which is proved."
  },
  {
   "property": "C14",
   "status": "proved",
   "theorems": [
    "Verif.Prepare.c14_prepared",
    "Verif.Prepare.c14_again",
    "Verif.Prepare.c14_twice_fails"
   ],
   "note": ""
  },
  {
   "property": "C15",
   "status": "partial",
   "theorems": [
    "Verif.Flags.c15_skip_or_virtual_root_hangs",
    "Verif.Flags.c15_flags_partial"
   ],
   "note": "The property is false when a task is skipped or a virtual task has no predecessor (proved: the run never ends); proved for all other task sets."
  },
  {
   "property": "C16",
   "status": "proved",
   "theorems": [
    "Verif.Wrapper.c16_type_numbers"
   ],
   "note": ""
  },
  {
   "property": "C17",
   "status": "partial",
   "theorems": [
    "Verif.Wrapper.c17_violated",
    "Verif.Wrapper.c17_counting_partial",
    "Verif.Wrapper.c17_one_thread",
    "Verif.Wrapper.c17_message_lost"
   ],
   "note": "False below 50 tasks (division by zero, proved) and a message can be lost with two threads (proved); the rest is proved."
  },
  {
   "property": "C18",
   "status": "proved",
   "theorems": [
    "Verif.Sched.c18_thread_ids",
    "Verif.Sched.c18_thread_id_value"
   ],
   "note": ""
  },
  {
   "property": "C19",
   "status": "proved",
   "theorems": [
    "Verif.Graph.c19_acyclic",
    "Verif.Graph.c19_total",
    "Verif.Graph.c19_violated",
    "Verif.Graph.graph_run"
   ],
   "note": "Acyclic whenever the graph can be generated; with minimum order = maximum order the generation itself dereferences a null pointer (c19_violated)."
  },
  {
   "property": "C20",
   "status": "proved",
   "theorems": [
    "Verif.Table.c20_table",
    "Verif.Table.c20_index_injective",
    "Verif.Table.c20_index_range"
   ],
   "note": ""
  },
  {
   "property": "C21",
   "status": "partial",
   "theorems": [
    "Verif.Table.c21_user_order_partial",
    "Verif.Table.c21_violated"
   ],
   "note": "generate_tasks sorts the sizes and wavelengths, so the table is in the order of the arguments only if these are sorted: both directions are proved."
  },
  {
   "property": "C22",
   "status": "proved",
   "theorems": [
    "Verif.Graph.c22_reads",
    "Verif.Graph.graph_run"
   ],
   "note": ""
  },
  {
   "property": "C23",
   "status": "proved",
   "theorems": [
    "Verif.Graph.c23_slots",
    "Verif.Graph.c22_reads"
   ],
   "note": ""
  },
  {
   "property": "C24",
   "status": "proved",
   "theorems": [
    "Verif.Graph.c24_ordered",
    "Verif.Graph.graph_run"
   ],
   "note": ""
  },
  {
   "property": "C25",
   "status": "proved",
   "theorems": [
    "Verif.Account.c25_accounting"
   ],
   "note": ""
  },
  {
   "property": "C26",
   "status": "partial",
   "theorems": [
    "Verif.Account.c26_slots",
    "Verif.Account.c26_limit_partial",
    "Verif.Account.c26_violated_pointers",
    "Verif.Account.c26_violated_table",
    "Verif.Account.c26_violated_wrap",
    "Verif.Account.c26_violated_scattering"
   ],
   "note": "The number of slots is proved to be the largest that fits by the estimate; the accounted memory can exceed the limit in the situations of the c26_violated theorems."
  },
  {
   "property": "C27",
   "status": "proved",
   "theorems": [
    "Verif.Matrix.c27_elements",
    "Verif.Matrix.c27_new",
    "Verif.Matrix.c27_reset"
   ],
   "note": ""
  },
  {
   "property": "C28",
   "status": "proved",
   "theorems": [
    "Verif.Matrix.c28_inverse",
    "Verif.Matrix.c28_pivots",
    "Verif.Matrix.c28_involution"
   ],
   "note": ""
  },
  {
   "property": "C29",
   "status": "proved",
   "theorems": [
    "Verif.TMatrix.c29_in_bounds",
    "Verif.TMatrix.c29_get_set",
    "Verif.TMatrix.c29_other_degree"
   ],
   "note": ""
  },
  {
   "property": "C30",
   "status": "proved",
   "theorems": [
    "Verif.Scatter.c30_in_range",
    "Verif.Scatter.c30_injective",
    "Verif.Scatter.c30_shapes",
    "Verif.Scatter.c30_lookup",
    "Verif.Scatter.c30_sines",
    "Verif.Scatter.c30_tables"
   ],
   "note": ""
  },
  {
   "property": "C31",
   "status": "partial",
   "theorems": [
    "Verif.WignerTable.c31_tables_partial",
    "Verif.WignerTable.c31_lookup",
    "Verif.WignerTable.c31_sines",
    "Verif.WignerTable.c31_violated_sign"
   ],
   "note": "Products of two tabulated values are right for every m; the individual values in the mirrored half have the wrong sign for odd m (proved)."
  },
  {
   "property": "C32",
   "status": "proved",
   "theorems": [
    "Verif.Special.c32_symmetric",
    "Verif.Special.c32_interval",
    "Verif.Special.c32_newton",
    "Verif.Special.c32_middle",
    "Verif.Quadrature.c32_accurate",
    "Verif.Quadrature.c32_exact"
   ],
   "note": "Under the hypothesis that the Newton iteration ends (as for every terminating call)."
  },
  {
   "property": "C33",
   "status": "proved",
   "theorems": [
    "Verif.Special.c33_spheroid"
   ],
   "note": ""
  },
  {
   "property": "C34",
   "status": "proved",
   "theorems": [
    "Verif.Interp.c34_absorption",
    "Verif.Interp.c34_extinction",
    "Verif.Interp.c34_scattering",
    "Verif.Interp.c34_bounds",
    "Verif.Interp.c34_single",
    "Verif.Interp.c34_inputs",
    "Verif.Interp.c34_missing"
   ],
   "note": "Exact arithmetic."
  },
  {
   "property": "C35",
   "status": "proved",
   "theorems": [
    "Verif.Interp.c35_inside",
    "Verif.Interp.c35_between",
    "Verif.Interp.c35_nodes",
    "Verif.Interp.c35_exact",
    "Verif.Interp.c35_outside",
    "Verif.Interp.c35_degenerate"
   ],
   "note": "Exact arithmetic."
  },
  {
   "property": "C36",
   "status": "proved",
   "theorems": [
    "Verif.Interp.c36_locate",
    "Verif.Interp.c36_one"
   ],
   "note": ""
  },
  {
   "property": "C37",
   "status": "proved",
   "theorems": [
    "Verif.TMatrix.c37_run",
    "Verif.TMatrix.c37_frozen",
    "Verif.TMatrix.c37_reset",
    "Verif.TMatrix.crossSections_sums"
   ],
   "note": ""
  },
  {
   "property": "C38",
   "status": "partial",
   "theorems": [
    "Verif.Calculator.c38_partial",
    "Verif.Calculator.c38_success",
    "Verif.Calculator.c38_violated_last",
    "Verif.Calculator.c38_violated_above",
    "Verif.Calculator.c38_violated_null",
    "Verif.Calculator.c38_violated_tolerance",
    "Verif.Calculator.c38_start",
    "Verif.Calculator.c38_start_ratio"
   ],
   "note": "For a first guess up to the maximum order and a tolerance below 1. The last order tried is reported as a failure even if it meets the tolerance, and other cases are accepted unchecked or follow a null pointer (all proved)."
  },
  {
   "property": "C39",
   "status": "proved",
   "theorems": [
    "Verif.Orientation.c39_mishchenko",
    "Verif.Orientation.c39_mishchenko_coefficients",
    "Verif.Orientation.c39_davis_greenstein",
    "Verif.Orientation.c39_integrand",
    "Verif.Orientation.c39_initialise",
    "Verif.Orientation.c39_copy",
    "Verif.Orientation.c39_choice"
   ],
   "note": "Exact arithmetic; a Mishchenko distribution of order below 2 is out of bounds (stated in the theorem)."
  },
  {
   "property": "C40",
   "status": "proved",
   "theorems": [
    "Verif.Optics.c40_square",
    "Verif.Optics.c40_unique"
   ],
   "note": "Exact arithmetic."
  },
  {
   "property": "C41",
   "status": "partial",
   "theorems": [
    "Verif.Units.c41_mul_div",
    "Verif.Units.c41_pow_partial",
    "Verif.Units.c41_pow_laws",
    "Verif.Units.c41_violated_zero",
    "Verif.Units.c41_equivalent",
    "Verif.Units.c41_convert",
    "Verif.Units.c41_to_SI",
    "Verif.Units.c41_to_unit",
    "Verif.Units.c41_roundtrip",
    "Verif.Units.c41_zero"
   ],
   "note": "Exact arithmetic. Everything but the power zero, for which the value is kept (proved)."
  },
  {
   "property": "C42",
   "status": "proved",
   "theorems": [
    "Verif.Units.c42_parse",
    "Verif.Units.c42_order",
    "Verif.Units.c42_si",
    "Verif.Units.c42_unknown",
    "Verif.Units.c42_sound",
    "Verif.Units.c42_table",
    "Verif.Units.c42_show",
    "Verif.Units.c42_show_current"
   ],
   "note": ""
  },
  {
   "property": "C43",
   "status": "proved",
   "theorems": [
    "Verif.Yaml.c43_roundtrip",
    "Verif.Yaml.c43_used",
    "Verif.Yaml.c43_read_wellformed",
    "Verif.Yaml.c43_read_print_read"
   ],
   "note": ""
  },
  {
   "property": "C44",
   "status": "partial",
   "theorems": [
    "Verif.Yaml.c44_undefined_iff",
    "Verif.Yaml.c44_violated",
    "Verif.Yaml.c44_defined_partial"
   ],
   "note": "Violated for exactly the texts of c44_undefined_iff; every other text is read or rejected."
  },
  {
   "property": "C45",
   "status": "partial",
   "theorems": [
    "Verif.Yaml.c45_string_partial",
    "Verif.Yaml.c45_value_partial",
    "Verif.Yaml.c45_physical_partial",
    "Verif.Yaml.c45_present",
    "Verif.Yaml.c45_present_value",
    "Verif.Yaml.c45_absent",
    "Verif.Yaml.c45_frame",
    "Verif.Yaml.c45_frame_value",
    "Verif.Yaml.c45_frame_physical",
    "Verif.Yaml.c45_add",
    "Verif.Yaml.c45_marker_violated",
    "Verif.Yaml.c45_phantom_violated"
   ],
   "note": "All histories of queries. Excluded: a given value that is the marker text, an empty text for a typed query; after a query with a default the key exists (proved)."
  },
  {
   "property": "C46",
   "status": "proved",
   "theorems": [
    "Verif.CommandLine.c46_success",
    "Verif.CommandLine.c46_accepts",
    "Verif.CommandLine.c46_help",
    "Verif.CommandLine.c46_rejects",
    "Verif.CommandLine.c46_orphan",
    "Verif.CommandLine.c46_required",
    "Verif.CommandLine.c46_swallowed",
    "Verif.CommandLine.c46_reserved"
   ],
   "note": "Conversion of floating point arguments is a parameter."
  },
  {
   "property": "C47",
   "status": "partial",
   "theorems": [
    "Verif.Text.c47_decimal",
    "Verif.Text.c47_exponent",
    "Verif.Text.c47_hexadecimal",
    "Verif.Text.c47_blank",
    "Verif.Text.c47_no_digits",
    "Verif.Text.c47_violated_lowest",
    "Verif.Text.c47_roundtrip"
   ],
   "note": "Every number in range is converted, except that the lowest value of a signed type is undefined behaviour (proved) and strings without digits give 0 (proved)."
  },
  {
   "property": "C48",
   "status": "partial",
   "theorems": [
    "Verif.Text.c48_convert",
    "Verif.Text.c48_cases",
    "Verif.Text.c48_blank",
    "Verif.Text.c48_roundtrip"
   ],
   "note": "Every string with a character other than a blank; for blank strings the code reads outside the string (proved)."
  },
  {
   "property": "C49",
   "status": "partial",
   "theorems": [
    "Verif.Text.c49_time",
    "Verif.Text.c49_bytes_partial",
    "Verif.Text.c49_violated_1024"
   ],
   "note": "Exact arithmetic. The displayed number of a size can reach 1024 by rounding (proved)."
  },
  {
   "property": "C50",
   "status": "proved",
   "theorems": [
    "Verif.Text.c50_decompose",
    "Verif.Text.c50_binary",
    "Verif.Text.c50_argsort"
   ],
   "note": "std::sort enters through its contract."
  },
  {
   "property": "C51",
   "status": "proved",
   "theorems": [
    "Verif.Md5.c51_checksum",
    "Verif.Md5.c51_no_stale_bytes",
    "Verif.Md5.c51_format"
   ],
   "note": "RFC 1321 as the specification, including T[i] as the integer part of 4294967296 |sin i| for the real sine"
  },
  {
   "property": "C52",
   "status": "proved",
   "theorems": [
    "Verif.Optics.c52_refraction"
   ],
   "note": "Exact arithmetic; grazing incidence between equal media excluded (0/0)."
  },
  {
   "property": "C53",
   "status": "proved",
   "theorems": [
    "Verif.Scatter.c53_stokes",
    "Verif.Scatter.c53_unique",
    "Verif.Scatter.c53_execute",
    "Verif.Scatter.c53_scattering"
   ],
   "note": ""
  },
  {
   "property": "C54",
   "status": "proved",
   "theorems": [
    "Verif.Matrix.c54_dump",
    "Verif.Matrix.c54_violated_large"
   ],
   "note": "Proved for shapes that fit the 32-bit header; beyond that the header loses information (c54_violated_large)."
  },
  {
   "property": "C55",
   "status": "proved",
   "theorems": [
    "Verif.Table.c20_table"
   ],
   "note": ""
  },
  {
   "property": "C56",
   "status": "partial",
   "theorems": [
    "Verif.TMatrix.c56_factors_partial",
    "Verif.TMatrix.c56_violated_order"
   ],
   "note": "Right with the argument order used by the tasks; the documented argument order is the opposite (proved)."
  },
  {
   "property": "C57",
   "status": "proved",
   "theorems": [
    "Verif.Alignment.c57_copy",
    "Verif.Alignment.c57_average",
    "Verif.Alignment.c57_perfect",
    "Verif.Alignment.c57_random",
    "Verif.Calculator.c57_standalone"
   ],
   "note": ""
  },
  {
   "property": "C58",
   "status": "proved",
   "theorems": [
    "Verif.Text.c58_suffix",
    "Verif.Text.c58_compose",
    "Verif.Text.c58_injective",
    "Verif.Text.c58_split"
   ],
   "note": ""
  },
  {
   "property": "C59",
   "status": "proved",
   "theorems": [
    "Verif.Account.c59_lookup"
   ],
   "note": ""
  },
  {
   "property": "C60",
   "status": "proved",
   "theorems": [
    "Verif.TMatrix.c60_run",
    "Verif.TMatrix.c60_m0",
    "Verif.TMatrix.c60_mAll",
    "Verif.TMatrix.c60_tables",
    "Verif.TMatrix.c60_constants"
   ],
   "note": "Exact arithmetic; the Bessel routines enter through the values they return (C62), and Q is assumed regular."
  },
  {
   "property": "C61",
   "status": "partial",
   "theorems": [
    "Verif.Alignment.c61_workspace_partial",
    "Verif.Alignment.c61_bounds",
    "Verif.Alignment.c61_violation"
   ],
   "note": "In bounds for orders up to half the maximum order; the exact condition is proved, and the workspace is too small when the maximum order is used (proved)."
  },
  {
   "property": "C62",
   "status": "partial",
   "theorems": [
    "Verif.Bessel.c62_second_kind_partial",
    "Verif.Bessel.c62_first_kind_partial",
    "Verif.Bessel.c62_first_kind_exact",
    "Verif.Bessel.c62_first_kind_real",
    "Verif.Bessel.c62_first_kind_real_500",
    "Verif.Bessel.c62_first_kind_small",
    "Verif.Bessel.c62_no_division_by_zero",
    "Verif.Bessel.c62_violated_nmax_one",
    "Verif.Bessel.c62_violated_large",
    "Verif.Bessel.c62_violated_pi"
   ],
   "note": "Second kind: exact for nmax >= 2, violated for nmax = 1 (second element written). First kind: exact formula for what is returned (the combination of both kinds that vanishes at order 801); error at most 1e-59/|sin z| for every real argument up to 500 and relative error at most 4^(n-800) for complex arguments up to 1; violated at the zeros of the sine and for orders above 800."
  },
  {
   "property": "C63",
   "status": "proved",
   "theorems": [
    "Verif.Special.c63_wigner",
    "Verif.Special.c63_wigner_sinx"
   ],
   "note": "For the version divided by the sine: all angles outside the strip |1-|cos|| <= 1e-10 and the poles themselves; strictly inside the strip the code returns the polar values."
  },
  {
   "property": "C64",
   "status": "partial",
   "theorems": [
    "Verif.TMatrix.c64_stops_partial",
    "Verif.TMatrix.c64_violated_zero_change"
   ],
   "note": "An exactly zero change of the scattering is not recognised (proved)."
  },
  {
   "property": "C65",
   "status": "proved",
   "theorems": [
    "Verif.Clebsch.c65_coefficients",
    "Verif.Clebsch.c65_coefficient",
    "Verif.Clebsch.c65_orthonormal",
    "Verif.Clebsch.c65_complete",
    "Verif.Clebsch.c65_ladder",
    "Verif.Clebsch.c65_highest",
    "Verif.Clebsch.c65_selection"
   ],
   "note": ""
  },
  {
   "property": "C66",
   "status": "proved",
   "theorems": [
    "Verif.Scatter.c66_amplitude",
    "Verif.Scatter.c66_directions"
   ],
   "note": "Exact arithmetic; angles in the strip in which the code takes polar values without being at a pole are excluded (as in C63)."
  },
  {
   "property": "C67",
   "status": "proved",
   "theorems": [
    "Verif.Scatter.c67_extinction",
    "Verif.Scatter.c67_absorption"
   ],
   "note": "Exact arithmetic."
  },
  {
   "property": "C68",
   "status": "proved",
   "theorems": [
    "Verif.Shape.c68_jacobian",
    "Verif.Shape.c68_sphere",
    "Verif.Shape.c68_strip",
    "Verif.Shape.c68_everywhere",
    "Verif.Shape.c68_density",
    "Verif.Shape.c68_probability",
    "Verif.Shape.c68_probability_all",
    "Verif.Shape.c68_limits",
    "Verif.Shape.c68_limits_exist",
    "Verif.Shape.c68_fraction",
    "Verif.Shape.c68_points"
   ],
   "note": "Exact arithmetic. In the strip around the sphere the series used by the code is within 1e-14 of the derivative (proved)."
  },
  {
   "property": "C69",
   "status": "proved",
   "theorems": [
    "Verif.Optics.c69_tabulated",
    "Verif.Optics.c69_between",
    "Verif.Optics.c69_absorbs"
   ],
   "note": "Exact arithmetic."
  },
  {
   "property": "C70",
   "status": "partial",
   "theorems": [
    "Verif.Quadrature.c70_adaptive_partial",
    "Verif.Quadrature.c70_violated_silent"
   ],
   "note": "For starting orders up to the maximum; above it zero is returned without a warning (proved). Exact arithmetic."
  },
  {
   "property": "C71",
   "status": "proved",
   "theorems": [
    "Verif.Yaml.c71_nested",
    "Verif.Yaml.c71_comments",
    "Verif.Yaml.c71_no_colon",
    "Verif.Yaml.c71_orphan"
   ],
   "note": ""
  },
  {
   "property": "C72",
   "status": "proved",
   "theorems": [
    "Verif.Direct.c72_transition",
    "Verif.Direct.c72_spheroid"
   ],
   "note": "Exact arithmetic; the routines for Bessel functions are parameters that return the values of the given functions (C62 is about them)."
  },
  {
   "property": "C73",
   "status": "partial",
   "theorems": [
    "Verif.Direct.c73_violated_twice",
    "Verif.Direct.c73_repeat_partial"
   ],
   "note": "Violated: the elements are accumulated without being reset, a second call doubles every element of degree m > 0. Proved: degree 0 and the tables do not change for any number of calls."
  },
  {
   "property": "C74",
   "status": "proved",
   "theorems": [
    "Verif.TMatrix.c74_parity",
    "Verif.TMatrix.c74_negative",
    "Verif.TMatrix.c74_zero",
    "Verif.TMatrix.c74_stores",
    "Verif.Direct.c74_class"
   ],
   "note": "Exact arithmetic; Q regular. c74_stores and c74_parity apply to any T-matrix that satisfies the equations of C60 or C72."
  },
  {
   "property": "C75",
   "status": "proved",
   "theorems": [
    "Verif.Direct.c75_forward",
    "Verif.Direct.c75_oriented",
    "Verif.Direct.c75_axis",
    "Verif.Direct.c75_rotate"
   ],
   "note": "Exact arithmetic; angles outside the strip near the poles in which the code uses the values at the poles (1 - |cos| <= 1e-10), and the poles themselves."
  },
  {
   "property": "C76",
   "status": "proved",
   "theorems": [
    "Verif.Direct.c76_scattering",
    "Verif.Direct.c76_extinction",
    "Verif.Direct.c76_reduced"
   ],
   "note": "Exact arithmetic."
  },
  {
   "property": "C77",
   "status": "proved",
   "theorems": [
    "Verif.Direct.c77_scattering",
    "Verif.Direct.c77_extinction",
    "Verif.Direct.c77_class",
    "Verif.Direct.c77_one",
    "Verif.Direct.c77_pairs",
    "Verif.Direct.c77_array",
    "Verif.Direct.c77_average"
   ],
   "note": "Exact arithmetic; fuel for the Newton iteration of the quadrature rules."
  },
  {
   "property": "C78",
   "status": "proved",
   "theorems": [
    "Verif.MatRes.c78_scattering",
    "Verif.MatRes.c78_class",
    "Verif.MatRes.c78_extinction"
   ],
   "note": "Exact arithmetic; regular angles as in C75."
  },
  {
   "property": "C79",
   "status": "partial",
   "theorems": [
    "Verif.MatRes.c79_extinction_partial",
    "Verif.MatRes.c79_violated",
    "Verif.MatRes.c79_second"
   ],
   "note": "Holds for extinction matrix resources (c79_extinction_partial). Violated by ScatteringMatrixResource: its temporary matrices C, R_in, R_out and S are members that accumulate and are never reset (c79_violated; c79_second gives the factor for particles with their axis along z)."
  },
  {
   "property": "C80",
   "status": "proved",
   "theorems": [
    "Verif.Graph.c80_table",
    "Verif.Graph.c80_same",
    "Verif.Graph.order_exists",
    "Verif.Api.c80_api"
   ],
   "note": "Every read and write of a task is a step of its own. Tasks are arbitrary programs that touch only what Spec/Graph lists for them, with results independent of the auxiliary space (proved for the T-matrix tasks in C60 and the averaging in C57)."
  },
  {
   "property": "C81",
   "status": "proved",
   "theorems": [
    "Verif.Graph.c81_memory_limit"
   ],
   "note": "Task bodies as in C80; they find the objects of their slot through the references they are constructed with, and the clearing tasks restore the content the constructors set."
  },
  {
   "property": "C82",
   "status": "proved",
   "theorems": [
    "Verif.Graph.c82_plain",
    "Verif.Graph.plain_order"
   ],
   "note": "Task bodies as in C80 and C81."
  },
  {
   "property": "C83",
   "status": "proved",
   "theorems": [
    "Verif.Graph.c83_entry",
    "Verif.Graph.plain_alone"
   ],
   "note": "Task bodies as in C80 and C81."
  },
  {
   "property": "C84",
   "status": "proved",
   "theorems": [
    "Verif.Content.c84_values",
    "Verif.Content.c84_unique",
    "Verif.Content.alone_value"
   ],
   "note": "The conditions named in the statement are the hypotheses Proper and Directions; the work space is too small for the largest orders (C61, c61_violation)."
  },
  {
   "property": "C85",
   "status": "proved",
   "theorems": [
    "Verif.Spheroid.c85_ratio",
    "Verif.Spheroid.c85_exists",
    "Verif.Spheroid.c85_sphere",
    "Verif.Spheroid.c85_isoperimetric",
    "Verif.Spheroid.c85_radius"
   ],
   "note": "Exact arithmetic."
  },
  {
   "property": "C86",
   "status": "partial",
   "theorems": [
    "Verif.Numpy.c86_unpack_partial",
    "Verif.Numpy.c86_data_partial",
    "Verif.Numpy.c86_violated_int",
    "Verif.Numpy.c86_violated_stride",
    "Verif.Numpy.c86_violated_axes",
    "Verif.Numpy.c86_violated_single"
   ],
   "note": "Holds for contiguous arrays of doubles. Violated by integer, single precision, strided and transposed arrays, whose memory is reinterpreted."
  },
  {
   "property": "C87",
   "status": "partial",
   "theorems": [
    "Verif.Python.c87_extinction",
    "Verif.Python.c87_scattering",
    "Verif.Python.c87_extinction_shape_partial",
    "Verif.Python.c87_scattering_shape_partial",
    "Verif.Python.c87_absorption",
    "Verif.Python.c87_absorptions",
    "Verif.Python.c87_violated_singleton",
    "Verif.Python.c87_violated_scalar"
   ],
   "note": "The contents are proved; the shape is not always that of the arguments (also arrays of one element lose their axis, and the absorption cross sections of a scalar keep one)."
  },
  {
   "property": "C88",
   "status": "partial",
   "theorems": [
    "Verif.Python.c88_choice_partial",
    "Verif.Python.c88_init_partial",
    "Verif.Python.c88_radius",
    "Verif.Python.c88_violated_oblate",
    "Verif.Python.c88_violated_prolate",
    "Verif.Python.c88_violated_range"
   ],
   "note": "Violated: perfect alignment is chosen from the axis ratio and not from the requested value; values with 35 c^2 - 30 c + 3 > 0 give a weight that is negative somewhere."
  },
  {
   "property": "C89",
   "status": "partial",
   "theorems": [
    "Verif.Python.c89_evaluate_partial",
    "Verif.Python.c89_density_partial",
    "Verif.Python.c89_mishchenko",
    "Verif.Python.c89_coefficients",
    "Verif.Python.c89_violated_last",
    "Verif.Python.c89_violated_mishchenko",
    "Verif.Python.c89_violated_zero"
   ],
   "note": "The series is truncated one order too early: the coefficient of the maximum order is dropped; with maximum order 0 memory outside the array is read."
  },
  {
   "property": "C90",
   "status": "partial",
   "theorems": [
    "Verif.Callback.c90_float_partial",
    "Verif.Callback.c90_complex_partial",
    "Verif.Callback.c90_arguments",
    "Verif.Callback.c90_violated_exception",
    "Verif.Callback.c90_violated_type",
    "Verif.Callback.c90_violated_single",
    "Verif.Callback.c90_violated_wrap"
   ],
   "note": "Holds for Python floats and complex numbers and for arrays without axes in double precision. Violated: exceptions (null pointer), integers and NumPy scalars of other types (abort), single precision arrays (read beyond the end), types outside 32 bits."
  },
  {
   "property": "C91",
   "status": "partial",
   "theorems": [
    "Verif.Python.c91_aligned_partial",
    "Verif.Python.c91_disabled",
    "Verif.Python.c91_custom_partial",
    "Verif.Python.c91_violated_custom",
    "Verif.Python.c91_violated_order",
    "Verif.Python.c91_violated_missing"
   ],
   "note": "Holds for orders up to the maximum order given to the alignment object (up to 50 for the user's own distributions, which have 100 coefficients by default). Violated beyond: the coefficients are read outside their array."
  },
  {
   "property": "C92",
   "status": "proved",
   "theorems": [
    "Verif.Rotation.c92_average",
    "Verif.Rotation.c92_task",
    "Verif.Rotation.c92_table",
    "Verif.Rotation.c92_compose",
    "Verif.Rotation.c92_identity"
   ],
   "note": "Exact arithmetic; work space and coefficient arrays large enough (C61, C91)."
  },
  {
   "property": "C93",
   "status": "proved",
   "theorems": [
    "Verif.Rotation.c93_average",
    "Verif.Rotation.c93_oriented",
    "Verif.Rotation.c93_exists_unique",
    "Verif.Rotation.c93_code",
    "Verif.Rotation.c93_ensemble",
    "Verif.Rotation.c93_table"
   ],
   "note": "Exact arithmetic; directions that the code does not treat as poles although they are not (Regular)."
  },
  {
   "property": "C94",
   "status": "partial",
   "theorems": [
    "Verif.Rotation.c94_intensity_partial",
    "Verif.Rotation.c94_coefficients_partial",
    "Verif.Rotation.c94_absorption_partial",
    "Verif.Rotation.c94_violated_intensity",
    "Verif.Rotation.c94_violated_absorption"
   ],
   "note": "The full property is false of the code: quantities quadratic in the fields are computed from the averaged T-matrix. Proved: the scattered intensity and the scattering coefficient are never above the average, the extinction coefficient is exact, the absorption in the table never below the average; and two witnesses where the inequality is strict (two thirds of the intensity; absorption by grains that do not absorb)."
  },
  {
   "property": "C95",
   "status": "proved",
   "theorems": [
    "Verif.Rotation.c95_scattering",
    "Verif.Rotation.c95_extinction",
    "Verif.Rotation.c95_energy",
    "Verif.Rotation.c95_lossless"
   ],
   "note": "Exact arithmetic; the amplitude matrices are the unique ones of C93, which the code computes (c93_code) except in the strip around the poles (C63)."
  },
  {
   "property": "C96",
   "status": "proved",
   "theorems": [
    "Verif.Rotation.c96_forward",
    "Verif.Rotation.c96_mean",
    "Verif.Rotation.c96_table",
    "Verif.Rotation.c96_isotropic"
   ],
   "note": "Exact arithmetic; the strip around the poles (C63) is excluded where the code computes."
  },
  {
   "property": "C97",
   "status": "proved",
   "theorems": [
    "Verif.Text.c97_literal",
    "Verif.Text.c97_only",
    "Verif.Text.c97_refused",
    "Verif.Text.c97_print",
    "Verif.Text.c97_exact",
    "Verif.Text.c97_twice",
    "Verif.Text.c97_complex",
    "Verif.Text.c97_physical",
    "Verif.Text.c97_unit"
   ],
   "note": "Exact real numbers: rounding of the decimal value to the nearest double is not modelled. Texts nan, inf and hexadecimal numbers are outside the model (separate outcome)."
  },
  {
   "property": "C98",
   "status": "partial",
   "theorems": [
    "Verif.Program.c98_parameters",
    "Verif.Program.c98_rerun_partial",
    "Verif.Program.c98_violated_rerun",
    "Verif.Program.c98_run",
    "Verif.Program.c98_only",
    "Verif.Program.c98_required"
   ],
   "note": "The last clause is false: the used values are written with six significant digits, so a rerun has rounded parameters (c98_violated_rerun: the default wavelength). Proved: it has the rounded parameters, and from then on reruns are identical. Files with the reserved text 'default value' as a value are excluded from c98_parameters (C45)."
  },
  {
   "property": "C99",
   "status": "partial",
   "theorems": [
    "Verif.GetTable.c99_arguments_partial",
    "Verif.GetTable.c99_problem",
    "Verif.GetTable.c99_user_order_partial",
    "Verif.GetTable.c99_values",
    "Verif.GetTable.c99_violated_order",
    "Verif.GetTable.c99_violated_range",
    "Verif.GetTable.c99_violated_objects",
    "Verif.GetTable.c99_violated_nothing"
   ],
   "note": "Three clauses are false and refuted: positions are those of the sorted sizes and wavelengths (c99_violated_order), options out of range are reduced modulo 2^32 (c99_violated_range), objects of the wrong class or without initialisation are used (c99_violated_objects); with nothing requested a null pointer without an exception is returned. Log files and verbose output are not modelled."
  }
 ]
}