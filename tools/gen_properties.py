#!/usr/bin/env python3
"""Writes /verif/properties.jsonl (kept as a script so that the list is easy to extend)."""
import json, os
P = []
def p(title, statement, quantifier, why, anchors):
    P.append(dict(id="C%02d" % (len(P)+1), title=title, statement=statement,
                  quantifier=quantifier, why_tests_cant=why, anchors=anchors))

SCHED = "A test run exercises a handful of interleavings out of an unbounded number; a violated order or a double execution only shows up in rare schedules."
SIZE = "The statement is about every size/input; tests check a few literal inputs."

p("Every task runs exactly once",
  "When a set of tasks without circular dependencies is run by the task scheduler with any number of worker threads, each registered task is executed exactly once: never twice, and, once the workers have seen the number of waiting tasks drop to zero, never zero times.",
  "all task sets (any size, any acyclic dependency graph, any resource links), all numbers of threads and queues, all interleavings of the atomic steps of the workers",
  SCHED, ["quicksched/qsched.c:qsched_gettask,qsched_done,qsched_enqueue,qsched_run_openmp", "quicksched/queue.c:queue_get,queue_put", "src/QuickSchedWrapper.hpp:QuickSched::execute_tasks"])
p("Dependencies are respected",
  "If link_tasks(a, b) was called, then in every execution task b only starts after task a has completely finished.",
  "all task graphs, thread counts and interleavings", SCHED,
  ["quicksched/qsched.c:qsched_done,qsched_addunlock,qsched_prepare", "src/QuickSchedWrapper.hpp:QuickSched::link_tasks"])
p("Write-linked resources are exclusive, including parents and children",
  "At no moment do two running tasks both have write access to the same resource, or one to a resource and the other to one of its (direct or indirect) children.",
  "all resource hierarchies, all tasks and threads, all interleavings of the individual lock/hold operations", SCHED,
  ["quicksched/qsched.c:qsched_lockres,qsched_unlockres,qsched_locktask", "src/QuickSchedWrapper.hpp:QuickSched::link_task_and_resource,register_resource"])
p("Failed lock attempts leave no residue; all resources are free at the end",
  "A lock attempt that fails restores every lock and hold counter it touched, the hold counter of a resource always equals the number of lock operations currently holding one of its descendants, and when no worker is inside a lock/unlock or task, all resources are unlocked with hold counter zero.",
  "all resource hierarchies, all interleavings", SCHED,
  ["quicksched/qsched.c:qsched_lockres,qsched_unlockres,qsched_locktask"])
p("The scheduler cannot deadlock",
  "As long as tasks remain and no task is in progress, some queued task can be locked by the next scan, and from every reachable state all tasks can still be completed, provided no task write-links the same resource twice or a resource together with one of its own ancestors.",
  "all acyclic task graphs, resource hierarchies, thread counts, and all reachable states", "Deadlock freedom is a statement about every reachable state; a test only visits some of them.",
  ["quicksched/qsched.c:qsched_gettask,qsched_lockres,qsched_prepare", "quicksched/queue.c:queue_get"])
p("Circular dependencies are detected, and only those",
  "Preparing a run reports 'Circular dependencies detected.' if and only if the dependency graph has a cycle; otherwise every task is placed exactly once in the topological order.",
  "all finite dependency graphs (multi-edges and self loops included)", SIZE,
  ["quicksched/qsched.c:qsched_prepare"])
p("Task priorities are critical-path lengths",
  "After preparation the weight of each task equals its own cost plus the largest total cost along any chain of tasks that it unlocks (costs are non-negative).",
  "all acyclic graphs and costs", SIZE, ["quicksched/qsched.c:qsched_prepare"])
p("Links end up with the right task",
  "However link calls for different tasks were interleaved, after preparation each task sees exactly the resources/successors it was linked with, in the order in which they were linked.",
  "all sequences of link calls", SIZE, ["quicksched/qsched.c:qsched_sort,qsched_prepare,qsched_addlock,qsched_adduse,qsched_addunlock"])
p("Queues lose and duplicate nothing",
  "Putting a task in a queue adds exactly that task; taking a task out removes exactly the returned task; an unsuccessful take changes nothing. The queue stays a heap ordered by priority.",
  "all queue contents, weights and lock outcomes", SIZE, ["quicksched/queue.c:queue_put,queue_get"])
p("Queues hand out lockable tasks, best first",
  "A take from a queue returns a task whose locks were acquired; if the highest-priority task of the queue can be locked, that one is returned; the take only reports 'none' if no task in the queue could be locked.",
  "all queue contents, weights, lock outcomes", SIZE, ["quicksched/queue.c:queue_get"])
p("Ready tasks go to the queue that owns most of their resources",
  "A ready task is put in a queue with the highest number of linked resources owned by that queue and, among those, with the fewest queued tasks; in particular always in an existing queue.",
  "all owner assignments, queue counts and links", SIZE, ["quicksched/qsched.c:qsched_enqueue"])
p("Registering more than was reserved loses nothing",
  "Adding tasks, resources, links or dependencies beyond the reserved/initial capacity preserves all entries that were added before; reserving memory never changes existing entries.",
  "all sequences of add/reserve calls", SIZE, ["quicksched/qsched.c:qsched_ensure,qsched_addtask,qsched_addres,qsched_addlock,qsched_adduse,qsched_addunlock"])
p("Task payloads are stored intact",
  "The payload bytes passed when registering a task are the bytes handed to the task function, and payloads of different tasks never overlap. (Violated when a single payload does not fit in the doubled data buffer.)",
  "all sequences of task registrations with arbitrary payload sizes", SIZE, ["quicksched/qsched.c:qsched_addtask,qsched_getdata"])
p("A prepared schedule can be run again",
  "After a completed run, preparing again restores the same dependency counters and the same set of initially available tasks, so that a second run executes every task again.",
  "all acyclic graphs", SIZE, ["quicksched/qsched.c:qsched_prepare,qsched_done"])
p("Runs with virtual or skipped tasks terminate",
  "A run whose task set contains virtual tasks (no action) or skipped tasks ends once all ordinary tasks have run. (Violated: a virtual task without predecessors, or any skipped task, leaves the waiting counter above zero forever.)",
  "all task sets with flags", SCHED, ["quicksched/qsched.c:qsched_prepare,qsched_enqueue,qsched_done,qsched_gettask"])
p("Task types are numbered consistently",
  "Two registered tasks get the same type number if and only if they have the same C++ type, and the printed type dictionary maps each number to that type.",
  "all registration sequences", SIZE, ["src/QuickSchedWrapper.hpp:QuickSched::register_task,print_type_dict"])
p("Progress counting is well defined",
  "Counting finished tasks never divides by zero and reports progress for every total number of tasks. (Violated for fewer than 50 tasks, where the reporting interval rounds to zero.)",
  "all numbers of tasks", SIZE, ["src/QuickSchedWrapper.hpp:TaskCounter"])
p("Concurrently running tasks get different thread ids",
  "As long as no more threads are used than the scheduler was constructed with, two tasks that run at the same time receive different thread ids, so per-thread scratch space is never shared; with more threads this fails.",
  "all thread counts, schedules", SCHED, ["quicksched/qsched.c:qsched_run_openmp,qsched_gettask", "src/QuickSchedWrapper.hpp:execute_tasks", "src/TMatrixResource.hpp:TMatrixAuxiliarySpaceManager"])
p("The generated computation is free of circular dependencies",
  "For every combination of sizes, wavelengths, compositions, shapes, order range, requested quantities and memory limit, the task graph generated for a table calculation has no circular dependencies.",
  "all input vectors, order ranges, memory limits, output flags", SIZE, ["src/TaskManager.hpp:generate_tasks"])
p("Results can be found back through the result key",
  "For valid composition, size, wavelength and result-type indices the result index is in range, distinct index tuples give distinct results, and the result stored there was created for exactly these parameter values and this quantity (extinction, absorption, scattering in that order, as far as requested).",
  "all numbers of compositions, sizes, wavelengths, requested quantities", SIZE, ["src/ResultKey.hpp:get_result_index", "src/TaskManager.hpp:generate_tasks", "src/CTMModule.cpp:get_table"])
p("Table entries correspond to the inputs at the same position",
  "Entry [i][j][k] of the table returned by get_table is the result for the i-th composition, the j-th size and the k-th wavelength passed by the caller. (Violated for unsorted sizes or wavelengths: the inputs are sorted internally.)",
  "all input arrays", SIZE, ["src/CTMModule.cpp:get_table", "src/TaskManager.hpp:generate_tasks"])
p("No quantity is read before it has been computed",
  "In every execution order allowed by the generated dependencies, each task that reads a computed resource runs after the task that computes it.",
  "all parameter combinations and all execution orders", SCHED, ["src/TaskManager.hpp:generate_tasks", "src/QuickSchedWrapper.hpp:Computable"])
p("Reused T-matrix memory is never overwritten early",
  "When the memory limit forces T-matrix slots to be reused, the tasks of the next calculation in a slot only start after all tasks that use the previous content of that slot have finished and the slot was reset.",
  "all memory limits, parameter combinations, execution orders", SCHED, ["src/TaskManager.hpp:generate_tasks", "src/TMatrixResource.hpp:ResetTMatrixResourceTask"])
p("Conflicting accesses are never concurrent",
  "If one task of a table calculation writes a resource and another reads or writes it, the two are ordered by dependencies or excluded by a common lock.",
  "all parameter combinations, all pairs of tasks", SCHED, ["src/TaskManager.hpp:generate_tasks", "src/AlignmentAverageTask.hpp:link_resources", "src/TMatrixResource.hpp"])
p("Dry-run accounting matches the tasks that are created",
  "The numbers of tasks, results and dependencies reserved by the dry run cover those registered afterwards, for all inputs; resources and read-only links are under-reserved.",
  "all parameter combinations", SIZE, ["src/TaskManager.hpp:MemoryManager,generate_tasks"])
p("The memory limit is respected by the accounting",
  "The number of extra T-matrix slots is the largest that fits in the remaining memory and never exceeds what can be used; the accounted memory after allocating the slots stays within the limit.",
  "all memory limits and object sizes", SIZE, ["src/TaskManager.hpp:MemoryManager,generate_tasks"])
p("Matrix elements are independent and in bounds",
  "Distinct (row, column) pairs of a Matrix refer to distinct storage positions inside the allocation; writing one element does not change any other; a row pointer gives access to exactly that row.",
  "all matrix shapes and indices", SIZE, ["src/Matrix.hpp:operator(),get_row"])
p("Matrix inversion is correct",
  "plu_inverse replaces an invertible matrix by its inverse (exact arithmetic), whatever pivots are encountered.",
  "all sizes and all invertible matrices over a field", SIZE, ["src/Matrix.hpp:plu_inverse"])
p("T-matrix elements are stored independently and in bounds",
  "Distinct valid (m, i, n, j, n') element indices of a T-matrix map to distinct storage positions within the allocation, for every expansion order up to the maximum; set_element followed by the getter returns the value.",
  "all orders and index tuples", SIZE, ["src/TMatrixResource.hpp:TMatrixResource", "src/TMatrix.hpp:set_element,operator()"])
p("Wigner function table storage is a bijection",
  "The triangular index used for the special Wigner D functions maps the pairs (n, m), 1<=n<=nmax, 0<=m<=n one-to-one onto the allocated range.",
  "all nmax", SIZE, ["src/ExtinctionCoefficientTask.hpp", "src/AbsorptionCoefficientTask.hpp", "src/ScatteringMatrixTask.hpp"])
p("Tabulated Wigner functions at mirrored angles",
  "The Wigner functions stored for the quadrature point -x equal the recursion evaluated at -x. (Violated for odd m: the stored value has the opposite sign; products of two functions with the same m, which is all the T-matrix integrals use, are unaffected.)",
  "all orders n, m and angles", SIZE, ["src/WignerDResources.hpp:execute", "src/SpecialFunctions.hpp:wigner_dn_0m"])
p("Gauss-Legendre rules are symmetric and rescale correctly",
  "The quadrature points come in pairs +-x with equal weights (ascending indices mirrored), and the rule on [a,b] is the affine image of the one on [-1,1], so the weights sum to b-a when they sum to 2 on [-1,1].",
  "all even and odd orders, all intervals", SIZE, ["src/SpecialFunctions.hpp:get_gauss_legendre_points_and_weights,get_gauss_legendre_points_and_weights_ab"])
p("Spheroid radius table is symmetric and solves the surface equation",
  "For every even number of quadrature points and axis ratio d, r^2 at mirrored points is equal, the logarithmic derivative is opposite, and the tabulated radius lies on the spheroid with axis ratio d that has the volume of the unit sphere.",
  "all point sets and axis ratios > 0", SIZE, ["src/SpecialFunctions.hpp:get_r_dr_spheroid"])
p("Shape averages are weighted means",
  "The shape averaged coefficients equal sum(w_i x_i)/sum(w_i), lie between the smallest and largest input for non-negative weights, and equal the input for a single shape.",
  "all numbers of shapes, weights, values", SIZE, ["src/ShapeAveragingTask.hpp"])
p("Table interpolation is exact at nodes and bounded between them",
  "A row looked up in a strictly monotone table (ascending or descending) lies between the two bracketing rows, equals the tabulated row at tabulated values, and lookups outside the range are rejected when assertions are active.",
  "all strictly monotone tables with at least two rows and all lookup values in range", SIZE, ["src/Table.hpp:LinearInterpolatedTable::get_row"])
p("Bisection lookup brackets the value",
  "locate returns an index in [0, length-2] such that the value lies between that element and the next whenever it lies in the range of the array.",
  "all sorted arrays of at least two elements and all values", SIZE, ["src/Utilities.hpp:locate"])
p("Convergence bookkeeping",
  "Once a T-matrix has been flagged converged, later order iterations change neither the T-matrix nor its order; the flag is only set if both relative differences are within tolerance; a first iteration never converges.",
  "all sequences of scattering/extinction coefficients and tolerances", SIZE, ["src/TMatrixResource.hpp:TMatrixM0Task", "src/ConvergedSizeResources.hpp"])
p("The standalone T-matrix loop reports failure only when it did not converge",
  "calculate_TMatrix aborts with a convergence error only if no order up to the maximum met the tolerance. (Violated: convergence at the last allowed order is reported as failure.)",
  "all sequences of differences, maximum orders", SIZE, ["src/TMatrixCalculator.hpp:calculate_TMatrix"])
p("Orientation distributions are proper",
  "The Mishchenko distribution is non-negative exactly for the accepted parameter range and normalised; Davis-Greenstein coefficients are p_n=1 (oblate) or the Legendre values at zero (prolate); coefficient 0 is always 1; the size based alignment picks the documented distribution.",
  "all parameters, angles and orders", SIZE, ["src/MishchenkoOrientationDistribution.hpp", "src/DavisGreensteinOrientationDistribution.hpp", "src/SizeBasedAlignmentDistribution.hpp"])
p("Refractive index squares to the dielectric function",
  "The refractive index computed for a dielectric function with non-negative imaginary part has non-negative real and imaginary parts and squares to it; for negative imaginary part it squares to the conjugate.",
  "all complex dielectric functions", SIZE, ["src/DraineDustProperties.hpp:eps_to_mr"])
p("Unit algebra is consistent",
  "Multiplying, dividing and taking powers of units act on value and dimensions consistently: (u*v)/v=u, powers add, converting to a unit and back is the identity. (Power zero is violated: the value is kept while the dimensions vanish.)",
  "all units with non-zero value and all exponents", SIZE, ["src/Unit.hpp", "src/UnitConverter.hpp:to_SI,to_unit,try_conversion"])
p("Unit strings are parsed as products of powers",
  "Parsing a string of known unit names with optional ^powers separated by spaces gives the product of the corresponding unit powers, in any order of the factors.",
  "all lists of known units and non-zero integer powers", SIZE, ["src/UnitConverter.hpp:get_unit,get_single_unit"])
p("Parameter files round trip",
  "Printing the contents of a parameter dictionary and reading the result back gives the same dictionary.",
  "all dictionaries with well formed keys and values", SIZE, ["src/YAMLDictionary.hpp:print_contents,YAMLDictionary"])
p("Reading a parameter file is well defined",
  "Reading any text either produces a dictionary or reports a formatting error. (Violated: a line whose indentation drops below the first indentation level without being zero makes the parser inspect an empty level list.)",
  "all texts", SIZE, ["src/YAMLDictionary.hpp:YAMLDictionary(std::istream&)"])
p("Parameter lookup with default",
  "Querying a key that is present returns its value; querying an absent key with a default returns the default, now and on every later query with a default, and never changes other keys; the used value is recorded.",
  "all dictionaries and query sequences", SIZE, ["src/YAMLDictionary.hpp:get_value,add_value,has_value"])
p("Command line parsing",
  "A successful parse assigns to every registered option the last value given for it on the command line or its default, all required options were present, and unknown options, orphan arguments and missing required options end the program. Boolean options silently swallow a following argument.",
  "all option sets and argument vectors", SIZE, ["src/CommandLineParser.cpp:parse_arguments,add_option", "src/CommandLineOption.cpp:matches,parse_argument"])
p("Integer conversion",
  "Converting a decimal, exponent or hexadecimal string gives the integer it denotes (within the type's range); the empty string is rejected. Strings without digits silently convert to 0.",
  "all strings", SIZE, ["src/Utilities.hpp:string_to_integer"])
p("Boolean conversion",
  "Strings convert to true exactly for true/yes/on/y and to false exactly for false/no/off/n (any case, surrounding blanks ignored); everything else is rejected.",
  "all non-blank strings", SIZE, ["src/Utilities.hpp:convert<bool>"])
p("Human readable times and sizes",
  "The y/d/h/m/s decomposition of a number of seconds adds up to that number with every part in range; the byte formatter divides by 1024 exactly as often as its unit says and keeps the displayed value below 1024 for all supported sizes. (Found to fail: values that round up are displayed as 1024 of the smaller unit.)",
  "all unsigned numbers of seconds / bytes", SIZE, ["src/Utilities.hpp:human_readable_time,human_readable_bytes,byte_unit"])
p("Number utilities",
  "decompose returns prime factors in ascending order whose product is the number; as_binary_sequence contains exactly the binary digits; argsort returns a permutation that sorts the values.",
  "all numbers / vectors", SIZE, ["src/Utilities.hpp:decompose,as_binary_sequence,argsort"])
p("MD5 checksums",
  "The checksum of a byte stream equals the RFC 1321 MD5 digest, in particular with the correct padding for every stream length.",
  "all byte strings (shorter than 2^61 bytes)", SIZE, ["src/MD5Sum.hpp:get_checksum,md5,tohex"])
p("Refraction conserves energy",
  "For every angle of incidence and pair of refractive indices the reflected and transmitted fractions lie between 0 and 1 and add up to 1; without total reflection Snell's law holds.",
  "all angles in [0, pi/2] and positive indices", SIZE, ["src/RefractionEvent.hpp"])
p("Scattering matrices are physical",
  "The 4x4 scattering matrix derived from any complex 2x2 amplitude matrix satisfies Z00>=0 and maps physical Stokes vectors to physical Stokes vectors; the extinction matrix has the documented symmetries.",
  "all complex amplitude matrices", SIZE, ["src/TMatrix.hpp:get_scattering_matrix,get_extinction_matrix", "src/ScatteringMatrixTask.hpp:execute"])
p("Matrix dumps can be read back",
  "The binary dump of a matrix contains its shape and element size followed by all elements in row order; reading it back gives the same matrix.",
  "all matrices", SIZE, ["src/Matrix.hpp:binary_dump"])
p("Scattering table layout",
  "Entry [theta][phi] of the returned scattering table is the matrix that was computed for that pair of output angles; the flattened index is in range and one-to-one.",
  "all numbers of angles", SIZE, ["src/ScatteringMatrixTask.hpp", "src/CTMModule.cpp:get_table"])
p("Phase factors of the expansion coefficients",
  "The tabulated coefficients for orders (n, n') equal i^(n'-n-1) times the square-root prefactor, whatever the parity of the orders.",
  "all orders", SIZE, ["src/NBasedResources.hpp:execute"])
p("Averaging over orientations",
  "With alignment disabled the ensemble T-matrix equals the single-particle T-matrix element by element. With alignment every element is the sum over all orders N and projections of the orientation average (Mishchenko 1991, eq. 3.27): perfect alignment leaves the T-matrix as it is, random orientations give the mean over the projections.",
  "all orders, axisymmetric T-matrices, orientation distributions and previous contents of output and work space", SIZE, ["src/AlignmentAverageTask.hpp:execute"])
p("File name composition and suffix tests",
  "A composed snapshot file name contains the folder, the prefix and the counter padded with zeros to at least the requested width; different counters give different names; the suffix test accepts exactly the strings that end in the suffix; a string of the form [a,b,c] is split into exactly its three parts.",
  "all strings, counters and widths", SIZE, ["src/Utilities.hpp:compose_filename,string_ends_with,split_string"])
p("Shared objects are found again by their index",
  "The objects that the task generation fetches back from its object lists by offset and index are the quadrature points, Wigner functions and geometry of that order and shape and the work space with that number, so every cast is valid.",
  "all parameter combinations", SIZE, ["src/TaskManager.hpp:generate_tasks"])
p("The T-matrix solves the extended boundary condition",
  "The T-matrix block computed for every m is -RgQ Q^-1, where Q and RgQ are the surface integrals evaluated with the full Gauss-Legendre rule; summing half of the points with a parity filter gives the same matrices, and nothing left over from an earlier order or wavelength enters.",
  "all orders, quadrature sizes, particle shapes and histories of the work space", SIZE, ["src/TMatrixResource.hpp:TMatrixM0Task::execute,TMatrixMAllTask::execute"])
p("Orientation averaging stays inside its work space",
  "For every order up to the configured maximum, computing the Clebsch-Gordan coefficients for the orientation average accesses only elements of the work space reserved for it.",
  "all orders up to the maximum", SIZE, ["src/AlignmentAverageTask.hpp:execute", "src/TMatrixResource.hpp:TMatrixAuxiliarySpace", "src/SpecialFunctions.hpp:get_clebsch_gordan_coefficients"])
p("Spherical Bessel arrays",
  "For every non-zero real or complex argument and every maximum order, the arrays contain the spherical Bessel functions of orders 1 to nmax and [z f(z)]'/z, and only the first nmax elements are written.",
  "all arguments, orders and previous array contents", SIZE, ["src/SpecialFunctions.hpp:spherical_y_ydy_array,spherical_j_jdj_array"])
p("Wigner arrays",
  "For every angle, every m up to nmax, the arrays contain the Wigner functions d^n_0m for n = 1..nmax and their derivatives (or the functions divided by the sine, with the right limits at the poles), and only the first nmax elements are written.",
  "all angles, orders and previous array contents", SIZE, ["src/SpecialFunctions.hpp:wigner_dn_0m,wigner_dn_0m_sinx"])
p("A change within the tolerance ends the T-matrix calculation",
  "The first order (after the first) for which the relative changes of both cross sections are within the tolerance is the last one that is carried out, and the calculation is then flagged as converged.",
  "all sequences of orders, tolerances and particles", SIZE, ["src/TMatrixResource.hpp:TMatrixM0Task::execute"])

p("Clebsch-Gordan coefficients",
  "For every pair of orders n1, n2 and every N allowed by the triangle rule, get_clebsch_gordan_coefficient(s) returns the Clebsch-Gordan coefficients in the Condon-Shortley convention (orthonormal, complete, positive highest coefficient, zero where a selection rule is violated), independent of what the workspace contained, and without touching more than (N+1)(2 n1+1) elements of it.",
  "all n1, n2, N in the triangle, all projections, all workspace contents",
  "the coefficients come out of a double recursion whose length grows with the orders; a test compares a few tabulated values",
  ["src/SpecialFunctions.hpp: get_clebsch_gordan_coefficient, get_clebsch_gordan_coefficients"])
p("Amplitude matrix",
  "For every T-matrix of an axisymmetric particle, every pair of incoming and outgoing directions of the grids and every wavenumber, the amplitude matrix used by the extinction, absorption and scattering tasks is the sum over all orders and over positive and negative projections of the T-matrix elements times the angular functions of the two directions.",
  "all T-matrices of any order, all directions, wavenumbers and previous table contents", SIZE,
  ["src/ExtinctionCoefficientTask.hpp:get_forward_scattering_matrix", "src/AbsorptionCoefficientTask.hpp:get_forward_scattering_matrix", "src/ScatteringMatrixTask.hpp:get_forward_scattering_matrix"])
p("Extinction and absorption coefficients",
  "For every angle of the grid the extinction task stores the coefficients of the optical theorem divided by the geometric cross section of the equal volume sphere; the absorption task stores the same value minus (if scattering is accounted for) the scattered intensity summed with the quadrature weights over the incoming directions; nothing else is written.",
  "all T-matrices, grids, quadrature sizes, wavenumbers and radii", SIZE,
  ["src/ExtinctionCoefficientTask.hpp:ExtinctionCoefficientTask::execute", "src/AbsorptionCoefficientTask.hpp:AbsorptionCoefficientTask::execute"])
p("Shape distribution in terms of the axis ratio",
  "The built-in shape distribution is the CDE2 distribution of depolarisation factors expressed in the axis ratio: the Jacobian is the derivative of the depolarisation factor at every axis ratio (outside the strip around 1 in which a series is used), the density is non-negative, zero outside its limits, and integrates over an interval of axis ratios to the CDE2 probability of the corresponding depolarisation factors.",
  "all axis ratios and all limits", SIZE, ["src/DraineHensleyShapeDistribution.hpp:get_shape_factor,get_jacobian,cde2,operator()"])
p("Tabulated refractive indices",
  "At a tabulated wavelength, for the temperature and the grain size of the table (20 K, 0.1 micron), the refractive index of both carbon types squares to the tabulated dielectric function; for other temperatures and sizes the dielectric function differs exactly by the difference of the free electron terms; for silicate the tabulated refractive index is returned; between tabulated wavelengths the dielectric function without the free electron term is interpolated linearly.",
  "all tables, wavelengths, temperatures and grain sizes", SIZE, ["src/DraineDustProperties.hpp:DraineDustProperties,get_refractive_index,get_C_epsilon_free"])
p("Adaptive quadrature",
  "If gauss_legendre_quadrature returns without a warning, the returned value is that of the first rule (from the starting order on) that agrees with the rule of the previous order within one of the two tolerances; otherwise it warns and returns the value for the highest order.",
  "all integrands, intervals, orders and tolerances", SIZE, ["src/SpecialFunctions.hpp:gauss_legendre_quadrature"])
p("Nested parameter files",
  "A parameter file whose lines form nested blocks, with any indentation widths, blanks, tabs and comments, is read: every key consists of the names of its groups and its own name joined by colons, and has the last value given for it. Comments and empty lines have no influence on any text; lines without a colon and indented lines outside a group are errors.",
  "all texts that form nested blocks", SIZE, ["src/YAMLDictionary.hpp:YAMLDictionary(std::istream&)"])
p("Stand-alone TMatrix class: transition matrix",
  "For every wavelength, refractive index, size and axis ratio, maximum order and quadrature size: after construction and one call of compute_additional_elements, operator() returns, for every degree for which the Q matrix is regular, the elements of the transition matrix T = -RgQ Q^-1 of the spheroid with the requested axis ratio and the volume of the sphere with the requested radius, where Q and RgQ are surface integrals of vector spherical wave functions evaluated with the quadrature rule.",
  "all sizes, axis ratios, wavelengths, refractive indices, maximum orders, quadrature sizes and degrees", SIZE,
  ["src/TMatrix.hpp:TMatrix,compute_additional_elements,operator()"])
p("Stand-alone TMatrix class: repeated computation",
  "compute_additional_elements can be called any number of times on the same object without changing the elements of the matrix after the first call.",
  "all objects and all numbers of calls", SIZE,
  ["src/TMatrix.hpp:compute_additional_elements"])
p("Symmetries of the T-matrix",
  "The computed T-matrix has the symmetries of an axisymmetric particle with a plane of symmetry: elements with an odd sum of orders and kinds vanish, the mixed blocks vanish for degree 0, and the stored elements (degrees m >= 0) determine those for negative degrees, T^{ij}(-m) = (-1)^{i+j} T^{ij}(m), which are the transition matrix of the wave functions with negative degrees.",
  "all spheroids, wavelengths, refractive indices, maximum orders, quadrature sizes and degrees of both signs", SIZE,
  ["src/TMatrix.hpp:TMatrix,compute_additional_elements", "src/TMatrixResource.hpp:TMatrixM0Task,TMatrixMAllTask", "src/TMatrixAlignmentTask.hpp"])
p("Amplitude matrix for any orientation",
  "get_forward_scattering_matrix returns, for every pair of directions and every orientation of the particle, the matrix that takes the incoming field to the scattered field: the result of expressing the incoming field in the frame of the particle, applying the amplitude matrix of the theory for the angles in that frame, and expressing the result in the laboratory frame again, also when a direction is along the axis of the particle. Turning particle, source and observer together around the z axis does not change the result.",
  "all T-matrices, orientations and directions", SIZE, ["src/TMatrix.hpp:get_forward_scattering_matrix"])
p("Scattering and extinction matrix of the TMatrix class",
  "get_scattering_matrix returns the (unique) matrix that takes the Stokes vector of the incoming wave to that of the scattered wave; get_extinction_matrix returns the matrix that describes the attenuation of the Stokes vector of a wave whose amplitudes are attenuated according to the forward amplitude matrix; the reduced extinction matrix consists of its elements 11, 12 and 34 and nothing else is written.",
  "all T-matrices, orientations, directions and polarisations", SIZE, ["src/TMatrix.hpp:get_scattering_matrix,get_extinction_matrix,get_reduced_extinction_matrix"])
p("Coefficients and absorption cross sections of the TMatrix class",
  "The scattering coefficient is the sum of the squared moduli of all elements of the T-matrix (degrees of both signs), the extinction coefficient the real part of its trace; the absorption cross sections are the extinction cross section minus the intensity scattered from the directions of the quadrature rule, for the requested angles and in the documented positions, and the average cross section is the quadrature of these over the cosine of the angle.",
  "all T-matrices, angles, quadrature sizes and output arrays", SIZE,
  ["src/TMatrix.hpp:get_scattering_coefficient,get_extinction_coefficient,get_absorption_cross_sections,get_absorption_cross_section,get_average_absorption_cross_section"])
p("Scattering and extinction matrix resources",
  "After its execution an extinction matrix resource contains the matrix that describes the attenuation of the Stokes vector according to the forward amplitude matrix of the theory for its T-matrix, wavenumber and direction; after the first execution a scattering matrix resource contains the matrix that takes the Stokes vector of the incoming wave to that of the scattered wave for its orientation and directions (the same matrix as the stand-alone class computes), also for directions along the axis of the particle and for a T-matrix of an order below the maximum order.",
  "all T-matrices, wavenumbers, orientations, directions and maximum orders", SIZE, ["src/ExtinctionMatrixResource.hpp:execute,operator()", "src/ScatteringMatrixResource.hpp:execute,operator()"])
p("Repeated execution of the matrix resources",
  "Executing an extinction or scattering matrix resource again, for the same T-matrix, wavenumber and angles, leaves the same matrix.",
  "all T-matrices, wavenumbers, angles and numbers of executions", SIZE, ["src/ExtinctionMatrixResource.hpp:execute", "src/ScatteringMatrixResource.hpp:execute"])
p("The results do not depend on the schedule",
  "For the same input, every run of a table calculation ends with the same contents of every result and intermediate quantity, whatever the number of threads and queues, the timing, the random choices of the workers and the contents of uninitialised memory; they are what the tasks produce when they are run one after the other on one thread.",
  "all inputs, all numbers of queues and at most as many threads, all interleavings of single reads and writes of all tasks, all deterministic task bodies that keep to the data they declare",
  SCHED, ["quicksched/qsched.c:qsched_run_openmp", "src/QuickSchedWrapper.hpp:execute_tasks,execute_task", "src/TaskManager.hpp:generate_tasks", "src/TMatrixResource.hpp:TMatrixAuxiliarySpaceManager"])

p("Results do not depend on the memory limit",
  "The memory limit given to a table calculation fixes how many T-matrices are kept in memory at the same time, and with it which calculation uses which interaction resource and T-matrix object, and in which order. For every two limits, numbers of threads, timings and random choices the calculations end with the same results.",
  "all numbers of slots, threads and queues, all graphs that generate_tasks produces, all interleavings down to single reads and writes, and all contents that the tasks compute", SCHED,
  ["src/TaskManager.hpp:generate_tasks (resource_reuse_index, unlock_tasks)", "src/TMatrixResource.hpp:ResetTMatrixResourceTask", "src/InteractionResource.hpp:ResetInteractionResourceTask"])
p("A table calculation is the plain program",
  "However many threads, queues and slots are used, and however the threads are interleaved, a table calculation ends with the data that the obvious sequential program computes: compute the shared data, then for one T-matrix after the other try the orders, do all degrees, average over orientations, compute the quantities, and finally average over the shapes, with one set of objects.",
  "all parameters, numbers of slots, threads and queues, all interleavings down to single reads and writes, and all contents that the tasks compute", SCHED,
  ["src/TaskManager.hpp:generate_tasks", "quicksched/src/qsched.c:qsched_run_openmp"])
p("Entries of the table are independent of each other",
  "Every entry of the table (one quantity for one composition, size and wavelength) is what the calculation of that entry alone gives. No other entry, and no other quantity that is asked for, has any influence on it.",
  "all entries of all tables, numbers of slots, threads and queues, all interleavings, and all contents that the tasks compute", SCHED,
  ["src/TaskManager.hpp:generate_tasks", "src/TMatrixResource.hpp:ResetTMatrixResourceTask", "src/InteractionResource.hpp:ResetInteractionResourceTask"])
p("The entries of a table are the coefficients of the T-matrix method",
  "When a table calculation has finished, every entry holds the extinction coefficients, absorption coefficients or scattering matrices of the grains of that composition, size and wavelength, in exact arithmetic: the spheroids of all shapes of the distribution, with the T-matrix of the extended boundary condition method for the first order at which the cross sections have converged (or the last order), all degrees, averaged over the orientations, put into the amplitude matrix for the requested angles, with the optical theorem and the integral over the directions of the incoming light, and the weighted average over the shapes. These values are determined by the inputs. Conditions: the quadrature points are symmetric and inside the interval, the linear equations can be solved, the work space of the average over orientations is large enough for the order (C61), and no requested direction is within 10^-10 of the axis without being on it.",
  "all sizes, wavelengths, refractive indices, shape distributions, orientation distributions, orders, angles, quadrature rules and Bessel functions; all numbers of slots, threads and queues, and all interleavings down to single reads and writes", SCHED,
  ["src/TaskManager.hpp:generate_tasks", "src/TMatrixResource.hpp:TMatrixM0Task::execute,TMatrixMAllTask::execute", "src/InteractionResource.hpp:execute", "src/AlignmentAverageTask.hpp:execute", "src/ExtinctionCoefficientTask.hpp:execute", "src/AbsorptionCoefficientTask.hpp:execute", "src/ScatteringMatrixTask.hpp:execute", "src/ShapeAveragingTask.hpp"])
p("Ratio of the equal-volume and equal-surface radius",
  "The ratio of the equal-volume radius to the equal-surface radius computed for an axis ratio is exactly the ratio for a spheroid with that axis ratio, where the surface area is the integral of the surface of revolution; for an axis ratio of 1 it is 1, for all others it is less than 1. The Python function get_equal_volume_radius gives the equal-volume radius of the spheroid with a given equal-surface radius, in the same unit of length.",
  "all positive axis ratios, oblate, prolate and spherical", SIZE, ["src/SpecialFunctions.hpp:get_equal_volume_to_equal_surface_area_sphere_ratio", "src/CTMModule.cpp:get_equal_volume_radius"])
p("Array arguments are read as the numbers they show",
  "A function of the Python module that takes a scalar or an array argument works with the numbers that Python shows for it, in the same order, whatever the element type, strides and number of dimensions of the array (or it raises an exception).",
  "all arrays: element types, shapes, strides, memory contents", SIZE, ["src/PyHelperFunctions.hpp:unpack_numpy_array", "src/PyTMatrix.hpp"])
p("Arrays returned by the methods of the Python TMatrix object",
  "The arrays returned by the methods of the Python TMatrix object have the shape of the product of the angle arguments (axes of length one removed, scalars allowed) and hold at every position the matrix or cross sections of the stand-alone class for the angles at that position.",
  "all T-matrices, all lists of angles", SIZE, ["src/PyTMatrix.hpp:get_extinction_matrix,get_scattering_matrix_element,get_absorption_cross_section,get_absorption_cross_sections"])
p("Creating a Python TMatrix object",
  "The TMatrix object that is created from Python is the converged T-matrix of the spheroid with the given size (equal-volume or equal-surface radius), averaged over a distribution of the orientation angle for which the mean of the squared cosine is the requested value; a negative value means no averaging.",
  "all radii, axis ratios, wavelengths, refractive indices, alignment values, orders and tolerances", SIZE, ["src/PyTMatrix.hpp:init", "src/TMatrixCalculator.hpp", "src/DavisGreensteinOrientationDistribution.hpp", "src/MishchenkoOrientationDistribution.hpp"])
p("The evaluate method of orientation distributions",
  "The evaluate method of an orientation distribution returns, for every given angle, the value of the density at that angle, in an array of the shape of the argument. For a density that is a polynomial in the cosine, of a degree up to the maximum order of the expansion, this is exact; for others it is the truncated series.",
  "all orientation distributions, orders and lists of angles", SIZE, ["src/PyOrientationDistribution.hpp:evaluate", "src/SpecialFunctions.hpp:wigner_dn_0m"])
p("Values returned by user functions are used as they are",
  "A custom orientation distribution and custom dust properties call the Python function of the user with the documented arguments, and calculate with the number the function returns, whatever Python type that number has; a function that raises an exception leads to an exception.",
  "all user functions, arguments and returned objects", SIZE, ["src/PyOrientationDistribution.hpp:CustomOrientationDistribution::operator()", "src/PyDustProperties.hpp:CustomDustProperties::get_refractive_index"])
p("Grains of a table are aligned as the alignment object says",
  "The T-matrix of a grain in a table is averaged over the orientation distribution that the alignment object given by the user assigns to its size and axis ratio: random orientation up to the minimum size, and above it the distribution of the requested type (mean squared cosine 3/5 or 1/5, perfect alignment, no averaging, or the user's own distributions for oblate and prolate grains), for every order that the calculation uses.",
  "all alignment objects, grain sizes, axis ratios, T-matrices and orders", SIZE, ["src/PyAlignmentDistribution.hpp:init", "src/SizeBasedAlignmentDistribution.hpp:get_distribution", "src/TaskManager.hpp:generate_tasks", "src/AlignmentAverageTask.hpp:execute"])
p("The averaged T-matrix is the average over the orientations of the particle",
  "The T-matrix that the code computes for an ensemble of particles with a distribution of orientations is the average, over the azimuth and the polar angle of the symmetry axis, of the T-matrices of the rotated particle (Wigner's D functions). Elements with different projections, which are not stored, have the average zero.",
  "all distributions of the polar angle, all T-matrices of axisymmetric particles, orders and elements", SIZE, ["src/AlignmentAverageTask.hpp:execute", "src/SpecialFunctions.hpp:get_clebsch_gordan_coefficients", "src/OrientationDistribution.hpp"])
p("The amplitude matrix and the extinction of an ensemble are averages over its orientations",
  "The amplitude matrix computed from the averaged T-matrix of an ensemble is the average over the orientations of the amplitude matrices of the single particle, for every pair of directions; so the extinction coefficients in a table of aligned grains are the averages of the extinction coefficients of the oriented grains. The amplitude matrix of a particle with given orientation angles is that of the particle turned by these angles, and is unique.",
  "all distributions of the polar angle, axisymmetric T-matrices, orders, directions and orientations", SIZE, ["src/TMatrix.hpp:get_forward_scattering_matrix", "src/AlignmentAverageTask.hpp:execute", "src/ExtinctionCoefficientTask.hpp:execute"])
p("Scattering matrices and absorption coefficients of an ensemble are averages over its orientations",
  "For an ensemble of grains with a distribution of orientations, the scattering matrix and the absorption coefficients that are computed are the averages over the orientations of the scattering matrices and the absorption coefficients of the single grains.",
  "all distributions of the polar angle, axisymmetric T-matrices, orders and directions", SIZE, ["src/ScatteringMatrixTask.hpp:execute", "src/AbsorptionCoefficientTask.hpp:execute", "src/TMatrix.hpp:get_scattering_matrix", "src/TMatrix.hpp:get_scattering_coefficient", "src/AlignmentAverageTask.hpp:execute"])
p("The scattering and extinction coefficients are cross sections averaged over directions, and energy is conserved",
  "The scattering coefficient of a particle, times 2 pi / k^2, is the average over all directions of the incoming light of the integral of the scattered intensity over all directions of the scattered light; the extinction coefficient, times - 2 pi / k^2, is the average of the extinction cross section that follows from the forward amplitude matrix. Both hold for every orientation of the particle. A particle that does not amplify never scatters, for any incoming direction, more light than its extinction cross section, and one that does not absorb scatters exactly as much.",
  "all axisymmetric T-matrices, orders, wave numbers, orientations and incoming directions", SIZE, ["src/TMatrix.hpp:get_scattering_coefficient", "src/TMatrix.hpp:get_extinction_coefficient", "src/TMatrix.hpp:get_forward_scattering_matrix", "src/TMatrix.hpp:get_scattering_matrix"])
p("Grains without preferred orientation",
  "For an ensemble of axisymmetric grains in which all orientations are equally likely the forward amplitude matrix is a multiple of the unit matrix: -i/(2k) times the trace of the T-matrix of one grain, whatever the direction. Hence the extinction cross section is - 2 pi / k^2 times the real part of that trace, light of every polarisation is extinguished equally and its polarisation does not change; the whole amplitude matrix does not depend on an additional rotation of the ensemble. In tables, where the coefficients of the distribution are integrated numerically, the deviations are at most proportional to the error of those coefficients.",
  "all axisymmetric T-matrices, orders, wave numbers, directions, rotations, and coefficients of the distribution with any error", SIZE, ["src/TMatrix.hpp:get_forward_scattering_matrix", "src/TMatrix.hpp:get_extinction_matrix", "src/OrientationDistribution.hpp:initialise", "src/AlignmentAverageTask.hpp:execute", "src/ExtinctionCoefficientTask.hpp:execute"])
p("Numbers in texts",
  "A text that starts with a decimal number (optional white space and sign, digits with or without a decimal point, optional exponent) is read as exactly that number, everything after the number is left over, nothing else is read as a number, and a text without digits is refused. The text that is written for a number is read back as that number rounded to six significant digits (relative deviation at most 5e-6), numbers with at most six digits are read back unchanged, and writing and reading a second time changes nothing more. The same holds for both parts of complex numbers and for physical quantities, which are written with their SI unit; a number and a unit separated by any number of spaces are read as the quantity in that unit.",
  "all texts, all real and complex numbers, all physical quantities and units", SIZE, ["src/Utilities.hpp:convert", "src/Utilities.hpp:to_string", "src/Utilities.hpp:split_value", "src/YAMLDictionary.hpp:get_physical_value"])
p("The stand-alone program and its file of used values",
  "The program is started with -p FILE -o FILE (or the long names). The parameters of a run are the values in the parameter file, converted to SI units, and the documented default for each key that is not in the file; a file with a value that cannot be converted is refused. The program then computes the T-matrix for exactly these parameters and writes the 4 by 4 extinction matrix for the orientation and direction in the file to the output file. It never writes an output file for anything else, and without one of the two options it ends with an error. The file with the used values is again a valid parameter file and a run with it has the same parameters.",
  "all parameter files, command lines, times of the run, and all T-matrix constructors", SIZE, ["src/CosTuuM.cpp:main", "src/ParameterFile.cpp:print_contents", "src/ParameterFile.hpp:get_physical_value", "src/Utilities.hpp:get_timestamp", "src/CommandLineParser.cpp:parse_arguments"])
p("get_table from the call to the returned arrays",
  "A call of get_table uses the arrays, the three objects and the options as they are given, and the documented defaults for options that are left out (orders 10 to 100, 2 quadrature points per order, tolerance 1e-4, 20 angles, 1e10 bytes, 4 threads, absorption only). Whatever the schedule, the calculation ends and the tables that were asked for are returned: their axes of length 1 are dropped and the entry at composition it, size is, wavelength il, angle itheta and column k is that coefficient (or scattering matrix element) of the grains with the composition, size and wavelength at these positions of the arguments. Wrong objects and numbers out of range raise an exception.",
  "all calls (arrays of any layout, objects, options), schedules, numbers of threads and of T-matrices that fit in memory", SIZE, ["src/CTMModule.cpp:get_table", "src/TaskManager.hpp:generate_tasks", "src/PyHelperFunctions.hpp:unpack_numpy_array", "src/ResultKey.hpp:get_result_index"])
p("Absorption coefficients when the grid of directions is refined",
  "When scattering is accounted for, the absorption coefficients of a table tend, for finer and finer grids of directions, to the absorption cross sections: Qabs + Qabspol to what grains absorb of vertically polarised light from the direction of the table and Qabs - Qabspol of horizontally polarised light, that is, what is lost from the beam minus what is scattered from it into all directions, although the code sums over directions the light comes from (reciprocity). So grains that do not amplify get (up to any given error) no negative absorption and no polarisation above it, and grains with fixed orientations that do not absorb get zero.",
  "all grains whose T-matrices are reciprocal, all distributions of shapes and orientations, directions, orders and all sufficiently fine grids", SIZE, ["src/AbsorptionCoefficientTask.hpp:AbsorptionCoefficientGrid", "src/AbsorptionCoefficientTask.hpp:AbsorptionCoefficientTask", "src/SpecialFunctions.hpp:get_gauss_legendre_points_and_weights", "src/AlignmentAverageTask.hpp:execute"])
p("Spheres are the grains of Mie theory",
  "For grains with axis ratio 1 the calculation for spheroids reduces to Mie theory: the equations for the T-matrix can always be solved, the T-matrix is diagonal with the negatives of the Mie coefficients, which are the same for all projections and do not change when the grains are aligned; the extinction coefficients in the table are the Mie efficiencies, equal for all directions and without polarisation, for every distribution of weights over shapes that are all spheres; the order used is the one at which the Mie series have converged; and the absorption coefficients tend to extinction minus scattering when the grid of directions is refined, which is not negative and zero if the refractive index is real.",
  "all sizes, wavelengths, refractive indices of materials that do not amplify, orders, directions, alignments, schedules, numbers of threads and memory limits", SIZE, ["src/TMatrixResource.hpp:TMatrixM0Task", "src/TMatrixResource.hpp:TMatrixMAllTask", "src/ParticleGeometryResource.hpp:ParticleGeometryResource", "src/ExtinctionCoefficientTask.hpp:ExtinctionCoefficientTask", "src/AbsorptionCoefficientTask.hpp:AbsorptionCoefficientTask", "src/AlignmentAverageTask.hpp:execute"])
p("Python objects live as long as they are used",
  "Nothing that is still needed is destroyed: in every history of Python calls in which the program uses objects it has references on, no destroyed object and no null pointer is used; objects of the module keep the functions and arguments they were given after the program has given them up; every object behaves as it was created until its own __init__ is called, so an alignment object does not change when the orientation objects it was made from are dropped or initialised again; and when the program has given up everything, everything is destroyed. Violated: a second __init__, the average over orientations of a T-matrix (the default), numbers in place of arrays, arrays before a wrong argument and every result with several axes (every table) leave an object that is never destroyed; an instance made with __new__ has a null pointer that its methods use; and the names of the classes are addresses of strings that were destroyed when the module was imported.",
  "all histories of calls of the Python interface, of any length, with correct and wrong arguments", "Lifetimes depend on the whole history of calls; a use of a destroyed object often works by chance in a test, and a leak is not visible in a result.", ["src/CTMModule.cpp:get_table", "src/PyShapeDistribution.hpp:dealloc", "src/PyOrientationDistribution.hpp:PyCustomOrientationDistributionObject", "src/PyDustProperties.hpp:PyCustomDustPropertiesObject", "src/PyAlignmentDistribution.hpp:init", "src/PyTMatrix.hpp:init", "src/PyHelperFunctions.hpp:unpack_numpy_array"])
p("Averages over the shapes of a distribution",
  "A SingleShapeShapeDistribution has one shape and its average is the value of that shape. A DraineHensleyShapeDistribution with a positive cut-off below the largest density (64/135) and a positive number of points is created, its limits enclose the sphere and lie at densities below the cut-off, its shapes lie between the limits and have positive weights, so that an average lies between the smallest and the largest value; and with more points the average tends to the mean over the CDE2 distribution between the limits, for every value that is bounded and continuous up to finitely many jumps. Violated: a larger cut-off gives shapes without weight (a division by zero), a cut-off of zero or less and a fraction of 1.02 or more make the constructor run for ever, and zero points are accepted.",
  "all axis ratios, cut-offs, fractions and numbers of points, all values of a shape", "Convergence and the limits are statements about all real arguments; a constructor that does not end cannot be observed by a test.", ["src/PyShapeDistribution.hpp:init", "src/PyShapeDistribution.hpp:get_limits", "src/SingleShapeShapeDistribution.hpp:SingleShapeShapeDistribution", "src/DraineHensleyShapeDistribution.hpp:DraineHensleyShapeDistribution", "src/ShapeDistribution.hpp:evaluate", "src/ShapeAveragingTask.hpp:execute"])
p("The memory that is accounted for is the memory that is used",
  "Before a table is computed, the memory of all objects is added up for the comparison with the memory limit and for the memory log. Every object that is created later was accounted for exactly once, and the size of every object is that of its elements. Violated for six kinds of objects: the difference is computed exactly for every calculation; the objects always occupy more than is accounted for if absorption is averaged over at least as many directions as there are angles in the table (a result of scattering occupies 2n times its size). The Matrix and Resource objects in vectors are never counted.",
  "all numbers of compositions, sizes, wavelengths, shapes, angles, orders, slots, all combinations of quantities, all sizes of the types", SIZE, ["src/TaskManager.hpp:generate_tasks", "src/TaskManager.hpp:add_memory_allocation", "src/NBasedResources.hpp:get_memory_size", "src/AbsorptionCoefficientTask.hpp:get_memory_size", "src/ScatteringMatrixTask.hpp:get_memory_size", "src/TMatrixResource.hpp:get_memory_size", "src/InteractionResource.hpp:get_memory_size"])
p("Tables are read from text files as they are written there",
  "A table is read from a text file: lines that start with # are comments, every other line is a row of numbers, separated by blanks, and the rows are in the table in the order of the lines. A file that can not be opened is an error. With the data files of the code, for every wavelength in the range of the files the refractive index of silicates is the interpolation between two consecutive lines and has positive real and imaginary part, and that of carbon belongs to the interpolated dielectric function with the free electron term of the grain. Violated: empty lines and comments with blanks in front are rows of zeros; missing numbers and numbers that can not be read are zero; a wavelength outside the range of the file is not refused (above 0.24 m silicates have a negative imaginary part).",
  "all files, all numbers of columns, all ways to write a number, all wavelengths, sizes and temperatures", SIZE, ["src/Table.hpp:from_ascii_file", "src/Table.hpp:get_row", "src/DraineDustProperties.hpp:DraineDustProperties", "src/DraineDustProperties.hpp:get_refractive_index", "data/callindex.out_silD03", "data/callindex.out_CpaD03_0.10", "data/callindex.out_CpeD03_0.10"])
p("The recorded times and thread numbers of the tasks tell the truth",
  "For every task that was executed, the recorded start, the call of the task, the recorded end and the end of the run follow each other in this order. If one task waits for another, its recorded start does not precede the recorded end of the other. The recorded intervals of two tasks that need conflicting resources do not overlap, and neither do those of two tasks with the same recorded thread number, which is the number the task was called with. The recorded durations of the tasks of one thread add up to at most the duration of the run, and so do those of the tasks of any chain of dependencies.",
  "all task graphs, resource trees, numbers of threads, schedules, random choices and durations", SCHED, ["quicksched/qsched.c:qsched_gettask", "quicksched/qsched.c:qsched_done", "quicksched/qsched.c:qsched_run_openmp", "quicksched/task.h:struct task", "src/QuickSchedWrapper.hpp:Task::print"])
p("The log files say what is in the scheduler",
  "Cutting the graph log into lines and fields gives exactly one record per call (two for a resource with a parent), in the order of the calls, with the numbers of tasks and resources the scheduler uses; different sequences of calls have different logs. The locks, uses, unlocks and parents in the prepared scheduler are those of the writelink, readlink, tasklink and child lines, in the same order. The task log has one line per task with its thread, start, end, type and number. The type number of every task stands in exactly one line of the type log, next to the name that the graph log gives for this task.",
  "all sequences of calls, all numbers, all type names without tabs and newlines, all orders of the type dictionary", SIZE, ["src/QuickSchedWrapper.hpp:register_resource", "src/QuickSchedWrapper.hpp:register_task", "src/QuickSchedWrapper.hpp:link_task_and_resource", "src/QuickSchedWrapper.hpp:link_tasks", "src/QuickSchedWrapper.hpp:print_task", "src/QuickSchedWrapper.hpp:print_type_dict", "src/CTMModule.cpp:get_table"])
p("Priorities as they are stored",
  "The stored priority of a task is the largest total cost of a chain of tasks that starts with it, although costs and priorities are stored as 32 bit integers: in the first run, where every task has cost 1, for all graphs with fewer than 2^31 tasks; in a later run, where the cost of a task is its measured duration, if the previous run took less than 2^31 ticks. Violated: a task that takes 2^31 to 2^32 ticks (about a second) has a negative cost, a chain of two tasks of 2^30 ticks gets the lowest possible priority, and the cost that a task announces with get_cost is never used, although it is documented to raise the priority.",
  "all task graphs, costs, schedules and durations", SCHED, ["quicksched/qsched.c:qsched_prepare", "quicksched/qsched.c:qsched_done", "quicksched/task.h:struct task", "src/QuickSchedWrapper.hpp:register_task", "src/QuickSchedWrapper.hpp:Task::get_cost", "src/TMatrixResource.hpp:TMatrixMAllTask::get_cost"])
p("Typed command line values",
  "get_value returns the value that was given for an option on the command line (the last one), or else the default value with which the option was added, in the type of the option, and was_found tells which of both it is; a required option was given with an argument, and there is no value for an option that was not added; the help text puts the options that may be left out between brackets and calls the others required. Violated: real numbers are rounded to six significant digits, also those the user gives; the default value of a flag is ignored; a negative number is not accepted as a separate argument; a text option with an empty default is described as required.",
  "all sets of options, default values and command lines", "there are unlimited many option sets, values and command lines; tests use short decimal numbers that survive the conversions to text", ["src/CommandLineParser.hpp:add_option", "src/CommandLineParser.hpp:add_required_option", "src/CommandLineParser.hpp:get_value", "src/CommandLineParser.hpp:was_found", "src/CommandLineOption.cpp:print_usage", "src/CommandLineOption.cpp:print_description", "src/CommandLineOption.cpp:parse_argument"])
p("The picture of a task graph",
  "The Graphviz file that tools/plot_taskgraph.py makes from the graph log of a run has exactly one arrow for every pair of classes of tasks that wait for each other, and for every class of tasks and class of resources it reads (blue) or writes (red), and for every child and parent (green); no arrow is missing, repeated or invented, the resources that are used are the nodes, and the labels are the names of the classes. Violated: the label of a class whose name has 100 characters or more starts with a digit, and a resource that is only used through its parts is not declared as a node, so that it is shown with the wrong label.",
  "all sequences of registrations and links", "there are unlimited many task graphs, and the picture of a large one is not inspected arrow by arrow", ["tools/plot_taskgraph.py:trim_label", "tools/plot_taskgraph.py", "src/QuickSchedWrapper.hpp:register_task", "src/QuickSchedWrapper.hpp:register_resource", "src/QuickSchedWrapper.hpp:link_tasks", "src/QuickSchedWrapper.hpp:link_task_and_resource"])
p("Random numbers",
  "random_double returns a number between 0 and 1, and random_int(min, max) an integer of at least min and less than max, each with the same probability. Violated: max itself is returned when rand returns RAND_MAX, and because the conversion to an integer cuts towards 0, negative numbers are shifted: random_int(-1, 0) is 0, which is excluded, for all values of rand but one, and random_int(-1, 1) is 0 for all values but two.",
  "all values of rand and RAND_MAX, all bounds, all monotone roundings that keep numbers of 53 bits", "the values of rand for which the bounds are violated are too rare for a test with positive bounds, and the distribution is not visible in single values", ["src/Utilities.hpp:random_double", "src/Utilities.hpp:random_int"])
p("The plot of the tasks of a run",
  "The plot that tools/plot_tasks.py makes from the task log and the type log of a run shows every task once, as a bar of the thread that executed it, from its start to its end, in the colour of its type, and the names in the legend are those of the types. The bars of one thread do not overlap, and the load that is written next to a thread is between 0 and 100 percent. Violated: the script expects four columns, but the log has five, which numpy refuses since version 1.23; the name of a class with 99 characters lacks its last character; more than 20 types share colours.",
  "all logs, and all executions of all task graphs on any number of threads", "the overlap of bars depends on the schedule, and a plot is not inspected bar by bar", ["tools/plot_tasks.py", "src/QuickSchedWrapper.hpp:print", "src/CTMModule.cpp:get_table", "quicksched/qsched.c:qsched_gettask", "quicksched/qsched.c:qsched_done"])
p("Spheres scatter light as in Mie theory",
  "For grains with axis ratio 1 the scattering matrices in a table, and the amplitude matrices that the direct interface gives, are those of Mie theory: for every pair of directions the component of the field perpendicular to the scattering plane is multiplied with the amplitude S1, the one in the scattering plane with S2, which depend on the angle between the directions only; the intensity scattered by a sphere in unpolarised light is half the sum of the squares of both amplitudes, its integral over all directions is the scattering efficiency of Mie theory times the area of the disc, and turning a sphere changes nothing.",
  "all sizes, wavelengths, refractive indices of materials that do not amplify, orders, pairs of directions, polarisations, angles of orientation, alignments, schedules, numbers of threads and memory limits", "the statement is about all pairs of directions and all sizes; tests compare a few angles with a reference code", ["src/ScatteringMatrixTask.hpp:ScatteringMatrixTask", "src/AbsorptionCoefficientTask.hpp:AbsorptionCoefficientTask", "src/TMatrix.hpp:get_forward_scattering_matrix", "src/TMatrixResource.hpp:TMatrixM0Task", "src/ScatteringMatrixResource.hpp:ScatteringMatrixResource"])
p("Small spheres are dipoles",
  "For grains with axis ratio 1 that are small compared with the wavelength: for every refractive index (apart from the resonances), every largest order and every tolerance there is a size parameter below which every table holds, up to the tolerance, the values of an electric dipole with the Clausius-Mossotti polarisability. The extinction efficiency is 4 x Im((m^2-1)/(m^2+2)), without polarisation; the scattering efficiency 8/3 x^4 |(m^2-1)/(m^2+2)|^2, so that extinction is absorption; and the intensity scattered by an angle with cosine mu is proportional to 1 + mu^2, for all directions of the table.",
  "all refractive indices of materials that do not amplify except for values of m^2 below -1, all largest orders, tolerances, parameters of the calculation, directions, schedules, numbers of threads and memory limits", "a limit: it is about all sizes below a bound; tests compare single sizes", ["src/TMatrixResource.hpp:TMatrixM0Task", "src/TMatrixResource.hpp:TMatrixMAllTask", "src/ExtinctionCoefficientTask.hpp:ExtinctionCoefficientTask", "src/ScatteringMatrixTask.hpp:ScatteringMatrixTask", "src/AbsorptionCoefficientTask.hpp:AbsorptionCoefficientTask", "src/SpecialFunctions.hpp:spherical_j_jdj_array"])
p("The order that is used is large enough",
  "For spherical grains the series of Mie theory converge, and the efficiencies of the table tend to the infinite series when more orders are allowed: for every refractive index, size parameter and required accuracy there are a tolerance and a largest order, such that every calculation with a smaller tolerance and a larger largest order returns the extinction efficiency of Mie theory, for all orders, to that accuracy, without polarisation. For a given tolerance the calculation stops at an order that does not grow with the largest order that is allowed (unless m^2 = 1, or m^2 = -1): beyond some order the criterion of convergence is always met, although it is relative and requires a non-zero difference.",
  "all refractive indices with m^2 not -1, size parameters, required accuracies, tolerances below and largest orders above the bounds, parameters of the calculation, schedules, numbers of threads and memory limits", "a limit: it is about all orders above a bound; tests compare single sizes with a reference that is itself truncated", ["src/TMatrixResource.hpp:TMatrixM0Task", "src/TMatrixResource.hpp:TMatrixQTask", "src/ExtinctionCoefficientTask.hpp:ExtinctionCoefficientTask", "src/TaskManager.hpp:TaskManager::generate_tasks", "src/SpecialFunctions.hpp:spherical_j_jdj_array", "src/SpecialFunctions.hpp:spherical_y_ydy_array"])
p("The scattered light tends to that of Mie theory",
  "For spherical grains the amplitudes and the intensity of the scattered light tend to those of the infinite series of Mie theory when more orders are allowed, for all directions alike: for every refractive index, size parameter and required accuracy there are a tolerance and a largest order, such that in every calculation with a smaller tolerance and a larger largest order the first elements of all scattering matrices of the table (the intensities for unpolarised light) are within that accuracy of Mie theory, for the whole grid of outgoing directions, whatever its size; and the value to which the absorption coefficients tend when the grid of directions is refined is within that accuracy of the absorption efficiency of Mie theory. In the limit the scattering efficiency is not larger than the extinction efficiency, and equal to it for grains that do not absorb.",
  "all refractive indices with m^2 not -1, size parameters, required accuracies, tolerances below and largest orders above the bounds, sizes of the grid of directions, parameters of the calculation, schedules, numbers of threads and memory limits", "a uniform limit: it is about all orders above a bound and all directions", ["src/TMatrixResource.hpp:TMatrixM0Task", "src/TMatrixResource.hpp:TMatrixMAllTask", "src/ScatteringMatrixTask.hpp:ScatteringMatrixTask", "src/ScatteringMatrixTask.hpp:ScatteringMatrixGrid", "src/SpecialFunctions.hpp:wigner_dn_0m_sinx"])
p("Only the ratio of size and wavelength matters",
  "When all grain sizes and all wavelengths of a table are multiplied with the same positive factor, and the refractive indices, shapes and alignments stay the same, the T-matrices and the order that is used stay the same; the extinction and absorption efficiencies in the table, with their polarisation, are the same, and all elements of all scattering matrices are multiplied with the square of the factor. This holds for the results of any two runs of the two calculations, whatever their schedules, numbers of threads and queues, and reserved memory.",
  "all grains (sizes, shapes, compositions, alignments), factors, parameters of the calculation, directions, pairs of schedules, numbers of threads and memory limits", "it relates two executions for all inputs and factors; a test compares a few of them", ["src/TMatrixResource.hpp:TMatrixM0Task", "src/TMatrixResource.hpp:TMatrixMAllTask", "src/InteractionResource.hpp:InteractionResource", "src/InteractionResource.hpp:InteractionTask", "src/ExtinctionCoefficientTask.hpp:ExtinctionCoefficientTask", "src/AbsorptionCoefficientTask.hpp:AbsorptionCoefficientTask", "src/ScatteringMatrixTask.hpp:ScatteringMatrixTask"])
p("Tables have the mirror symmetry of the grains",
  "The grains look the same upside down, and so do the tables: the extinction and absorption efficiencies for two polar angles that add up to half a turn are the same, with their linear and circular polarisation, and the scattering matrix for the outgoing direction that is mirrored in the plane perpendicular to the axis is the same except that the elements which couple the first two Stokes parameters to the last two have the opposite sign (the light comes in in this plane). This holds for all grains and alignments, for the result of every schedule; for absorption coefficients and scattering matrices the quadrature points have to be symmetric, as those of a Gauss-Legendre rule are (C32).",
  "all grains (sizes, shapes, compositions, alignments), wavelengths, pairs of directions, schedules, numbers of threads and memory limits", "it relates entries of a table for all inputs; a test compares a few of them", ["src/TMatrixResource.hpp:TMatrixMAllTask", "src/TMatrixResource.hpp:TMatrixResource", "src/AlignmentAverageTask.hpp:AlignmentAverageTask", "src/ExtinctionCoefficientTask.hpp:ExtinctionCoefficientTask", "src/AbsorptionCoefficientTask.hpp:AbsorptionCoefficientTask", "src/ScatteringMatrixTask.hpp:ScatteringMatrixTask"])
p("Light is scattered to the left as it is to the right",
  "In a table the scattering matrices for two outgoing directions with the same polar angle and with azimuths that add up to a full turn (mirror images in the plane of the axis and the incoming light) are the same, except that the elements which couple the first two Stokes parameters to the last two have the opposite sign. This holds for all grains and alignments, for the result of every schedule; the azimuths of a symmetric quadrature rule come in such pairs.",
  "all grains (sizes, shapes, compositions, alignments), wavelengths, pairs of directions, schedules, numbers of threads and memory limits", "it relates entries of a table for all inputs; a test compares a few of them", ["src/TMatrixResource.hpp:TMatrixM0Task", "src/TMatrixResource.hpp:TMatrixMAllTask", "src/AlignmentAverageTask.hpp:AlignmentAverageTask", "src/ScatteringMatrixTask.hpp:ScatteringMatrixTask", "src/ShapeAveragingTask.hpp"])
p("Light along the axis is extinguished the same for all polarisations",
  "For light that comes along the axis of the grains, from either side, the linear and the circular polarisation of the extinction in a table are zero, and so is the linear polarisation of the absorption when the table is made without accounting for scattering. This holds for all grains and alignments, for the result of every schedule.",
  "all grains (sizes, shapes, compositions, alignments), wavelengths, schedules, numbers of threads and memory limits", "it is a property of the entries of a table for all inputs; a test looks at a few of them", ["src/ExtinctionCoefficientTask.hpp:ExtinctionCoefficientTask", "src/AbsorptionCoefficientTask.hpp:AbsorptionCoefficientTask", "src/ShapeAveragingTask.hpp"])
p("Absorption is at most extinction",
  "In a table with extinction and absorption coefficients of the same grains, the absorption efficiency is at most the extinction efficiency, for unpolarised light and for light that is polarised along one of the two reference directions (the polarisation of the difference is at most the difference), whatever the numbers of quadrature points; when scattering is not accounted for the two are the same. This holds for all grains and alignments, for the result of every schedule; the weights of the shapes and of the quadrature rule must not be negative.",
  "all grains (sizes, shapes, compositions, alignments), wavelengths, directions, numbers of quadrature points, schedules, numbers of threads and memory limits", "it relates two entries of a table for all inputs; a test compares a few of them", ["src/ExtinctionCoefficientTask.hpp:ExtinctionCoefficientTask", "src/AbsorptionCoefficientTask.hpp:AbsorptionCoefficientTask", "src/ShapeAveragingTask.hpp"])
out = os.path.join(os.path.dirname(os.path.abspath(__file__)), "..", "properties.jsonl")
with open(out, "w") as f:
    for x in P: f.write(json.dumps(x) + "\n")
print(len(P))
